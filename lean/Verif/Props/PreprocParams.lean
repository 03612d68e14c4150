import Verif.Model.PreprocParams

/-!
# C149: the parameters of the preprocessing tools
-/

namespace Verif
open Verif.PreprocParams
open Verif.PreprocTools (Err)

/-! ## Specification -/

/-- The functions of a backend have default values for all arguments, and no argument called `enable`; no tool is given twice. -/
def GoodBackend {ι : Type} (funcs : String → Option (Func ι)) (all : List String) : Prop :=
  all.Nodup ∧ ∀ t ∈ all, ∃ f, funcs t = some f ∧ (f.args.map Prod.fst).Nodup ∧ "enable" ∉ f.args.map Prod.fst ∧
    ∀ a d, (a, d) ∈ f.args → d ≠ none

/-- The last value given to a parameter of the `i`th object. -/
def lastSet (i : ℕ) (tool arg : String) (h : List Op) : Option Val :=
  (h.filterMap fun op => match op with
    | .set j t a v => if j = i ∧ t = tool ∧ a = arg then some v else none
    | _ => none).getLast?

/-- The last sequence given to the `i`th object. -/
def lastSequence (i : ℕ) (h : List Op) : Option (Option (List String)) :=
  (h.filterMap fun op => match op with
    | .setSequence j s => if j = i then some s else none
    | _ => none).getLast?

/-- The last list of available tools assigned to the `i`th object. -/
def lastAvailable (i : ℕ) (h : List Op) : Option (List String) :=
  (h.filterMap fun op => match op with
    | .setAvailable j s => if j = i then some s else none
    | _ => none).getLast?

/-- The tools which are asked, in their order. -/
def askedTools (all : List String) (i : ℕ) (h : List Op) : List String :=
  match lastSequence i h with
  | some (some s) => s
  | _ => (lastAvailable i h).getD all

/-- The tool has been enabled: the last value given to `enable` is not one of the values which are false in Python. -/
def askedEnabled (i : ℕ) (h : List Op) (tool : String) : Bool :=
  decide ((lastSet i tool "enable" h).getD (.bool false) ∉ [.none, .bool false, .int 0, .rat 0, .str ""])

theorem truthy_spec (v : Val) : v.truthy = decide (v ∉ [.none, .bool false, .int 0, .rat 0, .str ""]) := by
  cases v with
  | none => simp [Val.truthy]
  | bool b => cases b <;> simp [Val.truthy]
  | int z => by_cases h : z = 0 <;> simp [Val.truthy, h]
  | rat q => by_cases h : q = 0 <;> simp [Val.truthy, h]
  | str s => by_cases h : s = "" <;> simp [Val.truthy, h]
  | pair a b => simp [Val.truthy]

/-- The arguments of a function, without the image. -/
def argNames {ι : Type} (f : Func ι) : List String := (f.args.map Prod.fst).filter fun a => a != "img"

/-- The default value of an argument. -/
def defaultOf {ι : Type} (f : Func ι) (a : String) : Val := ((f.args.find? fun kv => kv.1 == a).bind Prod.snd).getD .none

/-- The values of the arguments: the last values given by the user, or the default values of the function. -/
def askedArgs {ι : Type} (i : ℕ) (h : List Op) (tool : String) (f : Func ι) : Dict String Val :=
  (argNames f).map fun a => (a, (lastSet i tool a h).getD (defaultOf f a))

/-- The list `available_tools` is never modified in place. -/
def NoEdit (h : List Op) : Prop := ∀ i l, Op.editAvailable i l ∉ h

/-- Number of objects created. -/
def created (h : List Op) : ℕ := h.countP fun op => match op with
  | .create => true
  | _ => false

/-! ## Dictionaries given by their keys -/

/-- The dictionary with these keys and values. -/
def dictOf (K : List String) (g : String → Val) : Dict String Val := K.map fun k => (k, g k)

theorem dictOf_get (K : List String) (g : String → Val) (k : String) : Dict.get? (dictOf K g) k = if k ∈ K then some (g k) else none := by
  induction K with
  | nil => rfl
  | cons a K ih =>
    by_cases h : a = k
    · subst h; simp [dictOf, Dict.get?]
    · have hne : ¬ k = a := fun e => h e.symm
      have ih' : Dict.get? (K.map fun k => (k, g k)) k = if k ∈ K then some (g k) else none := ih
      simp [dictOf, Dict.get?, h, hne, ih']

theorem dictOf_congr (K : List String) (g g' : String → Val) (h : ∀ k ∈ K, g k = g' k) : dictOf K g = dictOf K g' := by
  unfold dictOf
  exact List.map_congr_left fun k hk => by rw [h k hk]

theorem dictOf_set (K : List String) (hK : K.Nodup) (g : String → Val) (a : String) (v : Val) (ha : a ∈ K) :
    Dict.set (dictOf K g) a v = dictOf K fun k => if k = a then v else g k := by
  induction K with
  | nil => cases ha
  | cons b K ih =>
    have hn := List.nodup_cons.1 hK
    by_cases h : b = a
    · subst h
      show Dict.set ((b, g b) :: dictOf K g) b v = (b, if b = b then v else g b) :: dictOf K _
      rw [Dict.set, if_pos rfl, if_pos rfl]
      congr 1
      apply dictOf_congr
      intro k hk
      rw [if_neg]
      rintro rfl
      exact hn.1 hk
    · have ha' : a ∈ K := by
        rcases List.mem_cons.1 ha with e | e
        · exact absurd e.symm h
        · exact e
      show Dict.set ((b, g b) :: dictOf K g) a v = (b, if b = a then v else g b) :: dictOf K _
      rw [Dict.set, if_neg h, if_neg h, ih hn.2 ha']

theorem dictOf_set_new (K : List String) (g : String → Val) (a : String) (ha : a ∉ K) :
    Dict.set (dictOf K g) a (g a) = dictOf (K ++ [a]) g := by
  induction K with
  | nil => rfl
  | cons b K ih =>
    have h : ¬ b = a := by rintro rfl; exact ha List.mem_cons_self
    show Dict.set ((b, g b) :: dictOf K g) a (g a) = (b, g b) :: dictOf (K ++ [a]) g
    rw [Dict.set, if_neg h, ih fun hk => ha (List.mem_cons_of_mem _ hk)]

theorem dictOf_erase (K : List String) (hK : K.Nodup) (g : String → Val) (a : String) :
    Dict.erase (dictOf K g) a = dictOf (K.filter fun k => k != a) g := by
  induction K with
  | nil => rfl
  | cons b K ih =>
    have hn := List.nodup_cons.1 hK
    show Dict.erase ((b, g b) :: dictOf K g) a = _
    by_cases h : b = a
    · subst h
      rw [Dict.erase, if_pos rfl]
      have : (b :: K).filter (fun k => k != b) = K := by
        rw [List.filter_cons_of_neg (by simp)]
        rw [List.filter_eq_self]
        intro k hk
        simp only [bne_iff_ne, ne_eq]
        rintro rfl
        exact hn.1 hk
      rw [this]
    · rw [Dict.erase, if_neg h, ih hn.2, List.filter_cons_of_pos (by simp [h])]
      rfl

/-! ## The default parameters -/

theorem find_arg {l : Dict String (Option Val)} (hn : (l.map Prod.fst).Nodup) {a : String} {d : Option Val} (h : (a, d) ∈ l) :
    l.find? (fun kv => kv.1 == a) = some (a, d) := by
  induction l with
  | nil => cases h
  | cons kv l ih =>
    rw [List.map_cons, List.nodup_cons] at hn
    rcases List.mem_cons.1 h with e | e
    · subst e; simp
    · have : ¬ kv.1 = a := by
        rintro rfl
        exact hn.1 (List.mem_map.2 ⟨_, e, rfl⟩)
      rw [List.find?_cons_of_neg (by simpa using this)]
      exact ih hn.2 e

theorem callArgs_ok : ∀ {l : Dict String (Option Val)}, (∀ a d, (a, d) ∈ l → d ≠ none) →
    callArgs l = .ok (l.map fun kv => (kv.1, kv.2.getD .none))
  | [], _ => rfl
  | (a, none) :: _, h => absurd rfl (h a none List.mem_cons_self)
  | (a, some v) :: l, h => by
    rw [callArgs, callArgs_ok fun b d hb => h b d (List.mem_cons_of_mem _ hb)]
    rfl

theorem callArgs_dictOf {ι : Type} (f : Func ι) (hn : (f.args.map Prod.fst).Nodup) (hd : ∀ a d, (a, d) ∈ f.args → d ≠ none) :
    callArgs f.args = .ok (dictOf (f.args.map Prod.fst) (defaultOf f)) := by
  rw [callArgs_ok hd]
  unfold dictOf
  rw [List.map_map]
  congr 1
  apply List.map_congr_left
  rintro ⟨a, d⟩ hkv
  simp only [Function.comp, Prod.mk.injEq, true_and]
  unfold defaultOf
  rw [find_arg hn hkv]
  rfl

/-- The parameters of one tool. -/
def childOf {ι : Type} (i : ℕ) (h : List Op) (tool : String) (f : Func ι) : Dict String Val :=
  dictOf (argNames f ++ ["enable"]) fun a => (lastSet i tool a h).getD (if a = "enable" then .bool false else defaultOf f a)

theorem argNames_nodup {ι : Type} (f : Func ι) (hn : (f.args.map Prod.fst).Nodup) (he : "enable" ∉ f.args.map Prod.fst) :
    (argNames f ++ ["enable"]).Nodup ∧ "enable" ∉ argNames f := by
  have h1 : "enable" ∉ argNames f := fun h => he (List.mem_filter.1 h).1
  refine ⟨?_, h1⟩
  rw [List.nodup_append]
  refine ⟨hn.filter _, by simp, ?_⟩
  intro a ha b hb
  rw [List.mem_singleton] at hb
  subst hb
  rintro rfl
  exact h1 ha

theorem createChildren_ok {ι : Type} (funcs : String → Option (Func ι)) (i : ℕ) : ∀ all : List String, GoodBackend funcs all →
    ∃ ch, createChildren funcs all = .ok ch ∧ (∀ t, t ∉ all → Dict.get? ch t = none) ∧
      ∀ t ∈ all, ∃ f, funcs t = some f ∧ Dict.get? ch t = some (childOf i [] t f)
  | [], _ => ⟨[], rfl, fun _ _ => rfl, fun _ h => by cases h⟩
  | t :: all, hg => by
    obtain ⟨f, hf, hn, he, hd⟩ := hg.2 t List.mem_cons_self
    obtain ⟨ch, hch, hno, hyes⟩ := createChildren_ok funcs i all ⟨(List.nodup_cons.1 hg.1).2, fun t ht => hg.2 t (List.mem_cons_of_mem _ ht)⟩
    have hchild : Dict.set (Dict.erase (dictOf (f.args.map Prod.fst) (defaultOf f)) "img") "enable" (.bool false) = childOf i [] t f := by
      rw [dictOf_erase _ hn]
      have hne := (argNames_nodup f hn he).2
      have e1 : dictOf (argNames f) (defaultOf f) = dictOf (argNames f) (fun a => if a = "enable" then .bool false else defaultOf f a) := by
        apply dictOf_congr
        intro k hk
        rw [if_neg]
        rintro rfl
        exact hne hk
      show Dict.set (dictOf (argNames f) (defaultOf f)) "enable" (.bool false) = _
      rw [e1]
      have := dictOf_set_new (argNames f) (fun a => if a = "enable" then .bool false else defaultOf f a) "enable" hne
      simp only [if_true] at this
      rw [this]
      rfl
    refine ⟨(t, childOf i [] t f) :: ch, ?_, ?_, ?_⟩
    · rw [createChildren, hf]
      simp only [callArgs_dictOf f hn hd, hch, hchild]
    · intro t' ht'
      rw [Dict.get?, if_neg (by rintro rfl; exact ht' List.mem_cons_self), hno t' fun h => ht' (List.mem_cons_of_mem _ h)]
    · intro t' ht'
      by_cases e : t = t'
      · subst e
        exact ⟨f, hf, by rw [Dict.get?, if_pos rfl]⟩
      · rcases List.mem_cons.1 ht' with h | h
        · exact absurd h.symm e
        · obtain ⟨f', hf', hg'⟩ := hyes t' h
          exact ⟨f', hf', by rw [Dict.get?, if_neg e, hg']⟩

/-! ## Histories -/

/-- The `i`th object after the operations `h`. -/
structure ParamsInv {ι : Type} (funcs : String → Option (Func ι)) (all : List String) (i : ℕ) (h : List Op) (p : Params) : Prop where
  available : p.available = lastAvailable i h
  sequence : p.sequence = (lastSequence i h).getD none
  absent : ∀ t, t ∉ all → Dict.get? p.children t = none
  child : ∀ t ∈ all, ∃ f, funcs t = some f ∧ Dict.get? p.children t = some (childOf i h t f)

theorem dict_get_set (d : Dict String (Dict String Val)) (k k' : String) (v : Dict String Val) :
    Dict.get? (Dict.set d k v) k' = if k = k' then some v else Dict.get? d k' := by
  induction d with
  | nil => simp [Dict.set, Dict.get?]
  | cons kv d ih =>
    obtain ⟨a, w⟩ := kv
    unfold Dict.set
    by_cases h : a = k
    · subst h
      rw [if_pos rfl, Dict.get?, Dict.get?]
      split_ifs <;> rfl
    · rw [if_neg h, Dict.get?, ih, Dict.get?]
      by_cases h' : a = k'
      · subst h'
        have hk : ¬ k = a := fun e => h e.symm
        rw [if_pos rfl, if_neg hk, if_pos rfl]
      · rw [if_neg h', if_neg h']

theorem lastSet_append (i : ℕ) (tool arg : String) (h : List Op) (j : ℕ) (t a : String) (v : Val) :
    lastSet i tool arg (h ++ [.set j t a v]) = if j = i ∧ t = tool ∧ a = arg then some v else lastSet i tool arg h := by
  unfold lastSet
  rw [List.filterMap_append]
  by_cases hc : j = i ∧ t = tool ∧ a = arg
  · simp [List.filterMap_cons, hc]
  · simp [List.filterMap_cons, hc]

theorem set_inv {ι : Type} {funcs : String → Option (Func ι)} {all : List String} (hg : GoodBackend funcs all) {i : ℕ} {h : List Op}
    {p : Params} (hp : ParamsInv funcs all i h p) (tool arg : String) (v : Val) :
    ParamsInv funcs all i (h ++ [.set i tool arg v]) (p.set tool arg v).1 := by
  have hav : lastAvailable i (h ++ [.set i tool arg v]) = lastAvailable i h := by
    unfold lastAvailable; rw [List.filterMap_append]; simp [List.filterMap_cons]
  have hse : lastSequence i (h ++ [.set i tool arg v]) = lastSequence i h := by
    unfold lastSequence; rw [List.filterMap_append]; simp [List.filterMap_cons]
  have hch : ∀ t f, t ≠ tool → childOf (ι := ι) i (h ++ [.set i tool arg v]) t f = childOf i h t f := by
    intro t f ht
    apply dictOf_congr
    intro k _
    have hl := lastSet_append i t k h i tool arg v
    rw [if_neg (by rintro ⟨_, e, _⟩; exact ht e.symm)] at hl
    rw [hl]
  by_cases ht : tool ∈ all
  · obtain ⟨f, hf, hc⟩ := hp.child tool ht
    obtain ⟨f', hf', hn, he, hd⟩ := hg.2 tool ht
    rw [hf] at hf'; cases hf'
    obtain ⟨hK, _⟩ := argNames_nodup f hn he
    by_cases ha : arg ∈ argNames f ++ ["enable"]
    · have hget : Dict.get? (childOf i h tool f) arg = some ((lastSet i tool arg h).getD (if arg = "enable" then .bool false else defaultOf f arg)) := by
        unfold childOf; rw [dictOf_get, if_pos ha]
      have e : p.set tool arg v = ({ p with children := Dict.set p.children tool (Dict.set (childOf i h tool f) arg v) }, none) := by
        unfold Params.set
        simp only [hc, hget]
      have e2 : Dict.set (childOf i h tool f) arg v = childOf i (h ++ [.set i tool arg v]) tool f := by
        unfold childOf
        rw [dictOf_set _ hK _ _ _ ha]
        apply dictOf_congr
        intro k _
        have hl := lastSet_append i tool k h i tool arg v
        by_cases hk : k = arg
        · rw [if_pos ⟨rfl, rfl, hk.symm⟩] at hl
          rw [if_pos hk, hl]
          rfl
        · rw [if_neg (by rintro ⟨_, _, e⟩; exact hk e.symm)] at hl
          rw [if_neg hk, hl]
      rw [e, e2]
      refine ⟨by rw [hav]; exact hp.available, by rw [hse]; exact hp.sequence, ?_, ?_⟩
      · intro t' ht'
        show Dict.get? (Dict.set p.children tool _) t' = none
        rw [dict_get_set, if_neg (by rintro rfl; exact ht' ht)]
        exact hp.absent t' ht'
      · intro t' ht'
        by_cases e3 : tool = t'
        · subst e3
          refine ⟨f, hf, ?_⟩
          show Dict.get? (Dict.set p.children tool _) tool = _
          rw [dict_get_set, if_pos rfl]
        · obtain ⟨f', hf', hc'⟩ := hp.child t' ht'
          refine ⟨f', hf', ?_⟩
          show Dict.get? (Dict.set p.children tool _) t' = _
          rw [dict_get_set, if_neg e3, hch t' f' fun e => e3 e.symm]
          exact hc'
    · have hget : Dict.get? (childOf i h tool f) arg = none := by
        unfold childOf; rw [dictOf_get, if_neg ha]
      have e : (p.set tool arg v).1 = p := by
        unfold Params.set
        simp only [hc, hget]
      rw [e]
      refine ⟨by rw [hav]; exact hp.available, by rw [hse]; exact hp.sequence, hp.absent, ?_⟩
      intro t' ht'
      obtain ⟨f', hf', hc'⟩ := hp.child t' ht'
      refine ⟨f', hf', ?_⟩
      by_cases e3 : t' = tool
      · subst e3
        rw [hf] at hf'; cases hf'
        rw [hc]
        congr 1
        apply dictOf_congr
        intro k hk
        have hl := lastSet_append i t' k h i t' arg v
        rw [if_neg (by rintro ⟨_, _, rfl⟩; exact ha hk)] at hl
        rw [hl]
      · rw [hch t' f' e3]; exact hc'
  · have e : (p.set tool arg v).1 = p := by
      unfold Params.set
      simp only [hp.absent tool ht]
    rw [e]
    refine ⟨by rw [hav]; exact hp.available, by rw [hse]; exact hp.sequence, hp.absent, ?_⟩
    intro t' ht'
    obtain ⟨f', hf', hc'⟩ := hp.child t' ht'
    refine ⟨f', hf', ?_⟩
    rw [hch t' f' (by rintro rfl; exact ht ht')]
    exact hc'

/-- Operations which do not concern the `i`th object. -/
theorem other_inv {ι : Type} {funcs : String → Option (Func ι)} {all : List String} {i : ℕ} {h : List Op} {p : Params}
    (hp : ParamsInv funcs all i h p) (op : Op)
    (h1 : ∀ j t a v, op = .set j t a v → j ≠ i) (h2 : ∀ j s, op = .setSequence j s → j ≠ i) (h3 : ∀ j s, op = .setAvailable j s → j ≠ i) :
    ParamsInv funcs all i (h ++ [op]) p := by
  have hav : lastAvailable i (h ++ [op]) = lastAvailable i h := by
    unfold lastAvailable; rw [List.filterMap_append]
    cases op <;> simp_all [List.filterMap_cons]
  have hse : lastSequence i (h ++ [op]) = lastSequence i h := by
    unfold lastSequence; rw [List.filterMap_append]
    cases op <;> simp_all [List.filterMap_cons]
  have hls : ∀ t a, lastSet i t a (h ++ [op]) = lastSet i t a h := by
    intro t a
    unfold lastSet; rw [List.filterMap_append]
    cases op <;> simp_all [List.filterMap_cons]
  refine ⟨by rw [hav]; exact hp.available, by rw [hse]; exact hp.sequence, hp.absent, ?_⟩
  intro t ht
  obtain ⟨f, hf, hc⟩ := hp.child t ht
  refine ⟨f, hf, ?_⟩
  rw [hc]
  congr 1
  apply dictOf_congr
  intro k _
  rw [hls]

theorem createDefault_inv {ι : Type} {funcs : String → Option (Func ι)} {all : List String} (hg : GoodBackend funcs all) (i : ℕ) :
    ∃ p, createDefault funcs all = .ok p ∧ ParamsInv funcs all i [] p := by
  obtain ⟨ch, hch, h1, h2⟩ := createChildren_ok funcs i all hg
  refine ⟨⟨none, none, ch⟩, ?_, rfl, rfl, h1, h2⟩
  unfold createDefault
  rw [hch]

/-- One operation on the `i`th object or on another one. -/
theorem step_inv {ι : Type} {funcs : String → Option (Func ι)} {all : List String} (hg : GoodBackend funcs all) {i : ℕ} {h : List Op}
    {w : World} (hw : w.all = all) {p : Params} (hi : w.objs[i]? = some p) (hp : ParamsInv funcs all i h p) (op : Op)
    (hop : ∀ j l, op ≠ .editAvailable j l) : (step funcs w op).1.all = all ∧ ∃ p', (step funcs w op).1.objs[i]? = some p' ∧
      ParamsInv funcs all i (h ++ [op]) p' := by
  have hlt : i < w.objs.length := by
    by_contra hc
    rw [List.getElem?_eq_none (by omega)] at hi
    cases hi
  cases op with
  | create =>
    obtain ⟨q, hq, _⟩ := createDefault_inv hg i
    have e : step funcs w .create = ({ w with objs := w.objs ++ [q] }, none) := by
      unfold step; rw [hw, hq]
    rw [e]
    refine ⟨hw, p, ?_, other_inv hp _ (by simp) (by simp) (by simp)⟩
    show (w.objs ++ [q])[i]? = some p
    rw [List.getElem?_append_left hlt, hi]
  | set j t a v =>
    by_cases hj : j = i
    · subst hj
      have e : step funcs w (.set j t a v) = ({ w with objs := w.objs.set j (p.set t a v).1 }, (p.set t a v).2) := by
        unfold step; simp only [hi]
      rw [e]
      refine ⟨hw, _, ?_, set_inv hg hp t a v⟩
      show (w.objs.set j _)[j]? = _
      rw [List.getElem?_set_self hlt]
    · refine ⟨?_, p, ?_, other_inv hp _ (by rintro _ _ _ _ e; cases e; exact hj) (by simp) (by simp)⟩
      · cases hq : w.objs[j]? <;> simp [step, hq, hw]
      · cases hq : w.objs[j]? with
        | none => simp [step, hq, hi]
        | some q => simp [step, hq, List.getElem?_set_ne hj, hi]
  | setSequence j s =>
    by_cases hj : j = i
    · subst hj
      have e : step funcs w (.setSequence j s) = ({ w with objs := w.objs.set j { p with sequence := s } }, none) := by
        unfold step; simp only [hi]
      rw [e]
      refine ⟨hw, { p with sequence := s }, ?_, ?_⟩
      · show (w.objs.set j _)[j]? = _
        rw [List.getElem?_set_self hlt]
      · refine ⟨?_, ?_, hp.absent, ?_⟩
        · show p.available = _
          rw [hp.available]
          unfold lastAvailable; rw [List.filterMap_append]; simp [List.filterMap_cons]
        · show s = _
          unfold lastSequence; rw [List.filterMap_append]; simp [List.filterMap_cons]
        · intro t ht
          obtain ⟨f, hf, hc⟩ := hp.child t ht
          refine ⟨f, hf, ?_⟩
          show Dict.get? p.children t = _
          rw [hc]
          congr 1
          apply dictOf_congr
          intro k _
          have : lastSet j t k (h ++ [.setSequence j s]) = lastSet j t k h := by
            unfold lastSet; rw [List.filterMap_append]; simp [List.filterMap_cons]
          rw [this]
    · refine ⟨?_, p, ?_, other_inv hp _ (by simp) (by rintro _ _ e; cases e; exact hj) (by simp)⟩
      · cases hq : w.objs[j]? <;> simp [step, hq, hw]
      · cases hq : w.objs[j]? with
        | none => simp [step, hq, hi]
        | some q => simp [step, hq, List.getElem?_set_ne hj, hi]
  | setAvailable j s =>
    by_cases hj : j = i
    · subst hj
      have e : step funcs w (.setAvailable j s) = ({ w with objs := w.objs.set j { p with available := some s } }, none) := by
        unfold step; simp only [hi]
      rw [e]
      refine ⟨hw, { p with available := some s }, ?_, ?_⟩
      · show (w.objs.set j _)[j]? = _
        rw [List.getElem?_set_self hlt]
      · refine ⟨?_, ?_, hp.absent, ?_⟩
        · show some s = _
          unfold lastAvailable; rw [List.filterMap_append]; simp [List.filterMap_cons]
        · show p.sequence = _
          rw [hp.sequence]
          unfold lastSequence; rw [List.filterMap_append]; simp [List.filterMap_cons]
        · intro t ht
          obtain ⟨f, hf, hc⟩ := hp.child t ht
          refine ⟨f, hf, ?_⟩
          show Dict.get? p.children t = _
          rw [hc]
          congr 1
          apply dictOf_congr
          intro k _
          have : lastSet j t k (h ++ [.setAvailable j s]) = lastSet j t k h := by
            unfold lastSet; rw [List.filterMap_append]; simp [List.filterMap_cons]
          rw [this]
    · refine ⟨?_, p, ?_, other_inv hp _ (by simp) (by simp) (by rintro _ _ e; cases e; exact hj)⟩
      · cases hq : w.objs[j]? <;> simp [step, hq, hw]
      · cases hq : w.objs[j]? with
        | none => simp [step, hq, hi]
        | some q => simp [step, hq, List.getElem?_set_ne hj, hi]
  | editAvailable j l => exact absurd rfl (hop j l)

theorem paramsRun_append {ι : Type} (funcs : String → Option (Func ι)) (w : World) (h h' : List Op) :
    run funcs w (h ++ h') = run funcs (run funcs w h) h' := by
  unfold run; rw [List.foldl_append]

/-- The objects of a history without edition of the list. -/
theorem run_first {ι : Type} {funcs : String → Option (Func ι)} {all : List String} (hg : GoodBackend funcs all) :
    ∀ (h : List Op), NoEdit h → ∀ w : World, w.all = all → (run funcs w h).all = all ∧ (run funcs w h).objs.length = w.objs.length + created h
  | [], _, w, hw => ⟨hw, rfl⟩
  | op :: h, hne, w, hw => by
    have hne' : NoEdit h := fun j l hm => hne j l (List.mem_cons_of_mem _ hm)
    have key : (step funcs w op).1.all = all ∧ (step funcs w op).1.objs.length = w.objs.length + created [op] := by
      cases op with
      | create =>
        obtain ⟨q, hq, _⟩ := createDefault_inv hg 0
        subst hw
        simp [step, hq, created]
      | set j t a v => cases hq : w.objs[j]? <;> simp [step, hq, hw, created]
      | setSequence j s => cases hq : w.objs[j]? <;> simp [step, hq, hw, created]
      | setAvailable j s => cases hq : w.objs[j]? <;> simp [step, hq, hw, created]
      | editAvailable j l => exact absurd List.mem_cons_self (hne j l)
    obtain ⟨h1, h2⟩ := run_first hg h hne' (step funcs w op).1 key.1
    refine ⟨h1, ?_⟩
    show (run funcs (step funcs w op).1 h).objs.length = _
    rw [h2, key.2]
    unfold created
    rw [show op :: h = [op] ++ h from rfl, List.countP_append]
    omega

theorem run_inv {ι : Type} {funcs : String → Option (Func ι)} {all : List String} (hg : GoodBackend funcs all) (h1 h2 : List Op)
    (hn1 : NoEdit h1) (hn2 : NoEdit h2) : (run funcs ⟨all, []⟩ (h1 ++ .create :: h2)).all = all ∧
      ∃ p, (run funcs ⟨all, []⟩ (h1 ++ .create :: h2)).objs[created h1]? = some p ∧ ParamsInv funcs all (created h1) h2 p := by
  obtain ⟨ha, hl⟩ := run_first hg h1 hn1 ⟨all, []⟩ rfl
  have hl' : (run funcs ⟨all, []⟩ h1).objs.length = created h1 := by rw [hl]; simp
  induction h2 using List.reverseRecOn with
  | nil =>
    obtain ⟨q, hq, hinv⟩ := createDefault_inv hg (created h1)
    have e : run funcs ⟨all, []⟩ (h1 ++ [.create]) = { (run funcs ⟨all, []⟩ h1) with objs := (run funcs ⟨all, []⟩ h1).objs ++ [q] } := by
      rw [paramsRun_append]
      show (step funcs (run funcs ⟨all, []⟩ h1) .create).1 = _
      rw [← ha] at hq
      simp [step, hq]
    rw [e]
    refine ⟨ha, q, ?_, hinv⟩
    show ((run funcs ⟨all, []⟩ h1).objs ++ [q])[created h1]? = some q
    rw [← hl']; simp
  | append_singleton h2 op ih =>
    obtain ⟨hall, p, hp, hinv⟩ := ih fun j l hm => hn2 j l (List.mem_append_left _ hm)
    have e : run funcs ⟨all, []⟩ (h1 ++ .create :: (h2 ++ [op])) = (step funcs (run funcs ⟨all, []⟩ (h1 ++ .create :: h2)) op).1 := by
      rw [show h1 ++ Op.create :: (h2 ++ [op]) = (h1 ++ .create :: h2) ++ [op] by simp, paramsRun_append]
      rfl
    rw [e]
    exact step_inv hg hall hp hinv op fun j l he => hn2 j l (by rw [← he]; simp)

/-! ## The calls -/

theorem fillArgs_dictOf (K : List String) (g : String → Val) : ∀ (l : Dict String (Option Val)),
    (∀ a d, (a, d) ∈ l → a ≠ "img" → a ∈ K) →
    fillArgs (dictOf K g) l = .ok (dictOf ((l.map Prod.fst).filter fun a => a != "img") g)
  | [], _ => rfl
  | (a, d) :: l, h => by
    have ih := fillArgs_dictOf K g l fun b e hb => h b e (List.mem_cons_of_mem _ hb)
    unfold fillArgs
    by_cases ha : a = "img"
    · rw [if_pos ha, ih, List.map_cons, List.filter_cons_of_neg (by simp [ha])]
    · rw [if_neg ha, dictOf_get, if_pos (h a d List.mem_cons_self ha)]
      simp only [ih]
      rw [List.map_cons, List.filter_cons_of_pos (by simp [ha])]
      rfl

theorem call_dictOf {ι : Type} (f : Func ι) (img : ι) (g : String → Val) :
    f.call img (dictOf (argNames f) g) = f.body img (dictOf (argNames f) g) := by
  unfold Func.call
  have h1 : (dictOf (argNames f) g).any (fun kv => kv.1 == "img" || !(Dict.keys f.args).contains kv.1) = false := by
    rw [List.any_eq_false]
    rintro ⟨k, v⟩ hkv
    obtain ⟨a, ha, e⟩ := List.mem_map.1 hkv
    cases e
    obtain ⟨h1, h2⟩ := List.mem_filter.1 ha
    have h3 : k ≠ "img" := by simpa using h2
    have h4 : k ∈ Dict.keys f.args := h1
    simp [h3, h4]
  rw [h1]
  simp only [Bool.false_eq_true, if_false]
  rw [fillArgs_dictOf]
  · rfl
  · intro a d had ha
    exact List.mem_filter.2 ⟨List.mem_map.2 ⟨_, had, rfl⟩, by simpa using ha⟩

theorem applyLoop_spec {ι : Type} {funcs : String → Option (Func ι)} {all : List String} (hg : GoodBackend funcs all) {i : ℕ} {h : List Op}
    {p : Params} (hp : ParamsInv funcs all i h p) : ∀ (l : List String) (img : ι), (∀ t ∈ l, t ∈ all) →
    PreprocParams.applyLoop (classDict funcs all) p.children l img = (l.filter (askedEnabled i h)).foldlM (fun img t => match funcs t with
      | some f => f.body img (askedArgs i h t f)
      | none => .ok img) img
  | [], img, _ => rfl
  | t :: l, img, hl => by
    have ht := hl t List.mem_cons_self
    have ih := fun img => applyLoop_spec hg hp l img fun t ht => hl t (List.mem_cons_of_mem _ ht)
    obtain ⟨f, hf, hc⟩ := hp.child t ht
    obtain ⟨f', hf', hn, he, hd⟩ := hg.2 t ht
    rw [hf] at hf'; cases hf'
    obtain ⟨hK, hne⟩ := argNames_nodup f hn he
    have hen : Dict.get? (childOf i h t f) "enable" = some ((lastSet i t "enable" h).getD (.bool false)) := by
      unfold childOf
      rw [dictOf_get, if_pos (by simp)]
      simp
    have her : Dict.erase (childOf i h t f) "enable" = askedArgs i h t f := by
      unfold childOf
      rw [dictOf_erase _ hK]
      have : (argNames f ++ ["enable"]).filter (fun k => k != "enable") = argNames f := by
        rw [List.filter_append]
        have h1 : (argNames f).filter (fun k => k != "enable") = argNames f := by
          rw [List.filter_eq_self]
          intro k hk
          simp only [bne_iff_ne, ne_eq]
          rintro rfl
          exact hne hk
        rw [h1]; simp
      rw [this]
      apply dictOf_congr
      intro k hk
      rw [if_neg (by rintro rfl; exact hne hk)]
    have hcd : classDict funcs all t = some f := by
      unfold classDict; rw [if_pos ht, hf]
    have hcall : ∀ im, f.call im (askedArgs i h t f) = f.body im (askedArgs i h t f) := fun im => call_dictOf f im _
    rw [PreprocParams.applyLoop]
    simp only [hc, hen, her, hcd, hcall]
    by_cases hb : ((lastSet i t "enable" h).getD (.bool false)).truthy = true
    · rw [if_pos hb, List.filter_cons_of_pos (show askedEnabled i h t = true by rw [← hb, truthy_spec]; rfl), List.foldlM_cons, hf]
      cases hbody : f.body img (askedArgs i h t f) with
      | error e => simp only [hbody]; rfl
      | ok img' => simp only [hbody]; exact ih img'
    · rw [if_neg hb, List.filter_cons_of_neg (show ¬ askedEnabled i h t = true by rw [truthy_spec] at hb; exact hb)]
      exact ih img

/-- C149: whatever has been done before and with other parameters, the parameters of an object (created after the history `h1` and used
during the history `h2`) are those of the functions of the backend: the enabled tools are called in the asked order, each one with, for
each argument of its signature, the last value given by the user or the default value of the function. -/
theorem C149_apply_partial {ι : Type} (funcs : String → Option (Func ι)) (all : List String) (hg : GoodBackend funcs all) (h1 h2 : List Op)
    (hn1 : NoEdit h1) (hn2 : NoEdit h2) (ha : ∀ t ∈ askedTools all (created h1) h2, t ∈ all) :
    ∃ p, (run funcs ⟨all, []⟩ (h1 ++ .create :: h2)).objs[created h1]? = some p ∧
      ∀ img, PreprocParams.apply (classDict funcs all) (run funcs ⟨all, []⟩ (h1 ++ .create :: h2)).all p img =
        ((askedTools all (created h1) h2).filter (askedEnabled (created h1) h2)).foldlM (fun img t => match funcs t with
          | some f => f.body img (askedArgs (created h1) h2 t f)
          | none => .ok img) img := by
  obtain ⟨hall, p, hp, hinv⟩ := run_inv hg h1 h2 hn1 hn2
  refine ⟨p, hp, fun img => ?_⟩
  rw [← applyLoop_spec hg hinv _ _ ha, hall]
  unfold PreprocParams.apply askedTools
  rw [hinv.sequence, hinv.available]
  cases lastSequence (created h1) h2 with
  | none => cases lastAvailable (created h1) h2 <;> rfl
  | some s => cases s with
    | none => cases lastAvailable (created h1) h2 <;> rfl
    | some s => rfl

/-- C149: without any change, the image is not modified. -/
theorem C149_default {ι : Type} (funcs : String → Option (Func ι)) (all : List String) (hg : GoodBackend funcs all) :
    ∃ p, createDefault funcs all = .ok p ∧ ∀ img, PreprocParams.apply (classDict funcs all) all p img = .ok img := by
  obtain ⟨p, hp, hinv⟩ := createDefault_inv hg 0
  refine ⟨p, hp, fun img => ?_⟩
  unfold PreprocParams.apply
  rw [hinv.sequence, hinv.available]
  show PreprocParams.applyLoop (classDict funcs all) p.children all img = _
  rw [applyLoop_spec hg hinv _ _ fun _ h => h]
  have : all.filter (askedEnabled 0 []) = [] := by
    rw [List.filter_eq_nil_iff]
    intro t _
    simp [askedEnabled, lastSet, Val.truthy]
  rw [this]
  rfl

/-- C149: enabling one tool and changing nothing else is calling this tool with the image alone. -/
theorem C149_one {ι : Type} (funcs : String → Option (Func ι)) (all : List String) (hg : GoodBackend funcs all) (t : String) (ht : t ∈ all)
    (f : Func ι) (hf : funcs t = some f) : ∃ p, (run funcs ⟨all, []⟩ [.create, .set 0 t "enable" (.bool true)]).objs = [p] ∧
      ∀ img, PreprocParams.apply (classDict funcs all) all p img = f.call img [] := by
  obtain ⟨hall, p, hp, hinv⟩ := run_inv hg [] [.set 0 t "enable" (.bool true)] (by simp [NoEdit]) (by simp [NoEdit])
  have hlen := (run_first hg [.create, .set 0 t "enable" (.bool true)] (by simp [NoEdit]) ⟨all, []⟩ rfl).2
  refine ⟨p, ?_, fun img => ?_⟩
  · have hl : (run funcs ⟨all, []⟩ [.create, .set 0 t "enable" (.bool true)]).objs.length = 1 := by rw [hlen]; rfl
    obtain ⟨q, hq⟩ := List.length_eq_one_iff.1 hl
    have hp' : (run funcs ⟨all, []⟩ [.create, .set 0 t "enable" (.bool true)]).objs[0]? = some p := hp
    rw [hq] at hp' ⊢
    simpa using hp'
  · have hc : created [] = 0 := rfl
    rw [hc] at hinv
    unfold PreprocParams.apply
    rw [hinv.sequence, hinv.available]
    show PreprocParams.applyLoop (classDict funcs all) p.children all img = _
    rw [applyLoop_spec hg hinv _ _ fun _ h => h]
    have hfil : all.filter (askedEnabled 0 [.set 0 t "enable" (.bool true)]) = [t] := by
      have h1 : ∀ t', askedEnabled 0 [.set 0 t "enable" (.bool true)] t' = (t' == t) := by
        intro t'
        by_cases e : t = t'
        · subst e; simp [askedEnabled, lastSet, Val.truthy]
        · have e' : ¬ t' = t := fun h => e h.symm
          simp [askedEnabled, lastSet, Val.truthy, e, e']
      rw [List.filter_congr (q := fun t' => t' == t) (fun t' _ => h1 t')]
      rw [List.filter_beq, List.count_eq_one_of_mem hg.1 ht]
      rfl
    rw [hfil]
    obtain ⟨f', hf', hn, he, hd⟩ := hg.2 t ht
    rw [hf] at hf'; cases hf'
    have hargs : askedArgs 0 [.set 0 t "enable" (.bool true)] t f = dictOf (argNames f) (defaultOf f) := by
      unfold askedArgs
      apply dictOf_congr
      intro k hk
      have : ¬ "enable" = k := by rintro rfl; exact (argNames_nodup f hn he).2 hk
      simp [lastSet, this]
    have hcall : f.call img [] = f.body img (dictOf (argNames f) (defaultOf f)) := by
      have hfill : ∀ l : Dict String (Option Val), (∀ kv ∈ l, kv ∈ f.args) →
          fillArgs [] l = .ok (dictOf ((l.map Prod.fst).filter fun a => a != "img") (defaultOf f)) := by
        intro l
        induction l with
        | nil => intro _; rfl
        | cons kv l ih =>
          obtain ⟨a, d⟩ := kv
          intro hl
          have ih := ih fun kv hkv => hl kv (List.mem_cons_of_mem _ hkv)
          unfold fillArgs
          by_cases ha : a = "img"
          · rw [if_pos ha, ih, List.map_cons, List.filter_cons_of_neg (by simp [ha])]
          · rw [if_neg ha]
            have hmem := hl (a, d) List.mem_cons_self
            cases d with
            | none => exact absurd rfl (hd a none hmem)
            | some v =>
              simp only [Dict.get?, ih]
              have hv : defaultOf f a = v := by
                unfold defaultOf; rw [find_arg hn hmem]; rfl
              rw [List.map_cons, List.filter_cons_of_pos (by simp [ha])]
              show _ = Except.ok ((a, defaultOf f a) :: dictOf _ _)
              rw [hv]
      unfold Func.call
      simp only [List.any_nil, Bool.false_eq_true, if_false]
      rw [hfill f.args fun _ h => h]
      rfl
    rw [hcall, ← hargs]
    simp only [List.foldlM_cons, List.foldlM_nil, hf]
    cases hbody : f.body img (askedArgs 0 [.set 0 t "enable" (.bool true)] t f) <;> rfl

/-- C149: an unknown parameter or an unknown tool is refused with `AttributeError` and changes nothing. -/
theorem C149_unknown {ι : Type} (funcs : String → Option (Func ι)) (all : List String) (hg : GoodBackend funcs all) (h1 h2 : List Op)
    (hn1 : NoEdit h1) (hn2 : NoEdit h2) (tool arg : String) (v : Val)
    (hu : ∀ f, tool ∈ all → funcs tool = some f → arg ≠ "enable" ∧ (arg = "img" ∨ arg ∉ f.args.map Prod.fst)) :
    step funcs (run funcs ⟨all, []⟩ (h1 ++ .create :: h2)) (.set (created h1) tool arg v) =
      (run funcs ⟨all, []⟩ (h1 ++ .create :: h2), some .attributeError) := by
  obtain ⟨hall, p, hp, hinv⟩ := run_inv hg h1 h2 hn1 hn2
  have hset : p.set tool arg v = (p, some .attributeError) := by
    by_cases ht : tool ∈ all
    · obtain ⟨f, hf, hc⟩ := hinv.child tool ht
      obtain ⟨u1, u2⟩ := hu f ht hf
      have hget : Dict.get? (childOf (created h1) h2 tool f) arg = none := by
        unfold childOf
        rw [dictOf_get, if_neg]
        intro hm
        rcases List.mem_append.1 hm with hm | hm
        · obtain ⟨m1, m2⟩ := List.mem_filter.1 hm
          rcases u2 with u2 | u2
          · simp [u2] at m2
          · exact u2 m1
        · exact u1 (List.mem_singleton.1 hm)
      unfold Params.set
      simp only [hc, hget]
    · unfold Params.set
      simp only [hinv.absent tool ht]
  unfold step
  simp only [hp, hset]
  congr 1
  have hset' : ∀ (l : List Params) (i : ℕ), l[i]? = some p → l.set i p = l := by
    intro l i hi
    apply List.ext_getElem?
    intro k
    by_cases hk : i = k
    · subst hk
      have hlt : i < l.length := by
        by_contra hc
        rw [List.getElem?_eq_none (by omega)] at hi
        cases hi
      rw [List.getElem?_set_self hlt, hi]
    · rw [List.getElem?_set_ne hk]
  rw [hset' _ _ hp]

/-- Disagreement: the parameters are not independent.  All objects share the list of the module: when the user removes a tool from the
list `available_tools` of one object, this tool is silently not applied with another object, for which it is enabled, and the parameters
created later do not contain this tool. -/
theorem C149_shared_fails {ι : Type} (funcs : String → Option (Func ι)) (all : List String) (hg : GoodBackend funcs all) (t : String)
    (ht : t ∈ all) : ∃ p0 p1 p2,
      (run funcs ⟨all, []⟩ [.create, .create, .set 1 t "enable" (.bool true), .editAvailable 0 (all.filter fun s => s != t), .create]).objs =
        [p0, p1, p2] ∧
      (∀ img, PreprocParams.apply (classDict funcs all) (run funcs ⟨all, []⟩ [.create, .create, .set 1 t "enable" (.bool true),
        .editAvailable 0 (all.filter fun s => s != t), .create]).all p1 img = .ok img) ∧
      Dict.get? p2.children t = none := by
  obtain ⟨q0, hq0, hi0⟩ := createDefault_inv hg 0
  obtain ⟨q1, hq1, hi1⟩ := createDefault_inv hg 1
  rw [hq0] at hq1; cases hq1
  have hg' : GoodBackend funcs (all.filter fun s => s != t) :=
    ⟨hg.1.filter _, fun s hs => hg.2 s (List.mem_filter.1 hs).1⟩
  obtain ⟨q2, hq2, hi2⟩ := createDefault_inv hg' 2
  have hs1 := set_inv hg hi1 t "enable" (.bool true)
  have hrun : run funcs ⟨all, []⟩ [.create, .create, .set 1 t "enable" (.bool true), .editAvailable 0 (all.filter fun s => s != t), .create] =
      ⟨all.filter fun s => s != t, [q0, (q0.set t "enable" (.bool true)).1, q2]⟩ := by
    have hav : q0.available = none := hi0.available
    simp [run, step, hq0, hq2, hav]
  rw [hrun]
  refine ⟨_, _, _, rfl, ?_, hi2.absent t (by simp)⟩
  intro img
  unfold PreprocParams.apply
  rw [hs1.sequence, hs1.available]
  show PreprocParams.applyLoop (classDict funcs all) _ (all.filter fun s => s != t) img = _
  rw [applyLoop_spec hg hs1 _ _ fun s hs => (List.mem_filter.1 hs).1]
  have : (all.filter fun s => s != t).filter (askedEnabled 1 ([] ++ [.set 1 t "enable" (.bool true)])) = [] := by
    rw [List.filter_eq_nil_iff]
    intro s hs
    have hne : s ≠ t := by simpa using (List.mem_filter.1 hs).2
    have hne' : ¬ t = s := fun e => hne e.symm
    simp [askedEnabled, lastSet, Val.truthy, hne']
  rw [this]
  rfl

/-- Disagreement: a subclass of the class of the tools which does not define again the tools cannot apply them: every enabled tool raises
`KeyError` (`own`: what the subclass defines). -/
theorem C149_subclass_fails {ι : Type} (funcs own : String → Option (Func ι)) (all : List String) (hg : GoodBackend funcs all) (t : String)
    (ht : t ∈ all) (ho : own t = none) : ∃ p, (run funcs ⟨all, []⟩ [.create, .set 0 t "enable" (.bool true)]).objs = [p] ∧
      ∀ img, PreprocParams.apply own all p img = .error .keyError := by
  obtain ⟨q0, hq0, hi0⟩ := createDefault_inv hg 0
  have hs := set_inv hg hi0 t "enable" (.bool true)
  refine ⟨(q0.set t "enable" (.bool true)).1, ?_, ?_⟩
  · simp [run, step, hq0]
  intro img
  unfold PreprocParams.apply
  rw [hs.sequence, hs.available]
  show PreprocParams.applyLoop own _ all img = _
  have key : ∀ l : List String, t ∈ l → (∀ s ∈ l, s ∈ all) →
      PreprocParams.applyLoop own (q0.set t "enable" (.bool true)).1.children l img = .error .keyError := by
    intro l
    induction l with
    | nil => intro h; cases h
    | cons s l ih =>
      intro htl hall
      obtain ⟨f, hf, hc⟩ := hs.child s (hall s List.mem_cons_self)
      have hen : Dict.get? (childOf 0 ([] ++ [.set 0 t "enable" (.bool true)]) s f) "enable" =
          some ((lastSet 0 s "enable" ([] ++ [.set 0 t "enable" (.bool true)])).getD (.bool false)) := by
        unfold childOf
        rw [dictOf_get, if_pos (by simp)]
        simp
      rw [PreprocParams.applyLoop]
      simp only [hc, hen]
      by_cases hst : t = s
      · subst hst
        have : ((lastSet 0 t "enable" ([] ++ [.set 0 t "enable" (.bool true)])).getD (.bool false)).truthy = true := by
          simp [lastSet, Val.truthy]
        rw [if_pos this, ho]
      · have : ((lastSet 0 s "enable" ([] ++ [.set 0 t "enable" (.bool true)])).getD (.bool false)).truthy = false := by
          simp [lastSet, Val.truthy, hst]
        rw [this, if_neg (by simp)]
        refine ih ?_ fun s hs => hall s (List.mem_cons_of_mem _ hs)
        rcases List.mem_cons.1 htl with e | e
        · exact absurd e hst
        · exact e
  exact key all ht fun _ h => h

/-! ## Examples -/

/-- A backend with two tools of the module `_toolbox_py` (signatures of 66-68 and 265; an image is a number, the results keep a trace of
the calls). -/
def demoToolbox : String → Option (Func (List (Dict String Val)))
  | "sliding_median" => some ⟨[("img", some .none), ("weight", some (.rat 1)), ("window_size", some (.int 30)),
      ("boundary_condition", some (.str "reflect"))], fun im d => .ok (im ++ [d])⟩
  | "global_threshold" => some ⟨[("img", some .none), ("minima", some (.rat 0)), ("maxima", some .none)], fun im d => .ok (im ++ [d])⟩
  | _ => none

example : GoodBackend demoToolbox ["sliding_median", "global_threshold"] := by
  refine ⟨by decide, ?_⟩
  intro t ht
  rcases List.mem_cons.1 ht with rfl | ht
  · exact ⟨_, rfl, by decide, by decide, by rintro a d h rfl; simp at h⟩
  · rw [List.mem_singleton] at ht
    subst ht
    exact ⟨_, rfl, by decide, by decide, by rintro a d h rfl; simp at h⟩

/-- A user enables the two tools in another order, changes the size of the windows twice, and changes other parameters of another object. -/
example : let h1 : List Op := [.create, .set 0 "sliding_median" "weight" (.rat (1/2))]
    let h2 : List Op := [.set 1 "sliding_median" "window_size" (.int 3), .create, .set 2 "global_threshold" "enable" (.bool false),
      .set 1 "sliding_median" "enable" (.bool true), .set 1 "global_threshold" "enable" (.int 1),
      .setSequence 1 (some ["global_threshold", "sliding_median"]), .set 1 "sliding_median" "window_size" (.int 5)]
    ((askedTools ["sliding_median", "global_threshold"] (created h1) h2).filter (askedEnabled (created h1) h2)) =
      ["global_threshold", "sliding_median"] ∧
    ((run demoToolbox ⟨["sliding_median", "global_threshold"], []⟩ (h1 ++ .create :: h2)).objs[1]?.map fun p =>
      PreprocParams.apply (classDict demoToolbox ["sliding_median", "global_threshold"]) [] p []) =
      some (.ok [[("minima", .rat 0), ("maxima", .none)],
        [("weight", .rat 1), ("window_size", .int 5), ("boundary_condition", .str "reflect")]]) := by
  refine ⟨by decide +kernel, by rfl⟩

end Verif
