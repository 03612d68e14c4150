import Verif.Exec.TrackRun

/-!
# Surface tracking: from the first queues to the end
-/

namespace Verif.Exec
open Verif Verif.Spec
set_option linter.unusedSectionVars false

variable {κ α ε : Type} [DecidableEq κ]

/-! ## The couples of names -/

theorem mem_couplesFrom (tup : List κ → α) (ckey : Nat → κ) (l : List κ) : ∀ (i : Nat) (k : κ) (v : Except ε α),
    (k, v) ∈ couplesFrom tup ckey i l ↔ ∃ n a b, l[n]? = some a ∧ l[n + 1]? = some b ∧ k = ckey (i + n) ∧
      v = .ok (tup [a, b]) := by
  induction l with
  | nil => intro i k v; simp [couplesFrom]
  | cons x l ih =>
    intro i k v
    cases l with
    | nil => simp [couplesFrom]
    | cons y l =>
      rw [couplesFrom, List.mem_cons, ih]
      constructor
      · rintro (h | ⟨n, a, b, h1, h2, h3, h4⟩)
        · cases h; exact ⟨0, x, y, rfl, rfl, rfl, rfl⟩
        · exact ⟨n + 1, a, b, by simpa using h1, by simpa using h2, by rw [h3]; congr 1; omega, h4⟩
      · rintro ⟨n, a, b, h1, h2, h3, h4⟩
        cases n with
        | zero =>
          left
          simp only [List.getElem?_cons_zero, Option.some.injEq, Nat.zero_add, List.getElem?_cons_succ] at h1 h2
          rw [h3, h4, h1, h2]; rfl
        | succ n =>
          right
          exact ⟨n, a, b, by simpa using h1, by simpa using h2, by rw [h3]; congr 1; omega, h4⟩

theorem couplesFrom_keys (tup : List κ → α) (ckey : Nat → κ) (l : List κ) : ∀ i,
    (couplesFrom (ε := ε) tup ckey i l).keys = (List.range' i (l.length - 1)).map ckey := by
  induction l with
  | nil => intro i; rfl
  | cons x l ih =>
    intro i
    cases l with
    | nil => rfl
    | cons y l =>
      rw [couplesFrom, Dict.keys_cons, ih]
      simp [List.range'_succ]

theorem mem_couplesOfNames (tup : List κ → α) (ckey : Nat → κ) {names : List κ} (hN : names.length ≠ 1) (k : κ)
    (v : Except ε α) : (k, v) ∈ couplesOfNames tup ckey names ↔
      ∃ i a b, 0 ≤ i ∧ names[i - 1]? = some a ∧ names[i]? = some b ∧ k = ckey i ∧ v = .ok (tup [a, b]) := by
  match names, hN with
  | [], _ => simp [couplesOfNames]
  | [x], h => simp at h
  | x :: y :: l, _ =>
    rw [couplesOfNames, List.mem_cons, mem_couplesFrom]
    constructor
    · rintro (h | ⟨n, a, b, h1, h2, h3, h4⟩)
      · cases h; exact ⟨0, x, x, Nat.zero_le _, rfl, rfl, rfl, rfl⟩
      · exact ⟨n + 1, a, b, Nat.zero_le _, by simpa using h1, h2, by rw [h3]; congr 1; omega, h4⟩
    · rintro ⟨i, a, b, _, h1, h2, h3, h4⟩
      cases i with
      | zero =>
        left
        simp only [Nat.zero_sub, List.getElem?_cons_zero, Option.some.injEq] at h1 h2
        rw [h3, h4, h1, ← h2, h1]
      | succ i =>
        right
        exact ⟨i, a, b, by simpa using h1, h2, by rw [h3]; congr 1; omega, h4⟩

theorem couplesOfNames_unique (tup : List κ → α) (ckey : Nat → κ) (hck : Function.Injective ckey) (names : List κ) :
    (couplesOfNames (ε := ε) tup ckey names).KeysUnique := by
  match names with
  | [] => simp [couplesOfNames, Dict.KeysUnique, Dict.keys]
  | [x] => simp [couplesOfNames, Dict.KeysUnique, Dict.keys]
  | x :: y :: l =>
    unfold Dict.KeysUnique
    rw [couplesOfNames, Dict.keys_cons, couplesFrom_keys]
    have : ckey 0 :: (List.range' 1 ((x :: y :: l).length - 1)).map ckey =
        (List.range' 0 ((x :: y :: l).length)).map ckey := by
      simp [List.range'_succ]
    rw [this]
    exact (List.nodup_range').map hck

/-! ## The references -/

section
variable {O : TrackOps κ α ε} {ups downs : List (ChainWork κ α ε)} {correct : κ → α → Except ε α}
  {names : List κ} {ckey : Nat → κ} {pathOf : κ → α}

theorem referencesFrom_keys (pair : Except ε α → Except ε α → α) (frame : κ → Except ε α) (names : List κ) : ∀ ref,
    (referencesFrom pair correct frame ref names).map Prod.fst = names := by
  induction names with
  | nil => intro ref; rfl
  | cons k ks ih => intro ref; simp [referencesFrom, ih]

theorem references_keys (pair : Except ε α → Except ε α → α) (frame : κ → Except ε α) (names : List κ) :
    (references pair correct frame names).map Prod.fst = names := by
  cases names with
  | nil => rfl
  | cons k ks => exact referencesFrom_keys ..

theorem referencesFrom_next (pair : Except ε α → Except ε α → α) (frame : κ → Except ε α) (names : List κ) :
    ∀ ref i a ra b rb, (referencesFrom pair correct frame ref names)[i]? = some (a, ra) →
    (referencesFrom pair correct frame ref names)[i + 1]? = some (b, rb) → rb = correct a (pair ra (frame a)) := by
  induction names with
  | nil => intro ref i a ra b rb h; simp [referencesFrom] at h
  | cons k ks ih =>
    intro ref i a ra b rb h1 h2
    rw [referencesFrom] at h1 h2
    cases i with
    | zero =>
      simp only [List.getElem?_cons_zero, Option.some.injEq, Prod.mk.injEq] at h1
      obtain ⟨rfl, rfl⟩ := h1
      cases ks with
      | nil => simp [referencesFrom] at h2
      | cons k' ks =>
        simp [referencesFrom] at h2
        exact h2.2.symm
    | succ i =>
      exact ih _ i a ra b rb (by simpa using h1) (by simpa using h2)

/-- The reference of a frame. -/
def refOf (pair : Except ε α → Except ε α → α) (correct : κ → α → Except ε α) (frame : κ → Except ε α)
    (names : List κ) (k : κ) : Except ε α :=
  (Dict.get? (references pair correct frame names) k).getD (frame k)

theorem refOf_mem {pair : Except ε α → Except ε α → α} {frame : κ → Except ε α} (hnd : names.Nodup) {k : κ}
    {r : Except ε α} (h : (k, r) ∈ references pair correct frame names) :
    refOf pair correct frame names k = r := by
  unfold refOf
  rw [Dict.mem_get? _ (by unfold Dict.KeysUnique; rw [show Dict.keys (references pair correct frame names) =
    (references pair correct frame names).map Prod.fst from rfl, references_keys]; exact hnd) _ _ h]
  rfl

theorem refOf_at {pair : Except ε α → Except ε α → α} {frame : κ → Except ε α} (hnd : names.Nodup) {i : Nat} {k : κ}
    (h : names[i]? = some k) :
    (references pair correct frame names)[i]? = some (k, refOf pair correct frame names k) := by
  have hk := references_keys (correct := correct) pair frame names
  have h1 : ((references pair correct frame names).map Prod.fst)[i]? = some k := by rw [hk]; exact h
  rw [List.getElem?_map] at h1
  cases hr : (references pair correct frame names)[i]? with
  | none => rw [hr] at h1; cases h1
  | some kr =>
    rw [hr] at h1
    simp only [Option.map_some, Option.some.injEq] at h1
    obtain ⟨k', r⟩ := kr
    simp only at h1
    subst h1
    rw [refOf_mem hnd (List.mem_of_getElem? hr)]

theorem refOf_isPrev (O : TrackOps κ α ε) (frame : κ → Except ε α) (hnd : names.Nodup) :
    IsPrev O correct names frame (refOf O.pair correct frame names) where
  first := by
    intro b hb
    have h := refOf_at (pair := O.pair) (correct := correct) (frame := frame) hnd hb
    cases names with
    | nil => cases hb
    | cons k ks =>
      simp only [List.getElem?_cons_zero, Option.some.injEq] at hb
      subst hb
      simp only [references, referencesFrom, List.getElem?_cons_zero, Option.some.injEq, Prod.mk.injEq] at h
      exact h.2.symm
  next := by
    intro i a b ha hb
    have h1 := refOf_at (pair := O.pair) (correct := correct) (frame := frame) hnd ha
    have h2 := refOf_at (pair := O.pair) (correct := correct) (frame := frame) hnd hb
    cases names with
    | nil => cases hb
    | cons k ks => exact referencesFrom_next _ _ _ _ _ _ _ _ _ h1 h2

/-! ## The invariant at the beginning and at the end -/

/-- The angles of a frame. -/
abbrev frameOf (ups : List (ChainWork κ α ε)) (pathOf : κ → α) (k : κ) : Except ε α := imageOf k ups (.ok (pathOf k))

abbrev prevOf (O : TrackOps κ α ε) (ups : List (ChainWork κ α ε)) (correct : κ → α → Except ε α) (pathOf : κ → α)
    (names : List κ) : κ → Except ε α := refOf O.pair correct (frameOf ups pathOf) names

def trackTot (O : TrackOps κ α ε) (ups downs : List (ChainWork κ α ε)) (correct : κ → α → Except ε α)
    (pathOf : κ → α) (names : List κ) (l : Nat) (k : κ) : List (Event κ α ε) :=
  if l = 1 ∧ k ∈ names then trackEvents ups O.pair correct downs (pathOf k) k (prevOf O ups correct pathOf names k)
  else []

theorem trackEvents_eq (pair : Except ε α → Except ε α → α) (path : α) (k : κ) (ref : Except ε α) :
    trackEvents ups pair correct downs path k ref = imageEvents k 0 ups (.ok path) ++
      correctEvents ups downs correct k (pair ref (imageOf k ups (.ok path))) := by
  unfold trackEvents correctEvents
  cases h : correct k (pair ref (imageOf k ups (.ok path))) <;> simp [h, callEvents]

abbrev TSHolds (O : TrackOps κ α ε) (ups downs : List (ChainWork κ α ε)) (correct : κ → α → Except ε α)
    (names : List κ) (ckey : Nat → κ) (pathOf : κ → α) (q : Queues κ α ε) (fl : List (Task κ α))
    (log : List (Event κ α ε)) : Prop :=
  THolds O ups downs correct names (frameOf ups pathOf) (prevOf O ups correct pathOf names) ckey
    (trackTot O ups downs correct pathOf names) q fl log

theorem track_paths_get? (pathOf : κ → α) (hnd : names.Nodup) (k : κ) (v : Except ε α) :
    Dict.get? (names.map (fun n => (n, (.ok (pathOf n) : Except ε α)))) k = some v ↔ k ∈ names ∧ v = .ok (pathOf k) := by
  have hu : Dict.KeysUnique (names.map (fun n => (n, (.ok (pathOf n) : Except ε α)))) := by
    unfold Dict.KeysUnique Dict.keys
    simpa [Function.comp_def] using hnd
  constructor
  · intro h
    have := Dict.get?_mem _ _ _ h
    simp only [List.mem_map, Prod.mk.injEq] at this
    obtain ⟨n, h1, rfl, rfl⟩ := this
    exact ⟨h1, rfl⟩
  · rintro ⟨h, rfl⟩
    refine Dict.mem_get? _ hu _ _ ?_
    simp only [List.mem_map, Prod.mk.injEq]
    exact ⟨k, h, rfl, rfl⟩

theorem trackStart_get? (O : TrackOps κ α ε) (pathOf : κ → α) (hnd : names.Nodup) (hck : Function.Injective ckey)
    (hN : names.length ≠ 1) (i : Nat) (k : κ) (v : Except ε α) :
    (trackStart O ckey pathOf (fun _ => false) names i).get? k = some v ↔
      (i = 0 ∧ ∃ i a b, 0 ≤ i ∧ names[i - 1]? = some a ∧ names[i]? = some b ∧ k = ckey i ∧ v = .ok (O.tup [a, b])) ∨
      (i = 1 ∧ k ∈ names ∧ v = .ok (pathOf k)) := by
  unfold trackStart
  by_cases h0 : i = 0
  · subst h0
    simp only [if_true, true_and, Nat.zero_ne_one, false_and, or_false]
    rw [← mem_couplesOfNames O.tup ckey hN]
    exact ⟨Dict.get?_mem _ _ _, Dict.mem_get? _ (couplesOfNames_unique _ _ hck _) _ _⟩
  · by_cases h1 : i = 1
    · subst h1
      rw [if_neg h0, if_pos rfl]
      simp only [Bool.not_false, List.filter_true, Nat.one_ne_zero, false_and, true_and, false_or]
      exact track_paths_get? pathOf hnd k v
    · rw [if_neg h0, if_neg h1]
      simp [h0, h1, Dict.get?]

theorem track_init (hups : 0 < ups.length) (hnd : names.Nodup) (hck : Function.Injective ckey) (hN : names.length ≠ 1) :
    TSHolds O ups downs correct names ckey pathOf (trackStart O ckey pathOf (fun _ => false) names) [] [] := by
  have hat := trackStart_get? (ckey := ckey) O pathOf hnd hck hN
  refine ⟨_, Rel.ofQueues _ _ ?_, ?_, 0, ?_⟩
  · intro i
    unfold trackStart
    split
    · exact couplesOfNames_unique _ _ hck _
    · split
      · unfold Dict.KeysUnique Dict.keys
        simpa [Function.comp_def] using hnd
      · simp [Dict.KeysUnique, Dict.keys]
  · refine Contract.Inv.init _ _ _ ?_ ?_ ?_ ?_
    · intro i j k v v' hl h1 h2
      rw [hat] at h1 h2
      simp only [trackContract] at hl
      rcases h1 with ⟨rfl, _⟩ | ⟨rfl, _⟩ <;> rcases h2 with ⟨rfl, _⟩ | ⟨rfl, _⟩ <;> simp at hl ⊢
    · intro i k v h
      rw [hat] at h
      rcases h with ⟨rfl, _⟩ | ⟨rfl, h, rfl⟩
      · exact ⟨fun h1 => by omega, fun h1 => by omega, fun h1 => by omega, fun h1 => by omega⟩
      · exact ⟨fun _ => h, fun _ _ => rfl, fun h1 => by omega, fun h1 => by omega⟩
    · intro i k v h
      rw [hat] at h
      rcases h with ⟨rfl, _⟩ | ⟨rfl, h, rfl⟩
      · simp [trackContract, trackTot]
      · have hl : (trackContract O ups downs correct names (frameOf ups pathOf)
          (prevOf O ups correct pathOf names)).line 1 = 1 := rfl
        rw [hl]
        simp only [trackTot, h, and_self, if_true, trackContract]
        rw [if_neg (by omega), if_pos (by omega), trackEvents_eq]
        rfl
    · intro l k h
      unfold trackTot
      rw [if_neg]
      rintro ⟨rfl, hk⟩
      have := h 1 rfl
      rw [(hat 1 k (.ok (pathOf k))).2 (Or.inr ⟨rfl, hk, rfl⟩)] at this
      cases this
  · refine ⟨Nat.zero_le _, ?_, ?_, ?_, ?_, ?_, ?_, ?_⟩
    · intro k v
      rw [hat]
      simp
    · intro i b _ hb
      exact ⟨1, Nat.le_refl _, by omega, _, (hat 1 b _).2 (Or.inr ⟨rfl, List.mem_of_getElem? hb, rfl⟩)⟩
    · intro l b v h1 _ h
      rw [hat] at h
      rcases h with ⟨rfl, _⟩ | ⟨rfl, h, _⟩
      · omega
      · obtain ⟨i, hi⟩ := List.getElem?_of_mem h
        exact ⟨i, Nat.zero_le _, hi⟩
    · intro l b v h1 h
      rw [hat] at h
      rcases h with ⟨rfl, _⟩ | ⟨rfl, _⟩ <;> omega
    · intro i a h; omega
    · intro i k v h
      rw [hat] at h
      rcases h with ⟨rfl, _⟩ | ⟨rfl, _⟩ <;> omega
    · right
      refine ⟨fun k => ?_, by simp [callOrder]⟩
      cases hk : (trackStart O ckey pathOf (fun _ => false) names (ups.length + 2)).get? k with
      | none => rfl
      | some v =>
        rw [hat] at hk
        rcases hk with ⟨h, _⟩ | ⟨h, _⟩ <;> omega

/-- What the events of a finished execution are. -/
structure TrackDone (O : TrackOps κ α ε) (ups : List (ChainWork κ α ε)) (correct : κ → α → Except ε α)
    (downs : List (ChainWork κ α ε)) (pathOf : κ → α) (names : List κ) (log : List (Event κ α ε)) : Prop where
  frames : ∀ k ref, (k, ref) ∈ references O.pair correct (fun n => imageOf n ups (.ok (pathOf n))) names →
    historyOf k log = trackEvents ups O.pair correct downs (pathOf k) k ref
  others : ∀ k, k ∉ names → historyOf k log = []
  order : callOrder (ups.length + 1) log = names

theorem track_done (hnd : names.Nodup) {q : Queues κ α ε} {log : List (Event κ α ε)} {a : Unit}
    (h : TSHolds O ups downs correct names ckey pathOf q [] log)
    (he : allEmpty (trackTopology O ups correct downs) q a = true) :
    TrackDone O ups correct downs pathOf names log := by
  have hq : ∀ i, q i = [] := by
    intro i
    by_cases hi : i < ups.length + 4 + downs.length
    · exact (allEmpty_iff.1 he).1 i hi
    · obtain ⟨m, h1, _, j, h3⟩ := h
      cases hqi : q i with
      | nil => rfl
      | cons kv rest =>
        obtain ⟨k, v⟩ := kv
        exact absurd (h3.bound i k v (h1.head_at hqi)) hi
  have h1 := h.done hq rfl 1
  have e : ∀ k, (trackContract O ups downs correct names (frameOf ups pathOf)
      (prevOf O ups correct pathOf names)).hist 1 k log = historyOf k log := by
    intro k
    unfold Contract.hist historyOf
    apply List.filter_congr
    intro ev _
    cases ev <;> simp [trackContract, Event.key, keyOf] <;> rfl
  refine ⟨fun k ref hk => ?_, fun k hk => ?_, ?_⟩
  · have hmem : k ∈ names := by
      rw [← references_keys (correct := correct) O.pair (fun n => imageOf n ups (.ok (pathOf n))) names]
      exact List.mem_map.2 ⟨_, hk, rfl⟩
    rw [← e, h1, trackTot, if_pos ⟨rfl, hmem⟩]
    congr 1
    exact refOf_mem hnd hk
  · rw [← e, h1, trackTot, if_neg (fun h => hk h.2)]
  · obtain ⟨m, hrel, hinv, j, hJ⟩ := h
    have hm : ∀ i k, m i k = none := by
      intro i k
      rw [hrel.get?, hq]; rfl
    have hj : names.length ≤ j := by
      by_contra hlt
      have hlt' : j < names.length := by omega
      obtain ⟨l, _, _, v, h3⟩ := hJ.up j _ (Nat.le_refl _) (List.getElem?_eq_getElem hlt')
      rw [hm] at h3; cases h3
    rcases hJ.order with ⟨i, b, v, _, _, h3, _⟩ | ⟨_, h2⟩
    · rw [hm] at h3; cases h3
    · rw [h2, List.take_of_length_le hj]

/-! ## Executions -/

/-- What is known on the topology and the serie. -/
structure TrackSetup (ups downs : List (ChainWork κ α ε)) (names : List κ) (ckey : Nat → κ) : Prop where
  up : 0 < ups.length
  down : 0 < downs.length
  nodup : names.Nodup
  keys : Function.Injective ckey
  several : names.length ≠ 1

abbrev trackAInit (O : TrackOps κ α ε) (ckey : Nat → κ) (pathOf : κ → α) (names : List κ) : AState κ α ε Unit :=
  AState.init (trackStart O ckey pathOf (fun _ => false) names) ()

theorem TrackSetup.holds (h : TrackSetup ups downs names ckey) {c : Cfg} {ls : List Label} {s : AState κ α ε Unit}
    (hrun : ARun (trackTopology O ups correct downs) c (trackAInit O ckey pathOf names) ls s) (hc : s.crashed = none) :
    TSHolds O ups downs correct names ckey pathOf s.q s.inflight s.log :=
  Holds.run track_lawful (track_globLaws h.down h.nodup h.keys (refOf_isPrev O _ h.nodup)) hrun
    (track_init h.up h.nodup h.keys h.several) hc

theorem TrackSetup.async (h : TrackSetup ups downs names ckey) {c : Cfg} {ls : List Label} {s : AState κ α ε Unit}
    (hrun : ARun (trackTopology O ups correct downs) c (trackAInit O ckey pathOf names) ls s) (hstop : s.stop = true) :
    TrackDone O ups correct downs pathOf names s.log ∧ (∀ i < ups.length + 4 + downs.length, s.q i = []) ∧
      s.inflight = [] ∧ s.crashed = none := by
  obtain ⟨h1, h2⟩ := stopped_of_run track_wellFormed hrun (CInv.init _ _) rfl hstop
  have hh := h.holds hrun (h2 rfl)
  rw [h1.idle] at hh
  exact ⟨track_done h.nodup hh h1.empty, (allEmpty_iff.1 h1.empty).1, h1.idle, h2 rfl⟩

theorem TrackSetup.noCrash (h : TrackSetup ups downs names ckey) {c : Cfg} (hst : c.stopIfError = false)
    {ls : List Label} {s : AState κ α ε Unit}
    (hrun : ARun (trackTopology O ups correct downs) c (trackAInit O ckey pathOf names) ls s) : s.crashed = none :=
  noCrash_run track_lawful (track_globLaws h.down h.nodup h.keys (refOf_isPrev O _ h.nodup)) hst
    (track_safe h.down h.nodup h.keys (refOf_isPrev O _ h.nodup)) hrun
    (track_init h.up h.nodup h.keys h.several) rfl

/-- The order of the corrections, at any time. -/
theorem TrackSetup.order (h : TrackSetup ups downs names ckey) {c : Cfg} {ls : List Label} {s : AState κ α ε Unit}
    (hrun : ARun (trackTopology O ups correct downs) c (trackAInit O ckey pathOf names) ls s) (hc : s.crashed = none) :
    callOrder (ups.length + 1) s.log <+: names := by
  obtain ⟨m, _, _, j, hJ⟩ := h.holds hrun hc
  rcases hJ.order with ⟨i, _, _, _, _, _, h4⟩ | ⟨_, h4⟩ <;> rw [h4] <;> exact List.take_prefix _ _

theorem TrackSetup.seq (h : TrackSetup ups downs names ckey) {c : Cfg} (hst : c.stopIfError = false)
    (hq : 2 ≤ c.queueMax) :
    ∃ n s, seqLoop (trackTopology O ups correct downs) c n
        (SState.init (trackStart O ckey pathOf (fun _ => false) names) ()) = some s ∧
      s.crashed = none ∧ TrackDone O ups correct downs pathOf names s.log ∧
      (∀ i < ups.length + 4 + downs.length, s.q i = []) := by
  have hp := refOf_isPrev (correct := correct) O (frameOf ups pathOf) h.nodup
  have hL : (trackContract O ups downs correct names (frameOf ups pathOf)
    (prevOf O ups correct pathOf names)).Lawful := track_lawful
  have hG := track_globLaws (ups := ups) h.down h.nodup h.keys hp
  have h0 : TSHolds O ups downs correct names ckey pathOf
    (SState.init (trackStart O ckey pathOf (fun _ => false) names) () : SState κ α ε Unit).q [] [] :=
      track_init h.up h.nodup h.keys h.several
  obtain ⟨n, s, hs⟩ := seq_terminates (c := c)
    (P := fun q fl _ => ∃ log, TSHolds O ups downs correct names ckey pathOf q fl log)
    (auxPot := fun _ => 0) track_rank (track_globPot h.down h.nodup h.keys hp)
    (track_sprogress h.up h.down h.nodup h.keys hp hq) (by
      intro w work s hw hP hcr
      obtain ⟨log, hP⟩ := hP
      -- the log of the state is irrelevant
      have hP' := seqWork_log c w work s log
      rw [← hP'.1] at hcr
      have := Holds.seqWork (s := { s with log := log }) hL hG hw hP hcr
      rw [hP'.2] at this
      exact ⟨_, this⟩) (SState.init (trackStart O ckey pathOf (fun _ => false) names) ()) ⟨[], h0⟩
  have hcr := noCrash_seqLoop hL hG hst (track_safe h.down h.nodup h.keys hp) hs h0 rfl
  obtain ⟨h1, h2⟩ := Holds.seqLoop hL hG hs h0 hcr
  exact ⟨n, s, hs, hcr, track_done h.nodup h1 h2, (allEmpty_iff.1 h2).1⟩

theorem TrackSetup.fair (h : TrackSetup ups downs names ckey) {c : Cfg} (hmax : 0 < c.maxWorkers)
    (hq : 0 < c.queueMax) (hN : names.length ≤ c.queueMax) {run : Nat → AState κ α ε Unit} {lab : Nat → Label}
    (h0 : run 0 = trackAInit O ckey pathOf names) (hrun : Infinite (trackTopology O ups correct downs) c run lab)
    (hfair : Fair (trackTopology O ups correct downs) c run lab) : ∃ n, (run n).stop = true := by
  have hp := refOf_isPrev (correct := correct) O (frameOf ups pathOf) h.nodup
  have hr : ∀ n, ∃ ls, ARun (trackTopology O ups correct downs) c (trackAInit O ckey pathOf names) ls (run n) := by
    intro n
    induction n with
    | zero => exact ⟨[], by rw [h0]; exact .nil _⟩
    | succ n ih => obtain ⟨ls, h⟩ := ih; exact ⟨_, h.snoc (hrun n)⟩
  refine fair_terminates (auxPot := fun _ => 0) track_rank (track_globPot
    (tot := trackTot O ups downs correct pathOf names) h.down h.nodup h.keys hp)
    (track_aprogress h.up h.down h.nodup h.keys hp hq hN) hmax hrun hfair (fun n => ?_) (fun n => ?_)
  · obtain ⟨ls, h1⟩ := hr n
    exact (CInv.init _ _).run h1 (astep_cases (hrun n)).1
  · obtain ⟨ls, h1⟩ := hr n
    exact ⟨_, h.holds h1 (astep_cases (hrun n)).1⟩

theorem TrackSetup.canFinish (h : TrackSetup ups downs names ckey) {c : Cfg} (hst : c.stopIfError = false)
    (hmax : 0 < c.maxWorkers) (hq : 0 < c.queueMax) (hN : names.length ≤ c.queueMax) {ls : List Label}
    {s : AState κ α ε Unit}
    (hrun : ARun (trackTopology O ups correct downs) c (trackAInit O ckey pathOf names) ls s) :
    ∃ ls' s', ARun (trackTopology O ups correct downs) c s ls' s' ∧ s'.stop = true := by
  have hp := refOf_isPrev (correct := correct) O (frameOf ups pathOf) h.nodup
  have hc := h.noCrash hst hrun
  obtain ⟨ls', s', h1, h2⟩ := can_finish (auxPot := fun _ => 0) track_rank (track_globPot
    (tot := trackTot O ups downs correct pathOf names) h.down h.nodup h.keys hp)
    (track_aprogress h.up h.down h.nodup h.keys hp hq hN) hmax (by
      intro l s s' hC hP hstep hcr
      obtain ⟨log, hP⟩ := hP
      exact Holds.step_log track_lawful (track_globLaws h.down h.nodup h.keys hp) hP (astep_cases hstep).2 hcr) s
    ((CInv.init _ _).run hrun hc) ⟨_, h.holds hrun hc⟩ hc
  refine ⟨ls', s', h1, ?_⟩
  rcases h2 with h2 | h2
  · exact h2
  · have := h.noCrash hst (ARun.append hrun h1)
    rw [this] at h2; cases h2

end
end Verif.Exec
