import Verif.Model.Groups
import Verif.Lemmas.Dict
import Mathlib.Data.List.Nodup

/-!
# `make_couples` and `make_subsets` as steps on dictionaries

Proof infrastructure: both functions are iterations of the same step `gstep` (for couples: when the two names are
different and every array belongs to a remaining couple).
-/

namespace Verif
namespace Dict
variable {κ α : Type} [DecidableEq κ]

theorem erase_eq_filter (d : Dict κ α) (k : κ) (hd : KeysUnique d) :
    erase d k = d.filter (fun kv => decide (kv.1 ≠ k)) := by
  induction d with
  | nil => rfl
  | cons kv d ih =>
    obtain ⟨k', v'⟩ := kv
    have hd' := hd
    unfold KeysUnique at hd'
    rw [keys_cons, List.nodup_cons] at hd'
    unfold erase
    by_cases h : k' = k
    · subst h
      rw [if_pos rfl, List.filter_cons_of_neg (by simp)]
      symm
      rw [List.filter_eq_self]
      rintro ⟨a, b⟩ hab
      have : a ≠ k' := fun e => hd'.1 ((mem_keys_iff _ _).2 ⟨b, e ▸ hab⟩)
      simpa using this
    · rw [if_neg h, List.filter_cons_of_pos (by simpa using h), ih hd'.2]

theorem keys_filter (d : Dict κ α) (p : κ → Bool) :
    keys (d.filter (fun kv => p kv.1)) = (keys d).filter p := by
  unfold keys
  rw [List.filter_map]
  rfl

theorem keysUnique_filter (d : Dict κ α) (p : κ → Bool) (hd : KeysUnique d) :
    KeysUnique (d.filter (fun kv => p kv.1)) := by
  unfold KeysUnique
  rw [keys_filter]
  exact List.Nodup.sublist List.filter_sublist hd

theorem get?_filter (d : Dict κ α) (p : κ → Bool) (k : κ) :
    get? (d.filter (fun kv => p kv.1)) k = if p k then get? d k else none := by
  induction d with
  | nil => simp [get?]
  | cons kv d ih =>
    obtain ⟨k', v'⟩ := kv
    by_cases hp : p k' = true
    · rw [List.filter_cons_of_pos (by simpa using hp)]
      simp only [get?]
      by_cases he : k' = k
      · subst he; simp [hp]
      · simp only [he, if_false]; exact ih
    · rw [List.filter_cons_of_neg (by simpa using hp), ih]
      simp only [get?]
      by_cases he : k' = k
      · subst he; simp [hp]
      · simp [he]

theorem isSome_get?_iff (d : Dict κ α) (k : κ) : (get? d k).isSome = true ↔ k ∈ keys d := by
  cases h : get? d k with
  | none => simp [(get?_eq_none_iff d k).1 h]
  | some v => simp [(mem_keys_iff d k).2 ⟨v, get?_mem d k v h⟩]

end Dict

namespace Exec
variable {κ α ε : Type} [DecidableEq κ]
set_option linter.unusedSectionVars false

theorem isNameInValues_iff (N : NameTuples κ α) (d : Dict κ (Except ε α)) (n : κ) :
    N.isNameInValues d n = true ↔ ∃ k r, (k, r) ∈ d ∧ n ∈ N.names r := by
  induction d with
  | nil => simp [NameTuples.isNameInValues]
  | cons kv d ih =>
    obtain ⟨k, r⟩ := kv
    unfold NameTuples.isNameInValues
    split
    · rename_i h
      exact ⟨fun _ => ⟨k, r, List.mem_cons_self, h⟩, fun _ => rfl⟩
    · rename_i h
      rw [ih]
      constructor
      · rintro ⟨k', r', h1, h2⟩; exact ⟨k', r', List.mem_cons_of_mem _ h1, h2⟩
      · rintro ⟨k', r', h1, h2⟩
        rcases List.mem_cons.1 h1 with h3 | h3
        · cases h3; exact absurd h2 h
        · exact ⟨k', r', h3, h2⟩

/-- The common step: when the names of the group are loaded, the group is built, and only the arrays used by the
remaining groups are kept. -/
def gstep (N : NameTuples κ α) (build : κ → List κ → List (Except ε α) → Except ε (Except ε α)) (key : κ)
    (g : Except ε α) (s : GroupQueues κ α ε) : Except ε (GroupQueues κ α ε) :=
  if (N.names g).all (fun n => (s.arrays.get? n).isSome) then
    match build key (N.names g) ((N.names g).filterMap (fun n => s.arrays.get? n)) with
    | .error e => .error e
    | .ok r =>
      .ok { groups := s.groups.erase key,
            arrays := s.arrays.filter (fun kv => N.isNameInValues (s.groups.erase key) kv.1),
            out := s.out.set key r }
  else .ok s

def gloop (N : NameTuples κ α) (build : κ → List κ → List (Except ε α) → Except ε (Except ε α)) :
    Dict κ (Except ε α) → GroupQueues κ α ε → Except ε (GroupQueues κ α ε)
  | [], s => .ok s
  | (key, g) :: todo, s =>
    match gstep N build key g s with
    | .error e => .error e
    | .ok s => gloop N build todo s

/-! ## Subsets -/

def SubsetOps.build (O : SubsetOps κ α ε) (key : κ) (ns : List κ) (rs : List (Except ε α)) :
    Except ε (Except ε α) :=
  match O.make key ns rs with
  | .error e => .error e
  | .ok v => .ok (.ok v)

theorem dropUnused_eq (O : SubsetOps κ α ε) (groups : Dict κ (Except ε α)) (ns : List κ)
    (d : Dict κ (Except ε α)) (hd : d.KeysUnique) :
    O.dropUnused groups ns d = d.filter (fun kv => O.isNameInValues groups kv.1 || !decide (kv.1 ∈ ns)) := by
  induction ns generalizing d with
  | nil => symm; simp [SubsetOps.dropUnused]
  | cons n ns ih =>
    unfold SubsetOps.dropUnused
    split
    · rename_i h
      rw [ih d hd]
      congr 1
      funext kv
      by_cases he : kv.1 = n
      · rw [he, h]; simp
      · simp [he]
    · rename_i h
      rw [ih _ (Dict.keysUnique_erase d n hd), Dict.erase_eq_filter d n hd, List.filter_filter]
      congr 1
      funext kv
      by_cases he : kv.1 = n
      · rw [he]; simp [h]
      · simp [he]

theorem subsets_step_eq (O : SubsetOps κ α ε) (key : κ) (g : Except ε α) (s : GroupQueues κ α ε)
    (hd : s.arrays.KeysUnique) : O.step key g s = gstep O.toNameTuples O.build key g s := by
  unfold SubsetOps.step gstep SubsetOps.build
  simp only
  split
  · rw [dropUnused_eq _ _ _ _ hd]
    have : (s.arrays.filter (fun kv => O.isNameInValues (s.groups.erase key) kv.1 || !decide (kv.1 ∈ s.arrays.keys))) =
        s.arrays.filter (fun kv => O.isNameInValues (s.groups.erase key) kv.1) := by
      apply List.filter_congr
      rintro ⟨k, v⟩ hkv
      have : k ∈ s.arrays.keys := (Dict.mem_keys_iff _ _).2 ⟨v, hkv⟩
      simp [this]
    rw [this]
    cases O.make key (O.names g) ((O.names g).filterMap (fun n => s.arrays.get? n)) <;> rfl
  · rfl

/-! ## Couples -/

def CoupleOps.build (O : CoupleOps κ α ε) (key : κ) (ns : List κ) (rs : List (Except ε α)) :
    Except ε (Except ε α) :=
  match ns, rs with
  | [n0, n1], [r0, r1] => O.couple key n0 n1 r0 r1
  | _, _ => .error O.indexError

theorem couples_step_eq (O : CoupleOps κ α ε) (key : κ) (g : Except ε α) (s : GroupQueues κ α ε)
    (hd : s.arrays.KeysUnique) (hg : s.groups.KeysUnique) (hkey : (key, g) ∈ s.groups)
    {n0 n1 : κ} (hn : O.names g = [n0, n1]) (hne : n0 ≠ n1)
    (hused : ∀ n ∈ s.arrays.keys, O.isNameInValues s.groups n = true) :
    O.step key g s = gstep O.toNameTuples O.build key g s := by
  unfold CoupleOps.step gstep
  rw [hn]
  simp only [List.all_cons, List.all_nil, Bool.and_true]
  cases h0 : s.arrays.get? n0 with
  | none => simp
  | some r0 =>
    cases h1 : s.arrays.get? n1 with
    | none => simp
    | some r1 =>
      simp only [Option.isSome_some, Bool.and_self, if_true, h0, h1, List.filterMap_cons, List.filterMap_nil]
      simp only [CoupleOps.build]
      cases hb : O.couple key n0 n1 r0 r1 with
      | error e => rfl
      | ok r =>
        simp only
        generalize hG : s.groups.erase key = G
        -- an array which is not used any more is one of the couple
        have hmem : ∀ n ∈ s.arrays.keys, O.isNameInValues G n = false → n = n0 ∨ n = n1 := by
          intro n hnk hf
          obtain ⟨k', r', h2, h3⟩ := (isNameInValues_iff _ _ _).1 (hused n hnk)
          by_cases hk : k' = key
          · subst hk
            have e1 := Dict.mem_get? _ hg _ _ h2
            have e2 := Dict.mem_get? _ hg _ _ hkey
            rw [e1] at e2
            cases e2
            rw [hn] at h3
            simpa using h3
          · exfalso
            have : O.isNameInValues G n = true := by
              refine (isNameInValues_iff _ _ _).2 ⟨k', r', ?_, h3⟩
              rw [← hG, Dict.erase_eq_filter _ _ hg, List.mem_filter]
              exact ⟨h2, by simpa using hk⟩
            rw [this] at hf; cases hf
        have hd0 := Dict.keysUnique_erase s.arrays n0 hd
        have hfil : ∀ p : κ → Bool, (∀ n ∈ s.arrays.keys, p n = O.isNameInValues G n) →
            s.arrays.filter (fun kv => p kv.1) = s.arrays.filter (fun kv => O.isNameInValues G kv.1) := by
          intro p hp
          apply List.filter_congr
          rintro ⟨k, v⟩ hkv
          exact hp k ((Dict.mem_keys_iff _ _).2 ⟨v, hkv⟩)
        unfold CoupleOps.dropName
        cases hu0 : O.isNameInValues G n0 with
        | true =>
          simp only [if_true, hu0]
          cases hu1 : O.isNameInValues G n1 with
          | true =>
            simp only [if_true]
            congr 2
            symm
            rw [List.filter_eq_self]
            rintro ⟨k, v⟩ hkv
            by_contra hf
            rw [Bool.not_eq_true] at hf
            rcases hmem k ((Dict.mem_keys_iff _ _).2 ⟨v, hkv⟩) hf with rfl | rfl
            · rw [hu0] at hf; cases hf
            · rw [hu1] at hf; cases hf
          | false =>
            simp only [Bool.false_eq_true, if_false, h1]
            congr 2
            rw [Dict.erase_eq_filter _ _ hd]
            refine hfil (fun n => decide (n ≠ n1)) (fun n hnk => ?_)
            by_cases he : n = n1
            · subst he; simp [hu1]
            · rw [decide_eq_true he]
              cases hx : O.isNameInValues G n with
              | true => rfl
              | false =>
                rcases hmem n hnk hx with rfl | rfl
                · rw [hu0] at hx; cases hx
                · exact absurd rfl he
        | false =>
          simp only [Bool.false_eq_true, if_false, h0]
          cases hu1 : O.isNameInValues G n1 with
          | true =>
            simp only [if_true]
            congr 2
            rw [Dict.erase_eq_filter _ _ hd]
            refine hfil (fun n => decide (n ≠ n0)) (fun n hnk => ?_)
            by_cases he : n = n0
            · subst he; simp [hu0]
            · rw [decide_eq_true he]
              cases hx : O.isNameInValues G n with
              | true => rfl
              | false =>
                rcases hmem n hnk hx with rfl | rfl
                · exact absurd rfl he
                · rw [hu1] at hx; cases hx
          | false =>
            have h1' : (s.arrays.erase n0).get? n1 = some r1 := by
              rw [Dict.get?_erase _ _ _ hd, if_neg (Ne.symm hne), h1]
            simp only [Bool.false_eq_true, if_false, h1']
            congr 2
            rw [Dict.erase_eq_filter _ _ hd0, Dict.erase_eq_filter _ _ hd, List.filter_filter]
            refine (List.filter_congr ?_).trans (hfil (fun n => decide (n ≠ n1) && decide (n ≠ n0)) (fun n hnk => ?_))
            · intro x _; rfl
            by_cases he : n = n0
            · subst he; simp [hu0]
            · by_cases he1 : n = n1
              · subst he1; simp [hu1]
              · rw [decide_eq_true he, decide_eq_true he1]
                cases hx : O.isNameInValues G n with
                | true => rfl
                | false =>
                  rcases hmem n hnk hx with rfl | rfl
                  · exact absurd rfl he
                  · exact absurd rfl he1

/-- What the two functions need to know on the queues. -/
structure MakePre (N : NameTuples κ α) (okNames : List κ → Prop) (s : GroupQueues κ α ε) : Prop where
  groups : s.groups.KeysUnique
  arrays : s.arrays.KeysUnique
  names : ∀ kv ∈ s.groups, okNames (N.names kv.2)
  used : ∀ n ∈ s.arrays.keys, N.isNameInValues s.groups n = true

theorem gstep_pre {N : NameTuples κ α} {build : κ → List κ → List (Except ε α) → Except ε (Except ε α)}
    {okNames : List κ → Prop} {key : κ} {g : Except ε α} {s s' : GroupQueues κ α ε} (h : MakePre N okNames s)
    (hs : gstep N build key g s = .ok s') : MakePre N okNames s' := by
  unfold gstep at hs
  split at hs
  · split at hs
    · cases hs
    · cases hs
      refine ⟨Dict.keysUnique_erase _ _ h.groups, Dict.keysUnique_filter _ _ h.arrays, ?_, ?_⟩
      · intro kv hkv
        simp only at hkv
        rw [Dict.erase_eq_filter _ _ h.groups] at hkv
        exact h.names kv (List.mem_filter.1 hkv).1
      · intro n hn
        simp only at hn
        rw [Dict.keys_filter] at hn
        exact (List.mem_filter.1 hn).2
  · cases hs; exact h

theorem gstep_mem {N : NameTuples κ α} {build : κ → List κ → List (Except ε α) → Except ε (Except ε α)}
    {key : κ} {g : Except ε α} {s s' : GroupQueues κ α ε} (h : s.groups.KeysUnique)
    (hs : gstep N build key g s = .ok s') {kv : κ × Except ε α} (hkv : kv ∈ s.groups) (hne : kv.1 ≠ key) :
    kv ∈ s'.groups := by
  unfold gstep at hs
  split at hs
  · split at hs
    · cases hs
    · cases hs
      simp only
      rw [Dict.erase_eq_filter _ _ h, List.mem_filter]
      exact ⟨hkv, by simpa using hne⟩
  · cases hs; exact hkv

theorem makeSubsets_eq (O : SubsetOps κ α ε) {okNames : List κ → Prop} {s : GroupQueues κ α ε}
    (h : MakePre O.toNameTuples okNames s) : O.makeSubsets s = gloop O.toNameTuples O.build s.groups s := by
  unfold SubsetOps.makeSubsets
  generalize s.groups = todo
  induction todo generalizing s with
  | nil => rfl
  | cons kv todo ih =>
    obtain ⟨key, g⟩ := kv
    unfold SubsetOps.loop gloop
    rw [subsets_step_eq O key g s h.arrays]
    cases hs : gstep O.toNameTuples O.build key g s with
    | error e => rfl
    | ok s' => exact ih (gstep_pre h hs)

/-- The names of a couple are two different names. -/
def twoNames (ns : List κ) : Prop := ∃ n0 n1, ns = [n0, n1] ∧ n0 ≠ n1

theorem makeCouples_eq (O : CoupleOps κ α ε) {s : GroupQueues κ α ε}
    (h : MakePre O.toNameTuples twoNames s) : O.makeCouples s = gloop O.toNameTuples O.build s.groups s := by
  unfold CoupleOps.makeCouples
  have key : ∀ (todo : Dict κ (Except ε α)) (s : GroupQueues κ α ε), MakePre O.toNameTuples twoNames s →
      todo.KeysUnique → (∀ kv ∈ todo, kv ∈ s.groups) → O.loop todo s = gloop O.toNameTuples O.build todo s := by
    intro todo
    induction todo with
    | nil => intros; rfl
    | cons kv todo ih =>
      obtain ⟨key, g⟩ := kv
      intro s h hu hsub
      have hmem := hsub _ List.mem_cons_self
      obtain ⟨n0, n1, hn, hne⟩ := h.names _ hmem
      unfold CoupleOps.loop gloop
      rw [couples_step_eq O key g s h.arrays h.groups hmem hn hne h.used]
      cases hs : gstep O.toNameTuples O.build key g s with
      | error e => rfl
      | ok s' =>
        refine ih s' (gstep_pre h hs) (Dict.keysUnique_tail _ _ hu) ?_
        intro kv hkv
        refine gstep_mem h.groups hs (hsub kv (List.mem_cons_of_mem _ hkv)) ?_
        unfold Dict.KeysUnique at hu
        rw [Dict.keys_cons, List.nodup_cons] at hu
        intro he
        exact hu.1 ((Dict.mem_keys_iff _ _).2 ⟨kv.2, he ▸ hkv⟩)
  exact key s.groups s h h.groups (fun _ hkv => hkv)

end Exec
end Verif
