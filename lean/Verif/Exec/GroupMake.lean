import Verif.Exec.GroupDict

/-!
# What one call of the function making groups does
-/

namespace Verif.Exec
open Verif
set_option linter.unusedSectionVars false

variable {κ α ε : Type} [DecidableEq κ] {N : NameTuples κ α}
  {build : κ → List κ → List (Except ε α) → Except ε (Except ε α)} {okNames : List κ → Prop}

structure Made (N : NameTuples κ α) (build : κ → List κ → List (Except ε α) → Except ε (Except ε α))
    (todo : List κ) (s s' : GroupQueues κ α ε) : Prop where
  sub : ∀ k g, s'.groups.get? k = some g → s.groups.get? k = some g
  left : ∀ k g, s'.groups.get? k = some g → k ∈ todo → ∃ n ∈ N.names g, s.arrays.get? n = none
  made : ∀ k g, s.groups.get? k = some g → s'.groups.get? k = none →
    (∀ n ∈ N.names g, (s.arrays.get? n).isSome = true) ∧
    ∃ r, build k (N.names g) ((N.names g).filterMap (fun n => s.arrays.get? n)) = .ok r ∧ s'.out.get? k = some r
  out : ∀ k, (s'.groups.get? k).isSome = true ∨ s.groups.get? k = none → s'.out.get? k = s.out.get? k
  kept : ∀ n r, s'.arrays.get? n = some r ↔
    s.arrays.get? n = some r ∧ ∃ k g, s'.groups.get? k = some g ∧ n ∈ N.names g

theorem Made.trans {t1 t2 : List κ} {s s1 s2 : GroupQueues κ α ε} (h1 : Made N build t1 s s1)
    (h2 : Made N build t2 s1 s2) : Made N build (t1 ++ t2) s s2 where
  sub := fun k g h => h1.sub k g (h2.sub k g h)
  left := by
    intro k g hk ht
    rcases List.mem_append.1 ht with ht | ht
    · exact h1.left k g (h2.sub k g hk) ht
    · obtain ⟨n, hn, h3⟩ := h2.left k g hk ht
      refine ⟨n, hn, ?_⟩
      cases h4 : s.arrays.get? n with
      | none => rfl
      | some r =>
        rw [(h1.kept n r).2 ⟨h4, k, g, h2.sub k g hk, hn⟩] at h3
        cases h3
  made := by
    intro k g hk hk2
    cases h3 : s1.groups.get? k with
    | none =>
      obtain ⟨e1, r, e2, e3⟩ := h1.made k g hk h3
      exact ⟨e1, r, e2, by rw [h2.out k (Or.inr h3), e3]⟩
    | some g' =>
      have := h1.sub k g' h3
      rw [hk] at this; cases this
      obtain ⟨e1, r, e2, e3⟩ := h2.made k g h3 hk2
      have heq : ∀ n ∈ N.names g, s1.arrays.get? n = s.arrays.get? n := by
        intro n hn
        have := e1 n hn
        cases h4 : s1.arrays.get? n with
        | none => rw [h4] at this; cases this
        | some r => exact ((h1.kept n r).1 h4).1.symm
      refine ⟨fun n hn => by rw [← heq n hn]; exact e1 n hn, r, ?_, e3⟩
      rw [← e2]
      congr 1
      exact List.filterMap_congr (fun n hn => (heq n hn).symm)
  out := by
    intro k hk
    rw [h2.out k, h1.out k]
    · rcases hk with hk | hk
      · left
        cases h3 : s2.groups.get? k with
        | none => rw [h3] at hk; cases hk
        | some g => rw [h2.sub k g h3]; rfl
      · exact Or.inr hk
    · rcases hk with hk | hk
      · exact Or.inl hk
      · right
        cases h3 : s1.groups.get? k with
        | none => rfl
        | some g => rw [h1.sub k g h3] at hk; cases hk
  kept := by
    intro n r
    rw [h2.kept, h1.kept]
    constructor
    · rintro ⟨⟨e1, _⟩, e2⟩; exact ⟨e1, e2⟩
    · rintro ⟨e1, k, g, e2, e3⟩; exact ⟨⟨e1, k, g, h2.sub k g e2, e3⟩, k, g, e2, e3⟩

theorem usedBy_iff {d : Dict κ (Except ε α)} (hd : d.KeysUnique) (n : κ) :
    N.isNameInValues d n = true ↔ ∃ k g, d.get? k = some g ∧ n ∈ N.names g := by
  rw [isNameInValues_iff]
  constructor
  · rintro ⟨k, g, h1, h2⟩; exact ⟨k, g, Dict.mem_get? _ hd _ _ h1, h2⟩
  · rintro ⟨k, g, h1, h2⟩; exact ⟨k, g, Dict.get?_mem _ _ _ h1, h2⟩

theorem Made.refl (s : GroupQueues κ α ε) (hpre : MakePre N okNames s) (t : List κ)
    (ht : ∀ k g, s.groups.get? k = some g → k ∈ t → ∃ n ∈ N.names g, s.arrays.get? n = none) :
    Made N build t s s where
  sub := fun _ _ h => h
  left := ht
  made := by intro k g h1 h2; rw [h1] at h2; cases h2
  out := fun _ _ => rfl
  kept := by
    intro n r
    constructor
    · intro h
      refine ⟨h, ?_⟩
      have := hpre.used n ((Dict.isSome_get?_iff _ _).1 (by rw [h]; rfl))
      exact (usedBy_iff hpre.groups n).1 this
    · exact fun h => h.1

theorem gstep_made {key : κ} {g : Except ε α} {s s' : GroupQueues κ α ε} (hpre : MakePre N okNames s)
    (hkey : s.groups.get? key = some g) (hs : gstep N build key g s = .ok s') : Made N build [key] s s' := by
  unfold gstep at hs
  split at hs
  · rename_i hall
    rw [List.all_eq_true] at hall
    split at hs
    · cases hs
    · rename_i r hr
      cases hs
      have hge : ∀ k, (s.groups.erase key).get? k = if k = key then none else s.groups.get? k :=
        fun k => Dict.get?_erase _ _ _ hpre.groups
      refine ⟨?_, ?_, ?_, ?_, ?_⟩
      · intro k g' h; simp only [hge] at h; split at h
        · cases h
        · exact h
      · intro k g' h hk; simp only [hge] at h
        rw [List.mem_singleton] at hk
        rw [if_pos hk] at h; cases h
      · intro k g' h1 h2
        simp only [hge] at h2
        split at h2
        · rename_i hk; subst hk
          rw [hkey] at h1; cases h1
          exact ⟨hall, r, hr, by simp [Dict.get?_set]⟩
        · rw [h1] at h2; cases h2
      · intro k hk
        simp only [hge] at hk
        simp only [Dict.get?_set]
        rw [if_neg]
        rintro rfl
        rw [if_pos rfl, hkey] at hk
        rcases hk with hk | hk <;> cases hk
      · intro n r'
        simp only [Dict.get?_filter]
        rw [← usedBy_iff (Dict.keysUnique_erase _ _ hpre.groups)]
        split
        · rename_i h; simp [h]
        · rename_i h; simp [h]
  · rename_i hall
    cases hs
    refine Made.refl s hpre _ ?_
    intro k g' h hk
    rw [List.mem_singleton] at hk
    subst hk
    rw [hkey] at h; cases h
    rw [List.all_eq_true, Classical.not_forall] at hall
    obtain ⟨n, hn⟩ := hall
    rw [Classical.not_imp] at hn
    refine ⟨n, hn.1, ?_⟩
    cases h : s.arrays.get? n with
    | none => rfl
    | some r => exact absurd (by rw [h]; rfl) hn.2

theorem gloop_made (todo : Dict κ (Except ε α)) : ∀ (s s' : GroupQueues κ α ε), MakePre N okNames s →
    todo.KeysUnique → (∀ kv ∈ todo, kv ∈ s.groups) → gloop N build todo s = .ok s' →
    Made N build todo.keys s s' := by
  induction todo with
  | nil =>
    intro s s' hpre _ _ hs
    simp only [gloop] at hs
    cases hs
    exact Made.refl s hpre _ (fun _ _ _ h => by cases h)
  | cons kv todo ih =>
    obtain ⟨key, g⟩ := kv
    intro s s' hpre hu hsub hs
    have hu' := hu
    unfold Dict.KeysUnique at hu'
    rw [Dict.keys_cons, List.nodup_cons] at hu'
    unfold gloop at hs
    cases hst : gstep N build key g s with
    | error e => rw [hst] at hs; cases hs
    | ok s1 =>
      rw [hst] at hs
      have h1 := gstep_made hpre (Dict.mem_get? _ hpre.groups _ _ (hsub _ List.mem_cons_self)) hst
      have h2 := ih s1 s' (gstep_pre hpre hst) hu'.2 (by
        intro kv hkv
        refine gstep_mem hpre.groups hst (hsub kv (List.mem_cons_of_mem _ hkv)) ?_
        intro he
        exact hu'.1 ((Dict.mem_keys_iff _ _).2 ⟨kv.2, he ▸ hkv⟩)) hs
      have := h1.trans h2
      rw [Dict.keys_cons]
      exact this

theorem make_made {make : GroupQueues κ α ε → Except ε (GroupQueues κ α ε)}
    (hmake : ∀ s, MakePre N okNames s → make s = gloop N build s.groups s) {s s' : GroupQueues κ α ε}
    (hpre : MakePre N okNames s) (hs : make s = .ok s') : Made N build s.groups.keys s s' := by
  rw [hmake s hpre] at hs
  exact gloop_made s.groups s s' hpre hpre.groups (fun _ h => h) hs

end Verif.Exec
