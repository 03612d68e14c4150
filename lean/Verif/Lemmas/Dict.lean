import Verif.Py.Dict

namespace Verif.Dict
set_option linter.unusedSectionVars false
variable {κ α : Type} [DecidableEq κ]

theorem keys_cons (k : κ) (v : α) (d : Dict κ α) : keys ((k, v) :: d) = k :: keys d := rfl

theorem mem_keys_iff (d : Dict κ α) (k : κ) : k ∈ keys d ↔ ∃ v, (k, v) ∈ d := by
  unfold keys
  rw [List.mem_map]
  constructor
  · rintro ⟨⟨k', v⟩, h, rfl⟩; exact ⟨v, h⟩
  · rintro ⟨v, h⟩; exact ⟨_, h, rfl⟩

theorem get?_eq_none_iff (d : Dict κ α) (k : κ) : get? d k = none ↔ k ∉ keys d := by
  induction d with
  | nil => simp [get?, keys]
  | cons kv d ih =>
    obtain ⟨k', v⟩ := kv
    simp only [get?, keys_cons, List.mem_cons]
    split
    · rename_i h; subst h; simp
    · rename_i h
      rw [ih]
      constructor
      · rintro h1 (h2 | h2)
        · exact h h2.symm
        · exact h1 h2
      · intro h1 h2; exact h1 (Or.inr h2)

theorem get?_mem (d : Dict κ α) (k : κ) (v : α) (h : get? d k = some v) : (k, v) ∈ d := by
  induction d with
  | nil => simp [get?] at h
  | cons kv d ih =>
    obtain ⟨k', v'⟩ := kv
    simp only [get?] at h
    split at h
    · rename_i hk; subst hk; cases h; exact List.mem_cons_self
    · exact List.mem_cons_of_mem _ (ih h)

theorem mem_get? (d : Dict κ α) (hd : KeysUnique d) (k : κ) (v : α) (h : (k, v) ∈ d) :
    get? d k = some v := by
  induction d with
  | nil => cases h
  | cons kv d ih =>
    obtain ⟨k', v'⟩ := kv
    unfold KeysUnique at hd ih
    rw [keys_cons, List.nodup_cons] at hd
    simp only [get?]
    rw [List.mem_cons] at h
    rcases h with h | h
    · cases h; simp
    · have : k ∈ keys d := (mem_keys_iff d k).2 ⟨v, h⟩
      have hne : k' ≠ k := by rintro rfl; exact hd.1 this
      rw [if_neg hne]; exact ih hd.2 h

theorem keys_set_of_mem (d : Dict κ α) (k : κ) (v : α) (h : k ∈ keys d) :
    keys (set d k v) = keys d := by
  induction d with
  | nil => simp [keys] at h
  | cons kv d ih =>
    obtain ⟨k', v'⟩ := kv
    simp only [set]
    split
    · rename_i hk; subst hk; rfl
    · rename_i hk
      rw [keys_cons, List.mem_cons] at h
      rw [keys_cons, keys_cons, ih (h.resolve_left (fun e => hk e.symm))]

theorem set_of_not_mem (d : Dict κ α) (k : κ) (v : α) (h : k ∉ keys d) :
    set d k v = d ++ [(k, v)] := by
  induction d with
  | nil => rfl
  | cons kv d ih =>
    obtain ⟨k', v'⟩ := kv
    rw [keys_cons, List.mem_cons] at h
    have hk : k' ≠ k := fun e => h (Or.inl e.symm)
    simp only [set, if_neg hk, List.cons_append]
    rw [ih (fun hm => h (Or.inr hm))]

theorem keys_set_of_not_mem (d : Dict κ α) (k : κ) (v : α) (h : k ∉ keys d) :
    keys (set d k v) = keys d ++ [k] := by
  rw [set_of_not_mem d k v h]; simp [keys]

theorem keysUnique_set (d : Dict κ α) (k : κ) (v : α) (hd : KeysUnique d) :
    KeysUnique (set d k v) := by
  unfold KeysUnique at *
  by_cases h : k ∈ keys d
  · rw [keys_set_of_mem d k v h]; exact hd
  · rw [keys_set_of_not_mem d k v h, List.nodup_append]
    refine ⟨hd, by simp, ?_⟩
    intro a ha b hb
    simp at hb; subst hb; rintro rfl; exact h ha

theorem get?_set (d : Dict κ α) (k k' : κ) (v : α) :
    get? (set d k v) k' = if k' = k then some v else get? d k' := by
  induction d with
  | nil =>
    simp only [set, get?]
    by_cases h : k' = k
    · subst h; simp
    · rw [if_neg (fun e => h e.symm), if_neg h]
  | cons kv d ih =>
    obtain ⟨k2, v2⟩ := kv
    simp only [set]
    by_cases h2 : k2 = k
    · subst h2
      simp only [if_true, get?]
      by_cases h : k' = k2
      · subst h; simp
      · rw [if_neg (fun e => h e.symm), if_neg h]
        rw [if_neg (fun e => h e.symm)]
    · rw [if_neg h2]
      simp only [get?]
      rw [ih]
      by_cases h3 : k2 = k'
      · subst h3; simp [h2]
      · simp [h3]

theorem keys_erase (d : Dict κ α) (k : κ) (hd : KeysUnique d) :
    keys (erase d k) = (keys d).filter (· ≠ k) := by
  induction d with
  | nil => rfl
  | cons kv d ih =>
    obtain ⟨k', v'⟩ := kv
    unfold KeysUnique at hd ih
    rw [keys_cons, List.nodup_cons] at hd
    simp only [erase]
    split
    · rename_i hk
      subst hk
      rw [keys_cons, List.filter_cons_of_neg (by simp)]
      symm
      rw [List.filter_eq_self]
      intro a ha
      simp only [ne_eq, decide_not, Bool.not_eq_eq_eq_not, Bool.not_true, decide_eq_false_iff_not]
      rintro rfl; exact hd.1 ha
    · rename_i hk
      rw [keys_cons, keys_cons, List.filter_cons_of_pos (by simpa using hk), ih hd.2]

theorem keysUnique_erase (d : Dict κ α) (k : κ) (hd : KeysUnique d) : KeysUnique (erase d k) := by
  unfold KeysUnique at *
  rw [keys_erase d k hd]
  exact List.Nodup.sublist List.filter_sublist hd

theorem get?_erase (d : Dict κ α) (k k' : κ) (hd : KeysUnique d) :
    get? (erase d k) k' = if k' = k then none else get? d k' := by
  induction d with
  | nil => simp [erase, get?]
  | cons kv d ih =>
    obtain ⟨k2, v2⟩ := kv
    unfold KeysUnique at hd ih
    rw [keys_cons, List.nodup_cons] at hd
    simp only [erase]
    by_cases h2 : k2 = k
    · subst h2
      simp only [if_true, get?]
      by_cases h : k' = k2
      · subst h; simp only [if_true]; rw [get?_eq_none_iff]; exact hd.1
      · rw [if_neg h, if_neg (fun e => h e.symm)]
    · rw [if_neg h2]
      simp only [get?]
      rw [ih hd.2]
      by_cases h3 : k2 = k'
      · subst h3; simp [h2]
      · simp [h3]

theorem keysUnique_tail (kv : κ × α) (d : Dict κ α) (hd : KeysUnique (kv :: d)) : KeysUnique d := by
  unfold KeysUnique at *
  obtain ⟨k, v⟩ := kv
  rw [keys_cons, List.nodup_cons] at hd
  exact hd.2

/-- A dictionary with unique keys is determined by its list of keys and its lookups. -/
theorem ext_of_keys (d d' : Dict κ α) (hd : KeysUnique d) (hk : keys d = keys d')
    (hg : ∀ k, get? d k = get? d' k) : d = d' := by
  induction d generalizing d' with
  | nil => cases d' with
    | nil => rfl
    | cons kv d' => simp [keys] at hk
  | cons kv d ih =>
    cases d' with
    | nil => simp [keys] at hk
    | cons kv' d' =>
      obtain ⟨k, v⟩ := kv
      obtain ⟨k', v'⟩ := kv'
      rw [keys_cons, keys_cons, List.cons.injEq] at hk
      obtain ⟨rfl, hk⟩ := hk
      have h1 := hg k
      simp only [get?, if_true] at h1
      cases h1
      have hd' := hd
      unfold KeysUnique at hd'
      rw [keys_cons, List.nodup_cons] at hd'
      congr 1
      apply ih d' hd'.2 hk
      intro k2
      by_cases h2 : k2 = k
      · subst h2
        rw [(get?_eq_none_iff d k2).2 hd'.1, (get?_eq_none_iff d' k2).2 (by rw [← hk]; exact hd'.1)]
      · have := hg k2
        simp only [get?, if_neg (fun e : k = k2 => h2 e.symm)] at this
        exact this

end Verif.Dict
