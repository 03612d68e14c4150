import Verif.Model.ResultDir
import Verif.Lemmas.Text
import Mathlib.Data.List.Perm.Subperm
import Mathlib.Data.List.Nodup

/-!
# C05, C06 — preparation of the result directory
-/

namespace Verif
open Verif.ResultDir Verif.Text

theorem natStr_injective (a b : Nat) (h : natStr a = natStr b) : a = b := by
  have ha := digitsVal_natStr a
  rw [h, digitsVal_natStr b] at ha
  exact (Option.some.inj ha).symm

theorem FS_exists_iff (fs : FS) (p : Path) : fs.exists p = true ↔ ∃ d, (p, d) ∈ fs := by
  unfold FS.exists
  rw [List.any_eq_true]
  constructor
  · rintro ⟨⟨q, d⟩, h1, h2⟩
    simp only [decide_eq_true_eq] at h2
    subst h2; exact ⟨d, h1⟩
  · rintro ⟨d, h⟩; exact ⟨(p, d), h, by simp⟩

theorem searchFree_spec (fs : FS) (base : Path) (fuel i j : Nat)
    (h : searchFree fs base fuel i = some j) :
    i ≤ j ∧ fs.exists (base ++ natStr j) = false ∧ ∀ k, i ≤ k → k < j → fs.exists (base ++ natStr k) = true := by
  induction fuel generalizing i with
  | zero => simp [searchFree] at h
  | succ fuel ih =>
    unfold searchFree at h
    split at h
    · rename_i he
      obtain ⟨h1, h2, h3⟩ := ih (i+1) h
      refine ⟨by omega, h2, ?_⟩
      intro k hk1 hk2
      by_cases hki : k = i
      · subst hki; exact he
      · exact h3 k (by omega) hk2
    · rename_i he
      cases h
      exact ⟨Nat.le_refl _, by simpa using he, by intro k h1 h2; omega⟩

theorem searchFree_none (fs : FS) (base : Path) (fuel i : Nat) (h : searchFree fs base fuel i = none) :
    ∀ k, i ≤ k → k < i + fuel → fs.exists (base ++ natStr k) = true := by
  induction fuel generalizing i with
  | zero => intro k h1 h2; omega
  | succ fuel ih =>
    unfold searchFree at h
    split at h
    · rename_i he
      intro k h1 h2
      by_cases hki : k = i
      · subst hki; exact he
      · exact ih (i+1) h k (by omega) (by omega)
    · cases h

/-- C05: the search of a free number always ends (there are finitely many existing paths). -/
theorem C05_new_dir_search_terminates (fs : FS) (base : Path) :
    ∃ i, searchFree fs base (fs.length + 1) 0 = some i ∧ i ≤ fs.length := by
  cases h : searchFree fs base (fs.length + 1) 0 with
  | some i =>
    refine ⟨i, rfl, ?_⟩
    have hs := (searchFree_spec fs base _ _ _ h).2.2
    -- i distinct existing paths
    apply Nat.le_of_not_lt
    intro hlt
    have hsub : ((List.range i).map (fun k => base ++ natStr k)) ⊆ fs.map Prod.fst := by
      intro p hp
      obtain ⟨k, hk, rfl⟩ := List.mem_map.1 hp
      obtain ⟨d, hd⟩ := (FS_exists_iff fs _).1 (hs k (by omega) (List.mem_range.1 hk))
      exact List.mem_map.2 ⟨_, hd, rfl⟩
    have hnd : ((List.range i).map (fun k => base ++ natStr k)).Nodup := by
      apply List.Nodup.map _ (List.nodup_range)
      intro a b hab
      exact natStr_injective a b (List.append_cancel_left hab)
    have := (List.Nodup.subperm hnd hsub).length_le
    simp at this; omega
  | none =>
    exfalso
    have hs := searchFree_none fs base _ _ h
    have hsub : ((List.range (fs.length + 1)).map (fun k => base ++ natStr k)) ⊆ fs.map Prod.fst := by
      intro p hp
      obtain ⟨k, hk, rfl⟩ := List.mem_map.1 hp
      obtain ⟨d, hd⟩ := (FS_exists_iff fs _).1 (hs k (by omega) (by have := List.mem_range.1 hk; omega))
      exact List.mem_map.2 ⟨_, hd, rfl⟩
    have hnd : ((List.range (fs.length + 1)).map (fun k => base ++ natStr k)).Nodup := by
      apply List.Nodup.map _ (List.nodup_range)
      intro a b hab
      exact natStr_injective a b (List.append_cancel_left hab)
    have := (List.Nodup.subperm hnd hsub).length_le
    simp only [List.length_map, List.length_range] at this
    omega

/-- C05: a mode that is not documented is rejected. -/
theorem C05_bad_mode_rejected (parentOk : Path → Bool) (fs : FS) (answers : List String) (inp : Path)
    (saving : Option SavingPath) (pf : Path) (mode : String) :
    prepare parentOk fs answers inp saving pf mode = .error .valueError ↔
      mode ∉ ["ask", "new_dir", "complete", "recompute", "from_path_indices"] := by
  constructor
  · intro h hm
    have hm' : mode ∈ howValues := hm
    unfold prepare at h
    rw [if_neg (by simpa using hm')] at h
    have hmk : ∀ fs p, mkdirExistOk parentOk fs p ≠ .error .valueError := by
      intro fs p; unfold mkdirExistOk; split
      · split <;> simp
      · split <;> simp
    have hask : ∀ l, askLoop l ≠ .error .valueError := by
      intro l
      induction l with
      | nil => simp [askLoop]
      | cons a l ih => unfold askLoop; split
                       · simp
                       · exact ih
    have hmode : ∀ a h, modeOfAnswer a h ≠ .error .valueError := by
      intro a h; unfold modeOfAnswer
      repeat' split
      all_goals simp
    have hcm : chooseMode answers mode ≠ .error .valueError := by
      unfold chooseMode
      split
      · cases hl : askLoop answers with
        | error e => intro h'; cases h'; exact hask _ hl
        | ok a => exact hmode a mode
      · simp
    have hcp : choosePath fs answers (baseDir inp saving pf) (isStr saving) mode ≠ .error .valueError := by
      unfold choosePath
      split
      · simp
      · cases hl : chooseMode answers mode with
        | error e => intro h'; cases h'; exact hcm hl
        | ok a =>
          simp only
          split
          · split
            · simp
            · split <;> simp
          · simp
    cases hl : choosePath fs answers (baseDir inp saving pf) (isStr saving) mode with
    | error e => rw [hl] at h; cases h; exact hcp hl
    | ok r =>
      rw [hl] at h
      simp only at h
      cases hm2 : mkdirExistOk parentOk fs r.1 with
      | error e => rw [hm2] at h; cases h; exact hmk _ _ hm2
      | ok r => rw [hm2] at h; cases h
  · intro h
    unfold prepare
    rw [if_pos (by exact h)]

private theorem mkdir_ok (parentOk : Path → Bool) (fs fs' : FS) (p : Path)
    (h : mkdirExistOk parentOk fs p = .ok fs') :
    fs'.isDir p = true ∧ (∀ e ∈ fs, e ∈ fs') ∧ (∀ e ∈ fs', e ∈ fs ∨ e = (p, true)) := by
  unfold mkdirExistOk at h
  split at h
  · split at h
    · rename_i h2
      cases h
      exact ⟨h2, fun e he => he, fun e he => Or.inl he⟩
    · cases h
  · split at h
    · cases h
      refine ⟨by simp [FS.isDir], ?_, ?_⟩
      · intro e he; exact List.mem_append_left _ he
      · intro e he; simpa using he
    · cases h

private theorem mkdir_error (parentOk : Path → Bool) (fs : FS) (p : Path) (e : PyErr)
    (h : mkdirExistOk parentOk fs p = .error e) :
    (e = .fileExistsError ∧ fs.exists p = true) ∨ (e = .fileNotFoundError ∧ fs.exists p = false) := by
  unfold mkdirExistOk at h
  split at h
  · rename_i hx
    split at h
    · cases h
    · cases h; exact Or.inl ⟨rfl, hx⟩
  · rename_i hx
    split at h
    · cases h
    · cases h; exact Or.inr ⟨rfl, by simpa using hx⟩

private theorem prepare_ok (parentOk : Path → Bool) (fs fs' : FS) (answers : List String) (inp : Path)
    (saving : Option SavingPath) (pf : Path) (mode how : String) (p : Path)
    (h : prepare parentOk fs answers inp saving pf mode = .ok (p, how, fs')) :
    choosePath fs answers (baseDir inp saving pf) (isStr saving) mode = .ok (p, how) ∧ mkdirExistOk parentOk fs p = .ok fs' := by
  unfold prepare at h
  split at h
  · cases h
  · cases hl : choosePath fs answers (baseDir inp saving pf) (isStr saving) mode with
    | error e => rw [hl] at h; cases h
    | ok r =>
      obtain ⟨p', how'⟩ := r
      rw [hl] at h
      simp only at h
      cases hm : mkdirExistOk parentOk fs p' with
      | error e => rw [hm] at h; cases h
      | ok fs2 => rw [hm] at h; cases h; exact ⟨rfl, hm⟩

/-- **C05** (safety for all modes): whenever a directory is returned, it exists afterwards and is a
directory, nothing that existed before has disappeared, and nothing else has been created. -/
theorem C05_prepare_keeps_everything (parentOk : Path → Bool) (fs fs' : FS) (answers : List String) (inp : Path)
    (saving : Option SavingPath) (pf : Path) (mode how : String) (p : Path)
    (h : prepare parentOk fs answers inp saving pf mode = .ok (p, how, fs')) :
    fs'.isDir p = true ∧ (∀ e ∈ fs, e ∈ fs') ∧ (∀ e ∈ fs', e ∈ fs ∨ e = (p, true)) := by
  obtain ⟨h1, h2⟩ := prepare_ok _ _ _ _ _ _ _ _ _ _ h
  exact mkdir_ok _ _ _ _ h2

/-- **C05** (mode new_dir): the returned directory did not exist before; it is the base directory if it
was free and otherwise base0, base1, …, the first free one. -/
theorem C05_new_dir_is_new (parentOk : Path → Bool) (fs fs' : FS) (answers : List String) (inp : Path)
    (saving : Option SavingPath) (pf : Path) (how : String) (p : Path)
    (h : prepare parentOk fs answers inp saving pf "new_dir" = .ok (p, how, fs')) :
    let base := match saving with | some s => s.path | none => inp ++ ['.'] ++ pf
    how = "new_dir" ∧ (∀ d, (p, d) ∉ fs) ∧
    ((∀ d, (base, d) ∉ fs) → p = base) ∧
    ((∃ d, (base, d) ∈ fs) → ∃ i, p = base ++ natStr i ∧ ∀ j, j < i → ∃ d, (base ++ natStr j, d) ∈ fs) := by
  intro base
  have hbase : baseDir inp saving pf = base := by cases saving <;> rfl
  obtain ⟨h1, _⟩ := prepare_ok _ _ _ _ _ _ _ _ _ _ h
  rw [hbase] at h1
  unfold choosePath at h1
  by_cases hb : fs.exists base = false
  · rw [if_pos hb, if_neg (by decide)] at h1
    obtain ⟨e1, e2⟩ := Prod.mk.inj (Except.ok.inj h1)
    rw [← e1, ← e2]
    have hno : ∀ d, (base, d) ∉ fs := by
      intro d hd
      have := (FS_exists_iff fs base).2 ⟨d, hd⟩
      rw [hb] at this; cases this
    refine ⟨rfl, hno, fun _ => rfl, ?_⟩
    rintro ⟨d, hd⟩; exact absurd hd (hno d)
  · have hb' : fs.exists base = true := by simpa using hb
    obtain ⟨i, hi, _⟩ := C05_new_dir_search_terminates fs base
    obtain ⟨_, s2, s3⟩ := searchFree_spec fs base _ _ _ hi
    rw [if_neg hb] at h1
    have hc : chooseMode answers "new_dir" = .ok "new_dir" := by
      unfold chooseMode; rw [if_neg (by decide)]
    simp only [hc, if_true, hi] at h1
    split at h1
    · cases h1
    obtain ⟨e1, e2⟩ := Prod.mk.inj (Except.ok.inj h1)
    rw [← e1, ← e2]
    refine ⟨rfl, ?_, ?_, ?_⟩
    · intro d hd
      have := (FS_exists_iff fs _).2 ⟨d, hd⟩
      rw [s2] at this; cases this
    · intro hno
      obtain ⟨d, hd⟩ := (FS_exists_iff fs base).1 hb'
      exact absurd hd (hno d)
    · intro _
      refine ⟨i, rfl, ?_⟩
      intro j hj
      exact (FS_exists_iff fs _).1 (s3 j (by omega) hj)

/-- **C05** (other modes): the base directory is returned with the mode unchanged. -/
theorem C05_other_modes_return_base (parentOk : Path → Bool) (fs fs' : FS) (answers : List String) (inp : Path)
    (saving : Option SavingPath) (pf : Path) (mode how : String) (p : Path)
    (hm : mode ∈ ["complete", "recompute", "from_path_indices"])
    (h : prepare parentOk fs answers inp saving pf mode = .ok (p, how, fs')) :
    how = mode ∧ p = (match saving with | some s => s.path | none => inp ++ ['.'] ++ pf) := by
  have hbase : baseDir inp saving pf = (match saving with | some s => s.path | none => inp ++ ['.'] ++ pf) := by
    cases saving <;> rfl
  rw [← hbase]
  have h1 : mode ≠ "ask" := by rintro rfl; revert hm; decide
  have h2 : mode ≠ "new_dir" := by rintro rfl; revert hm; decide
  obtain ⟨h3, _⟩ := prepare_ok _ _ _ _ _ _ _ _ _ _ h
  unfold choosePath chooseMode at h3
  simp only [h1, h2, if_false] at h3
  split at h3
  · cases h3; exact ⟨rfl, rfl⟩
  · cases h3; exact ⟨rfl, rfl⟩

/-- C05: in mode new_dir, the directory can always be prepared when the parent is a directory, if the path is given as a text or
not given.  Missing: paths given as `Path` objects, see `C05_path_object_fails`. -/
theorem C05_new_dir_succeeds_partial (parentOk : Path → Bool) (hp : ∀ p, parentOk p = true) (fs : FS)
    (answers : List String) (inp : Path) (saving : Option SavingPath) (pf : Path)
    (hstr : ∀ p, saving ≠ some (.obj p)) :
    ∃ r, prepare parentOk fs answers inp saving pf "new_dir" = .ok r := by
  have hs : isStr saving = true := by
    cases saving with
    | none => rfl
    | some s => cases s with
      | str p => rfl
      | obj p => exact absurd rfl (hstr p)
  unfold prepare choosePath
  rw [if_neg (by decide)]
  by_cases hb : fs.exists (baseDir inp saving pf) = false
  · simp [hb, mkdirExistOk, hp]
  · have hb' : fs.exists (baseDir inp saving pf) = true := by simpa using hb
    obtain ⟨i, hi, _⟩ := C05_new_dir_search_terminates fs (baseDir inp saving pf)
    obtain ⟨_, s2, _⟩ := searchFree_spec fs _ _ _ _ hi
    simp [hb', hi, hs, mkdirExistOk, s2, hp, chooseMode]

/-- **C05** is false of the code when the path is a `Path` object: in mode new_dir, if the directory exists, it is a `TypeError`.
After the creation of a topology, `params.saving.path` is such an object (base.py:298): it is what happens when another
topology is created with the same parameters. -/
theorem C05_path_object_fails (parentOk : Path → Bool) (fs : FS) (answers : List String) (inp p pf : Path)
    (h : fs.exists p = true) :
    prepare parentOk fs answers inp (some (.obj p)) pf "new_dir" = .error .typeError := by
  simp [prepare, howValues, choosePath, baseDir, SavingPath.path, h, chooseMode, isStr]

/-! ## C06 -/

/-- The first answer that is accepted. -/
def Accepted (answers : List String) (a : String) : Prop :=
  ∃ before after, answers = before ++ a :: after ∧
    (∀ b ∈ before, lower b ∉ ["n", "c", "r", "s"]) ∧ lower a ∈ ["n", "c", "r", "s"]

theorem askLoop_of_accepted (answers : List String) (a : String) (h : Accepted answers a) :
    askLoop answers = .ok a := by
  obtain ⟨before, after, rfl, h1, h2⟩ := h
  induction before with
  | nil => simp only [List.nil_append, askLoop]; rw [if_pos h2]
  | cons b bs ih =>
    simp only [List.cons_append, askLoop]
    rw [if_neg (h1 b (by simp))]
    exact ih (fun b' hb' => h1 b' (by simp [hb']))

/-- C06: unaccepted answers are asked again, for ever if necessary (here: until there is nothing to read). -/
theorem C06_unaccepted_answers_never_decide (answers : List String)
    (h : ∀ a ∈ answers, lower a ∉ ["n", "c", "r", "s"]) : askLoop answers = .error .eofError := by
  induction answers with
  | nil => rfl
  | cons a as ih =>
    unfold askLoop
    rw [if_neg (h a (by simp))]
    exact ih (fun b hb => h b (by simp [hb]))

/-- The mode that corresponds to each answer, in either case (specification of the question asked to the
user: "New dir, Complete, Recompute or Stop?"). -/
def expectedMode (answer : String) : Option String :=
  if answer = "n" ∨ answer = "N" then some "new_dir"
  else if answer = "c" ∨ answer = "C" then some "complete"
  else if answer = "r" ∨ answer = "R" then some "recompute"
  else none

/-- The full statement of C06: the accepted answer decides, in either case.  (For a path which is not a text, the answer "n" is a
`TypeError`, see `C05_path_object_fails`.) -/
def C06_statement : Prop :=
  ∀ (parentOk : Path → Bool) (fs : FS) (answers : List String) (inp : Path) (saving : Option SavingPath) (pf : Path)
    (a : String), isStr saving = true → fs.exists (baseDir inp saving pf) = true → Accepted answers a →
    match prepare parentOk fs answers inp saving pf "ask" with
    | .ok (_, how, _) => expectedMode a = some how
    | .error e => (expectedMode a = none ∧ e = .systemExit) ∨ (expectedMode a ≠ none ∧ e = .fileExistsError) ∨
        (expectedMode a = some "new_dir" ∧ e = .fileNotFoundError)

/-- **C06 is false of the code**: with an upper-case answer the program does not do what was asked. Here
the user answers "S" (stop) and the program goes on, with the mode "ask". -/
theorem C06_uppercase_answer_not_respected :
    prepare (fun _ => true) [(['d'], true)] ["S"] [] (some (.str ['d'])) [] "ask"
      = .ok (['d'], "ask", [(['d'], true)]) ∧ ¬ C06_statement := by
  have e : prepare (fun _ => true) [(['d'], true)] ["S"] [] (some (.str ['d'])) [] "ask"
      = .ok (['d'], "ask", [(['d'], true)]) := by decide
  refine ⟨e, ?_⟩
  intro h
  have := h (fun _ => true) [(['d'], true)] ["S"] [] (some (.str ['d'])) [] "S" rfl (by decide)
    ⟨[], [], rfl, by simp, by decide⟩
  rw [e] at this
  revert this; decide

/-- **C06** for lower-case answers (missing with respect to the full statement `C06_statement`:
upper-case answers, for which it is false). -/
theorem C06_lowercase_answer_decides_partial (parentOk : Path → Bool) (fs : FS) (answers : List String)
    (inp : Path) (saving : Option SavingPath) (pf : Path) (a : String) (hstr : isStr saving = true)
    (hex : fs.exists (baseDir inp saving pf) = true) (hacc : Accepted answers a) (hlow : lower a = a) :
    match prepare parentOk fs answers inp saving pf "ask" with
    | .ok (_, how, _) => expectedMode a = some how
    | .error e => (expectedMode a = none ∧ e = .systemExit) ∨ (expectedMode a ≠ none ∧ e = .fileExistsError) ∨
        (expectedMode a = some "new_dir" ∧ e = .fileNotFoundError) := by
  have hask := askLoop_of_accepted answers a hacc
  obtain ⟨_, _, _, _, ha⟩ := hacc
  rw [hlow] at ha
  simp only [List.mem_cons, List.not_mem_nil, or_false] at ha
  obtain ⟨i, hi, _⟩ := C05_new_dir_search_terminates fs (baseDir inp saving pf)
  unfold prepare choosePath chooseMode
  rw [if_neg (by decide)]
  simp only [hex, hstr, Bool.true_eq_false, if_false, if_true, hask]
  obtain ⟨_, s2, _⟩ := searchFree_spec fs _ _ _ _ hi
  rcases ha with rfl | rfl | rfl | rfl
  · simp only [modeOfAnswer, show ("n" = "s") = False from by simp, if_false, if_true, hi]
    cases hm : mkdirExistOk parentOk fs (baseDir inp saving pf ++ natStr i) with
    | ok fs' => rfl
    | error e =>
      rcases mkdir_error _ _ _ _ hm with ⟨he, hx⟩ | ⟨he, _⟩
      · rw [s2] at hx; cases hx
      · exact Or.inr (Or.inr ⟨rfl, he⟩)
  · simp only [modeOfAnswer, show ("c" = "s") = False from by simp, show ("c" = "n") = False from by simp,
      if_false, if_true, show ("complete" = "new_dir") = False from by simp]
    cases hm : mkdirExistOk parentOk fs (baseDir inp saving pf) with
    | ok fs' => rfl
    | error e =>
      rcases mkdir_error _ _ _ _ hm with ⟨he, _⟩ | ⟨_, hx⟩
      · exact Or.inr (Or.inl ⟨by decide, he⟩)
      · rw [hex] at hx; cases hx
  · simp only [modeOfAnswer, show ("r" = "s") = False from by simp, show ("r" = "n") = False from by simp,
      show ("r" = "c") = False from by simp, show ("recompute" = "new_dir") = False from by simp,
      if_false, if_true]
    cases hm : mkdirExistOk parentOk fs (baseDir inp saving pf) with
    | ok fs' => rfl
    | error e =>
      rcases mkdir_error _ _ _ _ hm with ⟨he, _⟩ | ⟨_, hx⟩
      · exact Or.inr (Or.inl ⟨by decide, he⟩)
      · rw [hex] at hx; cases hx
  · exact Or.inl ⟨by decide, rfl⟩

/-- C06: when the directory does not exist the user is not asked and the mode is "recompute", never
"ask". -/
theorem C06_no_question_when_free (parentOk : Path → Bool) (fs fs' : FS) (answers : List String) (inp : Path)
    (saving : Option SavingPath) (pf : Path) (how : String) (p : Path)
    (hex : fs.exists (baseDir inp saving pf) = false)
    (h : prepare parentOk fs answers inp saving pf "ask" = .ok (p, how, fs')) :
    how = "recompute" ∧ p = baseDir inp saving pf := by
  obtain ⟨h1, _⟩ := prepare_ok _ _ _ _ _ _ _ _ _ _ h
  unfold choosePath at h1
  rw [if_pos hex] at h1
  cases h1; exact ⟨rfl, rfl⟩

/-! ## C103: the directory of the sub-processes -/

/-- **C103** (proved part).  If the mode of the main process is "recompute", "complete" or "from_path_indices", every sub-process uses
the directory of the main process, creates nothing and asks nothing, whatever has been written on the disk since the
preparation of the directory (which is still there), and whatever the type of the path it reads; its mode is the one of the main
process, except that it computes the indices it has been given instead of completing.  Missing: modes "new_dir"
and "ask", for which it is false. -/
theorem C103_same_directory_partial (parentOk : Path → Bool) (fs fs' : FS) (answers : List String) (inp : Path)
    (saving : Option SavingPath) (pf : Path) (mode how : String) (p : Path)
    (h : prepare parentOk fs answers inp saving pf mode = .ok (p, how, fs'))
    (hnew : how ≠ "new_dir") (hask : how ≠ "ask")
    (fsLater : FS) (hlater : ∀ e ∈ fs', e ∈ fsLater) (answers' : List String) (str aware : Bool) :
    prepareChild parentOk fsLater answers' inp p str pf aware how =
      .ok (p, (if how = "complete" ∧ aware = true then "from_path_indices" else how), fsLater) := by
  show _ = Except.ok (p, childHow aware how, fsLater)
  have hdir : fsLater.isDir p = true := by
    have h1 := (C05_prepare_keeps_everything _ _ _ _ _ _ _ _ _ _ h).1
    unfold FS.isDir at h1 ⊢
    obtain ⟨e, he, h2⟩ := List.any_eq_true.1 h1
    exact List.any_eq_true.2 ⟨e, hlater e he, h2⟩
  have hex : fsLater.exists p = true := by
    unfold FS.isDir at hdir
    obtain ⟨e, he, h2⟩ := List.any_eq_true.1 hdir
    exact List.any_eq_true.2 ⟨e, he, (by simp at h2; simp [h2.1])⟩
  have hin : how ∈ howValues := by
    have hv : mode ∈ howValues := by
      by_contra hc
      rw [(C05_bad_mode_rejected parentOk fs answers inp saving pf mode).2 hc] at h
      cases h
    obtain ⟨h1, _⟩ := prepare_ok _ _ _ _ _ _ _ _ _ _ h
    unfold choosePath at h1
    have hcm : ∀ m, chooseMode answers mode = .ok m → m ∈ howValues := by
      intro m hm
      unfold chooseMode at hm
      split at hm
      · split at hm
        · cases hm
        · unfold modeOfAnswer at hm
          split at hm
          · cases hm
          · split at hm
            · cases hm; decide
            · split at hm
              · cases hm; decide
              · split at hm
                · cases hm; decide
                · cases hm; exact hv
      · cases hm; exact hv
    split at h1
    · obtain ⟨_, e2⟩ := Prod.mk.inj (Except.ok.inj h1)
      rw [← e2]
      split
      · decide
      · exact hv
    · split at h1
      · cases h1
      · rename_i m hm
        split at h1
        · split at h1
          · cases h1
          · split at h1
            · obtain ⟨_, e2⟩ := Prod.mk.inj (Except.ok.inj h1)
              rw [← e2]; exact hcm _ hm
            · cases h1
        · obtain ⟨_, e2⟩ := Prod.mk.inj (Except.ok.inj h1)
          rw [← e2]; exact hcm _ hm
  have hc : childHow aware how ∈ howValues ∧ childHow aware how ≠ "new_dir" ∧ childHow aware how ≠ "ask" := by
    unfold childHow
    split
    · decide
    · exact ⟨hin, hnew, hask⟩
  have hb : baseDir inp (some (if str then SavingPath.str p else .obj p)) pf = p := by cases str <;> rfl
  unfold prepareChild prepare
  rw [if_neg (by simpa using hc.1), hb]
  simp only [choosePath, hex, Bool.true_eq_false, if_false, chooseMode, hc.2.1, hc.2.2, mkdirExistOk, if_true, hdir]

/-- **C103** is false of the code in mode "new_dir": with `executor="multi_exec_subproc"`, no sub-process uses the directory of the
run: each of them searches another one, which did not exist when it started, or fails (if the path is read as a `Path`). -/
theorem C103_new_dir_fails (parentOk : Path → Bool) (fs fs' : FS) (answers : List String) (inp : Path)
    (saving : Option SavingPath) (pf : Path) (mode : String) (p : Path)
    (h : prepare parentOk fs answers inp saving pf mode = .ok (p, "new_dir", fs'))
    (fsLater : FS) (hlater : ∀ e ∈ fs', e ∈ fsLater) (answers' : List String) (aware : Bool) :
    prepareChild parentOk fsLater answers' inp p false pf aware "new_dir" = .error .typeError ∧
    (∀ q how fs'', prepareChild parentOk fsLater answers' inp p true pf aware "new_dir" = .ok (q, how, fs'') →
      q ≠ p ∧ (∀ d, (q, d) ∉ fsLater) ∧ ∃ i, q = p ++ natStr i) ∧
    ((∀ q, parentOk q = true) → ∃ r, prepareChild parentOk fsLater answers' inp p true pf aware "new_dir" = .ok r) := by
  have hdir : ∃ d, (p, d) ∈ fsLater := by
    have h1 := (C05_prepare_keeps_everything _ _ _ _ _ _ _ _ _ _ h).1
    unfold FS.isDir at h1
    obtain ⟨⟨q, d⟩, he, h2⟩ := List.any_eq_true.1 h1
    simp only [Bool.and_eq_true, decide_eq_true_eq] at h2
    exact ⟨d, h2.1 ▸ hlater _ he⟩
  have hex : fsLater.exists p = true := (FS_exists_iff _ _).2 hdir
  have hc : childHow aware "new_dir" = "new_dir" := by simp [childHow]
  unfold prepareChild
  rw [hc]
  refine ⟨C05_path_object_fails _ _ _ _ _ _ hex, ?_, ?_⟩
  · intro q how fs'' hq
    obtain ⟨_, h2, _, h4⟩ := C05_new_dir_is_new _ _ _ _ _ _ _ _ _ hq
    obtain ⟨i, hi, _⟩ := h4 hdir
    refine ⟨?_, h2, i, hi⟩
    rintro rfl
    obtain ⟨d, hd⟩ := hdir
    exact h2 d hd
  · intro hp
    exact C05_new_dir_succeeds_partial parentOk hp _ _ _ _ _ (by intro p' hp'; simp at hp')

/-- **C103** is false of the code after an upper-case answer to the question of the main process (`C06_uppercase_answer_not_respected`):
the mode is still "ask" and the sub-process asks the question again; here there is nothing to read. -/
theorem C103_ask_fails (parentOk : Path → Bool) (fsLater : FS) (inp p pf : Path) (str aware : Bool)
    (hex : fsLater.exists p = true) :
    prepareChild parentOk fsLater [] inp p str pf aware "ask" = .error .eofError := by
  have hb : baseDir inp (some (if str then SavingPath.str p else .obj p)) pf = p := by cases str <;> rfl
  unfold prepareChild prepare
  simp [childHow, hb, howValues, choosePath, hex, chooseMode, askLoop]

/-- **C103** (proved part, executors based on servers).  In all the modes but "new_dir", the topology created in a server uses the directory
of the main process, creates nothing and asks nothing, whatever the answer of the user to the question of the main process, and whatever has been
written on the disk since.  Missing: the mode "new_dir", for which it is false. -/
theorem C103_servers_partial (parentOk : Path → Bool) (fs fs' : FS) (answers : List String) (inp : Path)
    (saving : Option SavingPath) (pf : Path) (mode how : String) (p : Path)
    (h : prepare parentOk fs answers inp saving pf mode = .ok (p, how, fs')) (hnew : mode ≠ "new_dir")
    (fsLater : FS) (hlater : ∀ e ∈ fs', e ∈ fsLater) :
    prepareServer parentOk fsLater [] inp p pf mode = .ok (p, (if mode = "ask" then "complete" else mode), fsLater) := by
  have hdir : fsLater.isDir p = true := by
    have h1 := (C05_prepare_keeps_everything _ _ _ _ _ _ _ _ _ _ h).1
    unfold FS.isDir at h1 ⊢
    obtain ⟨e, he, h2⟩ := List.any_eq_true.1 h1
    exact List.any_eq_true.2 ⟨e, hlater e he, h2⟩
  have hex : fsLater.exists p = true := by
    unfold FS.isDir at hdir
    obtain ⟨e, he, h2⟩ := List.any_eq_true.1 hdir
    exact List.any_eq_true.2 ⟨e, he, (by simp at h2; simp [h2.1])⟩
  have hv : mode ∈ howValues := by
    by_contra hc
    rw [(C05_bad_mode_rejected parentOk fs answers inp saving pf mode).2 hc] at h
    cases h
  have hc : serverHow mode ∈ howValues ∧ serverHow mode ≠ "new_dir" ∧ serverHow mode ≠ "ask" := by
    unfold serverHow
    split
    · decide
    · exact ⟨hv, hnew, ‹_›⟩
  show _ = Except.ok (p, serverHow mode, fsLater)
  have hb : baseDir inp (some (SavingPath.obj p)) pf = p := rfl
  unfold prepareServer prepare
  rw [if_neg (by simpa using hc.1), hb]
  simp only [choosePath, hex, Bool.true_eq_false, if_false, chooseMode, hc.2.1, hc.2.2, mkdirExistOk, if_true, hdir]

/-- **C103** is false of the code for the executors based on servers in mode "new_dir": the directory exists and its path is a `Path`, to which
no text can be added: `TypeError` in every server, when it starts. -/
theorem C103_servers_new_dir_fails (parentOk : Path → Bool) (fs fs' : FS) (answers : List String) (inp : Path)
    (saving : Option SavingPath) (pf : Path) (how : String) (p : Path)
    (h : prepare parentOk fs answers inp saving pf "new_dir" = .ok (p, how, fs'))
    (fsLater : FS) (hlater : ∀ e ∈ fs', e ∈ fsLater) (answers' : List String) :
    prepareServer parentOk fsLater answers' inp p pf "new_dir" = .error .typeError := by
  have hdir : ∃ d, (p, d) ∈ fsLater := by
    have h1 := (C05_prepare_keeps_everything _ _ _ _ _ _ _ _ _ _ h).1
    unfold FS.isDir at h1
    obtain ⟨⟨q, d⟩, he, h2⟩ := List.any_eq_true.1 h1
    simp only [Bool.and_eq_true, decide_eq_true_eq] at h2
    exact ⟨d, h2.1 ▸ hlater _ he⟩
  have hex : fsLater.exists p = true := (FS_exists_iff _ _).2 hdir
  unfold prepareServer
  rw [show serverHow "new_dir" = "new_dir" by decide]
  exact C05_path_object_fails _ _ _ _ _ _ hex

/-- Concrete cases: mode "ask" with the answer "n", and mode "new_dir". -/
example : prepare (fun _ => true) [("a.piv".toList, true)] ["n"] "a".toList none "piv".toList "ask" =
      .ok ("a.piv0".toList, "new_dir", [("a.piv".toList, true), ("a.piv0".toList, true)]) ∧
    prepareServer (fun _ => true) [("a.piv".toList, true), ("a.piv0".toList, true)] [] "a".toList "a.piv0".toList "piv".toList "ask" =
      .ok ("a.piv0".toList, "complete", [("a.piv".toList, true), ("a.piv0".toList, true)]) ∧
    prepare (fun _ => true) [] [] "a".toList none "piv".toList "new_dir" = .ok ("a.piv".toList, "new_dir", [("a.piv".toList, true)]) := by
  refine ⟨?_, ?_, ?_⟩ <;> decide +kernel

/-- Concrete case: the run creates "a.piv", and its first sub-process "a.piv0". -/
example : prepare (fun _ => true) [("a".toList, true)] [] "a".toList none "piv".toList "new_dir" =
      .ok ("a.piv".toList, "new_dir", [("a".toList, true), ("a.piv".toList, true)]) ∧
    prepareChild (fun _ => true) [("a".toList, true), ("a.piv".toList, true)] [] "a".toList "a.piv".toList true "piv".toList true "new_dir" =
      .ok ("a.piv0".toList, "new_dir", [("a".toList, true), ("a.piv".toList, true), ("a.piv0".toList, true)]) := by
  constructor <;> decide +kernel

/-- Concrete case for `C103_same_directory_partial`. -/
example : prepare (fun _ => true) [("a.piv".toList, true)] ["c"] "a".toList none "piv".toList "ask" =
      .ok ("a.piv".toList, "complete", [("a.piv".toList, true)]) ∧
    prepareChild (fun _ => true) [("a.piv".toList, true)] [] "a".toList "a.piv".toList false "piv".toList true "complete" =
      .ok ("a.piv".toList, "from_path_indices", [("a.piv".toList, true)]) := by
  constructor <;> decide +kernel

-- non-vacuity: the accepted answer after two wrong ones, and the third free directory
example : Accepted ["x", "yes", "r"] "r" := ⟨["x", "yes"], [], rfl, by decide, by decide⟩
example : prepare (fun _ => true) [("a.piv".toList, true), ("a.piv0".toList, true), ("a.piv1".toList, false)]
    ["?", "n"] "a".toList none "piv".toList "ask"
    = .ok ("a.piv2".toList, "new_dir",
      [("a.piv".toList, true), ("a.piv0".toList, true), ("a.piv1".toList, false), ("a.piv2".toList, true)]) := by
  decide +kernel

end Verif
