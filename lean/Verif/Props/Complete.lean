import Verif.Model.Complete
import Verif.Py.Text

/-!
# C07 — mode "complete" computes exactly what is missing; C63 — interrupted writes
-/

namespace Verif
open Verif.Complete

variable {ι ν γ : Type}

theorem complete_loop_eq (name : ι → ν) (files : Files ν γ) (items acc : List ι) :
    loop name files items acc = acc ++ items.filter (fun i => (files (name i)).isNone) := by
  induction items generalizing acc with
  | nil => simp [loop]
  | cons i items ih =>
    unfold loop
    split
    · rename_i h
      rw [ih, List.filter_cons_of_neg (by cases hf : files (name i) <;> simp_all)]
    · rename_i h
      rw [ih, List.filter_cons_of_pos (by simpa using h)]; simp

/-- **C07**: in order, exactly the items whose result does not exist; without duplicates when the items
are distinct. -/
theorem C07_exactly_the_missing (name : ι → ν) (items : List ι) (files : Files ν γ) :
    (∀ i, i ∈ indicesToBeComputed name items files ↔ i ∈ items ∧ files (name i) = none) ∧
    (indicesToBeComputed name items files).Sublist items ∧
    (items.Nodup → (indicesToBeComputed name items files).Nodup) := by
  unfold indicesToBeComputed
  rw [complete_loop_eq, List.nil_append]
  refine ⟨?_, List.filter_sublist, fun h => h.sublist List.filter_sublist⟩
  intro i
  rw [List.mem_filter]
  simp

variable [DecidableEq ν]

private theorem runItems_other (name : ι → ν) (compute : ι → γ) (files : Files ν γ) (done : List ι) (n : ν)
    (h : ∀ i ∈ done, name i ≠ n) : runItems name compute files done n = files n := by
  unfold runItems
  induction done generalizing files with
  | nil => rfl
  | cons i done ih =>
    rw [List.foldl_cons, ih _ (fun j hj => h j (by simp [hj]))]
    simp [save, (h i (by simp)).symm]

private theorem runItems_done (name : ι → ν) (compute : ι → γ) (files : Files ν γ) (done : List ι) (i : ι)
    (hi : i ∈ done) (hinj : ∀ a ∈ done, ∀ b ∈ done, name a = name b → a = b) :
    runItems name compute files done (name i) = some (compute i) := by
  unfold runItems
  induction done generalizing files with
  | nil => cases hi
  | cons j done ih =>
    rw [List.foldl_cons]
    by_cases hid : i ∈ done
    · exact ih _ hid (fun a ha b hb => hinj a (by simp [ha]) b (by simp [hb]))
    · have hij : i = j := by simpa [hid] using hi
      subst hij
      have := runItems_other name compute (save files (name i) (compute i)) done (name i) (by
        intro a ha hna
        have := hinj a (by simp [ha]) i (by simp) hna
        subst this; exact hid ha)
      unfold runItems at this
      rw [this]; simp [save]

/-- One run in mode "complete", possibly interrupted: some of the items to be computed, in any order, have
been computed and saved. -/
def InterruptedRun (name : ι → ν) (compute : ι → γ) (items : List ι) (files files' : Files ν γ) : Prop :=
  ∃ done, (∀ i ∈ done, i ∈ indicesToBeComputed name items files) ∧ files' = runItems name compute files done

/-- One run in mode "complete" that finishes (in any order). -/
def CompletedRun (name : ι → ν) (compute : ι → γ) (items : List ι) (files files' : Files ν γ) : Prop :=
  ∃ done, (∀ i, i ∈ done ↔ i ∈ indicesToBeComputed name items files) ∧
    files' = runItems name compute files done

/-- Any number of interrupted runs. -/
inductive InterruptedRuns (name : ι → ν) (compute : ι → γ) (items : List ι) : Files ν γ → Files ν γ → Prop
  | none (files) : InterruptedRuns name compute items files files
  | more (a b c) : InterruptedRuns name compute items a b → InterruptedRun name compute items b c →
      InterruptedRuns name compute items a c

/-- What the result directory should contain after everything has been computed: existing results are
kept, missing ones are computed, nothing else changes. -/
def expectedFiles (name : ι → ν) (compute : ι → γ) (items : List ι) (files files' : Files ν γ) : Prop :=
  ∀ n, (∀ c, files n = some c → files' n = some c) ∧
    (files n = none → (∀ i ∈ items, name i = n → files' n = some (compute i)) ∧
      ((∀ i ∈ items, name i ≠ n) → files' n = none))

private theorem interrupted_inv (name : ι → ν) (compute : ι → γ) (items : List ι)
    (hinj : ∀ a ∈ items, ∀ b ∈ items, name a = name b → a = b) (files files' : Files ν γ)
    (h : InterruptedRuns name compute items files files') :
    ∀ n, (∀ c, files n = some c → files' n = some c) ∧
      (files n = none → files' n = none ∨ ∃ i ∈ items, name i = n ∧ files' n = some (compute i)) := by
  induction h with
  | none => intro n; exact ⟨fun c hc => hc, fun hn => Or.inl hn⟩
  | more b c _ hcd ih =>
    obtain ⟨done, hd, rfl⟩ := hcd
    have hmem : ∀ i ∈ done, i ∈ items ∧ b (name i) = none :=
      fun i hi => (C07_exactly_the_missing name items b).1 i |>.1 (hd i hi)
    intro n
    obtain ⟨h1, h2⟩ := ih n
    by_cases hex : ∃ i ∈ done, name i = n
    · obtain ⟨i, hi, rfl⟩ := hex
      have hb := (hmem i hi).2
      have hr := runItems_done name compute b done i hi
        (fun x hx y hy => hinj x (hmem x hx).1 y (hmem y hy).1)
      refine ⟨?_, ?_⟩
      · intro c hc; rw [h1 c hc] at hb; cases hb
      · intro _; exact Or.inr ⟨i, (hmem i hi).1, rfl, hr⟩
    · have hr := runItems_other name compute b done n (fun i hi hn => hex ⟨i, hi, hn⟩)
      rw [hr]; exact ⟨h1, h2⟩

/-- **C07**: whatever interruptions happened before (any number of interrupted runs, each stopped after
any subset of its items, in any order), a run in mode "complete" that finishes gives exactly the expected
files, hence the same files as a single uninterrupted run. -/
theorem C07_resumed_run_gives_expected_files (name : ι → ν) (compute : ι → γ) (items : List ι)
    (hinj : ∀ a ∈ items, ∀ b ∈ items, name a = name b → a = b) (files files1 files2 : Files ν γ)
    (h1 : InterruptedRuns name compute items files files1) (h2 : CompletedRun name compute items files1 files2) :
    expectedFiles name compute items files files2 := by
  obtain ⟨done, hd, rfl⟩ := h2
  have hmem : ∀ i ∈ done, i ∈ items ∧ files1 (name i) = none :=
    fun i hi => (C07_exactly_the_missing name items files1).1 i |>.1 ((hd i).1 hi)
  intro n
  obtain ⟨g1, g2⟩ := interrupted_inv name compute items hinj files files1 h1 n
  by_cases hex : ∃ i ∈ done, name i = n
  · obtain ⟨i, hi, rfl⟩ := hex
    have hb := (hmem i hi).2
    have hr := runItems_done name compute files1 done i hi
      (fun x hx y hy => hinj x (hmem x hx).1 y (hmem y hy).1)
    refine ⟨?_, ?_⟩
    · intro c hc; rw [g1 c hc] at hb; cases hb
    · intro _
      refine ⟨?_, ?_⟩
      · intro j hj hn
        have := hinj j hj i (hmem i hi).1 hn
        subst this; exact hr
      · intro hno; exact absurd rfl (hno i (hmem i hi).1)
  · have hr := runItems_other name compute files1 done n (fun i hi hn => hex ⟨i, hi, hn⟩)
    rw [hr]
    refine ⟨g1, fun hn => ⟨?_, ?_⟩⟩
    · intro i hi hin
      rcases g2 hn with h0 | ⟨j, hj, hjn, hjc⟩
      · exfalso; apply hex
        refine ⟨i, (hd i).2 ?_, hin⟩
        rw [(C07_exactly_the_missing name items files1).1]
        exact ⟨hi, by rw [hin]; exact h0⟩
      · have := hinj i hi j hj (by rw [hin, hjn])
        subst this; exact hjc
    · intro hno
      rcases g2 hn with h0 | ⟨j, hj, hjn, _⟩
      · exact h0
      · exact absurd hjn (hno j hj)

/-- C07: `expectedFiles` determines the files: two complete histories starting from the same files end
with the same files. -/
theorem C07_same_files_whatever_the_interruptions (name : ι → ν) (compute : ι → γ) (items : List ι)
    (hinj : ∀ a ∈ items, ∀ b ∈ items, name a = name b → a = b) (files a1 a2 b1 b2 : Files ν γ)
    (ha1 : InterruptedRuns name compute items files a1) (ha2 : CompletedRun name compute items a1 a2)
    (hb1 : InterruptedRuns name compute items files b1) (hb2 : CompletedRun name compute items b1 b2) :
    a2 = b2 := by
  have ha := C07_resumed_run_gives_expected_files name compute items hinj files a1 a2 ha1 ha2
  have hb := C07_resumed_run_gives_expected_files name compute items hinj files b1 b2 hb1 hb2
  funext n
  cases hn : files n with
  | some c => rw [(ha n).1 c hn, (hb n).1 c hn]
  | none =>
    by_cases hex : ∃ i ∈ items, name i = n
    · obtain ⟨i, hi, hin⟩ := hex
      rw [((ha n).2 hn).1 i hi hin, ((hb n).2 hn).1 i hi hin]
    · have hno : ∀ i ∈ items, name i ≠ n := fun i hi h => hex ⟨i, hi, h⟩
      rw [((ha n).2 hn).2 hno, ((hb n).2 hn).2 hno]

/-- C07: after a run that finishes, nothing remains to be computed. -/
theorem C07_nothing_left (name : ι → ν) (compute : ι → γ) (items : List ι) (files files' : Files ν γ)
    (h : CompletedRun name compute items files files') : indicesToBeComputed name items files' = [] := by
  obtain ⟨done, hd, rfl⟩ := h
  rw [List.eq_nil_iff_forall_not_mem]
  intro i hi
  rw [(C07_exactly_the_missing name items _).1] at hi
  have hkeep : ∀ (done : List ι) (files : Files ν γ), (files (name i) ≠ none ∨ ∃ j ∈ done, name j = name i) →
      runItems name compute files done (name i) ≠ none := by
    intro done
    induction done with
    | nil =>
      intro files h
      rcases h with h | ⟨j, hj, _⟩
      · exact h
      · cases hj
    | cons j done ih =>
      intro files h
      unfold runItems
      rw [List.foldl_cons]
      apply ih
      by_cases hj : name j = name i
      · left; simp [save, hj]
      · rcases h with h | ⟨k, hk, hkn⟩
        · left; simp only [save]; rw [if_neg (fun e => hj e.symm)]; exact h
        · rcases List.mem_cons.1 hk with rfl | hk
          · exact absurd hkn hj
          · right; exact ⟨k, hk, hkn⟩
  apply hkeep done files _ hi.2
  cases hf : files (name i) with
  | some c => left; simp
  | none =>
    right
    refine ⟨i, (hd i).2 ?_, rfl⟩
    rw [(C07_exactly_the_missing name items files).1]
    exact ⟨hi.1, hf⟩

-- non-vacuity: three items, the first result exists, a run interrupted after the third item, then resumed
section Example
def exName (i : Nat) : Nat := 10 + i
def exCompute (i : Nat) : Nat := i * i
def exFiles : Files Nat Nat := fun n => if n = 10 then some 77 else none
example : indicesToBeComputed exName [0, 1, 2] exFiles = [1, 2] := by decide
example : InterruptedRuns exName exCompute [0, 1, 2] exFiles (runItems exName exCompute exFiles [2]) :=
  .more _ _ _ (.none _) ⟨[2], by decide, rfl⟩
example : indicesToBeComputed exName [0, 1, 2] (runItems exName exCompute exFiles [2]) = [1] := by decide
/-- The second run ends: the hypotheses of the theorems above are met. -/
example : CompletedRun exName exCompute [0, 1, 2] (runItems exName exCompute exFiles [2]) (runItems exName exCompute exFiles [2, 1]) ∧
    expectedFiles exName exCompute [0, 1, 2] exFiles (runItems exName exCompute exFiles [2, 1]) := by
  have h : CompletedRun exName exCompute [0, 1, 2] (runItems exName exCompute exFiles [2]) (runItems exName exCompute exFiles [2, 1]) :=
    ⟨[1], fun i => by rw [show indicesToBeComputed exName [0, 1, 2] (runItems exName exCompute exFiles [2]) = [1] from by decide], rfl⟩
  exact ⟨h, C07_resumed_run_gives_expected_files exName exCompute [0, 1, 2] (by decide) _ _ _
    (.more _ _ _ (.none _) ⟨[2], by decide, rfl⟩) h⟩
end Example

/-! ## C63: a write interrupted in the middle -/

/-- An interrupted run in which, in addition, the interruption happens in the middle of the write of one
result: the path of this item exists with some other content (`imsave`, `h5py.File(path, "w")` write in
place at the final path: /repo/src/fluidimage/data_objects/piv.py:363-380, preproc.py:154-171). -/
def InterruptedWrite (name : ι → ν) (items : List ι) (files files' : Files ν γ) : Prop :=
  ∃ i garbage, i ∈ indicesToBeComputed name items files ∧ files' = save files (name i) garbage

/-- Full statement of C63: after an interruption during a write, a completed run gives the expected files. -/
def C63_statement : Prop :=
  ∀ (name : Nat → Nat) (compute : Nat → Nat) (items : List Nat),
    (∀ a ∈ items, ∀ b ∈ items, name a = name b → a = b) →
    ∀ files files1 files2 : Files Nat Nat, InterruptedWrite name items files files1 →
      CompletedRun name compute items files1 files2 → expectedFiles name compute items files files2

/-- **C63 is false of the code**: the truncated file is taken for a result and never recomputed. -/
theorem C63_truncated_result_is_kept : ¬ C63_statement := by
  intro h
  have := h id (fun i => i + 1) [5] (by simp) (fun _ => none) (save (fun _ => none) 5 0)
    (save (fun _ => none) 5 0)
    ⟨5, 0, by decide, rfl⟩ ⟨[], by intro i; simp [indicesToBeComputed, loop, save], rfl⟩ 5
  have h2 := (this.2 rfl).1 5 (by simp) rfl
  revert h2; decide

/-- C63, what the code does guarantee: the only wrong file is the one that was being written, for every
interruption in the middle of a write. -/
theorem C63_other_results_are_right_partial (name : ι → ν) (compute : ι → γ) (items : List ι)
    (hinj : ∀ a ∈ items, ∀ b ∈ items, name a = name b → a = b) (files files1 files2 : Files ν γ)
    (i0 : ι) (garbage : γ) (hi0 : i0 ∈ indicesToBeComputed name items files)
    (h1 : files1 = save files (name i0) garbage) (h2 : CompletedRun name compute items files1 files2) :
    files2 (name i0) = some garbage ∧
    ∀ i ∈ items, i ≠ i0 → files (name i) = none → files2 (name i) = some (compute i) := by
  have he := C07_resumed_run_gives_expected_files name compute items hinj files1 files1 files2 (.none _) h2
  have hi0' := ((C07_exactly_the_missing name items files).1 i0).1 hi0
  constructor
  · exact (he (name i0)).1 garbage (by rw [h1]; simp [save])
  · intro i hi hne hn
    have hnn : name i ≠ name i0 := fun e => hne (hinj i hi i0 hi0'.1 e)
    exact ((he (name i)).2 (by rw [h1]; simp [save, hnn, hn])).1 i hi rfl

/-- The hypotheses: the third of three items is interrupted in its write, then a run ends. -/
example : 2 ∈ indicesToBeComputed exName [0, 1, 2] exFiles ∧
    CompletedRun exName exCompute [0, 1, 2] (save exFiles (exName 2) 5) (runItems exName exCompute (save exFiles (exName 2) 5) [1]) :=
  ⟨by decide, [1], fun i => by rw [show indicesToBeComputed exName [0, 1, 2] (save exFiles (exName 2) 5) = [1] from by decide], rfl⟩

end Verif
