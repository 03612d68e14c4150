import Verif.Model.MeanCommand
import Verif.Props.Mean
import Verif.Props.ResultDir

/-!
# C143: the command `fluidimage-mean`
-/

namespace Verif
open Verif.Exec Verif.Mean Verif.ResultDir Verif.MeanCommand Verif.Text

/-! ## Specification -/

/-- The works have been executed for these images by some processes, each image being given to one process, in any order; each process has
ended in any possible way (asynchronous or sequential); the job contains the temporary files and the results of all of them. -/
def WorksDone {π : Type} (imread : Path → Except PyErr (Img π)) (paths : List (Path × Path)) (j : Job π) : Prop :=
  ∃ procs : List (Cfg × List (Path × Path) × State π),
    (procs.flatMap (fun p => p.2.1)).Perm paths ∧ (∀ p ∈ procs, MeanEnded imread p.1 p.2.1 p.2.2) ∧
    j.files.Perm (procs.filterMap (fun p => p.2.2.file)) ∧ j.results.length = (procs.flatMap (fun p => p.2.2.results)).length

/-- The path chosen by the user (without ".png"): the option `-o`, or the directory of the images with ".mean". -/
def chosenPath (a : Args) (serie : Serie) : Path :=
  match a.output with
  | some o => o
  | none => serie.pathDir ++ ['.', 'm', 'e', 'a', 'n']

/-- A path whose last component has a name: not ".", and no "/" at the end. -/
def HasName (p : Path) : Prop := p ≠ [] ∧ p ≠ ['.'] ∧ p.getLast? ≠ some '/'

/-- The serie contains these images on the disk, whose pixels have `b` bits and whose sums fit in 32 bits. -/
structure GoodSerie {π : Type} (d : Disk π) (serie : Serie) (b : ℕ) (imgs : List (Img π)) : Prop where
  nonempty : imgs ≠ []
  distinct : serie.names.Nodup
  images : serie.names.map (fun n => d.image (serie.pathDir ++ '/' :: n)) = imgs.map some
  bits : ∀ im ∈ imgs, ∀ x, im x < 2 ^ b
  fit : ∀ x, sumImages imgs x < 2 ^ 32

/-- The disk after the computation: at `p`, the integer part of the mean; no other image has been changed; all the paths which existed exist, and the
only new ones are the directory of the results and the file of the mean. -/
structure MeanWritten {π : Type} (d d' : Disk π) (dir p : Path) (imgs : List (Img π)) : Prop where
  mean : ∃ mean, d'.image p = some mean ∧ ∀ x, (mean x : ℤ) = ⌊(sumImages imgs x : ℚ) / imgs.length⌋
  others : ∀ q, q ≠ p → d'.image q = d.image q
  kept : ∀ e ∈ d.fs, e ∈ d'.fs
  new : ∀ e ∈ d'.fs, e ∈ d.fs ∨ e = (dir, true) ∨ e = (p, false)
  made : (dir, true) ∈ d'.fs

/-! ## Lemmas -/

theorem takeWhile_append_dropWhile_rev (p : Path) :
    (p.reverse.dropWhile (fun c => c ≠ '/')).reverse ++ (p.reverse.takeWhile (fun c => c ≠ '/')).reverse = p := by
  rw [← List.reverse_append, List.takeWhile_append_dropWhile, List.reverse_reverse]

theorem nameOf_ne_nil {p : Path} (h : HasName p) : nameOf p = (p.reverse.takeWhile (fun c => c ≠ '/')).reverse ∧ nameOf p ≠ [] := by
  obtain ⟨h1, h2, h3⟩ := h
  have e : nameOf p = (p.reverse.takeWhile (fun c => c ≠ '/')).reverse := by
    unfold nameOf; rw [if_neg h2]
  refine ⟨e, ?_⟩
  rw [e]
  rw [List.getLast?_eq_head?_reverse] at h3
  cases hr : p.reverse with
  | nil => exact absurd (List.reverse_eq_nil_iff.1 hr) h1
  | cons c l =>
    rw [hr] at h3
    have hc : c ≠ '/' := by
      rintro rfl; exact h3 rfl
    rw [List.takeWhile_cons_of_pos (by simpa using hc)]
    simp

theorem pathResult_eq {p : Path} (h : HasName p) : pathResult p = .ok (p ++ ['.', 'p', 'n', 'g']) := by
  obtain ⟨h1, h2⟩ := nameOf_ne_nil h
  unfold pathResult withName
  rw [if_neg h2, h1]
  unfold prefixOf
  rw [← List.append_assoc, takeWhile_append_dropWhile_rev]

theorem sumImages_perm {π : Type} {l l' : List (Img π)} (h : l.Perm l') (x : π) : sumImages l x = sumImages l' x :=
  (h.map _).sum_eq

theorem perm_read {π : Type} {f : Path × Path → Except PyErr (Img π)} {l l' : List (Path × Path)} (h : l.Perm l') :
    ∀ {imgs : List (Img π)}, l'.map f = imgs.map .ok → ∃ imgs' : List (Img π), imgs'.Perm imgs ∧ l.map f = imgs'.map .ok := by
  induction h with
  | nil => intro imgs hi; exact ⟨imgs, List.Perm.refl _, hi⟩
  | cons a _ ih =>
    intro imgs hi
    cases imgs with
    | nil => simp at hi
    | cons im imgs =>
      simp only [List.map_cons, List.cons.injEq] at hi
      obtain ⟨i', h1, h2⟩ := ih hi.2
      exact ⟨im :: i', h1.cons _, by simp [hi.1, h2]⟩
  | swap a b l =>
    intro imgs hi
    match imgs, hi with
    | [], hi => simp at hi
    | [_], hi => simp at hi
    | im :: im' :: imgs, hi =>
      simp only [List.map_cons, List.cons.injEq] at hi
      exact ⟨im' :: im :: imgs, List.Perm.swap _ _ _, by simp [hi.1, hi.2.1, hi.2.2]⟩
  | trans _ _ ih1 ih2 =>
    intro imgs hi
    obtain ⟨i1, h1, h2⟩ := ih2 hi
    obtain ⟨i2, h3, h4⟩ := ih1 h2
    exact ⟨i2, h3.trans h1, h4⟩

/-- The final work on the files of all the processes. -/
theorem finalSeqWork_mean {π : Type} {imread : Path → Except PyErr (Img π)} {paths : List (Path × Path)} {j : Job π}
    (hj : WorksDone imread paths j) (hnd : (paths.map Prod.fst).Nodup) {imgs : List (Img π)}
    (hread : paths.map (fun kp => imread kp.2) = imgs.map .ok) (hne : imgs ≠ []) {b : ℕ} (hb : ∀ im ∈ imgs, ∀ x, im x < 2 ^ b)
    (hfit : ∀ x, sumImages imgs x < 2 ^ 32) {rnd : ℚ → ℚ} (hrnd : IsRounding rnd) :
    ∃ mean results, finalSeqWork rnd b j.files j.results = .ok (mean, results) ∧
      ∀ x, (mean x : ℤ) = ⌊(sumImages imgs x : ℚ) / imgs.length⌋ := by
  obtain ⟨procs, h1, h2, h3, h4⟩ := hj
  obtain ⟨imgs', hp, hr⟩ := perm_read (f := fun kp => imread kp.2) h1 hread
  have hk : ∀ p ∈ procs, (p.2.1.map Prod.fst).Nodup := by
    intro p hp
    have := ((h1.map Prod.fst).nodup_iff).2 hnd
    rw [List.map_flatMap] at this
    exact (List.nodup_flatMap.1 this).1 p hp
  obtain ⟨mean, res, e1, e2, _⟩ := C21_mean hk h2 hr (by rintro rfl; exact hne (List.nil_perm.1 hp)) (b := b)
    (fun im hi => hb im (hp.mem_iff.1 hi)) (fun x => by rw [sumImages_perm hp]; exact hfit x) h3 h4 hrnd
  refine ⟨mean, res, e1, fun x => ?_⟩
  rw [e2 x, sumImages_perm hp, hp.length_eq]

theorem mean_save_ok {π : Type} {d : Disk π} {p : Path} (h : (p, true) ∉ d.fs) (im : Img π) :
    ∃ d', d.save p im = .ok d' ∧ d'.image p = some im ∧ (∀ q, q ≠ p → d'.image q = d.image q) ∧ (∀ e ∈ d.fs, e ∈ d'.fs) ∧
      ∀ e ∈ d'.fs, e ∈ d.fs ∨ e = (p, false) := by
  have hd : d.fs.isDir p = false := by
    unfold FS.isDir
    rw [List.any_eq_false]
    rintro ⟨q, k⟩ hq hh
    simp only [Bool.and_eq_true, decide_eq_true_eq] at hh
    obtain ⟨rfl, rfl⟩ := hh
    exact h hq
  unfold Disk.save
  rw [hd, if_neg (by simp)]
  refine ⟨_, rfl, by simp, fun q hq => by simp [hq], ?_, ?_⟩
  · intro e he
    dsimp only
    split
    · exact he
    · exact List.mem_append_left _ he
  · intro e he
    dsimp only at he
    split at he
    · exact Or.inl he
    · rcases List.mem_append.1 he with h | h
      · exact Or.inl h
      · exact Or.inr (List.mem_singleton.1 h)

theorem baseDir_chosen (a : Args) (serie : Serie) :
    baseDir serie.pathDir (a.output.map .str) ['m', 'e', 'a', 'n'] = chosenPath a serie := by
  unfold baseDir chosenPath
  cases a.output <;> simp [SavingPath.path]

/-- The command, once the directory of the results has been prepared. -/
theorem command_of_prepare {π : Type} {rnd : ℚ → ℚ} (hrnd : IsRounding rnd) {b : ℕ} {parentOk : Path → Bool} {installed : List String}
    {job : String → Disk π → List (Path × Path) → Job π} {a : Args} {serie : Serie} {answers : List String} {d : Disk π}
    {imgs : List (Img π)} (hv : a.version = 0) (hexec : chooseExecutor a ∈ installed) (hg : GoodSerie d serie b imgs)
    {dir : Path} {how : String} {fs : FS}
    (hprep : prepare parentOk d.fs answers serie.pathDir (a.output.map .str) ['m', 'e', 'a', 'n'] "ask" = .ok (dir, how, fs))
    (hhow : how ≠ "complete") (hname : HasName dir) (hdir : (dir ++ ['.', 'p', 'n', 'g'], true) ∉ d.fs)
    (hjob : ∀ paths, paths = serie.names.map (fun n => (n, serie.pathDir ++ '/' :: n)) →
      WorksDone d.imread paths (job (chooseExecutor a) ⟨fs, d.image⟩ paths)) :
    ∃ d', command rnd b parentOk installed job a serie answers d = .ok d' ∧ MeanWritten d d' dir (dir ++ ['.', 'p', 'n', 'g']) imgs := by
  obtain ⟨p1, p2, p3⟩ := C05_prepare_keeps_everything _ _ _ _ _ _ _ _ _ _ hprep
  have hq : queuePaths fs how dir serie = serie.names.map (fun n => (n, serie.pathDir ++ '/' :: n)) := by
    unfold queuePaths joinPath
    simp [hhow]
  have hread : (serie.names.map (fun n => (n, serie.pathDir ++ '/' :: n))).map (fun kp => d.imread kp.2) = imgs.map .ok := by
    rw [List.map_map]
    have h := congrArg (List.map (fun o : Option (Img π) => match o with | some im => (.ok im : Except PyErr (Img π)) | none => .error .osError)) hg.images
    rw [List.map_map, List.map_map] at h
    exact h
  have hnd : ((serie.names.map (fun n => (n, serie.pathDir ++ '/' :: n))).map Prod.fst).Nodup := by
    rw [List.map_map]
    simpa [Function.comp_def] using hg.distinct
  obtain ⟨mean, res, e1, e2⟩ := finalSeqWork_mean (hjob _ rfl) hnd hread hg.nonempty hg.bits hg.fit hrnd
  have hnd' : (dir ++ ['.', 'p', 'n', 'g'], true) ∉ fs := by
    intro h
    rcases p3 _ h with h | h
    · exact hdir h
    · have := congrArg (fun e : Path × Bool => e.1.length) h
      simp at this
  obtain ⟨d', s1, s2, s3, s4, s5⟩ := mean_save_ok (d := ⟨fs, d.image⟩) hnd' mean
  refine ⟨d', ?_, ⟨mean, s2, e2⟩, s3, fun e he => s4 e (p2 e he), ?_, ?_⟩
  · unfold command
    rw [if_neg (by simp [hv]), hprep]
    dsimp only
    cases hn : serie.names with
    | nil =>
      have := hg.images
      rw [hn] at this
      exact absurd (List.map_eq_nil_iff.1 this.symm) hg.nonempty
    | cons first rest =>
      dsimp only
      have h0 : ∃ im, d.imread (joinPath serie.pathDir first) = .ok im := by
        cases imgs with
        | nil => exact absurd rfl hg.nonempty
        | cons im _ =>
          rw [hn] at hread
          simp only [List.map_cons, List.cons.injEq] at hread
          exact ⟨im, hread.1⟩
      obtain ⟨im, h0⟩ := h0
      rw [h0]
      dsimp only
      rw [if_neg (not_not.2 hexec), hq]
      unfold finish
      rw [e1]
      dsimp only
      rw [pathResult_eq hname]
      exact s1
  · intro e he
    rcases s5 e he with h | h
    · rcases p3 e h with h | h
      · exact Or.inl h
      · exact Or.inr (Or.inl h)
    · exact Or.inr (Or.inr h)
  · apply s4
    have := p1
    unfold FS.isDir at this
    rw [List.any_eq_true] at this
    obtain ⟨⟨q, k⟩, hq1, hq2⟩ := this
    simp only [Bool.and_eq_true, decide_eq_true_eq] at hq2
    obtain ⟨rfl, rfl⟩ := hq2
    exact hq1

/-! ## The property -/

/-- C143: `-V` changes nothing, whatever the other arguments and the disk. -/
theorem C143_version {π : Type} (rnd : ℚ → ℚ) (b : ℕ) (parentOk : Path → Bool) (installed : List String)
    (job : String → Disk π → List (Path × Path) → Job π) (a : Args) (serie : Serie) (answers : List String) (d : Disk π)
    (h : 0 < a.version) : command rnd b parentOk installed job a serie answers d = .ok d := by
  unfold command
  rw [if_pos (by omega)]

/-- C143: the executor is the one of the option `--executor`; without it, the sequential one for `-np 1` and the asynchronous one otherwise. -/
theorem C143_executor (a : Args) :
    (∀ e, a.executor = some e → chooseExecutor a = e) ∧
    (a.executor = none → a.nbMaxWorkers = some 1 → chooseExecutor a = "exec_sequential") ∧
    (a.executor = none → a.nbMaxWorkers ≠ some 1 → chooseExecutor a = "exec_async_sequential") := by
  refine ⟨fun e h => ?_, fun h h1 => ?_, fun h h1 => ?_⟩
  · simp [chooseExecutor, h]
  · simp [chooseExecutor, h, h1]
  · simp [chooseExecutor, h, h1]

/-- **C143**: with an executor which is not installed, the command never ends normally (so no mean is reported), whatever the serie, the answers and the disk. -/
theorem C143_unknown_executor {π : Type} (rnd : ℚ → ℚ) (b : ℕ) (parentOk : Path → Bool) (installed : List String)
    (job : String → Disk π → List (Path × Path) → Job π) (a : Args) (serie : Serie) (answers : List String) (d : Disk π)
    (hv : a.version = 0) (hexec : chooseExecutor a ∉ installed) (d' : Disk π) :
    command rnd b parentOk installed job a serie answers d ≠ .ok d' := by
  intro h
  unfold command at h
  rw [if_neg (by simp [hv])] at h
  split at h
  · cases h
  · split at h
    · cases h
    · split at h
      · cases h
      · rw [if_pos hexec] at h
        cases h

/-- The hypotheses are met by `--executor multi` when only one executor is installed. -/
example : chooseExecutor { executor := some "multi", nbMaxWorkers := none, version := 0, output := none } ∉ ["exec_async_sequential"] := by decide

/-- **C143** (proved part): the chosen path does not exist and can be created.  Without any question, the mean of the images is written at the chosen path
with ".png", whatever the executor, the number of processes and the schedules, and nothing else is changed.  Missing: paths without name
(`C143_dot_fails`), and images of the serie which are at the place of the result (`C143_overwrite_fails`). -/
theorem C143_new_partial {π : Type} {rnd : ℚ → ℚ} (hrnd : IsRounding rnd) {b : ℕ} {parentOk : Path → Bool} {installed : List String}
    {job : String → Disk π → List (Path × Path) → Job π} {a : Args} {serie : Serie} (answers : List String) {d : Disk π}
    {imgs : List (Img π)} (hv : a.version = 0) (hexec : chooseExecutor a ∈ installed) (hg : GoodSerie d serie b imgs)
    (hjob : ∀ fs paths, paths = serie.names.map (fun n => (n, serie.pathDir ++ '/' :: n)) →
      WorksDone d.imread paths (job (chooseExecutor a) ⟨fs, d.image⟩ paths))
    (hname : HasName (chosenPath a serie)) (hdir : (chosenPath a serie ++ ['.', 'p', 'n', 'g'], true) ∉ d.fs)
    (hfree : ∀ k, (chosenPath a serie, k) ∉ d.fs) (hpar : parentOk (chosenPath a serie) = true) :
    ∃ d', command rnd b parentOk installed job a serie answers d = .ok d' ∧
      MeanWritten d d' (chosenPath a serie) (chosenPath a serie ++ ['.', 'p', 'n', 'g']) imgs := by
  have hex : d.fs.exists (chosenPath a serie) = false := by
    cases h : d.fs.exists (chosenPath a serie) with
    | false => rfl
    | true => obtain ⟨k, hk⟩ := (FS_exists_iff _ _).1 h; exact absurd hk (hfree k)
  refine command_of_prepare hrnd (how := "recompute") (fs := d.fs ++ [(chosenPath a serie, true)]) hv hexec hg ?_ (by decide) hname hdir
    (fun paths h => hjob _ paths h)
  unfold prepare choosePath mkdirExistOk
  rw [if_neg (by decide), baseDir_chosen, if_pos hex]
  simp [hex, hpar]

/-- **C143** (proved part): the chosen path is an existing directory.  The user is asked; with the answer "r" the mean is written at the
chosen path with ".png"; with "n", at the first free path among path0, path1, ... with ".png"; with "s", the command stops.  Missing: the answer "c"
(`C143_complete_fails`) and those of the previous theorem. -/
theorem C143_existing_partial {π : Type} {rnd : ℚ → ℚ} (hrnd : IsRounding rnd) {b : ℕ} {parentOk : Path → Bool} {installed : List String}
    {job : String → Disk π → List (Path × Path) → Job π} {a : Args} {serie : Serie} {answers : List String} {d : Disk π}
    {imgs : List (Img π)} (hv : a.version = 0) (hexec : chooseExecutor a ∈ installed) (hg : GoodSerie d serie b imgs)
    (hjob : ∀ fs paths, paths = serie.names.map (fun n => (n, serie.pathDir ++ '/' :: n)) →
      WorksDone d.imread paths (job (chooseExecutor a) ⟨fs, d.image⟩ paths))
    (hname : HasName (chosenPath a serie)) (hpar : ∀ p, parentOk p = true) (hex : (chosenPath a serie, true) ∈ d.fs) :
    (Accepted answers "r" → (chosenPath a serie ++ ['.', 'p', 'n', 'g'], true) ∉ d.fs →
      ∃ d', command rnd b parentOk installed job a serie answers d = .ok d' ∧
        MeanWritten d d' (chosenPath a serie) (chosenPath a serie ++ ['.', 'p', 'n', 'g']) imgs) ∧
    (Accepted answers "n" →
      ∃ i, (∀ k, (chosenPath a serie ++ natStr i, k) ∉ d.fs) ∧ (∀ j < i, ∃ k, (chosenPath a serie ++ natStr j, k) ∈ d.fs) ∧
        ((chosenPath a serie ++ natStr i ++ ['.', 'p', 'n', 'g'], true) ∉ d.fs →
          ∃ d', command rnd b parentOk installed job a serie answers d = .ok d' ∧
            MeanWritten d d' (chosenPath a serie ++ natStr i) (chosenPath a serie ++ natStr i ++ ['.', 'p', 'n', 'g']) imgs)) ∧
    (Accepted answers "s" → command rnd b parentOk installed job a serie answers d = .error .systemExit) := by
  have hex' : d.fs.exists (chosenPath a serie) = true := (FS_exists_iff _ _).2 ⟨_, hex⟩
  have hisdir : d.fs.isDir (chosenPath a serie) = true := by
    unfold FS.isDir
    rw [List.any_eq_true]
    exact ⟨_, hex, by simp⟩
  refine ⟨fun hacc hdir => ?_, fun hacc => ?_, fun hacc => ?_⟩
  · have hask := askLoop_of_accepted _ _ hacc
    refine command_of_prepare hrnd (how := "recompute") (fs := d.fs) hv hexec hg ?_ (by decide) hname hdir (fun paths h => hjob _ paths h)
    unfold prepare choosePath mkdirExistOk
    rw [if_neg (by decide), baseDir_chosen, if_neg (by simp [hex'])]
    simp [chooseMode, hask, modeOfAnswer, hex', hisdir]
  · have hask := askLoop_of_accepted _ _ hacc
    obtain ⟨i, hi, _⟩ := C05_new_dir_search_terminates d.fs (chosenPath a serie)
    obtain ⟨_, s2, s3⟩ := searchFree_spec _ _ _ _ _ hi
    have hfree : ∀ k, (chosenPath a serie ++ natStr i, k) ∉ d.fs := by
      intro k hk
      have := (FS_exists_iff _ _).2 ⟨k, hk⟩
      rw [s2] at this; cases this
    refine ⟨i, hfree, fun j hj => (FS_exists_iff _ _).1 (s3 j (by omega) hj), fun hdir => ?_⟩
    have hname' : HasName (chosenPath a serie ++ natStr i) := by
      obtain ⟨n1, _, _⟩ := hname
      have hl : 0 < (chosenPath a serie).length := List.length_pos_iff.2 n1
      have hl' : 0 < (natStr i).length := List.length_pos_iff.2 (natStr_ne_nil i)
      refine ⟨by simp [n1], ?_, ?_⟩
      · intro h
        have := congrArg List.length h
        simp only [List.length_append, List.length_singleton] at this
        omega
      · rw [List.getLast?_append_of_ne_nil _ (natStr_ne_nil i)]
        intro h
        have := natStr_digits i '/' (List.mem_of_getLast? h)
        revert this; decide
    refine command_of_prepare hrnd (how := "new_dir") (fs := d.fs ++ [(chosenPath a serie ++ natStr i, true)]) hv hexec hg ?_ (by decide)
      hname' hdir (fun paths h => hjob _ paths h)
    unfold prepare choosePath mkdirExistOk
    rw [if_neg (by decide), baseDir_chosen, if_neg (by simp [hex'])]
    have hstr : isStr (a.output.map SavingPath.str) = true := by cases a.output <;> rfl
    simp [chooseMode, hask, modeOfAnswer, hi, s2, hpar, hstr]
  · have hask := askLoop_of_accepted _ _ hacc
    unfold command
    rw [if_neg (by simp [hv])]
    have hp : prepare parentOk d.fs answers serie.pathDir (a.output.map .str) ['m', 'e', 'a', 'n'] "ask" = .error .systemExit := by
      unfold prepare choosePath
      rw [if_neg (by decide), baseDir_chosen, if_neg (by simp [hex'])]
      simp [chooseMode, hask, modeOfAnswer]
    rw [hp]

/-! ## Non-vacuity and failures -/

/-- For images which can be read, the works can be executed (here by one process with the sequential executor). -/
theorem worksDone_exists {π : Type} {imread : Path → Except PyErr (Img π)} {paths : List (Path × Path)} {imgs : List (Img π)}
    (hk : (paths.map Prod.fst).Nodup) (hr : paths.map (fun kp => imread kp.2) = imgs.map .ok) : ∃ j, WorksDone imread paths j := by
  obtain ⟨N, s, hs⟩ := (C21_process_sequential hk hr ⟨2, 8, false⟩).1
  exact ⟨⟨s.aux.file.toList, s.aux.results⟩, [(⟨2, 8, false⟩, paths, s.aux)], by simp,
    by intro p hp; rw [List.mem_singleton.1 hp]; exact Or.inr ⟨N, s, hs, rfl⟩,
    by cases h : s.aux.file <;> simp [h], by simp⟩

namespace MeanCommandExample

/-- A directory "d" with two images of one pixel, "d/a.png" (0) and "d/b.png" (2); a directory "o" which contains another image with
the name of the second one; the current directory. -/
def disk : Disk Unit where
  fs := [(['.'], true), (['d'], true), (['d', '/', 'a', '.', 'p', 'n', 'g'], false), (['d', '/', 'b', '.', 'p', 'n', 'g'], false),
    (['o'], true), (['o', '/', 'b', '.', 'p', 'n', 'g'], false)]
  image := fun p =>
    if p = ['d', '/', 'a', '.', 'p', 'n', 'g'] then some (fun _ => 0)
    else if p = ['d', '/', 'b', '.', 'p', 'n', 'g'] then some (fun _ => 2)
    else if p = ['o', '/', 'b', '.', 'p', 'n', 'g'] then some (fun _ => 7)
    else none

def serie : Serie := ⟨['d'], [['a', '.', 'p', 'n', 'g'], ['b', '.', 'p', 'n', 'g']]⟩

def imgs : List (Img Unit) := [fun _ => 0, fun _ => 2]

/-- The arguments `d -o output`. -/
def args (output : Option Path) : Args := ⟨0, none, none, output⟩

theorem good : GoodSerie disk serie 8 imgs where
  nonempty := by simp [imgs]
  distinct := by decide
  images := by simp [serie, imgs, disk]
  bits := by simp [imgs]
  fit := by simp [imgs, sumImages]

theorem rounding : IsRounding (fun x => x) :=
  ⟨fun _ _ h => h, fun _ _ => rfl, fun x => by simp; positivity⟩

theorem done (names : List Path) (h : names = serie.names ∨ names = [['a', '.', 'p', 'n', 'g']]) :
    ∃ j, WorksDone disk.imread (names.map (fun n => (n, serie.pathDir ++ '/' :: n))) j := by
  rcases h with rfl | rfl
  · exact worksDone_exists (imgs := imgs) (by decide) (by simp [serie, imgs, disk, Disk.imread])
  · exact worksDone_exists (imgs := [fun _ => 0]) (by decide) (by simp [serie, disk, Disk.imread])

/-- The mean of the two images. -/
theorem mean_one : ⌊(sumImages imgs () : ℚ) / imgs.length⌋ = 1 := by
  have : (sumImages imgs () : ℚ) / imgs.length = 1 := by norm_num [imgs, sumImages]
  rw [this, Int.floor_one]

/-- The hypotheses of `C143_new_partial` are met, without option: the mean is written at "d.mean.png". -/
example : ∃ job d', command (fun x => x) 8 (fun _ => true) ["exec_async_sequential"] job (args none) serie [] disk = .ok d' ∧
    ∃ mean, d'.image ['d', '.', 'm', 'e', 'a', 'n', '.', 'p', 'n', 'g'] = some mean ∧ mean () = 1 := by
  obtain ⟨j, hj⟩ := done _ (Or.inl rfl)
  obtain ⟨d', h1, h2⟩ := C143_new_partial rounding (parentOk := fun _ => true) (installed := ["exec_async_sequential"])
    (job := fun _ _ _ => j) (a := args none) [] rfl (by decide) good (by rintro _ _ rfl; exact hj)
    (by refine ⟨?_, ?_, ?_⟩ <;> simp [chosenPath, args, serie]) (by decide) (by decide) rfl
  obtain ⟨mean, h3, h4⟩ := h2.mean
  refine ⟨_, d', h1, mean, h3, ?_⟩
  have := h4 ()
  rw [mean_one] at this
  exact_mod_cast this

/-- The hypotheses of `C143_existing_partial` are met by `-o o` and the answers "x", "n": the mean is written at "o0.png". -/
example : ∃ job d', command (fun x => x) 8 (fun _ => true) ["exec_async_sequential"] job (args (some ['o'])) serie ["x", "n"] disk = .ok d' ∧
    ∃ mean, d'.image ['o', '0', '.', 'p', 'n', 'g'] = some mean ∧ mean () = 1 := by
  obtain ⟨j, hj⟩ := done _ (Or.inl rfl)
  obtain ⟨_, h, _⟩ := C143_existing_partial rounding (parentOk := fun _ => true) (installed := ["exec_async_sequential"])
    (job := fun _ _ _ => j) (a := args (some ['o'])) (answers := ["x", "n"]) rfl (by decide) good (by rintro _ _ rfl; exact hj)
    (by refine ⟨?_, ?_, ?_⟩ <;> simp [chosenPath, args]) (fun _ => rfl) (by decide)
  have h0 : natStr 0 = ['0'] := by decide +kernel
  obtain ⟨i, _, hi, h⟩ := h ⟨["x"], [], rfl, by decide, by decide⟩
  have hi0 : i = 0 := by
    by_contra hne
    obtain ⟨k, hk⟩ := hi 0 (by omega)
    rw [h0] at hk
    revert hk; cases k <;> decide
  subst hi0
  rw [h0] at h
  obtain ⟨d', h1, h2⟩ := h (by decide)
  obtain ⟨mean, h3, h4⟩ := h2.mean
  refine ⟨_, d', h1, mean, h3, ?_⟩
  have := h4 ()
  rw [mean_one] at this
  exact_mod_cast this

end MeanCommandExample
open MeanCommandExample

/-- **C143** is false of the code if the result is at the place of an image: with `fluidimage-mean d -o d/a`, the image "d/a.png" of the user is replaced
without any question by the mean (whatever the schedules). -/
theorem C143_overwrite_fails {j : Job Unit} (hj : WorksDone disk.imread (serie.names.map (fun n => (n, serie.pathDir ++ '/' :: n))) j) :
    ∃ d', command (fun x => x) 8 (fun _ => true) ["exec_async_sequential"] (fun _ _ _ => j) (args (some ['d', '/', 'a'])) serie [] disk = .ok d' ∧
      ∃ im im', disk.image ['d', '/', 'a', '.', 'p', 'n', 'g'] = some im ∧ d'.image ['d', '/', 'a', '.', 'p', 'n', 'g'] = some im' ∧
        im () = 0 ∧ im' () = 1 := by
  obtain ⟨d', h1, h2⟩ := C143_new_partial rounding (parentOk := fun _ => true) (installed := ["exec_async_sequential"])
    (job := fun _ _ _ => j) (a := args (some ['d', '/', 'a'])) [] rfl (by decide) good (by rintro _ _ rfl; exact hj)
    (by refine ⟨?_, ?_, ?_⟩ <;> simp [chosenPath, args]) (by decide) (by decide) rfl
  obtain ⟨mean, h3, h4⟩ := h2.mean
  refine ⟨d', h1, _, mean, rfl, h3, rfl, ?_⟩
  have := h4 ()
  rw [mean_one] at this
  exact_mod_cast this

/-- **C143** is false of the code for the answer "c": the images whose name exists in the chosen directory are not used.  With `-o o`, the result is
the first image (0) instead of the mean (1). -/
theorem C143_complete_fails {j : Job Unit} (hj : WorksDone disk.imread [(['a', '.', 'p', 'n', 'g'], ['d', '/', 'a', '.', 'p', 'n', 'g'])] j) :
    ∃ d', command (fun x => x) 8 (fun _ => true) ["exec_async_sequential"]
        (fun _ _ paths => if paths = [(['a', '.', 'p', 'n', 'g'], ['d', '/', 'a', '.', 'p', 'n', 'g'])] then j else ⟨[], []⟩)
        (args (some ['o'])) serie ["c"] disk = .ok d' ∧
      ∃ im, d'.image ['o', '.', 'p', 'n', 'g'] = some im ∧ im () = 0 := by
  obtain ⟨mean, res, e1, e2⟩ := finalSeqWork_mean hj (by decide) (imgs := [fun _ => 0]) (by simp [disk, Disk.imread]) (by simp) (b := 8)
    (by simp) (by simp [sumImages]) rounding
  have hp : prepare (fun _ => true) disk.fs ["c"] serie.pathDir ((args (some ['o'])).output.map .str) ['m', 'e', 'a', 'n'] "ask" =
      .ok (['o'], "complete", disk.fs) := by decide +kernel
  have hq : queuePaths disk.fs "complete" ['o'] serie = [(['a', '.', 'p', 'n', 'g'], ['d', '/', 'a', '.', 'p', 'n', 'g'])] := by decide +kernel
  obtain ⟨d', s1, s2, _⟩ := mean_save_ok (d := disk) (p := ['o', '.', 'p', 'n', 'g']) (by decide) mean
  refine ⟨d', ?_, mean, s2, ?_⟩
  · unfold command
    rw [if_neg (by decide), hp]
    have hr : disk.imread (joinPath serie.pathDir ['a', '.', 'p', 'n', 'g']) = .ok (fun _ => 0) := rfl
    dsimp only
    rw [show serie.names = [['a', '.', 'p', 'n', 'g'], ['b', '.', 'p', 'n', 'g']] from rfl]
    dsimp only
    rw [hr]
    dsimp only
    rw [if_neg (by decide), hq, if_pos rfl]
    unfold finish
    rw [e1]
    dsimp only
    rw [pathResult_eq (by refine ⟨?_, ?_, ?_⟩ <;> simp)]
    exact s1
  · have := e2 ()
    simp [sumImages] at this
    exact_mod_cast this

/-- **C143** is false of the code for a path without name: with `-o .` and the answer "r", all the images are read, then a `ValueError` is raised
and no mean is written. -/
theorem C143_dot_fails {j : Job Unit} (hj : WorksDone disk.imread (serie.names.map (fun n => (n, serie.pathDir ++ '/' :: n))) j) :
    command (fun x => x) 8 (fun _ => true) ["exec_async_sequential"] (fun _ _ _ => j) (args (some ['.'])) serie ["r"] disk =
      .error .valueError := by
  obtain ⟨mean, res, e1, e2⟩ := finalSeqWork_mean hj (by decide) (imgs := imgs) (by simp [serie, imgs, disk, Disk.imread]) (by simp [imgs]) (b := 8)
    good.bits good.fit rounding
  have hp : prepare (fun _ => true) disk.fs ["r"] serie.pathDir ((args (some ['.'])).output.map .str) ['m', 'e', 'a', 'n'] "ask" =
      .ok (['.'], "recompute", disk.fs) := by decide +kernel
  unfold command
  rw [if_neg (by decide), hp]
  have hr : disk.imread (joinPath serie.pathDir ['a', '.', 'p', 'n', 'g']) = .ok (fun _ => 0) := rfl
  dsimp only
  rw [show serie.names = [['a', '.', 'p', 'n', 'g'], ['b', '.', 'p', 'n', 'g']] from rfl]
  dsimp only
  rw [hr]
  dsimp only
  rw [if_neg (by decide)]
  unfold finish
  rw [e1]
  rfl

/-- The hypotheses of the three failures are met. -/
example : (∃ j, WorksDone disk.imread (serie.names.map (fun n => (n, serie.pathDir ++ '/' :: n))) j) ∧
    ∃ j, WorksDone disk.imread [(['a', '.', 'p', 'n', 'g'], ['d', '/', 'a', '.', 'p', 'n', 'g'])] j :=
  ⟨done _ (Or.inl rfl), done _ (Or.inr rfl)⟩

end Verif
