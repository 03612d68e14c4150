import Verif.Model.BosReference
import Verif.Props.Bos

/-!
# C158: the reference of a BOS computation
-/

namespace Verif
open Verif.Bos Verif.BosReference

/-! ## Specification -/

/-- The file (its absolute path) which is read when the program opens this path. -/
def fileAt (E : Env) (p : PPath) : List (List Char) := if p.absolute then p.parts else E.cwd ++ p.parts

/-- The absolute path of a directory and of a file which is in it. -/
def pathInDir (dir : List (List Char)) (name : List Char) : PPath := ⟨true, dir ++ [name]⟩

/-! ## Lemmas -/

theorem br_abs (E : Env) (p : PPath) : E.abs p = ⟨true, fileAt E p⟩ := by
  obtain ⟨a, l⟩ := p
  cases a <;> rfl

theorem br_file (E : Env) (p : PPath) : E.file p = E.isFile (fileAt E p) := by
  unfold Env.file
  rw [br_abs]

theorem br_expand_abs (E : Env) (l : List (List Char)) : E.expanduser ⟨true, l⟩ = ⟨true, l⟩ := rfl

theorem br_expand_rel (E : Env) (a : List Char) (l : List (List Char)) (h : a ≠ ['~']) :
    E.expanduser ⟨false, a :: l⟩ = ⟨false, a :: l⟩ := by
  unfold Env.expanduser
  split
  · rename_i l' he
    injection he with _ h2
    injection h2 with h3 _
    exact absurd h3 h
  · rfl

/-- The expansion is done once. -/
theorem br_expand_twice (E : Env) (p : PPath) : E.expanduser (E.expanduser p) = E.expanduser p := by
  obtain ⟨a, l⟩ := p
  cases a with
  | true => rfl
  | false =>
    cases l with
    | nil => rfl
    | cons a l =>
      by_cases h : a = ['~']
      · subst h; rfl
      · rw [br_expand_rel E a l h, br_expand_rel E a l h]

theorem br_fix {ι : Type} [DecidableEq ι] (dir : List (List Char)) (serie : Serie ι) (hdir : serie.dir = dir) (dirs : List (List Char))
    (name : List Char) (indices : List ι) :
    BosReference.fixIndices ⟨true, dir⟩ serie ⟨true, dirs ++ [name]⟩ indices = Bos.fixIndices serie ⟨dirs, name⟩ indices := by
  unfold BosReference.fixIndices Bos.fixIndices PPath.isRelativeTo PPath.name
  simp only [hdir, decide_true, Bool.true_and, List.getLastD_concat]
  cases serie.indicesOf name <;> rfl

/-! ## Which file -/

/-- **C158**, absolute path: the reference is this file, whatever the current directory is. -/
theorem C158_absolute (E : Env) (serieDir : PPath) (names : List (List Char)) (l : List (List Char)) (h : E.isFile l = true) :
    initPathReference E serieDir names (.path ⟨true, l⟩) = .ok ⟨true, l⟩ := by
  unfold initPathReference
  simp only [br_expand_abs, br_file, fileAt, if_true, h]

/-- **C158**, path which starts with "~": the reference is this file in the directory of the user. -/
theorem C158_home (E : Env) (serieDir : PPath) (names : List (List Char)) (l : List (List Char)) (h : E.isFile (E.home ++ l) = true) :
    initPathReference E serieDir names (.path ⟨false, ['~'] :: l⟩) = .ok ⟨true, E.home ++ l⟩ := by
  have h1 : E.expanduser ⟨false, ['~'] :: l⟩ = ⟨true, E.home ++ l⟩ := rfl
  unfold initPathReference
  simp only [h1, br_file, fileAt, if_true, h]

/-- **C158**, index in the sorted list of the names: the reference is the image of this index in the directory of the images, for an index
counted from the beginning or (negative) from the end; other indices are refused with `IndexError`. -/
theorem C158_index (E : Env) (serieDir : PPath) (names : List (List Char)) (i : ℕ) :
    (∀ h : i < names.length, initPathReference E serieDir names (.int i) = .ok (pathInDir (fileAt E serieDir) names[i]) ∧
      initPathReference E serieDir names (.int (-(i : Int) - 1)) =
        .ok (pathInDir (fileAt E serieDir) names[names.length - 1 - i])) ∧
    (names.length ≤ i → initPathReference E serieDir names (.int i) = .error .indexError ∧
      initPathReference E serieDir names (.int (-(i : Int) - 1)) = .error .indexError) := by
  obtain ⟨h1, h2, h3⟩ := C28_reference_of_integer (fileAt E serieDir) names i
  refine ⟨fun h => ⟨?_, ?_⟩, fun h => ⟨?_, ?_⟩⟩
  · simp only [initPathReference, br_abs, h1 h]; rfl
  · simp only [initPathReference, br_abs, h2 h]; rfl
  · simp only [initPathReference, br_abs, (h3 h).1]
  · simp only [initPathReference, br_abs, (h3 h).2]

/-- **C158**, file name: the reference is the file of this name in the directory of the images, if the current directory has no file with
this name.  Missing: `C158_name_fails`. -/
theorem C158_name_partial (E : Env) (serieDir : PPath) (names : List (List Char)) (n : List Char) (hn : n ≠ ['~'])
    (hfile : E.isFile (fileAt E serieDir ++ [n]) = true) (hcwd : E.isFile (E.cwd ++ [n]) = false) :
    initPathReference E serieDir names (.path ⟨false, [n]⟩) = .ok (pathInDir (fileAt E serieDir) n) := by
  have h1 : E.file ⟨false, [n]⟩ = false := by rw [br_file]; exact hcwd
  have h2 : (E.abs serieDir).join ⟨false, [n]⟩ = pathInDir (fileAt E serieDir) n := by rw [br_abs]; rfl
  have h3 : E.file (pathInDir (fileAt E serieDir) n) = true := by rw [br_file]; exact hfile
  unfold initPathReference
  simp only [br_expand_rel E n [] hn, h1, h2, h3]
  rfl

/-- **C158** is false of a file name when the current directory has a file with this name: it is used instead of the image of the
serie. -/
theorem C158_name_fails (E : Env) (serieDir : PPath) (names : List (List Char)) (n : List Char) (hn : n ≠ ['~'])
    (hcwd : E.isFile (E.cwd ++ [n]) = true) (hne : E.cwd ≠ fileAt E serieDir) :
    ∃ p, initPathReference E serieDir names (.path ⟨false, [n]⟩) = .ok p ∧ fileAt E p = E.cwd ++ [n] ∧
      fileAt E p ≠ fileAt E serieDir ++ [n] := by
  have h1 : E.file ⟨false, [n]⟩ = true := by rw [br_file]; exact hcwd
  refine ⟨⟨false, [n]⟩, ?_, rfl, fun h => hne (List.append_cancel_right h)⟩
  unfold initPathReference
  simp only [br_expand_rel E n [] hn, h1, if_true]

/-- **C158**, what is given is always an existing file, for a path; a path which is a file neither from the current directory nor from
the directory of the images is refused, with `TypeError` and not with the `ValueError` of the code. -/
theorem C158_refused (E : Env) (serieDir : PPath) (names : List (List Char)) (p : PPath) :
    (∀ r, initPathReference E serieDir names (.path p) = .ok r → E.isFile (fileAt E r) = true ∧
      (r = E.expanduser p ∨ r = ⟨true, fileAt E serieDir ++ p.parts⟩)) ∧
    (∀ e, initPathReference E serieDir names (.path p) = .error e → e = .typeError ∧ E.isFile (fileAt E (E.expanduser p)) = false ∧
      (p.absolute = false → p.parts.head? ≠ some ['~'] → E.isFile (fileAt E serieDir ++ p.parts) = false)) := by
  have hjoin : (E.abs serieDir).join (E.expanduser p) = E.expanduser p ∨
      (E.abs serieDir).join (E.expanduser p) = ⟨true, fileAt E serieDir ++ p.parts⟩ := by
    rw [br_abs]
    obtain ⟨a, l⟩ := p
    cases a with
    | true => exact .inl rfl
    | false =>
      cases l with
      | nil => exact .inr rfl
      | cons a l =>
        by_cases h : a = ['~']
        · subst h; exact .inl rfl
        · rw [br_expand_rel E a l h]; exact .inr rfl
  unfold initPathReference
  by_cases h1 : E.file (E.expanduser p) = true
  · simp only [h1, if_true]
    constructor
    · intro r hr
      cases hr
      exact ⟨by rw [← br_file]; exact h1, .inl rfl⟩
    · intro e he
      cases he
  · have h1' : E.file (E.expanduser p) = false := by simpa using h1
    simp only [h1', Bool.false_eq_true, if_false]
    by_cases h2 : E.file ((E.abs serieDir).join (E.expanduser p)) = true
    · simp only [h2, Bool.not_true, Bool.false_eq_true, if_false]
      constructor
      · intro r hr
        cases hr
        exact ⟨by rw [← br_file]; exact h2, hjoin⟩
      · intro e he
        cases he
    · have h2' : E.file ((E.abs serieDir).join (E.expanduser p)) = false := by simpa using h2
      simp only [h2', Bool.not_false, if_true]
      constructor
      · intro r hr
        cases hr
      · intro e he
        cases he
        refine ⟨rfl, by rw [← br_file]; exact h1', fun ha hh => ?_⟩
        have : (E.abs serieDir).join (E.expanduser p) = ⟨true, fileAt E serieDir ++ p.parts⟩ := by
          rw [br_abs]
          obtain ⟨a, l⟩ := p
          simp only at ha
          subst ha
          cases l with
          | nil => rfl
          | cons a l =>
            rw [br_expand_rel E a l (fun h => hh (by simp [h]))]; rfl
        rw [this, br_file] at h2'
        exact h2'

/-- **C158**, several processes: the reference which is given to the processes (started in the same directory) is the file used by the
main process. -/
theorem C158_processes (E : Env) (serieDir serieDir' : PPath) (names names' : List (List Char)) (ref : Ref) (r : PPath)
    (hnames : ∀ n ∈ names, E.isFile (fileAt E serieDir ++ [n]) = true)
    (h : initPathReference E serieDir names ref = .ok r) :
    initPathReference E serieDir' names' (referenceOfProcess r) = .ok r := by
  cases ref with
  | int i =>
    simp only [initPathReference, br_abs] at h
    cases hp : pathReferenceOfInt (fileAt E serieDir) names i with
    | error e => rw [hp] at h; cases h
    | ok p =>
      rw [hp] at h
      cases h
      refine C158_absolute E serieDir' names' _ ?_
      unfold pathReferenceOfInt at hp
      simp only at hp
      generalize (if i < 0 then i + (names.length : Int) else i) = j at hp
      split at hp
      · cases hp
      · split at hp
        · cases hp
        · rename_i name hname
          cases hp
          exact hnames name (List.mem_of_getElem? hname)
  | path p =>
    unfold initPathReference at h
    by_cases h1 : E.file (E.expanduser p) = true
    · simp only [h1, if_true] at h
      cases h
      unfold referenceOfProcess initPathReference
      simp only [br_expand_twice, h1, if_true]
    · have h1' : E.file (E.expanduser p) = false := by simpa using h1
      simp only [h1', Bool.false_eq_true, if_false] at h
      by_cases h2 : E.file ((E.abs serieDir).join (E.expanduser p)) = true
      · simp only [h2, Bool.not_true, Bool.false_eq_true, if_false] at h
        cases h
        have ha : ∃ l, (E.abs serieDir).join (E.expanduser p) = ⟨true, l⟩ := by
          rw [br_abs]
          unfold PPath.join
          split
          · rename_i hab
            exact ⟨(E.expanduser p).parts, by rw [← hab]⟩
          · exact ⟨_, rfl⟩
        obtain ⟨l, hl⟩ := ha
        rw [hl] at h2 ⊢
        rw [br_file] at h2
        exact C158_absolute E serieDir' names' l h2
      · have h2' : E.file ((E.abs serieDir).join (E.expanduser p)) = false := by simpa using h2
        simp only [h2', Bool.not_false, if_true] at h
        cases h

/-! ## The reference is not computed -/

section
variable {ι : Type} [DecidableEq ι]

/-- **C158**, a reference which is an image of the serie (given by its index, by its absolute path, or by its name when the current
directory has no file with this name, so that `initPathReference` gives the path in the directory of the images): all the selected
images are computed except the reference, in the same order.  Missing: references relative to the current directory
(`C158_relative_fails`). -/
theorem C158_excluded_partial (E : Env) (dir : List (List Char)) (serie : Serie ι) (hserie : serie.dir = dir) (names : List (List Char))
    (hbase : ∀ i, serie.baseName.isPrefixOf (serie.nameOf i) = true)
    (hinv : ∀ i, serie.indicesOf (serie.nameOf i) = .ok i) (hinv' : ∀ n i, serie.indicesOf n = .ok i → serie.nameOf i = n)
    {indices : List ι} (hnd : indices.Nodup) (n : List Char) (ref : Ref)
    (href : (∃ k : ℕ, names[k]? = some n ∧ ref = .int k) ∨ (ref = .path (pathInDir dir n) ∧ E.isFile (dir ++ [n]) = true) ∨
      (ref = .path ⟨false, [n]⟩ ∧ n ≠ ['~'] ∧ E.isFile (dir ++ [n]) = true ∧ E.isFile (E.cwd ++ [n]) = false)) :
    ∃ r, initPathReference E ⟨true, dir⟩ names ref = .ok r ∧ fileAt E r = dir ++ [n] ∧
      (BosReference.fixIndices ⟨true, dir⟩ serie r indices).map serie.nameOf =
        (indices.map serie.nameOf).filter (fun m => decide (m ≠ n)) := by
  refine ⟨pathInDir dir n, ?_, rfl, ?_⟩
  · rcases href with ⟨k, hk, rfl⟩ | ⟨rfl, hf⟩ | ⟨rfl, hn, hf, hc⟩
    · obtain ⟨hk1, hk2⟩ := List.getElem?_eq_some_iff.1 hk
      have := ((C158_index E ⟨true, dir⟩ names k).1 hk1).1
      rw [hk2] at this
      exact this
    · exact C158_absolute E _ names _ hf
    · exact C158_name_partial E ⟨true, dir⟩ names n hn hf hc
  · unfold pathInDir
    rw [br_fix dir serie hserie dir n indices]
    have := (C28_reference_excluded (ref := ⟨dir, n⟩) hserie.symm (fun i hi => hi ▸ hbase i) hinv hinv' hnd (fun _ => false)).1
    exact this

/-- **C158** is false of a reference which is an image of the serie given by a path relative to the current directory (for example by its
name when the current directory is the directory of the images): the right file is read, but the reference is computed too, with
itself. -/
theorem C158_relative_fails (E : Env) (dir : List (List Char)) (serie : Serie ι) (names : List (List Char)) (a : List Char)
    (l : List (List Char)) (ha : a ≠ ['~']) (i : ι) (hfile : E.cwd ++ a :: l = dir ++ [serie.nameOf i])
    (hex : E.isFile (dir ++ [serie.nameOf i]) = true) (indices : List ι) (hi : i ∈ indices) :
    ∃ r, initPathReference E ⟨true, dir⟩ names (.path ⟨false, a :: l⟩) = .ok r ∧ fileAt E r = dir ++ [serie.nameOf i] ∧
      BosReference.fixIndices ⟨true, dir⟩ serie r indices = indices ∧
      serie.nameOf i ∈ (BosReference.fixIndices ⟨true, dir⟩ serie r indices).map serie.nameOf := by
  have h1 : E.file ⟨false, a :: l⟩ = true := by
    rw [br_file]
    change E.isFile (E.cwd ++ a :: l) = true
    rw [hfile]; exact hex
  have h2 : BosReference.fixIndices ⟨true, dir⟩ serie ⟨false, a :: l⟩ indices = indices := by
    unfold BosReference.fixIndices PPath.isRelativeTo
    simp
  refine ⟨⟨false, a :: l⟩, ?_, hfile, h2, ?_⟩
  · unfold initPathReference
    simp only [br_expand_rel E a l ha, h1, if_true]
  · rw [h2]; exact List.mem_map_of_mem hi

end

/-! ## Examples -/

/-- Images "i0" and "i1" in the directory "/d", and another file "i0" in "/c". -/
def exampleEnv (cwd : List (List Char)) : Env :=
  ⟨fun l => decide (l ∈ [[['d'], ['i', '0']], [['d'], ['i', '1']], [['c'], ['i', '0']]]), cwd, [['h']]⟩

/-- The serie of these images. -/
def exampleBosSerie : Serie Bool :=
  ⟨[['d']], ['i'], fun n => if n = ['i', '0'] then .ok false else if n = ['i', '1'] then .ok true else .error .valueError,
    fun b => if b then ['i', '1'] else ['i', '0']⟩

/-- Non-vacuity of `C158_excluded_partial`, for the three ways to give the reference. -/
example : (∀ i, exampleBosSerie.baseName.isPrefixOf (exampleBosSerie.nameOf i) = true) ∧
    (∀ i, exampleBosSerie.indicesOf (exampleBosSerie.nameOf i) = .ok i) ∧
    (∀ n i, exampleBosSerie.indicesOf n = .ok i → exampleBosSerie.nameOf i = n) ∧
    [['i', '0'], ['i', '1']][0]? = some ['i', '0'] ∧ (exampleEnv [['e']]).isFile ([['d']] ++ [['i', '0']]) = true ∧
    (exampleEnv [['e']]).isFile ((exampleEnv [['e']]).cwd ++ [['i', '0']]) = false := by
  refine ⟨by decide, by intro i; cases i <;> rfl, ?_, rfl, by decide, by decide⟩
  intro n i h
  simp only [exampleBosSerie] at h ⊢
  split at h
  · rename_i h0
    cases h
    exact h0.symm
  · split at h
    · rename_i h1
      cases h
      exact h1.symm
    · cases h

/-- From another directory "/e", the name is the one of the image; from "/c", it is another file. -/
example : initPathReference (exampleEnv [['e']]) ⟨true, [['d']]⟩ [] (.path ⟨false, [['i', '0']]⟩) =
      .ok ⟨true, [['d'], ['i', '0']]⟩ ∧
    initPathReference (exampleEnv [['c']]) ⟨true, [['d']]⟩ [] (.path ⟨false, [['i', '0']]⟩) = .ok ⟨false, [['i', '0']]⟩ ∧
    initPathReference (exampleEnv [['c']]) ⟨true, [['d']]⟩ [] (.path ⟨false, [['z']]⟩) = .error .typeError := by
  refine ⟨by decide, by decide, by decide⟩

/-- Non-vacuity of `C158_name_fails` (from "/c") and of `C158_relative_fails` (from "/" and from "/d"). -/
example : (exampleEnv [['c']]).isFile ((exampleEnv [['c']]).cwd ++ [['i', '0']]) = true ∧
    (exampleEnv [['c']]).cwd ≠ fileAt (exampleEnv [['c']]) ⟨true, [['d']]⟩ ∧
    (exampleEnv []).cwd ++ ['d'] :: [['i', '0']] = [['d']] ++ [exampleBosSerie.nameOf false] ∧
    (exampleEnv [['d']]).cwd ++ ['i', '0'] :: [] = [['d']] ++ [exampleBosSerie.nameOf false] := by
  refine ⟨by decide, by decide, by decide, by decide⟩

end Verif
