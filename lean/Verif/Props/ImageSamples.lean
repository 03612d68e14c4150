import Verif.Model.ImageSamples

/-!
# C147: the directory of the sample images
-/

namespace Verif
open Verif.ImageSamples

/-! ## Specification -/

/-- The directories of samples of a development installation, of the home directory and of a continuous integration, in the order in which
they are preferred. -/
def ImageSamples.World.candidates (w : World) : List (List Txt) :=
  [w.pkg.dropLast.dropLast ++ ["image_samples".toList], w.home ++ ["dev".toList, "fluidimage".toList, "image_samples".toList]] ++
  (w.env "CI_PROJECT_DIR".toList).toList.map (fun d => full w (parse d) ++ ["image_samples".toList]) ++
  (w.env "GITHUB_WORKSPACE".toList).toList.map (fun d => full w (parse d) ++ ["image_samples".toList])

/-- The directory in which the repository is downloaded. -/
def ImageSamples.World.repository (w : World) : List Txt :=
  full w (userDataDir w "fluidimage".toList) ++ ["repository".toList]

/-- Its directory of samples. -/
def ImageSamples.World.downloaded (w : World) : List Txt := w.repository ++ ["image_samples".toList]

/-- The directory exists and contains all samples of the repository. -/
structure HasSamples (repo : List (List Txt)) (fs : FS) (p : List Txt) : Prop where
  dir : p ∈ fs
  files : ∀ f, "image_samples".toList :: f ∈ repo → p ++ f ∈ fs

/-- Two processes of one user on one machine: only the programs which can be used may be different. -/
structure SamePlace (w w' : World) : Prop where
  pkg : w'.pkg = w.pkg
  home : w'.home = w.home
  cwd : w'.cwd = w.cwd
  env : w'.env = w.env
  platform : w'.platform = w.platform

/-- The other directories are not in the directory of the download, nor above it. -/
def ImageSamples.World.Apart (w : World) : Prop := ∀ c ∈ w.candidates, ¬ c <+: w.repository ∧ ¬ w.repository <+: c

/-! ## What one call does -/

theorem full_join (w : World) (p : Path) (l : List Txt) : full w (p.join l) = full w p ++ l := by
  unfold full Path.join
  split <;> simp

theorem full_data (w : World) : full w (dataSamples w) = w.downloaded := by
  unfold dataSamples World.downloaded World.repository
  rw [full_join, List.append_assoc]
  rfl

theorem full_data_parent (w : World) : full w (dataSamples w).parent = w.repository := by
  unfold dataSamples World.repository full Path.join Path.parent
  simp only
  have : ((userDataDir w "fluidimage".toList).parts ++ ["repository".toList, nameSamples]).dropLast =
      (userDataDir w "fluidimage".toList).parts ++ ["repository".toList] := by
    rw [List.dropLast_append_of_ne_nil (by simp)]
    rfl
  rw [this]
  split <;> simp

theorem full_abs (w : World) (l : List Txt) : full w ⟨true, l⟩ = l := rfl

theorem ciSamples_spec (w : World) (fs : FS) : ∀ names,
    match (names.flatMap fun n => (w.env n).toList.map fun d => full w (parse d) ++ ["image_samples".toList]).find? (· ∈ fs) with
    | some c => ∃ p, ciSamples w fs names = some p ∧ full w p = c
    | none => ciSamples w fs names = none
  | [] => rfl
  | n :: l => by
    have ih := ciSamples_spec w fs l
    rw [List.flatMap_cons]
    unfold ciSamples
    cases he : w.env n with
    | none => simpa using ih
    | some d =>
      have hj : full w ((parse d).join [nameSamples]) = full w (parse d) ++ ["image_samples".toList] := full_join w _ _
      simp only [Option.toList_some, List.map_cons, List.map_nil, List.cons_append, List.nil_append, List.find?_cons]
      by_cases hm : full w (parse d) ++ ["image_samples".toList] ∈ fs
      · rw [if_pos (by rw [hj]; exact hm)]
        simp only [hm, decide_true]
        exact ⟨_, rfl, hj⟩
      · rw [if_neg (by rw [hj]; exact hm)]
        simp only [hm, decide_false]
        exact ih

theorem candidates_eq (w : World) : w.candidates =
    (w.pkg.dropLast.dropLast ++ [nameSamples]) :: (w.home ++ ["dev".toList, "fluidimage".toList, nameSamples]) ::
      (["CI_PROJECT_DIR".toList, "GITHUB_WORKSPACE".toList].flatMap fun n =>
        (w.env n).toList.map fun d => full w (parse d) ++ ["image_samples".toList]) := by
  unfold World.candidates
  rw [List.flatMap_cons, List.flatMap_cons, List.flatMap_nil, List.append_nil, List.append_assoc]
  rfl

theorem getPath_found {w : World} {repo : List (List Txt)} {o : Clone} {fs : FS} {c : List Txt}
    (h : w.candidates.find? (· ∈ fs) = some c) : ∃ p, getPath w repo o fs = .ok (fs, p, false) ∧ full w p = c := by
  rw [candidates_eq, List.find?_cons] at h
  unfold getPath
  simp only
  by_cases h1 : w.pkg.dropLast.dropLast ++ [nameSamples] ∈ fs
  · simp only [h1, decide_true, Option.some.injEq] at h
    rw [if_pos (show full w ⟨true, _⟩ ∈ fs from h1)]
    exact ⟨_, rfl, h⟩
  simp only [h1, decide_false] at h
  rw [if_neg (show ¬ full w ⟨true, _⟩ ∈ fs from h1)]
  rw [List.find?_cons] at h
  by_cases h2 : w.home ++ ["dev".toList, "fluidimage".toList, nameSamples] ∈ fs
  · simp only [h2, decide_true, Option.some.injEq] at h
    rw [if_pos (show full w ⟨true, _⟩ ∈ fs from h2)]
    exact ⟨_, rfl, h⟩
  simp only [h2, decide_false] at h
  rw [if_neg (show ¬ full w ⟨true, _⟩ ∈ fs from h2)]
  have hs := ciSamples_spec w fs ["CI_PROJECT_DIR".toList, "GITHUB_WORKSPACE".toList]
  rw [h] at hs
  obtain ⟨p, e, hp⟩ := hs
  rw [e]
  exact ⟨p, rfl, hp⟩

theorem getPath_none {w : World} {repo : List (List Txt)} {o : Clone} {fs : FS} (h : ∀ c ∈ w.candidates, c ∉ fs) :
    getPath w repo o fs = match mkdirs w w.repository fs with
      | .error e => .error e
      | .ok fs => if w.downloaded ∈ fs then .ok (fs, dataSamples w, false)
        else if w.hg = true ∨ w.git = true then .ok (clone repo o w.repository fs, dataSamples w, true)
        else .ok (fs, dataSamples w, false) := by
  have hf : w.candidates.find? (· ∈ fs) = none := by
    rw [List.find?_eq_none]
    intro c hc
    simpa using h c hc
  rw [candidates_eq, List.find?_cons] at hf
  unfold getPath
  simp only
  by_cases h1 : w.pkg.dropLast.dropLast ++ [nameSamples] ∈ fs
  · simp only [h1, decide_true, reduceCtorEq] at hf
  simp only [h1, decide_false] at hf
  rw [if_neg (show ¬ full w ⟨true, _⟩ ∈ fs from h1)]
  rw [List.find?_cons] at hf
  by_cases h2 : w.home ++ ["dev".toList, "fluidimage".toList, nameSamples] ∈ fs
  · simp only [h2, decide_true, reduceCtorEq] at hf
  simp only [h2, decide_false] at hf
  rw [if_neg (show ¬ full w ⟨true, _⟩ ∈ fs from h2)]
  have hs := ciSamples_spec w fs ["CI_PROJECT_DIR".toList, "GITHUB_WORKSPACE".toList]
  rw [hf] at hs
  rw [hs]
  simp only [full_data, full_data_parent]
  cases mkdirs w w.repository fs with
  | error e => rfl
  | ok fs =>
    simp only
    split
    · rfl
    · cases w.hg <;> cases w.git <;> simp

theorem SamePlace.candidates {w w' : World} (h : SamePlace w w') : w'.candidates = w.candidates := by
  unfold World.candidates full
  rw [h.pkg, h.home, h.env, h.cwd]

theorem SamePlace.data {w w' : World} (h : SamePlace w w') : dataSamples w' = dataSamples w := by
  unfold dataSamples userDataDir expanduser
  rw [h.platform, h.env, h.home]

theorem SamePlace.repository {w w' : World} (h : SamePlace w w') : w'.repository = w.repository := by
  unfold World.repository userDataDir expanduser full
  rw [h.platform, h.env, h.home, h.cwd]

theorem SamePlace.downloaded {w w' : World} (h : SamePlace w w') : w'.downloaded = w.downloaded := by
  unfold World.downloaded
  rw [h.repository]

theorem SamePlace.refl (w : World) : SamePlace w w := ⟨rfl, rfl, rfl, rfl, rfl⟩

/-- C147: a directory of samples which exists is given, the first one in the order of preference, and nothing is written or downloaded. -/
theorem C147_existing (w : World) (repo : List (List Txt)) (o : Clone) (fs : FS) (before : List (List Txt)) (c : List Txt)
    (rest : List (List Txt)) (hc : w.candidates = before ++ c :: rest) (hb : ∀ b ∈ before, b ∉ fs) (h : c ∈ fs) :
    ∃ p, getPath w repo o fs = .ok (fs, p, false) ∧ full w p = c := by
  apply getPath_found
  rw [hc, List.find?_append, List.find?_eq_none.2 (by intro b hb'; simpa using hb b hb')]
  simp [h]

theorem mkdirs_ok {w : World} {d : List Txt} {fs : FS} (h : d ∈ fs ∨ w.canWrite = true) :
    ∃ fs', mkdirs w d fs = .ok fs' ∧ d ∈ fs' ∧ (∀ x, x ∈ fs' ↔ x ∈ fs ∨ (d ∉ fs ∧ x <+: d)) := by
  unfold mkdirs
  by_cases hd : d ∈ fs
  · rw [if_pos hd]
    exact ⟨fs, rfl, hd, fun x => ⟨Or.inl, fun h => h.elim id (fun h => absurd hd h.1)⟩⟩
  · rw [if_neg hd, if_pos (h.resolve_left hd)]
    have hx : ∀ x, x ∈ fs ++ (List.range (d.length + 1)).map d.take ↔ x ∈ fs ∨ (d ∉ fs ∧ x <+: d) := by
      intro x
      simp only [List.mem_append, List.mem_map, List.mem_range, hd, not_false_eq_true, true_and]
      refine or_congr_right ⟨?_, ?_⟩
      · rintro ⟨n, _, rfl⟩; exact List.take_prefix n d
      · intro hp; exact ⟨x.length, Nat.lt_succ_of_le hp.length_le, (List.prefix_iff_eq_take.1 hp).symm⟩
    exact ⟨_, rfl, (hx d).2 (Or.inr ⟨hd, List.prefix_rfl⟩), hx⟩

theorem nonEmpty_iff {fs : FS} {d : List Txt} : nonEmpty fs d = true ↔ ∃ q ∈ fs, d <+: q ∧ q ≠ d := by
  simp [nonEmpty]

/-- C147: a call never removes a file; what it creates is the directory of the download, the directories above and files in it. -/
theorem C147_writes (w : World) (repo : List (List Txt)) (o : Clone) (fs fs' : FS) (p : Path) (b : Bool)
    (h : getPath w repo o fs = .ok (fs', p, b)) :
    (∀ x ∈ fs, x ∈ fs') ∧ ∀ x ∈ fs', x ∈ fs ∨ x <+: w.repository ∨ w.repository <+: x := by
  by_cases hc : ∃ c ∈ w.candidates, c ∈ fs
  · cases hf : w.candidates.find? (· ∈ fs) with
    | none =>
      rw [List.find?_eq_none] at hf
      obtain ⟨c, hc, hm⟩ := hc
      exact absurd hm (by simpa using hf c hc)
    | some c =>
      obtain ⟨q, e, _⟩ := getPath_found (repo := repo) (o := o) hf
      rw [e] at h
      cases h
      exact ⟨fun _ => id, fun _ => Or.inl⟩
  · have hn : ∀ c ∈ w.candidates, c ∉ fs := fun c hc' hm => hc ⟨c, hc', hm⟩
    rw [getPath_none hn] at h
    by_cases hw : w.repository ∈ fs ∨ w.canWrite = true
    · obtain ⟨fs1, e1, _, hx⟩ := mkdirs_ok hw
      rw [e1] at h
      simp only at h
      have h1 : (∀ x ∈ fs, x ∈ fs1) ∧ ∀ x ∈ fs1, x ∈ fs ∨ x <+: w.repository ∨ w.repository <+: x :=
        ⟨fun x hx' => (hx x).2 (Or.inl hx'), fun x hx' => ((hx x).1 hx').imp id (fun h => Or.inl h.2)⟩
      split at h
      · cases h; exact h1
      split at h
      · cases h
        unfold clone
        split
        · exact h1
        · have happ : ∀ l : List (List Txt), (∀ x ∈ fs, x ∈ fs1 ++ l.map (w.repository ++ ·)) ∧
              ∀ x ∈ fs1 ++ l.map (w.repository ++ ·), x ∈ fs ∨ x <+: w.repository ∨ w.repository <+: x := by
            intro l
            refine ⟨fun x hx' => List.mem_append_left _ (h1.1 x hx'), ?_⟩
            intro x hx'
            rcases List.mem_append.1 hx' with hx' | hx'
            · exact h1.2 x hx'
            · obtain ⟨y, _, rfl⟩ := List.mem_map.1 hx'
              exact Or.inr (Or.inr (List.prefix_append _ _))
          cases o with
          | complete => exact happ repo
          | failed => exact h1
          | killed ws => exact happ ws
      · cases h; exact h1
    · exfalso
      rw [not_or] at hw
      have : mkdirs w w.repository fs = .error .osError := by
        unfold mkdirs
        rw [if_neg hw.1, if_neg (by simpa using hw.2)]
      rw [this] at h
      cases h

/-! ## Histories -/

/-- If one call leaves the files as they are in all circumstances, so do all sequences of calls. -/
theorem after_fixed {repo : List (List Txt)} {fs : FS} {w : World}
    (h : ∀ w' o, SamePlace w w' → ∃ p b, getPath w' repo o fs = .ok (fs, p, b)) :
    ∀ l : List (World × Clone), (∀ x ∈ l, SamePlace w x.1) → after repo l fs = fs
  | [], _ => rfl
  | (w', o) :: l, hl => by
    obtain ⟨p, b, e⟩ := h w' o (hl _ List.mem_cons_self)
    unfold after
    rw [e]
    exact after_fixed h l (fun x hx => hl x (List.mem_cons_of_mem _ hx))

/-- What is after the directories have been made: the first files of the repository, in the directory of the download. -/
theorem getPath_clone {w : World} {repo : List (List Txt)} {o : Clone} {fs : FS} (hn : ∀ c ∈ w.candidates, c ∉ fs)
    (ht : w.hg = true ∨ w.git = true) (hw : w.repository ∈ fs ∨ w.canWrite = true) (he : ∀ q ∈ fs, w.repository <+: q → q = w.repository) :
    ∃ fs1, (∀ x, x ∈ fs1 ↔ x ∈ fs ∨ (w.repository ∉ fs ∧ x <+: w.repository)) ∧ w.repository ∈ fs1 ∧
      (∀ q ∈ fs1, w.repository <+: q → q = w.repository) ∧
      getPath w repo o fs = .ok (match (o : Clone) with
        | .complete => fs1 ++ repo.map (w.repository ++ ·)
        | .failed => fs1
        | .killed ws => fs1 ++ ws.map (w.repository ++ ·), dataSamples w, true) := by
  obtain ⟨fs1, e1, hr, hx⟩ := mkdirs_ok (d := w.repository) hw
  have he1 : ∀ q ∈ fs1, w.repository <+: q → q = w.repository := by
    intro q hq hp
    rcases (hx q).1 hq with h | ⟨_, h⟩
    · exact he q h hp
    · exact (hp.eq_of_length (Nat.le_antisymm hp.length_le h.length_le)).symm
  refine ⟨fs1, hx, hr, he1, ?_⟩
  rw [getPath_none hn, e1]
  simp only
  have hd : w.downloaded ∉ fs1 := by
    intro hc
    have := he1 _ hc (List.prefix_append _ _)
    unfold World.downloaded at this
    simp at this
  rw [if_neg hd, if_pos ht]
  have hne : nonEmpty fs1 w.repository = false := by
    rw [← Bool.not_eq_true, nonEmpty_iff]
    rintro ⟨q, hq, hp, hc⟩
    exact hc (he1 q hq hp)
  unfold clone
  rw [hne]
  cases o <;> rfl

theorem not_mem_written {w : World} (ha : w.Apart) {fs fs1 : FS} (hn : ∀ c ∈ w.candidates, c ∉ fs)
    (hx : ∀ x, x ∈ fs1 ↔ x ∈ fs ∨ (w.repository ∉ fs ∧ x <+: w.repository)) (l : List (List Txt)) :
    ∀ c ∈ w.candidates, c ∉ fs1 ++ l.map (w.repository ++ ·) := by
  intro c hc hm
  rcases List.mem_append.1 hm with hm | hm
  · rcases (hx c).1 hm with h | ⟨_, h⟩
    · exact hn c hc h
    · exact (ha c hc).1 h
  · obtain ⟨y, _, rfl⟩ := List.mem_map.1 hm
    exact (ha _ hc).2 (List.prefix_append _ _)

/-- C147: when there is no directory of samples, they are downloaded once: the path which is given contains all samples, and all later calls
give it without another download. -/
theorem C147_downloaded (w : World) (repo : List (List Txt)) (fs : FS) (ha : w.Apart) (hn : ∀ c ∈ w.candidates, c ∉ fs)
    (ht : w.hg = true ∨ w.git = true) (hw : w.repository ∈ fs ∨ w.canWrite = true)
    (he : ∀ q ∈ fs, w.repository <+: q → q = w.repository) (hr : ["image_samples".toList] ∈ repo) :
    ∃ fs' p, getPath w repo .complete fs = .ok (fs', p, true) ∧ full w p = w.downloaded ∧ HasSamples repo fs' w.downloaded ∧
      ∀ (l : List (World × Clone)) (w' : World) (o : Clone), (∀ x ∈ l, SamePlace w x.1) → SamePlace w w' →
        getPath w' repo o (after repo l fs') = .ok (fs', p, false) := by
  obtain ⟨fs1, hx, hr1, _, e⟩ := getPath_clone (repo := repo) (o := .complete) hn ht hw he
  refine ⟨_, _, e, full_data w, ⟨?_, ?_⟩, ?_⟩
  · exact List.mem_append_right _ (List.mem_map.2 ⟨_, hr, rfl⟩)
  · intro f hf
    refine List.mem_append_right _ (List.mem_map.2 ⟨_, hf, ?_⟩)
    unfold World.downloaded
    simp
  · have hone : ∀ w' o, SamePlace w w' → getPath w' repo o (fs1 ++ repo.map (w.repository ++ ·)) =
        .ok (fs1 ++ repo.map (w.repository ++ ·), dataSamples w, false) := by
      intro w' o hs
      rw [getPath_none (by rw [hs.candidates]; exact not_mem_written ha hn hx repo)]
      unfold mkdirs
      rw [hs.repository, if_pos (List.mem_append_left _ hr1), hs.downloaded, hs.data]
      simp only
      have hmem : w.downloaded ∈ fs1 ++ repo.map (w.repository ++ ·) := List.mem_append_right _ (List.mem_map.2 ⟨_, hr, rfl⟩)
      rw [if_pos hmem]
    intro l w' o hl hs
    simp only
    rw [after_fixed (w := w) (fun w' o hs => ⟨_, _, hone w' o hs⟩) l hl]
    exact hone w' o hs

theorem getPath_failed {w : World} {repo : List (List Txt)} {fs : FS} (hn : ∀ c ∈ w.candidates, c ∉ fs) :
    (∃ e, getPath w repo .failed fs = .error e) ∨ ∃ fs1 p b, getPath w repo .failed fs = .ok (fs1, p, b) ∧ w.repository ∈ fs1 ∧
      ∀ x, x ∈ fs1 ↔ x ∈ fs ∨ (w.repository ∉ fs ∧ x <+: w.repository) := by
  rw [getPath_none hn]
  by_cases hw : w.repository ∈ fs ∨ w.canWrite = true
  · obtain ⟨fs1, e1, hr1, hx⟩ := mkdirs_ok (d := w.repository) hw
    have hcl : clone repo .failed w.repository fs1 = fs1 := by
      unfold clone
      split <;> rfl
    rw [e1]
    simp only [hcl]
    right
    by_cases h1 : w.downloaded ∈ fs1
    · rw [if_pos h1]; exact ⟨_, _, _, rfl, hr1, hx⟩
    · rw [if_neg h1]
      by_cases h2 : w.hg = true ∨ w.git = true
      · rw [if_pos h2]; exact ⟨_, _, _, rfl, hr1, hx⟩
      · rw [if_neg h2]; exact ⟨_, _, _, rfl, hr1, hx⟩
  · rw [not_or] at hw
    have : mkdirs w w.repository fs = .error .osError := by
      unfold mkdirs
      rw [if_neg hw.1, if_neg (by simpa using hw.2)]
    rw [this]
    exact Or.inl ⟨_, rfl⟩

/-- C147: a download which fails (without leaving files) is tried again by the next calls, and the first one which is complete gives the
samples. -/
theorem C147_retry (w : World) (repo : List (List Txt)) (fs : FS) (ha : w.Apart) (hn : ∀ c ∈ w.candidates, c ∉ fs)
    (ht : w.hg = true ∨ w.git = true) (hw : w.repository ∈ fs ∨ w.canWrite = true)
    (he : ∀ q ∈ fs, w.repository <+: q → q = w.repository) (hr : ["image_samples".toList] ∈ repo) :
    ∀ (l : List (World × Clone)), (∀ x ∈ l, SamePlace w x.1 ∧ x.2 = .failed) →
      ∃ fs' p, getPath w repo .complete (after repo l fs) = .ok (fs', p, true) ∧ full w p = w.downloaded ∧
        HasSamples repo fs' w.downloaded := by
  intro l
  induction l generalizing fs with
  | nil =>
    intro _
    obtain ⟨fs', p, e, h1, h2, _⟩ := C147_downloaded w repo fs ha hn ht hw he hr
    exact ⟨fs', p, e, h1, h2⟩
  | cons x l ih =>
    intro hl
    obtain ⟨w', o⟩ := x
    obtain ⟨hs, ho⟩ := hl _ List.mem_cons_self
    simp only at hs ho
    subst ho
    have hl' : ∀ x ∈ l, SamePlace w x.1 ∧ x.2 = .failed := fun x hx => hl x (List.mem_cons_of_mem _ hx)
    unfold after
    rcases getPath_failed (w := w') (repo := repo) (fs := fs) (by rw [hs.candidates]; exact hn) with ⟨e, h⟩ | ⟨fs1, p, b, h, hr1, hx⟩
    · rw [h]
      exact ih fs hn hw he hl'
    · rw [hs.repository] at hr1 hx
      rw [h]
      refine ih fs1 ?_ (Or.inl hr1) ?_ hl'
      · have := not_mem_written ha hn hx []
        simpa using this
      · intro q hq hp
        rcases (hx q).1 hq with h | ⟨_, h⟩
        · exact he q h hp
        · exact (hp.eq_of_length (Nat.le_antisymm hp.length_le h.length_le)).symm

/-! ## Disagreements -/

/-- Disagreement: without Mercurial and Git, or when the download fails, no exception is raised and the path which is given does not exist. -/
theorem C147_missing_fails (w : World) (repo : List (List Txt)) (o : Clone) (fs : FS) (hn : ∀ c ∈ w.candidates, c ∉ fs)
    (hw : w.repository ∈ fs ∨ w.canWrite = true) (he : ∀ q ∈ fs, w.repository <+: q → q = w.repository)
    (hf : (w.hg = false ∧ w.git = false) ∨ o = .failed) :
    ∃ fs' p b, getPath w repo o fs = .ok (fs', p, b) ∧ full w p = w.downloaded ∧ full w p ∉ fs' := by
  obtain ⟨fs1, e1, hr, hx⟩ := mkdirs_ok (d := w.repository) hw
  have hd : w.downloaded ∉ fs1 := by
    intro hc
    rcases (hx _).1 hc with h | ⟨_, h⟩
    · have := he _ h (List.prefix_append _ _)
      unfold World.downloaded at this
      simp at this
    · have := h.length_le
      unfold World.downloaded at this
      simp at this
      omega
  rw [getPath_none hn, e1]
  simp only
  rw [if_neg hd]
  by_cases ht : w.hg = true ∨ w.git = true
  · rw [if_pos ht]
    rcases hf with ⟨h1, h2⟩ | rfl
    · rw [h1, h2] at ht; simp at ht
    · refine ⟨_, _, _, rfl, full_data w, ?_⟩
      have hcl : clone repo .failed w.repository fs1 = fs1 := by
        unfold clone
        split <;> rfl
      rw [hcl, full_data]; exact hd
  · rw [if_neg ht]
    exact ⟨_, _, _, rfl, full_data w, by rw [full_data]; exact hd⟩

/-- When the directory of the download cannot be created, `PermissionError` is raised (even if nothing could be downloaded). -/
theorem C147_no_permission (w : World) (repo : List (List Txt)) (o : Clone) (fs : FS) (hn : ∀ c ∈ w.candidates, c ∉ fs)
    (hr : w.repository ∉ fs) (hw : w.canWrite = false) : getPath w repo o fs = .error .osError := by
  rw [getPath_none hn]
  have : mkdirs w w.repository fs = .error .osError := by
    unfold mkdirs
    rw [if_neg hr, if_neg (by simp [hw])]
  rw [this]

/-- Disagreement: after a download which has been killed before the directory of samples was written, no call gives the samples any more:
for all later calls, whatever the programs which are available, the path which is given does not exist. -/
theorem C147_killed_fails (w : World) (repo : List (List Txt)) (fs : FS) (ha : w.Apart) (hn : ∀ c ∈ w.candidates, c ∉ fs)
    (ht : w.hg = true ∨ w.git = true) (hw : w.repository ∈ fs ∨ w.canWrite = true)
    (he : ∀ q ∈ fs, w.repository <+: q → q = w.repository) (ws : List (List Txt)) (f : List Txt) (hf : f ∈ ws) (hf0 : f ≠ [])
    (hs0 : ["image_samples".toList] ∉ ws) :
    ∃ fs' p, getPath w repo (.killed ws) fs = .ok (fs', p, true) ∧
      ∀ (l : List (World × Clone)) (w' : World) (o : Clone), (∀ x ∈ l, SamePlace w x.1) → SamePlace w w' →
        ∃ b, getPath w' repo o (after repo l fs') = .ok (fs', p, b) ∧ full w' p ∉ fs' := by
  obtain ⟨fs1, hx, hr1, he1, e⟩ := getPath_clone (repo := repo) (o := .killed ws) hn ht hw he
  refine ⟨_, _, e, ?_⟩
  have hd : w.downloaded ∉ fs1 ++ ws.map (w.repository ++ ·) := by
    intro hc
    rcases List.mem_append.1 hc with hc | hc
    · have := he1 _ hc (List.prefix_append _ _)
      unfold World.downloaded at this
      simp at this
    · obtain ⟨y, hy, e⟩ := List.mem_map.1 hc
      have : y = ["image_samples".toList] := List.append_cancel_left e
      exact hs0 (this ▸ hy)
  have hne : nonEmpty (fs1 ++ ws.map (w.repository ++ ·)) w.repository = true := by
    rw [nonEmpty_iff]
    exact ⟨w.repository ++ f, List.mem_append_right _ (List.mem_map.2 ⟨f, hf, rfl⟩), List.prefix_append _ _, by simpa using hf0⟩
  have hone : ∀ w' o, SamePlace w w' → ∃ b, getPath w' repo o (fs1 ++ ws.map (w.repository ++ ·)) =
      .ok (fs1 ++ ws.map (w.repository ++ ·), dataSamples w, b) := by
    intro w' o hs
    rw [getPath_none (by rw [hs.candidates]; exact not_mem_written ha hn hx ws)]
    unfold mkdirs
    rw [hs.repository, if_pos (List.mem_append_left _ hr1), hs.downloaded, hs.data]
    simp only
    rw [if_neg hd]
    have hcl : clone repo o w.repository (fs1 ++ ws.map (w.repository ++ ·)) = fs1 ++ ws.map (w.repository ++ ·) := by
      unfold clone
      rw [if_pos hne]
    rw [hcl]
    split
    · exact ⟨_, rfl⟩
    · exact ⟨_, rfl⟩
  intro l w' o hl hs
  simp only
  rw [after_fixed (w := w) (fun w' o hs => ⟨_, hone w' o hs⟩) l hl]
  obtain ⟨b, h⟩ := hone w' o hs
  refine ⟨b, h, ?_⟩
  rw [← hs.data, full_data, hs.downloaded]
  exact hd

/-- Disagreement: after a download which has been killed when only some of the samples were written, all later calls give the directory in
which samples are missing, without downloading anything. -/
theorem C147_killed_part_fails (w : World) (repo : List (List Txt)) (fs : FS) (ha : w.Apart) (hn : ∀ c ∈ w.candidates, c ∉ fs)
    (ht : w.hg = true ∨ w.git = true) (hw : w.repository ∈ fs ∨ w.canWrite = true)
    (he : ∀ q ∈ fs, w.repository <+: q → q = w.repository) (ws : List (List Txt)) (hs0 : ["image_samples".toList] ∈ ws)
    (f : List Txt) (hf : "image_samples".toList :: f ∈ repo) (hm : "image_samples".toList :: f ∉ ws) :
    ∃ fs' p, getPath w repo (.killed ws) fs = .ok (fs', p, true) ∧
      ∀ (l : List (World × Clone)) (w' : World) (o : Clone), (∀ x ∈ l, SamePlace w x.1) → SamePlace w w' →
        getPath w' repo o (after repo l fs') = .ok (fs', p, false) ∧ ¬ HasSamples repo fs' (full w' p) := by
  obtain ⟨fs1, hx, hr1, he1, e⟩ := getPath_clone (repo := repo) (o := .killed ws) hn ht hw he
  refine ⟨_, _, e, ?_⟩
  have hone : ∀ w' o, SamePlace w w' → getPath w' repo o (fs1 ++ ws.map (w.repository ++ ·)) =
      .ok (fs1 ++ ws.map (w.repository ++ ·), dataSamples w, false) := by
    intro w' o hs
    rw [getPath_none (by rw [hs.candidates]; exact not_mem_written ha hn hx ws)]
    unfold mkdirs
    rw [hs.repository, if_pos (List.mem_append_left _ hr1), hs.downloaded, hs.data]
    simp only
    have hmem : w.downloaded ∈ fs1 ++ ws.map (w.repository ++ ·) := List.mem_append_right _ (List.mem_map.2 ⟨_, hs0, rfl⟩)
    rw [if_pos hmem]
  intro l w' o hl hs
  simp only
  rw [after_fixed (w := w) (fun w' o hs => ⟨_, _, hone w' o hs⟩) l hl]
  refine ⟨hone w' o hs, ?_⟩
  rw [← hs.data, full_data, hs.downloaded]
  intro hh
  have := hh.files f hf
  rcases List.mem_append.1 this with hc | hc
  · have h1 : w.downloaded ++ f = w.repository ++ ("image_samples".toList :: f) := by
      unfold World.downloaded; simp
    rw [h1] at hc
    have := he1 _ hc (List.prefix_append _ _)
    simp at this
  · obtain ⟨y, hy, e⟩ := List.mem_map.1 hc
    have h1 : w.downloaded ++ f = w.repository ++ ("image_samples".toList :: f) := by
      unfold World.downloaded; simp
    rw [h1] at e
    have : y = "image_samples".toList :: f := List.append_cancel_left e
    exact hm (this ▸ hy)

/-! ## The directory of the download and the current directory -/

/-- C147 (partial): on Linux, without the variable `XDG_DATA_HOME` or with an absolute path in it, the directory of the download does not
depend on the current directory. -/
theorem C147_absolute_partial (w : World) (hl : w.platform = .linux)
    (hx : w.env "XDG_DATA_HOME".toList = none ∨ ∃ d, w.env "XDG_DATA_HOME".toList = some ('/' :: d)) (cwd' : List Txt) :
    ({ w with cwd := cwd' } : World).repository = w.repository := by
  unfold World.repository userDataDir full
  simp only [hl]
  rcases hx with hx | ⟨d, hx⟩
  · rw [hx]
    have hp : parse ((none : Option Txt).getD "~/.local/share".toList) = ⟨false, [['~'], ".local".toList, "share".toList]⟩ := by decide
    rw [hp]
    rfl
  · rw [hx]
    have hp : (parse ((some ('/' :: d) : Option Txt).getD "~/.local/share".toList)).abs = true := rfl
    unfold expanduser Path.join
    simp only [hp, if_true]

/-- And it is the place which is documented for the data of a user: `~/.local/share`. -/
theorem C147_default_place (w : World) (hl : w.platform = .linux) (hx : w.env "XDG_DATA_HOME".toList = none) :
    w.downloaded = w.home ++ [".local".toList, "share".toList, "fluidimage".toList, "repository".toList, "image_samples".toList] := by
  unfold World.downloaded World.repository userDataDir full
  simp only [hl]
  rw [hx]
  have hp : parse ((none : Option Txt).getD "~/.local/share".toList) = ⟨false, [['~'], ".local".toList, "share".toList]⟩ := by decide
  rw [hp]
  simp [expanduser, Path.join]

/-- Disagreement: with an empty variable `XDG_DATA_HOME` (which means "not set" in the specification of this variable), the samples are
downloaded in the current directory: in another directory they are not found. -/
theorem C147_empty_variable_fails (w : World) (hl : w.platform = .linux) (hx : w.env "XDG_DATA_HOME".toList = some []) (cwd' : List Txt)
    (hc : cwd' ≠ w.cwd) :
    w.downloaded = w.cwd ++ ["fluidimage".toList, "repository".toList, "image_samples".toList] ∧
    ({ w with cwd := cwd' } : World).downloaded ≠ w.downloaded := by
  have h : ∀ v : World, v.platform = .linux → v.env "XDG_DATA_HOME".toList = some [] →
      v.downloaded = v.cwd ++ ["fluidimage".toList, "repository".toList, "image_samples".toList] := by
    intro v hl hx
    unfold World.downloaded World.repository userDataDir full
    simp only [hl]
    rw [hx]
    have hp : parse ((some [] : Option Txt).getD "~/.local/share".toList) = ⟨false, []⟩ := by decide
    rw [hp]
    simp [expanduser, Path.join]
  refine ⟨h w hl hx, ?_⟩
  rw [h w hl hx, h { w with cwd := cwd' } hl hx]
  intro he
  exact hc (List.append_cancel_right he)

/-! ## Concrete cases -/

/-- A user with Git. -/
def demoUser : World :=
  ⟨["usr".toList, "lib".toList, "fluidimage".toList], ["home".toList, "me".toList], ["tmp".toList], fun _ => none, .linux, false, true, true⟩

def demoRepo : List (List Txt) := [["image_samples".toList], ["image_samples".toList, "a.png".toList], ["README".toList]]

/-- The hypotheses of `C147_downloaded`, `C147_retry`, `C147_missing_fails` and `C147_killed_fails` are met. -/
example : demoUser.Apart := by
  intro c hc
  have h : demoUser.candidates = [["usr".toList, "image_samples".toList],
    ["home".toList, "me".toList, "dev".toList, "fluidimage".toList, "image_samples".toList]] := by decide
  have hr : demoUser.repository = ["home".toList, "me".toList, ".local".toList, "share".toList, "fluidimage".toList, "repository".toList] := by
    decide
  rw [h] at hc
  rw [hr]
  simp only [List.mem_cons, List.not_mem_nil, or_false] at hc
  rcases hc with rfl | rfl <;> decide

example : (∀ c ∈ demoUser.candidates, c ∉ ([] : FS)) ∧ (demoUser.hg = true ∨ demoUser.git = true) ∧
    (demoUser.repository ∈ ([] : FS) ∨ demoUser.canWrite = true) ∧ ["image_samples".toList] ∈ demoRepo := by decide

example : (getPath demoUser demoRepo .complete []).map (fun r => (r.2, decide (demoUser.downloaded ++ ["a.png".toList] ∈ r.1))) =
    .ok ((dataSamples demoUser, true), true) := by decide +kernel

/-- Clones which are killed: the Git data only, or the directory of samples without its file. -/
example : [".git".toList] ∈ [[".git".toList]] ∧ [".git".toList] ≠ [] ∧ ["image_samples".toList] ∉ [[".git".toList]] ∧
    "image_samples".toList :: ["a.png".toList] ∈ demoRepo ∧ "image_samples".toList :: ["a.png".toList] ∉ [["image_samples".toList]] := by decide

/-- A relative path in `CI_PROJECT_DIR`, which is preferred to `GITHUB_WORKSPACE`. -/
example : let w : World := { demoUser with env := fun n => if n = "CI_PROJECT_DIR".toList then some "./a//b".toList
      else if n = "GITHUB_WORKSPACE".toList then some "/c/".toList else none }
    (getPath w demoRepo .failed [["c".toList, "image_samples".toList], ["tmp".toList, "a".toList, "b".toList, "image_samples".toList]]).map
      (fun r => r.2) = .ok (⟨false, ["a".toList, "b".toList, "image_samples".toList]⟩, false) := by decide +kernel

/-- A development installation: the samples of the repository are given. -/
example : (getPath demoUser demoRepo .complete [["usr".toList, "image_samples".toList]]).map (fun r => r.2) =
    .ok (⟨true, ["usr".toList, "image_samples".toList]⟩, false) := by decide +kernel

end Verif
