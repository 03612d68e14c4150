import Verif.Model.TomoArray
import Verif.Props.Tomo
import Mathlib.Analysis.SpecialFunctions.Pow.NNReal

/-!
# The objects of the tomography (C124)
-/

namespace Verif
open Verif.TomoArray

/-! ## Specification -/

/-- The pixel of the row `r` and the column `c` has the value `v`. -/
def PixelValue (im : List (List ℝ)) (r c : ℕ) (v : ℝ) : Prop := ∃ row, im[r]? = some row ∧ row[c]? = some v

/-- The pixel is not dark: its value is not zero, and not less than the threshold if there is one. -/
def BrightPixel (t : Option ℝ) (im : List (List ℝ)) (r c : ℕ) (v : ℝ) : Prop :=
  PixelValue im r c v ∧ v ≠ 0 ∧ ∀ t', t = some t' → t' ≤ v

/-- The intensity of the voxel of indices `(ix, iy, iz)` (see `C55_grid`). -/
def voxel (nx ny : ℕ) (I : List ℝ) (ix iy iz : ℕ) : Option ℝ := I[(iz * ny + iy) * nx + ix]?

/-! ## Interpolation -/

theorem mem_coo (im : List (List ℝ)) (e : Entry) : e ∈ coo im ↔ PixelValue im e.row e.col e.val ∧ e.val ≠ 0 := by
  unfold coo PixelValue
  simp only [List.mem_flatMap, List.mem_filterMap]
  constructor
  · rintro ⟨⟨row, r⟩, h1, ⟨v, c⟩, h2, h3⟩
    split at h3
    · cases h3
    · rename_i h0
      cases h3
      rw [List.mem_zipIdx_iff_getElem?] at h1 h2
      exact ⟨⟨row, h1, h2⟩, h0⟩
  · rintro ⟨⟨row, h1, h2⟩, h0⟩
    refine ⟨(row, e.row), List.mem_zipIdx_iff_getElem?.2 h1, (e.val, e.col), List.mem_zipIdx_iff_getElem?.2 h2, ?_⟩
    simp [h0]

theorem mem_coo_thresholded (t : Option ℝ) (im : List (List ℝ)) (e : Entry) :
    e ∈ coo (thresholded t im) ↔ BrightPixel t im e.row e.col e.val := by
  rw [mem_coo]
  unfold BrightPixel
  cases t with
  | none => simp [thresholded]
  | some t =>
    unfold PixelValue thresholded
    simp only [List.getElem?_map, Option.map_eq_some_iff, Option.some.injEq]
    constructor
    · rintro ⟨⟨_, ⟨row, h1, rfl⟩, h2⟩, h0⟩
      rw [List.getElem?_map, Option.map_eq_some_iff] at h2
      obtain ⟨v, h2, h3⟩ := h2
      split at h3
      · exact absurd h3.symm h0
      · rename_i h4
        subst h3
        exact ⟨⟨row, h1, h2⟩, h0, fun t' ht => by rw [← ht]; exact not_lt.1 h4⟩
    · rintro ⟨⟨row, h1, h2⟩, h0, h3⟩
      refine ⟨⟨_, ⟨row, h1, rfl⟩, ?_⟩, h0⟩
      rw [List.getElem?_map, h2, Option.map_some, if_neg (not_lt.2 (h3 t rfl))]

theorem sq_lt_of_half {x : ℝ} {c c' : ℕ} (h : |x - c| < 1 / 2) (hne : c' ≠ c) : (x - c) ^ 2 < (x - c') ^ 2 := by
  rw [sq_lt_sq]
  rw [abs_lt] at h
  rcases Nat.lt_or_ge c' c with h1 | h1
  · have h2 : (c' : ℝ) + 1 ≤ c := by exact_mod_cast h1
    have h3 : |x - c'| = x - c' := abs_of_pos (by linarith)
    rw [h3, abs_lt]
    constructor <;> linarith
  · have h2 : (c : ℝ) + 1 ≤ c' := by exact_mod_cast (by omega : c + 1 ≤ c')
    have h3 : |x - c'| = -(x - c') := abs_of_neg (by linarith)
    rw [h3, abs_lt]
    constructor <;> linarith

theorem sq_le_of_half {x : ℝ} {c c' : ℕ} (h : |x - c| < 1 / 2) : (x - c) ^ 2 ≤ (x - c') ^ 2 := by
  by_cases e : c' = c
  · rw [e]
  · exact (sq_lt_of_half h e).le

/-- C124: a voxel which is projected in a pixel which is not dark takes the value of this pixel. -/
theorem C124_bright_partial (t : Option ℝ) (im : List (List ℝ)) (r c : ℕ) (v x y w : ℝ) (hb : BrightPixel t im r c v)
    (hx : |x - c| < 1 / 2) (hy : |y - r| < 1 / 2) : NearestValue (coo (thresholded t im)) x y w ↔ w = v := by
  have hm : (⟨c, r, v⟩ : Entry) ∈ coo (thresholded t im) := (mem_coo_thresholded t im _).2 hb
  have hmin : ∀ e' : Entry, dist2 x y ⟨c, r, v⟩ ≤ dist2 x y e' := fun e' =>
    add_le_add (sq_le_of_half hx) (sq_le_of_half hy)
  constructor
  · rintro ⟨e, h1, rfl, h2⟩
    have h3 := h2 _ hm
    have hc : e.col = c := by
      by_contra hne
      exact absurd h3 (not_le.2 (add_lt_add_of_lt_of_le (sq_lt_of_half hx hne) (sq_le_of_half hy)))
    have hr : e.row = r := by
      by_contra hne
      exact absurd h3 (not_le.2 (add_lt_add_of_le_of_lt (sq_le_of_half hx) (sq_lt_of_half hy hne)))
    obtain ⟨⟨row, h4, h5⟩, -⟩ := (mem_coo_thresholded t im e).1 h1
    obtain ⟨⟨row', h6, h7⟩, -⟩ := hb
    rw [hr, h6] at h4
    cases h4
    rw [hc, h7] at h5
    cases h5
    rfl
  · rintro rfl
    exact ⟨_, hm, rfl, fun e' _ => hmin e'⟩

theorem exists_nearest (pts : List Entry) (h : pts ≠ []) (x y : ℝ) : ∃ v, NearestValue pts x y v := by
  have : ∃ e ∈ pts, ∀ e' ∈ pts, dist2 x y e ≤ dist2 x y e' := by
    induction pts with
    | nil => exact absurd rfl h
    | cons a l ih =>
      by_cases hl : l = []
      · subst hl
        exact ⟨a, by simp, by simp⟩
      · obtain ⟨e, h1, h2⟩ := ih hl
        by_cases hd : dist2 x y a ≤ dist2 x y e
        · refine ⟨a, by simp, fun e' he' => ?_⟩
          rcases List.mem_cons.1 he' with rfl | he'
          · exact le_refl _
          · exact hd.trans (h2 e' he')
        · refine ⟨e, by simp [h1], fun e' he' => ?_⟩
          rcases List.mem_cons.1 he' with rfl | he'
          · exact (not_le.1 hd).le
          · exact h2 e' he'
  obtain ⟨e, h1, h2⟩ := this
  exact ⟨e.val, e, h1, rfl, h2⟩

/-- C124 fails: as soon as one pixel of the image is not dark, every voxel, also the ones which are projected in a dark pixel or out of
the image, takes the value of a pixel which is not dark. -/
theorem C124_never_dark_fails (t : Option ℝ) (im : List (List ℝ)) (r c : ℕ) (v : ℝ) (hb : BrightPixel t im r c v) (x y : ℝ) :
    (∃ w, NearestValue (coo (thresholded t im)) x y w) ∧
    ∀ w, NearestValue (coo (thresholded t im)) x y w → w ≠ 0 ∧ ∃ r' c', BrightPixel t im r' c' w := by
  constructor
  · apply exists_nearest
    intro h
    have := (mem_coo_thresholded t im ⟨c, r, v⟩).2 hb
    rw [h] at this
    cases this
  · rintro w ⟨e, h1, rfl, -⟩
    have h2 := (mem_coo_thresholded t im e).1 h1
    exact ⟨h2.2.1, e.row, e.col, h2⟩

/-- C124 fails: after the reconstruction with all the cameras, no voxel is dark. -/
theorem C124_no_dark_voxel_fails (n : ℕ) (path : String) (files : String → Option (List ℝ)) (t : Option ℝ)
    (cams : List (List (List ℝ) × List ℝ × (ℕ → ℝ × ℝ))) (hne : cams ≠ [])
    (hpos : ∀ q ∈ cams, ∀ r c v, PixelValue q.1 r c v → 0 ≤ v) (hlen : ∀ q ∈ cams, q.2.1.length = n)
    (hval : ∀ q ∈ cams, ∀ k v, q.2.1[k]? = some v → NearestValue (coo (thresholded t q.1)) (q.2.2 k).1 (q.2.2 k).2 v)
    (k : ℕ) (hk : k < n) :
    ∃ i, (Tomo.reconstructAll cams.length path false (cams.map fun q => q.2.1) (Tomo.initState n files)).intens[k]? = some i ∧
      0 < i := by
  have hp : ∀ q ∈ cams, ∀ v ∈ q.2.1, 0 < v := by
    intro q hq v hv
    obtain ⟨j, hj⟩ := List.getElem?_of_mem hv
    obtain ⟨e, h1, rfl, -⟩ := hval q hq j v hj
    obtain ⟨h2, h3, -⟩ := (mem_coo_thresholded t q.1 e).1 h1
    exact lt_of_le_of_ne (hpos q hq _ _ _ h2) (Ne.symm h3)
  have h := C69_geometric_mean n path files (cams.map fun q => q.2.1)
    (by intro v hv; obtain ⟨q, hq, rfl⟩ := List.mem_map.1 hv; exact hlen q hq)
    (by intro v hv x hx; obtain ⟨q, hq, rfl⟩ := List.mem_map.1 hv; exact (hp q hq x hx).le) k hk
  rw [List.length_map] at h
  refine ⟨_, h, Real.rpow_pos_of_pos ?_ _⟩
  apply List.prod_pos
  intro x hx
  obtain ⟨v, hv, rfl⟩ := List.mem_map.1 hx
  obtain ⟨q, hq, rfl⟩ := List.mem_map.1 hv
  have hkq : k < q.2.1.length := by rw [hlen q hq]; exact hk
  rw [getD_lt _ _ hkq]
  exact hp q hq _ (List.getElem_mem _)

/-- An image with a dark pixel: the voxel which is projected in it takes the value of its neighbour. -/
example : PixelValue [[0, 5]] 0 0 0 ∧ NearestValue (coo (thresholded none [[0, 5]])) 0 0 5 := by
  refine ⟨⟨[0, 5], rfl, rfl⟩, ?_⟩
  have hb : BrightPixel none [[0, 5]] 0 1 5 := ⟨⟨[0, 5], rfl, rfl⟩, by norm_num, by simp⟩
  refine ⟨⟨1, 0, 5⟩, (mem_coo_thresholded _ _ _).2 hb, rfl, ?_⟩
  intro e' he'
  obtain ⟨⟨row, h1, h2⟩, h0, -⟩ := (mem_coo_thresholded _ _ _).1 he'
  obtain ⟨hr, h1⟩ := List.getElem?_eq_some_iff.1 h1
  have hr0 : e'.row = 0 := by simpa using hr
  simp only [hr0, List.getElem_cons_zero] at h1
  subst h1
  obtain ⟨hc, h2⟩ := List.getElem?_eq_some_iff.1 h2
  have hc2 : e'.col < 2 := by simpa using hc
  have hc1 : e'.col = 1 := by
    by_contra hne
    have : e'.col = 0 := by omega
    simp only [this, List.getElem_cons_zero] at h2
    exact h0 h2.symm
  simp [dist2, hc1, hr0]

/-! ## Files -/

/-- C124: the images of one instant, in neighbouring directories, are reconstructed in the same file; other instants or other
parent directories have other files. -/
theorem C124_paths (a a' : Arr) (im im' : FilePath) : (initPaths a im none).h5 = (initPaths a' im' none).h5 ↔
    im.dirs.dropLast = im'.dirs.dropLast ∧ im.stem = im'.stem := by
  simp [initPaths]

/-- C124: an array which is saved is loaded with the same axes, grid of voxels and intensities; the other files are unchanged. -/
theorem C124_round_trip_partial (disk : Disk) (a : Arr) (l : List ℝ) (hI : a.I = .numpy l ∨ a.I = .dask l) (p : FilePath) :
    (save disk a (some p)).2 = .ok () ∧ (∀ q, q ≠ p → (save disk a (some p)).1 q = disk q) ∧
    ∃ b, fromFile (save disk a (some p)).1 p = .ok b ∧ b.xs = a.xs ∧ b.ys = a.ys ∧ b.zs = a.zs ∧ b.nx = a.nx ∧ b.ny = a.ny ∧
      b.nz = a.nz ∧ Tomo.grid b.xs b.ys b.zs = Tomo.grid a.xs a.ys a.zs ∧ b.I = .numpy l ∧ b.h5 = some p := by
  have hs : save disk a (some p) = (setFile disk p (some (header a (some l))), .ok ()) := by
    rcases hI with h | h <;> simp [save, h]
  rw [hs]
  refine ⟨rfl, fun q hq => by simp [setFile, hq], ?_⟩
  have h1 : setFile disk p (some (header a (some l))) p = some (header a (some l)) := by simp [setFile]
  simp only [fromFile, new, load, h1]
  refine ⟨_, rfl, ?_⟩
  exact ⟨rfl, rfl, rfl, rfl, rfl, rfl, rfl, rfl, rfl⟩

/-- C124: `save()` without argument saves in the file of the image. -/
theorem C124_save_default (disk : Disk) (a : Arr) (p : FilePath) (h : a.h5 = some p) : save disk a none = save disk a (some p) := by
  simp [save, h]

/-- C124 fails: the limits and the numbers of voxels of an array which is loaded are the ones by default. -/
theorem C124_limits_fails (disk : Disk) (p : FilePath) (b : Arr) (h : fromFile disk p = .ok b) :
    b.lims = ⟨0, 10, 0, 10, 5⟩ ∧ b.nbVoxels = (10, 10, 5) := by
  unfold fromFile new load at h
  cases hd : disk p with
  | none => simp [hd] at h
  | some s =>
    cases hi : s.I with
    | none => simp [hd, hi] at h
    | some l =>
      simp only [hd, hi, Except.ok.injEq] at h
      rw [← h]
      exact ⟨rfl, rfl⟩

/-- C124 fails: with `h5file_path=None` given explicitly the array has no intensities: the reconstruction in memory raises
`AttributeError`, and `save` replaces the file by one which cannot be loaded. -/
theorem C124_none_path_fails (disk : Disk) (xlims ylims zlims : ℝ × ℝ) (nb : ℕ × ℕ × ℕ) (image : Option FilePath) (ncams : ℕ)
    (vals : List ℝ) (p : FilePath) : ∃ a, new disk xlims ylims zlims nb image (some none) = .ok a ∧
      reconstructMemory ncams vals a = .error .attributeError ∧ (save disk a (some p)).2 = .error .attributeError ∧
      fromFile (save disk a (some p)).1 p = .error .keyError := by
  cases image with
  | none => exact ⟨_, rfl, rfl, rfl, by simp [fromFile, new, load, save, setFile, header]⟩
  | some im => exact ⟨_, rfl, rfl, rfl, by simp [fromFile, new, load, save, setFile, header, initPaths]⟩

/-- C124: a new array has the intensity 1 everywhere. -/
theorem C124_new (disk : Disk) (xlims ylims zlims : ℝ × ℝ) (nb : ℕ × ℕ × ℕ) (image : Option FilePath) :
    ∃ a, new disk xlims ylims zlims nb image none = .ok a ∧ a.I = .numpy (List.replicate (nb.1 * nb.2.1 * nb.2.2) 1) := by
  have hl : (Tomo.grid (Tomo.grid1d xlims nb.1) (Tomo.grid1d ylims nb.2.1) (Tomo.grid1d zlims nb.2.2)).length =
      nb.1 * nb.2.1 * nb.2.2 := by
    rw [(C55_grid _ _ _).1]
    simp only [Tomo.grid1d, List.length_map, List.length_range]
    ring
  cases image with
  | none => exact ⟨_, rfl, by simp only [hl]⟩
  | some im => exact ⟨_, rfl, by simp only [initPaths, hl]⟩

/-- C124: `clear` puts the intensities to 1 and removes the file. -/
theorem C124_clear_partial (disk : Disk) (a : Arr) (l : List ℝ) (hI : a.I = .numpy l) (p : FilePath) (hp : a.h5 = some p) :
    (clear disk a).2 = .ok { a with I := .numpy (List.replicate l.length 1) } ∧ (clear disk a).1 p = none ∧
      ∀ q, q ≠ p → (clear disk a).1 q = disk q := by
  refine ⟨by simp [clear, hI, hp], by simp [clear, hI, hp, setFile], fun q hq => by simp [clear, hI, hp, setFile, hq]⟩

/-- C124 fails: after a reconstruction with `save=True`, `clear` does not change the intensities; without any image, it raises
`AttributeError`. -/
theorem C124_clear_fails (disk : Disk) (a b : Arr) (ncams : ℕ) (vals : List ℝ) (h : (reconstructFile ncams vals disk a).2 = .ok b) :
    (clear (reconstructFile ncams vals disk a).1 b).2 = .ok b ∧
    ∀ l, clear disk { a with I := .numpy l, h5 := none } = (disk, .error .attributeError) := by
  refine ⟨?_, fun l => rfl⟩
  unfold reconstructFile at h ⊢
  cases hp : a.h5 with
  | none => simp [hp] at h
  | some p =>
    cases hd : disk p with
    | none =>
      simp only [hp, hd, Except.ok.injEq] at h ⊢
      rw [← h]
      simp [clear, hp]
    | some s =>
      cases hi : s.I with
      | none => simp [hp, hd, hi] at h
      | some d =>
        simp only [hp, hd, hi, Except.ok.injEq] at h ⊢
        rw [← h]
        simp [clear, hp]

/-! ## The scripts -/

/-- What the reconstruction does to the file. -/
noncomputable def fileStep (a : Arr) (ncams : ℕ) (o : Option Saved) (v : List ℝ) : Option Saved :=
  match o with
  | none => some (header a (some (ivox ncams v)))
  | some s => match s.I with
    | none => some s
    | some d => some (header a (some (List.zipWith (· * ·) d (ivox ncams v))))

/-- The file of an image. -/
def fileOf (outputDir : Option (List ResultsFiles.Txt)) (im : FilePath) : FilePath :=
  ⟨outputDir.getD (im.dirs.dropLast ++ ["tomo".toList]), im.stem, ".h5".toList⟩

theorem tmpOf_ne (p : FilePath) : p ≠ tmpOf p := by
  intro h
  have := congrArg (fun q => q.stem.length) h
  simp [tmpOf] at this

theorem imageToFile_ok (ncams : ℕ) (out : Option (List ResultsFiles.Txt)) (im : FilePath) (v : List ℝ) (disk : Disk) (a : Arr)
    (hg : ∀ s, disk (fileOf out im) = some s → s.I ≠ none) :
    ∃ b, (imageToFile ncams out im v disk a).2 = .ok b ∧ (∀ I, header b I = header a I) ∧
      ∀ p, p ≠ tmpOf (fileOf out im) → (imageToFile ncams out im v disk a).1 p =
        setFile disk (fileOf out im) (fileStep a ncams (disk (fileOf out im)) v) p := by
  unfold imageToFile reconstructFile
  have hp : (initPaths a im out).h5 = some (fileOf out im) := rfl
  simp only [hp]
  cases hd : disk (fileOf out im) with
  | none => exact ⟨_, rfl, fun I => rfl, fun p hp => by simp [save, initPaths, fileOf, fileStep, header]⟩
  | some s =>
    cases hi : s.I with
    | none => exact absurd hi (hg s hd)
    | some d =>
      simp only [hi]
      exact ⟨_, rfl, fun I => rfl, fun p hp => by simp [save, initPaths, fileStep, header, hi, setFile, hp]⟩

theorem fileStep_good (a : Arr) (ncams : ℕ) (o : Option Saved) (v : List ℝ) (h : ∀ s, o = some s → s.I ≠ none) :
    ∀ s, fileStep a ncams o v = some s → s.I ≠ none := by
  intro s hs
  cases o with
  | none => cases hs; simp [header]
  | some s0 =>
    cases hi : s0.I with
    | none => exact absurd hi (h s0 rfl)
    | some d =>
      simp only [fileStep, hi, Option.some.injEq] at hs
      rw [← hs]
      simp [header]

theorem script_files (ncams : ℕ) (out : Option (List ResultsFiles.Txt)) (l : List (FilePath × List ℝ)) (disk : Disk) (a : Arr)
    (hg : ∀ x ∈ l, ∀ s, disk (fileOf out x.1) = some s → s.I ≠ none)
    (ht : ∀ x ∈ l, ∀ y ∈ l, fileOf out x.1 ≠ tmpOf (fileOf out y.1)) :
    (∃ b, (script ncams out l disk a).2 = .ok b) ∧ ∀ p, (∀ x ∈ l, p ≠ tmpOf (fileOf out x.1)) → (script ncams out l disk a).1 p =
      ((l.filter fun x => decide (fileOf out x.1 = p)).map Prod.snd).foldl (fileStep a ncams) (disk p) := by
  induction l generalizing disk a with
  | nil => exact ⟨⟨a, rfl⟩, fun p _ => rfl⟩
  | cons x l ih =>
    obtain ⟨im, v⟩ := x
    obtain ⟨b, h1, h2, h3⟩ := imageToFile_ok ncams out im v disk a (hg (im, v) (by simp))
    have hfs : fileStep b ncams = fileStep a ncams := by
      funext o v
      unfold fileStep
      simp only [h2]
    obtain ⟨⟨b', h4⟩, h5⟩ := ih (imageToFile ncams out im v disk a).1 b (by
      intro x hx s hs
      rw [h3 _ (ht x (by simp [hx]) (im, v) (by simp))] at hs
      unfold setFile at hs
      split at hs
      · exact fileStep_good a ncams _ v (hg (im, v) (by simp)) s hs
      · exact hg x (by simp [hx]) s hs) (fun x hx y hy => ht x (by simp [hx]) y (by simp [hy]))
    have e : script ncams out ((im, v) :: l) disk a = script ncams out l (imageToFile ncams out im v disk a).1 b := by
      have : imageToFile ncams out im v disk a = ((imageToFile ncams out im v disk a).1, .ok b) := Prod.ext rfl h1
      rw [script, this]
    rw [e]
    refine ⟨⟨b', h4⟩, fun p htp => ?_⟩
    rw [h5 p (fun x hx => htp x (by simp [hx])), hfs, h3 p (htp (im, v) (by simp))]
    by_cases hp : fileOf out im = p
    · subst hp
      simp [setFile]
    · have hp' : p ≠ fileOf out im := fun h => hp h.symm
      simp [setFile, hp, hp']

theorem fold_some (a : Arr) (ncams n k : ℕ) (hk : k < n) (vs : List (List ℝ)) (hlen : ∀ v ∈ vs, v.length = n) (d : List ℝ) (x : ℝ)
    (hd : d.length = n) (hx : d[k]? = some x) :
    ∃ d', vs.foldl (fileStep a ncams) (some (header a (some d))) = some (header a (some d')) ∧ d'.length = n ∧
      d'[k]? = some (x * (vs.map fun v => (v.getD k 0) ^ (1 / (ncams : ℝ))).prod) := by
  induction vs generalizing d x with
  | nil => exact ⟨d, rfl, hd, by simp [hx]⟩
  | cons v vs ih =>
    have hv : v.length = n := hlen v (by simp)
    have hvk : (ivox ncams v)[k]? = some ((v.getD k 0) ^ (1 / (ncams : ℝ))) := by
      unfold ivox
      rw [List.getElem?_map, List.getElem?_eq_getElem (by omega), getD_lt _ _ (by omega)]
      rfl
    obtain ⟨d', h1, h2, h3⟩ := ih (fun w hw => hlen w (by simp [hw])) (List.zipWith (· * ·) d (ivox ncams v))
      (x * (v.getD k 0) ^ (1 / (ncams : ℝ))) (by simp [ivox, hd, hv]) (by rw [List.getElem?_zipWith, hx, hvk])
    refine ⟨d', h1, h2, ?_⟩
    rw [h3, List.map_cons, List.prod_cons, mul_assoc]

theorem fold_none (a : Arr) (ncams n k : ℕ) (hk : k < n) (vs : List (List ℝ)) (hne : vs ≠ []) (hlen : ∀ v ∈ vs, v.length = n)
    (hpos : ∀ v ∈ vs, ∀ x ∈ v, 0 ≤ x) :
    ∃ d', vs.foldl (fileStep a ncams) none = some (header a (some d')) ∧ d'.length = n ∧
      d'[k]? = some ((vs.map fun v => v.getD k 0).prod ^ (1 / (ncams : ℝ))) := by
  cases vs with
  | nil => exact absurd rfl hne
  | cons v vs =>
    have hv : v.length = n := hlen v (by simp)
    have hvk : (ivox ncams v)[k]? = some ((v.getD k 0) ^ (1 / (ncams : ℝ))) := by
      unfold ivox
      rw [List.getElem?_map, List.getElem?_eq_getElem (by omega), getD_lt _ _ (by omega)]
      rfl
    obtain ⟨d', h1, h2, h3⟩ := fold_some a ncams n k hk vs (fun w hw => hlen w (by simp [hw])) (ivox ncams v) _ (by simp [ivox, hv]) hvk
    refine ⟨d', h1, h2, ?_⟩
    rw [h3]
    congr 1
    have e := Real.list_prod_map_rpow ((v :: vs).map fun v => v.getD k 0) (by
      intro x hx
      obtain ⟨w, hw, rfl⟩ := List.mem_map.1 hx
      have : k < w.length := by rw [hlen w hw]; exact hk
      rw [getD_lt _ _ this]
      exact hpos w hw _ (List.getElem_mem _)) (1 / (ncams : ℝ))
    rw [← e]
    simp [Function.comp_def]

/-- C124: the loops of the user over the cameras and the instants, with `init_paths` for each image, the images of the cameras being in
neighbouring directories: in the end each instant has its file, with the geometric mean over the cameras of the values of its own
images, and no other file is changed, except the ones which have the names of the temporary copies. -/
theorem C124_script_partial {γ τ : Type} (cams : List γ) (instants : List τ) (root : List ResultsFiles.Txt)
    (dirOf : γ → ResultsFiles.Txt) (stem : τ → ResultsFiles.Txt) (ext : ResultsFiles.Txt) (vals : γ → τ → List ℝ) (n : ℕ) (hc : cams ≠ [])
    (hnd : instants.Nodup) (hs : ∀ t ∈ instants, ∀ t' ∈ instants, stem t = stem t' → t = t')
    (htmp : ∀ t ∈ instants, ∀ t' ∈ instants, stem t ≠ stem t' ++ "_tmp".toList)
    (hlen : ∀ c ∈ cams, ∀ t ∈ instants, (vals c t).length = n) (hpos : ∀ c ∈ cams, ∀ t ∈ instants, ∀ x ∈ vals c t, 0 ≤ x)
    (disk : Disk) (hd : ∀ t ∈ instants, disk ⟨root ++ ["tomo".toList], stem t, ".h5".toList⟩ = none) (a : Arr) :
    let r := script cams.length none (cams.flatMap fun c => instants.map fun t => (⟨root ++ [dirOf c], stem t, ext⟩, vals c t)) disk a
    (∃ b, r.2 = .ok b) ∧
    (∀ t ∈ instants, ∀ k < n, ∃ d, r.1 ⟨root ++ ["tomo".toList], stem t, ".h5".toList⟩ = some (header a (some d)) ∧ d.length = n ∧
      d[k]? = some ((cams.map fun c => (vals c t).getD k 0).prod ^ (1 / (cams.length : ℝ)))) ∧
    ∀ p, (∀ t ∈ instants, p ≠ ⟨root ++ ["tomo".toList], stem t, ".h5".toList⟩ ∧
      p ≠ ⟨root ++ ["tomo".toList], stem t ++ "_tmp".toList, ".h5".toList⟩) → r.1 p = disk p := by
  intro r
  have hf : ∀ c t, fileOf none (⟨root ++ [dirOf c], stem t, ext⟩ : FilePath) = ⟨root ++ ["tomo".toList], stem t, ".h5".toList⟩ := by
    intro c t
    simp [fileOf]
  have hmem : ∀ x ∈ (cams.flatMap fun c => instants.map fun t => ((⟨root ++ [dirOf c], stem t, ext⟩ : FilePath), vals c t)),
      ∃ c ∈ cams, ∃ t ∈ instants, x = (⟨root ++ [dirOf c], stem t, ext⟩, vals c t) := by
    intro x hx
    obtain ⟨c, hc, hx⟩ := List.mem_flatMap.1 hx
    obtain ⟨t, ht, rfl⟩ := List.mem_map.1 hx
    exact ⟨c, hc, t, ht, rfl⟩
  obtain ⟨h1, h2⟩ := script_files cams.length none
    (cams.flatMap fun c => instants.map fun t => (⟨root ++ [dirOf c], stem t, ext⟩, vals c t)) disk a (by
      intro x hx s h
      obtain ⟨c, hc, t, ht, rfl⟩ := hmem x hx
      rw [hf, hd t ht] at h
      cases h) (by
      intro x hx y hy
      obtain ⟨c, hc, t, ht, rfl⟩ := hmem x hx
      obtain ⟨c', hc', t', ht', rfl⟩ := hmem y hy
      rw [hf, hf]
      intro h
      exact htmp t ht t' ht' (congrArg FilePath.stem h))
  refine ⟨h1, ?_, ?_⟩
  · intro t ht k hk
    have hfil : ((cams.flatMap fun c => instants.map fun t => ((⟨root ++ [dirOf c], stem t, ext⟩ : FilePath), vals c t)).filter
        fun x => decide (fileOf none x.1 = ⟨root ++ ["tomo".toList], stem t, ".h5".toList⟩)).map Prod.snd =
        cams.map fun c => vals c t := by
      rw [List.filter_flatMap, List.map_flatMap]
      have hin : ∀ c, ((instants.map fun t => ((⟨root ++ [dirOf c], stem t, ext⟩ : FilePath), vals c t)).filter
          fun x => decide (fileOf none x.1 = ⟨root ++ ["tomo".toList], stem t, ".h5".toList⟩)).map Prod.snd = [vals c t] := by
        intro c
        rw [List.filter_map, List.map_map]
        have e : instants.filter ((fun x : FilePath × List ℝ =>
            decide (fileOf none x.1 = ⟨root ++ ["tomo".toList], stem t, ".h5".toList⟩)) ∘
            fun t => ((⟨root ++ [dirOf c], stem t, ext⟩ : FilePath), vals c t)) = [t] := by
          clear hlen hpos hd hmem h1 h2 r htmp
          induction instants with
          | nil => cases ht
          | cons u us ih =>
            have hu := List.nodup_cons.1 hnd
            rw [List.filter_cons]
            simp only [Function.comp_apply, hf]
            by_cases hut : u = t
            · subst hut
              simp only [decide_true, if_true, List.cons.injEq, true_and]
              rw [List.filter_eq_nil_iff]
              intro w hw
              simp only [Function.comp_apply, hf, decide_eq_true_eq, FilePath.mk.injEq, true_and, and_true]
              intro h
              have := hs w (by simp [hw]) u (by simp) h
              exact hu.1 (this ▸ hw)
            · have hne : stem u ≠ stem t := fun h => hut (hs u (by simp) t ht h)
              have ht' : t ∈ us := by
                rcases List.mem_cons.1 ht with h | h
                · exact absurd h.symm hut
                · exact h
              rw [if_neg (by simp [hne])]
              exact ih hu.2 (fun w hw w' hw' => hs w (by simp [hw]) w' (by simp [hw'])) ht'
        rw [e]
        rfl
      rw [List.flatMap_congr (fun c _ => hin c)]
      rw [← List.map_eq_flatMap]
    show ∃ d, r.1 _ = _ ∧ _
    have hr := h2 ⟨root ++ ["tomo".toList], stem t, ".h5".toList⟩ (by
      intro y hy h
      obtain ⟨c', hc', t', ht', rfl⟩ := hmem y hy
      rw [hf] at h
      exact htmp t ht t' ht' (congrArg FilePath.stem h))
    rw [hfil, hd t ht] at hr
    obtain ⟨d, h3, h4, h5⟩ := fold_none a cams.length n k hk (cams.map fun c => vals c t) (by simpa using hc)
      (by intro v hv; obtain ⟨c, hc, rfl⟩ := List.mem_map.1 hv; exact hlen c hc t ht)
      (by intro v hv; obtain ⟨c, hc, rfl⟩ := List.mem_map.1 hv; exact hpos c hc t ht)
    refine ⟨d, hr.trans h3, h4, ?_⟩
    rw [h5, List.map_map]
    rfl
  · intro p hp
    have hr := h2 p (by
      intro y hy h
      obtain ⟨c', hc', t', ht', rfl⟩ := hmem y hy
      rw [hf] at h
      exact (hp t' ht').2 h)
    have hfil : (cams.flatMap fun c => instants.map fun t => ((⟨root ++ [dirOf c], stem t, ext⟩ : FilePath), vals c t)).filter
        (fun x => decide (fileOf none x.1 = p)) = [] := by
      rw [List.filter_eq_nil_iff]
      intro x hx
      obtain ⟨c, hc, t, ht, rfl⟩ := hmem x hx
      rw [hf]
      rw [decide_eq_true_eq]
      exact fun h => (hp t ht).1 h.symm
    rw [hfil] at hr
    exact hr

/-- C124 fails: a file which has the name of a temporary copy (for example the file of an image "im_tmp.tif", after the one of "im.tif")
is removed. -/
theorem C124_tmp_fails (ncams : ℕ) (v d : List ℝ) (disk : Disk) (a : Arr) (p : FilePath) (hp : a.h5 = some p) (s : Saved)
    (hs : disk p = some s) (hd : s.I = some d) :
    (reconstructFile ncams v disk a).1 ⟨p.dirs, p.stem ++ "_tmp".toList, p.ext⟩ = none := by
  simp [reconstructFile, hp, hs, hd, setFile, tmpOf]

/-- C124: a file without intensities at the place of the result (only the description of an array has been saved) is a `KeyError`; the file is not changed,
but its temporary copy is left on the disk. -/
theorem C124_no_intensities (ncams : ℕ) (v : List ℝ) (disk : Disk) (a : Arr) (p : FilePath) (hp : a.h5 = some p) (s : Saved)
    (hs : disk p = some s) (hd : s.I = none) :
    (reconstructFile ncams v disk a).2 = .error .keyError ∧
    (reconstructFile ncams v disk a).1 ⟨p.dirs, p.stem ++ "_tmp".toList, p.ext⟩ = some s ∧
    ∀ q, q ≠ ⟨p.dirs, p.stem ++ "_tmp".toList, p.ext⟩ → (reconstructFile ncams v disk a).1 q = disk q := by
  have e : reconstructFile ncams v disk a = (setFile disk (tmpOf p) (some s), .error .keyError) := by
    simp [reconstructFile, hp, hs, hd]
  rw [e]
  refine ⟨rfl, by simp [setFile, tmpOf], fun q hq => ?_⟩
  have : q ≠ tmpOf p := hq
  simp [setFile, this]

/-- The hypotheses are met: the array of the result has been saved without intensities. -/
example (a : Arr) (p : FilePath) (hp : a.h5 = some p) :
    (reconstructFile 2 [4] (fun q => if q = p then some (header a none) else none) a).2 = .error .keyError :=
  (C124_no_intensities 2 [4] _ a p hp (header a none) (by simp) rfl).1

/-- C124 fails: in memory (the script of the tutorial), the values of all the instants are multiplied in the same array. -/
theorem C124_memory_mixes_fails (ncams n : ℕ) (out : Option (List ResultsFiles.Txt)) (l : List (FilePath × List ℝ)) (a : Arr) (I : List ℝ)
    (hI : a.I = .numpy I) (hl : I.length = n) (hlen : ∀ x ∈ l, x.2.length = n) (k : ℕ) (hk : k < n) (x : ℝ) (hx : I[k]? = some x) :
    ∃ b I', scriptMemory ncams out l a = .ok b ∧ b.I = .numpy I' ∧
      I'[k]? = some (x * (l.map fun q => (q.2.getD k 0) ^ (1 / (ncams : ℝ))).prod) := by
  induction l generalizing a I x with
  | nil => exact ⟨a, I, rfl, hI, by simp [hx]⟩
  | cons q l ih =>
    obtain ⟨im, v⟩ := q
    have hv : v.length = n := hlen (im, v) (by simp)
    have hvk : (ivox ncams v)[k]? = some ((v.getD k 0) ^ (1 / (ncams : ℝ))) := by
      unfold ivox
      rw [List.getElem?_map, List.getElem?_eq_getElem (by omega), getD_lt _ _ (by omega)]
      rfl
    have hr : reconstructMemory ncams v (initPaths a im out) =
        .ok { (initPaths a im out) with I := .numpy (List.zipWith (· * ·) I (ivox ncams v)) } := by
      have : (initPaths a im out).I = .numpy I := hI
      simp only [reconstructMemory, this]
    obtain ⟨b, I', h1, h2, h3⟩ := ih { (initPaths a im out) with I := .numpy (List.zipWith (· * ·) I (ivox ncams v)) }
      (List.zipWith (· * ·) I (ivox ncams v)) rfl (by simp [ivox, hl, hv]) (fun w hw => hlen w (by simp [hw])) _
      (by rw [List.getElem?_zipWith, hx, hvk])
    refine ⟨b, I', ?_, h2, ?_⟩
    · simp only [scriptMemory, hr]; exact h1
    · rw [h3, List.map_cons, List.prod_cons, mul_assoc]

/-- One camera and two instants with the values 2 and 3: the array finally contains 6, which is the value of no instant. -/
example (a : Arr) (h : a.I = .numpy [1]) (ima imb : FilePath) :
    ∃ b I', scriptMemory 1 none [(ima, [2]), (imb, [3])] a = .ok b ∧ b.I = .numpy I' ∧ I'[0]? = some 6 := by
  obtain ⟨b, I', h1, h2, h3⟩ := C124_memory_mixes_fails 1 1 none [(ima, [2]), (imb, [3])] a [1] h rfl (by simp) 0 (by simp) 1 rfl
  refine ⟨b, I', h1, h2, h3.trans ?_⟩
  norm_num

/-- C124 fails: an exception in a block of voxels leaves a file with the value 0 in this block; the values stay 0 when the
reconstruction is done again. -/
theorem C124_failed_block_fails (ncams : ℕ) (b1 b2 : List Block) (b : Block) (e : PyErr) (hb : b.vals = .error e)
    (h1 : ∀ c ∈ b1, ∀ l, c.vals = .ok l → l.length = c.size) (disk : Disk) (a : Arr) (p : FilePath) (hp : a.h5 = some p)
    (hd : disk p = none) (k : ℕ) (hk : (b1.map Block.size).sum ≤ k) (hk' : k < (b1.map Block.size).sum + b.size) (n : ℕ) (v : List ℝ)
    (hv : v.length = n) (hkn : k < n) :
    let disk' := (reconstructFails ncams (b1 ++ b :: b2) e disk a p).1
    (∃ d, disk' p = some (header a (some d)) ∧ d[k]? = some 0) ∧
    ∃ d, (reconstructFile ncams v disk' a).1 p = some (header a (some d)) ∧ d[k]? = some 0 := by
  intro disk'
  have hst : ∃ A C : List ℝ, A.length = (b1.map Block.size).sum ∧
      storeBlocks ((b1 ++ b :: b2).map (rootBlock ncams)) =
        A ++ (List.replicate b.size 0 ++ C) := by
    refine ⟨storeBlocks (b1.map (rootBlock ncams)),
      storeBlocks (b2.map (rootBlock ncams)), ?_, ?_⟩
    · clear hk hk' disk'
      induction b1 with
      | nil => rfl
      | cons c b1 ih =>
        have ih := ih (fun c' hc' => h1 c' (by simp [hc']))
        simp only [List.map_cons, List.sum_cons, storeBlocks, List.flatMap_cons, List.length_append] at ih ⊢
        rw [ih]
        congr 1
        cases hc : c.vals with
        | error e => simp [rootBlock, hc]
        | ok l =>
          simp only [rootBlock, hc]
          split
          · simp [ivox, h1 c (by simp) l hc]
          · simp
    · simp [storeBlocks, rootBlock, hb]
  obtain ⟨A, C, hA, hst⟩ := hst
  have hz : (A ++ (List.replicate b.size (0 : ℝ) ++ C))[k]? = some 0 := by
    rw [List.getElem?_append_right (by omega), List.getElem?_append_left (by simp; omega), List.getElem?_replicate, if_pos (by omega)]
  have hfile : disk' p = some (header a (some (A ++ (List.replicate b.size 0 ++ C)))) := by
    show (reconstructFails ncams (b1 ++ b :: b2) e disk a p).1 p = _
    simp only [reconstructFails, hd]
    rw [hst]
    simp [setFile]
  refine ⟨⟨_, hfile, hz⟩, ?_⟩
  have hvk : (ivox ncams v)[k]? = some ((v.getD k 0) ^ (1 / (ncams : ℝ))) := by
    unfold ivox
    rw [List.getElem?_map, List.getElem?_eq_getElem (by omega), getD_lt _ _ (by omega)]
    rfl
  refine ⟨List.zipWith (· * ·) (A ++ (List.replicate b.size 0 ++ C)) (ivox ncams v), ?_, ?_⟩
  · simp only [reconstructFile, hp, hfile]
    simp [header, save, hp, setFile, tmpOf_ne p]
  · rw [List.getElem?_zipWith, hz, hvk]
    simp

/-- Two blocks of one voxel, the second one fails. -/
example (disk : Disk) (a : Arr) (p : FilePath) (hp : a.h5 = some p) (hd : disk p = none) :
    ∃ d, (reconstructFile 1 [4, 9] (reconstructFails 1 [⟨1, .ok [4], true⟩, ⟨1, .error .runtimeError, true⟩] .runtimeError disk a p).1 a).1 p =
      some (header a (some d)) ∧ d[1]? = some 0 :=
  (C124_failed_block_fails 1 [⟨1, .ok [4], true⟩] [] ⟨1, .error .runtimeError, true⟩ .runtimeError rfl (by simp) disk a p hp hd 1
    (by simp) (by simp) 2 [4, 9] rfl (by simp)).2

/-! ## Display -/

/-- C124 fails: the value which is displayed for the slice number 1, in the corner, is the one of the voxel `(1, 0, 0)`, which is in the
slice number 0. -/
theorem C124_slices_fails (nx ny nz : ℕ) (hx : 2 ≤ nx) (hy : 1 ≤ ny) (hz : 2 ≤ nz) (I : List ℝ) (hI : I.length = nx * (ny * nz)) (v : ℝ) :
    shownSlice nx ny nz I 1 0 0 = .ok v ↔ voxel nx ny I 1 0 0 = some v := by
  have h1 : 1 < I.length := by
    rw [hI]
    have : 1 ≤ ny * nz := Nat.mul_pos hy (by omega)
    nlinarith
  simp only [shownSlice, voxel, hI, if_true]
  rw [if_pos ⟨by omega, by omega, by omega⟩]
  simp only [Nat.zero_mul, Nat.zero_add, List.getElem?_eq_getElem h1]
  simp

/-- C124: with one voxel in the directions x and y, the slices are the right ones. -/
theorem C124_slices_partial (nz : ℕ) (I : List ℝ) (hI : I.length = nz) (k : ℕ) (hk : k < nz) (v : ℝ) :
    shownSlice 1 1 nz I k 0 0 = .ok v ↔ voxel 1 1 I 0 0 k = some v := by
  have h1 : k < I.length := by omega
  simp only [shownSlice, voxel, hI, Nat.one_mul, if_true]
  rw [if_pos ⟨by omega, by omega, hk⟩]
  simp only [Nat.zero_mul, Nat.zero_add, Nat.mul_one, Nat.add_zero, List.getElem?_eq_getElem h1]
  simp

/-- C124 fails: `describe(vmin=...)` and `describe(vmax=...)` raise `ValueError` for both kinds of arrays. -/
theorem C124_describe_fails : describeBelow 1 = .error .valueError ∧ describeBelow 3 = .error .valueError := ⟨rfl, rfl⟩

/-- A case of the theorems: two cameras, two instants, one voxel. -/
example (a : Arr) :
    ∃ d, (script 2 none [(⟨["c0".toList], "a".toList, ".tif".toList⟩, [4]), (⟨["c0".toList], "b".toList, ".tif".toList⟩, [1]),
      (⟨["c1".toList], "a".toList, ".tif".toList⟩, [9]), (⟨["c1".toList], "b".toList, ".tif".toList⟩, [16])] (fun _ => none) a).1
        ⟨["tomo".toList], "a".toList, ".h5".toList⟩ = some (header a (some d)) ∧ d[0]? = some ((4 * 9 : ℝ) ^ (1 / (2 : ℝ))) := by
  have h := C124_script_partial [false, true] [false, true] [] (fun c => if c then "c1".toList else "c0".toList)
    (fun t => if t then "b".toList else "a".toList) ".tif".toList
    (fun c t => if c then (if t then [16] else [9]) else (if t then [1] else [4])) 1 (by simp) (by simp) (by decide)
    (by decide) (by intro c _ t _; cases c <;> cases t <;> rfl) (by intro c _ t _; cases c <;> cases t <;> simp) (fun _ => none) (fun _ _ => rfl) a
  obtain ⟨d, h1, -, h2⟩ := h.2.1 false (by simp) 0 (by norm_num)
  exact ⟨d, h1, by simpa using h2⟩

end Verif
