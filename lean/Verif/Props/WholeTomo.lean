import Verif.Props.TomoArray
import Verif.Props.CalibCamera

/-!
# A whole tomographic reconstruction: from the calibrated cameras and the images to the files of intensities (C124)
-/

namespace Verif
open Verif.TomoArray Verif.CalibCamera Verif.Calib

/-- What the user gives for one camera: the calibration, its directory and its images. -/
structure TomoCamera (τ : Type) where
  params : Params
  rotation : Vec
  translate : Vec
  dir : ResultsFiles.Txt
  image : τ → List (List ℝ)

/-- The calibration is exact and has at least two planes, at distinct heights, around the volume. -/
def TomoCamera.Exact {τ : Type} (c : TomoCamera τ) (zlims : ℝ × ℝ) : Prop :=
  c.params.zs.Nodup ∧ 2 ≤ c.params.zs.length ∧ c.params.rotation = List.replicate c.params.zs.length c.rotation ∧
  c.params.translate = List.replicate c.params.zs.length c.translate ∧
  (∃ za ∈ c.params.zs, za ≤ zlims.1) ∧ ∃ zb ∈ c.params.zs, zlims.2 ≤ zb

/-- The values which the interpolation can give for the voxels at the pixels `pix`. -/
def Interpolated (t : Option ℝ) (im : List (List ℝ)) (pix : List (Option (ℝ × ℝ))) (vals : List ℝ) : Prop :=
  vals.length = pix.length ∧ ∀ (k : ℕ) (x y v : ℝ), pix[k]? = some (some (x, y)) → vals[k]? = some v →
    NearestValue (coo (thresholded t im)) x y v

/-- C124, whole reconstruction: cameras with exact calibrations, a volume between the planes, images without negative value.  The projections
end without error, and for every voxel which is seen by each camera in a pixel which is not dark, the file of each instant contains
the geometric mean of the values of these pixels in the images of this instant. -/
theorem C124_whole_partial {τ : Type} (cams : List (TomoCamera τ)) (hc : cams ≠ []) (instants : List τ) (hnd : instants.Nodup)
    (project : Vec → Vec → (Fin 3 → Fin 3 → ℝ) → List ℝ → V3 → ℝ × ℝ) (xlims ylims zlims : ℝ × ℝ) (nx ny nz : ℕ) (hz : zlims.1 < zlims.2)
    (hex : ∀ c ∈ cams, c.Exact zlims) (threshold : Option ℝ)
    (himg : ∀ c ∈ cams, ∀ t ∈ instants, ∀ i j v, PixelValue (c.image t) i j v → 0 ≤ v)
    (root : List ResultsFiles.Txt) (stem : τ → ResultsFiles.Txt) (ext : ResultsFiles.Txt)
    (hs : ∀ t ∈ instants, ∀ t' ∈ instants, stem t = stem t' → t = t') (htmp : ∀ t ∈ instants, ∀ t' ∈ instants, stem t ≠ stem t' ++ "_tmp".toList)
    (disk : TomoArray.Disk) (hd : ∀ t ∈ instants, disk ⟨root ++ ["tomo".toList], stem t, ".h5".toList⟩ = none) (a : Arr)
    (junk : List (Option (ℝ × ℝ))) (hj : junk.length = nx * ny * nz) (pix : TomoCamera τ → List (Option (ℝ × ℝ))) :
    let g := Tomo.grid (Tomo.grid1d xlims nx) (Tomo.grid1d ylims ny) (Tomo.grid1d zlims nz)
    (∀ c ∈ cams, Tomo.phys2pix (pixelAt project c.params) g (Tomo.grid1d zlims nz) junk = .ok (pix c)) →
    ∀ vals : TomoCamera τ → τ → List ℝ, (∀ c ∈ cams, ∀ t ∈ instants, Interpolated threshold (c.image t) (pix c) (vals c t)) →
    ∀ t ∈ instants, ∀ (k : ℕ) (v : V3), g[k]? = some v → ∀ bright : TomoCamera τ → ℝ,
      (∀ c ∈ cams, ∃ i j, BrightPixel threshold (c.image t) i j (bright c) ∧
        |(project c.rotation c.translate c.params.mtx c.params.kc v).1 - j| < 1 / 2 ∧
        |(project c.rotation c.translate c.params.mtx c.params.kc v).2 - i| < 1 / 2) →
      ∃ d, (script cams.length none
          (cams.flatMap fun c => instants.map fun t => (⟨root ++ [c.dir], stem t, ext⟩, vals c t)) disk a).1
            ⟨root ++ ["tomo".toList], stem t, ".h5".toList⟩ = some (header a (some d)) ∧
        d[k]? = some ((cams.map bright).prod ^ (1 / (cams.length : ℝ))) := by
  intro g hpix vals hvals t ht k v hk bright hb
  have hg : g.length = nx * ny * nz := by
    show (Tomo.grid _ _ _).length = _
    rw [(C55_grid _ _ _).1]
    simp only [Tomo.grid1d, List.length_map, List.length_range]
    ring
  have hp : ∀ c ∈ cams, pix c = g.map fun v => some (project c.rotation c.translate c.params.mtx c.params.kc v) := by
    intro c hc
    obtain ⟨h1, h2, h3, h4, ⟨za, h5, h6⟩, zb, h7, h8⟩ := hex c hc
    have h := hpix c hc
    rw [C125_projection_partial project c.params c.rotation c.translate h1 h2 h3 h4 xlims ylims zlims nx ny nz hz za zb h5 h7 h6 h8 junk hj] at h
    exact (Except.ok.inj h).symm
  have hlen : ∀ c ∈ cams, ∀ t ∈ instants, (vals c t).length = nx * ny * nz := by
    intro c hc t ht
    rw [(hvals c hc t ht).1, hp c hc, List.length_map, hg]
  have hat : ∀ c ∈ cams, ∀ t ∈ instants, ∀ (k : ℕ) (w : ℝ), (vals c t)[k]? = some w → ∃ x y, NearestValue (coo (thresholded threshold (c.image t))) x y w ∧
      (pix c)[k]? = some (some (x, y)) := by
    intro c hc t ht k w hw
    have hk : k < g.length := by
      have := (List.getElem?_eq_some_iff.1 hw).1
      rw [hlen c hc t ht] at this
      omega
    have e : (pix c)[k]? = some (some (project c.rotation c.translate c.params.mtx c.params.kc g[k])) := by
      rw [hp c hc, List.getElem?_map, List.getElem?_eq_getElem hk]
      rfl
    exact ⟨_, _, (hvals c hc t ht).2 k _ _ w e hw, e⟩
  have hpos : ∀ c ∈ cams, ∀ t ∈ instants, ∀ x ∈ vals c t, 0 ≤ x := by
    intro c hc t ht x hx
    obtain ⟨k, hk⟩ := List.getElem?_of_mem hx
    obtain ⟨_, _, ⟨e, h1, rfl, -⟩, -⟩ := hat c hc t ht k x hk
    exact himg c hc t ht _ _ _ ((mem_coo_thresholded threshold (c.image t) e).1 h1).1
  obtain ⟨-, h, -⟩ := C124_script_partial cams instants root (fun c => c.dir) stem ext vals (nx * ny * nz) hc hnd hs htmp hlen hpos disk hd a
  have hkg : k < nx * ny * nz := by
    have := (List.getElem?_eq_some_iff.1 hk).1
    omega
  obtain ⟨d, h1, -, h2⟩ := h t ht k hkg
  refine ⟨d, h1, ?_⟩
  rw [h2]
  congr 3
  apply List.map_congr_left
  intro c hc
  have hkv : k < (vals c t).length := by rw [hlen c hc t ht]; exact hkg
  have hv : (vals c t)[k]? = some ((vals c t).getD k 0) := by
    rw [getD_lt _ _ hkv, List.getElem?_eq_getElem hkv]
  obtain ⟨x, y, hn, hxy⟩ := hat c hc t ht k _ hv
  rw [hp c hc, List.getElem?_map, hk] at hxy
  simp only [Option.map_some, Option.some.injEq] at hxy
  obtain ⟨i, j, hbr, hx, hy⟩ := hb c hc
  rw [hxy] at hx hy
  exact (C124_bright_partial threshold (c.image t) i j (bright c) x y _ hbr hx hy).1 hn

/-- One camera which looks along the heights, one image of one pixel, one voxel. -/
example (a : Arr) :
    ∃ d, (script 1 none [(⟨["c0".toList], "a".toList, ".tif".toList⟩, [5])] (fun _ => none) a).1
      ⟨["tomo".toList], "a".toList, ".h5".toList⟩ = some (header a (some d)) ∧ d[0]? = some 5 := by
  let c : TomoCamera Unit := ⟨⟨(1, 1), (0, 0), fun _ _ => 0, [], [0, 0], [0, 0], [-1, 1]⟩, 0, 0, "c0".toList, fun _ => [[5]]⟩
  have hb : BrightPixel none [[5]] 0 0 5 := ⟨⟨[5], rfl, rfl⟩, by norm_num, by simp⟩
  have hg : Tomo.grid (Tomo.grid1d (0, 1) 1) (Tomo.grid1d (0, 1) 1) (Tomo.grid1d (0, 1) 1) = [⟨0, 0, 0⟩] := by
    norm_num [Tomo.grid, Tomo.grid1d, Tomo.meshFlat]
  have hex : c.Exact (0, 1) := ⟨by norm_num [c], by simp [c], rfl, rfl, ⟨-1, by simp [c], by norm_num⟩, 1, by simp [c], by norm_num⟩
  obtain ⟨h1, h2, h3, h4, ⟨za, h5, h6⟩, zb, h7, h8⟩ := hex
  have hpr := C125_projection_partial (fun _ _ _ _ v => (v.x, v.y)) c.params c.rotation c.translate h1 h2 h3 h4 (0, 1) (0, 1) (0, 1) 1 1 1
    (by norm_num) za zb h5 h7 h6 h8 [none] rfl
  have h := C124_whole_partial [c] (by simp) [()] (by simp) (fun _ _ _ _ v => (v.x, v.y)) (0, 1) (0, 1) (0, 1) 1 1 1 (by norm_num)
    (by intro c' hc'; rw [List.mem_singleton.1 hc']; exact ⟨h1, h2, h3, h4, ⟨za, h5, h6⟩, zb, h7, h8⟩) none
    (by
      intro c' hc' t _ i j v hv
      rw [List.mem_singleton.1 hc'] at hv
      obtain ⟨row, h1, h2⟩ := hv
      have h1 : row ∈ ([[5]] : List (List ℝ)) := List.mem_of_getElem? h1
      rw [List.mem_singleton.1 h1] at h2
      have h2 := List.mem_of_getElem? h2
      rw [List.mem_singleton.1 h2]
      norm_num)
    [] (fun _ => "a".toList) ".tif".toList (by simp) (by simp) (fun _ => none) (by simp) a [none] rfl (fun _ => [some (0, 0)])
    (by
      intro c' hc'
      rw [List.mem_singleton.1 hc']
      exact hpr.trans (by rw [hg]; rfl))
    (fun _ _ => [5])
    (by
      intro c' hc' t _
      rw [List.mem_singleton.1 hc']
      refine ⟨rfl, ?_⟩
      intro k x y v hk hv
      have hk0 : k = 0 := by simpa using (List.getElem?_eq_some_iff.1 hk).1
      subst hk0
      simp only [List.getElem?_cons_zero, Option.some.injEq, Prod.mk.injEq] at hk hv
      exact (C124_bright_partial none [[5]] 0 0 5 x y v hb (by rw [← hk.1]; norm_num) (by rw [← hk.2]; norm_num)).2 hv.symm)
    () (by simp) 0 ⟨0, 0, 0⟩ (by rw [hg]; rfl) (fun _ => 5)
    (by
      intro c' hc'
      rw [List.mem_singleton.1 hc']
      exact ⟨0, 0, hb, by norm_num, by norm_num⟩)
  obtain ⟨d, hd1, hd2⟩ := h
  exact ⟨d, hd1, by simpa using hd2⟩

end Verif
