import Verif.Model.CalibCamera
import Verif.Props.Tomo

/-!
# The calibration of a camera with OpenCV (C125)
-/

namespace Verif
open Verif.CalibCamera Verif.Calib

/-! ## Interpolation of the pose -/

theorem sortedPts_perm (pts : List (ℝ × Vec)) : (sortedPts pts).Perm pts := by
  unfold sortedPts
  exact List.mergeSort_perm _ _

theorem sortedPts_lt (pts : List (ℝ × Vec)) (hnd : (pts.map Prod.fst).Nodup) : (sortedPts pts).Pairwise fun a b => a.1 < b.1 := by
  have h1 : (sortedPts pts).Pairwise fun a b => a.1 ≤ b.1 := by
    unfold sortedPts
    have := List.pairwise_mergeSort (le := fun a b : ℝ × Vec => @decide (a.1 ≤ b.1) (Classical.propDecidable _))
      (by intro a b c h1 h2; simp only [decide_eq_true_eq] at *; exact h1.trans h2)
      (by intro a b; simp only [Bool.or_eq_true, decide_eq_true_eq]; exact le_total _ _) pts
    exact this.imp (by intro a b h; simpa using h)
  have h2 : ((sortedPts pts).map Prod.fst).Nodup := ((sortedPts_perm pts).map _).nodup_iff.2 hnd
  rw [List.Nodup, List.pairwise_map] at h2
  exact (h1.and h2).imp fun h => lt_of_le_of_ne h.1 h.2

theorem countP_sorted (s : List (ℝ × Vec)) (hs : s.Pairwise fun a b => a.1 < b.1) (z : ℝ) (i : ℕ) (hi : i < s.length)
    (h1 : s[i].1 < z) (h2 : ∀ (h : i + 1 < s.length), z ≤ s[i + 1].1) [DecidablePred fun p : ℝ × Vec => p.1 < z] :
    (s.countP fun p => decide (p.1 < z)) = i + 1 := by
  induction s generalizing i with
  | nil => simp at hi
  | cons a l ih =>
    have hl := List.pairwise_cons.1 hs
    cases i with
    | zero =>
      simp only [List.getElem_cons_zero] at h1
      rw [List.countP_cons_of_pos (by simpa using h1)]
      have : l.countP (fun p => decide (p.1 < z)) = 0 := by
        rw [List.countP_eq_zero]
        intro p hp
        obtain ⟨j, hj, rfl⟩ := List.getElem_of_mem hp
        have h3 := h2 (by simp; omega)
        simp only [Nat.zero_add, List.getElem_cons_succ] at h3
        have h4 : (l[0]'(by omega)).1 ≤ l[j].1 := by
          rcases Nat.eq_zero_or_pos j with rfl | hj0
          · exact le_refl _
          · exact (List.pairwise_iff_getElem.1 hl.2 0 j (by omega) hj hj0).le
        simp only [decide_eq_true_eq, not_lt]
        exact h3.trans h4
      rw [this]
    | succ i =>
      simp only [List.getElem_cons_succ] at h1
      have hil : i < l.length := by simpa using hi
      rw [List.countP_cons_of_pos (by
        simp only [decide_eq_true_eq]
        exact (hl.1 _ (List.getElem_mem hil)).trans h1)]
      rw [ih hl.2 i hil h1 (fun h => by
        have := h2 (by simpa using h)
        simpa using this)]

theorem interp1d_between (s : List (ℝ × Vec)) (hs : s.Pairwise fun a b => a.1 < b.1) (z : ℝ) (i : ℕ) (hi : i + 1 < s.length)
    (h1 : s[i].1 ≤ z) (h2 : z ≤ s[i + 1].1) :
    interp1d s z = some fun k => (s[i + 1].2 k - s[i].2 k) / (s[i + 1].1 - s[i].1) * (z - s[i].1) + s[i].2 k := by
  classical
  have hlt : ∀ (a b : ℕ) (hb : b < s.length) (hab : a < b), (s[a]'(by omega)).1 < s[b].1 := fun a b hb hab =>
    List.pairwise_iff_getElem.1 hs a b (by omega) hb hab
  unfold interp1d
  rw [if_neg (by
    rintro (h | h)
    · exact absurd (h s[i] (List.getElem_mem _)) (not_lt.2 h1)
    · exact absurd (h s[i + 1] (List.getElem_mem _)) (not_lt.2 h2))]
  rcases lt_or_eq_of_le h1 with h3 | h3
  · rw [countP_sorted s hs z i (by omega) h3 (fun _ => h2)]
    have e : min (max (i + 1) 1) (s.length - 1) = i + 1 := by omega
    have hne : s[i + 1].1 - s[i].1 ≠ 0 := (sub_pos.2 (hlt i (i + 1) hi (by omega))).ne'
    simp only [e, Nat.add_sub_cancel, List.getElem?_eq_getElem (show i < s.length by omega), List.getElem?_eq_getElem hi, if_neg hne]
  · cases i with
    | zero =>
      have hc : (s.countP fun p => decide (p.1 < z)) = 0 := by
        rw [List.countP_eq_zero]
        intro p hp
        obtain ⟨j, hj, rfl⟩ := List.getElem_of_mem hp
        simp only [decide_eq_true_eq, not_lt, ← h3]
        rcases Nat.eq_zero_or_pos j with rfl | hj0
        · exact le_refl _
        · exact (hlt 0 j hj hj0).le
      rw [hc]
      have e : min (max 0 1) (s.length - 1) = 1 := by omega
      have hne : s[1].1 - s[0].1 ≠ 0 := (sub_pos.2 (hlt 0 1 hi (by omega))).ne'
      simp only [e, Nat.sub_self, List.getElem?_eq_getElem (show 0 < s.length by omega), List.getElem?_eq_getElem (show 1 < s.length by omega),
        if_neg hne, Nat.zero_add]
    | succ i =>
      rw [countP_sorted s hs z i (by omega) (by rw [← h3]; exact hlt i (i + 1) (by omega) (by omega)) (fun _ => h3.ge)]
      have e : min (max (i + 1) 1) (s.length - 1) = i + 1 := by omega
      have hne : s[i + 1].1 - s[i].1 ≠ 0 := (sub_pos.2 (hlt i (i + 1) (by omega) (by omega))).ne'
      simp only [e, Nat.add_sub_cancel, List.getElem?_eq_getElem (show i < s.length by omega),
        List.getElem?_eq_getElem (show i + 1 < s.length by omega), if_neg hne, Option.some.injEq]
      funext k
      rw [← h3, sub_self, mul_zero, zero_add, div_mul_cancel₀ _ hne]
      ring

/-- C125: between two neighbouring planes of the target the rotation vector (or the translation) is the linear interpolation between
the ones of the two planes, whatever the order in which the planes are given. -/
theorem C125_between (pts : List (ℝ × Vec)) (hnd : (pts.map Prod.fst).Nodup) (a b : ℝ × Vec) (ha : a ∈ pts) (hb : b ∈ pts)
    (hab : a.1 < b.1) (hno : ∀ p ∈ pts, ¬ (a.1 < p.1 ∧ p.1 < b.1)) (z : ℝ) (h1 : a.1 ≤ z) (h2 : z ≤ b.1) :
    griddata pts z = some fun k => a.2 k + (b.2 k - a.2 k) * ((z - a.1) / (b.1 - a.1)) := by
  have hs := sortedPts_lt pts hnd
  have hp := sortedPts_perm pts
  obtain ⟨i, hi, rfl⟩ := List.getElem_of_mem (hp.mem_iff.2 ha)
  obtain ⟨j, hj, rfl⟩ := List.getElem_of_mem (hp.mem_iff.2 hb)
  have hlt := List.pairwise_iff_getElem.1 hs
  have hij : i < j := by
    rcases Nat.lt_trichotomy i j with h | h | h
    · exact h
    · subst h; exact absurd hab (lt_irrefl _)
    · exact absurd (hlt j i hj hi h) (not_lt.2 hab.le)
  have hj1 : j = i + 1 := by
    by_contra hne
    have : i + 1 < j := by omega
    exact hno (sortedPts pts)[i + 1] (hp.mem_iff.1 (List.getElem_mem _)) ⟨hlt i (i + 1) hi (by omega) (by omega), hlt (i + 1) j (by omega) hj this⟩
  subst hj1
  unfold griddata
  rw [interp1d_between _ hs z i hj h1 h2]
  congr 1
  funext k
  ring

/-- C125: at the height of a plane of the target, the pose is the one found for this plane (two planes or more). -/
theorem C125_plane_partial (pts : List (ℝ × Vec)) (hnd : (pts.map Prod.fst).Nodup) (h2 : 2 ≤ pts.length) (a : ℝ × Vec) (ha : a ∈ pts) :
    griddata pts a.1 = some a.2 := by
  have hs := sortedPts_lt pts hnd
  have hp := sortedPts_perm pts
  have hlt := List.pairwise_iff_getElem.1 hs
  obtain ⟨i, hi, rfl⟩ := List.getElem_of_mem (hp.mem_iff.2 ha)
  have hl := hp.length_eq
  unfold griddata
  by_cases h : i + 1 < (sortedPts pts).length
  · rw [interp1d_between _ hs _ i h (le_refl _) (hlt i (i + 1) hi h (by omega)).le]
    congr 1
    funext k
    ring
  · obtain ⟨m, rfl⟩ : ∃ m, i = m + 1 := ⟨i - 1, by omega⟩
    have hm := hlt m (m + 1) (by omega) hi (by omega)
    rw [interp1d_between _ hs _ m hi hm.le (le_refl _)]
    congr 1
    funext k
    rw [div_mul_cancel₀ _ (sub_pos.2 hm).ne']
    ring

theorem exists_bracket (s : List (ℝ × Vec)) (z : ℝ) (a : ℝ × Vec) (ha : a ∈ s) (b : ℝ × Vec) (hb : b ∈ s) (h1 : a.1 ≤ z) (h2 : z ≤ b.1)
    (hs : s.Pairwise fun a b => a.1 < b.1) (hl : 2 ≤ s.length) :
    ∃ (i : ℕ) (hi : i + 1 < s.length), s[i].1 ≤ z ∧ z ≤ s[i + 1].1 := by
  classical
  obtain ⟨ia, hia, rfl⟩ := List.getElem_of_mem ha
  obtain ⟨ib, hib, rfl⟩ := List.getElem_of_mem hb
  have hlt := List.pairwise_iff_getElem.1 hs
  by_cases hz : s[ib].1 = z
  · by_cases h : ib + 1 < s.length
    · exact ⟨ib, h, hz.le, by rw [← hz]; exact (hlt ib (ib + 1) hib h (by omega)).le⟩
    · refine ⟨ib - 1, by omega, ?_, ?_⟩
      · rw [← hz]; exact (hlt (ib - 1) ib (by omega) hib (by omega)).le
      · have e : ib - 1 + 1 = ib := by omega
        simp only [e]; exact h2
  · have hz' : z < s[ib].1 := lt_of_le_of_ne h2 (Ne.symm hz)
    have hab : ia < ib := by
      by_contra h
      have h3 : s[ib].1 ≤ s[ia].1 := by
        rcases Nat.lt_or_ge ib ia with h4 | h4
        · exact (hlt ib ia hib hia h4).le
        · have : ia = ib := by omega
          subst this; exact le_refl _
      exact absurd (hz'.trans_le h3) (not_lt.2 h1)
    let P : ℕ → Prop := fun n => ∃ h : n < s.length, z < s[n].1
    have hP : ∃ n, P n := ⟨ib, hib, hz'⟩
    obtain ⟨hn, hzn⟩ := Nat.find_spec hP
    have hn0 : Nat.find hP ≠ 0 := by
      intro h0
      simp only [h0] at hzn
      have : s[0].1 ≤ s[ia].1 := by
        rcases Nat.eq_zero_or_pos ia with h4 | h4
        · subst h4; exact le_refl _
        · exact (hlt 0 ia (by omega) hia h4).le
      exact absurd (hzn.trans_le this) (not_lt.2 h1)
    obtain ⟨m, hm⟩ : ∃ m, Nat.find hP = m + 1 := ⟨Nat.find hP - 1, by omega⟩
    have hmin := Nat.find_min hP (m := m) (by omega)
    refine ⟨m, by omega, ?_, ?_⟩
    · by_contra h
      exact hmin ⟨by omega, not_le.1 h⟩
    · simp only [hm] at hzn
      exact hzn.le

theorem griddata_const (pts : List (ℝ × Vec)) (hnd : (pts.map Prod.fst).Nodup) (h2 : 2 ≤ pts.length) (c : Vec) (hc : ∀ p ∈ pts, p.2 = c)
    (z : ℝ) (a b : ℝ × Vec) (ha : a ∈ pts) (hb : b ∈ pts) (haz : a.1 ≤ z) (hzb : z ≤ b.1) : griddata pts z = some c := by
  have hs := sortedPts_lt pts hnd
  have hp := sortedPts_perm pts
  obtain ⟨i, hi, h3, h4⟩ := exists_bracket (sortedPts pts) z a (hp.mem_iff.2 ha) b (hp.mem_iff.2 hb) haz hzb hs (by rw [hp.length_eq]; exact h2)
  unfold griddata
  rw [interp1d_between _ hs z i hi h3 h4, hc _ (hp.mem_iff.1 (List.getElem_mem _)), hc _ (hp.mem_iff.1 (List.getElem_mem _))]
  congr 1
  funext k
  ring

/-- C125: at a height of the volume between the planes of the target there is always a pose, and each component of it is between the
smallest and the largest values found for the planes. -/
theorem C125_inside_partial (pts : List (ℝ × Vec)) (hnd : (pts.map Prod.fst).Nodup) (h2 : 2 ≤ pts.length)
    (z : ℝ) (a b : ℝ × Vec) (ha : a ∈ pts) (hb : b ∈ pts) (haz : a.1 ≤ z) (hzb : z ≤ b.1) :
    ∃ v, griddata pts z = some v ∧ ∀ k m M, (∀ p ∈ pts, m ≤ p.2 k ∧ p.2 k ≤ M) → m ≤ v k ∧ v k ≤ M := by
  have hs := sortedPts_lt pts hnd
  have hp := sortedPts_perm pts
  obtain ⟨i, hi, h3, h4⟩ := exists_bracket (sortedPts pts) z a (hp.mem_iff.2 ha) b (hp.mem_iff.2 hb) haz hzb hs (by rw [hp.length_eq]; exact h2)
  unfold griddata
  refine ⟨_, interp1d_between _ hs z i hi h3 h4, ?_⟩
  intro k m M hm
  have hlt := List.pairwise_iff_getElem.1 hs i (i + 1) (by omega) hi (by omega)
  obtain ⟨ha1, ha2⟩ := hm _ (hp.mem_iff.1 (List.getElem_mem (show i < (sortedPts pts).length by omega)))
  obtain ⟨hb1, hb2⟩ := hm _ (hp.mem_iff.1 (List.getElem_mem hi))
  generalize (sortedPts pts)[i] = A at *
  generalize (sortedPts pts)[i + 1] = B at *
  have hd : 0 < B.1 - A.1 := sub_pos.2 hlt
  have ht0 : 0 ≤ (z - A.1) / (B.1 - A.1) := div_nonneg (sub_nonneg.2 h3) hd.le
  have ht1 : (z - A.1) / (B.1 - A.1) ≤ 1 := by rw [div_le_one hd]; linarith
  have e : (B.2 k - A.2 k) / (B.1 - A.1) * (z - A.1) + A.2 k =
      (1 - (z - A.1) / (B.1 - A.1)) * A.2 k + (z - A.1) / (B.1 - A.1) * B.2 k := by ring
  rw [e]
  constructor <;> nlinarith

/-- C125 fails: outside of the planes of the target (voxels above the last one or below the first one) the pose is NaN. -/
theorem C125_outside_fails (pts : List (ℝ × Vec)) (z : ℝ) (h : (∀ p ∈ pts, z < p.1) ∨ ∀ p ∈ pts, p.1 < z) : griddata pts z = none := by
  unfold griddata interp1d
  rw [if_pos]
  have hp := sortedPts_perm pts
  rcases h with h | h
  · exact Or.inl fun p hp' => h p (hp.mem_iff.1 hp')
  · exact Or.inr fun p hp' => h p (hp.mem_iff.1 hp')

/-- C125 fails: with only one plane the pose is NaN at all the heights, also at the one of the plane. -/
theorem C125_one_plane_fails (p : ℝ × Vec) (z : ℝ) : griddata [p] z = none := by
  unfold griddata
  have hs : sortedPts [p] = [p] := List.perm_singleton.1 (sortedPts_perm [p])
  rw [hs]
  unfold interp1d
  split
  · rfl
  · simp

/-! ## Projection -/

/-- C125: for a camera whose pose is the same for all the planes (which is the case if the calibration is exact, as the heights are in the
object points), every voxel between the first and the last planes is projected with this pose: the row `k` of the pixels is the
projection of the voxel `k`. -/
theorem C125_projection_partial {α : Type} (project : Vec → Vec → (Fin 3 → Fin 3 → ℝ) → List ℝ → V3 → α) (p : Params) (R T : Vec)
    (hnd : p.zs.Nodup) (h2 : 2 ≤ p.zs.length) (hR : p.rotation = List.replicate p.zs.length R) (hT : p.translate = List.replicate p.zs.length T)
    (xlims ylims zlims : ℝ × ℝ) (nx ny nz : ℕ) (hz : zlims.1 < zlims.2) (za zb : ℝ) (ha : za ∈ p.zs) (hb : zb ∈ p.zs)
    (hza : za ≤ zlims.1) (hzb : zlims.2 ≤ zb) (junk : List (Option α)) (hj : junk.length = nx * ny * nz) :
    let g := Tomo.grid (Tomo.grid1d xlims nx) (Tomo.grid1d ylims ny) (Tomo.grid1d zlims nz)
    Tomo.phys2pix (pixelAt project p) g (Tomo.grid1d zlims nz) junk = .ok (g.map fun v => some (project R T p.mtx p.kc v)) := by
  intro g
  rw [C55_array_partial (pixelAt project p) xlims ylims zlims nx ny nz hz.ne junk hj]
  congr 1
  apply List.map_congr_left
  intro v hv
  have hvz := ((C55_grid_rows _ _ _ v).1 hv).2.2
  obtain ⟨hv1, hv2⟩ := (C55_axis zlims nz hz).2.2.1 v.z hvz
  have key : ∀ c : Vec, griddata (p.zs.zip (List.replicate p.zs.length c)) v.z = some c := by
    intro c
    have hmem : ∀ z ∈ p.zs, (z, c) ∈ p.zs.zip (List.replicate p.zs.length c) := by
      intro z hz
      obtain ⟨i, hi, rfl⟩ := List.getElem_of_mem hz
      rw [List.mem_iff_getElem]
      exact ⟨i, by simpa using hi, by simp⟩
    refine griddata_const _ ?_ (by simpa using h2) c ?_ v.z (za, c) (zb, c) (hmem za ha) (hmem zb hb) (hza.trans hv1) (hv2.trans hzb)
    · rw [List.map_fst_zip (by simp)]
      exact hnd
    · intro q hq
      exact List.eq_of_mem_replicate (List.of_mem_zip hq).2
  unfold pixelAt getRotation getTranslate
  rw [hR, hT, key R, key T]

/-- C125 fails: the voxels which are not between the planes have no pixel, without any error. -/
theorem C125_voxel_outside_fails {α : Type} (project : Vec → Vec → (Fin 3 → Fin 3 → ℝ) → List ℝ → V3 → α) (p : Params) (v : V3)
    (h : (∀ z ∈ p.zs, v.z < z) ∨ ∀ z ∈ p.zs, z < v.z) : pixelAt project p v.z v = none := by
  have : getRotation p v.z = none := by
    apply C125_outside_fails
    rcases h with h | h
    · exact Or.inl fun q hq => h _ (List.of_mem_zip hq).1
    · exact Or.inr fun q hq => h _ (List.of_mem_zip hq).1
  unfold pixelAt
  rw [this]

/-! ## File -/

/-- C125: after a calibration in a new file, in a directory which is in the path, the calibration which is loaded is the one which has
been found; other files are unchanged. -/
theorem C125_save_load_partial (zs : List ℝ) (r : Result) (disk : Disk) (p : Path) (hd : p.dirname ≠ []) (hn : disk p = none) :
    let o := calibrate zs r false disk (new disk p)
    o.2.2 = .ok none ∧ (∀ q, q ≠ p → o.1 q = disk q) ∧ ∃ P, (new o.1 p).params = some P ∧ o.2.1.params = some P ∧
      P.mtx = r.mtx ∧ P.f = (r.mtx 0 0, r.mtx 1 1) ∧ P.C = (r.mtx 0 2, r.mtx 1 2) ∧ P.kc = r.dist ∧ P.rotation = r.rvecs ∧
      P.translate = r.tvecs ∧ P.zs = zs := by
  intro o
  have ho : o = (fun q => if q = p then some (makeParams zs r) else disk q, ⟨p, some (makeParams zs r)⟩, .ok none) := by
    simp [o, calibrate, save, new, hd, hn]
  rw [ho]
  refine ⟨rfl, fun q hq => by simp [hq], makeParams zs r, by simp [new], rfl, rfl, rfl, rfl, rfl, rfl, rfl, rfl⟩

/-- C125: with `debug=True` nothing is saved and the result is returned. -/
theorem C125_debug (zs : List ℝ) (r : Result) (disk : Disk) (c : CalibCamera.Calib) : calibrate zs r true disk c = (disk, c, .ok (some r)) := rfl

/-- C125 fails: a second calibration in the same file changes the object but not the file: what is loaded afterwards is the old one. -/
theorem C125_second_fails (zs : List ℝ) (r : Result) (disk : Disk) (p : Path) (hd : p.dirname ≠ []) (old : Params) (ho : disk p = some old) :
    let o := calibrate zs r false disk (new disk p)
    o.2.2 = .ok none ∧ o.2.1.params = some (makeParams zs r) ∧ (new o.1 p).params = some old := by
  simp [calibrate, save, new, hd, ho]

/-- C125 fails: with the default path ("cam.h5") and every path without directory, the calibration raises `FileNotFoundError` after the
whole computation, and nothing is saved. -/
theorem C125_no_directory_fails (zs : List ℝ) (r : Result) (disk : Disk) (c : CalibCamera.Calib) (h : c.path.dirname = []) :
    (calibrate zs r false disk c).1 = disk ∧ (calibrate zs r false disk c).2.2 = .error .fileNotFoundError := by
  simp [calibrate, save, h]

/-- Three planes given in another order, the height in the middle of two of them. -/
example : griddata [(3, fun _ => 6), (-3, fun _ => 0), (0, fun _ => 2)] 1.5 = some fun _ => 4 := by
  have h := C125_between [(3, fun _ => 6), (-3, fun _ => 0), (0, fun _ => 2)] (by norm_num) (0, fun _ => 2) (3, fun _ => 6) (by simp) (by simp)
    (by norm_num) (by norm_num) 1.5 (by norm_num) (by norm_num)
  rw [h]
  congr 1
  funext k
  norm_num

end Verif
