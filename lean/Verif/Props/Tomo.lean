import Verif.Model.Tomo
import Verif.Props.GridFinal
import Mathlib.Tactic.Positivity
import Mathlib.Tactic.IntervalCases
import Mathlib.Algebra.Order.BigOperators.Group.List
import Mathlib.Tactic.FieldSimp
import Mathlib.Algebra.BigOperators.Group.List.Basic

/-!
# Tomography and calibration with OpenCV (C55, C68, C69)
-/

namespace Verif
open Verif.Tomo
open Verif.Calib (V3)

/-! ## C55: grid -/

theorem meshFlat_length (zs ys xs : List ℝ) : (meshFlat zs ys xs).length = zs.length * (ys.length * xs.length) := by
  unfold meshFlat
  induction zs with
  | nil => simp
  | cons z zs ih =>
    rw [List.flatMap_cons, List.length_append, ih, flat_length, List.length_cons]
    ring

/-- C55: the flat list of voxels: the voxel of indices `(ix, iy, iz)` is at `(iz * ny + iy) * nx + ix`, and the number of
voxels is `nx * ny * nz`: each point of the grid is exactly once in the list. -/
theorem C55_grid (xs ys zs : List ℝ) :
    (grid xs ys zs).length = zs.length * (ys.length * xs.length) ∧
    ∀ (ix iy iz : ℕ) (x y z : ℝ), xs[ix]? = some x → ys[iy]? = some y → zs[iz]? = some z →
      (grid xs ys zs)[(iz * ys.length + iy) * xs.length + ix]? = some ⟨x, y, z⟩ := by
  refine ⟨by rw [grid, List.length_map, meshFlat_length], ?_⟩
  intro ix iy iz x y z hx hy hz
  unfold grid
  rw [List.getElem?_map]
  have h : (meshFlat zs ys xs)[(iz * ys.length + iy) * xs.length + ix]? = some (z, y, x) := by
    have e : meshFlat zs ys xs = (zs.flatMap fun z => ys.map fun y => (z, y)).flatMap fun q => xs.map fun x => (q.1, q.2, x) := by
      unfold meshFlat
      rw [List.flatMap_assoc]
      congr 1
      funext z
      rw [List.flatMap_map]
    rw [e]
    exact flat_get (zs.flatMap fun z => ys.map fun y => (z, y)) xs (fun q x => (q.1, q.2, x)) _ ix (z, y) x
      (flat_get zs ys (fun z y => (z, y)) iz iy z y hz hy) hx
  rw [h]
  rfl

/-- C55: all the rows are voxels of the grid. -/
theorem C55_grid_rows (xs ys zs : List ℝ) (v : V3) : v ∈ grid xs ys zs ↔ v.x ∈ xs ∧ v.y ∈ ys ∧ v.z ∈ zs := by
  unfold grid meshFlat
  simp only [List.mem_map, List.mem_flatMap]
  constructor
  · rintro ⟨_, ⟨z, hz, y, hy, x, hx, rfl⟩, rfl⟩
    exact ⟨hx, hy, hz⟩
  · rintro ⟨hx, hy, hz⟩
    exact ⟨_, ⟨v.z, hz, v.y, hy, v.x, hx, rfl⟩, rfl⟩

/-- C55: the coordinates of the voxels are distinct, for distinct limits. -/
theorem C55_axis_distinct (lims : ℝ × ℝ) (nb : ℕ) (h : lims.1 ≠ lims.2) : (grid1d lims nb).Nodup := by
  apply List.Nodup.map_on _ List.nodup_range
  intro i hi j hj hij
  rw [List.mem_range] at hi hj
  by_cases hn : nb ≤ 1
  · omega
  · have h1 : (0 : ℝ) < (nb : ℝ) - 1 := by
      have : ((2 : ℕ) : ℝ) ≤ (nb : ℝ) := Nat.cast_le.2 (by omega)
      push_cast at this; linarith
    have hd : (lims.2 - lims.1) / ((nb : ℝ) - 1) ≠ 0 := div_ne_zero (sub_ne_zero.2 h.symm) h1.ne'
    have : (i : ℝ) * ((lims.2 - lims.1) / ((nb : ℝ) - 1)) = (j : ℝ) * ((lims.2 - lims.1) / ((nb : ℝ) - 1)) := by
      simpa using hij
    exact_mod_cast mul_right_cancel₀ hd this

/-- C55: the coordinates of the voxels are distinct and between the limits, for limits in increasing order; the first and
the last ones are the limits. -/
theorem C55_axis (lims : ℝ × ℝ) (nb : ℕ) (h : lims.1 < lims.2) :
    (grid1d lims nb).length = nb ∧ (grid1d lims nb).Nodup ∧ (∀ a ∈ grid1d lims nb, lims.1 ≤ a ∧ a ≤ lims.2) ∧
    (2 ≤ nb → (grid1d lims nb)[0]? = some lims.1 ∧ (grid1d lims nb)[nb - 1]? = some lims.2) := by
  refine ⟨by simp [grid1d], ?_, ?_, ?_⟩
  · exact C55_axis_distinct lims nb h.ne
  · intro a ha
    rw [grid1d, List.mem_map] at ha
    obtain ⟨i, hi, rfl⟩ := ha
    rw [List.mem_range] at hi
    by_cases hn : nb ≤ 1
    · have : i = 0 := by omega
      subst this
      simpa using h.le
    · have h1 : (0 : ℝ) < (nb : ℝ) - 1 := by
        have : ((2 : ℕ) : ℝ) ≤ (nb : ℝ) := Nat.cast_le.2 (by omega)
        push_cast at this; linarith
      have hi' : (i : ℝ) ≤ (nb : ℝ) - 1 := by
        have : ((i + 1 : ℕ) : ℝ) ≤ (nb : ℝ) := Nat.cast_le.2 (by omega)
        push_cast at this; linarith
      have hd : 0 < lims.2 - lims.1 := by linarith
      have e : (i : ℝ) * ((lims.2 - lims.1) / ((nb : ℝ) - 1)) = ((i : ℝ) / ((nb : ℝ) - 1)) * (lims.2 - lims.1) := by ring
      have hq : (i : ℝ) / ((nb : ℝ) - 1) ≤ 1 := (div_le_one h1).2 hi'
      have hq0 : 0 ≤ (i : ℝ) / ((nb : ℝ) - 1) := div_nonneg (Nat.cast_nonneg _) h1.le
      rw [e]
      constructor <;> nlinarith
  · intro hn
    have h1 : (0 : ℝ) < (nb : ℝ) - 1 := by
      have : ((2 : ℕ) : ℝ) ≤ (nb : ℝ) := Nat.cast_le.2 (by omega)
      push_cast at this; linarith
    refine ⟨by simp [grid1d, show 0 < nb by omega], ?_⟩
    rw [grid1d, List.getElem?_map, List.getElem?_range (by omega)]
    simp only [Option.map_some, Option.some.injEq]
    rw [Nat.cast_sub (by omega)]
    push_cast
    field_simp
    ring

/-! ## C55: projection -/

theorem filter_flatMap_block (zs : List ℝ) (hnd : zs.Nodup) (block : ℝ → List V3) (hb : ∀ z, ∀ v ∈ block z, v.z = z)
    (z : ℝ) (hz : z ∈ zs) : (open Classical in (zs.flatMap block).filter fun v => v.z = z) = block z := by
  classical
  have hself : ∀ z, (block z).filter (fun v => decide (v.z = z)) = block z := by
    intro z
    rw [List.filter_eq_self]
    intro v hv
    simpa using hb z v hv
  have hother : ∀ z', z' ≠ z → (block z').filter (fun v => decide (v.z = z)) = [] := by
    intro z' h
    rw [List.filter_eq_nil_iff]
    intro v hv
    simp only [decide_eq_true_eq]
    rw [hb z' v hv]
    exact h
  induction zs with
  | nil => simp at hz
  | cons a zs ih =>
    rw [List.nodup_cons] at hnd
    rw [List.flatMap_cons, List.filter_append]
    rcases List.mem_cons.1 hz with rfl | hz
    · have : (zs.flatMap block).filter (fun v => decide (v.z = z)) = [] := by
        rw [List.filter_eq_nil_iff]
        intro v hv
        rw [List.mem_flatMap] at hv
        obtain ⟨z', hz', hv⟩ := hv
        simp only [decide_eq_true_eq]
        rw [hb z' v hv]
        exact fun h => hnd.1 (h ▸ hz')
      have h2 := hself z
      convert congrArg₂ (· ++ ·) h2 this using 1
      simp
    · have h1 := hother a (fun h => hnd.1 (h ▸ hz))
      have h2 := ih hnd.2 hz
      exact congrArg₂ (· ++ ·) h1 h2


/-- The voxels of one height. -/
theorem grid_blocks (xs ys zs : List ℝ) :
    grid xs ys zs = zs.flatMap fun z => ys.flatMap fun y => xs.map fun x => (⟨x, y, z⟩ : V3) := by
  unfold grid meshFlat
  rw [List.map_flatMap]
  congr 1
  funext z
  rw [List.map_flatMap]
  congr 1
  funext y
  rw [List.map_map]
  rfl

theorem assignSlice_block {α : Type} (pre mid post vals : List α) (istart iend : ℕ) (h1 : istart = pre.length)
    (h2 : iend = pre.length + mid.length) (h3 : vals.length = mid.length) :
    assignSlice (pre ++ mid ++ post) istart iend vals = .ok (pre ++ vals ++ post) := by
  subst h1 h2
  unfold assignSlice
  have e1 : min pre.length (pre ++ mid ++ post).length = pre.length := by simp
  have e2 : max pre.length (min (pre.length + mid.length) (pre ++ mid ++ post).length) = (pre ++ mid).length := by
    simp
  simp only [e1, e2]
  rw [if_pos (by simp [h3])]
  rw [List.drop_left, List.append_assoc pre mid post, List.take_left]

theorem phys2pixLoop_blocks {α : Type} (proj : ℝ → V3 → α) (zs : List ℝ) (hnd : zs.Nodup) (block : ℝ → List V3)
    (m : ℕ) (hm : ∀ z, (block z).length = m) (hb : ∀ z, ∀ v ∈ block z, v.z = z) :
    ∀ (rest done : List ℝ) (tail : List α), zs = done ++ rest → tail.length = rest.length * m →
      phys2pixLoop proj (zs.flatMap block) rest done.length ((done.flatMap fun z => (block z).map (proj z)) ++ tail) =
        .ok (zs.flatMap fun z => (block z).map (proj z)) := by
  intro rest
  induction rest with
  | nil =>
    intro done tail h ht
    have : tail = [] := by simpa using ht
    simp only [List.append_nil] at h
    subst this h
    simp [phys2pixLoop]
  | cons z rest ih =>
    intro done tail h ht
    have hz : z ∈ zs := by rw [h]; simp
    have hlen : ∀ l : List ℝ, (l.flatMap fun z => (block z).map (proj z)).length = l.length * m := by
      intro l
      induction l with
      | nil => simp
      | cons a l ih => rw [List.flatMap_cons, List.length_append, ih, List.length_map, hm, List.length_cons]; ring
    have hf := filter_flatMap_block zs hnd block hb z hz
    simp only [phys2pixLoop]
    rw [hf]
    have ht' : tail = tail.take m ++ tail.drop m := (List.take_append_drop m tail).symm
    have htm : m ≤ tail.length := by
      rw [ht, List.length_cons, Nat.succ_mul]
      exact Nat.le_add_left _ _
    have ha := assignSlice_block (done.flatMap fun z => (block z).map (proj z)) (tail.take m) (tail.drop m)
      ((block z).map (proj z)) (done.length * m) ((done.length + 1) * m) (hlen done).symm
      (by rw [hlen, List.length_take, Nat.min_eq_left htm]; ring) (by rw [List.length_map, hm, List.length_take, Nat.min_eq_left htm])
    rw [List.append_assoc, List.take_append_drop] at ha
    rw [hm, ha]
    have e : (done.flatMap fun z => (block z).map (proj z)) ++ (block z).map (proj z) =
        ((done ++ [z]).flatMap fun z => (block z).map (proj z)) := by simp
    have := ih (done ++ [z]) (tail.drop m) (by rw [h]; simp)
      (by rw [List.length_drop, ht, List.length_cons, Nat.succ_mul]; omega)
    rw [List.length_append, List.length_singleton, ← e] at this
    exact this

/-- C55: for distinct heights the row `k` of the pixels is the projection of the voxel `k`, with the rotation and the
translation of its height, whatever the content of the memory given by `np.empty`. -/
theorem C55_projection_partial {α : Type} (proj : ℝ → V3 → α) (xs ys zs : List ℝ) (hnd : zs.Nodup) (junk : List α)
    (hj : junk.length = (grid xs ys zs).length) :
    phys2pix proj (grid xs ys zs) zs junk = .ok ((grid xs ys zs).map fun v => proj v.z v) := by
  have hlen := (C55_grid xs ys zs).1
  have h := phys2pixLoop_blocks proj zs hnd (fun z => ys.flatMap fun y => xs.map fun x => (⟨x, y, z⟩ : V3))
    (ys.length * xs.length) (fun z => flat_length ys xs (fun y x => (⟨x, y, z⟩ : V3)))
    (by
      intro z v hv
      simp only [List.mem_flatMap, List.mem_map] at hv
      obtain ⟨y, _, x, _, rfl⟩ := hv
      rfl) zs [] junk rfl (by rw [hj, hlen])
  rw [← grid_blocks] at h
  unfold phys2pix
  have h' : phys2pixLoop proj (grid xs ys zs) zs 0 junk = _ := h
  rw [h', grid_blocks, List.map_flatMap]
  congr 2
  funext z
  apply List.map_congr_left
  intro v hv
  simp only [List.mem_flatMap, List.mem_map] at hv
  obtain ⟨y, _, x, _, rfl⟩ := hv
  rfl

/-- C55, full chain: for every array of voxels with distinct limits of the heights. -/
theorem C55_array_partial {α : Type} (proj : ℝ → V3 → α) (xlims ylims zlims : ℝ × ℝ) (nx ny nz : ℕ)
    (h : zlims.1 ≠ zlims.2) (junk : List α) (hj : junk.length = nx * ny * nz) :
    let g := grid (grid1d xlims nx) (grid1d ylims ny) (grid1d zlims nz)
    phys2pix proj g (grid1d zlims nz) junk = .ok (g.map fun v => proj v.z v) := by
  intro g
  apply C55_projection_partial
  · exact C55_axis_distinct zlims nz h
  · rw [hj, (C55_grid _ _ _).1]
    simp only [grid1d, List.length_map, List.length_range]
    ring

/-- Non-vacuity: two heights, and a projection that depends on the height. -/
example : phys2pix (fun z v => (z + v.x, v.y)) (grid (grid1d (0, 2) 3) (grid1d (0, 1) 2) (grid1d (0, 1) 2))
    (grid1d (0, 1) 2) (List.replicate 12 (7, 7)) =
    .ok [(0, 0), (1, 0), (2, 0), (0, 1), (1, 1), (2, 1), (1, 0), (2, 0), (3, 0), (1, 1), (2, 1), (3, 1)] := by
  rw [C55_array_partial _ (0, 2) (0, 1) (0, 1) 3 2 2 (by norm_num) _ (by simp)]
  norm_num [grid, meshFlat, grid1d, List.range_succ]

/-- C55 fails for a flat volume with two layers or more of voxels (`zmin = zmax`): each layer is found several times, and
the projection stops with a `ValueError`. -/
theorem C55_flat_volume_fails {α : Type} (proj : ℝ → V3 → α) (xs ys : List ℝ) (z : ℝ) (nz : ℕ) (hx : xs ≠ [])
    (hy : ys ≠ []) (hz : 2 ≤ nz) (junk : List α) (hj : junk.length = (grid xs ys (grid1d (z, z) nz)).length) :
    phys2pix proj (grid xs ys (grid1d (z, z) nz)) (grid1d (z, z) nz) junk = .error .valueError := by
  classical
  obtain ⟨n, rfl⟩ : ∃ n, nz = n + 2 := ⟨nz - 2, by omega⟩
  have e : grid1d (z, z) (n + 2) = z :: z :: List.replicate n z := by
    have : grid1d (z, z) (n + 2) = List.replicate (n + 2) z := by
      unfold grid1d
      simp [List.map_const']
    rw [this]; rfl
  have hN : 2 ≤ (grid xs ys (grid1d (z, z) (n + 2))).length := by
    rw [(C55_grid _ _ _).1]
    have h1 : 1 ≤ ys.length * xs.length := Nat.mul_pos (List.length_pos_iff.2 hy) (List.length_pos_iff.2 hx)
    have h2 : (grid1d (z, z) (n + 2)).length = n + 2 := by simp [grid1d]
    rw [h2]
    nlinarith
  have hall : ∀ v ∈ grid xs ys (grid1d (z, z) (n + 2)), v.z = z := by
    intro v hv
    have := ((C55_grid_rows _ _ _ _).1 hv).2.2
    rw [e] at this
    simp only [List.mem_cons, List.mem_replicate] at this
    rcases this with h | h | h
    · exact h
    · exact h
    · exact h.2
  generalize grid xs ys (grid1d (z, z) (n + 2)) = g at *
  have hfil : (g.filter fun v => decide (v.z = z)) = g := by
    rw [List.filter_eq_self]
    intro v hv
    simpa using hall v hv
  rw [e]
  unfold phys2pix
  have ha : assignSlice junk (0 * g.length) ((0 + 1) * g.length) (g.map (proj z)) = .ok (g.map (proj z)) := by
    have := assignSlice_block [] junk [] (g.map (proj z)) (0 * g.length) ((0 + 1) * g.length) (by simp)
      (by simp [hj]) (by simp [hj])
    simpa using this
  have hb : assignSlice (g.map (proj z)) ((0 + 1) * g.length) ((0 + 1 + 1) * g.length) (g.map (proj z)) =
      .error .valueError := by
    have e1 : min ((0 + 1) * g.length) (g.map (proj z)).length = g.length := by simp
    have e2 : max g.length (min ((0 + 1 + 1) * g.length) (g.map (proj z)).length) = g.length := by simp
    unfold assignSlice
    simp only [e1, e2]
    rw [if_neg (by simp; intro h; simp [h] at hN)]
    split
    · rename_i v hv
      have := congrArg List.length hv
      simp at this
      omega
    · rfl
  rw [phys2pixLoop]
  have hfil' : (open Classical in g.filter fun v => v.z = z) = g := by convert hfil
  simp only [hfil', ha]
  rw [phys2pixLoop]
  simp only [hfil', hb]

/-- C55, limits: the attributes `xmin, xmax, ymin, ymax, zmin, zmax` of the array should be the limits given by the user;
`zmin` does not exist and `ymin` is the lower limit of the heights. -/
theorem C55_limits_fails (xlims ylims zlims : ℝ × ℝ) :
    attr (limits xlims ylims zlims) "ymin" = some zlims.1 ∧ attr (limits xlims ylims zlims) "zmin" = none := by
  constructor <;> simp [attr, limits]

/-- The four other limits are right. -/
theorem C55_limits_partial (xlims ylims zlims : ℝ × ℝ) :
    attr (limits xlims ylims zlims) "xmin" = some xlims.1 ∧ attr (limits xlims ylims zlims) "xmax" = some xlims.2 ∧
    attr (limits xlims ylims zlims) "ymax" = some ylims.2 ∧ attr (limits xlims ylims zlims) "zmax" = some zlims.2 := by
  refine ⟨?_, ?_, ?_, ?_⟩ <;> simp [attr, limits]


/-! ## C68: order of the points of the calibration targets -/

theorem rint_near (x : ℝ) (n : ℤ) (h : |x - n| < 1 / 2) : rint x = n := by
  rw [abs_lt] at h
  unfold rint
  by_cases hx : (n : ℝ) ≤ x
  · have hf : ⌊x⌋ = n := by rw [Int.floor_eq_iff]; constructor <;> linarith
    simp only [hf]
    rw [if_pos (by linarith)]
  · have hf : ⌊x⌋ = n - 1 := by
      rw [Int.floor_eq_iff]; push_cast; constructor <;> linarith
    simp only [hf]
    push_cast
    rw [if_neg (by linarith), if_pos (by linarith)]
    ring

theorem lexLe_iff (ds : ℝ) (a b : ℝ × ℝ) : lexLe ds a b = true ↔ rint (a.2 / ds) < rint (b.2 / ds) ∨
    (rint (a.2 / ds) = rint (b.2 / ds) ∧ rint (a.1 / ds) ≤ rint (b.1 / ds)) := by
  unfold lexLe
  simp

/-- The sorted list is the only sorted list with the same points, if the points have distinct rounded positions. -/
theorem sort_unique (ds : ℝ) (centers expected : List (ℝ × ℝ)) (hp : centers.Perm expected)
    (hs : expected.Pairwise fun a b => lexLe ds a b = true)
    (hd : ∀ a ∈ expected, ∀ b ∈ expected, rint (a.1 / ds) = rint (b.1 / ds) → rint (a.2 / ds) = rint (b.2 / ds) → a = b) :
    centers.mergeSort (lexLe ds) = expected := by
  have h1 : (centers.mergeSort (lexLe ds)).Pairwise fun a b => lexLe ds a b = true := by
    apply List.pairwise_mergeSort
    · intro a b c hab hbc
      rw [lexLe_iff] at *
      omega
    · intro a b
      rw [Bool.or_eq_true, lexLe_iff, lexLe_iff]
      omega
  have h2 : (centers.mergeSort (lexLe ds)).Perm expected := (List.mergeSort_perm _ _).trans hp
  apply List.Perm.eq_of_pairwise _ h1 hs h2
  intro a b ha hb hab hba
  rw [lexLe_iff] at hab hba
  exact hd a (h2.mem_iff.1 ha) b hb (by omega) (by omega)

/-- C68: the points of a target with `nx` columns and `ny` rows, detected in any order, each at less than half a step of its
place in a grid whose lines are at multiples of the step: they are given back row by row, `x` varying the fastest. -/
theorem C68_detected_order_partial (nx ny : ℕ) (ds : ℝ) (x0 y0 : ℤ) (p : ℕ → ℕ → ℝ × ℝ)
    (hx : ∀ i < nx, ∀ j < ny, |(p i j).1 / ds - ((x0 + i : ℤ) : ℝ)| < 1 / 2)
    (hy : ∀ i < nx, ∀ j < ny, |(p i j).2 / ds - ((y0 + j : ℤ) : ℝ)| < 1 / 2) (centers : List (ℝ × ℝ))
    (hc : centers.Perm ((List.range ny).flatMap fun j => (List.range nx).map fun i => p i j)) :
    ∃ l, detectGrid centers nx ny ds = .ok l ∧ l.length = nx * ny ∧
      ∀ i < nx, ∀ j < ny, l[j * nx + i]? = some (p i j) := by
  have rx : ∀ i < nx, ∀ j < ny, rint ((p i j).1 / ds) = x0 + i := fun i hi j hj => rint_near _ _ (hx i hi j hj)
  have ry : ∀ i < nx, ∀ j < ny, rint ((p i j).2 / ds) = y0 + j := fun i hi j hj => rint_near _ _ (hy i hi j hj)
  have hs := sort_unique ds centers _ hc
    (by
      rw [List.pairwise_flatMap]
      constructor
      · intro j hj
        rw [List.mem_range] at hj
        rw [List.pairwise_map]
        refine List.Pairwise.imp_of_mem ?_ (List.pairwise_lt_range (n := nx))
        intro a b ha hb hab
        rw [List.mem_range] at ha hb
        rw [lexLe_iff, rx a ha j hj, rx b hb j hj, ry a ha j hj, ry b hb j hj]
        omega
      · refine List.Pairwise.imp_of_mem ?_ (List.pairwise_lt_range (n := ny))
        intro j j' hj hj' hlt a ha b hb
        rw [List.mem_range] at hj hj'
        simp only [List.mem_map, List.mem_range] at ha hb
        obtain ⟨i, hi, rfl⟩ := ha
        obtain ⟨i', hi', rfl⟩ := hb
        rw [lexLe_iff, rx i hi j hj, rx i' hi' j' hj', ry i hi j hj, ry i' hi' j' hj']
        omega)
    (by
      intro a ha b hb h1 h2
      simp only [List.mem_flatMap, List.mem_map, List.mem_range] at ha hb
      obtain ⟨j, hj, i, hi, rfl⟩ := ha
      obtain ⟨j', hj', i', hi', rfl⟩ := hb
      rw [rx i hi j hj, rx i' hi' j' hj'] at h1
      rw [ry i hi j hj, ry i' hi' j' hj'] at h2
      have e1 : i = i' := by omega
      have e2 : j = j' := by omega
      rw [e1, e2])
  have hlen : ((List.range ny).flatMap fun j => (List.range nx).map fun i => p i j).length = nx * ny := by
    rw [flat_length (List.range ny) (List.range nx) (fun j i => p i j), List.length_range, List.length_range, Nat.mul_comm]
  refine ⟨_, ?_, hlen, ?_⟩
  · unfold detectGrid
    simp only [hs]
    rw [if_neg (by rw [hlen]; simp)]
  · intro i hi j hj
    have := flat_get (List.range ny) (List.range nx) (fun j i => p i j) j i j i (by simp [hj]) (by simp [hi])
    rwa [List.length_range] at this

/-- C68, missing or spurious points: never a list with another number of points than asked for. -/
theorem C68_count (nx ny : ℕ) (ds : ℝ) (centers l : List (ℝ × ℝ)) (h : detectGrid centers nx ny ds = .ok l) :
    l.length = nx * ny ∧ l.Perm centers := by
  unfold detectGrid at h
  simp only at h
  split at h
  · cases h
  · rename_i hn
    cases h
    exact ⟨not_not.1 hn, List.mergeSort_perm _ _⟩

/-- C68 fails when a line of the target is near a half-integer multiple of the step: a row of three points, almost
perfectly aligned, whose points are not given back from left to right. -/
theorem C68_detected_order_fails :
    detectGrid [(0, 0.49), (1, 0.51), (2, 0.49)] 3 1 1 = .ok [(0, 0.49), (2, 0.49), (1, 0.51)] := by
  have r : ∀ n : ℕ, rint ((n : ℝ) / 1) = n := fun n => rint_near _ _ (by simp)
  have r0 : rint (0 : ℝ) = 0 := by simpa using r 0
  have r1 : rint (1 : ℝ) = 1 := by simpa using r 1
  have r2 : rint (2 : ℝ) = 2 := by simpa using r 2
  have ra : rint (0.49 : ℝ) = 0 := rint_near _ _ (by norm_num [abs_lt])
  have rb : rint (0.51 : ℝ) = 1 := rint_near _ _ (by norm_num [abs_lt])
  have hs := sort_unique 1 [(0, 0.49), (1, 0.51), (2, 0.49)] [(0, 0.49), (2, 0.49), (1, 0.51)]
    (List.Perm.cons _ (List.Perm.swap _ _ _))
    (by simp [lexLe_iff, r0, r1, r2, ra, rb]) (by simp [r0, r1, r2, ra, rb])
  unfold detectGrid
  simp only [hs]
  simp

/-- Non-vacuity of `C68_detected_order_partial`: four noisy points. -/
example : ∃ l, detectGrid [(11.2, 20.1), (9.9, 9.8), (20.3, 10.1), (19.9, 19.8)] 2 2 10 = .ok l ∧
    l[0]? = some ((9.9, 9.8) : ℝ × ℝ) ∧ l[1]? = some ((20.3, 10.1) : ℝ × ℝ) ∧ l[2]? = some ((11.2, 20.1) : ℝ × ℝ) ∧
    l[3]? = some ((19.9, 19.8) : ℝ × ℝ) := by
  obtain ⟨l, h, _, hl⟩ := C68_detected_order_partial 2 2 10 1 1
    (fun i j => if j = 0 then (if i = 0 then (9.9, 9.8) else (20.3, 10.1)) else (if i = 0 then (11.2, 20.1) else (19.9, 19.8)))
    (by intro i hi j hj; interval_cases i <;> interval_cases j <;> norm_num [abs_lt])
    (by intro i hi j hj; interval_cases i <;> interval_cases j <;> norm_num [abs_lt])
    [(11.2, 20.1), (9.9, 9.8), (20.3, 10.1), (19.9, 19.8)]
    (by
      simp only [List.range_succ, List.range_zero, List.nil_append, List.flatMap_append, List.flatMap_cons, List.flatMap_nil,
        List.append_nil, List.map_append, List.map_cons, List.map_nil, List.cons_append]
      norm_num
      exact ((List.Perm.swap _ _ _).trans (List.Perm.cons _ (List.Perm.swap _ _ _))))
  refine ⟨l, h, ?_, ?_, ?_, ?_⟩
  · simpa using hl 0 (by omega) 0 (by omega)
  · simpa using hl 1 (by omega) 0 (by omega)
  · simpa using hl 0 (by omega) 1 (by omega)
  · simpa using hl 1 (by omega) 1 (by omega)

/-! ### Object points -/

theorem objectPoints_get (nx ny : ℕ) (z ds : ℝ) (hx : nx % 2 = 1) (hy : ny % 2 = 1) :
    ∃ l, objectPoints nx ny z ds = .ok l ∧ l.length = nx * ny ∧ ∀ i < nx, ∀ j < ny, l[i * ny + j]? =
      some ⟨(-(((ny - 1) / 2 : ℕ) : ℝ) + (j : ℝ)) * ds, (-(((nx - 1) / 2 : ℕ) : ℝ) + (i : ℝ)) * ds, z⟩ := by
  refine ⟨_, if_pos ⟨hx, hy⟩, ?_, ?_⟩
  · rw [flat_length (List.range nx) (List.range ny), List.length_range, List.length_range]
  · intro i hi j hj
    have := flat_get (List.range nx) (List.range ny) (fun ix iy =>
      (⟨(-(((ny - 1) / 2 : ℕ) : ℝ) + (iy : ℝ)) * ds, (-(((nx - 1) / 2 : ℕ) : ℝ) + (ix : ℝ)) * ds, z⟩ : V3)) i j i j
      (by simp [hi]) (by simp [hj])
    rwa [List.length_range] at this

/-- C68: for a square target, the object point with the index of the point of column `i` and row `j` is the point of the
target in this column and this row (the origin is the point in the middle). -/
theorem C68_object_points_partial (n : ℕ) (z ds : ℝ) (h : n % 2 = 1) :
    ∃ l, objectPoints n n z ds = .ok l ∧ l.length = n * n ∧ ∀ i < n, ∀ j < n, l[j * n + i]? =
      some ⟨((i : ℝ) - ((n : ℝ) - 1) / 2) * ds, ((j : ℝ) - ((n : ℝ) - 1) / 2) * ds, z⟩ := by
  obtain ⟨l, h1, h2, h3⟩ := objectPoints_get n n z ds h h
  refine ⟨l, h1, h2, ?_⟩
  intro i hi j hj
  rw [h3 j hj i hi]
  have e : (((n - 1) / 2 : ℕ) : ℝ) = ((n : ℝ) - 1) / 2 := by
    rw [Nat.cast_div (by omega) (by norm_num), Nat.cast_sub (by omega)]
    push_cast
    rfl
  rw [e]
  congr 2 <;> ring

/-- C68 fails for every target with different (odd) numbers of columns and rows: the first object point is not the corner
of the target, and the calibration associates wrong pairs of points. -/
theorem C68_object_points_fails (nx ny : ℕ) (z ds : ℝ) (hx : nx % 2 = 1) (hy : ny % 2 = 1) (hne : nx ≠ ny) (hds : ds ≠ 0) :
    ∃ l, objectPoints nx ny z ds = .ok l ∧ l.length = nx * ny ∧
      l[0]? ≠ some ⟨((0 : ℝ) - ((nx : ℝ) - 1) / 2) * ds, ((0 : ℝ) - ((ny : ℝ) - 1) / 2) * ds, z⟩ := by
  obtain ⟨l, h1, h2, h3⟩ := objectPoints_get nx ny z ds hx hy
  refine ⟨l, h1, h2, ?_⟩
  have h0 := h3 0 (by omega) 0 (by omega)
  rw [Nat.zero_mul, Nat.zero_add] at h0
  rw [h0]
  intro h
  rw [Option.some.injEq, V3.mk.injEq] at h
  have e : (((ny - 1) / 2 : ℕ) : ℝ) = ((ny : ℝ) - 1) / 2 := by
    rw [Nat.cast_div (by omega) (by norm_num), Nat.cast_sub (by omega)]
    push_cast
    rfl
  have h4 := mul_right_cancel₀ hds h.1
  rw [e] at h4
  push_cast at h4
  have : (nx : ℝ) = ny := by linarith
  exact hne (by exact_mod_cast this)

/-- C68: a target without a point in the middle is refused. -/
theorem C68_even_refused (nx ny : ℕ) (z ds : ℝ) (h : nx % 2 = 0 ∨ ny % 2 = 0) :
    objectPoints nx ny z ds = .error .assertion := if_neg (by omega)

/-! ## C69: reconstruction -/

theorem getD_lt (l : List ℝ) (k : ℕ) (h : k < l.length) : l.getD k 0 = l[k] := by simp [h]

/-- Product of the values of the cameras at one voxel. -/
noncomputable def prodAt (k : ℕ) (vals : List (List ℝ)) : ℝ := (vals.map fun v => v.getD k 0).prod

theorem reconstruct_memory (ncams n : ℕ) (path : String) (k : ℕ) (hk : k < n) : ∀ (vals : List (List ℝ)) (s : State) (a : ℝ),
    (∀ v ∈ vals, v.length = n) → (∀ v ∈ vals, ∀ x ∈ v, 0 ≤ x) → s.intens.length = n → s.intens[k]? = some a →
    (reconstructAll ncams path false vals s).intens[k]? = some (a * (prodAt k vals) ^ (1 / (ncams : ℝ))) ∧
    (reconstructAll ncams path false vals s).files = s.files := by
  intro vals
  induction vals with
  | nil => intro s a _ _ _ ha; simp [reconstructAll, prodAt, ha]
  | cons v vals ih =>
    intro s a hlen hpos hs ha
    have hv : v.length = n := hlen v (by simp)
    have hvk : v[k]? = some (v.getD k 0) := by
      rw [getD_lt _ _ (by omega), List.getElem?_eq_getElem (by omega)]
    obtain ⟨h1, h2⟩ := ih (reconstruct ncams v path false s) (a * (v.getD k 0) ^ (1 / (ncams : ℝ)))
      (fun w hw => hlen w (by simp [hw])) (fun w hw => hpos w (by simp [hw]))
      (by simp [reconstruct, hs, hv]) (by
        have : (List.zipWith (· * ·) s.intens (v.map fun v => v ^ (1 / (ncams : ℝ))))[k]? =
            some (a * (v.getD k 0) ^ (1 / (ncams : ℝ))) := by rw [List.getElem?_zipWith, ha, List.getElem?_map, hvk]; rfl
        exact this)
    refine ⟨?_, by rw [reconstructAll, h2]; rfl⟩
    rw [reconstructAll, h1]
    congr 1
    have hp : 0 ≤ prodAt k vals := by
      apply List.prod_nonneg
      intro x hx
      rw [List.mem_map] at hx
      obtain ⟨w, hw, rfl⟩ := hx
      have : k < w.length := by rw [hlen w (by simp [hw])]; exact hk
      rw [getD_lt _ _ this]
      exact hpos w (by simp [hw]) _ (List.getElem_mem _)
    have e : prodAt k (v :: vals) = v.getD k 0 * prodAt k vals := by simp [prodAt]
    rw [e, Real.mul_rpow _ hp]
    · ring
    · have : k < v.length := by omega
      rw [getD_lt _ _ this]
      exact hpos v (by simp) _ (List.getElem_mem _)

/-- C69: the intensity of the voxel `k` after all the cameras is the geometric mean of the intensities seen by the cameras,
in memory. -/
theorem C69_geometric_mean (n : ℕ) (path : String) (files : String → Option (List ℝ)) (vals : List (List ℝ))
    (hlen : ∀ v ∈ vals, v.length = n) (hpos : ∀ v ∈ vals, ∀ x ∈ v, 0 ≤ x) (k : ℕ) (hk : k < n) :
    (reconstructAll vals.length path false vals (initState n files)).intens[k]? =
      some ((vals.map fun v => v.getD k 0).prod ^ (1 / (vals.length : ℝ))) := by
  rw [(reconstruct_memory vals.length n path k hk vals (initState n files) 1 hlen hpos (by simp [initState])
    (by simp [initState, hk])).1, one_mul]
  rfl

/-- C69: the order of the cameras does not matter. -/
theorem C69_order (n : ℕ) (path : String) (files : String → Option (List ℝ)) (vals vals' : List (List ℝ))
    (hp : vals.Perm vals') (hlen : ∀ v ∈ vals, v.length = n) (hpos : ∀ v ∈ vals, ∀ x ∈ v, 0 ≤ x) (k : ℕ) (hk : k < n) :
    (reconstructAll vals.length path false vals (initState n files)).intens[k]? =
      (reconstructAll vals'.length path false vals' (initState n files)).intens[k]? := by
  rw [C69_geometric_mean n path files vals hlen hpos k hk,
    C69_geometric_mean n path files vals' (fun v hv => hlen v (hp.mem_iff.2 hv)) (fun v hv => hpos v (hp.mem_iff.2 hv)) k hk,
    hp.length_eq, (hp.map _).prod_eq]

theorem reconstruct_saved (ncams n : ℕ) (path : String) (k : ℕ) (hk : k < n) : ∀ (vals : List (List ℝ)) (s : State) (d : List ℝ) (a : ℝ),
    (∀ v ∈ vals, v.length = n) → (∀ v ∈ vals, ∀ x ∈ v, 0 ≤ x) → s.files path = some d → d.length = n → d[k]? = some a →
    ∃ d', (reconstructAll ncams path true vals s).files path = some d' ∧ d'.length = n ∧
      d'[k]? = some (a * (prodAt k vals) ^ (1 / (ncams : ℝ))) := by
  intro vals
  induction vals with
  | nil => intro s d a _ _ hs hd ha; exact ⟨d, hs, hd, by simp [prodAt, ha]⟩
  | cons v vals ih =>
    intro s d a hlen hpos hs hd ha
    have hv : v.length = n := hlen v (by simp)
    have hvk : v[k]? = some (v.getD k 0) := by
      rw [getD_lt _ _ (by omega), List.getElem?_eq_getElem (by omega)]
    obtain ⟨d', h1, h2, h3⟩ := ih (reconstruct ncams v path true s)
      (List.zipWith (· * ·) d (v.map fun v => v ^ (1 / (ncams : ℝ)))) (a * (v.getD k 0) ^ (1 / (ncams : ℝ)))
      (fun w hw => hlen w (by simp [hw])) (fun w hw => hpos w (by simp [hw]))
      (by simp [reconstruct, hs]) (by simp [hd, hv]) (by rw [List.getElem?_zipWith, ha, List.getElem?_map, hvk]; rfl)
    refine ⟨d', h1, h2, ?_⟩
    rw [h3]
    congr 1
    have hp : 0 ≤ prodAt k vals := by
      apply List.prod_nonneg
      intro x hx
      rw [List.mem_map] at hx
      obtain ⟨w, hw, rfl⟩ := hx
      have : k < w.length := by rw [hlen w (by simp [hw])]; exact hk
      rw [getD_lt _ _ this]
      exact hpos w (by simp [hw]) _ (List.getElem_mem _)
    have e : prodAt k (v :: vals) = v.getD k 0 * prodAt k vals := by simp [prodAt]
    rw [e, Real.mul_rpow _ hp]
    · ring
    · have : k < v.length := by omega
      rw [getD_lt _ _ this]
      exact hpos v (by simp) _ (List.getElem_mem _)

/-- C69: the files of the other arrays are not changed. -/
theorem C69_other_files (ncams : ℕ) (path other : String) (hne : other ≠ path) (save : Bool) (vals : List (List ℝ)) (s : State) :
    (reconstructAll ncams path save vals s).files other = s.files other := by
  induction vals generalizing s with
  | nil => rfl
  | cons v vals ih =>
    rw [reconstructAll, ih]
    unfold reconstruct
    cases save with
    | false => rfl
    | true => cases s.files path <;> simp [hne]

/-- C69: with `save=True` and no file at the beginning, the file has in the end the intensities of the reconstruction in
memory. -/
theorem C69_saved_partial (n : ℕ) (path : String) (files : String → Option (List ℝ)) (hf : files path = none)
    (vals : List (List ℝ)) (hne : vals ≠ []) (hlen : ∀ v ∈ vals, v.length = n) (hpos : ∀ v ∈ vals, ∀ x ∈ v, 0 ≤ x) :
    ∃ d, (reconstructAll vals.length path true vals (initState n files)).files path = some d ∧ d.length = n ∧
      ∀ k < n, d[k]? = some ((vals.map fun v => v.getD k 0).prod ^ (1 / (vals.length : ℝ))) := by
  cases vals with
  | nil => exact absurd rfl hne
  | cons v vals =>
    have hv : v.length = n := hlen v (by simp)
    generalize hN : (v :: vals).length = N
    have hr : (reconstruct N v path true (initState n files)).files path = some (v.map fun v => v ^ (1 / (N : ℝ))) := by
      simp [reconstruct, initState, hf]
    have hd : ∃ d, (reconstructAll N path true (v :: vals) (initState n files)).files path = some d ∧ d.length = n := by
      rcases Nat.eq_zero_or_pos n with h0 | h0
      · have : ∀ (vs : List (List ℝ)) (s : State) (d : List ℝ), (∀ v ∈ vs, v.length = n) → s.files path = some d → d.length = n →
            ∃ d', (reconstructAll N path true vs s).files path = some d' ∧ d'.length = n := by
          intro vs
          induction vs with
          | nil => intro s d _ h h'; exact ⟨d, h, h'⟩
          | cons w vs ih =>
            intro s d hl h h'
            exact ih _ (List.zipWith (· * ·) d (w.map fun v => v ^ (1 / (N : ℝ)))) (fun v hv => hl v (by simp [hv]))
              (by simp [reconstruct, h]) (by simp [h', hl w (by simp)])
        exact this vals _ _ (fun w hw => hlen w (by simp [hw])) hr (by simp [hv])
      · obtain ⟨d', h1, h2, _⟩ := reconstruct_saved N n path 0 h0 vals (reconstruct N v path true (initState n files)) _ _
          (fun w hw => hlen w (by simp [hw])) (fun w hw => hpos w (by simp [hw])) hr (by simp [hv])
          (List.getElem?_eq_getElem (by simp [hv, h0]))
        exact ⟨d', h1, h2⟩
    obtain ⟨d, hd1, hd2⟩ := hd
    refine ⟨d, hd1, hd2, ?_⟩
    intro k hk
    have hvk : (v.map fun v => v ^ (1 / (N : ℝ)))[k]? = some ((v.getD k 0) ^ (1 / (N : ℝ))) := by
      rw [List.getElem?_map, getD_lt _ _ (by omega), List.getElem?_eq_getElem (by omega)]
      rfl
    obtain ⟨d', h1, h2, h3⟩ := reconstruct_saved N n path k hk vals (reconstruct N v path true (initState n files)) _ _
      (fun w hw => hlen w (by simp [hw])) (fun w hw => hpos w (by simp [hw])) hr (by simp [hv]) hvk
    have : d = d' := by
      rw [reconstructAll] at hd1
      rw [hd1] at h1
      exact Option.some.inj h1
    rw [this, h3, List.map_cons, List.prod_cons, Real.mul_rpow]
    · rfl
    · have : k < v.length := by omega
      rw [getD_lt _ _ this]
      exact hpos v (by simp) _ (List.getElem_mem _)
    · apply List.prod_nonneg
      intro x hx
      rw [List.mem_map] at hx
      obtain ⟨w, hw, rfl⟩ := hx
      have : k < w.length := by rw [hlen w (by simp [hw])]; exact hk
      rw [getD_lt _ _ this]
      exact hpos w (by simp [hw]) _ (List.getElem_mem _)

/-- C69 fails when the file exists already, for example after the same script has been stopped or run before: the
intensities are multiplied again (here one camera, which sees the intensity 2 in the only voxel). -/
theorem C69_rerun_fails (path : String) :
    let s := reconstructAll 1 path true [[2]] (initState 1 fun _ => none)
    s.files path = some [2] ∧ (reconstructAll 1 path true [[2]] (initState 1 s.files)).files path = some [4] := by
  constructor
  · simp [reconstructAll, reconstruct, initState]
  · norm_num [reconstructAll, reconstruct, initState]

/-- Non-vacuity of C69: two cameras, two voxels. -/
example : (reconstructAll 2 "t.h5" false [[4, 1], [9, 0]] (initState 2 fun _ => none)).intens[0]? = some 6 := by
  have h := C69_geometric_mean 2 "t.h5" (fun _ => none) [[4, 1], [9, 0]] (by simp) (by simp) 0 (by norm_num)
  simp only [List.length_cons, List.length_nil, Nat.zero_add, Nat.reduceAdd] at h
  rw [h]
  norm_num

end Verif
