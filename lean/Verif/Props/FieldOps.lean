import Verif.Model.FieldOps
import Verif.Props.VectorField
import Mathlib.Tactic.FieldSimp
import Mathlib.Data.List.Sort

/-!
# Derivatives, filters and files of vector fields (C89, C90, C91, C92)
-/

namespace Verif
open Verif.PivGrid Verif.GridFinal Verif.VectorField Verif.FieldOps

/-! ## C89: derivatives -/

/-- The coordinate of index `i` is `a + i h`. -/
def ExactAxis (x : List ℚ) (a h : ℚ) : Prop := ∀ (i : Nat) (v : ℚ), x[i]? = some v → v = a + i * h

/-- `x` is the abscissa of the column `i` and `y` the ordinate of the line `j`. -/
def GridPoint (F : VField ℚ) (j i : Nat) (x y : ℚ) : Prop := F.x[i]? = some x ∧ F.y[j]? = some y

theorem GridPoint.lt {F : VField ℚ} {j i : Nat} {x y : ℚ} (h : GridPoint F j i x y) : j < F.y.length ∧ i < F.x.length :=
  ⟨(List.getElem?_eq_some_iff.1 h.2).1, (List.getElem?_eq_some_iff.1 h.1).1⟩

theorem fo_point (F : VField ℚ) (j i : Nat) (hj : j < F.y.length) (hi : i < F.x.length) (a b dx dy : ℚ)
    (hx : ExactAxis F.x a dx) (hy : ExactAxis F.y b dy) : GridPoint F j i (a + i * dx) (b + j * dy) := by
  have h1 : F.x[i]? = some F.x[i] := List.getElem?_eq_getElem hi
  have h2 : F.y[j]? = some F.y[j] := List.getElem?_eq_getElem hj
  exact ⟨by rw [h1, hx i _ h1], by rw [h2, hy j _ h2]⟩

theorem fo_grad_quadratic (n : Nat) (a h A B C : ℚ) (hh : h ≠ 0) (f : Nat → ℚ) (hn : 3 ≤ n)
    (hf : ∀ i, i < n → f i = A + B * (a + i * h) + C * (a + i * h) ^ 2) (i : Nat) (hi : i < n) :
    gradAt 2 n h f i = B + 2 * C * (a + i * h) := by
  unfold gradAt
  split
  · rename_i h0
    subst h0
    rw [if_neg (by norm_num), hf 0 (by omega), hf 1 (by omega), hf 2 (by omega)]
    push_cast
    field_simp
    ring
  · split
    · rename_i h0 h1
      rw [if_neg (by norm_num), hf (n - 3) (by omega), hf (n - 2) (by omega), hf (n - 1) (by omega), h1]
      obtain ⟨k, rfl⟩ : ∃ k, n = k + 3 := ⟨n - 3, by omega⟩
      rw [show k + 3 - 3 = k by omega, show k + 3 - 2 = k + 1 by omega, show k + 3 - 1 = k + 2 by omega]
      push_cast
      field_simp
      ring
    · rename_i h0 h1
      rw [hf (i + 1) (by omega), hf (i - 1) (by omega)]
      obtain ⟨k, rfl⟩ : ∃ k, i = k + 1 := ⟨i - 1, by omega⟩
      rw [show k + 1 - 1 = k by omega]
      push_cast
      field_simp
      ring

theorem fo_grad_linear (n : Nat) (a h A B : ℚ) (hh : h ≠ 0) (f : Nat → ℚ) (hn : 2 ≤ n)
    (hf : ∀ i, i < n → f i = A + B * (a + i * h)) (i : Nat) (hi : i < n) : gradAt 1 n h f i = B := by
  unfold gradAt
  split
  · rw [if_pos rfl, hf 0 (by omega), hf 1 (by omega)]
    push_cast
    field_simp
    ring
  · split
    · rw [if_pos rfl, hf (n - 2) (by omega), hf (n - 1) (by omega)]
      obtain ⟨k, rfl⟩ : ∃ k, n = k + 2 := ⟨n - 2, by omega⟩
      rw [show k + 2 - 2 = k by omega, show k + 2 - 1 = k + 1 by omega]
      push_cast
      field_simp
      ring
    · rw [hf (i + 1) (by omega), hf (i - 1) (by omega)]
      obtain ⟨k, rfl⟩ : ∃ k, i = k + 1 := ⟨i - 1, by omega⟩
      rw [show k + 1 - 1 = k by omega]
      push_cast
      field_simp
      ring

theorem fo_gradX_ok (eo : Nat) (h : ℚ) (im : Img ℚ) (he : eo ≤ 2) (hn : eo + 1 ≤ im.nx) :
    gradX eo h im = .ok ⟨im.ny, im.nx, fun j i => gradAt eo im.nx h (fun k => im.get j k) i⟩ := by
  unfold gradX; rw [if_neg (by omega), if_neg (by omega)]

theorem fo_gradY_ok (eo : Nat) (h : ℚ) (im : Img ℚ) (he : eo ≤ 2) (hn : eo + 1 ≤ im.ny) :
    gradY eo h im = .ok ⟨im.ny, im.nx, fun j i => gradAt eo im.ny h (fun k => im.get k i) j⟩ := by
  unfold gradY; rw [if_neg (by omega), if_neg (by omega)]

theorem fo_divh_ok (F : VField ℚ) (hF : WellShaped F) (hr : F.regular = true) (dx dy : ℚ) (eo : Nat) (he : eo ≤ 2)
    (hx : eo + 1 ≤ F.x.length) (hy : eo + 1 ≤ F.y.length) :
    computeDivh F dx dy eo = .ok ⟨F.y.length, F.x.length, fun j i =>
      gradAt eo F.x.length dx (fun k => F.vx.get j k) i + gradAt eo F.y.length dy (fun k => F.vy.get k i) j⟩ := by
  unfold computeDivh
  rw [if_neg (by simp [hr]), fo_gradX_ok eo dx F.vx he (by rw [hF.vx.2]; exact hx),
    fo_gradY_ok eo dy F.vy he (by rw [hF.vy.1]; exact hy)]
  simp only [zipImg, sameShape, hF.vx.1, hF.vx.2, hF.vy.1, hF.vy.2]
  simp

theorem fo_rotz_ok (F : VField ℚ) (hF : WellShaped F) (hr : F.regular = true) (dx dy : ℚ) (eo : Nat) (he : eo ≤ 2)
    (hx : eo + 1 ≤ F.x.length) (hy : eo + 1 ≤ F.y.length) :
    computeRotz F dx dy eo = .ok ⟨F.y.length, F.x.length, fun j i =>
      gradAt eo F.x.length dx (fun k => F.vy.get j k) i - gradAt eo F.y.length dy (fun k => F.vx.get k i) j⟩ := by
  unfold computeRotz
  rw [if_neg (by simp [hr]), fo_gradY_ok eo dy F.vx he (by rw [hF.vx.1]; exact hy),
    fo_gradX_ok eo dx F.vy he (by rw [hF.vy.2]; exact hx)]
  simp only [zipImg, sameShape, hF.vx.1, hF.vx.2, hF.vy.1, hF.vy.2]
  simp

/-- Divergence, `edge_order=2` (default): exact at all the points, edges included, when `vx` is quadratic in `x` on each
line and `vy` is quadratic in `y` on each column. -/
theorem C89_divergence_partial (F : VField ℚ) (hF : WellShaped F) (hr : F.regular = true) (a b dx dy : ℚ)
    (hx : ExactAxis F.x a dx) (hy : ExactAxis F.y b dy) (hdx : dx ≠ 0) (hdy : dy ≠ 0) (hx3 : 3 ≤ F.x.length) (hy3 : 3 ≤ F.y.length)
    (A B C A' B' C' : Nat → ℚ)
    (hvx : ∀ j i x y, GridPoint F j i x y → F.vx.get j i = A j + B j * x + C j * x ^ 2)
    (hvy : ∀ j i x y, GridPoint F j i x y → F.vy.get j i = A' i + B' i * y + C' i * y ^ 2) :
    ∃ d, computeDivh F dx dy 2 = .ok d ∧ OnGrid F.x F.y d ∧ ∀ j i x y, GridPoint F j i x y →
      d.get j i = (B j + 2 * C j * x) + (B' i + 2 * C' i * y) := by
  refine ⟨_, fo_divh_ok F hF hr dx dy 2 (by omega) hx3 hy3, ⟨rfl, rfl⟩, ?_⟩
  intro j i x y hp
  obtain ⟨hj, hi⟩ := hp.lt
  simp only
  rw [hx i x hp.1, hy j y hp.2, fo_grad_quadratic _ a dx (A j) (B j) (C j) hdx _ hx3 (fun k hk => hvx j k _ _ (fo_point F j k hj hk a b dx dy hx hy)) i hi,
    fo_grad_quadratic _ b dy (A' i) (B' i) (C' i) hdy _ hy3 (fun k hk => hvy k i _ _ (fo_point F k i hk hi a b dx dy hx hy)) j hj]

/-- Curl, `edge_order=2`: exact at all the points when `vy` is quadratic in `x` and `vx` is quadratic in `y`. -/
theorem C89_curl_partial (F : VField ℚ) (hF : WellShaped F) (hr : F.regular = true) (a b dx dy : ℚ)
    (hx : ExactAxis F.x a dx) (hy : ExactAxis F.y b dy) (hdx : dx ≠ 0) (hdy : dy ≠ 0) (hx3 : 3 ≤ F.x.length) (hy3 : 3 ≤ F.y.length)
    (A B C A' B' C' : Nat → ℚ)
    (hvx : ∀ j i x y, GridPoint F j i x y → F.vx.get j i = A i + B i * y + C i * y ^ 2)
    (hvy : ∀ j i x y, GridPoint F j i x y → F.vy.get j i = A' j + B' j * x + C' j * x ^ 2) :
    ∃ d, computeRotz F dx dy 2 = .ok d ∧ OnGrid F.x F.y d ∧ ∀ j i x y, GridPoint F j i x y →
      d.get j i = (B' j + 2 * C' j * x) - (B i + 2 * C i * y) := by
  refine ⟨_, fo_rotz_ok F hF hr dx dy 2 (by omega) hx3 hy3, ⟨rfl, rfl⟩, ?_⟩
  intro j i x y hp
  obtain ⟨hj, hi⟩ := hp.lt
  simp only
  rw [hx i x hp.1, hy j y hp.2, fo_grad_quadratic _ a dx (A' j) (B' j) (C' j) hdx _ hx3 (fun k hk => hvy j k _ _ (fo_point F j k hj hk a b dx dy hx hy)) i hi,
    fo_grad_quadratic _ b dy (A i) (B i) (C i) hdy _ hy3 (fun k hk => hvx k i _ _ (fo_point F k i hk hi a b dx dy hx hy)) j hj]

/-- `edge_order=1`: exact at all the points for linear variations. -/
theorem C89_order1 (F : VField ℚ) (hF : WellShaped F) (hr : F.regular = true) (a b dx dy : ℚ)
    (hx : ExactAxis F.x a dx) (hy : ExactAxis F.y b dy) (hdx : dx ≠ 0) (hdy : dy ≠ 0) (hx2 : 2 ≤ F.x.length) (hy2 : 2 ≤ F.y.length) (p q r s t u : ℚ)
    (hvx : ∀ j i x y, GridPoint F j i x y → F.vx.get j i = p + q * x + r * y)
    (hvy : ∀ j i x y, GridPoint F j i x y → F.vy.get j i = s + t * x + u * y) :
    (∃ d, computeDivh F dx dy 1 = .ok d ∧ ∀ j i, j < F.y.length → i < F.x.length → d.get j i = q + u)
    ∧ (∃ d, computeRotz F dx dy 1 = .ok d ∧ ∀ j i, j < F.y.length → i < F.x.length → d.get j i = t - r) := by
  constructor
  · refine ⟨_, fo_divh_ok F hF hr dx dy 1 (by omega) hx2 hy2, ?_⟩
    intro j i hj hi
    simp only
    rw [fo_grad_linear _ a dx (p + r * (b + j * dy)) q hdx _ hx2 (fun k hk => by rw [hvx j k _ _ (fo_point F j k hj hk a b dx dy hx hy)]; ring) i hi,
      fo_grad_linear _ b dy (s + t * (a + i * dx)) u hdy _ hy2 (fun k hk => by rw [hvy k i _ _ (fo_point F k i hk hi a b dx dy hx hy)]) j hj]
  · refine ⟨_, fo_rotz_ok F hF hr dx dy 1 (by omega) hx2 hy2, ?_⟩
    intro j i hj hi
    simp only
    rw [fo_grad_linear _ a dx (s + u * (b + j * dy)) t hdx _ hx2 (fun k hk => by rw [hvy j k _ _ (fo_point F j k hj hk a b dx dy hx hy)]; ring) i hi,
      fo_grad_linear _ b dy (p + q * (a + i * dx)) r hdy _ hy2 (fun k hk => by rw [hvx k i _ _ (fo_point F k i hk hi a b dx dy hx hy)]) j hj]

/-- The derivatives along the two axes commute. -/
theorem fo_grad_comm (eo n m : Nat) (h k : ℚ) (f : Nat → Nat → ℚ) (i j : Nat) :
    gradAt eo n h (fun i => gradAt eo m k (fun j => f j i) j) i = gradAt eo m k (fun j => gradAt eo n h (fun i => f j i) i) j := by
  unfold gradAt
  split_ifs <;> ring

theorem fo_grad_neg (eo n : Nat) (h : ℚ) (f : Nat → ℚ) (i : Nat) :
    gradAt eo n h (fun i => -f i) i = -gradAt eo n h f i := by
  unfold gradAt
  split_ifs <;> ring

/-- The divergence of a field computed from any stream function with the same finite differences is zero everywhere, and
the curl of a field computed from any potential is zero everywhere. -/
theorem C89_identities (F : VField ℚ) (hF : WellShaped F) (hr : F.regular = true) (dx dy : ℚ) (eo : Nat) (he : eo ≤ 2)
    (hx : eo + 1 ≤ F.x.length) (hy : eo + 1 ≤ F.y.length) (psi gx gy : Img ℚ) (hpsi : OnGrid F.x F.y psi)
    (h1 : gradX eo dx psi = .ok gx) (h2 : gradY eo dy psi = .ok gy) :
    (F.vx = gy → (∀ j i, F.vy.get j i = -gx.get j i) →
      ∃ d, computeDivh F dx dy eo = .ok d ∧ ∀ j i, d.get j i = 0)
    ∧ (F.vx = gx → F.vy = gy → ∃ d, computeRotz F dx dy eo = .ok d ∧ ∀ j i, d.get j i = 0) := by
  rw [fo_gradX_ok eo dx psi he (by rw [hpsi.2]; exact hx)] at h1
  rw [fo_gradY_ok eo dy psi he (by rw [hpsi.1]; exact hy)] at h2
  cases h1
  cases h2
  constructor
  · intro e1 e2
    refine ⟨_, fo_divh_ok F hF hr dx dy eo he hx hy, ?_⟩
    intro j i
    simp only [e1, e2, hpsi.1, hpsi.2]
    rw [fo_grad_comm eo F.x.length F.y.length dx dy (fun j i => psi.get j i) i j, fo_grad_neg]
    ring
  · intro e1 e2
    refine ⟨_, fo_rotz_ok F hF hr dx dy eo he hx hy, ?_⟩
    intro j i
    simp only [e1, e2, hpsi.1, hpsi.2]
    rw [fo_grad_comm eo F.x.length F.y.length dx dy (fun j i => psi.get j i) i j]
    ring

/-- A grid which is not regular, or which has not enough points, gives an error and no result. -/
theorem C89_errors (F : VField ℚ) (hF : WellShaped F) (dx dy : ℚ) (eo : Nat) :
    (F.regular = false → computeDivh F dx dy eo = .error .notImplementedError
      ∧ computeRotz F dx dy eo = .error .notImplementedError)
    ∧ (F.regular = true → F.x.length < eo + 1 ∨ F.y.length < eo + 1 →
      computeDivh F dx dy eo = .error .valueError ∧ computeRotz F dx dy eo = .error .valueError) := by
  constructor
  · intro h
    unfold computeDivh computeRotz
    simp [h]
  · intro h hs
    unfold computeDivh computeRotz gradX gradY
    simp only [h, hF.vx.1, hF.vx.2, hF.vy.1, hF.vy.2]
    by_cases h2 : 2 < eo
    · simp [h2]
    · by_cases hx : F.x.length < eo + 1
      · by_cases hy : F.y.length < eo + 1 <;> simp [h2, hx, hy]
      · have hy : F.y.length < eo + 1 := by tauto
        simp [h2, hx, hy]

/-- A field on a grid with very small steps, `vx = x`. -/
def smallGrid : VField ℚ :=
  ⟨[0, 1 / 10 ^ 8, 3 / 10 ^ 8], [0, 1 / 10 ^ 8, 2 / 10 ^ 8], .absent,
    ⟨3, 3, fun _ i => ([0, 1 / 10 ^ 8, 3 / 10 ^ 8][i]?).getD 0⟩, ⟨3, 3, fun _ _ => 0⟩, .num 0, none, true⟩

/-- The tolerance of `np.allclose` is absolute: a grid whose second step is twice the first one is said to be regular when the
steps are about `1e-8`, and the divergence of `vx = x` is then 3/2 instead of 1. -/
theorem C89_tolerance_fails :
    mkField smallGrid.x smallGrid.y smallGrid.z smallGrid.vx smallGrid.vy smallGrid.vz none = .ok smallGrid
    ∧ spacing smallGrid.x = .ok (1 / 10 ^ 8) ∧ spacing smallGrid.y = .ok (1 / 10 ^ 8)
    ∧ (∀ j i v, smallGrid.x[i]? = some v → smallGrid.vx.get j i = v)
    ∧ ∃ d, computeDivh smallGrid (1 / 10 ^ 8) (1 / 10 ^ 8) 2 = .ok d ∧ d.get 1 1 = 3 / 2 := by
  refine ⟨?_, by decide +kernel, by decide +kernel, ?_, ?_⟩
  · have h1 : descending smallGrid.x = .ok false := by decide +kernel
    have h2 : descending smallGrid.y = .ok false := by decide +kernel
    have h3 : gridRegular smallGrid.x smallGrid.y smallGrid.z smallGrid.vx = .ok true := by
      have a1 : isRegular smallGrid.x = .ok true := by decide +kernel
      have a2 : isRegular smallGrid.y = .ok true := by decide +kernel
      unfold gridRegular
      rw [a1, a2]
      rfl
    unfold mkField
    rw [h1, h2]
    simp only [Bool.false_eq_true, if_false]
    rw [h3]
    rfl
  · intro j i v h
    simp only [smallGrid] at h ⊢
    rw [h]
    rfl
  · exact ⟨_, fo_divh_ok smallGrid ⟨⟨rfl, rfl⟩, ⟨rfl, rfl⟩, trivial, trivial⟩ rfl _ _ 2 (by omega) (by decide) (by decide),
      by decide +kernel⟩

/-- A solid-body rotation of rate 5 around `(1, 2)`. -/
def solidRotation : VField ℚ :=
  ⟨[0, 2, 4], [0, 1, 2, 3], .absent, ⟨4, 3, fun j _ => -5 * ((j : ℚ) - 2)⟩, ⟨4, 3, fun _ i => 5 * (2 * (i : ℚ) - 1)⟩, .num 0,
    none, true⟩

theorem solidRotation_axes : ExactAxis solidRotation.x 0 2 ∧ ExactAxis solidRotation.y 0 1 := by
  constructor
  · intro i v h
    match i, h with
    | 0, h => simp [solidRotation] at h; simp [← h]
    | 1, h => simp [solidRotation] at h; simp [← h]
    | 2, h => simp [solidRotation] at h; rw [← h]; norm_num
    | i + 3, h => simp [solidRotation] at h
  · intro i v h
    match i, h with
    | 0, h => simp [solidRotation] at h; simp [← h]
    | 1, h => simp [solidRotation] at h; simp [← h]
    | 2, h => simp [solidRotation] at h; rw [← h]; norm_num
    | 3, h => simp [solidRotation] at h; rw [← h]; norm_num
    | i + 4, h => simp [solidRotation] at h

/-- Non-vacuity: the curl of the solid-body rotation is twice its rate at all the points. -/
example : ∃ d, computeRotz solidRotation 2 1 2 = .ok d ∧ ∀ j i x y, GridPoint solidRotation j i x y → d.get j i = 10 := by
  obtain ⟨d, h, _, hd⟩ := C89_curl_partial solidRotation ⟨⟨rfl, rfl⟩, ⟨rfl, rfl⟩, trivial, trivial⟩ rfl
    0 0 2 1 solidRotation_axes.1 solidRotation_axes.2 (by norm_num) (by norm_num) (by decide) (by decide) (fun _ => 10)
    (fun _ => -5) (fun _ => 0) (fun _ => -5) (fun _ => 5) (fun _ => 0)
    (by
      intro j i x y hp
      rw [solidRotation_axes.2 j y hp.2]
      simp only [solidRotation]
      ring)
    (by
      intro j i x y hp
      rw [solidRotation_axes.1 i x hp.1]
      simp only [solidRotation]
      ring)
  refine ⟨d, h, fun j i x y hp => ?_⟩
  rw [hd j i x y hp]
  norm_num

/-- The attributes `dx`, `dy` and the regularity which the constructor computes on an exact grid. -/
theorem C89_spacing (x : List ℚ) (a h : ℚ) (hx : ExactAxis x a h) (h2 : 2 ≤ x.length) :
    spacing x = .ok h ∧ isRegular x = .ok true := by
  obtain ⟨x0, x1, h0, h1⟩ := get_two h2
  have e0 := hx 0 x0 h0
  have e1 := hx 1 x1 h1
  constructor
  · unfold spacing
    rw [at'_some h0, at'_some h1]
    simp only [e0, e1]
    push_cast
    congr 1
    ring
  · match x, h2, hx, h0, h1 with
    | y0 :: y1 :: l, _, hx, h0, h1 =>
      rw [C48_regular]
      intro i p q hp hq
      rw [hx i p hp, hx (i + 1) q hq, hx 0 y0 rfl, hx 1 y1 rfl]
      push_cast
      rw [show a + ((i : ℚ) + 1) * h - (a + i * h) - (a + 1 * h - (a + 0 * h)) = 0 by ring, abs_zero]
      positivity

/-! ## C90: filters -/

/-- The median of a list with an odd number of elements. -/
def medianQ (l : List ℚ) : ℚ := ((l.insertionSort (· ≤ ·))[l.length / 2]?).getD 0

/-- A field with lines `5 0 5 0 5 0 5`, and its part from the column 1 to the column 5. -/
def stripes (first n : Nat) : VField ℚ :=
  ⟨(List.range n).map (fun (i : Nat) => (i : ℚ)), [0, 1, 2], .num 0, ⟨3, n, fun _ i => if (i + first) % 2 = 0 then 5 else 0⟩,
    ⟨3, n, fun _ _ => 0⟩, .num 0, none, true⟩

/-- The values of the `a0` lines before `j`, of `j` and of the `b0` lines after, in the columns around `i`. -/
def windowValues {α : Type} (im : Img α) (j i a0 b0 a1 b1 : Nat) : List α :=
  (List.range (a0 + b0 + 1)).flatMap fun a => (List.range (a1 + b1 + 1)).map fun b => im.get (j - a0 + a) (i - a1 + b)

theorem fo_reflect_in (n : Nat) (k : Int) (h0 : 0 ≤ k) (h1 : k < n) : reflect n k = k.toNat := by
  unfold reflect
  have : k % (2 * n : Nat) = k := Int.emod_eq_of_lt h0 (by push_cast; omega)
  rw [this]
  simp only
  rw [if_pos (by omega)]

theorem fo_apply_in {α : Type} (w : Window α) (im : Img α) (j i : Nat) (h0 : w.before0 ≤ j) (h0' : j + w.after0 < im.ny)
    (h1 : w.before1 ≤ i) (h1' : i + w.after1 < im.nx) :
    (w.apply im).get j i = w.agg (windowValues im j i w.before0 w.after0 w.before1 w.after1) := by
  unfold Window.apply windowValues Window.offsets
  simp only
  congr 1
  rw [List.map_flatMap]
  apply List.flatMap_congr
  intro a ha
  rw [List.map_map]
  apply List.map_congr_left
  intro b hb
  rw [List.mem_range] at ha hb
  simp only [Function.comp]
  rw [fo_reflect_in _ _ (by omega) (by omega), fo_reflect_in _ _ (by omega) (by omega)]
  congr 1 <;> omega

/-- `A` and `B` agree on a part of `A`, which is at the position `(p, q)` in `B`. -/
def Agree {α : Type} (A B : Img α) (p q a0 b0 a1 b1 : Nat) : Prop :=
  ∀ j i, a0 ≤ j → j < b0 → a1 ≤ i → i < b1 → A.get j i = B.get (p + j) (q + i)

theorem fo_apply_agree {α : Type} (w : Window α) (A B : Img α) (p q a0 b0 a1 b1 : Nat) (h : Agree A B p q a0 b0 a1 b1)
    (hA0 : b0 ≤ A.ny) (hA1 : b1 ≤ A.nx) (hB0 : p + b0 ≤ B.ny) (hB1 : q + b1 ≤ B.nx) :
    Agree (w.apply A) (w.apply B) p q (a0 + w.before0) (b0 - w.after0) (a1 + w.before1) (b1 - w.after1) := by
  intro j i h1 h2 h3 h4
  rw [fo_apply_in w A j i (by omega) (by omega) (by omega) (by omega),
    fo_apply_in w B (p + j) (q + i) (by omega) (by omega) (by omega) (by omega)]
  congr 1
  unfold windowValues
  apply List.flatMap_congr
  intro a ha
  apply List.map_congr_left
  intro b hb
  rw [List.mem_range] at ha hb
  rw [h _ _ (by omega) (by omega) (by omega) (by omega)]
  congr 1 <;> omega

theorem fo_iterate_shape {α : Type} (w : Window α) (n : Nat) (A : Img α) : (w.iterate n A).ny = A.ny ∧ (w.iterate n A).nx = A.nx := by
  induction n generalizing A with
  | zero => exact ⟨rfl, rfl⟩
  | succ n ih => exact ih (w.apply A)

theorem fo_iterate_agree {α : Type} (w : Window α) (n : Nat) (A B : Img α) (p q a0 b0 a1 b1 : Nat)
    (h : Agree A B p q a0 b0 a1 b1)
    (hA0 : b0 ≤ A.ny) (hA1 : b1 ≤ A.nx) (hB0 : p + b0 ≤ B.ny) (hB1 : q + b1 ≤ B.nx) :
    Agree (w.iterate n A) (w.iterate n B) p q (a0 + n * w.before0) (b0 - n * w.after0) (a1 + n * w.before1) (b1 - n * w.after1) := by
  induction n generalizing A B a0 b0 a1 b1 with
  | zero =>
    rw [Nat.zero_mul, Nat.zero_mul, Nat.zero_mul, Nat.zero_mul]
    exact h
  | succ n ih =>
    have := ih (w.apply A) (w.apply B) _ _ _ _ (fo_apply_agree w A B p q a0 b0 a1 b1 h hA0 hA1 hB0 hB1)
      (show _ ≤ A.ny by omega) (show _ ≤ A.nx by omega) (show _ ≤ B.ny by omega) (show _ ≤ B.nx by omega)
    intro j i h1 h2 h3 h4
    have s1 : (n + 1) * w.before0 = n * w.before0 + w.before0 := by ring
    have s2 : (n + 1) * w.after0 = n * w.after0 + w.after0 := by ring
    have s3 : (n + 1) * w.before1 = n * w.before1 + w.before1 := by ring
    have s4 : (n + 1) * w.after1 = n * w.after1 + w.after1 := by ring
    exact this j i (by omega) (by omega) (by omega) (by omega)

theorem fo_median_good {α : Type} (w : Window α) (n : Nat) (F : VField α) (hF : GoodField F) (vz : Vz α)
    (hvz : VzOnGrid F.x F.y vz) :
    GoodField ({ F with vx := w.iterate n F.vx, vy := w.iterate n F.vy, vz := vz } : VField α) := by
  have s := hF.shaped
  have i1 := fo_iterate_shape w n F.vx
  have i2 := fo_iterate_shape w n F.vy
  exact ⟨⟨⟨i1.1.trans s.vx.1, i1.2.trans s.vx.2⟩, ⟨i2.1.trans s.vy.1, i2.2.trans s.vy.2⟩, hvz, s.z⟩, hF.xAsc, hF.yAsc, hF.x2, hF.y2⟩

theorem fo_vz_good {α : Type} (w : Window α) (n : Nat) (x y : List ℚ) (vz : Vz α) (h : VzOnGrid x y vz) :
    VzOnGrid x y (filterVz w n vz) := by
  cases vz with
  | num v => trivial
  | arr im => exact ⟨(fo_iterate_shape w n im).1.trans h.1, (fo_iterate_shape w n im).2.trans h.2⟩

theorem fo_extract_valid {α : Type} (R : VField α) (hR : GoodField R) (ny nx mf : Nat) (hy : ny = R.y.length)
    (hx : nx = R.x.length) (h0 : 2 * mf ≤ ny) (h1 : 2 * mf ≤ nx) :
    Restriction R (extract R mf ((ny : Int) - mf) mf ((nx : Int) - mf)) mf (ny - mf) mf (nx - mf) := by
  rw [← Nat.cast_sub (by omega), ← Nat.cast_sub (by omega)]
  exact extract_restriction R hR mf (ny - mf) mf (nx - mf) (by omega) (by omega) (by omega) (by omega)

/-- Median filter, one iteration, `valid=True`: the result is on the points at the distance `max(size) // 2` of the borders;
each value is the median of the values in the window around the point; the window is in the field. -/
theorem C90_median {α : Type} (med : List α → α) (F : VField α) (hF : GoodField F) (s0 s1 : Nat) (hs0 : 1 ≤ s0) (hs1 : 1 ≤ s1)
    (h0 : 2 * (max s0 s1 / 2) ≤ F.y.length) (h1 : 2 * (max s0 s1 / 2) ≤ F.x.length) :
    ∃ R H, medianFilter med F s0 s1 1 true = H ∧
      Restriction R H (max s0 s1 / 2) (F.y.length - max s0 s1 / 2) (max s0 s1 / 2) (F.x.length - max s0 s1 / 2)
      ∧ R.x = F.x ∧ R.y = F.y ∧ R.z = F.z
      ∧ ∀ j i, max s0 s1 / 2 ≤ j → j < F.y.length - max s0 s1 / 2 → max s0 s1 / 2 ≤ i → i < F.x.length - max s0 s1 / 2 →
        (s0 / 2 ≤ j ∧ j + (s0 - 1 - s0 / 2) < F.y.length ∧ s1 / 2 ≤ i ∧ i + (s1 - 1 - s1 / 2) < F.x.length)
        ∧ R.vx.get j i = med (windowValues F.vx j i (s0 / 2) (s0 - 1 - s0 / 2) (s1 / 2) (s1 - 1 - s1 / 2))
        ∧ R.vy.get j i = med (windowValues F.vy j i (s0 / 2) (s0 - 1 - s0 / 2) (s1 / 2) (s1 - 1 - s1 / 2))
        ∧ (∀ im, F.vz = .arr im →
          vzAt R.vz j i = med (windowValues im j i (s0 / 2) (s0 - 1 - s0 / 2) (s1 / 2) (s1 - 1 - s1 / 2)))
        ∧ (∀ v, F.vz = .num v → vzAt R.vz j i = v) := by
  have s := hF.shaped
  have g := fo_median_good (medianWindow med s0 s1) 1 F hF _ (fo_vz_good (medianWindow med s0 s1) 1 F.x F.y F.vz s.vz)
  refine ⟨({ F with
      vx := (medianWindow med s0 s1).iterate 1 F.vx
      vy := (medianWindow med s0 s1).iterate 1 F.vy
      vz := filterVz (medianWindow med s0 s1) 1 F.vz } : VField α), _, rfl, ?_, rfl, rfl, rfl, ?_⟩
  · unfold medianFilter
    simp only [if_true]
    rw [s.vx.1, s.vx.2]
    exact fo_extract_valid _ g F.y.length F.x.length (max s0 s1 / 2) rfl rfl h0 h1
  · intro j i a1 a2 a3 a4
    have m0 : s0 ≤ max s0 s1 := le_max_left _ _
    have m1 : s1 ≤ max s0 s1 := le_max_right _ _
    have b1 : s0 / 2 ≤ j := by omega
    have b2 : j + (s0 - 1 - s0 / 2) < F.y.length := by omega
    have b3 : s1 / 2 ≤ i := by omega
    have b4 : i + (s1 - 1 - s1 / 2) < F.x.length := by omega
    refine ⟨⟨b1, b2, b3, b4⟩, ?_, ?_, ?_, ?_⟩
    · exact fo_apply_in (medianWindow med s0 s1) F.vx j i b1 (by rw [s.vx.1]; exact b2) b3 (by rw [s.vx.2]; exact b4)
    · exact fo_apply_in (medianWindow med s0 s1) F.vy j i b1 (by rw [s.vy.1]; exact b2) b3 (by rw [s.vy.2]; exact b4)
    · intro im him
      have sz := s.vz
      rw [him] at sz
      simp only [him, filterVz, vzAt]
      exact fo_apply_in (medianWindow med s0 s1) im j i b1 (by rw [sz.1]; exact b2) b3 (by rw [sz.2]; exact b4)
    · intro v hv
      simp only [hv, filterVz, vzAt]

/-- Non-vacuity: a window of 3 by 3 in a field of 3 by 5. -/
example : ∃ R H, medianFilter medianQ (stripes 1 5) 3 3 1 true = H ∧ Restriction R H 1 2 1 4 := by
  obtain ⟨R, H, h, hr, _⟩ := C90_median medianQ (stripes 1 5)
    ⟨⟨⟨rfl, rfl⟩, ⟨rfl, rfl⟩, trivial, trivial⟩, by decide +kernel, by decide +kernel, by decide, by decide⟩ 3 3 (by decide)
    (by decide) (by decide) (by decide)
  exact ⟨R, H, h, hr⟩

/-- The index which is read in place of `k` when `n` values are extended by symmetry on both sides (the values at the edges are repeated). -/
def mirrored (n : Nat) (k : Int) : Int := if k < 0 then -1 - k else if k < n then k else 2 * n - 1 - k

theorem fo_reflect (n : Nat) (k : Int) (h0 : -(n : Int) ≤ k) (h1 : k < 2 * n) : (reflect n k : Int) = mirrored n k := by
  unfold reflect mirrored
  by_cases hk : k < 0
  · have e : k % ((2 * n : Nat) : Int) = k + 2 * n := by
      rw [show k = (k + 2 * n) + ((2 * n : Nat) : Int) * (-1) by push_cast; ring, Int.add_mul_emod_self_left]
      rw [Int.emod_eq_of_lt (by omega) (by push_cast; omega)]
      push_cast; ring
    simp only [e, hk, if_true]
    split_ifs <;> omega
  · have e : k % ((2 * n : Nat) : Int) = k := Int.emod_eq_of_lt (by omega) (by push_cast; omega)
    simp only [e, hk, if_false]
    split_ifs <;> omega

/-- The values of the `a0` lines before `j`, of `j` and of the `b0` lines after, in the columns around `i`, of the array extended by symmetry. -/
def mirroredValues {α : Type} (im : Img α) (j i a0 b0 a1 b1 : Nat) : List α :=
  (List.range (a0 + b0 + 1)).flatMap fun (a : Nat) => (List.range (a1 + b1 + 1)).map fun (b : Nat) =>
    im.get (mirrored im.ny ((j : Int) - a0 + a)).toNat (mirrored im.nx ((i : Int) - a1 + b)).toNat

theorem fo_apply_mirrored {α : Type} (w : Window α) (im : Img α) (j i : Nat) (hj : j < im.ny) (hi : i < im.nx) (h0 : w.before0 ≤ im.ny)
    (h1 : w.after0 ≤ im.ny) (h2 : w.before1 ≤ im.nx) (h3 : w.after1 ≤ im.nx) :
    (w.apply im).get j i = w.agg (mirroredValues im j i w.before0 w.after0 w.before1 w.after1) := by
  show w.agg _ = _
  congr 1
  unfold Window.offsets mirroredValues
  rw [List.map_flatMap]
  have hf : ∀ {β γ : Type} (l : List β) (f g : β → List γ), (∀ a ∈ l, f a = g a) → l.flatMap f = l.flatMap g := by
    intro β γ l f g h
    induction l with
    | nil => rfl
    | cons a l ih => rw [List.flatMap_cons, List.flatMap_cons, h a (by simp), ih (fun b hb => h b (by simp [hb]))]
  refine hf _ _ _ fun a ha => ?_
  rw [List.map_map]
  refine List.map_congr_left fun b hb => ?_
  have ha := List.mem_range.1 ha
  have hb := List.mem_range.1 hb
  have e0 := fo_reflect im.ny ((j : Int) + ((a : Int) - w.before0)) (by omega) (by omega)
  have e1 := fo_reflect im.nx ((i : Int) + ((b : Int) - w.before1)) (by omega) (by omega)
  show im.get (reflect im.ny ((j : Int) + ((a : Int) - w.before0))) (reflect im.nx ((i : Int) + ((b : Int) - w.before1))) = _
  rw [show (j : Int) - w.before0 + a = (j : Int) + ((a : Int) - w.before0) by ring,
    show (i : Int) - w.before1 + b = (i : Int) + ((b : Int) - w.before1) by ring, ← e0, ← e1]
  rfl

/-- Median filter, one iteration, `valid=False`: at all the points (also near the borders) each value is the median of the values in the
window around the point, for the field extended by symmetry. -/
theorem C90_border {α : Type} (med : List α → α) (F : VField α) (hF : GoodField F) (s0 s1 : Nat) (hs0 : 1 ≤ s0) (hs1 : 1 ≤ s1)
    (h0 : s0 ≤ F.y.length) (h1 : s1 ≤ F.x.length) (j i : Nat) (hj : j < F.y.length) (hi : i < F.x.length) :
    (medianFilter med F s0 s1 1 false).vx.get j i = med (mirroredValues F.vx j i (s0 / 2) (s0 - 1 - s0 / 2) (s1 / 2) (s1 - 1 - s1 / 2))
    ∧ (medianFilter med F s0 s1 1 false).vy.get j i = med (mirroredValues F.vy j i (s0 / 2) (s0 - 1 - s0 / 2) (s1 / 2) (s1 - 1 - s1 / 2)) := by
  have s := hF.shaped
  constructor
  · exact fo_apply_mirrored (medianWindow med s0 s1) F.vx j i (by rw [s.vx.1]; exact hj) (by rw [s.vx.2]; exact hi)
      (by rw [s.vx.1]; show s0 / 2 ≤ _; omega) (by rw [s.vx.1]; show s0 - 1 - s0 / 2 ≤ _; omega)
      (by rw [s.vx.2]; show s1 / 2 ≤ _; omega) (by rw [s.vx.2]; show s1 - 1 - s1 / 2 ≤ _; omega)
  · exact fo_apply_mirrored (medianWindow med s0 s1) F.vy j i (by rw [s.vy.1]; exact hj) (by rw [s.vy.2]; exact hi)
      (by rw [s.vy.1]; show s0 / 2 ≤ _; omega) (by rw [s.vy.1]; show s0 - 1 - s0 / 2 ≤ _; omega)
      (by rw [s.vy.2]; show s1 / 2 ≤ _; omega) (by rw [s.vy.2]; show s1 - 1 - s1 / 2 ≤ _; omega)

/-- The corner of a field of 3 lines and 5 columns: the columns which are read are 0, 0, 1. -/
example : (medianFilter List.sum (stripes 1 5) 1 3 1 false).vx.get 0 0 = 5 := by
  rw [(C90_border List.sum (stripes 1 5)
    ⟨⟨⟨rfl, rfl⟩, ⟨rfl, rfl⟩, trivial, trivial⟩, by decide +kernel, by decide +kernel, by decide, by decide⟩ 1 3 (by decide) (by decide)
    (by decide) (by decide) 0 0 (by decide) (by decide)).1]
  decide +kernel

/-- `F` is a part of the field `G`: its components are those of `G` from the line `p` and the column `q`. -/
def PartOf {α : Type} (F G : VField α) (p q : Nat) : Prop :=
  p + F.y.length ≤ G.y.length ∧ q + F.x.length ≤ G.x.length
  ∧ (∀ j i, j < F.y.length → i < F.x.length → F.vx.get j i = G.vx.get (p + j) (q + i) ∧ F.vy.get j i = G.vy.get (p + j) (q + i))

/-- Repeated filters: a part of a field filtered `niter` times is the same as the part of the filtered field, at the
points whose distance to the borders is at least `niter` times the half-width of the window. -/
theorem C90_iterated {α : Type} (med : List α → α) (F G : VField α) (hF : GoodField F) (hG : GoodField G) (p q : Nat)
    (h : PartOf F G p q) (s0 s1 niter : Nat) (hs0 : 1 ≤ s0) (hs1 : 1 ≤ s1) (j i : Nat)
    (hj : niter * (s0 / 2) ≤ j) (hj' : j + niter * (s0 / 2) < F.y.length)
    (hi : niter * (s1 / 2) ≤ i) (hi' : i + niter * (s1 / 2) < F.x.length) :
    (medianFilter med F s0 s1 niter false).vx.get j i = (medianFilter med G s0 s1 niter false).vx.get (p + j) (q + i)
    ∧ (medianFilter med F s0 s1 niter false).vy.get j i = (medianFilter med G s0 s1 niter false).vy.get (p + j) (q + i) := by
  have s := hF.shaped
  have t := hG.shaped
  obtain ⟨h0, h1, hv⟩ := h
  have k0 : niter * (s0 - 1 - s0 / 2) ≤ niter * (s0 / 2) := Nat.mul_le_mul_left _ (by omega)
  have k1 : niter * (s1 - 1 - s1 / 2) ≤ niter * (s1 / 2) := Nat.mul_le_mul_left _ (by omega)
  constructor
  · have := fo_iterate_agree (medianWindow med s0 s1) niter F.vx G.vx p q 0 F.y.length 0 F.x.length
      (fun j i _ h2 _ h4 => (hv j i h2 h4).1) (by rw [s.vx.1]) (by rw [s.vx.2]) (by rw [t.vx.1]; exact h0)
      (by rw [t.vx.2]; exact h1)
    exact this j i (by simpa [medianWindow] using hj) (by simp only [medianWindow]; omega)
      (by simpa [medianWindow] using hi) (by simp only [medianWindow]; omega)
  · have := fo_iterate_agree (medianWindow med s0 s1) niter F.vy G.vy p q 0 F.y.length 0 F.x.length
      (fun j i _ h2 _ h4 => (hv j i h2 h4).2) (by rw [s.vy.1]) (by rw [s.vy.2]) (by rw [t.vy.1]; exact h0)
      (by rw [t.vy.2]; exact h1)
    exact this j i (by simpa [medianWindow] using hj) (by simp only [medianWindow]; omega)
      (by simpa [medianWindow] using hi) (by simp only [medianWindow]; omega)

/-- Two iterations: `valid=True` removes the same points as for one iteration, and values which depend on the values invented
beyond the border are kept. -/
theorem C90_iterations_fails :
    PartOf (stripes 1 5) (stripes 0 7) 0 1
    ∧ (medianFilter medianQ (stripes 1 5) 1 3 2 true).vx.nx = 3
    ∧ (medianFilter medianQ (stripes 1 5) 1 3 2 true).vx.get 0 0 = 0
    ∧ (medianFilter medianQ (stripes 0 7) 1 3 2 false).vx.get 1 2 = 5 := by
  refine ⟨⟨by decide, by decide, ?_⟩, by decide +kernel, by decide +kernel, by decide +kernel⟩
  intro j i _ _
  simp only [stripes]
  refine ⟨?_, trivial⟩
  rw [show i + 1 = 1 + i + 0 by omega]

/-- The window of the Gaussian filter reaches `truncate * sigma`, rounded to the nearest whole number of points. -/
theorem C90_gaussian_radius (truncate sigma : ℚ) (ht : 0 ≤ truncate) (hs : 0 ≤ sigma) :
    |(gaussianRadius truncate sigma : ℚ) - truncate * sigma| ≤ 1 / 2 := by
  unfold gaussianRadius
  have h0 : 0 ≤ truncate * sigma := mul_nonneg ht hs
  have h1 : 0 ≤ ⌊truncate * sigma + 1 / 2⌋ := Int.floor_nonneg.2 (by linarith)
  have e : ((⌊truncate * sigma + 1 / 2⌋.toNat : ℕ) : ℚ) = ((⌊truncate * sigma + 1 / 2⌋ : ℤ) : ℚ) := by
    have := Int.toNat_of_nonneg h1
    exact_mod_cast this
  rw [e, abs_le]
  have h2 := Int.floor_le (truncate * sigma + 1 / 2)
  have h3 := Int.lt_floor_add_one (truncate * sigma + 1 / 2)
  constructor <;> linarith

example : gaussianRadius 3 (1 / 2) = 2 := by decide +kernel

/-- Gaussian filter, one iteration, `valid=True`: each value of `vx` and `vy` is the weighted sum of the values in the window
around the point, and the window is in the field. -/
theorem C90_gaussian_partial {α : Type} (wsum : List α → α) (F : VField α) (hF : GoodField F) (truncate sigma0 sigma1 : ℚ)
    (ht : 0 ≤ truncate) (mf r0 r1 : Nat) (hmf : mf = gaussianRadius truncate (max sigma0 sigma1))
    (hr0 : r0 = gaussianRadius truncate sigma0) (hr1 : r1 = gaussianRadius truncate sigma1)
    (h0 : 2 * mf ≤ F.y.length) (h1 : 2 * mf ≤ F.x.length) :
    ∃ R H, gaussianFilter wsum F truncate sigma0 sigma1 1 true = H
      ∧ Restriction R H mf (F.y.length - mf) mf (F.x.length - mf)
      ∧ R.x = F.x ∧ R.y = F.y ∧ R.z = F.z ∧ R.vz = F.vz
      ∧ ∀ j i, mf ≤ j → j < F.y.length - mf → mf ≤ i → i < F.x.length - mf →
        (r0 ≤ j ∧ j + r0 < F.y.length ∧ r1 ≤ i ∧ i + r1 < F.x.length)
        ∧ R.vx.get j i = wsum (windowValues F.vx j i r0 r0 r1 r1) ∧ R.vy.get j i = wsum (windowValues F.vy j i r0 r0 r1 r1) := by
  have s := hF.shaped
  have g := fo_median_good (gaussianWindow wsum truncate sigma0 sigma1) 1 F hF F.vz s.vz
  have mono : ∀ a b : ℚ, a ≤ b → gaussianRadius truncate a ≤ gaussianRadius truncate b := by
    intro a b hab
    unfold gaussianRadius
    apply Int.toNat_le_toNat
    apply Int.floor_le_floor
    have := mul_le_mul_of_nonneg_left hab ht
    linarith
  have m0 : r0 ≤ mf := by rw [hr0, hmf]; exact mono _ _ (le_max_left _ _)
  have m1 : r1 ≤ mf := by rw [hr1, hmf]; exact mono _ _ (le_max_right _ _)
  have e : (2 * gaussianRadius truncate (max sigma0 sigma1) + 1) / 2 = mf := by omega
  refine ⟨({ F with
      vx := (gaussianWindow wsum truncate sigma0 sigma1).iterate 1 F.vx
      vy := (gaussianWindow wsum truncate sigma0 sigma1).iterate 1 F.vy } : VField α), _, rfl, ?_, rfl, rfl, rfl, rfl, ?_⟩
  · unfold gaussianFilter
    simp only [if_true]
    rw [s.vx.1, s.vx.2, e]
    exact fo_extract_valid _ g F.y.length F.x.length mf rfl rfl h0 h1
  · intro j i a1 a2 a3 a4
    have b1 : r0 ≤ j := by omega
    have b2 : j + r0 < F.y.length := by omega
    have b3 : r1 ≤ i := by omega
    have b4 : i + r1 < F.x.length := by omega
    refine ⟨⟨b1, b2, b3, b4⟩, ?_, ?_⟩
    · subst hr0 hr1
      exact fo_apply_in (gaussianWindow wsum truncate sigma0 sigma1) F.vx j i b1 (by rw [s.vx.1]; exact b2) b3
        (by rw [s.vx.2]; exact b4)
    · subst hr0 hr1
      exact fo_apply_in (gaussianWindow wsum truncate sigma0 sigma1) F.vy j i b1 (by rw [s.vy.1]; exact b2) b3
        (by rw [s.vy.2]; exact b4)

/-- The component `vz` is not filtered by the Gaussian filter: for a field with `vz = vx`, the result has `vz ≠ vx`. -/
theorem C90_gaussian_vz_fails : ∃ F : VField ℚ, GoodField F ∧ F.vz = .arr F.vx
    ∧ ∃ j i, vzAt (gaussianFilter (fun l => l.sum / 9) F 1 1 1 1 true).vz j i
      ≠ (gaussianFilter (fun l => l.sum / 9) F 1 1 1 1 true).vx.get j i := by
  refine ⟨⟨[0, 1, 2], [0, 1, 2], .num 0, ⟨3, 3, fun j i => if j = 1 ∧ i = 1 then 9 else 0⟩, ⟨3, 3, fun _ _ => 0⟩,
    .arr ⟨3, 3, fun j i => if j = 1 ∧ i = 1 then 9 else 0⟩, none, true⟩,
    ⟨⟨⟨rfl, rfl⟩, ⟨rfl, rfl⟩, ⟨rfl, rfl⟩, trivial⟩, by decide +kernel, by decide +kernel, by decide, by decide⟩, rfl, 0, 0, ?_⟩
  decide +kernel

/-! ## C91: functions of the space and of the time -/

/-- When the function returns a new array: each field of the result has the components given by the function and everything else is as
before. -/
theorem C91_new_array_partial {α : Type} (g : List (Img α) → List (Img α)) (after : List (Img α) → List (Img α))
    (L : List (VField α)) (hL : L ≠ []) (hg : ∀ l, l.length = L.length → (g l).length = L.length) :
    ∃ R, applySpatiotemp (fun b => ⟨after b, some (g b)⟩) L = .ok R ∧ R.length = L.length
      ∧ ∀ (k : Nat) F H, L[k]? = some F → R[k]? = some H →
        (g (L.map fun G => G.vx))[k]? = some H.vx ∧ (g (L.map fun G => G.vy))[k]? = some H.vy
        ∧ H = { F with vx := H.vx, vy := H.vy } := by
  have key : ∀ (L : List (VField α)) (A B : List (Img α)), A.length = L.length → B.length = L.length →
      ∃ R, setComponents L A B = .ok R ∧ R.length = L.length ∧ ∀ (k : Nat) F H, L[k]? = some F → R[k]? = some H →
        A[k]? = some H.vx ∧ B[k]? = some H.vy ∧ H = { F with vx := H.vx, vy := H.vy } := by
    intro L
    induction L with
    | nil => exact fun A B _ _ => ⟨[], rfl, rfl, fun k F H h _ => by simp at h⟩
    | cons F L ih =>
      intro A B hA hB
      match A, B, hA, hB with
      | a :: A, b :: B, hA, hB =>
        obtain ⟨R, hR, hlen, hk⟩ := ih A B (by simpa using hA) (by simpa using hB)
        refine ⟨{ F with vx := a, vy := b } :: R, by simp only [setComponents, hR], by simp [hlen], ?_⟩
        intro k F' H h1 h2
        cases k with
        | zero =>
          simp only [List.getElem?_cons_zero, Option.some.injEq] at h1 h2 ⊢
          subst h1 h2
          exact ⟨rfl, rfl, rfl⟩
        | succ k =>
          simp only [List.getElem?_cons_succ] at h1 h2 ⊢
          exact hk k F' H h1 h2
  match L, hL with
  | F :: l, _ =>
    exact key (F :: l) (g ((F :: l).map fun G => G.vx)) (g ((F :: l).map fun G => G.vy)) (hg _ (by simp)) (hg _ (by simp))

/-- Non-vacuity: the function which doubles the values, in a new array. -/
example : ∃ R, applySpatiotemp (fun b => ⟨b, some (b.map (mapImg (fun v => 2 * v)))⟩) [fieldExample, fieldExample] = .ok R
    ∧ R.length = 2 := by
  obtain ⟨R, h, hl, _⟩ := C91_new_array_partial (fun b => b.map (mapImg (fun v => 2 * v))) (fun b => b)
    [fieldExample, fieldExample] (by simp) (by simp)
  exact ⟨R, h, hl⟩

/-- When the function modifies its argument and returns it (or returns a part of its argument): the component `vx` of each
field of the result is the component `vy`. -/
theorem C91_in_place_fails {α : Type} (g : List (Img α) → List (Img α)) (L R : List (VField α))
    (h : applySpatiotemp (fun b => ⟨g b, none⟩) L = .ok R) : ∀ F ∈ R, F.vx = F.vy := by
  have key : ∀ (L : List (VField α)) (A : List (Img α)) (R : List (VField α)), setComponents L A A = .ok R →
      ∀ F ∈ R, F.vx = F.vy := by
    intro L
    induction L with
    | nil =>
      intro A R h
      simp only [setComponents, Except.ok.injEq] at h
      subst h
      simp
    | cons F L ih =>
      intro A R h
      match A with
      | [] => simp [setComponents] at h
      | a :: A =>
        simp only [setComponents] at h
        cases hc : setComponents L A A with
        | error e => rw [hc] at h; cases h
        | ok R' =>
          rw [hc] at h
          simp only [Except.ok.injEq] at h
          subst h
          intro F' hF'
          rcases List.mem_cons.1 hF' with rfl | hF'
          · rfl
          · exact ih A R' hc F' hF'
  match L with
  | [] => simp [applySpatiotemp] at h
  | F :: l => exact key (F :: l) _ R h

/-- Non-vacuity: the identity, applied to one field with `vx ≠ vy`, gives a field with `vx = vy`. -/
example : ∃ R : List (VField ℚ), applySpatiotemp (fun b => ⟨b, none⟩) [fieldExample] = .ok R
    ∧ fieldExample.vx.get 0 1 = 10 ∧ ∀ F ∈ R, F.vx.get 0 1 = 0 := by
  refine ⟨[{ fieldExample with vx := fieldExample.vy }], rfl, by decide +kernel, ?_⟩
  intro F hF
  rw [List.mem_singleton] at hF
  subst hF
  decide +kernel

/-! ## C92: files -/

theorem fo_getDs {α : Type} (d : List (String × Ds α)) (n : String) (v : Ds α) (a : Option (Option (List Char)))
    (p : Option (List Char)) (h : d.lookup n = some v) : getDs ⟨d, a, p⟩ n = .ok v := by
  simp only [getDs, h]

theorem fo_fromFile {α : Type} (vx vy : Img α) (vzd zd : Ds α) (x y : List ℚ) (z : Zc) (vz : Vz α) (b : Bool)
    (labels : Option (List Char)) (p : Option (List Char)) (hz : asZ zd = .ok z) (hvz : asVz vzd = .ok (vz, b)) :
    fromFile ⟨[("vx", Ds.arr vx), ("vy", Ds.arr vy), ("vz", vzd), ("x", Ds.vec x), ("y", Ds.vec y), ("z", zd)], some labels, p⟩
      = match mkField x y z vx vy vz labels with
        | .error e => .error e
        | .ok F => .ok ⟨F, b, p⟩ := by
  unfold fromFile
  rw [fo_getDs _ "vx" (Ds.arr vx) _ _ (by rfl), fo_getDs _ "vy" (Ds.arr vy) _ _ (by rfl), fo_getDs _ "vz" vzd _ _ (by rfl),
    fo_getDs _ "x" (Ds.vec x) _ _ (by rfl), fo_getDs _ "y" (Ds.vec y) _ _ (by rfl), fo_getDs _ "z" zd _ _ (by rfl)]
  simp only [Except.bind, asArr, asVec, hvz, hz]
  cases mkField x y z vx vy vz labels <;> rfl

/-- A field on ascending coordinates with a `z` is saved and loaded with the same coordinates, components, names and
parameters. -/
theorem C92_round_trip_partial {α : Type} (o : Obj α) (hF : GoodField o.F) (hz : o.F.z ≠ .absent)
    (params : Option (List Char)) :
    ∃ file o', save o params = (file, none) ∧ fromFile file = .ok o'
      ∧ o'.F.x = o.F.x ∧ o'.F.y = o.F.y ∧ o'.F.z = o.F.z ∧ o'.F.vx = o.F.vx ∧ o'.F.vy = o.F.vy ∧ o'.F.vz = o.F.vz
      ∧ o'.F.labels = o.F.labels ∧ gridRegular o.F.x o.F.y o.F.z o.F.vx = .ok o'.F.regular
      ∧ (∀ p, params = some p → o'.params = some p) ∧ (params = none → o'.params = o.params) := by
  have main : ∀ (zd : Ds α), asZ zd = .ok o.F.z → ∃ o', fromFile
      (⟨[("vx", Ds.arr o.F.vx), ("vy", Ds.arr o.F.vy), ("vz", vzDs o.F.vz), ("x", Ds.vec o.F.x), ("y", Ds.vec o.F.y)] ++ [("z", zd)],
        some o.F.labels, match params with
          | some p => some p
          | none => o.params⟩ : H5 α) = .ok o'
      ∧ o'.F.x = o.F.x ∧ o'.F.y = o.F.y ∧ o'.F.z = o.F.z ∧ o'.F.vx = o.F.vx ∧ o'.F.vy = o.F.vy ∧ o'.F.vz = o.F.vz
      ∧ o'.F.labels = o.F.labels ∧ gridRegular o.F.x o.F.y o.F.z o.F.vx = .ok o'.F.regular
      ∧ (∀ p, params = some p → o'.params = some p) ∧ (params = none → o'.params = o.params) := by
    intro zd hzd
    obtain ⟨r, hr⟩ := mkField_asc o.F.x o.F.y o.F.z o.F.vx o.F.vy o.F.vz o.F.labels hF.xAsc hF.yAsc hF.x2 hF.y2
    have hreg : gridRegular o.F.x o.F.y o.F.z o.F.vx = .ok r := by
      obtain ⟨r', hr'⟩ := gridRegular_ok o.F.x o.F.y o.F.z o.F.vx hF.x2 hF.y2
      have := hr
      unfold mkField at this
      simp only [descending_asc o.F.x hF.xAsc hF.x2, descending_asc o.F.y hF.yAsc hF.y2, Bool.false_eq_true, if_false, hr',
        Except.ok.injEq, VField.mk.injEq, true_and] at this
      rw [hr', this]
    have hvz : ∃ b, asVz (vzDs o.F.vz) = .ok (o.F.vz, b) := by
      cases o.F.vz with
      | num v => exact ⟨true, rfl⟩
      | arr im => exact ⟨false, rfl⟩
    obtain ⟨b, hb⟩ := hvz
    refine ⟨⟨⟨o.F.x, o.F.y, o.F.z, o.F.vx, o.F.vy, o.F.vz, o.F.labels, r⟩, b, match params with
          | some p => some p
          | none => o.params⟩, ?_, rfl, rfl, rfl, rfl, rfl, rfl, rfl, hreg, ?_, ?_⟩
    · refine (fo_fromFile o.F.vx o.F.vy (vzDs o.F.vz) zd o.F.x o.F.y o.F.z o.F.vz b o.F.labels _ hzd hb).trans ?_
      rw [hr]
    · intro p hp; rw [hp]
    · intro hp; rw [hp]
  unfold save
  cases hc : o.F.z with
  | absent => exact absurd hc hz
  | num q =>
    obtain ⟨o', h⟩ := main (.coord q) (by rw [hc]; rfl)
    rw [hc] at h
    exact ⟨_, o', rfl, h⟩
  | surf im =>
    obtain ⟨o', h⟩ := main (.surf im) (by rw [hc]; rfl)
    rw [hc] at h
    exact ⟨_, o', rfl, h⟩

/-- A field without `z` (as those made from the files of PIV) cannot be saved: an exception is raised, a file is left on the disk,
and it cannot be loaded. -/
theorem C92_without_z_fails {α : Type} (o : Obj α) (hz : o.F.z = .absent) (params : Option (List Char)) :
    ∃ file, save o params = (file, some .typeError) ∧ file.ds.length = 5 ∧ fromFile file = .error .keyError := by
  refine ⟨⟨[("vx", Ds.arr o.F.vx), ("vy", Ds.arr o.F.vy), ("vz", vzDs o.F.vz), ("x", Ds.vec o.F.x), ("y", Ds.vec o.F.y)], none, none⟩,
    ?_, ?_, ?_⟩
  · unfold save; rw [hz]
  · rfl
  · have hvz : ∃ b, asVz (vzDs o.F.vz) = .ok b := by
      cases o.F.vz with
      | num v => exact ⟨_, rfl⟩
      | arr im => exact ⟨_, rfl⟩
    obtain ⟨b, hb⟩ := hvz
    unfold fromFile
    rw [fo_getDs _ "vx" (Ds.arr o.F.vx) _ _ (by rfl), fo_getDs _ "vy" (Ds.arr o.F.vy) _ _ (by rfl), fo_getDs _ "vz" (vzDs o.F.vz) _ _ (by rfl),
      fo_getDs _ "x" (Ds.vec o.F.x) _ _ (by rfl), fo_getDs _ "y" (Ds.vec o.F.y) _ _ (by rfl)]
    simp only [Except.bind, asArr, asVec, hb]
    rfl

/-- A field whose `vz` is a number (the default): after a save and a load, `median_filter` raises an exception, and so does
`regularize_grid` on an irregular grid, although they work on the original field. -/
theorem C92_number_vz_fails : ∃ (o o' : Obj ℚ) (file : H5 ℚ), GoodField o.F ∧ o.zeroD = false
    ∧ save o none = (file, none) ∧ fromFile file = .ok o'
    ∧ (∃ H, medianObj medianQ o 1 1 1 true = .ok H) ∧ medianObj medianQ o' 1 1 1 true = .error .runtimeError
    ∧ (∃ H, regularizeObj o = .ok H ∧ H.regular = true) ∧ regularizeObj o' = .error .notImplementedError := by
  have hg : GoodField ({ fieldExample with z := .num 0 } : VField ℚ) :=
    ⟨⟨fieldExample_good.shaped.vx, fieldExample_good.shaped.vy, trivial, trivial⟩, fieldExample_good.xAsc, fieldExample_good.yAsc,
      fieldExample_good.x2, fieldExample_good.y2⟩
  have a0 : isRegular [1, 2, 4] = .ok false := by decide +kernel
  have a1 : isRegular [1, 2] = .ok true := by decide +kernel
  have a2 : isRegular [0, 5] = .ok true := by decide +kernel
  refine ⟨⟨{ fieldExample with z := .num 0 }, false, none⟩, ⟨{ fieldExample with z := .num 0 }, true, none⟩, _, hg, rfl, rfl, ?_,
    ⟨_, rfl⟩, rfl, ?_, rfl⟩
  · have h1 : descending fieldExample.x = .ok false := descending_asc _ fieldExample_good.xAsc fieldExample_good.x2
    have h2 : descending fieldExample.y = .ok false := descending_asc _ fieldExample_good.yAsc fieldExample_good.y2
    have h3 : mkField fieldExample.x fieldExample.y (.num 0) fieldExample.vx fieldExample.vy fieldExample.vz none
        = .ok { fieldExample with z := .num 0 } := by
      unfold mkField
      rw [h1, h2]
      simp only [Bool.false_eq_true, if_false]
      unfold gridRegular
      simp only [fieldExample]
      rw [a0]
    refine (fo_fromFile fieldExample.vx fieldExample.vy (vzDs fieldExample.vz) (.coord 0) fieldExample.x fieldExample.y (.num 0)
      fieldExample.vz true none none rfl rfl).trans ?_
    rw [h3]
  · refine ⟨{ cutX { fieldExample with z := .num 0 } with regular := true }, ?_, rfl⟩
    unfold regularizeObj
    simp only [fieldExample, Bool.false_eq_true, if_false]
    unfold regularizeGrid onlyLastIrregular
    simp only [Bool.false_eq_true, if_false, vzIsArr, zIsSurf, a0, List.dropLast, a1, if_true, cutX, a2, gridRegular, zRegular,
      Bool.and_self]

end Verif
