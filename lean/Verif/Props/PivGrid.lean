import Verif.Props.TimeFormat
import Verif.Model.PivGrid
import Verif.Props.Uvmat
import Mathlib.Tactic.Linarith
import Mathlib.Tactic.FieldSimp
import Mathlib.Tactic.Ring
import Mathlib.Data.List.Nodup

/-!
# PIV grid and interrogation windows (C31, C32, C33)
-/

namespace Verif
open Verif.PivGrid

theorem crop_sum (n : Nat) : cropStart n + cropStop n = n := by
  unfold cropStart cropStop; split <;> omega

theorem pyRange_length (a b s : Int) : (pyRange a b s).length = rangeLen a b s := by simp [pyRange]

theorem pyRange_get (a b s : Int) (i : Nat) (h : i < (pyRange a b s).length) : (pyRange a b s)[i] = a + i * s := by
  simp [pyRange]

/-- The last element of an increasing range. -/
theorem pyRange_last (a b s : Int) (hs : 0 < s) (l : Int) (h : (pyRange a b s).getLast? = some l) :
    a ≤ l ∧ l < b ∧ b ≤ l + s := by
  have hne : pyRange a b s ≠ [] := by intro hc; rw [hc] at h; cases h
  have hmem : l ∈ pyRange a b s := List.mem_of_getLast? h
  obtain ⟨h1, h2, k, hk⟩ := (mem_pyRange_pos a b s l hs).1 hmem
  refine ⟨h1, h2, ?_⟩
  by_contra hc
  have hmem' : l + s ∈ pyRange a b s :=
    (mem_pyRange_pos a b s _ hs).2 ⟨by omega, by omega, k + 1, by rw [hk]; ring⟩
  obtain ⟨i, hi, hi2⟩ := List.getElem_of_mem hmem'
  rw [pyRange_get] at hi2
  rw [List.getLast?_eq_getElem?] at h
  obtain ⟨hlt, h⟩ := List.getElem?_eq_some_iff.1 h
  rw [pyRange_get] at h
  have h3 : (i : Int) ≤ ((pyRange a b s).length - 1 : Nat) := by omega
  have h4 := Int.mul_le_mul_of_nonneg_right h3 (Int.le_of_lt hs)
  omega

theorem gridPositions_cases {len n : Nat} {step : Int} {ps : List Int} (h : gridPositions len n step = .ok ps) :
    ∃ last, (pyRange (cropStart n) (len - cropStop n) step).getLast? = some last ∧
      ((2 * step / 5 < len - cropStop n - last ∧
          ps = pyRange (cropStart n) (len - cropStop n) step ++ [(len : Int) - cropStop n]) ∨
        (len - cropStop n - last ≤ 2 * step / 5 ∧ ps = pyRange (cropStart n) (len - cropStop n) step)) := by
  unfold gridPositions at h
  simp only at h
  split at h
  · cases h
  · rename_i last hl
    refine ⟨last, hl, ?_⟩
    split at h
    · rename_i hgt
      injection h with h
      exact Or.inl ⟨hgt, h.symm⟩
    · rename_i hgt
      injection h with h
      exact Or.inr ⟨by omega, h.symm⟩

/-- What the property asks of the positions of the vectors in one direction: `len` pixels, windows of `n` pixels. -/
structure GoodPositions (len n : Nat) (step : Int) (ps : List Int) : Prop where
  /-- there is at least one position, the first one has its window at the beginning of the image -/
  first : ps.head? = some ((n / 2 : Nat) : Int)
  /-- positions increase strictly -/
  increasing : ps.Pairwise (· < ·)
  /-- the window of `n` pixels around each position is in the image: pixels `p - n/2` to `p - n/2 + n - 1` -/
  inside : ∀ p ∈ ps, 0 ≤ p - ((n / 2 : Nat) : Int) ∧ p - ((n / 2 : Nat) : Int) + n ≤ len
  /-- consecutive positions are separated by `step`, except the last ones, which are at least separated by 2/5 step -/
  spacing : ∀ i, (h : i + 1 < ps.length) → (i + 2 < ps.length → ps[i + 1] - ps[i] = step) ∧ ps[i + 1] - ps[i] ≤ step ∧
    (ps[i + 1] - ps[i] < step → 2 * step / 5 < ps[i + 1] - ps[i])
  /-- the number of pixels after the last window is at most the integer part of 2/5 step -/
  margin : ∀ p, ps.getLast? = some p → len - (p - ((n / 2 : Nat) : Int) + n) ≤ 2 * step / 5

theorem gridPositions_good {len n : Nat} {step : Int} {ps : List Int} (hs : 1 ≤ step)
    (h : gridPositions len n step = .ok ps) : GoodPositions len n step ps := by
  obtain ⟨last, hl, hcase⟩ := gridPositions_cases h
  have hs' : 0 < step := by omega
  obtain ⟨l1, l2, l3⟩ := pyRange_last _ _ _ hs' _ hl
  have hcs := crop_sum n
  have hne : pyRange (cropStart n) (len - cropStop n) step ≠ [] := by intro hc; rw [hc] at hl; cases hl
  have hlen : 0 < (pyRange (cropStart n) (len - cropStop n) step).length := List.length_pos_iff.2 hne
  have hstart : cropStart n = n / 2 := rfl
  have hinc : (pyRange (cropStart n) (len - cropStop n) step).Pairwise (· < ·) := by
    rw [List.pairwise_iff_getElem]
    intro i j hi hj hij
    rw [pyRange_get, pyRange_get]
    have : (i : Int) * step < j * step := Int.mul_lt_mul_of_pos_right (by omega) hs'
    omega
  have hin : ∀ p ∈ pyRange (cropStart n) (len - cropStop n) step, (cropStart n : Int) ≤ p ∧ p < len - cropStop n := by
    intro p hp
    obtain ⟨h1, h2, _⟩ := (mem_pyRange_pos _ _ _ _ hs').1 hp
    exact ⟨h1, h2⟩
  have hhead : (pyRange (cropStart n) (len - cropStop n) step).head? = some ((n / 2 : Nat) : Int) := by
    rw [List.head?_eq_getElem?, List.getElem?_eq_getElem hlen, pyRange_get]
    simp [cropStart]
  have hdiff : ∀ i, (hi : i + 1 < (pyRange (cropStart n) (len - cropStop n) step).length) →
      (pyRange (cropStart n) (len - cropStop n) step)[i + 1] - (pyRange (cropStart n) (len - cropStop n) step)[i] = step := by
    intro i hi
    rw [pyRange_get, pyRange_get]
    push_cast
    ring
  have h25 : 2 * step / 5 < step := by omega
  rcases hcase with ⟨hgt, rfl⟩ | ⟨hle, rfl⟩
  · constructor
    · rw [List.head?_append, hhead]; rfl
    · rw [List.pairwise_append]
      refine ⟨hinc, by simp, ?_⟩
      intro a ha b hb
      simp only [List.mem_singleton] at hb
      subst hb
      exact (hin a ha).2
    · intro p hp
      rcases List.mem_append.1 hp with hp | hp
      · have := hin p hp; omega
      · simp only [List.mem_singleton] at hp; omega
    · intro i hi
      rw [List.length_append, List.length_singleton] at hi
      by_cases hi' : i + 1 < (pyRange (cropStart n) (len - cropStop n) step).length
      · have e1 : (pyRange (cropStart n) (len - cropStop n) step ++ [(len : Int) - cropStop n])[i + 1]'(by simp; omega) =
            (pyRange (cropStart n) (len - cropStop n) step)[i + 1] := List.getElem_append_left hi'
        have e2 : (pyRange (cropStart n) (len - cropStop n) step ++ [(len : Int) - cropStop n])[i]'(by simp; omega) =
            (pyRange (cropStart n) (len - cropStop n) step)[i] := List.getElem_append_left (by omega)
        rw [e1, e2, hdiff i hi']
        exact ⟨fun _ => rfl, Int.le_refl _, fun _ => h25⟩
      · have e1 : (pyRange (cropStart n) (len - cropStop n) step ++ [(len : Int) - cropStop n])[i + 1]'(by simp; omega) =
            (len : Int) - cropStop n := by
          rw [List.getElem_append_right (by omega)]; simp
        have e2 : (pyRange (cropStart n) (len - cropStop n) step ++ [(len : Int) - cropStop n])[i]'(by simp; omega) =
            last := by
          rw [List.getElem_append_left (by omega)]
          rw [List.getLast?_eq_getElem?] at hl
          obtain ⟨hlt, hl⟩ := List.getElem?_eq_some_iff.1 hl
          rw [← hl]
          congr 1
          omega
        rw [e1, e2]
        refine ⟨fun hc => ?_, by omega, fun _ => hgt⟩
        rw [List.length_append, List.length_singleton] at hc
        omega
    · intro p hp
      rw [List.getLast?_concat] at hp
      injection hp with hp
      omega
  · constructor
    · exact hhead
    · exact hinc
    · intro p hp
      have := hin p hp
      omega
    · intro i hi
      rw [hdiff i hi]
      exact ⟨fun _ => rfl, Int.le_refl _, fun _ => h25⟩
    · intro p hp
      rw [hl] at hp
      injection hp with hp
      omega

theorem gridPositions_ok {len n : Nat} {step : Int} (hs : 1 ≤ step) (hlen : n < len) :
    ∃ ps, gridPositions len n step = .ok ps := by
  have hcs := crop_sum n
  have hmem : ((cropStart n : Nat) : Int) ∈ pyRange (cropStart n) (len - cropStop n) step :=
    (mem_pyRange_pos _ _ _ _ (by omega)).2 ⟨Int.le_refl _, by omega, 0, by ring⟩
  unfold gridPositions
  simp only
  cases h : (pyRange (cropStart n) (len - cropStop n) step).getLast? with
  | none => rw [List.getLast?_eq_none_iff] at h; rw [h] at hmem; cases hmem
  | some last =>
    simp only
    split <;> exact ⟨_, rfl⟩

theorem gridPositions_small {len n : Nat} {step : Int} (hs : 1 ≤ step) (hlen : len ≤ n) :
    gridPositions len n step = .error .indexError := by
  have hcs := crop_sum n
  have h : pyRange (cropStart n) (len - cropStop n) step = [] := by
    rw [List.eq_nil_iff_forall_not_mem]
    intro x hx
    obtain ⟨h1, h2, _⟩ := (mem_pyRange_pos _ _ _ _ (by omega)).1 hx
    omega
  unfold gridPositions
  simp only
  rw [h]
  rfl

/-- C31: for every image larger than the window (in both directions) and every overlap giving a step of at least one
pixel, the positions are good in both directions, and the vectors are on all the points of the grid, once each. -/
theorem C31_grid (lenY lenX n0 n1 : Nat) (overlap : ℚ) (hy : n0 < lenY) (hx : n1 < lenX)
    (hsy : 1 ≤ gridStep overlap n0) (hsx : 1 ≤ gridStep overlap n1) :
    ∃ g, prepare lenY lenX n0 n1 overlap = .ok g ∧ GoodPositions lenX n1 (gridStep overlap n1) g.ixvecs ∧
      GoodPositions lenY n0 (gridStep overlap n0) g.iyvecs ∧ g.points.Nodup ∧
      (∀ x y, (x, y) ∈ g.points ↔ x ∈ g.ixvecs ∧ y ∈ g.iyvecs) ∧
      g.points.length = g.iyvecs.length * g.ixvecs.length := by
  obtain ⟨xs, hxs⟩ := gridPositions_ok hsx hx
  obtain ⟨ys, hys⟩ := gridPositions_ok hsy hy
  have gx := gridPositions_good hsx hxs
  have gy := gridPositions_good hsy hys
  have hxn : xs.Nodup := gx.increasing.imp (fun h => ne_of_lt h)
  have hyn : ys.Nodup := gy.increasing.imp (fun h => ne_of_lt h)
  refine ⟨⟨xs, ys, ys.flatMap (fun y => xs.map (fun x => (x, y)))⟩, ?_, gx, gy, ?_, ?_, ?_⟩
  · unfold prepare
    simp only
    rw [if_neg (not_not.2 hsy), if_neg (not_not.2 hsx), hxs, hys]
  · simp only
    rw [List.nodup_flatMap]
    refine ⟨fun y _ => hxn.map (fun a b h => (Prod.mk.inj h).1), ?_⟩
    refine hyn.imp ?_
    intro y y' hne
    simp only [Function.onFun, List.disjoint_left, List.mem_map, not_exists, not_and]
    rintro p ⟨x, _, rfl⟩ x' _ heq
    exact hne (Prod.mk.inj heq).2.symm
  · intro x y
    simp [List.mem_flatMap, and_comm]
  · simp

/-- C31: two neighbouring windows at the regular distance share the fraction `overlap` of their pixels, up to half a pixel; the
distance is then at most `n` (no pixel is left out) for a nonnegative overlap, and at least one pixel if the part which is not
shared is larger than half a pixel. -/
theorem C31_overlap (overlap : ℚ) (n : Nat) :
    |((n : Int) - gridStep overlap n : ℚ) - overlap * n| ≤ 1 / 2 ∧ (0 ≤ overlap → gridStep overlap n ≤ n) ∧
      (1 / 2 < (1 - overlap) * n → 1 ≤ gridStep overlap n) := by
  have h := roundEven_near (overlap * n)
  have e : ((n : Int) - gridStep overlap n : ℚ) = Verif.TimeFormat.roundEven (overlap * n) := by
    unfold gridStep
    push_cast
    ring
  refine ⟨?_, ?_, ?_⟩
  · rw [e, abs_sub_comm]
    exact h
  · intro h0
    have := roundEven_nonneg (overlap * n) (by positivity)
    unfold gridStep
    omega
  · intro h1
    rw [abs_le] at h
    have h2 : (Verif.TimeFormat.roundEven (overlap * n) : ℚ) < n := by
      have := h.1
      nlinarith
    have h3 : Verif.TimeFormat.roundEven (overlap * n) < (n : Int) := by exact_mod_cast h2
    unfold gridStep
    omega

/-- C31: images which are not larger than the window are refused (`IndexError`), an overlap giving no step too. -/
theorem C31_refused (lenY lenX n0 n1 : Nat) (overlap : ℚ) :
    (gridStep overlap n0 < 1 → prepare lenY lenX n0 n1 overlap = .error .assertionError) ∧
    (1 ≤ gridStep overlap n0 → 1 ≤ gridStep overlap n1 → lenX ≤ n1 ∨ lenY ≤ n0 →
      prepare lenY lenX n0 n1 overlap = .error .indexError) := by
  constructor
  · intro h
    unfold prepare
    simp only
    rw [if_pos (by omega)]
  · intro hy hx h
    unfold prepare
    simp only
    rw [if_neg (not_not.2 hy), if_neg (not_not.2 hx)]
    rcases h with h | h
    · rw [gridPositions_small hx h]
    · by_cases hxl : n1 < lenX
      · obtain ⟨xs, hxs⟩ := gridPositions_ok hx hxl
        rw [hxs, gridPositions_small hy h]
      · rw [gridPositions_small hx (by omega)]

theorem roundEven_int (n : Int) : Verif.TimeFormat.roundEven n = n := by
  unfold Verif.TimeFormat.roundEven
  simp

/-- Hypotheses of `C31_grid`: default overlap 1/2, windows of 48 pixels, image of 100 x 131 pixels. -/
example : 48 < 100 ∧ 48 < 131 ∧ 1 ≤ gridStep (1 / 2) 48 ∧ gridPositions 131 48 24 = .ok [24, 48, 72, 96, 107] ∧
    gridPositions 100 48 24 = .ok [24, 48, 72] := by
  refine ⟨by omega, by omega, ?_, by decide, by decide⟩
  unfold gridStep
  have : (1 / 2 * ((48 : Nat) : ℚ)) = ((24 : Int) : ℚ) := by norm_num
  rw [this, roundEven_int]
  norm_num

/-! ## C32 -/

/-- The value of the padded image at integer coordinates of the original image: the image minus its minimum inside,
zero outside. -/
def extended (m : Int) (im : Img Int) (y x : Int) : Int :=
  if 0 ≤ y ∧ y < im.ny ∧ 0 ≤ x ∧ x < im.nx then im.get y.toNat x.toNat - m else 0

/-- `w` is the window of shape `(n0, n1)` centred on `(x, y)`: its pixel `(i, j)` is the pixel
`(y - n0/2 + i, x - n1/2 + j)` of the image extended with zeros. -/
def IsWindow (m : Int) (im : Img Int) (n0 n1 : Nat) (x y : Int) (w : Img Int) : Prop :=
  w.ny = n0 ∧ w.nx = n1 ∧ ∀ i j, i < n0 → j < n1 →
    w.get i j = extended m im (y - ((n0 / 2 : Nat) : Int) + i) (x - ((n1 / 2 : Nat) : Int) + j)

theorem sliceBound_nonneg {L : Nat} {a : Int} (h0 : 0 ≤ a) (h1 : a ≤ L) : (sliceBound L a : Int) = a := by
  unfold sliceBound
  rw [if_neg (by omega)]
  omega

theorem pad_get (p : Nat) (m : Int) (im : Img Int) (i j : Nat) :
    (pad p m im).get i j = extended m im ((i : Int) - p) ((j : Int) - p) := by
  unfold pad extended
  simp only
  by_cases h : p ≤ i ∧ i < im.ny + p ∧ p ≤ j ∧ j < im.nx + p
  · rw [if_pos h, if_pos (by omega)]
    congr 2 <;> omega
  · rw [if_neg h, if_neg (by omega)]

/-- A slice of `n = stop - start` elements of a sequence of length `L` has `n > 0` elements only in two cases: the slice
is in the sequence, or both bounds are negative and the slice is the one starting `L` elements further. -/
theorem slice_len {L n : Nat} {a : Int} (hn : 0 < n) :
    (sliceBound L (a + n) - sliceBound L a = n ↔ (0 ≤ a ∧ a + n ≤ L) ∨ (-(L : Int) ≤ a ∧ a + n < 0)) := by
  unfold sliceBound
  split <;> split <;> omega

theorem window_eq_some {n0 n1 : Nat} (h0 : 0 < n0) (h1 : 0 < n1) (ix iy : Int) (im w : Img Int) :
    window n0 n1 ix iy im = some w ↔
      (((0 ≤ iy - cropStart n0 ∧ iy + cropStop n0 ≤ im.ny) ∨ (-(im.ny : Int) ≤ iy - cropStart n0 ∧ iy + cropStop n0 < 0)) ∧
       ((0 ≤ ix - cropStart n1 ∧ ix + cropStop n1 ≤ im.nx) ∨ (-(im.nx : Int) ≤ ix - cropStart n1 ∧ ix + cropStop n1 < 0))) ∧
      w = crop n0 n1 ix iy im := by
  have e0 : iy + cropStop n0 = (iy - cropStart n0) + n0 := by have := crop_sum n0; omega
  have e1 : ix + cropStop n1 = (ix - cropStart n1) + n1 := by have := crop_sum n1; omega
  unfold window shapeOk
  simp only
  have key := and_congr (slice_len (L := im.ny) (a := iy - cropStart n0) h0) (slice_len (L := im.nx) (a := ix - cropStart n1) h1)
  have key2 : ((crop n0 n1 ix iy im).ny = n0 ∧ (crop n0 n1 ix iy im).nx = n1) ↔
      (sliceBound im.ny (iy - cropStart n0 + n0) - sliceBound im.ny (iy - cropStart n0) = n0 ∧
        sliceBound im.nx (ix - cropStart n1 + n1) - sliceBound im.nx (ix - cropStart n1) = n1) := by
    rw [← e0, ← e1]
    exact Iff.rfl
  rw [e0, e1, ← key, ← key2]
  constructor
  · intro h
    split at h
    · rename_i hd
      injection h with h
      exact ⟨of_decide_eq_true hd, h.symm⟩
    · cases h
  · rintro ⟨h, rfl⟩
    rw [if_pos (decide_eq_true h)]

/-- C32, what holds: when the position is not beyond the low borders (its window starts at a non-negative index of the
padded image), the window is either exactly the requested one or an error, and it is an error exactly when it leaves
the padded image. -/
theorem C32_partial (m : Int) (im : Img Int) (n0 n1 : Nat) (h0 : 0 < n0) (h1 : 0 < n1) (p : Nat) (x y : Int)
    (hy : 0 ≤ y + p - ((n0 / 2 : Nat) : Int)) (hx : 0 ≤ x + p - ((n1 / 2 : Nat) : Int)) :
    (∀ w, window n0 n1 (x + p) (y + p) (pad p m im) = some w → IsWindow m im n0 n1 x y w) ∧
    (window n0 n1 (x + p) (y + p) (pad p m im) = none ↔
      (im.ny + p < y - ((n0 / 2 : Nat) : Int) + n0 ∨ im.nx + p < x - ((n1 / 2 : Nat) : Int) + n1)) := by
  have hs0 := crop_sum n0
  have hs1 := crop_sum n1
  have ec0 : cropStart n0 = n0 / 2 := rfl
  have ec1 : cropStart n1 = n1 / 2 := rfl
  have hny : ((pad p m im).ny : Int) = im.ny + 2 * p := by simp [pad]
  have hnx : ((pad p m im).nx : Int) = im.nx + 2 * p := by simp [pad]
  constructor
  · intro w hw
    obtain ⟨⟨ha, hb⟩, rfl⟩ := (window_eq_some h0 h1 _ _ _ _).1 hw
    have ha' : 0 ≤ y + p - cropStart n0 ∧ y + p + cropStop n0 ≤ (pad p m im).ny := by omega
    have hb' : 0 ≤ x + p - cropStart n1 ∧ x + p + cropStop n1 ≤ (pad p m im).nx := by omega
    have b1 := sliceBound_nonneg (L := (pad p m im).ny) (a := y + p - cropStart n0) ha'.1 (by omega)
    have b2 := sliceBound_nonneg (L := (pad p m im).ny) (a := y + p + cropStop n0) (by omega) ha'.2
    have b3 := sliceBound_nonneg (L := (pad p m im).nx) (a := x + p - cropStart n1) hb'.1 (by omega)
    have b4 := sliceBound_nonneg (L := (pad p m im).nx) (a := x + p + cropStop n1) (by omega) hb'.2
    refine ⟨?_, ?_, ?_⟩
    · show sliceBound _ _ - sliceBound _ _ = n0
      omega
    · show sliceBound _ _ - sliceBound _ _ = n1
      omega
    · intro i j _ _
      show (pad p m im).get (_ + i) (_ + j) = _
      rw [pad_get]
      congr 1 <;> push_cast <;> omega
  · constructor
    · intro hw
      by_contra hc
      have : window n0 n1 (x + p) (y + p) (pad p m im) = some (crop n0 n1 (x + p) (y + p) (pad p m im)) :=
        (window_eq_some h0 h1 _ _ _ _).2 ⟨⟨Or.inl (by omega), Or.inl (by omega)⟩, rfl⟩
      rw [hw] at this
      cases this
    · intro h
      cases hw : window n0 n1 (x + p) (y + p) (pad p m im) with
      | none => rfl
      | some w =>
        obtain ⟨⟨ha, hb⟩, _⟩ := (window_eq_some h0 h1 _ _ _ _).1 hw
        omega

/-- C32 for the first pass: every window of the grid is the requested one and contains only pixels of the image (no
padding): there is never an error. -/
theorem C32_first_pass (m : Int) (im : Img Int) (n0 n1 : Nat) (overlap : ℚ) (g : Grid)
    (hsy : 1 ≤ gridStep overlap n0) (hsx : 1 ≤ gridStep overlap n1) (h0 : 0 < n0) (h1 : 0 < n1)
    (hg : prepare im.ny im.nx n0 n1 overlap = .ok g) (x y : Int) (hp : (x, y) ∈ g.points) :
    ∃ w, window n0 n1 (x + npad n0 n1) (y + npad n0 n1) (pad (npad n0 n1) m im) = some w ∧ IsWindow m im n0 n1 x y w ∧
      ∀ i j, i < n0 → j < n1 → ∃ r c, r < im.ny ∧ c < im.nx ∧ w.get i j = im.get r c - m ∧
        (r : Int) = y - ((n0 / 2 : Nat) : Int) + i ∧ (c : Int) = x - ((n1 / 2 : Nat) : Int) + j := by
  have hxy : n1 < im.nx ∧ n0 < im.ny := by
    by_contra hc
    have := (C31_refused im.ny im.nx n0 n1 overlap).2 hsy hsx (by omega)
    rw [hg] at this
    cases this
  obtain ⟨g', hg', gx, gy, _, hmem, _⟩ := C31_grid im.ny im.nx n0 n1 overlap hxy.2 hxy.1 hsy hsx
  rw [hg] at hg'
  injection hg' with hg'
  subst hg'
  obtain ⟨hx, hy⟩ := (hmem x y).1 hp
  have ix := gx.inside x hx
  have iy := gy.inside y hy
  obtain ⟨hw, herr⟩ := C32_partial m im n0 n1 h0 h1 (npad n0 n1) x y (by omega) (by omega)
  cases hwin : window n0 n1 (x + npad n0 n1) (y + npad n0 n1) (pad (npad n0 n1) m im) with
  | none => have := herr.1 hwin; omega
  | some w =>
    refine ⟨w, rfl, hw w hwin, ?_⟩
    intro i j hi hj
    refine ⟨(y - ((n0 / 2 : Nat) : Int) + i).toNat, (x - ((n1 / 2 : Nat) : Int) + j).toNat, by omega, by omega, ?_, by omega,
      by omega⟩
    rw [(hw w hwin).2.2 i j hi hj]
    unfold extended
    rw [if_pos (by omega)]

/-- C32: the padding is large enough for both sizes of the window: every position of the image, borders included, has
its complete window, the pixels out of the image being zeros. -/
theorem C32_inside (m : Int) (im : Img Int) (n0 n1 : Nat) (h0 : 0 < n0) (h1 : 0 < n1) (x y : Int)
    (hx : 0 ≤ x ∧ x ≤ im.nx) (hy : 0 ≤ y ∧ y ≤ im.ny) :
    ∃ w, window n0 n1 (x + npad n0 n1) (y + npad n0 n1) (pad (npad n0 n1) m im) = some w ∧
      IsWindow m im n0 n1 x y w := by
  have b : n0 / 2 ≤ npad n0 n1 ∧ n1 / 2 ≤ npad n0 n1 ∧ n0 ≤ n0 / 2 + npad n0 n1 ∧ n1 ≤ n1 / 2 + npad n0 n1 := by
    have hs0 := crop_sum n0
    have hs1 := crop_sum n1
    have ec0 : cropStart n0 = n0 / 2 := rfl
    have ec1 : cropStart n1 = n1 / 2 := rfl
    unfold npad
    omega
  obtain ⟨hw, herr⟩ := C32_partial m im n0 n1 h0 h1 (npad n0 n1) x y (by omega) (by omega)
  cases hwin : window n0 n1 (x + npad n0 n1) (y + npad n0 n1) (pad (npad n0 n1) m im) with
  | none => have := herr.1 hwin; omega
  | some w => exact ⟨w, rfl, hw w hwin⟩

example : ∃ w, window 7 2 (0 + npad 7 2) (5 + npad 7 2) (pad (npad 7 2) 0 ⟨5, 9, fun i j => (i : Int) + j⟩) = some w ∧
    IsWindow 0 ⟨5, 9, fun i j => (i : Int) + j⟩ 7 2 0 5 w :=
  C32_inside _ _ _ _ (by omega) (by omega) _ _ (by simp) (by simp)

/-- C32 is false: beyond the low border, the negative bounds of the slices count from the other side of the image.  A
window completely outside of the padded image has the right shape and is made of other pixels, without error. -/
theorem C32_wraps_around (m : Int) (im : Img Int) (n0 n1 : Nat) (h0 : 0 < n0) (h1 : 0 < n1) (p : Nat) (x y : Int)
    (hy : y - ((n0 / 2 : Nat) : Int) + n0 < -(p : Int)) (hy' : -((im.ny : Int) + 2 * p) ≤ y + p - ((n0 / 2 : Nat) : Int))
    (hx : 0 ≤ x + p - ((n1 / 2 : Nat) : Int)) (hx' : x - ((n1 / 2 : Nat) : Int) + n1 ≤ im.nx + p) :
    ∃ w, window n0 n1 (x + p) (y + p) (pad p m im) = some w ∧ IsWindow m im n0 n1 x (y + im.ny + 2 * p) w := by
  have hs0 := crop_sum n0
  have hs1 := crop_sum n1
  have ec0 : cropStart n0 = n0 / 2 := rfl
  have ec1 : cropStart n1 = n1 / 2 := rfl
  have hny : ((pad p m im).ny : Int) = im.ny + 2 * p := by simp [pad]
  have hnx : ((pad p m im).nx : Int) = im.nx + 2 * p := by simp [pad]
  have b1 : (sliceBound (pad p m im).ny (y + p - cropStart n0) : Int) = y + p - cropStart n0 + im.ny + 2 * p := by
    unfold sliceBound; rw [if_pos (by omega)]; omega
  have b2 : (sliceBound (pad p m im).ny (y + p + cropStop n0) : Int) = y + p + cropStop n0 + im.ny + 2 * p := by
    unfold sliceBound; rw [if_pos (by omega)]; omega
  have b3 := sliceBound_nonneg (L := (pad p m im).nx) (a := x + p - cropStart n1) (by omega) (by omega)
  have b4 := sliceBound_nonneg (L := (pad p m im).nx) (a := x + p + cropStop n1) (by omega) (by omega)
  refine ⟨crop n0 n1 (x + p) (y + p) (pad p m im), (window_eq_some h0 h1 _ _ _ _).2 ⟨⟨Or.inr (by omega), Or.inl (by omega)⟩, rfl⟩,
    ?_, ?_, ?_⟩
  · show sliceBound _ _ - sliceBound _ _ = n0
    omega
  · show sliceBound _ _ - sliceBound _ _ = n1
    omega
  · intro i j _ _
    show (pad p m im).get (_ + i) (_ + j) = _
    rw [pad_get]
    congr 1 <;> push_cast <;> omega

/-! ## C33 -/

/-- C33: the centres of the two windows are separated by exactly the estimated displacement and the reported position
is their mid-point, for every image and every estimate. -/
theorem C33_windows (lenY lenX : Nat) (gx gy dx dy : Int) :
    let c := centres lenY lenX gx gy dx dy
    c.ix1 - c.ix0 = dx ∧ c.iy1 - c.iy0 = dy ∧ 2 * c.xs = c.ix0 + c.ix1 ∧ 2 * c.ys = c.iy0 + c.iy1 := by
  simp only
  unfold centres
  simp only
  split
  · simp only; refine ⟨by omega, by omega, ?_, ?_⟩ <;> push_cast <;> ring
  · split
    · simp only; refine ⟨by omega, by omega, ?_, ?_⟩ <;> push_cast <;> ring
    · simp only; refine ⟨by omega, by omega, ?_, ?_⟩ <;> push_cast <;> ring

/-- C33: when the windows are not shifted the reported position is the point of the grid, up to half a pixel; when they
are, one of the windows is centred on the point of the grid. -/
theorem C33_position (lenY lenX : Nat) (gx gy dx dy : Int) :
    let c := centres lenY lenX gx gy dx dy
    (c.ix0 = gx ∧ c.iy0 = gy) ∨ (c.ix1 = gx ∧ c.iy1 = gy) ∨
      ((0 ≤ c.ix0 ∧ c.ix0 ≤ lenX ∧ 0 ≤ c.iy0 ∧ c.iy0 ≤ lenY) ∧ (0 ≤ c.ix1 ∧ c.ix1 ≤ lenX ∧ 0 ≤ c.iy1 ∧ c.iy1 ≤ lenY) ∧
        (c.xs = gx ∨ c.xs = gx + 1 / 2) ∧ (c.ys = gy ∨ c.ys = gy + 1 / 2)) := by
  have aux : ∀ (g d : Int), (((g - d / 2 + (g - d / 2 + d) : Int) : ℚ) / 2 = g ∨
      ((g - d / 2 + (g - d / 2 + d) : Int) : ℚ) / 2 = g + 1 / 2) := by
    intro g d
    have : (g - d / 2 + (g - d / 2 + d) : Int) = 2 * g + d % 2 := by omega
    rw [this]
    rcases Int.emod_two_eq d with h | h <;> rw [h]
    · left; push_cast; ring
    · right; push_cast; ring
  simp only
  unfold centres
  simp only
  split
  · right; left; exact ⟨rfl, rfl⟩
  · rename_i h1
    split
    · left; exact ⟨rfl, rfl⟩
    · rename_i h0
      right; right
      unfold outside at h0 h1
      refine ⟨?_, ?_, aux gx dx, aux gy dy⟩ <;> simp only <;> omega

/-- C33: the estimated displacement is split around the point of the grid, the first window half of it (rounded down)
before, exactly when this leaves both centres in the image, borders included; otherwise the window which would be
out of the image is put on the point of the grid, the one of the image 1 in priority. -/
theorem C33_shift (lenY lenX : Nat) (gx gy dx dy : Int) :
    let c := centres lenY lenX gx gy dx dy
    let inside := fun x y : Int => 0 ≤ x ∧ x ≤ lenX ∧ 0 ≤ y ∧ y ≤ lenY
    (inside (gx - dx / 2 + dx) (gy - dy / 2 + dy) → inside (gx - dx / 2) (gy - dy / 2) →
      c.ix0 = gx - dx / 2 ∧ c.iy0 = gy - dy / 2) ∧
    (¬ inside (gx - dx / 2 + dx) (gy - dy / 2 + dy) → c.ix1 = gx ∧ c.iy1 = gy) ∧
    (inside (gx - dx / 2 + dx) (gy - dy / 2 + dy) → ¬ inside (gx - dx / 2) (gy - dy / 2) → c.ix0 = gx ∧ c.iy0 = gy) := by
  simp only
  unfold centres
  simp only
  have e : ∀ x y : Int, outside lenY lenX x y ↔ ¬ (0 ≤ x ∧ x ≤ lenX ∧ 0 ≤ y ∧ y ≤ lenY) := by
    intro x y; unfold outside; omega
  refine ⟨?_, ?_, ?_⟩
  · intro h1 h0
    rw [if_neg (by rw [e]; exact not_not.2 h1), if_neg (by rw [e]; exact not_not.2 h0)]
    exact ⟨rfl, rfl⟩
  · intro h1
    rw [if_pos ((e _ _).2 h1)]
    exact ⟨rfl, rfl⟩
  · intro h1 h0
    rw [if_neg (by rw [e]; exact not_not.2 h1), if_pos ((e _ _).2 h0)]
    exact ⟨rfl, rfl⟩

example : (centres 100 100 50 50 5 (-3)).ix0 = 48 ∧ (centres 100 100 50 50 5 (-3)).iy0 = 52 := by decide
example : (centres 100 100 99 50 5 0).ix1 = 99 ∧ (centres 100 100 2 50 6 0).ix0 = 2 := by decide

/-- C32 and C33 together: an estimate for which the windows are not shifted always has its two complete windows. -/
theorem C33_windows_exist (m0 m1 : Int) (im0 im1 : Img Int) (hs : im1.ny = im0.ny ∧ im1.nx = im0.nx) (n0 n1 : Nat)
    (h0 : 0 < n0) (h1 : 0 < n1) (gx gy dx dy : Int)
    (hb : 0 ≤ gx - dx / 2 ∧ gx - dx / 2 ≤ im0.nx ∧ 0 ≤ gy - dy / 2 ∧ gy - dy / 2 ≤ im0.ny)
    (ha : 0 ≤ gx - dx / 2 + dx ∧ gx - dx / 2 + dx ≤ im0.nx ∧ 0 ≤ gy - dy / 2 + dy ∧ gy - dy / 2 + dy ≤ im0.ny) :
    let c := centres im0.ny im0.nx gx gy dx dy
    let p := npad n0 n1
    ∃ w0 w1, window n0 n1 (c.ix0 + p) (c.iy0 + p) (pad p m0 im0) = some w0 ∧
      window n0 n1 (c.ix1 + p) (c.iy1 + p) (pad p m1 im1) = some w1 ∧
      IsWindow m0 im0 n0 n1 (gx - dx / 2) (gy - dy / 2) w0 ∧
      IsWindow m1 im1 n0 n1 (gx - dx / 2 + dx) (gy - dy / 2 + dy) w1 := by
  simp only
  obtain ⟨e1, e2⟩ := (C33_shift im0.ny im0.nx gx gy dx dy).1 ha hb
  obtain ⟨d1, d2, _, _⟩ := C33_windows im0.ny im0.nx gx gy dx dy
  have f1 : (centres im0.ny im0.nx gx gy dx dy).ix1 = gx - dx / 2 + dx := by omega
  have f2 : (centres im0.ny im0.nx gx gy dx dy).iy1 = gy - dy / 2 + dy := by omega
  rw [e1, e2, f1, f2]
  obtain ⟨w0, hw0, i0⟩ := C32_inside m0 im0 n0 n1 h0 h1 (gx - dx / 2) (gy - dy / 2) ⟨hb.1, hb.2.1⟩ ⟨hb.2.2.1, hb.2.2.2⟩
  obtain ⟨w1, hw1, i1⟩ := C32_inside m1 im1 n0 n1 h0 h1 (gx - dx / 2 + dx) (gy - dy / 2 + dy)
    (by rw [hs.2]; exact ⟨ha.1, ha.2.1⟩) (by rw [hs.1]; exact ⟨ha.2.2.1, ha.2.2.2⟩)
  exact ⟨w0, w1, hw0, hw1, i0, i1⟩

/-- C32 and C33 together: this happens for an estimate smaller than the image.  Windows of 4 x 4 pixels in an image of
100 x 100 pixels, vector at the position (2, 70), estimated displacement of -90 pixels along y: the window of the image
1 is centred on `y = -20`, out of the image; the pixels around `y = 84` are used instead, without error. -/
theorem C32_reachable (m : Int) (get : Nat → Nat → Int) :
    let c := centres 100 100 2 70 0 (-90)
    c.iy1 = -20 ∧ c.ix1 = 2 ∧
    ∃ w, window 4 4 (c.ix1 + npad 4 4) (c.iy1 + npad 4 4) (pad (npad 4 4) m ⟨100, 100, get⟩) = some w ∧
        IsWindow m ⟨100, 100, get⟩ 4 4 2 84 w := by
  have e1 : (centres 100 100 2 70 0 (-90)).iy1 = -20 := by decide
  have e2 : (centres 100 100 2 70 0 (-90)).ix1 = 2 := by decide
  refine ⟨e1, e2, ?_⟩
  rw [e1, e2]
  exact C32_wraps_around m ⟨100, 100, get⟩ 4 4 (by omega) (by omega) 2 2 (-20) (by simp) (by simp) (by simp) (by simp)

/-- Hypotheses of `C32_partial`: a position on the low border. -/
example : 0 ≤ (0 : Int) + (npad 4 4 : Nat) - ((4 / 2 : Nat) : Int) := by decide

/-- Examples of `centres`: a vector in the middle, and a vector whose second window would leave the image. -/
example : centres 100 100 50 50 7 (-3) = ⟨101 / 2, 101 / 2, 47, 52, 54, 49⟩ ∧
    centres 100 100 98 50 10 0 = ⟨93, 50, 88, 50, 98, 50⟩ := by
  constructor <;> decide +kernel

end Verif
