import Verif.Model.LaterPass
import Verif.Props.Recover
import Verif.Props.SubpixPeaks
import Verif.Props.LoopVectors
import Verif.Props.ApplyInterp
import Verif.Props.PivGrid

/-!
# A uniform displacement is found by the passes with displaced windows (C111)

End to end for a pass: estimates of the displacement, windows, correlation, search of the peak, sub-pixel refinement.
-/

namespace Verif
open Finset Verif.PivGrid Verif.Correl Verif.CorrelFft Verif.LaterPass
open Verif.LoopVectors (Method SubErr State VecErr)

/-! ## Specification -/

/-- The second image is the first one moved by `(dx, dy)` pixels: the pixels which stay in the images are moved, the other
pixels are arbitrary. -/
def MovedBy (dx dy : Int) (im0 im1 : Img Int) : Prop :=
  im1.ny = im0.ny ∧ im1.nx = im0.nx ∧
  ∀ r c r' c' : Nat, r < im0.ny → c < im0.nx → r' < im0.ny → c' < im0.nx → (r' : Int) = r + dy → (c' : Int) = c + dx →
    im1.get r' c' = im0.get r c

/-- The window of shape `(n0, n1)` centred on `(x, y)` is inside the image. -/
def WindowIn (n0 n1 : Nat) (im : Img Int) (x y : Int) : Prop :=
  0 ≤ y - ((n0 / 2 : Nat) : Int) ∧ y - ((n0 / 2 : Nat) : Int) + n0 ≤ im.ny ∧
  0 ≤ x - ((n1 / 2 : Nat) : Int) ∧ x - ((n1 / 2 : Nat) : Int) + n1 ≤ im.nx

/-- The pixels of the window centred on `(x, y)`. -/
def pattern (n0 n1 : Nat) (im : Img Int) (x y : Int) : ℕ → ℕ → ℝ := fun i j =>
  (im.get (y - ((n0 / 2 : Nat) : Int) + i).toNat (x - ((n1 / 2 : Nat) : Int) + j).toNat : ℝ)

/-- The estimate is at less than half a pixel of `(dx, dy)`. -/
def NearTo (dx dy : Int) (a : ApplyInterp.Delta) : Prop :=
  ∃ ax ay : ℚ, a = (some ax, some ay) ∧ |ax - dx| < 1 / 2 ∧ |ay - dy| < 1 / 2

/-- The maximum displacement, if any, allows the displacements of the square of half size `n` around zero. -/
def AllowsSquare (dmax : Option ℚ) (n : Nat) : Prop := ∀ m, dmax = some m → 0 ≤ m ∧ 2 * (n : ℚ) ^ 2 ≤ m ^ 2

/-- The numbers are not rounded. -/
def Exact (rnd : ℝ → ℚ) : Prop := ∀ q : ℚ, rnd q = q

/-- What is known of a vector of the grid at `g`: the two windows displaced by `(dx, dy)`, one half in each direction, are
inside the images, and the pattern in these windows has no period. -/
def GoodVector (n0 n1 : Nat) (im0 : Img Int) (dx dy : Int) (g : Int × Int) : Prop :=
  WindowIn n0 n1 im0 (g.1 - dx / 2) (g.2 - dy / 2) ∧ WindowIn n0 n1 im0 (g.1 - dx / 2 + dx) (g.2 - dy / 2 + dy) ∧
  NoPeriod n0 n1 (pattern n0 n1 im0 (g.1 - dx / 2) (g.2 - dy / 2))

/-- What is known of a vector of the grid at `g`, in general.  The images minus their minima `m0` and `m1` are extended by
zeros (`extended`).  The two windows displaced by `(dx, dy)`, one half in each direction, have their centres in the images and
show the same pattern up to a constant, and this pattern has no period. -/
def SameWindows (n0 n1 : Nat) (m0 m1 : Int) (im0 im1 : Img Int) (dx dy : Int) (g : Int × Int) : Prop :=
  (im1.ny = im0.ny ∧ im1.nx = im0.nx) ∧
  (0 ≤ g.1 - dx / 2 ∧ g.1 - dx / 2 ≤ im0.nx ∧ 0 ≤ g.2 - dy / 2 ∧ g.2 - dy / 2 ≤ im0.ny) ∧
  (0 ≤ g.1 - dx / 2 + dx ∧ g.1 - dx / 2 + dx ≤ im0.nx ∧ 0 ≤ g.2 - dy / 2 + dy ∧ g.2 - dy / 2 + dy ≤ im0.ny) ∧
  (∃ k : Int, ∀ i j : Nat, i < n0 → j < n1 →
    extended m1 im1 (g.2 - dy / 2 + dy - ((n0 / 2 : Nat) : Int) + i) (g.1 - dx / 2 + dx - ((n1 / 2 : Nat) : Int) + j) =
      extended m0 im0 (g.2 - dy / 2 - ((n0 / 2 : Nat) : Int) + i) (g.1 - dx / 2 - ((n1 / 2 : Nat) : Int) + j) + k) ∧
  NoPeriod n0 n1 (fun i j => (extended m0 im0 (g.2 - dy / 2 - ((n0 / 2 : Nat) : Int) + i)
    (g.1 - dx / 2 - ((n1 / 2 : Nat) : Int) + j) : ℝ))

/-- The peak of the correlation of the pattern of the vector at `g` with itself is not lost by the sub-pixel refinement. -/
def KeptPeak (m : Method) (nsub n0 n1 : Nat) (m0 : Int) (im0 : Img Int) (dx dy : Int) (g : Int × Int) : Prop :=
  let f : ℕ → ℕ → ℝ := fun i j => (extended m0 im0 (g.2 - dy / 2 - ((n0 / 2 : Nat) : Int) + i)
    (g.1 - dx / 2 - ((n1 / 2 : Nat) : Int) + j) : ℝ)
  NotLost m nsub (circCorrel n0 n1 f f)

/-! ## Windows -/

namespace LaterPass

theorem window_of (n0 n1 : Nat) (h0 : 0 < n0) (h1 : 0 < n1) (m : Int) (im : Img Int) (x y : Int)
    (h : 0 ≤ x ∧ x ≤ im.nx ∧ 0 ≤ y ∧ y ≤ im.ny) :
    IsWindow m im n0 n1 x y (crop n0 n1 (x + npad n0 n1) (y + npad n0 n1) (pad (npad n0 n1) m im)) := by
  obtain ⟨a1, a2, a3, a4⟩ := h
  obtain ⟨w, hw, hi⟩ := C32_inside m im n0 n1 h0 h1 x y ⟨by omega, by omega⟩ ⟨by omega, by omega⟩
  unfold window at hw
  simp only at hw
  split at hw
  · injection hw with hw
    rw [hw]; exact hi
  · cases hw

theorem windows_same (P : Params) (h0 : 0 < P.n0) (h1 : 0 < P.n1) (m0 m1 : Int) (im0 im1 : Img Int) (dx dy : Int)
    (g : Int × Int) (hg : SameWindows P.n0 P.n1 m0 m1 im0 im1 dx dy g) :
    let w := windows P m0 m1 im0 im1 (im0.ny, im0.nx) g (dx, dy)
    (w.1.ny = P.n0 ∧ w.1.nx = P.n1) ∧ (w.2.ny = P.n0 ∧ w.2.nx = P.n1) ∧
    (∃ k : ℝ, ∀ i j, i < P.n0 → j < P.n1 → pixels w.2 i j = pixels w.1 i j + k) ∧
    (∀ i j, i < P.n0 → j < P.n1 → pixels w.1 i j = (extended m0 im0 (g.2 - dy / 2 - ((P.n0 / 2 : Nat) : Int) + i)
      (g.1 - dx / 2 - ((P.n1 / 2 : Nat) : Int) + j) : ℝ)) ∧ NoPeriod P.n0 P.n1 (pixels w.1) := by
  obtain ⟨⟨e1, e2⟩, b0, b1, ⟨k, hk⟩, hp⟩ := hg
  have b1' : 0 ≤ g.1 - dx / 2 + dx ∧ g.1 - dx / 2 + dx ≤ im1.nx ∧ 0 ≤ g.2 - dy / 2 + dy ∧ g.2 - dy / 2 + dy ≤ im1.ny := by
    rw [e1, e2]; exact b1
  have hc := (C33_shift im0.ny im0.nx g.1 g.2 dx dy).1 b1 b0
  have hw := C33_windows im0.ny im0.nx g.1 g.2 dx dy
  simp only at hw hc
  have hc1 : (centres im0.ny im0.nx g.1 g.2 dx dy).ix1 = g.1 - dx / 2 + dx := by omega
  have hc2 : (centres im0.ny im0.nx g.1 g.2 dx dy).iy1 = g.2 - dy / 2 + dy := by omega
  obtain ⟨p1, p2, p3⟩ := window_of P.n0 P.n1 h0 h1 m0 im0 _ _ b0
  obtain ⟨q1, q2, q3⟩ := window_of P.n0 P.n1 h0 h1 m1 im1 _ _ b1'
  intro w
  have hw1 : w.1 = crop P.n0 P.n1 (g.1 - dx / 2 + npad P.n0 P.n1) (g.2 - dy / 2 + npad P.n0 P.n1) (pad (npad P.n0 P.n1) m0 im0) := by
    show (windows P m0 m1 im0 im1 (im0.ny, im0.nx) g (dx, dy)).1 = _
    unfold windows; simp only [hc.1, hc.2]
  have hw2 : w.2 = crop P.n0 P.n1 (g.1 - dx / 2 + dx + npad P.n0 P.n1) (g.2 - dy / 2 + dy + npad P.n0 P.n1) (pad (npad P.n0 P.n1) m1 im1) := by
    show (windows P m0 m1 im0 im1 (im0.ny, im0.nx) g (dx, dy)).2 = _
    unfold windows; simp only [hc1, hc2]
  rw [hw1, hw2]
  have hpix : ∀ i j, i < P.n0 → j < P.n1 →
      pixels (crop P.n0 P.n1 (g.1 - dx / 2 + npad P.n0 P.n1) (g.2 - dy / 2 + npad P.n0 P.n1) (pad (npad P.n0 P.n1) m0 im0)) i j =
      (extended m0 im0 (g.2 - dy / 2 - ((P.n0 / 2 : Nat) : Int) + i) (g.1 - dx / 2 - ((P.n1 / 2 : Nat) : Int) + j) : ℝ) := by
    intro i j hi hj
    unfold pixels
    rw [p3 i j hi hj]
  refine ⟨⟨p1, p2⟩, ⟨q1, q2⟩, ⟨(k : ℝ), ?_⟩, hpix, ?_⟩
  · intro i j hi hj
    rw [hpix i j hi hj]
    unfold pixels
    rw [q3 i j hi hj, hk i j hi hj]
    push_cast
    ring
  · intro d e ht
    apply hp
    intro a b ha hb
    have := ht a b ha hb
    have ia : (((a : ℤ) + e) % P.n0).toNat < P.n0 := index_lt P.n0 h0 _
    have ib : (((b : ℤ) + d) % P.n1).toNat < P.n1 := index_lt P.n1 h1 _
    rw [hpix _ _ ia ib, hpix a b ha hb] at this
    exact this

theorem windows_moved (P : Params) (h0 : 0 < P.n0) (h1 : 0 < P.n1) (m0 m1 : Int) (im0 im1 : Img Int) (dx dy : Int)
    (hm : MovedBy dx dy im0 im1) (g : Int × Int) (hg : GoodVector P.n0 P.n1 im0 dx dy g) :
    let w := windows P m0 m1 im0 im1 (im0.ny, im0.nx) g (dx, dy)
    (w.1.ny = P.n0 ∧ w.1.nx = P.n1) ∧ (w.2.ny = P.n0 ∧ w.2.nx = P.n1) ∧
    ∀ i j, i < P.n0 → j < P.n1 → pixels w.2 i j = pixels w.1 i j + ((m0 : ℝ) - m1) ∧
      pixels w.1 i j = pattern P.n0 P.n1 im0 (g.1 - dx / 2) (g.2 - dy / 2) i j + -(m0 : ℝ) := by
  obtain ⟨b0, b1, _⟩ := hg
  obtain ⟨e1, e2, hpix⟩ := hm
  have b1' : WindowIn P.n0 P.n1 im1 (g.1 - dx / 2 + dx) (g.2 - dy / 2 + dy) := by
    unfold WindowIn at b1 ⊢; rw [e1, e2]; exact b1
  have hc : (centres im0.ny im0.nx g.1 g.2 dx dy).ix0 = g.1 - dx / 2 ∧ (centres im0.ny im0.nx g.1 g.2 dx dy).iy0 = g.2 - dy / 2 := by
    apply (C33_shift im0.ny im0.nx g.1 g.2 dx dy).1
    · obtain ⟨a1, a2, a3, a4⟩ := b1; omega
    · obtain ⟨a1, a2, a3, a4⟩ := b0; omega
  have hw := C33_windows im0.ny im0.nx g.1 g.2 dx dy
  simp only at hw
  have hc1 : (centres im0.ny im0.nx g.1 g.2 dx dy).ix1 = g.1 - dx / 2 + dx := by omega
  have hc2 : (centres im0.ny im0.nx g.1 g.2 dx dy).iy1 = g.2 - dy / 2 + dy := by omega
  obtain ⟨p1, p2, p3⟩ := window_of P.n0 P.n1 h0 h1 m0 im0 (g.1 - dx / 2) (g.2 - dy / 2) (by obtain ⟨a1, a2, a3, a4⟩ := b0; omega)
  obtain ⟨q1, q2, q3⟩ := window_of P.n0 P.n1 h0 h1 m1 im1 (g.1 - dx / 2 + dx) (g.2 - dy / 2 + dy)
    (by obtain ⟨a1, a2, a3, a4⟩ := b1'; omega)
  intro w
  have hw1 : w.1 = crop P.n0 P.n1 (g.1 - dx / 2 + npad P.n0 P.n1) (g.2 - dy / 2 + npad P.n0 P.n1) (pad (npad P.n0 P.n1) m0 im0) := by
    show (windows P m0 m1 im0 im1 (im0.ny, im0.nx) g (dx, dy)).1 = _
    unfold windows; simp only [hc.1, hc.2]
  have hw2 : w.2 = crop P.n0 P.n1 (g.1 - dx / 2 + dx + npad P.n0 P.n1) (g.2 - dy / 2 + dy + npad P.n0 P.n1) (pad (npad P.n0 P.n1) m1 im1) := by
    show (windows P m0 m1 im0 im1 (im0.ny, im0.nx) g (dx, dy)).2 = _
    unfold windows; simp only [hc1, hc2]
  rw [hw1, hw2]
  refine ⟨⟨p1, p2⟩, ⟨q1, q2⟩, ?_⟩
  intro i j hi hj
  obtain ⟨a1, a2, a3, a4⟩ := b0
  obtain ⟨a5, a6, a7, a8⟩ := b1
  have k1 := p3 i j hi hj
  have k2 := q3 i j hi hj
  unfold extended at k1 k2
  rw [if_pos (by omega)] at k1
  rw [if_pos (by omega)] at k2
  have k3 := hpix (g.2 - dy / 2 - ((P.n0 / 2 : Nat) : Int) + i).toNat (g.1 - dx / 2 - ((P.n1 / 2 : Nat) : Int) + j).toNat
    (g.2 - dy / 2 + dy - ((P.n0 / 2 : Nat) : Int) + i).toNat (g.1 - dx / 2 + dx - ((P.n1 / 2 : Nat) : Int) + j).toNat
    (by omega) (by omega) (by omega) (by omega) (by omega) (by omega)
  rw [k3] at k2
  unfold pixels pattern
  rw [k1, k2]
  push_cast
  constructor <;> ring

/-! ## Correlation -/

theorem imMean_add (n0 n1 : ℕ) (h0 : 0 < n0) (h1 : 0 < n1) (f g : ℕ → ℕ → ℝ) (k : ℝ)
    (h : ∀ i j, i < n0 → j < n1 → g i j = f i j + k) : imMean n0 n1 g = imMean n0 n1 f + k := by
  have r0 : (n0 : ℝ) ≠ 0 := by exact_mod_cast h0.ne'
  have r1 : (n1 : ℝ) ≠ 0 := by exact_mod_cast h1.ne'
  unfold imMean
  have e : ∑ i ∈ range n0, ∑ j ∈ range n1, g i j = ∑ i ∈ range n0, ∑ j ∈ range n1, f i j + n0 * n1 * k := by
    have : ∑ i ∈ range n0, ∑ j ∈ range n1, g i j = ∑ i ∈ range n0, ∑ j ∈ range n1, (f i j + k) :=
      sum_congr rfl (fun i hi => sum_congr rfl (fun j hj => h i j (mem_range.1 hi) (mem_range.1 hj)))
    rw [this]
    simp only [sum_add_distrib, sum_const, card_range, nsmul_eq_mul]
    ring
  rw [e]
  field_simp

theorem fluct_add (n0 n1 : ℕ) (h0 : 0 < n0) (h1 : 0 < n1) (f g : ℕ → ℕ → ℝ) (k : ℝ)
    (h : ∀ i j, i < n0 → j < n1 → g i j = f i j + k) (i j : ℕ) (hi : i < n0) (hj : j < n1) :
    fluct n0 n1 g i j = fluct n0 n1 f i j := by
  unfold fluct
  rw [imMean_add n0 n1 h0 h1 f g k h, h i j hi hj]
  ring

theorem circCorrel_add (n0 n1 : ℕ) (h0 : 0 < n0) (h1 : 0 < n1) (f g : ℕ → ℕ → ℝ) (k : ℝ)
    (h : ∀ i j, i < n0 → j < n1 → g i j = f i j + k) (dx dy : ℤ) :
    circCorrel n0 n1 f g dx dy = circCorrel n0 n1 f f dx dy := by
  unfold circCorrel
  apply sum_congr rfl; intro a _
  apply sum_congr rfl; intro b _
  rw [fluct_add n0 n1 h0 h1 f g k h _ _ (index_lt n0 h0 _) (index_lt n1 h1 _)]

theorem circCorrel_self (n0 n1 : ℕ) (h0 : 0 < n0) (h1 : 0 < n1) (f g : ℕ → ℕ → ℝ) (h : ∀ i j, i < n0 → j < n1 → g i j = f i j)
    (dx dy : ℤ) : circCorrel n0 n1 f f dx dy = circCorrel n0 n1 g g dx dy := by
  have h' : ∀ i j, i < n0 → j < n1 → g i j = f i j + 0 := fun i j hi hj => by rw [h i j hi hj]; ring
  unfold circCorrel
  apply sum_congr rfl; intro a ha
  apply sum_congr rfl; intro b hb
  rw [fluct_add n0 n1 h0 h1 f g 0 h' _ _ (index_lt n0 h0 _) (index_lt n1 h1 _),
    fluct_add n0 n1 h0 h1 f g 0 h' a b (mem_range.1 ha) (mem_range.1 hb)]

theorem sumSq_add (n0 n1 : ℕ) (h0 : 0 < n0) (h1 : 0 < n1) (f g : ℕ → ℕ → ℝ) (k : ℝ)
    (h : ∀ i j, i < n0 → j < n1 → g i j = f i j + k) : sumSq n0 n1 g = sumSq n0 n1 f := by
  unfold sumSq
  apply sum_congr rfl; intro a ha
  apply sum_congr rfl; intro b hb
  rw [fluct_add n0 n1 h0 h1 f g k h _ _ (mem_range.1 ha) (mem_range.1 hb)]

/-- The circular correlation of an image with itself is symmetric. -/
theorem circCorrel_symm (n0 n1 : ℕ) (h0 : 0 < n0) (h1 : 0 < n1) (f : ℕ → ℕ → ℝ) (dx dy : ℤ) :
    circCorrel n0 n1 f f (-dx) (-dy) = circCorrel n0 n1 f f dx dy := by
  unfold circCorrel
  rw [← sum_translate2 n0 n1 h0 h1 (-dx) (-dy) (fun a b => fluct n0 n1 f a b *
    fluct n0 n1 f (((a : ℤ) + dy) % n0).toNat (((b : ℤ) + dx) % n1).toNat)]
  apply sum_congr rfl; intro a ha
  apply sum_congr rfl; intro b hb
  have ea : (((a : ℤ) + 0) % n0).toNat = a := by
    rw [add_zero, Int.emod_eq_of_lt (by omega) (by have := mem_range.1 ha; omega)]; simp
  have eb : (((b : ℤ) + 0) % n1).toNat = b := by
    rw [add_zero, Int.emod_eq_of_lt (by omega) (by have := mem_range.1 hb; omega)]; simp
  rw [index_add n0 h0, index_add n1 h1, neg_add_cancel, neg_add_cancel, ea, eb, mul_comm]

theorem noPeriod_add (n0 n1 : ℕ) (h0 : 0 < n0) (h1 : 0 < n1) (f g : ℕ → ℕ → ℝ) (k : ℝ)
    (h : ∀ i j, i < n0 → j < n1 → g i j = f i j + k) (hp : NoPeriod n0 n1 f) : NoPeriod n0 n1 g := by
  intro dx dy ht
  apply hp
  intro a b ha hb
  have := ht a b ha hb
  rw [h _ _ (index_lt n0 h0 _) (index_lt n1 h1 _), h a b ha hb] at this
  linarith

theorem self_translated (n0 n1 : ℕ) (f : ℕ → ℕ → ℝ) : TranslatedBy n0 n1 0 0 f f := by
  intro a b ha hb
  rw [add_zero, add_zero, Int.emod_eq_of_lt (by omega) (by omega), Int.emod_eq_of_lt (by omega) (by omega)]
  simp

/-- The factor between the map and the circular correlation. -/
def factor (P : Params) : ℚ := match P.lib with
  | .numpy => 1
  | .fftw => (P.n1 : ℚ) * P.n0

theorem factor_pos (P : Params) (h0 : 0 < P.n0) (h1 : 0 < P.n1) : 0 < factor P := by
  have r0 : (0 : ℚ) < P.n0 := by exact_mod_cast h0
  have r1 : (0 : ℚ) < P.n1 := by exact_mod_cast h1
  unfold factor
  split
  · exact one_pos
  · positivity

/-- The map of two windows which are the same up to a constant. -/
theorem corr_value (P : Params) (hr : Exact P.rnd) (h0 : 0 < P.n0) (h1 : 0 < P.n1) (w0 w1 : Img Int) (k : ℝ)
    (h : ∀ i j, i < P.n0 → j < P.n1 → pixels w1 i j = pixels w0 i j + k) (i j : ℕ) (hi : i < P.n0) (hj : j < P.n1) :
    ∃ q : ℚ, (corr P w0 w1).1.get i j = some q ∧
      (q : ℝ) = (factor P : ℝ) * circCorrel P.n0 P.n1 (pixels w0) (pixels w0)
        ((Correl.fftCls P.n0 P.n1 none 0 0).displacement j i).1 ((Correl.fftCls P.n0 P.n1 none 0 0).displacement j i).2 := by
  have hq : ∀ d e : ℤ, circCorrel P.n0 P.n1 (pixels w0) (pixels w0) d e =
      ((circCorrelQ P.n0 P.n1 (fun i j => (w0.get i j : ℚ)) (fun i j => (w0.get i j : ℚ)) d e : ℚ) : ℝ) := by
    intro d e
    rw [circCorrelQ_cast]
    have : toR (fun i j => (w0.get i j : ℚ)) = pixels w0 := by
      funext i j; unfold toR pixels; push_cast; rfl
    rw [this]
  have key : ∀ d e : ℤ, (factor P : ℝ) * circCorrel P.n0 P.n1 (pixels w0) (pixels w1) d e =
      ((factor P * circCorrelQ P.n0 P.n1 (fun i j => (w0.get i j : ℚ)) (fun i j => (w0.get i j : ℚ)) d e : ℚ) : ℝ) := by
    intro d e
    rw [circCorrel_add P.n0 P.n1 h0 h1 _ _ k h, hq]
    push_cast; rfl
  refine ⟨_, rfl, ?_⟩
  unfold factor at key ⊢
  cases hl : P.lib with
  | numpy =>
    simp only [hl] at key ⊢
    rw [C65_numpy P.junk P.n0 P.n1 _ _ i j hi hj]
    have k1 := key ((Correl.fftCls P.n0 P.n1 none 0 0).displacement j i).1 ((Correl.fftCls P.n0 P.n1 none 0 0).displacement j i).2
    rw [Rat.cast_one, one_mul] at k1
    rw [k1, hr, ← k1, circCorrel_add P.n0 P.n1 h0 h1 _ _ k h, Rat.cast_one, one_mul]
  | fftw =>
    simp only [hl] at key ⊢
    rw [C65_fftw P.junk P.n0 P.n1 _ _ i j hi hj]
    have k1 := key ((Correl.fftCls P.n0 P.n1 none 0 0).displacement j i).1 ((Correl.fftCls P.n0 P.n1 none 0 0).displacement j i).2
    have e : (((P.n1 : ℚ) * P.n0 : ℚ) : ℝ) = (P.n1 : ℝ) * P.n0 := by push_cast; rfl
    rw [e] at k1 ⊢
    rw [k1, hr, ← k1, circCorrel_add P.n0 P.n1 h0 h1 _ _ k h]

/-- The norm of two windows which are the same up to a constant. -/
theorem corr_norm (P : Params) (hr : Exact P.rnd) (h0 : 0 < P.n0) (h1 : 0 < P.n1) (hl : P.lib = .numpy ∨ P.n1 % 2 = 0)
    (w0 w1 : Img Int) (k : ℝ) (h : ∀ i j, i < P.n0 → j < P.n1 → pixels w1 i j = pixels w0 i j + k) :
    ((corr P w0 w1).2 : ℝ) = (factor P : ℝ) * sumSq P.n0 P.n1 (pixels w0) := by
  have hq : sumSq P.n0 P.n1 (pixels w0) =
      ((circCorrelQ P.n0 P.n1 (fun i j => (w0.get i j : ℚ)) (fun i j => (w0.get i j : ℚ)) 0 0 : ℚ) : ℝ) := by
    rw [circCorrelQ_cast]
    have : toR (fun i j => (w0.get i j : ℚ)) = pixels w0 := by
      funext i j; unfold toR pixels; push_cast; rfl
    rw [this, circCorrel_translated P.n0 P.n1 h0 h1 0 0 _ _ (self_translated _ _ _)]
  have key : (factor P : ℝ) * sumSq P.n0 P.n1 (pixels w0) =
      ((factor P * circCorrelQ P.n0 P.n1 (fun i j => (w0.get i j : ℚ)) (fun i j => (w0.get i j : ℚ)) 0 0 : ℚ) : ℝ) := by
    rw [hq]; push_cast; rfl
  have hs := sumSq_add P.n0 P.n1 h0 h1 _ _ k h
  unfold corr
  unfold factor at key ⊢
  cases hl' : P.lib with
  | numpy =>
    simp only [hl'] at key ⊢
    rw [Rat.cast_one, one_mul] at key ⊢
    rw [C66_norm_numpy P.junk P.n0 P.n1 h0 h1, hs, Real.sqrt_mul_self (sumSq_nonneg _ _ _), key, hr]
  | fftw =>
    have heven : P.n1 % 2 = 0 := by
      rcases hl with hl | hl
      · rw [hl'] at hl; cases hl
      · exact hl
    simp only [hl'] at key ⊢
    have e : (((P.n1 : ℚ) * P.n0 : ℚ) : ℝ) = (P.n1 : ℝ) * P.n0 := by push_cast; rfl
    rw [e] at key ⊢
    rw [C66_norm_fftw P.junk P.n0 P.n1 h0 h1 heven, hs, Real.sqrt_mul_self (sumSq_nonneg _ _ _), key, hr]

/-! ## The displacement of one vector -/

theorem insideHalf_zero (n : ℕ) (h : 4 ≤ n) : InsideHalf n 0 := by
  unfold InsideHalf; omega

theorem allowedAround_zero (dmax : Option ℚ) (n : ℕ) (hn : 1 ≤ n) (h : AllowsSquare dmax n) : AllowedAround dmax 0 0 := by
  intro m hm
  obtain ⟨h1, h2⟩ := h m hm
  refine ⟨h1, ?_⟩
  intro ex ey hx hy
  rw [abs_le] at hx hy
  have k1 : (0 + ex) ^ 2 + (0 + ey) ^ 2 ≤ (2 : ℤ) := by nlinarith [hx.1, hx.2, hy.1, hy.2]
  have k2 : (((0 + ex) ^ 2 + (0 + ey) ^ 2 : ℤ) : ℚ) ≤ ((2 : ℤ) : ℚ) := by exact_mod_cast k1
  have k3 : (1 : ℚ) ≤ n := by exact_mod_cast hn
  push_cast at k2 ⊢
  nlinarith

theorem peaks_eq (P : Params) (c : Map) (norm : ℚ) : peaks P c norm =
    match displacements (Correl.fftCls P.n0 P.n1 P.dmax P.radius P.nbPeaks) (masked P.n0 P.n1 P.dmax c) norm,
      firstPeak (Correl.fftCls P.n0 P.n1 P.dmax P.radius P.nbPeaks) (masked P.n0 P.n1 P.dmax c) norm with
    | .ok (d, o), .ok (_, c) => .ok (d, o, c)
    | .ok _, .error e => .error e
    | .error e, _ => .error e := by
  unfold peaks masked
  cases P.dmax <;> rfl

theorem peaks_found (P : Params) (hr : Exact P.rnd) (h0 : 4 ≤ P.n0) (h1 : 4 ≤ P.n1) (hd : AllowsSquare P.dmax 1)
    (w0 w1 : Img Int) (k : ℝ) (h : ∀ i j, i < P.n0 → j < P.n1 → pixels w1 i j = pixels w0 i j + k)
    (hp : NoPeriod P.n0 P.n1 (pixels w0)) :
    ∃ x, ((P.lib = .numpy ∨ P.n1 % 2 = 0) → x = some 1) ∧
      (P.nbPeaks = 1 → peaks P (corr P w0 w1).1 (corr P w0 w1).2 =
        .ok (⟨0, 0, x⟩, none, masked P.n0 P.n1 P.dmax (corr P w0 w1).1)) ∧
      (∀ r, peaks P (corr P w0 w1).1 (corr P w0 w1).2 = .ok r →
        r.1 = ⟨0, 0, x⟩ ∧ r.2.2 = masked P.n0 P.n1 P.dmax (corr P w0 w1).1) ∧
      ∀ m d, peaks P (corr P w0 w1).1 (corr P w0 w1).2 ≠ .error (.piv m d) := by
  have hf := factor_pos P (by omega) (by omega)
  obtain ⟨q, hq, p, hpk, hdisp⟩ := recover_peak P.n0 P.n1 (pixels w0) (pixels w0) 0 0 (factor P : ℝ) (by exact_mod_cast hf)
    (self_translated _ _ _) hp (insideHalf_zero _ h1) (insideHalf_zero _ h0) P.dmax (allowedAround_zero P.dmax 1 le_rfl hd) P.radius P.nbPeaks
    (corr P w0 w1).1 (corr P w0 w1).2 rfl rfl
    (fun i j hi hj => corr_value P hr (by omega) (by omega) w0 w1 k h i j hi hj)
  have hff : firstPeak (Correl.fftCls P.n0 P.n1 P.dmax P.radius P.nbPeaks) (masked P.n0 P.n1 P.dmax (corr P w0 w1).1) (corr P w0 w1).2
      = .ok (p, masked P.n0 P.n1 P.dmax (corr P w0 w1).1) := by
    unfold firstPeak; rw [hpk]
  obtain ⟨d1, d2⟩ := displacements_first hpk
  have he : peaks P (corr P w0 w1).1 (corr P w0 w1).2 =
      match displacements (Correl.fftCls P.n0 P.n1 P.dmax P.radius P.nbPeaks) (masked P.n0 P.n1 P.dmax (corr P w0 w1).1) (corr P w0 w1).2 with
      | .ok (d, o) => .ok (d, o, masked P.n0 P.n1 P.dmax (corr P w0 w1).1)
      | .error e => .error e := by
    rw [peaks_eq, hff]
    cases displacements (Correl.fftCls P.n0 P.n1 P.dmax P.radius P.nbPeaks) (masked P.n0 P.n1 P.dmax (corr P w0 w1).1) (corr P w0 w1).2 <;> rfl
  rw [he]
  refine ⟨if (corr P w0 w1).2 = 0 then some 0 else some (q / (corr P w0 w1).2), ?_, ?_, ?_, ?_⟩
  · intro hl
    have hn := corr_norm P hr (by omega) (by omega) hl w0 w1 k h
    have hqn : q = (corr P w0 w1).2 := by
      have : (q : ℝ) = ((corr P w0 w1).2 : ℝ) := by rw [hq, hn]
      exact_mod_cast this
    have hs := sumSq_pos P.n0 P.n1 (by omega) (by omega) (pixels w0) hp
    have hnz : (corr P w0 w1).2 ≠ 0 := by
      intro hz
      rw [hz, Rat.cast_zero] at hn
      rcases mul_eq_zero.1 hn.symm with h | h
      · have : (factor P : ℝ) ≠ 0 := by exact_mod_cast hf.ne'
        exact this h
      · exact hs h
    rw [if_neg hnz, hqn, div_self hnz]
  · intro hnb
    rw [d1 hnb, hdisp]
  · intro r hrr
    cases hdd : displacements (Correl.fftCls P.n0 P.n1 P.dmax P.radius P.nbPeaks) (masked P.n0 P.n1 P.dmax (corr P w0 w1).1) (corr P w0 w1).2 with
    | error e => rw [hdd] at hrr; cases hrr
    | ok v =>
      rw [hdd] at hrr
      injection hrr with hrr
      have := d2 v hdd
      rw [hdisp] at this
      rw [← hrr]
      exact ⟨this, rfl⟩
  · intro m d hc
    have hne : ∀ m d, displacements (Correl.fftCls P.n0 P.n1 P.dmax P.radius P.nbPeaks) (masked P.n0 P.n1 P.dmax (corr P w0 w1).1) (corr P w0 w1).2
        ≠ .error (.piv m d) := by
      intro m d
      unfold displacements
      rw [hff]
      simp only
      split
      · intro hc; cases hc
      · split
        · split
          · intro hc; cases hc
          · intro hc; cases hc
        · intro hc; cases hc
    split at hc
    · cases hc
    · rename_i e hdd
      injection hc with hc
      subst hc
      exact hne m d hdd

/-- The map around the peak: no NaN, symmetric, proportional to the correlation of the first window with itself. -/
theorem map_symmetric (P : Params) (hr : Exact P.rnd) (hn : 1 ≤ P.nsub) (h0 : P.nsub + 1 ≤ P.n0 / 2) (h1 : P.nsub + 1 ≤ P.n1 / 2)
    (hd : AllowsSquare P.dmax P.nsub)
    (w0 w1 : Img Int) (k : ℝ) (h : ∀ i j, i < P.n0 → j < P.n1 → pixels w1 i j = pixels w0 i j + k) :
    let c := masked P.n0 P.n1 P.dmax (corr P w0 w1).1
    ¬ HasNan P.nsub c (centre P.n1) (centre P.n0) ∧ IsSymmetric P.nsub (realMap c) (centre P.n1) (centre P.n0) ∧
    Verif.InMap P.nsub (realMap c) (centre P.n1) (centre P.n0) ∧
    ∀ x y : Int, |x| ≤ P.nsub → |y| ≤ P.nsub → (factor P : ℝ) * circCorrel P.n0 P.n1 (pixels w0) (pixels w0) x y =
      (realMap c).val (centre P.n0 + y) (centre P.n1 + x) := by
  intro c
  have hval : ∀ x y : Int, |x| ≤ P.nsub → |y| ≤ P.nsub → ∃ q : ℚ,
      c.get (centre P.n0 + y).toNat (centre P.n1 + x).toNat = some q ∧
      (q : ℝ) = (factor P : ℝ) * circCorrel P.n0 P.n1 (pixels w0) (pixels w0) (-x) (-y) := by
    intro x y hx hy
    rw [abs_le] at hx hy
    obtain ⟨i, hi⟩ : ∃ i : ℕ, (i : ℤ) = centre P.n0 + y := ⟨(centre P.n0 + y).toNat, by unfold centre; omega⟩
    obtain ⟨j, hj⟩ : ∃ j : ℕ, (j : ℤ) = centre P.n1 + x := ⟨(centre P.n1 + x).toNat, by unfold centre; omega⟩
    rw [← hi, ← hj, Int.toNat_natCast, Int.toNat_natCast]
    unfold centre at hi hj
    obtain ⟨q, g1, g2⟩ := corr_value P hr (by omega) (by omega) w0 w1 k h i j (by omega) (by omega)
    have ed : (Correl.fftCls P.n0 P.n1 none 0 0).displacement j i = (-x, -y) := by
      show ((P.n1 : ℤ) / 2 - 1 - j, (P.n0 : ℤ) / 2 - 1 - i) = (-x, -y)
      rw [hi, hj]; congr 1 <;> ring
    rw [ed] at g2
    refine ⟨q, ?_, g2⟩
    show (masked P.n0 P.n1 P.dmax (corr P w0 w1).1).get i j = some q
    unfold masked
    split
    · exact g1
    · rename_i m hm
      obtain ⟨m0, m1⟩ := hd m hm
      refine ((maskLarge_get P.n0 P.n1 m (corr P w0 w1).1 i j).2 q).2 ⟨g1, m0, ?_⟩
      have e1 : (P.n1 : ℤ) / 2 - 1 - j = -x := by omega
      have e2 : (P.n0 : ℤ) / 2 - 1 - i = -y := by omega
      rw [e1, e2]
      have k1 : (-x) ^ 2 + (-y) ^ 2 ≤ (2 * (P.nsub : ℤ) ^ 2 : ℤ) := by nlinarith [hx.1, hx.2, hy.1, hy.2]
      have k2 : (((-x) ^ 2 + (-y) ^ 2 : ℤ) : ℚ) ≤ ((2 * (P.nsub : ℤ) ^ 2 : ℤ) : ℚ) := by exact_mod_cast k1
      push_cast at k2 ⊢
      linarith
  refine ⟨?_, ?_, ?_, ?_⟩
  · rintro ⟨x, y, hx, hy, hnone⟩
    obtain ⟨q, g, _⟩ := hval x y hx hy
    rw [g] at hnone; cases hnone
  · intro x y hx hy
    obtain ⟨q, g1, g2⟩ := hval x y hx hy
    obtain ⟨q', g1', g2'⟩ := hval (-x) (-y) (by rwa [abs_neg]) (by rwa [abs_neg])
    show (((c.get (centre P.n0 + y).toNat (centre P.n1 + x).toNat).getD 0 : ℚ) : ℝ) =
      (((c.get (centre P.n0 - y).toNat (centre P.n1 - x).toNat).getD 0 : ℚ) : ℝ)
    rw [sub_eq_add_neg, sub_eq_add_neg, g1, g1', Option.getD_some, Option.getD_some, g2, g2', neg_neg, neg_neg,
      circCorrel_symm P.n0 P.n1 (by omega) (by omega)]
  · have ey : (realMap c).ny = P.n0 := by
      show (masked P.n0 P.n1 P.dmax (corr P w0 w1).1).ny = P.n0
      unfold masked; split <;> rfl
    have ex : (realMap c).nx = P.n1 := by
      show (masked P.n0 P.n1 P.dmax (corr P w0 w1).1).nx = P.n1
      unfold masked; split <;> rfl
    unfold InMap centre
    rw [ey, ex]
    omega
  · intro x y hx hy
    obtain ⟨q, g1, g2⟩ := hval x y hx hy
    show _ = (((c.get (centre P.n0 + y).toNat (centre P.n1 + x).toNat).getD 0 : ℚ) : ℝ)
    rw [g1, Option.getD_some, g2, circCorrel_symm P.n0 P.n1 (by omega) (by omega)]

/-- The sub-pixel refinement of the peak. -/
theorem subpix_zero (P : Params) (hr : Exact P.rnd) (nsubpix : Option Nat) (hc : Subpix.construct P.method nsubpix = .ok P.nsub)
    (hpi : IsPinv (Subpix.design P.nsub) P.pinv) (hn : 1 ≤ P.nsub) (h0 : P.nsub + 1 ≤ P.n0 / 2) (h1 : P.nsub + 1 ≤ P.n1 / 2)
    (hd : AllowsSquare P.dmax P.nsub)
    (w0 w1 : Img Int) (k : ℝ) (h : ∀ i j, i < P.n0 → j < P.n1 → pixels w1 i j = pixels w0 i j + k) :
    (subpix P 0 0 (masked P.n0 P.n1 P.dmax (corr P w0 w1).1) = .ok (some (0, 0)) ∨
      subpix P 0 0 (masked P.n0 P.n1 P.dmax (corr P w0 w1).1) = .ok none) ∧
    (NotLost P.method P.nsub (circCorrel P.n0 P.n1 (pixels w0) (pixels w0)) →
      subpix P 0 0 (masked P.n0 P.n1 P.dmax (corr P w0 w1).1) = .ok (some (0, 0))) := by
  obtain ⟨hnan, hsym, hin, hval⟩ := map_symmetric P hr hn h0 h1 hd w0 w1 k h
  generalize masked P.n0 P.n1 P.dmax (corr P w0 w1).1 = c at *
  obtain ⟨hor, -⟩ := C109_symmetric P.method nsubpix P.nsub hc hn P.pinv hpi (realMap c) (centre P.n1) (centre P.n0) hin hsym
  have hi : (Correl.fftCls P.n0 P.n1 P.dmax P.radius P.nbPeaks).indices 0 0 = (centre P.n1, centre P.n0) := by
    unfold Cls.indices fftCls; simp
  have hfin : Subpix.computeSubpix P.method P.nsub P.pinv (realMap c) (centre P.n1) (centre P.n0) = .ok (.fin (centre P.n1 : ℤ) (centre P.n0 : ℤ)) →
      subpix P 0 0 c = .ok (some (0, 0)) := by
    intro hf
    unfold subpix
    simp only [hi, hf]
    rw [if_neg (by rintro ⟨_, hh⟩; rw [hi] at hh; exact hnan hh)]
    have e : ∀ z : ℤ, P.rnd (z : ℝ) = z := by
      intro z
      have := hr (z : ℚ)
      rwa [Rat.cast_intCast] at this
    rw [e, e]
    show (Except.ok (some (((centre P.n1 : ℤ) : ℚ) - (centre P.n1 : ℤ), ((centre P.n0 : ℤ) : ℚ) - (centre P.n0 : ℤ))) : Except SubErr (Option (ℚ × ℚ))) = _
    rw [sub_self, sub_self]
  constructor
  · rcases hor with hf | hf
    · exact .inl (hfin hf)
    · right
      unfold subpix
      simp only [hi, hf]
      split <;> rfl
  · intro hm
    exact hfin (C109_found P.method nsubpix P.nsub hc hn P.pinv hpi (realMap c) (centre P.n1) (centre P.n0) hin hsym
      (notLost_congr hn hval (notLost_scale (by exact_mod_cast factor_pos P (by omega) (by omega)) hm)))

theorem roundEven_close (a : ℚ) (d : Int) (h : |a - d| < 1 / 2) : TimeFormat.roundEven a = d := by
  have h1 := roundEven_near a
  rw [abs_lt] at h
  have h2 : |(TimeFormat.roundEven a : ℚ) - d| < 1 := by
    have := abs_le.mp h1
    rw [abs_lt]
    constructor <;> linarith [this.1, this.2, h.1, h.2]
  have h3 : |TimeFormat.roundEven a - d| < 1 := by exact_mod_cast h2
  rw [abs_lt] at h3
  omega

end LaterPass

/-- The windows of a good vector show the same pattern, when the second image is the first one moved by `(dx, dy)`. -/
theorem GoodVector.same {n0 n1 : Nat} (h0 : 0 < n0) (h1 : 0 < n1) (m0 m1 : Int) {im0 im1 : Img Int} {dx dy : Int} {g : Int × Int}
    (hg : GoodVector n0 n1 im0 dx dy g) (hm : MovedBy dx dy im0 im1) : SameWindows n0 n1 m0 m1 im0 im1 dx dy g := by
  obtain ⟨⟨a1, a2, a3, a4⟩, ⟨a5, a6, a7, a8⟩, hp⟩ := hg
  obtain ⟨e1, e2, hpix⟩ := hm
  refine ⟨⟨e1, e2⟩, by omega, by omega, ⟨m0 - m1, ?_⟩, ?_⟩
  · intro i j hi hj
    unfold extended
    rw [if_pos (by omega), if_pos (by omega),
      hpix (g.2 - dy / 2 - ((n0 / 2 : Nat) : Int) + i).toNat (g.1 - dx / 2 - ((n1 / 2 : Nat) : Int) + j).toNat
        (g.2 - dy / 2 + dy - ((n0 / 2 : Nat) : Int) + i).toNat (g.1 - dx / 2 + dx - ((n1 / 2 : Nat) : Int) + j).toNat
        (by omega) (by omega) (by omega) (by omega) (by omega) (by omega)]
    ring
  · refine LaterPass.noPeriod_add n0 n1 h0 h1 _ _ (-(m0 : ℝ)) ?_ hp
    intro i j hi hj
    unfold extended pattern
    rw [if_pos (by omega)]
    push_cast
    ring

/-! ## C111 -/

open LaterPass in
/-- The iteration of the loop for a vector. -/
theorem run_vector {P : Params} {junk : Nat → Option ℚ} {nanInt m0 m1 : Int} {im0 im1 : Img Int} {shape : Nat × Nat}
    {points : List (Int × Int)} {approx : List ApplyInterp.Delta} {s : State}
    (hs : run P junk nanInt m0 m1 im0 im1 shape points approx = .ok s) {i : Nat} {g : Int × Int} {a : ApplyInterp.Delta}
    (hg : points[i]? = some g) (ha : approx[i]? = some a) :
    ∃ s1, LoopVectors.loopVectors (env P) junk [windows P m0 m1 im0 im1 shape g (toInt nanInt a.1, toInt nanInt a.2)] none = .ok s1 ∧
      s.deltaxs i = (s1.deltaxs 0).map (· + (toInt nanInt a.1 : ℚ)) ∧ s.deltays i = (s1.deltays 0).map (· + (toInt nanInt a.2 : ℚ)) ∧
      s.correlsMax i = s1.correlsMax 0 ∧ s.errors.get? i = s1.errors.get? 0 := by
  unfold run at hs
  simp only at hs
  have hw : (List.zipWith (windows P m0 m1 im0 im1 shape) points (approx.map fun a => (toInt nanInt a.1, toInt nanInt a.2)))[i]? =
      some (windows P m0 m1 im0 im1 shape g (toInt nanInt a.1, toInt nanInt a.2)) := by
    rw [List.getElem?_zipWith, hg, List.getElem?_map, ha]; rfl
  have hd : (approx.map fun a => (toInt nanInt a.1, toInt nanInt a.2)).getD i (0, 0) = (toInt nanInt a.1, toInt nanInt a.2) := by
    rw [List.getD_eq_getElem?_getD, List.getElem?_map, ha]; rfl
  generalize List.zipWith (windows P m0 m1 im0 im1 shape) points (approx.map fun a => (toInt nanInt a.1, toInt nanInt a.2)) = ws at hs hw
  cases hl : LoopVectors.loopVectors (env P) junk ws none with
  | error e =>
    exfalso
    unfold LoopVectors.loopVectors at hl hs
    cases h : LoopVectors.loop (env P) 0 ws (State.init junk) with
    | error e' => rw [h] at hs; cases hs
    | ok s' => rw [h] at hl; cases hl
  | ok s0 =>
    obtain ⟨e1, e2, e3, e4⟩ := C34_input (env P) junk ws _ _ s0 s hl hs i
    have hi : i < ws.length := (List.getElem?_eq_some_iff.1 hw).1
    have hwi : ws[i] = _ := (List.getElem?_eq_some_iff.1 hw).2
    obtain ⟨s1, g1, g2⟩ := ((C34_partial (env P) junk junk ws).1 s0 hl).1 i hi
    rw [hwi] at g1
    unfold view at g2
    injection g2 with v1 v2 v3 v4 v5
    refine ⟨s1, g1, ?_, ?_, ?_, ?_⟩
    · rw [e1, v1, hd]
    · rw [e2, v2, hd]
    · rw [e3, v3]
    · rw [e4, v4]

open LaterPass in
/-- C111, passes which are not the last one.  When the two images show the same pattern in the windows displaced by `(dx, dy)`
pixels (`SameWindows`: in particular when the second image is the first one moved by `(dx, dy)` and the windows are inside the
images, `GoodVector.same`), and the estimate for a vector is at less than half a pixel of `(dx, dy)`, the pass finds exactly
`(dx, dy)` for this vector, without error.  The correlation is 1 (with fftw: for an even number of columns). -/
theorem C111_not_last (P : Params) (hr : Exact P.rnd) (h0 : 4 ≤ P.n0) (h1 : 4 ≤ P.n1) (hd : AllowsSquare P.dmax 1)
    (hl : P.last = false) (junk : Nat → Option ℚ) (nanInt m0 m1 : Int) (im0 im1 : Img Int) (dx dy : Int)
    (points : List (Int × Int)) (approx : List ApplyInterp.Delta) (s : State)
    (hs : run P junk nanInt m0 m1 im0 im1 (im0.ny, im0.nx) points approx = .ok s)
    (i : Nat) (g : Int × Int) (a : ApplyInterp.Delta) (hg : points[i]? = some g) (ha : approx[i]? = some a)
    (hn : NearTo dx dy a) (hv : SameWindows P.n0 P.n1 m0 m1 im0 im1 dx dy g) :
    s.deltaxs i = some (dx : ℚ) ∧ s.deltays i = some (dy : ℚ) ∧ s.errors.get? i = none ∧
    ((P.lib = .numpy ∨ P.n1 % 2 = 0) → s.correlsMax i = some 1) := by
  obtain ⟨ax, ay, rfl, n1, n2⟩ := hn
  obtain ⟨s1, g1, g2, g3, g4, g5⟩ := run_vector hs hg ha
  have t1 : toInt nanInt (some ax, some ay).1 = dx := roundEven_close ax dx n1
  have t2 : toInt nanInt (some ax, some ay).2 = dy := roundEven_close ay dy n2
  rw [t1, t2] at g1
  rw [t1] at g2
  rw [t2] at g3
  obtain ⟨w1, w2, ⟨k, w3⟩, _, hp⟩ := windows_same P (by omega) (by omega) m0 m1 im0 im1 dx dy g hv
  generalize windows P m0 m1 im0 im1 (im0.ny, im0.nx) g (dx, dy) = w at *
  obtain ⟨x, x1, x2, x3, x4⟩ := peaks_found P hr h0 h1 hd w.1 w.2 _ w3 hp
  obtain ⟨o1, o2, o3, o4⟩ := C34_one_vector (env P) junk w
  cases hpk : peaks P (corr P w.1 w.2).1 (corr P w.1 w.2).2 with
  | error e =>
    cases e with
    | py e =>
      have := o3 ⟨w1, w2⟩ e hpk
      rw [this] at g1; cases g1
    | piv m d => exact absurd hpk (x4 m d)
  | ok r =>
    obtain ⟨d, o, c⟩ := r
    obtain ⟨k1, k2⟩ := x3 _ hpk
    have hnone : (env P).subpix = none := by unfold env; rw [hl]; rfl
    obtain ⟨s', l1, l2⟩ := (o4 ⟨w1, w2⟩ d o c hpk).1 hnone
    rw [l1] at g1
    injection g1 with g1
    subst g1
    unfold view at l2
    injection l2 with v1 v2 v3 v4 v5
    simp only at k1
    rw [g2, g3, g4, g5, v1, v2, v3, v4, k1]
    refine ⟨by simp, by simp, rfl, x1⟩

open LaterPass in
/-- The values for a vector of the last pass, from the sub-pixel refinement of its peak. -/
theorem last_view (P : Params) (hr : Exact P.rnd) (h0 : 4 ≤ P.n0) (h1 : 4 ≤ P.n1) (hd1 : AllowsSquare P.dmax 1)
    (hl : P.last = true) (junk : Nat → Option ℚ) (nanInt m0 m1 : Int) (im0 im1 : Img Int) (dx dy : Int)
    (points : List (Int × Int)) (approx : List ApplyInterp.Delta) (s : State)
    (hs : run P junk nanInt m0 m1 im0 im1 (im0.ny, im0.nx) points approx = .ok s)
    (i : Nat) (g : Int × Int) (a : ApplyInterp.Delta) (hg : points[i]? = some g) (ha : approx[i]? = some a)
    (hn : NearTo dx dy a) (hv : SameWindows P.n0 P.n1 m0 m1 im0 im1 dx dy g) (r : Option (ℚ × ℚ))
    (hsub : subpix P 0 0 (masked P.n0 P.n1 P.dmax (corr P (windows P m0 m1 im0 im1 (im0.ny, im0.nx) g (dx, dy)).1
      (windows P m0 m1 im0 im1 (im0.ny, im0.nx) g (dx, dy)).2).1) = .ok r) :
    s.deltaxs i = r.map (fun r => r.1 + (dx : ℚ)) ∧ s.deltays i = r.map (fun r => r.2 + (dy : ℚ)) ∧ s.errors.get? i = none ∧
    ((P.lib = .numpy ∨ P.n1 % 2 = 0) → s.correlsMax i = some 1) := by
  obtain ⟨ax, ay, rfl, n1, n2⟩ := hn
  obtain ⟨s1, g1, g2, g3, g4, g5⟩ := run_vector hs hg ha
  have t1 : toInt nanInt (some ax, some ay).1 = dx := roundEven_close ax dx n1
  have t2 : toInt nanInt (some ax, some ay).2 = dy := roundEven_close ay dy n2
  rw [t1, t2] at g1
  rw [t1] at g2
  rw [t2] at g3
  obtain ⟨w1, w2, ⟨k, w3⟩, _, hp⟩ := windows_same P (by omega) (by omega) m0 m1 im0 im1 dx dy g hv
  generalize windows P m0 m1 im0 im1 (im0.ny, im0.nx) g (dx, dy) = w at *
  obtain ⟨x, x1, x2, x3, x4⟩ := peaks_found P hr h0 h1 hd1 w.1 w.2 _ w3 hp
  obtain ⟨o1, o2, o3, o4⟩ := C34_one_vector (env P) junk w
  cases hpk : peaks P (corr P w.1 w.2).1 (corr P w.1 w.2).2 with
  | error e =>
    cases e with
    | py e =>
      have := o3 ⟨w1, w2⟩ e hpk
      rw [this] at g1; cases g1
    | piv m d => exact absurd hpk (x4 m d)
  | ok r' =>
    obtain ⟨d, o, c⟩ := r'
    obtain ⟨k1, k2⟩ := x3 _ hpk
    simp only at k1 k2
    subst k2
    have hsome : (env P).subpix = some (subpix P) := by unfold env; rw [hl]; rfl
    have hrr' : subpix P d.dx d.dy (masked P.n0 P.n1 P.dmax (corr P w.1 w.2).1) = .ok r := by rw [k1]; exact hsub
    obtain ⟨s', l1, l2⟩ := ((o4 ⟨w1, w2⟩ d o _ hpk).2 _ hsome).2 r hrr'
    rw [l1] at g1
    injection g1 with g1
    subst g1
    unfold view at l2
    injection l2 with v1 v2 v3 v4 v5
    rw [g2, g3, g4, g5, v1, v2, v3, v4, k1]
    refine ⟨?_, ?_, rfl, x1⟩
    · cases r <;> rfl
    · cases r <;> rfl

open LaterPass in
/-- C111, last pass.  The same with the sub-pixel refinement, for all the methods: the refined displacement is exactly
`(dx, dy)`, or NaN; it is not NaN with the method "no_subpix", with the default method if the correlation of the pattern with
itself is sharp, and with the other methods if the sum of this correlation around its peak is not zero (`KeptPeak`).  There is no
error in all cases.  Missing: the vectors which are NaN (`C111_nan_fails`). -/
theorem C111_last_partial (P : Params) (hr : Exact P.rnd) (nsubpix : Option Nat) (hc : Subpix.construct P.method nsubpix = .ok P.nsub)
    (hpi : IsPinv (Subpix.design P.nsub) P.pinv) (hns : 1 ≤ P.nsub) (h0 : P.nsub + 1 ≤ P.n0 / 2) (h1 : P.nsub + 1 ≤ P.n1 / 2)
    (hd : AllowsSquare P.dmax P.nsub)
    (hl : P.last = true) (junk : Nat → Option ℚ) (nanInt m0 m1 : Int) (im0 im1 : Img Int) (dx dy : Int)
    (points : List (Int × Int)) (approx : List ApplyInterp.Delta) (s : State)
    (hs : run P junk nanInt m0 m1 im0 im1 (im0.ny, im0.nx) points approx = .ok s)
    (i : Nat) (g : Int × Int) (a : ApplyInterp.Delta) (hg : points[i]? = some g) (ha : approx[i]? = some a)
    (hn : NearTo dx dy a) (hv : SameWindows P.n0 P.n1 m0 m1 im0 im1 dx dy g) :
    ((s.deltaxs i = some (dx : ℚ) ∧ s.deltays i = some (dy : ℚ)) ∨ (s.deltaxs i = none ∧ s.deltays i = none)) ∧
    (KeptPeak P.method P.nsub P.n0 P.n1 m0 im0 dx dy g → s.deltaxs i = some (dx : ℚ) ∧ s.deltays i = some (dy : ℚ)) ∧
    s.errors.get? i = none ∧ ((P.lib = .numpy ∨ P.n1 % 2 = 0) → s.correlsMax i = some 1) := by
  have hd1 : AllowsSquare P.dmax 1 := by
    intro m hm
    obtain ⟨a1, a2⟩ := hd m hm
    have : (1 : ℚ) ≤ P.nsub := by exact_mod_cast hns
    exact ⟨a1, by push_cast; nlinarith⟩
  have hview := last_view P hr (by omega) (by omega) hd1 hl junk nanInt m0 m1 im0 im1 dx dy points approx s hs i g a hg ha hn hv
  obtain ⟨w1, w2, ⟨k, w3⟩, w4, hp⟩ := windows_same P (by omega) (by omega) m0 m1 im0 im1 dx dy g hv
  obtain ⟨z1, z2⟩ := subpix_zero P hr nsubpix hc hpi hns h0 h1 hd _ _ _ w3
  have z2 : KeptPeak P.method P.nsub P.n0 P.n1 m0 im0 dx dy g → _ := fun hk => z2 (notLost_congr hns (fun x y _ _ =>
    (circCorrel_self P.n0 P.n1 (by omega) (by omega) _ _ (fun i j hi hj => (w4 i j hi hj).symm) x y).symm) hk)
  have hfound : _ → s.deltaxs i = some (dx : ℚ) ∧ s.deltays i = some (dy : ℚ) := fun hz => by
    obtain ⟨v1, v2, _, _⟩ := hview (some (0, 0)) hz
    rw [v1, v2]
    exact ⟨by simp, by simp⟩
  rcases z1 with hz | hz
  · exact ⟨.inl (hfound hz), fun hmm => hfound (z2 hmm), (hview _ hz).2.2.1, (hview _ hz).2.2.2⟩
  · exact ⟨.inr ⟨(hview _ hz).1, (hview _ hz).2.1⟩, fun hmm => hfound (z2 hmm), (hview _ hz).2.2.1, (hview _ hz).2.2.2⟩

open LaterPass in
/-- The pass ends, when all the vectors are good and one peak is searched. -/
theorem C111_ends (P : Params) (hr : Exact P.rnd) (h0 : 4 ≤ P.n0) (h1 : 4 ≤ P.n1) (hd : AllowsSquare P.dmax 1) (hnb : P.nbPeaks = 1)
    (junk : Nat → Option ℚ) (nanInt m0 m1 : Int) (im0 im1 : Img Int) (dx dy : Int)
    (points : List (Int × Int)) (approx : List ApplyInterp.Delta)
    (hn : ∀ a ∈ approx, NearTo dx dy a) (hv : ∀ g ∈ points, SameWindows P.n0 P.n1 m0 m1 im0 im1 dx dy g) :
    ∃ s, run P junk nanInt m0 m1 im0 im1 (im0.ny, im0.nx) points approx = .ok s := by
  unfold run
  simp only
  generalize hws : List.zipWith (windows P m0 m1 im0 im1 (im0.ny, im0.nx)) points
    (approx.map fun a => (toInt nanInt a.1, toInt nanInt a.2)) = ws
  have hall : ∀ w ∈ ws, ∃ g ∈ points, w = windows P m0 m1 im0 im1 (im0.ny, im0.nx) g (dx, dy) := by
    intro w hw
    rw [← hws, List.mem_iff_getElem?] at hw
    obtain ⟨i, hi⟩ := hw
    rw [List.getElem?_zipWith] at hi
    cases hg : points[i]? with
    | none => rw [hg] at hi; cases hi
    | some g =>
      cases ha : approx[i]? with
      | none => rw [hg, List.getElem?_map, ha] at hi; cases hi
      | some a =>
        rw [hg, List.getElem?_map, ha] at hi
        injection hi with hi
        obtain ⟨ax, ay, rfl, n1, n2⟩ := hn a (List.mem_of_getElem? ha)
        refine ⟨g, List.mem_of_getElem? hg, ?_⟩
        rw [← hi]
        show windows P m0 m1 im0 im1 (im0.ny, im0.nx) g (TimeFormat.roundEven ax, TimeFormat.roundEven ay) = _
        rw [roundEven_close ax dx n1, roundEven_close ay dy n2]
  unfold LoopVectors.loopVectors
  cases hl : LoopVectors.loop (env P) 0 ws (State.init junk) with
  | ok s => exact ⟨_, rfl⟩
  | error e =>
    exfalso
    obtain ⟨i, hi, he⟩ := (C34_partial (env P) junk junk ws).2 e (by unfold LoopVectors.loopVectors; rw [hl])
    obtain ⟨g, hg, hw⟩ := hall _ (List.getElem_mem hi)
    rw [hw] at he
    have hvg := hv g hg
    obtain ⟨w1, w2, ⟨k, w3⟩, _, hp⟩ := windows_same P (by omega) (by omega) m0 m1 im0 im1 dx dy g hvg
    generalize windows P m0 m1 im0 im1 (im0.ny, im0.nx) g (dx, dy) = w at *
    obtain ⟨x, x1, x2, x3, x4⟩ := peaks_found P hr h0 h1 hd w.1 w.2 _ w3 hp
    obtain ⟨o1, o2, o3, o4⟩ := C34_one_vector (env P) junk w
    obtain ⟨k1, k2⟩ := o4 ⟨w1, w2⟩ _ _ _ (x2 hnb)
    cases hsub : (env P).subpix with
    | none =>
      obtain ⟨s', l1, _⟩ := k1 hsub
      rw [l1] at he; cases he
    | some f =>
      obtain ⟨k3, k4⟩ := k2 f hsub
      cases hf : f 0 0 (masked P.n0 P.n1 P.dmax (corr P w.1 w.2).1) with
      | error e' =>
        obtain ⟨s', l1, _⟩ := k3 e' hf
        rw [l1] at he; cases he
      | ok r =>
        obtain ⟨s', l1, _⟩ := k4 r hf
        rw [l1] at he; cases he

/-! ## From a pass to the next one -/

/-- What is assumed of the interpolations of SciPy: the interpolated values are between the bounds of the values, and the
nearest value is a value. -/
def KeepsBounds (E : ApplyInterp.Ext) : Prop :=
  ∀ (centers : List ApplyInterp.Pos) (values : List ℚ) (lo hi : ℚ), values ≠ [] → (∀ u ∈ values, lo < u ∧ u < hi) →
    (∀ f, E.linear centers values = .ok f → ∀ p v, f p = some v → lo < v ∧ v < hi) ∧
    (∀ f, E.nearest centers values = .ok f → ∀ p, ∃ v, f p = some v ∧ lo < v ∧ v < hi)

/-- The usable vectors of a result are at less than half a pixel of `(dx, dy)`. -/
def VectorsNear (dx dy : Int) (r : ApplyInterp.Res) : Prop :=
  ∀ v ∈ r.vectors, Usable v → NearTo dx dy (v.dx, v.dy)

/-- The estimates given to a pass (without the thin plate splines: what is done by default except after the last pass) are
at less than half a pixel of `(dx, dy)` when the usable vectors of the previous pass are. -/
theorem C111_estimates (E : ApplyInterp.Ext) (hE : KeepsBounds E) (w : ApplyInterp.Work) (hgr : GridOk w)
    (ht : ApplyInterp.wantsTps w.params false = false) (r : ApplyInterp.Res) (hu : ∃ v ∈ r.vectors, Usable v) (dx dy : Int)
    (hr : VectorsNear dx dy r) (hok : (ApplyInterp.applyInterp E w false r).2 = .ok ()) :
    ∃ approx, (ApplyInterp.applyInterp E w false r).1.approx = some approx ∧ approx.length = w.grid.points.length ∧
      ∀ a ∈ approx, NearTo dx dy a := by
  obtain ⟨linx, liny, nearx, neary, l1, l2, l3, l4, hest⟩ := C82_griddata E w hgr false r hu ht hok
  obtain ⟨v0, hv0, hv0'⟩ := hu
  have hmem : v0 ∈ r.vectors.filter ApplyInterp.Vector.selected :=
    List.mem_filter.mpr ⟨hv0, (ApplyInterp.selected_iff v0).mpr hv0'⟩
  have hbx : ∀ u ∈ usableDx r, (dx : ℚ) - 1 / 2 < u ∧ u < dx + 1 / 2 := by
    intro u hu
    unfold usableDx at hu
    obtain ⟨v, hv, rfl⟩ := List.mem_map.mp hu
    obtain ⟨hv1, hv2⟩ := List.mem_filter.mp hv
    obtain ⟨ax, ay, e, n1, n2⟩ := hr v hv1 ((ApplyInterp.selected_iff v).mp hv2)
    injection e with e1 e2
    rw [e1, Option.getD_some]
    rw [abs_lt] at n1
    constructor <;> linarith [n1.1, n1.2]
  have hby : ∀ u ∈ usableDy r, (dy : ℚ) - 1 / 2 < u ∧ u < dy + 1 / 2 := by
    intro u hu
    unfold usableDy at hu
    obtain ⟨v, hv, rfl⟩ := List.mem_map.mp hu
    obtain ⟨hv1, hv2⟩ := List.mem_filter.mp hv
    obtain ⟨ax, ay, e, n1, n2⟩ := hr v hv1 ((ApplyInterp.selected_iff v).mp hv2)
    injection e with e1 e2
    rw [e2, Option.getD_some]
    rw [abs_lt] at n2
    constructor <;> linarith [n2.1, n2.2]
  have hnx : usableDx r ≠ [] := by
    unfold usableDx
    intro h
    rw [List.map_eq_nil_iff] at h
    rw [h] at hmem; cases hmem
  have hny : usableDy r ≠ [] := by
    unfold usableDy
    intro h
    rw [List.map_eq_nil_iff] at h
    rw [h] at hmem; cases hmem
  obtain ⟨x1, x2⟩ := hE (usableCenters w r) (usableDx r) _ _ hnx hbx
  obtain ⟨y1, y2⟩ := hE (usableCenters w r) (usableDy r) _ _ hny hby
  have one : ∀ (lin near : ApplyInterp.Pos → Option ℚ) (lo hi : ℚ), (∀ p v, lin p = some v → lo < v ∧ v < hi) →
      (∀ p, ∃ v, near p = some v ∧ lo < v ∧ v < hi) → ∀ p, ∃ v, (lin p).or (near p) = some v ∧ lo < v ∧ v < hi := by
    intro lin near lo hi h1 h2 p
    cases hp : lin p with
    | none => rw [Option.none_or]; exact h2 p
    | some v => exact ⟨v, rfl, h1 p v hp⟩
  refine ⟨_, hest, by simp [ApplyInterp.Work.points], ?_⟩
  intro a ha
  obtain ⟨p, _, rfl⟩ := List.mem_map.mp ha
  obtain ⟨vx, e1, b1, b2⟩ := one linx nearx _ _ (x1 linx l1) (x2 nearx l3) p
  obtain ⟨vy, e2, b3, b4⟩ := one liny neary _ _ (y1 liny l2) (y2 neary l4) p
  refine ⟨vx, vy, by rw [e1, e2], ?_, ?_⟩
  · rw [abs_lt]; constructor <;> linarith
  · rw [abs_lt]; constructor <;> linarith

open LaterPass in
/-- C111, a pass from the result of the previous one.  When the images show patterns displaced by `(dx, dy)`, the
usable vectors of the previous pass are at less than half a pixel of `(dx, dy)` and all the vectors of the grid are good, all
the vectors found by the pass are exactly `(dx, dy)`: so a uniform displacement which is approximately found by one pass is
exactly found by all the next ones.  Missing: the last pass, where vectors may be NaN (`C111_last_partial`), and the
estimates made with the thin plate splines (`C111_next_pass_tps_partial`). -/
theorem C111_next_pass_partial (P : Params) (hr : Exact P.rnd) (h0 : 4 ≤ P.n0) (h1 : 4 ≤ P.n1) (hd : AllowsSquare P.dmax 1)
    (hl : P.last = false) (hnb : P.nbPeaks = 1) (junk : Nat → Option ℚ) (nanInt m0 m1 : Int) (im0 im1 : Img Int) (dx dy : Int)
    (E : ApplyInterp.Ext) (hE : KeepsBounds E) (w : ApplyInterp.Work) (hgr : GridOk w)
    (ht : ApplyInterp.wantsTps w.params false = false) (r : ApplyInterp.Res) (hu : ∃ v ∈ r.vectors, Usable v)
    (hn : VectorsNear dx dy r) (hok : (ApplyInterp.applyInterp E w false r).2 = .ok ())
    (hv : ∀ g ∈ w.grid.points, SameWindows P.n0 P.n1 m0 m1 im0 im1 dx dy g) :
    ∃ approx s, (ApplyInterp.applyInterp E w false r).1.approx = some approx ∧
      run P junk nanInt m0 m1 im0 im1 (im0.ny, im0.nx) w.grid.points approx = .ok s ∧
      ∀ i < w.grid.points.length, s.deltaxs i = some (dx : ℚ) ∧ s.deltays i = some (dy : ℚ) ∧ s.errors.get? i = none := by
  obtain ⟨approx, e1, e2, e3⟩ := C111_estimates E hE w hgr ht r hu dx dy hn hok
  obtain ⟨s, hs⟩ := C111_ends P hr h0 h1 hd hnb junk nanInt m0 m1 im0 im1 dx dy w.grid.points approx e3 hv
  refine ⟨approx, s, e1, hs, ?_⟩
  intro i hi
  have hg := List.getElem?_eq_getElem hi
  have ha := List.getElem?_eq_getElem (show i < approx.length by omega)
  obtain ⟨a1, a2, a3, _⟩ := C111_not_last P hr h0 h1 hd hl junk nanInt m0 m1 im0 im1 dx dy _ _ s hs i _ _ hg ha
    (e3 _ (List.getElem_mem _)) (hv _ (List.getElem_mem _))
  exact ⟨a1, a2, a3⟩

open LaterPass in
/-- C111 with the estimates of the thin plate splines (`use_tps=True`).  When the usable vectors of the previous pass are
exactly `(dx, dy)`, so are the vectors found by the pass, at all the good positions which have an estimate (those which are
not far from the usable vectors).  Missing: the other positions, where the estimate is NaN (`C82_nan_fails`), and usable
vectors which are only near to `(dx, dy)`. -/
theorem C111_next_pass_tps_partial (P : Params) (hr : Exact P.rnd) (h0 : 4 ≤ P.n0) (h1 : 4 ≤ P.n1) (hd : AllowsSquare P.dmax 1)
    (hl : P.last = false) (junk : Nat → Option ℚ) (nanInt m0 m1 : Int) (im0 im1 : Img Int) (dx dy : Int)
    (E : ApplyInterp.Ext) (w : ApplyInterp.Work) (r : ApplyInterp.Res) (hu : ∃ v ∈ r.vectors, Usable v)
    (ht : ApplyInterp.wantsTps w.params false = true) {t : ℚ} (ht0 : 0 ≤ t) (hthr : w.params.threshold = some t) {g : Tps.Grid}
    (hg : Tps.setup ((usableCenters w r).map Prod.fst) ((usableCenters w r).map Prod.snd) w.params.subdomSize 20 = .ok g)
    (hE : ∀ d ∈ g.doms, AffineOn E (ApplyInterp.domCenters (usableCenters w r) d)) (hpos : estimatePositions false r = none)
    (hv : ∀ v ∈ r.vectors, Usable v → v.dx = some (dx : ℚ) ∧ v.dy = some (dy : ℚ)) :
    (ApplyInterp.applyInterp E w false r).2 = .ok () ∧
    ∃ approx, (ApplyInterp.applyInterp E w false r).1.approx = some approx ∧ approx.length = w.grid.points.length ∧
      ∀ s, run P junk nanInt m0 m1 im0 im1 (im0.ny, im0.nx) w.grid.points approx = .ok s →
        ∀ (i : Nat) (p : Int × Int), w.grid.points[i]? = some p → ApplyInterp.Covered g ((p.1 : ℚ), (p.2 : ℚ)) →
          SameWindows P.n0 P.n1 m0 m1 im0 im1 dx dy p →
          s.deltaxs i = some (dx : ℚ) ∧ s.deltays i = some (dy : ℚ) ∧ s.errors.get? i = none := by
  obtain ⟨hok, ps, ds, e1, e2, e3, e4⟩ := C82_affine E w false r hu ht ht0 hthr hg hE 0 0 dx 0 0 dy
    (fun v h1 h2 => by obtain ⟨a, b⟩ := hv v h1 h2; unfold affineAt; rw [a, b]; constructor <;> congr 1 <;> ring)
    hpos (by intro h; cases h)
  have hps : ps = w.original := by
    have := C82_positions E w false r
    rw [e1, hpos] at this
    injection this
  refine ⟨hok, ds, e2, by rw [e3, hps]; simp [ApplyInterp.Work.original, ApplyInterp.Work.points], ?_⟩
  intro s hs i p hp hc hgv
  have hpi : ps[i]? = some ((p.1 : ℚ) + w.off.1, (p.2 : ℚ) + w.off.2) := by
    rw [hps]; simp [ApplyInterp.Work.original, ApplyInterp.Work.points, hp]
  have hdi := e4 i _ hpi (by simpa using hc)
  obtain ⟨a1, a2, a3, _⟩ := C111_not_last P hr h0 h1 hd hl junk nanInt m0 m1 im0 im1 dx dy _ _ s hs i _ _ hp hdi
    ⟨_, _, rfl, by unfold affineAt; simp, by unfold affineAt; simp⟩ hgv
  exact ⟨a1, a2, a3⟩

/-! ## Non-vacuity -/

/-- A conversion which does not round the rational numbers exists. -/
theorem exact_exists : ∃ rnd, Exact rnd := by
  classical
  refine ⟨fun x => if h : ∃ q : ℚ, (q : ℝ) = x then h.choose else 0, ?_⟩
  intro q
  have h : ∃ q' : ℚ, (q' : ℝ) = (q : ℝ) := ⟨q, rfl⟩
  simp only
  rw [dif_pos h]
  exact_mod_cast h.choose_spec

/-- Four particles in an image of 4 pixels. -/
def fourParticles : Img Int :=
  ⟨4, 4, fun a b => if a = 0 ∧ b = 3 ∨ a = 1 ∧ b = 0 then 2 else if a = 2 ∧ b = 1 then 1 else if a = 2 ∧ b = 2 then 3 else 0⟩

/-- The particle of the image `fourParticles` which is the brightest, moved in a larger image with the others. -/
def sceneAt (dx dy : Int) : Img Int := ⟨12, 12, fun a b =>
  if (a : Int) = 5 + dy ∧ (b : Int) = 5 + dx then 3 else if (a : Int) = 6 + dy ∧ (b : Int) = 7 + dx then 1 else 0⟩

theorem scene_moved : MovedBy 2 (-1) (sceneAt 0 0) (sceneAt 2 (-1)) := by
  refine ⟨rfl, rfl, ?_⟩
  intro r c r' c' _ _ _ _ e1 e2
  unfold sceneAt
  simp only
  have h1 : ((r' : Int) = 5 + -1 ∧ (c' : Int) = 5 + 2) ↔ ((r : Int) = 5 + 0 ∧ (c : Int) = 5 + 0) := by omega
  have h2 : ((r' : Int) = 6 + -1 ∧ (c' : Int) = 7 + 2) ↔ ((r : Int) = 6 + 0 ∧ (c : Int) = 7 + 0) := by omega
  simp only [h1, h2]

theorem scene_good : GoodVector 6 6 (sceneAt 0 0) 2 (-1) (6, 6) := by
  refine ⟨by unfold WindowIn sceneAt; simp, by unfold WindowIn sceneAt; simp, ?_⟩
  apply noPeriod_bright 6 6 1 3 (by omega) (by omega)
  intro a b ha hb
  unfold pattern sceneAt
  simp only
  intro h
  by_contra hc
  rw [if_neg (by omega)] at h
  split at h <;> norm_num at h

/-- Parameters of a pass with windows of 6 pixels. -/
noncomputable def somePass (last : Bool) (m : Method) (rnd : ℝ → ℚ) (p : Matrix (Fin 5) (Fin (2 * 1 + 1) × Fin (2 * 1 + 1)) ℝ) :
    LaterPass.Params :=
  ⟨rnd, .numpy, fun _ _ => 0, 6, 6, some 3, 1, 1, m, 1, p, last⟩

/-- Non-vacuity: two particles moved by `(2, -1)` in a larger image; the estimate is not exact. -/
example (rnd : ℝ → ℚ) (hr : Exact rnd) (p) :
    ∃ s, LaterPass.run (somePass false .centroid rnd p) (fun _ => none) 0 0 0 (sceneAt 0 0) (sceneAt 2 (-1)) (12, 12) [(6, 6)]
      [(some (17 / 10), some (-6 / 5))] = .ok s ∧ s.deltaxs 0 = some 2 ∧ s.deltays 0 = some (-1) := by
  have hd : AllowsSquare (some 3) 1 := by
    intro m hm
    injection hm with hm
    subst hm
    norm_num
  have hn : NearTo 2 (-1) (some (17 / 10), some (-6 / 5)) := by
    refine ⟨17 / 10, -6 / 5, rfl, ?_, ?_⟩ <;> · rw [abs_lt]; norm_num
  obtain ⟨s, hs⟩ := C111_ends (somePass false .centroid rnd p) hr (show 4 ≤ 6 by decide) (show 4 ≤ 6 by decide) hd rfl (fun _ => none) 0 0 0 _ _ 2 (-1)
    [(6, 6)] [(some (17 / 10), some (-6 / 5))] (by simpa using hn) (by
      intro g hg; rw [List.mem_singleton.1 hg]; exact scene_good.same (by decide) (by decide) 0 0 scene_moved)
  refine ⟨s, hs, ?_⟩
  obtain ⟨a1, a2, _⟩ := C111_not_last (somePass false .centroid rnd p) hr (show 4 ≤ 6 by decide) (show 4 ≤ 6 by decide) hd rfl (fun _ => none) 0 0 0 _ _ 2 (-1)
    [(6, 6)] [(some (17 / 10), some (-6 / 5))] s hs 0 _ _ rfl rfl hn (scene_good.same (by decide) (by decide) 0 0 scene_moved)
  exact ⟨by simpa using a1, by simpa using a2⟩

/-- Non-vacuity of the hypothesis on the interpolations. -/
example : KeepsBounds ⟨fun _ _ => none, fun _ _ _ => 0, fun _ _ => .ok (fun _ => none), fun _ vs => .ok (fun _ => vs.head?)⟩ := by
  intro c vs lo hi hne hb
  constructor
  · intro f hf p v hv
    injection hf with hf
    subst hf
    cases hv
  · intro f hf p
    injection hf with hf
    subst hf
    cases vs with
    | nil => exact absurd rfl hne
    | cons v vs => exact ⟨v, rfl, hb v (by simp)⟩

/-- Four vectors of a previous pass with the displacement `(2, -1)` and one with a NaN. -/
def uniformRes : ApplyInterp.Res where
  vectors := [⟨3, 5, some 2, some (-1)⟩, ⟨13, 5, some 2, some (-1)⟩, ⟨8, 9, none, some 7⟩, ⟨3, 15, some 2, some (-1)⟩,
    ⟨13, 15, some 2, some (-1)⟩, ⟨4, 4, none, none⟩]
  ixyApprox := none
  ixyFinal := none
  approx := none
  final := none
  tps := none
  smooth := none

/-- The hypotheses of `C111_next_pass_tps_partial` on the previous pass are met by these vectors. -/
example : (∃ v ∈ uniformRes.vectors, Usable v) ∧ ApplyInterp.wantsTps (ApplyInterp.demoWork (.bool true)).params false = true ∧
    estimatePositions false uniformRes = none ∧
    ∃ g, Tps.setup ((usableCenters (ApplyInterp.demoWork (.bool true)) uniformRes).map Prod.fst)
        ((usableCenters (ApplyInterp.demoWork (.bool true)) uniformRes).map Prod.snd) 200 20 = .ok g ∧
      (∀ d ∈ g.doms, AffineOn ApplyInterp.demoExt (ApplyInterp.domCenters (usableCenters (ApplyInterp.demoWork (.bool true)) uniformRes) d)) ∧
      (∀ v ∈ uniformRes.vectors, Usable v → v.dx = some ((2 : Int) : ℚ) ∧ v.dy = some ((-1 : Int) : ℚ)) ∧
      ApplyInterp.Covered g ((11 : Int), (4 : Int)) := by
  refine ⟨⟨⟨3, 5, some 2, some (-1)⟩, by decide +kernel, 2, -1, rfl, rfl⟩, by decide +kernel, rfl,
    ⟨1, 1, 0, 10, 0, 10, 2, 2⟩, ?_, ?_, ?_, ?_⟩
  · have hs : (Tps.setup ((usableCenters (ApplyInterp.demoWork (.bool true)) uniformRes).map Prod.fst)
        ((usableCenters (ApplyInterp.demoWork (.bool true)) uniformRes).map Prod.snd) 200 20).toOption.map
        (fun g => ([g.nbx, g.nby], [g.x0, g.x1, g.y0, g.y1, g.bufX, g.bufY])) = some ([1, 1], [0, 10, 0, 10, 2, 2]) := by decide +kernel
    cases h : Tps.setup ((usableCenters (ApplyInterp.demoWork (.bool true)) uniformRes).map Prod.fst)
        ((usableCenters (ApplyInterp.demoWork (.bool true)) uniformRes).map Prod.snd) 200 20 with
    | error e => rw [h] at hs; cases hs
    | ok g =>
      rw [h] at hs
      cases g
      simp only [Except.toOption, Option.map_some, Option.some.injEq, Prod.mk.injEq, List.cons.injEq, and_true] at hs
      obtain ⟨⟨a1, a2⟩, a3, a4, a5, a6, a7, a8⟩ := hs
      subst a1 a2 a3 a4 a5 a6 a7 a8
      rfl
  · intro d hd
    have he : (⟨1, 1, 0, 10, 0, 10, 2, 2⟩ : Tps.Grid).doms = [⟨-2, 12, -2, 12⟩] := by
      simp [Tps.Grid.doms, Tps.linspace]; norm_num
    rw [he] at hd
    obtain rfl := List.mem_singleton.mp hd
    have hc : ApplyInterp.domCenters (usableCenters (ApplyInterp.demoWork (.bool true)) uniformRes) ⟨-2, 12, -2, 12⟩ =
        [(0, 0), (10, 0), (0, 10), (10, 10)] := by decide +kernel
    rw [hc]
    intro a b k
    refine ⟨[a, b, k], ?_, fun p => by simp [ApplyInterp.demoExt]⟩
    simp only [ApplyInterp.demoExt, if_true, affineAt, List.map_cons, List.map_nil, Option.some.injEq, Prod.mk.injEq, List.cons.injEq,
      true_and, and_true]
    simp
  · intro v hv hu
    have : ∀ v ∈ uniformRes.vectors, v.selected = true → v.dx = some ((2 : Int) : ℚ) ∧ v.dy = some ((-1 : Int) : ℚ) := by decide +kernel
    exact this v hv ((ApplyInterp.selected_iff v).mpr hu)
  · unfold ApplyInterp.Covered; norm_num

/-! ## The vectors which are lost -/

open LaterPass in
/-- With the centroid, the displacement is NaN when the sum of the correlation around the peak is zero. -/
theorem subpix_nan (P : Params) (hr : Exact P.rnd) (hme : P.method = .centroid) (hn : P.nsub = 1) (h0 : 4 ≤ P.n0) (h1 : 4 ≤ P.n1)
    (hd : P.dmax = none) (w0 w1 : Img Int) (k : ℝ) (h : ∀ i j, i < P.n0 → j < P.n1 → pixels w1 i j = pixels w0 i j + k)
    (hz : ∀ c, c = realMap (corr P w0 w1).1 → ∑ q, Subpix.crop P.nsub c (centre P.n1) (centre P.n0) q = 0) :
    subpix P 0 0 (masked P.n0 P.n1 P.dmax (corr P w0 w1).1) = .ok none := by
  obtain ⟨hnan, hsym, hin, -⟩ := map_symmetric P hr (by omega) (by omega) (by omega) (by rw [hd]; intro m hm; cases hm) w0 w1 k h
  have hz := hz _ rfl
  have hc : masked P.n0 P.n1 P.dmax (corr P w0 w1).1 = (corr P w0 w1).1 := by unfold masked; rw [hd]
  rw [hc] at hnan hsym hin ⊢
  have hi : (Correl.fftCls P.n0 P.n1 P.dmax P.radius P.nbPeaks).indices 0 0 = (centre P.n1, centre P.n0) := by
    unfold Cls.indices fftCls; simp
  have hf : Subpix.computeSubpix P.method P.nsub P.pinv (realMap (corr P w0 w1).1) (centre P.n1) (centre P.n0) = .ok .nan := by
    unfold Subpix.computeSubpix
    rw [if_neg (not_boundary hin)]
    simp only [hme]
    rw [centroid_symm P.nsub _ (crop_opp P.nsub _ _ _ hsym), if_pos hz]
    unfold Subpix.finish
    rw [if_neg (by unfold Subpix.TooLarge; exact id)]
    rfl
  unfold subpix
  simp only [hi, hf]
  split <;> rfl

/-- Parameters of a last pass with the centroid and windows of 4 pixels. -/
noncomputable def centroidPass (rnd : ℝ → ℚ) (p : Matrix (Fin 5) (Fin (2 * 1 + 1) × Fin (2 * 1 + 1)) ℝ) : LaterPass.Params :=
  ⟨rnd, .numpy, fun _ _ => 0, 4, 4, none, 1, 1, .centroid, 1, p, true⟩

theorem fourParticles_good : GoodVector 4 4 fourParticles 0 0 (2, 2) := by
  refine ⟨by unfold WindowIn fourParticles; simp, by unfold WindowIn fourParticles; simp, ?_⟩
  apply noPeriod_bright 4 4 2 2 (by omega) (by omega)
  intro a b ha hb h
  unfold pattern fourParticles at h
  simp only at h
  by_contra hc
  have ea : ((2 : Int) - 0 / 2 - ((4 / 2 : Nat) : Int) + a).toNat = a := by simp
  have eb : ((2 : Int) - 0 / 2 - ((4 / 2 : Nat) : Int) + b).toNat = b := by simp
  have e2 : ((2 : Int) - 0 / 2 - ((4 / 2 : Nat) : Int) + (2 : Nat)).toNat = 2 := by decide
  rw [ea, eb, e2] at h
  have h' : (if a = 0 ∧ b = 3 ∨ a = 1 ∧ b = 0 then (2 : Int) else if a = 2 ∧ b = 1 then 1 else if a = 2 ∧ b = 2 then 3 else 0) = 3 := by
    exact_mod_cast h
  split_ifs at h' <;> omega

/-- The image as rational numbers. -/
def fourQ : ℕ → ℕ → ℚ := fun a b => (fourParticles.get a b : ℚ)

theorem four_sum : ∑ q : Fin 3 × Fin 3, circCorrelQ 4 4 fourQ fourQ (1 - q.2.val) (1 - q.1.val) = 0 := by
  decide +kernel

open LaterPass in
/-- C111 fails: with the method "centroid" the displacement may be NaN, without error, although the two images are the same
and the estimate is exact. -/
theorem C111_nan_fails (rnd : ℝ → ℚ) (hr : Exact rnd) (p : Matrix (Fin 5) (Fin (2 * 1 + 1) × Fin (2 * 1 + 1)) ℝ) :
    MovedBy 0 0 fourParticles fourParticles ∧ GoodVector 4 4 fourParticles 0 0 (2, 2) ∧
    ∃ s, run (centroidPass rnd p) (fun _ => none) 0 0 0 fourParticles fourParticles (4, 4) [(2, 2)] [(some 0, some 0)] = .ok s ∧
      s.deltaxs 0 = none ∧ s.deltays 0 = none ∧ s.errors.get? 0 = none := by
  have hm : MovedBy 0 0 fourParticles fourParticles := by
    refine ⟨rfl, rfl, ?_⟩
    intro r c r' c' _ _ _ _ e1 e2
    rw [show r' = r by omega, show c' = c by omega]
  refine ⟨hm, fourParticles_good, ?_⟩
  have hd : AllowsSquare none 1 := by intro m hm; cases hm
  have hn : NearTo 0 0 (some 0, some 0) := ⟨0, 0, rfl, by norm_num, by norm_num⟩
  obtain ⟨s, hs⟩ := C111_ends (centroidPass rnd p) hr (show 4 ≤ 4 by decide) (show 4 ≤ 4 by decide) hd rfl (fun _ => none) 0 0 0 _ _ 0 0
    [(2, 2)] [(some 0, some 0)] (by simpa using hn) (by
      intro g hg; rw [List.mem_singleton.1 hg]; exact fourParticles_good.same (by decide) (by decide) 0 0 hm)
  refine ⟨s, hs, ?_⟩
  obtain ⟨w1, w2, w3⟩ := windows_moved (centroidPass rnd p) (show 0 < 4 by decide) (show 0 < 4 by decide) 0 0 fourParticles fourParticles 0 0 hm
    (2, 2) fourParticles_good
  obtain ⟨a1, a2, a3, _⟩ := last_view (centroidPass rnd p) hr (show 4 ≤ 4 by decide) (show 4 ≤ 4 by decide) hd rfl (fun _ => none) 0 0 0 _ _ 0 0
    [(2, 2)] [(some 0, some 0)] s hs 0 _ _ rfl rfl hn (fourParticles_good.same (by decide) (by decide) 0 0 hm) none (by
      refine subpix_nan (centroidPass rnd p) hr rfl rfl (show 4 ≤ 4 by decide) (show 4 ≤ 4 by decide) rfl _ _ _
        (fun i j hi hj => (w3 i j hi hj).1) ?_
      rintro _ rfl
      have hv : ∀ q : Fin 3 × Fin 3, Subpix.crop 1 (realMap (corr (centroidPass rnd p)
          (windows (centroidPass rnd p) 0 0 fourParticles fourParticles (4, 4) (2, 2) (0, 0)).1
          (windows (centroidPass rnd p) 0 0 fourParticles fourParticles (4, 4) (2, 2) (0, 0)).2).1) (centre 4) (centre 4) q =
          (factor (centroidPass rnd p) : ℝ) * ((circCorrelQ 4 4 fourQ fourQ (1 - q.2.val) (1 - q.1.val) : ℚ) : ℝ) := by
        intro q
        have hq1 := q.1.isLt
        have hq2 := q.2.isLt
        obtain ⟨v, hv1, hv2⟩ := corr_value (centroidPass rnd p) hr (show 0 < 4 by decide) (show 0 < 4 by decide) _ _ _
          (fun i j hi hj => (w3 i j hi hj).1) q.1.val q.2.val (show q.1.val < 4 by omega) (show q.2.val < 4 by omega)
        have e1 : (centre 4 - ((1 : Nat) : Int) + (q.1.val : Int)).toNat = q.1.val := by unfold centre; simp
        have e2 : (centre 4 - ((1 : Nat) : Int) + (q.2.val : Int)).toNat = q.2.val := by unfold centre; simp
        unfold Subpix.crop realMap
        simp only [e1, e2]
        rw [show (fourParticles.ny, fourParticles.nx) = (4, 4) from rfl] at hv1
        rw [hv1]
        show (v : ℝ) = _
        rw [hv2, circCorrelQ_cast]
        congr 1
        have hw : ∀ i j, i < 4 → j < 4 → pixels (windows (centroidPass rnd p) 0 0 fourParticles fourParticles (4, 4) (2, 2) (0, 0)).1 i j
            = toR fourQ i j := by
          intro i j hi hj
          refine ((w3 i j hi hj).2).trans ?_
          unfold pattern toR fourQ
          have ea : ((2 : Int) - 0 / 2 - ((4 / 2 : Nat) : Int) + i).toNat = i := by simp
          have eb : ((2 : Int) - 0 / 2 - ((4 / 2 : Nat) : Int) + j).toNat = j := by simp
          show ((fourParticles.get ((2 : Int) - 0 / 2 - ((4 / 2 : Nat) : Int) + i).toNat
            ((2 : Int) - 0 / 2 - ((4 / 2 : Nat) : Int) + j).toNat : Int) : ℝ) + -((0 : Int) : ℝ) = _
          rw [ea, eb]
          push_cast
          ring
        have hdis : (Correl.fftCls 4 4 none 0 0).displacement q.2.val q.1.val = (1 - (q.2.val : Int), 1 - (q.1.val : Int)) := by
          unfold Cls.displacement fftCls centre
          simp
        have hfin := circCorrel_self 4 4 (by omega) (by omega) _ _ (fun i j hi hj => (hw i j hi hj).symm)
          ((Correl.fftCls 4 4 none 0 0).displacement q.2.val q.1.val).1 ((Correl.fftCls 4 4 none 0 0).displacement q.2.val q.1.val).2
        refine Eq.trans hfin ?_
        rw [hdis]
      show ∑ q : Fin 3 × Fin 3, _ = _
      refine (Finset.sum_congr rfl fun q _ => hv q).trans ?_
      rw [← Finset.mul_sum, ← Rat.cast_sum, four_sum]
      simp)
  exact ⟨a1, a2, a3⟩

end Verif
