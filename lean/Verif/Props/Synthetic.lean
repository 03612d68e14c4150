import Verif.Model.Synthetic
import Mathlib.Tactic.Ring
import Mathlib.Tactic.Linarith
import Mathlib.Tactic.Positivity
import Mathlib.Data.Rat.Cast.Order

/-!
# Synthetic images (C96)
-/

namespace Verif
open Verif.Synthetic

/-! ## Specification -/

/-- The grey level at the position `(x, y)` of an image of `particles` (positions `(x, y)`), each of them being seen as a
spot of profile `gauss` (function of the square of the distance). -/
def greyLevel (gauss : ℚ → ℚ) (particles : List (ℚ × ℚ)) (x y : ℚ) : ℚ :=
  (particles.map (fun p => gauss ((x - p.1) ^ 2 + (y - p.2) ^ 2))).sum

/-- The particles a time step later. -/
def moved (dx dy : ℚ) (particles : List (ℚ × ℚ)) : List (ℚ × ℚ) := particles.map (fun p => (p.1 + dx, p.2 + dy))

/-- First index of the second image, in the indices of the first one. -/
def firstIndex (n n1 : Nat) : Nat := (n - n1) / 2

/-! ## Lemmas -/

theorem synth_foldl_sum (l : List ℚ) (a : ℚ) : l.foldl (· + ·) a = a + l.sum := by
  induction l generalizing a with
  | nil => simp
  | cons x l ih => rw [List.foldl_cons, ih, List.sum_cons]; ring

theorem intensity_eq (gauss : ℚ → ℚ) (xs ys : List ℚ) (x y : ℚ) :
    intensity gauss xs ys x y = greyLevel gauss (xs.zip ys) x y := by
  unfold intensity greyLevel
  rw [synth_foldl_sum, zero_add]
  congr 1
  refine List.map_congr_left fun p _ => ?_
  rw [pow_two, pow_two]

theorem greyLevel_moved (gauss : ℚ → ℚ) (ps : List (ℚ × ℚ)) (dx dy x y : ℚ) :
    greyLevel gauss (moved dx dy ps) x y = greyLevel gauss ps (x - dx) (y - dy) := by
  unfold greyLevel moved
  rw [List.map_map]
  congr 1
  refine List.map_congr_left fun p _ => ?_
  simp only [Function.comp]
  congr 1
  ring

theorem positions_mem {n : Nat} {d : ℚ} {rand : Nat → ℚ} {nb : Nat} (hn : 0 < n)
    (hr : ∀ i, 0 ≤ rand i ∧ rand i ≤ 1) {x : ℚ} (hx : x ∈ positions n d rand nb) : -|d| ≤ x ∧ x ≤ n - 1 + |d| := by
  unfold positions at hx
  simp only [List.mem_map, List.mem_range] at hx
  obtain ⟨i, _, rfl⟩ := hx
  obtain ⟨h0, h1⟩ := hr i
  have hn' : (1 : ℚ) ≤ n := by exact_mod_cast hn
  have hd := abs_nonneg d
  have hw : (0 : ℚ) ≤ ((n : ℚ) - 1) + |d| - (0 - |d|) := by linarith
  constructor
  · have := mul_nonneg hw h0
    linarith
  · have := mul_le_mul_of_nonneg_left h1 hw
    linarith

/-! ## Theorems -/

/-- C96: without noise, the first image is the image of `nb` particles and the second one is the central part (of the
requested shape) of the image of the same particles, each displaced by `(dx, dy)`; this is for all displacements, all
shapes and all random numbers.  The particles are in the first image enlarged on each side by the displacement. -/
theorem C96_images (gauss : ℚ → ℚ) (rand randn : Nat → ℚ) (hr : ∀ i, 0 ≤ rand i ∧ rand i ≤ 1) (dx dy : ℚ)
    (nb ny nx : Nat) (ny1 nx1 : Nat) (shape1 : Option (Nat × Nat)) (hs : shape1.getD (ny, nx) = (ny1, nx1))
    (hy : 0 < ny) (hx : 0 < nx) (hy1 : ny1 ≤ ny) (hx1 : nx1 ≤ nx) (epsilon : ℚ) (he : epsilon ≤ 0) :
    ∃ im0 im1 particles, make gauss rand randn dx dy nb ny nx shape1 epsilon = .ok (im0, im1) ∧
      particles.length = nb ∧
      (∀ p ∈ particles, -|dx| ≤ p.1 ∧ p.1 ≤ nx - 1 + |dx| ∧ -|dy| ≤ p.2 ∧ p.2 ≤ ny - 1 + |dy|) ∧
      (im0.ny, im0.nx) = (ny, nx) ∧ (im1.ny, im1.nx) = (ny1, nx1) ∧
      (∀ i j, i < ny → j < nx → im0.val i j = greyLevel gauss particles j i) ∧
      ∀ i j, i < ny1 → j < nx1 → im1.val i j =
        greyLevel gauss (moved dx dy particles) ((firstIndex nx nx1 + j : Nat) : ℚ) ((firstIndex ny ny1 + i : Nat) : ℚ) := by
  have hz : ¬ (nx = 0 ∨ ny = 0) := by omega
  have hn : ¬ (epsilon > 0) := not_lt.2 he
  have hmem : ∀ p ∈ (positions nx dx rand nb).zip (positions ny dy (fun i => rand (nb + i)) nb),
      -|dx| ≤ p.1 ∧ p.1 ≤ nx - 1 + |dx| ∧ -|dy| ≤ p.2 ∧ p.2 ≤ ny - 1 + |dy| := by
    intro p hp
    have h1 := positions_mem hx hr (List.of_mem_zip hp).1
    have h2 := positions_mem hy (fun i => hr (nb + i)) (List.of_mem_zip hp).2
    exact ⟨h1.1, h1.2, h2.1, h2.2⟩
  have hlen : ((positions nx dx rand nb).zip (positions ny dy (fun i => rand (nb + i)) nb)).length = nb := by
    simp [positions]
  unfold make
  rw [if_neg hz]
  simp only [addNoise, hn, if_false]
  cases shape1 with
  | none =>
    simp only [Option.getD_none, Prod.mk.injEq] at hs
    obtain ⟨rfl, rfl⟩ := hs
    refine ⟨_, _, _, rfl, hlen, hmem, rfl, rfl, fun i j _ _ => intensity_eq _ _ _ _ _, fun i j _ _ => ?_⟩
    rw [greyLevel_moved]
    refine (intensity_eq _ _ _ _ _).trans ?_
    simp [firstIndex]
  | some s =>
    obtain ⟨a, b⟩ := s
    simp only [Option.getD_some, Prod.mk.injEq] at hs
    obtain ⟨rfl, rfl⟩ := hs
    have hc : ¬ (a > ny ∨ b > nx) := by omega
    simp only [crop, hc, if_false]
    refine ⟨_, _, _, rfl, hlen, hmem, rfl, rfl, fun i j _ _ => intensity_eq _ _ _ _ _, fun i j _ _ => ?_⟩
    rw [greyLevel_moved]
    exact intensity_eq _ _ _ _ _

/-- C96: for a displacement of whole numbers of pixels and without noise, the second image is exactly the first one
shifted: the pixel `(i, j)` of the first image is found in the second one, moved by `(dy, dx)`, provided that it is still
inside. -/
theorem C96_shift (gauss : ℚ → ℚ) (rand randn : Nat → ℚ) (kx ky : Int) (nb ny nx : Nat) (epsilon : ℚ) (he : epsilon ≤ 0)
    (shape1 : Option (Nat × Nat)) (im0 im1 : Image)
    (h : make gauss rand randn kx ky nb ny nx shape1 epsilon = .ok (im0, im1)) (i j i1 j1 : Nat)
    (hi : (firstIndex ny im1.ny + i1 : Int) = i + ky) (hj : (firstIndex nx im1.nx + j1 : Int) = j + kx) :
    im1.val i1 j1 = im0.val i j := by
  have hn : ¬ (epsilon > 0) := not_lt.2 he
  unfold make at h
  split at h
  · cases h
  · simp only [addNoise, hn, if_false] at h
    cases shape1 with
    | none =>
      simp only [crop, Except.ok.injEq, Prod.mk.injEq] at h
      obtain ⟨rfl, rfl⟩ := h
      simp only [firstIndex, Nat.sub_self, Nat.zero_div, Nat.cast_zero, zero_add] at hi hj
      have hi' : ((i1 : Nat) : ℚ) - ky = i := by
        have : ((i1 : Int) : ℚ) = ((i + ky : Int) : ℚ) := by rw [hi]
        push_cast at this
        rw [this]; ring
      have hj' : ((j1 : Nat) : ℚ) - kx = j := by
        have : ((j1 : Int) : ℚ) = ((j + kx : Int) : ℚ) := by rw [hj]
        push_cast at this
        rw [this]; ring
      simp only [hi', hj']
    | some s =>
      obtain ⟨a, b⟩ := s
      simp only [crop] at h
      split at h
      · cases h
      · rename_i he
        split at he
        · cases he
        · cases he
          simp only [Except.ok.injEq, Prod.mk.injEq] at h
          obtain ⟨rfl, rfl⟩ := h
          simp only [firstIndex] at hi hj
          have hi' : (((ny - a) / 2 + i1 : Nat) : ℚ) - ky = i := by
            have : ((((ny - a) / 2 + i1 : Nat) : Int) : ℚ) = ((i + ky : Int) : ℚ) := by
              rw [← hi]; push_cast; rfl
            rw [Int.cast_natCast] at this
            rw [this]; push_cast; ring
          have hj' : (((nx - b) / 2 + j1 : Nat) : ℚ) - kx = j := by
            have : ((((nx - b) / 2 + j1 : Nat) : Int) : ℚ) = ((j + kx : Int) : ℚ) := by
              rw [← hj]; push_cast; rfl
            rw [Int.cast_natCast] at this
            rw [this]; push_cast; ring
          simp only [hi', hj']

/-- C96: the second image is in the centre of the first one: the numbers of pixels left on the two sides differ by at
most one, the larger one being after. -/
theorem C96_centred (n n1 : Nat) (h : n1 ≤ n) :
    firstIndex n n1 + n1 ≤ n ∧
    (n - n1 - firstIndex n n1 = firstIndex n n1 ∨ n - n1 - firstIndex n n1 = firstIndex n n1 + 1) := by
  unfold firstIndex
  omega

/-- C96: a point of the second image which has been inside the domain of the particles: whatever the displacement, the
position at the first time of what is seen in the second image is in the domain where the particles are put, so that the
second image is not darker on one side. -/
theorem C96_domain (n : Nat) (d x : ℚ) (hx : 0 ≤ x ∧ x ≤ n - 1) : -|d| ≤ x - d ∧ x - d ≤ n - 1 + |d| := by
  have h1 := le_abs_self d
  have h2 := neg_abs_le d
  constructor <;> linarith

/-- C96: the errors: exactly for empty images and for a second image larger than the first one. -/
theorem C96_error (gauss : ℚ → ℚ) (rand randn : Nat → ℚ) (dx dy : ℚ) (nb ny nx : Nat) (shape1 : Option (Nat × Nat))
    (epsilon : ℚ) (e : PyErr) :
    make gauss rand randn dx dy nb ny nx shape1 epsilon = .error e ↔
      e = .valueError ∧ (nx = 0 ∨ ny = 0 ∨ ∃ a b, shape1 = some (a, b) ∧ (ny < a ∨ nx < b)) := by
  unfold make
  by_cases hz : nx = 0 ∨ ny = 0
  · rw [if_pos hz]
    constructor
    · intro h
      cases h
      exact ⟨rfl, hz.elim .inl (fun h => .inr (.inl h))⟩
    · rintro ⟨rfl, _⟩; rfl
  · rw [if_neg hz]
    have hsh : (addNoise epsilon randn (ny * nx) ⟨ny, nx, fun i j => intensity gauss (positions nx dx rand nb)
        (positions ny dy (fun i => rand (nb + i)) nb) ((j : ℚ) - dx) ((i : ℚ) - dy)⟩).ny = ny ∧
      (addNoise epsilon randn (ny * nx) ⟨ny, nx, fun i j => intensity gauss (positions nx dx rand nb)
        (positions ny dy (fun i => rand (nb + i)) nb) ((j : ℚ) - dx) ((i : ℚ) - dy)⟩).nx = nx := by
      unfold addNoise; split <;> simp
    cases shape1 with
    | none =>
      simp only [crop]
      constructor
      · intro h; cases h
      · rintro ⟨_, h | h | ⟨a, b, h, _⟩⟩
        · exact absurd (.inl h) hz
        · exact absurd (.inr h) hz
        · cases h
    | some s =>
      obtain ⟨a, b⟩ := s
      simp only [crop, hsh.1, hsh.2]
      by_cases hc : a > ny ∨ b > nx
      · rw [if_pos hc]
        constructor
        · intro h; cases h
          exact ⟨rfl, .inr (.inr ⟨a, b, rfl, hc⟩)⟩
        · rintro ⟨rfl, _⟩; rfl
      · rw [if_neg hc]
        constructor
        · intro h; cases h
        · rintro ⟨_, h | h | ⟨a', b', h, h'⟩⟩
          · exact absurd (.inl h) hz
          · exact absurd (.inr h) hz
          · cases h; exact absurd h' hc

/-- C96: with noise, each pixel of the images is the one without noise plus `epsilon` times its own random number: no
random number is used twice. -/
theorem C96_noise (gauss : ℚ → ℚ) (rand randn : Nat → ℚ) (dx dy : ℚ) (nb ny nx : Nat) (epsilon : ℚ) (he : 0 < epsilon)
    (im0 im1 n0 n1 : Image) (h : make gauss rand randn dx dy nb ny nx none 0 = .ok (im0, im1))
    (hn : make gauss rand randn dx dy nb ny nx none epsilon = .ok (n0, n1)) :
    ∃ r : Bool → Nat → Nat → Nat,
      (∀ t i j t' i' j', i < ny → j < nx → i' < ny → j' < nx → r t i j = r t' i' j' → t = t' ∧ i = i' ∧ j = j') ∧
      (∀ i j, n0.val i j = im0.val i j + epsilon * randn (r false i j)) ∧
      ∀ i j, n1.val i j = im1.val i j + epsilon * randn (r true i j) := by
  unfold make at h hn
  split at h
  · cases h
  · rename_i hz
    rw [if_neg hz] at hn
    simp only [addNoise, crop, gt_iff_lt, lt_self_iff_false, if_false, Except.ok.injEq, Prod.mk.injEq] at h
    simp only [addNoise, crop, gt_iff_lt, he, if_true, Except.ok.injEq, Prod.mk.injEq] at hn
    obtain ⟨rfl, rfl⟩ := h
    obtain ⟨rfl, rfl⟩ := hn
    refine ⟨fun t i j => (if t then ny * nx else 0) + (i * nx + j), ?_, fun i j => by simp, fun i j => by simp⟩
    intro t i j t' i' j' hi hj hi' hj' e
    have hlt : ∀ a b : Nat, a < ny → b < nx → a * nx + b < ny * nx := by
      intro a b ha hb
      have h1 : (a + 1) * nx ≤ ny * nx := Nat.mul_le_mul_right nx ha
      rw [Nat.add_mul, Nat.one_mul] at h1
      omega
    have hinj : ∀ a b a' b' : Nat, b < nx → b' < nx → a * nx + b = a' * nx + b' → a = a' ∧ b = b' := by
      intro a b a' b' hb hb' h
      have hm : (a * nx + b) % nx = (a' * nx + b') % nx := by rw [h]
      rw [Nat.mul_comm a, Nat.mul_comm a', Nat.mul_add_mod, Nat.mul_add_mod, Nat.mod_eq_of_lt hb,
        Nat.mod_eq_of_lt hb'] at hm
      subst hm
      have h2 : a * nx = a' * nx := by omega
      exact ⟨Nat.eq_of_mul_eq_mul_right (by omega) h2, rfl⟩
    have h1 := hlt i j hi hj
    have h2 := hlt i' j' hi' hj'
    cases t <;> cases t' <;> simp only [if_true, if_false, Bool.false_eq_true, reduceCtorEq] at e ⊢
    · have := hinj i j i' j' hj hj' (by omega); simpa using this
    · omega
    · omega
    · have := hinj i j i' j' hj hj' (by omega); simpa using this

/-- C96 is false for the point used as the centre by the PIV (index `n // 2` of each image): if a size of the first
image is even and the one of the second image odd, the centres are not the same pixel. -/
theorem C96_centre_fails (n n1 : Nat) (h : n1 ≤ n) (he : n % 2 = 0) (ho : n1 % 2 = 1) :
    firstIndex n n1 + n1 / 2 + 1 = n / 2 := by
  unfold firstIndex
  omega

/-- C96 (part): in all the other cases the centres are the same pixel. -/
theorem C96_centre_partial (n n1 : Nat) (h : n1 ≤ n) (hne : ¬ (n % 2 = 0 ∧ n1 % 2 = 1)) :
    firstIndex n n1 + n1 / 2 = n / 2 := by
  unfold firstIndex
  omega

/-- Two particles, a displacement of (1, -1) pixels, a second image of 2 × 3 pixels. -/
def synthExample : Except PyErr (Image × Image) :=
  make (fun d2 => 1 / (1 + d2)) (fun i => (i : ℚ) / 5) (fun _ => 0) ((1 : Int) : ℚ) ((-1 : Int) : ℚ) 2 4 5 (some (2, 3)) 0

example : ∃ im0 im1, synthExample = .ok (im0, im1) ∧ im1.ny = 2 ∧ im1.nx = 3 ∧
    im0.val 2 1 = im1.val 0 1 ∧ im0.val 2 1 ≠ im0.val 2 2 := by
  refine ⟨_, _, rfl, rfl, rfl, ?_, ?_⟩ <;> decide +kernel

end Verif
