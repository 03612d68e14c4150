import Verif.Model.PreprocCv
import Verif.Props.PreprocTools

/-!
# C136: the tools of the OpenCV backend

The backend can be changed for the preprocessing (`PreprocToolsPy`, `PreprocToolsCV`): a tool of the same name with the same arguments is
expected to do the same thing.
-/

namespace Verif
open Verif.PivGrid (Img)
open Verif.PreprocTools Verif.PreprocCv

/-! ## Specification -/

/-- The index `a` of an axis of `n` points is in the window of `w` points around `i`. -/
def InAxisWindow (n w i a : ℕ) : Prop := a < n ∧ (i : ℤ) - (w / 2 : ℕ) ≤ a ∧ (a : ℤ) < i - (w / 2 : ℕ) + w

/-- `m` is the smallest of the pixels of the image which are in the window of `w` times `w` points around the pixel `(y, x)`. -/
def IsWindowMin (im : Img ℕ) (w y x m : ℕ) : Prop :=
  (∃ a b, InAxisWindow im.ny w y a ∧ InAxisWindow im.nx w x b ∧ im.get a b = m) ∧
    ∀ a b, InAxisWindow im.ny w y a → InAxisWindow im.nx w x b → m ≤ im.get a b

/-- An image of 8 bits. -/
def EightBits (im : Img ℕ) : Prop := ∀ y x, im.get y x < 256

/-- The image given to the default backend. -/
def asArr (im : Img ℕ) : Arr := ⟨uint8, ⟨im.ny, im.nx, fun y x => (im.get y x : ℝ)⟩⟩

/-! ## Windows -/

theorem pc_reflect (n : ℕ) (p : ℤ) (hn : 0 < n) : ∃ r : ℕ, Mode.reflect.index n p = some r ∧ r < n ∧
    ((0 ≤ p ∧ p < n → (r : ℤ) = p) ∧ (-n ≤ p ∧ p < 0 → (r : ℤ) = -p - 1) ∧ (n ≤ p ∧ p < 2 * n → (r : ℤ) = 2 * n - 1 - p)) := by
  have h0 : 0 ≤ p % (2 * n) := Int.emod_nonneg _ (by omega)
  have h1 : p % (2 * n) < 2 * n := Int.emod_lt_of_pos _ (by omega)
  unfold Mode.index
  refine ⟨_, rfl, ?_, ?_, ?_, ?_⟩
  · split_ifs <;> omega
  · intro h
    have : p % (2 * n) = p := Int.emod_eq_of_lt h.1 (by omega)
    split_ifs <;> omega
  · intro h
    have : p % (2 * n) = p + 2 * n := by
      rw [← Int.add_emod_right, Int.emod_eq_of_lt (by omega) (by omega)]
    split_ifs <;> omega
  · intro h
    have : p % (2 * n) = p := Int.emod_eq_of_lt (by omega) h.2
    split_ifs <;> omega

theorem pc_mirror (n : ℕ) (p : ℤ) (hn : 1 < n) : ∃ r : ℕ, Mode.mirror.index n p = some r ∧ r < n ∧
    ((0 ≤ p ∧ p < n → (r : ℤ) = p) ∧ (-(n - 1 : ℤ) ≤ p ∧ p < 0 → (r : ℤ) = -p) ∧
      (n ≤ p ∧ p ≤ 2 * (n - 1 : ℤ) → (r : ℤ) = 2 * (n - 1 : ℤ) - p)) := by
  have e : ((2 * (n - 1) : ℕ) : ℤ) = 2 * (n - 1 : ℤ) := by omega
  have h0 : 0 ≤ p % (2 * (n - 1) : ℕ) := Int.emod_nonneg _ (by omega)
  have h1 : p % (2 * (n - 1) : ℕ) < (2 * (n - 1) : ℕ) := Int.emod_lt_of_pos _ (by omega)
  unfold Mode.index
  simp only [if_neg (show n ≠ 1 by omega)]
  refine ⟨_, rfl, ?_, ?_, ?_, ?_⟩
  · split_ifs <;> omega
  · intro h
    have : p % (2 * (n - 1) : ℕ) = p := Int.emod_eq_of_lt h.1 (by omega)
    split_ifs <;> omega
  · intro h
    have : p % (2 * (n - 1) : ℕ) = p + (2 * (n - 1) : ℕ) := by
      rw [← Int.add_emod_right, Int.emod_eq_of_lt (by omega) (by omega)]
    split_ifs <;> omega
  · intro h
    rcases lt_or_eq_of_le h.2 with h' | h'
    · have : p % (2 * (n - 1) : ℕ) = p := Int.emod_eq_of_lt (by omega) (by omega)
      split_ifs <;> omega
    · have : p % (2 * (n - 1) : ℕ) = 0 := by rw [e, h']; exact Int.emod_self
      split_ifs <;> omega

/-- The window which is read, whatever the border, is the part of the window which is in the image. -/
theorem pc_window (m : Mode) (hm : m ≠ .wrap) (n w i : ℕ) (hi : i < n) (hw : 0 < w) (hodd : m = .mirror → w % 2 = 1) (a : ℕ) :
    some a ∈ window m n w i ↔ InAxisWindow n w i a := by
  unfold window InAxisWindow
  rw [List.mem_map]
  constructor
  · rintro ⟨k, hk, h⟩
    rw [List.mem_range] at hk
    generalize hp : (i : ℤ) + k - (w / 2 : ℕ) = p at h
    cases m with
    | reflect =>
      obtain ⟨r, e, hr, h1, h2, h3⟩ := pc_reflect n p (by omega)
      rw [e] at h
      cases h
      rcases lt_or_ge p 0 with g | g
      · rcases lt_or_ge p (-n) with g' | g' <;> omega
      · rcases lt_or_ge p n with g' | g'
        · omega
        · rcases lt_or_ge p (2 * n) with g'' | g'' <;> omega
    | constant =>
      simp only [Mode.index] at h
      split_ifs at h
      cases h
      omega
    | nearest =>
      simp only [Mode.index] at h
      cases h
      split_ifs <;> omega
    | mirror =>
      have ho := hodd rfl
      by_cases h1 : n = 1
      · simp only [Mode.index, if_pos h1] at h
        cases h
        omega
      · obtain ⟨r, e, hr, h1, h2, h3⟩ := pc_mirror n p (by omega)
        rw [e] at h
        cases h
        rcases lt_or_ge p 0 with g | g
        · rcases lt_or_ge p (-(n - 1 : ℤ)) with g' | g' <;> omega
        · rcases lt_or_ge p n with g' | g'
          · omega
          · rcases lt_or_ge (2 * (n - 1 : ℤ)) p with g'' | g'' <;> omega
    | wrap => exact absurd rfl hm
  · rintro ⟨h1, h2, h3⟩
    refine ⟨(a + (w / 2 : ℕ) - i : ℤ).toNat, ?_, ?_⟩
    · rw [List.mem_range]; omega
    · have : (i : ℤ) + ((a + (w / 2 : ℕ) - i : ℤ).toNat : ℕ) - (w / 2 : ℕ) = a := by omega
      rw [this]
      exact index_self m n a h1

theorem pc_mem_inWindow (m : Mode) (w : ℕ) (im : Img ℕ) (y x v : ℕ) :
    v ∈ inWindow m w im y x ↔ ∃ a b, some a ∈ window m im.ny w y ∧ some b ∈ window m im.nx w x ∧ im.get a b = v := by
  unfold inWindow
  rw [List.mem_flatMap]
  constructor
  · rintro ⟨a, ha, h⟩
    obtain ⟨b, hb, h⟩ := List.mem_filterMap.1 h
    cases a with
    | none => cases h
    | some a =>
      cases b with
      | none => cases h
      | some b => cases h; exact ⟨a, b, ha, hb, rfl⟩
  · rintro ⟨a, b, ha, hb, rfl⟩
    exact ⟨some a, ha, List.mem_filterMap.2 ⟨some b, hb, rfl⟩⟩

theorem pc_toUint8 (im : Img ℕ) (h : EightBits im) : toUint8 im = im := by
  unfold toUint8
  cases im with
  | mk ny nx get =>
    congr 1
    funext y x
    exact Nat.mod_eq_of_lt (h y x)

theorem pc_erode (m : Mode) (hm : m ≠ .wrap) (w : ℕ) (hw : 0 < w) (hodd : m = .mirror → w % 2 = 1) (im : Img ℕ) (y x : ℕ)
    (hy : y < im.ny) (hx : x < im.nx) : IsWindowMin im w y x ((erode m w im).get y x) := by
  unfold erode
  simp only [if_neg (show w ≠ 0 by omega)]
  have hc : im.get y x ∈ inWindow m w im y x :=
    (pc_mem_inWindow m w im y x _).2 ⟨y, x, window_center m im.ny w y hy hw, window_center m im.nx w x hx hw, rfl⟩
  cases hmin : (inWindow m w im y x).min? with
  | none => rw [List.min?_eq_none_iff] at hmin; rw [hmin] at hc; cases hc
  | some v =>
    have h := List.min?_eq_some_iff.1 hmin
    simp only [Option.getD_some]
    obtain ⟨a, b, ha, hb, hab⟩ := (pc_mem_inWindow m w im y x v).1 h.1
    refine ⟨⟨a, b, (pc_window m hm _ w y hy hw hodd a).1 ha, (pc_window m hm _ w x hx hw hodd b).1 hb, hab⟩, ?_⟩
    intro a b ha hb
    exact h.2 _ ((pc_mem_inWindow m w im y x _).2
      ⟨a, b, (pc_window m hm _ w y hy hw hodd a).2 ha, (pc_window m hm _ w x hx hw hodd b).2 hb, rfl⟩)

/-! ## `sliding_minima` -/

/-- **C136** (`sliding_minima`; partial: images of 8 bits).  With the borders "reflect", "replicate" and "constant" (and "default" for an odd
size), the result is the image minus the weight times the smallest of the pixels of the image in the window around the pixel; with a
weight between 0 and 1 it is between 0 and the image. -/
theorem C136_minima_partial (weight : ℝ) (w : ℕ) (hw : 0 < w) (name : String)
    (hname : name = "reflect" ∨ name = "replicate" ∨ name = "constant" ∨ (name = "default" ∧ w % 2 = 1)) (im : Img ℕ) (h8 : EightBits im) :
    ∃ out, slidingMinima weight (.int w) name im = .ok out ∧ out.ny = im.ny ∧ out.nx = im.nx ∧ ∀ y x, y < im.ny → x < im.nx →
      ∃ m, IsWindowMin im w y x m ∧ out.get y x = (im.get y x : ℝ) - weight * m ∧
        (0 ≤ weight → weight ≤ 1 → 0 ≤ out.get y x ∧ out.get y x ≤ im.get y x) := by
  have hb : ∃ m, border name = .ok (.mode m) ∧ m ≠ .wrap ∧ (m = .mirror → w % 2 = 1) := by
    rcases hname with rfl | rfl | rfl | ⟨rfl, h⟩
    · exact ⟨.reflect, rfl, by decide, by intro h; cases h⟩
    · exact ⟨.nearest, rfl, by decide, by intro h; cases h⟩
    · exact ⟨.constant, rfl, by decide, by intro h; cases h⟩
    · exact ⟨.mirror, rfl, by decide, fun _ => h⟩
  obtain ⟨m, hm, h1, h2⟩ := hb
  unfold slidingMinima
  rw [pc_toUint8 im h8]
  simp only [hm]
  refine ⟨_, rfl, rfl, rfl, ?_⟩
  intro y x hy hx
  have hmin := pc_erode m h1 w hw h2 im y x hy hx
  refine ⟨_, hmin, rfl, ?_⟩
  intro g0 g1
  have hle : (erode m w im).get y x ≤ im.get y x := hmin.2 y x ⟨hy, by omega, by omega⟩ ⟨hx, by omega, by omega⟩
  have hle' : ((erode m w im).get y x : ℝ) ≤ im.get y x := by exact_mod_cast hle
  have hpos : (0 : ℝ) ≤ ((erode m w im).get y x : ℝ) := Nat.cast_nonneg _
  show 0 ≤ (im.get y x : ℝ) - weight * ((erode m w im).get y x : ℝ) ∧ (im.get y x : ℝ) - weight * ((erode m w im).get y x : ℝ) ≤ _
  constructor <;> nlinarith

example : IsWindowMin ⟨1, 3, fun _ x => 5 - x⟩ 3 0 0 4 := by
  refine ⟨⟨0, 1, by unfold InAxisWindow; decide, by unfold InAxisWindow; decide, rfl⟩, ?_⟩
  rintro a b _ ⟨h1, h2, h3⟩
  simp only at *
  omega

/-- The values of the windows of the default backend. -/
theorem pc_windowVals (m : Mode) (hm : m = .reflect ∨ m = .nearest ∨ m = .mirror) (w : ℕ) (im : Img ℕ) (y x : ℕ) (hy : y < im.ny)
    (hx : x < im.nx) (hw : 0 < w) (hodd : m = .mirror → w % 2 = 1) (v : ℝ) :
    v ∈ windowVals m w w (asArr im).im y x ↔ ∃ a b, InAxisWindow im.ny w y a ∧ InAxisWindow im.nx w x b ∧ v = (im.get a b : ℝ) := by
  have hwrap : m ≠ .wrap := by rcases hm with rfl | rfl | rfl <;> decide
  have hsome : ∀ n i, ∀ q ∈ window m n w i, ∃ a, q = some a := by
    intro n i q hq
    unfold window at hq
    obtain ⟨k, _, rfl⟩ := List.mem_map.1 hq
    rcases hm with rfl | rfl | rfl
    · exact ⟨_, rfl⟩
    · exact ⟨_, rfl⟩
    · unfold Mode.index
      by_cases h : n = 1
      · exact ⟨0, by simp only [if_pos h]⟩
      · simp only [if_neg h]; exact ⟨_, rfl⟩
  unfold windowVals
  rw [List.mem_flatMap]
  constructor
  · rintro ⟨p, hp, h⟩
    obtain ⟨q, hq, h⟩ := List.mem_map.1 h
    obtain ⟨a, rfl⟩ := hsome _ _ _ hp
    obtain ⟨b, rfl⟩ := hsome _ _ _ hq
    exact ⟨a, b, (pc_window m hwrap _ w y hy hw hodd a).1 hp, (pc_window m hwrap _ w x hx hw hodd b).1 hq, h.symm⟩
  · rintro ⟨a, b, ha, hb, rfl⟩
    exact ⟨some a, (pc_window m hwrap _ w y hy hw hodd a).2 ha, List.mem_map.2 ⟨some b, (pc_window m hwrap _ w x hx hw hodd b).2 hb, rfl⟩⟩

/-- **C136** (the two backends; partial: images of 8 bits, corresponding names of the borders).  `sliding_minima` gives the same image with the
two backends, with the borders "reflect" and "reflect", "nearest" and "replicate", and, for odd sizes, "mirror" and "default". -/
theorem C136_backends_minima_partial (weight : ℝ) (hw1 : 0 ≤ weight ∧ weight ≤ 1) (w : ℕ) (hw : 0 < w) (py cv : String)
    (hname : (py = "reflect" ∧ cv = "reflect") ∨ (py = "nearest" ∧ cv = "replicate") ∨ (py = "mirror" ∧ cv = "default" ∧ w % 2 = 1))
    (im : Img ℕ) (h8 : EightBits im) :
    ∃ mode outPy outCv, scipyMode py = .ok mode ∧ sliding .minimum weight w w mode (asArr im) = .ok outPy ∧
      slidingMinima weight (.int w) cv im = .ok outCv ∧ ∀ y x, y < im.ny → x < im.nx → outCv.get y x = outPy.im.get y x := by
  obtain ⟨mode, e1, hm, hodd⟩ : ∃ mode, scipyMode py = .ok mode ∧ (mode = .reflect ∨ mode = .nearest ∨ mode = .mirror) ∧
      (mode = .mirror → w % 2 = 1) := by
    rcases hname with ⟨rfl, rfl⟩ | ⟨rfl, rfl⟩ | ⟨rfl, rfl, h⟩
    · exact ⟨.reflect, rfl, .inl rfl, by intro h; cases h⟩
    · exact ⟨.nearest, rfl, .inr (.inl rfl), by intro h; cases h⟩
    · exact ⟨.mirror, rfl, .inr (.inr rfl), fun _ => h⟩
  have hcv : cv = "reflect" ∨ cv = "replicate" ∨ cv = "constant" ∨ (cv = "default" ∧ w % 2 = 1) := by
    rcases hname with ⟨_, rfl⟩ | ⟨_, rfl⟩ | ⟨_, rfl, h⟩
    · exact .inl rfl
    · exact .inr (.inl rfl)
    · exact .inr (.inr (.inr ⟨rfl, h⟩))
  obtain ⟨outCv, e3, _, _, hall⟩ := C136_minima_partial weight w hw cv hcv im h8
  have e2 : ∃ outPy, sliding .minimum weight w w mode (asArr im) = .ok outPy := by
    unfold sliding
    rw [if_neg (by positivity)]
    exact ⟨_, rfl⟩
  obtain ⟨outPy, e2⟩ := e2
  refine ⟨mode, outPy, outCv, e1, e2, e3, ?_⟩
  intro y x hy hx
  obtain ⟨m, hmin, e, _⟩ := hall y x hy hx
  obtain ⟨b, hb1, hb2, e', _⟩ := C56_sliding_minima weight hw1 w w mode (asArr im) outPy (fun y x => Nat.cast_nonneg _) e2 y x hy hx
  obtain ⟨a0, b0, ha0, hb0, rfl⟩ := (pc_windowVals mode hm w im y x hy hx hw hodd b).1 hb2
  obtain ⟨a1, b1, ha1, hb1', rfl⟩ := hmin.1
  have g1 : (im.get a0 b0 : ℝ) ≤ im.get a1 b1 := hb1 _ ((pc_windowVals mode hm w im y x hy hx hw hodd _).2 ⟨a1, b1, ha1, hb1', rfl⟩)
  have g2 : im.get a1 b1 ≤ im.get a0 b0 := hmin.2 a0 b0 ha0 hb0
  have g2' : (im.get a1 b1 : ℝ) ≤ im.get a0 b0 := by exact_mod_cast g2
  rw [e, e', le_antisymm g1 g2']
  rfl

example : EightBits ⟨2, 2, fun y x => y + x⟩ → ∃ out, slidingMinima 1 (.int 3) "reflect" ⟨2, 2, fun y x => y + x⟩ = .ok out := by
  intro h
  obtain ⟨out, e, _⟩ := C136_minima_partial 1 3 (by decide) "reflect" (.inl rfl) _ h
  exact ⟨out, e⟩

/-- **C136, violation** (more than 8 bits): the minimum is the one of the last 8 bits.  For a uniform image of at least 256 the background is
not removed, whereas the default backend gives a black image. -/
theorem C136_minima_16bits_fails (w ny nx c : ℕ) (hw : 0 < w) (hc : 256 ≤ c) (y x : ℕ) (hy : y < ny) (hx : x < nx) :
    ∃ out, slidingMinima 1 (.int w) "reflect" ⟨ny, nx, fun _ _ => c⟩ = .ok out ∧ out.get y x = ((c - c % 256 : ℕ) : ℝ) ∧ 0 < out.get y x := by
  have hmin := pc_erode .reflect (by decide) w hw (by intro h; cases h) (toUint8 ⟨ny, nx, fun _ _ => c⟩) y x hy hx
  obtain ⟨a, b, _, _, e⟩ := hmin.1
  have hv : (c : ℝ) - 1 * ((erode .reflect w (toUint8 ⟨ny, nx, fun _ _ => c⟩)).get y x : ℝ) = ((c - c % 256 : ℕ) : ℝ) := by
    rw [← e, Nat.cast_sub (Nat.mod_le _ _), one_mul]
    rfl
  refine ⟨⟨ny, nx, fun y x => (c : ℝ) - 1 * ((erode .reflect w (toUint8 ⟨ny, nx, fun _ _ => c⟩)).get y x : ℝ)⟩, rfl, hv, ?_⟩
  simp only
  rw [hv]
  have : 0 < c - c % 256 := by omega
  exact_mod_cast this

example : (256 : ℕ) ≤ 1000 ∧ 1000 - 1000 % 256 = 768 := by decide

/-- **C136, violation** (border "constant"): the default backend puts zeros around the image, so that nothing is removed at a corner;
OpenCV ignores what is outside.  For a uniform image the results are the value and 0. -/
theorem C136_constant_fails (w ny nx c : ℕ) (hw : 2 ≤ w) (hc : 0 < c ∧ c < 256) (hy : 0 < ny) (hx : 0 < nx) :
    ∃ outPy outCv, sliding .minimum 1 w w .constant (asArr ⟨ny, nx, fun _ _ => c⟩) = .ok outPy ∧
      slidingMinima 1 (.int w) "constant" ⟨ny, nx, fun _ _ => c⟩ = .ok outCv ∧ outPy.im.get 0 0 = c ∧ outCv.get 0 0 = 0 := by
  obtain ⟨outCv, e3, _, _, hall⟩ := C136_minima_partial 1 w (by omega) "constant" (.inr (.inr (.inl rfl))) ⟨ny, nx, fun _ _ => c⟩ (fun _ _ => hc.2)
  obtain ⟨m, hmin, e, _⟩ := hall 0 0 hy hx
  obtain ⟨_, _, _, _, hm⟩ := hmin.1
  have e2 : ∃ outPy, sliding .minimum 1 w w .constant (asArr ⟨ny, nx, fun _ _ => c⟩) = .ok outPy := by
    unfold sliding
    rw [if_neg (Nat.mul_ne_zero (by omega) (by omega))]
    exact ⟨_, rfl⟩
  obtain ⟨outPy, e2⟩ := e2
  obtain ⟨b, hb1, hb2, e', _⟩ := C56_sliding_minima 1 (by norm_num) w w .constant (asArr ⟨ny, nx, fun _ _ => c⟩) outPy
    (fun y x => Nat.cast_nonneg _) e2 0 0 hy hx
  have h0 : (0 : ℝ) ∈ windowVals .constant w w (asArr ⟨ny, nx, fun _ _ => c⟩).im 0 0 := by
    unfold windowVals
    rw [List.mem_flatMap]
    refine ⟨none, ?_, List.mem_map.2 ⟨some 0, window_center .constant nx w 0 hx (by omega), rfl⟩⟩
    unfold window
    rw [List.mem_map]
    refine ⟨0, List.mem_range.2 (by omega), ?_⟩
    unfold Mode.index
    simp only
    rw [if_neg (by omega)]
  have hb0 : b = 0 := le_antisymm (hb1 0 h0)
    (windowVals_nonneg .constant w w (asArr ⟨ny, nx, fun _ _ => c⟩).im (fun y x => Nat.cast_nonneg _) 0 0 b hb2)
  refine ⟨outPy, outCv, e2, e3, ?_, ?_⟩
  · rw [e', hb0]; simp [asArr]
  · rw [e, ← hm]; simp

/-- **C136, violation** (names of the borders and of the sizes): the borders "nearest" and "mirror" and the size given as a tuple, which the
default backend accepts, give `AttributeError` and `TypeError` with OpenCV; "wrap", which both document, is refused by OpenCV; "default",
"replicate" and "transparent" are refused by the default backend. -/
theorem C136_names_fails (weight : ℝ) (w : ℕ) (im : Img ℕ) :
    slidingMinima weight (.int w) "nearest" im = .error .attributeError ∧ slidingMinima weight (.int w) "mirror" im = .error .attributeError ∧
      slidingMinima weight (.int w) "wrap" im = .error .runtime ∧ (∀ a b name, slidingMinima weight (.tuple a b) name im = .error .typeError) ∧
      (∃ m, scipyMode "nearest" = .ok m) ∧ (∃ m, scipyMode "mirror" = .ok m) ∧ (∃ m, scipyMode "wrap" = .ok m) ∧
      ∀ name, name = "default" ∨ name = "replicate" ∨ name = "transparent" → scipyMode name = .error .runtime := by
  refine ⟨rfl, rfl, rfl, fun _ _ _ => rfl, ⟨_, rfl⟩, ⟨_, rfl⟩, ⟨_, rfl⟩, ?_⟩
  rintro name (rfl | rfl | rfl) <;> rfl

/-! ## `sliding_median` -/

theorem pc_clip (v : ℝ) : (if v < 0 then 0 else v) = max 0 v := by
  split_ifs with h
  · rw [max_eq_left (le_of_lt h)]
  · rw [max_eq_right (not_lt.1 h)]

/-- **C136** (`sliding_median`; partial: images of 8 bits, odd sizes, border "nearest" of the default backend).  The default backend gives the
image of OpenCV with its negative pixels set to 0. -/
theorem C136_backends_median_partial (weight : ℝ) (w : ℕ) (hw : w % 2 = 1) (im : Img ℕ) (h8 : EightBits im) :
    ∃ outPy outCv, sliding .median weight w w .nearest (asArr im) = .ok outPy ∧ slidingMedian weight (.int w) im = .ok outCv ∧
      ∀ y x, outPy.im.get y x = max 0 (outCv.get y x) := by
  unfold sliding slidingMedian medianBlur
  rw [if_neg (Nat.mul_ne_zero (by omega) (by omega)), pc_toUint8 im h8]
  simp only [Rank.index, if_pos hw]
  refine ⟨_, _, rfl, rfl, ?_⟩
  intro y x
  exact pc_clip _

theorem pc_window3 (n i : ℕ) (hi : i < n) : window .reflect n 3 i = window .nearest n 3 i := by
  unfold window
  refine List.map_congr_left ?_
  intro k hk
  rw [List.mem_range] at hk
  obtain ⟨r, e, hr, h1, h2, h3⟩ := pc_reflect n ((i : ℤ) + k - (3 / 2 : ℕ)) (by omega)
  rw [e]
  simp only [Mode.index]
  congr 1
  split_ifs <;> omega

/-- **C136** (`sliding_median` with the default border and windows of 3 points; partial: images of 8 bits): the same. -/
theorem C136_backends_median3_partial (weight : ℝ) (im : Img ℕ) (h8 : EightBits im) :
    ∃ outPy outCv, sliding .median weight 3 3 .reflect (asArr im) = .ok outPy ∧ slidingMedian weight (.int 3) im = .ok outCv ∧
      ∀ y x, y < im.ny → x < im.nx → outPy.im.get y x = max 0 (outCv.get y x) := by
  obtain ⟨outPy, outCv, e1, e2, h⟩ := C136_backends_median_partial weight 3 (by decide) im h8
  unfold sliding at e1 ⊢
  rw [if_neg (by decide)] at e1 ⊢
  simp only [Rank.index] at e1 ⊢
  refine ⟨_, outCv, rfl, e2, ?_⟩
  intro y x hy hx
  rw [← h y x]
  cases e1
  have hv : windowVals .reflect 3 3 (asArr im).im y x = windowVals .nearest 3 3 (asArr im).im y x := by
    unfold windowVals
    rw [show (asArr im).im.ny = im.ny from rfl, show (asArr im).im.nx = im.nx from rfl, pc_window3 _ y hy, pc_window3 _ x hx]
  simp only [hv]

/-- **C136, violation** (`sliding_median`, larger windows): near the edges the default backend reflects the image and OpenCV repeats its last
pixel.  For the line 5 2 1 with a window of 5 points the first pixel becomes 3 with the default backend and 0 with OpenCV. -/
theorem C136_median_border_fails :
    ∃ outPy outCv, sliding .median 1 5 5 .reflect (asArr ⟨1, 3, fun _ x => if x = 0 then 5 else if x = 1 then 2 else 1⟩) = .ok outPy ∧
      slidingMedian 1 (.int 5) ⟨1, 3, fun _ x => if x = 0 then 5 else if x = 1 then 2 else 1⟩ = .ok outCv ∧
      outPy.im.get 0 0 = 3 ∧ outCv.get 0 0 = 0 := by
  have h8 : EightBits ⟨1, 3, fun _ x => if x = 0 then 5 else if x = 1 then 2 else 1⟩ := by
    intro y x; simp only; split_ifs <;> omega
  unfold sliding slidingMedian medianBlur
  rw [if_neg (by decide), pc_toUint8 _ h8]
  simp only [Rank.index]
  have r1 : (sorted (windowVals .reflect 5 5 (asArr ⟨1, 3, fun _ x => if x = 0 then 5 else if x = 1 then 2 else 1⟩).im 0 0)).getD (5 * 5 / 2) 0 = 2 := by
    have hk := sorted_rank (windowVals .reflect 5 5 (asArr ⟨1, 3, fun _ x => if x = 0 then 5 else if x = 1 then 2 else 1⟩).im 0 0) (5 * 5 / 2)
      (by rw [windowVals_length]; decide)
    refine rank_unique _ _ _ _ hk ?_
    have hv : windowVals .reflect 5 5 (asArr ⟨1, 3, fun _ x => if x = 0 then 5 else if x = 1 then 2 else 1⟩).im 0 0 =
        [2, 5, 5, 2, 1, 2, 5, 5, 2, 1, 2, 5, 5, 2, 1, 2, 5, 5, 2, 1, 2, 5, 5, 2, 1] := by
      simp [windowVals, window, Mode.index, valueAt, List.range_succ, asArr]
    rw [hv]
    norm_num [IsRank, List.countP_cons]
  have r2 : (sorted (windowVals .nearest 5 5 (asArr ⟨1, 3, fun _ x => if x = 0 then 5 else if x = 1 then 2 else 1⟩).im 0 0)).getD (5 * 5 / 2) 0 = 5 := by
    have hk := sorted_rank (windowVals .nearest 5 5 (asArr ⟨1, 3, fun _ x => if x = 0 then 5 else if x = 1 then 2 else 1⟩).im 0 0) (5 * 5 / 2)
      (by rw [windowVals_length]; decide)
    refine rank_unique _ _ _ _ hk ?_
    have hv : windowVals .nearest 5 5 (asArr ⟨1, 3, fun _ x => if x = 0 then 5 else if x = 1 then 2 else 1⟩).im 0 0 =
        [5, 5, 5, 2, 1, 5, 5, 5, 2, 1, 5, 5, 5, 2, 1, 5, 5, 5, 2, 1, 5, 5, 5, 2, 1] := by
      simp [windowVals, window, Mode.index, valueAt, List.range_succ, asArr]
    rw [hv]
    norm_num [IsRank, List.countP_cons]
  refine ⟨_, _, rfl, rfl, ?_, ?_⟩
  · simp only [r1]; norm_num [asArr]
  · have : ((⟨1, 3, fun y x => (((if x = 0 then 5 else if x = 1 then 2 else 1 : ℕ)) : ℝ)⟩ : Img ℝ)) =
        (asArr ⟨1, 3, fun _ x => if x = 0 then 5 else if x = 1 then 2 else 1⟩).im := rfl
    simp only [this, r2]; norm_num

/-- **C136, violation** (`sliding_median`, sizes): an even size, as the default of the other backend (30), is refused by OpenCV. -/
theorem C136_median_even_fails (weight : ℝ) (w : ℕ) (hw : w % 2 = 0) (im : Img ℕ) : slidingMedian weight (.int w) im = .error .runtime := by
  unfold slidingMedian medianBlur
  simp only [if_neg (show ¬ w % 2 = 1 by omega)]

example : slidingMedian 1 (.int 30) ⟨1, 1, fun _ _ => 0⟩ = .error .runtime := C136_median_even_fails 1 30 (by decide) _

/-! ## `adaptive_threshold` -/

/-- **C136** (`adaptive_threshold`; partial: images of 8 bits): the result has two values, 0 and the maximum of the image, and a pixel has the
second exactly if it is larger than the mean around it minus the offset. -/
theorem C136_adaptive_partial (mean : ℕ → Img ℕ → Img ℕ) (w : ℕ) (hw : w % 2 = 1 ∧ 1 < w) (offset : ℤ) (top : ℕ) (im : Img ℕ)
    (h8 : EightBits im) (htop : top < 256) :
    ∃ out, adaptiveThreshold mean w offset top im = .ok out ∧ out.ny = im.ny ∧ out.nx = im.nx ∧ ∀ y x,
      out.get y x = if ((mean w im).get y x : ℤ) - offset < im.get y x then top else 0 := by
  unfold adaptiveThreshold
  rw [if_pos hw, pc_toUint8 im h8]
  refine ⟨_, rfl, rfl, rfl, ?_⟩
  intro y x
  simp only [gt_iff_lt, Nat.min_eq_left (show top ≤ 255 by omega)]

example : ∃ out, adaptiveThreshold (fun _ _ => ⟨1, 2, fun _ _ => 4⟩) 3 0 9 ⟨1, 2, fun _ x => 9 * x⟩ = .ok out ∧ out.get 0 0 = 0 ∧ out.get 0 1 = 9 :=
  ⟨_, rfl, by decide, by decide⟩

/-- **C136, violation** (`adaptive_threshold`, more than 8 bits): a pixel which is a multiple of 256 is never detected, however bright it is
(offset at most 0). -/
theorem C136_adaptive_16bits_fails (mean : ℕ → Img ℕ → Img ℕ) (w : ℕ) (offset : ℤ) (ho : offset ≤ 0) (top : ℕ) (im out : Img ℕ)
    (h : adaptiveThreshold mean w offset top im = .ok out) (y x : ℕ) (hv : im.get y x % 256 = 0) : out.get y x = 0 := by
  unfold adaptiveThreshold at h
  split_ifs at h
  cases h
  simp only [toUint8, hv]
  rw [if_neg]
  have : (0 : ℤ) ≤ ((mean w ⟨im.ny, im.nx, fun y x => im.get y x % 256⟩).get y x : ℤ) := Int.natCast_nonneg _
  simp only [Nat.cast_zero, gt_iff_lt, not_lt]
  omega

example : ∃ out, adaptiveThreshold (fun _ _ => ⟨1, 1, fun _ _ => 0⟩) 3 0 512 ⟨1, 1, fun _ _ => 512⟩ = .ok out ∧ out.get 0 0 = 0 := ⟨_, rfl, by decide⟩

end Verif
