import Verif.Model.Brightness
import Mathlib.Tactic.Linarith
import Mathlib.Tactic.Ring
import Mathlib.Tactic.FieldSimp
import Mathlib.Tactic.NormNum

/-!
# Brightness and contrast tools (C102)
-/

namespace Verif
open Verif.Brightness

/-! ## Lemmas -/

theorem bright_min {im : Pixels} {m : ℝ} (h : minOf im = .ok m) : m ∈ im ∧ ∀ x ∈ im, m ≤ x := by
  have key : ∀ (l : Pixels) (v : ℝ), l.foldl min v ∈ v :: l ∧ ∀ x ∈ v :: l, l.foldl min v ≤ x := by
    intro l
    induction l with
    | nil => intro v; simp
    | cons a l ih =>
      intro v
      obtain ⟨h1, h2⟩ := ih (min v a)
      simp only [List.foldl_cons]
      constructor
      · rcases List.mem_cons.1 h1 with e | e
        · rw [e]
          rcases min_choice v a with e | e <;> rw [e] <;> simp
        · simp [e]
      · intro x hx
        have h3 := h2 (min v a) (by simp)
        rcases List.mem_cons.1 hx with rfl | hx
        · exact h3.trans (min_le_left _ _)
        · rcases List.mem_cons.1 hx with rfl | hx
          · exact h3.trans (min_le_right _ _)
          · exact h2 x (by simp [hx])
  cases im with
  | nil => cases h
  | cons v l =>
    simp only [minOf, Except.ok.injEq] at h
    subst h
    exact key l v

theorem bright_max {im : Pixels} {m : ℝ} (h : maxOf im = .ok m) : m ∈ im ∧ ∀ x ∈ im, x ≤ m := by
  have key : ∀ (l : Pixels) (v : ℝ), l.foldl max v ∈ v :: l ∧ ∀ x ∈ v :: l, x ≤ l.foldl max v := by
    intro l
    induction l with
    | nil => intro v; simp
    | cons a l ih =>
      intro v
      obtain ⟨h1, h2⟩ := ih (max v a)
      simp only [List.foldl_cons]
      constructor
      · rcases List.mem_cons.1 h1 with e | e
        · rw [e]
          rcases max_choice v a with e | e <;> rw [e] <;> simp
        · simp [e]
      · intro x hx
        have h3 := h2 (max v a) (by simp)
        rcases List.mem_cons.1 hx with rfl | hx
        · exact (le_max_left _ _).trans h3
        · rcases List.mem_cons.1 hx with rfl | hx
          · exact (le_max_right _ _).trans h3
          · exact h2 x (by simp [hx])
  cases im with
  | nil => cases h
  | cons v l =>
    simp only [maxOf, Except.ok.injEq] at h
    subst h
    exact key l v

theorem bright_minmax {im : Pixels} (h : im ≠ []) : ∃ lo hi, minOf im = .ok lo ∧ maxOf im = .ok hi := by
  cases im with
  | nil => exact absurd rfl h
  | cons v l => exact ⟨_, _, rfl, rfl⟩

/-- The image is not constant. -/
def NotUniform (im : Pixels) : Prop := ∃ x ∈ im, ∃ y ∈ im, x ≠ y

theorem bright_lt {im : Pixels} {lo hi : ℝ} (h : NotUniform im) (h1 : minOf im = .ok lo) (h2 : maxOf im = .ok hi) :
    lo < hi := by
  obtain ⟨x, hx, y, hy, hne⟩ := h
  have a1 := (bright_min h1).2
  have a2 := (bright_max h2).2
  rcases lt_or_gt_of_ne hne with h | h
  · linarith [a1 x hx, a2 y hy]
  · linarith [a1 y hy, a2 x hx]

theorem rescale_eq {im : Pixels} (h : NotUniform im) (minima maxima : ℝ) :
    ∃ lo hi, lo ∈ im ∧ hi ∈ im ∧ (∀ x ∈ im, lo ≤ x ∧ x ≤ hi) ∧ lo < hi ∧
      rescaleIntensity minima maxima im = .ok (im.map (fun x => (x - lo) / (hi - lo) * (maxima - minima) + minima)) := by
  have hne : im ≠ [] := by obtain ⟨x, hx, _⟩ := h; exact List.ne_nil_of_mem hx
  obtain ⟨lo, hi, h1, h2⟩ := bright_minmax hne
  have hlt := bright_lt h h1 h2
  refine ⟨lo, hi, (bright_min h1).1, (bright_max h2).1, fun x hx => ⟨(bright_min h1).2 x hx, (bright_max h2).2 x hx⟩, hlt,
    ?_⟩
  simp only [rescaleIntensity, h1, h2]
  rw [if_neg hlt.ne]

/-! ## Theorems -/

/-- C102 (rescale): the intensities of an image which is not constant are rescaled by a multiplicative factor and an offset; they
are between the two bounds, which are both reached, and the order is kept. -/
theorem C102_rescale (minima maxima : ℝ) (hmm : minima < maxima) (im : Pixels) (h : NotUniform im) :
    ∃ f : ℝ → ℝ, rescaleIntensity minima maxima im = .ok (im.map f) ∧
      (∃ a b, 0 < a ∧ ∀ x, f x = a * x + b) ∧ (∀ x ∈ im, minima ≤ f x ∧ f x ≤ maxima) ∧
      (∃ x ∈ im, f x = minima) ∧ (∃ x ∈ im, f x = maxima) ∧ ∀ x y, x < y ↔ f x < f y := by
  obtain ⟨lo, hi, h1, h2, h3, hlt, e⟩ := rescale_eq h minima maxima
  have hd : 0 < hi - lo := by linarith
  have hm : 0 < maxima - minima := by linarith
  have hf : ∀ x, (x - lo) / (hi - lo) * (maxima - minima) + minima =
      (maxima - minima) / (hi - lo) * x + (minima - (maxima - minima) / (hi - lo) * lo) := by
    intro x; field_simp; ring
  have ha : 0 < (maxima - minima) / (hi - lo) := div_pos hm hd
  refine ⟨_, e, ⟨_, _, ha, hf⟩, ?_, ⟨lo, h1, by simp⟩, ⟨hi, h2, by field_simp; ring⟩, ?_⟩
  · intro x hx
    obtain ⟨b1, b2⟩ := h3 x hx
    have c1 : 0 ≤ (x - lo) / (hi - lo) := div_nonneg (by linarith) hd.le
    have c2 : (x - lo) / (hi - lo) ≤ 1 := by rw [div_le_one hd]; linarith
    constructor
    · nlinarith
    · nlinarith
  · intro x y
    rw [hf, hf]
    constructor
    · intro hxy; nlinarith
    · intro hxy; nlinarith

/-- C102 (rescale of a constant image): it is clipped: an intensity between the bounds is not changed. -/
theorem C102_rescale_uniform (minima maxima c : ℝ) (n : Nat) (hn : 0 < n) :
    rescaleIntensity minima maxima (List.replicate n c) = .ok (List.replicate n (clip minima maxima c)) ∧
    (minima ≤ c → c ≤ maxima → clip minima maxima c = c) ∧
    (minima ≤ maxima → minima ≤ clip minima maxima c ∧ clip minima maxima c ≤ maxima) := by
  refine ⟨?_, ?_, ?_⟩
  · have hne : List.replicate n c ≠ [] := by simp; omega
    obtain ⟨lo, hi, h1, h2⟩ := bright_minmax hne
    have e1 : lo = c := List.eq_of_mem_replicate (bright_min h1).1
    have e2 : hi = c := List.eq_of_mem_replicate (bright_max h2).1
    simp only [rescaleIntensity, h1, h2]
    rw [if_pos (by rw [e1, e2]), List.map_replicate]
  · intro h1 h2
    rw [clip, max_eq_left h1, min_eq_left h2]
  · intro h
    exact ⟨le_min (le_max_right _ _) h, min_le_right _ _⟩

/-- C102 (rescale): to rescale again to the same bounds changes nothing. -/
theorem C102_rescale_twice (minima maxima : ℝ) (hmm : minima < maxima) (im out : Pixels) (h : NotUniform im)
    (ho : rescaleIntensity minima maxima im = .ok out) : rescaleIntensity minima maxima out = .ok out := by
  obtain ⟨f, e, _, h2, ⟨x0, hx0, e0⟩, ⟨x1, hx1, e1⟩, _⟩ := C102_rescale minima maxima hmm im h
  rw [e] at ho
  cases ho
  have hu : NotUniform (im.map f) :=
    ⟨f x0, List.mem_map.2 ⟨x0, hx0, rfl⟩, f x1, List.mem_map.2 ⟨x1, hx1, rfl⟩, by rw [e0, e1]; exact hmm.ne⟩
  obtain ⟨lo, hi, h3, h4, h5, hlt, e'⟩ := rescale_eq hu minima maxima
  have hlo : lo = minima := by
    obtain ⟨x, hx, rfl⟩ := List.mem_map.1 h3
    have a1 := (h5 (f x0) (List.mem_map.2 ⟨x0, hx0, rfl⟩)).1
    have a2 := (h2 x hx).1
    rw [e0] at a1
    linarith
  have hhi : hi = maxima := by
    obtain ⟨x, hx, rfl⟩ := List.mem_map.1 h4
    have a1 := (h5 (f x1) (List.mem_map.2 ⟨x1, hx1, rfl⟩)).2
    have a2 := (h2 x hx).2
    rw [e1] at a1
    linarith
  rw [e']
  congr 1
  conv_rhs => rw [← List.map_id (im.map f)]
  apply List.map_congr_left
  intro x _
  have : (maxima - minima) ≠ 0 := by linarith
  rw [hlo, hhi, div_mul_cancel₀ _ this]
  simp

/-- C102 (histogram equalisations): whatever the algorithm, the intensities of the result are in the range of the intensities of the
image; the bounds of this range are reached if the equalised image is not constant. -/
theorem C102_equalize (eq : Pixels → Except PyErr Pixels) (im out : Pixels) (h : equalize eq im = .ok out) :
    ∃ lo hi, lo ∈ im ∧ hi ∈ im ∧ (∀ x ∈ im, lo ≤ x ∧ x ≤ hi) ∧ (∀ x ∈ out, lo ≤ x ∧ x ≤ hi) ∧
      (NotUniform out → lo ∈ out ∧ hi ∈ out) := by
  have hne : im ≠ [] := by
    rintro rfl
    simp [equalize, minOf] at h
  obtain ⟨lo, hi, h1, h2⟩ := bright_minmax hne
  have hle : lo ≤ hi := (bright_min h1).2 _ (bright_max h2).1
  refine ⟨lo, hi, (bright_min h1).1, (bright_max h2).1, fun x hx => ⟨(bright_min h1).2 x hx, (bright_max h2).2 x hx⟩, ?_⟩
  simp only [equalize, h1, h2] at h
  split at h
  · cases h
  · split at h
    · cases h
    · rename_i im1 _ im2 _
      by_cases hu : NotUniform im2
      · rcases hle.eq_or_lt with he | hlt
        · obtain ⟨a, b, _, _, _, _, e⟩ := rescale_eq hu lo hi
          rw [e] at h
          cases h
          have hc : ∀ x ∈ im2.map (fun x => (x - a) / (b - a) * (hi - lo) + lo), x = lo := by
            intro x hx
            obtain ⟨y, _, rfl⟩ := List.mem_map.1 hx
            rw [he]; simp
          refine ⟨fun x hx => by rw [hc x hx]; exact ⟨le_refl _, hle⟩, ?_⟩
          rintro ⟨x, hx, y, hy, hne⟩
          exact absurd ((hc x hx).trans (hc y hy).symm) hne
        · obtain ⟨f, e, _, a1, ⟨x0, hx0, e0⟩, ⟨x1, hx1, e1⟩, _⟩ := C102_rescale lo hi hlt im2 hu
          rw [e] at h
          cases h
          refine ⟨?_, fun _ => ⟨List.mem_map.2 ⟨x0, hx0, e0⟩, List.mem_map.2 ⟨x1, hx1, e1⟩⟩⟩
          intro x hx
          obtain ⟨y, hy, rfl⟩ := List.mem_map.1 hx
          exact a1 y hy
      · cases im2 with
        | nil => simp [rescaleIntensity, minOf] at h
        | cons c l =>
          have hcl : c :: l = List.replicate (l.length + 1) c := by
            rw [List.eq_replicate_iff]
            refine ⟨by simp, ?_⟩
            intro x hx
            by_contra hne
            exact hu ⟨x, hx, c, by simp, hne⟩
          obtain ⟨e, _, a3⟩ := C102_rescale_uniform lo hi c (l.length + 1) (by omega)
          rw [hcl, e] at h
          cases h
          have a3 := a3 hle
          refine ⟨?_, ?_⟩
          · intro x hx
            rw [List.eq_of_mem_replicate hx]
            exact a3
          · rintro ⟨x, hx, y, hy, hne⟩
            exact absurd ((List.eq_of_mem_replicate hx).trans (List.eq_of_mem_replicate hy).symm) hne

/-- C102 (gamma correction), images of floats: the documented formula, for every image without negative intensities; other images
are refused. -/
theorem C102_gamma_partial (gamma gain : ℝ) (im : Pixels) :
    ((∀ x ∈ im, 0 ≤ x) → gammaCorrection 1 gamma gain im = .ok (im.map (fun x => gain * x ^ gamma))) ∧
    ((∃ x ∈ im, x < 0) → gammaCorrection 1 gamma gain im = .error .valueError) := by
  constructor
  · intro h
    have : im.any (fun x => decide (x < 0)) = false := by
      rw [List.any_eq_false]
      intro x hx
      simpa using h x hx
    simp only [gammaCorrection, this, Bool.false_eq_true, if_false]
    congr 1
    apply List.map_congr_left
    intro x _
    rw [div_one, mul_one, mul_comm]
  · rintro ⟨x, hx, hlt⟩
    have : im.any (fun x => decide (x < 0)) = true := by
      rw [List.any_eq_true]
      exact ⟨x, hx, by simpa using hlt⟩
    simp only [gammaCorrection, this, if_true]

/-- C102 (gamma correction) is false for images of integers: the result is not `gain * x ** gamma`; with a gain 1, the largest
intensity of the type is kept. -/
theorem C102_gamma_integers_fails (scale gamma : ℝ) (hs : 1 < scale) (hg : gamma ≠ 1) :
    gammaCorrection scale gamma 1 [scale] = .ok [scale] ∧ (1 : ℝ) * scale ^ gamma ≠ scale := by
  constructor
  · have h0 : ¬ scale < 0 := by linarith
    have hne : scale ≠ 0 := by linarith
    simp [gammaCorrection, h0, div_self hne]
  · rw [one_mul]
    intro h
    apply hg
    have h1 : scale ^ gamma = scale ^ (1 : ℝ) := by rw [h, Real.rpow_one]
    exact (Real.rpow_right_inj (by linarith) (by linarith)).1 h1

/-- C102 (gamma correction): the order of the intensities is kept for positive exponents and gains. -/
theorem C102_gamma_order (scale gamma gain : ℝ) (hs : 0 < scale) (hg : 0 < gamma) (hk : 0 < gain) (im out : Pixels)
    (h : gammaCorrection scale gamma gain im = .ok out) :
    ∃ f : ℝ → ℝ, out = im.map f ∧ ∀ x ∈ im, ∀ y ∈ im, x < y → f x < f y := by
  unfold gammaCorrection at h
  split at h
  · cases h
  · rename_i hn
    cases h
    refine ⟨_, rfl, ?_⟩
    intro x hx y _ hxy
    have h0 : 0 ≤ x := by
      by_contra hc
      exact hn (List.any_eq_true.2 ⟨x, hx, by simpa using hc⟩)
    have : (x / scale) ^ gamma < (y / scale) ^ gamma :=
      Real.rpow_lt_rpow (div_nonneg h0 hs.le) (div_lt_div_of_pos_right hxy hs) hg
    have h1 : (x / scale) ^ gamma * scale < (y / scale) ^ gamma * scale := mul_lt_mul_of_pos_right this hs
    exact mul_lt_mul_of_pos_right h1 hk

/-- C102 (adaptive threshold) is false: the documentation says that the result is a binary image; it is the threshold itself.  For a
constant image, whatever its intensity, the result has this intensity (minus the offset). -/
theorem C102_adaptive_threshold_fails (mean : Nat → Pixels → Pixels) (size n : Nat) (hs : size % 2 = 1) (c : ℝ)
    (hmean : mean size (List.replicate n c) = List.replicate n c) (offset : ℝ) :
    adaptiveThreshold mean size offset (List.replicate n c) = .ok (List.replicate n (c - offset)) := by
  simp [adaptiveThreshold, hs, hmean]

/-- C102 (sharpen): with filters which do not change constant images, a constant image is not changed; the difference between two
images is only amplified where they differ after the filters: the tool is linear if the filters are. -/
theorem C102_sharpen (smooth : ℝ → Pixels → Pixels) (s1 s2 alpha : ℝ) :
    (∀ n c, (∀ s, smooth s (List.replicate n c) = List.replicate n c) →
      sharpen smooth s1 s2 alpha (List.replicate n c) = List.replicate n c) ∧
    (∀ k : ℝ, (∀ s im, smooth s (im.map (k * ·)) = (smooth s im).map (k * ·)) → ∀ im,
      sharpen smooth s1 s2 alpha (im.map (k * ·)) = (sharpen smooth s1 s2 alpha im).map (k * ·)) := by
  constructor
  · intro n c h
    simp [sharpen, h]
  · intro k h im
    simp only [sharpen, h]
    rw [List.zipWith_map, List.map_zipWith]
    congr 1
    funext b f
    ring

/-- C102 (sharpen): for each pixel, the result is the filtered image plus `alpha` times what the second filter, applied to
the filtered image, removes from it. -/
theorem C102_sharpen_value (smooth : ℝ → Pixels → Pixels) (hlen : ∀ s im, (smooth s im).length = im.length)
    (s1 s2 alpha : ℝ) (im : Pixels) (i : Nat) (b f : ℝ) (hb : (smooth s1 im)[i]? = some b)
    (hf : (smooth s2 (smooth s1 im))[i]? = some f) :
    (sharpen smooth s1 s2 alpha im).length = im.length ∧
    (sharpen smooth s1 s2 alpha im)[i]? = some (b + alpha * (b - f)) := by
  constructor
  · simp [sharpen, hlen]
  · unfold sharpen
    rw [List.getElem?_zipWith, hb, hf]

/-- C102 (histogram equalisations): the algorithm receives an image whose intensities go exactly from 0 to 1 (what
scikit-image requires), if the image is not constant; its errors are not hidden. -/
theorem C102_equalize_input (im : Pixels) (h : NotUniform im) :
    ∃ input : Pixels, (∀ x ∈ input, 0 ≤ x ∧ x ≤ 1) ∧ 0 ∈ input ∧ 1 ∈ input ∧ input.length = im.length ∧
      (∀ eq eq' : Pixels → Except PyErr Pixels, eq input = eq' input → equalize eq im = equalize eq' im) ∧
      ∀ (eq : Pixels → Except PyErr Pixels) (e : PyErr), eq input = .error e → equalize eq im = .error e := by
  obtain ⟨f, e, _, h2, ⟨x0, hx0, e0⟩, ⟨x1, hx1, e1⟩, _⟩ := C102_rescale 0 1 one_pos im h
  have hne : im ≠ [] := by obtain ⟨x, hx, _⟩ := h; exact List.ne_nil_of_mem hx
  obtain ⟨lo, hi, g1, g2⟩ := bright_minmax hne
  refine ⟨im.map f, ?_, ?_, ?_, by simp, ?_, ?_⟩
  · intro x hx
    obtain ⟨y, hy, rfl⟩ := List.mem_map.1 hx
    exact h2 y hy
  · exact List.mem_map.2 ⟨x0, hx0, e0⟩
  · exact List.mem_map.2 ⟨x1, hx1, e1⟩
  · intro eq eq' he
    simp only [equalize, g1, g2, e, he]
  · intro eq er he
    simp only [equalize, g1, g2, e, he]

/-- An image meeting the hypotheses. -/
example : NotUniform [3, 1, 4, 1, 5] := ⟨3, by simp, 1, by simp, by norm_num⟩

example : rescaleIntensity 0 100 [3, 1, 4, 1, 5] = .ok [50, 0, 75, 0, 100] := by
  simp [rescaleIntensity, minOf, maxOf]
  norm_num

end Verif
