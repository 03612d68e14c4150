import Verif.Model.DisplayPivImages
import Verif.Props.DisplayPre

/-!
# C160: the images in the window of a PIV result
-/

namespace Verif
open Verif.DisplayPre Verif.ResultsFiles Verif.DisplayPivImages

/-! ## Specification -/

/-- The picture shows the image `n` alone, and the title says so. -/
def SeenImage (v : View) (pic0 pic1 : Picture) (n : Nat) : Prop :=
  v.images = some (pic0, decide (n = 0), pic1, decide (n = 1)) ∧ v.title = n

/-- The number of times `alt+s` has been pressed with the mouse on the image. -/
def pressesOn (es : List (Txt × Bool)) : Nat := (es.filter fun e => e.2 && decide (e.1 = "alt+s".toList)).length

/-! ## Lemmas -/

namespace DisplayPivImages

theorem copy_get_old (h : Heap) (a : Arr) (i : Nat) (hi : i < h.length) : (copy h a).1[i]? = h[i]? := by
  unfold copy
  rw [List.getElem?_append_left hi]

theorem copy_get_new (h : Heap) (a : Arr) :
    (copy h a).1[(copy h a).2.buf]? = some ⟨((h[a.buf]?).map Buffer.isInt).getD false, pixels h a⟩ := by
  unfold copy
  simp

theorem pixels_old (h : Heap) (a b : Arr) (hb : b.buf < h.length) : pixels (copy h a).1 b = pixels h b := by
  unfold pixels
  rw [copy_get_old h a _ hb]

theorem pixels_length (h : Heap) (a : Arr) (hm : InMemory h a) : (pixels h a).length = a.places.length := by
  obtain ⟨b, hb, -, -⟩ := hm.block
  unfold pixels
  rw [hb, List.length_map]

theorem pixels_new (h : Heap) (a : Arr) (hm : InMemory h a) : pixels (copy h a).1 (copy h a).2 = pixels h a := by
  conv => lhs; unfold pixels
  rw [copy_get_new]
  simp only
  rw [show (copy h a).2.places = List.range a.places.length from rfl, ← pixels_length h a hm]
  apply List.ext_getElem
  · simp
  · intro i h1 h2
    simp [List.getD_eq_getElem?_getD, List.getElem?_eq_getElem h2]

theorem inMemory_new (h : Heap) (a : Arr) (hm : InMemory h a) : InMemory (copy h a).1 (copy h a).2 := by
  refine ⟨_, copy_get_new h a, ?_, ?_⟩
  · intro j hj
    rw [show (copy h a).2.places = List.range a.places.length from rfl, List.mem_range] at hj
    simp only
    rw [pixels_length h a hm]
    exact hj
  · obtain ⟨b, hb, h1, h2⟩ := hm.block
    intro e v hv
    simp only [hb, Option.map_some, Option.getD_some] at e
    unfold pixels at hv
    rw [hb] at hv
    obtain ⟨j, hj, rfl⟩ := List.mem_map.1 hv
    have hlt := h1 j hj
    apply h2 e
    rw [List.getD_eq_getElem?_getD, List.getElem?_eq_getElem hlt, Option.getD_some]
    exact List.getElem_mem hlt

theorem inMemory_lt (h : Heap) (a : Arr) (hm : InMemory h a) : a.buf < h.length := by
  obtain ⟨b, hb, -, -⟩ := hm.block
  exact (List.getElem?_eq_some_iff.1 hb).1

theorem inMemory_old (h : Heap) (a b : Arr) (hm : InMemory h b) : InMemory (copy h a).1 b := by
  obtain ⟨c, hc, h1, h2⟩ := hm.block
  exact ⟨c, by rw [copy_get_old h a _ (inMemory_lt h b hm), hc], h1, h2⟩

theorem percentile_exists (q : ℚ) (hq0 : 0 ≤ q) (hq1 : q ≤ 100) (vals : List ℚ) (hne : vals ≠ []) : ∃ p, percentile q vals = .ok p := by
  unfold percentile
  rw [if_neg (by rintro (h | h) <;> linarith)]
  cases vals with
  | nil => exact absurd rfl hne
  | cons v l => exact ⟨_, rfl⟩

end DisplayPivImages

open DisplayPivImages

/-! ## Theorems -/

/-- **C160**: for all images (even if they share their memory) and all percentages, the window is opened; it shows the first image alone;
both images are those which have been given, saturated at their own percentile; the images given by the caller, as all other arrays, are
not modified; the limits are those of the image if they are not given.  Missing: the second image of another size
(`C160_stretched_fails`), and one image only (`C160_one_image_fails`). -/
theorem C160_drawn_partial (q : ℚ) (hq0 : 0 ≤ q) (hq1 : q ≤ 100) (h : Heap) (im0 im1 : Arr) (hm0 : InMemory h im0) (hm1 : InMemory h im1)
    (hne0 : im0.places ≠ []) (hne1 : im1.places ≠ []) (hsize : im1.ny = im0.ny ∧ im1.nx = im0.nx) (xlim ylim : Option (ℚ × ℚ)) :
    ∃ h' v pic0 pic1, openView q h (some im0) (some im1) xlim ylim = .ok (h', v) ∧ SeenImage v pic0 pic1 0 ∧
      ShowsImage q (pixels h im0) pic0.pixels ∧ ShowsImage q (pixels h im1) pic1.pixels ∧
      (∀ pic ∈ [pic0, pic1], pic.ny = im0.ny ∧ pic.nx = im0.nx ∧ pic.height = im0.ny ∧ pic.width = im0.nx) ∧
      v.xlim = some (xlim.getD (0, (im0.nx : ℚ))) ∧ v.ylim = some (ylim.getD ((im0.ny : ℚ), 0)) ∧
      ∀ a : Arr, a.buf < h.length → pixels h' a = pixels h a := by
  obtain ⟨p0, hp0⟩ := percentile_exists q hq0 hq1 (pixels h im0) (by
    intro e; exact hne0 (List.eq_nil_of_length_eq_zero (by rw [← pixels_length h im0 hm0, e]; rfl)))
  obtain ⟨p1, hp1⟩ := percentile_exists q hq0 hq1 (pixels h im1) (by
    intro e; exact hne1 (List.eq_nil_of_length_eq_zero (by rw [← pixels_length h im1 hm1, e]; rfl)))
  have hd : drawImages q h im0 im1 = .ok (clip (clip (copy (copy h im0).1 im1).1 (copy h im0).2 p0) (copy (copy h im0).1 im1).2 p1,
      ⟨pixels (clip (clip (copy (copy h im0).1 im1).1 (copy h im0).2 p0) (copy (copy h im0).1 im1).2 p1) (copy h im0).2,
        im0.ny, im0.nx, im0.ny, im0.nx⟩, true,
      ⟨pixels (clip (clip (copy (copy h im0).1 im1).1 (copy h im0).2 p0) (copy (copy h im0).1 im1).2 p1) (copy (copy h im0).1 im1).2,
        im1.ny, im1.nx, im0.ny, im0.nx⟩, false) := by
    unfold drawImages
    simp only [hp0, hp1]
  have hl : ((copy h im0).1).length = h.length + 1 := by simp [copy]
  have b0 : (copy h im0).2.buf = h.length := rfl
  have b1 : (copy (copy h im0).1 im1).2.buf = h.length + 1 := hl
  have n01 : (copy h im0).2.buf ≠ (copy (copy h im0).1 im1).2.buf := by rw [b0, b1]; omega
  have m0 : InMemory (copy (copy h im0).1 im1).1 (copy h im0).2 := inMemory_old _ _ _ (inMemory_new h im0 hm0)
  have m1 : InMemory (copy (copy h im0).1 im1).1 (copy (copy h im0).1 im1).2 := inMemory_new _ _ (inMemory_old _ _ _ hm1)
  have x0 : pixels (copy (copy h im0).1 im1).1 (copy h im0).2 = pixels h im0 := by
    rw [pixels_old _ _ _ (by rw [b0, hl]; omega), pixels_new h im0 hm0]
  have x1 : pixels (copy (copy h im0).1 im1).1 (copy (copy h im0).1 im1).2 = pixels h im1 := by
    rw [pixels_new _ _ (inMemory_old _ _ _ hm1), pixels_old _ _ _ (inMemory_lt h im1 hm1)]
  refine ⟨_, _, _, _, by simp only [openView, hd]; rfl, ⟨rfl, rfl⟩, ?_, ?_, ?_, ?_, ?_, ?_⟩
  · rw [pixels_clip_other _ _ _ _ n01]
    have := clip_shows q _ _ p0 m0 (by rw [x0]; exact hp0)
    rwa [x0] at this
  · have := clip_shows q _ _ p1 (m1.clip p0 n01.symm) (by rw [pixels_clip_other _ _ _ _ n01.symm, x1]; exact hp1)
    rwa [pixels_clip_other _ _ _ _ n01.symm, x1] at this
  · intro pic hpic
    simp only [List.mem_cons, List.not_mem_nil, or_false] at hpic
    rcases hpic with rfl | rfl
    · exact ⟨rfl, rfl, rfl, rfl⟩
    · exact ⟨hsize.1, hsize.2, rfl, rfl⟩
  · cases xlim <;> rfl
  · cases ylim <;> rfl
  · intro a ha
    rw [pixels_clip_other _ _ _ _ (by rw [b1]; omega), pixels_clip_other _ _ _ _ (by rw [b0]; omega),
      pixels_old _ _ _ (by rw [hl]; omega), pixels_old _ _ _ ha]

/-- **C160** is false if the second image has another size: it is stretched on the first one (its pixels are not at their places). -/
theorem C160_stretched_fails (q : ℚ) (h h' : Heap) (im0 im1 : Arr) (xlim ylim : Option (ℚ × ℚ)) (v : View)
    (ho : openView q h (some im0) (some im1) xlim ylim = .ok (h', v)) (hsize : (im1.ny, im1.nx) ≠ (im0.ny, im0.nx)) :
    ∃ pic0 pic1, SeenImage v pic0 pic1 0 ∧ (pic1.ny, pic1.nx) = (im1.ny, im1.nx) ∧ (pic1.height, pic1.width) ≠ (pic1.ny, pic1.nx) := by
  simp only [openView] at ho
  cases hd : drawImages q h im0 im1 with
  | error e => simp [hd] at ho
  | ok x =>
    obtain ⟨h1, im⟩ := x
    simp only [hd] at ho
    cases ho
    unfold drawImages at hd
    cases hp0 : percentile q (pixels h im0) with
    | error e => simp [hp0] at hd
    | ok p0 =>
      simp only [hp0] at hd
      cases hp1 : percentile q (pixels h im1) with
      | error e => simp [hp1] at hd
      | ok p1 =>
        simp only [hp1] at hd
        cases hd
        exact ⟨_, _, ⟨rfl, rfl⟩, rfl, fun e => hsize e.symm⟩

/-- **C160** is false if only the first image is given: the window is not opened. -/
theorem C160_one_image_fails (q : ℚ) (hq0 : 0 ≤ q) (hq1 : q ≤ 100) (h : Heap) (im0 : Arr) (hm0 : InMemory h im0) (hne0 : im0.places ≠ [])
    (xlim ylim : Option (ℚ × ℚ)) : openView q h (some im0) none xlim ylim = .error .attributeError := by
  obtain ⟨p0, hp0⟩ := percentile_exists q hq0 hq1 (pixels h im0) (by
    intro e; exact hne0 (List.eq_nil_of_length_eq_zero (by rw [← pixels_length h im0 hm0, e]; rfl)))
  simp only [openView, hp0]

/-- **C160**: whatever the keys which are pressed, one image is seen, alone, under its number: the image 0 after an even number of `alt+s`
with the mouse on the image, the image 1 after an odd number.  The pictures and the limits never change. -/
theorem C160_switch (v : View) (pic0 pic1 : Picture) (h0 : SeenImage v pic0 pic1 0) (es : List (Txt × Bool)) :
    SeenImage (es.foldl View.key v) pic0 pic1 (pressesOn es % 2) ∧ (es.foldl View.key v).xlim = v.xlim ∧
      (es.foldl View.key v).ylim = v.ylim := by
  have key : ∀ (es : List (Txt × Bool)) (v : View) (n : Nat), SeenImage v pic0 pic1 (n % 2) →
      SeenImage (es.foldl View.key v) pic0 pic1 ((n + pressesOn es) % 2) ∧ (es.foldl View.key v).xlim = v.xlim ∧
        (es.foldl View.key v).ylim = v.ylim := by
    intro es
    induction es with
    | nil => intro v n h; exact ⟨h, rfl, rfl⟩
    | cons e es ih =>
      intro v n h
      rw [List.foldl_cons]
      by_cases he : e.2 = true ∧ e.1 = "alt+s".toList
      · have e1 : pressesOn (e :: es) = 1 + pressesOn es := by
          unfold pressesOn
          rw [List.filter_cons_of_pos (by simp [he.1, he.2]), List.length_cons]
          omega
        have e2 : v.key e = v.switch := by
          unfold View.key
          rw [if_pos he.1, if_pos he.2]
        obtain ⟨hi, ht⟩ := h
        have e3 : v.switch = ⟨some (pic0, !decide (n % 2 = 0), pic1, !decide (n % 2 = 1)),
            if !decide (n % 2 = 1) then 1 else 0, v.xlim, v.ylim⟩ := by
          unfold View.switch
          rw [hi]
        rw [e1, e2, ← Nat.add_assoc]
        have hs : SeenImage v.switch pic0 pic1 ((n + 1) % 2) := by
          rw [e3]
          rcases Nat.mod_two_eq_zero_or_one n with e | e
          · have e' : (n + 1) % 2 = 1 := by omega
            simp [SeenImage, e, e']
          · have e' : (n + 1) % 2 = 0 := by omega
            simp [SeenImage, e, e']
        have := ih v.switch (n + 1) hs
        rw [e3] at this ⊢
        exact this
      · have e1 : pressesOn (e :: es) = pressesOn es := by
          unfold pressesOn
          rw [List.filter_cons_of_neg (by simpa using he)]
        have e2 : v.key e = v := by
          unfold View.key
          split
          · rename_i h1
            rw [if_neg fun h2 => he ⟨h1, h2⟩]
          · rfl
        rw [e1, e2]
        exact ih v n h
  simpa using key es v 0 h0

/-- **C160** is false without images (they have not been found): the title still says that the image 0 is shown, and `alt+s` does
nothing. -/
theorem C160_no_image_fails (q : ℚ) (h : Heap) (im1 : Option Arr) (xlim ylim : Option (ℚ × ℚ)) :
    ∃ v, openView q h none im1 xlim ylim = .ok (h, v) ∧ v.images = none ∧ v.title = 0 ∧ v.xlim = xlim ∧ v.ylim = ylim ∧
      ∀ es : List (Txt × Bool), es.foldl View.key v = v := by
  refine ⟨⟨none, 0, xlim, ylim⟩, rfl, rfl, rfl, rfl, rfl, fun es => ?_⟩
  induction es with
  | nil => rfl
  | cons e es ih =>
    rw [List.foldl_cons]
    have : View.key ⟨none, 0, xlim, ylim⟩ e = ⟨none, 0, xlim, ylim⟩ := by
      unfold View.key
      split
      · split <;> rfl
      · rfl
    rw [this, ih]

/-! ## Examples -/

/-- Non-vacuity of `C160_drawn_partial`: two arrays which share their memory. -/
example : InMemory [⟨true, [1, 2, 300]⟩] ⟨0, [0, 1], 1, 2⟩ ∧ InMemory [⟨true, [1, 2, 300]⟩] ⟨0, [1, 2], 1, 2⟩ := by
  constructor
  all_goals
    refine ⟨⟨true, [1, 2, 300]⟩, rfl, by decide, fun _ v hv => ?_⟩
    simp only [List.mem_cons, List.not_mem_nil, or_false] at hv
    rcases hv with rfl | rfl | rfl
    · exact ⟨1, rfl⟩
    · exact ⟨2, rfl⟩
    · exact ⟨300, rfl⟩

example : (match openView 50 [⟨true, [1, 2, 300]⟩] (some ⟨0, [0, 1], 1, 2⟩) (some ⟨0, [1, 2], 1, 2⟩) none none with
    | .ok (h, v) => (h.head?.map Buffer.vals, v.images.map fun x => (x.1.pixels, x.2.2.1.pixels))
    | .error _ => (none, none)) = (some [1, 2, 300], some ([1, 1], [2, 151])) := by decide +kernel

/-- Non-vacuity of `C160_stretched_fails`. -/
example : (match openView 50 [⟨true, [1, 2, 300]⟩] (some ⟨0, [0, 1], 1, 2⟩) (some ⟨0, [1, 2], 2, 1⟩) none none with
    | .ok (_, v) => v.images.map fun x => (x.2.2.1.height, x.2.2.1.width)
    | .error _ => none) = some (1, 2) := by decide +kernel

/-- Non-vacuity of `C160_switch`: a key on the image, and one outside. -/
example : pressesOn [("alt+s".toList, true), ("alt+s".toList, false), ("alt+h".toList, true)] = 1 := by decide

end Verif
