import Verif.Model.PgViewer
import Mathlib.Tactic.Linarith
import Mathlib.Tactic.NormNum
import Mathlib.Tactic.Push

/-!
# C156: the viewer `fluidimviewer-pg`
-/

namespace Verif
open Verif.PgViewer

/-! ## Specification -/

/-- The file is a grey image of `h` rows and `w` columns, with these intensities (row, column). -/
def IsGrey (fs : Files) (path : List Char) (h w : ℕ) (f : ℕ → ℕ → ℚ) : Prop :=
  fs.isDir path = false ∧ ∃ a, fs.read path = .ok a ∧ a.shape = [h, w] ∧ ∀ i j, a.get [i, j] = f i j

/-- What is displayed is this image: `w` points horizontally (first axis), `h` vertically. -/
def Displays (im : Arr) (h w : ℕ) (f : ℕ → ℕ → ℚ) : Prop :=
  im.shape = [w, h] ∧ ∀ i j, im.get [j, i] = f i j

/-! ## Lemmas -/

theorem pg_viewOne {fs : Files} {p : List Char} {h w : ℕ} {f : ℕ → ℕ → ℚ} (hp : IsGrey fs p h w f) :
    ∃ im, viewOne fs p = .ok ⟨[im], none⟩ ∧ Displays im h w f := by
  obtain ⟨hd, a, ha, hs, hf⟩ := hp
  refine ⟨a.transpose, ?_, ?_, ?_⟩
  · simp [viewOne, hd, ha, setImage, Arr.transpose, hs]
  · simp [Arr.transpose, hs]
  · intro i j; simpa [Arr.transpose] using hf i j

theorem pg_findDock (t : List Char) (v : Option View) : ∀ ds : List (List Char × Option View),
    findDock t (ds ++ [(t, v)]) = some ds.length
  | [] => by simp [findDock]
  | d :: ds => by simp [findDock, pg_findDock t v ds]

theorem pg_modify_last {α : Type} (g : α → α) (a : α) (l : List α) : (l ++ [a]).modify l.length g = l ++ [g a] := by
  induction l with
  | nil => rfl
  | cons b l ih => simp [ih]

theorem pg_dockOne (fs : Files) (w : Window) (arg : List Char) :
    dockOne fs w arg = match viewOne fs arg with
      | .error e => .error e
      | .ok v => .ok ⟨w.docks ++ [(basename arg, some v)], some w.docks.length⟩ := by
  simp only [dockOne, pg_findDock, pg_modify_last]
  cases viewOne fs arg <;> rfl

/-- All the images can be viewed: the docks are added in the order of the arguments. -/
theorem pg_dockLoop (fs : Files) (view : List Char → View) : ∀ (args : List (List Char)) (w : Window),
    (∀ a ∈ args, viewOne fs a = .ok (view a)) →
    ∃ p, dockLoop fs w args = .ok ⟨w.docks ++ args.map (fun a => (basename a, some (view a))), p⟩ ∧
      (args ≠ [] → p = some (w.docks.length + args.length - 1))
  | [], w, _ => ⟨w.proxy, by simp [dockLoop], fun h => absurd rfl h⟩
  | a :: args, w, h => by
    have ha := h a (by simp)
    obtain ⟨p, hp, hq⟩ := pg_dockLoop fs view args ⟨w.docks ++ [(basename a, some (view a))], some w.docks.length⟩
      (fun b hb => h b (List.mem_cons_of_mem _ hb))
    cases args with
    | nil =>
      refine ⟨some w.docks.length, ?_, fun _ => by simp⟩
      simp [dockLoop, pg_dockOne, ha]
    | cons b args =>
      refine ⟨p, ?_, fun _ => ?_⟩
      · simp only [dockLoop, pg_dockOne fs w a, ha]
        simp only [dockLoop] at hp
        rw [hp]
        simp
      · rw [hq (by simp)]; simp; omega

theorem pg_trunc_nonneg {x : ℚ} (hx : 0 ≤ x) : trunc x = ⌊x⌋ := if_pos hx

theorem pg_trunc_lt {x : ℚ} {w : ℕ} (hx : 0 ≤ x) : trunc x < w ↔ x < w := by
  rw [pg_trunc_nonneg hx, Int.floor_lt]; simp

theorem pg_trunc_pos {x : ℚ} (hx : 0 ≤ x) : 0 ≤ trunc x := by
  rw [pg_trunc_nonneg hx]; exact Int.floor_nonneg.mpr hx

theorem pg_trunc_nonneg_iff {x : ℚ} : 0 ≤ trunc x ↔ -1 < x := by
  unfold trunc
  split
  · rename_i h; exact ⟨fun _ => by linarith, fun _ => Int.floor_nonneg.mpr h⟩
  · constructor
    · intro h
      have : (-1 : ℤ) < ⌈x⌉ := by omega
      simpa using Int.lt_ceil.mp this
    · intro h
      have : (-1 : ℤ) < ⌈x⌉ := Int.lt_ceil.mpr (by simpa using h)
      omega

theorem pg_trunc_le_iff {x : ℚ} {w : ℕ} : trunc x ≤ w ↔ x < w + 1 := by
  unfold trunc
  split
  · rw [← Int.lt_add_one_iff, Int.floor_lt]; push_cast; rfl
  · rename_i h
    push Not at h
    have hw : (0 : ℚ) ≤ w := Nat.cast_nonneg _
    constructor
    · intro _; linarith
    · intro _; exact Int.ceil_le.mpr (by push_cast; linarith)

/-! ## Docks -/

/-- **C156** (docks): every image of the command has its own dock, in the order of the command, with the name of its file as title
(several files can have the same name), and the dock shows the image, columns horizontally. -/
theorem C156_docks_partial (fs : Files) (args : List (List Char)) (h w : List Char → ℕ) (f : List Char → ℕ → ℕ → ℚ)
    (hargs : ∀ a ∈ args, IsGrey fs a (h a) (w a) (f a)) :
    ∃ win, dock fs args = .ok win ∧ win.docks.length = args.length ∧
      ∀ (k : ℕ) (a : List Char), args[k]? = some a → ∃ im : Arr,
        win.docks[k]? = some (basename a, some ⟨[im], none⟩) ∧ Displays im (h a) (w a) (f a) := by
  classical
  have hv : ∀ a, ∃ v : View, a ∈ args → ∃ im, v = ⟨[im], none⟩ ∧ viewOne fs a = .ok v ∧ Displays im (h a) (w a) (f a) := by
    intro a
    by_cases ha : a ∈ args
    · obtain ⟨im, h1, h2⟩ := pg_viewOne (hargs a ha)
      exact ⟨_, fun _ => ⟨im, rfl, h1, h2⟩⟩
    · exact ⟨⟨[], none⟩, fun h => absurd h ha⟩
  choose view hview using hv
  obtain ⟨p, hp, -⟩ := pg_dockLoop fs view args ⟨[], none⟩ (fun a ha => by
    obtain ⟨im, -, h2, -⟩ := hview a ha; exact h2)
  refine ⟨_, hp, by simp, ?_⟩
  intro k a hk
  obtain ⟨im, h1, -, h3⟩ := hview a (List.mem_of_getElem? hk)
  exact ⟨im, by simp [hk, h1], h3⟩

/-- **C156** (errors in the docks): the viewer stops at the first argument which is a directory or cannot be displayed, with
`ValueError` if it is a directory. -/
theorem C156_docks_error (fs : Files) (before after : List (List Char)) (bad : List Char) (view : List Char → View) (e : PyErr)
    (hb : ∀ a ∈ before, viewOne fs a = .ok (view a)) (he : viewOne fs bad = .error e) :
    dock fs (before ++ bad :: after) = .error e ∧ (fs.isDir bad = true → e = .valueError) := by
  constructor
  · have : ∀ (l : List (List Char)) (w : Window), (∀ a ∈ l, viewOne fs a = .ok (view a)) →
        dockLoop fs w (l ++ bad :: after) = .error e := by
      intro l
      induction l with
      | nil => intro w _; simp [dockLoop, pg_dockOne, he]
      | cons a l ih =>
        intro w h
        simp only [List.cons_append, dockLoop, pg_dockOne, h a (by simp)]
        exact ih _ (fun b hb => h b (List.mem_cons_of_mem _ hb))
    exact this before _ hb
  · intro hd
    simp [viewOne, hd] at he
    exact he.symm

/-- **C156** is false for colour images: a colour image is shown as a series of grey images, one per channel. -/
theorem C156_colour_fails (fs : Files) (path : List Char) (a : Arr) (h w c : ℕ) (hd : fs.isDir path = false) (ha : fs.read path = .ok a)
    (hs : a.shape = [h, w, c]) (hh : 4 < h) :
    ∃ win v, dock fs [path] = .ok win ∧ win.docks = [(basename path, some v)] ∧ v.frames.length = c ∧
      ∀ k, k < c → ∃ im, v.frames[k]? = some im ∧ Displays im h w (fun i j => a.get [i, j, k]) := by
  have hv : viewOne fs path = .ok ⟨(List.range c).map a.transpose.slice, none⟩ := by
    have h4 : ¬ h ≤ 4 := by omega
    simp [viewOne, hd, ha, setImage, Arr.transpose, hs, h4]
  refine ⟨⟨[(basename path, some ⟨(List.range c).map a.transpose.slice, none⟩)], some 0⟩, ⟨(List.range c).map a.transpose.slice, none⟩,
    ?_, rfl, ?_, ?_⟩
  · simp [dock, dockLoop, pg_dockOne, hv]
  · simp
  · intro k hk
    refine ⟨a.transpose.slice k, by simp [hk], ?_, ?_⟩
    · simp [Arr.slice, Arr.transpose, hs]
    · intro i j; simp [Arr.slice, Arr.transpose]

/-! ## Intensity under the mouse -/

/-- **C156** (mouse): over the image, the label gives the position of the mouse and the intensity of the pixel which is under it; far
from the image (more than one pixel) it is hidden.  What is missing is the last pixel around the image (`C156_border_fails`). -/
theorem C156_mouse_partial (im : Arr) (h w : ℕ) (f : ℕ → ℕ → ℚ) (him : Displays im h w f) (x y : ℚ) :
    (0 ≤ x → x < w → 0 ≤ y → y < h → mouseMoved im x y = .ok (some (x, y, f ⌊y⌋.toNat ⌊x⌋.toNat))) ∧
    (x ≤ -1 ∨ y ≤ -1 ∨ (w : ℚ) + 1 ≤ x ∨ (h : ℚ) + 1 ≤ y → mouseMoved im x y = .ok none) := by
  obtain ⟨hs, hf⟩ := him
  constructor
  · intro hx hxw hy hyh
    have h1 := (pg_trunc_lt hx).mpr hxw
    have h2 := (pg_trunc_lt hy).mpr hyh
    simp only [mouseMoved, hs]
    rw [if_pos ⟨⟨pg_trunc_pos hx, pg_trunc_pos hy⟩, h1.le, h2.le⟩, if_pos ⟨h1, h2⟩, hf, pg_trunc_nonneg hx, pg_trunc_nonneg hy]
  · intro hout
    simp only [mouseMoved, hs]
    rw [if_neg]
    rw [pg_trunc_nonneg_iff, pg_trunc_nonneg_iff, pg_trunc_le_iff, pg_trunc_le_iff]
    rintro ⟨⟨a, b⟩, c, d⟩
    rcases hout with h | h | h | h <;> linarith

/-- **C156** is false around the image: at less than one pixel at the right of it or below it, `IndexError`; at less than one pixel at
its left, the intensity of a pixel of the first column is announced, although there is no pixel there. -/
theorem C156_border_fails (im : Arr) (h w : ℕ) (f : ℕ → ℕ → ℚ) (him : Displays im h w f) (x y : ℚ) :
    ((w : ℚ) ≤ x → x < w + 1 → -1 < y → y < h + 1 → mouseMoved im x y = .error .indexError) ∧
    ((h : ℚ) ≤ y → y < h + 1 → -1 < x → x < w + 1 → mouseMoved im x y = .error .indexError) ∧
    (-1 < x → x < 0 → 0 ≤ y → y < h → 0 < w → mouseMoved im x y = .ok (some (x, y, f ⌊y⌋.toNat 0))) := by
  obtain ⟨hs, hf⟩ := him
  have hw : (0 : ℚ) ≤ w := Nat.cast_nonneg _
  have hh : (0 : ℚ) ≤ h := Nat.cast_nonneg _
  refine ⟨?_, ?_, ?_⟩
  · intro h1 h2 h3 h4
    simp only [mouseMoved, hs]
    rw [if_pos ⟨⟨pg_trunc_nonneg_iff.mpr (by linarith), pg_trunc_nonneg_iff.mpr h3⟩, pg_trunc_le_iff.mpr h2, pg_trunc_le_iff.mpr h4⟩,
      if_neg]
    rintro ⟨h5, -⟩
    exact absurd ((pg_trunc_lt (by linarith)).mp h5) (not_lt.mpr h1)
  · intro h1 h2 h3 h4
    simp only [mouseMoved, hs]
    rw [if_pos ⟨⟨pg_trunc_nonneg_iff.mpr h3, pg_trunc_nonneg_iff.mpr (by linarith)⟩, pg_trunc_le_iff.mpr h4, pg_trunc_le_iff.mpr h2⟩,
      if_neg]
    rintro ⟨-, h5⟩
    exact absurd ((pg_trunc_lt (by linarith)).mp h5) (not_lt.mpr h1)
  · intro h1 h2 h3 h4 h5
    have ht : trunc x = 0 := by
      have ha : 0 ≤ trunc x := pg_trunc_nonneg_iff.mpr h1
      have hb : trunc x ≤ 0 := by
        unfold trunc
        rw [if_neg (by linarith)]
        exact Int.ceil_le.mpr (by simpa using h2.le)
      omega
    have h6 := (pg_trunc_lt h3).mpr h4
    simp only [mouseMoved, hs, ht]
    rw [if_pos ⟨⟨le_refl _, pg_trunc_pos h3⟩, by omega, h6.le⟩, if_pos ⟨by omega, h6⟩, pg_trunc_nonneg h3]
    simp [hf]

/-- **C156**: the intensity is shown over the last dock, and it is false for the others: nothing is shown whatever the position. -/
theorem C156_hover_fails (fs : Files) (args : List (List Char)) (h w : List Char → ℕ) (f : List Char → ℕ → ℕ → ℚ)
    (hargs : ∀ a ∈ args, IsGrey fs a (h a) (w a) (f a)) :
    ∃ win, dock fs args = .ok win ∧
      (∀ last, args.getLast? = some last → ∀ x y : ℚ, 0 ≤ x → x < w last → 0 ≤ y → y < h last →
        hover win (args.length - 1) 0 x y = .ok (some (x, y, f last ⌊y⌋.toNat ⌊x⌋.toNat))) ∧
      (∀ (k j : ℕ) (x y : ℚ), k + 1 < args.length → hover win k j x y = .ok none) := by
  obtain ⟨win, hwin, hlen, hall⟩ := C156_docks_partial fs args h w f hargs
  refine ⟨win, hwin, ?_⟩
  have hpx : args ≠ [] → win.proxy = some (args.length - 1) := by
    intro hne
    have hv : ∀ a, ∃ v : View, a ∈ args → viewOne fs a = .ok v := by
      intro a
      by_cases ha : a ∈ args
      · obtain ⟨im, h1, -⟩ := pg_viewOne (hargs a ha); exact ⟨_, fun _ => h1⟩
      · exact ⟨⟨[], none⟩, fun h => absurd h ha⟩
    choose view hview using hv
    obtain ⟨p, hp, hq⟩ := pg_dockLoop fs view args ⟨[], none⟩ hview
    have : win = ⟨[] ++ args.map (fun a => (basename a, some (view a))), p⟩ := by
      have := hwin.symm.trans hp; exact Except.ok.inj this
    rw [this]; simpa using hq hne
  constructor
  · intro last hl x y hx hxw hy hyh
    have hne : args ≠ [] := by rintro rfl; simp at hl
    obtain ⟨im, h1, h2⟩ := hall (args.length - 1) last (by rw [← List.getLast?_eq_getElem?]; exact hl)
    simp only [hover, hpx hne, if_true]
    rw [h1]
    exact (C156_mouse_partial im _ _ _ h2 x y).1 hx hxw hy hyh
  · intro k j x y hk
    have hne : args ≠ [] := by rintro rfl; simp at hk
    simp only [hover, hpx hne]
    rw [if_neg]
    intro h; have := Option.some.inj h; omega

/-! ## Slideshow -/

theorem pg_readAll (fs : Files) (img : List Char → Arr) : ∀ args : List (List Char), (∀ a ∈ args, fs.read a = .ok (img a)) →
    readAll fs args = .ok (args.map (fun a => (img a).transpose))
  | [], _ => rfl
  | a :: args, h => by
    simp [readAll, h a (by simp), pg_readAll fs img args (fun b hb => h b (List.mem_cons_of_mem _ hb))]

/-- What a slideshow does, for images which can be read. -/
theorem pg_slideshow (fs : Files) (img : List Char → Arr) (a : List Char) (args : List (List Char)) (last : List Char)
    (hl : (a :: args).getLast? = some last) (hr : ∀ b ∈ a :: args, fs.read b = .ok (img b)) :
    slideshow fs (a :: args) = match stack ((a :: args).map (fun b => (img b).transpose)) with
      | .error e => .error e
      | .ok s => match setImage s with
        | .error e => .error e
        | .ok fr => .ok ("FluidImage ".toList ++ basename a ++ " to ".toList ++ basename last,
            ⟨fr, some (linspace0 (args.length + 1) (s.shape.headD 0))⟩) := by
  unfold slideshow viewMany
  rw [hl, pg_readAll fs img _ hr]
  generalize "FluidImage ".toList = t1
  generalize " to ".toList = t2
  simp only [List.head?_cons, List.length_cons]
  cases stack ((a :: args).map (fun b => (img b).transpose)) with
  | error e => rfl
  | ok s =>
    dsimp only
    cases setImage s <;> rfl

/-- **C156** (slideshow): for grey images of the same size (more than 4 rows), the frames are the images in the order of the command,
the title has the names of the first and last ones, and the times go from 0 to the number of images. -/
theorem C156_slideshow_partial (fs : Files) (args : List (List Char)) (first last : List Char) (h w : ℕ) (f : List Char → ℕ → ℕ → ℚ)
    (hfirst : args.head? = some first) (hlast : args.getLast? = some last) (hh : 4 < h) (hargs : ∀ a ∈ args, IsGrey fs a h w (f a)) :
    ∃ v, slideshow fs args = .ok ("FluidImage ".toList ++ basename first ++ " to ".toList ++ basename last, v) ∧
      v.frames.length = args.length ∧
      (∀ (k : ℕ) (a : List Char), args[k]? = some a → ∃ im, v.frames[k]? = some im ∧ Displays im h w (f a)) ∧
      ∃ times, v.times = some times ∧ times.length = args.length ∧
        ∀ k, k < args.length → 2 ≤ args.length → times[k]? = some ((k : ℚ) * args.length / (args.length - 1)) := by
  classical
  obtain ⟨a, rest, rfl⟩ : ∃ a rest, args = a :: rest := by
    cases args with
    | nil => simp at hfirst
    | cons a rest => exact ⟨a, rest, rfl⟩
  obtain rfl : a = first := by simpa using hfirst
  have him : ∀ b, ∃ im : Arr, b ∈ a :: rest → fs.read b = .ok im ∧ im.shape = [h, w] ∧ ∀ i j, im.get [i, j] = f b i j := by
    intro b
    by_cases hb : b ∈ a :: rest
    · obtain ⟨-, im, h1, h2, h3⟩ := hargs b hb; exact ⟨im, fun _ => ⟨h1, h2, h3⟩⟩
    · exact ⟨⟨[], fun _ => 0⟩, fun h => absurd h hb⟩
  choose img himg using him
  have hsl := pg_slideshow fs img a rest last hlast (fun b hb => (himg b hb).1)
  have hst : ∃ s, stack ((a :: rest).map (fun b => (img b).transpose)) = .ok s ∧ s.shape = [rest.length + 1, w, h] ∧
      ∀ k b, (a :: rest)[k]? = some b → ∀ i, s.get (k :: i) = (img b).transpose.get i := by
    have hall : (rest.map (fun b => (img b).transpose)).all (fun b => b.shape == (img a).transpose.shape) = true := by
      rw [List.all_eq_true]
      intro x hx
      obtain ⟨b, hb, rfl⟩ := List.mem_map.mp hx
      simp [Arr.transpose, (himg b (List.mem_cons_of_mem _ hb)).2.1, (himg a (by simp)).2.1]
    refine ⟨_, if_pos hall, ?_, ?_⟩
    · simp [Arr.transpose, (himg a (by simp)).2.1]
    · intro k b hk i
      have : ((img a).transpose :: rest.map (fun b => (img b).transpose))[k]? = some (img b).transpose := by
        rw [← List.map_cons (f := fun b => (img b).transpose), List.getElem?_map, hk]; rfl
      simp [this]
  obtain ⟨s, hs, hshape, hget⟩ := hst
  have hset : setImage s = .ok ((List.range (rest.length + 1)).map s.slice) := by
    have h4 : ¬ h ≤ 4 := by omega
    simp [setImage, hshape, h4]
  rw [hs] at hsl
  simp only [hset, hshape, List.headD_cons] at hsl
  refine ⟨_, hsl, by simp, ?_, _, rfl, by simp [linspace0], ?_⟩
  · intro k b hk
    have hk' : k < rest.length + 1 := by
      have := (List.getElem?_eq_some_iff.mp hk).1; simpa using this
    refine ⟨s.slice k, by simp [hk'], by simp [Arr.slice, hshape], ?_⟩
    intro i j
    rw [Arr.slice]
    simp only [hget k b hk]
    simpa [Arr.transpose] using (himg b (List.mem_of_getElem? hk)).2.2 i j
  · intro k hk h2
    simp only [List.length_cons] at hk h2 ⊢
    have hne : rest.length + 1 ≠ 1 := by omega
    simp only [linspace0, List.getElem?_map, List.getElem?_range hk, Option.map_some, if_neg hne]

/-- **C156** is false when an image has not the size of the first one: no slideshow, `ValueError`. -/
theorem C156_slideshow_fails (fs : Files) (a : List Char) (args : List (List Char)) (img : List Char → Arr)
    (hr : ∀ b ∈ a :: args, fs.read b = .ok (img b)) (b : List Char) (hb : b ∈ args) (hs : (img b).shape ≠ (img a).shape) :
    slideshow fs (a :: args) = .error .valueError := by
  obtain ⟨last, hl⟩ : ∃ last, (a :: args).getLast? = some last := by
    cases h : (a :: args).getLast? with
    | none => simp at h
    | some l => exact ⟨l, rfl⟩
  rw [pg_slideshow fs img a args last hl hr]
  have : stack ((a :: args).map (fun b => (img b).transpose)) = .error .valueError := by
    simp only [List.map_cons, stack]
    rw [if_neg]
    rw [List.all_eq_true]
    intro hall
    have := hall _ (List.mem_map.mpr ⟨b, hb, rfl⟩)
    simp [Arr.transpose] at this
    exact hs this
  rw [this]

/-! ## Examples -/

/-- Two images with the same name in two directories, 5 rows and 6 columns. -/
def exampleFiles : Files :=
  ⟨fun p => p == "d".toList, fun p => if p = "d/a.png".toList ∨ p = "e/a.png".toList then
      .ok ⟨[5, 6], fun i => match i with | [i, j] => 10 * i + j + (if p = "e/a.png".toList then 100 else 0) | _ => 0⟩
    else .error .fileNotFoundError⟩

theorem pg_example (p : List Char) (hp : p = "d/a.png".toList ∨ p = "e/a.png".toList) :
    IsGrey exampleFiles p 5 6 (fun i j => 10 * i + j + (if p = "e/a.png".toList then 100 else 0)) := by
  have hd : exampleFiles.isDir p = false := by rcases hp with rfl | rfl <;> decide +kernel
  exact ⟨hd, _, if_pos hp, rfl, fun i j => rfl⟩

example : ∀ p ∈ ["d/a.png".toList, "e/a.png".toList],
    IsGrey exampleFiles p 5 6 (fun i j => 10 * i + j + (if p = "e/a.png".toList then 100 else 0)) := by
  intro p hp
  exact pg_example p (by
    rcases List.mem_cons.mp hp with h | h
    · exact Or.inl h
    · exact Or.inr (List.mem_singleton.mp h))

example : basename "d/a.png".toList = basename "e/a.png".toList := by decide +kernel

example : (match dock exampleFiles ["d/a.png".toList, "e/a.png".toList] with
    | .ok w => (w.docks.map (fun d => (d.1, match d.2 with
        | some v => v.frames.map (fun im => (im.shape, im.get [2, 1]))
        | none => [])), w.proxy)
    | .error _ => ([], none)) = ([("a.png".toList, [([6, 5], 12)]), ("a.png".toList, [([6, 5], 112)])], some 1) := by decide +kernel

example : mouseMoved ⟨[6, 5], fun i => match i with | [i, j] => 10 * j + i | _ => 0⟩ (5 / 2) (3 / 2) = .ok (some (5 / 2, 3 / 2, 12)) := by
  decide +kernel

example : mouseMoved ⟨[6, 5], fun _ => 0⟩ (13 / 2) (3 / 2) = .error .indexError := by decide +kernel

/-- Non-vacuity of `C156_colour_fails`: a colour image of 5 rows, 6 columns and 3 channels is shown as 3 images. -/
example : ∃ win v, dock ⟨fun _ => false, fun _ => .ok ⟨[5, 6, 3], fun i => i.sum⟩⟩ ["c.png".toList] = .ok win ∧
    win.docks = [(basename "c.png".toList, some v)] ∧ v.frames.length = 3 := by
  obtain ⟨win, v, h1, h2, h3, -⟩ := C156_colour_fails ⟨fun _ => false, fun _ => .ok ⟨[5, 6, 3], fun i => i.sum⟩⟩ "c.png".toList
    ⟨[5, 6, 3], fun i => i.sum⟩ 5 6 3 rfl rfl rfl (by omega)
  exact ⟨win, v, h1, h2, h3⟩

/-- Non-vacuity of `C156_slideshow_fails`: images of 5 and 6 rows. -/
example : slideshow ⟨fun _ => false, fun p => .ok ⟨[p.length, 7], fun _ => 0⟩⟩ ["a.png".toList, "bb.png".toList] = .error .valueError :=
  C156_slideshow_fails _ "a.png".toList ["bb.png".toList] (fun p => ⟨[p.length, 7], fun _ => 0⟩) (fun _ _ => rfl) "bb.png".toList
    (List.mem_singleton.mpr rfl) (by decide +kernel)

/-- Non-vacuity of `C156_docks_error`: an image, then a directory. -/
example : dock ⟨fun p => p == "d".toList, fun _ => .ok ⟨[5, 7], fun _ => 0⟩⟩ ["a.png".toList, "d".toList, "b.png".toList] =
    .error .valueError :=
  (C156_docks_error _ ["a.png".toList] ["b.png".toList] "d".toList
    (fun _ => ⟨[(⟨[5, 7], fun _ => 0⟩ : Arr).transpose], none⟩) .valueError
    (fun a ha => by rw [List.mem_singleton.mp ha]; rfl) (by rfl)).1

end Verif
