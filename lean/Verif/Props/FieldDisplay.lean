import Verif.Props.FieldSeries

/-!
# C127: display of vector fields

The arrows which are drawn are the vectors of the field, each at its position; scrolling over the figure of a series shows the
field of the time which is printed.
-/

namespace Verif
open Verif.PivGrid Verif.VectorField Verif.FieldOps Verif.FieldSeries

/-- The arrow is the vector of the field at its position. -/
def AtItsPoint {α : Type} (F : VField α) (A : Arrow α) : Prop :=
  ∃ i j : Nat, F.x[i]? = some A.x ∧ F.y[j]? = some A.y ∧ F.vx.get j i = A.u ∧ F.vy.get j i = A.v

/-- There is an arrow for the point of column `i` and row `j`. -/
def Drawn {α : Type} (F : VField α) (arrows : List (Arrow α)) (j i : Nat) : Prop :=
  ∃ A ∈ arrows, F.x[i]? = some A.x ∧ F.y[j]? = some A.y ∧ F.vx.get j i = A.u ∧ F.vy.get j i = A.v

theorem fd_of (s : Slice) (l : List ℚ) (is : List Nat) (h : s.indices l.length = .ok is) :
    s.of l = .ok (is.map (fun i => l.getD i 0)) := by
  have hin := C126_slice_indices s _ is h
  simp only [Slice.of, h]
  congr 1
  clear h
  induction is with
  | nil => rfl
  | cons i is ih =>
    have hi := hin i (by simp)
    rw [List.filterMap_cons, List.getElem?_eq_getElem hi]
    simp only [List.map_cons]
    rw [ih (fun j hj => hin j (by simp [hj]))]
    simp [List.getD, hi]

theorem fd_zip_row {α : Type} (cols : List Nat) (x : Nat → ℚ) (y : ℚ) (u v : Nat → α) :
    List.zipWith (fun (p : ℚ × ℚ) (q : α × α) => (⟨p.1, p.2, q.1, q.2⟩ : Arrow α)) (cols.map (fun i => (x i, y)))
      ((cols.map u).zip (cols.map v)) = cols.map (fun i => ⟨x i, y, u i, v i⟩) := by
  induction cols with
  | nil => rfl
  | cons i cols ih => simp [ih]

theorem fd_zip {α : Type} (rows cols : List Nat) (x y : Nat → ℚ) (u v : Img α) :
    List.zipWith (fun (p : ℚ × ℚ) (q : α × α) => (⟨p.1, p.2, q.1, q.2⟩ : Arrow α))
      ((rows.map y).flatMap (fun b => (cols.map x).map (fun a => (a, b)))) ((ravel2 u rows cols).zip (ravel2 v rows cols))
      = rows.flatMap (fun j => cols.map (fun i => ⟨x i, y j, u.get j i, v.get j i⟩)) := by
  induction rows with
  | nil => rfl
  | cons j rows ih =>
    simp only [List.map_cons, List.flatMap_cons, ravel2] at ih ⊢
    rw [List.zip_append (by simp), List.zipWith_append (by simp), ih, List.map_map]
    congr 1
    exact fd_zip_row cols x (y j) (fun i => u.get j i) (fun i => v.get j i)

/-- The arrows when the same slice is used for the two directions. -/
theorem fd_same {α : Type} (F : VField α) (hF : WellShaped F) (step : Step) (skip : Option (Slice × Slice)) (s : Slice)
    (hs : skipOf F.y.length step skip = .ok (.ok (s, s))) (rows cols : List Nat) (hr : s.indices F.y.length = .ok rows)
    (hc : s.indices F.x.length = .ok cols) :
    display F false step skip = .ok (rows.flatMap (fun j => cols.map (fun i =>
      ⟨F.x.getD i 0, F.y.getD j 0, F.vx.get j i, F.vy.get j i⟩))) := by
  simp only [display, hs, Bool.false_eq_true, if_false, fd_of s F.x cols hc, fd_of s F.y rows hr, hF.vx.1, hF.vx.2, hr, hc]
  unfold quiver
  rw [if_pos (by simp)]
  rw [fd_zip]

theorem fd_indices (s : Slice) (h : s.step.getD 1 ≠ 0) (n : Nat) : ∃ is, s.indices n = .ok is := by
  unfold Slice.indices
  simp only [if_neg h]
  split_ifs <;> exact ⟨_, rfl⟩

/-- C127, arrows: with the default arguments, with a step, or with the same slice in the two directions, every arrow is the
vector of the field at the position of the arrow, and the vectors of all the selected rows and columns are drawn. -/
theorem C127_arrows_partial {α : Type} (F : VField α) (hF : WellShaped F) (step : Step) (skip : Option (Slice × Slice)) (s : Slice)
    (hs : skipOf F.y.length step skip = .ok (.ok (s, s))) (h0 : s.step.getD 1 ≠ 0) :
    ∃ arrows, display F false step skip = .ok arrows ∧ (∀ A ∈ arrows, AtItsPoint F A)
      ∧ ∀ rows cols, s.indices F.y.length = .ok rows → s.indices F.x.length = .ok cols →
        arrows.length = rows.length * cols.length ∧ ∀ j ∈ rows, ∀ i ∈ cols, Drawn F arrows j i := by
  obtain ⟨rows, hr⟩ := fd_indices s h0 F.y.length
  obtain ⟨cols, hc⟩ := fd_indices s h0 F.x.length
  have inr := C126_slice_indices s _ rows hr
  have inc := C126_slice_indices s _ cols hc
  refine ⟨_, fd_same F hF step skip s hs rows cols hr hc, ?_, ?_⟩
  · intro A hA
    obtain ⟨j, hj, hA⟩ := List.mem_flatMap.1 hA
    obtain ⟨i, hi, rfl⟩ := List.mem_map.1 hA
    have h1 := inr j hj
    have h2 := inc i hi
    exact ⟨i, j, by simp [List.getD, h2], by simp [List.getD, h1], rfl, rfl⟩
  · intro rows' cols' hr' hc'
    rw [hr] at hr'; rw [hc] at hc'
    obtain rfl := Except.ok.inj hr'
    obtain rfl := Except.ok.inj hc'
    constructor
    · simp [List.length_flatMap]
    · intro j hj i hi
      have h1 := inr j hj
      have h2 := inc i hi
      exact ⟨_, List.mem_flatMap.2 ⟨j, hj, List.mem_map.2 ⟨i, hi, rfl⟩⟩, by simp [List.getD, h2], by simp [List.getD, h1], rfl, rfl⟩

/-- The arguments for which the same slice is used: default, `step`, and a pair of equal slices. -/
theorem C127_same_slice (ny : Nat) (k : Int) (s : Slice) :
    skipOf ny .absent none = .ok (.ok (⟨none, none, some ((max (ny / 25) 1 : Nat) : Int)⟩, ⟨none, none, some ((max (ny / 25) 1 : Nat) : Int)⟩))
    ∧ skipOf ny (.int k) none = .ok (.ok (⟨none, none, some k⟩, ⟨none, none, some k⟩))
    ∧ skipOf ny .absent (some (s, s)) = .ok (.ok (s, s)) := ⟨rfl, rfl, rfl⟩

theorem fd_full (n : Nat) : Slice.indices ⟨none, none, some 1⟩ n = .ok (List.range n) := by
  unfold Slice.indices
  simp only [Option.getD_some, bound]
  rw [if_neg (by decide), if_pos (by decide)]
  congr 1
  unfold walk
  simp only [gt_iff_lt, show (0 : Int) < 1 from by decide, if_true]
  by_cases hl : (0 : Int) < n
  · rw [if_pos hl]
    have : (((n : Int) - 0 - 1) / 1 + 1).toNat = n := by omega
    rw [this]
    conv_rhs => rw [← List.map_id (List.range n)]
    apply List.map_congr_left
    intro i _
    simp
  · rw [if_neg hl]
    have : n = 0 := by omega
    rw [this]; rfl

/-- C127, small fields: with the default arguments and less than 50 rows, all the vectors are drawn. -/
theorem C127_all_drawn {α : Type} (F : VField α) (hF : WellShaped F) (h : F.y.length < 50) :
    ∃ arrows, display F false .absent none = .ok arrows ∧ (∀ A ∈ arrows, AtItsPoint F A)
      ∧ arrows.length = F.y.length * F.x.length ∧ ∀ j i, j < F.y.length → i < F.x.length → Drawn F arrows j i := by
  have e : max (F.y.length / 25) 1 = 1 := by omega
  have hs := (C127_same_slice F.y.length 0 ⟨none, none, none⟩).1
  rw [e] at hs
  obtain ⟨arrows, h1, h2, h3⟩ := C127_arrows_partial F hF .absent none ⟨none, none, some 1⟩ hs (by decide)
  obtain ⟨h4, h5⟩ := h3 _ _ (fd_full _) (fd_full _)
  refine ⟨arrows, h1, h2, by simpa using h4, fun j i hj hi => h5 j (List.mem_range.2 hj) i (List.mem_range.2 hi)⟩

example : WellShaped fieldExample ∧ fieldExample.y.length < 50 := ⟨fieldExample_good.shaped, by decide⟩

/-- A field on a square grid with `vx` the number of the column. -/
def squareExample : VField ℚ :=
  ⟨[0, 1, 2, 3], [0, 1, 2, 3], .absent, ⟨4, 4, fun _ i => i⟩, ⟨4, 4, fun j _ => j⟩, .num 0, none, true⟩

theorem squareExample_good : GoodField squareExample :=
  ⟨⟨⟨rfl, rfl⟩, ⟨rfl, rfl⟩, trivial, trivial⟩, by decide +kernel, by decide +kernel, by decide, by decide⟩

/-- C127, two different slices: `skip=(slice(0, 2), slice(2, 4))` (rows 0 and 1, columns 2 and 3) draws the vectors of these rows
and columns at the positions of the columns 0 and 1 and of the rows 2 and 3. -/
theorem C127_skip_fails : ∃ arrows, display squareExample false .absent (some (⟨some 0, some 2, none⟩, ⟨some 2, some 4, none⟩)) = .ok arrows
    ∧ arrows.length = 4 ∧ ∀ A ∈ arrows, ¬ AtItsPoint squareExample A := by
  refine ⟨[⟨0, 2, 2, 0⟩, ⟨1, 2, 3, 0⟩, ⟨0, 3, 2, 1⟩, ⟨1, 3, 3, 1⟩], rfl, rfl, ?_⟩
  intro A hA
  rintro ⟨i, j, h1, h2, h3, h4⟩
  have hi : i < 4 := by
    have := (List.getElem?_eq_some_iff.1 h1).1; exact this
  have hx : A.x = i := by
    have h : ∀ i : Nat, i < 4 → squareExample.x[i]? = some (i : ℚ) := by decide +kernel
    rw [h i hi] at h1; exact (Option.some.inj h1).symm
  have hu : A.u = i := h3.symm
  simp only [List.mem_cons, List.not_mem_nil, or_false] at hA
  rcases hA with rfl | rfl | rfl | rfl <;> (simp only at hx hu; rw [← hu] at hx; revert hx; decide +kernel)

/-- C127, two different slices on a field which is not square: error (`skip` selects one row and two columns, but the coordinates
are one of the columns and two of the rows). -/
theorem C127_skip_shape_fails :
    (display fieldExample false .absent (some (⟨none, some 1, none⟩, ⟨none, none, none⟩))).toOption.isNone = true := by
  decide +kernel

/-- C127 (the code violates the property): two slices which take `a` columns and `b` rows of the positions (the first slice in `x`, the second
in `y`), and the rows with the first slice and the columns with the second one for the values: when these numbers are not the same, and `a`
and `b` are not equal, nothing is drawn: a `ValueError`. -/
theorem C127_two_slices_fails {α : Type} (F : VField α) (hF : WellShaped F) (s0 s1 : Slice) (xcols yrows rows cols : List Nat)
    (h1 : s0.indices F.x.length = .ok xcols) (h2 : s1.indices F.y.length = .ok yrows) (h3 : s0.indices F.y.length = .ok rows)
    (h4 : s1.indices F.x.length = .ok cols) (hne : xcols.length ≠ cols.length ∨ yrows.length ≠ rows.length)
    (hab : xcols.length ≠ yrows.length) : display F false .absent (some (s0, s1)) = .error .valueError := by
  simp only [display, skipOf, Bool.false_eq_true, if_false, fd_of s0 F.x xcols h1, fd_of s1 F.y yrows h2, hF.vx.1, hF.vx.2, h3, h4]
  unfold quiver
  rw [if_neg (by simp only [List.length_map]; rcases hne with h | h <;> simp [h]), if_pos (by simpa using hab)]

/-- The first two columns and all the rows (a field of 2 rows and 3 columns). -/
example : display fieldExample false .absent (some (⟨none, some 1, none⟩, ⟨none, none, none⟩)) = .error .valueError :=
  C127_two_slices_fails fieldExample fieldExample_good.shaped _ _ [0] [0, 1] [0] [0, 1, 2] (by decide +kernel) (by decide +kernel) (by decide +kernel)
    (by decide +kernel) (Or.inl (by decide)) (by decide)

/-- C127, `step` and `skip` together are rejected. -/
theorem C127_step_and_skip {α : Type} (F : VField α) (b : Bool) (p : Slice × Slice) (k : Int) :
    display F b (.int k) (some p) = .error .valueError := rfl

/-! ## Display of a series -/

/-- C127, `series.display()` always raises: the slices of its argument `skip` are taken as the step. -/
theorem C127_series_fails {α : Type} (norm : VField α → Img α) (l : List (VField α)) (ind : Int) (b : Bool) (s0 s1 : Slice) :
    ∃ e, displaySeries norm l ind b (.slices s0 s1) = .error e := by
  unfold displaySeries
  cases position l.length ind with
  | error e => exact ⟨e, rfl⟩
  | ok p =>
    simp only
    cases l[p]? with
    | none => exact ⟨_, rfl⟩
    | some F =>
      simp only [display, skipOf]
      cases b with
      | true => exact ⟨_, rfl⟩
      | false => exact ⟨_, rfl⟩

/-- A series on one grid, with a norm which has the shape of the fields. -/
structure Shown {α : Type} (norm : VField α → Img α) (l : List (VField α)) (ny nx : Nat) : Prop where
  shaped : ∀ F ∈ l, WellShaped F ∧ F.y.length = ny ∧ F.x.length = nx
  norm : ∀ F ∈ l, (norm F).ny = ny ∧ (norm F).nx = nx

/-- The figure shows the field `F`. -/
def Shows {α : Type} (norm : VField α → Img α) (fig : Fig α) (F : VField α) : Prop :=
  fig.screen = (flat (norm F), (flat F.vx).zip (flat F.vy))

theorem fd_flat_length {α : Type} (im : Img α) : (flat im).length = im.ny * im.nx := by
  simp [flat, ravel2, List.length_flatMap]

theorem fd_next (n p : Nat) (hn : 0 < n) (up : Bool) :
    nextIndex n p up < n ∧ ((nextIndex n p up : Nat) : Int) = ((p : Int) + (if up then 1 else -1)) % n := by
  have h0 := Int.emod_nonneg ((p : Int) + (if up then 1 else -1)) (show (n : Int) ≠ 0 by omega)
  have h1 := Int.emod_lt_of_pos ((p : Int) + (if up then 1 else -1)) (show (0 : Int) < n by omega)
  unfold nextIndex
  omega

/-- C127, one event of the wheel, when the series is displayed with `skip=None`, has less than 50 rows and times: the next (or the
previous) field is shown and its time is printed. -/
theorem C127_scroll_partial {α : Type} (norm : VField α → Img α) (l : List (VField α)) (ny nx : Nat) (h : Shown norm l ny nx)
    (ts : List ℚ) (hts : l.length ≤ ts.length) (fig : Fig α) (hl : 0 < l.length) (hp : fig.positions.length = ny * nx)
    (hc : fig.ncolors = ny * nx) (up : Bool) :
    ∃ F t fig', onscroll norm l (some ts) .absent up fig = (fig', .ok t) ∧ l[fig'.current]? = some F ∧ ts[fig'.current]? = some t
      ∧ Shows norm fig' F ∧ (fig'.current : Int) = ((fig.current : Int) + (if up then 1 else -1)) % l.length
      ∧ fig'.positions = fig.positions ∧ fig'.ncolors = fig.ncolors := by
  obtain ⟨hlt, hmod⟩ := fd_next l.length fig.current hl up
  have hF : l[nextIndex l.length fig.current up]? = some l[nextIndex l.length fig.current up] := List.getElem?_eq_getElem hlt
  have ht : ts[nextIndex l.length fig.current up]? = some ts[nextIndex l.length fig.current up] := List.getElem?_eq_getElem (by omega)
  have hmem : l[nextIndex l.length fig.current up] ∈ l := List.getElem_mem hlt
  generalize hFdef : l[nextIndex l.length fig.current up] = F at *
  generalize ts[nextIndex l.length fig.current up] = t at *
  obtain ⟨hs, hy, hx⟩ := h.shaped F hmem
  have n1 : (flat (norm F)).length = ny * nx := by rw [fd_flat_length, (h.norm F hmem).1, (h.norm F hmem).2]
  have n2 : (flat F.vx).length = ny * nx := by rw [fd_flat_length, hs.vx.1, hs.vx.2, hy, hx]
  have n3 : (flat F.vy).length = ny * nx := by rw [fd_flat_length, hs.vy.1, hs.vy.2, hy, hx]
  refine ⟨F, t, { fig with current := nextIndex l.length fig.current up, colors := flat (norm F), arrows := (flat F.vx).zip (flat F.vy), screen := (flat (norm F), (flat F.vx).zip (flat F.vy)) }, ?_, hF, ht, rfl, hmod, rfl, rfl⟩
  unfold onscroll
  rw [if_neg (by omega)]
  simp only [hF, n1, hc, ne_eq, not_true, if_false, scrollValues, n2, n3, hp, or_self, timeText, ht]

/-- The number of events "up" minus the number of events "down". -/
def turns (ups : List Bool) : Int := (ups.map (fun b => if b then (1 : Int) else -1)).sum

theorem fd_scrolls {α : Type} (norm : VField α → Img α) (l : List (VField α)) (ny nx : Nat) (h : Shown norm l ny nx)
    (ts : List ℚ) (hts : l.length ≤ ts.length) (hl : 0 < l.length) (ups : List Bool) (fig : Fig α)
    (hp : fig.positions.length = ny * nx) (hc : fig.ncolors = ny * nx) (F : VField α) (hcur : l[fig.current]? = some F)
    (hsh : Shows norm fig F) :
    ∃ G, l[(scrolls norm l (some ts) .absent fig ups).current]? = some G
      ∧ Shows norm (scrolls norm l (some ts) .absent fig ups) G
      ∧ ((scrolls norm l (some ts) .absent fig ups).current : Int) = ((fig.current : Int) + turns ups) % l.length
      ∧ (scrolls norm l (some ts) .absent fig ups).positions = fig.positions := by
  induction ups generalizing fig F with
  | nil =>
    refine ⟨F, hcur, hsh, ?_, rfl⟩
    have := (List.getElem?_eq_some_iff.1 hcur).1
    simp only [scrolls, turns, List.map_nil, List.sum_nil, add_zero]
    exact (Int.emod_eq_of_lt (by omega) (by omega)).symm
  | cons up ups ih =>
    obtain ⟨G, t, fig', h1, h2, h3, h4, h5, h6, h7⟩ := C127_scroll_partial norm l ny nx h ts hts fig hl hp hc up
    simp only [scrolls, h1]
    obtain ⟨H, g1, g2, g3, g4⟩ := ih fig' (by rw [h6]; exact hp) (by rw [h7]; exact hc) G h2 h4
    refine ⟨H, g1, g2, ?_, by rw [g4, h6]⟩
    rw [g3, h5, Int.emod_add_emod]
    simp only [turns, List.map_cons, List.sum_cons]
    ring_nf

/-- C127, any number of events: starting from the field number `ind`, after any sequence of movements of the wheel the figure shows
the field number `ind + (ups - downs)` modulo the number of fields, with the arrows where they were. -/
theorem C127_scrolls_partial {α : Type} (norm : VField α → Img α) (l : List (VField α)) (ny nx : Nat) (h : Shown norm l ny nx)
    (ts : List ℚ) (hts : l.length ≤ ts.length) (hny : ny < 50) (ind : Nat) (hind : ind < l.length) (ups : List Bool) :
    ∃ fig G, displaySeries norm l ind false .absent = .ok fig
      ∧ l[(((ind : Int) + turns ups) % l.length).toNat]? = some G
      ∧ Shows norm (scrolls norm l (some ts) .absent fig ups) G
      ∧ (scrolls norm l (some ts) .absent fig ups).positions = fig.positions := by
  have hF : l[ind]? = some l[ind] := List.getElem?_eq_getElem hind
  have hmem : l[ind] ∈ l := List.getElem_mem hind
  generalize l[ind] = F at *
  obtain ⟨hs, hy, hx⟩ := h.shaped F hmem
  have e : max (F.y.length / 25) 1 = 1 := by omega
  have hsk := (C127_same_slice F.y.length 0 ⟨none, none, none⟩).1
  rw [e] at hsk
  have hd := fd_same F hs .absent none ⟨none, none, some 1⟩ hsk _ _ (fd_full _) (fd_full _)
  have hpos : position l.length (ind : Int) = .ok ind := by
    unfold position
    simp only
    rw [if_neg (by omega)]
    rw [if_neg (by omega)]
    simp
  have n1 : (flat (norm F)).length = ny * nx := by rw [fd_flat_length, (h.norm F hmem).1, (h.norm F hmem).2]
  have huv : ((List.range F.y.length).flatMap (fun j => (List.range F.x.length).map (fun i =>
      (⟨F.x.getD i 0, F.y.getD j 0, F.vx.get j i, F.vy.get j i⟩ : Arrow α)))).map (fun a => (a.u, a.v))
        = (flat F.vx).zip (flat F.vy) := by
    unfold flat ravel2
    rw [hs.vx.1, hs.vx.2, hs.vy.1, hs.vy.2]
    generalize List.range F.y.length = rows
    induction rows with
    | nil => rfl
    | cons j rows ih =>
      simp only [List.flatMap_cons, List.map_append]
      rw [ih, List.zip_append (by simp)]
      congr 1
      rw [List.map_map]
      generalize List.range F.x.length = cols
      induction cols with
      | nil => rfl
      | cons i cols ih2 => simp only [List.map_cons, List.zip_cons_cons, ih2, Function.comp_apply]
  refine ⟨⟨((List.range F.y.length).flatMap (fun j => (List.range F.x.length).map (fun i =>
      (⟨F.x.getD i 0, F.y.getD j 0, F.vx.get j i, F.vy.get j i⟩ : Arrow α)))).map (fun a => (a.x, a.y)), (flat (norm F)).length, ind,
      flat (norm F), (flat F.vx).zip (flat F.vy), (flat (norm F), (flat F.vx).zip (flat F.vy))⟩, ?_⟩
  obtain ⟨G, g1, g2, g3, g4⟩ := fd_scrolls norm l ny nx h ts hts (by omega) ups
    ⟨((List.range F.y.length).flatMap (fun j => (List.range F.x.length).map (fun i =>
      (⟨F.x.getD i 0, F.y.getD j 0, F.vx.get j i, F.vy.get j i⟩ : Arrow α)))).map (fun a => (a.x, a.y)), (flat (norm F)).length, ind,
      flat (norm F), (flat F.vx).zip (flat F.vy), (flat (norm F), (flat F.vx).zip (flat F.vy))⟩
    (by simp [List.length_flatMap, hy, hx]) n1 F hF rfl
  refine ⟨G, ?_, ?_, g2, g4⟩
  · simp only [displaySeries, hpos, hF, hd, huv]
  · rw [← g3]; simpa using g1

/-- Non-vacuity: a series of two fields. -/
example : Shown (fun F : VField ℚ => F.vx) [fieldExample, fieldExample] 2 3 :=
  ⟨by intro F hF; simp at hF; subst hF; exact ⟨fieldExample_good.shaped, rfl, rfl⟩, by intro F hF; simp at hF; subst hF; exact ⟨rfl, rfl⟩⟩

/-- C127, a series without times (`set_timestep` not called, or times lost by a filter): the wheel never changes what is on the
screen (the error comes before the drawing). -/
theorem C127_no_times_fails {α : Type} (norm : VField α → Img α) (l : List (VField α)) (skip : Step) (ups : List Bool) (fig : Fig α) :
    (scrolls norm l none skip fig ups).screen = fig.screen := by
  induction ups generalizing fig with
  | nil => rfl
  | cons up ups ih =>
    simp only [scrolls]
    rw [ih]
    unfold onscroll
    split_ifs
    · rfl
    · simp only [timeText]
      cases l[nextIndex l.length fig.current up]? with
      | none => rfl
      | some F =>
        simp only
        split_ifs
        · rfl
        · cases scrollValues F.vx skip with
          | error e => rfl
          | ok u =>
            simp only
            cases scrollValues F.vy skip with
            | error e => rfl
            | ok v =>
              simp only
              split_ifs <;> rfl

/-- The number of indices of a slice with a step of at least two. -/
theorem fd_walk_length (n st : Nat) (h2 : 2 ≤ st) (hn : 2 ≤ n) : (walk 0 n st).length < n := by
  unfold walk
  simp only [gt_iff_lt, if_pos (show (0 : Int) < st by omega), if_pos (show (0 : Int) < n by omega), List.length_map, List.length_range]
  have h1 : ((n : Int) - 0 - 1) / st ≤ (n - 1) / 2 := by
    have : ((n : Int) - 0 - 1) = n - 1 := by ring
    rw [this]
    have a1 : ((n : Int) - 1) / st * st ≤ n - 1 := Int.ediv_mul_le _ (by omega)
    have a2 : 0 ≤ ((n : Int) - 1) / st := Int.ediv_nonneg (by omega) (by omega)
    rw [Int.le_ediv_iff_mul_le (by omega)]
    calc ((n : Int) - 1) / st * 2 ≤ ((n : Int) - 1) / st * st := by
          apply mul_le_mul_of_nonneg_left _ a2
          exact_mod_cast h2
      _ ≤ n - 1 := a1
  omega

theorem fd_walk_le (n st : Nat) (h2 : 1 ≤ st) : (walk 0 n st).length ≤ n := by
  unfold walk
  simp only [gt_iff_lt, if_pos (show (0 : Int) < st by omega), List.length_map, List.length_range]
  split_ifs with h
  · have : ((n : Int) - 0 - 1) / st ≤ n - 1 := by
      have : ((n : Int) - 0 - 1) = n - 1 := by ring
      rw [this]
      apply Int.ediv_le_self
      omega
    omega
  · omega

/-- C127, fields with at least 50 rows: one arrow out of several is drawn at the beginning, and the wheel never changes the screen
(all the vectors are given to the arrows: `ValueError`). -/
theorem C127_many_rows_fails {α : Type} (norm : VField α → Img α) (l : List (VField α)) (ny nx : Nat) (h : Shown norm l ny nx)
    (times : Option (List ℚ)) (hny : 50 ≤ ny) (hnx : 0 < nx) (ind : Nat) (hind : ind < l.length) :
    ∃ fig, displaySeries norm l ind false .absent = .ok fig
      ∧ ∀ ups, (scrolls norm l times .absent fig ups).screen = fig.screen := by
  have hF : l[ind]? = some l[ind] := List.getElem?_eq_getElem hind
  have hmem : l[ind] ∈ l := List.getElem_mem hind
  generalize l[ind] = F at *
  obtain ⟨hs, hy, hx⟩ := h.shaped F hmem
  have hst : 2 ≤ max (F.y.length / 25) 1 := by omega
  have hsk := (C127_same_slice F.y.length 0 ⟨none, none, none⟩).1
  generalize max (F.y.length / 25) 1 = st at *
  obtain ⟨rows, hr⟩ := fd_indices ⟨none, none, some (st : Int)⟩ (by simp; omega) F.y.length
  obtain ⟨cols, hc⟩ := fd_indices ⟨none, none, some (st : Int)⟩ (by simp; omega) F.x.length
  have hd := fd_same F hs .absent none _ hsk rows cols hr hc
  have lr : rows.length < ny := by
    unfold Slice.indices at hr
    simp only [Option.getD_some, bound] at hr
    rw [if_neg (by omega), if_pos (by omega)] at hr
    rw [← Except.ok.inj hr, hy]
    exact fd_walk_length ny st hst (by omega)
  have lc : cols.length ≤ nx := by
    unfold Slice.indices at hc
    simp only [Option.getD_some, bound] at hc
    rw [if_neg (by omega), if_pos (by omega)] at hc
    rw [← Except.ok.inj hc, hx]
    exact fd_walk_le nx st (by omega)
  have hpos : position l.length (ind : Int) = .ok ind := by
    unfold position
    simp only
    rw [if_neg (by omega)]
    rw [if_neg (by omega)]
    simp
  refine ⟨_, by simp only [displaySeries, hpos, hF, hd]; rfl, ?_⟩
  have key : ∀ (ups : List Bool) (fig : Fig α), fig.positions.length < ny * nx →
      (scrolls norm l times .absent fig ups).screen = fig.screen := by
    intro ups
    induction ups with
    | nil => intro fig _; rfl
    | cons up ups ih =>
      intro fig hfig
      have hone : (onscroll norm l times .absent up fig).1.screen = fig.screen
          ∧ (onscroll norm l times .absent up fig).1.positions = fig.positions := by
        unfold onscroll
        split_ifs
        · exact ⟨rfl, rfl⟩
        · simp only [scrollValues]
          cases hG : l[nextIndex l.length fig.current up]? with
          | none => exact ⟨rfl, rfl⟩
          | some G =>
            obtain ⟨gs, gy, gx⟩ := h.shaped G (List.mem_of_getElem? hG)
            have n2 : (flat G.vx).length = ny * nx := by rw [fd_flat_length, gs.vx.1, gs.vx.2, gy, gx]
            simp only
            split_ifs with c1 c2
            · exact ⟨rfl, rfl⟩
            · exact ⟨rfl, rfl⟩
            · exact absurd (Or.inl (by rw [n2]; omega)) c2
      simp only [scrolls]
      rw [ih _ (by rw [hone.2]; exact hfig), hone.1]
  intro ups
  apply key
  simp only [List.length_map, List.length_flatMap, List.map_const', List.sum_replicate, smul_eq_mul]
  calc rows.length * cols.length ≤ rows.length * nx := Nat.mul_le_mul_left _ lc
    _ < ny * nx := Nat.mul_lt_mul_of_pos_right lr hnx

end Verif
