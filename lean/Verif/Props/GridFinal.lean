import Verif.Model.GridFinal
import Mathlib.Data.List.Nodup
import Mathlib.Tactic.Ring
import Mathlib.Tactic.Linarith

/-!
# Reshaping flat vectors on a grid (C47)
-/

namespace Verif
open Verif.PivGrid Verif.GridFinal

/-! ## Specification -/

/-- Coordinates of a grid along one direction: strictly increasing or strictly decreasing. -/
def IsAxis (l : List ℚ) : Prop := l.Pairwise (· < ·) ∨ l.Pairwise (· > ·)

/-- The values `f x y` on the points of the grid, row after row (`x` varies first). -/
def flatRows {V : Type} (xs ys : List ℚ) (f : ℚ → ℚ → V) : List V := ys.flatMap (fun y => xs.map (fun x => f x y))

/-- The values `f x y` on the points of the grid, column after column (`y` varies first). -/
def flatColumns {V : Type} (xs ys : List ℚ) (f : ℚ → ℚ → V) : List V := xs.flatMap (fun x => ys.map (fun y => f x y))

/-- `im` contains the values `f x y`: the value in row `j`, column `i` is the value at `(x_i, y_j)`. -/
def IsGridOf {V : Type} (xs ys : List ℚ) (f : ℚ → ℚ → V) (im : Img V) : Prop :=
  im.ny = ys.length ∧ im.nx = xs.length ∧
  ∀ j i x y, ys[j]? = some y → xs[i]? = some x → im.get j i = f x y

/-! ## Lemmas -/

theorem mem_insertU (a b : ℚ) (l : List ℚ) : a ∈ insertU b l ↔ a = b ∨ a ∈ l := by
  induction l with
  | nil => simp [insertU]
  | cons c l ih =>
    unfold insertU
    split
    · simp
    · split
      · rename_i h; subst h; simp
      · rw [List.mem_cons, ih, List.mem_cons]; tauto

theorem insertU_sorted (b : ℚ) (l : List ℚ) (h : l.Pairwise (· < ·)) : (insertU b l).Pairwise (· < ·) := by
  induction l with
  | nil => simp [insertU]
  | cons c l ih =>
    rw [List.pairwise_cons] at h
    unfold insertU
    split
    · rename_i hlt
      rw [List.pairwise_cons]
      refine ⟨?_, List.pairwise_cons.2 h⟩
      intro d hd
      rcases List.mem_cons.1 hd with rfl | hd
      · exact hlt
      · exact lt_trans hlt (h.1 d hd)
    · split
      · exact List.pairwise_cons.2 h
      · rename_i h1 h2
        rw [List.pairwise_cons]
        refine ⟨?_, ih h.2⟩
        intro d hd
        rw [mem_insertU] at hd
        rcases hd with rfl | hd
        · exact lt_of_le_of_ne (not_lt.1 h1) (Ne.symm h2)
        · exact h.1 d hd

theorem mem_unique (a : ℚ) (l : List ℚ) : a ∈ unique l ↔ a ∈ l := by
  unfold unique
  induction l with
  | nil => simp
  | cons b l ih => rw [List.foldr_cons, mem_insertU, ih, List.mem_cons]

theorem unique_sorted (l : List ℚ) : (unique l).Pairwise (· < ·) := by
  unfold unique
  induction l with
  | nil => simp
  | cons b l ih => rw [List.foldr_cons]; exact insertU_sorted _ _ ih

theorem sorted_ext (l l' : List ℚ) (h : l.Pairwise (· < ·)) (h' : l'.Pairwise (· < ·)) (hm : ∀ a, a ∈ l ↔ a ∈ l') :
    l = l' := by
  have hp : l.Perm l' := (List.perm_ext_iff_of_nodup (h.imp (fun h => ne_of_lt h)) (h'.imp (fun h => ne_of_lt h))).2 hm
  exact hp.eq_of_pairwise (fun a b _ _ h1 h2 => absurd h1 (not_lt.2 (le_of_lt h2))) h h'

theorem axis_restore (l flat : List ℚ) (h : IsAxis l) (hm : ∀ a, a ∈ flat ↔ a ∈ l) (a b : ℚ)
    (h0 : l[0]? = some a) (h1 : l[1]? = some b) :
    (unique flat).length = l.length ∧ (if b - a < 0 then (unique flat).reverse else unique flat) = l := by
  obtain ⟨l0, e0⟩ := List.getElem?_eq_some_iff.1 h0
  obtain ⟨l1, e1⟩ := List.getElem?_eq_some_iff.1 h1
  rcases h with h | h
  · have hu : unique flat = l := sorted_ext _ _ (unique_sorted _) h (fun a => by rw [mem_unique, hm])
    have hab : a < b := by
      have := List.pairwise_iff_getElem.1 h 0 1 l0 l1 (by omega)
      rwa [e0, e1] at this
    rw [hu]
    exact ⟨rfl, if_neg (by linarith)⟩
  · have hu : unique flat = l.reverse :=
      sorted_ext _ _ (unique_sorted _) (List.pairwise_reverse.2 h) (fun a => by rw [mem_unique, hm, List.mem_reverse])
    have hab : a > b := by
      have := List.pairwise_iff_getElem.1 h 0 1 l0 l1 (by omega)
      rwa [e0, e1] at this
    rw [hu]
    exact ⟨by simp, by rw [if_pos (by linarith), List.reverse_reverse]⟩

theorem axis_nodup (l : List ℚ) (h : IsAxis l) : l.Nodup := by
  rcases h with h | h
  · exact h.imp (fun h => ne_of_lt h)
  · exact h.imp (fun h => (ne_of_gt h))

theorem flat_length {A B V : Type} (a : List A) (b : List B) (g : A → B → V) :
    (a.flatMap (fun p => b.map (g p))).length = a.length * b.length := by
  induction a with
  | nil => simp
  | cons p a ih => rw [List.flatMap_cons, List.length_append, ih, List.length_map, List.length_cons]; ring

theorem flat_get {A B V : Type} (a : List A) (b : List B) (g : A → B → V) (i j : Nat) (p : A) (q : B)
    (hi : a[i]? = some p) (hj : b[j]? = some q) :
    (a.flatMap (fun p => b.map (g p)))[i * b.length + j]? = some (g p q) := by
  have hjl := (List.getElem?_eq_some_iff.1 hj).1
  induction a generalizing i with
  | nil => simp at hi
  | cons p' a ih =>
    rw [List.flatMap_cons]
    cases i with
    | zero =>
      simp only [List.getElem?_cons_zero, Option.some.injEq] at hi
      subst hi
      rw [List.getElem?_append_left (by simpa using hjl)]
      simp [hj]
    | succ i =>
      rw [List.getElem?_cons_succ] at hi
      rw [List.getElem?_append_right (by rw [List.length_map]; nlinarith)]
      rw [List.length_map, show (i + 1) * b.length + j - b.length = i * b.length + j by
        rw [show (i + 1) * b.length = i * b.length + b.length by ring]; omega]
      exact ih i hi

theorem get_two {l : List ℚ} (h : 2 ≤ l.length) : ∃ a b, l[0]? = some a ∧ l[1]? = some b :=
  ⟨l[0], l[1], List.getElem?_eq_getElem (by omega), List.getElem?_eq_getElem (by omega)⟩

theorem axis_ne {l : List ℚ} (h : IsAxis l) {a b : ℚ} (h0 : l[0]? = some a) (h1 : l[1]? = some b) : b ≠ a := by
  obtain ⟨l0, e0⟩ := List.getElem?_eq_some_iff.1 h0
  obtain ⟨l1, e1⟩ := List.getElem?_eq_some_iff.1 h1
  intro hc
  have := (List.Nodup.getElem_inj_iff (axis_nodup l h) (hi := l1) (hj := l0)).1 (by rw [e0, e1, hc])
  omega

theorem at'_some {l : List ℚ} {i : Nat} {a : ℚ} (h : l[i]? = some a) : at' l i = .ok a := by
  unfold at'; rw [h]

theorem meshgrid_spec (xs ys : List ℚ) :
    IsGridOf xs ys (fun x _ => x) (meshgrid xs ys).1 ∧ IsGridOf xs ys (fun _ y => y) (meshgrid xs ys).2 := by
  refine ⟨⟨rfl, rfl, ?_⟩, rfl, rfl, ?_⟩
  · intro j i x y _ hx
    simp [meshgrid, List.getD_eq_getElem?_getD, hx]
  · intro j i x y hy _
    simp [meshgrid, List.getD_eq_getElem?_getD, hy]

/-! ## C47 -/

/-- C47, vectors given row after row. -/
theorem C47_rows {V : Type} [Inhabited V] (xs ys : List ℚ) (hx : IsAxis xs) (hy : IsAxis ys)
    (hx2 : 2 ≤ xs.length) (hy2 : 2 ≤ ys.length) (u v : ℚ → ℚ → V) :
    ∃ X Y U W, reshapeOnGrid (flatRows xs ys (fun x _ => x)) (flatRows xs ys (fun _ y => y)) (flatRows xs ys u)
        (flatRows xs ys v) = .ok (X, Y, U, W) ∧
      IsGridOf xs ys (fun x _ => x) X ∧ IsGridOf xs ys (fun _ y => y) Y ∧ IsGridOf xs ys u U ∧ IsGridOf xs ys v W := by
  obtain ⟨x0, x1, hx0, hx1⟩ := get_two hx2
  obtain ⟨y0, y1, hy0, hy1⟩ := get_two hy2
  have hxm : ∀ a, a ∈ flatRows xs ys (fun x _ => x) ↔ a ∈ xs := by
    intro a; unfold flatRows
    simp only [List.mem_flatMap, List.map_id']
    exact ⟨fun ⟨_, _, h⟩ => h, fun h => ⟨y0, List.mem_of_getElem? hy0, h⟩⟩
  have hym : ∀ a, a ∈ flatRows xs ys (fun _ y => y) ↔ a ∈ ys := by
    intro a; unfold flatRows
    simp only [List.mem_flatMap, List.mem_map]
    exact ⟨fun ⟨b, h, _, _, e⟩ => e ▸ h, fun h => ⟨a, h, x0, List.mem_of_getElem? hx0, rfl⟩⟩
  obtain ⟨lx, ex⟩ := axis_restore xs _ hx hxm x0 x1 hx0 hx1
  obtain ⟨ly, ey⟩ := axis_restore ys _ hy hym y0 y1 hy0 hy1
  have get : ∀ {W : Type} (f : ℚ → ℚ → W) i j x y, ys[j]? = some y → xs[i]? = some x →
      (flatRows xs ys f)[j * xs.length + i]? = some (f x y) := by
    intro W f i j x y h h'
    exact flat_get ys xs (fun y x => f x y) j i y x h h'
  have gx0 := get (fun x _ => x) 0 0 x0 y0 hy0 hx0
  have gx1 := get (fun x _ => x) 1 0 x1 y0 hy0 hx1
  have gy0 := get (fun _ y => y) 0 0 x0 y0 hy0 hx0
  have gy1 := get (fun _ y => y) 1 0 x1 y0 hy0 hx1
  have gyn := get (fun _ y => y) 0 1 x0 y1 hy1 hx0
  simp only [Nat.zero_mul, Nat.zero_add, Nat.one_mul, Nat.add_zero] at gx0 gx1 gy0 gy1 gyn
  have hd : deltas (flatRows xs ys (fun x _ => x)) (flatRows xs ys (fun _ y => y)) xs.length ys.length
      = .ok (x1 - x0, y1 - y0) := by
    unfold deltas
    simp only [at'_some gx0, at'_some gx1, at'_some gy0, at'_some gy1, at'_some gyn, if_neg (axis_ne hx hx0 hx1),
      ne_eq, not_true_eq_false, if_false]
  have ha : axes (flatRows xs ys (fun x _ => x)) (flatRows xs ys (fun _ y => y)) = .ok (xs, ys) := by
    unfold axes
    simp only [lx, ly, hd, ex, ey]
  have hne : (flatRows xs ys (fun x _ => x))[1]? ≠ (flatRows xs ys (fun x _ => x))[0]? := by
    rw [gx0, gx1]
    intro h
    exact axis_ne hx hx0 hx1 (Option.some.inj h)
  have hr : ∀ f : ℚ → ℚ → V, ∃ im, reshape (flatRows xs ys f) ys.length xs.length = .ok im ∧ IsGridOf xs ys f im := by
    intro f
    refine ⟨⟨ys.length, xs.length, fun i j => (flatRows xs ys f).getD (i * xs.length + j) default⟩, ?_, rfl, rfl, ?_⟩
    · unfold reshape
      exact if_pos (flat_length ys xs (fun y x => f x y))
    · intro j i x y hyj hxi
      simp only [List.getD_eq_getElem?_getD, get f i j x y hyj hxi, Option.getD_some]
  obtain ⟨U, hU, sU⟩ := hr u
  obtain ⟨W, hW, sW⟩ := hr v
  refine ⟨(meshgrid xs ys).1, (meshgrid xs ys).2, U, W, ?_, (meshgrid_spec xs ys).1, (meshgrid_spec xs ys).2, sU, sW⟩
  unfold reshapeOnGrid
  simp only [ha, if_neg hne]
  have e1 : (meshgrid xs ys).1.ny = ys.length := rfl
  have e2 : (meshgrid xs ys).1.nx = xs.length := rfl
  simp only [e1, e2, hU, hW]

/-- C47, vectors given column after column. -/
theorem C47_columns {V : Type} [Inhabited V] (xs ys : List ℚ) (hx : IsAxis xs) (hy : IsAxis ys)
    (hx2 : 2 ≤ xs.length) (hy2 : 2 ≤ ys.length) (u v : ℚ → ℚ → V) :
    ∃ X Y U W, reshapeOnGrid (flatColumns xs ys (fun x _ => x)) (flatColumns xs ys (fun _ y => y))
        (flatColumns xs ys u) (flatColumns xs ys v) = .ok (X, Y, U, W) ∧
      IsGridOf xs ys (fun x _ => x) X ∧ IsGridOf xs ys (fun _ y => y) Y ∧ IsGridOf xs ys u U ∧ IsGridOf xs ys v W := by
  obtain ⟨x0, x1, hx0, hx1⟩ := get_two hx2
  obtain ⟨y0, y1, hy0, hy1⟩ := get_two hy2
  have hxm : ∀ a, a ∈ flatColumns xs ys (fun x _ => x) ↔ a ∈ xs := by
    intro a; unfold flatColumns
    simp only [List.mem_flatMap, List.mem_map]
    exact ⟨fun ⟨b, h, _, _, e⟩ => e ▸ h, fun h => ⟨a, h, y0, List.mem_of_getElem? hy0, rfl⟩⟩
  have hym : ∀ a, a ∈ flatColumns xs ys (fun _ y => y) ↔ a ∈ ys := by
    intro a; unfold flatColumns
    simp only [List.mem_flatMap, List.map_id']
    exact ⟨fun ⟨_, _, h⟩ => h, fun h => ⟨x0, List.mem_of_getElem? hx0, h⟩⟩
  obtain ⟨lx, ex⟩ := axis_restore xs _ hx hxm x0 x1 hx0 hx1
  obtain ⟨ly, ey⟩ := axis_restore ys _ hy hym y0 y1 hy0 hy1
  have get : ∀ {W : Type} (f : ℚ → ℚ → W) i j x y, ys[j]? = some y → xs[i]? = some x →
      (flatColumns xs ys f)[i * ys.length + j]? = some (f x y) := by
    intro W f i j x y h h'
    exact flat_get xs ys (fun x y => f x y) i j x y h' h
  have gx0 := get (fun x _ => x) 0 0 x0 y0 hy0 hx0
  have gx1 := get (fun x _ => x) 0 1 x0 y1 hy1 hx0
  have gy0 := get (fun _ y => y) 0 0 x0 y0 hy0 hx0
  have gy1 := get (fun _ y => y) 0 1 x0 y1 hy1 hx0
  have gxn := get (fun x _ => x) 1 0 x1 y0 hy0 hx1
  simp only [Nat.zero_mul, Nat.zero_add, Nat.one_mul, Nat.add_zero] at gx0 gx1 gy0 gy1 gxn
  have hd : deltas (flatColumns xs ys (fun x _ => x)) (flatColumns xs ys (fun _ y => y)) xs.length ys.length
      = .ok (x1 - x0, y1 - y0) := by
    unfold deltas
    simp only [at'_some gx0, at'_some gx1, at'_some gy0, at'_some gy1, at'_some gxn, if_neg (axis_ne hy hy0 hy1),
      if_true]
  have ha : axes (flatColumns xs ys (fun x _ => x)) (flatColumns xs ys (fun _ y => y)) = .ok (xs, ys) := by
    unfold axes
    simp only [lx, ly, hd, ex, ey]
  have hne : (flatColumns xs ys (fun x _ => x))[1]? = (flatColumns xs ys (fun x _ => x))[0]? := by
    rw [gx0, gx1]
  have hr : ∀ f : ℚ → ℚ → V, ∃ im, reshape (flatColumns xs ys f) xs.length ys.length = .ok im ∧
      IsGridOf xs ys f (transpose im) := by
    intro f
    refine ⟨⟨xs.length, ys.length, fun i j => (flatColumns xs ys f).getD (i * ys.length + j) default⟩, ?_, rfl, rfl, ?_⟩
    · unfold reshape
      exact if_pos (flat_length xs ys (fun x y => f x y))
    · intro j i x y hyj hxi
      simp only [transpose, List.getD_eq_getElem?_getD, get f i j x y hyj hxi, Option.getD_some]
  obtain ⟨U, hU, sU⟩ := hr u
  obtain ⟨W, hW, sW⟩ := hr v
  refine ⟨(meshgrid xs ys).1, (meshgrid xs ys).2, transpose U, transpose W, ?_, (meshgrid_spec xs ys).1,
    (meshgrid_spec xs ys).2, sU, sW⟩
  unfold reshapeOnGrid
  simp only [ha, if_pos hne]
  have e1 : (meshgrid xs ys).1.ny = ys.length := rfl
  have e2 : (meshgrid xs ys).1.nx = xs.length := rfl
  simp only [e1, e2, hU, hW]

example : IsAxis [8, 24, 40, 50] ∧ IsAxis [30, 20, 10] := by
  constructor
  · left; decide +kernel
  · right; decide +kernel

/-- The grids with one row or one column are not supported (outside of the quantifier of C47). -/
theorem C47_one_row_fails :
    axes (flatRows [1, 2, 3] [5] (fun x _ => x)) (flatRows [1, 2, 3] [5] (fun _ y => y)) = .error .indexError ∧
    axes (flatRows [1] [5, 6, 7] (fun x _ => x)) (flatRows [1] [5, 6, 7] (fun _ y => y)) = .error .indexError := by
  decide +kernel

end Verif
