import Verif.Model.VectorField
import Verif.Props.GridFinal

/-!
# Vector fields on a grid (C48, C49, C50)
-/

namespace Verif
open Verif.PivGrid Verif.GridFinal Verif.VectorField

/-! ## Specification -/

/-- Value of the component `vz` and of the coordinate `z` at a point of the grid. -/
def vzAt {α : Type} (vz : Vz α) (j i : Nat) : α :=
  match vz with
  | .num v => v
  | .arr im => im.get j i

def zAt (z : Zc) (j i : Nat) : Option ℚ :=
  match z with
  | .absent => none
  | .num v => some v
  | .surf im => some (im.get j i)

/-- An array has one value per point of the grid. -/
def OnGrid {α : Type} (x y : List ℚ) (im : Img α) : Prop := im.ny = y.length ∧ im.nx = x.length

def VzOnGrid {α : Type} (x y : List ℚ) : Vz α → Prop
  | .num _ => True
  | .arr im => OnGrid x y im

def ZOnGrid (x y : List ℚ) : Zc → Prop
  | .surf im => OnGrid x y im
  | _ => True

/-- The values of a field at the position `(xx, yy)` are `v`, `w`, `q`, and `r` for the coordinate `z`. -/
def PointAt {α : Type} (F : VField α) (xx yy : ℚ) (v w q : α) (r : Option ℚ) : Prop :=
  ∃ i j : Nat, F.x[i]? = some xx ∧ F.y[j]? = some yy ∧ F.vx.get j i = v ∧ F.vy.get j i = w ∧ vzAt F.vz j i = q ∧
    zAt F.z j i = r

/-- All the arrays have the shape of the grid. -/
structure WellShaped {α : Type} (F : VField α) : Prop where
  vx : OnGrid F.x F.y F.vx
  vy : OnGrid F.x F.y F.vy
  vz : VzOnGrid F.x F.y F.vz
  z : ZOnGrid F.x F.y F.z

/-- A field on ascending coordinates with at least two points in each direction. -/
structure GoodField {α : Type} (F : VField α) : Prop where
  shaped : WellShaped F
  xAsc : F.x.Pairwise (· < ·)
  yAsc : F.y.Pairwise (· < ·)
  x2 : 2 ≤ F.x.length
  y2 : 2 ≤ F.y.length

/-! ## The constructor -/

theorem sameShape_of {α β : Type} {x y : List ℚ} {a : Img α} {b : Img β} (ha : OnGrid x y a) (hb : OnGrid x y b) :
    sameShape a b = true := by
  unfold sameShape; rw [ha.1, ha.2, hb.1, hb.2]; simp

theorem flipX_shaped {α : Type} (F : VField α) (h : WellShaped F) : WellShaped (flipX F) := by
  have hv := h.vz
  have hz := h.z
  refine ⟨?_, ?_, ?_, ?_⟩
  · exact ⟨h.vx.1, by simpa [flipX, fliplr] using h.vx.2⟩
  · exact ⟨h.vy.1, by simpa [flipX, fliplr] using h.vy.2⟩
  · unfold flipX
    simp only
    cases hc : F.vz with
    | num v => trivial
    | arr im =>
      rw [hc] at hv
      simp only [flipVz, sameShape_of hv h.vx, if_true]
      exact ⟨hv.1, by simpa [fliplr] using hv.2⟩
  · unfold flipX
    simp only
    cases hc : F.z with
    | absent => trivial
    | num v => trivial
    | surf im =>
      rw [hc] at hz
      simp only [flipZ, sameShape_of h.vx hz, if_true]
      exact ⟨hz.1, by simpa [fliplr] using hz.2⟩

theorem flipY_shaped {α : Type} (F : VField α) (h : WellShaped F) : WellShaped (flipY F) := by
  have hv := h.vz
  have hz := h.z
  refine ⟨?_, ?_, ?_, ?_⟩
  · exact ⟨by simpa [flipY, flipud] using h.vx.1, h.vx.2⟩
  · exact ⟨by simpa [flipY, flipud] using h.vy.1, h.vy.2⟩
  · unfold flipY
    simp only
    cases hc : F.vz with
    | num v => trivial
    | arr im =>
      rw [hc] at hv
      simp only [flipVz, sameShape_of hv h.vx, if_true]
      exact ⟨by simpa [flipud] using hv.1, hv.2⟩
  · unfold flipY
    simp only
    cases hc : F.z with
    | absent => trivial
    | num v => trivial
    | surf im =>
      rw [hc] at hz
      simp only [flipZ, sameShape_of h.vx hz, if_true]
      exact ⟨by simpa [flipud] using hz.1, hz.2⟩

theorem flipX_vz {α : Type} (F : VField α) (h : WellShaped F) (i j : Nat) :
    vzAt (flipX F).vz j i = vzAt F.vz j (F.x.length - 1 - i) := by
  have hv := h.vz
  unfold flipX
  simp only
  cases hc : F.vz with
  | num v => rfl
  | arr im =>
    rw [hc] at hv
    simp only [flipVz, sameShape_of hv h.vx, if_true, vzAt, fliplr, hv.2]

theorem flipY_vz {α : Type} (F : VField α) (h : WellShaped F) (i j : Nat) :
    vzAt (flipY F).vz j i = vzAt F.vz (F.y.length - 1 - j) i := by
  have hv := h.vz
  unfold flipY
  simp only
  cases hc : F.vz with
  | num v => rfl
  | arr im =>
    rw [hc] at hv
    simp only [flipVz, sameShape_of hv h.vx, if_true, vzAt, flipud, hv.1]

theorem flipX_z {α : Type} (F : VField α) (h : WellShaped F) (i j : Nat) :
    zAt (flipX F).z j i = zAt F.z j (F.x.length - 1 - i) := by
  have hz := h.z
  unfold flipX
  simp only
  cases hc : F.z with
  | absent => rfl
  | num v => rfl
  | surf im =>
    rw [hc] at hz
    simp only [flipZ, sameShape_of h.vx hz, if_true, zAt, fliplr, hz.2]

theorem flipY_z {α : Type} (F : VField α) (h : WellShaped F) (i j : Nat) :
    zAt (flipY F).z j i = zAt F.z (F.y.length - 1 - j) i := by
  have hz := h.z
  unfold flipY
  simp only
  cases hc : F.z with
  | absent => rfl
  | num v => rfl
  | surf im =>
    rw [hc] at hz
    simp only [flipZ, sameShape_of h.vx hz, if_true, zAt, flipud, hz.1]

theorem flipX_point {α : Type} (F : VField α) (h : WellShaped F) (xx yy : ℚ) (v w q : α) (r : Option ℚ) :
    PointAt (flipX F) xx yy v w q r ↔ PointAt F xx yy v w q r := by
  have ex : ∀ i, (flipX F).vx.get i = fun k => F.vx.get i (F.x.length - 1 - k) := by
    intro i; funext k; simp only [flipX, fliplr, h.vx.2]
  have ey : ∀ i, (flipX F).vy.get i = fun k => F.vy.get i (F.x.length - 1 - k) := by
    intro i; funext k; simp only [flipX, fliplr, h.vy.2]
  constructor
  · rintro ⟨i, j, h1, h2, h3, h4, h5, h6⟩
    have hx : (flipX F).x = F.x.reverse := rfl
    rw [hx] at h1
    have hi := (List.getElem?_eq_some_iff.1 h1).1
    rw [List.length_reverse] at hi
    rw [List.getElem?_reverse hi] at h1
    refine ⟨F.x.length - 1 - i, j, h1, h2, ?_, ?_, ?_, ?_⟩
    · rw [← h3, ex]
    · rw [← h4, ey]
    · rw [← h5, flipX_vz F h]
    · rw [← h6, flipX_z F h]
  · rintro ⟨i, j, h1, h2, h3, h4, h5, h6⟩
    have hi := (List.getElem?_eq_some_iff.1 h1).1
    have e : F.x.length - 1 - (F.x.length - 1 - i) = i := by omega
    refine ⟨F.x.length - 1 - i, j, ?_, h2, ?_, ?_, ?_, ?_⟩
    · change F.x.reverse[_]? = _
      rw [List.getElem?_reverse (by omega), e, h1]
    · rw [ex]; simp only [e]; exact h3
    · rw [ey]; simp only [e]; exact h4
    · rw [flipX_vz F h, e]; exact h5
    · rw [flipX_z F h, e]; exact h6

theorem flipY_point {α : Type} (F : VField α) (h : WellShaped F) (xx yy : ℚ) (v w q : α) (r : Option ℚ) :
    PointAt (flipY F) xx yy v w q r ↔ PointAt F xx yy v w q r := by
  have ex : ∀ k i, (flipY F).vx.get k i = F.vx.get (F.y.length - 1 - k) i := by
    intro k i; simp only [flipY, flipud, h.vx.1]
  have ey : ∀ k i, (flipY F).vy.get k i = F.vy.get (F.y.length - 1 - k) i := by
    intro k i; simp only [flipY, flipud, h.vy.1]
  constructor
  · rintro ⟨i, j, h1, h2, h3, h4, h5, h6⟩
    have hx : (flipY F).y = F.y.reverse := rfl
    rw [hx] at h2
    have hi := (List.getElem?_eq_some_iff.1 h2).1
    rw [List.length_reverse] at hi
    rw [List.getElem?_reverse hi] at h2
    refine ⟨i, F.y.length - 1 - j, h1, h2, ?_, ?_, ?_, ?_⟩
    · rw [← h3, ex]
    · rw [← h4, ey]
    · rw [← h5, flipY_vz F h]
    · rw [← h6, flipY_z F h]
  · rintro ⟨i, j, h1, h2, h3, h4, h5, h6⟩
    have hi := (List.getElem?_eq_some_iff.1 h2).1
    have e : F.y.length - 1 - (F.y.length - 1 - j) = j := by omega
    refine ⟨i, F.y.length - 1 - j, h1, ?_, ?_, ?_, ?_, ?_⟩
    · change F.y.reverse[_]? = _
      rw [List.getElem?_reverse (by omega), e, h2]
    · rw [ex, e]; exact h3
    · rw [ey, e]; exact h4
    · rw [flipY_vz F h, e]; exact h5
    · rw [flipY_z F h, e]; exact h6

theorem isRegular_ok (x : List ℚ) (h : 2 ≤ x.length) : ∃ b, isRegular x = .ok b := by
  obtain ⟨x0, x1, h0, h1⟩ := get_two h
  exact ⟨(diff x).all (fun d => close d (x1 - x0)), by simp only [isRegular, at'_some h0, at'_some h1]⟩

/-- C48: a grid is said to be regular when every step is the first one, within the tolerance of NumPy (`1e-8` plus `1e-5` of the
first step). -/
theorem C48_regular (x0 x1 : ℚ) (l : List ℚ) :
    isRegular (x0 :: x1 :: l) = .ok true ↔
      ∀ i a b, (x0 :: x1 :: l)[i]? = some a → (x0 :: x1 :: l)[i + 1]? = some b →
        |b - a - (x1 - x0)| ≤ 1 / 10 ^ 8 + |x1 - x0| / 10 ^ 5 := by
  have hmem : ∀ (x : List ℚ) (d : ℚ), d ∈ diff x ↔ ∃ i a b, x[i]? = some a ∧ x[i + 1]? = some b ∧ d = b - a := by
    intro x
    induction x with
    | nil => intro d; simp [diff]
    | cons u x ih =>
      intro d
      cases x with
      | nil => simp [diff]
      | cons v x =>
        rw [diff, List.mem_cons, ih]
        constructor
        · rintro (rfl | ⟨i, a, b, h1, h2, h3⟩)
          · exact ⟨0, u, v, rfl, rfl, rfl⟩
          · exact ⟨i + 1, a, b, by simpa using h1, by simpa using h2, h3⟩
        · rintro ⟨i, a, b, h1, h2, h3⟩
          cases i with
          | zero => left; simp only [List.getElem?_cons_zero, Option.some.injEq, List.getElem?_cons_succ] at h1 h2; rw [h3, ← h1, ← h2]
          | succ i => right; exact ⟨i, a, b, by simpa using h1, by simpa using h2, h3⟩
  have hval : isRegular (x0 :: x1 :: l) = .ok ((diff (x0 :: x1 :: l)).all fun d => close d (x1 - x0)) := rfl
  rw [hval]
  simp only [Except.ok.injEq, List.all_eq_true, close, decide_eq_true_eq]
  have htol : (1 : ℚ) / 10 ^ 8 + |x1 - x0| / 10 ^ 5 = 1 / 100000000 + 1 / 100000 * |x1 - x0| := by ring
  rw [htol]
  constructor
  · intro h i a b h1 h2
    exact h _ ((hmem _ _).2 ⟨i, a, b, h1, h2, rfl⟩)
  · intro h d hd
    obtain ⟨i, a, b, h1, h2, rfl⟩ := (hmem _ _).1 hd
    exact h i a b h1 h2

example : isRegular [0, 1, 2, 3] = .ok true ∧ isRegular [0, 1, 2, 7 / 2] = .ok false := by decide +kernel

theorem gridRegular_ok {α : Type} (x y : List ℚ) (z : Zc) (vx : Img α) (hx : 2 ≤ x.length) (hy : 2 ≤ y.length) :
    ∃ b, gridRegular x y z vx = .ok b := by
  obtain ⟨bx, ex⟩ := isRegular_ok x hx
  obtain ⟨bY, ey⟩ := isRegular_ok y hy
  unfold gridRegular
  rw [ex]
  cases bx with
  | false => exact ⟨false, rfl⟩
  | true => exact ⟨bY && zRegular z vx, by simp only [ey]⟩

theorem descending_ok (x : List ℚ) (a b : ℚ) (h0 : x[0]? = some a) (h1 : x[1]? = some b) :
    descending x = .ok (decide (b - a < 0)) := by
  simp only [descending, at'_some h0, at'_some h1]

theorem descending_asc (x : List ℚ) (h : x.Pairwise (· < ·)) (h2 : 2 ≤ x.length) : descending x = .ok false := by
  obtain ⟨a, b, h0, h1⟩ := get_two h2
  rw [descending_ok x a b h0 h1]
  obtain ⟨l0, e0⟩ := List.getElem?_eq_some_iff.1 h0
  obtain ⟨l1, e1⟩ := List.getElem?_eq_some_iff.1 h1
  have := List.pairwise_iff_getElem.1 h 0 1 l0 l1 (by omega)
  rw [e0, e1] at this
  have : ¬ (b - a < 0) := by linarith
  rw [decide_eq_false this]

theorem descending_desc (x : List ℚ) (h : x.Pairwise (· > ·)) (h2 : 2 ≤ x.length) : descending x = .ok true := by
  obtain ⟨a, b, h0, h1⟩ := get_two h2
  rw [descending_ok x a b h0 h1]
  obtain ⟨l0, e0⟩ := List.getElem?_eq_some_iff.1 h0
  obtain ⟨l1, e1⟩ := List.getElem?_eq_some_iff.1 h1
  have := List.pairwise_iff_getElem.1 h 0 1 l0 l1 (by omega)
  rw [e0, e1] at this
  have : b - a < 0 := by linarith
  rw [decide_eq_true this]

/-- C48, constructor: for coordinates in ascending or descending order, the field is built, its coordinates are
ascending, and at each position it has the values given for this position. -/
theorem C48_constructor {α : Type} (x y : List ℚ) (z : Zc) (vx vy : Img α) (vz : Vz α) (labels : Option (List Char))
    (hx : IsAxis x) (hy : IsAxis y) (hx2 : 2 ≤ x.length) (hy2 : 2 ≤ y.length)
    (hvx : OnGrid x y vx) (hvy : OnGrid x y vy) (hvz : VzOnGrid x y vz) (hz : ZOnGrid x y z) :
    ∃ F, mkField x y z vx vy vz labels = .ok F ∧ GoodField F ∧
      (∀ a, a ∈ F.x ↔ a ∈ x) ∧ (∀ a, a ∈ F.y ↔ a ∈ y) ∧ F.labels = labels ∧
      ∀ xx yy v w q r, PointAt F xx yy v w q r ↔
        ∃ i j : Nat, x[i]? = some xx ∧ y[j]? = some yy ∧ vx.get j i = v ∧ vy.get j i = w ∧ vzAt vz j i = q ∧ zAt z j i = r := by
  generalize hF0 : (⟨x, y, z, vx, vy, vz, labels, false⟩ : VField α) = F0
  have ws0 : WellShaped F0 := by subst hF0; exact ⟨hvx, hvy, hvz, hz⟩
  have pt0 : ∀ xx yy v w q r, PointAt F0 xx yy v w q r ↔
      ∃ i j : Nat, x[i]? = some xx ∧ y[j]? = some yy ∧ vx.get j i = v ∧ vy.get j i = w ∧ vzAt vz j i = q ∧ zAt z j i = r := by
    subst hF0; intros; rfl
  have ex0 : F0.x = x := by subst hF0; rfl
  have ey0 : F0.y = y := by subst hF0; rfl
  have el0 : F0.labels = labels := by subst hF0; rfl
  -- flip of x
  obtain ⟨bx, F1, hbx, hF1, ws1, pt1, asc1, mem1, ey1, el1, len1⟩ : ∃ (bx : Bool) (F1 : VField α), descending x = .ok bx ∧
      (if bx then flipX F0 else F0) = F1 ∧ WellShaped F1 ∧
      (∀ xx yy v w q r, PointAt F1 xx yy v w q r ↔ PointAt F0 xx yy v w q r) ∧ F1.x.Pairwise (· < ·) ∧
      (∀ a, a ∈ F1.x ↔ a ∈ x) ∧ F1.y = y ∧ F1.labels = labels ∧ F1.x.length = x.length := by
    rcases hx with h | h
    · exact ⟨false, F0, descending_asc x h hx2, rfl, ws0, fun _ _ _ _ _ _ => Iff.rfl, by rw [ex0]; exact h,
        by rw [ex0]; exact fun _ => Iff.rfl, ey0, el0, by rw [ex0]⟩
    · refine ⟨true, flipX F0, descending_desc x h hx2, rfl, flipX_shaped F0 ws0, flipX_point F0 ws0, ?_, ?_, ey0, el0, ?_⟩
      · change F0.x.reverse.Pairwise _
        rw [ex0]; exact List.pairwise_reverse.2 h
      · intro a
        change a ∈ F0.x.reverse ↔ _
        rw [ex0, List.mem_reverse]
      · change F0.x.reverse.length = _
        rw [ex0, List.length_reverse]
  obtain ⟨bY, F2, hbY, hF2, ws2, pt2, asc2, mem2, ex2, el2, len2⟩ : ∃ (bY : Bool) (F2 : VField α), descending y = .ok bY ∧
      (if bY then flipY F1 else F1) = F2 ∧ WellShaped F2 ∧
      (∀ xx yy v w q r, PointAt F2 xx yy v w q r ↔ PointAt F1 xx yy v w q r) ∧ F2.y.Pairwise (· < ·) ∧
      (∀ a, a ∈ F2.y ↔ a ∈ y) ∧ F2.x = F1.x ∧ F2.labels = labels ∧ F2.y.length = y.length := by
    rcases hy with h | h
    · exact ⟨false, F1, descending_asc y h hy2, rfl, ws1, fun _ _ _ _ _ _ => Iff.rfl, by rw [ey1]; exact h,
        by rw [ey1]; exact fun _ => Iff.rfl, rfl, el1, by rw [ey1]⟩
    · refine ⟨true, flipY F1, descending_desc y h hy2, rfl, flipY_shaped F1 ws1, flipY_point F1 ws1, ?_, ?_, rfl, el1, ?_⟩
      · change F1.y.reverse.Pairwise _
        rw [ey1]; exact List.pairwise_reverse.2 h
      · intro a
        change a ∈ F1.y.reverse ↔ _
        rw [ey1, List.mem_reverse]
      · change F1.y.reverse.length = _
        rw [ey1, List.length_reverse]
  obtain ⟨r, hr⟩ := gridRegular_ok F2.x F2.y F2.z F2.vx (by rw [ex2, len1]; exact hx2) (by rw [len2]; exact hy2)
  refine ⟨{ F2 with regular := r }, ?_, ⟨⟨ws2.vx, ws2.vy, ws2.vz, ws2.z⟩, ?_, asc2, ?_, ?_⟩, ?_, mem2, el2, ?_⟩
  · unfold mkField
    simp only [hbx, hbY, hF0, hF1, hF2, hr]
  · rw [ex2]; exact asc1
  · change 2 ≤ F2.x.length
    rw [ex2, len1]; exact hx2
  · change 2 ≤ F2.y.length
    rw [len2]; exact hy2
  · intro a; change a ∈ F2.x ↔ _; rw [ex2]; exact mem1 a
  · intro xx yy v w q r'
    rw [← pt0, ← pt1, ← pt2]
    rfl

/-- The hypotheses: three columns given from right to left, two rows, a vertical component which is an array. -/
example : let x : List ℚ := [3, 2, 1]; let y : List ℚ := [0, 10]
    let vx : Img ℚ := ⟨2, 3, fun i j => 10 * i + j⟩
    IsAxis x ∧ IsAxis y ∧ 2 ≤ x.length ∧ 2 ≤ y.length ∧ OnGrid x y vx ∧ VzOnGrid x y (.arr vx) := by
  refine ⟨?_, ?_, by decide, by decide, ⟨rfl, rfl⟩, ⟨rfl, rfl⟩⟩
  · exact Or.inr (by decide +kernel)
  · exact Or.inl (by decide +kernel)

/-- On ascending coordinates, the constructor keeps everything. -/
theorem mkField_asc {α : Type} (x y : List ℚ) (z : Zc) (vx vy : Img α) (vz : Vz α) (labels : Option (List Char))
    (hx : x.Pairwise (· < ·)) (hy : y.Pairwise (· < ·)) (hx2 : 2 ≤ x.length) (hy2 : 2 ≤ y.length) :
    ∃ r, mkField x y z vx vy vz labels = .ok ⟨x, y, z, vx, vy, vz, labels, r⟩ := by
  obtain ⟨r, hr⟩ := gridRegular_ok x y z vx hx2 hy2
  refine ⟨r, ?_⟩
  unfold mkField
  simp only [descending_asc x hx hx2, descending_asc y hy hy2, Bool.false_eq_true, if_false, hr]

/-! ## The operations -/

/-- `H` is the field of the values `f a b` for the values `a` of `F` and `b` of `G`, on the grid of `F`. -/
structure Pointwise {α : Type} (f : α → α → α) (F G H : VField α) : Prop where
  x : H.x = F.x
  y : H.y = F.y
  z : H.z = F.z
  vx : ∀ j i, H.vx.get j i = f (F.vx.get j i) (G.vx.get j i)
  vy : ∀ j i, H.vy.get j i = f (F.vy.get j i) (G.vy.get j i)
  vz : ∀ j i, vzAt H.vz j i = f (vzAt F.vz j i) (vzAt G.vz j i)
  labels : H.labels = none
  good : GoodField H

/-- `H` is the field of the values `f a` for the values `a` of `F`. -/
structure PointwiseMap {α : Type} (f : α → α) (F H : VField α) : Prop where
  x : H.x = F.x
  y : H.y = F.y
  z : H.z = F.z
  vx : ∀ j i, H.vx.get j i = f (F.vx.get j i)
  vy : ∀ j i, H.vy.get j i = f (F.vy.get j i)
  vz : ∀ j i, vzAt H.vz j i = f (vzAt F.vz j i)
  labels : H.labels = none
  good : GoodField H

theorem zipImg_ok {α : Type} (f : α → α → α) (x y : List ℚ) (a b : Img α) (ha : OnGrid x y a) (hb : OnGrid x y b) :
    zipImg f a b = .ok ⟨a.ny, a.nx, fun j i => f (a.get j i) (b.get j i)⟩ := by
  unfold zipImg; rw [if_pos (sameShape_of ha hb)]

theorem zipVz_ok {α : Type} (f : α → α → α) (x y : List ℚ) (a b : Vz α) (ha : VzOnGrid x y a) (hb : VzOnGrid x y b) :
    ∃ c, zipVz f a b = .ok c ∧ VzOnGrid x y c ∧ ∀ j i, vzAt c j i = f (vzAt a j i) (vzAt b j i) := by
  cases a with
  | num a =>
    cases b with
    | num b => exact ⟨.num (f a b), rfl, trivial, fun _ _ => rfl⟩
    | arr b => exact ⟨.arr (mapImg (fun v => f a v) b), rfl, hb, fun _ _ => rfl⟩
  | arr a =>
    cases b with
    | num b => exact ⟨.arr (mapImg (fun v => f v b) a), rfl, ha, fun _ _ => rfl⟩
    | arr b =>
      refine ⟨.arr ⟨a.ny, a.nx, fun j i => f (a.get j i) (b.get j i)⟩, ?_, ha, fun _ _ => rfl⟩
      simp only [zipVz, zipImg_ok f x y a b ha hb]

theorem opField_ok {α : Type} (f : α → α → α) (F G : VField α) (hF : GoodField F) (hG : WellShaped G) (hx : G.x = F.x)
    (hy : G.y = F.y) : ∃ H, opField f F G = .ok H ∧ Pointwise f F G H := by
  have s := hF.shaped
  have g1 := hG.vx; have g2 := hG.vy; have g3 := hG.vz
  rw [hx, hy] at g1 g2 g3
  obtain ⟨c, hc, hcs, hcv⟩ := zipVz_ok f F.x F.y F.vz G.vz s.vz g3
  obtain ⟨r, hr⟩ := mkField_asc F.x F.y F.z ⟨F.vx.ny, F.vx.nx, fun j i => f (F.vx.get j i) (G.vx.get j i)⟩
    ⟨F.vy.ny, F.vy.nx, fun j i => f (F.vy.get j i) (G.vy.get j i)⟩ c none hF.xAsc hF.yAsc hF.x2 hF.y2
  refine ⟨_, (?_ : opField f F G = .ok ⟨F.x, F.y, F.z, ⟨F.vx.ny, F.vx.nx, fun j i => f (F.vx.get j i) (G.vx.get j i)⟩,
    ⟨F.vy.ny, F.vy.nx, fun j i => f (F.vy.get j i) (G.vy.get j i)⟩, c, none, r⟩),
    rfl, rfl, rfl, fun _ _ => rfl, fun _ _ => rfl, hcv, rfl, ⟨?_, hF.xAsc, hF.yAsc, hF.x2, hF.y2⟩⟩
  · unfold opField
    simp only [zipImg_ok f F.x F.y F.vx G.vx s.vx g1, zipImg_ok f F.x F.y F.vy G.vy s.vy g2, hc, hr]
  · exact ⟨s.vx, s.vy, hcs, s.z⟩

theorem opNumber_ok {α : Type} (f : α → α) (F : VField α) (hF : GoodField F) :
    ∃ H, opNumber f F = .ok H ∧ PointwiseMap f F H := by
  have s := hF.shaped
  obtain ⟨r, hr⟩ := mkField_asc F.x F.y F.z (mapImg f F.vx) (mapImg f F.vy) (mapVz f F.vz) none hF.xAsc hF.yAsc hF.x2 hF.y2
  refine ⟨_, hr, rfl, rfl, rfl, fun _ _ => rfl, fun _ _ => rfl, ?_, rfl, ⟨?_, hF.xAsc, hF.yAsc, hF.x2, hF.y2⟩⟩
  · intro j i; cases h : F.vz <;> simp [mapVz, vzAt, mapImg, h]
  · refine ⟨s.vx, s.vy, ?_, s.z⟩
    have := s.vz
    cases h : F.vz with
    | num v => simp only [mapVz]; trivial
    | arr im => rw [h] at this; exact this

/-- C48, operations between fields on the same grid: they act pointwise. -/
theorem C48_field_operations {α : Type} [Add α] [Sub α] [Mul α] [Div α] (F G : VField α) (hF : GoodField F)
    (hG : WellShaped G) (hx : G.x = F.x) (hy : G.y = F.y) :
    (∃ H, add F (.field G) = .ok H ∧ Pointwise (fun a b => a + b) F G H) ∧
    (∃ H, sub F (.field G) = .ok H ∧ Pointwise (fun a b => a - b) F G H) ∧
    (∃ H, mul F (.field G) = .ok H ∧ Pointwise (fun a b => b * a) F G H) ∧
    (∃ H, div F (.field G) = .ok H ∧ Pointwise (fun a b => a / b) F G H) :=
  ⟨opField_ok _ F G hF hG hx hy, opField_ok _ F G hF hG hx hy, opField_ok _ F G hF hG hx hy, opField_ok _ F G hF hG hx hy⟩

/-- C48, operations with a number. -/
theorem C48_number_operations {α : Type} [Add α] [Sub α] [Mul α] [Div α] (F : VField α) (hF : GoodField F) (c : α) :
    (∃ H, add F (.number c) = .ok H ∧ PointwiseMap (fun a => a + c) F H) ∧
    (∃ H, sub F (.number c) = .ok H ∧ PointwiseMap (fun a => a - c) F H) ∧
    (∃ H, mul F (.number c) = .ok H ∧ PointwiseMap (fun a => c * a) F H) ∧
    (∃ H, div F (.number c) = .ok H ∧ PointwiseMap (fun a => a / c) F H) :=
  ⟨opNumber_ok _ F hF, opNumber_ok _ F hF, opNumber_ok _ F hF, opNumber_ok _ F hF⟩

/-- A field used as example: 2 rows, 3 columns. -/
def fieldExample : VField ℚ :=
  ⟨[1, 2, 4], [0, 5], .absent, ⟨2, 3, fun j i => j + 10 * i⟩, ⟨2, 3, fun j _ => j⟩, .num 0, none, false⟩

theorem fieldExample_good : GoodField fieldExample :=
  ⟨⟨⟨rfl, rfl⟩, ⟨rfl, rfl⟩, trivial, trivial⟩, by unfold fieldExample; decide +kernel, by unfold fieldExample; decide +kernel, by decide, by decide⟩

/-- The grid of the other field is not used: the sum of fields on different grids is on the grid of the first one. -/
theorem C48_other_grid : ∃ G H : VField ℚ, GoodField G ∧ G.x ≠ fieldExample.x ∧
    add fieldExample (.field G) = .ok H ∧ H.x = fieldExample.x := by
  have hG : GoodField ({ fieldExample with x := [7, 8, 9] } : VField ℚ) :=
    ⟨⟨⟨rfl, rfl⟩, ⟨rfl, rfl⟩, trivial, trivial⟩, by decide +kernel, fieldExample_good.yAsc, by decide, by decide⟩
  obtain ⟨r, hr⟩ := mkField_asc fieldExample.x fieldExample.y fieldExample.z
    ⟨2, 3, fun j i => fieldExample.vx.get j i + fieldExample.vx.get j i⟩
    ⟨2, 3, fun j i => fieldExample.vy.get j i + fieldExample.vy.get j i⟩ (.num (0 + 0)) none
    fieldExample_good.xAsc fieldExample_good.yAsc fieldExample_good.x2 fieldExample_good.y2
  refine ⟨{ fieldExample with x := [7, 8, 9] }, _, hG, by unfold fieldExample; decide +kernel, hr, rfl⟩

/-! ## Extraction -/

theorem sliceBound_nat (L a : Nat) (h : a ≤ L) : sliceBound L (a : Int) = a := by
  unfold sliceBound; rw [if_neg (by omega)]; omega

theorem lslice_nat {β : Type} (l : List β) (a b : Nat) (hab : a ≤ b) (hb : b ≤ l.length) (i : Nat) :
    (lslice l a b)[i]? = if i < b - a then l[a + i]? else none := by
  unfold lslice
  rw [sliceBound_nat _ _ hb, sliceBound_nat _ _ (by omega), List.getElem?_drop]
  split
  · rw [List.getElem?_take_of_lt (by omega)]
  · rw [List.getElem?_eq_none]; rw [List.length_take]; omega

/-- `H` is the restriction of `F` to the rows `a0 ≤ j < b0` and the columns `a1 ≤ i < b1`. -/
structure Restriction {α : Type} (F H : VField α) (a0 b0 a1 b1 : Nat) : Prop where
  x : ∀ i : Nat, H.x[i]? = if i < b1 - a1 then F.x[a1 + i]? else none
  y : ∀ j : Nat, H.y[j]? = if j < b0 - a0 then F.y[a0 + j]? else none
  shaped : WellShaped H
  vx : ∀ j i, H.vx.get j i = F.vx.get (a0 + j) (a1 + i)
  vy : ∀ j i, H.vy.get j i = F.vy.get (a0 + j) (a1 + i)
  vz : ∀ j i, vzAt H.vz j i = vzAt F.vz (a0 + j) (a1 + i)
  z : ∀ j i, zAt H.z j i = zAt F.z (a0 + j) (a1 + i)
  labels : H.labels = F.labels

theorem lslice_length {β : Type} (l : List β) (a b : Nat) (hab : a ≤ b) (hb : b ≤ l.length) :
    (lslice l (a : Int) b).length = b - a := by
  unfold lslice
  rw [sliceBound_nat _ _ hb, sliceBound_nat _ _ (by omega), List.length_drop, List.length_take]
  omega

theorem slice_onGrid {α : Type} {x y : List ℚ} {im : Img α} (h : OnGrid x y im) (a0 b0 a1 b1 : Nat) (h0 : a0 ≤ b0)
    (hb0 : b0 ≤ y.length) (h1 : a1 ≤ b1) (hb1 : b1 ≤ x.length) :
    OnGrid (lslice x a1 b1) (lslice y a0 b0) (im.slice a0 b0 a1 b1) ∧
    ∀ j i, (im.slice a0 b0 a1 b1).get j i = im.get (a0 + j) (a1 + i) := by
  unfold OnGrid
  rw [lslice_length x a1 b1 h1 hb1, lslice_length y a0 b0 h0 hb0]
  unfold Img.slice
  simp only [h.1, h.2]
  rw [sliceBound_nat _ _ hb0, sliceBound_nat _ _ hb1, sliceBound_nat _ a0 (by omega), sliceBound_nat _ a1 (by omega)]
  exact ⟨⟨rfl, rfl⟩, fun _ _ => rfl⟩

theorem extract_restriction {α : Type} (F : VField α) (hF : GoodField F) (a0 b0 a1 b1 : Nat) (h0 : a0 ≤ b0)
    (hb0 : b0 ≤ F.y.length) (h1 : a1 ≤ b1) (hb1 : b1 ≤ F.x.length) :
    Restriction F (extract F a0 b0 a1 b1) a0 b0 a1 b1 := by
  have s := hF.shaped
  have ox := slice_onGrid s.vx a0 b0 a1 b1 h0 hb0 h1 hb1
  have oy := slice_onGrid s.vy a0 b0 a1 b1 h0 hb0 h1 hb1
  have hvz : VzOnGrid (lslice F.x a1 b1) (lslice F.y a0 b0) (extractVz a0 b0 a1 b1 F.vz) ∧
      ∀ j i, vzAt (extractVz a0 b0 a1 b1 F.vz) j i = vzAt F.vz (a0 + j) (a1 + i) := by
    have hv := s.vz
    cases hc : F.vz with
    | num v => exact ⟨trivial, fun _ _ => rfl⟩
    | arr im =>
      rw [hc] at hv
      have : im.ny * im.nx > 1 := by
        rw [hv.1, hv.2]
        have := hF.x2; have := hF.y2
        nlinarith
      simp only [extractVz, if_pos this]
      exact slice_onGrid hv a0 b0 a1 b1 h0 hb0 h1 hb1
  have hz : ZOnGrid (lslice F.x a1 b1) (lslice F.y a0 b0) (extractZ F.vx a0 b0 a1 b1 F.z) ∧
      ∀ j i, zAt (extractZ F.vx a0 b0 a1 b1 F.z) j i = zAt F.z (a0 + j) (a1 + i) := by
    have hv := s.z
    cases hc : F.z with
    | absent => exact ⟨trivial, fun _ _ => rfl⟩
    | num v => exact ⟨trivial, fun _ _ => rfl⟩
    | surf im =>
      rw [hc] at hv
      simp only [extractZ, sameShape_of s.vx hv, if_true]
      have := slice_onGrid hv a0 b0 a1 b1 h0 hb0 h1 hb1
      exact ⟨this.1, fun j i => by simp only [zAt]; rw [this.2]⟩
  exact ⟨fun i => lslice_nat F.x a1 b1 h1 hb1 i, fun j => lslice_nat F.y a0 b0 h0 hb0 j, ⟨ox.1, oy.1, hvz.1, hz.1⟩,
    ox.2, oy.2, hvz.2, hz.2, rfl⟩

/-- C48, extraction with indices: the restriction of the field to the rectangle. -/
theorem C48_extract {α : Type} (F : VField α) (hF : GoodField F) (a0 b0 a1 b1 : Nat) (h0 : a0 ≤ b0)
    (hb0 : b0 ≤ F.y.length) (h1 : a1 ≤ b1) (hb1 : b1 ≤ F.x.length) :
    Restriction F (extract F a0 b0 a1 b1) a0 b0 a1 b1 :=
  extract_restriction F hF a0 b0 a1 b1 h0 hb0 h1 hb1

/-- C48: what a restriction means for the values at positions. -/
theorem restriction_point {α : Type} (F H : VField α) (a0 b0 a1 b1 : Nat) (hR : Restriction F H a0 b0 a1 b1)
    (xx yy : ℚ) (v w q : α) (r : Option ℚ) :
    PointAt H xx yy v w q r ↔ ∃ i j : Nat, (a1 ≤ i ∧ i < b1) ∧ (a0 ≤ j ∧ j < b0) ∧ F.x[i]? = some xx ∧
      F.y[j]? = some yy ∧ F.vx.get j i = v ∧ F.vy.get j i = w ∧ vzAt F.vz j i = q ∧ zAt F.z j i = r := by
  constructor
  · rintro ⟨i, j, p1, p2, p3, p4, p5, p6⟩
    rw [hR.x] at p1
    rw [hR.y] at p2
    have hi : i < b1 - a1 := by by_contra hc; rw [if_neg hc] at p1; cases p1
    have hj : j < b0 - a0 := by by_contra hc; rw [if_neg hc] at p2; cases p2
    rw [if_pos hi] at p1
    rw [if_pos hj] at p2
    exact ⟨a1 + i, a0 + j, ⟨by omega, by omega⟩, ⟨by omega, by omega⟩, p1, p2, by rw [← p3, hR.vx], by rw [← p4, hR.vy],
      by rw [← p5, hR.vz], by rw [← p6, hR.z]⟩
  · rintro ⟨i, j, hi, hj, p1, p2, p3, p4, p5, p6⟩
    have ei : a1 + (i - a1) = i := by omega
    have ej : a0 + (j - a0) = j := by omega
    refine ⟨i - a1, j - a0, ?_, ?_, ?_, ?_, ?_, ?_⟩
    · rw [hR.x, if_pos (by omega), ei, p1]
    · rw [hR.y, if_pos (by omega), ej, p2]
    · rw [hR.vx, ei, ej, p3]
    · rw [hR.vy, ei, ej, p4]
    · rw [hR.vz, ei, ej, p5]
    · rw [hR.z, ei, ej, p6]

/-- C48, `truncate`: `cut` points are removed on each side; nothing is left when there are not enough points. -/
theorem C48_truncate {α : Type} (F : VField α) (hF : GoodField F) (cut : Nat) :
    (2 * cut ≤ F.x.length → 2 * cut ≤ F.y.length →
      Restriction F (truncate F cut) cut (F.y.length - cut) cut (F.x.length - cut)) ∧
    (F.x.length < 2 * cut → (truncate F cut).x = [] ∧ (truncate F cut).vx.nx = 0) ∧
    (F.y.length < 2 * cut → (truncate F cut).y = [] ∧ (truncate F cut).vx.ny = 0) := by
  have s := hF.shaped
  have bnd : ∀ L : Nat, L < 2 * cut → sliceBound L ((L : Int) - cut) ≤ sliceBound L cut := by
    intro L hL; unfold sliceBound
    rw [if_neg (show ¬ ((cut : Int) < 0) by omega)]
    split <;> omega
  refine ⟨?_, ?_, ?_⟩
  · intro hx hy
    have e : truncate F cut = extract F cut ((F.y.length - cut : Nat) : Int) cut ((F.x.length - cut : Nat) : Int) := by
      unfold truncate
      rw [s.vx.1, s.vx.2, Nat.cast_sub (by omega), Nat.cast_sub (by omega)]
    rw [e]
    exact extract_restriction F hF cut _ cut _ (by omega) (by omega) (by omega) (by omega)
  · intro h
    have hb := bnd F.x.length h
    unfold truncate extract lslice Img.slice
    simp only [s.vx.2]
    refine ⟨List.drop_eq_nil_of_le ?_, by omega⟩
    rw [List.length_take]
    omega
  · intro h
    have hb := bnd F.y.length h
    unfold truncate extract lslice Img.slice
    simp only [s.vx.1]
    refine ⟨List.drop_eq_nil_of_le ?_, by omega⟩
    rw [List.length_take]
    omega

/-! ### Extraction with physical bounds -/

theorem foldl_min_spec (l : List ℚ) (a : ℚ) : l.foldl min a ∈ a :: l ∧ ∀ b ∈ a :: l, l.foldl min a ≤ b := by
  induction l generalizing a with
  | nil => simp
  | cons c l ih =>
    rw [List.foldl_cons]
    obtain ⟨h1, h2⟩ := ih (min a c)
    constructor
    · rcases List.mem_cons.1 h1 with h | h
      · rw [h]
        rcases min_choice a c with h' | h' <;> rw [h'] <;> simp
      · simp [h]
    · intro b hb
      have hm := h2 (min a c) (by simp)
      rcases List.mem_cons.1 hb with rfl | hb
      · exact hm.trans (min_le_left _ _)
      · rcases List.mem_cons.1 hb with rfl | hb
        · exact hm.trans (min_le_right _ _)
        · exact h2 b (by simp [hb])

theorem foldl_max_spec (l : List ℚ) (a : ℚ) : l.foldl max a ∈ a :: l ∧ ∀ b ∈ a :: l, b ≤ l.foldl max a := by
  induction l generalizing a with
  | nil => simp
  | cons c l ih =>
    rw [List.foldl_cons]
    obtain ⟨h1, h2⟩ := ih (max a c)
    constructor
    · rcases List.mem_cons.1 h1 with h | h
      · rw [h]
        rcases max_choice a c with h' | h' <;> rw [h'] <;> simp
      · simp [h]
    · intro b hb
      have hm := h2 (max a c) (by simp)
      rcases List.mem_cons.1 hb with rfl | hb
      · exact (le_max_left _ _).trans hm
      · rcases List.mem_cons.1 hb with rfl | hb
        · exact (le_max_right _ _).trans hm
        · exact h2 b (by simp [hb])

theorem asc_lt_iff (y : List ℚ) (h : y.Pairwise (· < ·)) (i j : Nat) (a b : ℚ) (hi : y[i]? = some a)
    (hj : y[j]? = some b) : i ≤ j ↔ a ≤ b := by
  obtain ⟨li, ei⟩ := List.getElem?_eq_some_iff.1 hi
  obtain ⟨lj, ej⟩ := List.getElem?_eq_some_iff.1 hj
  subst ei; subst ej
  constructor
  · intro hij
    rcases Nat.lt_or_eq_of_le hij with hlt | rfl
    · exact le_of_lt (List.pairwise_iff_getElem.1 h i j li lj hlt)
    · exact le_refl _
  · intro hab
    by_contra hc
    have := List.pairwise_iff_getElem.1 h j i lj li (by omega)
    linarith

theorem physBounds_spec (y : List ℚ) (h : y.Pairwise (· < ·)) (start stop : ℚ) (hex : ∃ v ∈ y, start ≤ v ∧ v ≤ stop) :
    ∃ a b : Nat, physBounds y start stop = .ok ((a : Int), (b : Int)) ∧ a ≤ b ∧ b ≤ y.length ∧
      ∀ (i : Nat) v, y[i]? = some v → ((a ≤ i ∧ i < b) ↔ start ≤ v ∧ v ≤ stop) := by
  generalize hI : y.filter (fun v => decide (start ≤ v) && decide (v ≤ stop)) = inside
  have hmem : ∀ v, v ∈ inside ↔ v ∈ y ∧ start ≤ v ∧ v ≤ stop := by
    intro v; rw [← hI, List.mem_filter]; simp
  obtain ⟨v0, hv0, hr0⟩ := hex
  cases inside with
  | nil => exact absurd ((hmem v0).2 ⟨hv0, hr0⟩) (by simp)
  | cons c l =>
    obtain ⟨m1, m2⟩ := foldl_min_spec l c
    obtain ⟨M1, M2⟩ := foldl_max_spec l c
    generalize hlo : l.foldl min c = lo at m1 m2
    generalize hhi : l.foldl max c = hi at M1 M2
    have ylo := ((hmem lo).1 m1)
    have yhi := ((hmem hi).1 M1)
    have ilo : y[y.idxOf lo]? = some lo := by
      rw [List.getElem?_eq_getElem (List.idxOf_lt_length_of_mem ylo.1)]; simp
    have ihi : y[y.idxOf hi]? = some hi := by
      rw [List.getElem?_eq_getElem (List.idxOf_lt_length_of_mem yhi.1)]; simp
    refine ⟨y.idxOf lo, y.idxOf hi + 1, ?_, ?_, ?_, ?_⟩
    · unfold physBounds
      simp only [hI, minOf, maxOf, hlo, hhi]
      rfl
    · have := (asc_lt_iff y h _ _ _ _ ilo ihi).2 (m2 hi M1)
      omega
    · have := List.idxOf_lt_length_of_mem yhi.1; omega
    · intro i v hi'
      have e1 := asc_lt_iff y h _ _ _ _ ilo hi'
      have e2 := asc_lt_iff y h _ _ _ _ hi' ihi
      constructor
      · rintro ⟨h1, h2⟩
        exact ⟨ylo.2.1.trans (e1.1 h1), (e2.1 (by omega)).trans yhi.2.2⟩
      · intro hv
        have hin := (hmem v).2 ⟨List.mem_of_getElem? hi', hv⟩
        exact ⟨e1.2 (m2 v hin), by have := e2.2 (M2 v hin); omega⟩

/-- C48, extraction with `phys=True`: the points of the field whose coordinates are in the given intervals; an error if
there is no such point. -/
theorem C48_extract_phys {α : Type} (F : VField α) (hF : GoodField F) (start0 stop0 start1 stop1 : ℚ) :
    ((∃ v ∈ F.y, start0 ≤ v ∧ v ≤ stop0) → (∃ v ∈ F.x, start1 ≤ v ∧ v ≤ stop1) →
      ∃ H, extractPhys F start0 stop0 start1 stop1 = .ok H ∧ WellShaped H ∧
        ∀ xx yy v w q r, PointAt H xx yy v w q r ↔
          PointAt F xx yy v w q r ∧ (start0 ≤ yy ∧ yy ≤ stop0) ∧ (start1 ≤ xx ∧ xx ≤ stop1)) ∧
    ((¬ ∃ v ∈ F.y, start0 ≤ v ∧ v ≤ stop0) → extractPhys F start0 stop0 start1 stop1 = .error .valueError) := by
  constructor
  · intro hy hx
    obtain ⟨a0, b0, e0, h0, hb0, s0⟩ := physBounds_spec F.y hF.yAsc start0 stop0 hy
    obtain ⟨a1, b1, e1, h1, hb1, s1⟩ := physBounds_spec F.x hF.xAsc start1 stop1 hx
    have hR := extract_restriction F hF a0 b0 a1 b1 h0 hb0 h1 hb1
    refine ⟨extract F a0 b0 a1 b1, ?_, hR.shaped, ?_⟩
    · unfold extractPhys; simp only [e0, e1]
    · intro xx yy v w q r
      rw [restriction_point F _ a0 b0 a1 b1 hR]
      constructor
      · rintro ⟨i, j, hi, hj, p1, p2, p3⟩
        exact ⟨⟨i, j, p1, p2, p3⟩, (s0 j yy p2).1 hj, (s1 i xx p1).1 hi⟩
      · rintro ⟨⟨i, j, p1, p2, p3⟩, hj, hi⟩
        exact ⟨i, j, (s1 i xx p1).2 hi, (s0 j yy p2).2 hj, p1, p2, p3⟩
  · intro h
    have : F.y.filter (fun v => decide (start0 ≤ v) && decide (v ≤ stop0)) = [] := by
      rw [List.filter_eq_nil_iff]
      intro v hv hc
      simp only [Bool.and_eq_true, decide_eq_true_eq] at hc
      exact h ⟨v, hv, hc⟩
    unfold extractPhys physBounds
    simp only [this, minOf]

example : ∃ v ∈ fieldExample.x, (3 / 2 : ℚ) ≤ v ∧ v ≤ 3 := ⟨2, by simp [fieldExample], by norm_num, by norm_num⟩

/-! ### Regularisation -/

/-- C48, `regularize_grid`: the result is the field without its last column, its last row, both or none. -/
theorem C48_regularize {α : Type} (F H : VField α) (hF : GoodField F) (h : regularizeGrid F = .ok H) :
    H.regular = true ∧ ∃ b0 b1, (b0 = F.y.length ∨ b0 + 1 = F.y.length) ∧ (b1 = F.x.length ∨ b1 + 1 = F.x.length) ∧
      Restriction F H 0 b0 0 b1 := by
  have s := hF.shaped
  have x2 := hF.x2
  have y2 := hF.y2
  have drop : ∀ (l : List ℚ) (i : Nat), 2 ≤ l.length → l.dropLast[i]? = if i < l.length - 1 - 0 then l[0 + i]? else none := by
    intro l i h2
    rw [List.dropLast_eq_take, Nat.sub_zero, Nat.zero_add]
    split
    · rw [List.getElem?_take_of_lt (by omega)]
    · rw [List.getElem?_eq_none]; rw [List.length_take]; omega
  have full : ∀ (l : List ℚ) (i : Nat), l[i]? = if i < l.length - 0 then l[0 + i]? else none := by
    intro l i
    rw [Nat.sub_zero, Nat.zero_add]
    split
    · rfl
    · rw [List.getElem?_eq_none]; omega
  have sb : ∀ L : Nat, 2 ≤ L → sliceBound L (-1) = L - 1 := by
    intro L hL; unfold sliceBound; rw [if_pos (by omega)]; omega
  have sb0 : ∀ L : Nat, sliceBound L 0 = 0 := fun L => sliceBound_nat L 0 (Nat.zero_le _)
  have sbL : ∀ L : Nat, sliceBound L (L : Int) = L := fun L => sliceBound_nat L L (Nat.le_refl _)
  unfold regularizeGrid at h
  by_cases hreg : F.regular = true
  · rw [if_pos hreg] at h
    cases h
    refine ⟨hreg, F.y.length, F.x.length, Or.inl rfl, Or.inl rfl, full _, full _, s, ?_, ?_, ?_, ?_, rfl⟩ <;>
      intro j i <;> simp
  · rw [if_neg hreg] at h
    by_cases hvz : vzIsArr F.vz = true
    · rw [if_pos hvz] at h; cases h
    · rw [if_neg hvz] at h
      by_cases hz : zIsSurf F.z = true
      · rw [if_pos hz] at h; cases h
      · rw [if_neg hz] at h
        cases hox : onlyLastIrregular F.x with
        | error e => rw [hox] at h; cases h
        | ok bx =>
          rw [hox] at h
          simp only at h
          -- the field after the cut along x
          obtain ⟨b1, hb1, R1, ny1, nz1, nvz1⟩ : ∃ b1, (b1 = F.x.length ∨ b1 + 1 = F.x.length) ∧
              Restriction F (if bx then cutX F else F) 0 F.y.length 0 b1 ∧ (if bx then cutX F else F).y = F.y ∧
              (if bx then cutX F else F).z = F.z ∧ (if bx then cutX F else F).vz = F.vz := by
            cases bx with
            | false =>
              refine ⟨F.x.length, Or.inl rfl, ⟨full _, full _, s, ?_, ?_, ?_, ?_, rfl⟩, rfl, rfl, rfl⟩ <;>
                intro j i <;> simp
            | true =>
              have hl : F.x.dropLast.length = F.x.length - 1 := by simp
              refine ⟨F.x.length - 1, Or.inr (by omega), ⟨fun i => drop F.x i x2, full _, ⟨?_, ?_, ?_, ?_⟩, ?_, ?_, ?_, ?_, rfl⟩,
                rfl, rfl, rfl⟩
              · refine ⟨?_, ?_⟩
                · simp only [if_true, cutX, Img.slice, s.vx.1, s.vx.2, sb0, sbL]; rfl
                · simp only [if_true, cutX, Img.slice, s.vx.1, s.vx.2, sb0, sb _ x2, hl]; rfl
              · refine ⟨?_, ?_⟩
                · simp only [if_true, cutX, Img.slice, s.vy.1, s.vy.2, sb0, sbL]; rfl
                · simp only [if_true, cutX, Img.slice, s.vy.1, s.vy.2, sb0, sb _ x2, hl]; rfl
              · simp only [if_true, cutX]
                cases hc : F.vz with
                | num v => trivial
                | arr im => rw [hc] at hvz; exact absurd rfl hvz
              · simp only [if_true, cutX]
                cases hc : F.z with
                | absent => trivial
                | num v => trivial
                | surf im => rw [hc] at hz; exact absurd rfl hz
              · intro j i; simp only [if_true, cutX, Img.slice, sb0]
              · intro j i; simp only [if_true, cutX, Img.slice, sb0]
              · intro j i
                simp only [if_true, cutX]
                cases hc : F.vz with
                | num v => rfl
                | arr im => rw [hc] at hvz; exact absurd rfl hvz
              · intro j i
                simp only [if_true, cutX]
                cases hc : F.z with
                | absent => rfl
                | num v => rfl
                | surf im => rw [hc] at hz; exact absurd rfl hz
          generalize (if bx then cutX F else F) = F1 at h R1 ny1 nz1 nvz1
          rw [ny1] at h
          have s1 := R1.shaped
          have y1v : F1.vx.ny = F.y.length := by rw [s1.vx.1, ny1]
          have y1w : F1.vy.ny = F.y.length := by rw [s1.vy.1, ny1]
          cases hoy : onlyLastIrregular F.y with
          | error e => rw [hoy] at h; cases h
          | ok bY =>
            rw [hoy] at h
            simp only at h
            obtain ⟨b0, hb0, R2⟩ : ∃ b0, (b0 = F.y.length ∨ b0 + 1 = F.y.length) ∧
                Restriction F (if bY then cutY F1 else F1) 0 b0 0 b1 := by
              cases bY with
              | false => exact ⟨F.y.length, Or.inl rfl, R1⟩
              | true =>
                have hl : F1.y.dropLast.length = F.y.length - 1 := by simp [ny1]
                refine ⟨F.y.length - 1, Or.inr (by omega), ⟨R1.x, ?_, ⟨?_, ?_, ?_, ?_⟩, ?_, ?_, ?_, ?_, R1.labels⟩⟩
                · intro j
                  simp only [if_true, cutY, ny1]
                  exact drop F.y j y2
                · refine ⟨?_, ?_⟩
                  · simp only [if_true, cutY, Img.slice, y1v, sb0, sb _ y2, hl]; rfl
                  · simp only [if_true, cutY, Img.slice, sb0, sbL]; exact s1.vx.2
                · refine ⟨?_, ?_⟩
                  · simp only [if_true, cutY, Img.slice, y1w, sb0, sb _ y2, hl]; rfl
                  · simp only [if_true, cutY, Img.slice, sb0, sbL]; exact s1.vy.2
                · simp only [if_true, cutY, nvz1]
                  cases hc : F.vz with
                  | num v => trivial
                  | arr im => rw [hc] at hvz; exact absurd rfl hvz
                · simp only [if_true, cutY, nz1]
                  cases hc : F.z with
                  | absent => trivial
                  | num v => trivial
                  | surf im => rw [hc] at hz; exact absurd rfl hz
                · intro j i
                  simp only [if_true, cutY, Img.slice, sb0]
                  rw [R1.vx]; simp
                · intro j i
                  simp only [if_true, cutY, Img.slice, sb0]
                  rw [R1.vy]; simp
                · intro j i
                  simp only [if_true, cutY]
                  exact R1.vz j i
                · intro j i
                  simp only [if_true, cutY]
                  exact R1.z j i
            generalize (if bY then cutY F1 else F1) = F2 at h R2
            cases hg : gridRegular F2.x F2.y F2.z F2.vx with
            | error e => rw [hg] at h; cases h
            | ok b =>
              rw [hg] at h
              cases b with
              | false => cases h
              | true =>
                cases h
                exact ⟨rfl, b0, b1, hb0, hb1, R2.x, R2.y, ⟨R2.shaped.vx, R2.shaped.vy, R2.shaped.vz, R2.shaped.z⟩,
                  R2.vx, R2.vy, R2.vz, R2.z, R2.labels⟩

/-- Non-vacuity of `C48_regularize`: the typical grid of a PIV, with an irregular last column. -/
example : (regularizeGrid ({ fieldExample with x := [1, 2, 3, 7/2], vx := ⟨2, 4, fun _ _ => 0⟩, vy := ⟨2, 4, fun _ _ => 0⟩ }
    : VField ℚ)).map (fun F => F.x) = .ok [1, 2, 3] := by decide +kernel

/-! ## C49: squares -/

/-- The side of the largest square: `cut` points are removed on each side of the shortest direction, one more if an even
side is asked. -/
def squareSide (n0 n1 cut : Nat) (forceEven : Bool) : Nat :=
  let n := min n0 n1 - 2 * cut
  if forceEven then n / 2 * 2 else n

theorem squareSide_int (n0 n1 cut : Nat) (forceEven : Bool) (h : 2 * cut ≤ min n0 n1) :
    (if forceEven = true ∧ (min (n0 : Int) n1 - 2 * (cut : Int)) % 2 = 1 then min (n0 : Int) n1 - 2 * (cut : Int) - 1
      else min (n0 : Int) n1 - 2 * (cut : Int)) = squareSide n0 n1 cut forceEven := by
  unfold squareSide
  cases forceEven with
  | false => simp; omega
  | true =>
    simp only [true_and, if_true]
    split <;> omega

/-- A square of side `n` of `F`, centred in both directions (up to one point). -/
def CentredSquare {α : Type} (F H : VField α) (n : Nat) : Prop :=
  ∃ a0 a1, Restriction F H a0 (a0 + n) a1 (a1 + n) ∧ H.x.length = n ∧ H.y.length = n ∧
    (F.y.length - n = 2 * a0 ∨ F.y.length - n = 2 * a0 + 1) ∧ (F.x.length - n = 2 * a1 ∨ F.x.length - n = 2 * a1 + 1)

theorem centredSquare_of {α : Type} (F : VField α) (hF : GoodField F) (n a0 a1 : Nat) (h0 : a0 + n ≤ F.y.length)
    (h1 : a1 + n ≤ F.x.length) (c0 : F.y.length - n = 2 * a0 ∨ F.y.length - n = 2 * a0 + 1)
    (c1 : F.x.length - n = 2 * a1 ∨ F.x.length - n = 2 * a1 + 1) :
    CentredSquare F (extract F a0 ((a0 + n : Nat) : Int) a1 ((a1 + n : Nat) : Int)) n := by
  refine ⟨a0, a1, extract_restriction F hF a0 (a0 + n) a1 (a1 + n) (by omega) h0 (by omega) h1, ?_, ?_, c0, c1⟩
  · have := lslice_length F.x a1 (a1 + n) (by omega) h1
    simpa [extract] using this
  · have := lslice_length F.y a0 (a0 + n) (by omega) h0
    simpa [extract] using this

/-- C49 for fields that are not taller than wide.  Missing: the tall fields (`C49_tall_fails`). -/
theorem C49_partial {α : Type} (F : VField α) (hF : GoodField F) (cut : Nat) (forceEven : Bool)
    (hw : F.y.length ≤ F.x.length) (hcut : 2 * cut ≤ F.y.length) :
    CentredSquare F (extractSquare F cut forceEven) (squareSide F.y.length F.x.length cut forceEven) := by
  have hside := squareSide_int F.y.length F.x.length cut forceEven (by omega)
  have hS : squareSide F.y.length F.x.length cut forceEven = F.y.length - 2 * cut ∨
      squareSide F.y.length F.x.length cut forceEven + 1 = F.y.length - 2 * cut := by
    unfold squareSide
    rw [Nat.min_eq_left hw]
    cases forceEven with
    | false => left; rfl
    | true => simp only [if_true]; omega
  unfold extractSquare squareBounds
  simp only [hside]
  generalize squareSide F.y.length F.x.length cut forceEven = n at hS
  by_cases hlt : (F.x.length : Int) > F.y.length
  · simp only [if_pos hlt]
    have e1 : ((F.x.length : Int) - n) / 2 = ((F.x.length - n) / 2 : Nat) := by omega
    rw [e1]
    have := centredSquare_of F hF n cut ((F.x.length - n) / 2) (by omega) (by omega) (by omega) (by omega)
    simpa using this
  · simp only [if_neg hlt]
    have e1 : ((F.y.length : Int) - n) / 2 = (cut : Nat) := by omega
    rw [e1]
    have := centredSquare_of F hF n cut cut (by omega) (by omega) (by omega) (by omega)
    simpa using this

example : fieldExample.y.length ≤ fieldExample.x.length := by decide

/-- C49 fails for every field with at least two more rows than columns: the result has fewer rows than columns. -/
theorem C49_tall_fails {α : Type} (F : VField α) (hF : GoodField F) (cut : Nat) (forceEven : Bool)
    (ht : F.x.length + 2 ≤ F.y.length) (hn : 1 ≤ squareSide F.y.length F.x.length cut forceEven)
    (hcut : 2 * cut ≤ F.x.length) :
    (extractSquare F cut forceEven).x.length = squareSide F.y.length F.x.length cut forceEven ∧
    (extractSquare F cut forceEven).y.length < squareSide F.y.length F.x.length cut forceEven := by
  have hside := squareSide_int F.y.length F.x.length cut forceEven (by omega)
  have hS : squareSide F.y.length F.x.length cut forceEven ≤ F.x.length - 2 * cut := by
    unfold squareSide
    rw [Nat.min_eq_right (by omega)]
    cases forceEven with
    | false => exact Nat.le_refl _
    | true => simp only [if_true]; omega
  unfold extractSquare squareBounds
  simp only [hside]
  generalize squareSide F.y.length F.x.length cut forceEven = n at hS hn
  simp only [if_neg (show ¬ ((F.x.length : Int) > F.y.length) by omega)]
  unfold extract lslice
  simp only [List.length_drop, List.length_take]
  have e1 : sliceBound F.x.length ((cut : Int) + n) = cut + n := by
    have := sliceBound_nat F.x.length (cut + n) (by omega); simpa using this
  have e2 : sliceBound F.y.length ((cut : Int) + n) = cut + n := by
    have := sliceBound_nat F.y.length (cut + n) (by omega); simpa using this
  have e3 : sliceBound F.y.length (((F.y.length : Int) - n) / 2) = (F.y.length - n) / 2 := by
    have e : ((F.y.length : Int) - n) / 2 = ((F.y.length - n) / 2 : Nat) := by omega
    rw [e]; exact sliceBound_nat _ _ (by omega)
  rw [e1, e2, e3, sliceBound_nat _ cut (by omega)]
  omega

/-- A concrete tall field: 10 rows and 4 columns, no row is left. -/
theorem C49_tall_witness : squareBounds 10 4 0 true = (3, 4, 0, 4) := by decide

/-! ## C50: time average -/

/-- Sum of the values of the fields at a point. -/
def sumAt (g : VField ℚ → ℚ) (Fs : List (VField ℚ)) : ℚ := (Fs.map g).sum

/-- All the fields are on the same grid. -/
def SameGrid {α : Type} (F : VField α) (Fs : List (VField α)) : Prop := ∀ G ∈ Fs, WellShaped G ∧ G.x = F.x ∧ G.y = F.y

theorem sumLoop_spec (addrs : List Nat) (Fs : List (VField ℚ)) (heap : List (VField ℚ)) (result : Nat) (R : VField ℚ)
    (hR : heap[result]? = some R) (hgood : GoodField R) (hsame : SameGrid R Fs)
    (haddr : addrs.map (fun a => heap[a]?) = Fs.map some) :
    ∃ new S k, sumLoop heap result addrs = .ok (heap ++ new, k) ∧ (heap ++ new)[k]? = some S ∧ GoodField S ∧
      S.x = R.x ∧ S.y = R.y ∧ S.z = R.z ∧
      (∀ j i, S.vx.get j i = R.vx.get j i + sumAt (fun F => F.vx.get j i) Fs) ∧
      (∀ j i, S.vy.get j i = R.vy.get j i + sumAt (fun F => F.vy.get j i) Fs) ∧
      (∀ j i, vzAt S.vz j i = vzAt R.vz j i + sumAt (fun F => vzAt F.vz j i) Fs) := by
  induction addrs generalizing Fs heap result R with
  | nil =>
    cases Fs with
    | cons _ _ => simp at haddr
    | nil => exact ⟨[], R, result, by simp [sumLoop], by simpa using hR, hgood, rfl, rfl, rfl, by simp [sumAt], by simp [sumAt],
        by simp [sumAt]⟩
  | cons a addrs ih =>
    cases Fs with
    | nil => simp at haddr
    | cons P Fs =>
      simp only [List.map_cons, List.cons.injEq] at haddr
      obtain ⟨ha, hrest⟩ := haddr
      obtain ⟨wsP, px, py⟩ := hsame P (by simp)
      obtain ⟨S, hS, hp⟩ := opField_ok (fun a b => a + b) R P hgood wsP px py
      have hrest' : addrs.map (fun a => (heap ++ [S])[a]?) = Fs.map some := by
        rw [← hrest]
        apply List.map_congr_left
        intro b hb
        have : ∃ G, heap[b]? = some G := by
          have : heap[b]? ∈ addrs.map (fun a => heap[a]?) := List.mem_map.2 ⟨b, hb, rfl⟩
          rw [hrest] at this
          obtain ⟨G, _, hG⟩ := List.mem_map.1 this
          exact ⟨G, hG.symm⟩
        obtain ⟨G, hG⟩ := this
        have hlt := (List.getElem?_eq_some_iff.1 hG).1
        rw [List.getElem?_append_left hlt]
      obtain ⟨new, T, k, h1, h2, h3, h4, h5, h6, h7, h8, h9⟩ := ih Fs (heap ++ [S]) heap.length S (by simp)
        hp.good (by intro G hG; obtain ⟨w, gx, gy⟩ := hsame G (by simp [hG]); exact ⟨w, by rw [gx, hp.x], by rw [gy, hp.y]⟩) hrest'
      refine ⟨S :: new, T, k, ?_, by simpa using h2, h3, by rw [h4, hp.x], by rw [h5, hp.y], by rw [h6, hp.z], ?_, ?_, ?_⟩
      · rw [List.append_assoc, List.singleton_append] at h1
        simp only [sumLoop, hR, ha]
        rw [show add R (.field P) = .ok S from hS]
        exact h1
      · intro j i; rw [h7, hp.vx]; simp only [sumAt, List.map_cons, List.sum_cons]; ring
      · intro j i; rw [h8, hp.vy]; simp only [sumAt, List.map_cons, List.sum_cons]; ring
      · intro j i; rw [h9, hp.vz]; simp only [sumAt, List.map_cons, List.sum_cons]; ring

/-- C50: the time average of a non-empty list of fields on the same grid is the pointwise mean, and the objects that
existed before the call are unchanged (the new objects are after them in the heap).  The operations are exact (the
rounding of floats is not modelled). -/
theorem C50_time_average (heap : List (VField ℚ)) (addrs : List Nat) (F : VField ℚ) (Fs : List (VField ℚ))
    (haddr : addrs.map (fun a => heap[a]?) = (F :: Fs).map some) (hF : GoodField F) (hsame : SameGrid F Fs) :
    ∃ new H k, timeAverage (fun n => (n : ℚ)) heap addrs = .ok (heap ++ new, k) ∧ (heap ++ new)[k]? = some H ∧
      (∀ a, a < heap.length → (heap ++ new)[a]? = heap[a]?) ∧ heap.length ≤ k ∧
      H.x = F.x ∧ H.y = F.y ∧
      (∀ j i, H.vx.get j i = sumAt (fun G => G.vx.get j i) (F :: Fs) / (F :: Fs).length) ∧
      (∀ j i, H.vy.get j i = sumAt (fun G => G.vy.get j i) (F :: Fs) / (F :: Fs).length) ∧
      (∀ j i, vzAt H.vz j i = sumAt (fun G => vzAt G.vz j i) (F :: Fs) / (F :: Fs).length) := by
  cases addrs with
  | nil => simp at haddr
  | cons a addrs =>
    simp only [List.map_cons, List.cons.injEq] at haddr
    obtain ⟨ha, hrest⟩ := haddr
    have hrest' : addrs.map (fun a => (heap ++ [F])[a]?) = Fs.map some := by
      rw [← hrest]
      apply List.map_congr_left
      intro b hb
      have : ∃ G, heap[b]? = some G := by
        have : heap[b]? ∈ addrs.map (fun a => heap[a]?) := List.mem_map.2 ⟨b, hb, rfl⟩
        rw [hrest] at this
        obtain ⟨G, _, hG⟩ := List.mem_map.1 this
        exact ⟨G, hG.symm⟩
      obtain ⟨G, hG⟩ := this
      rw [List.getElem?_append_left (List.getElem?_eq_some_iff.1 hG).1]
    obtain ⟨new, S, k, h1, h2, h3, h4, h5, h6, h7, h8, h9⟩ :=
      sumLoop_spec addrs Fs (heap ++ [F]) heap.length F (by simp) hF hsame hrest'
    have hlen : addrs.length = Fs.length := by
      have := congrArg List.length hrest; simpa using this
    obtain ⟨H, hH, hp⟩ := opNumber_ok (fun v => v / ((addrs.length + 1 : Nat) : ℚ)) S h3
    refine ⟨(F :: new) ++ [H], H, (heap ++ (F :: new)).length, ?_, ?_, ?_, ?_, ?_, ?_, ?_, ?_, ?_⟩
    · have e : heap ++ [F] ++ new = heap ++ (F :: new) := by simp
      rw [e] at h1 h2
      simp only [timeAverage, ha, h1, h2]
      rw [show div S (.number ((addrs.length + 1 : Nat) : ℚ)) = .ok H from hH]
      simp
    · rw [← List.append_assoc, List.getElem?_append_right (Nat.le_refl _)]; simp
    · intro b hb; rw [List.getElem?_append_left hb]
    · simp
    · rw [hp.x, h4]
    · rw [hp.y, h5]
    · intro j i; rw [hp.vx, h7, hlen]; simp only [sumAt, List.map_cons, List.sum_cons, List.length_cons]
    · intro j i; rw [hp.vy, h8, hlen]; simp only [sumAt, List.map_cons, List.sum_cons, List.length_cons]
    · intro j i; rw [hp.vz, h9, hlen]; simp only [sumAt, List.map_cons, List.sum_cons, List.length_cons]

/-- Non-vacuity of `C50_time_average`: the average of a field with itself. -/
example : [0, 0].map (fun a => [fieldExample][a]?) = [fieldExample, fieldExample].map some ∧
    SameGrid fieldExample [fieldExample] :=
  ⟨rfl, fun G hG => by rw [List.mem_singleton.1 hG]; exact ⟨fieldExample_good.shaped, rfl, rfl⟩⟩

/-- C50: the average of no field is an error. -/
theorem C50_empty_fails (heap : List (VField ℚ)) : timeAverage (fun n => (n : ℚ)) heap [] = .error .indexError := rfl

end Verif
