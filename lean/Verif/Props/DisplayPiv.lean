import Verif.Model.DisplayPiv
import Mathlib.Tactic.Linarith

/-!
# C122: the window which displays a PIV result shows the result and does not change it
-/

namespace Verif
open DisplayPiv

/-! ## Specification -/

namespace DisplayPiv

/-- The vector `i` of some arrays: position and displacement (`x` to the right and `y` to the bottom of the images). -/
def Field.At (f : Field) (i : Nat) (x y : ℚ) (u v : Val) : Prop :=
  f.xs[i]? = some x ∧ f.ys[i]? = some y ∧ f.us[i]? = some u ∧ f.vs[i]? = some v

/-- The four arrays have the same length. -/
def Field.Wf (f : Field) : Prop :=
  f.ys.length = f.xs.length ∧ f.us.length = f.xs.length ∧ f.vs.length = f.xs.length

/-- The opposite of a number; nan stays nan. -/
def opposite : Val → Val
  | none => none
  | some v => some (-v)

/-- The arrow shows the vector.  With images, the ordinates go down in the window, so that the arrow goes up when the displacement is
negative; without image, the ordinates go up. -/
def Shows (img : Bool) (a : Arrow) (x y : ℚ) (u v : Val) : Prop :=
  a.x = x ∧ a.y = y ∧ a.right = u ∧ a.up = if img then opposite v else v

/-- The removed vectors of a result (`WorkFIX`): they are vectors of the result, which are now nan, and the two components of the removed
displacement are known. -/
def Removed (r : Res) (wx wy : Dict Val) : Prop :=
  ∀ i ∈ wy.map Prod.fst, r.raw.us[i]? = some none ∧ ∃ u v, wx.lookup i = some u ∧ wy.lookup i = some v

/-- The arrays of a result are those of the vectors of one pass: they have the same length. -/
structure Complete (r : Res) : Prop where
  raw : r.raw.Wf
  correlsMax : ∀ l, r.correlsMax = some l → l.length = r.raw.xs.length
  final : ∀ f, r.final = some f → f.us.length = r.raw.xs.length ∧ f.vs.length = r.raw.xs.length
  input : ∀ c l m, r.correls = some c → c.input = some (l, m) → l.length = r.raw.xs.length ∧ m.length = r.raw.xs.length
  others : ∀ c l, r.correls = some c → c.others = some l → l.length = r.raw.xs.length

/-- The text is that of the vector `i`: its index, its position, its displacement, its correlation and its error. -/
structure Describes (r : Res) (s : Shown) (i : Nat) (x y : ℚ) (u v : Val) : Prop where
  index : s.index = i
  x : s.x = x
  y : s.y = y
  u : s.u = u
  v : s.v = v
  correl : ∀ l, r.correlsMax = some l → s.correl = l[i]?
  noCorrel : r.correlsMax = none → s.correl = none
  error : ∀ d, r.errors = some d → s.error = d.lookup i
  noError : r.errors = none → s.error = none

/-- The displacement of the windows of the vector `i`: nothing in the first pass. -/
def WindowsDisplacedBy (c : Correls) (i : Nat) (a b : ℚ) : Prop :=
  match c.input with
  | none => a = 0 ∧ b = 0
  | some (l, m) => l[i]? = some (some a) ∧ m[i]? = some (some b)

/-- The point (abscissa, ordinate) of the map of the correlation for the displacement `(dx, dy)` of one window with respect to the
other: no displacement is at the column `ix0` and at the line `iy0`. -/
def place (iy0 ix0 dx dy : ℚ) : ℚ × ℚ := (ix0 - dx, iy0 - dy)

def point (p : ℚ × ℚ) : Val × Val := (some p.1, some p.2)

end DisplayPiv

/-! ## Lemmas -/

theorem neg_opposite (v : Val) : neg v = opposite v := by cases v <;> rfl

theorem neg_neg_val (v : Val) : neg (neg v) = v := by
  cases v with
  | none => rfl
  | some q => simp [neg]

theorem flip_flip_field (f : Field) : f.flip.flip = f := by
  cases f
  simp [Field.flip, Function.comp_def, neg_neg_val]

theorem flip_flip (r : Res) (w : Which) : DisplayPiv.flip (DisplayPiv.flip r w) w = r := by
  cases r
  cases w
  · simp [DisplayPiv.flip, flip_flip_field]
  · rename_i s _ _ _ _ _ _; cases s <;> simp [DisplayPiv.flip, flip_flip_field]
  · rename_i s _ _ _ _ _; cases s <;> simp [DisplayPiv.flip, flip_flip_field]
  · rename_i s _ _ _ _; cases s <;> simp [DisplayPiv.flip, flip_flip_field]

theorem which_flip (r : Res) (w : Which) (interp : Interp) : which (DisplayPiv.flip r w) interp = which r interp := by
  cases r
  cases w <;> cases interp <;> simp [DisplayPiv.flip, which] <;> rfl

theorem field_flip (r : Res) (w : Which) (f : Field) (h : field r w = .ok f) : field (DisplayPiv.flip r w) w = .ok f.flip := by
  cases r
  cases w
  · simp only [field, Except.ok.injEq] at h; subst h; rfl
  · rename_i s _ _ _ _ _ _; cases s <;> simp_all [DisplayPiv.flip, field]
  · rename_i s _ _ _ _ _; cases s <;> simp_all [DisplayPiv.flip, field]
  · rename_i s _ _ _ _; cases s <;> simp_all [DisplayPiv.flip, field]

theorem arrows_get : ∀ (xs ys : List ℚ) (us vs : List Val) (i : Nat) (a : Arrow),
    (arrows xs ys us vs)[i]? = some a ↔
      ∃ v, xs[i]? = some a.x ∧ ys[i]? = some a.y ∧ us[i]? = some a.right ∧ vs[i]? = some v ∧ a.up = neg v
  | [], _, _, _, i, a => by simp [arrows]
  | _ :: _, [], _, _, i, a => by simp [arrows]
  | _ :: _, _ :: _, [], _, i, a => by simp [arrows]
  | _ :: _, _ :: _, _ :: _, [], i, a => by simp [arrows]
  | x :: xs, y :: ys, u :: us, v :: vs, 0, a => by
    simp only [arrows, List.getElem?_cons_zero, Option.some.injEq]
    constructor
    · rintro rfl; exact ⟨v, rfl, rfl, rfl, rfl, rfl⟩
    · rintro ⟨w, rfl, rfl, rfl, rfl, h⟩
      cases a; simp_all
  | x :: xs, y :: ys, u :: us, v :: vs, i + 1, a => by
    simp only [arrows, List.getElem?_cons_succ]
    exact arrows_get xs ys us vs i a

theorem arrows_length : ∀ (xs ys : List ℚ) (us vs : List Val), ys.length = xs.length → us.length = xs.length →
    vs.length = xs.length → (arrows xs ys us vs).length = xs.length
  | [], _, _, _, _, _, _ => by simp [arrows]
  | _ :: _, [], _, _, h, _, _ => by simp at h
  | _ :: _, _ :: _, [], _, _, h, _ => by simp at h
  | _ :: _, _ :: _, _ :: _, [], _, _, h => by simp at h
  | x :: xs, y :: ys, u :: us, v :: vs, h1, h2, h3 => by
    simp only [arrows, List.length_cons] at *
    rw [arrows_length xs ys us vs (by omega) (by omega) (by omega)]

theorem pick_ok {α : Type} (l : List α) : ∀ (is : List Nat) (as : List α), pick l is = .ok as →
    as.length = is.length ∧ ∀ (j i : Nat), is[j]? = some i → ∃ a, l[i]? = some a ∧ as[j]? = some a := by
  intro is
  induction is with
  | nil => intro as h; cases h; simp
  | cons i is ih =>
    intro as h
    unfold pick at h
    cases hi : l[i]? with
    | none => rw [hi] at h; cases h
    | some a =>
      rw [hi] at h
      simp only at h
      cases hp : pick l is with
      | error e => rw [hp] at h; cases h
      | ok bs =>
        rw [hp] at h
        obtain rfl := Except.ok.inj h
        obtain ⟨h1, h2⟩ := ih bs hp
        refine ⟨by simp [h1], ?_⟩
        intro j k hj
        cases j with
        | zero =>
          simp only [List.getElem?_cons_zero, Option.some.injEq] at hj ⊢
          subst hj
          exact ⟨a, hi, rfl⟩
        | succ j =>
          simp only [List.getElem?_cons_succ] at hj ⊢
          exact h2 j k hj

theorem values_ok {α : Type} (d : Dict α) : ∀ (is : List Nat) (as : List α), values d is = .ok as →
    as.length = is.length ∧ ∀ (j i : Nat), is[j]? = some i → ∃ a, d.lookup i = some a ∧ as[j]? = some a := by
  intro is
  induction is with
  | nil => intro as h; cases h; simp
  | cons i is ih =>
    intro as h
    unfold values at h
    cases hi : d.lookup i with
    | none => rw [hi] at h; cases h
    | some a =>
      rw [hi] at h
      simp only at h
      cases hp : values d is with
      | error e => rw [hp] at h; cases h
      | ok bs =>
        rw [hp] at h
        obtain rfl := Except.ok.inj h
        obtain ⟨h1, h2⟩ := ih bs hp
        refine ⟨by simp [h1], ?_⟩
        intro j k hj
        cases j with
        | zero =>
          simp only [List.getElem?_cons_zero, Option.some.injEq] at hj ⊢
          subst hj
          exact ⟨a, hi, rfl⟩
        | succ j =>
          simp only [List.getElem?_cons_succ] at hj ⊢
          exact h2 j k hj

theorem pick_total {α : Type} (l : List α) : ∀ (is : List Nat), (∀ i ∈ is, i < l.length) → ∃ as, pick l is = .ok as := by
  intro is
  induction is with
  | nil => intro _; exact ⟨[], rfl⟩
  | cons i is ih =>
    intro h
    obtain ⟨as, has⟩ := ih (fun j hj => h j (List.mem_cons_of_mem _ hj))
    have hlt := h i List.mem_cons_self
    have hi : l[i]? = some l[i] := List.getElem?_eq_getElem hlt
    exact ⟨l[i] :: as, by unfold pick; rw [hi]; simp only [has]⟩

theorem values_total {α : Type} (d : Dict α) : ∀ (is : List Nat), (∀ i ∈ is, ∃ a, d.lookup i = some a) →
    ∃ as, values d is = .ok as := by
  intro is
  induction is with
  | nil => intro _; exact ⟨[], rfl⟩
  | cons i is ih =>
    intro h
    obtain ⟨as, has⟩ := ih (fun j hj => h j (List.mem_cons_of_mem _ hj))
    obtain ⟨a, ha⟩ := h i List.mem_cons_self
    exact ⟨a :: as, by unfold values; rw [ha]; simp only [has]⟩

/-- What the constructor does. -/
theorem openWindow_ok (img : Bool) (interp : Interp) (se : Bool) (r r' : Res) (w : Window)
    (h : openWindow img interp se r = .ok (r', w)) :
    ∃ f, field r (which r interp) = .ok f ∧ r' = (if img then r else DisplayPiv.flip r (which r interp)) ∧
      w.q = arrows f.xs f.ys f.us (if img then f.vs else f.vs.map neg) ∧
      ((w.qWrong = none ∧ w.qNan = none) ∨ ∃ wx wy q n, se = true ∧ r.wrong = some (wx, wy) ∧
        wrongArrows img f wx wy = .ok (q, n) ∧ w.qWrong = some q ∧ w.qNan = some n) := by
  unfold openWindow at h
  cases hf : field r (which r interp) with
  | error e => rw [hf] at h; cases h
  | ok f =>
    rw [hf] at h
    simp only at h
    refine ⟨f, rfl, ?_⟩
    have hflip : ∀ wx wy, wrongArrows img (if img then f else f.flip) wx wy = wrongArrows img f wx wy := by
      intro wx wy; cases img <;> rfl
    have hq : arrows (if img then f else f.flip).xs (if img then f else f.flip).ys (if img then f else f.flip).us
        (if img then f else f.flip).vs = arrows f.xs f.ys f.us (if img then f.vs else f.vs.map neg) := by
      cases img <;> rfl
    rw [hq] at h
    cases se with
    | false =>
      simp only [Except.ok.injEq, Prod.mk.injEq] at h
      obtain ⟨rfl, rfl⟩ := h
      exact ⟨rfl, rfl, Or.inl ⟨rfl, rfl⟩⟩
    | true =>
      cases hw : r.wrong with
      | none =>
        rw [hw] at h
        simp only [Except.ok.injEq, Prod.mk.injEq] at h
        obtain ⟨rfl, rfl⟩ := h
        exact ⟨rfl, rfl, Or.inl ⟨rfl, rfl⟩⟩
      | some x =>
        obtain ⟨wx, wy⟩ := x
        rw [hw] at h
        simp only [hflip] at h
        cases ha : wrongArrows img f wx wy with
        | error e => rw [ha] at h; cases h
        | ok y =>
          obtain ⟨q, n⟩ := y
          rw [ha] at h
          simp only [Except.ok.injEq, Prod.mk.injEq] at h
          obtain ⟨rfl, rfl⟩ := h
          exact ⟨rfl, rfl, Or.inr ⟨wx, wy, q, n, rfl, rfl, ha, rfl, rfl⟩⟩

/-! ## The result is not changed -/

/-- With images, the result is not changed. -/
theorem C122_unchanged_partial (interp : Interp) (se : Bool) (r r' : Res) (w : Window)
    (h : openWindow true interp se r = .ok (r', w)) : r' = r := by
  obtain ⟨f, _, hr, _⟩ := openWindow_ok _ _ _ _ _ _ h
  simpa using hr

/-- Without images (`images are not where they were`), the displacements along `y` of the result are multiplied by -1, for every
result. -/
theorem C122_changed_fails (se : Bool) (r r' : Res) (w : Window) (h : openWindow false .no se r = .ok (r', w)) :
    (∀ i x y u v, r.raw.At i x y u v → r'.raw.At i x y u (opposite v)) ∧ r'.raw.vs.length = r.raw.vs.length ∧
    ((∃ (i : Nat) (v : ℚ), r.raw.vs[i]? = some (some v) ∧ v ≠ 0) → r' ≠ r) := by
  obtain ⟨f, _, hr, _⟩ := openWindow_ok _ _ _ _ _ _ h
  have hr' : r' = { r with raw := r.raw.flip } := by simpa [which, DisplayPiv.flip] using hr
  have hat : ∀ i x y u v, r.raw.At i x y u v → r'.raw.At i x y u (opposite v) := by
    rintro i x y u v ⟨h1, h2, h3, h4⟩
    subst hr'
    exact ⟨h1, h2, h3, by simp [Field.flip, h4, neg_opposite]⟩
  refine ⟨hat, by subst hr'; simp [Field.flip], ?_⟩
  rintro ⟨i, v, hv, hne⟩ heq
  have : r'.raw.vs[i]? = some (some (-v)) := by
    rw [hr']
    show (r.raw.vs.map neg)[i]? = _
    rw [List.getElem?_map, hv]
    rfl
  rw [heq, hv] at this
  simp only [Option.some.injEq] at this
  exact hne (by linarith)

/-- The second time, the result is again the first one but the arrows are the opposite of those of the first time (along `y`). -/
theorem C122_twice_fails (interp : Interp) (se : Bool) (r r1 r2 : Res) (w1 w2 : Window)
    (h1 : openWindow false interp se r = .ok (r1, w1)) (h2 : openWindow false interp se r1 = .ok (r2, w2)) :
    r2 = r ∧ ∀ (i : Nat) (a b : Arrow), w1.q[i]? = some a → w2.q[i]? = some b → b.x = a.x ∧ b.y = a.y ∧ b.right = a.right ∧
      b.up = opposite a.up := by
  obtain ⟨f, hf, hr1, hq1, _⟩ := openWindow_ok _ _ _ _ _ _ h1
  obtain ⟨f', hf', hr2, hq2, _⟩ := openWindow_ok _ _ _ _ _ _ h2
  simp only [Bool.false_eq_true, if_false] at hr1 hr2 hq1 hq2
  have hw : which r1 interp = which r interp := by rw [hr1, which_flip]
  have hff : f' = f.flip := by
    rw [hw, hr1, field_flip r _ f hf] at hf'
    exact (Except.ok.inj hf').symm
  refine ⟨by rw [hr2, hw, hr1, flip_flip], ?_⟩
  intro i a b ha hb
  rw [hq1, arrows_get] at ha
  rw [hq2, hff, arrows_get] at hb
  obtain ⟨v, e1, e2, e3, e4, e5⟩ := ha
  obtain ⟨v', e1', e2', e3', e4', e5'⟩ := hb
  simp only [Field.flip] at e1' e2' e3' e4'
  rw [e1] at e1'; rw [e2] at e2'; rw [e3] at e3'
  refine ⟨(Option.some.inj e1').symm, (Option.some.inj e2').symm, (Option.some.inj e3').symm, ?_⟩
  rw [List.getElem?_map, e4] at e4'
  rw [e5, e5', ← Option.some.inj e4', neg_opposite]

/-! ## The arrows -/

/-- There is one arrow for each vector and it shows it (`f`: the arrays chosen by `show_interp`), with and without images. -/
theorem C122_arrows (img : Bool) (interp : Interp) (se : Bool) (r r' : Res) (w : Window) (f : Field)
    (hf : field r (which r interp) = .ok f) (hwf : f.Wf) (h : openWindow img interp se r = .ok (r', w)) :
    w.q.length = f.xs.length ∧
    ∀ i x y u v, f.At i x y u v → ∃ a, w.q[i]? = some a ∧ Shows img a x y u v := by
  obtain ⟨f', hf', _, hq, _⟩ := openWindow_ok _ _ _ _ _ _ h
  rw [hf] at hf'; obtain rfl := Except.ok.inj hf'
  obtain ⟨h1, h2, h3⟩ := hwf
  constructor
  · rw [hq, arrows_length _ _ _ _ h1 h2 (by cases img <;> simp [h3])]
  · rintro i x y u v ⟨a1, a2, a3, a4⟩
    refine ⟨⟨x, y, u, if img then opposite v else v⟩, ?_, rfl, rfl, rfl, rfl⟩
    rw [hq, arrows_get]
    cases img with
    | true => exact ⟨v, a1, a2, a3, by simpa using a4, by simp [neg_opposite]⟩
    | false => exact ⟨neg v, a1, a2, a3, by simp [a4], by simp [neg_neg_val]⟩

/-- With `show_interp=False`, the window opens when the removed vectors are vectors of the result, and there is one arrow for each removed
vector: at the position of the vector, with the displacement which has been removed. -/
theorem C122_removed (img : Bool) (r : Res) (hwf : r.raw.Wf) (wx wy : Dict Val) (hw : r.wrong = some (wx, wy)) (hrem : Removed r wx wy) :
    ∃ r' w q, openWindow img .no true r = .ok (r', w) ∧ w.qWrong = some (q, wy.map Prod.fst) ∧ q.length = wy.length ∧
      ∀ (j i : Nat), (wy.map Prod.fst)[j]? = some i → ∃ a x y u v, q[j]? = some a ∧ r.raw.xs[i]? = some x ∧ r.raw.ys[i]? = some y ∧
        wx.lookup i = some u ∧ wy.lookup i = some v ∧ Shows img a x y u v := by
  obtain ⟨hl1, hl2, hl3⟩ := hwf
  have hlt : ∀ i ∈ wy.map Prod.fst, i < r.raw.xs.length := by
    intro i hi
    have := (List.getElem?_eq_some_iff.1 (hrem i hi).1).1
    omega
  obtain ⟨xs, hxs⟩ := pick_total r.raw.xs _ hlt
  obtain ⟨ys, hys⟩ := pick_total r.raw.ys (wy.map Prod.fst) (fun i hi => by have := hlt i hi; omega)
  obtain ⟨us, hus⟩ := values_total wx (wy.map Prod.fst) (fun i hi => by obtain ⟨u, v, h, _⟩ := (hrem i hi).2; exact ⟨u, h⟩)
  obtain ⟨vs, hvs⟩ := values_total wy (wy.map Prod.fst) (fun i hi => by obtain ⟨u, v, _, h⟩ := (hrem i hi).2; exact ⟨v, h⟩)
  obtain ⟨ln, hln⟩ : ∃ l, l = ((((wy.map Prod.fst).zip us).filter fun p => p.2.isNone).map Prod.fst) := ⟨_, rfl⟩
  have hsub : ∀ i ∈ ln, i ∈ wy.map Prod.fst := by
    intro i hi
    rw [hln, List.mem_map] at hi
    obtain ⟨p, hp, rfl⟩ := hi
    exact (List.of_mem_zip (List.mem_filter.1 hp).1).1
  obtain ⟨xsn, hxsn⟩ := pick_total r.raw.xs ln (fun i hi => hlt i (hsub i hi))
  obtain ⟨ysn, hysn⟩ := pick_total r.raw.ys ln (fun i hi => by have := hlt i (hsub i hi); omega)
  have hwa : wrongArrows img (if img then r.raw else r.raw.flip) wx wy =
      .ok ((arrows xs ys us (if img then vs else vs.map neg), wy.map Prod.fst),
        (arrows xsn ysn (xsn.map fun _ => some 0) (xsn.map fun _ => some 0), ln)) := by
    have hx : (if img then r.raw else r.raw.flip).xs = r.raw.xs := by cases img <;> rfl
    have hy : (if img then r.raw else r.raw.flip).ys = r.raw.ys := by cases img <;> rfl
    unfold wrongArrows
    simp only [hx, hy, hxs, hys, hus, hvs, ← hln, hxsn, hysn]
  refine ⟨(if img then r else DisplayPiv.flip r .raw),
    ⟨arrows r.raw.xs r.raw.ys r.raw.us (if img then r.raw else r.raw.flip).vs,
      some (arrows xs ys us (if img then vs else vs.map neg), wy.map Prod.fst),
      some (arrows xsn ysn (xsn.map fun _ => some 0) (xsn.map fun _ => some 0), ln)⟩,
    arrows xs ys us (if img then vs else vs.map neg), ?_, rfl, ?_, ?_⟩
  · unfold openWindow
    have : field r (which r .no) = .ok r.raw := rfl
    rw [this, hw]
    simp only [hwa]
    cases img <;> rfl
  · have h1 := (pick_ok _ _ _ hxs).1
    have h2 := (pick_ok _ _ _ hys).1
    have h3 := (values_ok _ _ _ hus).1
    have h4 := (values_ok _ _ _ hvs).1
    rw [arrows_length _ _ _ _ (by omega) (by omega) (by cases img <;> simp <;> omega), h1]
    simp
  · intro j i hj
    obtain ⟨x, hx, hx'⟩ := (pick_ok _ _ _ hxs).2 j i hj
    obtain ⟨y, hy, hy'⟩ := (pick_ok _ _ _ hys).2 j i hj
    obtain ⟨u, hu, hu'⟩ := (values_ok _ _ _ hus).2 j i hj
    obtain ⟨v, hv, hv'⟩ := (values_ok _ _ _ hvs).2 j i hj
    refine ⟨⟨x, y, u, if img then opposite v else v⟩, x, y, u, v, ?_, hx, hy, hu, hv, rfl, rfl, rfl, rfl⟩
    rw [arrows_get]
    cases img with
    | true => exact ⟨v, hx', hy', hu', by simpa using hv', by simp [neg_opposite]⟩
    | false => exact ⟨neg v, hx', hy', hu', by simp [hv'], by simp [neg_neg_val]⟩

/-- The same for the removed vectors which were nan: they are the removed vectors whose displacement is not a number, and there is a dot
at the position of each one. -/
theorem C122_nan (img : Bool) (r r' : Res) (w : Window) (wx wy : Dict Val) (hw : r.wrong = some (wx, wy))
    (h : openWindow img .no true r = .ok (r', w)) :
    ∃ q inds, w.qNan = some (q, inds) ∧ (∀ i, i ∈ inds ↔ i ∈ wy.map Prod.fst ∧ wx.lookup i = some none) ∧ q.length = inds.length ∧
      ∀ (j i : Nat), inds[j]? = some i → ∃ a x y, q[j]? = some a ∧ r.raw.xs[i]? = some x ∧ r.raw.ys[i]? = some y ∧
        Shows img a x y (some 0) (some 0) := by
  obtain ⟨f, hf, _, _, hor⟩ := openWindow_ok _ _ _ _ _ _ h
  have hf' : f = r.raw := by
    have : (Except.ok r.raw : Except PyErr Field) = .ok f := hf
    exact (Except.ok.inj this).symm
  subst hf'
  rcases hor with ⟨h1, h2⟩ | ⟨wx', wy', q, n, _, hw', hwa, _, hn⟩
  · exfalso
    unfold openWindow at h
    rw [hf, hw] at h
    simp only at h
    split at h
    · cases h
    · simp only [Except.ok.injEq, Prod.mk.injEq] at h
      rw [← h.2] at h2
      cases h2
  rw [hw] at hw'
  cases hw'
  unfold wrongArrows at hwa
  simp only at hwa
  split at hwa
  · cases hwa
  split at hwa
  · cases hwa
  split at hwa
  · cases hwa
  rename_i us hus
  split at hwa
  · cases hwa
  split at hwa
  · cases hwa
  rename_i xsn hxs
  split at hwa
  · cases hwa
  rename_i ysn hys
  simp only [Except.ok.injEq, Prod.mk.injEq] at hwa
  obtain ⟨_, rfl⟩ := hwa
  refine ⟨_, _, hn, ?_, ?_, ?_⟩
  · obtain ⟨hl, hall⟩ := values_ok _ _ _ hus
    intro i
    simp only [List.mem_map, List.mem_filter]
    constructor
    · rintro ⟨⟨k, u⟩, ⟨hm, hu⟩, rfl⟩
      obtain ⟨j, hj⟩ := List.getElem?_of_mem hm
      rw [List.getElem?_zip_eq_some] at hj
      obtain ⟨a, ha, ha'⟩ := hall j _ hj.1
      rw [hj.2] at ha'
      obtain rfl := Option.some.inj ha'
      have : u = none := by simpa using hu
      exact ⟨by simpa using List.mem_of_getElem? hj.1, by rw [ha, this]⟩
    · rintro ⟨hm, hn⟩
      have hm' : i ∈ wy.map Prod.fst := by simpa using hm
      obtain ⟨j, hj⟩ := List.getElem?_of_mem hm'
      obtain ⟨a, ha, ha'⟩ := hall j _ hj
      rw [hn] at ha
      obtain rfl := Option.some.inj ha
      refine ⟨(i, none), ⟨?_, rfl⟩, rfl⟩
      exact List.mem_of_getElem? (i := j) (List.getElem?_zip_eq_some.2 ⟨hj, ha'⟩)
  · have h1 := (pick_ok _ _ _ hxs).1
    have h2 := (pick_ok _ _ _ hys).1
    rw [arrows_length _ _ _ _ (by omega) (by simp) (by simp), h1]
  · intro j i hj
    obtain ⟨x, hx, hx'⟩ := (pick_ok _ _ _ hxs).2 j i hj
    obtain ⟨y, hy, hy'⟩ := (pick_ok _ _ _ hys).2 j i hj
    have e : opposite (some 0) = some 0 := by simp [opposite]
    refine ⟨⟨x, y, some 0, some 0⟩, x, y, ?_, hx, hy, rfl, rfl, rfl, by cases img <;> simp [e]⟩
    rw [arrows_get]
    exact ⟨some 0, hx', hy', by simp [hx'], by simp [hx'], by simp [neg]⟩

/-! ## Picking an arrow -/

theorem lt_get {α : Type} (l : List α) (i : Nat) (h : i < l.length) : ∃ a, l[i]? = some a :=
  ⟨l[i], List.getElem?_eq_getElem h⟩

theorem minusInput_total (r : Res) (hc : Complete r) (c : Correls) (h : r.correls = some c) (i : Nat) (hi : i < r.raw.xs.length)
    (d : Val × Val) : ∃ e, minusInput c i d = .ok e := by
  unfold minusInput
  cases hin : c.input with
  | none => exact ⟨_, rfl⟩
  | some p =>
    obtain ⟨l, m⟩ := p
    obtain ⟨h1, h2⟩ := hc.input c l m h hin
    obtain ⟨a, ha⟩ := lt_get l i (by omega)
    obtain ⟨b, hb⟩ := lt_get m i (by omega)
    simp only [ha, hb]
    exact ⟨_, rfl⟩

theorem marks_total (r : Res) (hc : Complete r) (c : Correls) (h : r.correls = some c) (i : Nat) (hi : i < r.raw.xs.length)
    (u v : Val) : ∃ m, marks r c i u v = .ok m := by
  obtain ⟨d, hd⟩ := minusInput_total r hc c h i hi (u, v)
  have hf : ∃ f, finalMark r c i = .ok f := by
    unfold finalMark
    cases hfin : r.final with
    | none => exact ⟨_, rfl⟩
    | some f =>
      obtain ⟨h1, h2⟩ := hc.final f hfin
      obtain ⟨a, ha⟩ := lt_get f.us i (by omega)
      obtain ⟨b, hb⟩ := lt_get f.vs i (by omega)
      obtain ⟨e, he⟩ := minusInput_total r hc c h i hi (a, b)
      simp only [ha, hb, he]
      exact ⟨_, rfl⟩
  have hb : ∃ b, replacedMark c i = .ok b := by
    unfold replacedMark
    cases c.replaced with
    | none => exact ⟨_, rfl⟩
    | some d =>
      simp only
      cases d.lookup i with
      | none => exact ⟨_, rfl⟩
      | some b =>
        obtain ⟨e, he⟩ := minusInput_total r hc c h i hi b
        simp only [he]
        exact ⟨_, rfl⟩
  have ho : ∃ o, otherMarks c i = .ok o := by
    unfold otherMarks
    cases hot : c.others with
    | none => exact ⟨_, rfl⟩
    | some l =>
      obtain ⟨a, ha⟩ := lt_get l i (by rw [hc.others c l h hot]; exact hi)
      simp only [ha]
      cases a <;> exact ⟨_, rfl⟩
  obtain ⟨f, hf⟩ := hf
  obtain ⟨b, hb⟩ := hb
  obtain ⟨o, ho⟩ := ho
  exact ⟨_, by unfold marks; simp only [hd, hf, hb, ho]; rfl⟩

theorem describe_ok (sc : Bool) (r : Res) (hc : Complete r) (a : Arrow) (i : Nat) (hi : i < r.raw.xs.length) (u v : Val)
    (hd : displacement r i = .ok (u, v)) :
    ∃ s, describe sc r a i = .ok s ∧ Describes r s i a.x a.y u v ∧
      (∀ c, sc = true → r.correls = some c → ∃ m, s.marks = some m ∧ marks r c i u v = .ok m) := by
  have hcor : ∃ c, correlOf r i = .ok c ∧ (∀ l, r.correlsMax = some l → c = l[i]?) ∧ (r.correlsMax = none → c = none) := by
    unfold correlOf
    cases hm : r.correlsMax with
    | none => exact ⟨none, rfl, by simp, by simp⟩
    | some l =>
      obtain ⟨b, hb⟩ := lt_get l i (by rw [hc.correlsMax l hm]; exact hi)
      exact ⟨some b, by simp only [hb], by rintro l' ⟨⟩; exact hb.symm, by simp⟩
  obtain ⟨c, hc1, hc2, hc3⟩ := hcor
  have herr : (∀ d, r.errors = some d → errorOf r i = d.lookup i) ∧ (r.errors = none → errorOf r i = none) := by
    unfold errorOf
    constructor
    · intro d hd; rw [hd]
    · intro hd; rw [hd]
  unfold describe
  simp only [hd, hc1]
  cases sc with
  | false => exact ⟨_, rfl, ⟨rfl, rfl, rfl, rfl, rfl, hc2, hc3, herr.1, herr.2⟩, by simp⟩
  | true =>
    cases hm : r.correls with
    | none => exact ⟨_, rfl, ⟨rfl, rfl, rfl, rfl, rfl, hc2, hc3, herr.1, herr.2⟩, by simp⟩
    | some m =>
      obtain ⟨k, hk⟩ := marks_total r hc m hm i hi u v
      simp only [hk]
      exact ⟨_, rfl, ⟨rfl, rfl, rfl, rfl, rfl, hc2, hc3, herr.1, herr.2⟩, by rintro c - ⟨⟩; exact ⟨k, rfl, hk⟩⟩

/-- With images and `show_interp=False`: when the arrow of a vector which is not selected is picked, the text is that of this vector. -/
theorem C122_pick_partial (se sc : Bool) (r r' : Res) (w : Window) (hc : Complete r) (h : openWindow true .no se r = .ok (r', w))
    (i sel : Nat) (x y u : ℚ) (v : Val) (hat : r.raw.At i x y (some u) v) (hsel : sel ≠ i) :
    ∃ s, onPick sc r' w sel i .q = (i, .ok (some s)) ∧ Describes r s i x y (some u) v := by
  obtain ⟨_, harr⟩ := C122_arrows true .no se r r' w r.raw rfl hc.raw h
  obtain ⟨a, ha, hx, hy, _⟩ := harr i x y (some u) v hat
  obtain rfl := C122_unchanged_partial .no se r r' w h
  obtain ⟨h1, h2, h3, h4⟩ := hat
  have hlt : i < r'.raw.xs.length := (List.getElem?_eq_some_iff.1 h1).1
  have hd : displacement r' i = .ok (some u, v) := by unfold displacement; simp only [h3, h4]; rfl
  obtain ⟨s, hs, hdes, _⟩ := describe_ok sc r' hc a i hlt _ _ hd
  rw [hx, hy] at hdes
  refine ⟨s, ?_, hdes⟩
  simp only [onPick, selectArrow, target, ha, hsel, if_false, hs]

/-- With images and interpolated arrays which have one vector for each vector of the result (`show_interp="smooth"`, or
`show_interp=True` for the last pass): the text is that of the vector, at the position of the arrow. -/
theorem C122_pick_interp_partial (interp : Interp) (se sc : Bool) (r r' : Res) (w : Window) (f : Field) (hc : Complete r)
    (hf : field r (which r interp) = .ok f) (hwf : f.Wf)
    (h : openWindow true interp se r = .ok (r', w)) (i sel : Nat) (x y x0 y0 u : ℚ) (v fu fv : Val) (hfat : f.At i x y fu fv)
    (hat : r.raw.At i x0 y0 (some u) v) (hsel : sel ≠ i) :
    ∃ s, onPick sc r' w sel i .q = (i, .ok (some s)) ∧ Describes r s i x y (some u) v := by
  obtain ⟨_, harr⟩ := C122_arrows true interp se r r' w f hf hwf h
  obtain ⟨a, ha, hx, hy, _⟩ := harr i x y fu fv hfat
  obtain rfl := C122_unchanged_partial interp se r r' w h
  obtain ⟨h1, h2, h3, h4⟩ := hat
  have hlt : i < r'.raw.xs.length := (List.getElem?_eq_some_iff.1 h1).1
  have hd : displacement r' i = .ok (some u, v) := by unfold displacement; simp only [h3, h4]; rfl
  obtain ⟨s, hs, hdes, _⟩ := describe_ok sc r' hc a i hlt _ _ hd
  rw [hx, hy] at hdes
  refine ⟨s, ?_, hdes⟩
  simp only [onPick, selectArrow, target, ha, hsel, if_false, hs]

/-- With images and `show_interp=False`: when the arrow of a removed vector is picked, the text is that of this vector, with the
displacement which has been removed, which is the one of the arrow. -/
theorem C122_pick_removed_partial (sc : Bool) (r : Res) (hc : Complete r) (wx wy : Dict Val) (hw : r.wrong = some (wx, wy))
    (hrem : Removed r wx wy) (j i sel : Nat) (hj : (wy.map Prod.fst)[j]? = some i) (hsel : sel ≠ i) :
    ∃ w s q inds a x y u v, openWindow true .no true r = .ok (r, w) ∧ w.qWrong = some (q, inds) ∧ q[j]? = some a ∧
      r.raw.xs[i]? = some x ∧ r.raw.ys[i]? = some y ∧ wx.lookup i = some u ∧ wy.lookup i = some v ∧ Shows true a x y u v ∧
      onPick sc r w sel j .wrong = (i, .ok (some s)) ∧ Describes r s i x y u v := by
  obtain ⟨r', w, q, ho, hq, _, hall⟩ := C122_removed true r hc.raw wx wy hw hrem
  obtain rfl := C122_unchanged_partial .no true r r' w ho
  obtain ⟨a, x, y, u, v, ha, hx, hy, hu, hv, hsh⟩ := hall j i hj
  have hlt : i < r'.raw.xs.length := (List.getElem?_eq_some_iff.1 hx).1
  have hn := (hrem i (List.mem_of_getElem? hj)).1
  obtain ⟨v0, hv0⟩ := lt_get r'.raw.vs i (by rw [hc.raw.2.2]; exact hlt)
  have hd : displacement r' i = .ok (u, v) := by
    unfold displacement
    simp only [hn, hv0, hw, hu, hv]
    rfl
  obtain ⟨s, hs, hdes, _⟩ := describe_ok sc r' hc a i hlt _ _ hd
  rw [hsh.1, hsh.2.1] at hdes
  refine ⟨w, s, q, _, a, x, y, u, v, ho, hq, ha, hx, hy, hu, hv, hsh, ?_, hdes⟩
  simp only [onPick, selectArrow, target, hq, hj, ha, hsel, if_false, hs]

/-- The same for the dot of a removed vector which was nan. -/
theorem C122_pick_nan_partial (sc : Bool) (r r' : Res) (w : Window) (hc : Complete r) (wx wy : Dict Val)
    (hw : r.wrong = some (wx, wy)) (hrem : Removed r wx wy) (h : openWindow true .no true r = .ok (r', w)) (q : List Arrow)
    (inds : List Nat) (hq : w.qNan = some (q, inds)) (j i sel : Nat) (hj : inds[j]? = some i) (hsel : sel ≠ i) :
    ∃ s x y v, r.raw.xs[i]? = some x ∧ r.raw.ys[i]? = some y ∧ wx.lookup i = some none ∧ wy.lookup i = some v ∧
      onPick sc r' w sel j .nan = (i, .ok (some s)) ∧ Describes r s i x y none v := by
  obtain ⟨q', inds', hq', hmem, _, hall⟩ := C122_nan true r r' w wx wy hw h
  rw [hq] at hq'
  cases hq'
  obtain rfl := C122_unchanged_partial .no true r r' w h
  obtain ⟨a, x, y, ha, hx, hy, hsh⟩ := hall j i hj
  have hlt : i < r'.raw.xs.length := (List.getElem?_eq_some_iff.1 hx).1
  obtain ⟨hk, hu⟩ := (hmem i).1 (List.mem_of_getElem? hj)
  obtain ⟨hn, _, v, _, hv⟩ := hrem i hk
  obtain ⟨v0, hv0⟩ := lt_get r'.raw.vs i (by rw [hc.raw.2.2]; exact hlt)
  have hd : displacement r' i = .ok (none, v) := by
    unfold displacement
    simp only [hn, hv0, hw, hu, hv]
    rfl
  obtain ⟨s, hs, hdes, _⟩ := describe_ok sc r' hc a i hlt _ _ hd
  rw [hsh.1, hsh.2.1] at hdes
  refine ⟨s, x, y, v, hx, hy, hu, hv, ?_, hdes⟩
  simp only [onPick, selectArrow, target, hq, hj, ha, hsel, if_false, hs]

/-- Without images, the text has the opposite of the displacement along `y`, for every vector. -/
theorem C122_text_fails (se sc : Bool) (r r' : Res) (w : Window) (hc : Complete r) (h : openWindow false .no se r = .ok (r', w))
    (i sel : Nat) (x y u : ℚ) (v : Val) (hat : r.raw.At i x y (some u) v) (hsel : sel ≠ i) :
    ∃ s, onPick sc r' w sel i .q = (i, .ok (some s)) ∧ Describes r s i x y (some u) (opposite v) := by
  obtain ⟨_, harr⟩ := C122_arrows false .no se r r' w r.raw rfl hc.raw h
  obtain ⟨a, ha, hx, hy, _⟩ := harr i x y (some u) v hat
  obtain ⟨f, _, hr, _⟩ := openWindow_ok _ _ _ _ _ _ h
  have hr' : r' = { r with raw := r.raw.flip } := by simpa [which, DisplayPiv.flip] using hr
  obtain ⟨h1, h2, h3, h4⟩ := hat
  have hlt : i < r.raw.xs.length := (List.getElem?_eq_some_iff.1 h1).1
  have hc' : Complete r' := by
    subst hr'
    exact ⟨⟨hc.raw.1, hc.raw.2.1, by simpa [Field.flip] using hc.raw.2.2⟩, hc.correlsMax, hc.final, hc.input, hc.others⟩
  have hd : displacement r' i = .ok (some u, opposite v) := by
    subst hr'
    have : r.raw.flip.vs[i]? = some (opposite v) := by simp [Field.flip, h4, neg_opposite]
    have h3' : r.raw.flip.us[i]? = some (some u) := h3
    unfold displacement
    simp only [h3', this]
    rfl
  obtain ⟨s, hs, hdes, _⟩ := describe_ok sc r' hc' a i (by subst hr'; exact hlt) _ _ hd
  rw [hx, hy] at hdes
  refine ⟨s, ?_, ?_⟩
  · simp only [onPick, selectArrow, target, ha, hsel, if_false, hs]
  · subst hr'
    exact ⟨hdes.index, hdes.x, hdes.y, hdes.u, hdes.v, hdes.correl, hdes.noCorrel, hdes.error, hdes.noError⟩

/-- Nothing is shown when the vector 0 is picked first: it is the vector which is "selected" in a new window. -/
theorem C122_first_fails (sc : Bool) (r : Res) (w : Window) (a : Arrow) (h : w.q[0]? = some a) : onPick sc r w 0 0 .q = (0, .ok none) := by
  simp [onPick, selectArrow, target, h]

/-- When there is no removed vector in the window, picking something else raises an exception. -/
theorem C122_other_fails (img sc : Bool) (interp : Interp) (r r' : Res) (w : Window) (sel ind : Nat)
    (h : openWindow img interp false r = .ok (r', w)) : onPick sc r' w sel ind .other = (sel, .error .attributeError) := by
  obtain ⟨f, _, _, _, hw⟩ := openWindow_ok _ _ _ _ _ _ h
  rcases hw with ⟨hw, _⟩ | ⟨_, _, _, _, hse, _⟩
  · simp [onPick, hw]
  · cases hse

/-! ## The marks on the map of the correlation -/

/-- The marks of the chosen peak, of the final displacement, of the peak which has been replaced and of the other peaks are at the places
of their displacements in the map, which are with respect to the displaced windows. -/
theorem C122_marks (r : Res) (c : Correls) (i : Nat) (u v : Val) (m : Marks) (a b iy0 ix0 : ℚ) (h : marks r c i u v = .ok m)
    (hin : WindowsDisplacedBy c i a b) (h0 : c.noDispl = (iy0, ix0)) :
    (∀ dx dy, u = some (dx + a) → v = some (dy + b) → m.cross = point (place iy0 ix0 dx dy)) ∧
    (∀ f dx dy, r.final = some f → f.us[i]? = some (some (dx + a)) → f.vs[i]? = some (some (dy + b)) →
      m.final = some (point (place iy0 ix0 dx dy))) ∧
    (∀ d dx dy, c.replaced = some d → d.lookup i = some (some (dx + a), some (dy + b)) →
      m.replaced = some (point (place iy0 ix0 dx dy))) ∧
    (∀ l ps, c.others = some l → l[i]? = some (some ps) → m.others = ps.map fun p => point (place iy0 ix0 p.1 p.2)) := by
  have hmin : ∀ dx dy : ℚ, minusInput c i (some (dx + a), some (dy + b)) = .ok (some dx, some dy) := by
    intro dx dy
    unfold WindowsDisplacedBy at hin
    unfold minusInput
    cases hc : c.input with
    | none => rw [hc] at hin; obtain ⟨rfl, rfl⟩ := hin; simp
    | some p =>
      obtain ⟨l, k⟩ := p
      rw [hc] at hin
      obtain ⟨h1, h2⟩ := hin
      simp [h1, h2, sub]
  have hmap : ∀ dx dy : ℚ, mapIndices (some dx) (some dy) c.noDispl = point (place iy0 ix0 dx dy) := by
    intro dx dy; rw [h0]; rfl
  unfold marks at h
  cases hd : minusInput c i (u, v) with
  | error e => rw [hd] at h; cases h
  | ok d =>
  rw [hd] at h
  simp only at h
  cases hf : finalMark r c i with
  | error e => rw [hf] at h; cases h
  | ok f =>
  rw [hf] at h
  simp only at h
  cases hb : replacedMark c i with
  | error e => rw [hb] at h; cases h
  | ok bad =>
  rw [hb] at h
  simp only at h
  cases ho : otherMarks c i with
  | error e => rw [ho] at h; cases h
  | ok o =>
  rw [ho] at h
  obtain rfl := Except.ok.inj h
  refine ⟨?_, ?_, ?_, ?_⟩
  · rintro dx dy rfl rfl
    rw [hmin] at hd
    obtain rfl := Except.ok.inj hd
    exact hmap dx dy
  · intro g dx dy h1 h2 h3
    unfold finalMark at hf
    simp only [h1, h2, h3, hmin, hmap] at hf
    exact (Except.ok.inj hf).symm
  · intro g dx dy h1 h2
    unfold replacedMark at hb
    simp only [h1, h2, hmin, hmap] at hb
    exact (Except.ok.inj hb).symm
  · intro l ps h1 h2
    unfold otherMarks at ho
    simp only [h1, h2, hmap] at ho
    exact (Except.ok.inj ho).symm

/-- The mark of "no displacement" is at its place only if the map of the correlation has the same index for the line and for the column of
"no displacement". -/
theorem C122_origin_fails (r : Res) (c : Correls) (i : Nat) (u v : Val) (m : Marks) (iy0 ix0 : ℚ) (h : marks r c i u v = .ok m)
    (h0 : c.noDispl = (iy0, ix0)) : m.origin = place iy0 ix0 0 0 ↔ iy0 = ix0 := by
  have : m.origin = (iy0, ix0) := by
    unfold marks at h
    split at h
    · cases h
    split at h
    · cases h
    split at h
    · cases h
    split at h
    · cases h
    obtain rfl := Except.ok.inj h
    exact h0
  rw [this]
  simp only [place, sub_zero, Prod.mk.injEq]
  constructor
  · exact fun h => h.1
  · rintro rfl; exact ⟨rfl, rfl⟩

/-! ## Concrete cases -/

namespace DisplayPiv

/-- Three vectors; the second one has been removed; in the smooth field, it is at its position on the grid. -/
def demo : Res where
  raw := ⟨[10, 20, 30], [5, 5, 5], [some 1, none, some 3], [some 2, none, some (-1)]⟩
  smooth := some ⟨[10, 21, 30], [5, 6, 5], [some 1, some 2, some 2], [some 2, some 0, some (-1)]⟩
  approx := some ⟨[8, 12, 28, 32], [5, 5, 5, 5], [some 1, some 1, some 3, some 3], [some 2, some 2, some (-1), some (-1)]⟩
  final := none
  wrong := some ([(1, some 9)], [(1, some (-9))])
  errors := some [(1, "correl < correl_min")]
  correlsMax := some [some (9 / 10), some (1 / 10), some (8 / 10)]
  correls := some ⟨(16, 32), some ([some 0, some 0, some 1], [some 0, some 0, some 1]), some [(2, (some 7, some 7))],
    some [some [], none, some [(4, 5)]]⟩

theorem demo_complete : Complete demo where
  raw := ⟨rfl, rfl, rfl⟩
  correlsMax := by rintro l ⟨⟩; rfl
  final := by rintro f ⟨⟩
  input := by rintro c l m ⟨⟩ ⟨⟩; exact ⟨rfl, rfl⟩
  others := by rintro c l ⟨⟩ ⟨⟩; rfl

theorem demo_removed : Removed demo [(1, some 9)] [(1, some (-9))] := by
  intro i hi
  obtain rfl : i = 1 := by simpa using hi
  exact ⟨rfl, _, _, rfl, rfl⟩

end DisplayPiv

/-- With `show_interp="smooth"`, the displacement of the text is not the one of the arrow which is picked. -/
theorem C122_smooth_fails : ∃ w s, openWindow true .smooth false demo = .ok (demo, w) ∧
    w.q[2]? = some ⟨30, 5, some 2, some 1⟩ ∧ onPick false demo w 0 2 .q = (2, .ok (some s)) ∧ s.u = some 3 := by
  refine ⟨⟨[⟨10, 5, some 1, some (-2)⟩, ⟨21, 6, some 2, some 0⟩, ⟨30, 5, some 2, some 1⟩], none, none⟩,
    ⟨2, 30, 5, some 3, some (-1), some (some (8 / 10)), none, none⟩, ?_, ?_, ?_, ?_⟩
  · simp [openWindow, which, field, demo, arrows, neg]
  · rfl
  · simp [onPick, selectArrow, target, describe, displacement, correlOf, errorOf, demo, List.lookup]
  · rfl

/-- With `show_interp=True` for the result of a pass which is not the last one, the arrows are those of the next pass: the text of the
third one has another displacement, and there is no text for the last one. -/
theorem C122_approx_fails : ∃ w s, openWindow true .yes false demo = .ok (demo, w) ∧
    w.q[1]? = some ⟨12, 5, some 1, some (-2)⟩ ∧ onPick false demo w 0 1 .q = (1, .ok (some s)) ∧ s.u = some 9 ∧
    w.q[3]? = some ⟨32, 5, some 3, some 1⟩ ∧ onPick false demo w 0 3 .q = (3, .error .indexError) := by
  refine ⟨⟨[⟨8, 5, some 1, some (-2)⟩, ⟨12, 5, some 1, some (-2)⟩, ⟨28, 5, some 3, some 1⟩, ⟨32, 5, some 3, some 1⟩], none, none⟩,
    ⟨1, 12, 5, some 9, some (-9), some (some (1 / 10)), some "correl < correl_min", none⟩, ?_, ?_, ?_, ?_, ?_, ?_⟩
  · simp [openWindow, which, field, demo, arrows, neg]
  · rfl
  · simp [onPick, selectArrow, target, describe, displacement, correlOf, errorOf, demo]
  · rfl
  · rfl
  · simp [onPick, selectArrow, target, describe, displacement, demo]

/-- The hypotheses of `C122_unchanged_partial`, `C122_arrows` and `C122_pick_partial`: the third vector of `demo`. -/
example : ∃ w s, openWindow true .no true demo = .ok (demo, w) ∧ onPick true demo w 0 2 .q = (2, .ok (some s)) ∧
    Describes demo s 2 30 5 (some 3) (some (-1)) := by
  obtain ⟨r', w, _, h, _⟩ := C122_removed true demo demo_complete.raw _ _ rfl demo_removed
  obtain rfl := C122_unchanged_partial .no true demo r' w h
  obtain ⟨s, hs⟩ := C122_pick_partial true true demo demo w demo_complete h 2 0 30 5 3 (some (-1)) ⟨rfl, rfl, rfl, rfl⟩ (by decide)
  exact ⟨w, s, h, hs⟩

/-- Those of `C122_pick_interp_partial`: the smooth field of `demo`. -/
example : ∃ w s, openWindow true .smooth true demo = .ok (demo, w) ∧ onPick true demo w 0 2 .q = (2, .ok (some s)) ∧
    Describes demo s 2 30 5 (some 3) (some (-1)) := by
  have h : openWindow true .smooth true demo = .ok (demo, _) := rfl
  obtain ⟨s, hs⟩ := C122_pick_interp_partial .smooth true true demo demo _ _ demo_complete rfl ⟨rfl, rfl, rfl⟩ h 2 0 30 5 30 5 3
    (some (-1)) (some 2) (some (-1)) ⟨rfl, rfl, rfl, rfl⟩ ⟨rfl, rfl, rfl, rfl⟩ (by decide)
  exact ⟨_, s, h, hs⟩

/-- Those of `C122_pick_removed_partial`: the removed vector of `demo`. -/
example : ∃ w s, onPick true demo w 0 0 .wrong = (1, .ok (some s)) ∧ Describes demo s 1 20 5 (some 9) (some (-9)) := by
  obtain ⟨w, s, q, inds, a, x, y, u, v, _, _, _, hx, hy, hu, hv, _, h1, h2⟩ :=
    C122_pick_removed_partial true demo demo_complete _ _ rfl demo_removed 0 1 0 rfl (by decide)
  cases hx; cases hy; cases hu; cases hv
  exact ⟨w, s, h1, h2⟩

/-- Those of `C122_pick_nan_partial`: the removed vector was nan. -/
example : ∃ w s, onPick true { demo with wrong := some ([(1, none)], [(1, none)]) } w 0 0 .nan = (1, .ok (some s)) ∧
    Describes { demo with wrong := some ([(1, none)], [(1, none)]) } s 1 20 5 none none := by
  have hc : Complete { demo with wrong := some ([(1, none)], [(1, none)]) } :=
    ⟨demo_complete.raw, demo_complete.correlsMax, demo_complete.final, demo_complete.input, demo_complete.others⟩
  have hrem : Removed { demo with wrong := some ([(1, none)], [(1, none)]) } [(1, none)] [(1, none)] := by
    intro i hi
    obtain rfl : i = 1 := by simpa using hi
    exact ⟨rfl, _, _, rfl, rfl⟩
  obtain ⟨r', w, _, h, _⟩ := C122_removed true _ hc.raw _ _ rfl hrem
  obtain rfl := C122_unchanged_partial .no true _ r' w h
  obtain ⟨q, inds, hq, hmem, hl, _⟩ := C122_nan true _ _ w _ _ rfl h
  obtain ⟨j, hj⟩ := List.getElem?_of_mem ((hmem 1).2 ⟨by decide, rfl⟩)
  cases j with
  | zero =>
    obtain ⟨s, x, y, v, hx, hy, _, hv, h1, h2⟩ := C122_pick_nan_partial true _ _ w hc _ _ rfl hrem h q inds hq 0 1 0 hj (by decide)
    cases hx; cases hy; cases hv
    exact ⟨w, s, h1, h2⟩
  | succ j =>
    exfalso
    have h0 : openWindow true .no true { demo with wrong := some ([(1, none)], [(1, none)]) } = .ok (_, ⟨_, some ([⟨20, 5, none, none⟩], [1]), some (_, [1])⟩) := rfl
    rw [h] at h0
    simp only [Except.ok.injEq, Prod.mk.injEq, true_and] at h0
    rw [h0.2] at hq
    cases hq
    simp at hj

/-- Those of `C122_changed_fails`, `C122_twice_fails` and `C122_text_fails`: without images. -/
example : ∃ r1 w1 r2 w2, openWindow false .no true demo = .ok (r1, w1) ∧ r1 ≠ demo ∧ openWindow false .no true r1 = .ok (r2, w2) ∧
    r2 = demo := by
  obtain ⟨r1, w1, _, h1, _⟩ := C122_removed false demo demo_complete.raw _ _ rfl demo_removed
  obtain ⟨f, _, hr, _⟩ := openWindow_ok _ _ _ _ _ _ h1
  have hr' : r1 = { demo with raw := demo.raw.flip } := by simpa [which, DisplayPiv.flip] using hr
  obtain ⟨r2, w2, _, h2, _⟩ := C122_removed false r1 (by subst hr'; exact ⟨rfl, rfl, rfl⟩) [(1, some 9)] [(1, some (-9))] (by subst hr'; rfl) (by
    subst hr'
    intro i hi
    obtain rfl : i = 1 := by simpa using hi
    exact ⟨rfl, _, _, rfl, rfl⟩)
  exact ⟨r1, w1, r2, w2, h1, (C122_changed_fails true demo r1 w1 h1).2.2 ⟨0, 2, rfl, by norm_num⟩, h2,
    (C122_twice_fails .no true demo r1 r2 w1 w2 h1 h2).1⟩

/-- Those of `C122_marks` and `C122_origin_fails`: the third vector of `demo`, whose windows are displaced by (1, 1). -/
example : ∃ c m, demo.correls = some c ∧ WindowsDisplacedBy c 2 1 1 ∧ marks demo c 2 (some 3) (some (-1)) = .ok m ∧
    m.cross = point (place 16 32 2 (-2)) ∧ m.replaced = some (point (place 16 32 6 6)) ∧ m.others = [point (place 16 32 4 5)] ∧
    m.origin ≠ place 16 32 0 0 := by
  obtain ⟨m, hm⟩ := marks_total demo demo_complete _ rfl 2 (by decide) (some 3) (some (-1))
  have hw : WindowsDisplacedBy (⟨(16, 32), some ([some 0, some 0, some 1], [some 0, some 0, some 1]),
      some [(2, (some 7, some 7))], some [some [], none, some [(4, 5)]]⟩) 2 1 1 := ⟨rfl, rfl⟩
  obtain ⟨h1, _, h3, h4⟩ := C122_marks demo _ 2 _ _ m 1 1 16 32 hm hw rfl
  refine ⟨_, m, rfl, hw, hm, h1 2 (-2) (by norm_num) (by norm_num), h3 _ 6 6 rfl ?_, h4 _ _ rfl rfl, ?_⟩
  · show some (some (7 : ℚ), some (7 : ℚ)) = _
    norm_num
  · rw [Ne, C122_origin_fails demo _ 2 _ _ m 16 32 hm rfl]
    norm_num

/-- That of `C122_other_fails` and of `C122_first_fails`. -/
example : ∃ w a, openWindow true .no false demo = .ok (demo, w) ∧ w.q[0]? = some a :=
  ⟨_, _, rfl, rfl⟩

end Verif
