import Verif.Model.Multipass
import Verif.Props.PivGrid
import Mathlib.Tactic.Linarith
import Mathlib.Tactic.Positivity
import Mathlib.Algebra.Order.Field.Basic
import Mathlib.Algebra.BigOperators.Group.List.Basic

/-!
# C74 – C76: multipass PIV
-/

namespace Verif
open Verif.Multipass Verif.PivGrid Verif.Mask

/-! ## Specification of the parameters -/

/-- The sizes given by a parameter `shape_crop_im0` or `shape_crop_im1`: one integer for both directions, or two numbers
(along y, along x). -/
inductive HasSizes : Crop → ℚ → ℚ → Prop
  | int (n : Int) : HasSizes (.int n) n n
  | pair (a b : ℚ) : HasSizes (.seq [a, b]) a b

/-- The reduction coefficients of the passes after the first one: the same for all the passes if an integer is given, one
per pass otherwise. -/
inductive HasCoeffs (p : Params) : List ℚ → Prop
  | int (c : Int) (h : p.zoom = .int c) : HasCoeffs p (List.replicate (p.number - 1).toNat (c : ℚ))
  | seq (cs : List ℚ) (h : p.zoom = .seq cs) (hn : (cs.length : Int) = p.number - 1) : HasCoeffs p cs

/-- The window of a pass: the sizes of the parameters divided by the coefficients of the passes up to this one,
truncated. -/
def windowOfPass (a b : ℚ) (cs : List ℚ) (i : Nat) : Int × Int :=
  (pyTrunc (a / (cs.take i).prod), pyTrunc (b / (cs.take i).prod))

theorem hasSizes_iff (s : Crop) (a b : ℚ) : HasSizes s a b ↔ s.pair = .ok (a, b) := by
  constructor
  · intro h; cases h <;> rfl
  · intro h
    cases s with
    | int n => simp only [Crop.pair, Except.ok.injEq, Prod.mk.injEq] at h; obtain ⟨rfl, rfl⟩ := h; exact .int n
    | other => simp [Crop.pair] at h
    | seq ns =>
      match ns with
      | [] => simp [Crop.pair] at h
      | [_] => simp [Crop.pair] at h
      | [x, y] => simp only [Crop.pair, Except.ok.injEq, Prod.mk.injEq] at h; obtain ⟨rfl, rfl⟩ := h; exact .pair x y
      | _ :: _ :: _ :: _ => simp [Crop.pair] at h

theorem hasCoeffs_iff (p : Params) (cs : List ℚ) : HasCoeffs p cs ↔ coeffs p = .ok cs := by
  constructor
  · intro h
    cases h with
    | int c h => simp [coeffs, h]
    | seq cs h hn => simp [coeffs, h, hn]
  · intro h
    unfold coeffs at h
    cases hz : p.zoom with
    | int c => rw [hz] at h; simp only [Except.ok.injEq] at h; subst h; exact .int c hz
    | noLen => rw [hz] at h; simp at h
    | seq l =>
      rw [hz] at h
      simp only at h
      split at h
      · rename_i hl
        simp only [Except.ok.injEq] at h
        subst h
        exact .seq l hz hl
      · simp at h

theorem pairs_iff (p : Params) (s0 s1 : ℚ × ℚ) :
    pairs p = .ok (s0, s1) ↔ HasSizes p.shape0 s0.1 s0.2 ∧ HasSizes (p.shape1.getD p.shape0) s1.1 s1.2 := by
  rw [hasSizes_iff, hasSizes_iff]
  unfold pairs
  cases h0 : p.shape0.pair with
  | error e => simp
  | ok x =>
    cases h1 : (p.shape1.getD p.shape0).pair with
    | error e => simp
    | ok y => simp

/-- The shapes of the windows of the images 1 are not larger than those of the images 0. -/
def NotLarger (s0 s1 : ℚ × ℚ) : Prop := s1.1 ≤ s0.1 ∧ s1.2 ≤ s0.2

theorem checkShapes_iff (s0 s1 : ℚ × ℚ) (w : (Int × Int) × (Int × Int)) :
    checkShapes s0 s1 = .ok w ↔
      NotLarger s0 s1 ∧ w = ((pyTrunc s0.1, pyTrunc s0.2), (pyTrunc s1.1, pyTrunc s1.2)) := by
  unfold checkShapes NotLarger
  split
  · rename_i h
    simp only [reduceCtorEq, false_iff, not_and]
    intro ⟨h1, h2⟩
    rcases h with h | h
    · exact absurd h1 (not_le.2 h)
    · exact absurd h2 (not_le.2 h)
  · rename_i h
    push Not at h
    simp only [Except.ok.injEq]
    constructor
    · intro e; exact ⟨h, e.symm⟩
    · intro e; exact e.2.symm

/-- What is known of the works of the later passes. -/
theorem laterWorks_ok {ov : ℚ} : ∀ (cs : List ℚ) (i : Int) (s0 s1 : ℚ × ℚ) (ws : List Work),
    laterWorks ov i s0 s1 cs = .ok ws →
    (∀ c ∈ cs, c ≠ 0) ∧ ws.length = cs.length ∧
    ∀ (j : Nat) (w : Work), ws[j]? = some w → w = ⟨i + j, windowOfPass s0.1 s0.2 cs (j + 1),
      windowOfPass s1.1 s1.2 cs (j + 1), ov, none⟩ ∧
      NotLarger (s0.1 / (cs.take (j + 1)).prod, s0.2 / (cs.take (j + 1)).prod)
        (s1.1 / (cs.take (j + 1)).prod, s1.2 / (cs.take (j + 1)).prod) := by
  intro cs
  induction cs with
  | nil =>
    intro i s0 s1 ws h
    simp only [laterWorks, Except.ok.injEq] at h
    subst h
    simp
  | cons c cs ih =>
    intro i s0 s1 ws h
    unfold laterWorks at h
    split at h
    · simp at h
    · rename_i hc
      simp only at h
      cases hs : checkShapes (s0.1 / c, s0.2 / c) (s1.1 / c, s1.2 / c) with
      | error e => rw [hs] at h; simp at h
      | ok w =>
        obtain ⟨w0, w1⟩ := w
        rw [hs] at h
        simp only at h
        cases hl : laterWorks ov (i + 1) (s0.1 / c, s0.2 / c) (s1.1 / c, s1.2 / c) cs with
        | error e => rw [hl] at h; simp at h
        | ok ws' =>
          rw [hl] at h
          simp only [Except.ok.injEq] at h
          subst h
          obtain ⟨hn, hw⟩ := (checkShapes_iff _ _ _).1 hs
          simp only [Prod.mk.injEq] at hw
          obtain ⟨h1, h2, h3⟩ := ih _ _ _ _ hl
          refine ⟨?_, by simp [h2], ?_⟩
          · intro x hx
            rcases List.mem_cons.1 hx with rfl | hx
            · exact hc
            · exact h1 x hx
          · intro j w hj
            cases j with
            | zero =>
              simp only [List.getElem?_cons_zero, Option.some.injEq] at hj
              subst hj
              simp [windowOfPass, hw.1, hw.2, hn]
            | succ j =>
              simp only [List.getElem?_cons_succ] at hj
              obtain ⟨e1, e2⟩ := h3 j w hj
              have e : ∀ x : ℚ, x / c / (cs.take (j + 1)).prod = x / ((c :: cs).take (j + 1 + 1)).prod := by
                intro x
                rw [List.take_succ_cons, List.prod_cons, div_div]
              simp only [e, windowOfPass] at e1 e2
              refine ⟨?_, e2⟩
              rw [e1]
              simp only [windowOfPass, Work.mk.injEq, and_true]
              push_cast
              ring

/-- The construction of the later works succeeds when the coefficients are positive and the first sizes are right. -/
theorem laterWorks_pos {ov : ℚ} : ∀ (cs : List ℚ) (i : Int) (s0 s1 : ℚ × ℚ), (∀ c ∈ cs, 0 < c) → NotLarger s0 s1 →
    ∃ ws, laterWorks ov i s0 s1 cs = .ok ws := by
  intro cs
  induction cs with
  | nil => intro i s0 s1 _ _; exact ⟨[], rfl⟩
  | cons c cs ih =>
    intro i s0 s1 hc hn
    have c0 : 0 < c := hc c (by simp)
    have hn' : NotLarger (s0.1 / c, s0.2 / c) (s1.1 / c, s1.2 / c) :=
      ⟨div_le_div_of_nonneg_right hn.1 c0.le, div_le_div_of_nonneg_right hn.2 c0.le⟩
    obtain ⟨ws, hws⟩ := ih (i + 1) (s0.1 / c, s0.2 / c) (s1.1 / c, s1.2 / c) (fun x hx => hc x (by simp [hx])) hn'
    refine ⟨⟨i, (pyTrunc (s0.1 / c), pyTrunc (s0.2 / c)), (pyTrunc (s1.1 / c), pyTrunc (s1.2 / c)), ov, none⟩ :: ws, ?_⟩
    unfold laterWorks
    rw [if_neg c0.ne']
    simp only
    rw [(checkShapes_iff _ _ _).2 ⟨hn', rfl⟩]
    simp only
    rw [hws]

theorem build_iff (p : Params) (ws : List Work) : build p = .ok ws ↔
    p.overlap < 1 ∧ ∃ s0 s1 cs l, pairs p = .ok (s0, s1) ∧ NotLarger s0 s1 ∧ coeffs p = .ok cs ∧
      laterWorks p.overlap 1 s0 s1 cs = .ok l ∧
      ws = ⟨0, (pyTrunc s0.1, pyTrunc s0.2), (pyTrunc s1.1, pyTrunc s1.2), p.overlap, none⟩ :: l := by
  unfold build firstWork
  constructor
  · intro h
    split at h
    · simp at h
    · rename_i w hw
      split at hw
      · simp at hw
      · rename_i hov
        cases hp : pairs p with
        | error e => rw [hp] at hw; simp at hw
        | ok s =>
          obtain ⟨s0, s1⟩ := s
          rw [hp] at hw
          simp only at hw
          cases hs : checkShapes s0 s1 with
          | error e => rw [hs] at hw; simp at hw
          | ok x =>
            obtain ⟨w0, w1⟩ := x
            rw [hs] at hw
            simp only [Except.ok.injEq] at hw
            obtain ⟨hn, hx⟩ := (checkShapes_iff _ _ _).1 hs
            simp only [Prod.mk.injEq] at hx
            cases hc : coeffs p with
            | error e => rw [hc] at h; simp at h
            | ok cs =>
              rw [hc, hp] at h
              simp only at h
              cases hl : laterWorks p.overlap 1 s0 s1 cs with
              | error e => rw [hl] at h; simp at h
              | ok l =>
                rw [hl] at h
                simp only [Except.ok.injEq] at h
                exact ⟨lt_of_not_ge hov, s0, s1, cs, l, rfl, hn, rfl, hl, by rw [← h, ← hw, hx.1, hx.2]⟩
  · rintro ⟨hov, s0, s1, cs, l, hp, hn, hc, hl, rfl⟩
    rw [if_neg (not_le.2 hov), hp]
    simp only
    rw [(checkShapes_iff _ _ _).2 ⟨hn, rfl⟩]
    simp only
    rw [hc]
    simp only
    rw [hl]

/-! ## C74: the passes -/

/-- **C74** (windows).  When the parameters are accepted, there are as many passes as coefficients plus one, the passes are
numbered from 0, and the windows of pass `i` in the images 0 and 1 are the sizes of the parameters divided by the product of
the `i` first coefficients, truncated; the windows of the images 1 are those of the images 0 if they are not given. -/
theorem C74_windows (p : Params) (ws : List Work) (h : build p = .ok ws) :
    ∃ a0 b0 a1 b1 cs, HasSizes p.shape0 a0 b0 ∧ HasSizes (p.shape1.getD p.shape0) a1 b1 ∧ HasCoeffs p cs ∧
      ws.length = cs.length + 1 ∧
      ∀ (i : Nat) (w : Work), ws[i]? = some w → w.index = i ∧ w.overlap = p.overlap ∧ w.memo = none ∧
        w.win0 = windowOfPass a0 b0 cs i ∧ w.win1 = windowOfPass a1 b1 cs i := by
  obtain ⟨hov, s0, s1, cs, l, hp, hn, hc, hl, rfl⟩ := (build_iff p ws).1 h
  obtain ⟨hs0, hs1⟩ := (pairs_iff p s0 s1).1 hp
  obtain ⟨h1, h2, h3⟩ := laterWorks_ok _ _ _ _ _ hl
  refine ⟨s0.1, s0.2, s1.1, s1.2, cs, hs0, hs1, (hasCoeffs_iff p cs).2 hc, by simp [h2], ?_⟩
  intro i w hi
  cases i with
  | zero =>
    simp only [List.getElem?_cons_zero, Option.some.injEq] at hi
    subst hi
    simp [windowOfPass]
  | succ i =>
    simp only [List.getElem?_cons_succ] at hi
    obtain ⟨e, -⟩ := h3 i w hi
    subst e
    simp only [true_and, and_self, and_true]
    push_cast
    ring

/-- **C74** (number).  With `number ≥ 1`, the number of passes is `number`. -/
theorem C74_number (p : Params) (ws : List Work) (h : build p = .ok ws) (hn : 1 ≤ p.number) :
    (ws.length : Int) = p.number := by
  obtain ⟨_, _, _, _, cs, _, _, hc, hl, _⟩ := C74_windows p ws h
  cases hc with
  | int c hz => rw [hl]; simp; omega
  | seq cs hz hl' => rw [hl]; push_cast; omega

/-- **C74** (accepted parameters).  With positive coefficients, the parameters are accepted if and only if the overlap is
smaller than 1, the sizes are one integer or two numbers, those of the images 1 being not larger than those of the images
0, and the coefficients are an integer or a sequence of `number - 1` numbers. -/
theorem C74_accepted (p : Params) (hpos : ∀ cs, HasCoeffs p cs → ∀ c ∈ cs, 0 < c) :
    (∃ ws, build p = .ok ws) ↔
      p.overlap < 1 ∧ (∃ a0 b0 a1 b1, HasSizes p.shape0 a0 b0 ∧ HasSizes (p.shape1.getD p.shape0) a1 b1 ∧
        a1 ≤ a0 ∧ b1 ≤ b0) ∧ ∃ cs, HasCoeffs p cs := by
  constructor
  · rintro ⟨ws, h⟩
    obtain ⟨hov, s0, s1, cs, l, hp, hn, hc, hl, rfl⟩ := (build_iff p ws).1 h
    obtain ⟨hs0, hs1⟩ := (pairs_iff p s0 s1).1 hp
    exact ⟨hov, ⟨_, _, _, _, hs0, hs1, hn.1, hn.2⟩, cs, (hasCoeffs_iff p cs).2 hc⟩
  · rintro ⟨hov, ⟨a0, b0, a1, b1, hs0, hs1, hn1, hn2⟩, cs, hc⟩
    obtain ⟨l, hl⟩ := laterWorks_pos (ov := p.overlap) cs 1 (a0, b0) (a1, b1) (hpos cs hc) ⟨hn1, hn2⟩
    exact ⟨_, (build_iff p _).2 ⟨hov, (a0, b0), (a1, b1), cs, l, (pairs_iff p _ _).2 ⟨hs0, hs1⟩, ⟨hn1, hn2⟩,
      (hasCoeffs_iff p cs).1 hc, hl, rfl⟩⟩

/-- **C74** (refused parameters).  The errors: an overlap of 1 or more and a wrong number of coefficients are a `ValueError`,
windows of the images 1 larger than those of the images 0 also. -/
theorem C74_refused (p : Params) :
    (1 ≤ p.overlap → build p = .error .valueError) ∧
    (∀ a0 b0 a1 b1, p.overlap < 1 → HasSizes p.shape0 a0 b0 → HasSizes (p.shape1.getD p.shape0) a1 b1 →
      a0 < a1 ∨ b0 < b1 → build p = .error .valueError) ∧
    (∀ a0 b0 a1 b1 cs, p.overlap < 1 → HasSizes p.shape0 a0 b0 → HasSizes (p.shape1.getD p.shape0) a1 b1 →
      a1 ≤ a0 → b1 ≤ b0 → p.zoom = .seq cs → (cs.length : Int) ≠ p.number - 1 → build p = .error .valueError) := by
  refine ⟨?_, ?_, ?_⟩
  · intro h
    unfold build firstWork
    rw [if_pos h]
  · intro a0 b0 a1 b1 hov h0 h1 h
    unfold build firstWork
    rw [if_neg (not_le.2 hov), (pairs_iff p (a0, b0) (a1, b1)).2 ⟨h0, h1⟩]
    simp only
    have : checkShapes (a0, b0) (a1, b1) = .error .valueError := by
      unfold checkShapes
      rw [if_pos h]
    rw [this]
  · intro a0 b0 a1 b1 cs hov h0 h1 hn1 hn2 hz hlen
    unfold build firstWork
    rw [if_neg (not_le.2 hov), (pairs_iff p (a0, b0) (a1, b1)).2 ⟨h0, h1⟩]
    simp only
    rw [(checkShapes_iff (a0, b0) (a1, b1) _).2 ⟨⟨hn1, hn2⟩, rfl⟩]
    simp only
    have : coeffs p = .error .valueError := by
      unfold coeffs
      rw [hz]
      simp only
      rw [if_neg hlen]
    rw [this]

/-- **C74** (sub-pixel refinement).  With `number ≥ 1`, it is done in the last pass and in no other one. -/
theorem C74_subpix (p : Params) (ws : List Work) (h : build p = .ok ws) (hn : 1 ≤ p.number) (i : Nat) (w : Work)
    (hi : ws[i]? = some w) : w.subpix p = true ↔ i + 1 = ws.length := by
  have hl := C74_number p ws h hn
  obtain ⟨_, _, _, _, cs, _, _, _, _, hw⟩ := C74_windows p ws h
  have := (hw i w hi).1
  simp only [Work.subpix, decide_eq_true_eq, this]
  omega

/-- **C74** fails for a number of passes of 0 or less: with an integer coefficient it is accepted, there is one pass, and
no pass does the sub-pixel refinement. -/
theorem C74_number_zero_fails (p : Params) (c : Int) (hz : p.zoom = .int c) (hn : p.number ≤ 0) (ws : List Work)
    (h : build p = .ok ws) : ws.length = 1 ∧ ∀ w ∈ ws, w.subpix p = false := by
  obtain ⟨_, _, _, _, cs, _, _, hc, hl, hw⟩ := C74_windows p ws h
  have hcs : cs = [] := by
    cases hc with
    | int c hz => have : (p.number - 1).toNat = 0 := by omega
                  rw [this]; rfl
    | seq cs hz' _ => rw [hz] at hz'; cases hz'
  subst hcs
  refine ⟨by simpa using hl, ?_⟩
  intro w hwm
  obtain ⟨i, hi⟩ := List.mem_iff_getElem?.1 hwm
  have hidx := (hw i w hi).1
  simp only [Work.subpix, hidx, decide_eq_false_iff_not]
  omega

theorem pyTrunc_nat (n m : Nat) : pyTrunc ((n : ℚ) / m) = (n / m : Nat) := by
  unfold pyTrunc
  rw [if_pos (by positivity)]
  exact_mod_cast Rat.floor_natCast_div_natCast n m

/-- **C74** (integer coefficient).  With an integer coefficient and integer sizes, the window of a pass is the window of the
previous pass divided by the coefficient (integer division). -/
theorem C74_integer_zoom (p : Params) (ws : List Work) (h : build p = .ok ws) (c a b : Nat)
    (hz : p.zoom = .int c) (hs : HasSizes p.shape0 a b) (i : Nat) (w w' : Work)
    (hi : ws[i]? = some w) (hi' : ws[i + 1]? = some w') :
    w.win0 = (((a / c ^ i : Nat) : Int), ((b / c ^ i : Nat) : Int)) ∧ w'.win0 = (w.win0.1 / c, w.win0.2 / c) := by
  obtain ⟨a0, b0, a1, b1, cs, h0, h1, hc, hl, hw⟩ := C74_windows p ws h
  have e0 := (hasSizes_iff _ _ _).1 hs
  have e1 := (hasSizes_iff _ _ _).1 h0
  rw [e0] at e1
  simp only [Except.ok.injEq, Prod.mk.injEq] at e1
  obtain ⟨rfl, rfl⟩ := e1
  have hcs : cs = List.replicate (p.number - 1).toNat (c : ℚ) := by
    cases hc with
    | int c' hz' => rw [hz] at hz'; simp only [Zoom.int.injEq] at hz'; subst hz'; simp
    | seq cs hz' _ => rw [hz] at hz'; cases hz'
  subst hcs
  have hlen : i + 1 < ws.length := (List.getElem?_eq_some_iff.1 hi').1
  rw [hl, List.length_replicate] at hlen
  have prod : ∀ j, j ≤ (p.number - 1).toNat →
      ((List.replicate (p.number - 1).toNat (c : ℚ)).take j).prod = ((c ^ j : Nat) : ℚ) := by
    intro j hj
    rw [List.take_replicate, min_eq_left hj, List.prod_replicate]
    push_cast; rfl
  have f : ∀ j w, j ≤ (p.number - 1).toNat → ws[j]? = some w →
      w.win0 = (((a / c ^ j : Nat) : Int), ((b / c ^ j : Nat) : Int)) := by
    intro j w hj hj'
    obtain ⟨_, _, _, e, _⟩ := hw j w hj'
    rw [e]
    unfold windowOfPass
    rw [prod j hj, pyTrunc_nat, pyTrunc_nat]
  have f1 := f i w (by omega) hi
  have f2 := f (i + 1) w' (by omega) hi'
  refine ⟨f1, ?_⟩
  rw [f2, f1, pow_succ, ← Nat.div_div_eq_div_mul, ← Nat.div_div_eq_div_mul]
  simp

/-- Three passes: 32, 16, 8 pixels. -/
example : build ⟨3, .int 2, .int 32, none, 1 / 2⟩ =
    .ok [⟨0, (32, 32), (32, 32), 1 / 2, none⟩, ⟨1, (16, 16), (16, 16), 1 / 2, none⟩,
      ⟨2, (8, 8), (8, 8), 1 / 2, none⟩] := by decide +kernel

/-- Two coefficients; the sizes which are carried along are not truncated: `7 / 1.5 / 1.5 = 3.11`. -/
example : build ⟨3, .seq [3 / 2, 3 / 2], .seq [7, 24], some (.int 6), 1 / 2⟩ =
    .ok [⟨0, (7, 24), (6, 6), 1 / 2, none⟩, ⟨1, (4, 16), (4, 4), 1 / 2, none⟩,
      ⟨2, (3, 10), (2, 2), 1 / 2, none⟩] := by decide +kernel

/-! ## The grids -/

theorem gridStep_zero (ov : ℚ) : gridStep ov 0 = 0 := by
  have : Verif.TimeFormat.roundEven ((0 : Int) : ℚ) = 0 := roundEven_int 0
  simp only [gridStep, Nat.cast_zero, mul_zero]
  simpa using this

/-- A window without pixel is refused when the grid is computed. -/
theorem prepareGrid_small (w : Work) (shape : Nat × Nat) (h : w.win0.1 ≤ 0 ∨ w.win0.2 ≤ 0) :
    prepareGrid w shape = .error .assertionError := by
  unfold prepareGrid
  split
  · rfl
  · rename_i hneg
    push Not at hneg
    unfold prepare
    simp only
    by_cases h1 : 1 ≤ gridStep w.overlap w.win0.1.toNat
    · rw [if_neg (not_not.2 h1)]
      rcases h with h | h
      · have : w.win0.1.toNat = 0 := by omega
        rw [this, gridStep_zero] at h1
        omega
      · have : w.win0.2.toNat = 0 := by omega
        rw [this, gridStep_zero]
        rfl
    · rw [if_pos h1]

section calculation
variable {C D : Type}

/-- The memory of a work, if any, is the grid for images of a given shape. -/
def MemoFor (sh : Nat × Nat) (w : Work) : Prop :=
  w.memo = none ∨ ∃ g, prepareGrid w.fresh sh = .ok g ∧ w.memo = some (sh, g)

theorem prepareGrid_fresh (w : Work) (sh : Nat × Nat) : prepareGrid w.fresh sh = prepareGrid w sh := rfl

theorem grid_eq (w : Work) (sh : Nat × Nat) (h : MemoFor sh w) :
    (w.grid sh).2 = (match prepareGrid w sh with | .error e => .error e | .ok g => .ok (sh, g)) ∧
    (w.grid sh).1.fresh = w.fresh ∧ MemoFor sh (w.grid sh).1 ∧
    ∀ g, prepareGrid w sh = .ok g → (w.grid sh).1.memo = some (sh, g) := by
  unfold Work.grid
  rcases h with h | ⟨g, hg, h⟩
  · rw [h]
    simp only
    cases hp : prepareGrid w sh with
    | error e => simp [MemoFor, h]
    | ok g =>
      refine ⟨rfl, rfl, Or.inr ⟨g, hp, rfl⟩, ?_⟩
      intro g' hg'
      simp only [Except.ok.injEq] at hg'
      rw [hg']
  · rw [h]
    rw [prepareGrid_fresh] at hg
    simp only [hg]
    refine ⟨trivial, trivial, Or.inr ⟨g, hg, h⟩, ?_⟩
    intro g' hg'
    simp only [Except.ok.injEq] at hg'
    rw [h, hg']

/-! ## The chain of the passes -/

/-- The results `rs` of the passes after the fix, and the results `ds` which are returned (each one has been completed by the
interpolation made for the next pass or at the end), for the works `ws` with the grids `gs`. -/
structure PassesDone (P : Passes C D) (ws : List Work) (c : C) (sh : Nat × Nat) (gs : List Grid) (rs ds : List D) :
    Prop where
  /-- one grid, one fixed result and one returned result per pass -/
  grids : gs.length = ws.length
  fixed : rs.length = ws.length
  returned : ds.length = ws.length
  /-- the grid of each pass is the grid of its windows in the images -/
  grid : ∀ (i : Nat) w g, ws[i]? = some w → gs[i]? = some g → prepareGrid w sh = .ok g
  /-- the first pass computes from the couple -/
  first : ∀ w g r, ws[0]? = some w → gs[0]? = some g → rs[0]? = some r →
    ∃ d, P.first w g sh c = .ok d ∧ P.fix w d = .ok r
  /-- each other pass computes from the fixed result of the previous one -/
  next : ∀ (i : Nat) w g r r' d, ws[i + 1]? = some w → gs[i + 1]? = some g → rs[i]? = some r → rs[i + 1]? = some r' →
    ds[i]? = some d → ∃ x, P.later w g sh c r = .ok (d, x) ∧ P.fix w x = .ok r'
  /-- at the end the last result is interpolated; it is kept if the interpolation is impossible -/
  last : ∀ (i : Nat) w g r d, i + 1 = ws.length → ws[i]? = some w → gs[i]? = some g → rs[i]? = some r →
    ds[i]? = some d → P.final w g r = .done d ∨ P.final w g r = .interpError d

/-- Later passes, from the result `r0` of the work `w0`. -/
structure LaterDone (P : Passes C D) (w0 : Work) (g0 : Grid) (r0 : D) (ws : List Work) (c : C) (sh : Nat × Nat)
    (gs : List Grid) (rs ds : List D) : Prop where
  grids : gs.length = ws.length
  fixed : rs.length = ws.length
  returned : ds.length = ws.length + 1
  grid : ∀ (i : Nat) w g, ws[i]? = some w → gs[i]? = some g → prepareGrid w sh = .ok g
  next : ∀ (i : Nat) w g r r' d, ws[i]? = some w → gs[i]? = some g → (r0 :: rs)[i]? = some r → rs[i]? = some r' →
    ds[i]? = some d → ∃ x, P.later w g sh c r = .ok (d, x) ∧ P.fix w x = .ok r'
  last : ∀ (i : Nat) w g r d, i = ws.length → (w0 :: ws)[i]? = some w → (g0 :: gs)[i]? = some g →
    (r0 :: rs)[i]? = some r → ds[i]? = some d → P.final w g r = .done d ∨ P.final w g r = .interpError d

theorem laterPass_eq (P : Passes C D) (w : Work) (c : C) (d : D) (h : MemoFor (P.shape c) w) :
    (laterPass P w c d).2 = (match prepareGrid w (P.shape c) with
      | .error e => .error e
      | .ok g => match P.later w.fresh g (P.shape c) c d with
        | .error e => .error e
        | .ok (d, x) => match P.fix w.fresh x with
          | .error e => .error e
          | .ok x => .ok (d, x)) ∧
    (laterPass P w c d).1 = (w.grid (P.shape c)).1 := by
  obtain ⟨h1, h2, h3, h4⟩ := grid_eq w (P.shape c) h
  unfold laterPass
  rcases hg : w.grid (P.shape c) with ⟨w', o⟩
  rw [hg] at h1 h2
  simp only at h1 h2
  cases hp : prepareGrid w (P.shape c) with
  | error e => rw [hp] at h1; subst h1; simp
  | ok g =>
    rw [hp] at h1
    subst h1
    simp only [h2]
    cases P.later w.fresh g (P.shape c) c d with
    | error e => simp
    | ok x =>
      obtain ⟨d1, x⟩ := x
      simp only
      cases P.fix w.fresh x with
      | error e => simp
      | ok x => simp

theorem laterPasses_spec (P : Passes C D) (c : C) : ∀ (ws : List Work) (w0 w0' : Work) (g0 : Grid) (r0 : D),
    (∀ w ∈ ws, MemoFor (P.shape c) w) → w0'.fresh = w0 → w0'.memo = some (P.shape c, g0) → ∀ ds,
    (laterPasses P c w0' r0 ws).2 = .ok ds ↔
      ∃ gs rs, LaterDone P w0 g0 r0 (ws.map Work.fresh) c (P.shape c) gs rs ds := by
  intro ws
  induction ws with
  | nil =>
    intro w0 w0' g0 r0 _ hw hm ds
    subst hw
    unfold laterPasses finish
    rw [hm]
    simp only
    constructor
    · intro h
      refine ⟨[], [], rfl, rfl, ?_, by simp, by simp, ?_⟩
      · revert h
        cases P.final w0'.fresh g0 r0 <;> simp <;> rintro rfl <;> rfl
      · intro i w g r d hi hw hg hr hd
        simp only [List.map_nil, List.length_nil] at hi
        subst hi
        simp only [List.getElem?_cons_zero, Option.some.injEq] at hw hg hr
        subst hw hg hr
        revert h
        cases P.final w0'.fresh g0 r0 with
        | done x => simp only [Except.ok.injEq]; rintro rfl; left; simpa using hd
        | interpError x => simp only [Except.ok.injEq]; rintro rfl; right; simpa using hd
        | raised e => simp
    · rintro ⟨gs, rs, h⟩
      obtain ⟨d, rfl⟩ : ∃ d, ds = [d] := List.length_eq_one_iff.1 h.returned
      rcases h.last 0 w0'.fresh g0 r0 d rfl rfl rfl rfl rfl with h | h <;> rw [h]
  | cons w ws ih =>
    intro w0 w0' g0 r0 hmemo hw hm ds
    have hmw : MemoFor (P.shape c) w := hmemo w (by simp)
    obtain ⟨e1, e2⟩ := laterPass_eq P w c r0 hmw
    obtain ⟨-, h2, h3, h4⟩ := grid_eq w (P.shape c) hmw
    unfold laterPasses
    rcases hl : laterPass P w c r0 with ⟨w', o⟩
    rw [hl] at e1 e2
    simp only at e1 e2
    subst e2
    constructor
    · intro h
      cases o with
      | error e => simp at h
      | ok x =>
        obtain ⟨d0, r1⟩ := x
        simp only at h
        cases hp : prepareGrid w (P.shape c) with
        | error e => rw [hp] at e1; simp at e1
        | ok g =>
          rw [hp] at e1
          simp only at e1
          cases hla : P.later w.fresh g (P.shape c) c r0 with
          | error e => rw [hla] at e1; simp at e1
          | ok y =>
            obtain ⟨y0, y1⟩ := y
            rw [hla] at e1
            simp only at e1
            cases hf : P.fix w.fresh y1 with
            | error e => rw [hf] at e1; simp at e1
            | ok z =>
              rw [hf] at e1
              simp only [Except.ok.injEq, Prod.mk.injEq] at e1
              obtain ⟨rfl, rfl⟩ := e1
              have ih' := ih w.fresh (w.grid (P.shape c)).1 g r1 (fun x hx => hmemo x (by simp [hx])) h2 (h4 g hp)
              rcases hls : laterPasses P c (w.grid (P.shape c)).1 r1 ws with ⟨ws', o'⟩
              rw [hls] at h ih'
              simp only at h ih'
              cases o' with
              | error e => simp at h
              | ok ds' =>
                simp only [Except.ok.injEq] at h
                subst h
                obtain ⟨gs, rs, H⟩ := (ih' ds').1 rfl
                refine ⟨g :: gs, r1 :: rs, ?_, ?_, ?_, ?_, ?_, ?_⟩
                · simpa using H.grids
                · simpa using H.fixed
                · simpa using H.returned
                · intro i a b ha hb
                  cases i with
                  | zero =>
                    simp only [List.map_cons, List.getElem?_cons_zero, Option.some.injEq] at ha hb
                    subst ha hb
                    exact hp
                  | succ i => exact H.grid i a b (by simpa using ha) (by simpa using hb)
                · intro i a b r r' d ha hb hr hr' hd
                  cases i with
                  | zero =>
                    simp only [List.map_cons, List.getElem?_cons_zero, Option.some.injEq] at ha hb hr hr' hd
                    subst ha hb hr hr' hd
                    exact ⟨y1, hla, hf⟩
                  | succ i =>
                    exact H.next i a b r r' d (by simpa using ha) (by simpa using hb) (by simpa using hr)
                      (by simpa using hr') (by simpa using hd)
                · intro i a b r d hi ha hb hr hd
                  cases i with
                  | zero => simp at hi
                  | succ i =>
                    exact H.last i a b r d (by simpa using hi) (by simpa using ha) (by simpa using hb)
                      (by simpa using hr) (by simpa using hd)
    · rintro ⟨gs, rs, H⟩
      obtain ⟨g, gs, rfl⟩ : ∃ g gs', gs = g :: gs' := by
        cases gs with
        | nil => have := H.grids; simp at this
        | cons g gs => exact ⟨g, gs, rfl⟩
      obtain ⟨r1, rs, rfl⟩ : ∃ g gs', rs = g :: gs' := by
        cases rs with
        | nil => have := H.fixed; simp at this
        | cons g gs => exact ⟨g, gs, rfl⟩
      obtain ⟨d0, ds, rfl⟩ : ∃ g gs', ds = g :: gs' := by
        cases ds with
        | nil => have := H.returned; simp at this
        | cons g gs => exact ⟨g, gs, rfl⟩
      have hp : prepareGrid w (P.shape c) = .ok g := H.grid 0 w.fresh g rfl rfl
      obtain ⟨x, hla, hf⟩ := H.next 0 w.fresh g r0 r1 d0 rfl rfl rfl rfl rfl
      rw [hp] at e1
      simp only [hla, hf] at e1
      subst e1
      simp only
      have ih' := ih w.fresh (w.grid (P.shape c)).1 g r1 (fun x hx => hmemo x (by simp [hx])) h2 (h4 g hp)
      have : (laterPasses P c (w.grid (P.shape c)).1 r1 ws).2 = .ok ds := by
        refine (ih' ds).2 ⟨gs, rs, ?_, ?_, ?_, ?_, ?_, ?_⟩
        · simpa using H.grids
        · simpa using H.fixed
        · simpa using H.returned
        · intro i a b ha hb
          exact H.grid (i + 1) a b (by simpa using ha) (by simpa using hb)
        · intro i a b r r' d ha hb hr hr' hd
          exact H.next (i + 1) a b r r' d (by simpa using ha) (by simpa using hb) (by simpa using hr)
            (by simpa using hr') (by simpa using hd)
        · intro i a b r d hi ha hb hr hd
          exact H.last (i + 1) a b r d (by simpa using hi) (by simpa using ha) (by simpa using hb)
            (by simpa using hr) (by simpa using hd)
      rcases hls : laterPasses P c (w.grid (P.shape c)).1 r1 ws with ⟨ws', o'⟩
      rw [hls] at this
      simp only at this
      subst this
      rfl

theorem firstPass_eq (P : Passes C D) (w : Work) (c c' : C) (hc : P.mask c = .ok c') (h : MemoFor (P.shape c') w) :
    (firstPass P w c).2 = (match prepareGrid w (P.shape c') with
      | .error e => .error e
      | .ok g => match P.first w.fresh g (P.shape c') c' with
        | .error e => .error e
        | .ok x => match P.fix w.fresh x with
          | .error e => .error e
          | .ok x => .ok (c', x)) ∧
    (firstPass P w c).1 = (w.grid (P.shape c')).1 := by
  obtain ⟨h1, h2, h3, h4⟩ := grid_eq w (P.shape c') h
  unfold firstPass
  rw [hc]
  simp only
  rcases hg : w.grid (P.shape c') with ⟨w', o⟩
  rw [hg] at h1 h2
  simp only at h1 h2
  cases hp : prepareGrid w (P.shape c') with
  | error e => rw [hp] at h1; subst h1; simp
  | ok g =>
    rw [hp] at h1
    subst h1
    simp only [h2]
    cases P.first w.fresh g (P.shape c') c' with
    | error e => simp
    | ok x =>
      simp only
      cases P.fix w.fresh x with
      | error e => simp
      | ok x => simp

/-- The results of the calculation, for works with grids for images of the shape of the couple. -/
theorem calcul_spec (P : Passes C D) (c c' : C) (hc : P.mask c = .ok c') (ws : List Work) (hne : ws ≠ [])
    (hmemo : ∀ w ∈ ws, MemoFor (P.shape c') w) (ds : List D) :
    (calcul P c ws).2 = .ok ds ↔ ∃ gs rs, PassesDone P (ws.map Work.fresh) c' (P.shape c') gs rs ds := by
  cases ws with
  | nil => exact absurd rfl hne
  | cons w ws =>
    have hmw : MemoFor (P.shape c') w := hmemo w (by simp)
    obtain ⟨e1, e2⟩ := firstPass_eq P w c c' hc hmw
    obtain ⟨-, h2, h3, h4⟩ := grid_eq w (P.shape c') hmw
    simp only [calcul]
    rcases hl : firstPass P w c with ⟨w', o⟩
    rw [hl] at e1 e2
    simp only at e1 e2
    subst e2
    constructor
    · intro h
      cases o with
      | error e => simp at h
      | ok x =>
        obtain ⟨d0, r1⟩ := x
        simp only at h
        cases hp : prepareGrid w (P.shape c') with
        | error e => rw [hp] at e1; simp at e1
        | ok g =>
          rw [hp] at e1
          simp only at e1
          cases hla : P.first w.fresh g (P.shape c') c' with
          | error e => rw [hla] at e1; simp at e1
          | ok y1 =>
            rw [hla] at e1
            simp only at e1
            cases hf : P.fix w.fresh y1 with
            | error e => rw [hf] at e1; simp at e1
            | ok z =>
              rw [hf] at e1
              simp only [Except.ok.injEq, Prod.mk.injEq] at e1
              obtain ⟨rfl, rfl⟩ := e1
              have ih' := laterPasses_spec P d0 ws w.fresh (w.grid (P.shape d0)).1 g r1
                (fun x hx => hmemo x (by simp [hx])) h2 (h4 g hp)
              rcases hls : laterPasses P d0 (w.grid (P.shape d0)).1 r1 ws with ⟨ws', o'⟩
              rw [hls] at h ih'
              simp only at h ih'
              cases o' with
              | error e => simp at h
              | ok ds' =>
                simp only [Except.ok.injEq] at h
                subst h
                obtain ⟨gs, rs, H⟩ := (ih' ds').1 rfl
                refine ⟨g :: gs, r1 :: rs, ?_, ?_, ?_, ?_, ?_, ?_, ?_⟩
                · simpa using H.grids
                · simpa using H.fixed
                · simpa using H.returned
                · intro i a b ha hb
                  cases i with
                  | zero =>
                    simp only [List.map_cons, List.getElem?_cons_zero, Option.some.injEq] at ha hb
                    subst ha hb
                    exact hp
                  | succ i => exact H.grid i a b (by simpa using ha) (by simpa using hb)
                · intro a b r ha hb hr
                  simp only [List.map_cons, List.getElem?_cons_zero, Option.some.injEq] at ha hb hr
                  subst ha hb hr
                  exact ⟨y1, hla, hf⟩
                · intro i a b r r' d ha hb hr hr' hd
                  exact H.next i a b r r' d (by simpa using ha) (by simpa using hb) (by simpa using hr)
                      (by simpa using hr') (by simpa using hd)
                · intro i a b r d hi ha hb hr hd
                  exact H.last i a b r d (by simpa using hi) (by simpa using ha) (by simpa using hb)
                      (by simpa using hr) (by simpa using hd)
    · rintro ⟨gs, rs, H⟩
      obtain ⟨g, gs, rfl⟩ : ∃ g gs', gs = g :: gs' := by
        cases gs with
        | nil => have := H.grids; simp at this
        | cons g gs => exact ⟨g, gs, rfl⟩
      obtain ⟨r1, rs, rfl⟩ : ∃ g gs', rs = g :: gs' := by
        cases rs with
        | nil => have := H.fixed; simp at this
        | cons g gs => exact ⟨g, gs, rfl⟩
      have hp : prepareGrid w (P.shape c') = .ok g := H.grid 0 w.fresh g rfl rfl
      obtain ⟨x, hla, hf⟩ := H.first w.fresh g r1 rfl rfl rfl
      rw [hp] at e1
      simp only [hla, hf] at e1
      subst e1
      simp only
      have ih' := laterPasses_spec P c' ws w.fresh (w.grid (P.shape c')).1 g r1
                (fun x hx => hmemo x (by simp [hx])) h2 (h4 g hp)
      have : (laterPasses P c' (w.grid (P.shape c')).1 r1 ws).2 = .ok ds := by
        refine (ih' ds).2 ⟨gs, rs, ?_, ?_, ?_, ?_, ?_, ?_⟩
        · simpa using H.grids
        · simpa using H.fixed
        · simpa using H.returned
        · intro i a b ha hb
          exact H.grid (i + 1) a b (by simpa using ha) (by simpa using hb)
        · intro i a b r r' d ha hb hr hr' hd
          exact H.next i a b r r' d (by simpa using ha) (by simpa using hb) (by simpa using hr)
            (by simpa using hr') (by simpa using hd)
        · intro i a b r d hi ha hb hr hd
          exact H.last i a b r d (by simpa using hi) (by simpa using ha) (by simpa using hb)
            (by simpa using hr) (by simpa using hd)
      rcases hls : laterPasses P c' (w.grid (P.shape c')).1 r1 ws with ⟨ws', o'⟩
      rw [hls] at this
      simp only at this
      subst this
      rfl

theorem build_fresh (p : Params) (ws : List Work) (h : build p = .ok ws) :
    ws ≠ [] ∧ ws.map Work.fresh = ws ∧ ∀ w ∈ ws, w.memo = none := by
  obtain ⟨_, _, _, _, cs, _, _, hc, hl, hw⟩ := C74_windows p ws h
  have hm : ∀ w ∈ ws, w.memo = none := by
    intro w hwm
    obtain ⟨i, hi⟩ := List.mem_iff_getElem?.1 hwm
    exact (hw i w hi).2.2.1
  refine ⟨?_, ?_, hm⟩
  · rintro rfl
    simp at hl
  · conv_rhs => rw [← List.map_id ws]
    apply List.map_congr_left
    intro w hwm
    have := hm w hwm
    cases w
    simp only [Work.fresh, id_eq, Work.mk.injEq, true_and]
    exact this.symm

/-- **C74** (chain).  For works just built, a couple gives the results `ds` if and only if they are the results of the chain:
the couple is masked, each pass has the grid of its own windows in the masked images, the first pass computes from the
couple, each other pass from the result of the previous one after its fix, in order, one result per pass; the last result is
completed by an interpolation, and kept as it is if this is impossible.  So an error in any pass or fix (or an interpolation
which is impossible between two passes) gives no result at all. -/
theorem C74_chain (P : Passes C D) (p : Params) (ws : List Work) (h : build p = .ok ws) (c : C) (ds : List D) :
    (calcul P c ws).2 = .ok ds ↔
      ∃ c', P.mask c = .ok c' ∧ ∃ gs rs, PassesDone P ws c' (P.shape c') gs rs ds := by
  obtain ⟨hne, hf, hm⟩ := build_fresh p ws h
  cases hc : P.mask c with
  | error e =>
    simp only [reduceCtorEq, false_and, exists_false, iff_false]
    cases ws with
    | nil => exact absurd rfl hne
    | cons w ws => simp [calcul, firstPass, hc]
  | ok c' =>
    simp only [Except.ok.injEq, exists_eq_left']
    rw [calcul_spec P c c' hc ws hne (fun w hw => Or.inl (hm w hw)), hf]

/-- **C74** fails for windows which become empty: the parameters are accepted, and then no couple has a result (for a coefficient
too large for the size of the windows). -/
theorem C74_empty_window_fails (P : Passes C D) (p : Params) (ws : List Work) (h : build p = .ok ws)
    (w : Work) (hw : w ∈ ws) (hz : w.win0.1 ≤ 0 ∨ w.win0.2 ≤ 0) (c : C) (ds : List D) :
    (calcul P c ws).2 ≠ .ok ds := by
  rw [Ne, C74_chain P p ws h]
  rintro ⟨c', _, gs, rs, H⟩
  obtain ⟨i, hi⟩ := List.mem_iff_getElem?.1 hw
  have hlt : i < gs.length := by rw [H.grids]; exact (List.getElem?_eq_some_iff.1 hi).1
  have := H.grid i w gs[i] hi (List.getElem?_eq_getElem hlt)
  rw [prepareGrid_small w _ hz] at this
  simp at this

example : build ⟨3, .int 4, .int 8, none, 1 / 2⟩ =
    .ok [⟨0, (8, 8), (8, 8), 1 / 2, none⟩, ⟨1, (2, 2), (2, 2), 1 / 2, none⟩,
      ⟨2, (0, 0), (0, 0), 1 / 2, none⟩] := by decide +kernel

/-! ## C75: independence from the couples processed before -/

theorem fresh_fresh (w : Work) : w.fresh.fresh = w.fresh := rfl

theorem memoFor_fresh (sh : Nat × Nat) (w : Work) : MemoFor sh w.fresh := Or.inl rfl

theorem work_ext {w w' : Work} (h : w.fresh = w'.fresh) (hm : w.memo = w'.memo) : w = w' := by
  cases w; cases w'
  simp only [Work.fresh, Work.mk.injEq, and_true] at h hm
  obtain ⟨rfl, rfl, rfl, rfl⟩ := h
  subst hm
  rfl

/-- Results of two lists of works with the same parameters and grids for the same shape. -/
theorem laterPasses_same (P : Passes C D) (c : C) : ∀ (ws : List Work) (w0 : Work) (d : D),
    (∀ w ∈ ws, MemoFor (P.shape c) w) →
    (laterPasses P c w0 d ws).2 = (laterPasses P c w0 d (ws.map Work.fresh)).2 := by
  intro ws
  induction ws with
  | nil => intro w0 d _; rfl
  | cons w ws ih =>
    intro w0 d hmemo
    have hmw : MemoFor (P.shape c) w := hmemo w (by simp)
    obtain ⟨e1, e2⟩ := laterPass_eq P w c d hmw
    obtain ⟨f1, f2⟩ := laterPass_eq P w.fresh c d (memoFor_fresh _ w)
    rw [prepareGrid_fresh, fresh_fresh, ← e1] at f1
    obtain ⟨-, h2, -, h4⟩ := grid_eq w (P.shape c) hmw
    obtain ⟨-, k2, -, k4⟩ := grid_eq w.fresh (P.shape c) (memoFor_fresh _ w)
    simp only [laterPasses, List.map_cons]
    rcases hl : laterPass P w c d with ⟨w1, o⟩
    rcases hl' : laterPass P w.fresh c d with ⟨w1', o'⟩
    rw [hl, hl'] at f1
    rw [hl] at e1 e2
    rw [hl'] at f2
    simp only at f1 e1 e2 f2
    subst f1
    cases hp : prepareGrid w (P.shape c) with
    | error e =>
      rw [hp] at e1
      simp only at e1
      subst e1
      rfl
    | ok g =>
      have hw : w1 = w1' := by
        rw [e2, f2]
        exact work_ext (by rw [h2, k2, fresh_fresh]) (by rw [h4 g hp, k4 g (by rw [prepareGrid_fresh]; exact hp)])
      subst hw
      cases o' with
      | error e => rfl
      | ok x =>
        obtain ⟨d0, d1⟩ := x
        simp only
        have := ih w1 d1 (fun x hx => hmemo x (by simp [hx]))
        rcases ha : laterPasses P c w1 d1 ws with ⟨wa, oa⟩
        rcases hb : laterPasses P c w1 d1 (ws.map Work.fresh) with ⟨wb, ob⟩
        rw [ha, hb] at this
        simp only at this
        subst this
        cases oa <;> rfl

theorem calcul_same (P : Passes C D) (c : C) (sh : Nat × Nat) (hsh : ∀ c', P.mask c = .ok c' → P.shape c' = sh)
    (ws : List Work) (hmemo : ∀ w ∈ ws, MemoFor sh w) :
    (calcul P c ws).2 = (calcul P c (ws.map Work.fresh)).2 := by
  cases ws with
  | nil => rfl
  | cons w ws =>
    cases hc : P.mask c with
    | error e => simp [calcul, firstPass, hc]
    | ok c' =>
      have hsh := hsh c' hc
      subst hsh
      have hmw : MemoFor (P.shape c') w := hmemo w (by simp)
      obtain ⟨e1, e2⟩ := firstPass_eq P w c c' hc hmw
      obtain ⟨f1, f2⟩ := firstPass_eq P w.fresh c c' hc (memoFor_fresh _ w)
      rw [prepareGrid_fresh, fresh_fresh, ← e1] at f1
      obtain ⟨-, h2, -, h4⟩ := grid_eq w (P.shape c') hmw
      obtain ⟨-, k2, -, k4⟩ := grid_eq w.fresh (P.shape c') (memoFor_fresh _ w)
      simp only [calcul, List.map_cons]
      rcases hl : firstPass P w c with ⟨w1, o⟩
      rcases hl' : firstPass P w.fresh c with ⟨w1', o'⟩
      rw [hl, hl'] at f1
      rw [hl] at e1 e2
      rw [hl'] at f2
      simp only at f1 e1 e2 f2
      subst f1
      cases hp : prepareGrid w (P.shape c') with
      | error e =>
        rw [hp] at e1
        simp only at e1
        subst e1
        rfl
      | ok g =>
        have hw : w1 = w1' := by
          rw [e2, f2]
          exact work_ext (by rw [h2, k2, fresh_fresh]) (by rw [h4 g hp, k4 g (by rw [prepareGrid_fresh]; exact hp)])
        subst hw
        cases o' with
        | error e => rfl
        | ok x =>
          obtain ⟨c1, d1⟩ := x
          simp only
          have hc1 : c1 = c' := by
            rw [hp] at e1
            simp only at e1
            cases hx : P.first w.fresh g (P.shape c') c' with
            | error e => rw [hx] at e1; simp at e1
            | ok y =>
              rw [hx] at e1
              simp only at e1
              cases hy : P.fix w.fresh y with
              | error e => rw [hy] at e1; simp at e1
              | ok z => rw [hy] at e1; simp only [Except.ok.injEq, Prod.mk.injEq] at e1; exact e1.1
          subst hc1
          have := laterPasses_same P c1 ws w1 d1 (fun x hx => hmemo x (by simp [hx]))
          rcases ha : laterPasses P c1 w1 d1 ws with ⟨wa, oa⟩
          rcases hb : laterPasses P c1 w1 d1 (ws.map Work.fresh) with ⟨wb, ob⟩
          rw [ha, hb] at this
          simp only at this
          subst this
          cases oa <;> rfl

theorem laterPasses_keeps (P : Passes C D) (c : C) : ∀ (ws : List Work) (w0 : Work) (d : D),
    (∀ w ∈ ws, MemoFor (P.shape c) w) →
    (laterPasses P c w0 d ws).1.map Work.fresh = ws.map Work.fresh ∧
    ∀ w ∈ (laterPasses P c w0 d ws).1, MemoFor (P.shape c) w := by
  intro ws
  induction ws with
  | nil => intro w0 d _; simp [laterPasses]
  | cons w ws ih =>
    intro w0 d hmemo
    have hmw : MemoFor (P.shape c) w := hmemo w (by simp)
    obtain ⟨-, e2⟩ := laterPass_eq P w c d hmw
    obtain ⟨-, h2, h3, -⟩ := grid_eq w (P.shape c) hmw
    simp only [laterPasses]
    rcases hl : laterPass P w c d with ⟨w1, o⟩
    rw [hl] at e2
    simp only at e2
    subst e2
    cases o with
    | error e =>
      simp only [List.map_cons, h2, List.mem_cons, forall_eq_or_imp, true_and]
      exact ⟨h3, fun x hx => hmemo x (by simp [hx])⟩
    | ok x =>
      obtain ⟨d0, d1⟩ := x
      simp only
      obtain ⟨i1, i2⟩ := ih (w.grid (P.shape c)).1 d1 (fun x hx => hmemo x (by simp [hx]))
      rcases ha : laterPasses P c (w.grid (P.shape c)).1 d1 ws with ⟨wa, oa⟩
      rw [ha] at i1 i2
      simp only at i1 i2
      cases oa <;>
        simpa only [List.map_cons, h2, i1, List.mem_cons, forall_eq_or_imp, true_and] using ⟨h3, i2⟩

theorem calcul_keeps (P : Passes C D) (c : C) (sh : Nat × Nat) (hsh : ∀ c', P.mask c = .ok c' → P.shape c' = sh)
    (ws : List Work) (hmemo : ∀ w ∈ ws, MemoFor sh w) :
    (calcul P c ws).1.map Work.fresh = ws.map Work.fresh ∧ ∀ w ∈ (calcul P c ws).1, MemoFor sh w := by
  cases ws with
  | nil => simp [calcul]
  | cons w ws =>
    cases hc : P.mask c with
    | error e =>
      simp only [calcul, firstPass, hc, List.map_cons, true_and]
      exact hmemo
    | ok c' =>
      have hsh := hsh c' hc
      subst hsh
      have hmw : MemoFor (P.shape c') w := hmemo w (by simp)
      obtain ⟨e1, e2⟩ := firstPass_eq P w c c' hc hmw
      obtain ⟨-, h2, h3, -⟩ := grid_eq w (P.shape c') hmw
      simp only [calcul]
      rcases hl : firstPass P w c with ⟨w1, o⟩
      rw [hl] at e1 e2
      simp only at e1 e2
      subst e2
      cases o with
      | error e =>
        simp only [List.map_cons, h2, List.mem_cons, forall_eq_or_imp, true_and]
        exact ⟨h3, fun x hx => hmemo x (by simp [hx])⟩
      | ok x =>
        obtain ⟨c1, d1⟩ := x
        have hc1 : c1 = c' := by
          cases hp : prepareGrid w (P.shape c') with
          | error e => rw [hp] at e1; simp at e1
          | ok g =>
            rw [hp] at e1
            simp only at e1
            cases hx : P.first w.fresh g (P.shape c') c' with
            | error e => rw [hx] at e1; simp at e1
            | ok y =>
              rw [hx] at e1
              simp only at e1
              cases hy : P.fix w.fresh y with
              | error e => rw [hy] at e1; simp at e1
              | ok z => rw [hy] at e1; simp only [Except.ok.injEq, Prod.mk.injEq] at e1; exact e1.1
        subst hc1
        simp only
        obtain ⟨i1, i2⟩ := laterPasses_keeps P c1 ws (w.grid (P.shape c1)).1 d1 (fun x hx => hmemo x (by simp [hx]))
        rcases ha : laterPasses P c1 (w.grid (P.shape c1)).1 d1 ws with ⟨wa, oa⟩
        rw [ha] at i1 i2
        simp only at i1 i2
        cases oa <;>
          simpa only [List.map_cons, h2, i1, List.mem_cons, forall_eq_or_imp, true_and] using ⟨h3, i2⟩

theorem calculs_keeps (P : Passes C D) (sh : Nat × Nat) : ∀ (cs : List C) (ws : List Work),
    (∀ c ∈ cs, ∀ c', P.mask c = .ok c' → P.shape c' = sh) → (∀ w ∈ ws, MemoFor sh w) →
    (calculs P ws cs).map Work.fresh = ws.map Work.fresh ∧ ∀ w ∈ calculs P ws cs, MemoFor sh w := by
  intro cs
  induction cs with
  | nil => intro ws _ h; exact ⟨rfl, h⟩
  | cons c cs ih =>
    intro ws hsh h
    obtain ⟨k1, k2⟩ := calcul_keeps P c sh (hsh c (by simp)) ws h
    obtain ⟨i1, i2⟩ := ih (calcul P c ws).1 (fun x hx => hsh x (by simp [hx])) k2
    exact ⟨i1.trans k1, i2⟩

/-- **C75** (proved part).  When all the couples (after the mask) have images of the same shape, the results for a couple, or the
error, are the same with a work which has processed any couples before, with or without errors, as with a work just
built.  Missing: couples with images of different shapes, for which it is false (`C75_other_shape_fails`). -/
theorem C75_history_partial (P : Passes C D) (p : Params) (ws : List Work) (h : build p = .ok ws) (before : List C) (c : C)
    (sh : Nat × Nat) (hsh : ∀ x ∈ c :: before, ∀ x', P.mask x = .ok x' → P.shape x' = sh) :
    (calcul P c (calculs P ws before)).2 = (calcul P c ws).2 := by
  obtain ⟨hne, hf, hm⟩ := build_fresh p ws h
  obtain ⟨k1, k2⟩ := calculs_keeps P sh before ws (fun x hx => hsh x (by simp [hx])) (fun w hw => Or.inl (hm w hw))
  rw [calcul_same P c sh (hsh c (by simp)) _ k2, k1, hf]

/-- The grid of the first couple stays: after a couple for which the grid of the first pass could be computed, the first pass uses
this grid and this shape for every couple. -/
theorem C75_first_grid_stays (P : Passes C D) (p : Params) (w : Work) (ws : List Work) (h : build p = .ok (w :: ws))
    (c1 c1' : C) (hc1 : P.mask c1 = .ok c1') (g : Grid) (hg : prepareGrid w (P.shape c1') = .ok g) (after : List C) :
    ∃ w' ws', calculs P (w :: ws) (c1 :: after) = w' :: ws' ∧ w'.fresh = w ∧ w'.memo = some (P.shape c1', g) := by
  obtain ⟨-, hf, hm⟩ := build_fresh p _ h
  have hw : w.fresh = w := by
    simp only [List.map_cons, List.cons.injEq] at hf
    exact hf.1
  -- the first calculation
  have one : ∀ (c : C) (w1 : Work) (ws1 : List Work), w1.memo = some (P.shape c1', g) →
      ∃ ws2, (calcul P c (w1 :: ws1)).1 = w1 :: ws2 := by
    intro c w1 ws1 hm1
    have hgr : ∀ sh, w1.grid sh = (w1, .ok (P.shape c1', g)) := by intro sh; simp [Work.grid, hm1]
    have hfp : (firstPass P w1 c).1 = w1 := by
      unfold firstPass
      cases P.mask c with
      | error e => rfl
      | ok c' =>
        simp only [hgr]
        cases P.first w1.fresh g (P.shape c1') c' with
        | error e => rfl
        | ok d =>
          simp only
          cases P.fix w1.fresh d <;> rfl
    simp only [calcul]
    rcases hl : firstPass P w1 c with ⟨w2, o⟩
    rw [hl] at hfp
    simp only at hfp
    subst hfp
    cases o with
    | error e => exact ⟨_, rfl⟩
    | ok x =>
      obtain ⟨c2, d2⟩ := x
      simp only
      rcases laterPasses P c2 w2 d2 ws1 with ⟨wa, oa⟩
      cases oa <;> exact ⟨_, rfl⟩
  have many : ∀ (cs : List C) (w1 : Work) (ws1 : List Work), w1.memo = some (P.shape c1', g) →
      ∃ ws2, calculs P (w1 :: ws1) cs = w1 :: ws2 := by
    intro cs
    induction cs with
    | nil => intro w1 ws1 _; exact ⟨_, rfl⟩
    | cons c cs ih =>
      intro w1 ws1 hm1
      obtain ⟨ws2, h2⟩ := one c w1 ws1 hm1
      simp only [calculs]
      rw [h2]
      exact ih w1 ws2 hm1
  have hmw : MemoFor (P.shape c1') w := Or.inl (hm w (by simp))
  obtain ⟨e1, e2⟩ := firstPass_eq P w c1 c1' hc1 hmw
  obtain ⟨-, h2, h3, h4⟩ := grid_eq w (P.shape c1') hmw
  have hfirst : ∃ ws2, (calcul P c1 (w :: ws)).1 = (w.grid (P.shape c1')).1 :: ws2 := by
    simp only [calcul]
    rcases hl : firstPass P w c1 with ⟨w2, o⟩
    rw [hl] at e2
    simp only at e2
    subst e2
    cases o with
    | error e => exact ⟨_, rfl⟩
    | ok x =>
      obtain ⟨c2, d2⟩ := x
      simp only
      rcases laterPasses P c2 (w.grid (P.shape c1')).1 d2 ws with ⟨wa, oa⟩
      cases oa <;> exact ⟨_, rfl⟩
  obtain ⟨ws2, h5⟩ := hfirst
  obtain ⟨ws3, h6⟩ := many after (w.grid (P.shape c1')).1 ws2 (h4 g hg)
  refine ⟨_, ws3, ?_, h2.trans hw, h4 g hg⟩
  simp only [calculs]
  rw [h5]
  exact h6

/-- A simple pass: the couple is the shape of its images, the result is the list of the positions of the vectors. -/
def positionsOnly : Passes (Nat × Nat) (List (Int × Int)) where
  mask c := .ok c
  shape c := c
  first _ g _ _ := .ok g.points
  later _ g _ _ d := .ok (d, g.points)
  fix _ d := .ok d
  final _ _ d := .done d

/-- **C75** fails for images of different shapes: after a couple of images of 20 × 20 pixels, the vectors of a couple of images of
40 × 40 pixels are only those of the corner of 20 × 20 pixels. -/
theorem C75_other_shape_fails :
    ∃ (p : Params) (ws : List Work), build p = .ok ws ∧
      (calcul positionsOnly (40, 40) (calculs positionsOnly ws [(20, 20)])).2 ≠ (calcul positionsOnly (40, 40) ws).2 ∧
      ∃ ds, (calcul positionsOnly (40, 40) (calculs positionsOnly ws [(20, 20)])).2 = .ok [ds] ∧
        ∀ q ∈ ds, q.1 < 20 ∧ q.2 < 20 := by
  refine ⟨⟨1, .int 2, .int 8, none, 1 / 2⟩, [⟨0, (8, 8), (8, 8), 1 / 2, none⟩], by decide +kernel, by decide +kernel,
    ?_⟩
  refine ⟨((prepare 20 20 8 8 (1 / 2)).toOption.get (by decide +kernel)).points, by decide +kernel, by decide +kernel⟩

/-- Three couples of the same shape, two passes. -/
example : build ⟨2, .int 2, .int 8, none, 1 / 2⟩ =
    .ok [⟨0, (8, 8), (8, 8), 1 / 2, none⟩, ⟨1, (4, 4), (4, 4), 1 / 2, none⟩] ∧
    (calcul positionsOnly (20, 20) (calculs positionsOnly [⟨0, (8, 8), (8, 8), 1 / 2, none⟩,
      ⟨1, (4, 4), (4, 4), 1 / 2, none⟩] [(20, 20), (20, 20)])).2.toOption.map (fun ds => ds.map List.length) =
      some [16, 81] := by
  constructor <;> decide +kernel

end calculation

/-! ## C76: `get_grid_pixel` -/

theorem prepareAll_ok (sh : Nat × Nat) : ∀ (ws : List Work) (gs : List Grid),
    prepareAll sh ws = .ok gs ↔ gs.length = ws.length ∧
      ∀ (i : Nat) w g, ws[i]? = some w → gs[i]? = some g → prepareGrid w sh = .ok g := by
  intro ws
  induction ws with
  | nil =>
    intro gs
    simp only [prepareAll, Except.ok.injEq, List.length_nil, List.getElem?_nil, reduceCtorEq, false_implies,
      implies_true, and_true, List.length_eq_zero_iff]
    exact eq_comm
  | cons w ws ih =>
    intro gs
    unfold prepareAll
    constructor
    · intro h
      cases hp : prepareGrid w sh with
      | error e => rw [hp] at h; simp at h
      | ok g =>
        rw [hp] at h
        simp only at h
        cases ha : prepareAll sh ws with
        | error e => rw [ha] at h; simp at h
        | ok gs' =>
          rw [ha] at h
          simp only [Except.ok.injEq] at h
          subst h
          obtain ⟨h1, h2⟩ := (ih gs').1 ha
          refine ⟨by simp [h1], ?_⟩
          intro i a b ha hb
          cases i with
          | zero =>
            simp only [List.getElem?_cons_zero, Option.some.injEq] at ha hb
            subst ha hb
            exact hp
          | succ i => exact h2 i a b (by simpa using ha) (by simpa using hb)
    · rintro ⟨h1, h2⟩
      cases gs with
      | nil => simp at h1
      | cons g gs =>
        rw [h2 0 w g rfl rfl]
        simp only
        rw [(ih gs).2 ⟨by simpa using h1, fun i a b ha hb => h2 (i + 1) a b (by simpa using ha) (by simpa using hb)⟩]

theorem pyIndex_nonneg {α : Type} (l : List α) (i : Nat) (a : α) (h : l[i]? = some a) : pyIndex l i = .ok a := by
  unfold pyIndex
  simp only
  rw [if_neg (by omega), if_neg (by omega), Int.toNat_natCast, h]

theorem pyIndex_neg {α : Type} (l : List α) (i k : Nat) (a : α) (h : l[i]? = some a) (hk : i + k = l.length)
    (h0 : 0 < k) : pyIndex l (-(k : Int)) = .ok a := by
  unfold pyIndex
  simp only
  have : (if -(k : Int) < 0 then -(k : Int) + l.length else -(k : Int)) = i := by
    rw [if_pos (by omega)]
    omega
  rw [this, if_neg (by omega), Int.toNat_natCast, h]

theorem mapM_toOriginal_none (l : List (Int × Int)) : l.mapM (fun q => toOriginal none q.1 q.2) = .ok l := by
  induction l with
  | nil => rfl
  | cons a l ih =>
    rw [List.mapM_cons, ih]
    rfl

/-- **C76** (proved part).  Without crop of the images, when a couple has results, `get_grid_pixel` called with the parameters of the
computation and the shape stored with the couple gives, for each pass (counted from the first one, or from the last one with a
negative index), the positions of the grid of this pass: the positions of the vectors stored in the result are exactly its
pairs, row by row.  Missing: cropped images, for which it is false (`C76_crop_fails`). -/
theorem C76_grid_pixel_partial {D α : Type} (P : Passes (Img α) D) (p : Params) (ws : List Work) (h : build p = .ok ws)
    (hmask : ∀ im, P.mask im = usedImage none im) (hshape : ∀ im, P.shape im = (im.ny, im.nx)) (im : Img α) (ds : List D)
    (hd : (calcul P im ws).2 = .ok ds) (i k : Nat) (hik : i + k = ws.length) (hk : 0 < k) :
    ∃ w g, ws[i]? = some w ∧ prepareGrid w (im.ny, im.nx) = .ok g ∧
      getGridPixel p (shapeImages im) i = .ok (g.ixvecs, g.iyvecs) ∧
      getGridPixel p (shapeImages im) (-(k : Int)) = .ok (g.ixvecs, g.iyvecs) ∧
      storedPositions none g = .ok (g.iyvecs.flatMap (fun y => g.ixvecs.map (fun x => (x, y)))) := by
  obtain ⟨c', hc, gs, rs, H⟩ := (C74_chain P p ws h im ds).1 hd
  rw [hmask] at hc
  simp only [usedImage, maskArray, Except.ok.injEq] at hc
  subst hc
  rw [hshape] at H
  have hlt : i < ws.length := by omega
  have hlt' : i < gs.length := by rw [H.grids]; exact hlt
  have hg := H.grid i ws[i] gs[i] (List.getElem?_eq_getElem hlt) (List.getElem?_eq_getElem hlt')
  have hall : prepareAll (im.ny, im.nx) ws = .ok gs := (prepareAll_ok _ _ _).2 ⟨H.grids, H.grid⟩
  refine ⟨ws[i], gs[i], List.getElem?_eq_getElem hlt, hg, ?_, ?_, ?_⟩
  · unfold getGridPixel shapeImages
    rw [h]
    simp only
    rw [hall]
    simp only
    rw [pyIndex_nonneg gs i gs[i] (List.getElem?_eq_getElem hlt')]
  · unfold getGridPixel shapeImages
    rw [h]
    simp only
    rw [hall]
    simp only
    rw [pyIndex_neg gs i k gs[i] (List.getElem?_eq_getElem hlt') (by rw [H.grids]; exact hik) hk]
  · unfold storedPositions
    rw [mapM_toOriginal_none]
    have : gs[i].points = gs[i].iyvecs.flatMap (fun y => gs[i].ixvecs.map (fun x => (x, y))) := by
      generalize gs[i] = g at hg
      unfold prepareGrid at hg
      split at hg
      · simp at hg
      · unfold prepare at hg
        simp only at hg
        split at hg
        · simp at hg
        · split at hg
          · simp at hg
          · split at hg
            · simp at hg
            · split at hg
              · simp at hg
              · simp only [Except.ok.injEq] at hg
                subst hg
                rfl
    rw [this]

/-- **C76** fails for cropped images: an image of 40 × 40 pixels, only the pixels `[10, 30)` along y and `[5, 25)` along x being
used.  The positions stored in the result are between 14 and 26 along y and between 9 and 21 along x, but `get_grid_pixel`
gives the positions of the grid of the whole image, from 4 to 36. -/
theorem C76_crop_fails :
    let p : Params := ⟨1, .int 2, .int 8, none, 1 / 2⟩
    let im : Img Int := ⟨40, 40, fun _ _ => 0⟩
    let crop : MaskParams := some "10:30, 5:25".toList
    ∃ w im' g stored, build p = .ok [w] ∧ usedImage crop im = .ok im' ∧ prepareGrid w (im'.ny, im'.nx) = .ok g ∧
      storedPositions crop g = .ok stored ∧ (∀ q ∈ stored, 9 ≤ q.1 ∧ q.1 ≤ 21 ∧ 14 ≤ q.2 ∧ q.2 ≤ 26) ∧
      getGridPixel p (shapeImages im) 0 = .ok ([4, 8, 12, 16, 20, 24, 28, 32, 36], [4, 8, 12, 16, 20, 24, 28, 32, 36]) := by
  intro p im crop
  have hs : slicesOf "10:30, 5:25".toList = .ok [⟨some 10, some 30, none⟩, ⟨some 5, some 25, none⟩] := by decide +kernel
  obtain ⟨im', h1, hy, hx⟩ : ∃ im', usedImage crop im = .ok im' ∧ im'.ny = 20 ∧ im'.nx = 20 := by
    unfold usedImage maskArray
    simp only [crop, hs]
    exact ⟨_, rfl, rfl, rfl⟩
  refine ⟨⟨0, (8, 8), (8, 8), 1 / 2, none⟩, im', (prepare 20 20 8 8 (1 / 2)).toOption.get (by decide +kernel), ?_, ?_, h1, ?_,
    ?_, ?_, ?_⟩
  · exact ((prepare 20 20 8 8 (1 / 2)).toOption.get (by decide +kernel)).points.map (fun q => (q.1 + 5, q.2 + 10))
  · decide +kernel
  · rw [hy, hx]
    decide +kernel
  · decide +kernel
  · decide +kernel
  · decide +kernel

end Verif
