import Verif.Model.LoopVectors
import Verif.Props.Correl
import Verif.Lemmas.Dict

/-!
# Errors of the vectors (C34) and sub-pixel refinement (C64)
-/

namespace Verif
open Verif.PivGrid Verif.Correl Verif.LoopVectors

/-! ## C34 -/

/-- What the results say about the vector `i`. -/
structure VecView where
  dx : Option ℚ
  dy : Option ℚ
  correlMax : Option ℚ
  error : Option VecErr
  peaks : Option (List Displ)

def view (s : State) (i : Nat) : VecView :=
  ⟨s.deltaxs i, s.deltays i, s.correlsMax i, s.errors.get? i, s.secondaryPeaks i⟩

/-- The view of one vector after its iteration does not depend on the state (if it was not filled before) nor on the
index; the other vectors are not modified. -/
theorem body_local (env : Env) (i : Nat) (w : Img Int × Img Int) (s : State) :
    (∀ e, body env i w s = .error e → ∀ i' s', body env i' w s' = .error e) ∧
    (∀ s1, body env i w s = .ok s1 →
      (∀ j, j ≠ i → view s1 j = view s j) ∧
      ∀ i' s', s.errors.get? i = none → s.secondaryPeaks i = none → s'.errors.get? i' = none → s'.secondaryPeaks i' = none →
        ∃ s1', body env i' w s' = .ok s1' ∧ view s1' i' = view s1 i) := by
  unfold body view
  by_cases hb : ¬ (w.1.ny = env.n0 ∧ w.1.nx = env.n1) ∨ ¬ (w.2.ny = env.m0 ∧ w.2.nx = env.m1)
  · simp only [if_pos hb]
    refine ⟨fun e he => (by cases he), ?_⟩
    intro s1 hs1
    injection hs1 with hs1
    subst hs1
    constructor
    · intro j hj
      simp only [set1, Dict.get?_set, if_neg hj]
    · intro i' s' h1 h2 h3 h4
      refine ⟨_, rfl, ?_⟩
      simp only [set1, Dict.get?_set, if_true, h2, h4]
  · simp only [if_neg hb]
    cases hp : env.peaks (env.corr w.1 w.2).1 (env.corr w.1 w.2).2 with
    | error e =>
      cases e with
      | py e =>
        simp only
        refine ⟨fun e' he => ?_, fun s1 hs1 => (by cases hs1)⟩
        injection he with he; subst he
        intro _ _; rfl
      | piv m d =>
        simp only
        refine ⟨fun e he => (by cases he), ?_⟩
        intro s1 hs1
        injection hs1 with hs1
        subst hs1
        constructor
        · intro j hj
          simp only [set1, Dict.get?_set, if_neg hj]
        · intro i' s' h1 h2 h3 h4
          refine ⟨_, rfl, ?_⟩
          simp only [set1, Dict.get?_set, if_true, h2, h4]
    | ok r =>
      obtain ⟨d, other, c⟩ := r
      simp only
      cases hsub : env.subpix with
      | none =>
        simp only
        refine ⟨fun e he => (by cases he), ?_⟩
        intro s1 hs1
        injection hs1 with hs1
        subst hs1
        constructor
        · intro j hj
          simp only [set1, if_neg hj]
        · intro i' s' h1 h2 h3 h4
          refine ⟨_, rfl, ?_⟩
          simp only [set1, if_true, h1, h3]
      | some f =>
        simp only
        cases hf : f d.dx d.dy c with
        | error e =>
          simp only
          refine ⟨fun e he => (by cases he), ?_⟩
          intro s1 hs1
          injection hs1 with hs1
          subst hs1
          constructor
          · intro j hj
            simp only [set1, Dict.get?_set, if_neg hj]
          · intro i' s' h1 h2 h3 h4
            refine ⟨_, rfl, ?_⟩
            simp only [set1, Dict.get?_set, if_true]
        | ok r =>
          simp only
          refine ⟨fun e he => (by cases he), ?_⟩
          intro s1 hs1
          injection hs1 with hs1
          subst hs1
          constructor
          · intro j hj
            simp only [set1, if_neg hj]
          · intro i' s' h1 h2 h3 h4
            refine ⟨_, rfl, ?_⟩
            simp only [set1, if_true, h1, h3]

theorem loop_one (env : Env) (n : Nat) (w : Img Int × Img Int) (s : State) : loop env n [w] s = body env n w s := by
  rw [loop]
  cases body env n w s <;> rfl

theorem loopVectors_one (env : Env) (junk : Nat → Option ℚ) (w : Img Int × Img Int) :
    loopVectors env junk [w] none = body env 0 w (State.init junk) := by
  unfold loopVectors
  rw [loop_one]
  cases body env 0 w (State.init junk) <;> rfl

/-- No vector from index `n` has been filled. -/
def FreshFrom (s : State) (n : Nat) : Prop := ∀ j, n ≤ j → s.errors.get? j = none ∧ s.secondaryPeaks j = none

theorem loop_local (env : Env) (s' : State) (h0 : s'.errors.get? 0 = none) (h0' : s'.secondaryPeaks 0 = none) :
    ∀ (ws : List (Img Int × Img Int)) (n : Nat) (s : State), FreshFrom s n →
    (∀ sf, loop env n ws s = .ok sf →
      (∀ j, j < n → view sf j = view s j) ∧ (∀ j, n + ws.length ≤ j → view sf j = view s j) ∧
      ∀ i (h : i < ws.length), ∃ s1, loop env 0 [ws[i]] s' = .ok s1 ∧ view sf (n + i) = view s1 0) ∧
    (∀ e, loop env n ws s = .error e → ∃ i, ∃ h : i < ws.length, loop env 0 [ws[i]] s' = .error e)
  | [], n, s, hf => by
    refine ⟨?_, fun e he => (by cases he)⟩
    intro sf h
    injection h with h; subst h
    exact ⟨fun _ _ => rfl, fun _ _ => rfl, fun i hi => absurd hi (Nat.not_lt_zero _)⟩
  | w :: ws, n, s, hf => by
    obtain ⟨b1, b2⟩ := body_local env n w s
    rw [loop]
    cases hb : body env n w s with
    | error e =>
      simp only
      refine ⟨fun sf h => (by cases h), ?_⟩
      intro e' h
      injection h with h; subst h
      refine ⟨0, Nat.zero_lt_succ _, ?_⟩
      simp only [List.getElem_cons_zero]
      rw [loop_one, b1 _ hb 0 s']
    | ok s1 =>
      simp only
      obtain ⟨o1, o2⟩ := b2 s1 hb
      have hf1 : FreshFrom s1 (n + 1) := by
        intro j hj
        have := o1 j (by omega)
        unfold view at this
        injection this with _ _ _ h4 h5
        rw [h4, h5]
        exact hf j (by omega)
      obtain ⟨t1, hs1, ht1⟩ := o2 0 s' (hf n (Nat.le_refl _)).1 (hf n (Nat.le_refl _)).2 h0 h0'
      obtain ⟨r1, r2⟩ := loop_local env s' h0 h0' ws (n + 1) s1 hf1
      constructor
      · intro sf h
        obtain ⟨q1, q2, q3⟩ := r1 sf h
        refine ⟨?_, ?_, ?_⟩
        · intro j hj
          rw [q1 j (by omega), o1 j (by omega)]
        · intro j hj
          rw [List.length_cons] at hj
          rw [q2 j (by omega), o1 j (by omega)]
        · intro i hi
          cases i with
          | zero =>
            refine ⟨t1, ?_, ?_⟩
            · simp only [List.getElem_cons_zero]
              rw [loop_one, hs1]
            · rw [Nat.add_zero, q1 n (by omega), ht1]
          | succ i =>
            have hi' : i < ws.length := by simpa using hi
            obtain ⟨u, hu, hv⟩ := q3 i hi'
            refine ⟨u, by simpa using hu, ?_⟩
            rw [← hv]
            congr 1; omega
      · intro e h
        obtain ⟨i, hi, he⟩ := r2 e h
        exact ⟨i + 1, by simpa using hi, by simpa using he⟩

/-- C34 (partial: the displacement of a failing vector is not NaN in general, see `C34_not_nan`, and some failures are
not confined, see `C34_escapes`).  For every list of couples of windows, when the loop over the vectors ends, what is
reported for each vector (displacement, correlation maximum, error, other peaks) is what would be reported for this
vector alone, whatever the other vectors are; there is no error entry for other indices; and the loop is interrupted
only by an exception which is raised for one of the vectors alone. -/
theorem C34_partial (env : Env) (junk junk' : Nat → Option ℚ) (ws : List (Img Int × Img Int)) :
    (∀ s, loopVectors env junk ws none = .ok s →
      (∀ i (h : i < ws.length), ∃ s1, loopVectors env junk' [ws[i]] none = .ok s1 ∧ view s i = view s1 0) ∧
      (∀ i, ws.length ≤ i → s.errors.get? i = none)) ∧
    (∀ e, loopVectors env junk ws none = .error e →
      ∃ i, ∃ h : i < ws.length, loopVectors env junk' [ws[i]] none = .error e) := by
  obtain ⟨h1, h2⟩ := loop_local env (State.init junk') rfl rfl ws 0 (State.init junk) (fun j _ => ⟨rfl, rfl⟩)
  unfold loopVectors
  cases hl : loop env 0 ws (State.init junk) with
  | error e =>
    simp only
    refine ⟨fun s h => (by cases h), ?_⟩
    intro e' he
    injection he with he; subst he
    obtain ⟨i, hi, he⟩ := h2 e hl
    exact ⟨i, hi, by rw [he]⟩
  | ok s =>
    simp only
    refine ⟨?_, fun e h => (by cases h)⟩
    intro s' hs
    injection hs with hs
    subst hs
    obtain ⟨q1, q2, q3⟩ := h1 s hl
    refine ⟨?_, ?_⟩
    · intro i hi
      obtain ⟨s1, e1, e2⟩ := q3 i hi
      rw [Nat.zero_add] at e2
      exact ⟨s1, by rw [e1]; rfl, e2⟩
    · intro i hi
      have := q2 i (by omega)
      unfold view at this
      injection this with _ _ _ h4 _

/-- The estimated displacements are added vector by vector. -/
theorem C34_input (env : Env) (junk : Nat → Option ℚ) (ws : List (Img Int × Img Int)) (ax ay : Nat → ℚ) (s s' : State)
    (h : loopVectors env junk ws none = .ok s) (h' : loopVectors env junk ws (some (ax, ay)) = .ok s') (i : Nat) :
    s'.deltaxs i = (s.deltaxs i).map (· + ax i) ∧ s'.deltays i = (s.deltays i).map (· + ay i) ∧
    s'.correlsMax i = s.correlsMax i ∧ s'.errors.get? i = s.errors.get? i := by
  unfold loopVectors at h h'
  cases hl : loop env 0 ws (State.init junk) with
  | error e => rw [hl] at h; cases h
  | ok s0 =>
    rw [hl] at h h'
    simp only at h h'
    injection h with h
    injection h' with h'
    subst h h'
    exact ⟨rfl, rfl, rfl, rfl⟩

/-- One vector: error entry and values for each kind of failure.  With a window of a wrong shape the values are NaN;
with a rejected peak they are those of the rejected peak; with a failure of the sub-pixel refinement they are the ones
without refinement. -/
theorem C34_one_vector (env : Env) (junk : Nat → Option ℚ) (w : Img Int × Img Int) :
    let cn := env.corr w.1 w.2
    let good := (w.1.ny = env.n0 ∧ w.1.nx = env.n1) ∧ (w.2.ny = env.m0 ∧ w.2.nx = env.m1)
    (¬ good → ∃ s, loopVectors env junk [w] none = .ok s ∧ view s 0 = ⟨none, none, none, some .badShape, none⟩) ∧
    (good → ∀ m d, env.peaks cn.1 cn.2 = .error (.piv m d) → ∃ s, loopVectors env junk [w] none = .ok s ∧
      view s 0 = ⟨some d.dx, some d.dy, d.correlMax, some (.peak m), none⟩) ∧
    (good → ∀ e, env.peaks cn.1 cn.2 = .error (.py e) → loopVectors env junk [w] none = .error e) ∧
    (good → ∀ d o c, env.peaks cn.1 cn.2 = .ok (d, o, c) →
      (env.subpix = none → ∃ s, loopVectors env junk [w] none = .ok s ∧
        view s 0 = ⟨some d.dx, some d.dy, d.correlMax, none, o⟩) ∧
      ∀ f, env.subpix = some f →
        (∀ e, f d.dx d.dy c = .error e → ∃ s, loopVectors env junk [w] none = .ok s ∧
          view s 0 = ⟨some d.dx, some d.dy, d.correlMax, some (.subpix e), o⟩) ∧
        (∀ r, f d.dx d.dy c = .ok r → ∃ s, loopVectors env junk [w] none = .ok s ∧
          view s 0 = ⟨r.map Prod.fst, r.map Prod.snd, d.correlMax, none, o⟩)) := by
  simp only [loopVectors_one]
  have hng : ((w.1.ny = env.n0 ∧ w.1.nx = env.n1) ∧ (w.2.ny = env.m0 ∧ w.2.nx = env.m1)) →
      ¬ (¬ (w.1.ny = env.n0 ∧ w.1.nx = env.n1) ∨ ¬ (w.2.ny = env.m0 ∧ w.2.nx = env.m1)) := by
    rintro ⟨a, b⟩ (h | h)
    · exact h a
    · exact h b
  refine ⟨?_, ?_, ?_, ?_⟩
  · intro hb
    have hb' : ¬ (w.1.ny = env.n0 ∧ w.1.nx = env.n1) ∨ ¬ (w.2.ny = env.m0 ∧ w.2.nx = env.m1) := by
      by_cases h1 : w.1.ny = env.n0 ∧ w.1.nx = env.n1
      · exact Or.inr (fun h2 => hb ⟨h1, h2⟩)
      · exact Or.inl h1
    unfold body
    rw [if_pos hb']
    exact ⟨_, rfl, rfl⟩
  · intro hg m d hp
    unfold body
    rw [if_neg (hng hg)]
    simp only [hp]
    exact ⟨_, rfl, rfl⟩
  · intro hg e hp
    unfold body
    rw [if_neg (hng hg)]
    simp only [hp]
  · intro hg d o c hp
    constructor
    · intro hs
      unfold body
      rw [if_neg (hng hg)]
      simp only [hp, hs]
      exact ⟨_, rfl, rfl⟩
    · intro f hs
      constructor
      · intro e hf
        unfold body
        rw [if_neg (hng hg)]
        simp only [hp, hs, hf]
        exact ⟨_, rfl, rfl⟩
      · intro r hf
        unfold body
        rw [if_neg (hng hg)]
        simp only [hp, hs, hf]
        exact ⟨_, rfl, rfl⟩

/-- Windows of a small example. -/
def exWin : Img Int := ⟨12, 12, fun _ _ => 0⟩
/-- A work whose correlation map has its maximum on the border. -/
def exEnv : Env := ⟨12, 12, 12, 12, fun _ _ => (exBorder, 1), fftPeaks 12 12 none 3 1, none⟩

/-- The negation of the first part of C34: a failing vector has an error entry, but a displacement and a correlation
which are not NaN. -/
theorem C34_not_nan : ∃ (env : Env) (ws : List (Img Int × Img Int)) (s : State),
    loopVectors env (fun _ => none) ws none = .ok s ∧ s.errors.get? 0 = some (.peak .boundary) ∧
    s.deltaxs 0 = some 1 ∧ s.deltays 0 = some 5 ∧ s.correlsMax 0 = some 10 := by
  have hp0 : fftPeaks 12 12 none 3 1 exBorder 1 = .error (.piv .boundary ⟨1, 5, some 10⟩) := by
    have : fftDisplacements 12 12 none 3 1 exBorder 1 = .error (.piv .boundary ⟨1, 5, some 10⟩) := by decide +kernel
    unfold fftPeaks
    rw [this]
  have hp : exEnv.peaks (exEnv.corr exWin exWin).1 (exEnv.corr exWin exWin).2 = .error (.piv .boundary ⟨1, 5, some 10⟩) := by
    simp only [exEnv]
    exact hp0
  obtain ⟨s, h1, h2⟩ := (C34_one_vector exEnv (fun _ => none) (exWin, exWin)).2.1 ⟨⟨rfl, rfl⟩, ⟨rfl, rfl⟩⟩ _ _ hp
  unfold view at h2
  injection h2 with a b c d e
  refine ⟨exEnv, [(exWin, exWin)], s, h1, d, ?_, ?_, c⟩
  · rw [a]; rfl
  · rw [b]; rfl

/-- The squares of the distances to the centre are 0 or 1 for an allowed displacement smaller than the square root of
2. -/
theorem allowed_small {n0 n1 : Nat} {dmax : ℚ} (h2 : dmax ^ 2 < 2) {i j : Nat} (h : Allowed n0 n1 dmax i j) :
    (((n1 : Int) / 2 - 1 - j) = 0 ∧ -1 ≤ ((n0 : Int) / 2 - 1 - i) ∧ ((n0 : Int) / 2 - 1 - i) ≤ 1) ∨
    (((n0 : Int) / 2 - 1 - i) = 0 ∧ -1 ≤ ((n1 : Int) / 2 - 1 - j) ∧ ((n1 : Int) / 2 - 1 - j) ≤ 1) := by
  obtain ⟨_, h⟩ := h
  generalize ((n1 : Int) / 2 - 1 - j) = a at *
  generalize ((n0 : Int) / 2 - 1 - i) = b at *
  have h3 : ((a ^ 2 + b ^ 2 : Int) : ℚ) < ((2 : Int) : ℚ) := lt_of_le_of_lt h (by exact_mod_cast h2)
  have h4 : a ^ 2 + b ^ 2 < 2 := by exact_mod_cast h3
  have ha : -1 ≤ a ∧ a ≤ 1 := ⟨by nlinarith [sq_nonneg b], by nlinarith [sq_nonneg b]⟩
  have hb : -1 ≤ b ∧ b ≤ 1 := ⟨by nlinarith [sq_nonneg a], by nlinarith [sq_nonneg a]⟩
  by_cases ha0 : a = 0
  · exact Or.inl ⟨ha0, hb⟩
  · right
    refine ⟨?_, ha⟩
    by_contra hb0
    have h5 : 1 ≤ a ^ 2 := by rcases lt_or_gt_of_ne ha0 with h | h <;> nlinarith
    have h6 : 1 ≤ b ^ 2 := by rcases lt_or_gt_of_ne hb0 with h | h <;> nlinarith
    omega

/-- With a maximum displacement smaller than the square root of 2 (for example 1), a `particle_radius` of at least 2 and
windows of at least `2 * (particle_radius + 2)` pixels (10 for the default radius 3), the search of the peaks raises an
`AssertionError` for every correlation map. -/
theorem fft_small_dmax (n0 n1 : Nat) (dmax : ℚ) (h0 : 0 ≤ dmax) (h2 : dmax ^ 2 < 2) (r nb : Nat) (hr : 2 ≤ r)
    (hn0 : 2 * (r + 2) ≤ n0) (hn1 : 2 * (r + 2) ≤ n1) (c : Map) (hy : c.ny = n0) (hx : c.nx = n1)
    (norm : ℚ) : fftDisplacements n0 n1 (some dmax) r nb c norm = .error (.py .assertionError) := by
  have ho := onlyAllowed_maskLarge dmax hy hx
  have hfirst : firstPeak (fftCls n0 n1 (some dmax) r nb) (maskLarge n0 n1 dmax c) norm = .error (.py .assertionError) := by
    have hcov : AreaCovers (maskLarge n0 n1 dmax c) ((fftCls n0 n1 (some dmax) r nb).area.getD
        (0, (maskLarge n0 n1 dmax c).ny, 0, (maskLarge n0 n1 dmax c).nx)) := covers_fft (by omega) (by omega) ho
    obtain ⟨s1, s2, s3, s4⟩ := computeIndicesMax_spec (norm := norm) hcov
    have hnan := (C36_nan_indices_max _ _ hcov).2.2
    generalize maskLarge n0 n1 dmax c = c1 at *
    have hpeak : ∀ p, IsPeak c1 norm p → Allowed n0 n1 dmax p.iy p.ix := by
      rintro p ⟨⟨_, _, v, hv, _⟩, _⟩
      exact ho.2.2 _ _ _ hv
    unfold firstPeak
    cases hc : computeIndicesMax c1 norm (fftCls n0 n1 (some dmax) r nb).area with
    | ok p =>
      exfalso
      have hal := allowed_small h2 (hpeak p (s1 p hc))
      unfold computeIndicesMax at hc
      simp only at hc
      split at hc
      · cases hc
      · rename_i iy ix m hm
        obtain ⟨_, hbd, hn⟩ := hnan iy ix m hm
        cases m with
        | some m => cases hc
        | none =>
          injection hc with hc
          subst hc
          simp only at hal
          have hnone : ∀ i j, ¬ Allowed n0 n1 dmax i j → c1.get i j = none := by
            intro i j h
            cases hg : c1.get i j with
            | none => rfl
            | some v => exact absurd (ho.2.2 i j v hg) h
          have hcy := ho.1
          have hcx := ho.2.1
          have hnb : ¬ (iy = 0 ∨ iy + 1 = c1.ny ∨ ix = 0 ∨ ix + 1 = c1.nx) := by omega
          have hno : ¬ ∃ i' j', i' ≤ iy + 1 ∧ iy ≤ i' + 1 ∧ j' ≤ ix + 1 ∧ ix ≤ j' + 1 ∧ c1.get i' j' = none := by
            intro hex
            have := hn.2 ⟨hnb, hex⟩
            cases this
          apply hno
          refine ⟨if iy + 1 = n0 / 2 then n0 / 2 else iy, if ix + 1 = n1 / 2 then n1 / 2 else ix, ?_, ?_, ?_, ?_, ?_⟩
          · split <;> omega
          · split <;> omega
          · split <;> omega
          · split <;> omega
          · apply hnone
            intro hal2
            have := allowed_small h2 hal2
            split at this <;> split at this <;> omega
    | error e =>
      cases e with
      | py e =>
        simp only
        rw [(s3 e hc).1]
      | piv m p =>
        simp only
        have hal := allowed_small h2 (hpeak p (s2 m p hc))
        have hcov2 : AreaCovers (mask c1 (fftCls n0 n1 (some dmax) r nb).radius p.ix p.iy)
            ((fftCls n0 n1 (some dmax) r nb).area.getD (0, (mask c1 (fftCls n0 n1 (some dmax) r nb).radius p.ix p.iy).ny, 0,
              (mask c1 (fftCls n0 n1 (some dmax) r nb).radius p.ix p.iy).nx)) :=
          covers_fft (by omega) (by omega) (onlyAllowed_mask _ _ _ ho)
        obtain ⟨_, _, _, t4⟩ := computeIndicesMax_spec (norm := norm) hcov2
        have hall : AllNan (mask c1 (fftCls n0 n1 (some dmax) r nb).radius p.ix p.iy) := by
          intro i j hi hj
          have hi' : i < c1.ny := hi
          have hj' : j < c1.nx := hj
          have hr' : (fftCls n0 n1 (some dmax) r nb).radius = r := rfl
          rw [C37_masked c1 _ _ _ (by omega) (by omega) i j hi' hj']
          split
          · rfl
          · rename_i hnear
            cases hg : c1.get i j with
            | none => rfl
            | some v =>
              have := allowed_small h2 (ho.2.2 i j v hg)
              omega
        rw [t4 hall]
  unfold fftDisplacements displacements
  simp only
  rw [hfirst]

/-- The negation of the second part of C34: with a maximum displacement of 1 (or any value smaller than the square root
of 2), the default radius and windows of at least 10 pixels, every vector whose windows have the right shape interrupts
the computation of all the vectors, for every correlation. -/
theorem C34_escapes (n0 n1 : Nat) (dmax : ℚ) (h0 : 0 ≤ dmax) (h2 : dmax ^ 2 < 2) (nb : Nat)
    (hn0 : 10 ≤ n0) (hn1 : 10 ≤ n1) (corr : Img Int → Img Int → Map × ℚ)
    (hc : ∀ a b, (corr a b).1.ny = n0 ∧ (corr a b).1.nx = n1)
    (sub : Option (Int → Int → Map → Except SubErr (Option (ℚ × ℚ)))) (junk : Nat → Option ℚ)
    (ws : List (Img Int × Img Int)) (w : Img Int × Img Int) (hw : w ∈ ws)
    (hs : w.1.ny = n0 ∧ w.1.nx = n1 ∧ w.2.ny = n0 ∧ w.2.nx = n1) :
    loopVectors ⟨n0, n1, n0, n1, corr, fftPeaks n0 n1 (some dmax) 3 nb, sub⟩ junk ws none = .error .assertionError := by
  generalize henv : (⟨n0, n1, n0, n1, corr, fftPeaks n0 n1 (some dmax) 3 nb, sub⟩ : Env) = env
  have hone : ∀ w : Img Int × Img Int, (w.1.ny = n0 ∧ w.1.nx = n1) ∧ (w.2.ny = n0 ∧ w.2.nx = n1) → ∀ junk,
      loopVectors env junk [w] none = .error .assertionError := by
    intro w hg junk
    subst henv
    refine (C34_one_vector _ junk w).2.2.1 hg .assertionError ?_
    show fftPeaks n0 n1 (some dmax) 3 nb _ _ = _
    unfold fftPeaks
    rw [fft_small_dmax n0 n1 dmax h0 h2 3 nb (by omega) (by omega) (by omega) _ (hc _ _).1 (hc _ _).2]
  obtain ⟨p1, p2⟩ := C34_partial env junk junk ws
  cases hl : loopVectors env junk ws none with
  | ok s =>
    exfalso
    obtain ⟨i, hi, hiw⟩ := List.getElem_of_mem hw
    obtain ⟨s1, hs1, _⟩ := (p1 s hl).1 i hi
    rw [hiw, hone w ⟨⟨hs.1, hs.2.1⟩, hs.2.2⟩ junk] at hs1
    cases hs1
  | error e =>
    obtain ⟨i, hi, he⟩ := p2 e hl
    by_cases hg : (ws[i].1.ny = n0 ∧ ws[i].1.nx = n1) ∧ (ws[i].2.ny = n0 ∧ ws[i].2.nx = n1)
    · rw [hone _ hg junk] at he
      injection he with he
      rw [he]
    · exfalso
      have hg' : ¬ ((ws[i].1.ny = env.n0 ∧ ws[i].1.nx = env.n1) ∧ (ws[i].2.ny = env.m0 ∧ ws[i].2.nx = env.m1)) := by
        subst henv; exact hg
      obtain ⟨s, hs, _⟩ := (C34_one_vector env junk ws[i]).1 hg'
      rw [hs] at he
      cases he

/-- A case of `C34_partial` in which one vector fails (wrong shape) and the next one not. -/
example : ∃ s, loopVectors ⟨8, 8, 8, 8, fun _ _ => (exMap, 1), fftPeaks 8 8 (some 3) 1 1, none⟩ (fun _ => none)
    [(exWin, exWin), (⟨8, 8, fun _ _ => 0⟩, ⟨8, 8, fun _ _ => 0⟩)] none = .ok s ∧
    s.errors.get? 0 = some .badShape ∧ s.errors.get? 1 = none ∧ s.deltaxs 0 = none ∧ s.deltaxs 1 = some 1 ∧
    s.deltays 1 = some (-1) := by
  have hp : fftPeaks 8 8 (some 3) 1 1 exMap 1 = .ok (⟨1, -1, some 0⟩, none, exMap) := by
    have : fftDisplacements 8 8 (some 3) 1 1 exMap 1 = .ok (⟨1, -1, some 0⟩, none) := by decide +kernel
    unfold fftPeaks
    rw [this]
  unfold loopVectors loop body
  rw [if_pos (by unfold exWin; decide)]
  simp only
  unfold loop body
  rw [if_neg (by decide)]
  simp only [hp]
  unfold loop
  exact ⟨_, rfl, by decide, by decide, by decide, by decide +kernel, by decide +kernel⟩

/-! ## C64 -/

/-- C64: the sub-pixel refinement moves the displacement by at most `sqrt(2) (n + 1/2)`, whatever the formulas give,
unless it gives NaN; and it is refused iff the neighbourhood of the peak is not in the map or the displacement computed
by the last formula is too large. -/
theorem C64_bounded (f : Formulas) (m : Method) (n : Nat) (k : Cls) (dx dy : Int) (c : Map) :
    (∀ ddx ddy, applySubpix f m n k dx dy c = .ok (some (ddx, ddy)) →
      (ddx - dx) ^ 2 + (ddy - dy) ^ 2 ≤ 2 * (1 / 2 + (n : ℚ)) ^ 2 ∧
      (n : Int) ≤ (k.indices dx dy).1 ∧ (k.indices dx dy).1 + n < c.nx ∧
      (n : Int) ≤ (k.indices dx dy).2 ∧ (k.indices dx dy).2 + n < c.ny) ∧
    (applySubpix f m n k dx dy c = .error .closeBoundary ↔
      ¬ ((n : Int) ≤ (k.indices dx dy).1 ∧ (k.indices dx dy).1 + n < c.nx ∧
      (n : Int) ≤ (k.indices dx dy).2 ∧ (k.indices dx dy).2 + n < c.ny)) := by
  have hcl : closeBoundary c n (k.indices dx dy).1 (k.indices dx dy).2 = true ↔
      ¬ ((n : Int) ≤ (k.indices dx dy).1 ∧ (k.indices dx dy).1 + n < c.nx ∧
      (n : Int) ≤ (k.indices dx dy).2 ∧ (k.indices dx dy).2 + n < c.ny) := by
    unfold closeBoundary
    rw [decide_eq_true_iff]
    omega
  have hix : (((k.indices dx dy).1 : Int) : ℚ) = k.ix0 - dx := by unfold Cls.indices; push_cast; ring
  have hiy : (((k.indices dx dy).2 : Int) : ℚ) = k.iy0 - dy := by unfold Cls.indices; push_cast; ring
  have hfin : ∀ (d : Option (ℚ × ℚ)) (r : ℚ × ℚ), finish n (k.indices dx dy).1 (k.indices dx dy).2 d = .ok (some r) →
      ((k.ix0 : ℚ) - r.1 - dx) ^ 2 + ((k.iy0 : ℚ) - r.2 - dy) ^ 2 ≤ 2 * (1 / 2 + (n : ℚ)) ^ 2 := by
    intro d r h
    unfold finish at h
    split at h
    · cases h
    · rename_i ht
      injection h with h
      cases d with
      | none => cases h
      | some d =>
        injection h with h
        subst h
        unfold tooLarge at ht
        simp only [decide_eq_true_iff, not_lt] at ht
        rw [hix, hiy]
        simp only
        calc _ = d.1 ^ 2 + d.2 ^ 2 := by ring
          _ ≤ _ := ht
  have hfe : ∀ (d : Option (ℚ × ℚ)), finish n (k.indices dx dy).1 (k.indices dx dy).2 d ≠ .error .closeBoundary := by
    intro d h
    unfold finish at h
    split at h <;> cases h
  unfold applySubpix
  by_cases hc : closeBoundary c n (k.indices dx dy).1 (k.indices dx dy).2 = true
  · have he : computeSubpix f m n c (k.indices dx dy).1 (k.indices dx dy).2 = .error .closeBoundary := by
      unfold computeSubpix; rw [if_pos hc]
    rw [he]
    simp only
    exact ⟨fun _ _ h => (by cases h), ⟨fun _ => hcl.1 hc, fun _ => (by first | rfl | trivial)⟩⟩
  · have hin := fun h => hc (hcl.2 h)
    have hin' := not_not.1 hin
    have hval : ∀ r, computeSubpix f m n c (k.indices dx dy).1 (k.indices dx dy).2 = .ok (some r) →
        ((k.ix0 : ℚ) - r.1 - dx) ^ 2 + ((k.iy0 : ℚ) - r.2 - dy) ^ 2 ≤ 2 * (1 / 2 + (n : ℚ)) ^ 2 := by
      intro r h
      unfold computeSubpix at h
      rw [if_neg hc] at h
      simp only at h
      cases m with
      | gaussian =>
        simp only at h
        split at h
        · exact hfin _ _ h
        · exact hfin _ _ h
      | gaussian2 =>
        simp only at h
        split at h
        · exact hfin _ _ h
        · rename_i ht
          refine hfin (f.gaussian2 c (k.indices dx dy).1 (k.indices dx dy).2) r ?_
          unfold finish
          rw [if_neg ht]
          exact h
      | centroid => exact hfin _ _ h
      | noSubpix => exact hfin _ _ h
    have herr : computeSubpix f m n c (k.indices dx dy).1 (k.indices dx dy).2 ≠ .error .closeBoundary := by
      intro h
      unfold computeSubpix at h
      rw [if_neg hc] at h
      simp only at h
      cases m with
      | gaussian =>
        simp only at h
        split at h
        · exact hfe _ h
        · exact hfe _ h
      | gaussian2 =>
        simp only at h
        split at h
        · exact hfe _ h
        · cases h
      | centroid => exact hfe _ h
      | noSubpix => exact hfe _ h
    constructor
    · intro ddx ddy h
      refine ⟨?_, hin'⟩
      cases hcs : computeSubpix f m n c (k.indices dx dy).1 (k.indices dx dy).2 with
      | error e => rw [hcs] at h; cases h
      | ok r =>
        rw [hcs] at h
        simp only at h
        injection h with h
        cases r with
        | none => cases h
        | some r =>
          injection h with h
          injection h with e1 e2
          subst e1 e2
          exact hval r hcs
    · constructor
      · intro h
        exfalso
        cases hcs : computeSubpix f m n c (k.indices dx dy).1 (k.indices dx dy).2 with
        | error e =>
          rw [hcs] at h
          simp only at h
          injection h with h
          subst h
          exact herr hcs
        | ok r => rw [hcs] at h; cases h
      · intro h; exact absurd hin' h

/-- C64: without sub-pixel refinement (method "no_subpix") the displacement is not changed. -/
theorem C64_no_subpix (f : Formulas) (n : Nat) (k : Cls) (dx dy : Int) (c : Map)
    (h : (n : Int) ≤ (k.indices dx dy).1 ∧ (k.indices dx dy).1 + n < c.nx ∧
      (n : Int) ≤ (k.indices dx dy).2 ∧ (k.indices dx dy).2 + n < c.ny) :
    applySubpix f .noSubpix n k dx dy c = .ok (some (dx, dy)) := by
  unfold applySubpix computeSubpix
  have hc : closeBoundary c n (k.indices dx dy).1 (k.indices dx dy).2 = false := by
    unfold closeBoundary
    rw [decide_eq_false_iff_not]
    omega
  rw [hc]
  simp only [Bool.false_eq_true, if_false]
  unfold finish tooLarge
  rw [if_neg]
  · simp only [Option.map_some, zero_add]
    unfold Cls.indices
    simp
  · simp only [decide_eq_true_iff, not_lt]
    have := sq_nonneg (1 / 2 + (n : ℚ))
    linarith

/-- C64: NaN is returned without an error when the formula gives NaN (for example the centroid when the sum of the
correlation is zero): the test of the size is false. -/
theorem C64_nan_accepted (f : Formulas) (n : Nat) (k : Cls) (dx dy : Int) (c : Map)
    (h : (n : Int) ≤ (k.indices dx dy).1 ∧ (k.indices dx dy).1 + n < c.nx ∧
      (n : Int) ≤ (k.indices dx dy).2 ∧ (k.indices dx dy).2 + n < c.ny)
    (hf : f.centroid c (k.indices dx dy).1 (k.indices dx dy).2 = none) :
    applySubpix f .centroid n k dx dy c = .ok none := by
  unfold applySubpix computeSubpix
  have hc : closeBoundary c n (k.indices dx dy).1 (k.indices dx dy).2 = false := by
    unfold closeBoundary
    rw [decide_eq_false_iff_not]
    omega
  rw [hc]
  simp only [Bool.false_eq_true, if_false]
  unfold finish tooLarge
  rw [hf]
  rfl

example : applySubpix ⟨fun _ _ _ => none, fun _ _ _ => none, fun _ _ _ => some (1 / 4, -1 / 2)⟩ .centroid 1
    (fftCls 8 8 none 3 1) 1 (-1) exMap = .ok (some (3 / 4, -1 / 2)) := by decide +kernel
example : applySubpix ⟨fun _ _ _ => none, fun _ _ _ => none, fun _ _ _ => some (9, 0)⟩ .centroid 1
    (fftCls 8 8 none 3 1) 1 (-1) exMap = .error .wrongSubpix := by decide +kernel

end Verif
