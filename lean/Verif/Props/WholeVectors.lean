import Verif.Props.WholePivFirst

/-!
# What is guaranteed for the vectors of a whole computation of PIV (C114)

For every couple of images.
-/

namespace Verif
open Verif.PivGrid Verif.Correl Verif.WholePiv
open Verif.LoopVectors (Method SubErr State VecErr)
open Verif.Multipass (Work Passes build prepareGrid)

/-! ## Specification -/

/-- The limit of the displacements for windows of `n0 x n1` pixels, in pixels: the given number, or the percentage of the largest
side of the windows. -/
inductive IsLimit : DisplMax → Nat → Nat → ℚ → Prop
  | number (q : ℚ) (n0 n1 : Nat) : IsLimit (.number q) n0 n1 q
  | rows (q : ℚ) (n0 n1 : Nat) (h : n1 ≤ n0) (m : ℚ) (hm : 100 * m = q * n0) : IsLimit (.percent q) n0 n1 m
  | cols (q : ℚ) (n0 n1 : Nat) (h : n0 ≤ n1) (m : ℚ) (hm : 100 * m = q * n1) : IsLimit (.percent q) n0 n1 m

/-- The estimate used for the vector number `i`: `deltaxs_input[i], deltays_input[i]`, zero without estimate. -/
def inputAt (d : Data) (i : Nat) : ℚ × ℚ := match d.input with
  | none => (0, 0)
  | some (ax, ay) => (ax i, ay i)

/-- The vector number `i` has been removed: it is NaN, with an explanation. -/
def RemovedVector (d : Data) (i : Nat) : Prop := vectorAt d i = (none, none) ∧ d.res.errors.get? i ≠ none

/-- What is guaranteed for a vector which has no error, for windows of `n0 x n1` pixels, with or without sub-pixel refinement;
`ε` is the error of the floating point numbers in the refinement. -/
structure KeptVector (cfg : Config) (ε : ℝ) (n0 n1 : Nat) (sub : Bool) (d : Data) (i : Nat) : Prop where
  noError : d.res.errors.get? i = none
  /-- its correlation is a number and is not smaller than the minimum -/
  correl : ∃ c, d.res.correls i = some c ∧ cfg.correlMin ≤ c
  /-- it is not longer than the maximum of the fix (if it has not been replaced by a secondary peak, see `C40_peak_bound_partial`) -/
  length : d.res.replaced.get? i = none → ∀ x y m, vectorAt d i = (some x, some y) → cfg.fixMax = some m → m ≠ 0 →
    x ^ 2 + y ^ 2 ≤ m ^ 2
  /-- with one peak no vector is replaced -/
  replaced : cfg.nbPeaks < 2 → d.res.replaced.get? i = none
  /-- it is at a displacement in pixels of its estimate which is at most the limit, moved by the refinement (by less than the
  size of the square used by the refinement) -/
  limit : ∃ px py : Int, (∀ m, IsLimit cfg.displMax n0 n1 m → (px : ℚ) ^ 2 + (py : ℚ) ^ 2 ≤ m ^ 2) ∧
    (sub = false → d.res.replaced.get? i = none →
      vectorAt d i = (some (px + (inputAt d i).1), some (py + (inputAt d i).2))) ∧
    ∀ x y, vectorAt d i = (some x, some y) → ∃ sx sy : ℝ, sx ^ 2 + sy ^ 2 ≤ 2 * (1 / 2 + cfg.nsub) ^ 2 ∧
      |(x : ℝ) - ((inputAt d i).1 + px + sx)| ≤ ε ∧ |(y : ℝ) - ((inputAt d i).2 + py + sy)| ≤ ε

/-- The estimate for the vector `i` of the next pass is `a`. -/
def EstimateAt (d : Data) (i : Nat) (a : Option ℚ × Option ℚ) : Prop := ∃ l, d.interp.approx = some l ∧ l[i]? = some a

/-! ## Lemmas -/

namespace WholePiv

theorem parse_limit {dm : DisplMax} {n0 n1 : Nat} {m : ℚ} (h : IsLimit dm n0 n1 m) : dm.parse n0 n1 = some m := by
  cases h with
  | number => rfl
  | rows q _ _ h _ hm =>
    unfold DisplMax.parse
    simp only [max_eq_left h]
    congr 1
    linarith
  | cols q _ _ h _ hm =>
    unfold DisplMax.parse
    simp only [max_eq_right h]
    congr 1
    linarith

theorem peak_correl {c : Map} {norm : ℚ} {p : Peak} (h : IsPeak c norm p) : ∃ v, p.correlMax = some v := by
  obtain ⟨⟨_, _, v, hv, _⟩, h⟩ := h
  rw [h]
  split
  · exact ⟨0, rfl⟩
  · rw [hv]; exact ⟨_, rfl⟩

theorem otherPeaks_correl (k : Cls) (norm : ℚ) (Good : Map → Prop)
    (hcov : ∀ c, Good c → AreaCovers c (k.area.getD (0, c.ny, 0, c.nx))) (hmask : ∀ c, Good c → ∀ r ix iy, Good (mask c r ix iy)) :
    ∀ (n : Nat) (c : Map) (p : Peak) (l : List Displ), Good c → otherPeaks k norm n c p = .ok l →
      ∀ d ∈ l, ∃ v, d.correlMax = some v
  | 0, c, p, l, _, h => by
    injection h with h; subst h; simp
  | n + 1, c, p, l, hc, h => by
    unfold otherPeaks at h
    simp only at h
    have hc' := hmask c hc k.radius p.ix p.iy
    obtain ⟨s1, _, _, _⟩ := computeIndicesMax_spec (norm := norm) (hcov _ hc')
    split at h
    · injection h with h; subst h; simp
    · cases h
    · rename_i p' hp'
      split at h
      · cases h
      · rename_i l' hl'
        injection h with h
        subst h
        intro d hd
        rcases List.mem_cons.1 hd with rfl | hd
        · exact peak_correl (s1 p' hp')
        · exact otherPeaks_correl k norm Good hcov hmask n _ p' l' hc' hl' d hd

theorem displacements_correl (k : Cls) (norm : ℚ) (Good : Map → Prop)
    (hcov : ∀ c, Good c → AreaCovers c (k.area.getD (0, c.ny, 0, c.nx))) (hmask : ∀ c, Good c → ∀ r ix iy, Good (mask c r ix iy))
    (c : Map) (hc : Good c) (d : Displ) (o : Option (List Displ)) (h : displacements k c norm = .ok (d, o)) :
    (∃ v, d.correlMax = some v) ∧ ∀ l, o = some l → ∀ d' ∈ l, ∃ v, d'.correlMax = some v := by
  have hfirst : ∀ p c', firstPeak k c norm = .ok (p, c') → Good c' ∧ ∃ v, p.correlMax = some v := by
    intro p c' h
    unfold firstPeak at h
    split at h
    · rename_i p0 hp0
      injection h with h
      injection h with e1 e2
      subst e1 e2
      exact ⟨hc, peak_correl ((computeIndicesMax_spec (norm := norm) (hcov _ hc)).1 _ hp0)⟩
    · cases h
    · rename_i m p0 hp0
      simp only at h
      have hc' := hmask c hc k.radius p0.ix p0.iy
      split at h
      · rename_i p2 hp2
        injection h with h
        injection h with e1 e2
        subst e1 e2
        exact ⟨hc', peak_correl ((computeIndicesMax_spec (norm := norm) (hcov _ hc')).1 _ hp2)⟩
      · cases h
      · cases h
  unfold displacements at h
  split at h
  · cases h
  · rename_i p c' hp
    obtain ⟨g1, g2⟩ := hfirst p c' hp
    split at h
    · injection h with h
      injection h with e1 e2
      subst e1 e2
      exact ⟨g2, fun l hl => by cases hl⟩
    · split at h
      · split at h
        · cases h
        · rename_i l hl
          injection h with h
          injection h with e1 e2
          subst e1 e2
          refine ⟨g2, ?_⟩
          intro l' hl'
          injection hl' with hl'
          subst hl'
          exact otherPeaks_correl k norm Good hcov hmask _ _ _ _ g1 hl
      · cases h

/-- The peaks found in one map. -/
theorem peaks_found (P : LaterPass.Params) (h0 : 0 < P.n0) (h1 : 0 < P.n1) (c : Map) (hy : c.ny = P.n0) (hx : c.nx = P.n1)
    (norm : ℚ) (d : Displ) (o : Option (List Displ)) (c' : Map) (h : LaterPass.peaks P c norm = .ok (d, o, c')) :
    (∃ v, d.correlMax = some v) ∧ (∀ m, P.dmax = some m → ((d.dx ^ 2 + d.dy ^ 2 : Int) : ℚ) ≤ m ^ 2) ∧
    ∀ l, o = some l → ∀ k ∈ l, (∃ v, k.correlMax = some v) ∧ (∀ m, P.dmax = some m → ((k.dx ^ 2 + k.dy ^ 2 : Int) : ℚ) ≤ m ^ 2) := by
  unfold LaterPass.peaks at h
  simp only at h
  cases hdm : P.dmax with
  | none =>
    rw [hdm] at h
    simp only at h
    split at h
    · rename_i d' o' p' c'' hd hf
      injection h with h
      injection h with e1 e2
      injection e2 with e2 e3
      subst e1 e2
      obtain ⟨a1, a2⟩ := displacements_correl (fftCls P.n0 P.n1 none P.radius P.nbPeaks) norm (fun _ => True) (fun c _ => covers_all c) (fun _ _ _ _ _ => trivial) c trivial _ _ hd
      exact ⟨a1, fun m hm => (by cases hm), fun l hl k hk => ⟨a2 l hl k hk, fun m hm => (by cases hm)⟩⟩
    · cases h
    · cases h
  | some dm =>
    rw [hdm] at h
    simp only at h
    split at h
    · rename_i d' o' p' c'' hd hf
      injection h with h
      injection h with e1 e2
      injection e2 with e2 e3
      subst e1 e2
      obtain ⟨a1, a2⟩ := displacements_correl (fftCls P.n0 P.n1 (some dm) P.radius P.nbPeaks) norm (OnlyAllowed P.n0 P.n1 dm) (fun c hc => covers_fft h0 h1 hc)
        (fun c hc r ix iy => onlyAllowed_mask r ix iy hc) _ (onlyAllowed_maskLarge dm hy hx) _ _ hd
      obtain ⟨b1, b2⟩ := (C36_displacement_max P.n0 P.n1 h0 h1 dm P.radius P.nbPeaks c hy hx norm).1 d' o' hd
      refine ⟨a1, ?_, fun l hl k hk => ⟨a2 l hl k hk, ?_⟩⟩
      · intro m hm
        injection hm with hm
        subst hm
        exact b1
      · intro m hm
        injection hm with hm
        subst hm
        exact (b2 l hl).2 k hk
    · cases h
    · cases h

/-- The refinement moves the vector by less than the size of the square. -/
theorem subpix_moves (P : LaterPass.Params) (ε : ℝ) (hε : ∀ v, |((P.rnd v : ℚ) : ℝ) - v| ≤ ε) (dx dy : Int) (c : Map) (x y : ℚ)
    (h : LaterPass.subpix P dx dy c = .ok (some (x, y))) :
    ∃ sx sy : ℝ, sx ^ 2 + sy ^ 2 ≤ 2 * (1 / 2 + (P.nsub : ℝ)) ^ 2 ∧ |(x : ℝ) - (dx + sx)| ≤ ε ∧ |(y : ℝ) - (dy + sy)| ≤ ε := by
  have hsub : ∀ ix iy X Y, Subpix.computeSubpix P.method P.nsub P.pinv (LaterPass.realMap c) ix iy = .ok (.fin X Y) →
      (X - ix) ^ 2 + (Y - iy) ^ 2 ≤ 2 * (1 / 2 + (P.nsub : ℝ)) ^ 2 := by
    intro ix iy X Y hc
    have hfin : ∀ d, ¬ Subpix.TooLarge P.nsub d → Subpix.shift ix iy d = .fin X Y →
        (X - ix) ^ 2 + (Y - iy) ^ 2 ≤ 2 * (1 / 2 + (P.nsub : ℝ)) ^ 2 := by
      intro d hd hs
      cases d with
      | fin a b =>
        unfold Subpix.shift at hs
        injection hs with e1 e2
        rw [← e1, ← e2, add_sub_cancel_right, add_sub_cancel_right]
        exact not_lt.1 hd
      | inf => cases hs
      | nan => cases hs
    have hfinish : ∀ d, Subpix.finish P.nsub ix iy d = .ok (.fin X Y) → (X - ix) ^ 2 + (Y - iy) ^ 2 ≤ 2 * (1 / 2 + (P.nsub : ℝ)) ^ 2 := by
      intro d hd
      unfold Subpix.finish at hd
      split at hd
      · cases hd
      · rename_i hn
        injection hd with hd
        exact hfin d hn hd
    unfold Subpix.computeSubpix at hc
    split at hc
    · cases hc
    · simp only at hc
      split at hc
      · split at hc
        · exact hfinish _ hc
        · exact hfinish _ hc
      · split at hc
        · exact hfinish _ hc
        · rename_i hn
          injection hc with hc
          exact hfin _ hn hc
      · exact hfinish _ hc
      · exact hfinish _ hc
  unfold LaterPass.subpix at h
  simp only at h
  split at h
  · cases h
  · split at h
    · injection h with h; cases h
    · cases h
  · rename_i D hD
    split at h
    · injection h with h; cases h
    · split at h
      · rename_i X Y
        injection h with h
        injection h with h
        injection h with e1 e2
        have hb := hsub _ _ _ _ hD
        unfold Cls.indices at hb
        simp only at hb
        refine ⟨-(X - ((fftCls P.n0 P.n1 P.dmax P.radius P.nbPeaks).ix0 - dx : Int)),
          -(Y - ((fftCls P.n0 P.n1 P.dmax P.radius P.nbPeaks).iy0 - dy : Int)), by rw [neg_sq, neg_sq]; exact hb, ?_, ?_⟩
        · have := hε X
          rw [← e1]
          push_cast
          rw [abs_le] at this ⊢
          constructor <;> linarith [this.1, this.2]
        · have := hε Y
          rw [← e2]
          push_cast
          rw [abs_le] at this ⊢
          constructor <;> linarith [this.1, this.2]
      · injection h with h; cases h
      · injection h with h; cases h

/-- The estimate of a vector. -/
def inpAt (inp : Option ((Nat → ℚ) × (Nat → ℚ))) (i : Nat) : ℚ × ℚ := match inp with
  | none => (0, 0)
  | some (ax, ay) => (ax i, ay i)

theorem loop_input (env : LoopVectors.Env) (junk : Nat → Option ℚ) (ws : List (Img Int × Img Int))
    (inp : Option ((Nat → ℚ) × (Nat → ℚ))) (s : State) (h : LoopVectors.loopVectors env junk ws inp = .ok s) :
    ∃ s0, LoopVectors.loopVectors env junk ws none = .ok s0 ∧ s.errors = s0.errors ∧ s.correlsMax = s0.correlsMax ∧
      s.secondaryPeaks = s0.secondaryPeaks ∧ ∀ i, s.deltaxs i = (s0.deltaxs i).map (· + (inpAt inp i).1) ∧
        s.deltays i = (s0.deltays i).map (· + (inpAt inp i).2) := by
  unfold LoopVectors.loopVectors at h ⊢
  cases hl : LoopVectors.loop env 0 ws (State.init junk) with
  | error e => rw [hl] at h; cases h
  | ok s0 =>
    rw [hl] at h
    simp only at h
    injection h with h
    refine ⟨s0, rfl, ?_⟩
    subst h
    cases inp with
    | none => exact ⟨rfl, rfl, rfl, fun i => by simp [LoopVectors.addInput, inpAt]⟩
    | some a =>
      obtain ⟨ax, ay⟩ := a
      exact ⟨rfl, rfl, rfl, fun i => ⟨rfl, rfl⟩⟩

/-- A vector found by the loop, and the secondary peaks stored for it. -/
theorem loop_found (P : LaterPass.Params) (ε : ℝ) (hε : ∀ v, |((P.rnd v : ℚ) : ℝ) - v| ≤ ε) (h0 : 0 < P.n0) (h1 : 0 < P.n1)
    (junk : Nat → Option ℚ) (ws : List (Img Int × Img Int)) (inp : Option ((Nat → ℚ) × (Nat → ℚ))) (s : State)
    (h : LoopVectors.loopVectors (LaterPass.env P) junk ws inp = .ok s) (i : Nat) (hi : i < ws.length) :
    (s.errors.get? i = none → (∃ v, s.correlsMax i = some v) ∧ ∃ px py : Int,
      (∀ m, P.dmax = some m → (px : ℚ) ^ 2 + (py : ℚ) ^ 2 ≤ m ^ 2) ∧
      (P.last = false → s.deltaxs i = some (px + (inpAt inp i).1) ∧ s.deltays i = some (py + (inpAt inp i).2)) ∧
      (∀ x y, s.deltaxs i = some x → s.deltays i = some y → ∃ sx sy : ℝ, sx ^ 2 + sy ^ 2 ≤ 2 * (1 / 2 + (P.nsub : ℝ)) ^ 2 ∧
        |(x : ℝ) - ((inpAt inp i).1 + px + sx)| ≤ ε ∧ |(y : ℝ) - ((inpAt inp i).2 + py + sy)| ≤ ε)) ∧
    ∀ l, s.secondaryPeaks i = some l → ∀ k ∈ l, (∃ v, k.correlMax = some v) ∧
      ∀ m, P.dmax = some m → ((k.dx ^ 2 + k.dy ^ 2 : Int) : ℚ) ≤ m ^ 2 := by
  have hε0 : 0 ≤ ε := le_trans (abs_nonneg _) (hε 0)
  obtain ⟨s0, hs0, e1, e2, e3, e4⟩ := loop_input _ _ _ _ _ h
  obtain ⟨s1, hs1, hv⟩ := ((C34_partial (LaterPass.env P) junk junk ws).1 s0 hs0).1 i hi
  obtain ⟨o1, o2, o3, o4⟩ := C34_one_vector (LaterPass.env P) junk ws[i]
  rw [e1, e2, e3, (e4 i).1, (e4 i).2]
  have hsame : ∀ {s2 : State} {V : VecView}, LoopVectors.loopVectors (LaterPass.env P) junk [ws[i]] none = .ok s2 → view s2 0 = V →
      view s0 i = V := by
    intro s2 V h2 h3
    rw [hs1] at h2
    injection h2 with h2
    rw [hv, h2, h3]
  by_cases hg : (ws[i].1.ny = (LaterPass.env P).n0 ∧ ws[i].1.nx = (LaterPass.env P).n1) ∧
      (ws[i].2.ny = (LaterPass.env P).m0 ∧ ws[i].2.nx = (LaterPass.env P).m1)
  · cases hp : (LaterPass.env P).peaks ((LaterPass.env P).corr ws[i].1 ws[i].2).1 ((LaterPass.env P).corr ws[i].1 ws[i].2).2 with
    | error e =>
      cases e with
      | piv m d =>
        obtain ⟨s2, h2, h3⟩ := o2 hg m d hp
        have := hsame h2 h3
        unfold view at this
        injection this with a1 a2 a3 a4 a5
        rw [a4, a5]
        exact ⟨fun hc => (by cases hc), fun l hl => (by cases hl)⟩
      | py e =>
        rw [o3 hg e hp] at hs1
        cases hs1
    | ok r =>
      obtain ⟨d, o, c⟩ := r
      obtain ⟨q1, q2, q3⟩ := peaks_found P h0 h1 (LaterPass.corr P ws[i].1 ws[i].2).1 rfl rfl _ d o c hp
      have hlim : ∀ m, P.dmax = some m → (d.dx : ℚ) ^ 2 + (d.dy : ℚ) ^ 2 ≤ m ^ 2 := by
        intro m hm
        have := q2 m hm
        push_cast at this
        exact this
      obtain ⟨r1, r2⟩ := o4 hg d o c hp
      cases hl : P.last with
      | false =>
        obtain ⟨s2, h2, h3⟩ := r1 (by simp [LaterPass.env, hl])
        have := hsame h2 h3
        unfold view at this
        injection this with a1 a2 a3 a4 a5
        rw [a1, a2, a3, a4, a5]
        refine ⟨fun _ => ⟨q1, d.dx, d.dy, hlim, fun _ => ⟨rfl, rfl⟩, ?_⟩, q3⟩
        intro x y hx hy
        injection hx with hx
        injection hy with hy
        refine ⟨0, 0, by nlinarith [sq_nonneg (1 / 2 + (P.nsub : ℝ))], ?_, ?_⟩
        · rw [← hx]; push_cast
          have : (d.dx : ℝ) + (inpAt inp i).1 - ((inpAt inp i).1 + d.dx + 0) = 0 := by ring
          rw [this, abs_zero]; exact hε0
        · rw [← hy]; push_cast
          have : (d.dy : ℝ) + (inpAt inp i).2 - ((inpAt inp i).2 + d.dy + 0) = 0 := by ring
          rw [this, abs_zero]; exact hε0
      | true =>
        obtain ⟨t1, t2⟩ := r2 (LaterPass.subpix P) (by simp [LaterPass.env, hl])
        cases hs : LaterPass.subpix P d.dx d.dy c with
        | error e =>
          obtain ⟨s2, h2, h3⟩ := t1 e hs
          have := hsame h2 h3
          unfold view at this
          injection this with a1 a2 a3 a4 a5
          rw [a4, a5]
          exact ⟨fun hc => (by cases hc), q3⟩
        | ok r =>
          obtain ⟨s2, h2, h3⟩ := t2 r hs
          have := hsame h2 h3
          unfold view at this
          injection this with a1 a2 a3 a4 a5
          rw [a1, a2, a3, a4, a5]
          refine ⟨fun _ => ⟨q1, d.dx, d.dy, hlim, fun hc => (by cases hc), ?_⟩, q3⟩
          intro x y hx hy
          cases r with
          | none => cases hx
          | some r =>
            obtain ⟨a, b⟩ := r
            injection hx with hx
            injection hy with hy
            obtain ⟨sx, sy, u1, u2, u3⟩ := subpix_moves P ε hε _ _ _ _ _ hs
            refine ⟨sx, sy, u1, ?_, ?_⟩
            · rw [← hx]; push_cast
              have : (a : ℝ) + (inpAt inp i).1 - ((inpAt inp i).1 + d.dx + sx) = a - (d.dx + sx) := by ring
              rw [this]; exact u2
            · rw [← hy]; push_cast
              have : (b : ℝ) + (inpAt inp i).2 - ((inpAt inp i).2 + d.dy + sy) = b - (d.dy + sy) := by ring
              rw [this]; exact u3
  · obtain ⟨s2, h2, h3⟩ := o1 hg
    have := hsame h2 h3
    unfold view at this
    injection this with a1 a2 a3 a4 a5
    rw [a4, a5]
    exact ⟨fun hc => (by cases hc), fun l hl => (by cases hl)⟩

theorem loop_unique (env : LoopVectors.Env) : ∀ (ws : List (Img Int × Img Int)) (i : Nat) (s s' : State), s.errors.KeysUnique →
    LoopVectors.loop env i ws s = .ok s' → s'.errors.KeysUnique
  | [], i, s, s', hu, h => by
    injection h with h; subst h; exact hu
  | w :: ws, i, s, s', hu, h => by
    unfold LoopVectors.loop at h
    split at h
    · cases h
    · rename_i s1 hs1
      refine loop_unique env ws (i + 1) s1 s' ?_ h
      unfold LoopVectors.body at hs1
      split at hs1
      · injection hs1 with hs1; subst hs1; exact Dict.keysUnique_set _ _ _ hu
      · simp only at hs1
        split at hs1
        · cases hs1
        · injection hs1 with hs1; subst hs1; exact Dict.keysUnique_set _ _ _ hu
        · split at hs1
          · injection hs1 with hs1; subst hs1; exact hu
          · split at hs1
            · injection hs1 with hs1; subst hs1; exact Dict.keysUnique_set _ _ _ hu
            · injection hs1 with hs1; subst hs1; exact hu

theorem peakLoop_none (p : Fix.Params) (env : Fix.PeakEnv) : ∀ (L : List Nat) (r r' : Fix.Res),
    Fix.peakLoop p env none L r = .ok r' → r' = r
  | [], r, r', h => by injection h with h; exact h.symm
  | i :: L, r, r', h => by
    unfold Fix.peakLoop at h
    split at h
    · cases h
    · rename_i r1 hr1
      have : r1 = r := by
        unfold Fix.peakBody at hr1
        split at hr1
        · injection hr1 with hr1; exact hr1.symm
        · simp only at hr1
          split at hr1
          · injection hr1 with hr1; exact hr1.symm
          · cases hr1
      rw [peakLoop_none p env L r1 r' h, this]

/-- What the fix does to one vector. -/
theorem fix_vector (p : Fix.Params) (env : Fix.PeakEnv) (n0 n1 : Nat) (hg : p.threshold = none ∨ 2 ≤ n0 ∧ 2 ≤ n1) (r r' : Fix.Res)
    (hu : r.errors.KeysUnique) (hk : ∀ i ∈ r.errors.keys, i < n0 * n1) (hrep : r.replaced = [])
    (h : Fix.calcul n0 n1 p env r = .ok r') (i : Nat) (hi : i < n0 * n1) :
    (r'.replaced.get? i = none ∧ r'.dx i = none ∧ r'.dy i = none ∧ r'.errors.get? i ≠ none) ∨
    (r'.replaced.get? i = none ∧ r'.errors.get? i = none ∧ r'.dx i = r.dx i ∧ r'.dy i = r.dy i ∧ r'.correls i = r.correls i ∧
      ¬ Outlier p r i) ∨
    (¬ p.nbPeaks < 2 ∧ r'.replaced.get? i ≠ none ∧ r'.errors.get? i = none ∧ ∃ l k, env.secondary i = some l ∧ k ∈ l ∧
      p.correlMin < k.corr ∧ r'.correls i = some k.corr ∧ ∃ w, env.subpix i k.dx k.dy = .ok w ∧
        r'.dx i = w.1.map (· + (env.inp i).1) ∧ r'.dy i = w.2.map (· + (env.inp i).2)) := by
  have base : ∀ r1, Marked p n0 n1 r r1 → (fixView r' i).dx = (fixView r1 i).dx → (fixView r' i).dy = (fixView r1 i).dy →
      (fixView r' i).correl = (fixView r1 i).correl → (fixView r' i).err = (fixView r1 i).err →
      (fixView r' i).repl = (fixView r1 i).repl →
      (r'.replaced.get? i = none ∧ r'.dx i = none ∧ r'.dy i = none ∧ r'.errors.get? i ≠ none) ∨
      (r'.replaced.get? i = none ∧ r'.errors.get? i = none ∧ r'.dx i = r.dx i ∧ r'.dy i = r.dy i ∧ r'.correls i = r.correls i ∧
        ¬ Outlier p r i) := by
    intro r1 hM e1 e2 e3 e4 e5
    simp only [fixView] at e1 e2 e3 e4 e5
    by_cases hr : Removed p r n0 n1 i
    · obtain ⟨a1, a2, a3⟩ := hM.removed i hi hr
      exact .inl ⟨by rw [e5, hM.replaced, hrep]; rfl, e1.trans a1, e2.trans a2, by rw [e4]; exact a3⟩
    · obtain ⟨a1, a2, a3⟩ := hM.others i hi hr
      refine .inr ⟨?_, e4.trans a3, e1.trans a1, e2.trans a2, ?_, fun ho => hr (.inl ho)⟩
      · rw [e5, hM.replaced, hrep]; rfl
      · rw [e3, hM.correls]
  by_cases hp : p.nbPeaks < 2
  · have : ∃ r1, Fix.calcul n0 n1 p env r = .ok r1 ∧ Marked p n0 n1 r r1 := by
      cases ht : p.threshold with
      | none =>
        obtain ⟨r1, h1, h2, _⟩ := C40_no_threshold (n0 := n0) (n1 := n1) p ht hp env r hu hk
        exact ⟨r1, h1, h2⟩
      | some t =>
        rcases hg with hg | ⟨g1, g2⟩
        · rw [ht] at hg; cases hg
        · obtain ⟨r1, h1, h2, _⟩ := C40_marks g1 g2 p ht hp env r hu hk
          exact ⟨r1, h1, h2⟩
    obtain ⟨r1, h1, hM⟩ := this
    rw [h] at h1
    injection h1 with h1
    subst h1
    rcases base r' hM rfl rfl rfl rfl rfl with h | h
    · exact .inl h
    · exact .inr (.inl h)
  · cases ht : p.threshold with
    | none =>
      obtain ⟨r1, e, hM, hw⟩ := detect_none (n0 := n0) (n1 := n1) ht hu hk
      unfold Fix.calcul at h
      rw [e] at h
      simp only at h
      rw [if_neg hp] at h
      have := peakLoop_none _ _ _ _ _ h
      subst this
      rcases base r' hM rfl rfl rfl rfl rfl with h | h
      · exact .inl h
      · exact .inr (.inl h)
    | some t =>
      rcases hg with hg | ⟨g1, g2⟩
      · rw [ht] at hg; cases hg
      · obtain ⟨r1, nb, r2, hM, _, _, hc, ho⟩ := C40_peaks_partial g1 g2 p ht hp env r hu hk
        rw [h] at hc
        injection hc with hc
        subst hc
        rcases ho i hi with ⟨he, -⟩ | ⟨k, hR⟩
        · rcases base r1 hM (by rw [he]) (by rw [he]) (by rw [he]) (by rw [he]) (by rw [he]) with h | h
          · exact .inl h
          · exact .inr (.inl h)
        · obtain ⟨l, hl, hkl, _⟩ := hR.peak
          obtain ⟨w, hw⟩ := hR.sub
          obtain ⟨old, _, _, _, hrp⟩ := hR.wrong
          refine .inr (.inr ⟨hp, ?_, hR.err, l, k, hl, hkl, hR.good.1, hR.correl, w, hw⟩)
          intro hc
          have : (fixView r' i).repl = none := hc
          rw [hrp] at this
          cases this

/-- The vectors of one pass after the fix. -/
theorem result_vectors (cfg : Config) (ε : ℝ) (hε : ∀ v, |((cfg.rnd v : ℚ) : ℝ) - v| ≤ ε) (w : Work) (hw0 : 0 < w.win0.1.toNat)
    (hw1 : 0 < w.win0.2.toNat) (g : Grid) (hgo : g.points.length = g.iyvecs.length * g.ixvecs.length)
    (hneigh : cfg.threshold = none ∨ 2 ≤ g.iyvecs.length ∧ 2 ≤ g.ixvecs.length) (off : ApplyInterp.Pos) (pos : List ApplyInterp.Pos)
    (ws : List (Img Int × Img Int)) (hlen : ws.length ≤ g.points.length) (inp : Option ((Nat → ℚ) × (Nat → ℚ))) (s : State)
    (hs : LoopVectors.loopVectors (LaterPass.env (cfg.pass w)) (cfg.junk w) ws inp = .ok s) (d : Data)
    (hd : fix cfg (result cfg (cfg.pass w) g off pos ws inp s) = .ok d) (i : Nat) (hi : i < ws.length) :
    RemovedVector d i ∨ KeptVector cfg ε w.win0.1.toNat w.win0.2.toNat (w.subpix cfg.passes) d i := by
  unfold fix at hd
  split at hd
  · cases hd
  · rename_i r hr
    injection hd with hd
    subst hd
    have hget : ∀ (D : Dict Nat VecErr) j, Dict.get? (D.map fun e => (e.1, [Fix.Reason.earlier e.2])) j =
        (D.get? j).map fun e => [Fix.Reason.earlier e] := by
      intro D j
      induction D with
      | nil => rfl
      | cons e D ih =>
        obtain ⟨a, b⟩ := e
        simp only [List.map_cons, Dict.get?]
        split
        · rfl
        · exact ih
    obtain ⟨s0, hs0, f1, -⟩ := loop_input _ _ _ _ _ hs
    have hu : s.errors.KeysUnique := by
      rw [f1]
      unfold LoopVectors.loopVectors at hs0
      split at hs0
      · cases hs0
      · rename_i s1 hs1
        injection hs0 with hs0
        rw [← hs0]
        exact loop_unique _ _ _ _ _ (by simp [State.init, Dict.KeysUnique, Dict.keys]) hs1
    have hkeys : Dict.keys (s.errors.map fun e => (e.1, [Fix.Reason.earlier e.2])) = s.errors.keys := by
      unfold Dict.keys
      rw [List.map_map]
      rfl
    have hbeyond : ∀ j, ws.length ≤ j → s.errors.get? j = none := by
      rw [f1]
      exact ((C34_partial (LaterPass.env (cfg.pass w)) (cfg.junk w) (cfg.junk w) ws).1 s0 hs0).2
    obtain ⟨F1, F2⟩ := loop_found (cfg.pass w) ε hε hw0 hw1 (cfg.junk w) ws inp s hs i hi
    have hin : inputAt { result cfg (cfg.pass w) g off pos ws inp s with res := r } i = inpAt inp i := rfl
    have hlimit : ∀ m, IsLimit cfg.displMax w.win0.1.toNat w.win0.2.toNat m → (cfg.pass w).dmax = some m := fun m hm => parse_limit hm
    rcases fix_vector cfg.fix _ _ _ hneigh _ r (by
        show Dict.KeysUnique (s.errors.map _)
        unfold Dict.KeysUnique
        rw [hkeys]
        exact hu) (by
        intro j hj
        have hj' : j ∈ s.errors.keys := by rw [← hkeys]; exact hj
        by_contra hc
        refine (Dict.get?_eq_none_iff _ _).1 (hbeyond j ?_) hj'
        show ws.length ≤ j
        have : ¬ j < g.iyvecs.length * g.ixvecs.length := hc
        omega) rfl hr i (by
        show i < g.iyvecs.length * g.ixvecs.length
        omega) with h | ⟨h1, h2, h3, h4, h5, h6⟩ | ⟨h1, h2, h3, l, k, h4, h5, h6, h7, sub, h8, h9, h10⟩
    · left
      exact ⟨by unfold vectorAt; rw [h.2.1, h.2.2.1], h.2.2.2⟩
    · right
      have herr : s.errors.get? i = none := by
        by_contra hc
        apply h6
        left
        show i ∈ Dict.keys (s.errors.map _)
        rw [hkeys]
        by_contra hm
        exact hc ((Dict.get?_eq_none_iff _ _).2 hm)
      obtain ⟨⟨c, hc⟩, px, py, b1, b2, b3⟩ := F1 herr
      have e1 : r.dx i = s.deltaxs i := h3
      have e2 : r.dy i = s.deltays i := h4
      have e3 : r.correls i = s.correlsMax i := h5
      refine ⟨h2, ⟨c, e3.trans hc, ?_⟩, ?_, fun _ => h1, px, py, fun m hm => b1 m (hlimit m hm), ?_, ?_⟩
      · by_contra hlt
        exact h6 (.inr (.inl ⟨c, hc, not_le.1 hlt⟩))
      · intro _ x y m hxy hm hm0
        by_contra hlt
        unfold vectorAt at hxy
        injection hxy with x1 x2
        exact h6 (.inr (.inr ⟨x, y, m, e1.symm.trans x1, e2.symm.trans x2, hm, hm0, not_le.1 hlt⟩))
      · intro hsub _
        obtain ⟨c1, c2⟩ := b2 hsub
        rw [hin]
        unfold vectorAt
        simp only [e1, e2, c1, c2]
      · intro x y hxy
        unfold vectorAt at hxy
        injection hxy with x1 x2
        rw [hin]
        exact b3 x y (e1.symm.trans x1) (e2.symm.trans x2)
    · right
      obtain ⟨sl, hsl, rfl⟩ : ∃ sl, s.secondaryPeaks i = some sl ∧ l = sl.map toPeak := by
        have : (s.secondaryPeaks i).map (fun l => l.map toPeak) = some l := h4
        cases hsp : s.secondaryPeaks i with
        | none => rw [hsp] at this; cases this
        | some sl => rw [hsp] at this; injection this with this; exact ⟨sl, rfl, this.symm⟩
      obtain ⟨q, hq, rfl⟩ := List.mem_map.1 h5
      obtain ⟨-, b2⟩ := F2 sl hsl q hq
      refine ⟨h3, ⟨_, h7, le_of_lt h6⟩, fun hc => absurd hc h2, fun hc => absurd hc h1, q.dx, q.dy, ?_, fun _ hc => absurd hc h2, ?_⟩
      · intro m hm
        have := b2 m (hlimit m hm)
        push_cast at this
        exact this
      · intro x y hxy
        unfold vectorAt at hxy
        injection hxy with x1 x2
        rw [hin]
        have g1 : sub.1.map (· + (inpAt inp i).1) = some x := h9.symm.trans x1
        have g2 : sub.2.map (· + (inpAt inp i).2) = some y := h10.symm.trans x2
        have h8' : storedSubpix (cfg.pass w) ws i (q.dx : ℚ) (q.dy : ℚ) = .ok sub := h8
        unfold storedSubpix at h8'
        rw [List.getElem?_eq_getElem hi] at h8'
        simp only [Rat.floor_intCast] at h8'
        split at h8'
        · cases h8'
        · rename_i r' hr'
          injection h8' with h8'
          subst h8'
          cases r' with
          | none => cases g1
          | some r' =>
            obtain ⟨a, b⟩ := r'
            injection g1 with g1
            injection g2 with g2
            obtain ⟨sx, sy, u1, u2, u3⟩ := subpix_moves (cfg.pass w) ε hε _ _ _ _ _ hr'
            simp only at g1 g2
            refine ⟨sx, sy, u1, ?_, ?_⟩
            · rw [← g1]; push_cast
              have : (a : ℝ) + (inpAt inp i).1 - ((inpAt inp i).1 + q.dx + sx) = a - (q.dx + sx) := by ring
              rw [this]; exact u2
            · rw [← g2]; push_cast
              have : (b : ℝ) + (inpAt inp i).2 - ((inpAt inp i).2 + q.dy + sy) = b - (q.dy + sy) := by ring
              rw [this]; exact u3

theorem first_ok {cfg : Config} {w : Work} {g : Grid} {c : Images} {d : Data} (h : first cfg w g c = .ok d) :
    ∃ m0 m1 off s, minima c = .ok (m0, m1) ∧ offset cfg = .ok off ∧
      LoopVectors.loopVectors (LaterPass.env (cfg.pass w)) (cfg.junk w) (g.points.map (firstWindows (cfg.pass w) m0 m1 c)) none = .ok s ∧
      d = result cfg (cfg.pass w) g off (g.points.map fun p => ((p.1 : ℚ), (p.2 : ℚ)))
        (g.points.map (firstWindows (cfg.pass w) m0 m1 c)) none s := by
  unfold first at h
  simp only at h
  split at h
  · cases h
  · rename_i m0 m1 hm
    split at h
    · cases h
    · rename_i s hs
      split at h
      · cases h
      · rename_i off ho
        injection h with h
        exact ⟨m0, m1, off, s, hm, ho, hs, h.symm⟩

/-- The estimates in pixels. -/
def pixelsOf (cfg : Config) (approx : List ApplyInterp.Delta) : List (Int × Int) :=
  approx.map fun a => (LaterPass.toInt cfg.nanInt a.1, LaterPass.toInt cfg.nanInt a.2)

/-- The estimates used by the loop. -/
def inputsOf (ds : List (Int × Int)) : (Nat → ℚ) × (Nat → ℚ) :=
  (fun i => (((ds.getD i (0, 0)).1 : Int) : ℚ), fun i => (((ds.getD i (0, 0)).2 : Int) : ℚ))

theorem later_made {cfg : Config} {w : Work} {g : Grid} {sh : Nat × Nat} {c : Images} {d d' x : Data}
    (h : later cfg w g sh c d = .ok (d', x)) : ∃ m0 m1 off s ds, minima c = .ok (m0, m1) ∧ offset cfg = .ok off ∧
      ds = pixelsOf cfg (d'.interp.approx.getD []) ∧ (∃ i', d' = { d with interp := i' }) ∧
      LoopVectors.loopVectors (LaterPass.env (cfg.pass w)) (cfg.junk w)
        (List.zipWith (LaterPass.windows (cfg.pass w) m0 m1 c.1 c.2 sh) g.points ds) (some (inputsOf ds)) = .ok s ∧
      x = result cfg (cfg.pass w) g off (laterPositions sh g ds)
        (List.zipWith (LaterPass.windows (cfg.pass w) m0 m1 c.1 c.2 sh) g.points ds) (some (inputsOf ds)) s := by
  unfold later at h
  simp only at h
  split at h
  · cases h
  · rename_i off ho
    split at h
    · cases h
    · rename_i r hr
      split at h
      · cases h
      · rename_i m0 m1 hm
        split at h
        · cases h
        · rename_i s hs
          injection h with h
          injection h with h1 h2
          subst h1
          exact ⟨m0, m1, off, s, _, hm, ho, rfl, ⟨r, rfl⟩, hs, h2.symm⟩

theorem passesDone_interp {cfg : Config} {ws : List Work} {c : Images} {gs : List Grid} {rs ds : List Data} {sh : Nat × Nat}
    (H : PassesDone (passes cfg) ws c sh gs rs ds) (i : Nat) (r d : Data) (hr : rs[i]? = some r) (hd : ds[i]? = some d) :
    ∃ i', d = { r with interp := i' } := by
  have hi : i < ws.length := by rw [← H.fixed]; exact (List.getElem?_eq_some_iff.1 hr).1
  by_cases hl : i + 1 < ws.length
  · have hw := List.getElem?_eq_getElem hl
    have hg := List.getElem?_eq_getElem (show i + 1 < gs.length by rw [H.grids]; exact hl)
    have hr' := List.getElem?_eq_getElem (show i + 1 < rs.length by rw [H.fixed]; exact hl)
    obtain ⟨x, hx, _⟩ := H.next i _ _ _ _ _ hw hg hr hr' hd
    obtain ⟨off, _, _, rfl⟩ := later_ok hx
    exact ⟨_, rfl⟩
  · have hw := List.getElem?_eq_getElem hi
    have hg := List.getElem?_eq_getElem (show i < gs.length by rw [H.grids]; exact hi)
    obtain ⟨off, _, rfl⟩ := final_cases (H.last i _ _ _ _ (by omega) hw hg hr hd)
    exact ⟨_, rfl⟩

theorem fix_same {cfg : Config} {x d : Data} (h : fix cfg x = .ok d) : ∃ r, d = { x with res := r } := by
  unfold fix at h
  split at h
  · cases h
  · rename_i r _
    injection h with h
    exact ⟨r, h.symm⟩

/-- How one result of a whole computation is made. -/
theorem made (cfg : Config) (ws : List Work) (hb : build cfg.passes = .ok ws) (couple : Images) (ds : List Data)
    (h : piv cfg couple = .ok ds) : ∃ c, maskImages cfg couple = .ok c ∧ ds.length = ws.length ∧
      ∀ k w d, ws[k]? = some w → ds[k]? = some d → ∃ g m0 m1 off pos wins inp s r x,
        prepareGrid w (c.1.ny, c.1.nx) = .ok g ∧ minima c = .ok (m0, m1) ∧ offset cfg = .ok off ∧
        LoopVectors.loopVectors (LaterPass.env (cfg.pass w)) (cfg.junk w) wins inp = .ok s ∧
        x = result cfg (cfg.pass w) g off pos wins inp s ∧ fix cfg x = .ok r ∧ (∃ i', d = { r with interp := i' }) ∧
        (k = 0 → pos = (g.points.map fun p => ((p.1 : ℚ), (p.2 : ℚ))) ∧ wins = g.points.map (firstWindows (cfg.pass w) m0 m1 c) ∧
          inp = none) ∧
        (∀ j, k = j + 1 → ∃ e es, ds[j]? = some e ∧ es = pixelsOf cfg (e.interp.approx.getD []) ∧
          pos = laterPositions (c.1.ny, c.1.nx) g es ∧
          wins = List.zipWith (LaterPass.windows (cfg.pass w) m0 m1 c.1 c.2 (c.1.ny, c.1.nx)) g.points es ∧
          inp = some (inputsOf es)) := by
  unfold piv at h
  rw [hb] at h
  obtain ⟨c, hc, gs, rs, H⟩ := (C74_chain (passes cfg) cfg.passes ws hb couple ds).1 h
  refine ⟨c, hc, H.returned, ?_⟩
  intro k w d hw hd
  have hk : k < ws.length := (List.getElem?_eq_some_iff.1 hw).1
  have kr : k < rs.length := by rw [H.fixed]; exact hk
  have kg : k < gs.length := by rw [H.grids]; exact hk
  have hr := List.getElem?_eq_getElem kr
  have hg := List.getElem?_eq_getElem kg
  have hint := passesDone_interp H k _ d hr hd
  cases k with
  | zero =>
    obtain ⟨x, hx, hf⟩ := H.first w _ _ hw hg hr
    obtain ⟨m0, m1, off, s, a1, a2, a3, a4⟩ := first_ok hx
    exact ⟨_, m0, m1, off, _, _, _, s, _, x, H.grid 0 w _ hw hg, a1, a2, a3, a4, hf, hint, fun _ => ⟨rfl, rfl, rfl⟩,
      fun j hj => absurd hj (by omega)⟩
  | succ k =>
    have kr' : k < rs.length := by omega
    have kd' : k < ds.length := by rw [H.returned]; omega
    have hr' := List.getElem?_eq_getElem kr'
    have hd' := List.getElem?_eq_getElem kd'
    obtain ⟨x, hx, hf⟩ := H.next k w _ _ _ _ hw hg hr' hr hd'
    obtain ⟨m0, m1, off, s, es, a1, a2, a3, a4, a5, a6⟩ := later_made hx
    refine ⟨_, m0, m1, off, _, _, _, s, _, x, H.grid (k + 1) w _ hw hg, a1, a2, a5, a6, hf, hint, fun hc => absurd hc (by omega), ?_⟩
    intro j hj
    have : j = k := by omega
    subst this
    exact ⟨_, es, hd', a3, rfl, rfl, rfl⟩

end WholePiv

open WholePiv in
/-- **C114**, the vectors.  For every couple of images for which a whole computation ends, and all parameters: in the result of
each pass, each vector is either NaN with an explanation, or has no error and then its correlation is at least `correl_min`, its
length is at most `params.fix.displacement_max`, and it is at most at `params.piv0.displacement_max` (a percentage is for the
largest side of the windows of the pass) of the estimate used for it, plus what the sub-pixel refinement adds in the last pass;
no estimate is used in the first pass.  Missing: the vectors replaced by a secondary peak can be longer (`C40_peak_too_long`);
the grids with one row or column if the neighbours are compared; and the vector without error can be NaN in the last pass
(`C111_nan_fails`). -/
theorem C114_vectors_partial (cfg : Config) (ε : ℝ) (hε : ∀ v, |((cfg.rnd v : ℚ) : ℝ) - v| ≤ ε) (hnum : 1 ≤ cfg.number)
    (ws : List Work) (hb : build cfg.passes = .ok ws) (couple : Images) (ds : List Data) (h : piv cfg couple = .ok ds)
    (hneigh : cfg.threshold = none ∨ ∀ d ∈ ds, 2 ≤ d.rows ∧ 2 ≤ d.cols) (k : Nat) (w : Work) (d : Data) (hw : ws[k]? = some w)
    (hd : ds[k]? = some d) (i : Nat) (hi : i < d.pos.length) :
    RemovedVector d i ∨ KeptVector cfg ε w.win0.1.toNat w.win0.2.toNat (decide (k + 1 = ds.length)) d i := by
  have hpos : 0 < w.win0.1.toNat ∧ 0 < w.win0.2.toNat := by
    by_contra hc
    unfold piv at h
    rw [hb] at h
    exact C74_empty_window_fails (passes cfg) cfg.passes ws hb w (List.mem_iff_getElem?.2 ⟨k, hw⟩) (by omega) couple ds h
  obtain ⟨c, _, hlen, hm⟩ := made cfg ws hb couple ds h
  obtain ⟨g, m0, m1, off, pos, wins, inp, s, r, x, a1, a2, a3, a4, a5, a6, ⟨i', a7⟩, a8, a9⟩ := hm k w d hw hd
  have hpl := points_length g (gridOk_of w _ g a1)
  obtain ⟨res, hres⟩ := fix_same a6
  have hrows : d.rows = g.iyvecs.length ∧ d.cols = g.ixvecs.length ∧ d.pos.length = pos.length := by
    rw [a7, hres, a5]
    exact ⟨rfl, rfl, by simp [result]⟩
  have hwins : wins.length = pos.length ∧ wins.length ≤ g.points.length := by
    cases k with
    | zero =>
      obtain ⟨e1, e2, _⟩ := a8 rfl
      rw [e1, e2]; simp
    | succ k =>
      obtain ⟨e, es, _, _, e1, e2, _⟩ := a9 k rfl
      rw [e1, e2]
      simp only [laterPositions, List.length_zipWith]
      exact ⟨trivial, Nat.min_le_left _ _⟩
  have hn : cfg.threshold = none ∨ 2 ≤ g.iyvecs.length ∧ 2 ≤ g.ixvecs.length := by
    rcases hneigh with hn | hn
    · exact .inl hn
    · right
      rw [← hrows.1, ← hrows.2.1]
      exact hn d (List.mem_iff_getElem?.2 ⟨k, hd⟩)
  have hsub : decide (k + 1 = ds.length) = w.subpix cfg.passes := by
    have := C74_subpix cfg.passes ws hb hnum k w hw
    rw [hlen]
    cases hs : w.subpix cfg.passes with
    | true => have := this.1 hs; simpa using this
    | false =>
      rw [hs] at this
      simp only [Bool.false_eq_true, false_iff] at this
      simpa using this
  rw [hsub, a7]
  rw [a5] at a6
  rcases result_vectors cfg ε hε w hpos.1 hpos.2 g hpl hn off pos wins hwins.2 inp s a4 r a6 i (by omega) with hv | hv
  · exact .inl hv
  · exact .inr ⟨hv.noError, hv.correl, hv.length, hv.replaced, hv.limit⟩

open WholePiv in
/-- **C114**, the estimates: none in the first pass; in each other pass the estimate of each vector is the value computed from the
previous result for the point of its grid, rounded to a number of pixels. -/
theorem C114_estimates (cfg : Config) (ws : List Work) (hb : build cfg.passes = .ok ws) (couple : Images) (ds : List Data)
    (h : piv cfg couple = .ok ds) (k : Nat) (d : Data) (hd : ds[k]? = some d) (i : Nat) (hi : i < d.pos.length) :
    (k = 0 → inputAt d i = (0, 0)) ∧
    ∀ j, k = j + 1 → ∃ e a, ∃ ex ey : Int, ds[j]? = some e ∧ EstimateAt e i a ∧ inputAt d i = ((ex : ℚ), (ey : ℚ)) ∧
      (∀ q, a.1 = some q → |q - ex| ≤ 1 / 2) ∧ (∀ q, a.2 = some q → |q - ey| ≤ 1 / 2) := by
  obtain ⟨c, _, hlen, hm⟩ := made cfg ws hb couple ds h
  have hk : k < ws.length := by rw [← hlen]; exact (List.getElem?_eq_some_iff.1 hd).1
  obtain ⟨g, m0, m1, off, pos, wins, inp, s, r, x, a1, a2, a3, a4, a5, a6, ⟨i', a7⟩, a8, a9⟩ := hm k _ d (List.getElem?_eq_getElem hk) hd
  obtain ⟨res, hres⟩ := fix_same a6
  have hinp : inputAt d i = inpAt inp i := by rw [a7, hres, a5]; rfl
  have hpl : d.pos.length = pos.length := by rw [a7, hres, a5]; simp [result]
  rw [hinp]
  constructor
  · intro h0
    rw [(a8 h0).2.2]; rfl
  · intro j hj
    obtain ⟨e, es, b1, b2, b3, b4, b5⟩ := a9 j hj
    have hi' : i < es.length := by
      rw [hpl, b3] at hi
      simp only [laterPositions, List.length_zipWith] at hi
      omega
    obtain ⟨l, hl⟩ : ∃ l, e.interp.approx = some l := by
      cases ha : e.interp.approx with
      | none => rw [b2, ha] at hi'; simp [pixelsOf] at hi'
      | some l => exact ⟨l, rfl⟩
    rw [hl, Option.getD_some] at b2
    have hi2 : i < l.length := by rw [b2] at hi'; simpa [pixelsOf] using hi'
    refine ⟨e, l[i], es[i].1, es[i].2, b1, ⟨l, hl, List.getElem?_eq_getElem hi2⟩, ?_, ?_, ?_⟩
    · rw [b5]
      simp [inpAt, inputsOf, List.getD_eq_getElem?_getD, List.getElem?_eq_getElem hi']
    · intro q hq
      subst b2
      simp only [pixelsOf, List.getElem_map, hq, LaterPass.toInt]
      exact roundEven_near q
    · intro q hq
      subst b2
      simp only [pixelsOf, List.getElem_map, hq, LaterPass.toInt]
      exact roundEven_near q

open WholePiv in
/-- **C114**, the positions, in the image before the mask (`off` is the translation of the mask): in the first pass each vector is
on its point of the grid; in the other passes it is in the middle of two windows separated by its estimate, at half a pixel of
the point of the grid, or one of the windows is centred on this point. -/
theorem C114_positions (cfg : Config) (ws : List Work) (hb : build cfg.passes = .ok ws) (couple c : Images)
    (hc : maskImages cfg couple = .ok c) (off : ApplyInterp.Pos) (hoffs : IsOffset cfg.mask off) (ds : List Data)
    (h : piv cfg couple = .ok ds) (k : Nat) (w : Work) (hw : ws[k]? = some w) (d : Data) (hd : ds[k]? = some d) (g : Grid)
    (hg : prepareGrid w (c.1.ny, c.1.nx) = .ok g) :
    d.rows = g.iyvecs.length ∧ d.cols = g.ixvecs.length ∧ d.pos.length ≤ g.points.length ∧
    (k = 0 → d.pos = g.points.map fun p => ((p.1 : ℚ) + off.1, (p.2 : ℚ) + off.2)) ∧
    (1 ≤ k → ∀ i p q, d.pos[i]? = some p → g.points[i]? = some q → ∃ x y ex ey : Int,
      inputAt d i = ((ex : ℚ), (ey : ℚ)) ∧
      p = ((x + (x + ex) : ℚ) / 2 + off.1, (y + (y + ey) : ℚ) / 2 + off.2) ∧
      ((x, y) = q ∨ (x + ex, y + ey) = q ∨ (0 ≤ p.1 - off.1 - q.1 ∧ p.1 - off.1 - q.1 ≤ 1 / 2 ∧
        0 ≤ p.2 - off.2 - q.2 ∧ p.2 - off.2 - q.2 ≤ 1 / 2))) := by
  have hoff := offset_ok hoffs
  obtain ⟨c', hc', hlen, hm⟩ := made cfg ws hb couple ds h
  rw [hc] at hc'
  injection hc' with hc'
  subst hc'
  obtain ⟨g', m0, m1, off', pos, wins, inp, s, r, x, a1, a2, a3, a4, a5, a6, ⟨i', a7⟩, a8, a9⟩ := hm k w d hw hd
  rw [hg] at a1
  injection a1 with a1
  subst a1
  rw [hoff] at a3
  injection a3 with a3
  subst a3
  obtain ⟨res, hres⟩ := fix_same a6
  have hp : d.pos = pos.map fun p => (p.1 + off.1, p.2 + off.2) := by rw [a7, hres, a5]; rfl
  have hinp : ∀ i, inputAt d i = inpAt inp i := by intro i; rw [a7, hres, a5]; rfl
  refine ⟨by rw [a7, hres, a5]; rfl, by rw [a7, hres, a5]; rfl, ?_, ?_, ?_⟩
  · rw [hp, List.length_map]
    cases k with
    | zero => rw [(a8 rfl).1]; simp
    | succ k =>
      obtain ⟨e, es, _, _, b3, _⟩ := a9 k rfl
      rw [b3, laterPositions, List.length_zipWith]
      omega
  · intro h0
    rw [hp, (a8 h0).1, List.map_map]
    rfl
  · intro hk i p q hpi hqi
    obtain ⟨j, rfl⟩ : ∃ j, k = j + 1 := ⟨k - 1, by omega⟩
    obtain ⟨e, es, b1, b2, b3, b4, b5⟩ := a9 j rfl
    rw [hp, List.getElem?_map, b3] at hpi
    cases hz : (laterPositions (c.1.ny, c.1.nx) g es)[i]? with
    | none => rw [hz] at hpi; cases hpi
    | some z =>
      rw [hz] at hpi
      injection hpi with hpi
      unfold laterPositions at hz
      rw [List.getElem?_zipWith, hqi] at hz
      cases hes : es[i]? with
      | none => rw [hes] at hz; cases hz
      | some ed =>
        rw [hes] at hz
        simp only [Option.some.injEq] at hz
        obtain ⟨f1, f2, f3, f4⟩ := C33_windows c.1.ny c.1.nx q.1 q.2 ed.1 ed.2
        have f5 := C33_position c.1.ny c.1.nx q.1 q.2 ed.1 ed.2
        simp only at f1 f2 f3 f4 f5
        generalize centres c.1.ny c.1.nx q.1 q.2 ed.1 ed.2 = C at *
        have hx : C.ix1 = C.ix0 + ed.1 := by omega
        have hy : C.iy1 = C.iy0 + ed.2 := by omega
        rw [hx] at f3
        rw [hy] at f4
        push_cast at f3 f4
        refine ⟨C.ix0, C.iy0, ed.1, ed.2, ?_, ?_, ?_⟩
        · rw [hinp, b5]
          simp [inpAt, inputsOf, List.getD_eq_getElem?_getD, hes]
        · rw [← hpi, ← hz]
          ext
          · simp only; linarith
          · simp only; linarith
        · rw [← hpi, ← hz]
          simp only [add_sub_cancel_right]
          rcases f5 with ⟨u, v⟩ | ⟨u, v⟩ | ⟨_, _, u, v⟩
          · left; rw [u, v]
          · right; left; rw [← hx, ← hy, u, v]
          · right; right
            rcases u with u | u <;> rcases v with v | v <;> rw [u, v] <;> norm_num

/-! ## Examples -/

/-- The limits: 50% of windows of 8 x 12 and of 12 x 8 pixels are 6 pixels. -/
example : IsLimit (.percent 50) 8 12 6 ∧ IsLimit (.percent 50) 12 8 6 ∧ IsLimit (.number 3) 8 12 3 :=
  ⟨.cols _ _ _ (by decide) _ (by norm_num), .rows _ _ _ (by decide) _ (by norm_num), .number _ _ _⟩

theorem WholePiv.exactNear_exists : ∃ rnd, Exact rnd ∧ ∀ v, |((rnd v : ℚ) : ℝ) - v| ≤ 1 := by
  classical
  refine ⟨fun x => if h : ∃ q : ℚ, (q : ℝ) = x then h.choose else ⌊x⌋, ?_, ?_⟩
  · intro q
    have h : ∃ q' : ℚ, (q' : ℝ) = (q : ℝ) := ⟨q, rfl⟩
    simp only
    rw [dif_pos h]
    exact_mod_cast h.choose_spec
  · intro v
    simp only
    split
    · rename_i h
      rw [h.choose_spec, sub_self, abs_zero]
      norm_num
    · push_cast
      rw [abs_le]
      constructor <;> linarith [Int.floor_le v, Int.lt_floor_add_one v]

open WholePiv in
/-- Non-vacuity of C114: the two passes of the example of C113; in the first one no vector is removed. -/
example : ∃ (cfg : Config) (ws : List Work) (ds : List Data) (d : Data), (∀ v, |((cfg.rnd v : ℚ) : ℝ) - v| ≤ 1) ∧ 1 ≤ cfg.number ∧
    build cfg.passes = .ok ws ∧ piv cfg (ramp 0 0, ramp 2 (-1)) = .ok ds ∧ (∀ d ∈ ds, 2 ≤ d.rows ∧ 2 ≤ d.cols) ∧
    ds[0]? = some d ∧ d.pos.length = 4 ∧ ∀ i < d.pos.length, ¬ RemovedVector d i ∧ KeptVector cfg 1 12 12 false d i := by
  obtain ⟨rnd, hr, hn⟩ := exactNear_exists
  obtain ⟨p, hp⟩ := pinv_exists 1 le_rfl
  obtain ⟨ds, h1, h2, h3, _⟩ := demo_piv rnd hr p hp
  have hb := demo_build rnd p
  have hrow : ∀ d ∈ ds, 2 ≤ d.rows ∧ 2 ≤ d.cols := by
    intro d hd
    obtain ⟨k, hk⟩ := List.mem_iff_getElem?.1 hd
    have hlt : k < 2 := by rw [← h2]; exact (List.getElem?_eq_some_iff.1 hk).1
    rcases Nat.lt_succ_iff_lt_or_eq.1 hlt with hlt | rfl
    · have : k = 0 := by omega
      subst this
      obtain ⟨e1, e2, _⟩ := C114_positions (demoCfg rnd p) _ hb _ (ramp 0 0, ramp 2 (-1)) rfl (0, 0) .noMask ds h1 0 _ rfl d hk _ demo_grid
      rw [e1, e2]; decide
    · obtain ⟨e1, e2, _⟩ := C114_positions (demoCfg rnd p) _ hb _ (ramp 0 0, ramp 2 (-1)) rfl (0, 0) .noMask ds h1 1 _ rfl d hk _ demo_grid2
      rw [e1, e2]; decide
  have k0 : 0 < ds.length := by omega
  have hd := List.getElem?_eq_getElem k0
  obtain ⟨-, -, -, e4, -⟩ := C114_positions (demoCfg rnd p) _ hb _ (ramp 0 0, ramp 2 (-1)) rfl (0, 0) .noMask ds h1 0 _ rfl _ hd _ demo_grid
  have hlen : ds[0].pos.length = 4 := by rw [e4 rfl]; rfl
  refine ⟨demoCfg rnd p, _, ds, ds[0], hn, by show (1 : Int) ≤ 2; norm_num, hb, h1, hrow, hd, hlen, ?_⟩
  intro i hi
  have hnot : ¬ RemovedVector ds[0] i := fun hc => hc.2 (h3 _ hd i hi).2
  refine ⟨hnot, ?_⟩
  have := C114_vectors_partial (demoCfg rnd p) 1 hn (by show (1 : Int) ≤ 2; norm_num) _ hb _ ds h1 (.inr hrow) 0 _ _ rfl hd i hi
  rcases this with h | h
  · exact absurd h hnot
  · rw [h2] at h
    exact h

end Verif
