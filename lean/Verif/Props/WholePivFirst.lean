import Verif.Props.WholePiv

/-!
# A whole computation of PIV, from the images only (C113)

The first pass finds the displacement when its windows are displaced circularly; then the computation ends, with uniform fields.
-/

namespace Verif
open Finset Verif.PivGrid Verif.Correl Verif.CorrelFft Verif.WholePiv
open Verif.LaterPass (pixels corr peaks env factor factor_pos peaks_eq window_of)
open Verif.LoopVectors (Method SubErr State VecErr)
open Verif.Multipass (Work Passes build prepareGrid)

/-! ## Specification -/

/-- The window of shape `(n0, n1)` centred on the point `g` of the image minus its minimum `m`, extended by zeros. -/
def shown (n0 n1 : Nat) (m : Int) (im : Img Int) (g : Int × Int) : ℕ → ℕ → ℝ := fun i j =>
  (extended m im (g.2 - ((n0 / 2 : Nat) : Int) + i) (g.1 - ((n1 / 2 : Nat) : Int) + j) : ℝ)

/-- What is asked of the first pass, with windows of shape `(n0, n1)` and the grid `g`: the windows of the two images are
displaced circularly by `(dx, dy)`, less than half of the window, and have no period; the displacement is allowed. -/
structure GoodFirst (cfg : Config) (c : Images) (m0 m1 : Int) (dx dy : Int) (n0 n1 : Nat) (g : Grid) : Prop where
  half0 : InsideHalf n0 dy
  half1 : InsideHalf n1 dx
  dmax : AllowedAround (cfg.displMax.parse n0 n1) dx dy
  norm : cfg.lib = .numpy ∨ n1 % 2 = 0
  neighbours : cfg.threshold = none ∨ 2 ≤ g.iyvecs.length ∧ 2 ≤ g.ixvecs.length
  shapes : c.2.ny = c.1.ny ∧ c.2.nx = c.1.nx
  inside : ∀ p ∈ g.points, 0 ≤ p.1 ∧ p.1 ≤ c.1.nx ∧ 0 ≤ p.2 ∧ p.2 ≤ c.1.ny
  windows : ∀ p ∈ g.points, TranslatedBy n0 n1 dx dy (shown n0 n1 m0 c.1 p) (shown n0 n1 m1 c.2 p) ∧
    NoPeriod n0 n1 (shown n0 n1 m0 c.1 p)

/-! ## The correlation -/

namespace WholePiv

/-- The map of two windows. -/
theorem corr_any (P : LaterPass.Params) (hr : Exact P.rnd) (w0 w1 : Img Int) (i j : ℕ) (hi : i < P.n0) (hj : j < P.n1) :
    ∃ q : ℚ, (corr P w0 w1).1.get i j = some q ∧
      (q : ℝ) = (factor P : ℝ) * circCorrel P.n0 P.n1 (pixels w0) (pixels w1)
        ((Correl.fftCls P.n0 P.n1 none 0 0).displacement j i).1 ((Correl.fftCls P.n0 P.n1 none 0 0).displacement j i).2 := by
  have hq : ∀ d e : ℤ, circCorrel P.n0 P.n1 (pixels w0) (pixels w1) d e =
      ((circCorrelQ P.n0 P.n1 (fun i j => (w0.get i j : ℚ)) (fun i j => (w1.get i j : ℚ)) d e : ℚ) : ℝ) := by
    intro d e
    rw [circCorrelQ_cast]
    have h0 : toR (fun i j => (w0.get i j : ℚ)) = pixels w0 := by
      funext i j; unfold toR pixels; push_cast; rfl
    have h1 : toR (fun i j => (w1.get i j : ℚ)) = pixels w1 := by
      funext i j; unfold toR pixels; push_cast; rfl
    rw [h0, h1]
  have key : ∀ d e : ℤ, (factor P : ℝ) * circCorrel P.n0 P.n1 (pixels w0) (pixels w1) d e =
      ((factor P * circCorrelQ P.n0 P.n1 (fun i j => (w0.get i j : ℚ)) (fun i j => (w1.get i j : ℚ)) d e : ℚ) : ℝ) := by
    intro d e
    rw [hq]
    push_cast; rfl
  refine ⟨_, rfl, ?_⟩
  unfold factor at key ⊢
  cases hl : P.lib with
  | numpy =>
    simp only [hl] at key ⊢
    rw [C65_numpy P.junk P.n0 P.n1 _ _ i j hi hj]
    have k1 := key ((Correl.fftCls P.n0 P.n1 none 0 0).displacement j i).1 ((Correl.fftCls P.n0 P.n1 none 0 0).displacement j i).2
    rw [Rat.cast_one, one_mul] at k1
    rw [k1, hr, ← k1, Rat.cast_one, one_mul]
  | fftw =>
    simp only [hl] at key ⊢
    rw [C65_fftw P.junk P.n0 P.n1 _ _ i j hi hj]
    have k1 := key ((Correl.fftCls P.n0 P.n1 none 0 0).displacement j i).1 ((Correl.fftCls P.n0 P.n1 none 0 0).displacement j i).2
    have e : (((P.n1 : ℚ) * P.n0 : ℚ) : ℝ) = (P.n1 : ℝ) * P.n0 := by push_cast; rfl
    rw [e] at k1 ⊢
    rw [k1, hr, ← k1]

/-- The norm for two windows with the same fluctuations. -/
theorem corr_norm_any (P : LaterPass.Params) (hr : Exact P.rnd) (h0 : 0 < P.n0) (h1 : 0 < P.n1) (hl : P.lib = .numpy ∨ P.n1 % 2 = 0)
    (w0 w1 : Img Int) (hs : sumSq P.n0 P.n1 (pixels w1) = sumSq P.n0 P.n1 (pixels w0)) :
    ((corr P w0 w1).2 : ℝ) = (factor P : ℝ) * sumSq P.n0 P.n1 (pixels w0) := by
  have hq : sumSq P.n0 P.n1 (pixels w0) =
      ((circCorrelQ P.n0 P.n1 (fun i j => (w0.get i j : ℚ)) (fun i j => (w0.get i j : ℚ)) 0 0 : ℚ) : ℝ) := by
    rw [circCorrelQ_cast]
    have : toR (fun i j => (w0.get i j : ℚ)) = pixels w0 := by
      funext i j; unfold toR pixels; push_cast; rfl
    rw [this, circCorrel_translated P.n0 P.n1 h0 h1 0 0 _ _ (LaterPass.self_translated _ _ _)]
  have key : (factor P : ℝ) * sumSq P.n0 P.n1 (pixels w0) =
      ((factor P * circCorrelQ P.n0 P.n1 (fun i j => (w0.get i j : ℚ)) (fun i j => (w0.get i j : ℚ)) 0 0 : ℚ) : ℝ) := by
    rw [hq]; push_cast; rfl
  unfold corr
  unfold factor at key ⊢
  cases hl' : P.lib with
  | numpy =>
    simp only [hl'] at key ⊢
    rw [Rat.cast_one, one_mul] at key ⊢
    rw [C66_norm_numpy P.junk P.n0 P.n1 h0 h1, hs, Real.sqrt_mul_self (sumSq_nonneg _ _ _), key, hr]
  | fftw =>
    have heven : P.n1 % 2 = 0 := by
      rcases hl with hl | hl
      · rw [hl'] at hl; cases hl
      · exact hl
    simp only [hl'] at key ⊢
    have e : (((P.n1 : ℚ) * P.n0 : ℚ) : ℝ) = (P.n1 : ℝ) * P.n0 := by push_cast; rfl
    rw [e] at key ⊢
    rw [C66_norm_fftw P.junk P.n0 P.n1 h0 h1 heven, hs, Real.sqrt_mul_self (sumSq_nonneg _ _ _), key, hr]

/-- The peak of two windows displaced circularly. -/
theorem peaks_translated (P : LaterPass.Params) (hr : Exact P.rnd) (dx dy : ℤ) (hdx : InsideHalf P.n1 dx) (hdy : InsideHalf P.n0 dy)
    (hd : AllowedAround P.dmax dx dy) (hl : P.lib = .numpy ∨ P.n1 % 2 = 0) (hnb : P.nbPeaks = 1)
    (w0 w1 : Img Int) (ht : TranslatedBy P.n0 P.n1 dx dy (pixels w0) (pixels w1)) (hp : NoPeriod P.n0 P.n1 (pixels w0)) :
    peaks P (corr P w0 w1).1 (corr P w0 w1).2 = .ok (⟨dx, dy, some 1⟩, none, masked P.n0 P.n1 P.dmax (corr P w0 w1).1) := by
  have h0 : 0 < P.n0 := by obtain ⟨a, b⟩ := hdy; omega
  have h1 : 1 < P.n1 := by obtain ⟨a, b⟩ := hdx; omega
  have hf := factor_pos P h0 (by omega)
  obtain ⟨q, hq, p, hpk, hdisp⟩ := recover_peak P.n0 P.n1 (pixels w0) (pixels w1) dx dy (factor P : ℝ) (by exact_mod_cast hf)
    ht hp hdx hdy P.dmax hd P.radius P.nbPeaks (corr P w0 w1).1 (corr P w0 w1).2 rfl rfl
    (fun i j hi hj => corr_any P hr w0 w1 i j hi hj)
  have hff : firstPeak (Correl.fftCls P.n0 P.n1 P.dmax P.radius P.nbPeaks) (masked P.n0 P.n1 P.dmax (corr P w0 w1).1) (corr P w0 w1).2
      = .ok (p, masked P.n0 P.n1 P.dmax (corr P w0 w1).1) := by
    unfold firstPeak; rw [hpk]
  obtain ⟨d1, d2⟩ := displacements_first hpk
  have hn := corr_norm_any P hr h0 (by omega) hl w0 w1 (sumSq_translated P.n0 P.n1 h0 (by omega) dx dy _ _ ht)
  have hqn : q = (corr P w0 w1).2 := by
    have : (q : ℝ) = ((corr P w0 w1).2 : ℝ) := by rw [hq, hn]
    exact_mod_cast this
  have hs := sumSq_pos P.n0 P.n1 h0 h1 (pixels w0) hp
  have hnz : (corr P w0 w1).2 ≠ 0 := by
    intro hz
    rw [hz, Rat.cast_zero] at hn
    rcases mul_eq_zero.1 hn.symm with h | h
    · have : (factor P : ℝ) ≠ 0 := by exact_mod_cast hf.ne'
      exact this h
    · exact hs h
  rw [peaks_eq, hff, d1 hnb, hdisp, if_neg hnz, hqn, div_self hnz]

/-- The two windows of the first pass. -/
theorem firstWindows_shown (P : LaterPass.Params) (h0 : 0 < P.n0) (h1 : 0 < P.n1) (m0 m1 : Int) (c : Images)
    (hsh : c.2.ny = c.1.ny ∧ c.2.nx = c.1.nx) (g : Int × Int) (hg : 0 ≤ g.1 ∧ g.1 ≤ c.1.nx ∧ 0 ≤ g.2 ∧ g.2 ≤ c.1.ny) :
    ((firstWindows P m0 m1 c g).1.ny = P.n0 ∧ (firstWindows P m0 m1 c g).1.nx = P.n1) ∧
    ((firstWindows P m0 m1 c g).2.ny = P.n0 ∧ (firstWindows P m0 m1 c g).2.nx = P.n1) ∧
    ∀ i j, i < P.n0 → j < P.n1 → pixels (firstWindows P m0 m1 c g).1 i j = shown P.n0 P.n1 m0 c.1 g i j ∧
      pixels (firstWindows P m0 m1 c g).2 i j = shown P.n0 P.n1 m1 c.2 g i j := by
  obtain ⟨p1, p2, p3⟩ := window_of P.n0 P.n1 h0 h1 m0 c.1 g.1 g.2 hg
  obtain ⟨q1, q2, q3⟩ := window_of P.n0 P.n1 h0 h1 m1 c.2 g.1 g.2 (by rw [hsh.1, hsh.2]; exact hg)
  refine ⟨⟨p1, p2⟩, ⟨q1, q2⟩, ?_⟩
  intro i j hi hj
  unfold pixels shown
  exact ⟨congrArg _ (p3 i j hi hj), congrArg _ (q3 i j hi hj)⟩

/-- The first pass and its fix. -/
theorem first_step (cfg : Config) (hr : Exact cfg.rnd) (hnb : cfg.nbPeaks = 1) (dx dy : Int) (hfix : FixAccepts cfg dx dy)
    (w : Work) (hw : w.subpix cfg.passes = false) (g : Grid) (c : Images) (m0 m1 : Int) (hm : minima c = .ok (m0, m1))
    (hg : prepareGrid w (c.1.ny, c.1.nx) = .ok g) (hp : GoodFirst cfg c m0 m1 dx dy w.win0.1.toNat w.win0.2.toNat g)
    (off : ApplyInterp.Pos) (hoff : offset cfg = .ok off) :
    ∃ x x', first cfg w g c = .ok x ∧ fix cfg x = .ok x' ∧ x'.pos.length = g.points.length ∧
      x'.interp = ⟨[], none, none, none, none, none, none⟩ ∧ Uniform dx dy x' := by
  have hgo := gridOk_of w _ g hg
  have hlen := points_length g hgo
  have h0 : 0 < (cfg.pass w).n0 := by obtain ⟨a, b⟩ := hp.half0; show 0 < w.win0.1.toNat; omega
  have h1 : 0 < (cfg.pass w).n1 := by obtain ⟨a, b⟩ := hp.half1; show 0 < w.win0.2.toNat; omega
  have hnone : (env (cfg.pass w)).subpix = none := by
    unfold env
    rw [show (cfg.pass w).last = false from hw]
    rfl
  -- one vector
  have hone : ∀ p ∈ g.points, ∃ s1, LoopVectors.loopVectors (env (cfg.pass w)) (cfg.junk w) [firstWindows (cfg.pass w) m0 m1 c p] none = .ok s1 ∧
      s1.deltaxs 0 = some (dx : ℚ) ∧ s1.deltays 0 = some (dy : ℚ) ∧ s1.correlsMax 0 = some 1 ∧ s1.errors.get? 0 = none := by
    intro p hpm
    obtain ⟨w1, w2, w3⟩ := firstWindows_shown (cfg.pass w) h0 h1 m0 m1 c hp.shapes p (hp.inside p hpm)
    obtain ⟨t1, t2⟩ := hp.windows p hpm
    generalize firstWindows (cfg.pass w) m0 m1 c p = fw at *
    have ht : TranslatedBy (cfg.pass w).n0 (cfg.pass w).n1 dx dy (pixels fw.1) (pixels fw.2) := by
      intro a b ha hb
      rw [(w3 _ _ (index_lt _ h0 _) (index_lt _ h1 _)).2, (w3 a b ha hb).1]
      exact t1 a b ha hb
    have hnp : NoPeriod (cfg.pass w).n0 (cfg.pass w).n1 (pixels fw.1) := by
      intro d e hh
      apply t2
      intro a b ha hb
      have := hh a b ha hb
      rw [(w3 _ _ (index_lt _ h0 _) (index_lt _ h1 _)).1, (w3 a b ha hb).1] at this
      exact this
    have hpk := peaks_translated (cfg.pass w) hr dx dy hp.half1 hp.half0 hp.dmax hp.norm hnb fw.1 fw.2 ht hnp
    obtain ⟨o1, o2, o3, o4⟩ := C34_one_vector (env (cfg.pass w)) (cfg.junk w) fw
    obtain ⟨s', l1, l2⟩ := (o4 ⟨w1, w2⟩ _ _ _ hpk).1 hnone
    unfold view at l2
    injection l2 with v1 v2 v3 v4 v5
    exact ⟨s', l1, v1, v2, v3, v4⟩
  -- all the vectors
  obtain ⟨s, hs⟩ : ∃ s, LoopVectors.loopVectors (env (cfg.pass w)) (cfg.junk w) (g.points.map (firstWindows (cfg.pass w) m0 m1 c)) none = .ok s := by
    cases hl : LoopVectors.loopVectors (env (cfg.pass w)) (cfg.junk w) (g.points.map (firstWindows (cfg.pass w) m0 m1 c)) none with
    | ok s => exact ⟨s, rfl⟩
    | error e =>
      exfalso
      obtain ⟨i, hi, he⟩ := (C34_partial (env (cfg.pass w)) (cfg.junk w) (cfg.junk w) _).2 e hl
      rw [List.getElem_map] at he
      obtain ⟨s1, l1, _⟩ := hone _ (List.getElem_mem (by simpa using hi))
      rw [l1] at he
      cases he
  have hpart := (C34_partial (env (cfg.pass w)) (cfg.junk w) (cfg.junk w) _).1 s hs
  have hview : ∀ i < g.points.length, s.deltaxs i = some (dx : ℚ) ∧ s.deltays i = some (dy : ℚ) ∧ s.correlsMax i = some 1 ∧
      s.errors.get? i = none := by
    intro i hi
    obtain ⟨s1, g1, g2⟩ := hpart.1 i (by simpa using hi)
    rw [List.getElem_map] at g1
    obtain ⟨s2, l1, l2, l3, l4, l5⟩ := hone _ (List.getElem_mem hi)
    rw [l1] at g1
    injection g1 with g1
    subst g1
    unfold view at g2
    injection g2 with v1 v2 v3 v4 v5
    rw [v1, v2, v3, v4]
    exact ⟨l2, l3, l4, l5⟩
  have herr : s.errors = [] := by
    apply dict_nil
    intro i
    by_cases hi : i < g.points.length
    · exact (hview i hi).2.2.2
    · exact hpart.2 i (by rw [List.length_map]; omega)
  have hfirst : first cfg w g c = .ok (result cfg (cfg.pass w) g off (g.points.map fun p => ((p.1 : ℚ), (p.2 : ℚ)))
      (g.points.map (firstWindows (cfg.pass w) m0 m1 c)) none s) := by
    unfold first
    simp only [hm, hs, hoff]
  generalize hx : result cfg _ _ _ _ _ _ _ = x at hfirst
  obtain ⟨r', f1, f2⟩ := fix_keeps cfg.fix (by show cfg.nbPeaks < 2; omega) ⟨x.secondary, x.input, x.subpix⟩ g.iyvecs.length g.ixvecs.length
    hp.neighbours x.res dx dy (by rw [← hx]; show s.errors.map _ = []; rw [herr]; rfl)
    (fun i hi => by rw [← hx]; exact (hview i (by omega)).2.2.1) hfix.1 hfix.2
    (fun i hi => by
      rw [← hx]
      left
      show (s.deltaxs i, s.deltays i) = _
      rw [(hview i (by omega)).1, (hview i (by omega)).2.1])
  have hpos : x.pos.length = g.points.length := by
    rw [← hx]
    show (List.map _ (List.map _ _)).length = _
    rw [List.length_map, List.length_map]
  refine ⟨x, { x with res := r' }, hfirst, ?_, hpos, by rw [← hx]; rfl, ?_⟩
  · unfold fix
    have hr1 : x.rows = g.iyvecs.length := by rw [← hx]; rfl
    have hr2 : x.cols = g.ixvecs.length := by rw [← hx]; rfl
    rw [hr1, hr2, f1]
  · intro i hi
    have hi' : i < g.points.length := by rw [← hpos]; exact hi
    obtain ⟨b1, b2, b3⟩ := f2 i (by omega)
    unfold vectorAt
    simp only [b1, b2, b3, and_true]
    rw [← hx]
    show (s.deltaxs i, s.deltays i) = _
    rw [(hview i hi').1, (hview i hi').2.1]

/-- The end of the computation, without the splines. -/
theorem final_ends (cfg : Config) (hE' : NeverRaises cfg.ext) (ht' : ApplyInterp.wantsTps cfg.interp true = false) (g : Grid)
    (off : ApplyInterp.Pos) (hoff : offset cfg = .ok off) (r : Data) : ∃ d, final cfg g r = .done d ∨ final cfg g r = .interpError d := by
  unfold final
  rw [hoff]
  simp only
  by_cases hu : ∃ v ∈ r.toRes.vectors, Usable v
  · have := interp_ok hE' (w := ⟨cfg.interp, g, off⟩) (last := true) ht' hu
    rcases hap : ApplyInterp.applyInterp cfg.ext ⟨cfg.interp, g, off⟩ true r.toRes with ⟨r', o⟩
    rw [hap] at this
    simp only at this
    subst this
    exact ⟨_, .inl rfl⟩
  · have := (C82_only_nan cfg.ext ⟨cfg.interp, g, off⟩ true r.toRes (fun v hv h => hu ⟨v, hv, h⟩)).1
    rcases hap : ApplyInterp.applyInterp cfg.ext ⟨cfg.interp, g, off⟩ true r.toRes with ⟨r', o⟩
    rw [hap] at this
    simp only at this
    subst this
    exact ⟨_, .inr rfl⟩

theorem usable_uniform {dx dy : Int} {r : Data} (hu : Uniform dx dy r) (hp : r.pos ≠ []) : ∃ v ∈ r.toRes.vectors, Usable v := by
  have h0 : 0 < r.pos.length := List.length_pos_iff.2 hp
  obtain ⟨v, hv, e⟩ := vectors_mem h0
  rw [(hu 0 h0).1] at e
  injection e with e1 e2
  exact ⟨v, hv, _, _, e1, e2⟩

/-- The later passes end. -/
theorem later_ends (cfg : Config) (hr : Exact cfg.rnd) (hnb : cfg.nbPeaks = 1) (hE : KeepsBounds cfg.ext) (hE' : NeverRaises cfg.ext)
    (ht : ApplyInterp.wantsTps cfg.interp false = false) (ht' : ApplyInterp.wantsTps cfg.interp true = false)
    (dx dy : Int) (hfix : FixAccepts cfg dx dy) (hsub : SubpixOk cfg) (c : Images) (m0 m1 : Int) (hm : minima c = .ok (m0, m1))
    (off : ApplyInterp.Pos) (hoff : offset cfg = .ok off) :
    ∀ (ws : List Work) (last : Work) (g0 : Grid) (d : Data),
      (∀ w ∈ ws, w.memo = none ∧ ∃ g, prepareGrid w (c.1.ny, c.1.nx) = .ok g ∧ GoodPass cfg c m0 m1 dx dy w.win0.1.toNat w.win0.2.toNat g) →
      (∀ pre w post, ws = pre ++ w :: post → post ≠ [] → w.subpix cfg.passes = false) →
      last.memo = some ((c.1.ny, c.1.nx), g0) → UsableNear dx dy d → (ws ≠ [] → ∃ v ∈ d.toRes.vectors, Usable v) →
      ∃ ds, (Multipass.laterPasses (passes cfg) c last d ws).2 = .ok ds := by
  intro ws
  induction ws with
  | nil =>
    intro last g0 d _ _ hmemo _ _
    unfold Multipass.laterPasses Multipass.finish
    rw [hmemo]
    simp only
    obtain ⟨d', h | h⟩ := final_ends cfg hE' ht' g0 off hoff d
    · have : (passes cfg).final last.fresh g0 d = .done d' := h
      rw [this]; exact ⟨_, rfl⟩
    · have : (passes cfg).final last.fresh g0 d = .interpError d' := h
      rw [this]; exact ⟨_, rfl⟩
  | cons w ws ih =>
    intro last g0 d hall hsubs hmemo hn hu
    obtain ⟨hwm, g, hg, hgood⟩ := hall w (by simp)
    have hmf : MemoFor ((passes cfg).shape c) w := Or.inl hwm
    obtain ⟨e1, e2⟩ := laterPass_eq (passes cfg) w c d hmf
    obtain ⟨-, -, -, h4⟩ := grid_eq w ((passes cfg).shape c) hmf
    have hwf : w.fresh = w := by
      cases w
      simp only [Work.fresh, Work.mk.injEq, true_and]
      exact hwm.symm
    have hu' := hu (by simp)
    obtain ⟨x, x', s1, s2, s3, s4, s5, s6, -⟩ := later_step cfg hr hnb hE ht dx dy hfix hsub w g c m0 m1 hm hg hgood off hoff d hn hu'
      (interp_ok hE' ht hu')
    have s1' : (passes cfg).later w.fresh g ((passes cfg).shape c) c d =
        .ok ({ d with interp := (ApplyInterp.applyInterp cfg.ext ⟨cfg.interp, g, off⟩ false d.toRes).1 }, x) := by
      rw [hwf]; exact s1
    have s2' : (passes cfg).fix w.fresh x = .ok x' := s2
    have hg' : prepareGrid w ((passes cfg).shape c) = .ok g := hg
    rw [hg'] at e1
    simp only [s1', s2'] at e1
    unfold Multipass.laterPasses
    rcases hl : Multipass.laterPass (passes cfg) w c d with ⟨w', o⟩
    rw [hl] at e1 e2
    simp only at e1 e2
    subst e1
    simp only
    have hne : x'.pos ≠ [] := by
      rw [← List.length_pos_iff, s3, List.length_pos_iff]
      exact points_ne_nil w _ g hg
    obtain ⟨ds, hds⟩ := ih w' g x' (fun v hv => hall v (by simp [hv]))
      (fun pre v post e hp => hsubs (w :: pre) v post (by rw [e]; rfl) hp) (by rw [e2]; exact h4 g hg') (UniformOrNan.near s5)
      (fun hws => usable_uniform (s6 (.inl (hsubs [] w ws rfl hws))) hne)
    rcases hls : Multipass.laterPasses (passes cfg) c w' x' ws with ⟨ws', o'⟩
    rw [hls] at hds
    simp only at hds
    subst hds
    exact ⟨_, rfl⟩

end WholePiv

/-! ## C113, from the images only -/

open WholePiv in
/-- **C113** (whole computation, without the thin plate splines).  At least two passes.  If the windows of the first pass are
displaced circularly by `(dx, dy)` and the patterns around each vector of the grids of the next passes are displaced by
`(dx, dy)`, then the computation ends with one result per pass, all the vectors of all the passes but the last one are exactly
`(dx, dy)`, without error, the vectors of the last pass are exactly `(dx, dy)` or NaN, without error (exactly `(dx, dy)` where the
peak is not lost by the sub-pixel refinement), and the final field is exactly `(dx, dy)` at all the positions (if one vector of the
last pass is not NaN).  Missing: windows which are not displaced circularly in the first pass, and the vectors whose peak is lost
(`C111_nan_fails`). -/
theorem C113_whole_partial (cfg : Config) (hr : Exact cfg.rnd) (hnb : cfg.nbPeaks = 1) (hE : KeepsBounds cfg.ext)
    (hE' : NeverRaises cfg.ext) (ht : ApplyInterp.wantsTps cfg.interp false = false) (ht' : ApplyInterp.wantsTps cfg.interp true = false)
    (dx dy : Int) (hfix : FixAccepts cfg dx dy) (hsub : SubpixOk cfg) (hnum : 2 ≤ cfg.number) (ws : List Work)
    (hb : build cfg.passes = .ok ws) (couple c : Images) (hc : maskImages cfg couple = .ok c) (m0 m1 : Int) (hm0 : IsMin c.1 m0) (hm1 : IsMin c.2 m1)
    (off : ApplyInterp.Pos) (hoffs : IsOffset cfg.mask off) (hgrids : ∀ w ∈ ws, ∃ g, prepareGrid w (c.1.ny, c.1.nx) = .ok g)
    (hfirst : ∀ w, ws[0]? = some w → ∀ g, prepareGrid w (c.1.ny, c.1.nx) = .ok g →
      GoodFirst cfg c m0 m1 dx dy w.win0.1.toNat w.win0.2.toNat g)
    (hpass : ∀ w ∈ ws.tail, ∀ g, prepareGrid w (c.1.ny, c.1.nx) = .ok g → GoodPass cfg c m0 m1 dx dy w.win0.1.toNat w.win0.2.toNat g) :
    ∃ ds, piv cfg couple = .ok ds ∧ (ds.length : Int) = cfg.number ∧
      ∀ i d, ds[i]? = some d → UniformOrNan dx dy d ∧ (i + 1 < ds.length ∨ cfg.method = .noSubpix → Uniform dx dy d) ∧
        (1 ≤ i → ∀ w, ws[i]? = some w → ∀ g, prepareGrid w (c.1.ny, c.1.nx) = .ok g →
          FoundWhere (KeptPeak cfg.method cfg.nsub w.win0.1.toNat w.win0.2.toNat m0 c.1 dx dy) g dx dy d) ∧
        (i + 1 = ds.length → (∃ j < d.pos.length, vectorAt d j ≠ (none, none)) →
          ∃ fs, d.interp.final = some fs ∧ fs.length = d.pos.length ∧ ∀ f ∈ fs, f = (some (dx : ℚ), some (dy : ℚ))) := by
  have hm := minima_ok hm0 hm1
  have hoff := offset_ok hoffs
  obtain ⟨hne, hfresh, hmemo⟩ := build_fresh cfg.passes ws hb
  have hsubpix := C74_subpix cfg.passes ws hb (by show 1 ≤ cfg.number; omega)
  have hcount : (ws.length : Int) = cfg.number := C74_number cfg.passes ws hb (by show 1 ≤ cfg.number; omega)
  have hlt : ∀ (i : Nat) w, ws[i]? = some w → i + 1 < ws.length → w.subpix cfg.passes = false := by
    intro i w hw hl
    have := hsubpix i w hw
    cases hs : w.subpix cfg.passes with
    | false => rfl
    | true => have := this.1 hs; omega
  cases ws with
  | nil => exact absurd rfl hne
  | cons w ws =>
    have hne' : ws ≠ [] := by
      rintro rfl
      simp at hcount
      omega
    obtain ⟨g, hg⟩ := hgrids w (by simp)
    have hws : w.subpix cfg.passes = false := hlt 0 w rfl (by
      have := List.length_pos_iff.2 hne'
      simp; omega)
    have hwm := hmemo w (by simp)
    have hwf : w.fresh = w := by
      cases w
      simp only [Work.fresh, Work.mk.injEq, true_and]
      exact hwm.symm
    obtain ⟨x, x', s1, s2, s3, s4, s5⟩ := first_step cfg hr hnb dx dy hfix w hws g c m0 m1 hm hg (hfirst w rfl g hg) off hoff
    have hmf : MemoFor ((passes cfg).shape c) w := Or.inl hwm
    obtain ⟨e1, e2⟩ := firstPass_eq (passes cfg) w couple c hc hmf
    obtain ⟨-, -, -, h4⟩ := grid_eq w ((passes cfg).shape c) hmf
    have s1' : (passes cfg).first w.fresh g ((passes cfg).shape c) c = .ok x := by rw [hwf]; exact s1
    have s2' : (passes cfg).fix w.fresh x = .ok x' := s2
    have hg' : prepareGrid w ((passes cfg).shape c) = .ok g := hg
    rw [hg'] at e1
    simp only [s1', s2'] at e1
    have hpne : x'.pos ≠ [] := by
      rw [← List.length_pos_iff, s3, List.length_pos_iff]
      exact points_ne_nil w _ g hg
    rcases hl : Multipass.firstPass (passes cfg) w couple with ⟨w', o⟩
    rw [hl] at e1 e2
    simp only at e1 e2
    subst e1
    obtain ⟨ds, hds⟩ := later_ends cfg hr hnb hE hE' ht ht' dx dy hfix hsub c m0 m1 hm off hoff ws w' g x'
      (fun v hv => by
        obtain ⟨gv, hgv⟩ := hgrids v (by simp [hv])
        exact ⟨hmemo v (by simp [hv]), gv, hgv, hpass v (by simpa using hv) gv hgv⟩)
      (fun pre v post e hp => by
        apply hlt (pre.length + 1) v
        · rw [e]; simp
        · rw [e]
          have := List.length_pos_iff.2 hp
          simp
          omega)
      (by rw [e2]; exact h4 g hg') (UniformOrNan.near (Uniform.orNan s5)) (fun _ => usable_uniform s5 hpne)
    have hpiv : piv cfg couple = .ok ds := by
      unfold piv
      rw [hb]
      simp only [Multipass.calcul, hl]
      rcases hls : Multipass.laterPasses (passes cfg) c w' x' ws with ⟨ws', o'⟩
      rw [hls] at hds
      simp only at hds
      subst hds
      rfl
    have hfst : ∀ d0, ds[0]? = some d0 → Uniform dx dy d0 := by
      intro d0 hd0
      have h' := hpiv
      unfold piv at h'
      rw [hb] at h'
      obtain ⟨c', hc', gs, rs, H⟩ := (C74_chain (passes cfg) cfg.passes _ hb couple ds).1 h'
      have : c' = c := by
        have h' : maskImages cfg couple = .ok c' := hc'
        rw [hc] at h'
        injection h' with h'
        exact h'.symm
      subst this
      have k1 : 0 < rs.length := by rw [H.fixed]; simp
      have k2 : 0 < gs.length := by rw [H.grids]; simp
      have hr0 := List.getElem?_eq_getElem k1
      have hg0 := List.getElem?_eq_getElem k2
      have hgg : gs[0] = g := by
        have h1 : prepareGrid w (c'.1.ny, c'.1.nx) = .ok gs[0] := H.grid 0 _ _ rfl hg0
        rw [hg] at h1
        injection h1 with h1
        exact h1.symm
      obtain ⟨y, y1, y2⟩ := H.first w _ _ rfl hg0 hr0
      have y1' : first cfg w gs[0] c' = .ok y := y1
      rw [hgg, s1] at y1'
      injection y1' with y1'
      subst y1'
      have y2' : fix cfg x = .ok rs[0] := y2
      rw [s2] at y2'
      injection y2' with y2'
      obtain ⟨p1, p2⟩ := passesDone_same H 0 _ d0 hr0 hd0
      rw [← y2'] at p1 p2
      intro j hj
      have := s5 j (by rw [← p1]; exact hj)
      unfold vectorAt at this ⊢
      rw [p2]
      exact this
    have hlen0 : 0 < ds.length := by
      by_contra hc0
      have h' := hpiv
      unfold piv at h'
      rw [hb] at h'
      obtain ⟨c', hc', gs, rs, H⟩ := (C74_chain (passes cfg) cfg.passes _ hb couple ds).1 h'
      have := H.returned
      simp at this
      omega
    have hd0 := List.getElem?_eq_getElem hlen0
    have hu0 := hfst _ hd0
    have hn0 := UniformOrNan.near (Uniform.orNan hu0)
    obtain ⟨n1, n2⟩ := C113_passes_partial cfg hr hnb hE ht dx dy hfix hsub (by omega) _ hb couple c hc m0 m1 hm0 hm1 hpass ds hpiv _ hd0 hn0
    refine ⟨ds, hpiv, n1, ?_⟩
    intro i d hd
    cases i with
    | zero =>
      have hu := hfst d hd
      refine ⟨Uniform.orNan hu, fun _ => hu, fun h1 => ?_, fun hl => ?_⟩ <;> omega
    | succ i =>
      obtain ⟨a1, a2, a3⟩ := n2 (i + 1) d (by omega) hd
      exact ⟨a1, a2, fun _ => a3, fun hl hs => C113_final_partial cfg hr hnb hE hE' ht ht' dx dy hfix hsub (by omega) _ hb couple c hc m0 m1 hm0 hm1 hpass ds hpiv
        _ hd0 hn0 (i + 1) d (by omega) hl hd hs⟩

/-! ## Non-vacuity -/

namespace WholePiv

/-- A pattern in the middle of an image of 16 pixels, displaced by `(dx, dy)`. -/
def ramp (dx dy : Int) : Img Int := ⟨16, 16, fun a b =>
  if 5 ≤ (a : Int) - dy ∧ (a : Int) - dy ≤ 11 ∧ 4 ≤ (b : Int) - dx ∧ (b : Int) - dx ≤ 9 then 1 + 16 * ((a : Int) - dy) + ((b : Int) - dx) else 0⟩

/-- Interpolations: no linear interpolation, and the first value everywhere. -/
def demoExt : ApplyInterp.Ext := ⟨fun _ _ => none, fun _ _ _ => 0, fun _ _ => .ok (fun _ => none), fun _ vs => .ok (fun _ => vs.head?)⟩

theorem demoExt_keeps : KeepsBounds demoExt := by
  intro c vs lo hi hne hb
  constructor
  · intro f hf p v hv
    injection hf with hf
    subst hf
    cases hv
  · intro f hf p
    injection hf with hf
    subst hf
    cases vs with
    | nil => exact absurd rfl hne
    | cons v vs => exact ⟨v, rfl, hb v (by simp)⟩

theorem demoExt_never : NeverRaises demoExt := fun _ _ _ => ⟨⟨_, rfl⟩, ⟨_, rfl⟩⟩

/-- Two passes with windows of 12 and 6 pixels, a maximum displacement of 50%, the Gaussian method, and the search of false
vectors among the neighbours. -/
noncomputable def demoCfg (rnd : ℝ → ℚ) (p : Matrix (Fin 5) (Fin (2 * 1 + 1) × Fin (2 * 1 + 1)) ℝ) : Config where
  number := 2
  zoom := .int 2
  shape := .int 12
  overlap := 1 / 2
  mask := none
  lib := .fftw
  displMax := .percent 50
  radius := 3
  nbPeaks := 1
  method := .gaussian
  nsub := 1
  correlMin := 1 / 5
  threshold := some 10
  fixMax := some 4
  interp := ⟨.bool false, 200, some (1 / 10)⟩
  rnd := rnd
  pinv := p
  corrJunk := fun _ _ => 0
  junk := fun _ _ => none
  nanInt := -2147483648
  ext := demoExt

theorem ramp_min0 : IsMin (ramp 0 0) 0 := by unfold IsMin; decide +kernel
theorem ramp_min1 : IsMin (ramp 2 (-1)) 0 := by unfold IsMin; decide +kernel

/-- The grids of the two passes. -/
def demoGrid : Grid := ⟨[6, 10], [6, 10], [(6, 6), (10, 6), (6, 10), (10, 10)]⟩
def demoGrid2 : Grid := ⟨[3, 6, 9, 12], [3, 6, 9, 12], [3, 6, 9, 12].flatMap fun y => [3, 6, 9, 12].map fun x => (x, y)⟩

def demoWork1 : Work := ⟨0, (12, 12), (12, 12), 1 / 2, none⟩
def demoWork2 : Work := ⟨1, (6, 6), (6, 6), 1 / 2, none⟩

theorem demo_build (rnd p) : build (demoCfg rnd p).passes = .ok [demoWork1, demoWork2] := by
  show build ⟨2, .int 2, .int 12, none, 1 / 2⟩ = _
  decide +kernel

theorem demo_grid : prepareGrid demoWork1 (16, 16) = .ok demoGrid := by decide +kernel
theorem demo_grid2 : prepareGrid demoWork2 (16, 16) = .ok demoGrid2 := by decide +kernel

theorem noPeriod_of (n0 n1 : ℕ) (f : ℕ → ℕ → ℤ) (p q : ℕ) (hp : p < n0) (hq : q < n1)
    (h : ∀ a < n0, ∀ b < n1, f a b = f p q → a = p ∧ b = q) : NoPeriod n0 n1 (fun i j => (f i j : ℝ)) := by
  apply noPeriod_bright n0 n1 p q hp hq
  intro a b ha hb e
  exact h a ha b hb (by exact_mod_cast e)

theorem demo_first (rnd p) : GoodFirst (demoCfg rnd p) (ramp 0 0, ramp 2 (-1)) 0 0 2 (-1) 12 12 demoGrid where
  half0 := by unfold InsideHalf; decide
  half1 := by unfold InsideHalf; decide
  dmax := by
    intro m hm
    have : m = 6 := by
      injection hm with hm
      rw [← hm]; norm_num
    subst this
    refine ⟨by norm_num, ?_⟩
    intro ex ey h1 h2
    rw [abs_le] at h1 h2
    have : (2 + ex) ^ 2 + (-1 + ey) ^ 2 ≤ (36 : ℤ) := by nlinarith [h1.1, h1.2, h2.1, h2.2]
    have h3 : (((2 + ex) ^ 2 + (-1 + ey) ^ 2 : ℤ) : ℚ) ≤ ((36 : ℤ) : ℚ) := by exact_mod_cast this
    refine h3.trans ?_
    norm_num
  norm := .inr rfl
  neighbours := .inr ⟨by decide, by decide⟩
  shapes := ⟨rfl, rfl⟩
  inside := by decide
  windows := by
    have h1 : ∀ g ∈ demoGrid.points, ∀ a : Nat, a < 12 → ∀ b : Nat, b < 12 →
        extended 0 (ramp 2 (-1)) (g.2 - 6 + (((a : Int) + -1) % 12).toNat) (g.1 - 6 + (((b : Int) + 2) % 12).toNat) =
          extended 0 (ramp 0 0) (g.2 - 6 + (a : Nat)) (g.1 - 6 + (b : Nat)) := by decide +kernel
    have h2 : ∀ g ∈ demoGrid.points, ∀ a < 12, ∀ b < 12,
        extended 0 (ramp 0 0) (g.2 - 6 + (a : Nat)) (g.1 - 6 + (b : Nat)) =
          extended 0 (ramp 0 0) (g.2 - 6 + ((11 + 6 - g.2).toNat : Nat)) (g.1 - 6 + ((9 + 6 - g.1).toNat : Nat)) →
        a = (11 + 6 - g.2).toNat ∧ b = (9 + 6 - g.1).toNat := by decide +kernel
    have h3 : ∀ g ∈ demoGrid.points, (11 + 6 - g.2).toNat < 12 ∧ (9 + 6 - g.1).toNat < 12 := by decide +kernel
    intro g hg
    constructor
    · intro a b ha hb
      have := h1 g hg a ha b hb
      unfold shown
      exact_mod_cast this
    · exact noPeriod_of 12 12 (fun i j => extended 0 (ramp 0 0) (g.2 - 6 + (i : Nat)) (g.1 - 6 + (j : Nat))) _ _ (h3 g hg).1 (h3 g hg).2 (h2 g hg)

theorem demo_later (rnd p) : GoodPass (demoCfg rnd p) (ramp 0 0, ramp 2 (-1)) 0 0 2 (-1) 6 6 demoGrid2 where
  size0 := by show 1 + 1 ≤ 6 / 2; decide
  size1 := by show 1 + 1 ≤ 6 / 2; decide
  dmax := by
    intro m hm
    have : m = 3 := by
      injection hm with hm
      rw [← hm]; norm_num
    subst this
    show 0 ≤ (3 : ℚ) ∧ 2 * ((1 : ℕ) : ℚ) ^ 2 ≤ 3 ^ 2
    norm_num
  norm := .inr rfl
  neighbours := .inr ⟨by decide, by decide⟩
  windows := by
    have h1 : ∀ g ∈ demoGrid2.points, ∀ a < 6, ∀ b < 6,
        extended 0 (ramp 2 (-1)) (g.2 - -1 / 2 + -1 - 3 + (a : Nat)) (g.1 - 2 / 2 + 2 - 3 + (b : Nat)) =
          extended 0 (ramp 0 0) (g.2 - -1 / 2 - 3 + (a : Nat)) (g.1 - 2 / 2 - 3 + (b : Nat)) + 0 := by decide +kernel
    have h2 : ∀ g ∈ demoGrid2.points, ∃ p < 6, ∃ q < 6, ∀ a < 6, ∀ b < 6,
        extended 0 (ramp 0 0) (g.2 - -1 / 2 - 3 + (a : Nat)) (g.1 - 2 / 2 - 3 + (b : Nat)) =
          extended 0 (ramp 0 0) (g.2 - -1 / 2 - 3 + (p : Nat)) (g.1 - 2 / 2 - 3 + (q : Nat)) → a = p ∧ b = q := by decide +kernel
    have h3 : ∀ g ∈ demoGrid2.points, (0 ≤ g.1 - 2 / 2 ∧ g.1 - 2 / 2 ≤ 16 ∧ 0 ≤ g.2 - -1 / 2 ∧ g.2 - -1 / 2 ≤ 16) ∧
        (0 ≤ g.1 - 2 / 2 + 2 ∧ g.1 - 2 / 2 + 2 ≤ 16 ∧ 0 ≤ g.2 - -1 / 2 + -1 ∧ g.2 - -1 / 2 + -1 ≤ 16) := by decide +kernel
    intro g hg
    obtain ⟨p, hp, q, hq, hpq⟩ := h2 g hg
    exact ⟨⟨rfl, rfl⟩, (h3 g hg).1, (h3 g hg).2, ⟨0, fun i j hi hj => h1 g hg i hi j hj⟩,
      noPeriod_of 6 6 (fun i j => extended 0 (ramp 0 0) (g.2 - -1 / 2 - 3 + (i : Nat)) (g.1 - 2 / 2 - 3 + (j : Nat))) p q hp hq hpq⟩

end WholePiv

open WholePiv in
/-- The hypotheses of `C113_whole_partial` for these images. -/
theorem WholePiv.demo_piv (rnd : ℝ → ℚ) (hr : Exact rnd) (p) (hp : IsPinv (Subpix.design 1) p) :
    ∃ ds, piv (demoCfg rnd p) (ramp 0 0, ramp 2 (-1)) = .ok ds ∧ ds.length = 2 ∧
    (∀ d, ds[0]? = some d → Uniform 2 (-1) d) ∧ ∀ d, ds[1]? = some d → UniformOrNan 2 (-1) d := by
  obtain ⟨ds, h1, h2, h3⟩ := C113_whole_partial (demoCfg rnd p) hr rfl demoExt_keeps demoExt_never rfl rfl 2 (-1)
    ⟨by show (1 / 5 : ℚ) ≤ 1; norm_num, fun m hm _ => by
      have : m = 4 := by injection hm with hm; exact hm.symm
      subst this; norm_num⟩
    ⟨le_rfl, ⟨some 1, show Subpix.construct .gaussian (some 1) = .ok 1 by decide +kernel⟩, hp⟩ le_rfl _ (demo_build rnd p) (ramp 0 0, ramp 2 (-1)) (ramp 0 0, ramp 2 (-1)) rfl 0 0 ramp_min0 ramp_min1
    (0, 0) .noMask
    (by
      intro w hw
      rcases List.mem_pair.1 hw with rfl | rfl
      · exact ⟨_, demo_grid⟩
      · exact ⟨_, demo_grid2⟩)
    (by
      intro w hw g hg
      injection hw with hw
      subst hw
      have hg' : prepareGrid demoWork1 (16, 16) = .ok g := hg
      rw [demo_grid] at hg'
      injection hg' with hg'
      subst hg'
      exact demo_first rnd p)
    (by
      intro w hw g hg
      rw [List.mem_singleton.1 hw] at hg ⊢
      have hg' : prepareGrid demoWork2 (16, 16) = .ok g := hg
      rw [demo_grid2] at hg'
      injection hg' with hg'
      subst hg'
      exact demo_later rnd p)
  refine ⟨ds, h1, by have h2' : (ds.length : Int) = 2 := h2; omega, fun d hd => ?_, fun d hd => (h3 1 d hd).1⟩
  exact (h3 0 d hd).2.1 (.inl (by have h2' : (ds.length : Int) = 2 := h2; omega))

open WholePiv in
/-- Non-vacuity of `C113_whole_partial`: two passes for images of 16 pixels with a pattern displaced by `(2, -1)`. -/
example : ∃ (cfg : Config) (ds : List Data), piv cfg (ramp 0 0, ramp 2 (-1)) = .ok ds ∧ ds.length = 2 ∧
    (∀ d, ds[0]? = some d → Uniform 2 (-1) d) ∧ ∀ d, ds[1]? = some d → UniformOrNan 2 (-1) d := by
  obtain ⟨rnd, hr⟩ := exact_exists
  obtain ⟨p, hp⟩ := pinv_exists 1 le_rfl
  exact ⟨_, demo_piv rnd hr p hp⟩

end Verif
