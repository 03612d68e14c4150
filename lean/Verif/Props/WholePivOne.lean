import Verif.Props.WholePivFirst

/-!
# A whole computation of PIV with one pass (C113)

The default number of passes is one: the sub-pixel refinement is then done in the first pass, around a peak which is not in
the middle of the map.
-/

namespace Verif
open Finset Verif.PivGrid Verif.Correl Verif.CorrelFft Verif.WholePiv
open Verif.LaterPass (pixels corr peaks env factor factor_pos peaks_eq window_of subpix realMap HasNan circCorrel_symm circCorrel_self)
open Verif.LoopVectors (Method SubErr State VecErr)
open Verif.Multipass (Work Passes build prepareGrid)

/-! ## Specification -/

/-- What is asked in addition of the only pass: the square of half size `nsub` used by the sub-pixel refinement, around the
displacement `(dx, dy)`, is inside the map, and the maximum displacement allows it. -/
structure GoodSquare (cfg : Config) (dx dy : Int) (n0 n1 : Nat) : Prop where
  size0 : |dy| + cfg.nsub + 1 ≤ n0 / 2
  size1 : |dx| + cfg.nsub + 1 ≤ n1 / 2
  dmax : ∀ m, cfg.displMax.parse n0 n1 = some m → 0 ≤ m ∧ ∀ ex ey : ℤ, |ex| ≤ cfg.nsub → |ey| ≤ cfg.nsub →
    (((dx + ex) ^ 2 + (dy + ey) ^ 2 : ℤ) : ℚ) ≤ m ^ 2

namespace WholePiv

/-! ## The sub-pixel refinement of a displaced peak -/

/-- The correlation of translated windows is the translated correlation of the first window with itself. -/
theorem circCorrel_shift (n0 n1 : ℕ) (h0 : 0 < n0) (h1 : 0 < n1) (dx dy : ℤ) (im0 im1 : ℕ → ℕ → ℝ)
    (ht : TranslatedBy n0 n1 dx dy im0 im1) (x y : ℤ) :
    circCorrel n0 n1 im0 im1 (dx + x) (dy + y) = circCorrel n0 n1 im0 im0 x y := by
  unfold circCorrel
  apply sum_congr rfl; intro a _
  apply sum_congr rfl; intro b _
  have := fluct_translated n0 n1 h0 h1 dx dy im0 im1 ht (((a : ℤ) + y) % n0).toNat (((b : ℤ) + x) % n1).toNat
    (index_lt n0 h0 _) (index_lt n1 h1 _)
  rw [index_add n0 h0, index_add n1 h1] at this
  rw [← this, add_comm dx x, add_comm dy y]

theorem map_symmetric_at (P : LaterPass.Params) (hr : Exact P.rnd) (dx dy : ℤ) (h0 : |dy| + P.nsub + 1 ≤ P.n0 / 2)
    (h1 : |dx| + P.nsub + 1 ≤ P.n1 / 2)
    (hd : ∀ m, P.dmax = some m → 0 ≤ m ∧ ∀ ex ey : ℤ, |ex| ≤ P.nsub → |ey| ≤ P.nsub →
      (((dx + ex) ^ 2 + (dy + ey) ^ 2 : ℤ) : ℚ) ≤ m ^ 2)
    (w0 w1 : Img Int) (ht : TranslatedBy P.n0 P.n1 dx dy (pixels w0) (pixels w1)) :
    let c := masked P.n0 P.n1 P.dmax (corr P w0 w1).1
    ¬ HasNan P.nsub c (centre P.n1 - dx) (centre P.n0 - dy) ∧ IsSymmetric P.nsub (realMap c) (centre P.n1 - dx) (centre P.n0 - dy) ∧
    Verif.InMap P.nsub (realMap c) (centre P.n1 - dx) (centre P.n0 - dy) ∧
    ∀ x y : Int, |x| ≤ P.nsub → |y| ≤ P.nsub → (factor P : ℝ) * circCorrel P.n0 P.n1 (pixels w0) (pixels w0) x y =
      (realMap c).val (centre P.n0 - dy + y) (centre P.n1 - dx + x) := by
  intro c
  have ax := abs_le.1 (le_refl |dx|)
  have ay := abs_le.1 (le_refl |dy|)
  have p0 : 0 < P.n0 := by omega
  have p1 : 0 < P.n1 := by omega
  have hval : ∀ x y : Int, |x| ≤ P.nsub → |y| ≤ P.nsub → ∃ q : ℚ,
      c.get (centre P.n0 - dy + y).toNat (centre P.n1 - dx + x).toNat = some q ∧
      (q : ℝ) = (factor P : ℝ) * circCorrel P.n0 P.n1 (pixels w0) (pixels w0) (-x) (-y) := by
    intro x y hx hy
    have hx' := hx
    have hy' := hy
    rw [abs_le] at hx hy
    obtain ⟨i, hi⟩ : ∃ i : ℕ, (i : ℤ) = centre P.n0 - dy + y := ⟨(centre P.n0 - dy + y).toNat, by unfold centre; omega⟩
    obtain ⟨j, hj⟩ : ∃ j : ℕ, (j : ℤ) = centre P.n1 - dx + x := ⟨(centre P.n1 - dx + x).toNat, by unfold centre; omega⟩
    rw [← hi, ← hj, Int.toNat_natCast, Int.toNat_natCast]
    unfold centre at hi hj
    obtain ⟨q, g1, g2⟩ := corr_any P hr w0 w1 i j (by omega) (by omega)
    have ed : (Correl.fftCls P.n0 P.n1 none 0 0).displacement j i = (dx + -x, dy + -y) := by
      show ((P.n1 : ℤ) / 2 - 1 - j, (P.n0 : ℤ) / 2 - 1 - i) = (dx + -x, dy + -y)
      rw [hi, hj]; congr 1 <;> ring
    rw [ed] at g2
    rw [circCorrel_shift P.n0 P.n1 p0 p1 dx dy _ _ ht] at g2
    refine ⟨q, ?_, g2⟩
    show (masked P.n0 P.n1 P.dmax (corr P w0 w1).1).get i j = some q
    unfold masked
    split
    · exact g1
    · rename_i m hm
      obtain ⟨m0, m1⟩ := hd m hm
      refine ((maskLarge_get P.n0 P.n1 m (corr P w0 w1).1 i j).2 q).2 ⟨g1, m0, ?_⟩
      have e1 : (P.n1 : ℤ) / 2 - 1 - j = dx + -x := by omega
      have e2 : (P.n0 : ℤ) / 2 - 1 - i = dy + -y := by omega
      rw [e1, e2]
      have := m1 (-x) (-y) (by rw [abs_neg]; exact hx') (by rw [abs_neg]; exact hy')
      push_cast at this ⊢
      linarith
  refine ⟨?_, ?_, ?_, ?_⟩
  · rintro ⟨x, y, hx, hy, hnone⟩
    obtain ⟨q, g, _⟩ := hval x y hx hy
    rw [g] at hnone; cases hnone
  · intro x y hx hy
    obtain ⟨q, g1, g2⟩ := hval x y hx hy
    obtain ⟨q', g1', g2'⟩ := hval (-x) (-y) (by rwa [abs_neg]) (by rwa [abs_neg])
    show (((c.get (centre P.n0 - dy + y).toNat (centre P.n1 - dx + x).toNat).getD 0 : ℚ) : ℝ) =
      (((c.get (centre P.n0 - dy - y).toNat (centre P.n1 - dx - x).toNat).getD 0 : ℚ) : ℝ)
    rw [sub_eq_add_neg _ y, sub_eq_add_neg _ x, g1, g1', Option.getD_some, Option.getD_some, g2, g2', neg_neg, neg_neg,
      circCorrel_symm P.n0 P.n1 p0 p1]
  · have ey : (realMap c).ny = P.n0 := by
      show (masked P.n0 P.n1 P.dmax (corr P w0 w1).1).ny = P.n0
      unfold masked; split <;> rfl
    have ex : (realMap c).nx = P.n1 := by
      show (masked P.n0 P.n1 P.dmax (corr P w0 w1).1).nx = P.n1
      unfold masked; split <;> rfl
    unfold InMap centre
    rw [ey, ex]
    omega
  · intro x y hx hy
    obtain ⟨q, g1, g2⟩ := hval x y hx hy
    show _ = (((c.get (centre P.n0 - dy + y).toNat (centre P.n1 - dx + x).toNat).getD 0 : ℚ) : ℝ)
    rw [g1, Option.getD_some, g2, circCorrel_symm P.n0 P.n1 p0 p1]

/-- The sub-pixel refinement of the peak of two windows displaced circularly. -/
theorem subpix_translated (P : LaterPass.Params) (hr : Exact P.rnd) (nsubpix : Option Nat)
    (hc : Subpix.construct P.method nsubpix = .ok P.nsub) (hpi : IsPinv (Subpix.design P.nsub) P.pinv) (hn : 1 ≤ P.nsub)
    (dx dy : ℤ) (h0 : |dy| + P.nsub + 1 ≤ P.n0 / 2) (h1 : |dx| + P.nsub + 1 ≤ P.n1 / 2)
    (hd : ∀ m, P.dmax = some m → 0 ≤ m ∧ ∀ ex ey : ℤ, |ex| ≤ P.nsub → |ey| ≤ P.nsub →
      (((dx + ex) ^ 2 + (dy + ey) ^ 2 : ℤ) : ℚ) ≤ m ^ 2)
    (w0 w1 : Img Int) (ht : TranslatedBy P.n0 P.n1 dx dy (pixels w0) (pixels w1)) :
    (subpix P dx dy (masked P.n0 P.n1 P.dmax (corr P w0 w1).1) = .ok (some ((dx : ℚ), (dy : ℚ))) ∨
      subpix P dx dy (masked P.n0 P.n1 P.dmax (corr P w0 w1).1) = .ok none) ∧
    (NotLost P.method P.nsub (circCorrel P.n0 P.n1 (pixels w0) (pixels w0)) → subpix P dx dy (masked P.n0 P.n1 P.dmax (corr P w0 w1).1) = .ok (some ((dx : ℚ), (dy : ℚ)))) := by
  obtain ⟨hnan, hsym, hin, hval⟩ := map_symmetric_at P hr dx dy h0 h1 hd w0 w1 ht
  generalize masked P.n0 P.n1 P.dmax (corr P w0 w1).1 = c at *
  obtain ⟨hor, -⟩ := C109_symmetric P.method nsubpix P.nsub hc hn P.pinv hpi (realMap c) (centre P.n1 - dx) (centre P.n0 - dy) hin hsym
  have hi : (Correl.fftCls P.n0 P.n1 P.dmax P.radius P.nbPeaks).indices dx dy = (centre P.n1 - dx, centre P.n0 - dy) := by
    unfold Cls.indices fftCls; simp
  have hfin : Subpix.computeSubpix P.method P.nsub P.pinv (realMap c) (centre P.n1 - dx) (centre P.n0 - dy) =
      .ok (.fin ((centre P.n1 - dx : ℤ) : ℝ) ((centre P.n0 - dy : ℤ) : ℝ)) → subpix P dx dy c = .ok (some ((dx : ℚ), (dy : ℚ))) := by
    intro hf
    unfold subpix
    simp only [hi, hf]
    rw [if_neg (by rintro ⟨_, hh⟩; rw [hi] at hh; exact hnan hh)]
    have e : ∀ z : ℤ, P.rnd (z : ℝ) = z := by
      intro z
      have := hr (z : ℚ)
      rwa [Rat.cast_intCast] at this
    rw [e, e]
    show (Except.ok (some (((centre P.n1 : ℤ) : ℚ) - ((centre P.n1 - dx : ℤ) : ℚ), ((centre P.n0 : ℤ) : ℚ) - ((centre P.n0 - dy : ℤ) : ℚ))) :
      Except SubErr (Option (ℚ × ℚ))) = _
    push_cast
    rw [sub_sub_cancel, sub_sub_cancel]
  constructor
  · rcases hor with hf | hf
    · exact .inl (hfin hf)
    · right
      unfold subpix
      simp only [hi, hf]
      split <;> rfl
  · intro hm
    have ax := abs_le.1 (le_refl |dx|)
    have ay := abs_le.1 (le_refl |dy|)
    exact hfin (C109_found P.method nsubpix P.nsub hc hn P.pinv hpi (realMap c) (centre P.n1 - dx) (centre P.n0 - dy) hin hsym
      (notLost_congr hn hval (notLost_scale (by exact_mod_cast factor_pos P (by omega) (by omega)) hm)))

/-- The first pass and its fix, when the sub-pixel refinement is done. -/
theorem first_step_subpix (cfg : Config) (hr : Exact cfg.rnd) (hnb : cfg.nbPeaks = 1) (dx dy : Int) (hfix : FixAccepts cfg dx dy)
    (hsub : SubpixOk cfg) (w : Work) (hw : w.subpix cfg.passes = true) (g : Grid) (c : Images) (m0 m1 : Int)
    (hm : minima c = .ok (m0, m1)) (hg : prepareGrid w (c.1.ny, c.1.nx) = .ok g)
    (hp : GoodFirst cfg c m0 m1 dx dy w.win0.1.toNat w.win0.2.toNat g)
    (hsq : GoodSquare cfg dx dy w.win0.1.toNat w.win0.2.toNat) (off : ApplyInterp.Pos) (hoff : offset cfg = .ok off) :
    ∃ x x', first cfg w g c = .ok x ∧ fix cfg x = .ok x' ∧ x'.pos.length = g.points.length ∧
      UniformOrNan dx dy x' ∧ FoundWhere (KeptPeak cfg.method cfg.nsub w.win0.1.toNat w.win0.2.toNat m0 c.1 0 0) g dx dy x' := by
  have hgo := gridOk_of w _ g hg
  have hlen := points_length g hgo
  have h0 : 0 < (cfg.pass w).n0 := by obtain ⟨a, b⟩ := hp.half0; show 0 < w.win0.1.toNat; omega
  have h1 : 0 < (cfg.pass w).n1 := by obtain ⟨a, b⟩ := hp.half1; show 0 < w.win0.2.toNat; omega
  have hsome : (env (cfg.pass w)).subpix = some (subpix (cfg.pass w)) := by
    unfold env
    rw [show (cfg.pass w).last = true from hw]
    rfl
  obtain ⟨sn, ⟨nsubpix, sc⟩, sp⟩ := hsub
  -- one vector
  have hone : ∀ p ∈ g.points, ∃ s1, LoopVectors.loopVectors (env (cfg.pass w)) (cfg.junk w) [firstWindows (cfg.pass w) m0 m1 c p] none = .ok s1 ∧
      ((s1.deltaxs 0, s1.deltays 0) = (some (dx : ℚ), some (dy : ℚ)) ∨ (s1.deltaxs 0, s1.deltays 0) = (none, none)) ∧
      (KeptPeak cfg.method cfg.nsub w.win0.1.toNat w.win0.2.toNat m0 c.1 0 0 p → (s1.deltaxs 0, s1.deltays 0) = (some (dx : ℚ), some (dy : ℚ))) ∧
      s1.correlsMax 0 = some 1 ∧ s1.errors.get? 0 = none := by
    intro p hpm
    obtain ⟨w1, w2, w3⟩ := firstWindows_shown (cfg.pass w) h0 h1 m0 m1 c hp.shapes p (hp.inside p hpm)
    obtain ⟨t1, t2⟩ := hp.windows p hpm
    generalize firstWindows (cfg.pass w) m0 m1 c p = fw at *
    have ht : TranslatedBy (cfg.pass w).n0 (cfg.pass w).n1 dx dy (pixels fw.1) (pixels fw.2) := by
      intro a b ha hb
      rw [(w3 _ _ (index_lt _ h0 _) (index_lt _ h1 _)).2, (w3 a b ha hb).1]
      exact t1 a b ha hb
    have hnp : NoPeriod (cfg.pass w).n0 (cfg.pass w).n1 (pixels fw.1) := by
      intro d e hh
      apply t2
      intro a b ha hb
      have := hh a b ha hb
      rw [(w3 _ _ (index_lt _ h0 _) (index_lt _ h1 _)).1, (w3 a b ha hb).1] at this
      exact this
    have hpk := peaks_translated (cfg.pass w) hr dx dy hp.half1 hp.half0 hp.dmax hp.norm hnb fw.1 fw.2 ht hnp
    obtain ⟨z1, z2⟩ := subpix_translated (cfg.pass w) hr nsubpix sc sp sn dx dy hsq.size0 hsq.size1 hsq.dmax fw.1 fw.2 ht
    have z2 : KeptPeak cfg.method cfg.nsub w.win0.1.toNat w.win0.2.toNat m0 c.1 0 0 p → _ := fun hk => z2 (notLost_congr sn (fun x y _ _ => by
      refine (circCorrel_self (cfg.pass w).n0 (cfg.pass w).n1 h0 h1 (pixels fw.1) _ (fun i j hi hj => ?_) x y).symm
      rw [(w3 i j hi hj).1]
      unfold shown
      simp only [Int.zero_ediv, sub_zero]
      rfl) hk)
    obtain ⟨o1, o2, o3, o4⟩ := C34_one_vector (env (cfg.pass w)) (cfg.junk w) fw
    have hview := ((o4 ⟨w1, w2⟩ _ _ _ hpk).2 _ hsome).2
    have hfound : ∀ r, subpix (cfg.pass w) dx dy (masked (cfg.pass w).n0 (cfg.pass w).n1 (cfg.pass w).dmax (corr (cfg.pass w) fw.1 fw.2).1) = .ok r →
        ∃ s1, LoopVectors.loopVectors (env (cfg.pass w)) (cfg.junk w) [fw] none = .ok s1 ∧
          s1.deltaxs 0 = r.map Prod.fst ∧ s1.deltays 0 = r.map Prod.snd ∧ s1.correlsMax 0 = some 1 ∧ s1.errors.get? 0 = none := by
      intro r hr'
      obtain ⟨s', l1, l2⟩ := hview r hr'
      unfold view at l2
      injection l2 with v1 v2 v3 v4 v5
      exact ⟨s', l1, v1, v2, v3, v4⟩
    rcases z1 with hz | hz
    · obtain ⟨s', l1, l2, l3, l4, l5⟩ := hfound _ hz
      exact ⟨s', l1, .inl (by rw [l2, l3]; rfl), fun _ => by rw [l2, l3]; rfl, l4, l5⟩
    · obtain ⟨s', l1, l2, l3, l4, l5⟩ := hfound _ hz
      refine ⟨s', l1, .inr (by rw [l2, l3]; rfl), fun hmm => ?_, l4, l5⟩
      have := z2 hmm
      rw [hz] at this
      cases this
  -- all the vectors
  obtain ⟨s, hs⟩ : ∃ s, LoopVectors.loopVectors (env (cfg.pass w)) (cfg.junk w) (g.points.map (firstWindows (cfg.pass w) m0 m1 c)) none = .ok s := by
    cases hl : LoopVectors.loopVectors (env (cfg.pass w)) (cfg.junk w) (g.points.map (firstWindows (cfg.pass w) m0 m1 c)) none with
    | ok s => exact ⟨s, rfl⟩
    | error e =>
      exfalso
      obtain ⟨i, hi, he⟩ := (C34_partial (env (cfg.pass w)) (cfg.junk w) (cfg.junk w) _).2 e hl
      rw [List.getElem_map] at he
      obtain ⟨s1, l1, _⟩ := hone _ (List.getElem_mem (by simpa using hi))
      rw [l1] at he
      cases he
  have hpart := (C34_partial (env (cfg.pass w)) (cfg.junk w) (cfg.junk w) _).1 s hs
  have hview : ∀ (i : Nat) (hi : i < g.points.length),
      ((s.deltaxs i, s.deltays i) = (some (dx : ℚ), some (dy : ℚ)) ∨ (s.deltaxs i, s.deltays i) = (none, none)) ∧
      (KeptPeak cfg.method cfg.nsub w.win0.1.toNat w.win0.2.toNat m0 c.1 0 0 (g.points[i]'hi) → (s.deltaxs i, s.deltays i) = (some (dx : ℚ), some (dy : ℚ))) ∧
      s.correlsMax i = some 1 ∧ s.errors.get? i = none := by
    intro i hi
    obtain ⟨s1, g1, g2⟩ := hpart.1 i (by simpa using hi)
    rw [List.getElem_map] at g1
    obtain ⟨s2, l1, l2⟩ := hone _ (List.getElem_mem hi)
    rw [l1] at g1
    injection g1 with g1
    subst g1
    unfold view at g2
    injection g2 with v1 v2 v3 v4 v5
    rw [v1, v2, v3, v4]
    exact l2
  have herr : s.errors = [] := by
    apply dict_nil
    intro i
    by_cases hi : i < g.points.length
    · exact (hview i hi).2.2.2
    · exact hpart.2 i (by rw [List.length_map]; omega)
  have hfirst : first cfg w g c = .ok (result cfg (cfg.pass w) g off (g.points.map fun p => ((p.1 : ℚ), (p.2 : ℚ)))
      (g.points.map (firstWindows (cfg.pass w) m0 m1 c)) none s) := by
    unfold first
    simp only [hm, hs, hoff]
  generalize hx : result cfg _ _ _ _ _ _ _ = x at hfirst
  obtain ⟨r', f1, f2⟩ := fix_keeps cfg.fix (by show cfg.nbPeaks < 2; omega) ⟨x.secondary, x.input, x.subpix⟩ g.iyvecs.length g.ixvecs.length
    hp.neighbours x.res dx dy (by rw [← hx]; show s.errors.map _ = []; rw [herr]; rfl)
    (fun i hi => by rw [← hx]; exact (hview i (by omega)).2.2.1) hfix.1 hfix.2
    (fun i hi => by rw [← hx]; exact (hview i (by omega)).1)
  have hpos : x.pos.length = g.points.length := by
    rw [← hx]
    show (List.map _ (List.map _ _)).length = _
    rw [List.length_map, List.length_map]
  have hsame : ∀ i < x.pos.length, vectorAt { x with res := r' } i = (s.deltaxs i, s.deltays i) ∧ r'.errors.get? i = none := by
    intro i hi
    have hi' : i < g.points.length := by rw [← hpos]; exact hi
    obtain ⟨b1, b2, b3⟩ := f2 i (by omega)
    unfold vectorAt
    simp only [b1, b2, b3, and_true]
    rw [← hx]
    rfl
  refine ⟨x, { x with res := r' }, hfirst, ?_, hpos, ?_, ?_⟩
  · unfold fix
    have hr1 : x.rows = g.iyvecs.length := by rw [← hx]; rfl
    have hr2 : x.cols = g.ixvecs.length := by rw [← hx]; rfl
    rw [hr1, hr2, f1]
  · intro i hi
    obtain ⟨a, b⟩ := hsame i hi
    rw [a]
    exact ⟨(hview i (by rw [← hpos]; exact hi)).1, b⟩
  · intro i p hpi hk
    obtain ⟨hi', he⟩ := List.getElem?_eq_some_iff.1 hpi
    obtain ⟨a, b⟩ := hsame i (by rw [hpos]; exact hi')
    rw [a]
    subst he
    exact (hview i hi').2.1 hk

end WholePiv

open WholePiv in
/-- **C113** (whole computation with one pass, the default number of passes, without the thin plate splines).  If the windows are
displaced circularly by `(dx, dy)` and the square of the sub-pixel refinement is inside the map, the computation ends with one
result: all its vectors are exactly `(dx, dy)` or NaN, without error (never NaN without sub-pixel refinement, nor where the peak
is not lost by this refinement), and the final
field is exactly `(dx, dy)` at all the positions of the grid, if one vector is not NaN.  Missing: windows which are not
displaced circularly, and the vectors whose peak is lost (`C111_nan_fails`). -/
theorem C113_single_partial (cfg : Config) (hr : Exact cfg.rnd) (hnb : cfg.nbPeaks = 1) (hE : KeepsBounds cfg.ext)
    (hE' : NeverRaises cfg.ext) (ht' : ApplyInterp.wantsTps cfg.interp true = false)
    (dx dy : Int) (hfix : FixAccepts cfg dx dy) (hsub : SubpixOk cfg) (hnum : cfg.number = 1) (ws : List Work)
    (hb : build cfg.passes = .ok ws) (couple c : Images) (hc : maskImages cfg couple = .ok c) (m0 m1 : Int) (hm0 : IsMin c.1 m0) (hm1 : IsMin c.2 m1)
    (off : ApplyInterp.Pos) (hoffs : IsOffset cfg.mask off) (hgrids : ∀ w ∈ ws, ∃ g, prepareGrid w (c.1.ny, c.1.nx) = .ok g)
    (hfirst : ∀ w ∈ ws, ∀ g, prepareGrid w (c.1.ny, c.1.nx) = .ok g →
      GoodFirst cfg c m0 m1 dx dy w.win0.1.toNat w.win0.2.toNat g ∧ GoodSquare cfg dx dy w.win0.1.toNat w.win0.2.toNat) :
    ∃ d, piv cfg couple = .ok [d] ∧ UniformOrNan dx dy d ∧ (cfg.method = .noSubpix → Uniform dx dy d) ∧
      (∀ w ∈ ws, ∀ g, prepareGrid w (c.1.ny, c.1.nx) = .ok g → FoundWhere (KeptPeak cfg.method cfg.nsub w.win0.1.toNat w.win0.2.toNat m0 c.1 0 0) g dx dy d) ∧
      (∀ w ∈ ws, ∀ g, prepareGrid w (c.1.ny, c.1.nx) = .ok g → d.pos.length = g.points.length) ∧
      ((∃ j < d.pos.length, vectorAt d j ≠ (none, none)) →
        ∃ fs, d.interp.final = some fs ∧ fs.length = d.pos.length ∧ ∀ f ∈ fs, f = (some (dx : ℚ), some (dy : ℚ))) := by
  have hm := minima_ok hm0 hm1
  have hoff := offset_ok hoffs
  obtain ⟨hne, hfresh, hmemo⟩ := build_fresh cfg.passes ws hb
  have hsubpix := C74_subpix cfg.passes ws hb (by show 1 ≤ cfg.number; omega)
  have hcount : (ws.length : Int) = cfg.number := C74_number cfg.passes ws hb (by show 1 ≤ cfg.number; omega)
  obtain ⟨w, rfl⟩ : ∃ w, ws = [w] := List.length_eq_one_iff.1 (by omega)
  have hws : w.subpix cfg.passes = true := (hsubpix 0 w rfl).2 (by simp)
  obtain ⟨g, hg⟩ := hgrids w (by simp)
  obtain ⟨hgf, hgs⟩ := hfirst w (by simp) g hg
  have hwm := hmemo w (by simp)
  have hwf : w.fresh = w := by
    cases w
    simp only [Work.fresh, Work.mk.injEq, true_and]
    exact hwm.symm
  obtain ⟨x, x', s1, s2, s3, s4, s5⟩ := first_step_subpix cfg hr hnb dx dy hfix hsub w hws g c m0 m1 hm hg hgf hgs off hoff
  have hmf : MemoFor ((passes cfg).shape c) w := Or.inl hwm
  obtain ⟨e1, e2⟩ := firstPass_eq (passes cfg) w couple c hc hmf
  obtain ⟨-, -, -, h4⟩ := grid_eq w ((passes cfg).shape c) hmf
  have s1' : (passes cfg).first w.fresh g ((passes cfg).shape c) c = .ok x := by rw [hwf]; exact s1
  have s2' : (passes cfg).fix w.fresh x = .ok x' := s2
  have hg' : prepareGrid w ((passes cfg).shape c) = .ok g := hg
  rw [hg'] at e1
  simp only [s1', s2'] at e1
  rcases hl : Multipass.firstPass (passes cfg) w couple with ⟨w', o⟩
  rw [hl] at e1 e2
  simp only at e1 e2
  subst e1
  have hmw : w'.memo = some ((c.1.ny, c.1.nx), g) := by rw [e2]; exact h4 g hg'
  -- the end
  have hend : ∃ d, ((passes cfg).final w'.fresh g x' = .done d ∨ (passes cfg).final w'.fresh g x' = .interpError d) ∧
      d.pos = x'.pos ∧ d.res = x'.res ∧ ((∃ j < x'.pos.length, vectorAt x' j ≠ (none, none)) →
        ∃ fs, d.interp.final = some fs ∧ fs.length = g.points.length ∧ ∀ f ∈ fs, f = (some (dx : ℚ), some (dy : ℚ))) := by
    show ∃ d, (final cfg g x' = .done d ∨ final cfg g x' = .interpError d) ∧ _
    unfold final
    rw [hoff]
    simp only
    by_cases hu : ∃ j < x'.pos.length, vectorAt x' j ≠ (none, none)
    · obtain ⟨hu', hv⟩ := usable_of s4 hu
      have hok := interp_ok hE' (w := ⟨cfg.interp, g, off⟩) (last := true) ht' hu'
      obtain ⟨fs, k1, k2, k3⟩ := griddata_const hE ⟨cfg.interp, g, off⟩ (gridOk_of _ _ _ hg) true x'.toRes hu' ht' hok dx dy hv
      rcases hap : ApplyInterp.applyInterp cfg.ext ⟨cfg.interp, g, off⟩ true x'.toRes with ⟨r', o⟩
      rw [hap] at hok k1
      simp only at hok
      subst hok
      refine ⟨_, .inl rfl, rfl, rfl, fun _ => ⟨fs, k1, ?_, k3⟩⟩
      rw [k2]; simp [ApplyInterp.Work.points]
    · have hu' : ¬ ∃ v ∈ x'.toRes.vectors, Usable v := by
        rintro ⟨v, hv, a, b, e1, e2⟩
        obtain ⟨j, hj, e⟩ := mem_vectors (d := x') hv
        refine hu ⟨j, hj, ?_⟩
        rw [← e, e1, e2]
        intro hh
        cases hh
      have := (C82_only_nan cfg.ext ⟨cfg.interp, g, off⟩ true x'.toRes (fun v hv h => hu' ⟨v, hv, h⟩)).1
      rcases hap : ApplyInterp.applyInterp cfg.ext ⟨cfg.interp, g, off⟩ true x'.toRes with ⟨r', o⟩
      rw [hap] at this
      simp only at this
      subst this
      exact ⟨_, .inr rfl, rfl, rfl, fun h => absurd h hu⟩
  obtain ⟨d, hd, d1, d2, d3⟩ := hend
  have hat : ∀ j, vectorAt d j = vectorAt x' j := by intro j; unfold vectorAt; rw [d2]
  refine ⟨d, ?_, ?_, ?_, ?_, ?_, ?_⟩
  · unfold piv
    rw [hb]
    simp only [Multipass.calcul, hl, Multipass.laterPasses, Multipass.finish, hmw]
    rcases hd with hd | hd <;> rw [hd]
  · intro i hi
    rw [d1] at hi
    rw [hat, d2]
    exact s4 i hi
  · intro hmm i hi
    rw [d1] at hi
    rw [hat, d2]
    refine ⟨s5 i _ (List.getElem?_eq_getElem (show i < g.points.length by rw [← s3]; exact hi)) ?_, (s4 i hi).2⟩
    unfold KeptPeak
    rw [hmm]
    trivial
  · intro v hv g' hg2
    rw [List.mem_singleton] at hv
    subst hv
    rw [hg] at hg2
    injection hg2 with hg2
    subst hg2
    intro j p hj hk
    rw [hat]
    exact s5 j p hj hk
  · intro v hv g' hg2
    rw [List.mem_singleton] at hv
    subst hv
    rw [hg] at hg2
    injection hg2 with hg2
    rw [d1, s3, hg2]
  · rintro ⟨j, hj, hjn⟩
    rw [d1] at hj
    obtain ⟨fs, k1, k2, k3⟩ := d3 ⟨j, hj, by rw [← hat]; exact hjn⟩
    exact ⟨fs, k1, by rw [d1, s3, k2], k3⟩

/-! ## Non-vacuity -/

namespace WholePiv

/-- One pass with windows of 12 pixels. -/
noncomputable def demoCfgOne (rnd : ℝ → ℚ) (p : Matrix (Fin 5) (Fin (2 * 1 + 1) × Fin (2 * 1 + 1)) ℝ) : Config :=
  { demoCfg rnd p with number := 1 }

theorem demo_build_one (rnd p) : build (demoCfgOne rnd p).passes = .ok [demoWork1] := by
  show build ⟨1, .int 2, .int 12, none, 1 / 2⟩ = _
  decide +kernel

theorem demo_square (rnd p) : GoodSquare (demoCfgOne rnd p) 2 (-1) 12 12 where
  size0 := by show |(-1 : ℤ)| + ((1 : ℕ) : ℤ) + 1 ≤ ((12 / 2 : ℕ) : ℤ); decide
  size1 := by show |(2 : ℤ)| + ((1 : ℕ) : ℤ) + 1 ≤ ((12 / 2 : ℕ) : ℤ); decide
  dmax := (demo_first rnd p).dmax

/-- The pattern in the window centred on a point. -/
def demoShown (q : Int × Int) : ℕ → ℕ → ℚ := fun i j =>
  (extended 0 (ramp 0 0) (q.2 - 0 / 2 - ((12 / 2 : ℕ) : ℤ) + i) (q.1 - 0 / 2 - ((12 / 2 : ℕ) : ℤ) + j) : ℤ)

theorem demo_values : ∀ q ∈ demoGrid.points, circCorrelQ 12 12 (demoShown q) (demoShown q) 0 0 = 9429567 / 16 ∧
    circCorrelQ 12 12 (demoShown q) (demoShown q) 1 0 = 7257551 / 16 ∧ circCorrelQ 12 12 (demoShown q) (demoShown q) 0 1 = 7371791 / 16 ∧
    circCorrelQ 12 12 (demoShown q) (demoShown q) 1 1 = 5538991 / 16 ∧ circCorrelQ 12 12 (demoShown q) (demoShown q) 1 (-1) = 5546671 / 16 := by
  decide +kernel

/-- The correlation of the pattern with itself is sharp. -/
theorem demo_kept : ∀ q ∈ demoGrid.points, KeptPeak .gaussian2 1 12 12 0 (ramp 0 0) 0 0 q := by
  intro q hq
  obtain ⟨v1, v2, v3, v4, v5⟩ := demo_values q hq
  unfold KeptPeak
  have e : (fun i j => ((extended 0 (ramp 0 0) (q.2 - 0 / 2 - ((12 / 2 : ℕ) : ℤ) + (i : ℕ)) (q.1 - 0 / 2 - ((12 / 2 : ℕ) : ℤ) + (j : ℕ)) : ℤ) : ℝ)) =
      toR (demoShown q) := by
    funext i j
    unfold toR demoShown
    rw [Rat.cast_intCast]
  simp only [e]
  intro s hs
  rw [← circCorrelQ_cast, ← circCorrelQ_cast, v2, v3] at hs
  rw [← circCorrelQ_cast, ← circCorrelQ_cast, ← circCorrelQ_cast, v1, v4, v5]
  rw [min_eq_left (by norm_num)]
  rcases hs with hs | hs <;> subst hs <;> norm_num

end WholePiv

open WholePiv in
/-- Non-vacuity of `C113_single_partial`: one pass, with the default method for the sub-pixel refinement, for images of 16 pixels with a
pattern displaced by `(2, -1)`.  There is no NaN. -/
example : ∃ (cfg : Config) (d : Data), cfg.number = 1 ∧ cfg.method = .gaussian2 ∧ piv cfg (ramp 0 0, ramp 2 (-1)) = .ok [d] ∧
    d.pos.length = 4 ∧ Uniform 2 (-1) d := by
  obtain ⟨rnd, hr⟩ := exact_exists
  obtain ⟨p, hp⟩ := pinv_exists 1 le_rfl
  obtain ⟨d, h1, h2, -, h3, h4, -⟩ := C113_single_partial { demoCfgOne rnd p with method := .gaussian2 } hr rfl demoExt_keeps demoExt_never rfl 2 (-1)
    ⟨by show (1 / 5 : ℚ) ≤ 1; norm_num, fun m hm _ => by
      have : m = 4 := by injection hm with hm; exact hm.symm
      subst this; norm_num⟩
    ⟨le_rfl, ⟨none, show Subpix.construct .gaussian2 none = .ok 1 by decide +kernel⟩, hp⟩ rfl _ (demo_build_one rnd p)
    (ramp 0 0, ramp 2 (-1)) (ramp 0 0, ramp 2 (-1)) rfl 0 0 ramp_min0 ramp_min1 (0, 0) .noMask
    (by
      intro w hw
      rw [List.mem_singleton.1 hw]
      exact ⟨_, demo_grid⟩)
    (by
      intro w hw g hg
      rw [List.mem_singleton.1 hw] at hg ⊢
      have hg' : prepareGrid demoWork1 (16, 16) = .ok g := hg
      rw [demo_grid] at hg'
      injection hg' with hg'
      subst hg'
      have F := demo_first rnd p
      have S := demo_square rnd p
      exact ⟨⟨F.half0, F.half1, F.dmax, F.norm, F.neighbours, F.shapes, F.inside, F.windows⟩, S.size0, S.size1, S.dmax⟩)
  have hlen := h4 demoWork1 (by simp) demoGrid demo_grid
  refine ⟨_, d, rfl, rfl, h1, hlen, fun i hi => ⟨?_, (h2 i hi).2⟩⟩
  have hi' : i < demoGrid.points.length := by rw [← hlen]; exact hi
  exact h3 demoWork1 (by simp) demoGrid demo_grid i _ (List.getElem?_eq_getElem hi') (demo_kept _ (List.getElem_mem hi'))

end Verif
