import Verif.Props.WholeVectors

/-!
# What is used by the interpolations and by the secondary peaks of a whole computation of PIV (C114)
-/

namespace Verif
open Verif.PivGrid Verif.Correl Verif.WholePiv
open Verif.LoopVectors (Method SubErr State VecErr)
open Verif.Multipass (Work Passes build prepareGrid)

/-! ## Specification -/

/-- The vectors of a result, each one at its position. -/
structure VectorsOf (d : Data) (vs : List ApplyInterp.Vector) : Prop where
  length : vs.length = d.pos.length
  vector : ∀ (i : Nat) p, d.pos[i]? = some p → vs[i]? = some { x := p.1, y := p.2, dx := (vectorAt d i).1, dy := (vectorAt d i).2 }

/-- A result which has no field added by the interpolations. -/
def notInterpolated (vs : List ApplyInterp.Vector) : ApplyInterp.Res := ⟨vs, none, none, none, none, none, none⟩

/-- The vector `i` is a secondary peak of the correlation map of the two windows: its correlation is the one of the peak; its
displacement is the one of the peak refined with the map (as modified by the search of the peaks), plus the estimate. -/
def IsSecondaryPeak (P : LaterPass.Params) (win : Img Int × Img Int) (d : Data) (i : Nat) : Prop :=
  ∃ best others m q v r, LaterPass.peaks P (LaterPass.corr P win.1 win.2).1 (LaterPass.corr P win.1 win.2).2 = .ok (best, some others, m) ∧
    q ∈ others ∧ q.correlMax = some v ∧ d.res.correls i = some v ∧ LaterPass.subpix P q.dx q.dy m = .ok r ∧
    (r = none → vectorAt d i = (none, none)) ∧
    ∀ x y, r = some (x, y) → vectorAt d i = (some (x + (inputAt d i).1), some (y + (inputAt d i).2))

/-! ## Lemmas -/

namespace WholePiv

theorem vectors_of (d : Data) : VectorsOf d d.vectors where
  length := by simp [Data.vectors]
  vector := by
    intro i p hp
    unfold Data.vectors
    rw [List.getElem?_map, List.getElem?_zipIdx, hp]
    simp [vectorAt]

theorem vectorsOf_interp {d : Data} {vs : List ApplyInterp.Vector} (h : VectorsOf d vs) (i' : ApplyInterp.Res) :
    VectorsOf { d with interp := i' } vs := ⟨h.length, h.vector⟩

/-- The fix does not change what has been found by the loop except the vectors; nothing is interpolated before. -/
theorem fixed_fresh {cfg : Config} {ws : List Work} {c : Images} {gs : List Grid} {rs ds : List Data} {sh : Nat × Nat}
    (H : PassesDone (passes cfg) ws c sh gs rs ds) (i : Nat) (r : Data) (hr : rs[i]? = some r) : r.interp = notInterpolated [] := by
  have hi : i < ws.length := by rw [← H.fixed]; exact (List.getElem?_eq_some_iff.1 hr).1
  have hw := List.getElem?_eq_getElem hi
  have hg := List.getElem?_eq_getElem (show i < gs.length by rw [H.grids]; exact hi)
  cases i with
  | zero =>
    obtain ⟨x, hx, hf⟩ := H.first _ _ _ hw hg hr
    obtain ⟨m0, m1, off, s, _, _, _, rfl⟩ := first_ok hx
    obtain ⟨res, rfl⟩ := fix_same hf
    rfl
  | succ k =>
    have hr' := List.getElem?_eq_getElem (show k < rs.length by rw [H.fixed]; omega)
    have hd' := List.getElem?_eq_getElem (show k < ds.length by rw [H.returned]; omega)
    obtain ⟨x, hx, hf⟩ := H.next k _ _ _ _ _ hw hg hr' hr hd'
    obtain ⟨m0, m1, off, s, es, _, _, _, _, _, rfl⟩ := later_made hx
    obtain ⟨res, rfl⟩ := fix_same hf
    rfl

/-- The secondary peaks stored by the loop for a vector. -/
theorem loop_secondary (P : LaterPass.Params) (junk : Nat → Option ℚ) (ws : List (Img Int × Img Int))
    (inp : Option ((Nat → ℚ) × (Nat → ℚ))) (s : State) (h : LoopVectors.loopVectors (LaterPass.env P) junk ws inp = .ok s) (i : Nat)
    (w : Img Int × Img Int) (hw : ws[i]? = some w) (l : List Displ) (hl : s.secondaryPeaks i = some l) :
    ∃ best m, LaterPass.peaks P (LaterPass.corr P w.1 w.2).1 (LaterPass.corr P w.1 w.2).2 = .ok (best, some l, m) := by
  obtain ⟨hi, rfl⟩ := List.getElem?_eq_some_iff.1 hw
  obtain ⟨s0, hs0, e1, e2, e3, e4⟩ := loop_input _ _ _ _ _ h
  obtain ⟨s1, hs1, hv⟩ := ((C34_partial (LaterPass.env P) junk junk ws).1 s0 hs0).1 i hi
  obtain ⟨o1, o2, o3, o4⟩ := C34_one_vector (LaterPass.env P) junk ws[i]
  rw [e3] at hl
  have hsame : ∀ {s2 : State} {V : VecView}, LoopVectors.loopVectors (LaterPass.env P) junk [ws[i]] none = .ok s2 → view s2 0 = V →
      view s0 i = V := by
    intro s2 V h2 h3
    rw [hs1] at h2
    injection h2 with h2
    rw [hv, h2, h3]
  by_cases hg : (ws[i].1.ny = (LaterPass.env P).n0 ∧ ws[i].1.nx = (LaterPass.env P).n1) ∧
      (ws[i].2.ny = (LaterPass.env P).m0 ∧ ws[i].2.nx = (LaterPass.env P).m1)
  · cases hp : (LaterPass.env P).peaks ((LaterPass.env P).corr ws[i].1 ws[i].2).1 ((LaterPass.env P).corr ws[i].1 ws[i].2).2 with
    | error e =>
      cases e with
      | piv m d =>
        obtain ⟨s2, h2, h3⟩ := o2 hg m d hp
        have := hsame h2 h3
        unfold view at this
        injection this with a1 a2 a3 a4 a5
        rw [a5] at hl
        cases hl
      | py e =>
        rw [o3 hg e hp] at hs1
        cases hs1
    | ok r =>
      obtain ⟨d, o, c⟩ := r
      have key : s0.secondaryPeaks i = o := by
        obtain ⟨r1, r2⟩ := o4 hg d o c hp
        cases hlast : P.last with
        | false =>
          obtain ⟨s2, h2, h3⟩ := r1 (by simp [LaterPass.env, hlast])
          have := hsame h2 h3
          unfold view at this
          injection this
        | true =>
          obtain ⟨t1, t2⟩ := r2 (LaterPass.subpix P) (by simp [LaterPass.env, hlast])
          cases hs : LaterPass.subpix P d.dx d.dy c with
          | error e =>
            obtain ⟨s2, h2, h3⟩ := t1 e hs
            have := hsame h2 h3
            unfold view at this
            injection this
          | ok r =>
            obtain ⟨s2, h2, h3⟩ := t2 r hs
            have := hsame h2 h3
            unfold view at this
            injection this
      rw [key] at hl
      exact ⟨d, c, by rw [← hl]; exact hp⟩
  · obtain ⟨s2, h2, h3⟩ := o1 hg
    have := hsame h2 h3
    unfold view at this
    injection this with a1 a2 a3 a4 a5
    rw [a5] at hl
    cases hl

/-- A vector replaced by the fix. -/
theorem result_replaced (cfg : Config) (w : Work) (hw0 : 0 < w.win0.1.toNat) (hw1 : 0 < w.win0.2.toNat) (g : Grid)
    (hgo : g.points.length = g.iyvecs.length * g.ixvecs.length)
    (hneigh : cfg.threshold = none ∨ 2 ≤ g.iyvecs.length ∧ 2 ≤ g.ixvecs.length) (off : ApplyInterp.Pos) (pos : List ApplyInterp.Pos)
    (ws : List (Img Int × Img Int)) (hlen : ws.length ≤ g.points.length) (inp : Option ((Nat → ℚ) × (Nat → ℚ))) (s : State)
    (hs : LoopVectors.loopVectors (LaterPass.env (cfg.pass w)) (cfg.junk w) ws inp = .ok s) (d : Data)
    (hd : fix cfg (result cfg (cfg.pass w) g off pos ws inp s) = .ok d) (i : Nat) (win : Img Int × Img Int) (hi : ws[i]? = some win)
    (hne : d.res.replaced.get? i ≠ none) : IsSecondaryPeak (cfg.pass w) win d i := by
  have hil := (List.getElem?_eq_some_iff.1 hi).1
  unfold fix at hd
  split at hd
  · cases hd
  · rename_i r hr
    injection hd with hd
    subst hd
    obtain ⟨s0, hs0, f1, -⟩ := loop_input _ _ _ _ _ hs
    have hu : s.errors.KeysUnique := by
      rw [f1]
      unfold LoopVectors.loopVectors at hs0
      split at hs0
      · cases hs0
      · rename_i s1 hs1
        injection hs0 with hs0
        rw [← hs0]
        exact loop_unique _ _ _ _ _ (by simp [State.init, Dict.KeysUnique, Dict.keys]) hs1
    have hkeys : Dict.keys (s.errors.map fun e => (e.1, [Fix.Reason.earlier e.2])) = s.errors.keys := by
      unfold Dict.keys
      rw [List.map_map]
      rfl
    have hbeyond : ∀ j, ws.length ≤ j → s.errors.get? j = none := by
      rw [f1]
      exact ((C34_partial (LaterPass.env (cfg.pass w)) (cfg.junk w) (cfg.junk w) ws).1 s0 hs0).2
    rcases fix_vector cfg.fix _ _ _ hneigh _ r (by
        show Dict.KeysUnique (s.errors.map _)
        unfold Dict.KeysUnique
        rw [hkeys]
        exact hu) (by
        intro j hj
        have hj' : j ∈ s.errors.keys := by rw [← hkeys]; exact hj
        by_contra hc
        refine (Dict.get?_eq_none_iff _ _).1 (hbeyond j ?_) hj'
        show ws.length ≤ j
        have : ¬ j < g.iyvecs.length * g.ixvecs.length := hc
        omega) rfl hr i (by
        show i < g.iyvecs.length * g.ixvecs.length
        omega) with h | ⟨h1, h2, h3, h4, h5, h6⟩ | ⟨h1, h2, h3, l, k, h4, h5, h6, h7, sub, h8, h9, h10⟩
    · exact absurd h.1 hne
    · exact absurd h1 hne
    · obtain ⟨sl, hsl, rfl⟩ : ∃ sl, s.secondaryPeaks i = some sl ∧ l = sl.map toPeak := by
        have : (s.secondaryPeaks i).map (fun l => l.map toPeak) = some l := h4
        cases hsp : s.secondaryPeaks i with
        | none => rw [hsp] at this; cases this
        | some sl => rw [hsp] at this; injection this with this; exact ⟨sl, rfl, this.symm⟩
      obtain ⟨q, hq, rfl⟩ := List.mem_map.1 h5
      obtain ⟨best, m, hpk⟩ := loop_secondary _ _ _ _ _ hs i win hi sl hsl
      obtain ⟨-, -, q3⟩ := peaks_found (cfg.pass w) hw0 hw1 (LaterPass.corr (cfg.pass w) win.1 win.2).1 rfl rfl _ _ _ _ hpk
      obtain ⟨v, hv⟩ := (q3 sl rfl q hq).1
      have h8' : storedSubpix (cfg.pass w) ws i (q.dx : ℚ) (q.dy : ℚ) = .ok sub := h8
      unfold storedSubpix at h8'
      rw [hi] at h8'
      simp only [Rat.floor_intCast, hpk] at h8'
      split at h8'
      · cases h8'
      · rename_i r' hr'
        injection h8' with h8'
        subst h8'
        refine ⟨best, sl, m, q, v, r', hpk, hq, hv, ?_, hr', ?_, ?_⟩
        · have : r.correls i = some (q.correlMax.getD 0) := h7
          rw [hv] at this
          exact this
        · intro hn
          subst hn
          show (r.dx i, r.dy i) = _
          rw [h9, h10]; rfl
        · intro x y hxy
          subst hxy
          show (r.dx i, r.dy i) = _
          rw [h9, h10]; rfl

end WholePiv

/-! ## Theorems -/

open WholePiv in
/-- **C114**, what is interpolated.  The estimates of each pass are what `apply_interp` (C77, C82) computes, for the grid of this
pass, from the vectors of the previous result at their positions in the image before the mask; and the final field is what it
computes from the vectors of the last result, for the grid of the last pass (possibly nothing, if no vector is usable). -/
theorem C114_interpolated (cfg : Config) (ws : List Work) (hb : build cfg.passes = .ok ws) (couple c : Images)
    (hc : maskImages cfg couple = .ok c) (off : ApplyInterp.Pos) (hoffs : IsOffset cfg.mask off) (ds : List Data)
    (h : piv cfg couple = .ok ds) (k : Nat) (d : Data) (hd : ds[k]? = some d) :
    ∃ vs, VectorsOf d vs ∧
      (∀ w g, ws[k + 1]? = some w → prepareGrid w (c.1.ny, c.1.nx) = .ok g →
        ApplyInterp.applyInterp cfg.ext ⟨cfg.interp, g, off⟩ false (notInterpolated vs) = (d.interp, .ok ())) ∧
      ∀ w g, k + 1 = ws.length → ws[k]? = some w → prepareGrid w (c.1.ny, c.1.nx) = .ok g →
        ∃ o, ApplyInterp.applyInterp cfg.ext ⟨cfg.interp, g, off⟩ true (notInterpolated vs) = (d.interp, o) ∧
          (o = .ok () ∨ o = .error .interpError) := by
  have hoff := offset_ok hoffs
  unfold piv at h
  rw [hb] at h
  obtain ⟨c', hc', gs, rs, H⟩ := (C74_chain (passes cfg) cfg.passes ws hb couple ds).1 h
  have : c' = c := by
    have h' : maskImages cfg couple = .ok c' := hc'
    rw [hc] at h'
    injection h' with h'
    exact h'.symm
  subst this
  have hk : k < ws.length := by rw [← H.returned]; exact (List.getElem?_eq_some_iff.1 hd).1
  have kr : k < rs.length := by rw [H.fixed]; exact hk
  have kg : k < gs.length := by rw [H.grids]; exact hk
  have hr := List.getElem?_eq_getElem kr
  have hfresh := fixed_fresh H k _ hr
  have hres : rs[k].toRes = notInterpolated rs[k].vectors := by
    unfold Data.toRes
    rw [hfresh]
    rfl
  obtain ⟨i', hi'⟩ := passesDone_interp H k _ d hr hd
  refine ⟨rs[k].vectors, ?_, ?_, ?_⟩
  · rw [hi']; exact vectorsOf_interp (vectors_of _) _
  · intro w g hw hg
    have hk1 : k + 1 < ws.length := (List.getElem?_eq_some_iff.1 hw).1
    have kg1 : k + 1 < gs.length := by rw [H.grids]; exact hk1
    have hg1 := List.getElem?_eq_getElem kg1
    have hr1 := List.getElem?_eq_getElem (show k + 1 < rs.length by rw [H.fixed]; exact hk1)
    have := H.grid (k + 1) _ _ hw hg1
    have e : prepareGrid w (c'.1.ny, c'.1.nx) = .ok gs[k + 1] := this
    rw [hg] at e
    injection e with e
    obtain ⟨x, hx, _⟩ := H.next k _ _ _ _ _ hw hg1 hr hr1 hd
    obtain ⟨off', ho, hok, hde⟩ := later_ok hx
    rw [hoff] at ho
    injection ho with ho
    subst ho
    rw [← e, hres] at hok hde
    rw [hde, ← hok]
  · intro w g hlast hw hg
    have hgk := List.getElem?_eq_getElem kg
    have e : prepareGrid w (c'.1.ny, c'.1.nx) = .ok gs[k] := H.grid k _ _ hw hgk
    rw [hg] at e
    injection e with e
    have hf := H.last k _ _ _ _ hlast hw hgk hr hd
    have hf' : final cfg gs[k] rs[k] = .done d ∨ final cfg gs[k] rs[k] = .interpError d := hf
    unfold final at hf'
    rw [hoff, hres, ← e] at hf'
    simp only at hf'
    rcases hap : ApplyInterp.applyInterp cfg.ext ⟨cfg.interp, g, off⟩ true (notInterpolated rs[k].vectors) with ⟨r, o⟩
    rw [hap] at hf'
    cases o with
    | ok u =>
      rcases hf' with hf' | hf'
      · injection hf' with hf'
        rw [← hf']
        exact ⟨_, rfl, .inl rfl⟩
      · cases hf'
    | error e =>
      cases e <;> rcases hf' with hf' | hf' <;> first
        | (cases hf'; done)
        | (injection hf' with hf'
           rw [← hf']
           exact ⟨_, rfl, .inr rfl⟩)

open WholePiv in
/-- **C114**, the secondary peaks.  Each vector which has been replaced is a secondary peak of the correlation of its own two
windows: those centred on its point of the grid in the first pass, those displaced by its estimate in the other passes.  (The examples after `C40_no_threshold_peaks_fails` show vectors which are replaced.) -/
theorem C114_secondary (cfg : Config) (ws : List Work) (hb : build cfg.passes = .ok ws) (couple c : Images)
    (hc : maskImages cfg couple = .ok c) (m0 m1 : Int) (hm0 : IsMin c.1 m0) (hm1 : IsMin c.2 m1) (ds : List Data)
    (h : piv cfg couple = .ok ds) (hneigh : cfg.threshold = none ∨ ∀ d ∈ ds, 2 ≤ d.rows ∧ 2 ≤ d.cols) (k : Nat) (w : Work) (d : Data)
    (hw : ws[k]? = some w) (hd : ds[k]? = some d) (g : Grid) (hg : prepareGrid w (c.1.ny, c.1.nx) = .ok g) (i : Nat)
    (hi : i < d.pos.length) (hne : d.res.replaced.get? i ≠ none) :
    ∃ q, g.points[i]? = some q ∧
      (k = 0 → IsSecondaryPeak (cfg.pass w) (firstWindows (cfg.pass w) m0 m1 c q) d i) ∧
      (1 ≤ k → ∃ ex ey : Int, inputAt d i = ((ex : ℚ), (ey : ℚ)) ∧
        IsSecondaryPeak (cfg.pass w) (LaterPass.windows (cfg.pass w) m0 m1 c.1 c.2 (c.1.ny, c.1.nx) q (ex, ey)) d i) := by
  have hpos : 0 < w.win0.1.toNat ∧ 0 < w.win0.2.toNat := by
    by_contra hc
    unfold piv at h
    rw [hb] at h
    exact C74_empty_window_fails (passes cfg) cfg.passes ws hb w (List.mem_iff_getElem?.2 ⟨k, hw⟩) (by omega) couple ds h
  have hm := minima_ok hm0 hm1
  obtain ⟨c', hc', hlen, hmade⟩ := made cfg ws hb couple ds h
  rw [hc] at hc'
  injection hc' with hc'
  subst hc'
  obtain ⟨g', n0, n1, off, pos, wins, inp, s, r, x, a1, a2, a3, a4, a5, a6, ⟨i', a7⟩, a8, a9⟩ := hmade k w d hw hd
  rw [hg] at a1
  injection a1 with a1
  subst a1
  rw [hm] at a2
  injection a2 with a2
  injection a2 with a2 a2'
  subst a2 a2'
  have hpl := points_length g (gridOk_of w _ g hg)
  obtain ⟨res, hres⟩ := fix_same a6
  have hrows : d.rows = g.iyvecs.length ∧ d.cols = g.ixvecs.length ∧ d.pos.length = pos.length := by
    rw [a7, hres, a5]
    exact ⟨rfl, rfl, by simp [result]⟩
  have hinp : ∀ i, inputAt d i = inpAt inp i := by intro i; rw [a7, hres, a5]; rfl
  have hn : cfg.threshold = none ∨ 2 ≤ g.iyvecs.length ∧ 2 ≤ g.ixvecs.length := by
    rcases hneigh with hn | hn
    · exact .inl hn
    · right
      rw [← hrows.1, ← hrows.2.1]
      exact hn d (List.mem_iff_getElem?.2 ⟨k, hd⟩)
  have hsame : ∀ win, IsSecondaryPeak (cfg.pass w) win r i → IsSecondaryPeak (cfg.pass w) win d i := by
    intro win hs
    rw [a7]
    exact hs
  have hne' : r.res.replaced.get? i ≠ none := by
    rw [a7] at hne
    exact hne
  have hwins : wins.length ≤ g.points.length := by
    cases k with
    | zero => rw [(a8 rfl).2.1]; simp
    | succ k =>
      obtain ⟨e, es, _, _, _, e2, _⟩ := a9 k rfl
      rw [e2, List.length_zipWith]
      exact Nat.min_le_left _ _
  rw [a5] at a6
  have main := fun win hwin => hsame win (result_replaced cfg w hpos.1 hpos.2 g hpl hn off pos wins hwins inp s a4 r a6 i win hwin hne')
  cases k with
  | zero =>
    obtain ⟨e1, e2, _⟩ := a8 rfl
    have hi' : i < g.points.length := by
      rw [hrows.2.2, e1, List.length_map] at hi
      exact hi
    refine ⟨g.points[i], List.getElem?_eq_getElem hi', fun _ => main _ ?_, fun hc => absurd hc (by omega)⟩
    rw [e2, List.getElem?_map, List.getElem?_eq_getElem hi']
    rfl
  | succ k =>
    obtain ⟨e, es, b1, b2, b3, b4, b5⟩ := a9 k rfl
    have hi' : i < g.points.length ∧ i < es.length := by
      rw [hrows.2.2, b3] at hi
      simp only [laterPositions, List.length_zipWith] at hi
      omega
    refine ⟨g.points[i], List.getElem?_eq_getElem hi'.1, fun hc => absurd hc (by omega), fun _ => ⟨es[i].1, es[i].2, ?_, main _ ?_⟩⟩
    · rw [hinp, b5]
      simp [inpAt, inputsOf, List.getD_eq_getElem?_getD, List.getElem?_eq_getElem hi'.2]
    · rw [b4, List.getElem?_zipWith, List.getElem?_eq_getElem hi'.1, List.getElem?_eq_getElem hi'.2]

/-! ## Examples -/

open WholePiv in
/-- Non-vacuity of `C114_interpolated`: the example of C113. -/
example : ∃ (cfg : Config) (ds : List Data) (d : Data) (vs : List ApplyInterp.Vector), piv cfg (ramp 0 0, ramp 2 (-1)) = .ok ds ∧
    ds[0]? = some d ∧ VectorsOf d vs ∧ vs.length = 4 ∧
    ApplyInterp.applyInterp cfg.ext ⟨cfg.interp, demoGrid2, (0, 0)⟩ false (notInterpolated vs) = (d.interp, .ok ()) := by
  obtain ⟨rnd, hr, hn⟩ := exactNear_exists
  obtain ⟨p, hp⟩ := pinv_exists 1 le_rfl
  obtain ⟨ds, h1, h2, h3, _⟩ := demo_piv rnd hr p hp
  have hb := demo_build rnd p
  have hd := List.getElem?_eq_getElem (show 0 < ds.length by omega)
  obtain ⟨vs, v1, v2, _⟩ := C114_interpolated (demoCfg rnd p) _ hb _ (ramp 0 0, ramp 2 (-1)) rfl (0, 0) .noMask ds h1 0 _ hd
  obtain ⟨-, -, -, e4, -⟩ := C114_positions (demoCfg rnd p) _ hb _ (ramp 0 0, ramp 2 (-1)) rfl (0, 0) .noMask ds h1 0 _ rfl _ hd _ demo_grid
  refine ⟨_, ds, _, vs, h1, hd, v1, ?_, v2 _ _ rfl demo_grid2⟩
  rw [v1.length, e4 rfl]
  rfl

end Verif
