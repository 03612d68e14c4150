import Verif.Props.WholeSeries

/-!
# A whole computation of PIV with the thin plate splines in the last pass (C113, C120)

The default parameters of a computation of PIV: `params.multipass.use_tps = "last"`.
-/

namespace Verif
open Verif.PivGrid Verif.Correl Verif.LoopVectors Verif.Multipass Verif.WholePiv Verif.TryWork Verif.Mask Verif.ResultsFiles
  Verif.WholeRun Verif.WholeSeries Verif.Complete

/-! ## Specification -/

/-- The parameters of the computation: as in `UsualParams`, with the thin plate splines in the last pass only. -/
structure TpsParams (cfg : Config) : Prop where
  exact : Exact cfg.rnd
  onePeak : cfg.nbPeaks = 1
  bounds : KeepsBounds cfg.ext
  never : NeverRaises cfg.ext
  before : ApplyInterp.wantsTps cfg.interp false = false
  last : ApplyInterp.wantsTps cfg.interp true = true
  threshold : ∃ t, 0 ≤ t ∧ cfg.interp.threshold = some t
  subpix : SubpixOk cfg
  passes : 1 ≤ cfg.number

/-- The expected vectors of a result, for a displacement `(dx, dy)`: `RightFields` without the final field. -/
structure RightVectors (cfg : Config) (ws : List Work) (c : Images) (off : ApplyInterp.Pos) (dx dy : Int) (ds : List Data) : Prop where
  number : ds.length = ws.length
  positions : ∀ i d w g, ds[i]? = some d → ws[i]? = some w → prepareGrid w (c.1.ny, c.1.nx) = .ok g →
    d.pos = g.points.map fun p => if i = 0 then ((p.1 : ℚ) + off.1, (p.2 : ℚ) + off.2) else (middle p.1 dx + off.1, middle p.2 dy + off.2)
  vectors : ∀ i d, ds[i]? = some d → i + 1 < ds.length → Uniform dx dy d
  last : ∀ d, ds.getLast? = some d → UniformOrNan dx dy d ∧ (cfg.method = .noSubpix → Uniform dx dy d)
  kept : ∀ d w g, ds.getLast? = some d → ws.getLast? = some w → prepareGrid w (c.1.ny, c.1.nx) = .ok g →
    FoundWhere (KeptLast cfg ws c dx dy w) g dx dy d

/-- `tg` are the sub-domains made from the vectors of `d` which are not NaN, and the spline of affine values is affine in each of
them (`C83_affine`). -/
structure SplinesOf (cfg : Config) (g : Grid) (off : ApplyInterp.Pos) (d : Data) (tg : Tps.Grid) : Prop where
  domains : Tps.setup ((usableCenters ⟨cfg.interp, g, off⟩ d.toRes).map Prod.fst) ((usableCenters ⟨cfg.interp, g, off⟩ d.toRes).map Prod.snd)
    cfg.interp.subdomSize 20 = .ok tg
  affine : ∀ o ∈ tg.doms, AffineOn cfg.ext (ApplyInterp.domCenters (usableCenters ⟨cfg.interp, g, off⟩ d.toRes) o)

/-- The final field is `(dx, dy)` at all the positions of the grid which are not far from the sub-domains. -/
def RightFinal (g : Grid) (tg : Tps.Grid) (dx dy : Int) (d : Data) : Prop :=
  ∃ fs, d.interp.final = some fs ∧ fs.length = g.points.length ∧
    ∀ (j : Nat) (p : Int × Int), g.points[j]? = some p → ApplyInterp.Covered tg ((p.1 : ℚ), (p.2 : ℚ)) →
      fs[j]? = some (some (dx : ℚ), some (dy : ℚ))

/-- The positions are on a horizontal or vertical line. -/
def AlignedPos (ps : List ApplyInterp.Pos) : Prop := ∃ k : ℚ, (∀ p ∈ ps, p.1 = k) ∨ ∀ p ∈ ps, p.2 = k

/-- Some vector of `d` is not NaN. -/
def SomeVector (d : Data) : Prop := ∃ j < d.pos.length, vectorAt d j ≠ (none, none)

namespace WholePiv

/-! ## The same computation without the splines -/

/-- The same parameters, without the splines. -/
def plain (cfg : Config) : Config := { cfg with interp := { cfg.interp with useTps := .bool false } }

theorem applyInterp_plain (E : ApplyInterp.Ext) (p : ApplyInterp.Params) (g : Grid) (off : ApplyInterp.Pos) (r : ApplyInterp.Res)
    (h : ApplyInterp.wantsTps p false = false) :
    ApplyInterp.applyInterp E ⟨{ p with useTps := .bool false }, g, off⟩ false r = ApplyInterp.applyInterp E ⟨p, g, off⟩ false r := by
  have h' : ApplyInterp.wantsTps { p with useTps := .bool false } false = false := rfl
  have e : ∀ vs, ApplyInterp.estimate E ⟨{ p with useTps := .bool false }, g, off⟩ false vs = ApplyInterp.estimate E ⟨p, g, off⟩ false vs := by
    intro vs
    unfold ApplyInterp.estimate
    simp only [h, h']
    rfl
  unfold ApplyInterp.applyInterp
  have s : ApplyInterp.storePositions ⟨{ p with useTps := .bool false }, g, off⟩ false r = ApplyInterp.storePositions ⟨p, g, off⟩ false r := rfl
  simp only [e, s]

theorem later_plain (cfg : Config) (h : ApplyInterp.wantsTps cfg.interp false = false) (w : Work) (g : Grid) (sh : Nat × Nat) (c : Images)
    (d : Data) : later (plain cfg) w g sh c d = later cfg w g sh c d := by
  unfold later
  have ho : offset (plain cfg) = offset cfg := rfl
  rw [ho]
  cases offset cfg with
  | error e => rfl
  | ok off =>
    have : ApplyInterp.applyInterp (plain cfg).ext ⟨(plain cfg).interp, g, off⟩ false d.toRes =
        ApplyInterp.applyInterp cfg.ext ⟨cfg.interp, g, off⟩ false d.toRes := applyInterp_plain cfg.ext cfg.interp g off d.toRes h
    simp only [this]
    rfl

/-- Nothing is interpolated before the end of a pass. -/
theorem first_fresh {cfg : Config} {w : Work} {g : Grid} {c : Images} {x : Data} (h : first cfg w g c = .ok x) :
    x.interp = ⟨[], none, none, none, none, none, none⟩ := by
  unfold first at h
  simp only at h
  split at h
  · cases h
  · split at h
    · cases h
    · split at h
      · cases h
      · injection h with h
        rw [← h]
        rfl

theorem later_fresh {cfg : Config} {w : Work} {g : Grid} {sh : Nat × Nat} {c : Images} {d d' x : Data}
    (h : later cfg w g sh c d = .ok (d', x)) : x.interp = ⟨[], none, none, none, none, none, none⟩ := by
  unfold later at h
  cases ho : offset cfg with
  | error e => rw [ho] at h; cases h
  | ok off =>
    rw [ho] at h
    simp only at h
    rcases hap : ApplyInterp.applyInterp cfg.ext ⟨cfg.interp, g, off⟩ false d.toRes with ⟨r, o⟩
    rw [hap] at h
    cases o with
    | error e => cases h
    | ok u =>
      simp only at h
      split at h
      · cases h
      · split at h
        · cases h
        · injection h with h
          injection h with _ h
          rw [← h]
          rfl

theorem fix_interp {cfg : Config} {x r : Data} (h : fix cfg x = .ok r) : r.interp = x.interp := by
  unfold fix at h
  split at h
  · cases h
  · injection h with h
    rw [← h]

theorem rs_fresh {cfg : Config} {ws : List Work} {c : Images} {gs : List Grid} {rs ds : List Data} {sh : Nat × Nat}
    (H : PassesDone (passes cfg) ws c sh gs rs ds) (i : Nat) (r : Data) (hr : rs[i]? = some r) :
    r.interp = ⟨[], none, none, none, none, none, none⟩ := by
  have hi : i < ws.length := by rw [← H.fixed]; exact (List.getElem?_eq_some_iff.1 hr).1
  have hw := List.getElem?_eq_getElem hi
  have hg := List.getElem?_eq_getElem (show i < gs.length by rw [H.grids]; exact hi)
  cases i with
  | zero =>
    obtain ⟨x, h1, h2⟩ := H.first _ _ _ hw hg hr
    rw [fix_interp (cfg := cfg) h2]
    exact first_fresh (cfg := cfg) h1
  | succ i =>
    have hr' := List.getElem?_eq_getElem (show i < rs.length by rw [H.fixed]; omega)
    have hd := List.getElem?_eq_getElem (show i < ds.length by rw [H.returned]; omega)
    obtain ⟨x, h1, h2⟩ := H.next i _ _ _ _ _ hw hg hr' hr hd
    rw [fix_interp (cfg := cfg) h2]
    exact later_fresh (cfg := cfg) h1

/-- Only the last interpolation is changed by the splines. -/
theorem done_plain {cfg : Config} (h : ApplyInterp.wantsTps cfg.interp false = false) {ws : List Work} {c : Images} {gs : List Grid}
    {rs ds : List Data} {sh : Nat × Nat} (H : PassesDone (passes (plain cfg)) ws c sh gs rs ds) (n : Nat) (hn : n + 1 = ws.length)
    (g : Grid) (hg : gs[n]? = some g) (r : Data) (hr : rs[n]? = some r) (d : Data) (hd : final cfg g r = .done d ∨ final cfg g r = .interpError d) :
    PassesDone (passes cfg) ws c sh gs rs (ds.set n d) where
  grids := H.grids
  fixed := H.fixed
  returned := by rw [List.length_set]; exact H.returned
  grid := H.grid
  first := H.first
  next := by
    intro i w g' r1 r2 e hw hg' h1 h2 he
    have hi : i + 1 < ws.length := (List.getElem?_eq_some_iff.1 hw).1
    rw [List.getElem?_set_ne (by omega)] at he
    obtain ⟨x, x1, x2⟩ := H.next i w g' r1 r2 e hw hg' h1 h2 he
    refine ⟨x, ?_, x2⟩
    have x1' : later (plain cfg) w g' sh c r1 = .ok (e, x) := x1
    rw [later_plain cfg h] at x1'
    exact x1'
  last := by
    intro i w g' r1 e hi hw hg' h1 he
    have : i = n := by omega
    subst this
    rw [hg] at hg'
    rw [hr] at h1
    injection hg' with hg'
    injection h1 with h1
    subst hg'
    subst h1
    rw [List.getElem?_set_self (by rw [H.returned]; omega)] at he
    injection he with he
    subst he
    exact hd

/-- The grids and the vectors of the passes are the same with and without the splines. -/
theorem done_same {cfg : Config} (h : ApplyInterp.wantsTps cfg.interp false = false) {ws : List Work} {c : Images} {gs gs' : List Grid}
    {rs ds rs' ds' : List Data} {sh : Nat × Nat} (H : PassesDone (passes (plain cfg)) ws c sh gs rs ds)
    (H' : PassesDone (passes cfg) ws c sh gs' rs' ds') :
    ∀ (i : Nat) (g g' : Grid) (r r' : Data), gs[i]? = some g → gs'[i]? = some g' → rs[i]? = some r → rs'[i]? = some r' → g = g' ∧ r = r' := by
  have hgrid : ∀ (i : Nat) (g g' : Grid), gs[i]? = some g → gs'[i]? = some g' → g = g' := by
    intro i g g' h1 h2
    have hi : i < ws.length := by rw [← H.grids]; exact (List.getElem?_eq_some_iff.1 h1).1
    have a := H.grid i _ _ (List.getElem?_eq_getElem hi) h1
    have b := H'.grid i _ _ (List.getElem?_eq_getElem hi) h2
    rw [a] at b
    injection b
  intro i
  induction i with
  | zero =>
    intro g g' r r' h1 h2 h3 h4
    have hi : 0 < ws.length := by rw [← H.grids]; exact (List.getElem?_eq_some_iff.1 h1).1
    have hw := List.getElem?_eq_getElem hi
    have hgg := hgrid 0 g g' h1 h2
    subst hgg
    obtain ⟨x, x1, x2⟩ := H.first _ _ _ hw h1 h3
    obtain ⟨y, y1, y2⟩ := H'.first _ _ _ hw h2 h4
    have x1' : first cfg ws[0] g c = .ok x := x1
    have y1' : first cfg ws[0] g c = .ok y := y1
    rw [x1'] at y1'
    injection y1' with y1'
    subst y1'
    have x2' : fix cfg x = .ok r := x2
    have y2' : fix cfg x = .ok r' := y2
    rw [x2'] at y2'
    injection y2' with y2'
    exact ⟨rfl, y2'⟩
  | succ i ih =>
    intro g g' r r' h1 h2 h3 h4
    have hi : i + 1 < ws.length := by rw [← H.grids]; exact (List.getElem?_eq_some_iff.1 h1).1
    have hw := List.getElem?_eq_getElem hi
    have hgg := hgrid (i + 1) g g' h1 h2
    subst hgg
    obtain ⟨a1, p1⟩ : ∃ x, gs[i]? = some x := ⟨_, List.getElem?_eq_getElem (show i < gs.length by rw [H.grids]; omega)⟩
    obtain ⟨a2, p2⟩ : ∃ x, gs'[i]? = some x := ⟨_, List.getElem?_eq_getElem (show i < gs'.length by rw [H'.grids]; omega)⟩
    obtain ⟨a3, p3⟩ : ∃ x, rs[i]? = some x := ⟨_, List.getElem?_eq_getElem (show i < rs.length by rw [H.fixed]; omega)⟩
    obtain ⟨a4, p4⟩ : ∃ x, rs'[i]? = some x := ⟨_, List.getElem?_eq_getElem (show i < rs'.length by rw [H'.fixed]; omega)⟩
    obtain ⟨a5, p5⟩ : ∃ x, ds[i]? = some x := ⟨_, List.getElem?_eq_getElem (show i < ds.length by rw [H.returned]; omega)⟩
    obtain ⟨a6, p6⟩ : ∃ x, ds'[i]? = some x := ⟨_, List.getElem?_eq_getElem (show i < ds'.length by rw [H'.returned]; omega)⟩
    obtain ⟨_, hrr⟩ := ih _ _ _ _ p1 p2 p3 p4
    obtain ⟨x, x1, x2⟩ := H.next i _ _ _ _ _ hw h1 p3 h3 p5
    obtain ⟨y, y1, y2⟩ := H'.next i _ _ _ _ _ hw h2 p4 h4 p6
    have x1' : later (plain cfg) ws[i + 1] g sh c a3 = .ok (a5, x) := x1
    have y1' : later cfg ws[i + 1] g sh c a4 = .ok (a6, y) := y1
    rw [later_plain cfg h, hrr, y1'] at x1'
    injection x1' with x1'
    injection x1' with _ x1'
    subst x1'
    have x2' : fix cfg y = .ok r := x2
    have y2' : fix cfg y = .ok r' := y2
    rw [x2'] at y2'
    injection y2' with y2'
    exact ⟨rfl, y2'⟩

end WholePiv

namespace WholeSeries

theorem right_same {cfg : Config} {ws : List Work} {c : Images} {off : ApplyInterp.Pos} {dx dy : Int} {ds : List Data}
    (R : RightVectors cfg ws c off dx dy ds) (n : Nat) (e d : Data) (he : ds[n]? = some e) (h1 : d.pos = e.pos) (h2 : d.res = e.res) :
    RightVectors cfg ws c off dx dy (ds.set n d) := by
  have hu : ∀ {x y : Data}, x.pos = y.pos → x.res = y.res → (UniformOrNan dx dy y → UniformOrNan dx dy x) ∧ (Uniform dx dy y → Uniform dx dy x) := by
    intro x y p q
    unfold UniformOrNan Uniform vectorAt
    rw [p, q]
    exact ⟨id, id⟩
  have key : ∀ (i : Nat) (x : Data), (ds.set n d)[i]? = some x → ∃ y, ds[i]? = some y ∧ x.pos = y.pos ∧ x.res = y.res := by
    intro i x hx
    by_cases hi : n = i
    · subst hi
      rw [List.getElem?_set_self (List.getElem?_eq_some_iff.1 he).1] at hx
      injection hx with hx
      subst hx
      exact ⟨e, he, h1, h2⟩
    · rw [List.getElem?_set_ne hi] at hx
      exact ⟨x, hx, rfl, rfl⟩
  refine ⟨by rw [List.length_set]; exact R.number, ?_, ?_, ?_, ?_⟩
  · intro i x w g hx hw hg
    obtain ⟨y, y1, y2, _⟩ := key i x hx
    rw [y2]
    exact R.positions i y w g y1 hw hg
  · intro i x hx hi
    rw [List.length_set] at hi
    obtain ⟨y, y1, y2, y3⟩ := key i x hx
    exact (hu y2 y3).2 (R.vectors i y y1 hi)
  · intro x hx
    rw [List.getLast?_eq_getElem?, List.length_set] at hx
    obtain ⟨y, y1, y2, y3⟩ := key _ x hx
    obtain ⟨a, b⟩ := R.last y (by rw [List.getLast?_eq_getElem?]; exact y1)
    exact ⟨(hu y2 y3).1 a, fun hm => (hu y2 y3).2 (b hm)⟩
  · intro x w g hx hw hg j p hj hk
    rw [List.getLast?_eq_getElem?, List.length_set] at hx
    obtain ⟨y, y1, y2, y3⟩ := key _ x hx
    have := R.kept y w g (by rw [List.getLast?_eq_getElem?]; exact y1) hw hg j p hj hk
    unfold vectorAt at this ⊢
    rw [y3]
    exact this

end WholeSeries

/-! ## C113 -/

open WholePiv WholeSeries in
/-- **C113** (whole computation, with the thin plate splines in the last pass: the default parameters).  If the second image is the
first one displaced by `(dx, dy)`, the vectors `v` of the last pass are exactly `(dx, dy)` or NaN (never NaN without sub-pixel
refinement, nor where the peak is not lost by this refinement), and if the splines of those which are not NaN are defined, the computation ends with one result per pass: all the
vectors are at the right positions, those of all the passes but the last one are exactly `(dx, dy)`, those of the last pass are
`v`, and the final field is exactly `(dx, dy)` at all the positions which are not far from the vectors which are not NaN.  If the
vectors which are not NaN are on a horizontal or vertical line, the computation fails.
Missing: the other positions, where the final field is NaN (`C82_nan_fails`), and the cases where the splines are not defined
(`C82_line_fails`). -/
theorem C113_splines_partial (cfg : Config) (hp : TpsParams cfg) (ws : List Work) (hb : build cfg.passes = .ok ws) (couple c : Images)
    (hc : maskImages cfg couple = .ok c) (off : ApplyInterp.Pos) (hoffs : IsOffset cfg.mask off) (dx dy : Int)
    (hd : DisplacedBy cfg ws c dx dy) (w : Work) (hw : ws.getLast? = some w) (g : Grid) (hg : prepareGrid w (c.1.ny, c.1.nx) = .ok g) :
    ∃ v : Data, v.pos.length = g.points.length ∧ UniformOrNan dx dy v ∧ (cfg.method = .noSubpix → Uniform dx dy v) ∧ FoundWhere (KeptLast cfg ws c dx dy w) g dx dy v ∧
      (v.pos = g.points.map fun p => if ws.length = 1 then ((p.1 : ℚ) + off.1, (p.2 : ℚ) + off.2)
        else (middle p.1 dx + off.1, middle p.2 dy + off.2)) ∧
      ((SomeVector v → ∃ tg, SplinesOf cfg g off v tg) →
        ∃ ds, piv cfg couple = .ok ds ∧ RightVectors cfg ws c off dx dy ds ∧
          ∀ d, ds.getLast? = some d → d.pos = v.pos ∧ d.res = v.res ∧
            (SomeVector v → ∀ tg, SplinesOf cfg g off v tg → RightFinal g tg dx dy d)) ∧
      (SomeVector v → AlignedPos (usableCenters ⟨cfg.interp, g, off⟩ v.toRes) → ∀ ds, piv cfg couple ≠ .ok ds) := by
  have hoff := offset_ok hoffs
  obtain ⟨hfix, hgrids, hsquare, m0, m1, hm0, hm1, hfirst, hpass⟩ := hd
  have hd' : DisplacedBy (plain cfg) ws c dx dy := by
    refine ⟨⟨hfix.1, hfix.2⟩, hgrids, fun h1 w hw => ?_, m0, m1, hm0, hm1, fun w hw g hg => ?_, fun w hw g hg => ?_⟩
    · have G := hsquare h1 w hw
      exact ⟨G.size0, G.size1, G.dmax⟩
    · have F := hfirst w hw g hg
      exact ⟨F.half0, F.half1, F.dmax, F.norm, F.neighbours, F.shapes, F.inside, F.windows⟩
    · have F := hpass w hw g hg
      exact ⟨F.size0, F.size1, F.dmax, F.norm, F.neighbours, F.windows⟩
  have hp' : UsualParams (plain cfg) := ⟨hp.exact, hp.onePeak, hp.bounds, hp.never, fun last => rfl, hp.subpix, hp.passes⟩
  obtain ⟨ds, hds, R⟩ := right_piv (plain cfg) hp' ws hb couple c hc off hoffs dx dy hd'
  have RV : RightVectors cfg ws c off dx dy ds := ⟨R.number, R.positions, R.vectors, R.last, R.kept⟩
  have hds0 := hds
  unfold piv at hds
  have hb' : build (plain cfg).passes = .ok ws := hb
  rw [hb'] at hds
  obtain ⟨c', hc', gs, rs, H⟩ := (C74_chain (passes (plain cfg)) (plain cfg).passes ws hb' couple ds).1 hds
  have : c' = c := by
    have h' : maskImages cfg couple = .ok c' := hc'
    rw [hc] at h'
    injection h' with h'
    exact h'.symm
  subst this
  have hne : ws ≠ [] := by
    rintro rfl
    cases hw
  obtain ⟨n, hn⟩ : ∃ n, n + 1 = ws.length := ⟨ws.length - 1, by have := List.length_pos_iff.2 hne; omega⟩
  have hwn : ws[n]? = some w := by
    rw [List.getLast?_eq_getElem?] at hw
    rw [← hw]
    congr 1
    omega
  obtain ⟨g', hgn⟩ : ∃ x, gs[n]? = some x := ⟨_, List.getElem?_eq_getElem (show n < gs.length by rw [H.grids]; omega)⟩
  obtain ⟨v, hrn⟩ : ∃ x, rs[n]? = some x := ⟨_, List.getElem?_eq_getElem (show n < rs.length by rw [H.fixed]; omega)⟩
  obtain ⟨e, hdn⟩ : ∃ x, ds[n]? = some x := ⟨_, List.getElem?_eq_getElem (show n < ds.length by rw [H.returned]; omega)⟩
  have hgg : g' = g := by
    have h1 : prepareGrid w (c'.1.ny, c'.1.nx) = .ok g' := H.grid n _ _ hwn hgn
    rw [hg] at h1
    injection h1 with h1
    exact h1.symm
  rw [hgg] at hgn
  obtain ⟨q1, q2⟩ := passesDone_same H n v e hrn hdn
  have hfr := rs_fresh H n v hrn
  have hpos : v.pos = g.points.map fun p => if ws.length = 1 then ((p.1 : ℚ) + off.1, (p.2 : ℚ) + off.2)
      else (middle p.1 dx + off.1, middle p.2 dy + off.2) := by
    rw [← q1, R.positions n e w g hdn hwn hg]
    apply List.map_congr_left
    intro p _
    by_cases h0 : n = 0
    · rw [if_pos h0, if_pos (by omega)]
    · rw [if_neg h0, if_neg (by omega)]
  have hplen : v.pos.length = g.points.length := by rw [hpos, List.length_map]
  obtain ⟨u1, u2⟩ := R.last e (by
    rw [List.getLast?_eq_getElem?, R.number, show ws.length - 1 = n by omega]
    exact hdn)
  have hu1 : UniformOrNan dx dy v := by
    unfold UniformOrNan vectorAt at u1 ⊢
    rw [← q1, ← q2]
    exact u1
  have hu2 : cfg.method = .noSubpix → Uniform dx dy v := by
    intro hm
    have := u2 hm
    unfold Uniform vectorAt at this ⊢
    rw [← q1, ← q2]
    exact this
  have hu3 : FoundWhere (KeptLast cfg ws c' dx dy w) g dx dy v := by
    intro j p hj hk
    have := R.kept e w g (by
      rw [List.getLast?_eq_getElem?, R.number, show ws.length - 1 = n by omega]
      exact hdn) hw hg j p hj hk
    unfold vectorAt at this ⊢
    rw [← q2]
    exact this
  refine ⟨v, hplen, hu1, hu2, hu3, hpos, ?_, ?_⟩
  swap
  · rintro hsv ⟨k, hk⟩ ds' hpiv
    unfold piv at hpiv
    rw [hb] at hpiv
    obtain ⟨c2, hc2, gs', rs', H'⟩ := (C74_chain (passes cfg) cfg.passes ws hb couple ds').1 hpiv
    have : c2 = c' := by
      have h' : maskImages cfg couple = .ok c2 := hc2
      rw [hc] at h'
      injection h' with h'
      exact h'.symm
    subst this
    obtain ⟨a2, p2⟩ : ∃ x, gs'[n]? = some x := ⟨_, List.getElem?_eq_getElem (show n < gs'.length by rw [H'.grids]; omega)⟩
    obtain ⟨a4, p4⟩ : ∃ x, rs'[n]? = some x := ⟨_, List.getElem?_eq_getElem (show n < rs'.length by rw [H'.fixed]; omega)⟩
    obtain ⟨a6, p6⟩ : ∃ x, ds'[n]? = some x := ⟨_, List.getElem?_eq_getElem (show n < ds'.length by rw [H'.returned]; omega)⟩
    obtain ⟨e1, e2⟩ := done_same hp.before H H' n _ _ _ _ hgn p2 hrn p4
    have hl := H'.last n _ _ _ _ hn hwn p2 p4 p6
    rw [← e1, ← e2] at hl
    have hl' : final cfg g v = .done a6 ∨ final cfg g v = .interpError a6 := hl
    obtain ⟨er, f1, f2⟩ := C82_line_fails cfg.ext ⟨cfg.interp, g, off⟩ true v.toRes (usable_of hu1 hsv).1 hp.last hk
    unfold final at hl'
    rw [hoff] at hl'
    simp only at hl'
    rcases hap : ApplyInterp.applyInterp cfg.ext ⟨cfg.interp, g, off⟩ true v.toRes with ⟨r', o⟩
    rw [hap] at f1 hl'
    simp only at f1
    subst f1
    cases er <;> first | exact f2 rfl | (rcases hl' with hl' | hl' <;> cases hl')
  intro hspl
  obtain ⟨t, ht0, hthr⟩ := hp.threshold
  have hposn : estimatePositions true v.toRes = none := by
    show v.interp.ixyFinal = none
    rw [hfr]
  -- the final interpolation with the splines
  have haff : SomeVector v → ∀ tg, SplinesOf cfg g off v tg →
      (ApplyInterp.applyInterp cfg.ext ⟨cfg.interp, g, off⟩ true v.toRes).2 = .ok () ∧
      RightFinal g tg dx dy { v with interp := (ApplyInterp.applyInterp cfg.ext ⟨cfg.interp, g, off⟩ true v.toRes).1 } := by
    intro hsv tg S
    obtain ⟨hu, hv⟩ := usable_of hu1 hsv
    obtain ⟨hok, ps, fs, f1, f2, f3, f4⟩ := C82_affine cfg.ext ⟨cfg.interp, g, off⟩ true v.toRes hu hp.last ht0 hthr S.domains S.affine 0 0 dx 0 0 dy
      (fun v h1 h2 => by obtain ⟨a, b⟩ := hv v h1 h2; unfold affineAt; rw [a, b]; constructor <;> congr 1 <;> ring) hposn
      (fun _ => by
        show v.vectors.length = _
        rw [vectors_length, hplen]; simp [ApplyInterp.Work.points])
    have hps : ps = ApplyInterp.Work.original ⟨cfg.interp, g, off⟩ := by
      have := C82_positions cfg.ext ⟨cfg.interp, g, off⟩ true v.toRes
      rw [f1, hposn] at this
      injection this
    refine ⟨hok, fs, f2, by rw [f3, hps]; simp [ApplyInterp.Work.original, ApplyInterp.Work.points], ?_⟩
    intro j p hpj hcov
    have hpj' : ps[j]? = some ((p.1 : ℚ) + off.1, (p.2 : ℚ) + off.2) := by
      rw [hps]; simp [ApplyInterp.Work.original, ApplyInterp.Work.points, hpj]
    have := f4 j _ hpj' (by simpa using hcov)
    rw [this]
    simp [affineAt]
  have hfin : final cfg g v = .done { v with interp := (ApplyInterp.applyInterp cfg.ext ⟨cfg.interp, g, off⟩ true v.toRes).1 } ∨
      final cfg g v = .interpError { v with interp := (ApplyInterp.applyInterp cfg.ext ⟨cfg.interp, g, off⟩ true v.toRes).1 } := by
    unfold final
    rw [hoff]
    simp only
    by_cases hsv : SomeVector v
    · obtain ⟨tg, S⟩ := hspl hsv
      have hok := (haff hsv tg S).1
      rcases hap : ApplyInterp.applyInterp cfg.ext ⟨cfg.interp, g, off⟩ true v.toRes with ⟨r', o⟩
      rw [hap] at hok
      simp only at hok
      subst hok
      exact .inl rfl
    · have hu' : ¬ ∃ x ∈ v.toRes.vectors, Usable x := by
        rintro ⟨x, hx, a, b, e1, e2⟩
        obtain ⟨j, hj, e⟩ := mem_vectors (d := v) hx
        refine hsv ⟨j, hj, ?_⟩
        rw [← e, e1, e2]
        intro hh
        cases hh
      have := (C82_only_nan cfg.ext ⟨cfg.interp, g, off⟩ true v.toRes (fun x hx h => hu' ⟨x, hx, h⟩)).1
      rcases hap : ApplyInterp.applyInterp cfg.ext ⟨cfg.interp, g, off⟩ true v.toRes with ⟨r', o⟩
      rw [hap] at this
      simp only at this
      subst this
      exact .inr rfl
  generalize hdd : ({ v with interp := (ApplyInterp.applyInterp cfg.ext ⟨cfg.interp, g, off⟩ true v.toRes).1 } : Data) = d' at haff hfin
  have hd1 : d'.pos = v.pos := by rw [← hdd]
  have hd2 : d'.res = v.res := by rw [← hdd]
  refine ⟨ds.set n d', ?_, right_same RV n e d' hdn (by rw [hd1, q1]) (by rw [hd2, q2]), ?_⟩
  · unfold piv
    rw [hb]
    exact (C74_chain (passes cfg) cfg.passes ws hb couple _).2 ⟨c', hc', gs, rs, done_plain hp.before H n hn g hgn v hrn d' hfin⟩
  · intro d hd
    have : d = d' := by
      rw [List.getLast?_eq_getElem?, List.length_set, R.number, show ws.length - 1 = n by omega,
        List.getElem?_set_self (by rw [R.number]; omega)] at hd
      injection hd with hd
      exact hd.symm
    subst this
    exact ⟨hd1, hd2, fun hsv tg S => (haff hsv tg S).2⟩

namespace WholePiv

/-- The vectors of a grid with one line or one column are on a line. -/
theorem line_of_grid {cfg : Config} {g : Grid} {off : ApplyInterp.Pos} {v : Data} {f : Int × Int → ApplyInterp.Pos}
    (hv : v.pos = g.points.map f) (h : ∃ k : ℚ, (∀ p ∈ g.points, (f p).1 = k) ∨ ∀ p ∈ g.points, (f p).2 = k) :
    AlignedPos (usableCenters ⟨cfg.interp, g, off⟩ v.toRes) := by
  have key : ∀ p ∈ usableCenters ⟨cfg.interp, g, off⟩ v.toRes, ∃ q ∈ g.points, p = ((f q).1 - off.1, (f q).2 - off.2) := by
    intro p hp
    unfold usableCenters at hp
    obtain ⟨x, hx, rfl⟩ := List.mem_map.1 hp
    have hx' : x ∈ v.vectors := (List.mem_filter.1 hx).1
    unfold Data.vectors at hx'
    obtain ⟨⟨q, i⟩, hq, rfl⟩ := List.mem_map.1 hx'
    have hq' : q ∈ v.pos := by
      have := List.mem_zipIdx_iff_getElem?.1 hq
      exact List.mem_of_getElem? this
    rw [hv] at hq'
    obtain ⟨a, ha, rfl⟩ := List.mem_map.1 hq'
    exact ⟨a, ha, rfl⟩
  obtain ⟨k, h | h⟩ := h
  · refine ⟨k - off.1, .inl fun p hp => ?_⟩
    obtain ⟨q, hq, rfl⟩ := key p hp
    simp only [h q hq]
  · refine ⟨k - off.2, .inr fun p hp => ?_⟩
    obtain ⟨q, hq, rfl⟩ := key p hp
    simp only [h q hq]

end WholePiv

/-- The grid has one line or one column. -/
def OneLine (g : Grid) : Prop := ∃ k : Int, (∀ p ∈ g.points, p.1 = k) ∨ ∀ p ∈ g.points, p.2 = k

open WholePiv WholeSeries in
/-- C113: with the splines, the default, no result is made for images so narrow that the grid of the last pass has one line or one
column, although all the vectors are right: the final interpolation raises an exception which is not expected.  Without the
splines there is a result, which is right. -/
theorem C113_one_line_fails (cfg : Config) (hp : TpsParams cfg) (hm : cfg.method = .noSubpix) (ws : List Work) (hb : build cfg.passes = .ok ws)
    (couple c : Images) (hc : maskImages cfg couple = .ok c) (off : ApplyInterp.Pos) (hoffs : IsOffset cfg.mask off) (dx dy : Int)
    (hd : DisplacedBy cfg ws c dx dy) (w : Work) (hw : ws.getLast? = some w) (g : Grid) (hg : prepareGrid w (c.1.ny, c.1.nx) = .ok g)
    (hline : OneLine g) :
    (∀ ds, piv cfg couple ≠ .ok ds) ∧
    ∃ ds, piv { cfg with interp := { cfg.interp with useTps := .bool false } } couple = .ok ds ∧
      RightFields cfg ws c off dx dy ds := by
  constructor
  · obtain ⟨v, h1, _, h3, _, h4, _, h6⟩ := C113_splines_partial cfg hp ws hb couple c hc off hoffs dx dy hd w hw g hg
    refine h6 ?_ (line_of_grid h4 ?_)
    · have hpos : 0 < v.pos.length := by
        rw [h1, List.length_pos_iff]
        exact points_ne_nil w _ g hg
      refine ⟨0, hpos, ?_⟩
      rw [(h3 hm 0 hpos).1]
      intro h
      cases h
    · obtain ⟨k, h | h⟩ := hline
      · refine ⟨if ws.length = 1 then (k : ℚ) + off.1 else middle k dx + off.1, .inl fun p hp => ?_⟩
        rw [h p hp]
        split <;> rfl
      · refine ⟨if ws.length = 1 then (k : ℚ) + off.2 else middle k dy + off.2, .inr fun p hp => ?_⟩
        rw [h p hp]
        split <;> rfl
  · obtain ⟨hfix, hgrids, hsquare, m0, m1, hm0, hm1, hfirst, hpass⟩ := hd
    have hd' : DisplacedBy (plain cfg) ws c dx dy := by
      refine ⟨⟨hfix.1, hfix.2⟩, hgrids, fun h1 w hw => ?_, m0, m1, hm0, hm1, fun w hw g hg => ?_, fun w hw g hg => ?_⟩
      · have G := hsquare h1 w hw
        exact ⟨G.size0, G.size1, G.dmax⟩
      · have F := hfirst w hw g hg
        exact ⟨F.half0, F.half1, F.dmax, F.norm, F.neighbours, F.shapes, F.inside, F.windows⟩
      · have F := hpass w hw g hg
        exact ⟨F.size0, F.size1, F.dmax, F.norm, F.neighbours, F.windows⟩
    obtain ⟨ds, hds, R⟩ := right_piv (plain cfg) ⟨hp.exact, hp.onePeak, hp.bounds, hp.never, fun last => rfl, hp.subpix, hp.passes⟩ ws hb couple c hc off
      hoffs dx dy hd'
    exact ⟨ds, hds, R.number, R.positions, R.vectors, R.last, R.kept, R.final⟩

/-! ## C120 -/

namespace WholeSeries

/-- The result of a couple of the series is the result of the computation. -/
theorem result_of_piv (cfg : Config) (W : World) (i : Int) (couple c : Images)
    (h0 : loaded (computation cfg W).E W.f W.dir (W.images i).1 = .ok couple.1)
    (h1 : loaded (computation cfg W).E W.f W.dir (W.images i).2 = .ok couple.2) (hc : maskImages cfg couple = .ok c) :
    (∀ ds, piv cfg couple = .ok ds → ∃ r, resultOf (computation cfg W) i = .ok r ∧ r.couple.names = [(W.images i).1, (W.images i).2] ∧
      r.couple.arrays = [c.1, c.2] ∧ r.fields = ds) ∧
    ((∀ ds, piv cfg couple ≠ .ok ds) → ∀ r, resultOf (computation cfg W) i ≠ .ok r) := by
  rw [← pivMasked_eq cfg couple c hc]
  unfold maskImages at hc
  cases ha : maskArray (some cfg.mask) couple.1 with
  | error e => rw [ha] at hc; cases hc
  | ok a =>
    rw [ha] at hc
    cases hb' : maskArray (some cfg.mask) couple.2 with
    | error e => rw [hb'] at hc; cases hc
    | ok b =>
      rw [hb'] at hc
      injection hc with hc
      subst hc
      have g0 : loaded (computation cfg W).E (computation cfg W).f (computation cfg W).dir ((computation cfg W).images i).1 = .ok couple.1 := h0
      have g1 : loaded (computation cfg W).E (computation cfg W).f (computation cfg W).dir ((computation cfg W).images i).2 = .ok couple.2 := h1
      have g2 : maskArray (some (computation cfg W).mask) couple.1 = .ok a := ha
      have g3 : maskArray (some (computation cfg W).mask) couple.2 = .ok b := hb'
      constructor
      · intro ds e
        have hv : (computation cfg W).E.velo a b = .ok ds := e
        refine ⟨⟨theCouple (computation cfg W).E W.dir cfg.mask (i, W.images i) couple.1 a b (some (serieOf W.dir (i, W.images i))), ds⟩, ?_, rfl,
          rfl, rfl⟩
        unfold resultOf
        rw [g0, g1]
        simp only [g2, g3, hv]
        rfl
      · intro hno r hr
        unfold resultOf at hr
        rw [g0, g1] at hr
        simp only [g2, g3] at hr
        cases hv : (computation cfg W).E.velo a b with
        | error e => rw [hv] at hr; cases hr
        | ok ds => exact hno ds hv

end WholeSeries

open WholeSeries in
/-- **C120** (with the thin plate splines in the last pass, the default parameters).  A series of couples of images is computed with
any executor, number of processes, schedule and mode, after any number of interrupted computations of any kind.  For every couple
whose images can be read and whose second (masked) image is the first one displaced by `(dx, dy)`, the vectors `v` of the last pass
are exactly `(dx, dy)` or NaN, at the right positions.  If the splines of those which are not NaN are defined, the directory finally
contains the file of the couple, with these vectors, and with a final field which is exactly `(dx, dy)` at all the positions which
are not far from the vectors which are not NaN.  If these vectors are on a horizontal or vertical line, there is no file for the
couple.  Missing: what is missing in `C113_splines_partial`, and images of different shapes (`C75_other_shape_fails`). -/
theorem C120_splines_partial (cfg : Config) (hp : TpsParams cfg) (ws : List Work) (hb : build cfg.passes = .ok ws) (W : World)
    (start stop step : Int) (hs : step ≠ 0) (hu : WholeRun.Usable (computation cfg W) (pyRange start stop step))
    (d d1 d' : Files Txt (Result (List Data))) (hcl : WholeRun.Clean (computation cfg W) (pyRange start stop step) d)
    (hin : (computation cfg W).Interrupted start stop step Executor.HasProcess d d1) (x : Executor) (hx : x.HasProcess) (m : Mode)
    (h : (computation cfg W).Complete x m start stop step d1 d')
    (i : Int) (hi : i ∈ pyRange start stop step) (couple c : Images)
    (h0 : loaded (computation cfg W).E W.f W.dir (W.images i).1 = .ok couple.1)
    (h1 : loaded (computation cfg W).E W.f W.dir (W.images i).2 = .ok couple.2) (hc : maskImages cfg couple = .ok c)
    (hsave : ∀ r, resultOf (computation cfg W) i = .ok r → W.save r = .ok ())
    (off : ApplyInterp.Pos) (hoffs : IsOffset cfg.mask off) (dx dy : Int) (hd : DisplacedBy cfg ws c dx dy)
    (w : Work) (hw : ws.getLast? = some w) (g : Grid) (hg : prepareGrid w (c.1.ny, c.1.nx) = .ok g) :
    ∃ v : Data, UniformOrNan dx dy v ∧ (cfg.method = .noSubpix → Uniform dx dy v) ∧ FoundWhere (KeptLast cfg ws c dx dy w) g dx dy v ∧
      (v.pos = g.points.map fun p => if ws.length = 1 then ((p.1 : ℚ) + off.1, (p.2 : ℚ) + off.2)
        else (middle p.1 dx + off.1, middle p.2 dy + off.2)) ∧
      ((SomeVector v → ∃ tg, SplinesOf cfg g off v tg) →
        ∃ r, d' (W.nameOf i) = some r ∧ r.couple.names = [(W.images i).1, (W.images i).2] ∧ r.couple.arrays = [c.1, c.2] ∧
          RightVectors cfg ws c off dx dy r.fields ∧
          ∀ d, r.fields.getLast? = some d → d.pos = v.pos ∧ d.res = v.res ∧
            (SomeVector v → ∀ tg, SplinesOf cfg g off v tg → RightFinal g tg dx dy d)) ∧
      (SomeVector v → AlignedPos (usableCenters ⟨cfg.interp, g, off⟩ v.toRes) → d' (W.nameOf i) = none) := by
  obtain ⟨v, _, v2, v3, v3', v4, v5, v6⟩ := C113_splines_partial cfg hp ws hb couple c hc off hoffs dx dy hd w hw g hg
  obtain ⟨k1, k2⟩ := result_of_piv cfg W i couple c h0 h1 hc
  have hr := C117_any_execution (computation cfg W) start stop step hs hu d d1 d' hcl hin x hx m h
  refine ⟨v, v2, v3, v3', v4, ?_, ?_⟩
  · intro hspl
    obtain ⟨ds, e1, e2, e3⟩ := v5 hspl
    obtain ⟨r, r1, r2, r3, r4⟩ := k1 ds e1
    refine ⟨r, hr.results i hi r ⟨r1, hsave r r1⟩, r2, r3, ?_, ?_⟩
    · rw [r4]; exact e2
    · rw [r4]; exact e3
  · intro hsv hl
    have hno := k2 (v6 hsv hl)
    have hsame : d' (W.nameOf i) = d (W.nameOf i) := by
      apply hr.others
      rintro j hj r ⟨e1, _⟩ he
      have := hu.differ j hj i hi he
      subst this
      exact hno r e1
    rw [hsame]
    cases hdi : d (W.nameOf i) with
    | none => rfl
    | some r => exact absurd (hcl i hi r hdi).1 (hno r)

/-! ## Non-vacuity -/

namespace WholePiv

/-- Splines which are exact for affine values at the corners of a square. -/
def tpsExt : ApplyInterp.Ext := { demoExt with
  solve := fun c v => if c = [(6, 6), (10, 6), (6, 10), (10, 10)] then
    some (v, [(v.getD 1 0 - v.getD 0 0) / 4, (v.getD 2 0 - v.getD 0 0) / 4,
      v.getD 0 0 - 6 * ((v.getD 1 0 - v.getD 0 0) / 4) - 6 * ((v.getD 2 0 - v.getD 0 0) / 4)]) else none
  eval := fun _ ws p => affineAt (ws.getD 0 0) (ws.getD 1 0) (ws.getD 2 0) p }

/-- One pass without sub-pixel refinement, with the splines in the last pass. -/
noncomputable def demoCfgTps (rnd : ℝ → ℚ) (p : Matrix (Fin 5) (Fin (2 * 1 + 1) × Fin (2 * 1 + 1)) ℝ) : Config :=
  { demoCfgOne rnd p with method := .noSubpix, threshold := none, interp := ⟨.str "last", 200, some (1 / 10)⟩, ext := tpsExt }

theorem demo_tpsParams (rnd : ℝ → ℚ) (hr : Exact rnd) (p) (hp : IsPinv (Subpix.design 1) p) : TpsParams (demoCfgTps rnd p) where
  exact := hr
  onePeak := rfl
  bounds := demoExt_keeps
  never := demoExt_never
  before := show ApplyInterp.wantsTps ⟨.str "last", 200, some (1 / 10)⟩ false = false by decide +kernel
  last := show ApplyInterp.wantsTps ⟨.str "last", 200, some (1 / 10)⟩ true = true by decide +kernel
  threshold := ⟨1 / 10, by norm_num, rfl⟩
  subpix := ⟨le_rfl, ⟨some 1, show Subpix.construct .noSubpix (some 1) = .ok 1 by decide +kernel⟩, hp⟩
  passes := by show (1 : Int) ≤ 1; decide

theorem demo_displaced_tps (rnd : ℝ → ℚ) (p) : DisplacedBy (demoCfgTps rnd p) [demoWork1] (ramp 0 0, ramp 2 (-1)) 2 (-1) := by
  obtain ⟨h1, h2, h3, m0, m1, hm0, hm1, h4, h5⟩ := demo_displaced_one rnd p
  refine ⟨⟨h1.1, h1.2⟩, h2, fun e w hw => ?_, m0, m1, hm0, hm1, fun w hw g hg => ?_, fun w hw => by cases hw⟩
  · have G := h3 rfl w hw
    exact ⟨G.size0, G.size1, G.dmax⟩
  · have F := h4 w hw g hg
    exact ⟨F.half0, F.half1, F.dmax, F.norm, .inl rfl, F.shapes, F.inside, F.windows⟩

theorem demo_centers (q : ApplyInterp.Params) (v : Data) (hu : Uniform 2 (-1) v) (hpos : v.pos = [(6, 6), (10, 6), (6, 10), (10, 10)]) :
    usableCenters ⟨q, demoGrid, (0, 0)⟩ v.toRes = [(6, 6), (10, 6), (6, 10), (10, 10)] := by
  have hl : v.pos.length = 4 := by rw [hpos]; rfl
  have h : ∀ i < 4, v.res.dx i = some 2 ∧ v.res.dy i = some (-1) := by
    intro i hi
    have := (hu i (by omega)).1
    unfold vectorAt at this
    injection this with a b
    rw [a, b]
    exact ⟨by norm_num, by norm_num⟩
  have hv : v.vectors = [⟨6, 6, some 2, some (-1)⟩, ⟨10, 6, some 2, some (-1)⟩, ⟨6, 10, some 2, some (-1)⟩, ⟨10, 10, some 2, some (-1)⟩] := by
    unfold Data.vectors
    rw [hpos]
    show [_, _, _, _] = _
    simp only [Nat.zero_add]
    rw [(h 0 (by omega)).1, (h 0 (by omega)).2, (h 1 (by omega)).1, (h 1 (by omega)).2, (h 2 (by omega)).1, (h 2 (by omega)).2, (h 3 (by omega)).1,
      (h 3 (by omega)).2]
  unfold usableCenters
  show (v.vectors.filter _).map _ = _
  rw [hv]
  show List.map (fun v : ApplyInterp.Vector => (v.x - 0, v.y - 0)) _ = _
  decide +kernel

theorem demo_splines (rnd : ℝ → ℚ) (p) (v : Data) (hu : Uniform 2 (-1) v) (hpos : v.pos = [(6, 6), (10, 6), (6, 10), (10, 10)]) :
    SplinesOf (demoCfgTps rnd p) demoGrid (0, 0) v ⟨1, 1, 6, 10, 6, 10, 4 / 5, 4 / 5⟩ := by
  have hc := demo_centers (demoCfgTps rnd p).interp v hu hpos
  constructor
  · rw [hc]
    have hs : (Tps.setup [6, 10, 6, 10] [6, 6, 10, 10] 200 20).toOption.map
        (fun g => ([g.nbx, g.nby], [g.x0, g.x1, g.y0, g.y1, g.bufX, g.bufY])) = some ([1, 1], [6, 10, 6, 10, 4 / 5, 4 / 5]) := by decide +kernel
    show Tps.setup [6, 10, 6, 10] [6, 6, 10, 10] 200 20 = _
    cases h : Tps.setup [6, 10, 6, 10] [6, 6, 10, 10] 200 20 with
    | error e => rw [h] at hs; cases hs
    | ok g =>
      rw [h] at hs
      cases g
      simp only [Except.toOption, Option.map_some, Option.some.injEq, Prod.mk.injEq, List.cons.injEq, and_true] at hs
      obtain ⟨⟨a1, a2⟩, a3, a4, a5, a6, a7, a8⟩ := hs
      subst a1 a2 a3 a4 a5 a6 a7 a8
      rfl
  · intro o ho
    rw [hc]
    have he : (⟨1, 1, 6, 10, 6, 10, 4 / 5, 4 / 5⟩ : Tps.Grid).doms = [⟨26 / 5, 54 / 5, 26 / 5, 54 / 5⟩] := by
      simp [Tps.Grid.doms, Tps.linspace]; norm_num
    rw [he] at ho
    obtain rfl := List.mem_singleton.mp ho
    have hd : ApplyInterp.domCenters [(6, 6), (10, 6), (6, 10), (10, 10)] ⟨26 / 5, 54 / 5, 26 / 5, 54 / 5⟩ = [(6, 6), (10, 6), (6, 10), (10, 10)] := by
      decide +kernel
    rw [hd]
    intro a b k
    refine ⟨[a, b, k], ?_, fun q => by show affineAt _ _ _ q = _; simp⟩
    show tpsExt.solve _ _ = _
    simp only [tpsExt, if_true, affineAt, List.map_cons, List.map_nil, Option.some.injEq, Prod.mk.injEq, List.cons.injEq, true_and, and_true,
      List.getD_cons_zero, List.getD_cons_succ]
    refine ⟨by ring, by ring, by ring⟩

/-- Non-vacuity of `C113_splines_partial`: the final field is `(2, -1)` at the four positions. -/
example : ∃ (cfg : Config) (d : Data), TpsParams cfg ∧ piv cfg (ramp 0 0, ramp 2 (-1)) = .ok [d] ∧ Uniform 2 (-1) d ∧
    d.interp.final = some [(some 2, some (-1)), (some 2, some (-1)), (some 2, some (-1)), (some 2, some (-1))] := by
  obtain ⟨rnd, hr⟩ := exact_exists
  obtain ⟨p, hp⟩ := pinv_exists 1 le_rfl
  obtain ⟨v, _, _, h3, _, h4, h5, _⟩ := C113_splines_partial (demoCfgTps rnd p) (demo_tpsParams rnd hr p hp) [demoWork1] (demo_build_one rnd p)
    (ramp 0 0, ramp 2 (-1)) (ramp 0 0, ramp 2 (-1)) rfl (0, 0) .noMask 2 (-1) (demo_displaced_tps rnd p) demoWork1 rfl demoGrid demo_grid
  have hu := h3 rfl
  have hpos : v.pos = [(6, 6), (10, 6), (6, 10), (10, 10)] := by rw [h4]; decide +kernel
  have S := demo_splines rnd p v hu hpos
  obtain ⟨ds, e1, e2, e3⟩ := h5 (fun _ => ⟨_, S⟩)
  obtain ⟨d, rfl⟩ : ∃ d, ds = [d] := List.length_eq_one_iff.1 e2.number
  obtain ⟨d1, d2, d3⟩ := e3 d rfl
  have hsv : SomeVector v := ⟨0, by rw [hpos]; decide, by
    rw [(hu 0 (by rw [hpos]; decide)).1]
    intro h
    cases h⟩
  obtain ⟨fs, f1, f2, f3⟩ := d3 hsv _ S
  refine ⟨_, d, demo_tpsParams rnd hr p hp, e1, (e2.last d rfl).2 rfl, ?_⟩
  rw [f1]
  have hc : ∀ q ∈ demoGrid.points, ApplyInterp.Covered ⟨1, 1, 6, 10, 6, 10, 4 / 5, 4 / 5⟩ ((q.1 : ℚ), (q.2 : ℚ)) := by
    unfold ApplyInterp.Covered
    decide +kernel
  congr 1
  apply List.ext_getElem?
  intro j
  by_cases hj : j < 4
  · have hq := List.getElem?_eq_getElem (show j < demoGrid.points.length from hj)
    rw [f3 j _ hq (hc _ (List.getElem_mem _))]
    have h4 : ∀ j < 4, some ((some 2, some (-1)) : Option ℚ × Option ℚ) =
        ([(some 2, some (-1)), (some 2, some (-1)), (some 2, some (-1)), (some 2, some (-1))] : List (Option ℚ × Option ℚ))[j]? := by decide +kernel
    exact h4 j hj
  · rw [List.getElem?_eq_none (by rw [f2]; show 4 ≤ j; omega), List.getElem?_eq_none (by show 4 ≤ j; omega)]

/-- Non-vacuity of `C120_splines_partial`: the file of the second couple. -/
example : ∃ (cfg : Config) (d' : Files Txt (Result (List Data))), TpsParams cfg ∧
    (computation cfg demoWorld).Complete (.multiAsync 2) .recompute 0 3 1 (fun _ => none) d' ∧
    ∃ r, d' "piv_2".toList = some r ∧ RightVectors cfg [demoWork1] (ramp 0 0, ramp 2 (-1)) (0, 0) 2 (-1) r.fields := by
  obtain ⟨rnd, hr⟩ := exact_exists
  obtain ⟨p, hp⟩ := pinv_exists 1 le_rfl
  have hu := demo_usable (demoCfgTps rnd p) rfl
  obtain ⟨d', h⟩ := C120_ends (demoCfgTps rnd p) demoWorld 0 3 1 (by decide) hu (fun _ => none) (.multiAsync 2) (by show 1 ≤ 2; omega) .recompute
  obtain ⟨v, _, h3, _, h4, h5, _⟩ := C120_splines_partial (demoCfgTps rnd p) (demo_tpsParams rnd hr p hp) [demoWork1] (demo_build_one rnd p)
    demoWorld 0 3 1 (by decide) hu _ _ d' (fun _ _ _ h => by cases h) .none (.multiAsync 2) (by show 1 ≤ 2; omega) .recompute h 1 (by decide)
    (ramp 0 0, ramp 2 (-1)) (ramp 0 0, ramp 2 (-1)) rfl rfl rfl (fun _ _ => rfl) (0, 0) .noMask 2 (-1) (demo_displaced_tps rnd p) demoWork1 rfl
    demoGrid demo_grid
  obtain ⟨r, r1, _, _, r4, _⟩ := h5 (fun _ => ⟨_, demo_splines rnd p v (h3 rfl) (by rw [h4]; decide +kernel)⟩)
  exact ⟨_, d', demo_tpsParams rnd hr p hp, h, r, r1, r4⟩

/-- The pattern in an image with one column of windows. -/
def narrowRamp (dx dy : Int) : Img Int := ⟨16, 13, (ramp dx dy).get⟩

def narrowGrid : Grid := ⟨[6], [6, 10], [(6, 6), (6, 10)]⟩

theorem narrow_grid : prepareGrid demoWork1 (16, 13) = .ok narrowGrid := by decide +kernel

theorem narrow_displaced (rnd : ℝ → ℚ) (p) : DisplacedBy (demoCfgTps rnd p) [demoWork1] (narrowRamp 0 0, narrowRamp 2 (-1)) 2 (-1) := by
  obtain ⟨h1, h2, h3, _⟩ := demo_displaced_tps rnd p
  have F := demo_first rnd p
  refine ⟨h1, ?_, h3, 0, 0, by unfold IsMin; decide +kernel, by unfold IsMin; decide +kernel, ?_, fun w hw => by cases hw⟩
  · intro w hw
    rw [List.mem_singleton.1 hw]
    exact ⟨_, narrow_grid⟩
  · intro w hw g hg
    injection hw with hw
    subst hw
    have hg' : prepareGrid demoWork1 (16, 13) = .ok g := hg
    rw [narrow_grid] at hg'
    injection hg' with hg'
    subst hg'
    refine ⟨F.half0, F.half1, F.dmax, F.norm, .inl rfl, ⟨rfl, rfl⟩, by decide +kernel, ?_⟩
    have e0 : ∀ q ∈ narrowGrid.points, ∀ a < 12, ∀ b < 12, extended 0 (narrowRamp 0 0) (q.2 - 6 + (a : Nat)) (q.1 - 6 + (b : Nat)) =
        extended 0 (ramp 0 0) (q.2 - 6 + (a : Nat)) (q.1 - 6 + (b : Nat)) := by decide +kernel
    have e1 : ∀ q ∈ narrowGrid.points, ∀ a < 12, ∀ b < 12, extended 0 (narrowRamp 2 (-1)) (q.2 - 6 + (a : Nat)) (q.1 - 6 + (b : Nat)) =
        extended 0 (ramp 2 (-1)) (q.2 - 6 + (a : Nat)) (q.1 - 6 + (b : Nat)) := by decide +kernel
    intro q hq
    have hq' : q ∈ demoGrid.points := by
      have : ∀ q ∈ narrowGrid.points, q ∈ demoGrid.points := by decide +kernel
      exact this q hq
    obtain ⟨t1, t2⟩ := F.windows q hq'
    have s0 : ∀ a < 12, ∀ b < 12, shown 12 12 0 (narrowRamp 0 0) q a b = shown 12 12 0 (ramp 0 0) q a b := by
      intro a ha b hb
      unfold shown
      exact_mod_cast e0 q hq a ha b hb
    have s1 : ∀ a < 12, ∀ b < 12, shown 12 12 0 (narrowRamp 2 (-1)) q a b = shown 12 12 0 (ramp 2 (-1)) q a b := by
      intro a ha b hb
      unfold shown
      exact_mod_cast e1 q hq a ha b hb
    constructor
    · intro a b ha hb
      have := t1 a b ha hb
      have i1 := index_lt 12 (by omega) ((a : ℤ) + -1)
      have i2 := index_lt 12 (by omega) ((b : ℤ) + 2)
      have g1 := s1 _ i1 _ i2
      have g0 := s0 a ha b hb
      exact g1.trans (this.trans g0.symm)
    · intro d e hh
      apply t2
      intro a b ha hb
      have := hh a b ha hb
      have i1 := index_lt 12 (by omega) ((a : ℤ) + e)
      have i2 := index_lt 12 (by omega) ((b : ℤ) + d)
      exact (s0 _ i1 _ i2).symm.trans (this.trans (s0 a ha b hb))

/-- Non-vacuity of `C113_one_line_fails`: images of 13 columns with windows of 12 pixels. -/
example : ∃ cfg : Config, TpsParams cfg ∧ ∀ ds, piv cfg (narrowRamp 0 0, narrowRamp 2 (-1)) ≠ .ok ds := by
  obtain ⟨rnd, hr⟩ := exact_exists
  obtain ⟨p, hp⟩ := pinv_exists 1 le_rfl
  exact ⟨_, demo_tpsParams rnd hr p hp, (C113_one_line_fails (demoCfgTps rnd p) (demo_tpsParams rnd hr p hp) rfl [demoWork1] (demo_build_one rnd p)
    (narrowRamp 0 0, narrowRamp 2 (-1)) (narrowRamp 0 0, narrowRamp 2 (-1)) rfl (0, 0) .noMask 2 (-1) (narrow_displaced rnd p) demoWork1 rfl narrowGrid narrow_grid
    ⟨6, .inl (by decide +kernel)⟩).1⟩

end WholePiv
end Verif
