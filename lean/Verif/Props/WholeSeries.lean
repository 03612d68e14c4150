import Verif.Model.WholeSeries
import Verif.Props.WholePivOne
import Verif.Props.WholeRun

/-!
# From the files of the images to the files of the vectors (C120), and the positions of the vectors (C113)
-/

namespace Verif
open Verif.PivGrid Verif.Correl Verif.LoopVectors Verif.Multipass Verif.WholePiv Verif.TryWork Verif.Mask Verif.ResultsFiles
  Verif.WholeRun Verif.WholeSeries Verif.Complete

/-! ## The positions of the vectors -/

/-- The middle of the centres of the two windows, for a point `g` of the grid and a displacement `d`: the first window is at
`g - d / 2` (rounded down) and the second one is displaced by `d`. -/
def middle (g d : Int) : ℚ := (((g - d / 2 : Int) : ℚ) + ((g - d / 2 + d : Int) : ℚ)) / 2

theorem middle_even (g d : Int) (h : d % 2 = 0) : middle g d = g := by
  obtain ⟨k, rfl⟩ : ∃ k, d = 2 * k := ⟨d / 2, by omega⟩
  have : (2 * k) / 2 = k := by omega
  unfold middle
  rw [this]
  push_cast
  ring

theorem middle_odd (g d : Int) (h : d % 2 = 1) : middle g d = g + 1 / 2 := by
  obtain ⟨k, rfl⟩ : ∃ k, d = 2 * k + 1 := ⟨d / 2, by omega⟩
  have : (2 * k + 1) / 2 = k := by omega
  unfold middle
  rw [this]
  push_cast
  ring

namespace WholePiv

theorem fix_pos {cfg : Config} {x r : Data} (h : fix cfg x = .ok r) : r.pos = x.pos := by
  unfold fix at h
  split at h
  · cases h
  · injection h with h
    rw [← h]

theorem first_pos {cfg : Config} {w : Work} {g : Grid} {c : Images} {x : Data} (h : first cfg w g c = .ok x) :
    ∃ off, offset cfg = .ok off ∧ x.pos = g.points.map fun p => ((p.1 : ℚ) + off.1, (p.2 : ℚ) + off.2) := by
  unfold first at h
  simp only at h
  split at h
  · cases h
  · split at h
    · cases h
    · split at h
      · cases h
      · rename_i off ho
        injection h with h
        refine ⟨off, ho, ?_⟩
        rw [← h]
        show List.map _ (List.map _ _) = _
        rw [List.map_map]
        rfl

theorem later_pos {cfg : Config} {w : Work} {g : Grid} {sh : Nat × Nat} {c : Images} {d d' x : Data}
    (h : later cfg w g sh c d = .ok (d', x)) : ∃ off, offset cfg = .ok off ∧
      x.pos = (laterPositions sh g (((ApplyInterp.applyInterp cfg.ext ⟨cfg.interp, g, off⟩ false d.toRes).1.approx.getD []).map
        fun a => (LaterPass.toInt cfg.nanInt a.1, LaterPass.toInt cfg.nanInt a.2))).map fun p => (p.1 + off.1, p.2 + off.2) := by
  unfold later at h
  cases ho : offset cfg with
  | error e => rw [ho] at h; cases h
  | ok off =>
    rw [ho] at h
    simp only at h
    refine ⟨off, rfl, ?_⟩
    rcases hap : ApplyInterp.applyInterp cfg.ext ⟨cfg.interp, g, off⟩ false d.toRes with ⟨r, o⟩
    rw [hap] at h
    cases o with
    | error e => cases h
    | ok u =>
      simp only at h
      split at h
      · cases h
      · split at h
        · cases h
        · injection h with h
          injection h with _ h
          rw [← h]
          rfl

theorem laterPositions_same {im0 im1 : Img Int} {n0 n1 : Nat} {m0 m1 dx dy : Int} {g : Grid} {ds : List (Int × Int)}
    (hw : ∀ p ∈ g.points, SameWindows n0 n1 m0 m1 im0 im1 dx dy p) (hl : ds.length = g.points.length) (hd : ∀ d ∈ ds, d = (dx, dy)) :
    laterPositions (im0.ny, im0.nx) g ds = g.points.map fun p => (middle p.1 dx, middle p.2 dy) := by
  unfold laterPositions
  apply List.ext_getElem
  · rw [List.length_zipWith, List.length_map]; omega
  · intro i h1 h2
    rw [List.getElem_zipWith, List.getElem_map]
    rw [List.length_map] at h2
    rw [hd _ (List.getElem_mem (show i < ds.length by omega))]
    obtain ⟨-, ⟨a1, a2, a3, a4⟩, ⟨b1, b2, b3, b4⟩, -, -⟩ := hw _ (List.getElem_mem h2)
    have o1 : ¬ outside im0.ny im0.nx (g.points[i].1 - dx / 2) (g.points[i].2 - dy / 2) := by unfold outside; omega
    have o2 : ¬ outside im0.ny im0.nx (g.points[i].1 - dx / 2 + dx) (g.points[i].2 - dy / 2 + dy) := by unfold outside; omega
    unfold centres
    simp only [if_neg o1, if_neg o2]
    unfold middle
    push_cast
    rfl

end WholePiv

open WholePiv in
/-- C113: the vectors of the first pass are at the points of its grid, in the coordinates of the images before the mask. -/
theorem C113_first_positions (cfg : Config) (w : Work) (ws : List Work) (hb : build cfg.passes = .ok (w :: ws)) (couple c : Images)
    (hc : maskImages cfg couple = .ok c) (g : Grid) (hg : prepareGrid w (c.1.ny, c.1.nx) = .ok g) (off : ApplyInterp.Pos)
    (hoffs : IsOffset cfg.mask off) (ds : List Data) (h : piv cfg couple = .ok ds) (d : Data) (hd : ds[0]? = some d) :
    d.pos = g.points.map fun p => ((p.1 : ℚ) + off.1, (p.2 : ℚ) + off.2) := by
  unfold piv at h
  rw [hb] at h
  obtain ⟨c', hc', gs, rs, H⟩ := (C74_chain (passes cfg) cfg.passes _ hb couple ds).1 h
  have : c' = c := by
    have h' : maskImages cfg couple = .ok c' := hc'
    rw [hc] at h'
    injection h' with h'
    exact h'.symm
  subst this
  have k1 : 0 < rs.length := by rw [H.fixed]; simp
  have k2 : 0 < gs.length := by rw [H.grids]; simp
  have hr0 := List.getElem?_eq_getElem k1
  have hg0 := List.getElem?_eq_getElem k2
  have h1 : prepareGrid w (c'.1.ny, c'.1.nx) = .ok gs[0] := H.grid 0 _ _ rfl hg0
  rw [hg] at h1
  injection h1 with h1
  obtain ⟨y, y1, y2⟩ := H.first w _ _ rfl hg0 hr0
  have y1' : first cfg w gs[0] c' = .ok y := y1
  obtain ⟨off', ho, hp⟩ := first_pos y1'
  rw [offset_ok hoffs] at ho
  injection ho with ho
  rw [(passesDone_same H 0 _ d hr0 hd).1, fix_pos y2, hp, ← ho, ← h1]

open WholePiv in
/-- C113: in the next passes, when the pattern is displaced by `(dx, dy)`, the vectors are at the middles of the centres of their two
windows, in the coordinates of the images before the mask: at the points of the grid if `dx` and `dy` are even (`middle_even`),
half a pixel further otherwise (`middle_odd`). -/
theorem C113_positions_partial (cfg : Config) (hr : Exact cfg.rnd) (hnb : cfg.nbPeaks = 1) (hE : KeepsBounds cfg.ext)
    (ht : ApplyInterp.wantsTps cfg.interp false = false) (dx dy : Int) (hfix : FixAccepts cfg dx dy) (hsub : SubpixOk cfg)
    (hnum : 1 ≤ cfg.number) (ws : List Work) (hb : build cfg.passes = .ok ws) (couple c : Images) (hc : maskImages cfg couple = .ok c)
    (m0 m1 : Int) (hm0 : IsMin c.1 m0) (hm1 : IsMin c.2 m1)
    (hpass : ∀ w ∈ ws.tail, ∀ g, prepareGrid w (c.1.ny, c.1.nx) = .ok g → GoodPass cfg c m0 m1 dx dy w.win0.1.toNat w.win0.2.toNat g)
    (off : ApplyInterp.Pos) (hoffs : IsOffset cfg.mask off)
    (ds : List Data) (h : piv cfg couple = .ok ds) (d0 : Data) (hd0 : ds[0]? = some d0) (hn : UsableNear dx dy d0)
    (i : Nat) (hi : 1 ≤ i) (d : Data) (hd : ds[i]? = some d) (w : Work) (hw : ws[i]? = some w) (g : Grid)
    (hg : prepareGrid w (c.1.ny, c.1.nx) = .ok g) :
    d.pos = g.points.map fun p => (middle p.1 dx + off.1, middle p.2 dy + off.2) := by
  have hm := minima_ok hm0 hm1
  unfold piv at h
  rw [hb] at h
  obtain ⟨c', hc', gs, rs, H⟩ := (C74_chain (passes cfg) cfg.passes ws hb couple ds).1 h
  have : c' = c := by
    have h' : maskImages cfg couple = .ok c' := hc'
    rw [hc] at h'
    injection h' with h'
    exact h'.symm
  subst this
  have hch := chain cfg hr hnb hE ht dx dy hfix hsub hnum ws hb c' m0 m1 hm hpass gs rs ds H (by
    intro r hr0
    obtain ⟨e1, e2⟩ := passesDone_same H 0 r d0 hr0 hd0
    intro i hi x y hxy
    exact hn i (by rw [e1]; exact hi) x y (by unfold vectorAt at hxy ⊢; rw [e2]; exact hxy))
  cases i with
  | zero => omega
  | succ i =>
    have hil : i + 1 < ws.length := by rw [← H.returned]; exact (List.getElem?_eq_some_iff.1 hd).1
    have k1 : i < rs.length := by rw [H.fixed]; omega
    have k2 : i + 1 < rs.length := by rw [H.fixed]; omega
    have k3 : i + 1 < gs.length := by rw [H.grids]; exact hil
    have k4 : i < ds.length := by rw [H.returned]; omega
    have hri := List.getElem?_eq_getElem k1
    have hri' := List.getElem?_eq_getElem k2
    have hgi := List.getElem?_eq_getElem k3
    have hdi := List.getElem?_eq_getElem k4
    have hgrid : prepareGrid w (c'.1.ny, c'.1.nx) = .ok gs[i + 1] := H.grid (i + 1) _ _ hw hgi
    have hgg : g = gs[i + 1] := by
      rw [hg] at hgrid
      injection hgrid
    subst hgg
    obtain ⟨x, hx, hxf⟩ := H.next i _ _ _ _ _ hw hgi hri hri' hdi
    have hx' : later cfg w gs[i + 1] (c'.1.ny, c'.1.nx) c' rs[i] = .ok (ds[i], x) := hx
    obtain ⟨off', ho, hp⟩ := later_pos hx'
    obtain ⟨off'', ho', hok, _⟩ := later_ok hx'
    have ho2 := offset_ok hoffs
    rw [ho2] at ho ho'
    injection ho with ho
    injection ho' with ho'
    subst ho
    subst ho'
    have hmem : w ∈ ws.tail := by
      rw [List.mem_iff_getElem?]
      exact ⟨i, by rw [List.getElem?_tail]; exact hw⟩
    obtain ⟨approx, e1, e2, e3⟩ := C111_estimates cfg.ext hE ⟨cfg.interp, gs[i + 1], off⟩ (gridOk_of w _ _ hg) ht rs[i].toRes
      (interp_usable hok) dx dy (near_vectors (hch i _ hri).1) hok
    rw [(passesDone_same H (i + 1) _ d hri' hd).1, fix_pos hxf, hp, e1,
      laterPositions_same (hpass w hmem _ hg).windows (by rw [List.length_map]; exact e2) (by
        intro q hq
        obtain ⟨a, ha, rfl⟩ := List.mem_map.1 hq
        obtain ⟨ax, ay, rfl, n1, n2⟩ := e3 a ha
        exact Prod.ext (LaterPass.roundEven_close ax dx n1) (LaterPass.roundEven_close ay dy n2))]
    rw [List.map_map]
    rfl

/-! ## The specification of the results -/

/-- The parameters of the computation: correlations computed without rounding, one peak searched, interpolations which stay between
the values and do not fail, no thin plate splines. -/
structure UsualParams (cfg : Config) : Prop where
  exact : Exact cfg.rnd
  onePeak : cfg.nbPeaks = 1
  bounds : KeepsBounds cfg.ext
  never : NeverRaises cfg.ext
  noTps : ∀ last, ApplyInterp.wantsTps cfg.interp last = false
  subpix : SubpixOk cfg
  passes : 1 ≤ cfg.number

/-- The second of the (masked) images `c` is the first one displaced by `(dx, dy)`, as seen in the windows of all the passes `ws`.
With one pass, the square of the sub-pixel refinement around the displacement is inside the map of the correlations. -/
structure DisplacedBy (cfg : Config) (ws : List Work) (c : Images) (dx dy : Int) : Prop where
  accepted : FixAccepts cfg dx dy
  grids : ∀ w ∈ ws, ∃ g, prepareGrid w (c.1.ny, c.1.nx) = .ok g
  square : cfg.number = 1 → ∀ w ∈ ws, GoodSquare cfg dx dy w.win0.1.toNat w.win0.2.toNat
  windows : ∃ m0 m1, IsMin c.1 m0 ∧ IsMin c.2 m1 ∧
    (∀ w, ws[0]? = some w → ∀ g, prepareGrid w (c.1.ny, c.1.nx) = .ok g → GoodFirst cfg c m0 m1 dx dy w.win0.1.toNat w.win0.2.toNat g) ∧
    ∀ w ∈ ws.tail, ∀ g, prepareGrid w (c.1.ny, c.1.nx) = .ok g → GoodPass cfg c m0 m1 dx dy w.win0.1.toNat w.win0.2.toNat g

/-- The peak of the vector of the last pass at the point `p` is not lost by the sub-pixel refinement: for the correlation with itself
of the pattern of the first image in the window of this vector (the windows of the only pass are not displaced). -/
def KeptLast (cfg : Config) (ws : List Work) (c : Images) (dx dy : Int) (w : Work) (p : Int × Int) : Prop :=
  ∀ m0, IsMin c.1 m0 → KeptPeak cfg.method cfg.nsub w.win0.1.toNat w.win0.2.toNat m0 c.1
    (if ws.length = 1 then 0 else dx) (if ws.length = 1 then 0 else dy) p

/-- The expected fields of a result, for a displacement `(dx, dy)`: one field per pass, with the vectors of the grid of the pass.
They are all exactly `(dx, dy)`, without error, except those of the last pass which are exactly `(dx, dy)` or NaN, and exactly
`(dx, dy)` if their peak is not lost by the sub-pixel refinement; and the final field is exactly `(dx, dy)` everywhere if one of them is not NaN. -/
structure RightFields (cfg : Config) (ws : List Work) (c : Images) (off : ApplyInterp.Pos) (dx dy : Int) (ds : List Data) : Prop where
  number : ds.length = ws.length
  positions : ∀ i d w g, ds[i]? = some d → ws[i]? = some w → prepareGrid w (c.1.ny, c.1.nx) = .ok g →
    d.pos = g.points.map fun p => if i = 0 then ((p.1 : ℚ) + off.1, (p.2 : ℚ) + off.2) else (middle p.1 dx + off.1, middle p.2 dy + off.2)
  vectors : ∀ i d, ds[i]? = some d → i + 1 < ds.length → Uniform dx dy d
  last : ∀ d, ds.getLast? = some d → UniformOrNan dx dy d ∧ (cfg.method = .noSubpix → Uniform dx dy d)
  kept : ∀ d w g, ds.getLast? = some d → ws.getLast? = some w → prepareGrid w (c.1.ny, c.1.nx) = .ok g →
    FoundWhere (KeptLast cfg ws c dx dy w) g dx dy d
  final : ∀ d, ds.getLast? = some d → (∃ j < d.pos.length, vectorAt d j ≠ (none, none)) →
    ∃ fs, d.interp.final = some fs ∧ fs.length = d.pos.length ∧ ∀ f ∈ fs, f = (some (dx : ℚ), some (dy : ℚ))

namespace WholeSeries

theorem pivMasked_eq (cfg : Config) (couple c : Images) (h : maskImages cfg couple = .ok c) : pivMasked cfg c = piv cfg couple := by
  unfold pivMasked piv
  cases build cfg.passes with
  | error e => rfl
  | ok ws =>
    cases ws with
    | nil => rfl
    | cons w ws =>
      have h1 : Multipass.firstPass (maskedPasses cfg) w c = Multipass.firstPass (passes cfg) w couple := by
        unfold Multipass.firstPass
        have : (passes cfg).mask couple = .ok c := h
        rw [this]
        rfl
      have h2 : ∀ (ws : List Work) (c : Images) (w : Work) (d : Data),
          Multipass.laterPasses (maskedPasses cfg) c w d ws = Multipass.laterPasses (passes cfg) c w d ws := by
        intro ws
        induction ws with
        | nil => intros; rfl
        | cons v ws ih =>
          intro c w d
          unfold Multipass.laterPasses
          have : Multipass.laterPass (maskedPasses cfg) v c d = Multipass.laterPass (passes cfg) v c d := rfl
          rw [this]
          rcases Multipass.laterPass (passes cfg) v c d with ⟨v', o⟩
          cases o with
          | error e => rfl
          | ok x =>
            simp only [ih]
      simp only [Multipass.calcul, h1, h2]

/-- The whole computation for one couple of images. -/
theorem right_piv (cfg : Config) (hp : UsualParams cfg) (ws : List Work) (hb : build cfg.passes = .ok ws) (couple c : Images)
    (hc : maskImages cfg couple = .ok c) (off : ApplyInterp.Pos) (hoffs : IsOffset cfg.mask off) (dx dy : Int)
    (hd : DisplacedBy cfg ws c dx dy) : ∃ ds, piv cfg couple = .ok ds ∧ RightFields cfg ws c off dx dy ds := by
  obtain ⟨hfix, hgrids, hsquare, m0, m1, hm0, hm1, hfirst, hpass⟩ := hd
  by_cases hone : cfg.number = 1
  · have hcount : (ws.length : Int) = cfg.number := C74_number cfg.passes ws hb hp.passes
    obtain ⟨v, rfl⟩ : ∃ v, ws = [v] := List.length_eq_one_iff.1 (by omega)
    obtain ⟨d, h1, h2, h3, h6, h4, h5⟩ := C113_single_partial cfg hp.exact hp.onePeak hp.bounds hp.never (hp.noTps _) dx dy hfix hp.subpix hone _ hb
      couple c hc m0 m1 hm0 hm1 off hoffs hgrids (by
        intro w hw g hg
        refine ⟨hfirst w ?_ g hg, hsquare hone w hw⟩
        rw [List.mem_singleton.1 hw]
        rfl)
    refine ⟨[d], h1, rfl, ?_, ?_, ?_, ?_, ?_⟩
    · intro i e w g he hw hg
      cases i with
      | zero =>
        injection hw with hw
        subst hw
        rw [C113_first_positions cfg v [] hb couple c hc g hg off hoffs [d] h1 e he]
        rfl
      | succ i => cases he
    · intro i e _ hi
      rw [List.length_singleton] at hi
      omega
    · intro e he
      injection he with he
      subst he
      exact ⟨h2, h3⟩
    · intro e w g he hw hg j p hj hk
      injection he with he
      subst he
      exact h6 w (List.mem_of_getLast? hw) g hg j p hj (hk m0 hm0)
    · intro e he hs
      injection he with he
      subst he
      exact h5 hs
  obtain ⟨ds, h1, h2, h3⟩ := C113_whole_partial cfg hp.exact hp.onePeak hp.bounds hp.never (hp.noTps _) (hp.noTps _) dx dy hfix hp.subpix
    (by have := hp.passes; omega) ws hb couple c hc m0 m1 hm0 hm1 off hoffs hgrids hfirst hpass
  have hnum : 1 ≤ cfg.number := hp.passes
  have hcount : (ws.length : Int) = cfg.number := C74_number cfg.passes ws hb hnum
  have hlen : ds.length = ws.length := by omega
  have hpos : 0 < ds.length := by have := hp.passes; omega
  have hlast : ∀ d, ds.getLast? = some d → ds[ds.length - 1]? = some d := by
    intro d hd
    rw [← List.getLast?_eq_getElem?]
    exact hd
  refine ⟨ds, h1, hlen, ?_, fun i d hd hi => (h3 i d hd).2.1 (.inl hi), fun d hd => ?_, ?_, fun d hd hs => ?_⟩
  · intro i d w g hd hw hg
    cases i with
    | zero =>
      cases ws with
      | nil => cases hw
      | cons v ws =>
        injection hw with hw
        subst hw
        rw [C113_first_positions cfg v ws hb couple c hc g hg off hoffs ds h1 d hd]
        rfl
    | succ i =>
      have hd0 := List.getElem?_eq_getElem hpos
      have hn := UniformOrNan.near (h3 0 _ hd0).1
      rw [C113_positions_partial cfg hp.exact hp.onePeak hp.bounds (hp.noTps _) dx dy hfix hp.subpix hnum ws hb couple c hc m0 m1 hm0 hm1
        hpass off hoffs ds h1 _ hd0 hn (i + 1) (by omega) d hd w hw g hg]
      rfl
  · obtain ⟨a, b, _⟩ := h3 _ d (hlast d hd)
    exact ⟨a, fun hm => b (.inr hm)⟩
  · intro d w g hd hw hg j p hj hk
    have h1' : 2 ≤ ws.length := by omega
    have hw' : ws[ds.length - 1]? = some w := by rw [hlen, ← List.getLast?_eq_getElem?]; exact hw
    have hk' := hk m0 hm0
    rw [if_neg (by omega), if_neg (by omega)] at hk'
    exact (h3 _ d (hlast d hd)).2.2.1 (by omega) w hw' g hg j p hj hk'
  · exact (h3 _ d (hlast d hd)).2.2.2 (by omega) hs

/-- The result of a couple of the series. -/
theorem right_result (cfg : Config) (hp : UsualParams cfg) (ws : List Work) (hb : build cfg.passes = .ok ws) (W : World) (i : Int)
    (couple c : Images) (h0 : loaded (computation cfg W).E W.f W.dir (W.images i).1 = .ok couple.1)
    (h1 : loaded (computation cfg W).E W.f W.dir (W.images i).2 = .ok couple.2) (hc : maskImages cfg couple = .ok c)
    (off : ApplyInterp.Pos) (hoffs : IsOffset cfg.mask off) (dx dy : Int) (hd : DisplacedBy cfg ws c dx dy) :
    ∃ r, resultOf (computation cfg W) i = .ok r ∧ r.couple.names = [(W.images i).1, (W.images i).2] ∧ r.couple.arrays = [c.1, c.2] ∧
      RightFields cfg ws c off dx dy r.fields := by
  obtain ⟨ds, e, hr⟩ := right_piv cfg hp ws hb couple c hc off hoffs dx dy hd
  rw [← pivMasked_eq cfg couple c hc] at e
  unfold maskImages at hc
  cases ha : maskArray (some cfg.mask) couple.1 with
  | error e => rw [ha] at hc; cases hc
  | ok a =>
    rw [ha] at hc
    cases hb' : maskArray (some cfg.mask) couple.2 with
    | error e => rw [hb'] at hc; cases hc
    | ok b =>
      rw [hb'] at hc
      injection hc with hc
      subst hc
      have hv : (computation cfg W).E.velo a b = .ok ds := e
      refine ⟨⟨theCouple (computation cfg W).E W.dir cfg.mask (i, W.images i) couple.1 a b (some (serieOf W.dir (i, W.images i))), ds⟩, ?_, rfl,
        rfl, hr⟩
      unfold resultOf
      have g0 : loaded (computation cfg W).E (computation cfg W).f (computation cfg W).dir ((computation cfg W).images i).1 = .ok couple.1 := h0
      have g1 : loaded (computation cfg W).E (computation cfg W).f (computation cfg W).dir ((computation cfg W).images i).2 = .ok couple.2 := h1
      have g2 : maskArray (some (computation cfg W).mask) couple.1 = .ok a := ha
      have g3 : maskArray (some (computation cfg W).mask) couple.2 = .ok b := hb'
      rw [g0, g1]
      simp only [g2, g3, hv]
      rfl

end WholeSeries

/-! ## C120 -/

open WholeSeries in
/-- **C120** (proved part).  A series of couples of images is computed with any executor, number of processes, schedule and mode, after
any number of interrupted computations of any kind.  For every couple whose images can be read and whose second (masked) image is
the first one displaced by `(dx, dy)`, the directory finally contains the file of the couple, and the vectors of this file are
exactly the displacement, at the right positions, whatever the other couples are (their images can be unreadable, or impossible to
compute).  Missing: what is missing in `C113_whole_partial` and `C113_single_partial`, and images of different shapes (`C75_other_shape_fails`). -/
theorem C120_series_partial (cfg : Config) (hp : UsualParams cfg) (ws : List Work) (hb : build cfg.passes = .ok ws) (W : World)
    (start stop step : Int) (hs : step ≠ 0) (hu : WholeRun.Usable (computation cfg W) (pyRange start stop step))
    (d d1 d' : Files Txt (Result (List Data))) (hcl : WholeRun.Clean (computation cfg W) (pyRange start stop step) d)
    (hin : (computation cfg W).Interrupted start stop step Executor.HasProcess d d1) (x : Executor) (hx : x.HasProcess) (m : Mode)
    (h : (computation cfg W).Complete x m start stop step d1 d')
    (i : Int) (hi : i ∈ pyRange start stop step) (couple c : Images)
    (h0 : loaded (computation cfg W).E W.f W.dir (W.images i).1 = .ok couple.1)
    (h1 : loaded (computation cfg W).E W.f W.dir (W.images i).2 = .ok couple.2) (hc : maskImages cfg couple = .ok c)
    (hsave : ∀ r, resultOf (computation cfg W) i = .ok r → W.save r = .ok ())
    (off : ApplyInterp.Pos) (hoffs : IsOffset cfg.mask off) (dx dy : Int) (hd : DisplacedBy cfg ws c dx dy) :
    ∃ r, d' (W.nameOf i) = some r ∧ r.couple.names = [(W.images i).1, (W.images i).2] ∧ r.couple.arrays = [c.1, c.2] ∧
      RightFields cfg ws c off dx dy r.fields := by
  obtain ⟨r, e1, e2, e3, e4⟩ := right_result cfg hp ws hb W i couple c h0 h1 hc off hoffs dx dy hd
  have hr := C117_any_execution (computation cfg W) start stop step hs hu d d1 d' hcl hin x hx m h
  exact ⟨r, hr.results i hi r ⟨e1, hsave r e1⟩, e2, e3, e4⟩

open WholeSeries in
/-- C120: and there are such computations, with every executor, number of processes and mode. -/
theorem C120_ends (cfg : Config) (W : World) (start stop step : Int) (hs : step ≠ 0)
    (hu : WholeRun.Usable (computation cfg W) (pyRange start stop step)) (d : Files Txt (Result (List Data)))
    (x : Executor) (hx : x.HasProcess) (m : Mode) : ∃ d', (computation cfg W).Complete x m start stop step d d' :=
  C117_ends (computation cfg W) start stop step hs hu d x hx m

/-! ## Example: three couples, the images of the last one can not be read -/

namespace WholeSeries

/-- The images: pattern at its first position for the even numbers, displaced for the odd ones. -/
def demoImread (p : Txt) : Except PyErr (Img Int) := match p.getLast? with
  | some '0' => .ok (ramp 0 0)
  | some '1' => .ok (ramp 2 (-1))
  | some '2' => .ok (ramp 0 0)
  | some '3' => .ok (ramp 2 (-1))
  | _ => .error .valueError

def demoWorld : World where
  exist := fun _ => true
  imread := demoImread
  abspath := id
  S := ⟨0, fun i => .ok ⟨[imageName (2 * i), imageName (2 * i + 1)],
    ["d".toList ++ ['/'] ++ imageName (2 * i), "d".toList ++ ['/'] ++ imageName (2 * i + 1)]⟩⟩
  dir := "d".toList
  f := none
  save := fun _ => .ok ()
  images := fun i => (imageName (2 * i), imageName (2 * i + 1))
  fileName := fun r => "piv_".toList ++ (r.couple.names.headD [])
  nameOf := fun i => "piv_".toList ++ imageName (2 * i)

theorem result_names (cfg : Config) (W : World) (i : Int) (r : Result (List Data)) (h : resultOf (computation cfg W) i = .ok r) :
    r.couple.names = [(W.images i).1, (W.images i).2] := by
  unfold resultOf at h
  split at h
  · cases h
  · split at h
    · cases h
    · split at h
      · cases h
      · split at h
        · cases h
        · split at h
          · cases h
          · injection h with h
            rw [← h]
            rfl

theorem demo_usable (cfg : Config) (hm : cfg.mask = none) : WholeRun.Usable (computation cfg demoWorld) (pyRange 0 3 1) where
  setup := {
    keys := by
      show (((pyRange 0 3 1).map fun i => (i, demoWorld.images i)).map fun c => c.1).Nodup
      decide
    differ := by
      show ∀ c ∈ (pyRange 0 3 1).map fun i => (i, demoWorld.images i), c.2.1 ≠ c.2.2
      decide
    serie := by
      intro c hc
      obtain ⟨i, _, rfl⟩ := List.mem_map.1 hc
      rfl
    absolute := fun _ => rfl
    exists_ := fun _ _ _ => rfl }
  mask := by
    show MaskAccepted cfg.mask
    rw [hm]
    exact no_mask
  fileName := by
    intro i hi r h
    have := result_names cfg demoWorld i r h
    show "piv_".toList ++ r.couple.names.headD [] = _
    rw [this]
    rfl
  differ := by
    show ∀ i ∈ pyRange 0 3 1, ∀ j ∈ pyRange 0 3 1, demoWorld.nameOf i = demoWorld.nameOf j → i = j
    decide

theorem demo_usual (rnd : ℝ → ℚ) (hr : Exact rnd) (p) (hp : IsPinv (Subpix.design 1) p) : UsualParams (demoCfg rnd p) where
  exact := hr
  onePeak := rfl
  bounds := demoExt_keeps
  never := demoExt_never
  noTps := by intro last; cases last <;> rfl
  subpix := ⟨le_rfl, ⟨some 1, show Subpix.construct .gaussian (some 1) = .ok 1 by decide +kernel⟩, hp⟩
  passes := by show (1 : Int) ≤ 2; decide

theorem demo_displaced (rnd : ℝ → ℚ) (p) : DisplacedBy (demoCfg rnd p) [demoWork1, demoWork2] (ramp 0 0, ramp 2 (-1)) 2 (-1) where
  accepted := ⟨by show (1 / 5 : ℚ) ≤ 1; norm_num, fun m hm _ => by
      have : m = 4 := by injection hm with hm; exact hm.symm
      subst this; norm_num⟩
  grids := by
    intro w hw
    rcases List.mem_pair.1 hw with rfl | rfl
    · exact ⟨_, demo_grid⟩
    · exact ⟨_, demo_grid2⟩
  square := by
    intro h
    exact absurd (show (2 : Int) = 1 from h) (by decide)
  windows := by
    refine ⟨0, 0, ramp_min0, ramp_min1, ?_, ?_⟩
    · intro w hw g hg
      injection hw with hw
      subst hw
      have hg' : prepareGrid demoWork1 (16, 16) = .ok g := hg
      rw [demo_grid] at hg'
      injection hg' with hg'
      subst hg'
      exact demo_first rnd p
    · intro w hw g hg
      rw [List.mem_singleton.1 hw] at hg ⊢
      have hg' : prepareGrid demoWork2 (16, 16) = .ok g := hg
      rw [demo_grid2] at hg'
      injection hg' with hg'
      subst hg'
      exact demo_later rnd p

/-- Non-vacuity of `C120_series_partial`: with two processes, the files of the first two couples contain the displacement `(2, -1)`. -/
example : ∃ (cfg : Config) (d' : Files Txt (Result (List Data))),
    (computation cfg demoWorld).Complete (.multiAsync 2) .recompute 0 3 1 (fun _ => none) d' ∧
    (∃ r, d' "piv_0".toList = some r ∧ RightFields cfg [demoWork1, demoWork2] (ramp 0 0, ramp 2 (-1)) (0, 0) 2 (-1) r.fields) ∧
    ∃ r, d' "piv_2".toList = some r ∧ RightFields cfg [demoWork1, demoWork2] (ramp 0 0, ramp 2 (-1)) (0, 0) 2 (-1) r.fields := by
  obtain ⟨rnd, hr⟩ := exact_exists
  obtain ⟨p, hp⟩ := pinv_exists 1 le_rfl
  have hu := demo_usable (demoCfg rnd p) rfl
  obtain ⟨d', h⟩ := C120_ends (demoCfg rnd p) demoWorld 0 3 1 (by decide) hu (fun _ => none) (.multiAsync 2) (by show 1 ≤ 2; omega) .recompute
  have key := fun (i : Int) (hi : i ∈ pyRange 0 3 1) h0 h1 => C120_series_partial (demoCfg rnd p) (demo_usual rnd hr p hp) _ (demo_build rnd p)
    demoWorld 0 3 1 (by decide) hu _ _ d' (fun _ _ _ h => by cases h) .none (.multiAsync 2) (by show 1 ≤ 2; omega) .recompute h i hi
    (ramp 0 0, ramp 2 (-1)) (ramp 0 0, ramp 2 (-1)) h0 h1 rfl (fun _ _ => rfl) (0, 0) .noMask 2 (-1) (demo_displaced rnd p)
  refine ⟨_, d', h, ?_, ?_⟩
  · obtain ⟨r, e, -, -, hf⟩ := key 0 (by decide) rfl rfl
    exact ⟨r, e, hf⟩
  · obtain ⟨r, e, -, -, hf⟩ := key 1 (by decide) rfl rfl
    exact ⟨r, e, hf⟩

theorem demo_displaced_one (rnd : ℝ → ℚ) (p) : DisplacedBy (demoCfgOne rnd p) [demoWork1] (ramp 0 0, ramp 2 (-1)) 2 (-1) where
  accepted := ⟨by show (1 / 5 : ℚ) ≤ 1; norm_num, fun m hm _ => by
      have : m = 4 := by injection hm with hm; exact hm.symm
      subst this; norm_num⟩
  grids := by
    intro w hw
    rw [List.mem_singleton.1 hw]
    exact ⟨_, demo_grid⟩
  square := by
    intro _ w hw
    rw [List.mem_singleton.1 hw]
    exact demo_square rnd p
  windows := by
    refine ⟨0, 0, ramp_min0, ramp_min1, ?_, fun w hw => by cases hw⟩
    intro w hw g hg
    injection hw with hw
    subst hw
    have hg' : prepareGrid demoWork1 (16, 16) = .ok g := hg
    rw [demo_grid] at hg'
    injection hg' with hg'
    subst hg'
    have F := demo_first rnd p
    exact ⟨F.half0, F.half1, F.dmax, F.norm, F.neighbours, F.shapes, F.inside, F.windows⟩

/-- Non-vacuity of `C120_series_partial` with one pass, the default number of passes. -/
example : ∃ (cfg : Config) (d' : Files Txt (Result (List Data))), cfg.number = 1 ∧
    (computation cfg demoWorld).Complete .sequential .recompute 0 3 1 (fun _ => none) d' ∧
    ∃ r, d' "piv_2".toList = some r ∧ RightFields cfg [demoWork1] (ramp 0 0, ramp 2 (-1)) (0, 0) 2 (-1) r.fields := by
  obtain ⟨rnd, hr⟩ := exact_exists
  obtain ⟨p, hp⟩ := pinv_exists 1 le_rfl
  have hu := demo_usable (demoCfgOne rnd p) rfl
  have U := demo_usual rnd hr p hp
  obtain ⟨d', h⟩ := C120_ends (demoCfgOne rnd p) demoWorld 0 3 1 (by decide) hu (fun _ => none) .sequential trivial .recompute
  obtain ⟨r, e, -, -, hf⟩ := C120_series_partial (demoCfgOne rnd p) ⟨U.exact, U.onePeak, U.bounds, U.never, U.noTps, U.subpix, le_rfl⟩ _
    (demo_build_one rnd p) demoWorld 0 3 1 (by decide) hu _ _ d' (fun _ _ _ h => by cases h) .none .sequential trivial .recompute h 1 (by decide)
    (ramp 0 0, ramp 2 (-1)) (ramp 0 0, ramp 2 (-1)) rfl rfl rfl (fun _ _ => rfl) (0, 0) .noMask 2 (-1) (demo_displaced_one rnd p)
  exact ⟨_, d', rfl, h, r, e, hf⟩

end WholeSeries
end Verif
