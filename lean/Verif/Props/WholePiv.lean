import Verif.Model.WholePiv
import Verif.Props.LaterPass
import Verif.Props.Multipass
import Verif.Props.Fix
import Verif.Props.Mask

/-!
# A uniform displacement in a whole computation of PIV (C113)

End to end: mask, first pass, false vectors, estimates, passes with displaced windows, final field.
-/

namespace Verif
open Verif.PivGrid Verif.Correl Verif.WholePiv
open Verif.LoopVectors (Method SubErr State VecErr)
open Verif.Multipass (Work Passes build prepareGrid)

/-! ## Specification -/

/-- The vector number `i` of a result: `deltaxs[i], deltays[i]`. -/
def vectorAt (d : Data) (i : Nat) : Option ℚ × Option ℚ := (d.res.dx i, d.res.dy i)

/-- All the vectors of the result are exactly `(dx, dy)`, without error. -/
def Uniform (dx dy : Int) (d : Data) : Prop :=
  ∀ i < d.pos.length, vectorAt d i = (some (dx : ℚ), some (dy : ℚ)) ∧ d.res.errors.get? i = none

/-- All the vectors of the result are exactly `(dx, dy)` or NaN, without error. -/
def UniformOrNan (dx dy : Int) (d : Data) : Prop :=
  ∀ i < d.pos.length, (vectorAt d i = (some (dx : ℚ), some (dy : ℚ)) ∨ vectorAt d i = (none, none)) ∧ d.res.errors.get? i = none

/-- The vectors of the points of the grid where `K` is true are exactly `(dx, dy)`. -/
def FoundWhere (K : Int × Int → Prop) (g : Grid) (dx dy : Int) (d : Data) : Prop :=
  ∀ (j : Nat) (p : Int × Int), g.points[j]? = some p → K p → vectorAt d j = (some (dx : ℚ), some (dy : ℚ))

/-- The vectors of the result which are not NaN are at less than half a pixel of `(dx, dy)`. -/
def UsableNear (dx dy : Int) (d : Data) : Prop :=
  ∀ i < d.pos.length, ∀ x y, vectorAt d i = (some x, some y) → |x - dx| < 1 / 2 ∧ |y - dy| < 1 / 2

/-- The removal of the false vectors accepts vectors `(dx, dy)` with a correlation equal to 1. -/
def FixAccepts (cfg : Config) (dx dy : Int) : Prop :=
  cfg.correlMin ≤ 1 ∧ ∀ m, cfg.fixMax = some m → m ≠ 0 → (dx : ℚ) ^ 2 + (dy : ℚ) ^ 2 ≤ m ^ 2

/-- The parameters of the sub-pixel refinement are those of an object `SubPix`. -/
def SubpixOk (cfg : Config) : Prop :=
  1 ≤ cfg.nsub ∧ (∃ nsubpix, Subpix.construct cfg.method nsubpix = .ok cfg.nsub) ∧ IsPinv (Subpix.design cfg.nsub) cfg.pinv

/-- What is asked of a pass with displaced windows, with windows of shape `(n0, n1)` and the grid `g`, for the images `c` of minima
`m0` and `m1`. -/
structure GoodPass (cfg : Config) (c : Images) (m0 m1 : Int) (dx dy : Int) (n0 n1 : Nat) (g : Grid) : Prop where
  /-- the windows are larger than the square used by the sub-pixel refinement -/
  size0 : cfg.nsub + 1 ≤ n0 / 2
  size1 : cfg.nsub + 1 ≤ n1 / 2
  /-- and the limit of the displacement too -/
  dmax : AllowsSquare (cfg.displMax.parse n0 n1) cfg.nsub
  /-- the normalisation of the correlation is right (`C107_odd_fails`) -/
  norm : cfg.lib = .numpy ∨ n1 % 2 = 0
  /-- the differences with the neighbours are not used, or can be computed -/
  neighbours : cfg.threshold = none ∨ 2 ≤ g.iyvecs.length ∧ 2 ≤ g.ixvecs.length
  /-- around each vector of the grid the two images show the same pattern -/
  windows : ∀ p ∈ g.points, SameWindows n0 n1 m0 m1 c.1 c.2 dx dy p

/-- `m` is the smallest pixel of the image. -/
def IsMin (im : Img Int) (m : Int) : Prop :=
  (∃ i < im.ny, ∃ j < im.nx, im.get i j = m) ∧ ∀ i < im.ny, ∀ j < im.nx, m ≤ im.get i j

/-- The translation from the masked images to the images, for `params.mask.strcrop` equal to `None` or to `"y0:y1, x0:x1"`: the first
column and the first row which are kept. -/
inductive IsOffset : Mask.MaskParams → ApplyInterp.Pos → Prop
  | noMask : IsOffset none (0, 0)
  | box (y0 y1 x0 x1 : Option Int) : IsOffset (some (maskBoxText y0 y1 x0 x1)) (((x0.getD 0 : Int) : ℚ), ((y0.getD 0 : Int) : ℚ))

/-- The image `c` is the part of the image `im` in the box: its pixel on row `y` and column `x` is the pixel of `im` on row `y + y0` and
column `x + x0`. -/
structure IsBox (y0 y1 x0 x1 : Option Int) (im c : Img Int) : Prop where
  inside : ∀ y x : Nat, y < c.ny → x < c.nx → ∃ Y X : Nat, (Y : Int) = y + y0.getD 0 ∧ (X : Int) = x + x0.getD 0 ∧
    InRange y0 y1 im.ny Y ∧ InRange x0 x1 im.nx X ∧ c.get y x = im.get Y X
  all : ∀ Y X : Nat, InRange y0 y1 im.ny Y → InRange x0 x1 im.nx X → ∃ y x : Nat, (Y : Int) = y + y0.getD 0 ∧
    (X : Int) = x + x0.getD 0 ∧ y < c.ny ∧ x < c.nx ∧ c.get y x = im.get Y X

/-! ## Lemmas -/

namespace WholePiv

theorem maskArray_box (im : Img Int) (y0 y1 x0 x1 : Option Int) (hy0 : FromStart y0) (hy1 : FromStart y1) (hx0 : FromStart x0)
    (hx1 : FromStart x1) : ∃ c, Mask.maskArray (some (some (maskBoxText y0 y1 x0 x1))) im = .ok c ∧ IsBox y0 y1 x0 x1 im c := by
  obtain ⟨c, hc, h1, h2⟩ := C43_offsets im y0 y1 x0 x1 hy0 hy1 hx0 hx1
  have hadd : ∀ (x : Int) (s : Option Int), Mask.add x s = x + s.getD 0 := by intro x s; cases s <;> simp [Mask.add]
  have hsub : ∀ (x : Int) (s : Option Int), Mask.sub x s = x - s.getD 0 := by intro x s; cases s <;> simp [Mask.sub]
  refine ⟨c.array, ?_, ?_, ?_⟩
  · unfold Mask.Couple.applyMask at hc
    simp only at hc
    split at hc
    · cases hc
    · rename_i a ha
      injection hc with hc
      rw [ha, ← hc]
  · intro y x hy hx
    obtain ⟨Y, X, e, r1, r2, r3⟩ := h1 y x hy hx
    unfold Mask.toOriginal at e
    simp only [C43_text, List.getElem?_cons_succ, List.getElem?_cons_zero, hadd] at e
    injection e with e
    injection e with e1 e2
    exact ⟨Y, X, e2.symm, e1.symm, r1, r2, r3⟩
  · intro Y X hY hX
    obtain ⟨y, x, e, r1, r2, r3⟩ := h2 Y X hY hX
    unfold Mask.toMasked at e
    simp only [C43_text, List.getElem?_cons_succ, List.getElem?_cons_zero, hsub] at e
    injection e with e
    injection e with e1 e2
    exact ⟨y, x, by omega, by omega, r1, r2, r3⟩

theorem offset_ok {cfg : Config} {off : ApplyInterp.Pos} (h : IsOffset cfg.mask off) : offset cfg = .ok off := by
  unfold offset Mask.toOriginal
  generalize cfg.mask = m at h
  cases h with
  | noMask => rfl
  | box y0 y1 x0 x1 =>
    simp only [C43_text]
    cases x0 <;> cases y0 <;> simp [Mask.add]

theorem imMin_ok {im : Img Int} {m : Int} (h : IsMin im m) : imMin im = .ok m := by
  obtain ⟨⟨i, hi, j, hj, e⟩, hle⟩ := h
  have : ((List.range im.ny).flatMap fun i => (List.range im.nx).map fun j => im.get i j).min? = some m := by
    rw [List.min?_eq_some_iff]
    constructor
    · exact List.mem_flatMap.2 ⟨i, List.mem_range.2 hi, List.mem_map.2 ⟨j, List.mem_range.2 hj, e⟩⟩
    · intro b hb
      obtain ⟨i', hi', hb⟩ := List.mem_flatMap.1 hb
      obtain ⟨j', hj', rfl⟩ := List.mem_map.1 hb
      exact hle i' (List.mem_range.1 hi') j' (List.mem_range.1 hj')
  unfold imMin
  rw [this]

theorem minima_ok {c : Images} {m0 m1 : Int} (h0 : IsMin c.1 m0) (h1 : IsMin c.2 m1) : minima c = .ok (m0, m1) := by
  unfold minima
  rw [imMin_ok h0, imMin_ok h1]

theorem gridOk_of (w : Work) (sh : Nat × Nat) (g : Grid) (h : prepareGrid w sh = .ok g) :
    g.points = g.iyvecs.flatMap fun y => g.ixvecs.map fun x => (x, y) := by
  unfold prepareGrid at h
  split at h
  · cases h
  · unfold prepare at h
    simp only at h
    split at h
    · cases h
    · split at h
      · cases h
      · split at h
        · cases h
        · split at h
          · cases h
          · injection h with h
            subst h; rfl

theorem gridPositions_ne_nil {len n : Nat} {step : Int} {xs : List Int} (h : gridPositions len n step = .ok xs) : xs ≠ [] := by
  unfold gridPositions at h
  simp only at h
  split at h
  · cases h
  · rename_i hl
    split at h <;> injection h with h <;> subst h
    · simp
    · intro hc; rw [hc] at hl; cases hl

theorem points_ne_nil (w : Work) (sh : Nat × Nat) (g : Grid) (h : prepareGrid w sh = .ok g) : g.points ≠ [] := by
  unfold prepareGrid at h
  split at h
  · cases h
  · unfold prepare at h
    simp only at h
    split at h
    · cases h
    · split at h
      · cases h
      · split at h
        · cases h
        · rename_i xs hx
          split at h
          · cases h
          · rename_i ys hy
            injection h with h
            subst h
            obtain ⟨x, xl, rfl⟩ := List.exists_cons_of_ne_nil (gridPositions_ne_nil hx)
            obtain ⟨y, yl, rfl⟩ := List.exists_cons_of_ne_nil (gridPositions_ne_nil hy)
            simp

theorem points_length (g : Grid) (h : g.points = g.iyvecs.flatMap fun y => g.ixvecs.map fun x => (x, y)) :
    g.points.length = g.iyvecs.length * g.ixvecs.length := by
  rw [h, List.length_flatMap]
  simp

/-- The errors of the vectors which do not exist. -/
theorem run_beyond (P : LaterPass.Params) (junk : Nat → Option ℚ) (nanInt m0 m1 : Int) (im0 im1 : Img Int) (sh : Nat × Nat)
    (points : List (Int × Int)) (approx : List ApplyInterp.Delta) (s : State)
    (h : LaterPass.run P junk nanInt m0 m1 im0 im1 sh points approx = .ok s) (i : Nat) (hi : points.length ≤ i) :
    s.errors.get? i = none := by
  unfold LaterPass.run at h
  simp only at h
  generalize hws : List.zipWith (LaterPass.windows P m0 m1 im0 im1 sh) points
    (approx.map fun a => (LaterPass.toInt nanInt a.1, LaterPass.toInt nanInt a.2)) = ws at h
  have hl : ws.length ≤ points.length := by rw [← hws, List.length_zipWith]; omega
  cases hl0 : LoopVectors.loopVectors (LaterPass.env P) junk ws none with
  | error e =>
    exfalso
    unfold LoopVectors.loopVectors at hl0 h
    cases hlo : LoopVectors.loop (LaterPass.env P) 0 ws (State.init junk) with
    | error e' => rw [hlo] at h; cases h
    | ok s' => rw [hlo] at hl0; cases hl0
  | ok s0 =>
    rw [(C34_input _ _ _ _ _ _ _ hl0 h i).2.2.2]
    exact ((C34_partial (LaterPass.env P) junk junk ws).1 s0 hl0).2 i (by omega)

theorem dict_nil {κ α : Type} [DecidableEq κ] (d : Dict κ α) (h : ∀ k, d.get? k = none) : d = [] := by
  cases d with
  | nil => rfl
  | cons kv d =>
    have := h kv.1
    obtain ⟨k, v⟩ := kv
    simp [Dict.get?] at this

theorem sum_const (f : ℚ × ℚ → ℚ) (a : ℚ) : ∀ V : List (ℚ × ℚ), (∀ v ∈ V, f v = a) → (V.map f).sum = V.length * a
  | [], _ => by simp
  | v :: V, h => by
    rw [List.map_cons, List.sum_cons, sum_const f a V (fun u hu => h u (List.mem_cons_of_mem _ hu)), h v (by simp), List.length_cons]
    push_cast
    ring

/-- The removal of the false vectors keeps a uniform field. -/
theorem fix_keeps (p : Fix.Params) (hnb : p.nbPeaks < 2) (env : Fix.PeakEnv) (n0 n1 : Nat)
    (hg : p.threshold = none ∨ 2 ≤ n0 ∧ 2 ≤ n1) (r : Fix.Res) (x y : ℚ) (he : r.errors = [])
    (hc : ∀ i < n0 * n1, r.correls i = some 1) (hmin : p.correlMin ≤ 1)
    (hmax : ∀ m, p.displacementMax = some m → m ≠ 0 → x ^ 2 + y ^ 2 ≤ m ^ 2)
    (hv : ∀ i < n0 * n1, (r.dx i, r.dy i) = (some x, some y) ∨ (r.dx i, r.dy i) = (none, none)) :
    ∃ r', Fix.calcul n0 n1 p env r = .ok r' ∧ ∀ i < n0 * n1, r'.dx i = r.dx i ∧ r'.dy i = r.dy i ∧ r'.errors.get? i = none := by
  have hout : ∀ i < n0 * n1, ¬ Outlier p r i := by
    rintro i hi (h | ⟨c, h1, h2⟩ | ⟨a, b, m, h1, h2, h3, h4, h5⟩)
    · rw [he] at h; simp [Dict.keys] at h
    · rw [hc i hi] at h1; injection h1 with h1; rw [← h1] at h2; linarith
    · rcases hv i hi with h | h
      · rw [h1, h2] at h
        injection h with e1 e2
        injection e1 with e1
        injection e2 with e2
        have := hmax m h3 h4
        rw [e1, e2] at h5
        linarith
      · rw [h1] at h; injection h with e1; cases e1
  have hnot : ∀ i < n0 * n1, ¬ Removed p r n0 n1 i := by
    rintro i hi (h | ⟨a, b, t, _, h1, h2, h3, h4, h5⟩)
    · exact hout i hi h
    · have hab : a = x ∧ b = y := by
        rcases hv i hi with h | h
        · rw [h1, h2] at h
          injection h with e1 e2
          injection e1 with e1
          injection e2 with e2
          exact ⟨e1, e2⟩
        · rw [h1] at h; injection h with e1; cases e1
      have hall : ∀ v ∈ around p r n0 n1 i, v = (x, y) := by
        intro v hvm
        unfold around neighbourVectors at hvm
        obtain ⟨q, hq, hqv⟩ := List.mem_filterMap.1 hvm
        obtain ⟨q1, q2⟩ := q
        obtain ⟨b1, b2, _⟩ := mem_neighbours.1 hq
        have hk : q1 * n1 + q2 < n0 * n1 := fix_flat_lt b1 b2
        simp only [cleaned] at hqv
        rw [if_neg (hout _ hk), if_neg (hout _ hk)] at hqv
        rcases hv _ hk with h | h
        · injection h with e1 e2
          rw [e1, e2] at hqv
          injection hqv with hqv
          exact hqv.symm
        · injection h with e1 e2
          rw [e1, e2] at hqv
          cases hqv
      have hlen : ((around p r n0 n1 i).length : ℚ) ≠ 0 := by
        have : (around p r n0 n1 i).length ≠ 0 := by rw [Ne, List.length_eq_zero_iff]; exact h4
        exact_mod_cast this
      rw [sum_const Prod.fst x _ (fun v hvm => by rw [hall v hvm]), sum_const Prod.snd y _ (fun v hvm => by rw [hall v hvm]),
        mul_div_cancel_left₀ x hlen, mul_div_cancel_left₀ y hlen, hab.1, hab.2] at h5
      have := sq_nonneg t
      simp at h5
      linarith
  have hmark : ∃ r', Fix.calcul n0 n1 p env r = .ok r' ∧ Marked p n0 n1 r r' := by
    have hu : r.errors.KeysUnique := by rw [he]; simp [Dict.KeysUnique, Dict.keys]
    have hk : ∀ i ∈ r.errors.keys, i < n0 * n1 := by rw [he]; simp [Dict.keys]
    cases ht : p.threshold with
    | none =>
      obtain ⟨r', h1, h2, _⟩ := C40_no_threshold (n0 := n0) (n1 := n1) p ht hnb env r hu hk
      exact ⟨r', h1, h2⟩
    | some t =>
      rcases hg with hg | ⟨g1, g2⟩
      · rw [ht] at hg; cases hg
      · obtain ⟨r', h1, h2, _⟩ := C40_marks g1 g2 p ht hnb env r hu hk
        exact ⟨r', h1, h2⟩
  obtain ⟨r', h1, h2⟩ := hmark
  exact ⟨r', h1, fun i hi => h2.others i hi (hnot i hi)⟩

theorem mem_vectors {d : Data} {v : ApplyInterp.Vector} (h : v ∈ d.vectors) :
    ∃ i < d.pos.length, (v.dx, v.dy) = vectorAt d i := by
  unfold Data.vectors at h
  obtain ⟨p, hp, rfl⟩ := List.mem_map.1 h
  obtain ⟨q, i⟩ := p
  obtain ⟨_, h2, _⟩ := List.mem_zipIdx hp
  exact ⟨i, by omega, rfl⟩

theorem vectors_mem {d : Data} {i : Nat} (h : i < d.pos.length) :
    ∃ v ∈ d.vectors, (v.dx, v.dy) = vectorAt d i := by
  refine ⟨_, List.mem_map.2 ⟨(d.pos[i], i), ?_, rfl⟩, rfl⟩
  rw [List.mem_zipIdx_iff_getElem?]
  simp [h]

theorem vectors_length (d : Data) : d.vectors.length = d.pos.length := by simp [Data.vectors]

theorem near_vectors {dx dy : Int} {d : Data} (h : UsableNear dx dy d) : VectorsNear dx dy d.toRes := by
  rintro v hv ⟨x, y, e1, e2⟩
  obtain ⟨i, hi, hiv⟩ := mem_vectors (d := d) hv
  obtain ⟨h1, h2⟩ := h i hi x y (by rw [← hiv, e1, e2])
  exact ⟨x, y, by rw [e1, e2], h1, h2⟩

theorem UniformOrNan.near {dx dy : Int} {d : Data} (h : UniformOrNan dx dy d) : UsableNear dx dy d := by
  intro i hi x y hxy
  rcases (h i hi).1 with h | h <;> rw [h] at hxy <;> injection hxy with e1 e2
  · injection e1 with e1
    injection e2 with e2
    rw [← e1, ← e2]; norm_num
  · cases e1

theorem Uniform.orNan {dx dy : Int} {d : Data} (h : Uniform dx dy d) : UniformOrNan dx dy d :=
  fun i hi => ⟨.inl (h i hi).1, (h i hi).2⟩

/-- One later pass and its fix, when the interpolation is done. -/
theorem later_step (cfg : Config) (hr : Exact cfg.rnd) (hnb : cfg.nbPeaks = 1) (hE : KeepsBounds cfg.ext)
    (ht : ApplyInterp.wantsTps cfg.interp false = false) (dx dy : Int) (hfix : FixAccepts cfg dx dy) (hsub : SubpixOk cfg)
    (w : Work) (g : Grid) (c : Images) (m0 m1 : Int) (hm : minima c = .ok (m0, m1))
    (hg : prepareGrid w (c.1.ny, c.1.nx) = .ok g)
    (hp : GoodPass cfg c m0 m1 dx dy w.win0.1.toNat w.win0.2.toNat g)
    (off : ApplyInterp.Pos) (hoff : offset cfg = .ok off) (d : Data) (hn : UsableNear dx dy d)
    (hu : ∃ v ∈ d.toRes.vectors, Usable v)
    (hok : (ApplyInterp.applyInterp cfg.ext ⟨cfg.interp, g, off⟩ false d.toRes).2 = .ok ()) :
    ∃ x x', later cfg w g (c.1.ny, c.1.nx) c d =
        .ok ({ d with interp := (ApplyInterp.applyInterp cfg.ext ⟨cfg.interp, g, off⟩ false d.toRes).1 }, x) ∧ fix cfg x = .ok x' ∧
      x'.pos.length = g.points.length ∧ x'.interp = ⟨[], none, none, none, none, none, none⟩ ∧
      UniformOrNan dx dy x' ∧ (w.subpix cfg.passes = false ∨ cfg.method = .noSubpix → Uniform dx dy x') ∧
      FoundWhere (KeptPeak cfg.method cfg.nsub w.win0.1.toNat w.win0.2.toNat m0 c.1 dx dy) g dx dy x' := by
  have hgo : GridOk ⟨cfg.interp, g, off⟩ := gridOk_of w _ g hg
  obtain ⟨approx, e1, e2, e3⟩ := C111_estimates cfg.ext hE ⟨cfg.interp, g, off⟩ hgo ht d.toRes hu dx dy (near_vectors hn) hok
  have h0 : 4 ≤ (cfg.pass w).n0 := by have := hp.size0; have := hsub.1; show 4 ≤ w.win0.1.toNat; omega
  have h1 : 4 ≤ (cfg.pass w).n1 := by have := hp.size1; have := hsub.1; show 4 ≤ w.win0.2.toNat; omega
  have hd1 : AllowsSquare (cfg.pass w).dmax 1 := by
    intro m hm
    obtain ⟨a1, a2⟩ := hp.dmax m hm
    have : (1 : ℚ) ≤ cfg.nsub := by exact_mod_cast hsub.1
    exact ⟨a1, by push_cast; nlinarith⟩
  obtain ⟨s, hs⟩ := C111_ends (cfg.pass w) hr h0 h1 hd1 hnb (cfg.junk w) cfg.nanInt m0 m1 c.1 c.2 dx dy g.points approx e3 hp.windows
  have hview : ∀ (i : Nat) (hi : i < g.points.length),
      ((s.deltaxs i, s.deltays i) = (some (dx : ℚ), some (dy : ℚ)) ∨ (s.deltaxs i, s.deltays i) = (none, none)) ∧
      (w.subpix cfg.passes = false ∨ cfg.method = .noSubpix → (s.deltaxs i, s.deltays i) = (some (dx : ℚ), some (dy : ℚ))) ∧
      s.errors.get? i = none ∧ s.correlsMax i = some 1 ∧
      (KeptPeak cfg.method cfg.nsub w.win0.1.toNat w.win0.2.toNat m0 c.1 dx dy (g.points[i]'hi) →
        (s.deltaxs i, s.deltays i) = (some (dx : ℚ), some (dy : ℚ))) := by
    intro i hi
    have hgi := List.getElem?_eq_getElem hi
    have hai := List.getElem?_eq_getElem (show i < approx.length by rw [e2]; exact hi)
    have hnear := e3 _ (List.getElem_mem (show i < approx.length by rw [e2]; exact hi))
    have hwin := hp.windows _ (List.getElem_mem hi)
    by_cases hl : w.subpix cfg.passes = false
    · obtain ⟨a1, a2, a3, a4⟩ := C111_not_last (cfg.pass w) hr h0 h1 hd1 hl (cfg.junk w) cfg.nanInt m0 m1 c.1 c.2 dx dy _ _ s hs i _ _
        hgi hai hnear hwin
      rw [a1, a2]
      exact ⟨.inl rfl, fun _ => rfl, a3, a4 hp.norm, fun _ => rfl⟩
    · obtain ⟨hns, ⟨nsubpix, hcon⟩, hpi⟩ := hsub
      obtain ⟨a1, a2, a3, a4⟩ := C111_last_partial (cfg.pass w) hr nsubpix hcon hpi hns hp.size0 hp.size1 hp.dmax
        (show w.subpix cfg.passes = true by simpa using hl) (cfg.junk w) cfg.nanInt m0 m1 c.1 c.2 dx dy _ _ s hs i _ _ hgi hai hnear hwin
      have a2' : KeptPeak cfg.method cfg.nsub w.win0.1.toNat w.win0.2.toNat m0 c.1 dx dy (g.points[i]'hi) →
          (s.deltaxs i, s.deltays i) = (some (dx : ℚ), some (dy : ℚ)) := by
        intro hk
        obtain ⟨b1, b2⟩ := a2 hk
        rw [b1, b2]
      refine ⟨?_, ?_, a3, a4 hp.norm, a2'⟩
      · rcases a1 with ⟨b1, b2⟩ | ⟨b1, b2⟩ <;> rw [b1, b2]
        · exact .inl rfl
        · exact .inr rfl
      · rintro (h | h)
        · exact absurd h hl
        · apply a2'
          unfold KeptPeak
          rw [h]
          trivial
  have herr : s.errors = [] := by
    apply dict_nil
    intro i
    by_cases hi : i < g.points.length
    · exact (hview i hi).2.2.1
    · exact run_beyond _ _ _ _ _ _ _ _ _ _ s hs i (by omega)
  have hlen := points_length g hgo
  obtain ⟨ds, hds⟩ : ∃ ds, ds = approx.map fun a => (LaterPass.toInt cfg.nanInt a.1, LaterPass.toInt cfg.nanInt a.2) := ⟨_, rfl⟩
  have hlater : later cfg w g (c.1.ny, c.1.nx) c d =
      .ok ({ d with interp := (ApplyInterp.applyInterp cfg.ext ⟨cfg.interp, g, off⟩ false d.toRes).1 },
        result cfg (cfg.pass w) g off (laterPositions (c.1.ny, c.1.nx) g ds)
          (List.zipWith (LaterPass.windows (cfg.pass w) m0 m1 c.1 c.2 (c.1.ny, c.1.nx)) g.points ds)
          (some (fun i => (((ds.getD i (0, 0)).1 : Int) : ℚ), fun i => (((ds.getD i (0, 0)).2 : Int) : ℚ))) s) := by
    unfold later
    rw [hoff]
    simp only
    rcases hap : ApplyInterp.applyInterp cfg.ext ⟨cfg.interp, g, off⟩ false d.toRes with ⟨r, o⟩
    rw [hap] at hok e1
    simp only at hok e1
    subst hok
    simp only [hm]
    rw [e1]
    simp only [Option.getD_some, hs, hds]
  generalize hx : result cfg _ _ _ _ _ _ _ = x at hlater
  obtain ⟨r', f1, f2⟩ := fix_keeps cfg.fix (by show cfg.nbPeaks < 2; omega) ⟨x.secondary, x.input, x.subpix⟩ g.iyvecs.length g.ixvecs.length
    hp.neighbours x.res dx dy (by rw [← hx]; show s.errors.map _ = []; rw [herr]; rfl)
    (fun i hi => by rw [← hx]; exact (hview i (by omega)).2.2.2.1) hfix.1 hfix.2
    (fun i hi => by rw [← hx]; exact (hview i (by omega)).1)
  have hpos : x.pos.length = g.points.length := by
    rw [← hx]
    show (List.map _ (laterPositions _ g _)).length = _
    rw [List.length_map, laterPositions, List.length_zipWith, hds, List.length_map, e2]
    exact min_self _
  refine ⟨x, { x with res := r' }, hlater, ?_, hpos, by rw [← hx]; rfl, ?_, ?_, ?_⟩
  · unfold fix
    have hr1 : x.rows = g.iyvecs.length := by rw [← hx]; rfl
    have hr2 : x.cols = g.ixvecs.length := by rw [← hx]; rfl
    rw [hr1, hr2, f1]
  · intro i hi
    have hi' : i < g.points.length := by rw [← hpos]; exact hi
    obtain ⟨b1, b2, b3⟩ := f2 i (by omega)
    unfold vectorAt
    simp only [b1, b2, b3, and_true]
    rw [← hx]
    exact (hview i hi').1
  · intro hl i hi
    have hi' : i < g.points.length := by rw [← hpos]; exact hi
    obtain ⟨b1, b2, b3⟩ := f2 i (by omega)
    unfold vectorAt
    simp only [b1, b2, b3, and_true]
    rw [← hx]
    exact (hview i hi').2.1 hl
  · intro i p hpi hk
    obtain ⟨hi', he⟩ := List.getElem?_eq_some_iff.1 hpi
    obtain ⟨b1, b2, b3⟩ := f2 i (by omega)
    unfold vectorAt
    simp only [b1, b2]
    rw [← hx]
    subst he
    exact (hview i hi').2.2.2.2 hk


theorem later_ok {cfg : Config} {w : Work} {g : Grid} {sh : Nat × Nat} {c : Images} {d d' x : Data}
    (h : later cfg w g sh c d = .ok (d', x)) : ∃ off, offset cfg = .ok off ∧
      (ApplyInterp.applyInterp cfg.ext ⟨cfg.interp, g, off⟩ false d.toRes).2 = .ok () ∧
      d' = { d with interp := (ApplyInterp.applyInterp cfg.ext ⟨cfg.interp, g, off⟩ false d.toRes).1 } := by
  unfold later at h
  cases ho : offset cfg with
  | error e => rw [ho] at h; cases h
  | ok off =>
    rw [ho] at h
    simp only at h
    refine ⟨off, rfl, ?_⟩
    rcases hap : ApplyInterp.applyInterp cfg.ext ⟨cfg.interp, g, off⟩ false d.toRes with ⟨r, o⟩
    rw [hap] at h
    cases o with
    | error e => cases h
    | ok u =>
      simp only at h
      refine ⟨rfl, ?_⟩
      split at h
      · cases h
      · split at h
        · cases h
        · injection h with h
          injection h with h _
          exact h.symm

theorem interp_usable {E : ApplyInterp.Ext} {w : ApplyInterp.Work} {last : Bool} {r : ApplyInterp.Res}
    (h : (ApplyInterp.applyInterp E w last r).2 = .ok ()) : ∃ v ∈ r.vectors, Usable v := by
  by_contra hc
  have hv : (ApplyInterp.storePositions w last r).vectors = r.vectors := by
    unfold ApplyInterp.storePositions
    simp only
    split <;> split <;> rfl
  have hs : (r.vectors.filter ApplyInterp.Vector.selected).isEmpty = true := by
    rw [List.isEmpty_iff, List.filter_eq_nil_iff]
    intro v hv hsel
    exact hc ⟨v, hv, (ApplyInterp.selected_iff v).mp hsel⟩
  unfold ApplyInterp.applyInterp at h
  simp only [hv] at h
  unfold ApplyInterp.estimate at h
  simp only [hs, if_true] at h
  cases h

theorem final_cases {cfg : Config} {g : Grid} {r d : Data} (h : final cfg g r = .done d ∨ final cfg g r = .interpError d) :
    ∃ off, offset cfg = .ok off ∧ d = { r with interp := (ApplyInterp.applyInterp cfg.ext ⟨cfg.interp, g, off⟩ true r.toRes).1 } := by
  unfold final at h
  cases ho : offset cfg with
  | error e => rw [ho] at h; rcases h with h | h <;> cases h
  | ok off =>
    rw [ho] at h
    simp only at h
    refine ⟨off, rfl, ?_⟩
    rcases hap : ApplyInterp.applyInterp cfg.ext ⟨cfg.interp, g, off⟩ true r.toRes with ⟨r', o⟩
    rw [hap] at h
    cases o with
    | ok u =>
      rcases h with h | h
      · injection h with h; exact h.symm
      · cases h
    | error e =>
      rcases h with h | h
      · split at h
        · rename_i he; cases he
        · cases h
        · cases h
      · split at h
        · rename_i he
          cases he
        · rename_i he
          injection he with he1 he2
          injection h with h
          rw [← h, he1]
        · cases h

/-- A pass does not change the vectors of the previous one. -/
theorem passesDone_same {cfg : Config} {ws : List Work} {c : Images} {gs : List Grid} {rs ds : List Data} {sh : Nat × Nat}
    (H : PassesDone (passes cfg) ws c sh gs rs ds) (i : Nat) (r d : Data) (hr : rs[i]? = some r) (hd : ds[i]? = some d) :
    d.pos = r.pos ∧ d.res = r.res := by
  have hi : i < ws.length := by rw [← H.fixed]; exact (List.getElem?_eq_some_iff.1 hr).1
  by_cases hl : i + 1 < ws.length
  · have hw := List.getElem?_eq_getElem hl
    have hg := List.getElem?_eq_getElem (show i + 1 < gs.length by rw [H.grids]; exact hl)
    have hr' := List.getElem?_eq_getElem (show i + 1 < rs.length by rw [H.fixed]; exact hl)
    obtain ⟨x, hx, _⟩ := H.next i _ _ _ _ _ hw hg hr hr' hd
    obtain ⟨off, _, _, rfl⟩ := later_ok hx
    exact ⟨rfl, rfl⟩
  · have hw := List.getElem?_eq_getElem hi
    have hg := List.getElem?_eq_getElem (show i < gs.length by rw [H.grids]; exact hi)
    obtain ⟨off, _, rfl⟩ := final_cases (H.last i _ _ _ _ (by omega) hw hg hr hd)
    exact ⟨rfl, rfl⟩

/-- The results of the passes after their fixes. -/
theorem chain (cfg : Config) (hr : Exact cfg.rnd) (hnb : cfg.nbPeaks = 1) (hE : KeepsBounds cfg.ext)
    (ht : ApplyInterp.wantsTps cfg.interp false = false) (dx dy : Int) (hfix : FixAccepts cfg dx dy) (hsub : SubpixOk cfg)
    (hnum : 1 ≤ cfg.number) (ws : List Work) (hb : build cfg.passes = .ok ws) (c : Images) (m0 m1 : Int)
    (hm : minima c = .ok (m0, m1))
    (hpass : ∀ w ∈ ws.tail, ∀ g, prepareGrid w (c.1.ny, c.1.nx) = .ok g → GoodPass cfg c m0 m1 dx dy w.win0.1.toNat w.win0.2.toNat g)
    (gs : List Grid) (rs ds : List Data) (H : PassesDone (passes cfg) ws c (c.1.ny, c.1.nx) gs rs ds)
    (hfirst : ∀ r, rs[0]? = some r → UsableNear dx dy r) : ∀ i r, rs[i]? = some r →
      UsableNear dx dy r ∧ (1 ≤ i → (∃ g, gs[i]? = some g ∧ r.pos.length = g.points.length) ∧
        r.interp = ⟨[], none, none, none, none, none, none⟩ ∧ UniformOrNan dx dy r ∧
        (i + 1 < ws.length ∨ cfg.method = .noSubpix → Uniform dx dy r) ∧
        ∀ w, ws[i]? = some w → ∀ g, prepareGrid w (c.1.ny, c.1.nx) = .ok g →
          FoundWhere (KeptPeak cfg.method cfg.nsub w.win0.1.toNat w.win0.2.toNat m0 c.1 dx dy) g dx dy r) := by
  intro i
  induction i with
  | zero => exact fun r hr0 => ⟨hfirst r hr0, fun h => absurd h (by omega)⟩
  | succ i ih =>
    intro r hri
    have hil : i + 1 < rs.length := (List.getElem?_eq_some_iff.1 hri).1
    have hil' : i + 1 < ws.length := by rw [← H.fixed]; exact hil
    have k1 : i < rs.length := by omega
    have k2 : i < ds.length := by rw [H.returned]; omega
    have k3 : i + 1 < gs.length := by rw [H.grids]; exact hil'
    have hr0 := List.getElem?_eq_getElem k1
    have hd0 := List.getElem?_eq_getElem k2
    have hw := List.getElem?_eq_getElem hil'
    have hg := List.getElem?_eq_getElem k3
    obtain ⟨x, hx, hxf⟩ := H.next i _ _ _ _ _ hw hg hr0 hri hd0
    obtain ⟨off, ho, hok, _⟩ := later_ok hx
    have hgrid := H.grid (i + 1) _ _ hw hg
    have hmem : ws[i + 1] ∈ ws.tail := by
      rw [List.mem_iff_getElem?]
      exact ⟨i, by rw [List.getElem?_tail]; exact hw⟩
    obtain ⟨y, y', b1, b2, b3, b4, b5, b6, b7⟩ := later_step cfg hr hnb hE ht dx dy hfix hsub ws[i + 1] gs[i + 1] c m0 m1 hm hgrid
      (hpass _ hmem _ hgrid) off ho _ (ih _ hr0).1 (interp_usable hok) hok
    have hx' : later cfg ws[i + 1] gs[i + 1] (c.1.ny, c.1.nx) c rs[i] = .ok (ds[i], x) := hx
    rw [b1] at hx'
    injection hx' with hx'
    injection hx' with _ hyx
    have hxf' : fix cfg x = .ok r := hxf
    rw [← hyx, b2] at hxf'
    injection hxf' with hxf'
    subst hxf'
    refine ⟨UniformOrNan.near b5, fun _ => ⟨⟨_, hg, b3⟩, b4, b5, ?_, ?_⟩⟩
    · rintro (h | h)
      · apply b6
        left
        have := C74_subpix cfg.passes ws hb hnum (i + 1) _ hw
        cases hs : Work.subpix cfg.passes ws[i + 1] with
        | false => rfl
        | true => have := this.1 hs; omega
      · exact b6 (.inr h)
    · intro w hw' g' hg'
      rw [hw] at hw'
      injection hw' with hw'
      subst hw'
      have hgrid' : prepareGrid ws[i + 1] (c.1.ny, c.1.nx) = .ok gs[i + 1] := hgrid
      rw [hgrid'] at hg'
      injection hg' with hg'
      subst hg'
      exact b7

end WholePiv

open WholePiv in
/-- **C113** (the mask).  Without mask the computation is done with the two images; with a mask `y0:y1, x0:x1` (bounds counted from
the start of the images) it is done with the same box of the two images. -/
theorem C113_mask (cfg : Config) (couple : Images) :
    (cfg.mask = none → maskImages cfg couple = .ok couple) ∧
    ∀ y0 y1 x0 x1, cfg.mask = some (maskBoxText y0 y1 x0 x1) → FromStart y0 → FromStart y1 → FromStart x0 → FromStart x1 →
      ∃ c, maskImages cfg couple = .ok c ∧ IsBox y0 y1 x0 x1 couple.1 c.1 ∧ IsBox y0 y1 x0 x1 couple.2 c.2 := by
  constructor
  · intro h
    unfold maskImages
    rw [h]
    rfl
  · intro y0 y1 x0 x1 h hy0 hy1 hx0 hx1
    obtain ⟨a, ha, ba⟩ := maskArray_box couple.1 y0 y1 x0 x1 hy0 hy1 hx0 hx1
    obtain ⟨b, hb, bb⟩ := maskArray_box couple.2 y0 y1 x0 x1 hy0 hy1 hx0 hx1
    refine ⟨(a, b), ?_, ba, bb⟩
    unfold maskImages
    rw [h, ha]
    simp only
    rw [hb]

open WholePiv in
/-- **C113** (the passes).  A whole computation of PIV for two images (masked) in which, around each vector of the grids of the
passes after the first one, the patterns are displaced by `(dx, dy)`.  If the vectors of the first pass which are not NaN are
at less than half a pixel of `(dx, dy)`, then in all the next passes all the vectors are exactly `(dx, dy)`, without error; in
the last pass, where the sub-pixel refinement is done, they are exactly `(dx, dy)` or NaN, without error, and those of the points
whose peak is not lost by the refinement are exactly `(dx, dy)`.  Missing: the first pass, and the vectors whose peak is lost
(`C111_nan_fails`). -/
theorem C113_passes_partial (cfg : Config) (hr : Exact cfg.rnd) (hnb : cfg.nbPeaks = 1) (hE : KeepsBounds cfg.ext)
    (ht : ApplyInterp.wantsTps cfg.interp false = false) (dx dy : Int) (hfix : FixAccepts cfg dx dy) (hsub : SubpixOk cfg)
    (hnum : 1 ≤ cfg.number) (ws : List Work) (hb : build cfg.passes = .ok ws) (couple c : Images) (hc : maskImages cfg couple = .ok c)
    (m0 m1 : Int) (hm0 : IsMin c.1 m0) (hm1 : IsMin c.2 m1)
    (hpass : ∀ w ∈ ws.tail, ∀ g, prepareGrid w (c.1.ny, c.1.nx) = .ok g → GoodPass cfg c m0 m1 dx dy w.win0.1.toNat w.win0.2.toNat g)
    (ds : List Data) (h : piv cfg couple = .ok ds) (d0 : Data) (hd0 : ds[0]? = some d0) (hn : UsableNear dx dy d0) :
    (ds.length : Int) = cfg.number ∧ ∀ i d, 1 ≤ i → ds[i]? = some d →
      UniformOrNan dx dy d ∧ (i + 1 < ds.length ∨ cfg.method = .noSubpix → Uniform dx dy d) ∧
      ∀ w, ws[i]? = some w → ∀ g, prepareGrid w (c.1.ny, c.1.nx) = .ok g →
        FoundWhere (KeptPeak cfg.method cfg.nsub w.win0.1.toNat w.win0.2.toNat m0 c.1 dx dy) g dx dy d := by
  have hm := minima_ok hm0 hm1
  unfold piv at h
  rw [hb] at h
  obtain ⟨c', hc', gs, rs, H⟩ := (C74_chain (passes cfg) cfg.passes ws hb couple ds).1 h
  have : c' = c := by
    have h' : maskImages cfg couple = .ok c' := hc'
    rw [hc] at h'
    injection h' with h'
    exact h'.symm
  subst this
  have hch := chain cfg hr hnb hE ht dx dy hfix hsub hnum ws hb c' m0 m1 hm hpass gs rs ds H (by
    intro r hr0
    obtain ⟨e1, e2⟩ := passesDone_same H 0 r d0 hr0 hd0
    intro i hi x y hxy
    exact hn i (by rw [e1]; exact hi) x y (by unfold vectorAt at hxy ⊢; rw [e2]; exact hxy))
  refine ⟨by rw [H.returned]; exact C74_number cfg.passes ws hb hnum, ?_⟩
  intro i d hi hd
  have hri := List.getElem?_eq_getElem (show i < rs.length by
    rw [H.fixed, ← H.returned]; exact (List.getElem?_eq_some_iff.1 hd).1)
  obtain ⟨e1, e2⟩ := passesDone_same H i _ d hri hd
  obtain ⟨-, -, u1, u2, u3⟩ := (hch i _ hri).2 hi
  refine ⟨?_, ?_, ?_⟩
  · intro j hj
    have := u1 j (by rw [← e1]; exact hj)
    unfold vectorAt at this ⊢
    rw [e2]; exact this
  · intro hl j hj
    have := u2 (by rw [← H.returned]; exact hl) j (by rw [← e1]; exact hj)
    unfold vectorAt at this ⊢
    rw [e2]; exact this
  · intro w hw g hg j p hj hk
    have := u3 w hw g hg j p hj hk
    unfold vectorAt at this ⊢
    rw [e2]; exact this

/-! ## The final field -/

/-- The interpolations of SciPy do not raise. -/
def NeverRaises (E : ApplyInterp.Ext) : Prop :=
  ∀ (centers : List ApplyInterp.Pos) (values : List ℚ), values ≠ [] →
    (∃ f, E.linear centers values = .ok f) ∧ ∃ f, E.nearest centers values = .ok f

namespace WholePiv

theorem interp_ok {E : ApplyInterp.Ext} (hE : NeverRaises E) {w : ApplyInterp.Work} {last : Bool} {r : ApplyInterp.Res}
    (ht : ApplyInterp.wantsTps w.params last = false) (hu : ∃ v ∈ r.vectors, Usable v) :
    (ApplyInterp.applyInterp E w last r).2 = .ok () := by
  have hv : (ApplyInterp.storePositions w last r).vectors = r.vectors := by
    unfold ApplyInterp.storePositions
    simp only
    split <;> split <;> rfl
  obtain ⟨v, hvm, hvu⟩ := hu
  have hmem : v ∈ r.vectors.filter ApplyInterp.Vector.selected :=
    List.mem_filter.mpr ⟨hvm, (ApplyInterp.selected_iff v).mpr hvu⟩
  have hs : (r.vectors.filter ApplyInterp.Vector.selected).isEmpty = false := by
    rw [List.isEmpty_eq_false_iff_exists_mem]
    exact ⟨v, hmem⟩
  have hne : ∀ f : ApplyInterp.Vector → ℚ, (r.vectors.filter ApplyInterp.Vector.selected).map f ≠ [] := by
    intro f hc
    rw [List.map_eq_nil_iff] at hc
    rw [hc] at hmem; cases hmem
  unfold ApplyInterp.applyInterp
  simp only [hv]
  unfold ApplyInterp.estimate
  simp only [hs, ht, Bool.false_eq_true, if_false]
  unfold ApplyInterp.viaGriddata ApplyInterp.griddataBoth ApplyInterp.griddata
  generalize (r.vectors.filter ApplyInterp.Vector.selected).map (fun v => (v.x - w.off.1, v.y - w.off.2)) = cs
  obtain ⟨⟨l1, e1⟩, n1, e2⟩ := hE cs _ (hne fun v => v.dx.getD 0)
  obtain ⟨⟨l2, e3⟩, n2, e4⟩ := hE cs _ (hne fun v => v.dy.getD 0)
  simp only [e1, e2, e3, e4]

/-- A value which is in all the intervals around `a` is `a`. -/
theorem eq_of_bounds (a v : ℚ) (h : ∀ lo hi : ℚ, lo < a → a < hi → lo < v ∧ v < hi) : v = a := by
  rcases lt_trichotomy v a with hlt | heq | hgt
  · exact absurd (h v (a + 1) hlt (by linarith)).1 (lt_irrefl v)
  · exact heq
  · exact absurd (h (a - 1) v (by linarith) hgt).2 (lt_irrefl v)

theorem griddata_const {E : ApplyInterp.Ext} (hE : KeepsBounds E) (w : ApplyInterp.Work) (hg : GridOk w) (last : Bool)
    (r : ApplyInterp.Res) (hu : ∃ v ∈ r.vectors, Usable v) (ht : ApplyInterp.wantsTps w.params last = false)
    (hok : (ApplyInterp.applyInterp E w last r).2 = .ok ()) (x y : ℚ)
    (hv : ∀ v ∈ r.vectors, Usable v → v.dx = some x ∧ v.dy = some y) :
    ∃ fs, estimates last (ApplyInterp.applyInterp E w last r).1 = some fs ∧ fs.length = w.points.length ∧
      ∀ f ∈ fs, f = (some x, some y) := by
  obtain ⟨linx, liny, nearx, neary, l1, l2, l3, l4, hest⟩ := C82_griddata E w hg last r hu ht hok
  obtain ⟨v0, hv0, hv0'⟩ := hu
  have hmem : v0 ∈ r.vectors.filter ApplyInterp.Vector.selected :=
    List.mem_filter.mpr ⟨hv0, (ApplyInterp.selected_iff v0).mpr hv0'⟩
  have hax : ∀ u ∈ usableDx r, u = x := by
    intro u hu
    obtain ⟨v, hvm, rfl⟩ := List.mem_map.mp hu
    obtain ⟨h1, h2⟩ := List.mem_filter.mp hvm
    rw [(hv v h1 ((ApplyInterp.selected_iff v).mp h2)).1, Option.getD_some]
  have hay : ∀ u ∈ usableDy r, u = y := by
    intro u hu
    obtain ⟨v, hvm, rfl⟩ := List.mem_map.mp hu
    obtain ⟨h1, h2⟩ := List.mem_filter.mp hvm
    rw [(hv v h1 ((ApplyInterp.selected_iff v).mp h2)).2, Option.getD_some]
  have hnx : usableDx r ≠ [] := by
    unfold usableDx
    intro h
    rw [List.map_eq_nil_iff] at h
    rw [h] at hmem; cases hmem
  have hny : usableDy r ≠ [] := by
    unfold usableDy
    intro h
    rw [List.map_eq_nil_iff] at h
    rw [h] at hmem; cases hmem
  have one : ∀ (vals : List ℚ) (a : ℚ) (lin near : ApplyInterp.Pos → Option ℚ), vals ≠ [] → (∀ u ∈ vals, u = a) →
      E.linear (usableCenters w r) vals = .ok lin → E.nearest (usableCenters w r) vals = .ok near →
      ∀ p, (lin p).or (near p) = some a := by
    intro vals a lin near hne hall hl hnr p
    have hb : ∀ lo hi : ℚ, lo < a → a < hi → ∀ u ∈ vals, lo < u ∧ u < hi := by
      intro lo hi h1 h2 u hu
      rw [hall u hu]; exact ⟨h1, h2⟩
    cases hp : lin p with
    | some v =>
      rw [Option.some_or]
      congr 1
      exact eq_of_bounds a v fun lo hi h1 h2 => (hE _ vals lo hi hne (hb lo hi h1 h2)).1 lin hl p v hp
    | none =>
      rw [Option.none_or]
      obtain ⟨v, e, _⟩ := (hE _ vals (a - 1) (a + 1) hne (hb _ _ (by linarith) (by linarith))).2 near hnr p
      rw [e]
      congr 1
      apply eq_of_bounds a v
      intro lo hi h1 h2
      obtain ⟨v', e', h'⟩ := (hE _ vals lo hi hne (hb lo hi h1 h2)).2 near hnr p
      rw [e] at e'
      injection e' with e'
      rw [e']; exact h'
  refine ⟨_, hest, by simp, ?_⟩
  intro f hf
  obtain ⟨p, _, rfl⟩ := List.mem_map.mp hf
  rw [one _ x _ _ hnx hax l1 l3 p, one _ y _ _ hny hay l2 l4 p]

theorem usable_of {dx dy : Int} {r : Data} (hu : UniformOrNan dx dy r) (hx : ∃ j < r.pos.length, vectorAt r j ≠ (none, none)) :
    (∃ v ∈ r.toRes.vectors, Usable v) ∧ ∀ v ∈ r.toRes.vectors, Usable v → v.dx = some (dx : ℚ) ∧ v.dy = some (dy : ℚ) := by
  constructor
  · obtain ⟨j, hj, hne⟩ := hx
    obtain ⟨v, hv, e⟩ := vectors_mem hj
    refine ⟨v, hv, ?_⟩
    rcases (hu j hj).1 with h | h
    · rw [h] at e
      injection e with e1 e2
      exact ⟨_, _, e1, e2⟩
    · exact absurd h hne
  · rintro v hv ⟨x, y, e1, e2⟩
    obtain ⟨j, hj, e⟩ := mem_vectors (d := r) hv
    rcases (hu j hj).1 with h | h
    · rw [h] at e
      injection e with e3 e4
      exact ⟨e3, e4⟩
    · rw [h, e1] at e
      injection e with e3 _
      cases e3

end WholePiv

open WholePiv in
/-- **C113** (final field, without the thin plate splines).  In the same conditions the final field (`deltaxs_final`,
`deltays_final`), if one vector of the last pass is not NaN, is exactly `(dx, dy)` at all the positions of the grid. -/
theorem C113_final_partial (cfg : Config) (hr : Exact cfg.rnd) (hnb : cfg.nbPeaks = 1) (hE : KeepsBounds cfg.ext)
    (hE' : NeverRaises cfg.ext)
    (ht : ApplyInterp.wantsTps cfg.interp false = false) (ht' : ApplyInterp.wantsTps cfg.interp true = false)
    (dx dy : Int) (hfix : FixAccepts cfg dx dy) (hsub : SubpixOk cfg)
    (hnum : 1 ≤ cfg.number) (ws : List Work) (hb : build cfg.passes = .ok ws) (couple c : Images) (hc : maskImages cfg couple = .ok c)
    (m0 m1 : Int) (hm0 : IsMin c.1 m0) (hm1 : IsMin c.2 m1)
    (hpass : ∀ w ∈ ws.tail, ∀ g, prepareGrid w (c.1.ny, c.1.nx) = .ok g → GoodPass cfg c m0 m1 dx dy w.win0.1.toNat w.win0.2.toNat g)
    (ds : List Data) (h : piv cfg couple = .ok ds) (d0 : Data) (hd0 : ds[0]? = some d0) (hn : UsableNear dx dy d0)
    (i : Nat) (d : Data) (hi : 1 ≤ i) (hlast : i + 1 = ds.length) (hd : ds[i]? = some d)
    (hsome : ∃ j < d.pos.length, vectorAt d j ≠ (none, none)) :
    ∃ fs, d.interp.final = some fs ∧ fs.length = d.pos.length ∧ ∀ f ∈ fs, f = (some (dx : ℚ), some (dy : ℚ)) := by
  have hm := minima_ok hm0 hm1
  unfold piv at h
  rw [hb] at h
  obtain ⟨c', hc', gs, rs, H⟩ := (C74_chain (passes cfg) cfg.passes ws hb couple ds).1 h
  have : c' = c := by
    have h' : maskImages cfg couple = .ok c' := hc'
    rw [hc] at h'
    injection h' with h'
    exact h'.symm
  subst this
  have hch := chain cfg hr hnb hE ht dx dy hfix hsub hnum ws hb c' m0 m1 hm hpass gs rs ds H (by
    intro r hr0
    obtain ⟨e1, e2⟩ := passesDone_same H 0 r d0 hr0 hd0
    intro i hi x y hxy
    exact hn i (by rw [e1]; exact hi) x y (by unfold vectorAt at hxy ⊢; rw [e2]; exact hxy))
  have hil : i < ws.length := by rw [← H.returned]; omega
  have k1 : i < rs.length := by rw [H.fixed]; exact hil
  have k2 : i < gs.length := by rw [H.grids]; exact hil
  have hri := List.getElem?_eq_getElem k1
  have hgi := List.getElem?_eq_getElem k2
  have hwi := List.getElem?_eq_getElem hil
  obtain ⟨e1, e2⟩ := passesDone_same H i _ d hri hd
  obtain ⟨⟨g, hg, hlen⟩, hfresh, u1, u2⟩ := (hch i _ hri).2 hi
  rw [hgi] at hg
  injection hg with hg
  subst hg
  obtain ⟨hu, hv⟩ := usable_of u1 (by
    obtain ⟨j, hj, hne⟩ := hsome
    exact ⟨j, by rw [← e1]; exact hj, by unfold vectorAt at hne ⊢; rw [← e2]; exact hne⟩)
  obtain ⟨off, ho, hde⟩ := final_cases (H.last i _ _ _ _ (by rw [← H.returned]; exact hlast) hwi hgi hri hd)
  have hgo : GridOk ⟨cfg.interp, gs[i], off⟩ := gridOk_of _ _ _ (H.grid i _ _ hwi hgi)
  obtain ⟨fs, f1, f2, f3⟩ := griddata_const hE ⟨cfg.interp, gs[i], off⟩ hgo true rs[i].toRes hu ht' (interp_ok hE' ht' hu) dx dy hv
  refine ⟨fs, ?_, ?_, f3⟩
  · rw [hde]; exact f1
  · rw [f2, e1, hlen]; simp [ApplyInterp.Work.points]

open WholePiv in
/-- **C113** (final field with the thin plate splines: the default parameters).  In the same conditions, and if the spline of affine
values is affine (`C83_affine`), the final field is exactly `(dx, dy)` at all the positions which are not far from the vectors
of the last pass which are not NaN.  Missing: the other positions, where the final field is NaN (`C82_nan_fails`). -/
theorem C113_final_tps_partial (cfg : Config) (hr : Exact cfg.rnd) (hnb : cfg.nbPeaks = 1) (hE : KeepsBounds cfg.ext)
    (ht : ApplyInterp.wantsTps cfg.interp false = false) (ht' : ApplyInterp.wantsTps cfg.interp true = true)
    {t : ℚ} (ht0 : 0 ≤ t) (hthr : cfg.interp.threshold = some t)
    (dx dy : Int) (hfix : FixAccepts cfg dx dy) (hsub : SubpixOk cfg)
    (hnum : 1 ≤ cfg.number) (ws : List Work) (hb : build cfg.passes = .ok ws) (couple c : Images) (hc : maskImages cfg couple = .ok c)
    (m0 m1 : Int) (hm0 : IsMin c.1 m0) (hm1 : IsMin c.2 m1)
    (hpass : ∀ w ∈ ws.tail, ∀ g, prepareGrid w (c.1.ny, c.1.nx) = .ok g → GoodPass cfg c m0 m1 dx dy w.win0.1.toNat w.win0.2.toNat g)
    (ds : List Data) (h : piv cfg couple = .ok ds) (d0 : Data) (hd0 : ds[0]? = some d0) (hn : UsableNear dx dy d0)
    (i : Nat) (d : Data) (hi : 1 ≤ i) (hlast : i + 1 = ds.length) (hd : ds[i]? = some d)
    (hsome : ∃ j < d.pos.length, vectorAt d j ≠ (none, none)) (w : Work) (hw : ws[i]? = some w) (g : Grid)
    (hg : prepareGrid w (c.1.ny, c.1.nx) = .ok g) (off : ApplyInterp.Pos) (hoffs : IsOffset cfg.mask off) {tg : Tps.Grid}
    (htg : Tps.setup ((usableCenters ⟨cfg.interp, g, off⟩ d.toRes).map Prod.fst) ((usableCenters ⟨cfg.interp, g, off⟩ d.toRes).map Prod.snd)
      cfg.interp.subdomSize 20 = .ok tg)
    (haff : ∀ o ∈ tg.doms, AffineOn cfg.ext (ApplyInterp.domCenters (usableCenters ⟨cfg.interp, g, off⟩ d.toRes) o)) :
    ∃ fs, d.interp.final = some fs ∧ fs.length = g.points.length ∧
      ∀ (j : Nat) (p : Int × Int), g.points[j]? = some p → ApplyInterp.Covered tg ((p.1 : ℚ), (p.2 : ℚ)) →
        fs[j]? = some (some (dx : ℚ), some (dy : ℚ)) := by
  have hm := minima_ok hm0 hm1
  have hoff := offset_ok hoffs
  unfold piv at h
  rw [hb] at h
  obtain ⟨c', hc', gs, rs, H⟩ := (C74_chain (passes cfg) cfg.passes ws hb couple ds).1 h
  have : c' = c := by
    have h' : maskImages cfg couple = .ok c' := hc'
    rw [hc] at h'
    injection h' with h'
    exact h'.symm
  subst this
  have hch := chain cfg hr hnb hE ht dx dy hfix hsub hnum ws hb c' m0 m1 hm hpass gs rs ds H (by
    intro r hr0
    obtain ⟨e1, e2⟩ := passesDone_same H 0 r d0 hr0 hd0
    intro i hi x y hxy
    exact hn i (by rw [e1]; exact hi) x y (by unfold vectorAt at hxy ⊢; rw [e2]; exact hxy))
  have hil : i < ws.length := by rw [← H.returned]; omega
  have k1 : i < rs.length := by rw [H.fixed]; exact hil
  have k2 : i < gs.length := by rw [H.grids]; exact hil
  have hri := List.getElem?_eq_getElem k1
  have hgi := List.getElem?_eq_getElem k2
  obtain ⟨e1, e2⟩ := passesDone_same H i _ d hri hd
  obtain ⟨⟨g', hg', hlen⟩, hfresh, u1, u2⟩ := (hch i _ hri).2 hi
  rw [hgi] at hg'
  injection hg' with hg'
  have hgg : g' = g := by
    have h' : prepareGrid w (c'.1.ny, c'.1.nx) = .ok g' := by rw [← hg']; exact H.grid i _ _ hw hgi
    rw [hg] at h'
    injection h' with h'
    exact h'.symm
  subst hgg
  obtain ⟨hu, hv⟩ := usable_of u1 (by
    obtain ⟨j, hj, hne⟩ := hsome
    exact ⟨j, by rw [← e1]; exact hj, by unfold vectorAt at hne ⊢; rw [← e2]; exact hne⟩)
  obtain ⟨off', ho, hde⟩ := final_cases (H.last i _ _ _ _ (by rw [← H.returned]; exact hlast) hw hgi hri hd)
  rw [hoff] at ho
  injection ho with ho
  subst ho
  rw [hg'] at hde
  have hvec : d.toRes.vectors = rs[i].toRes.vectors := by
    show d.vectors = rs[i].vectors
    unfold Data.vectors
    rw [e1, e2]
  have huc : usableCenters ⟨cfg.interp, g', off⟩ d.toRes = usableCenters ⟨cfg.interp, g', off⟩ rs[i].toRes := by
    unfold usableCenters; rw [hvec]
  rw [huc] at htg haff
  have hposn : estimatePositions true rs[i].toRes = none := by
    show rs[i].interp.ixyFinal = none
    rw [hfresh]
  obtain ⟨hok, ps, fs, f1, f2, f3, f4⟩ := C82_affine cfg.ext ⟨cfg.interp, g', off⟩ true rs[i].toRes hu ht' ht0 hthr htg haff 0 0 dx 0 0 dy
    (fun v h1 h2 => by obtain ⟨a, b⟩ := hv v h1 h2; unfold affineAt; rw [a, b]; constructor <;> congr 1 <;> ring) hposn
    (fun _ => by
      show rs[i].vectors.length = _
      rw [vectors_length, hlen]; simp [ApplyInterp.Work.points])
  have hps : ps = ApplyInterp.Work.original ⟨cfg.interp, g', off⟩ := by
    have := C82_positions cfg.ext ⟨cfg.interp, g', off⟩ true rs[i].toRes
    rw [f1, hposn] at this
    injection this
  refine ⟨fs, by rw [hde]; exact f2, by rw [f3, hps]; simp [ApplyInterp.Work.original, ApplyInterp.Work.points], ?_⟩
  intro j p hp hcov
  have hpj : ps[j]? = some ((p.1 : ℚ) + off.1, (p.2 : ℚ) + off.2) := by
    rw [hps]; simp [ApplyInterp.Work.original, ApplyInterp.Work.points, hp]
  have := f4 j _ hpj (by simpa using hcov)
  rw [this]
  simp [affineAt]

end Verif
