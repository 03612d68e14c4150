import Verif.Model.ApplyInterp
import Verif.Props.Tps
import Mathlib.Tactic.Linarith

/-!
# C82: interpolation of PIV results on the grid of a pass
-/

namespace Verif
open Verif.ApplyInterp

/-! ## Specification -/

/-- A measured vector is usable if none of its components is NaN. -/
def Usable (v : ApplyInterp.Vector) : Prop := ∃ dx dy, v.dx = some dx ∧ v.dy = some dy

/-- Positions of the usable vectors in the coordinates of the masked image, and their displacements. -/
def usableCenters (w : Work) (r : Res) : List Pos :=
  (r.vectors.filter Vector.selected).map fun v => (v.x - w.off.1, v.y - w.off.2)

def usableDx (r : Res) : List ℚ := (r.vectors.filter Vector.selected).map fun v => v.dx.getD 0

def usableDy (r : Res) : List ℚ := (r.vectors.filter Vector.selected).map fun v => v.dy.getD 0

/-- The grid is the one made by `_prepare_with_image`: lines of constant `y`, one after the other. -/
def GridOk (w : Work) : Prop := w.grid.points = w.grid.iyvecs.flatMap fun y => w.grid.ixvecs.map fun x => (x, y)

/-- The estimates written by the call. -/
def estimates (last : Bool) (r : Res) : Option (List Delta) := if last then r.final else r.approx

/-- The positions of these estimates. -/
def estimatePositions (last : Bool) (r : Res) : Option (List Pos) := if last then r.ixyFinal else r.ixyApprox

/-! ## Lemmas -/

namespace ApplyInterp

theorem selected_iff (v : Vector) : v.selected = true ↔ Usable v := by
  unfold Vector.selected Usable
  rw [Bool.and_eq_true, Option.isSome_iff_exists, Option.isSome_iff_exists]
  constructor
  · rintro ⟨⟨a, ha⟩, b, hb⟩; exact ⟨a, b, ha, hb⟩
  · rintro ⟨a, b, ha, hb⟩; exact ⟨⟨a, ha⟩, b, hb⟩

theorem storePositions_vectors (w : Work) (last : Bool) (r : Res) : (storePositions w last r).vectors = r.vectors := by
  unfold storePositions; cases last <;> simp <;> split <;> rfl

theorem storePositions_smooth (w : Work) (last : Bool) (r : Res) : (storePositions w last r).smooth = r.smooth := by
  unfold storePositions; cases last <;> simp <;> split <;> rfl

theorem storePositions_tps (w : Work) (last : Bool) (r : Res) : (storePositions w last r).tps = r.tps := by
  unfold storePositions; cases last <;> simp <;> split <;> rfl

theorem storePositions_approx (w : Work) (last : Bool) (r : Res) : (storePositions w last r).approx = r.approx := by
  unfold storePositions; cases last <;> simp <;> split <;> rfl

theorem storePositions_final (w : Work) (last : Bool) (r : Res) : (storePositions w last r).final = r.final := by
  unfold storePositions; cases last <;> simp <;> split <;> rfl

theorem storePositions_pos (w : Work) (last : Bool) (r : Res) :
    estimatePositions last (storePositions w last r) = some ((estimatePositions last r).getD w.original) := by
  unfold storePositions estimatePositions
  cases last
  · simp only [Bool.not_false, Bool.true_and, Bool.false_and, Bool.false_eq_true, if_false]
    cases h : r.ixyApprox <;> simp [h]
  · simp only [Bool.not_true, Bool.false_and, Bool.true_and, Bool.false_eq_true, if_false, if_true]
    cases h : r.ixyFinal <;> simp [h]

theorem store_estimates (r : Res) (last : Bool) (ds : List Delta) : estimates last (store r last ds) = some ds := by
  cases last <;> simp [estimates, store]

theorem store_positions (r : Res) (last : Bool) (ds : List Delta) (l : Bool) :
    estimatePositions l (store r last ds) = estimatePositions l r := by
  cases last <;> cases l <;> simp [estimatePositions, store]

end ApplyInterp

/-! ## C82 -/

/-- **Only NaN.**  If no vector is usable, `InterpError` is raised and no estimate is written. -/
theorem C82_only_nan (E : Ext) (w : Work) (last : Bool) (r : Res) (h : ∀ v ∈ r.vectors, ¬ Usable v) :
    (applyInterp E w last r).2 = .error .interpError ∧ (applyInterp E w last r).1.approx = r.approx ∧
      (applyInterp E w last r).1.final = r.final ∧ (applyInterp E w last r).1.smooth = r.smooth := by
  have he : r.vectors.filter Vector.selected = [] := by
    rw [List.filter_eq_nil_iff]
    intro v hv hs
    exact h v hv ((selected_iff v).mp hs)
  have : estimate E w last (storePositions w last r).vectors = .error .interpError := by
    rw [storePositions_vectors]
    unfold estimate
    simp [he]
  unfold applyInterp
  simp only [this, storePositions_approx, storePositions_final, storePositions_smooth, and_self]

/-- **Vectors with a NaN have no effect** on the estimates made for the next pass. -/
theorem C82_nan_ignored (E : Ext) (w : Work) (r : Res) :
    (applyInterp E w false { r with vectors := r.vectors.filter Vector.selected }).2 = (applyInterp E w false r).2 ∧
      (applyInterp E w false { r with vectors := r.vectors.filter Vector.selected }).1.approx = (applyInterp E w false r).1.approx ∧
      (applyInterp E w false { r with vectors := r.vectors.filter Vector.selected }).1.tps = (applyInterp E w false r).1.tps := by
  have he : estimate E w false (r.vectors.filter Vector.selected) = estimate E w false r.vectors := by
    unfold estimate
    rw [List.filter_filter]
    simp only [Bool.and_self]
  unfold applyInterp
  simp only [storePositions_vectors, he, Bool.false_eq_true, if_false]
  cases estimate E w false r.vectors with
  | error e => simp only [storePositions_approx, storePositions_tps, and_self]
  | ok x => cases x <;> simp [store, storePositions_tps]

/-- **The estimates are at the positions of the grid.**  If the object had no positions of this kind, they are the positions of the grid
in the original image. -/
theorem C82_positions (E : Ext) (w : Work) (last : Bool) (r : Res) :
    estimatePositions last (applyInterp E w last r).1 = some ((estimatePositions last r).getD w.original) := by
  rw [← storePositions_pos]
  unfold applyInterp
  simp only
  cases estimate E w last (storePositions w last r).vectors with
  | error e => rfl
  | ok x =>
    cases x with
    | griddata ds => simp only [store_positions]
    | tps wx wy sx sy ds =>
      simp only
      cases last
      · simp only [Bool.false_eq_true, if_false, store_positions]
        rfl
      · simp only [if_true]
        split
        · rfl
        · rw [store_positions]
          rfl

/-- **Positions of another grid.**  The positions are not updated by a second call on the same object: with a work that has another grid
the new estimates do not even have the same number of elements as the positions. -/
theorem C82_stale_fails (E : Ext) (w1 w2 : Work) (last : Bool) (r : Res) (h : estimatePositions last r = none) :
    estimatePositions last (applyInterp E w2 last (applyInterp E w1 last r).1).1 = some w1.original := by
  rw [C82_positions, C82_positions, h]
  rfl

namespace ApplyInterp

theorem griddata_ok {E : Ext} {centers : List Pos} {values xnew ynew : List ℚ} {out : List (Option ℚ)}
    (h : griddata E centers values xnew ynew = .ok out) :
    ∃ lin near, E.linear centers values = .ok lin ∧ E.nearest centers values = .ok near ∧
      out = (ynew.flatMap fun y => xnew.map fun x => (x, y)).map fun q => (lin q).or (near q) := by
  unfold griddata at h
  simp only at h
  split at h
  · cases h
  · rename_i lin h1
    split at h
    · cases h
    · rename_i near h2
      refine ⟨lin, near, h1, h2, ?_⟩
      injection h with h
      rw [← h]
      apply List.map_congr_left
      intro q _
      cases lin q <;> rfl

theorem points_eq {w : Work} (hg : GridOk w) : w.points = (w.grid.iyvecs.map fun (i : Int) => (i : ℚ)).flatMap fun y =>
    (w.grid.ixvecs.map fun (i : Int) => (i : ℚ)).map fun x => (x, y) := by
  unfold Work.points
  rw [hg, List.map_flatMap, List.flatMap_map]
  congr 1
  funext y
  rw [List.map_map, List.map_map]
  rfl

end ApplyInterp

/-- **Without the splines** each estimate is the linear interpolation of the usable displacements at its own position, replaced by the
nearest value where the linear interpolation is undefined. -/
theorem C82_griddata (E : Ext) (w : Work) (hg : GridOk w) (last : Bool) (r : Res) (hu : ∃ v ∈ r.vectors, Usable v)
    (ht : wantsTps w.params last = false) (hok : (applyInterp E w last r).2 = .ok ()) :
    ∃ linx liny nearx neary, E.linear (usableCenters w r) (usableDx r) = .ok linx ∧ E.linear (usableCenters w r) (usableDy r) = .ok liny ∧
      E.nearest (usableCenters w r) (usableDx r) = .ok nearx ∧ E.nearest (usableCenters w r) (usableDy r) = .ok neary ∧
      estimates last (applyInterp E w last r).1 =
        some (w.points.map fun p => ((linx p).or (nearx p), (liny p).or (neary p))) := by
  have hne : (r.vectors.filter Vector.selected).isEmpty = false := by
    obtain ⟨v, hv, hs⟩ := hu
    rw [List.isEmpty_eq_false_iff_exists_mem]
    exact ⟨v, List.mem_filter.mpr ⟨hv, (selected_iff v).mpr hs⟩⟩
  have he : estimate E w last r.vectors = viaGriddata E w (usableCenters w r) (usableDx r) (usableDy r) := by
    unfold estimate
    simp only [hne, ht, Bool.false_eq_true, if_false]
    rfl
  unfold applyInterp at hok ⊢
  simp only [storePositions_vectors, he] at hok ⊢
  unfold viaGriddata at hok ⊢
  cases hb : griddataBoth E w (usableCenters w r) (usableDx r) (usableDy r) with
  | error e => rw [hb] at hok; cases hok
  | ok ds =>
    simp only [store_estimates]
    unfold griddataBoth at hb
    simp only at hb
    split at hb
    · cases hb
    · rename_i ax h1
      split at hb
      · cases hb
      · rename_i ay h2
        obtain ⟨linx, nearx, a1, a2, a3⟩ := griddata_ok h1
        obtain ⟨liny, neary, b1, b2, b3⟩ := griddata_ok h2
        refine ⟨linx, liny, nearx, neary, a1, b1, a2, b2, ?_⟩
        injection hb with hb
        rw [← hb, a3, b3, points_eq hg, List.zip_map']

/-- In particular every position has an estimate if the nearest value always exists. -/
theorem C82_griddata_total (E : Ext) (w : Work) (hg : GridOk w) (last : Bool) (r : Res) (hu : ∃ v ∈ r.vectors, Usable v)
    (ht : wantsTps w.params last = false) (hok : (applyInterp E w last r).2 = .ok ())
    (hn : ∀ c v f, E.nearest c v = .ok f → ∀ p, f p ≠ none) :
    ∃ ds, estimates last (applyInterp E w last r).1 = some ds ∧ ds.length = w.points.length ∧ ∀ d ∈ ds, d.1 ≠ none ∧ d.2 ≠ none := by
  obtain ⟨linx, liny, nearx, neary, _, _, h3, h4, h5⟩ := C82_griddata E w hg last r hu ht hok
  refine ⟨_, h5, by simp, ?_⟩
  intro d hd
  obtain ⟨p, _, rfl⟩ := List.mem_map.mp hd
  have h1 := hn _ _ _ h3 p
  have h2 := hn _ _ _ h4 p
  constructor
  · cases h : linx p
    · simpa using h1
    · simp
  · cases h : liny p
    · simpa using h2
    · simp

/-! ### Thin plate splines -/

namespace ApplyInterp
open Tps

theorem estimate_tps {E : Ext} {w : Work} {last : Bool} {r : Res} {wx wy : List (List ℚ)} {sx sy : Nat → Option ℚ} {ds : List Delta}
    (h : estimate E w last r.vectors = .ok (.tps wx wy sx sy ds)) :
    ∃ g, setup ((usableCenters w r).map Prod.fst) ((usableCenters w r).map Prod.snd) w.params.subdomSize 20 = .ok g ∧
      weights E w.params g (usableCenters w r) (usableDx r) = .ok (sx, wx) ∧
      weights E w.params g (usableCenters w r) (usableDy r) = .ok (sy, wy) ∧
      ds = (interpolate E g (usableCenters w r) wx w.points).zip (interpolate E g (usableCenters w r) wy w.points) := by
  unfold estimate at h
  simp only at h
  split at h
  · cases h
  · split at h
    · unfold viaTps at h
      split at h
      · cases h
      · rename_i g hg
        refine ⟨g, hg, ?_⟩
        have hgd : ∀ c a b, viaGriddata E w c a b ≠ .ok (.tps wx wy sx sy ds) := by
          intro c a b hc
          unfold viaGriddata at hc
          split at hc <;> cases hc
        split at h
        · exact absurd h (hgd _ _ _)
        · cases h
        · rename_i sx' wx' h1
          split at h
          · exact absurd h (hgd _ _ _)
          · cases h
          · rename_i sy' wy' h2
            injection h with h
            injection h with e1 e2 e3 e4 e5
            subst e1 e2 e3 e4 e5
            exact ⟨h1, h2, rfl⟩
    · unfold viaGriddata at h
      split at h <;> cases h

theorem interpolate_length (E : Ext) (g : Grid) (c : List Pos) (ws : List (List ℚ)) (ps : List Pos) :
    (interpolate E g c ws ps).length = ps.length := by simp [interpolate]

theorem interpolate_get (E : Ext) (g : Grid) (c : List Pos) (ws : List (List ℚ)) (ps : List Pos) {i : Nat} (hi : i < ps.length) :
    (interpolate E g c ws ps)[i]? = some (recombine g ps.length (fun i => (ps.getD i (0, 0)).1) (fun i => (ps.getD i (0, 0)).2)
      (List.zipWith (fun d w => (d.indices ps.length (fun i => (ps.getD i (0, 0)).1) (fun i => (ps.getD i (0, 0)).2)).map
        fun i => E.eval (domCenters c d) w ((ps.getD i (0, 0)).1, (ps.getD i (0, 0)).2)) g.doms ws) i) := by
  unfold interpolate
  simp only [List.getElem?_map, List.getElem?_range hi, Option.map_some]

/-- Is a position in the rectangle of the centers, extended by the buffers? -/
def Covered (g : Grid) (p : Pos) : Prop :=
  (g.x0 - g.bufX ≤ p.1 ∧ p.1 < g.x1 + g.bufX) ∧ (g.y0 - g.bufY ≤ p.2 ∧ p.2 < g.y1 + g.bufY)

theorem interpolate_nan {g : Grid} (hg : GoodGrid g) (E : Ext) (c : List Pos) (ws : List (List ℚ)) (ps : List Pos) {i : Nat} {p : Pos}
    (hi : ps[i]? = some p) : ∃ v, (interpolate E g c ws ps)[i]? = some v ∧ (v = none ↔ ¬ Covered g p) := by
  obtain ⟨hl, hp⟩ := List.getElem?_eq_some_iff.mp hi
  refine ⟨_, interpolate_get E g c ws ps hl, ?_⟩
  have hd : ps.getD i (0, 0) = p := by simp [List.getD_eq_getElem?_getD, hi]
  have hcov : (∃ d ∈ g.doms, i ∈ d.indices ps.length (fun i => (ps.getD i (0, 0)).1) (fun i => (ps.getD i (0, 0)).2)) ↔ Covered g p := by
    unfold Covered
    rw [← C42_covered_iff hg p.1 p.2]
    constructor
    · rintro ⟨d, hd1, hd2⟩
      refine ⟨d, hd1, ?_⟩
      have := (mem_indices.mp hd2).2
      simpa only [hd] using this
    · rintro ⟨d, hd1, hd2⟩
      exact ⟨d, hd1, mem_indices.mpr ⟨hl, by simpa only [hd] using hd2⟩⟩
  have key := C42_recombine g ps.length (fun i => (ps.getD i (0, 0)).1) (fun i => (ps.getD i (0, 0)).2)
    (List.zipWith (fun d w => (d.indices ps.length (fun i => (ps.getD i (0, 0)).1) (fun i => (ps.getD i (0, 0)).2)).map
        fun i => E.eval (domCenters c d) w ((ps.getD i (0, 0)).1, (ps.getD i (0, 0)).2)) g.doms ws) i
  constructor
  · intro hn hc
    rw [(key.1 (hcov.mpr hc)).2] at hn
    cases hn
  · intro hc
    exact key.2 fun d hd hin => hc (hcov.mp ⟨d, hd, hin⟩)

end ApplyInterp

/-- **With the splines** the estimate at a position of the grid is NaN exactly when the position is outside the rectangle of the usable
vectors extended by 20 % of the size of the sub-domains. -/
theorem C82_tps_nan {E : Ext} {w : Work} {last : Bool} {r : Res} {wx wy : List (List ℚ)} {sx sy : Nat → Option ℚ} {ds : List Delta}
    (h : estimate E w last r.vectors = .ok (.tps wx wy sx sy ds)) :
    ∃ g, Tps.setup ((usableCenters w r).map Prod.fst) ((usableCenters w r).map Prod.snd) w.params.subdomSize 20 = .ok g ∧
      ds.length = w.points.length ∧
      ∀ (i : Nat) (p : Pos), w.points[i]? = some p → ∃ d : Delta, ds[i]? = some d ∧ (d.1 = none ↔ ¬ Covered g p) ∧ (d.2 = none ↔ ¬ Covered g p) := by
  obtain ⟨g, hg, _, _, rfl⟩ := estimate_tps h
  refine ⟨g, hg, by simp [interpolate_length], ?_⟩
  intro i p hp
  have good := (setup_spec hg (by norm_num)).1
  obtain ⟨a, ha, ha'⟩ := interpolate_nan good E (usableCenters w r) wx w.points hp
  obtain ⟨b, hb, hb'⟩ := interpolate_nan good E (usableCenters w r) wy w.points hp
  exact ⟨(a, b), List.getElem?_zip_eq_some.mpr ⟨ha, hb⟩, ha', hb'⟩

/-! ### Success of the splines -/

namespace ApplyInterp
open Tps

theorem iterLoop_total {solve : Solver} (hs : ∀ v, solve v ≠ none) (t : ℚ) : ∀ (m count : Nat) (r : Iter), 10 - count = m →
    ∃ r', iterLoop solve t count r = .ok r' := by
  intro m
  induction m with
  | zero =>
    intro count r hm
    rw [iterLoop]
    split
    · exact ⟨_, rfl⟩
    · simp only
      split
      · rename_i h; exact absurd h (hs _)
      · rw [if_pos (by omega)]; exact ⟨_, rfl⟩
  | succ m ih =>
    intro count r hm
    rw [iterLoop]
    split
    · exact ⟨_, rfl⟩
    · simp only
      split
      · rename_i h; exact absurd h (hs _)
      · split
        · exact ⟨_, rfl⟩
        · exact ih _ _ (by omega)

theorem iter_total {solve : Solver} (hs : ∀ v, solve v ≠ none) (t : Option ℚ) (v : List ℚ) : ∃ r, Tps.iter solve t v = .ok r := by
  unfold Tps.iter
  split
  · rename_i h; exact absurd h (hs _)
  · cases t with
    | none => exact ⟨_, rfl⟩
    | some t => exact iterLoop_total hs t _ _ _ rfl

theorem iter_linAlg {solve : Solver} {v : List ℚ} (hs : solve v = none) (t : Option ℚ) : Tps.iter solve t v = .error .linAlg := by
  unfold Tps.iter
  rw [hs]

theorem iterAll_total (t : Option ℚ) : ∀ (ss : List Solver) (vs : List (List ℚ)), (∀ s ∈ ss, ∀ v, s v ≠ none) →
    ss.length = vs.length → ∃ rs, iterAll t ss vs = .ok rs ∧ rs.length = vs.length
  | [], [], _, _ => ⟨[], rfl, rfl⟩
  | [], _ :: _, _, h => by simp at h
  | _ :: _, [], _, h => by simp at h
  | s :: ss, v :: vs, hs, hl => by
    obtain ⟨r, hr⟩ := iter_total (hs s List.mem_cons_self) t v
    obtain ⟨rs, h1, h2⟩ := iterAll_total t ss vs (fun s h => hs s (List.mem_cons_of_mem _ h)) (by simpa using hl)
    rw [iterAll, hr]
    simp only [h1]
    exact ⟨_, rfl, by simp [h2]⟩

theorem iterAll_linAlg (t : Option ℚ) : ∀ (ss : List Solver) (vs : List (List ℚ)),
    (∀ s ∈ ss, (∀ v, s v = none) ∨ ∀ v, s v ≠ none) → (∃ s ∈ ss, ∀ v, s v = none) →
    ss.length = vs.length → iterAll t ss vs = .error .linAlg
  | [], _, _, h, _ => by simp at h
  | _ :: _, [], _, _, h => by simp at h
  | s :: ss, v :: vs, hs, he, hl => by
    rw [iterAll]
    rcases hs s List.mem_cons_self with h | h
    · rw [iter_linAlg (h v)]
    · obtain ⟨r, hr⟩ := iter_total h t v
      rw [hr]
      have he' : ∃ s ∈ ss, ∀ v, s v = none := by
        obtain ⟨s', h1, h2⟩ := he
        rcases List.mem_cons.mp h1 with rfl | h1
        · exact absurd (h2 v) (h v)
        · exact ⟨s', h1, h2⟩
      simp only [iterAll_linAlg t ss vs (fun s h => hs s (List.mem_cons_of_mem _ h)) he' (by simpa using hl)]

end ApplyInterp

/-- All the points are on a line (or there is none). -/
def Aligned (ps : List Pos) : Prop := ∃ a b c : ℚ, (a ≠ 0 ∨ b ≠ 0) ∧ ∀ p ∈ ps, a * p.1 + b * p.2 = c

/-- The linear systems are solved unless the centers are aligned, whatever the values: this is `C81_solvable`, for a positive smoothing
coefficient or distinct centers. -/
def SolvesUnlessAligned (E : Ext) : Prop :=
  (∀ c, Aligned c → ∀ v, E.solve c v = none) ∧ ∀ c, ¬ Aligned c → ∀ v, E.solve c v ≠ none

/-- **When the splines are used.**  If they are wanted, with a threshold, and the usable vectors are not all on a horizontal or vertical
line, they are used if and only if in every sub-domain the usable vectors are not aligned; otherwise the estimates are the ones of
`griddata` everywhere, for both components. -/
theorem C82_fallback (E : Ext) (hE : SolvesUnlessAligned E) (w : Work) (last : Bool) (r : Res) (hu : ∃ v ∈ r.vectors, Usable v)
    (ht : wantsTps w.params last = true) {t : ℚ} (hthr : w.params.threshold = some t) {g : Tps.Grid}
    (hg : Tps.setup ((usableCenters w r).map Prod.fst) ((usableCenters w r).map Prod.snd) w.params.subdomSize 20 = .ok g) :
    ((∀ d ∈ g.doms, ¬ Aligned (domCenters (usableCenters w r) d)) →
      ∃ wx wy sx sy ds, estimate E w last r.vectors = .ok (.tps wx wy sx sy ds)) ∧
    ((∃ d ∈ g.doms, Aligned (domCenters (usableCenters w r) d)) →
      estimate E w last r.vectors = viaGriddata E w (usableCenters w r) (usableDx r) (usableDy r)) := by
  classical
  have hne : (r.vectors.filter Vector.selected).isEmpty = false := by
    obtain ⟨v, hv, hs⟩ := hu
    rw [List.isEmpty_eq_false_iff_exists_mem]
    exact ⟨v, List.mem_filter.mpr ⟨hv, (selected_iff v).mpr hs⟩⟩
  have he : estimate E w last r.vectors = viaTps E w (usableCenters w r) (usableDx r) (usableDy r) := by
    unfold estimate
    simp only [hne, ht, Bool.false_eq_true, if_false, if_true]
    rfl
  rw [he]
  unfold viaTps
  rw [hg]
  simp only
  constructor
  · intro ha
    have hw : ∀ vals, ∃ x, weights E w.params g (usableCenters w r) vals = .ok x := by
      intro vals
      unfold weights Tps.weightsSubdom
      obtain ⟨rs, h1, _⟩ := iterAll_total w.params.threshold (g.doms.map fun d => E.solve (domCenters (usableCenters w r) d))
        (g.doms.map (fun d => (d.indices (usableCenters w r).length (fun i => ((usableCenters w r).getD i (0, 0)).1)
          (fun i => ((usableCenters w r).getD i (0, 0)).2)).map fun i => vals.getD i 0))
        (by
          intro s hs v
          obtain ⟨d, hd, rfl⟩ := List.mem_map.mp hs
          exact hE.2 _ (ha d hd) v) (by simp)
      rw [h1, hthr]
      exact ⟨_, rfl⟩
    obtain ⟨⟨sx, wx⟩, h1⟩ := hw (usableDx r)
    obtain ⟨⟨sy, wy⟩, h2⟩ := hw (usableDy r)
    rw [h1]
    simp only [h2]
    exact ⟨_, _, _, _, _, rfl⟩
  · rintro ⟨d, hd, ha⟩
    have hw : weights E w.params g (usableCenters w r) (usableDx r) = .error .linAlg := by
      unfold weights Tps.weightsSubdom
      rw [iterAll_linAlg]
      · intro s hs
        obtain ⟨d, _, rfl⟩ := List.mem_map.mp hs
        by_cases h : Aligned (domCenters (usableCenters w r) d)
        · exact .inl (hE.1 _ h)
        · exact .inr (hE.2 _ h)
      · exact ⟨_, List.mem_map_of_mem hd, hE.1 _ ha⟩
      · simp
    rw [hw]

open Classical in
/-- Systems which meet the hypothesis exist. -/
example : ∃ E : Ext, SolvesUnlessAligned E := by
  refine ⟨⟨fun c v => if Aligned c then none else some (v, []), fun _ _ _ => 0, fun _ _ => .ok fun _ => none,
    fun _ _ => .ok fun _ => none⟩, fun c h v => if_pos h, fun c h v => ?_⟩
  show (if Aligned c then none else some (v, [])) ≠ none
  rw [if_neg h]
  exact Option.some_ne_none _

/-- Points which are not aligned, and points which are. -/
example : ¬ Aligned [(0, 0), (10, 0), (0, 10)] ∧ Aligned [(0, 0), (10, 0), (20, 0)] := by
  refine ⟨?_, 0, 1, 0, Or.inr one_ne_zero, by simp⟩
  rintro ⟨a, b, c, hab, h⟩
  have h1 := h (0, 0) (by simp)
  have h2 := h (10, 0) (by simp)
  have h3 := h (0, 10) (by simp)
  simp only at h1 h2 h3
  rcases hab with ha | hb
  · exact ha (by linarith)
  · exact hb (by linarith)

/-- **No smoothed field after the fallback**: the last interpolation succeeds but the attributes of the smoothed field are not set. -/
theorem C82_no_smooth_fails (E : Ext) (hE : SolvesUnlessAligned E) (w : Work) (r : Res) (hu : ∃ v ∈ r.vectors, Usable v)
    (ht : wantsTps w.params true = true) {t : ℚ} (hthr : w.params.threshold = some t) {g : Tps.Grid}
    (hg : Tps.setup ((usableCenters w r).map Prod.fst) ((usableCenters w r).map Prod.snd) w.params.subdomSize 20 = .ok g)
    (ha : ∃ d ∈ g.doms, Aligned (domCenters (usableCenters w r) d)) : (applyInterp E w true r).1.smooth = r.smooth := by
  have he := (C82_fallback E hE w true r hu ht hthr hg).2 ha
  unfold applyInterp
  simp only [storePositions_vectors, he]
  unfold viaGriddata
  cases griddataBoth E w (usableCenters w r) (usableDx r) (usableDy r) with
  | error e => simp only [storePositions_smooth]
  | ok ds => simp only [store, storePositions_smooth, if_true]

/-- **Vectors on a line.**  If the splines are wanted and the usable vectors are on a horizontal or vertical line, the call fails with
another error than `InterpError` (which is the only one that the multipass PIV expects). -/
theorem C82_line_fails (E : Ext) (w : Work) (last : Bool) (r : Res) (hu : ∃ v ∈ r.vectors, Usable v)
    (ht : wantsTps w.params last = true) {k : ℚ}
    (hline : (∀ p ∈ usableCenters w r, p.1 = k) ∨ (∀ p ∈ usableCenters w r, p.2 = k)) :
    ∃ e, (applyInterp E w last r).2 = .error e ∧ e ≠ .interpError := by
  have hne : (r.vectors.filter Vector.selected).isEmpty = false := by
    obtain ⟨v, hv, hs⟩ := hu
    rw [List.isEmpty_eq_false_iff_exists_mem]
    exact ⟨v, List.mem_filter.mpr ⟨hv, (selected_iff v).mpr hs⟩⟩
  have he : estimate E w last r.vectors = viaTps E w (usableCenters w r) (usableDx r) (usableDy r) := by
    unfold estimate
    simp only [hne, ht, Bool.false_eq_true, if_false, if_true]
    rfl
  obtain ⟨e, hs⟩ := C42_line_fails (xs := (usableCenters w r).map Prod.fst) (ys := (usableCenters w r).map Prod.snd)
    (size := w.params.subdomSize) (percent := 20) (c := k)
    (by
      rcases hline with h | h
      · left; intro x hx; obtain ⟨p, hp, rfl⟩ := List.mem_map.mp hx; exact h p hp
      · right; intro x hx; obtain ⟨p, hp, rfl⟩ := List.mem_map.mp hx; exact h p hp)
  refine ⟨e, ?_, ?_⟩
  · unfold applyInterp
    simp only [storePositions_vectors, he]
    unfold viaTps
    rw [hs]
  · rintro rfl
    have : ∀ l : List ℚ, Tps.listMin l ≠ .error .interpError ∧ Tps.listMax l ≠ .error .interpError := by
      intro l; cases l <;> simp [Tps.listMin, Tps.listMax]
    unfold Tps.setup at hs
    split at hs
    · simp only at hs
      split at hs
      · cases hs
      · split at hs
        · cases hs
        · split at hs <;> cases hs
    all_goals
      injection hs with hs
      subst hs
      first
        | exact absurd ‹Tps.listMin _ = .error PyErr.interpError› (this _).1
        | exact absurd ‹Tps.listMax _ = .error PyErr.interpError› (this _).2

/-- **Other values of `use_tps`**: only `True` and, for the last pass, `"last"` use the splines; a truthy value such as `1` does not. -/
theorem C82_use_tps (p : Params) (last : Bool) :
    wantsTps p last = true ↔ p.useTps = .bool true ∨ (p.useTps = .str "last" ∧ last = true) := by
  unfold wantsTps
  cases p.useTps <;> simp

/-! ### Smoothed field -/

namespace ApplyInterp

theorem go_get {α : Type} : ∀ (mask : List Bool) (arr vals : List α) (i : Nat), mask.length = arr.length →
    (mask.filter id).length = vals.length →
    (mask[i]? = some false → (putMask.go mask arr vals)[i]? = arr[i]?) ∧
      (mask[i]? = some true → (putMask.go mask arr vals)[i]? = vals[((mask.take i).filter id).length]?)
  | [], arr, vals, i, _, _ => by simp
  | b :: m, [], vals, i, h, _ => by simp at h
  | true :: m, x :: a, [], i, _, h2 => by simp at h2
  | true :: m, x :: a, v :: vs, i, h1, h2 => by
    rw [putMask.go]
    cases i with
    | zero => simp
    | succ i =>
      have := go_get m a vs i (by simpa using h1) (by simpa using h2)
      simpa using this
  | false :: m, x :: a, vs, i, h1, h2 => by
    have e : putMask.go (false :: m) (x :: a) vs = x :: putMask.go m a vs := by cases vs <;> rfl
    rw [e]
    cases i with
    | zero => simp
    | succ i =>
      have := go_get m a vs i (by simpa using h1) (by simpa using h2)
      simpa using this

theorem filter_map_id {α : Type} (f : α → Bool) : ∀ l : List α, ((l.map f).filter id).length = (l.filter f).length
  | [] => rfl
  | a :: l => by
    rw [List.map_cons, List.filter_cons, List.filter_cons]
    cases f a <;> simp [filter_map_id f l]

end ApplyInterp

/-- **The smoothed field.**  After the last interpolation with the splines, the element `i` of the smoothed arrays is, for a usable vector,
its own position and its own smoothed displacement, and for the other ones the position and the estimate of the grid. -/
theorem C82_smooth (E : Ext) (w : Work) (r : Res) {wx wy : List (List ℚ)} {sx sy : Nat → Option ℚ} {ds : List Delta}
    (h : estimate E w true r.vectors = .ok (.tps wx wy sx sy ds)) (hf : r.ixyFinal = none) (hlen : r.vectors.length = w.points.length) :
    (applyInterp E w true r).2 = .ok () ∧ (applyInterp E w true r).1.final = some ds ∧
    ∃ sm, (applyInterp E w true r).1.smooth = some sm ∧ sm.length = r.vectors.length ∧
      ∀ (i : Nat) (v : ApplyInterp.Vector), r.vectors[i]? = some v →
        (Usable v → sm[i]? = some ((v.x, v.y), (sx ((r.vectors.take i).filter Vector.selected).length,
          sy ((r.vectors.take i).filter Vector.selected).length))) ∧
        (¬ Usable v → ∃ p d, w.original[i]? = some p ∧ ds[i]? = some d ∧ sm[i]? = some (p, d)) := by
  obtain ⟨_, _, hdl, _⟩ := C82_tps_nan h
  have hol : w.original.length = w.points.length := by simp [Work.original]
  have hfin : (storePositions w true r).ixyFinal = some w.original := by
    have := storePositions_pos w true r
    simpa [estimatePositions, hf] using this
  have hmask : (r.vectors.map Vector.selected).length = w.points.length := by simpa using hlen
  have hp1 : putMask (r.vectors.map Vector.selected) w.original ((r.vectors.filter Vector.selected).map fun v => (v.x, v.y)) =
      .ok (putMask.go (r.vectors.map Vector.selected) w.original ((r.vectors.filter Vector.selected).map fun v => (v.x, v.y))) := by
    unfold putMask
    rw [if_neg (by rw [hmask, hol]; simp)]
  have hp2 : putMask (r.vectors.map Vector.selected) ds ((List.range (r.vectors.filter Vector.selected).length).map fun i => (sx i, sy i)) =
      .ok (putMask.go (r.vectors.map Vector.selected) ds ((List.range (r.vectors.filter Vector.selected).length).map fun i => (sx i, sy i))) := by
    unfold putMask
    rw [if_neg (by rw [hmask, hdl]; simp)]
  set ps := putMask.go (r.vectors.map Vector.selected) w.original ((r.vectors.filter Vector.selected).map fun v => (v.x, v.y)) with hps
  set qs := putMask.go (r.vectors.map Vector.selected) ds ((List.range (r.vectors.filter Vector.selected).length).map fun i => (sx i, sy i)) with hqs
  have hsm : ∀ r' : Res, r'.vectors = r.vectors → r'.ixyFinal = some w.original →
      smoothArrays r' (r'.ixyFinal.getD []) ds sx sy = .ok (ps.zip qs) := by
    intro r' h1 h2
    unfold smoothArrays
    rw [h1, h2]
    simp only [Option.getD_some, hp1, hp2]
  have key : ∀ (i : Nat) (v : ApplyInterp.Vector), r.vectors[i]? = some v →
      (Usable v → ps[i]? = some (v.x, v.y) ∧ qs[i]? = some (sx ((r.vectors.take i).filter Vector.selected).length,
          sy ((r.vectors.take i).filter Vector.selected).length)) ∧
        (¬ Usable v → ∃ p d, w.original[i]? = some p ∧ ds[i]? = some d ∧ ps[i]? = some p ∧ qs[i]? = some d) := by
    intro i v hv
    obtain ⟨hi, hiv⟩ := List.getElem?_eq_some_iff.mp hv
    have hm : (r.vectors.map Vector.selected)[i]? = some v.selected := by simp [hv]
    have g1 := go_get (r.vectors.map Vector.selected) w.original ((r.vectors.filter Vector.selected).map fun v => (v.x, v.y)) i
      (by rw [hmask, hol]) (by simp [filter_map_id])
    have g2 := go_get (r.vectors.map Vector.selected) ds
      ((List.range (r.vectors.filter Vector.selected).length).map fun i => (sx i, sy i)) i (by rw [hmask, hdl]) (by simp [filter_map_id])
    rw [← List.map_take, filter_map_id] at g1 g2
    constructor
    · intro hu
      have hs := (selected_iff v).mpr hu
      rw [hs] at hm
      have hsplit : r.vectors.filter Vector.selected =
          (r.vectors.take i).filter Vector.selected ++ v :: (r.vectors.drop (i + 1)).filter Vector.selected := by
        conv_lhs => rw [← List.take_append_drop i r.vectors, List.filter_append, List.drop_eq_getElem_cons hi, hiv, List.filter_cons, if_pos hs]
      refine ⟨(g1.2 hm).trans ?_, (g2.2 hm).trans ?_⟩
      · rw [hsplit]
        simp
      · rw [List.getElem?_map, List.getElem?_range]
        · rfl
        · rw [hsplit]
          simp
    · intro hu
      have hs : v.selected = false := by
        rw [← Bool.not_eq_true, selected_iff]; exact hu
      rw [hs] at hm
      have h1 : i < w.original.length := by rw [hol, ← hlen]; exact hi
      have h2 : i < ds.length := by rw [hdl, ← hlen]; exact hi
      refine ⟨w.original[i], ds[i], List.getElem?_eq_getElem h1, List.getElem?_eq_getElem h2, ?_, ?_⟩
      · rw [g1.1 hm, List.getElem?_eq_getElem h1]
      · rw [g2.1 hm, List.getElem?_eq_getElem h2]
  have hlz : (ps.zip qs).length = r.vectors.length := by
    have : ∀ (m : List Bool) {α : Type} (a v : List α), m.length = a.length → (putMask.go m a v).length = m.length := by
      intro m
      induction m with
      | nil => intro α a v h; cases a <;> cases v <;> simp_all [putMask.go]
      | cons b m ih =>
        intro α a v h
        cases a with
        | nil => simp at h
        | cons x a => cases b <;> cases v <;> simp [putMask.go, ih _ _ (by simpa using h)]
    rw [List.length_zip, hps, hqs, this _ _ _ (by rw [hmask, hol]), this _ _ _ (by rw [hmask, hdl])]
    simp
  have hres : applyInterp E w true r = (store { storePositions w true r with tps := some (wx, wy), smooth := some (ps.zip qs) } true ds, .ok ()) := by
    unfold applyInterp
    simp only [storePositions_vectors, h, if_true]
    rw [hsm _ (by simp only [storePositions_vectors]) (by simp only [hfin])]
  rw [hres]
  refine ⟨rfl, rfl, ps.zip qs, rfl, hlz, ?_⟩
  intro i v hv
  obtain ⟨k1, k2⟩ := key i v hv
  constructor
  · intro hu
    exact List.getElem?_zip_eq_some.mpr (k1 hu)
  · intro hu
    obtain ⟨p, d, a1, a2, a3, a4⟩ := k2 hu
    exact ⟨p, d, a1, a2, List.getElem?_zip_eq_some.mpr ⟨a3, a4⟩⟩

/-! ### Affine fields -/

/-- An affine function of the position. -/
def affineAt (a b k : ℚ) (p : Pos) : ℚ := a * p.1 + b * p.2 + k

/-- The splines with the centers `c` reproduce the affine fields: this is `C81_affine`, for centers that are not aligned. -/
def AffineOn (E : Ext) (c : List Pos) : Prop := ∀ a b k, ∃ ws,
  E.solve c (c.map (affineAt a b k)) = some (c.map (affineAt a b k), ws) ∧ ∀ p, E.eval c ws p = affineAt a b k p

namespace ApplyInterp
open Tps

theorem map_getD_range (c : List Pos) : (List.range c.length).map (fun i => c.getD i (0, 0)) = c := by
  apply List.ext_getElem
  · simp
  · intro i h1 h2
    simp [List.getD_eq_getElem?_getD, List.getElem?_eq_getElem h2]

/-- The values given to a sub-domain are those of its centers. -/
theorem dom_values (c : List Pos) (f : Pos → ℚ) (d : Dom) :
    (d.indices c.length (fun i => (c.getD i (0, 0)).1) (fun i => (c.getD i (0, 0)).2)).map (fun i => (c.map f).getD i 0) =
      (domCenters c d).map f := by
  have h : domCenters c d = ((List.range c.length).filter fun i => d.contains (c.getD i (0, 0)).1 (c.getD i (0, 0)).2).map
      fun i => c.getD i (0, 0) := by
    unfold domCenters
    conv_lhs => rw [← map_getD_range c, List.filter_map]
    rfl
  rw [h, List.map_map]
  unfold Dom.indices
  apply List.map_congr_left
  intro i hi
  have := List.mem_range.mp (List.mem_filter.mp hi).1
  simp [List.getD_eq_getElem?_getD, List.getElem?_eq_getElem this]

theorem iter_same {solve : Solver} {v ws : List ℚ} (h : solve v = some (v, ws)) {t : ℚ} (ht : 0 ≤ t) :
    ∃ r, Tps.iter solve (some t) v = .ok r ∧ r.weights = ws ∧ r.smoothed = v := by
  have he : (erratic t v v).count true = 0 := by
    unfold erratic
    rw [List.count_eq_zero, ← List.map_uncurry_zip_eq_zipWith]
    intro hc
    obtain ⟨p, hp, hq⟩ := List.mem_map.1 hc
    have hpp : p.1 = p.2 := by
      obtain ⟨k, hk, rfl⟩ := List.mem_iff_getElem.1 hp
      simp
    simp only [Function.uncurry, decide_eq_true_eq] at hq
    rw [hpp, sub_self, abs_zero] at hq
    linarith
  unfold Tps.iter
  rw [h]
  simp only
  rw [iterLoop, if_pos he]
  exact ⟨_, rfl, rfl, rfl⟩

theorem iterAll_affine (E : Ext) (c : List Pos) (a b k : ℚ) {t : ℚ} (ht : 0 ≤ t) : ∀ ds : List Dom,
    (∀ d ∈ ds, AffineOn E (domCenters c d)) →
    ∃ rs, iterAll (some t) (ds.map fun d => E.solve (domCenters c d)) (ds.map fun d => (domCenters c d).map (affineAt a b k)) = .ok rs ∧
      List.Forall₂ (fun d (r : Iter) => ∀ p, E.eval (domCenters c d) r.weights p = affineAt a b k p) ds rs
  | [], _ => ⟨[], rfl, .nil⟩
  | d :: ds, h => by
    obtain ⟨ws, h1, h2⟩ := h d List.mem_cons_self a b k
    obtain ⟨r, h3, h4, _⟩ := iter_same h1 ht
    obtain ⟨rs, h5, h6⟩ := iterAll_affine E c a b k ht ds fun d hd => h d (List.mem_cons_of_mem _ hd)
    rw [List.map_cons, List.map_cons, iterAll, h3]
    simp only [h5]
    exact ⟨_, rfl, .cons (fun p => by rw [h4]; exact h2 p) h6⟩

theorem weights_affine (E : Ext) (pr : Params) (g : Grid) (c : List Pos) (a b k : ℚ) {t : ℚ} (ht : 0 ≤ t) (hthr : pr.threshold = some t)
    (h : ∀ d ∈ g.doms, AffineOn E (domCenters c d)) :
    ∃ s ws, weights E pr g c (c.map (affineAt a b k)) = .ok (s, ws) ∧
      List.Forall₂ (fun d w => ∀ p, E.eval (domCenters c d) w p = affineAt a b k p) g.doms ws := by
  obtain ⟨rs, h1, h2⟩ := iterAll_affine E c a b k ht g.doms h
  unfold weights weightsSubdom
  simp only [dom_values, hthr, h1]
  exact ⟨_, _, rfl, by rwa [List.forall₂_map_right_iff]⟩

theorem interpolate_affine (E : Ext) {g : Grid} (hg : GoodGrid g) (c : List Pos) (a b k : ℚ) {ws : List (List ℚ)}
    (h : List.Forall₂ (fun d w => ∀ p, E.eval (domCenters c d) w p = affineAt a b k p) g.doms ws) (ps : List Pos) {i : Nat} {p : Pos}
    (hi : ps[i]? = some p) (hc : Covered g p) : (interpolate E g c ws ps)[i]? = some (some (affineAt a b k p)) := by
  obtain ⟨hl, hp⟩ := List.getElem?_eq_some_iff.mp hi
  rw [interpolate_get E g c ws ps hl]
  have hd : ps.getD i (0, 0) = p := by simp [List.getD_eq_getElem?_getD, hi]
  have hcov : ∃ d ∈ g.doms, i ∈ d.indices ps.length (fun i => (ps.getD i (0, 0)).1) (fun i => (ps.getD i (0, 0)).2) := by
    obtain ⟨d, hd1, hd2⟩ := (C42_covered_iff hg p.1 p.2).mpr hc
    exact ⟨d, hd1, mem_indices.mpr ⟨hl, by simpa only [hd] using hd2⟩⟩
  have hz : ∀ (ds : List Dom) (ws : List (List ℚ)),
      List.Forall₂ (fun d w => ∀ p, E.eval (domCenters c d) w p = affineAt a b k p) ds ws →
      List.zipWith (fun d w => (d.indices ps.length (fun i => (ps.getD i (0, 0)).1) (fun i => (ps.getD i (0, 0)).2)).map
        fun i => E.eval (domCenters c d) w ((ps.getD i (0, 0)).1, (ps.getD i (0, 0)).2)) ds ws =
      ds.map fun d => (d.indices ps.length (fun i => (ps.getD i (0, 0)).1) (fun i => (ps.getD i (0, 0)).2)).map
        fun i => affineAt a b k ((ps.getD i (0, 0)).1, (ps.getD i (0, 0)).2) := by
    intro ds ws hf
    induction hf with
    | nil => rfl
    | cons h1 _ ih =>
      rw [List.zipWith_cons_cons, List.map_cons, ih]
      congr 1
      apply List.map_congr_left
      intro j _
      exact h1 _
  rw [hz _ _ h]
  obtain ⟨r, hr, h1, h2⟩ := C42_recombine_between g ps.length (fun i => (ps.getD i (0, 0)).1) (fun i => (ps.getD i (0, 0)).2)
    (g.doms.map fun d => (d.indices ps.length (fun i => (ps.getD i (0, 0)).1) (fun i => (ps.getD i (0, 0)).2)).map
        fun i => affineAt a b k ((ps.getD i (0, 0)).1, (ps.getD i (0, 0)).2)) i (by simp)
    (lo := affineAt a b k p) (hi := affineAt a b k p) hcov (by
      intro q hq hin
      have : ∃ d, q = (d, (d.indices ps.length (fun i => (ps.getD i (0, 0)).1) (fun i => (ps.getD i (0, 0)).2)).map
          fun i => affineAt a b k ((ps.getD i (0, 0)).1, (ps.getD i (0, 0)).2)) := by
        obtain ⟨j, hj, rfl⟩ := List.mem_iff_getElem.1 hq
        have hj' : j < g.doms.length := by simpa using hj
        exact ⟨g.doms[j], by rw [List.getElem_zip, List.getElem_map]⟩
      obtain ⟨d, rfl⟩ := this
      unfold valueAt
      simp only at hin ⊢
      rw [lookup_zip_map, if_pos hin, hd]
      simp)
  rw [hr, le_antisymm h2 h1]

end ApplyInterp

/-- **A uniform strain is estimated exactly.**  If the displacements of the usable vectors are affine functions of their positions in the
original image, the estimates of the splines are the values of these functions at the positions reported with them, at every position
that has an estimate. -/
theorem C82_affine (E : Ext) (w : Work) (last : Bool) (r : Res) (hu : ∃ v ∈ r.vectors, Usable v)
    (ht : wantsTps w.params last = true) {t : ℚ} (ht0 : 0 ≤ t) (hthr : w.params.threshold = some t) {g : Tps.Grid}
    (hg : Tps.setup ((usableCenters w r).map Prod.fst) ((usableCenters w r).map Prod.snd) w.params.subdomSize 20 = .ok g)
    (hE : ∀ d ∈ g.doms, AffineOn E (domCenters (usableCenters w r) d)) (ax bx kx ay bY ky : ℚ)
    (hv : ∀ v ∈ r.vectors, Usable v → v.dx = some (affineAt ax bx kx (v.x, v.y)) ∧ v.dy = some (affineAt ay bY ky (v.x, v.y)))
    (hpos : estimatePositions last r = none) (hlen : last = true → r.vectors.length = w.points.length) :
    (applyInterp E w last r).2 = .ok () ∧
    ∃ ps ds, estimatePositions last (applyInterp E w last r).1 = some ps ∧ estimates last (applyInterp E w last r).1 = some ds ∧
      ds.length = ps.length ∧
      ∀ (i : Nat) (p : Pos), ps[i]? = some p → Covered g (p.1 - w.off.1, p.2 - w.off.2) →
        ds[i]? = some (some (affineAt ax bx kx p), some (affineAt ay bY ky p)) := by
  have good := (setup_spec hg (by norm_num)).1
  have hne : (r.vectors.filter Vector.selected).isEmpty = false := by
    obtain ⟨v, hv, hs⟩ := hu
    rw [List.isEmpty_eq_false_iff_exists_mem]
    exact ⟨v, List.mem_filter.mpr ⟨hv, (selected_iff v).mpr hs⟩⟩
  have he : estimate E w last r.vectors = viaTps E w (usableCenters w r) (usableDx r) (usableDy r) := by
    unfold estimate
    simp only [hne, ht, Bool.false_eq_true, if_false, if_true]
    rfl
  have ex : usableDx r = (usableCenters w r).map (affineAt ax bx (kx + ax * w.off.1 + bx * w.off.2)) := by
    unfold usableDx usableCenters
    rw [List.map_map]
    apply List.map_congr_left
    intro v hv'
    obtain ⟨h1, h2⟩ := List.mem_filter.mp hv'
    rw [(hv v h1 ((selected_iff v).mp h2)).1]
    simp only [Option.getD_some, Function.comp_apply, affineAt]
    ring
  have ey : usableDy r = (usableCenters w r).map (affineAt ay bY (ky + ay * w.off.1 + bY * w.off.2)) := by
    unfold usableDy usableCenters
    rw [List.map_map]
    apply List.map_congr_left
    intro v hv'
    obtain ⟨h1, h2⟩ := List.mem_filter.mp hv'
    rw [(hv v h1 ((selected_iff v).mp h2)).2]
    simp only [Option.getD_some, Function.comp_apply, affineAt]
    ring
  obtain ⟨sx, wx, x1, x2⟩ := weights_affine E w.params g (usableCenters w r) ax bx (kx + ax * w.off.1 + bx * w.off.2) ht0 hthr hE
  obtain ⟨sy, wy, y1, y2⟩ := weights_affine E w.params g (usableCenters w r) ay bY (ky + ay * w.off.1 + bY * w.off.2) ht0 hthr hE
  have hest : estimate E w last r.vectors = .ok (.tps wx wy sx sy ((interpolate E g (usableCenters w r) wx w.points).zip
      (interpolate E g (usableCenters w r) wy w.points))) := by
    rw [he]
    unfold viaTps
    rw [hg, ex, ey]
    simp only [x1, y1]
  have hp := C82_positions E w last r
  rw [hpos] at hp
  have hstored : (applyInterp E w last r).2 = .ok () ∧ estimates last (applyInterp E w last r).1 =
      some ((interpolate E g (usableCenters w r) wx w.points).zip (interpolate E g (usableCenters w r) wy w.points)) := by
    cases last with
    | false =>
      unfold applyInterp
      simp only [storePositions_vectors, hest, Bool.false_eq_true, if_false]
      exact ⟨trivial, store_estimates _ _ _⟩
    | true =>
      obtain ⟨h1, h2, _⟩ := C82_smooth E w r hest (by simpa [estimatePositions] using hpos) (hlen rfl)
      exact ⟨h1, by simpa [estimates] using h2⟩
  refine ⟨hstored.1, _, _, hp, hstored.2, by simp [interpolate_length, Work.original], ?_⟩
  intro i p hi hc
  simp only [Option.getD_none] at hi
  unfold Work.original at hi
  rw [List.getElem?_map] at hi
  obtain ⟨q, hq, rfl⟩ := Option.map_eq_some_iff.mp hi
  have hcq : Covered g q := by simpa using hc
  refine List.getElem?_zip_eq_some.mpr ⟨?_, ?_⟩
  · rw [interpolate_affine E good _ _ _ _ x2 w.points hq hcq]
    simp only [affineAt, Option.some.injEq]
    ring
  · rw [interpolate_affine E good _ _ _ _ y2 w.points hq hcq]
    simp only [affineAt, Option.some.injEq]
    ring

/-! ### Cases -/

namespace ApplyInterp

/-- Splines that are exact for affine fields on the four corners of a square of side 10; SciPy replaced by constants. -/
def demoExt : Ext where
  solve c v := if c = [(0, 0), (10, 0), (0, 10), (10, 10)] then
      some (v, [(v.getD 1 0 - v.getD 0 0) / 10, (v.getD 2 0 - v.getD 0 0) / 10, v.getD 0 0]) else none
  eval _ ws p := affineAt (ws.getD 0 0) (ws.getD 1 0) (ws.getD 2 0) p
  linear _ _ := .ok fun p => if p.1 ≤ 10 then some 1 else none
  nearest _ v := .ok fun _ => some (v.getD 0 0)

/-- A grid of the image cropped at `(3, 5)`, with one column of positions outside the square. -/
def demoWork (u : UseTps) : Work := ⟨⟨u, 200, some 1⟩, ⟨[0, 11, 13], [2, 4], [(0, 2), (11, 2), (13, 2), (0, 4), (11, 4), (13, 4)]⟩, (3, 5)⟩

/-- Four vectors, with the displacements `x + 2 y` and `1`, and a fifth one that has a NaN. -/
def demoRes : Res where
  vectors := [⟨3, 5, some 13, some 1⟩, ⟨13, 5, some 23, some 1⟩, ⟨8, 9, none, some 7⟩, ⟨3, 15, some 33, some 1⟩, ⟨13, 15, some 43, some 1⟩,
    ⟨4, 4, none, none⟩]
  ixyApprox := none
  ixyFinal := none
  approx := none
  final := none
  tps := none
  smooth := none

end ApplyInterp

/-- **Positions without estimate.**  With the splines, positions of the grid can be left without estimate although usable vectors exist and
the call succeeds: here the ones of the last column.  The others are exact. -/
theorem C82_nan_fails : (applyInterp demoExt (demoWork (.bool true)) false demoRes).2 = .ok () ∧
    (applyInterp demoExt (demoWork (.bool true)) false demoRes).1.approx =
      some [(some 17, some 1), (some 28, some 1), (none, none), (some 21, some 1), (some 32, some 1), (none, none)] ∧
    (applyInterp demoExt (demoWork (.bool true)) false demoRes).1.ixyApprox =
      some [(3, 7), (14, 7), (16, 7), (3, 9), (14, 9), (16, 9)] := by decide +kernel

/-- The same vectors without the splines, or with `use_tps = 1`. -/
example : (applyInterp demoExt (demoWork (.int 1)) false demoRes).2 = .ok () ∧
    (applyInterp demoExt (demoWork (.int 1)) false demoRes).1.approx =
      some [(some 1, some 1), (some 13, some 1), (some 13, some 1), (some 1, some 1), (some 13, some 1), (some 13, some 1)] := by
  decide +kernel

/-- At the last pass: the smoothed arrays; the vectors with a NaN are replaced by the estimates at the positions of the grid. -/
example : (applyInterp demoExt (demoWork (.str "last")) true demoRes).1.smooth =
    some [((3, 5), some 13, some 1), ((13, 5), some 23, some 1), ((16, 7), none, none), ((3, 15), some 33, some 1),
      ((13, 15), some 43, some 1), ((16, 9), none, none)] := by decide +kernel

/-- The hypotheses of `C82_affine` are met by this case. -/
example : GridOk (demoWork (.bool true)) ∧ (∃ v ∈ demoRes.vectors, Usable v) ∧ wantsTps (demoWork (.bool true)).params true = true ∧
    demoRes.vectors.length = (demoWork (.bool true)).points.length ∧
    ∃ g, Tps.setup ((usableCenters (demoWork (.bool true)) demoRes).map Prod.fst) ((usableCenters (demoWork (.bool true)) demoRes).map Prod.snd) 200 20 = .ok g ∧
      (∀ d ∈ g.doms, AffineOn demoExt (domCenters (usableCenters (demoWork (.bool true)) demoRes) d)) ∧
      ∀ v ∈ demoRes.vectors, Usable v → v.dx = some (affineAt 1 2 0 (v.x, v.y)) ∧ v.dy = some (affineAt 0 0 1 (v.x, v.y)) := by
  refine ⟨by unfold GridOk; decide +kernel, ⟨⟨3, 5, some 13, some 1⟩, by decide +kernel, 13, 1, rfl, rfl⟩, by decide +kernel, by decide +kernel,
    ⟨1, 1, 0, 10, 0, 10, 2, 2⟩, ?_, ?_, ?_⟩
  · have hs : (Tps.setup ((usableCenters (demoWork (.bool true)) demoRes).map Prod.fst)
        ((usableCenters (demoWork (.bool true)) demoRes).map Prod.snd) 200 20).toOption.map
        (fun g => ([g.nbx, g.nby], [g.x0, g.x1, g.y0, g.y1, g.bufX, g.bufY])) = some ([1, 1], [0, 10, 0, 10, 2, 2]) := by decide +kernel
    cases h : Tps.setup ((usableCenters (demoWork (.bool true)) demoRes).map Prod.fst)
        ((usableCenters (demoWork (.bool true)) demoRes).map Prod.snd) 200 20 with
    | error e => rw [h] at hs; cases hs
    | ok g =>
      rw [h] at hs
      cases g
      simp only [Except.toOption, Option.map_some, Option.some.injEq, Prod.mk.injEq, List.cons.injEq, and_true] at hs
      obtain ⟨⟨a1, a2⟩, a3, a4, a5, a6, a7, a8⟩ := hs
      subst a1 a2 a3 a4 a5 a6 a7 a8
      rfl
  · intro d hd
    have hc : domCenters (usableCenters (demoWork (.bool true)) demoRes) d = [(0, 0), (10, 0), (0, 10), (10, 10)] := by
      have : ∀ d ∈ (⟨1, 1, 0, 10, 0, 10, 2, 2⟩ : Tps.Grid).doms,
          domCenters (usableCenters (demoWork (.bool true)) demoRes) d = [(0, 0), (10, 0), (0, 10), (10, 10)] := by
        intro d hd
        have he : (⟨1, 1, 0, 10, 0, 10, 2, 2⟩ : Tps.Grid).doms = [⟨-2, 12, -2, 12⟩] := by
          simp [Tps.Grid.doms, Tps.linspace]; norm_num
        rw [he] at hd
        obtain rfl := List.mem_singleton.mp hd
        decide +kernel
      exact this d hd
    rw [hc]
    intro a b k
    refine ⟨[a, b, k], ?_, fun p => by simp [demoExt]⟩
    simp only [demoExt, if_true, affineAt, List.map_cons, List.map_nil, Option.some.injEq, Prod.mk.injEq, List.cons.injEq, true_and, and_true]
    simp
  · intro v hv hu
    have : ∀ v ∈ demoRes.vectors, v.selected = true →
        v.dx = some (affineAt 1 2 0 (v.x, v.y)) ∧ v.dy = some (affineAt 0 0 1 (v.x, v.y)) := by decide +kernel
    exact this v hv ((selected_iff v).mpr hu)

end Verif
