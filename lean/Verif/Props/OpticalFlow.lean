import Verif.Model.OpticalFlow
import Mathlib.Tactic.Linarith
import Mathlib.Tactic.NormNum

/-!
# Optical flow (C57)
-/

namespace Verif
open Verif.OpticalFlow Verif.Mask

/-! ## Specification -/

/-- Displacement of a feature from the first image to the second one. -/
def featureDisplacement (cv : Cv) (p : P2) : P2 := ((cv.forward p).1.1 - p.1, (cv.forward p).1.2 - p.2)

/-- The feature tracked to the second image and back is at less than the threshold of its position, in the two
directions. -/
def ReturnsClose (cv : Cv) (thr : ℝ) (p : P2) : Prop :=
  |p.1 - (cv.backward (cv.forward p).1).1.1| < thr ∧ |p.2 - (cv.backward (cv.forward p).1).1.2| < thr

noncomputable def displacementNorm (cv : Cv) (p : P2) : ℝ :=
  Real.sqrt ((featureDisplacement cv p).1 ^ 2 + (featureDisplacement cv p).2 ^ 2)

/-- The criterion of the documentation: no displacement smaller than `displacement_min`, none larger than
`displacement_max`. -/
def Documented (cv : Cv) (thr : ℝ) (vmin vmax : Option ℝ) (p : P2) : Prop :=
  ReturnsClose cv thr p ∧ (∀ v ∈ vmin, v ≤ displacementNorm cv p) ∧ (∀ v ∈ vmax, displacementNorm cv p ≤ v)

/-- The criterion used by the code. -/
def Used (cv : Cv) (thr : ℝ) (vmin vmax : Option ℝ) (p : P2) : Prop :=
  ReturnsClose cv thr p ∧ (vmin ≠ none ∨ vmax ≠ none →
    (vmin.getD 0 < displacementNorm cv p ∧ ∀ v ∈ vmax, displacementNorm cv p < v))

/-! ## Proofs -/

theorem select_map (ps : List P2) (f : P2 → P2) (c : P2 → Bool) : select (ps.map f) (ps.map c) = (ps.filter c).map f := by
  induction ps with
  | nil => rfl
  | cons p ps ih =>
    cases h : c p with
    | true => simp [select, h, ih]
    | false => simp [select, h, ih]

open Classical in
/-- C57: the results are, in the order of the detection, the positions of exactly the features that satisfy the criterion
used by the code, each with its own displacement. -/
theorem C57_aligned (cv : Cv) (thr : ℝ) (vmin vmax : Option ℝ) (fs : List P2) (hf : cv.features = some fs) :
    opticalFlow cv thr vmin vmax = .ok ((fs.filter fun p => decide (Used cv thr vmin vmax p)),
      (fs.filter fun p => decide (Used cv thr vmin vmax p)).map (featureDisplacement cv)) := by
  have hz : List.zipWith sub2 (fs.map fun p => (cv.forward p).1) fs = fs.map (featureDisplacement cv) := by
    rw [List.zipWith_map_left, List.zipWith_self]
    rfl
  have hc : correctValues thr fs ((fs.map fun p => (cv.forward p).1).map fun p => (cv.backward p).1) =
      fs.map fun p => decide (ReturnsClose cv thr p) := by
    unfold correctValues
    rw [List.map_map, List.zipWith_map_right, List.zipWith_self]
    apply List.map_congr_left
    intro p _
    rw [decide_eq_decide]
    simp only [Function.comp, ReturnsClose, max_lt_iff]
  have hs : ∀ l : List P2, select l (l.map fun p => decide (ReturnsClose cv thr p)) = l.filter fun p => decide (ReturnsClose cv thr p) := by
    intro l
    have := select_map l id (fun p => decide (ReturnsClose cv thr p))
    simpa using this
  unfold opticalFlow
  simp only [hf, hz, hc, hs, select_map]
  generalize hg : fs.filter (fun p => decide (ReturnsClose cv thr p)) = g
  have key : ∀ c : P2 → Prop, (∀ p, ReturnsClose cv thr p → (c p ↔ Used cv thr vmin vmax p)) →
      g.filter (fun p => decide (c p)) = fs.filter fun p => decide (Used cv thr vmin vmax p) := by
    intro c h
    rw [← hg, List.filter_filter]
    apply List.filter_congr
    intro p _
    by_cases hr : ReturnsClose cv thr p
    · have := h p hr
      simp only [hr, decide_true, Bool.and_true, this]
    · have : ¬ Used cv thr vmin vmax p := fun hu => hr hu.1
      simp [hr, this]
  cases hn : normCond vmin vmax (g.map (featureDisplacement cv)) with
  | none =>
    have hv : vmin = none ∧ vmax = none := by
      cases vmin <;> cases vmax <;> simp_all [normCond]
    have := key (fun _ => True) (by intro p hr; simp [Used, hr, hv.1, hv.2])
    simp only [decide_true, List.filter_true] at this
    simp only [this]
  | some cond =>
    have hv : vmin ≠ none ∨ vmax ≠ none := by
      cases vmin <;> cases vmax <;> simp_all [normCond]
    have hcond : cond = g.map fun p => decide (vmin.getD 0 < displacementNorm cv p ∧ ∀ v ∈ vmax, displacementNorm cv p < v) := by
      have e : normCond vmin vmax (g.map (featureDisplacement cv)) = some (g.map fun p => decide (vmin.getD 0 < displacementNorm cv p ∧ ∀ v ∈ vmax, displacementNorm cv p < v)) := by
        clear key hn hc hs hg
        cases vmin <;> cases vmax <;> simp_all [normCond, displacementNorm, Bool.decide_and]
      rw [hn] at e
      exact Option.some.inj e
    have := key (fun p => vmin.getD 0 < displacementNorm cv p ∧ ∀ v ∈ vmax, displacementNorm cv p < v)
      (by intro p hr; simp only [Used, hr, hv, true_and, true_implies])
    have h1 := select_map g id (fun p => decide (vmin.getD 0 < displacementNorm cv p ∧ ∀ v ∈ vmax, displacementNorm cv p < v))
    have h2 := select_map g (featureDisplacement cv) (fun p => decide (vmin.getD 0 < displacementNorm cv p ∧ ∀ v ∈ vmax, displacementNorm cv p < v))
    simp only [List.map_id] at h1
    simp only [hcond, h1, h2]
    refine congrArg Except.ok (Prod.ext ?_ ?_)
    · convert this
    · convert congrArg (List.map (featureDisplacement cv)) this

/-- C57: when no displacement is exactly equal to a bound (0 included when there is no `displacement_min`), the features
kept are exactly the ones of the criterion of the documentation. -/
theorem C57_filters_partial (cv : Cv) (thr : ℝ) (vmin vmax : Option ℝ) (fs : List P2) (hf : cv.features = some fs)
    (h1 : ∀ p ∈ fs, displacementNorm cv p ≠ vmin.getD 0) (h2 : ∀ p ∈ fs, ∀ v ∈ vmax, displacementNorm cv p ≠ v) :
    ∃ ps ds, opticalFlow cv thr vmin vmax = .ok (ps, ds) ∧ ps.length = ds.length ∧ ps.Sublist fs ∧
      (∀ p, p ∈ ps ↔ p ∈ fs ∧ Documented cv thr vmin vmax p) ∧
      ∀ (i : ℕ) p, ps[i]? = some p → ds[i]? = some (featureDisplacement cv p) := by
  classical
  refine ⟨_, _, C57_aligned cv thr vmin vmax fs hf, by simp, List.filter_sublist, ?_, ?_⟩
  · intro p
    rw [List.mem_filter]
    simp only [decide_eq_true_eq]
    constructor
    · rintro ⟨hp, hr, hu⟩
      refine ⟨hp, hr, ?_, ?_⟩
      · intro v hv
        have := (hu (Or.inl (by rw [Option.mem_def.1 hv]; simp))).1
        rw [Option.mem_def.1 hv] at this
        exact this.le
      · intro v hv
        exact ((hu (Or.inr (by rw [Option.mem_def.1 hv]; simp))).2 v hv).le
    · rintro ⟨hp, hr, hmin, hmax⟩
      refine ⟨hp, hr, fun _ => ⟨?_, ?_⟩⟩
      · apply lt_of_le_of_ne _ (h1 p hp).symm
        cases vmin with
        | none => exact Real.sqrt_nonneg _
        | some v => exact hmin v rfl
      · intro v hv
        exact lt_of_le_of_ne (hmax v hv) (h2 p hp v hv)
  · intro i p hp
    rw [List.getElem?_map, hp]
    rfl

/-- C57, without bounds for the displacements: no condition. -/
theorem C57_filters_no_bounds (cv : Cv) (thr : ℝ) (fs : List P2) (hf : cv.features = some fs) :
    ∃ ps ds, opticalFlow cv thr none none = .ok (ps, ds) ∧ ps.length = ds.length ∧ ps.Sublist fs ∧
      (∀ p, p ∈ ps ↔ p ∈ fs ∧ ReturnsClose cv thr p) ∧
      ∀ (i : ℕ) p, ps[i]? = some p → ds[i]? = some (featureDisplacement cv p) := by
  classical
  refine ⟨_, _, C57_aligned cv thr none none fs hf, by simp, List.filter_sublist, ?_, ?_⟩
  · intro p
    rw [List.mem_filter]
    simp [Used]
  · intro i p hp
    rw [List.getElem?_map, hp]
    rfl

/-- C57 fails: with a `displacement_max` and no `displacement_min`, all the features that do not move are removed. -/
theorem C57_zero_displacement_fails (cv : Cv) (thr vmax : ℝ) (fs : List P2) (hf : cv.features = some fs) (p : P2)
    (hp : (cv.forward p).1 = p) : ∃ ps ds, opticalFlow cv thr none (some vmax) = .ok (ps, ds) ∧ p ∉ ps := by
  classical
  refine ⟨_, _, C57_aligned cv thr none (some vmax) fs hf, ?_⟩
  rw [List.mem_filter]
  simp only [decide_eq_true_eq]
  rintro ⟨_, _, hu⟩
  have := (hu (Or.inr (by simp))).1
  simp [displacementNorm, featureDisplacement, hp] at this

/-- … although it satisfies the criterion of the documentation. -/
example (vmax : ℝ) (h : 0 ≤ vmax) : Documented ⟨some [(3, 4)], fun p => (p, true), fun p => (p, true)⟩ 1 none (some vmax) (3, 4) := by
  refine ⟨by simp [ReturnsClose], by simp, ?_⟩
  intro v hv
  cases hv
  simpa [displacementNorm, featureDisplacement] using h

/-- C57 fails: a displacement equal to `displacement_min` is removed. -/
theorem C57_bound_fails (cv : Cv) (thr vmin : ℝ) (vmax : Option ℝ) (fs : List P2) (hf : cv.features = some fs) (p : P2)
    (hp : displacementNorm cv p = vmin) : ∃ ps ds, opticalFlow cv thr (some vmin) vmax = .ok (ps, ds) ∧ p ∉ ps := by
  classical
  refine ⟨_, _, C57_aligned cv thr (some vmin) vmax fs hf, ?_⟩
  rw [List.mem_filter]
  simp only [decide_eq_true_eq]
  rintro ⟨_, _, hu⟩
  have := (hu (Or.inl (by simp))).1
  rw [hp] at this
  exact lt_irrefl _ this

/-- C57 fails: a feature that OpenCV declares as lost (status 0) is kept, if the position given for it comes back. -/
theorem C57_lost_feature_fails (cv : Cv) (thr : ℝ) (fs : List P2) (hf : cv.features = some fs) (p : P2) (hp : p ∈ fs)
    (_hlost : (cv.forward p).2 = false) (hr : ReturnsClose cv thr p) :
    ∃ ps ds, opticalFlow cv thr none none = .ok (ps, ds) ∧ p ∈ ps := by
  obtain ⟨ps, ds, h, _, _, hm, _⟩ := C57_filters_no_bounds cv thr fs hf
  exact ⟨ps, ds, h, (hm p).2 ⟨hp, hr⟩⟩

/-- C57 fails: images without features (for example uniform images) give an error instead of an empty field. -/
theorem C57_no_feature_fails (cv : Cv) (thr : ℝ) (vmin vmax : Option ℝ) (strcrop : Option (List Char)) (hf : cv.features = none) :
    calcul cv thr vmin vmax strcrop = .error .cv2 := by
  simp only [calcul, opticalFlow, hf]

/-- C57: in the results, the positions are in the pixels of the whole image (the crop is a slice with starts `sy`, `sx`),
each with its displacement. -/
theorem C57_original_image (cv : Cv) (thr : ℝ) (vmin vmax : Option ℝ) (str : List Char) (sy sx : Slice)
    (hs : slicesOf str = .ok [sy, sx]) (ps ds : List P2) (h : opticalFlow cv thr vmin vmax = .ok (ps, ds)) :
    ∃ r, calcul cv thr vmin vmax (some str) = .ok r ∧ r.xs.length = ps.length ∧ r.ys.length = ps.length ∧
      r.deltaxs.length = ds.length ∧ r.deltays.length = ds.length ∧
      (∀ (i : ℕ) p, ps[i]? = some p → r.xs[i]? = some (p.1 + ((sx.start.getD 0 : ℤ) : ℝ)) ∧
        r.ys[i]? = some (p.2 + ((sy.start.getD 0 : ℤ) : ℝ))) ∧
      ∀ (i : ℕ) d, ds[i]? = some d → r.deltaxs[i]? = some d.1 ∧ r.deltays[i]? = some d.2 := by
  have hadd : ∀ (x : ℝ) (o : Option ℤ), addStart x o = x + ((o.getD 0 : ℤ) : ℝ) := by
    intro x o
    cases o <;> simp [addStart]
  refine ⟨_, by simp only [calcul, h, hs]; rfl, by simp, by simp, by simp, by simp, ?_, ?_⟩
  · intro i p hp
    simp only [List.getElem?_map, hp, Option.map_some, hadd, and_self]
  · intro i d hd
    simp only [List.getElem?_map, hd, Option.map_some, and_self]

/-- C57: without a crop, the positions are the ones of the features. -/
theorem C57_no_crop (cv : Cv) (thr : ℝ) (vmin vmax : Option ℝ) (ps ds : List P2)
    (h : opticalFlow cv thr vmin vmax = .ok (ps, ds)) :
    calcul cv thr vmin vmax none = .ok ⟨ps.map Prod.fst, ps.map Prod.snd, ds.map Prod.fst, ds.map Prod.snd⟩ := by
  simp only [calcul, h]

/-- Non-vacuity: two features, the second one does not come back, in a cropped image. -/
example : ∃ r, calcul ⟨some [(3, 4), (10, 10)], fun p => ((p.1 + 3, p.2 + 4), true),
    fun p => (if p.1 = 6 then (3, 4) else (0, 0), true)⟩ 1 (some 1) (some 7) (some "100:600,:".toList) = .ok r ∧
    r.xs[0]? = some (3 : ℝ) ∧ r.ys[0]? = some (104 : ℝ) ∧ r.deltaxs[0]? = some (3 : ℝ) ∧ r.deltays[0]? = some (4 : ℝ) ∧
    r.xs.length = 1 := by
  set cv : Cv := ⟨some [(3, 4), (10, 10)], fun p => ((p.1 + 3, p.2 + 4), true),
    fun p => (if p.1 = 6 then (3, 4) else (0, 0), true)⟩ with hcv
  classical
  have hn : ∀ p, displacementNorm cv p = 5 := by
    intro p
    simp only [displacementNorm, featureDisplacement, hcv]
    rw [show (p.1 + 3 - p.1) ^ 2 + (p.2 + 4 - p.2) ^ 2 = (5 : ℝ) ^ 2 by ring]
    exact Real.sqrt_sq (by norm_num)
  have hu1 : Used cv 1 (some 1) (some 7) (3, 4) := by
    refine ⟨by norm_num [ReturnsClose, hcv], fun _ => ?_⟩
    rw [hn]
    constructor
    · norm_num
    · intro v hv; cases hv; norm_num
  have hu2 : ¬ Used cv 1 (some 1) (some 7) (10, 10) := by
    intro h
    have := h.1.1
    norm_num [hcv] at this
  have h := C57_aligned cv 1 (some 1) (some 7) [(3, 4), (10, 10)] rfl
  simp only [List.filter_cons, hu1, hu2, decide_true, decide_false, if_true, List.filter_nil, Bool.false_eq_true, if_false,
    List.map_cons, List.map_nil] at h
  obtain ⟨r, h1, h2, _, _, _, h3, h4⟩ := C57_original_image cv 1 (some 1) (some 7) "100:600,:".toList
    ⟨some 100, some 600, none⟩ ⟨none, none, none⟩ (by decide) _ _ h
  refine ⟨r, h1, ?_, ?_, ?_, ?_, by simpa using h2⟩
  · rw [(h3 0 (3, 4) rfl).1]; norm_num
  · rw [(h3 0 (3, 4) rfl).2]; norm_num
  · rw [(h4 0 _ rfl).1]; norm_num [featureDisplacement, hcv]
  · rw [(h4 0 _ rfl).2]; norm_num [featureDisplacement, hcv]

end Verif
