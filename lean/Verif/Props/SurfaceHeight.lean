import Mathlib.Tactic.Linarith
import Mathlib.Tactic.Ring
import Mathlib.Tactic.FieldSimp
import Mathlib.Tactic.NormNum
import Mathlib.Algebra.Order.Field.Rat
import Mathlib.Algebra.Order.Floor.Ring
import Verif.Model.SurfaceHeight

/-!
# C85: from phases to heights; C86: borders of the structure
-/

namespace Verif
open Verif.PivGrid Verif.SurfaceFrame Verif.SurfaceHeight

/-! ## C85 -/

/-- The phase of the fringes of wave length `waveLen` at a point of height `h`, for a camera and a projector at the distance `distPC`
from each other and at the distance `dist` of the plane of reference. -/
def phaseOfHeight (pi dist distPC waveLen h : ℚ) : ℚ := 2 * pi * distPC / waveLen * h / (h - dist)

/-- C85: without correction, the height of each pixel is the height which gives its phase. -/
theorem C85_height (g : Griddata) (pi : ℚ) (p : SurfaceHeight.Params) (hp : p.correctPos = false) (hh : p.correctHeight = false)
    (h0 : pi ≠ 0) (h1 : p.distanceObject ≠ 0) (h2 : p.distanceLens ≠ 0) (h3 : p.waveProj ≠ 0) (ref : Img (Option ℚ)) (ny nx : Nat)
    (surface : Nat → Nat → ℚ) (hs : ∀ i j, surface i j ≠ p.distanceObject) :
    convphase g pi p ref ⟨ny, nx, fun i j => some (phaseOfHeight pi p.distanceObject p.distanceLens p.waveProj (surface i j))⟩ =
      .ok ⟨ny, nx, fun i j => some (surface i j)⟩ := by
  unfold convphase
  rw [hp, hh]
  simp only [Bool.false_eq_true, if_false]
  congr 2
  funext i j
  have hs' : surface i j - p.distanceObject ≠ 0 := sub_ne_zero.2 (hs i j)
  unfold heightOf phaseOfHeight
  simp only [quot, h3, if_false, times, minus]
  have hd : 2 * pi * p.distanceLens / p.waveProj * surface i j / (surface i j - p.distanceObject) -
      2 * pi / p.waveProj * p.distanceLens =
      2 * pi * p.distanceLens * p.distanceObject / (p.waveProj * (surface i j - p.distanceObject)) := by
    field_simp
    ring
  have hne : 2 * pi * p.distanceLens * p.distanceObject / (p.waveProj * (surface i j - p.distanceObject)) ≠ 0 :=
    div_ne_zero (mul_ne_zero (mul_ne_zero (mul_ne_zero two_ne_zero h0) h2) h1) (mul_ne_zero h3 hs')
  rw [hd, if_neg hne]
  congr 1
  field_simp

/-- C85: a null phase is a null height, and conversely. -/
theorem C85_zero (pi dist distPC waveLen phase : ℚ) (h0 : pi ≠ 0) (h1 : dist ≠ 0) (h2 : distPC ≠ 0) (h3 : waveLen ≠ 0) :
    heightOf pi dist distPC waveLen (some phase) = some 0 ↔ phase = 0 := by
  unfold heightOf
  simp only [quot, h3, if_false, times, minus]
  constructor
  · intro h
    split_ifs at h with hc
    · injection h with h
      rcases div_eq_zero_iff.1 h with h | h
      · exact (mul_eq_zero.1 h).resolve_right h1
      · exact absurd h hc
  · rintro rfl
    have : (0 : ℚ) - 2 * pi / waveLen * distPC ≠ 0 := by
      rw [zero_sub]
      exact neg_ne_zero.2 (mul_ne_zero (div_ne_zero (mul_ne_zero two_ne_zero h0) h3) h2)
    rw [if_neg this, zero_mul, zero_div]

/-- C85: different phases are different heights. -/
theorem C85_injective (pi dist distPC waveLen phase phase' h : ℚ) (h0 : pi ≠ 0) (h1 : dist ≠ 0) (h2 : distPC ≠ 0) (h3 : waveLen ≠ 0)
    (hh : heightOf pi dist distPC waveLen (some phase) = some h) (hh' : heightOf pi dist distPC waveLen (some phase') = some h) :
    phase = phase' := by
  have hc : 2 * pi / waveLen * distPC ≠ 0 := mul_ne_zero (div_ne_zero (mul_ne_zero two_ne_zero h0) h3) h2
  unfold heightOf at hh hh'
  simp only [quot, h3, if_false, times, minus] at hh hh'
  generalize 2 * pi / waveLen * distPC = c at hh hh' hc
  split_ifs at hh hh' with ha hb
  injection hh with hh
  injection hh' with hh'
  rw [div_eq_iff ha] at hh
  rw [div_eq_iff hb] at hh'
  by_cases hd : h = dist
  · subst hd
    have : h * c = 0 := by linarith
    exact absurd this (mul_ne_zero h1 hc)
  · have hd' : h - dist ≠ 0 := sub_ne_zero.2 hd
    have : (phase - phase') * (h - dist) = 0 := by linarith
    rcases mul_eq_zero.1 this with h | h
    · linarith
    · exact absurd h hd'

/-- The function `griddata` gives the values at the points (interpolation). -/
def Interpolates (g : Griddata) : Prop :=
  ∀ (pts : List (ℚ × ℚ)) (vals : List (Option ℚ)), vals.length = pts.length →
    g (pts.map fun q => (some q.1, some q.2)) vals pts = vals

theorem sh_pixels_length (ny nx : Nat) : (pixels ny nx).length = ny * nx := by
  unfold pixels
  generalize hl : List.range ny = l
  have : l.length = ny := by rw [← hl, List.length_range]
  rw [← this]
  clear hl this
  induction l with
  | nil => simp
  | cons a l ih => simp only [List.flatMap_cons, List.length_append, ih, List.length_map, List.length_range, List.length_cons]; ring

theorem sh_pixels_get (ny nx i j : Nat) (hi : i < ny) (hj : j < nx) : (pixels ny nx)[i * nx + j]? = some (i, j) := by
  unfold pixels
  induction ny with
  | zero => omega
  | succ n ih =>
    rw [List.range_succ, List.flatMap_append]
    have hlen : ((List.range n).flatMap fun i => (List.range nx).map fun j => (i, j)).length = n * nx := sh_pixels_length n nx
    by_cases hin : i < n
    · rw [List.getElem?_append_left]
      · exact ih hin
      · rw [hlen]
        have : (i + 1) * nx ≤ n * nx := Nat.mul_le_mul_right nx hin
        rw [Nat.add_mul] at this
        omega
    · have : i = n := by omega
      subst this
      rw [List.getElem?_append_right (by rw [hlen]; omega), hlen]
      simp [hj]

theorem sh_zeroEdges {d : Img (Option ℚ)} (hy : 2 ≤ d.ny) (hx : 2 ≤ d.nx) :
    ∃ d', zeroEdges d = .ok d' ∧ ∀ i < d.ny, ∀ j, d'.get i j = some 0 := by
  unfold zeroEdges
  rw [if_neg (by omega), if_neg (by omega)]
  refine ⟨_, rfl, ?_⟩
  intro i hi j
  simp only
  by_cases h : i < d.ny - 1
  · rw [if_pos h]
  · rw [if_neg h, if_pos (show i = d.ny - 1 by omega)]
    split_ifs <;> rfl

/-- C85 (the code violates the property): `correct_pos`, "necessary for large heights", has no effect: the displacements are set to zero
at all the pixels, not only on the edges, so that the heights are interpolated at the points where they are known. -/
theorem C85_correct_pos_fails (g : Griddata) (hg : Interpolates g) (p : SurfaceHeight.Params) (height : Img (Option ℚ))
    (hy : 2 ≤ height.ny) (hx : 2 ≤ height.nx) :
    ∃ h, correctPositions g p height = .ok h ∧ h.ny = height.ny ∧ h.nx = height.nx ∧
      ∀ i < height.ny, ∀ j < height.nx, h.get i j = height.get i j := by
  unfold correctPositions
  simp only
  obtain ⟨dX, hdX, hX⟩ := sh_zeroEdges (d := ⟨height.ny, height.nx, fun i j =>
    times (quot (some (-coord p height.nx j)) (some p.distanceObject)) (height.get i j)⟩) hy hx
  obtain ⟨dY, hdY, hY⟩ := sh_zeroEdges (d := ⟨height.ny, height.nx, fun i j =>
    times (quot (some (-coord p height.ny i)) (some p.distanceObject)) (height.get i j)⟩) hy hx
  rw [hdX]
  simp only
  rw [hdY]
  simp only
  refine ⟨_, rfl, rfl, rfl, ?_⟩
  have hpts : ((pixels height.ny height.nx).map fun ij => (plus (some (coord p height.nx ij.2)) (dX.get ij.1 ij.2),
      plus (some (coord p height.ny ij.1)) (dY.get ij.1 ij.2))) =
      ((pixels height.ny height.nx).map fun ij => (coord p height.nx ij.2, coord p height.ny ij.1)).map
        fun q => (some q.1, some q.2) := by
    rw [List.map_map]
    apply List.map_congr_left
    rintro ⟨i, j⟩ hij
    unfold pixels at hij
    obtain ⟨i', hi', hj'⟩ := List.mem_flatMap.1 hij
    obtain ⟨j', hj', heq⟩ := List.mem_map.1 hj'
    rw [List.mem_range] at hi' hj'
    cases heq
    simp only [Function.comp]
    rw [hX i hi' j, hY i hi' j]
    simp [plus]
  intro i hi j hj
  simp only
  rw [hpts, hg _ _ (by simp)]
  rw [List.getElem?_map, sh_pixels_get _ _ _ _ hi hj]
  rfl

/-- C85: with `correct_height`, a frame which has the phase of the reference has everywhere the height `offset` of the reference
surface. -/
theorem C85_offset (g : Griddata) (pi : ℚ) (p : SurfaceHeight.Params) (hh : p.correctHeight = true) (phase ref h : Img (Option ℚ))
    (hr : processRef g pi p phase = .ok ref) (hc : calculHeight g pi p ref phase = .ok h) :
    h.ny = ref.ny ∧ h.nx = ref.nx ∧ ∀ i j v, ref.get i j = some v → h.get i j = some p.offset := by
  unfold processRef calculHeight convphase at hr
  unfold calculHeight convphase at hc
  cases hs : smoothCheck pi phase with
  | error e => rw [hs] at hc; cases hc
  | ok u =>
    rw [hs] at hr hc
    simp only [hh, if_true] at hr hc
    split at hc
    · cases hc
    · rename_i height heq
      rw [heq] at hr
      unfold subtractRef at hr hc
      simp only at hr hc
      by_cases hsh : phase.ny = height.ny ∧ phase.nx = height.nx
      · rw [if_pos hsh] at hr
        simp only [Except.ok.injEq] at hr
        subst hr
        simp only [and_self, if_true, Except.ok.injEq] at hc
        subst hc
        refine ⟨rfl, rfl, ?_⟩
        intro i j v hv
        simp only at hv ⊢
        cases hq : height.get i j with
        | none => rw [hq] at hv; cases hv
        | some q =>
          simp only [minus, Option.some.injEq]
          ring
      · rw [if_neg hsh] at hr
        cases hr

/-- A function which interpolates (at the points given). -/
example : Interpolates fun _ vals _ => vals := fun _ _ _ => rfl

/-- Attributes of an object (with the value 3 for `np.pi` in the examples). -/
def exampleHeight (pos height : Bool) : SurfaceHeight.Params :=
  { pixSize := 1 / 1000, distanceObject := 2, distanceLens := 1 / 2, waveProj := 1 / 10, redFactor := 1, correctPos := pos,
    correctHeight := height, offset := 1 / 100 }

/-- A surface with steps of 1 cm. -/
example (g : Griddata) (ref : Img (Option ℚ)) :
    convphase g 3 (exampleHeight false false) ref
      ⟨2, 2, fun i _ => some (phaseOfHeight 3 2 (1 / 2) (1 / 10) (if i = 0 then 0 else 1 / 100))⟩ =
      .ok ⟨2, 2, fun i _ => some (if i = 0 then 0 else 1 / 100)⟩ :=
  C85_height g 3 (exampleHeight false false) rfl rfl (by norm_num) (by norm_num [exampleHeight]) (by norm_num [exampleHeight])
    (by norm_num [exampleHeight]) ref 2 2 (fun i _ => if i = 0 then 0 else 1 / 100)
    (by intro i j; dsimp only [exampleHeight]; split_ifs <;> norm_num)

example : (processRef (fun _ v _ => v) 3 (exampleHeight false true) ⟨1, 2, fun _ j => some j⟩).map (fun r => rows r) =
    .ok [[some (-1 / 100), some (-2 / 29 - 1 / 100)]] ∧
    (calculHeight (fun _ v _ => v) 3 (exampleHeight false true) ⟨1, 2, fun _ j => if j = 0 then some (-1 / 100) else
      some (-2 / 29 - 1 / 100)⟩ ⟨1, 2, fun _ j => some j⟩).map (fun r => rows r) = .ok [[some (1 / 100), some (1 / 100)]] := by
  constructor <;> decide +kernel

/-! ### The detection of the jumps of phase -/

/-- C85: the jumps of phase which are detected are not corrected: the heights are always computed from the phase which was given. -/
theorem C85_phase (g : Griddata) (pi : ℚ) (p : SurfaceHeight.Params) (ref phase h : Img (Option ℚ))
    (hc : calculHeight g pi p ref phase = .ok h) : convphase g pi p ref phase = .ok h := by
  unfold calculHeight at hc
  split at hc
  · cases hc
  · exact hc

theorem sh_addLists_zero (a : List ℚ) (s : List ℚ) (h : s.length = a.length) (hs : ∀ x ∈ s, x = 0) :
    addLists (a.map some) s = .ok (a.map some) := by
  unfold addLists
  rw [List.length_map, if_pos h]
  congr 1
  induction a generalizing s with
  | nil => cases s <;> simp
  | cons x a ih =>
    cases s with
    | nil => simp at h
    | cons y s =>
      rw [List.map_cons, List.zipWith_cons_cons, ih s (by simpa using h) fun z hz => hs z (List.mem_cons_of_mem _ hz),
        hs y List.mem_cons_self]
      simp [plus]

theorem sh_smootherLoop_zero (val : Int → ℚ) (h0 : val 0 = 0) : ∀ (js : List Int), (∀ j ∈ js, j = 0) →
    (smootherLoop val 0 js).length = js.length ∧ ∀ x ∈ smootherLoop val 0 js, x = 0
  | [], _ => by simp [smootherLoop]
  | j :: js, h => by
    have hj := h j List.mem_cons_self
    subst hj
    obtain ⟨h1, h2⟩ := sh_smootherLoop_zero val h0 js fun x hx => h x (List.mem_cons_of_mem _ hx)
    simp only [smootherLoop, lt_irrefl, if_false]
    refine ⟨by simp [h1], ?_⟩
    intro x hx
    rcases List.mem_cons.1 hx with rfl | hx
    · exact h0
    · exact h2 x hx

/-- Successive numbers differ by less than 1. -/
def SmoothList : List ℚ → Prop
  | a :: b :: l => |b - a| < 1 ∧ SmoothList (b :: l)
  | _ => True

theorem sh_jumps (pi : ℚ) (hpi : 3 < pi) : ∀ (a : List ℚ), SmoothList a → (∀ j ∈ jumps pi (a.map some), j = 0) ∧
    (jumps pi (a.map some)).length + 1 = max a.length 1
  | [], _ => by simp [jumps, diffs]
  | [x], _ => by simp [jumps, diffs]
  | x :: y :: l, h => by
    obtain ⟨h1, h2⟩ := h
    obtain ⟨i1, i2⟩ := sh_jumps pi hpi (y :: l) h2
    rw [abs_lt] at h1
    have hlt : y - x < 95 / 100 * pi := by linarith
    have hz : signTrunc (y - x) = 0 := by unfold signTrunc; rw [if_neg (by linarith), if_neg (by linarith)]
    have he : jumps pi ((x :: y :: l).map some) = 0 :: jumps pi ((y :: l).map some) := by
      simp only [jumps, List.map_cons, diffs, minus, List.filterMap_cons, hlt, or_true, if_true, hz]
    rw [he]
    constructor
    · intro j hj
      rcases List.mem_cons.1 hj with rfl | hj
      · rfl
      · exact i1 j hj
    · simp only [List.length_cons] at i2 ⊢
      omega

theorem sh_smoothAll (pi : ℚ) (hpi : 3 < pi) (val : Int → ℚ) (h0 : val 0 = 0) : ∀ (ls : List (List ℚ)),
    (∀ l ∈ ls, SmoothList l ∧ l ≠ []) → smoothAll pi val (ls.map (List.map some)) = .ok (ls.map (List.map some))
  | [], _ => rfl
  | a :: ls, h => by
    obtain ⟨ha, hne⟩ := h a List.mem_cons_self
    have ih := sh_smoothAll pi hpi val h0 ls fun l hl => h l (List.mem_cons_of_mem _ hl)
    obtain ⟨j1, j2⟩ := sh_jumps pi hpi a ha
    obtain ⟨s1, s2⟩ := sh_smootherLoop_zero val h0 _ j1
    rw [List.map_cons]
    unfold smoothAll
    rw [sh_addLists_zero a (smoother val (jumps pi (a.map some)))]
    · simp only [ih]
    · have : 0 < a.length := List.length_pos_iff.2 hne
      simp only [smoother, List.length_cons, s1]
      omega
    · intro x hx
      rcases List.mem_cons.1 hx with rfl | hx
      · rfl
      · exact s2 x hx

/-- C85: the heights are computed, without exception, when the phases of neighbouring pixels differ by less than 1. -/
theorem C85_no_error (g : Griddata) (pi : ℚ) (hpi : 3 < pi) (p : SurfaceHeight.Params) (ref : Img (Option ℚ)) (ny nx : Nat)
    (hy : 0 < ny) (hx : 0 < nx) (phase : Nat → Nat → ℚ)
    (h1 : ∀ i < ny, SmoothList ((List.range nx).map fun j => phase i j))
    (h2 : ∀ j < nx, SmoothList ((List.range ny).map fun i => phase i j)) :
    calculHeight g pi p ref ⟨ny, nx, fun i j => some (phase i j)⟩ = convphase g pi p ref ⟨ny, nx, fun i j => some (phase i j)⟩ := by
  have hrows : rows ⟨ny, nx, fun i j => some (phase i j)⟩ =
      ((List.range ny).map fun i => (List.range nx).map fun j => phase i j).map (List.map some) := by
    simp [rows, row, Function.comp_def]
  have hne : ∀ n : Nat, 0 < n → ∀ f : Nat → ℚ, (List.range n).map f ≠ [] := by
    intro n hn f h
    have := congrArg List.length h
    simp only [List.length_map, List.length_range, List.length_nil] at this
    omega
  unfold calculHeight smoothCheck
  rw [hrows, sh_smoothAll pi hpi (valLine pi) (by simp [valLine])]
  · simp only
    have ht : transpose nx (((List.range ny).map fun i => (List.range nx).map fun j => phase i j).map (List.map some)) =
        ((List.range nx).map fun j => (List.range ny).map fun i => phase i j).map (List.map some) := by
      unfold transpose
      conv_rhs => rw [List.map_map]
      apply List.map_congr_left
      intro j hj
      rw [List.mem_range] at hj
      simp only [List.map_map, Function.comp]
      apply List.map_congr_left
      intro i _
      simp [List.getD_eq_getElem?_getD, hj]
    rw [ht, sh_smoothAll pi hpi (valColumn pi) (by simp [valColumn])]
    intro l hl
    obtain ⟨j, hj, rfl⟩ := List.mem_map.1 hl
    exact ⟨h2 j (List.mem_range.1 hj), hne ny hy _⟩
  · intro l hl
    obtain ⟨i, hi, rfl⟩ := List.mem_map.1 hl
    exact ⟨h1 i (List.mem_range.1 hi), hne nx hx _⟩

/-- A constant phase. -/
example (g : Griddata) (p : SurfaceHeight.Params) (ref : Img (Option ℚ)) :
    calculHeight g (314 / 100) p ref ⟨3, 3, fun i j => some (((i : ℚ) + j) / 2)⟩ =
      convphase g (314 / 100) p ref ⟨3, 3, fun i j => some (((i : ℚ) + j) / 2)⟩ :=
  C85_no_error g _ (by norm_num) p ref 3 3 (by decide) (by decide) (fun i j => ((i : ℚ) + j) / 2)
    (by intro i _; norm_num [SmoothList, List.range_succ, abs_lt]; constructor <;> constructor <;> linarith)
    (by intro i _; norm_num [SmoothList, List.range_succ, abs_lt]; constructor <;> constructor <;> linarith)

/-- C85 (the code violates the property): the detection of the jumps, which has no other effect, raises an exception when a difference
of neighbouring phases is `0.95 * np.pi` or is not a number (and not all of the line). -/
theorem C85_error_fails (g : Griddata) (p : SurfaceHeight.Params) (ref : Img (Option ℚ)) (pi : ℚ) (hpi : 3 < pi) :
    (∃ f : Nat → ℚ, calculHeight g pi p ref ⟨1, 3, fun _ j => some (f j)⟩ = .error .valueError) ∧
    calculHeight g pi p ref ⟨1, 3, fun _ j => if j = 0 then none else some 0⟩ = .error .valueError := by
  have h0 : (0 : ℚ) < 95 / 100 * pi := by linarith
  have hs : signTrunc 0 = 0 := by norm_num [signTrunc]
  constructor
  · refine ⟨fun j => if j = 2 then 95 / 100 * pi else 0, ?_⟩
    have hj : jumps pi [some 0, some 0, some (95 / 100 * pi)] = [0] := by
      simp only [jumps, diffs, minus, sub_self, sub_zero, List.filterMap_cons, List.filterMap_nil, h0, or_true, if_true, lt_irrefl,
        or_self, if_false, hs]
    have ha : addLists [some 0, some 0, some (95 / 100 * pi)] (smoother (valLine pi) [0]) = .error .valueError := by
      simp [smoother, smootherLoop, addLists]
    simp [calculHeight, smoothCheck, rows, row, List.range_succ, smoothAll, hj, ha]
  · have hj : jumps pi [none, some 0, some 0] = [0] := by
      simp only [jumps, diffs, minus, sub_self, sub_zero, List.filterMap_cons, List.filterMap_nil, h0, or_true, if_true, lt_irrefl,
        or_self, if_false, hs]
    have ha : addLists [none, some 0, some 0] (smoother (valLine pi) [0]) = .error .valueError := by
      simp [smoother, smootherLoop, addLists]
    simp [calculHeight, smoothCheck, rows, row, List.range_succ, smoothAll, hj, ha]

theorem sh_diffs_none (l : List (Option ℚ)) (h : ∀ x ∈ l, x = none) : ∀ d ∈ diffs l, d = none := by
  induction l with
  | nil => simp [diffs]
  | cons a l ih =>
    cases l with
    | nil => simp [diffs]
    | cons b l =>
      intro d hd
      rw [diffs, List.mem_cons] at hd
      rcases hd with rfl | hd
      · rw [h a (by simp), h b (by simp)]; rfl
      · exact ih (fun x hx => h x (by simp [hx])) d hd

theorem sh_jumps_none (pi : ℚ) (l : List (Option ℚ)) (h : ∀ x ∈ l, x = none) : jumps pi l = [] := by
  unfold jumps
  rw [List.filterMap_eq_nil_iff]
  intro d hd
  rw [sh_diffs_none l h d hd]

theorem sh_addLists_none (l : List (Option ℚ)) (h : ∀ x ∈ l, x = none) : addLists l [0] = .ok l := by
  have hm : ∀ l : List (Option ℚ), (∀ x ∈ l, x = none) → (l.map fun x => plus x (some 0)) = l := by
    intro l h
    conv_rhs => rw [← List.map_id l]
    apply List.map_congr_left
    intro x hx
    rw [h x hx]; rfl
  unfold addLists
  split
  · rename_i hl
    cases l with
    | nil => simp at hl
    | cons a l =>
      cases l with
      | nil => rw [h a (by simp)]; rfl
      | cons b l => simp at hl
  · simp only
    rw [hm l h]

theorem sh_smoothAll_none (pi : ℚ) (val : Int → ℚ) : ∀ (ls : List (List (Option ℚ))), (∀ l ∈ ls, ∀ x ∈ l, x = none) →
    smoothAll pi val ls = .ok ls
  | [], _ => rfl
  | l :: ls, h => by
    unfold smoothAll
    rw [sh_jumps_none pi l (h l (by simp)), smoother, smootherLoop, sh_addLists_none l (h l (by simp)),
      sh_smoothAll_none pi val ls (fun l' hl => h l' (by simp [hl]))]

/-- C85: a frame without any number is not an error: its heights are computed from its phases as for the other frames. -/
theorem C85_no_number (g : Griddata) (pi : ℚ) (p : SurfaceHeight.Params) (ref : Img (Option ℚ)) (ny nx : Nat) :
    calculHeight g pi p ref ⟨ny, nx, fun _ _ => none⟩ = convphase g pi p ref ⟨ny, nx, fun _ _ => none⟩ := by
  unfold calculHeight smoothCheck
  rw [sh_smoothAll_none]
  · simp only
    rw [sh_smoothAll_none]
    intro l hl x hx
    obtain ⟨j, -, rfl⟩ := List.mem_map.1 hl
    obtain ⟨r, hr, rfl⟩ := List.mem_map.1 hx
    obtain ⟨i, -, rfl⟩ := List.mem_map.1 hr
    simp only [row, List.getD_eq_getElem?_getD, List.getElem?_map]
    cases (List.range nx)[j]? <;> rfl
  · intro l hl x hx
    obtain ⟨i, -, rfl⟩ := List.mem_map.1 hl
    obtain ⟨j, -, rfl⟩ := List.mem_map.1 hx
    rfl

/-! ## C86 -/

theorem sh_sorted_median {s : List Nat} (hs : s.Pairwise (· ≤ ·)) {v k : Nat} (hk : k < s.length) (h1 : s.length < 2 * s.count v)
    (h2 : s.length ≤ 2 * (k + 1)) (h3 : 2 * k ≤ s.length) : s[k]? = some v := by
  have hmono : ∀ i j (hi : i < s.length) (hj : j < s.length), i ≤ j → s[i] ≤ s[j] := by
    intro i j hi hj hij
    rcases Nat.lt_or_ge i j with h | h
    · exact List.pairwise_iff_getElem.1 hs i j hi hj h
    · have : i = j := by omega
      subst this; exact le_rfl
  rw [List.getElem?_eq_getElem hk]
  congr 1
  have hsplit : s.count v = (s.take (k + 1)).count v + (s.drop (k + 1)).count v := by
    rw [← List.count_append, List.take_append_drop]
  have hsplit' : s.count v = (s.take k).count v + (s.drop k).count v := by
    rw [← List.count_append, List.take_append_drop]
  rcases Nat.lt_trichotomy s[k] v with h | h | h
  · have : (s.take (k + 1)).count v = 0 := by
      rw [List.count_eq_zero]
      intro hm
      obtain ⟨i, hi, heq⟩ := List.getElem_of_mem hm
      rw [List.length_take] at hi
      rw [List.getElem_take] at heq
      have := hmono i k (by omega) hk (by omega)
      omega
    have h4 := List.count_le_length (a := v) (l := s.drop (k + 1))
    rw [List.length_drop] at h4
    omega
  · exact h
  · have : (s.drop k).count v = 0 := by
      rw [List.count_eq_zero]
      intro hm
      obtain ⟨i, hi, heq⟩ := List.getElem_of_mem hm
      rw [List.length_drop] at hi
      rw [List.getElem_drop] at heq
      have := hmono k (k + i) hk (by omega) (by omega)
      omega
    have h4 := List.count_le_length (a := v) (l := s.take k)
    rw [List.length_take] at h4
    omega

/-- The median of numbers of which more than half are equal to `v`. -/
theorem sh_median {l : List Nat} {v : Nat} (h : l.length < 2 * l.count v) : median l = some (v : ℚ) := by
  have hperm := List.perm_insertionSort (· ≤ ·) l
  have hsort : (l.insertionSort (· ≤ ·)).Pairwise (· ≤ ·) := List.pairwise_insertionSort (· ≤ ·) l
  have hlen : (l.insertionSort (· ≤ ·)).length = l.length := hperm.length_eq
  have hcount : (l.insertionSort (· ≤ ·)).count v = l.count v := hperm.count_eq v
  have hle := List.count_le_length (a := v) (l := l)
  unfold median
  simp only
  rw [sh_sorted_median hsort (v := v) (k := (l.length - 1) / 2) (by omega) (by omega) (by omega) (by omega),
    sh_sorted_median hsort (v := v) (k := l.length / 2) (by omega) (by omega) (by omega) (by omega)]
  simp

/-- The first pixel of the line `i` above the threshold is in the column `l`. -/
def FirstAbove (thres : ℚ) (im : Img ℚ) (i l : Nat) : Prop :=
  l < im.nx ∧ thres < im.get i l ∧ ∀ j < l, im.get i j ≤ thres

/-- The last pixel of the line `i` above the threshold is in the column `r - 1`. -/
def LastAbove (thres : ℚ) (im : Img ℚ) (i r : Nat) : Prop :=
  0 < r ∧ r ≤ im.nx ∧ thres < im.get i (r - 1) ∧ ∀ j < im.nx, r ≤ j → im.get i j ≤ thres

/-- An image of finite numbers. -/
def finiteImg (im : Img ℚ) : Img (Option ℚ) := ⟨im.ny, im.nx, fun i j => some (im.get i j)⟩

theorem sh_argmax {l : List Bool} {k : Nat} (h1 : l[k]? = some true) (h2 : ∀ j < k, l[j]? = some false) : argmaxFirst l = k := by
  have hk : k < l.length := by
    by_contra h
    rw [List.getElem?_eq_none (by omega)] at h1
    cases h1
  unfold argmaxFirst
  rw [if_pos (List.mem_of_getElem? h1), List.findIdx_eq hk]
  rw [List.getElem?_eq_getElem hk] at h1
  injection h1 with h1
  refine ⟨h1, ?_⟩
  intro j hj
  have := h2 j hj
  rw [List.getElem?_eq_getElem (by omega)] at this
  injection this

theorem sh_above_get (thres : ℚ) (im : Img ℚ) (i j : Nat) (hj : j < im.nx) :
    (aboveRow thres (finiteImg im) i)[j]? = some (decide (thres < im.get i j)) := by
  simp [aboveRow, row, finiteImg, hj]

theorem sh_above_length (thres : ℚ) (im : Img ℚ) (i : Nat) : (aboveRow thres (finiteImg im) i).length = im.nx := by
  simp [aboveRow, row, finiteImg]

theorem sh_count_le {α : Type} (l : List α) (P : α → Bool) (f : α → Nat) (v : Nat) (h : ∀ x ∈ l, P x = true → f x = v) :
    l.countP P ≤ (l.map f).count v := by
  rw [List.count_eq_countP, List.countP_map]
  apply List.countP_mono_left
  intro x hx hp
  simp [h x hx hp]

open Classical in
/-- C86: the borders found are those of the structure (the pixels above the threshold) when more than half of the lines have the same
left border and more than half of the lines have the same right border. -/
theorem C86_borders (thres : ℚ) (im : Img ℚ) (l r : Nat)
    (hl : im.ny < 2 * (List.range im.ny).countP fun i => decide (FirstAbove thres im i l))
    (hr : im.ny < 2 * (List.range im.ny).countP fun i => decide (LastAbove thres im i r)) :
    getBorders thres (finiteImg im) = .ok ((l : Int), (r : Int)) := by
  unfold getBorders
  simp only
  have ha : median ((List.range (finiteImg im).ny).map fun i => argmaxFirst (aboveRow thres (finiteImg im) i)) = some (l : ℚ) := by
    apply sh_median
    refine lt_of_lt_of_le (show _ < 2 * (List.range im.ny).countP fun i => decide (FirstAbove thres im i l) from ?_)
      (Nat.mul_le_mul_left 2 (sh_count_le _ _ _ _ ?_))
    · simpa [finiteImg] using hl
    · intro i _ hi
      obtain ⟨h1, h2, h3⟩ := of_decide_eq_true hi
      apply sh_argmax
      · rw [sh_above_get _ _ _ _ h1]; simp [h2]
      · intro j hj
        rw [sh_above_get _ _ _ _ (by omega)]
        have := h3 j hj
        simp [this]
  have hex : ∃ i, LastAbove thres im i r := by
    by_contra hno
    push Not at hno
    have : ((List.range im.ny).countP fun i => decide (LastAbove thres im i r)) = 0 := by
      rw [List.countP_eq_zero]; intro i _; simp [hno i]
    omega
  obtain ⟨i0, hr1, hr2, _⟩ := hex
  have hb : median ((List.range (finiteImg im).ny).map fun i => argmaxFirst (aboveRow thres (finiteImg im) i).reverse) =
      some ((im.nx - r : Nat) : ℚ) := by
    apply sh_median
    refine lt_of_lt_of_le (show _ < 2 * (List.range im.ny).countP fun i => decide (LastAbove thres im i r) from ?_)
      (Nat.mul_le_mul_left 2 (sh_count_le _ _ _ _ ?_))
    · simpa [finiteImg] using hr
    · intro i _ hi
      obtain ⟨h1, h2, h3, h4⟩ := of_decide_eq_true hi
      apply sh_argmax
      · rw [List.getElem?_reverse (by rw [sh_above_length]; omega), sh_above_length,
          show im.nx - 1 - (im.nx - r) = r - 1 by omega, sh_above_get _ _ _ _ (by omega)]
        simp [h3]
      · intro j hj
        rw [List.getElem?_reverse (by rw [sh_above_length]; omega), sh_above_length, sh_above_get _ _ _ _ (by omega)]
        have := h4 (im.nx - 1 - j) (by omega) (by omega)
        simp [this]
  rw [ha, hb]
  simp only [finiteImg]
  congr 2
  rw [Nat.cast_sub hr2, show (im.nx : ℚ) - ((im.nx : ℚ) - r) = r by ring, Int.floor_natCast]

instance (thres : ℚ) (im : Img ℚ) (i l : Nat) : Decidable (FirstAbove thres im i l) := by unfold FirstAbove; infer_instance

instance (thres : ℚ) (im : Img ℚ) (i r : Nat) : Decidable (LastAbove thres im i r) := by unfold LastAbove; infer_instance

/-- The hypotheses: the structure is in the columns 1 to 2 of two lines of three. -/
example :
    let im : Img ℚ := ⟨3, 4, fun i j => if i < 2 ∧ 1 ≤ j ∧ j < 3 then 400 else 0⟩
    (im.ny < 2 * (List.range im.ny).countP fun i => decide (FirstAbove 300 im i 1)) ∧
      im.ny < 2 * (List.range im.ny).countP fun i => decide (LastAbove 300 im i 3) := by decide +kernel

/-- A structure in the columns 1 to 2 of two lines of three. -/
example : getBorders 300 (finiteImg ⟨3, 4, fun i j => if i < 2 ∧ 1 ≤ j ∧ j < 3 then 400 else 0⟩) = .ok (1, 3) := by decide +kernel

/-- C86 (the code violates the property): the threshold is 300 whatever the image: for an image of 8-bit numbers the structure is never
found, the borders are those of the image. -/
theorem C86_threshold_fails (im : Img ℚ) (hy : 0 < im.ny) (h : ∀ i j, im.get i j ≤ 255) :
    getBorders 300 (finiteImg im) = .ok (0, (im.nx : Int)) := by
  have hrow : ∀ i, ∀ b ∈ aboveRow 300 (finiteImg im) i, b = false := by
    intro i b hb
    obtain ⟨v, hv, rfl⟩ := List.mem_map.1 hb
    obtain ⟨j, _, rfl⟩ := List.mem_map.1 hv
    have := h i j
    simp only [finiteImg, decide_eq_false_iff_not]
    linarith
  have ha : ∀ i, argmaxFirst (aboveRow 300 (finiteImg im) i) = 0 := by
    intro i
    unfold argmaxFirst
    rw [if_neg]
    intro ht
    exact absurd (hrow i true ht) (by simp)
  have hb : ∀ i, argmaxFirst (aboveRow 300 (finiteImg im) i).reverse = 0 := by
    intro i
    unfold argmaxFirst
    rw [if_neg]
    intro ht
    exact absurd (hrow i true (List.mem_reverse.1 ht)) (by simp)
  unfold getBorders
  simp only [ha, hb]
  have hm : median ((List.range (finiteImg im).ny).map fun _ => 0) = some ((0 : Nat) : ℚ) := by
    apply sh_median
    have : (List.range (finiteImg im).ny).map (fun _ => 0) = List.replicate im.ny 0 := by
      rw [List.map_const', List.length_range]; rfl
    rw [this, List.length_replicate, List.count_replicate_self]
    omega
  rw [hm]
  simp [finiteImg]

/-- C86: the columns of the height which are kept when the structure is inside the window: those between the borders of the structure,
without `borders` columns on each side. -/
theorem C86_columns (xmin xmax borders : Nat) (array : Img (Option ℚ)) (hw : array.nx = xmax - xmin) (l r : Nat) (hl : xmin ≤ l)
    (hlr : l + 2 * borders ≤ r) (hr : r < xmax) :
    (innerColumns xmin xmax borders array l r).ny = array.ny ∧ (innerColumns xmin xmax borders array l r).nx = r - l - 2 * borders ∧
      ∀ i j, (innerColumns xmin xmax borders array l r).get i j = array.get i (l - xmin + borders + j) := by
  unfold innerColumns Img.slice
  have e1 : sliceBound array.ny 0 = 0 := by simp [sliceBound]
  have e2 : sliceBound array.ny (array.ny : Int) = array.ny := by unfold sliceBound; rw [if_neg (by omega)]; omega
  have e3 : sliceBound array.nx ((l : Int) + borders - xmin) = l - xmin + borders := by
    unfold sliceBound; rw [if_neg (by omega), hw]; omega
  have e4 : sliceBound array.nx (-((xmax : Int) - r + borders)) = r - xmin - borders := by
    unfold sliceBound; rw [if_pos (by omega), hw]; omega
  simp only [e1, e2, e3, e4]
  refine ⟨by omega, by omega, ?_⟩
  intro i j
  congr 1
  omega

/-- The result of `resize` has the shape asked for. -/
def ResizeShape (resize : Resize) : Prop := ∀ im ny nx r, resize im ny nx = .ok r → r.ny = ny ∧ r.nx = nx

example : ResizeShape fun _ ny nx => .ok ⟨ny, nx, fun _ _ => some 1⟩ := by
  intro im ny nx r h
  injection h with h
  subst h
  exact ⟨rfl, rfl⟩

example : (setBordersZero (fun l ny nx => .ok ⟨ny, nx, fun i _ => some ((l.getD i []).length)⟩) 10 20 2 1 10 ⟨1, 10, fun _ j => some j⟩
    (12, 18)).map rows = .ok [[some 0, some 0, some 2, some 2, some 2, some 2, some 2, some 2, some 0, some 0]] := by decide +kernel

/-- C86: the result has the shape of the reference, zeros in the `borders` columns on each side (`0 < borders`), and the resized heights
between them. -/
theorem C86_zeros (resize : Resize) (hres : ResizeShape resize) (xmin xmax borders ny : Nat) (hb : 0 < borders)
    (hw : 2 * borders ≤ xmax - xmin) (array : Img (Option ℚ)) (shape : Int × Int) (m : Img (Option ℚ))
    (h : setBordersZero resize xmin xmax borders ny (xmax - xmin) array shape = .ok m) :
    ∃ r, resize (rows (innerColumns xmin xmax borders array shape.1 (min shape.2 ((xmax : Int) - 1)))) ny (xmax - xmin - 2 * borders) =
        .ok r ∧ m.ny = ny ∧ m.nx = xmax - xmin ∧ ∀ i j, m.get i j =
      if borders ≤ j ∧ j < xmax - xmin - borders then r.get i (j - borders) else some 0 := by
  unfold setBordersZero at h
  simp only at h
  rw [if_neg (by omega)] at h
  have hm : (if shape.2 ≥ (xmax : Int) then (xmax : Int) - 1 else shape.2) = min shape.2 ((xmax : Int) - 1) := by
    split_ifs <;> omega
  have hwd : ((xmax : Int) - 2 * borders - xmin).toNat = xmax - xmin - 2 * borders := by omega
  rw [hm, hwd] at h
  split at h
  · cases h
  · rename_i r hr
    obtain ⟨hr1, hr2⟩ := hres _ _ _ _ hr
    refine ⟨r, hr, ?_⟩
    unfold assignColumns at h
    have e3 : sliceBound (xmax - xmin) (borders : Int) = borders := by unfold sliceBound; rw [if_neg (by omega)]; omega
    have e4 : sliceBound (xmax - xmin) (-(borders : Int)) = xmax - xmin - borders := by
      unfold sliceBound; rw [if_pos (by omega)]; omega
    simp only [e3, e4] at h
    rw [if_pos ⟨hr1, by omega⟩] at h
    injection h with h
    subst h
    exact ⟨rfl, rfl, fun i j => rfl⟩

/-- C86 (the code violates the property): with `borders = 0` there is always an exception. -/
theorem C86_no_borders_fails (resize : Resize) (hres : ResizeShape resize) (xmin xmax ny : Nat) (hw : xmin < xmax)
    (array : Img (Option ℚ)) (shape : Int × Int) : ∀ m, setBordersZero resize xmin xmax 0 ny (xmax - xmin) array shape ≠ .ok m := by
  intro m h
  unfold setBordersZero at h
  simp only at h
  rw [if_neg (by omega)] at h
  split at h
  · cases h
  · rename_i r hr
    obtain ⟨hr1, hr2⟩ := hres _ _ _ _ hr
    unfold assignColumns at h
    simp only [sliceBound] at h
    rw [if_neg] at h
    · cases h
    · rintro ⟨_, h2⟩
      simp at h2
      omega

/-- C86 (the code violates the property): when the structure is the whole window (without `crop_edge`), the heights between the borders
are not those of the pixels: whatever the function `resize`, there is an array of heights for which the result is another one, because
the last column between the borders is not used. -/
theorem C86_identity_fails (resize : Resize) (xmin xmax borders ny : Nat) (hb : 0 < borders) (hw : 2 * borders < xmax - xmin)
    (hny : 0 < ny) : ∃ array : Img (Option ℚ), array.ny = ny ∧ array.nx = xmax - xmin ∧
      ¬ ∃ m, setBordersZero resize xmin xmax borders ny (xmax - xmin) array (xmin, xmax) = .ok m ∧
        ∀ i < ny, ∀ j, borders ≤ j → j < xmax - xmin - borders → m.get i j = array.get i j := by
  by_contra hall
  push Not at hall
  obtain ⟨m0, h0, g0⟩ := hall ⟨ny, xmax - xmin, fun _ _ => some 0⟩ rfl rfl
  obtain ⟨m1, h1, g1⟩ := hall ⟨ny, xmax - xmin, fun _ j => if j = xmax - xmin - borders - 1 then some 1 else some 0⟩ rfl rfl
  have hsame : setBordersZero resize xmin xmax borders ny (xmax - xmin) ⟨ny, xmax - xmin, fun _ _ => some 0⟩ (xmin, xmax) =
      setBordersZero resize xmin xmax borders ny (xmax - xmin)
        ⟨ny, xmax - xmin, fun _ j => if j = xmax - xmin - borders - 1 then some 1 else some 0⟩ (xmin, xmax) := by
    unfold setBordersZero
    simp only [ge_iff_le, le_refl, if_true]
    have : rows (innerColumns xmin xmax borders ⟨ny, xmax - xmin, fun _ _ => some 0⟩ (xmin : Int) ((xmax : Int) - 1)) =
        rows (innerColumns xmin xmax borders ⟨ny, xmax - xmin, fun _ j => if j = xmax - xmin - borders - 1 then some 1 else some 0⟩
          (xmin : Int) ((xmax : Int) - 1)) := by
      unfold rows innerColumns Img.slice
      apply List.map_congr_left
      intro i _
      unfold row
      apply List.map_congr_left
      intro j hj
      rw [List.mem_range] at hj
      simp only at hj ⊢
      have e3 : sliceBound (xmax - xmin) ((xmin : Int) + borders - xmin) = borders := by
        unfold sliceBound; rw [if_neg (by omega)]; omega
      have e4 : sliceBound (xmax - xmin) (-((xmax : Int) - ((xmax : Int) - 1) + borders)) = xmax - xmin - borders - 1 := by
        unfold sliceBound; rw [if_pos (by omega)]; omega
      rw [e3, e4] at hj
      rw [e3, if_neg (by omega)]
    rw [this]
  rw [hsame, h1] at h0
  injection h0 with h0
  subst h0
  have := (g0 0 hny (xmax - xmin - borders - 1) (by omega) (by omega)).symm.trans
    (g1 0 hny (xmax - xmin - borders - 1) (by omega) (by omega))
  simp at this

/-- C86 (the code violates the property): when the structure begins on the left of the window by more than `borders`, the heights are
those of columns counted from the right of the window: here the columns 6 and 7 of 10 are stretched over the window. -/
theorem C86_left_fails (get : Nat → Nat → Option ℚ) :
    ∀ i j, (innerColumns 10 20 1 ⟨3, 10, get⟩ 5 19).nx = 2 ∧ (innerColumns 10 20 1 ⟨3, 10, get⟩ 5 19).get i j = get i (6 + j) := by
  intro i j
  simp [innerColumns, Img.slice, sliceBound]

end Verif
