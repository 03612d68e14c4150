import Verif.Model.SurfaceSubset
import Verif.Props.SurfaceTracking

/-!
# C29 for a subset of images given with a step
-/

namespace Verif
open Verif.Exec Verif.Spec

namespace SurfaceSubset
variable {κ α ε : Type}

theorem pyRange_pos (a b s : Int) : pyRange a b s = (List.range (rangeLen a b s)).map (fun k : Nat => a + s * (k : Int)) := by
  unfold pyRange
  apply List.map_congr_left
  intro k _
  ring

/-- The keys of the couples. -/
def ckey (keyOf : Int → κ) (start step : Int) : Nat → κ
  | 0 => keyOf (start - 1)
  | k + 1 => keyOf (start + step * (k : Int))

theorem ckey_injective {keyOf : Int → κ} (hk : Function.Injective keyOf) (start : Int) {step : Int} (hs : 0 < step) :
    Function.Injective (ckey keyOf start step) := by
  intro i j h
  cases i with
  | zero =>
    cases j with
    | zero => rfl
    | succ j =>
      have e := hk h
      have : 0 ≤ step * (j : Int) := by positivity
      omega
  | succ i =>
    cases j with
    | zero =>
      have e := hk h
      have : 0 ≤ step * (i : Int) := by positivity
      omega
    | succ j =>
      have e := hk h
      have e2 : step * (i : Int) = step * (j : Int) := by omega
      have := mul_left_cancel₀ (ne_of_gt hs) e2
      omega

theorem couplesFrom_range (tup : List κ → α) (ck : Nat → κ) (g : Nat → κ) (n i : Nat) :
    couplesFrom (ε := ε) tup ck i ((List.range (n + 1)).map g) =
      (List.range n).map (fun k => (ck (i + k), .ok (tup [g k, g (k + 1)]))) := by
  induction n generalizing i g with
  | zero => rfl
  | succ n ih =>
    have h1 : (List.range (n + 1 + 1)).map g = g 0 :: (List.range (n + 1)).map (fun k => g (k + 1)) := by
      rw [List.range_succ_eq_map]; simp [Function.comp_def]
    have h2 : (List.range (n + 1)).map (fun k => g (k + 1)) = g 1 :: (List.range n).map (fun k => g (k + 2)) := by
      rw [List.range_succ_eq_map]; simp [Function.comp_def]
    have h3 := ih (fun k => g (k + 1)) (i + 1)
    rw [h1]
    conv_lhs => rw [h2]
    rw [couplesFrom, ← h2, h3]
    conv_rhs => rw [List.range_succ_eq_map]
    simp only [List.map_cons, List.map_map, Function.comp_def, Nat.add_zero]
    congr 1
    apply List.map_congr_left
    intro k _
    have : i + 1 + k = i + (k + 1) := by omega
    rw [this]

theorem coupleSlice_eq {step : Int} (hs : 0 < step) (i : Int) : coupleSlice step i = [i, i + step] := by
  unfold coupleSlice
  have h : rangeLen i (i + (step + 1)) step = 2 := by
    unfold rangeLen
    rw [if_pos hs, if_pos (by omega)]
    have : i + (step + 1) - i - 1 = step := by ring
    rw [this, Int.ediv_self (by omega)]
    rfl
  rw [pyRange_pos, h]
  simp [List.range_succ_eq_map]

/-- The queue of couples is the one of the consecutive names, one more than the number of series. -/
theorem subsetCouples_eq (tup : List κ → α) (keyOf nameOf : Int → κ) (start stop step : Int) (hs : 0 < step) :
    subsetCouples (ε := ε) tup keyOf nameOf start stop step = couplesOfNames tup (ckey keyOf start step)
      ((List.range (rangeLen start (stop - 1) step + 1)).map (fun k : Nat => nameOf (start + step * (k : Int)))) := by
  unfold subsetCouples
  rw [pyRange_pos]
  cases hn : rangeLen start (stop - 1) step with
  | zero => simp [couplesOfNames]
  | succ n =>
    have h1 : (List.range (n + 1)).map (fun k : Nat => start + step * (k : Int)) =
        start :: (List.range n).map (fun k : Nat => start + step * ((k + 1 : Nat) : Int)) := by
      rw [List.range_succ_eq_map]; simp [Function.comp_def]
    have h2 : (List.range (n + 1 + 1)).map (fun k : Nat => nameOf (start + step * (k : Int))) =
        nameOf start :: nameOf (start + step) ::
          (List.range n).map (fun k : Nat => nameOf (start + step * ((k + 2 : Nat) : Int))) := by
      rw [List.range_succ_eq_map, List.range_succ_eq_map]; simp [Function.comp_def, add_assoc]
    rw [h1]
    simp only
    rw [← h1, h2, couplesOfNames, ← h2, couplesFrom_range, List.map_map]
    refine congrArg₂ List.cons rfl ?_
    apply List.map_congr_left
    intro k _
    simp only [Function.comp_apply, coupleSlice_eq hs, List.map_cons, List.map_nil]
    have e1 : start + step * (k : Int) + step = start + step * ((k + 1 : Nat) : Int) := by push_cast; ring
    have e2 : 1 + k = k + 1 := Nat.add_comm _ _
    rw [e1, e2, ckey]

/-- The number of series and the number of images. -/
theorem counts (start stop step : Int) (hs : 0 < step) (h : start < stop) :
    ((stop - start - 1) % step = 0 → rangeLen start stop step = rangeLen start (stop - 1) step + 1) ∧
    ((stop - start - 1) % step ≠ 0 → rangeLen start stop step = rangeLen start (stop - 1) step) := by
  unfold rangeLen
  rw [if_pos hs, if_pos h, if_pos hs]
  obtain ⟨d, hd⟩ : ∃ d, d = stop - start - 1 := ⟨_, rfl⟩
  have hd0 : 0 ≤ d := by omega
  rw [← hd]
  have hq : step * (d / step) + d % step = d := Int.mul_ediv_add_emod d step
  have hm0 : 0 ≤ d % step := Int.emod_nonneg _ (by omega)
  have hml : d % step < step := Int.emod_lt_of_pos _ hs
  have hq0 : 0 ≤ d / step := Int.ediv_nonneg hd0 (by omega)
  split
  · rename_i h1
    have e : stop - 1 - start - 1 = d - 1 := by omega
    rw [e]
    constructor
    · intro h0
      have h2 : (d - 1) / step = d / step - 1 := by
        rw [h0] at hq
        have : d - 1 = (step - 1) + step * (d / step - 1) := by linarith [mul_sub step (d / step) 1]
        rw [this, Int.add_mul_ediv_left _ _ (by omega), Int.ediv_eq_zero_of_lt (by omega) (by omega)]
        omega
      rw [h2]
      have h3 : 0 < d / step := by
        by_contra h4
        have : d / step = 0 := by omega
        rw [this, h0] at hq
        omega
      omega
    · intro h0
      have h2 : (d - 1) / step = d / step := by
        have : d - 1 = (d % step - 1) + step * (d / step) := by linarith
        rw [this, Int.add_mul_ediv_left _ _ (by omega), Int.ediv_eq_zero_of_lt (by omega) (by omega)]
        omega
      rw [h2]
  · rename_i h1
    have : d = 0 := by omega
    subst this
    simp

theorem names_nodup {nameOf : Int → κ} (hn : Function.Injective nameOf) (start : Int) {step : Int} (hs : 0 < step) (n : Nat) :
    ((List.range n).map (fun k : Nat => nameOf (start + step * (k : Int)))).Nodup := by
  refine List.nodup_range.map ?_
  intro i j h
  have e := hn h
  have e2 : step * (i : Int) = step * (j : Int) := by omega
  have := mul_left_cancel₀ (ne_of_gt hs) e2
  omega

end SurfaceSubset

variable {κ α ε : Type} [DecidableEq κ]

/-- C29: when the last image of the subset is the image `stop - 1`, the queues are those of the theorems above, for the images of the
subset, in order. -/
theorem C29_subset_partial (O : TrackOps κ α ε) (keyOf nameOf : Int → κ) (hk : Function.Injective keyOf)
    (hn : Function.Injective nameOf) (pathOf : κ → α) (exists_ : κ → Bool) (start stop step : Int) (hs : 0 < step)
    (h : start < stop) (hd : (stop - start - 1) % step = 0) :
    ∃ ckey : Nat → κ, Function.Injective ckey ∧ ((pyRange start stop step).map nameOf).Nodup ∧
      subsetStart O keyOf nameOf pathOf exists_ start stop step =
        trackStart O ckey pathOf exists_ ((pyRange start stop step).map nameOf) := by
  have e : (pyRange start stop step).map nameOf =
      (List.range (rangeLen start stop step)).map (fun k : Nat => nameOf (start + step * (k : Int))) := by
    rw [SurfaceSubset.pyRange_pos, List.map_map]; rfl
  refine ⟨SurfaceSubset.ckey keyOf start step, SurfaceSubset.ckey_injective hk start hs, ?_, ?_⟩
  · rw [e]; exact SurfaceSubset.names_nodup hn start hs _
  · funext q
    unfold subsetStart trackStart
    rw [SurfaceSubset.subsetCouples_eq _ _ _ _ _ _ hs, ← (SurfaceSubset.counts start stop step hs h).1 hd, ← e]

/-- C29 fails: when the last image of the subset is not the image `stop - 1` (for example the images 0, 2, 4, 6 and 8 of 10 images),
there is a couple whose second image is not in the subset, so that no execution ends. -/
theorem C29_subset_never_ends_fails (O : TrackOps κ α ε) (imread : κ → α → Except ε α) (im2im : Option (κ → α → Except ε α))
    (processFrame correct calculHeight setBordersZero save : κ → α → Except ε α) (keyOf nameOf : Int → κ)
    (hk : Function.Injective keyOf) (hn : Function.Injective nameOf) (pathOf : κ → α) (exists_ : κ → Bool) (start stop step : Int)
    (hs : 0 < step) (h : start < stop) (hd : (stop - start - 1) % step ≠ 0) (c : Cfg) :
    (∀ ls (s : AState κ α ε Unit), ARun (surfaceTopology O imread im2im processFrame correct calculHeight setBordersZero save) c
      (AState.init (subsetStart O keyOf nameOf pathOf exists_ start stop step) ()) ls s → s.stop = false) ∧
    (c.stopIfError = false → ∀ n, seqLoop (surfaceTopology O imread im2im processFrame correct calculHeight setBordersZero save) c n
      (SState.init (subsetStart O keyOf nameOf pathOf exists_ start stop step) ()) = none) := by
  obtain ⟨m, hm⟩ : ∃ m, m = rangeLen start stop step := ⟨_, rfl⟩
  obtain ⟨g, hg⟩ : ∃ g, g = fun k : Nat => nameOf (start + step * (k : Int)) := ⟨_, rfl⟩
  have hnd := SurfaceSubset.names_nodup hn start hs (m + 1)
  rw [← hg] at hnd
  have hnot : ∀ k < m, g k ≠ g m := by
    intro k hk' e
    rw [List.range_succ, List.map_append, List.nodup_append] at hnd
    exact hnd.2.2 _ (List.mem_map.2 ⟨k, List.mem_range.2 hk', rfl⟩) _ (by simp) e
  have hm0 : 0 < m := by
    rw [hm]
    unfold rangeLen
    rw [if_pos hs, if_pos h]
    have : 0 ≤ (stop - start - 1) / step := Int.ediv_nonneg (by omega) (by omega)
    omega
  have e : subsetStart O keyOf nameOf pathOf exists_ start stop step =
      trackStart O (SurfaceSubset.ckey keyOf start step) pathOf (fun n => exists_ n || decide (n = g m))
        ((List.range (m + 1)).map g) := by
    funext q
    unfold subsetStart trackStart
    rw [SurfaceSubset.subsetCouples_eq _ _ _ _ _ _ hs, ← (SurfaceSubset.counts start stop step hs h).2 hd, ← hm, ← hg]
    have e1 : (pyRange start stop step).map nameOf = (List.range m).map g := by
      rw [SurfaceSubset.pyRange_pos, List.map_map, ← hm, hg]; rfl
    have e2 : ((List.range (m + 1)).map g).filter (fun n => !(exists_ n || decide (n = g m))) =
        ((List.range m).map g).filter (fun n => !exists_ n) := by
      rw [List.range_succ, List.map_append, List.filter_append]
      have : ([m].map g).filter (fun n => !(exists_ n || decide (n = g m))) = [] := by simp
      rw [this, List.append_nil]
      apply List.filter_congr
      intro n hn'
      obtain ⟨k, hk', rfl⟩ := List.mem_map.1 hn'
      simp [hnot k (List.mem_range.1 hk')]
    rw [e1, e2]
  have hb : g m ∈ (List.range (m + 1)).map g := List.mem_map.2 ⟨m, List.mem_range.2 (Nat.lt_succ_self _), rfl⟩
  have hN : 2 ≤ ((List.range (m + 1)).map g).length := by simp; omega
  rw [e]
  exact ⟨fun ls s hrun => C29_complete_never_ends_fails O imread im2im processFrame correct calculHeight setBordersZero save _ pathOf _ _
      (SurfaceSubset.ckey_injective hk start hs) hN (g m) hb (by simp) c ls s hrun,
    fun hst n => C29_complete_sequential_fails O imread im2im processFrame correct calculHeight setBordersZero save _ pathOf _ _
      (SurfaceSubset.ckey_injective hk start hs) hN (g m) hb (by simp) c hst n⟩

open TrackExample in
/-- The images 0, 2, 4, 6, 8 of 10 images: a couple (8, 10). -/
example : (subsetCouples (ε := ℕ) (fun l : List Int => l) id id 0 10 2).map (fun x => (x.1, match x.2 with | .ok l => l | .error _ => [])) =
    [(-1, [0, 0]), (0, [0, 2]), (2, [2, 4]), (4, [4, 6]), (6, [6, 8]), (8, [8, 10])] ∧
    pyRange 0 10 2 = [0, 2, 4, 6, 8] ∧ ((10 : Int) - 0 - 1) % 2 ≠ 0 ∧ ((9 : Int) - 0 - 1) % 2 = 0 := by decide

end Verif
