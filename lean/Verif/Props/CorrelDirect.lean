import Verif.Model.CorrelDirect
import Mathlib.Tactic.Linarith
import Mathlib.Tactic.Ring
import Mathlib.Data.List.Nodup

/-!
# Direct correlation (C39)
-/

namespace Verif
open Verif.PivGrid Verif.Correl Verif.CorrelDirect

/-- Rows (or columns) `y` of the window 1 (size `n1`) such that `y + s` is a row (or column) of the window 0. -/
def overlap (n0 n1 : Nat) (s : Int) : List Nat :=
  (List.range n1).filter (fun y => decide (0 ≤ (y : Int) + s ∧ (y : Int) + s < n0))

/-- Mean over the overlap of the products of the pixels of window 1 by the pixels of window 0 shifted by
`(sy, sx)`. -/
def meanProduct (im0 im1 : Img ℚ) (sy sx : Int) : ℚ :=
  ((overlap im0.ny im1.ny sy).flatMap (fun y => (overlap im0.nx im1.nx sx).map (fun x =>
    im1.get y x * im0.get ((y : Int) + sy).toNat ((x : Int) + sx).toNat))).sum /
  (((overlap im0.ny im1.ny sy).length * (overlap im0.nx im1.nx sx).length : Nat) : ℚ)

theorem filter_range_interval (a b : Nat) : ∀ n : Nat,
    (List.range n).filter (fun y => decide (a ≤ y ∧ y < b)) = List.range' a (min b n - a)
  | 0 => by simp
  | n + 1 => by
    rw [List.range_succ, List.filter_append, filter_range_interval a b n]
    by_cases h : a ≤ n ∧ n < b
    · rw [List.filter_cons_of_pos (by simpa using h), List.filter_nil,
        show min b (n + 1) - a = (min b n - a) + 1 by omega, List.range'_concat]
      congr 2
      omega
    · rw [List.filter_cons_of_neg (by simpa using h), List.filter_nil, List.append_nil]
      congr 1
      omega

theorem overlap_eq (n0 n1 : Nat) (s : Int) :
    overlap n0 n1 s = List.range' (-s).toNat (min ((n0 : Int) - s).toNat n1 - (-s).toNat) := by
  rw [← filter_range_interval]
  unfold overlap
  apply List.filter_congr
  intro y _
  apply decide_eq_decide.2
  omega

/-- The condition on the sizes in one direction for which the reads are in the arrays. -/
def GoodSizes (n0 n1 dmax : Nat) : Prop :=
  0 < n1 ∧ n1 ≤ n0 ∧ (n1 % 2 = 0 ∨ n0 / 2 + n1 / 2 + dmax < n0) ∧
  (dmax : Int) < n1 + (n0 / 2 - n1 / 2) ∧ n0 / 2 + n1 / 2 + dmax < n0 + n1

theorem bounds_good {n0 n1 dmax k : Nat} (h : GoodSizes n0 n1 dmax) (hk : k < 2 * dmax + 1) :
    let b := bounds n0 n1 dmax k
    let s : Int := (n0 : Int) / 2 - n1 / 2 + ((k : Int) - dmax)
    0 < b.nmax ∧ 0 ≤ b.dep1 ∧ b.dep0 = b.dep1 + s ∧ 0 ≤ b.dep0 ∧ b.dep1 + b.nmax ≤ n1 ∧ b.dep0 + b.nmax ≤ n0 ∧
    overlap n0 n1 s = List.range' b.dep1.toNat b.nmax.toNat := by
  obtain ⟨h0, h1, h2, h3, h4⟩ := h
  simp only
  rw [overlap_eq]
  unfold bounds
  split
  · unfold negBounds
    simp only
    refine ⟨?_, ?_, ?_, ?_, ?_, ?_, ?_⟩
    any_goals omega
    congr 1 <;> omega
  · unfold posBounds
    simp only
    refine ⟨?_, ?_, ?_, ?_, ?_, ?_, ?_⟩
    any_goals omega
    congr 1 <;> omega

theorem addAll_ok (L : List ℚ) (t : ℚ) : addAll (L.map Except.ok) t = .ok (t + L.sum) := by
  induction L generalizing t with
  | nil => simp [addAll]
  | cons a L ih =>
    rw [List.map_cons, addAll, ih, List.sum_cons]
    congr 1; ring

theorem read_ok {im : Img ℚ} {i j : Int} (h1 : 0 ≤ i) (h2 : i < im.ny) (h3 : 0 ≤ j) (h4 : j < im.nx) :
    readAt im i j = .ok (im.get i.toNat j.toNat) := by
  unfold readAt pyIndex
  rw [if_pos h1, if_pos h2, if_pos h3, if_pos h4]

theorem cellAt_ok {im0 im1 : Img ℚ} {dmax i j : Nat} (hy : GoodSizes im0.ny im1.ny dmax)
    (hx : GoodSizes im0.nx im1.nx dmax) (hi : i < 2 * dmax + 1) (hj : j < 2 * dmax + 1) :
    cellAt im0 im1 dmax i j = .ok (some (meanProduct im0 im1
      ((im0.ny : Int) / 2 - im1.ny / 2 + ((i : Int) - dmax)) ((im0.nx : Int) / 2 - im1.nx / 2 + ((j : Int) - dmax)) *
      ((im1.ny * im1.nx : Nat) : ℚ))) := by
  have hb := bounds_good hy hi
  have hc := bounds_good hx hj
  unfold cellAt meanProduct
  generalize (im0.ny : Int) / 2 - im1.ny / 2 + ((i : Int) - dmax) = sy at *
  generalize (im0.nx : Int) / 2 - im1.nx / 2 + ((j : Int) - dmax) = sx at *
  generalize bounds im0.ny im1.ny dmax i = b at *
  generalize bounds im0.nx im1.nx dmax j = c at *
  simp only at hb hc
  obtain ⟨b1, b2, b3, b4, b5, b6, b7⟩ := hb
  obtain ⟨c1, c2, c3, c4, c5, c6, c7⟩ := hc
  rw [b7, c7, List.length_range', List.length_range', List.range'_eq_map_range, List.range'_eq_map_range,
    List.flatMap_map]
  unfold cell
  have hprod : ∀ iy ∈ List.range b.nmax.toNat, ∀ ix ∈ List.range c.nmax.toNat, product im0 im1 b c iy ix =
      .ok (im1.get (b.dep1.toNat + iy) (c.dep1.toNat + ix) *
        im0.get (((b.dep1.toNat + iy : Nat) : Int) + sy).toNat (((c.dep1.toNat + ix : Nat) : Int) + sx).toNat) := by
    intro iy hiy ix hix
    rw [List.mem_range] at hiy hix
    unfold product
    rw [read_ok (by omega) (by omega) (by omega) (by omega)]
    simp only
    rw [read_ok (by omega) (by omega) (by omega) (by omega)]
    simp only
    congr 3 <;> omega
  have hlist : (List.range b.nmax.toNat).flatMap (fun iy => (List.range c.nmax.toNat).map (product im0 im1 b c iy)) =
      ((List.range b.nmax.toNat).flatMap (fun iy => ((List.range c.nmax.toNat).map (c.dep1.toNat + ·)).map (fun x =>
        im1.get (b.dep1.toNat + iy) x *
          im0.get (((b.dep1.toNat + iy : Nat) : Int) + sy).toNat ((x : Int) + sx).toNat))).map Except.ok := by
    rw [List.map_flatMap]
    apply List.flatMap_congr
    intro iy hiy
    rw [List.map_map, List.map_map]
    apply List.map_congr_left
    intro ix hix
    rw [hprod iy hiy ix hix]
    rfl
  rw [hlist, addAll_ok]
  simp only
  rw [if_neg (by have := Int.mul_pos c1 b1; omega), zero_add]
  congr 3
  congr 1
  have hb' : ((b.nmax.toNat : Nat) : Int) = b.nmax := Int.toNat_of_nonneg (by omega)
  have hc' : ((c.nmax.toNat : Nat) : Int) = c.nmax := Int.toNat_of_nonneg (by omega)
  rw [← hb', ← hc']
  push_cast
  simp only [Int.toNat_natCast]
  ring

/-- C39 (partial: the sizes must satisfy `GoodSizes`; see `C39_odd_out_of_bounds` for the sizes which do not): all reads
are in the arrays and the value of index `(i, j)`, whose displacement is `(dmax - j, dmax - i)`, is the mean of the
products over the overlap of the windows for this displacement, times the size of the second window. -/
theorem C39_partial (im0 im1 : Img ℚ) (dmax : Nat) (hy : GoodSizes im0.ny im1.ny dmax) (hx : GoodSizes im0.nx im1.nx dmax) :
    ∃ c, correlNumpy im0 im1 dmax = .ok c ∧ c.ny = 2 * dmax + 1 ∧ c.nx = 2 * dmax + 1 ∧
    ∀ i j, i < c.ny → j < c.nx → c.get i j = some (meanProduct im0 im1
      ((im0.ny : Int) / 2 - im1.ny / 2 - ((dmax : Int) - i)) ((im0.nx : Int) / 2 - im1.nx / 2 - ((dmax : Int) - j)) *
      ((im1.ny * im1.nx : Nat) : ℚ)) := by
  unfold correlNumpy
  have hnone : ((List.range (2 * dmax + 1)).flatMap (fun i => (List.range (2 * dmax + 1)).map (fun j => cellAt im0 im1 dmax i j))).findSome?
      errOf = none := by
    rw [List.findSome?_eq_none_iff]
    intro r hr
    obtain ⟨i, hi, hr⟩ := List.mem_flatMap.1 hr
    obtain ⟨j, hj, hr⟩ := List.mem_map.1 hr
    rw [cellAt_ok hy hx (List.mem_range.1 hi) (List.mem_range.1 hj)] at hr
    rw [← hr]
    rfl
  rw [hnone]
  refine ⟨_, rfl, rfl, rfl, ?_⟩
  intro i j hi hj
  have e1 : (im0.ny : Int) / 2 - im1.ny / 2 - ((dmax : Int) - i) = (im0.ny : Int) / 2 - im1.ny / 2 + ((i : Int) - dmax) := by omega
  have e2 : (im0.nx : Int) / 2 - im1.nx / 2 - ((dmax : Int) - j) = (im0.nx : Int) / 2 - im1.nx / 2 + ((j : Int) - dmax) := by omega
  simp only
  rw [cellAt_ok hy hx hi hj, e1, e2]

/-- The sizes and default maximum displacement for which the class works: equal even shapes, or a second window smaller
by at least 4 pixels in both directions (any parity). -/
theorem C39_class_partial (im0 im1 : Img ℚ)
    (h : (im0.ny = im1.ny ∧ im0.nx = im1.nx ∧ im0.ny % 2 = 0 ∧ im0.nx % 2 = 0 ∧ 4 ≤ im0.ny ∧ 4 ≤ im0.nx) ∨
      (0 < im1.ny ∧ 0 < im1.nx ∧ im1.ny + 4 ≤ im0.ny ∧ im1.nx + 4 ≤ im0.nx)) :
    ∃ (d : Nat) (k : Cls) (c : Map), pythranCall none im0 im1 = .ok (k, c) ∧ 0 < d ∧ k.ix0 = d ∧ k.iy0 = d ∧
      c.ny = 2 * d + 1 ∧ c.nx = 2 * d + 1 ∧
    ∀ i j : Nat, i < c.ny → j < c.nx → c.get i j = some (meanProduct im0 im1
      ((im0.ny : Int) / 2 - im1.ny / 2 - (k.displacement j i).2) ((im0.nx : Int) / 2 - im1.nx / 2 - (k.displacement j i).1) *
      ((im1.ny * im1.nx : Nat) : ℚ)) := by
  have hinit : ∃ d : Nat, pythranInit none im0.ny im0.nx im1.ny im1.nx = .ok (d : Int) ∧ 0 < d ∧
      GoodSizes im0.ny im1.ny d ∧ GoodSizes im0.nx im1.nx d := by
    unfold pythranInit GoodSizes
    simp only
    rcases h with ⟨h1, h2, h3, h4, h5, h6⟩ | ⟨h1, h2, h3, h4⟩
    · have hc : (im0.ny : Int) = im1.ny ∧ (im0.nx : Int) = im1.nx := by omega
      rw [if_pos hc]
      refine ⟨min im0.ny im0.nx / 2 - 1, ?_, by omega, by omega, by omega⟩
      rw [if_neg (by omega)]
      congr 1; omega
    · have hc : ¬ ((im0.ny : Int) = im1.ny ∧ (im0.nx : Int) = im1.nx) := by omega
      rw [if_neg hc]
      refine ⟨min (im0.ny - im1.ny) (im0.nx - im1.nx) / 2 - 1, ?_, by omega, by omega, by omega⟩
      rw [if_neg (by omega)]
      congr 1; omega
  obtain ⟨d, hd, hpos, hy, hx⟩ := hinit
  obtain ⟨c, hc, c1, c2, c3⟩ := C39_partial im0 im1 d hy hx
  refine ⟨d, ⟨d, d, none, 3, 1⟩, c, ?_, hpos, rfl, rfl, c1, c2, ?_⟩
  · unfold pythranCall
    rw [hd]
    simp only [Int.toNat_natCast]
    rw [hc]
  · intro i j hi hj
    exact c3 i j hi hj

/-- C39: the object is refused when the sizes leave no displacement to look for, and only then: the maximum displacement
of an object is at least one pixel, and it is the half size (or half difference of sizes) minus one. -/
theorem C39_refused (n0 n1 m0 m1 : Nat) :
    ((n0 = m0 ∧ n1 = m1 ∧ (n0 < 4 ∨ n1 < 4)) ∨ (¬ (n0 = m0 ∧ n1 = m1) ∧ (n0 < m0 + 4 ∨ n1 < m1 + 4)) ↔
      pythranInit none n0 n1 m0 m1 = .error .valueError) ∧
    ∀ d, pythranInit none n0 n1 m0 m1 = .ok d → 1 ≤ d ∧
      (2 * d + 2 ≤ (if n0 = m0 ∧ n1 = m1 then (n0 : Int) else n0 - m0) ∧
        2 * d + 2 ≤ (if n0 = m0 ∧ n1 = m1 then (n1 : Int) else n1 - m1)) := by
  unfold pythranInit
  by_cases h : n0 = m0 ∧ n1 = m1
  · have hc : (n0 : Int) = m0 ∧ (n1 : Int) = m1 := by omega
    simp only [if_pos hc, if_pos h]
    by_cases hd : min (n0 : Int) n1 / 2 - 1 ≤ 0
    · rw [if_pos hd]
      refine ⟨⟨fun _ => rfl, fun _ => by omega⟩, fun d hd => by cases hd⟩
    · rw [if_neg hd]
      refine ⟨⟨fun h' => by omega, fun h' => by cases h'⟩, fun d hd' => ?_⟩
      injection hd' with hd'
      omega
  · have hc : ¬ ((n0 : Int) = m0 ∧ (n1 : Int) = m1) := by omega
    simp only [if_neg hc, if_neg h]
    by_cases hd : min ((n0 : Int) - m0) (n1 - m1) / 2 - 1 ≤ 0
    · rw [if_pos hd]
      refine ⟨⟨fun _ => rfl, fun _ => by omega⟩, fun d hd => by cases hd⟩
    · rw [if_neg hd]
      refine ⟨⟨fun h' => by omega, fun h' => by cases h'⟩, fun d hd' => ?_⟩
      injection hd' with hd'
      omega

theorem addAll_err : ∀ (L : List (Except PyErr ℚ)) (t : ℚ), (∀ r ∈ L, ∀ e, r = .error e → e = .indexError) →
    (∃ e, Except.error e ∈ L) → addAll L t = .error .indexError
  | [], t, _, h => by obtain ⟨e, h⟩ := h; cases h
  | .error e :: L, t, h, _ => by
    have := h _ List.mem_cons_self e rfl
    subst this; rfl
  | .ok v :: L, t, h, h2 => by
    rw [addAll]
    refine addAll_err L _ (fun r hr => h r (List.mem_cons_of_mem _ hr)) ?_
    obtain ⟨e, he⟩ := h2
    rcases List.mem_cons.1 he with he | he
    · cases he
    · exact ⟨e, he⟩

theorem product_err {im0 im1 : Img ℚ} {b c : Bounds} {iy ix : Nat} {e : PyErr}
    (h : product im0 im1 b c iy ix = .error e) : e = .indexError := by
  have hr : ∀ (im : Img ℚ) i j e, readAt im i j = .error e → e = .indexError := by
    intro im i j e h
    unfold readAt at h
    split at h
    · cases h
    · injection h with h; exact h.symm
  unfold product at h
  split at h
  · injection h with h; subst h; exact hr _ _ _ _ (by assumption)
  · split at h
    · injection h with h; subst h; exact hr _ _ _ _ (by assumption)
    · cases h

theorem cell_err {im0 im1 : Img ℚ} {b c : Bounds} {e : PyErr} (h : cell im0 im1 b c = .error e) : e = .indexError := by
  unfold cell at h
  split at h
  · rename_i e' he
    injection h with h
    subst h
    have hall : ∀ (L : List (Except PyErr ℚ)) (t : ℚ), (∀ r ∈ L, ∀ e, r = .error e → e = .indexError) →
        ∀ e, addAll L t = .error e → e = .indexError := by
      intro L
      induction L with
      | nil => intro t _ e h; cases h
      | cons r L ih =>
        intro t h e he
        cases r with
        | error e' =>
          rw [addAll] at he; injection he with he; subst he
          exact h _ List.mem_cons_self _ rfl
        | ok v =>
          rw [addAll] at he
          exact ih _ (fun r hr => h r (List.mem_cons_of_mem _ hr)) e he
    refine hall _ _ ?_ _ he
    intro r hr e hre
    obtain ⟨iy, _, hr⟩ := List.mem_flatMap.1 hr
    obtain ⟨ix, _, hr⟩ := List.mem_map.1 hr
    rw [hre] at hr
    exact product_err hr
  · cases h

/-- The negation of C39 for equal shapes with an odd size: for every such images and every maximum displacement, the
function reads outside of the first image. -/
theorem C39_odd_out_of_bounds (im0 im1 : Img ℚ) (hy : im0.ny = im1.ny) (hx : im0.nx = im1.nx) (hodd : im0.ny % 2 = 1)
    (dmax : Nat) (h1 : 1 ≤ dmax) (h2 : dmax < im0.ny / 2 ) (h3 : dmax < im0.nx / 2) :
    correlNumpy im0 im1 dmax = .error .indexError := by
  unfold correlNumpy
  have hcell : cellAt im0 im1 dmax (dmax + 1) dmax = .error .indexError := by
    unfold cellAt cell
    have hb : bounds im0.ny im1.ny dmax (dmax + 1) = ⟨im0.ny, 0, 1⟩ := by
      unfold bounds posBounds
      rw [if_neg (by omega), Bounds.mk.injEq]
      omega
    have hc : bounds im0.nx im1.nx dmax dmax = ⟨im0.nx, 0, 0⟩ := by
      unfold bounds negBounds
      rw [if_pos (by omega), Bounds.mk.injEq]
      omega
    rw [hb, hc, addAll_err]
    · intro r hr e hre
      obtain ⟨iy, _, hr⟩ := List.mem_flatMap.1 hr
      obtain ⟨ix, _, hr⟩ := List.mem_map.1 hr
      rw [hre] at hr
      exact product_err hr
    · refine ⟨.indexError, List.mem_flatMap.2 ⟨im0.ny - 1, ?_, List.mem_map.2 ⟨0, ?_, ?_⟩⟩⟩
      · simp only [Int.toNat_natCast, List.mem_range]; omega
      · simp only [Int.toNat_natCast, List.mem_range]; omega
      · unfold product
        rw [read_ok (by simp only; omega) (by simp only; omega) (by simp) (by simp only; omega)]
        simp only
        unfold readAt pyIndex
        rw [if_pos (show (0 : Int) ≤ 1 + ((im0.ny - 1 : Nat) : Int) by omega),
          if_neg (show ¬ (1 + ((im0.ny - 1 : Nat) : Int) < im0.ny) by omega)]
  have hsome : ((List.range (2 * dmax + 1)).flatMap (fun i => (List.range (2 * dmax + 1)).map (fun j => cellAt im0 im1 dmax i j))).findSome?
      errOf = some .indexError := by
    cases hf : ((List.range (2 * dmax + 1)).flatMap (fun i => (List.range (2 * dmax + 1)).map (fun j => cellAt im0 im1 dmax i j))).findSome?
        errOf with
    | none =>
      rw [List.findSome?_eq_none_iff] at hf
      have := hf (.error .indexError) (List.mem_flatMap.2 ⟨dmax + 1, List.mem_range.2 (by omega),
        List.mem_map.2 ⟨dmax, List.mem_range.2 (by omega), hcell⟩⟩)
      cases this
    | some e =>
      obtain ⟨r, hr, hre⟩ := List.exists_of_findSome?_eq_some hf
      obtain ⟨i, _, hr⟩ := List.mem_flatMap.1 hr
      obtain ⟨j, _, hr⟩ := List.mem_map.1 hr
      cases r with
      | error e' =>
        injection hre with hre
        subst hre
        rw [cell_err hr]
      | ok v => cases hre
  rw [hsome]

/-- A maximum displacement given by the user is never accepted by this class. -/
theorem C39_displacement_max_refused (d : ℚ) (im0 im1 : Img ℚ) :
    pythranCall (some d) im0 im1 = .error .unboundLocalError := rfl

example : GoodSizes 32 32 15 := by unfold GoodSizes; omega
example : GoodSizes 33 17 7 := by unfold GoodSizes; omega
/-- A concrete case: the correlation of a point and of its displaced copy. -/
example : let im0 : Img ℚ := ⟨8, 8, fun i j => if i = 4 ∧ j = 3 then 1 else 0⟩
    let im1 : Img ℚ := ⟨8, 8, fun i j => if i = 3 ∧ j = 4 then 1 else 0⟩
    ((correlNumpy im0 im1 3).map (fun c => c.get 4 2)) = .ok (some (64 / 49)) := by decide +kernel

end Verif
