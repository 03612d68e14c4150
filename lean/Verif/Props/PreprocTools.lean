import Verif.Model.PreprocTools
import Mathlib.Tactic.Positivity
import Mathlib.Analysis.SpecialFunctions.Trigonometric.DerivHyp
import Mathlib.Tactic.FieldSimp
import Mathlib.Tactic.NormNum

/-!
# Preprocessing tools (C56, C70, C71)
-/

namespace Verif
open Verif.PreprocTools
open Verif.PivGrid (Img)

/-! ## C56: order of the tools -/

/-- The tool `name` with its parameters transforms `a` into `b`. -/
def ToolStep {κ ι : Type} (params : Params κ) (tools : String → Option (κ → ι → Except Err ι)) (name : String)
    (a b : ι) : Prop :=
  ∃ p f, params.children name = some p ∧ tools name = some f ∧ f p.kwargs a = .ok b

/-- Is the tool enabled by the user? -/
def enabled {κ : Type} (params : Params κ) (name : String) : Bool :=
  match params.children name with
  | some p => p.enable
  | none => false

/-- The successive images obtained with the tools of a list, in its order. -/
inductive Chain {κ ι : Type} (params : Params κ) (tools : String → Option (κ → ι → Except Err ι)) :
    List String → ι → ι → Prop where
  | nil (a : ι) : Chain params tools [] a a
  | cons {name : String} {names : List String} {a b c : ι} : ToolStep params tools name a b →
      Chain params tools names b c → Chain params tools (name :: names) a c

theorem applyLoop_chain {κ ι : Type} (params : Params κ) (tools : String → Option (κ → ι → Except Err ι)) :
    ∀ (seq : List String) (a b : ι), (∀ t ∈ seq, params.children t ≠ none) →
      (applyLoop params.children tools seq a = .ok b ↔ Chain params tools (seq.filter (enabled params)) a b) := by
  intro seq
  induction seq with
  | nil =>
    intro a b _
    constructor
    · intro h
      cases h
      exact .nil _
    · intro h
      cases h
      rfl
  | cons t seq ih =>
    intro a b hc
    have hc' : ∀ t ∈ seq, params.children t ≠ none := fun t ht => hc t (by simp [ht])
    cases hp : params.children t with
    | none => exact absurd hp (hc t (by simp))
    | some p =>
      cases he : p.enable with
      | false =>
        have hf : enabled params t = false := by simp [enabled, hp, he]
        rw [List.filter_cons, hf]
        simp only [applyLoop, hp, he, Bool.false_eq_true, if_false]
        exact ih a b hc'
      | true =>
        have hf : enabled params t = true := by simp [enabled, hp, he]
        rw [List.filter_cons, hf]
        simp only [applyLoop, hp, he, if_true]
        cases hf : tools t with
        | none =>
          simp only [reduceCtorEq, false_iff]
          intro h
          cases h with
          | cons h1 _ =>
            obtain ⟨_, _, _, h2, _⟩ := h1
            rw [hf] at h2
            cases h2
        | some f =>
          cases hr : f p.kwargs a with
          | error e =>
            simp only [hr, reduceCtorEq, false_iff]
            intro h
            cases h with
            | cons h1 _ =>
              obtain ⟨p', f', h2, h3, h4⟩ := h1
              rw [hp] at h2
              rw [hf] at h3
              cases h2
              cases h3
              rw [hr] at h4
              cases h4
          | ok c =>
            simp only [hr]
            rw [ih c b hc']
            constructor
            · intro h
              exact .cons ⟨p, f, hp, hf, hr⟩ h
            · intro h
              cases h with
              | cons h1 h5 =>
                obtain ⟨p', f', h2, h3, h4⟩ := h1
                rw [hp] at h2
                rw [hf] at h3
                cases h2
                cases h3
                rw [hr] at h4
                cases h4
                exact h5

/-- C56: with a sequence given by the user, the image is transformed by exactly the enabled tools of the sequence, one after
the other in the order of the sequence. -/
theorem C56_sequence {κ ι : Type} (params : Params κ) (tools : String → Option (κ → ι → Except Err ι)) (seq : List String)
    (hs : params.sequence = some seq) (hc : ∀ t ∈ seq, params.children t ≠ none) (a b : ι) :
    apply params tools a = .ok b ↔ Chain params tools (seq.filter (enabled params)) a b := by
  unfold apply
  rw [hs]
  exact applyLoop_chain params tools seq a b hc

/-- C56: without a sequence, in the order of the list of the available tools. -/
theorem C56_default_sequence {κ ι : Type} (params : Params κ) (tools : String → Option (κ → ι → Except Err ι))
    (hs : params.sequence = none) (hc : ∀ t ∈ params.available, params.children t ≠ none) (a b : ι) :
    apply params tools a = .ok b ↔ Chain params tools (params.available.filter (enabled params)) a b := by
  unfold apply
  rw [hs]
  exact applyLoop_chain params tools params.available a b hc

/-- C56: no enabled tool, same image. -/
theorem C56_nothing_enabled {κ ι : Type} (params : Params κ) (tools : String → Option (κ → ι → Except Err ι))
    (hc : ∀ t ∈ params.sequence.getD params.available, ∃ p, params.children t = some p ∧ p.enable = false) (a : ι) :
    apply params tools a = .ok a := by
  have h : ∀ seq : List String, (∀ t ∈ seq, ∃ p, params.children t = some p ∧ p.enable = false) →
      Chain params tools (seq.filter (enabled params)) a a := by
    intro seq h
    have : seq.filter (enabled params) = [] := by
      rw [List.filter_eq_nil_iff]
      intro t ht
      obtain ⟨p, hp, he⟩ := h t ht
      simp [enabled, hp, he]
    rw [this]
    exact .nil a
  have hne : ∀ t ∈ params.sequence.getD params.available, params.children t ≠ none := by
    intro t ht
    obtain ⟨p, hp, _⟩ := hc t ht
    rw [hp]
    exact fun h => nomatch h
  cases hs : params.sequence with
  | none =>
    rw [hs] at hc hne
    exact (C56_default_sequence params tools hs hne a a).2 (h _ hc)
  | some seq =>
    rw [hs] at hc hne
    exact (C56_sequence params tools seq hs hne a a).2 (h _ hc)

/-- Non-vacuity: three tools, the second one is disabled, and the order matters. -/
example : apply (⟨["a", "b", "c"], some ["c", "b", "a"], fun n => some ⟨n != "b", 2⟩⟩ : Params ℕ)
    (fun n => some fun k (x : ℕ) => .ok (if n = "a" then k + x else k * x)) 5 = .ok 12 := by decide

/-! ## C56: threshold -/

theorem trunc_int (z : ℤ) : trunc (z : ℝ) = z := by
  unfold trunc
  split <;> simp

theorem convert_val (d : DType) (v : Num) (r : ℝ) (h : convert d v = .ok r)
    (hi : d = .float ∨ ∃ z : ℤ, v.val = z) : r = v.val := by
  unfold convert at h
  cases d with
  | float => cases h; rfl
  | int lo hi' =>
    obtain ⟨z, hz⟩ : ∃ z : ℤ, v.val = z := by
      rcases hi with h | h
      · cases h
      · exact h
    cases v with
    | int w =>
      simp only at h
      split at h
      · cases h; rfl
      · cases h
    | float x =>
      simp only at h
      split at h
      · cases h
        have : x = z := hz
        subst this
        rw [trunc_int]
        rfl
      · cases h

/-- C56: after the threshold (floats, or bounds without a fractional part), all the pixels are in the interval and the
pixels that were in the interval are not changed. -/
theorem C56_threshold_partial (minima : Num) (maxima : Option Num) (a out : Arr)
    (h : globalThreshold minima maxima a = .ok out)
    (hle : minima.val ≤ (maxima.getD (defaultMaxima a.dtype)).val)
    (hi : a.dtype = .float ∨ (∃ z : ℤ, minima.val = z) ∧ ∃ z : ℤ, (maxima.getD (defaultMaxima a.dtype)).val = z)
    (y x : ℕ) :
    minima.val ≤ out.im.get y x ∧ out.im.get y x ≤ (maxima.getD (defaultMaxima a.dtype)).val ∧
    (minima.val ≤ a.im.get y x → a.im.get y x ≤ (maxima.getD (defaultMaxima a.dtype)).val →
      out.im.get y x = a.im.get y x) ∧ out.im.ny = a.im.ny ∧ out.im.nx = a.im.nx ∧ out.dtype = a.dtype := by
  unfold globalThreshold at h
  simp only at h
  generalize maxima.getD (defaultMaxima a.dtype) = mx at *
  cases h1 : convert a.dtype minima with
  | error e => rw [h1] at h; cases h
  | ok lo =>
    cases h2 : convert a.dtype mx with
    | error e => rw [h1, h2] at h; cases h
    | ok hi' =>
      rw [h1, h2] at h
      simp only [Except.ok.injEq] at h
      subst h
      have e1 := convert_val _ _ _ h1 (hi.imp id And.left)
      have e2 := convert_val _ _ _ h2 (hi.imp id And.right)
      subst e1 e2
      simp only
      refine ⟨?_, ?_, ?_, trivial, trivial, trivial⟩
      · split_ifs <;> linarith
      · split_ifs <;> linarith
      · intro h3 h4
        split_ifs <;> linarith

/-- C56: for integers, with bounds that the type of the array can represent, the threshold succeeds. -/
theorem C56_threshold_defined (lo hi zmin : ℤ) (zmax : Option ℤ) (im : Img ℝ) (h1 : lo ≤ zmin ∧ zmin ≤ hi)
    (h2 : ∀ z ∈ zmax, lo ≤ z ∧ z ≤ hi) : ∃ out, globalThreshold (.int zmin) (zmax.map Num.int) ⟨.int lo hi, im⟩ = .ok out := by
  have e1 : convert (.int lo hi) (.int zmin) = .ok zmin := if_pos h1
  obtain ⟨r, e2⟩ : ∃ r, convert (.int lo hi) ((zmax.map Num.int).getD (defaultMaxima (.int lo hi))) = .ok r := by
    cases zmax with
    | none => exact ⟨_, if_pos ⟨by omega, le_refl _⟩⟩
    | some z => exact ⟨_, if_pos (h2 z rfl)⟩
  simp only [globalThreshold, e1, e2]
  exact ⟨_, rfl⟩

/-- C56 fails for images of integers and a bound with a fractional part: the bound is truncated. -/
theorem C56_threshold_fraction_fails : ∃ out, globalThreshold (.float 2.5) none ⟨uint8, ⟨1, 1, fun _ _ => 1⟩⟩ = .ok out ∧
    out.im.get 0 0 = 2 ∧ out.im.get 0 0 < 2.5 := by
  have ht : trunc 2.5 = 2 := by
    unfold trunc
    rw [if_pos (by norm_num), Int.floor_eq_iff]
    norm_num
  have h1 : convert uint8 (.float 2.5) = .ok 2 := by
    simp [convert, uint8, ht]
  have h2 : convert uint8 (defaultMaxima uint8) = .ok 255 := by simp [convert, uint8, defaultMaxima]
  simp only [globalThreshold, h1, h2, Option.getD_none]
  refine ⟨_, rfl, ?_, ?_⟩ <;> norm_num [Num.val, uint8, defaultMaxima]

/-- C56 fails with the OpenCV backend: a pixel under the minimum is set to 0. -/
theorem C56_threshold_opencv_fails (minima maxima : ℝ) (h0 : 0 < minima) (h : minima ≤ maxima) (a : Arr) (y x : ℕ)
    (hv : a.im.get y x ≤ minima) : (globalThresholdCV minima maxima a).im.get y x = 0 ∧
      (globalThresholdCV minima maxima a).im.get y x < minima := by
  have : (globalThresholdCV minima maxima a).im.get y x = 0 := by
    unfold globalThresholdCV
    simp only
    rw [if_neg (by linarith : ¬ a.im.get y x > maxima), if_neg (by linarith)]
  exact ⟨this, by rw [this]; exact h0⟩


/-! ## C56: background -/

theorem sorted_perm (l : List ℝ) : (sorted l).Perm l := List.mergeSort_perm _ _

theorem sorted_pairwise (l : List ℝ) : (sorted l).Pairwise (· ≤ ·) := by
  have := List.pairwise_mergeSort (le := fun a b : ℝ => decide (a ≤ b))
    (by intro a b c h1 h2; simp only [decide_eq_true_eq] at *; linarith)
    (by intro a b; simp only [Bool.or_eq_true, decide_eq_true_eq]; exact le_total a b) l
  exact this.imp (by intro a b h; simpa using h)

/-- `m` is the value of rank `k` in the list: it is in the list, at most `k` values are smaller, and more than `k` values
are smaller or equal. -/
def IsRank (k : ℕ) (l : List ℝ) (m : ℝ) : Prop :=
  m ∈ l ∧ l.countP (fun v => decide (v < m)) ≤ k ∧ k < l.countP (fun v => decide (v ≤ m))

theorem sorted_rank (l : List ℝ) (k : ℕ) (hk : k < l.length) : IsRank k l ((sorted l).getD k 0) := by
  have hp := sorted_perm l
  have hs := sorted_pairwise l
  have hk' : k < (sorted l).length := by rw [hp.length_eq]; exact hk
  have e : (sorted l).getD k 0 = (sorted l)[k] := by simp [hk']
  rw [e]
  have hmem : (sorted l)[k] ∈ sorted l := List.getElem_mem _
  have hhigh : ∀ v ∈ (sorted l).drop k, (sorted l)[k] ≤ v := by
    intro v hv
    rw [List.mem_iff_getElem] at hv
    obtain ⟨i, hi, rfl⟩ := hv
    rw [List.getElem_drop]
    rcases Nat.eq_zero_or_pos i with rfl | h
    · simp
    · exact List.pairwise_iff_getElem.1 hs k (k + i) hk' (by simp at hi; omega) (by omega)
  have hlow : ∀ v ∈ (sorted l).take (k + 1), v ≤ (sorted l)[k] := by
    intro v hv
    rw [List.mem_iff_getElem] at hv
    obtain ⟨i, hi, rfl⟩ := hv
    rw [List.getElem_take]
    rcases Nat.eq_or_lt_of_le (show i ≤ k by simp at hi; omega) with rfl | h
    · exact le_refl _
    · exact List.pairwise_iff_getElem.1 hs i k _ hk' h
  generalize (sorted l)[k] = m at *
  refine ⟨hp.mem_iff.1 hmem, ?_, ?_⟩
  · rw [← hp.countP_eq, ← List.take_append_drop k (sorted l), List.countP_append]
    have h0 : ((sorted l).drop k).countP (fun v => decide (v < m)) = 0 := by
      rw [List.countP_eq_zero]
      intro v hv
      simp only [decide_eq_true_eq, not_lt]
      exact hhigh v hv
    rw [h0, Nat.add_zero]
    exact le_trans List.countP_le_length (by simp)
  · rw [← hp.countP_eq, ← List.take_append_drop (k + 1) (sorted l), List.countP_append]
    have h1 : ((sorted l).take (k + 1)).countP (fun v => decide (v ≤ m)) = ((sorted l).take (k + 1)).length := by
      rw [List.countP_eq_length]
      intro v hv
      simpa using hlow v hv
    rw [h1, List.length_take]
    omega

theorem flatMap_const_length {α β : Type} (n : ℕ) (f : α → List β) : ∀ l : List α, (∀ a ∈ l, (f a).length = n) →
    (l.flatMap f).length = l.length * n := by
  intro l
  induction l with
  | nil => simp
  | cons a l ih =>
    intro h
    rw [List.flatMap_cons, List.length_append, h a (by simp), ih (fun b hb => h b (by simp [hb])), List.length_cons]
    ring

theorem windowVals_length (m : Mode) (wy wx : ℕ) (im : Img ℝ) (y x : ℕ) : (windowVals m wy wx im y x).length = wy * wx := by
  unfold windowVals
  rw [flatMap_const_length wx _ _ (by intro a _; simp [window])]
  simp [window]

theorem Rank.index_lt (r : Rank) (n k : ℕ) (hn : 0 < n) (h : r.index n = .ok k) : k < n := by
  unfold Rank.index at h
  cases r with
  | median => cases h; omega
  | minimum => cases h; exact hn
  | percentile p =>
    simp only at h
    generalize (if p < 0 then p + 100 else p) = q at h
    by_cases h1 : q < 0 ∨ 100 < q
    · rw [if_pos h1] at h; cases h
    · rw [if_neg h1] at h
      by_cases h2 : q = 100
      · rw [if_pos h2] at h; cases h; omega
      · rw [if_neg h2] at h
        cases h
        have : q < 100 := lt_of_le_of_ne (not_lt.1 (fun h => h1 (Or.inr h))) h2
        have h0 : 0 ≤ q := not_lt.1 (fun h => h1 (Or.inl h))
        have hn' : (0 : ℝ) < n := Nat.cast_pos.2 hn
        rw [Nat.floor_lt (by positivity), div_lt_iff₀ (by norm_num)]
        nlinarith

/-- C56: the sliding filters.  At all the pixels, the result is the pixel minus the weight times the value of the right
rank in the window around the pixel, or 0 if this is negative: no pixel is negative. -/
theorem C56_sliding (r : Rank) (weight : ℝ) (wy wx : ℕ) (m : Mode) (a out : Arr)
    (h : sliding r weight wy wx m a = .ok out) :
    ∃ k, r.index (wy * wx) = .ok k ∧ out.im.ny = a.im.ny ∧ out.im.nx = a.im.nx ∧ ∀ y x,
      0 ≤ out.im.get y x ∧ ∃ b, IsRank k (windowVals m wy wx a.im y x) b ∧
        out.im.get y x = max 0 (a.im.get y x - weight * b) := by
  unfold sliding at h
  by_cases h0 : wy * wx = 0
  · rw [if_pos h0] at h; cases h
  · rw [if_neg h0] at h
    cases hk : r.index (wy * wx) with
    | error e => rw [hk] at h; cases h
    | ok k =>
      rw [hk] at h
      simp only [Except.ok.injEq] at h
      subst h
      refine ⟨k, rfl, rfl, rfl, ?_⟩
      intro y x
      have hlt := Rank.index_lt r _ k (Nat.pos_of_ne_zero h0) hk
      have hr := sorted_rank (windowVals m wy wx a.im y x) k (by rw [windowVals_length]; exact hlt)
      generalize hb : (sorted (windowVals m wy wx a.im y x)).getD k 0 = b at hr
      simp only [hb]
      refine ⟨?_, b, hr, ?_⟩
      · split_ifs <;> linarith
      · split_ifs with hv
        · rw [max_eq_left (by linarith)]
        · rw [max_eq_right (by linarith)]

theorem index_self (m : Mode) (n i : ℕ) (h : i < n) : m.index n (i : ℤ) = some i := by
  unfold Mode.index
  cases m with
  | reflect =>
    have : ((i : ℤ) % (2 * n)).toNat = i := by
      rw [Int.emod_eq_of_lt (by omega) (by omega)]; simp
    simp only [this, if_pos h]
  | constant => simp only [if_pos (show (0 : ℤ) ≤ i ∧ (i : ℤ) < n by omega), Int.toNat_natCast]
  | nearest => simp only [if_neg (show ¬ ((i : ℤ) < 0) by omega), if_pos (show (i : ℤ) < n by omega), Int.toNat_natCast]
  | mirror =>
    by_cases h1 : n = 1
    · simp only [if_pos h1]; congr 1; omega
    · have : ((i : ℤ) % (2 * (n - 1) : ℕ)).toNat = i := by
        rw [Int.emod_eq_of_lt (by omega) (by omega)]; simp
      simp only [if_neg h1, this, if_pos h]
  | wrap =>
    have : ((i : ℤ) % n).toNat = i := by
      rw [Int.emod_eq_of_lt (by omega) (by omega)]; simp
    simp only [this]

theorem window_center (m : Mode) (n size i : ℕ) (h : i < n) (hs : 0 < size) : some i ∈ window m n size i := by
  unfold window
  rw [List.mem_map]
  refine ⟨size / 2, by rw [List.mem_range]; omega, ?_⟩
  rw [show (i : ℤ) + ((size / 2 : ℕ) : ℤ) - ((size / 2 : ℕ) : ℤ) = i by ring]
  exact index_self m n i h

theorem windowVals_center (m : Mode) (wy wx : ℕ) (im : Img ℝ) (y x : ℕ) (hy : y < im.ny) (hx : x < im.nx)
    (h0 : 0 < wy) (h1 : 0 < wx) : im.get y x ∈ windowVals m wy wx im y x := by
  unfold windowVals
  rw [List.mem_flatMap]
  refine ⟨some y, window_center m im.ny wy y hy h0, ?_⟩
  rw [List.mem_map]
  exact ⟨some x, window_center m im.nx wx x hx h1, rfl⟩

theorem windowVals_nonneg (m : Mode) (wy wx : ℕ) (im : Img ℝ) (hp : ∀ y x, 0 ≤ im.get y x) (y x : ℕ) :
    ∀ v ∈ windowVals m wy wx im y x, 0 ≤ v := by
  intro v hv
  unfold windowVals at hv
  simp only [List.mem_flatMap, List.mem_map] at hv
  obtain ⟨a, _, b, _, rfl⟩ := hv
  unfold valueAt
  split
  · exact hp _ _
  · exact le_refl _

theorem IsRank.le_of_zero {l : List ℝ} {b : ℝ} (h : IsRank 0 l b) : ∀ v ∈ l, b ≤ v := by
  intro v hv
  have := Nat.le_zero.1 h.2.1
  rw [List.countP_eq_zero] at this
  simpa using this v hv

/-- C56: for an image without negative pixels and a weight between 0 and 1, the subtraction of the minimum is not clipped:
the pixel is between 0 and its initial value. -/
theorem C56_sliding_minima (weight : ℝ) (hw : 0 ≤ weight ∧ weight ≤ 1) (wy wx : ℕ) (m : Mode) (a out : Arr)
    (hp : ∀ y x, 0 ≤ a.im.get y x) (h : sliding .minimum weight wy wx m a = .ok out) (y x : ℕ) (hy : y < a.im.ny)
    (hx : x < a.im.nx) :
    ∃ b, (∀ v ∈ windowVals m wy wx a.im y x, b ≤ v) ∧ b ∈ windowVals m wy wx a.im y x ∧
      out.im.get y x = a.im.get y x - weight * b ∧ out.im.get y x ≤ a.im.get y x := by
  have h0 : wy * wx ≠ 0 := by
    intro h0
    unfold sliding at h
    rw [if_pos h0] at h
    cases h
  obtain ⟨k, hk, _, _, hall⟩ := C56_sliding _ _ _ _ _ _ _ h
  cases hk
  obtain ⟨_, b, hb, e⟩ := hall y x
  have hle := hb.le_of_zero
  have hc := hle _ (windowVals_center m wy wx a.im y x hy hx (Nat.pos_of_ne_zero (by intro h; simp [h] at h0))
    (Nat.pos_of_ne_zero (by intro h; simp [h] at h0)))
  have hb0 := windowVals_nonneg m wy wx a.im hp y x b hb.1
  have e' : out.im.get y x = a.im.get y x - weight * b := by
    rw [e, max_eq_right]
    nlinarith [hw.1, hw.2]
  refine ⟨b, hle, hb.1, e', ?_⟩
  rw [e']
  nlinarith [hw.1, hw.2]

/-- C56: an image with a uniform intensity is entirely removed (weight 1), except with the mode "constant". -/
theorem C56_sliding_uniform (r : Rank) (wy wx : ℕ) (m : Mode) (hm : m ≠ .constant) (a out : Arr) (c : ℝ)
    (hc : ∀ y x, a.im.get y x = c) (h : sliding r 1 wy wx m a = .ok out) (y x : ℕ) : out.im.get y x = 0 := by
  obtain ⟨k, _, _, _, hall⟩ := C56_sliding _ _ _ _ _ _ _ h
  obtain ⟨_, b, hb, e⟩ := hall y x
  have : b = c := by
    have := hb.1
    unfold windowVals at this
    simp only [List.mem_flatMap, List.mem_map] at this
    obtain ⟨p, hp, q, hq, rfl⟩ := this
    have hidx : ∀ n i, (m.index n i).isSome := by
      intro n i
      unfold Mode.index
      cases m with
      | constant => exact absurd rfl hm
      | mirror => by_cases h1 : n = 1 <;> simp [h1]
      | _ => rfl
    have hsome : ∀ n size i, ∀ o ∈ window m n size i, ∃ j, o = some j := by
      intro n size i o ho
      unfold window at ho
      rw [List.mem_map] at ho
      obtain ⟨k, _, rfl⟩ := ho
      exact Option.isSome_iff_exists.1 (hidx _ _)
    obtain ⟨i, rfl⟩ := hsome _ _ _ _ hp
    obtain ⟨j, rfl⟩ := hsome _ _ _ _ hq
    exact hc i j
  rw [e, hc, this]
  simp

theorem rank_unique (k : ℕ) (l : List ℝ) (b c : ℝ) (hb : IsRank k l b) (hc : IsRank k l c) : b = c := by
  have key : ∀ b c : ℝ, IsRank k l b → IsRank k l c → ¬ b < c := by
    intro b c hb hc hlt
    have h1 : l.countP (fun v => decide (v ≤ b)) ≤ l.countP (fun v => decide (v < c)) := by
      apply List.countP_mono_left
      intro v _ hv
      simp only [decide_eq_true_eq] at *
      linarith
    have := hb.2.2
    have := hc.2.1
    omega
  exact le_antisymm (not_lt.1 (key c b hc hb)) (not_lt.1 (key b c hb hc))

theorem countP_gt (l : List ℝ) (b : ℝ) :
    l.countP (fun v => decide (b < v)) + l.countP (fun v => decide (v ≤ b)) = l.length := by
  induction l with
  | nil => rfl
  | cons a l ih =>
    simp only [List.countP_cons, List.length_cons, decide_eq_true_eq]
    by_cases h : b < a
    · rw [if_pos h, if_neg (not_le.2 h)]; omega
    · rw [if_neg h, if_pos (not_lt.1 h)]; omega

/-- C56: what is subtracted by the sliding filters, in terms of the values in the window: for the median, at most half of the
values are smaller and less than half are larger; for the minimum, no value is smaller; for the percentile `p`, at most `p` percent
of the values are smaller, and at most `100 - p` percent are larger. -/
theorem C56_rank_values (r : Rank) (l : List ℝ) (k : ℕ) (b : ℝ) (hk : r.index l.length = .ok k) (hne : l ≠ []) (hb : IsRank k l b) :
    b ∈ l ∧ match r with
      | .median => 2 * l.countP (fun v => decide (v < b)) ≤ l.length ∧ 2 * l.countP (fun v => decide (b < v)) < l.length
      | .minimum => ∀ v ∈ l, b ≤ v
      | .percentile p => ∃ q : ℝ, q = (if p < 0 then p + 100 else p) ∧ 0 ≤ q ∧ q ≤ 100
        ∧ (l.countP (fun v => decide (v < b)) : ℝ) ≤ l.length * (q / 100)
        ∧ (l.countP (fun v => decide (b < v)) : ℝ) ≤ l.length * (1 - q / 100) := by
  have hpos : 0 < l.length := List.length_pos_iff.2 hne
  have hc := countP_gt l b
  have h1 := hb.2.1
  have h2 := hb.2.2
  refine ⟨hb.1, ?_⟩
  cases r with
  | median =>
    simp only [Rank.index, Except.ok.injEq] at hk
    constructor <;> omega
  | minimum =>
    simp only [Rank.index, Except.ok.injEq] at hk
    subst hk
    exact hb.le_of_zero
  | percentile p =>
    refine ⟨_, rfl, ?_⟩
    simp only [Rank.index] at hk
    generalize (if p < 0 then p + 100 else p) = q at hk
    by_cases g1 : q < 0 ∨ 100 < q
    · rw [if_pos g1] at hk; cases hk
    · rw [if_neg g1] at hk
      push Not at g1
      have hn' : (0 : ℝ) < l.length := Nat.cast_pos.2 hpos
      have hcr : (l.countP (fun v => decide (b < v)) : ℝ) + (l.countP (fun v => decide (v ≤ b)) : ℝ) = l.length := by
        exact_mod_cast hc
      have h1r : (l.countP (fun v => decide (v < b)) : ℝ) ≤ k := by exact_mod_cast h1
      have h2r : (k : ℝ) + 1 ≤ (l.countP (fun v => decide (v ≤ b)) : ℝ) := by exact_mod_cast h2
      refine ⟨g1.1, g1.2, ?_⟩
      by_cases g2 : q = 100
      · rw [if_pos g2] at hk
        simp only [Except.ok.injEq] at hk
        have : (k : ℝ) + 1 = l.length := by
          have : k + 1 = l.length := by omega
          exact_mod_cast this
        rw [g2]
        constructor <;> nlinarith
      · rw [if_neg g2] at hk
        simp only [Except.ok.injEq] at hk
        have f1 : (k : ℝ) ≤ l.length * q / 100 := by
          rw [← hk]; exact Nat.floor_le (by have := g1.1; positivity)
        have f2 : l.length * q / 100 < (k : ℝ) + 1 := by
          rw [← hk]; exact Nat.lt_floor_add_one _
        constructor <;> nlinarith

/-- Non-vacuity of `C56_rank_values`. -/
example : 2 * [4, 9, 4].countP (fun v : ℝ => decide (4 < v)) < 3 :=
  (C56_rank_values .median [4, 9, 4] 1 4 rfl (by simp) (by norm_num [IsRank, List.countP_cons])).2.2

/-- Non-vacuity of `C56_sliding`: a bright pixel is kept, the background is removed. -/
example : ∃ out, sliding .median 1 1 3 .reflect ⟨uint8, ⟨1, 3, fun _ x => if x = 1 then 9 else 4⟩⟩ = .ok out ∧
    out.im.get 0 1 = 5 ∧ out.im.get 0 0 = 0 := by
  obtain ⟨out, h⟩ : ∃ out, sliding .median 1 1 3 .reflect ⟨uint8, ⟨1, 3, fun _ x => if x = 1 then 9 else 4⟩⟩ = .ok out :=
    ⟨_, rfl⟩
  refine ⟨out, h, ?_⟩
  obtain ⟨k, hk, _, _, hall⟩ := C56_sliding _ _ _ _ _ _ _ h
  cases hk
  constructor
  · obtain ⟨_, b, hb, e⟩ := hall 0 1
    have hv : windowVals .reflect 1 3 ⟨1, 3, fun _ x => if x = 1 then (9 : ℝ) else 4⟩ 0 1 = [4, 9, 4] := by
      simp [windowVals, window, Mode.index, valueAt, List.range_succ]
    rw [hv] at hb
    have : b = 4 := rank_unique _ _ _ _ hb (by norm_num [IsRank, List.countP_cons])
    rw [e, this]
    norm_num
  · obtain ⟨_, b, hb, e⟩ := hall 0 0
    have hv : windowVals .reflect 1 3 ⟨1, 3, fun _ x => if x = 1 then (9 : ℝ) else 4⟩ 0 0 = [4, 4, 9] := by
      simp [windowVals, window, Mode.index, valueAt, List.range_succ]
    rw [hv] at hb
    have : b = 4 := rank_unique _ _ _ _ hb (by norm_num [IsRank, List.countP_cons])
    rw [e, this]
    norm_num

/-- C56 fails with an integer weight (`weight = 1` instead of `1.0`) and an image of 8 bits: a pixel darker than the
background becomes very bright. -/
theorem C56_integer_weight_fails : ∃ out, slidingInt .median 1 1 3 .reflect 8 ⟨1, 3, fun _ x => if x = 1 then 3 else 5⟩ = .ok out ∧
    out.get 0 1 = 254 := by
  refine ⟨_, rfl, ?_⟩
  have hv : windowVals .reflect 1 3 ⟨1, 3, fun _ x => ((if x = 1 then 3 else 5 : ℕ) : ℝ)⟩ 0 1 = [5, 3, 5] := by
    simp [windowVals, window, Mode.index, valueAt, List.range_succ]
  have hb := sorted_rank [5, 3, 5] 1 (by simp)
  have : (sorted [5, 3, 5]).getD 1 0 = 5 := rank_unique _ _ _ _ hb (by norm_num [IsRank, List.countP_cons])
  simp only [hv]
  have e : 1 * 3 / 2 = 1 := rfl
  rw [e, this]
  have f5 : ⌊(5 : ℝ)⌋ = 5 := by norm_num
  rw [f5]
  rfl

/-! ## C70, C56: temporal filters -/

theorem reflect_lt (n : ℕ) (i : ℤ) (hn : 0 < n) : ∃ j < n, Mode.index .reflect n i = some j := by
  have h1 := Int.emod_nonneg i (show (2 * (n : ℤ)) ≠ 0 by omega)
  have h2 := Int.emod_lt_of_pos i (show (0 : ℤ) < 2 * (n : ℤ) by omega)
  refine ⟨_, ?_, rfl⟩
  split_ifs with h <;> omega

theorem windowVals3_length (wt wy wx : ℕ) (ims : List (Img ℝ)) (t y x : ℕ) (hn : 0 < ims.length) :
    (windowVals3 wt wy wx ims t y x).length = wt * wy * wx := by
  unfold windowVals3
  rw [flatMap_const_length (wy * wx)]
  · simp [window]
    ring
  · intro o ho
    unfold window at ho
    rw [List.mem_map] at ho
    obtain ⟨k, _, rfl⟩ := ho
    obtain ⟨j, hj, e⟩ := reflect_lt ims.length ((t : ℤ) + k - (wt / 2 : ℕ)) hn
    simp only [e, Option.bind_some, List.getElem?_eq_getElem hj]
    exact windowVals_length _ _ _ _ _ _

theorem windowVals3_center (wt wy wx : ℕ) (ims : List (Img ℝ)) (t y x : ℕ) (im : Img ℝ) (ht : ims[t]? = some im)
    (hy : y < im.ny) (hx : x < im.nx) (h0 : 0 < wt) (h1 : 0 < wy) (h2 : 0 < wx) :
    im.get y x ∈ windowVals3 wt wy wx ims t y x := by
  obtain ⟨hlt, _⟩ := List.getElem?_eq_some_iff.1 ht
  unfold windowVals3
  rw [List.mem_flatMap]
  refine ⟨some t, window_center _ _ _ _ hlt h0, ?_⟩
  simp only [Option.bind_some, ht]
  exact windowVals_center _ _ _ _ _ _ hy hx h1 h2

/-- C70: each pixel of the result of a temporal filter is the pixel minus the weight times the value of the right rank
among the values in the window in time and space around the pixel. -/
theorem C70_temporal (r : Rank) (weight : ℝ) (w : WindowShape) (s out : Stack) (h : temporal r weight w s = .ok out) :
    ∃ (wt wy wx : ℕ) (k : ℕ), calculWindowshape s.ims.length w = .ok [(wt : ℤ), (wy : ℤ), (wx : ℤ)] ∧
      0 < wt ∧ 0 < wy ∧ 0 < wx ∧ r.index (wt * wy * wx) = .ok k ∧ out.ims.length = s.ims.length ∧
      ∀ t im, s.ims[t]? = some im → ∃ im', out.ims[t]? = some im' ∧ im'.ny = im.ny ∧ im'.nx = im.nx ∧
        ∀ y x, ∃ b, IsRank k (windowVals3 wt wy wx s.ims t y x) b ∧ im'.get y x = im.get y x - weight * b := by
  unfold temporal at h
  cases hw : calculWindowshape s.ims.length w with
  | error e => rw [hw] at h; cases h
  | ok size =>
    rw [hw] at h
    simp only at h
    split at h
    · rename_i wt wy wx
      by_cases h0 : wt ≤ 0 ∨ wy ≤ 0 ∨ wx ≤ 0
      · rw [if_pos h0] at h; cases h
      · rw [if_neg h0] at h
        cases hk : r.index (wt.toNat * wy.toNat * wx.toNat) with
        | error e => simp only [hk] at h; cases h
        | ok k =>
          simp only [hk, Except.ok.injEq] at h
          subst h
          have hpos : 0 < wt.toNat ∧ 0 < wy.toNat ∧ 0 < wx.toNat := by omega
          refine ⟨wt.toNat, wy.toNat, wx.toNat, k, ?_, hpos.1, hpos.2.1, hpos.2.2, hk, by simp, ?_⟩
          · rw [Int.toNat_of_nonneg (by omega), Int.toNat_of_nonneg (by omega), Int.toNat_of_nonneg (by omega)]
          · intro t im ht
            obtain ⟨hlt, _⟩ := List.getElem?_eq_some_iff.1 ht
            refine ⟨⟨im.ny, im.nx, fun y x =>
              im.get y x - weight * (sorted (windowVals3 wt.toNat wy.toNat wx.toNat s.ims t y x)).getD k 0⟩,
              by rw [List.getElem?_mapIdx, ht]; rfl, rfl, rfl, ?_⟩
            intro y x
            refine ⟨_, sorted_rank _ k ?_, rfl⟩
            rw [windowVals3_length _ _ _ _ _ _ _ (by omega)]
            exact Rank.index_lt r _ k (Nat.mul_pos (Nat.mul_pos hpos.1 hpos.2.1) hpos.2.2) hk
    · cases h

/-- C70: a single image is refused, with all the filters and windows. -/
theorem C70_single_image (r : Rank) (weight : ℝ) (w : WindowShape) (s : Stack) (h : s.ims.length ≤ 1) :
    temporal r weight w s = .error .valueError := by
  unfold temporal calculWindowshape
  rw [if_pos h]

/-- C70: with the default window, as many images as there are in the array; with a window (ny, nx), all the images; with a
complete window, this window. -/
theorem C70_windows_partial (nb : ℕ) (h : 2 ≤ nb) :
    calculWindowshape nb .none = .ok [(nb : ℤ), 1, 1] ∧
    (∀ ny nx, calculWindowshape nb (.tuple [ny, nx]) = .ok [(nb : ℤ), ny, nx]) ∧
    (∀ nt ny nx, 2 ≤ nt → calculWindowshape nb (.tuple [nt, ny, nx]) = .ok [nt, ny, nx] ∧
      calculWindowshape nb (.list [nt, ny, nx]) = .ok [nt, ny, nx]) ∧
    (∀ nt, 2 ≤ nt → calculWindowshape nb (.int nt) = .ok [nt, 1, 1]) ∧
    (∀ nt ny nx, nt ≤ 1 → calculWindowshape nb (.tuple [nt, ny, nx]) = .error .valueError ∧
      calculWindowshape nb (.list [nt, ny, nx]) = .error .valueError) := by
  have h' : ¬ nb ≤ 1 := by omega
  refine ⟨?_, ?_, ?_, ?_, ?_⟩
  · simp [calculWindowshape, h']
  · intro ny nx; simp [calculWindowshape, h']
  · intro nt ny nx h2
    have : ¬ nt ≤ 1 := by omega
    simp [calculWindowshape, h', this]
  · intro nt _; simp [calculWindowshape, h']
  · intro nt ny nx h2
    simp [calculWindowshape, h', h2]

/-- C70 fails: a window of one image given as an integer is accepted, and (weight 1) all the images become 0. -/
theorem C70_window_of_one_image_fails (r : Rank) (s out : Stack) (h : temporal r 1 (.int 1) s = .ok out)
    (t : ℕ) (im' : Img ℝ) (ht : out.ims[t]? = some im') (y x : ℕ) (hy : y < im'.ny) (hx : x < im'.nx) : im'.get y x = 0 := by
  obtain ⟨wt, wy, wx, k, hw, h0, h1, h2, _, hlen, hall⟩ := C70_temporal _ _ _ _ _ h
  obtain ⟨hlt, _⟩ := List.getElem?_eq_some_iff.1 ht
  have hlt' : t < s.ims.length := by omega
  obtain ⟨im2, e2, hny, hnx, hv⟩ := hall t s.ims[t] (List.getElem?_eq_getElem hlt')
  rw [ht] at e2
  cases e2
  obtain ⟨b, hb, e⟩ := hv y x
  have hc := windowVals3_center wt wy wx s.ims t y x _ (List.getElem?_eq_getElem hlt') (by omega) (by omega) h0 h1 h2
  have hsz : wt = 1 ∧ wy = 1 ∧ wx = 1 := by
    unfold calculWindowshape at hw
    split at hw
    · cases hw
    · simp only [Except.ok.injEq, List.cons.injEq, and_true] at hw
      omega
  have hl := windowVals3_length wt wy wx s.ims t y x (by omega)
  rw [hsz.1, hsz.2.1, hsz.2.2] at hl hc hb
  obtain ⟨v, hv'⟩ := List.length_eq_one_iff.1 hl
  rw [hv'] at hc
  have hb1 := hb.1
  rw [hv'] at hb1
  simp only [List.mem_singleton] at hc hb1
  rw [e, hc, hb1]
  ring

/-- … and it is accepted for all the arrays with two images or more. -/
theorem C70_window_of_one_image_accepted (s : Stack) (h : 2 ≤ s.ims.length) :
    ∃ out, temporal .median 1 (.int 1) s = .ok out ∧ out.ims.length = s.ims.length := by
  have h' : ¬ s.ims.length ≤ 1 := by omega
  obtain ⟨out, ho⟩ : ∃ out, temporal .median 1 (.int 1) s = .ok out := by
    unfold temporal
    simp only [calculWindowshape, if_neg h']
    exact ⟨_, rfl⟩
  obtain ⟨_, _, _, _, _, _, _, _, _, hl, _⟩ := C70_temporal _ _ _ _ _ ho
  exact ⟨out, ho, hl⟩

/-- C70 fails: a window (ny, nx) given as a list (a list is announced as valid) stops with a `TypeError`. -/
theorem C70_list_fails (nb : ℕ) (h : 2 ≤ nb) (ny nx : ℤ) : calculWindowshape nb (.list [ny, nx]) = .error .typeError := by
  have h' : ¬ nb ≤ 1 := by omega
  simp [calculWindowshape, h']

/-- C56: the subtraction of the temporal minimum (weight between 0 and 1) gives no negative pixel. -/
theorem C56_temporal_minima (weight : ℝ) (hw : 0 ≤ weight ∧ weight ≤ 1) (w : WindowShape) (s out : Stack)
    (hp : ∀ im ∈ s.ims, ∀ y x, 0 ≤ im.get y x) (h : temporal .minimum weight w s = .ok out)
    (t : ℕ) (im' : Img ℝ) (ht : out.ims[t]? = some im') (y x : ℕ) (hy : y < im'.ny) (hx : x < im'.nx) :
    0 ≤ im'.get y x := by
  obtain ⟨wt, wy, wx, k, _, h0, h1, h2, hk, hlen, hall⟩ := C70_temporal _ _ _ _ _ h
  cases hk
  obtain ⟨hlt, _⟩ := List.getElem?_eq_some_iff.1 ht
  have hlt' : t < s.ims.length := by omega
  obtain ⟨im2, e2, hny, hnx, hv⟩ := hall t s.ims[t] (List.getElem?_eq_getElem hlt')
  rw [ht] at e2
  cases e2
  obtain ⟨b, hb, e⟩ := hv y x
  have hc := hb.le_of_zero _ (windowVals3_center wt wy wx s.ims t y x _ (List.getElem?_eq_getElem hlt') (by omega) (by omega) h0 h1 h2)
  have hpx := hp s.ims[t] (List.getElem_mem _) y x
  rw [e]
  nlinarith [hw.1, hw.2]

/-- C56 fails for the temporal median (and the percentiles): a pixel darker than the background becomes negative. -/
theorem C56_temporal_median_fails : ∃ (out : Stack) (im' : Img ℝ), temporal .median 1 .none
    ⟨uint8, [⟨1, 1, fun _ _ => 5⟩, ⟨1, 1, fun _ _ => 2⟩, ⟨1, 1, fun _ _ => 5⟩]⟩ = .ok out ∧ out.ims[1]? = some im' ∧
      im'.get 0 0 = (-3 : ℝ) := by
  obtain ⟨out, h⟩ : ∃ out, temporal .median 1 .none
    ⟨uint8, [⟨1, 1, fun _ _ => 5⟩, ⟨1, 1, fun _ _ => 2⟩, ⟨1, 1, fun _ _ => 5⟩]⟩ = .ok out := ⟨_, rfl⟩
  obtain ⟨wt, wy, wx, k, hw, _, _, _, hk, _, hall⟩ := C70_temporal _ _ _ _ _ h
  obtain ⟨im', e, _, _, hv⟩ := hall 1 ⟨1, 1, fun _ _ => 2⟩ rfl
  refine ⟨out, im', h, e, ?_⟩
  have hsz : wt = 3 ∧ wy = 1 ∧ wx = 1 := by
    simp [calculWindowshape] at hw
    omega
  obtain ⟨b, hb, e⟩ := hv 0 0
  rw [hsz.1, hsz.2.1, hsz.2.2] at hk hb
  cases hk
  have hv : windowVals3 3 1 1 [⟨1, 1, fun _ _ => 5⟩, ⟨1, 1, fun _ _ => 2⟩, ⟨1, 1, fun _ _ => 5⟩] 1 0 0 = [5, 2, 5] := by
    simp [windowVals3, windowVals, window, Mode.index, valueAt, List.range_succ]
  rw [hv] at hb
  have : b = 5 := rank_unique _ _ _ _ hb (by norm_num [IsRank, List.countP_cons])
  rw [e, this]
  norm_num

/-- C56 fails with the OpenCV backend: a pixel darker than the background (median of 8 bits) becomes negative. -/
theorem C56_opencv_negative_fails (blur : Img ℕ → Img ℕ) (im : Img ℕ) (y x : ℕ)
    (h : im.get y x < (blur ⟨im.ny, im.nx, fun y x => im.get y x % 256⟩).get y x) :
    (slidingMedianCV blur 1 im).get y x < 0 := by
  unfold slidingMedianCV
  simp only [one_mul, sub_neg]
  exact_mod_cast h

/-- C56 fails with the OpenCV backend: the background of an image of more than 8 bits is not removed. -/
theorem C56_opencv_16bits_fails (blur : Img ℕ → Img ℕ) (ny nx c : ℕ)
    (hb : ∀ v y x, (blur ⟨ny, nx, fun _ _ => v⟩).get y x = v) (hc : 256 ≤ c) (y x : ℕ) :
    (slidingMedianCV blur 1 ⟨ny, nx, fun _ _ => c⟩).get y x = ((c - c % 256 : ℕ) : ℚ) ∧
      0 < (slidingMedianCV blur 1 ⟨ny, nx, fun _ _ => c⟩).get y x := by
  have e : (slidingMedianCV blur 1 ⟨ny, nx, fun _ _ => c⟩).get y x = ((c - c % 256 : ℕ) : ℚ) := by
    unfold slidingMedianCV
    simp only [hb]
    rw [Nat.cast_sub (Nat.mod_le _ _)]
    ring
  refine ⟨e, ?_⟩
  rw [e]
  have : 0 < c - c % 256 := by omega
  exact_mod_cast this

/-! ## C71: `rescale_intensity_tanh` -/

theorem tanh_strictMono : StrictMono Real.tanh := by
  intro x y h
  rw [Real.tanh_eq_sinh_div_cosh, Real.tanh_eq_sinh_div_cosh, div_lt_div_iff₀ (Real.cosh_pos x) (Real.cosh_pos y)]
  have h1 : Real.sinh (y - x) = Real.sinh y * Real.cosh x - Real.cosh y * Real.sinh x := Real.sinh_sub y x
  have h2 : 0 < Real.sinh (y - x) := Real.sinh_pos_iff.2 (by linarith)
  linarith

theorem foldl_maxReal_spec (l : List ℝ) (v : ℝ) : l.foldl max v ∈ v :: l ∧ ∀ w ∈ v :: l, w ≤ l.foldl max v := by
  induction l generalizing v with
  | nil => simp
  | cons a l ih =>
    obtain ⟨h1, h2⟩ := ih (max v a)
    simp only [List.foldl_cons]
    constructor
    · rcases List.mem_cons.1 h1 with h | h
      · rw [h]
        rcases max_choice v a with e | e <;> simp [e]
      · simp [h]
    · intro w hw
      have := h2 (max v a) (by simp)
      rcases List.mem_cons.1 hw with rfl | hw
      · exact le_trans (le_max_left _ _) this
      · rcases List.mem_cons.1 hw with rfl | hw
        · exact le_trans (le_max_right _ _) this
        · exact h2 w (by simp [hw])

theorem maxOf_spec (l : List ℝ) (m : ℝ) (h : maxOf l = .ok m) : m ∈ l ∧ ∀ v ∈ l, v ≤ m := by
  cases l with
  | nil => cases h
  | cons v l =>
    cases h
    exact foldl_maxReal_spec l v

theorem maxOf_map (f : ℝ → ℝ) (hf : Monotone f) (l : List ℝ) (m : ℝ) (h : maxOf l = .ok m) : maxOf (l.map f) = .ok (f m) := by
  cases l with
  | nil => cases h
  | cons v l =>
    have h' : (l.map f).foldl max (f v) = f (l.foldl max v) := by
      clear h
      induction l generalizing v with
      | nil => rfl
      | cons a l ih =>
        simp only [List.map_cons, List.foldl_cons]
        rw [← hf.map_max, ih]
    cases h
    exact congrArg Except.ok h'

theorem mem_pixels (im : Img ℝ) (v : ℝ) : v ∈ pixels im ↔ ∃ y < im.ny, ∃ x < im.nx, im.get y x = v := by
  simp only [pixels, List.mem_flatMap, List.mem_map, List.mem_range]

/-- C71: for an image with a positive pixel and a positive threshold, the rescaling succeeds, gives integers, keeps the
order of the intensities, does not change the sign, and the new maximum is the integer part of the old one, at the same
pixels. -/
theorem C71_tanh_partial (t : ℝ) (ht : 0 < t) (a : Arr) (y0 x0 : ℕ) (hy0 : y0 < a.im.ny) (hx0 : x0 < a.im.nx)
    (h0 : 0 < a.im.get y0 x0) (hmax : ∀ y < a.im.ny, ∀ x < a.im.nx, a.im.get y x ≤ a.im.get y0 x0) :
    ∃ out, rescaleTanh (some t) a = .ok out ∧ out.im.ny = a.im.ny ∧ out.im.nx = a.im.nx ∧
      (∀ y x, ∃ z : ℤ, out.im.get y x = z) ∧
      (∀ y x y' x', a.im.get y x ≤ a.im.get y' x' → out.im.get y x ≤ out.im.get y' x') ∧
      (∀ y x, 0 ≤ a.im.get y x → 0 ≤ out.im.get y x) ∧
      out.im.get y0 x0 = (⌊a.im.get y0 x0⌋ : ℝ) ∧ (∀ y < a.im.ny, ∀ x < a.im.nx, out.im.get y x ≤ out.im.get y0 x0) := by
  have hmem : a.im.get y0 x0 ∈ pixels a.im := (mem_pixels _ _).2 ⟨y0, hy0, x0, hx0, rfl⟩
  obtain ⟨m, hm⟩ : ∃ m, maxOf (pixels a.im) = .ok m := by
    cases hp : pixels a.im with
    | nil => rw [hp] at hmem; simp at hmem
    | cons v l => exact ⟨_, rfl⟩
  obtain ⟨hm1, hm2⟩ := maxOf_spec _ _ hm
  have em : m = a.im.get y0 x0 := by
    apply le_antisymm _ (hm2 _ hmem)
    obtain ⟨y, hy, x, hx, e⟩ := (mem_pixels _ _).1 hm1
    rw [← e]
    exact hmax y hy x hx
  have hmono : Monotone fun v => Real.tanh (v / t) := by
    intro u v h
    exact tanh_strictMono.monotone (div_le_div_of_nonneg_right h ht.le)
  have hmt := maxOf_map _ hmono _ _ hm
  have hpos : 0 < Real.tanh (m / t) := by
    have := tanh_strictMono (show (0 : ℝ) < m / t by rw [em]; positivity)
    rwa [Real.tanh_zero] at this
  have hq : 0 < m / Real.tanh (m / t) := div_pos (by rw [em]; exact h0) hpos
  have hmono' : ∀ u v : ℝ, u ≤ v → ((⌊m / Real.tanh (m / t) * Real.tanh (u / t)⌋ : ℤ) : ℝ) ≤ (⌊m / Real.tanh (m / t) * Real.tanh (v / t)⌋ : ℤ) := by
    intro u v h
    have := Int.floor_mono (mul_le_mul_of_nonneg_left (hmono h) hq.le)
    exact_mod_cast this
  refine ⟨⟨.float, ⟨a.im.ny, a.im.nx, fun y x => ⌊m / Real.tanh (m / t) * Real.tanh (a.im.get y x / t)⌋⟩⟩, ?_, rfl, rfl,
    fun y x => ⟨_, rfl⟩, ?_, ?_, ?_, ?_⟩
  · simp only [rescaleTanh, if_neg ht.ne', hm, hmt, if_neg hpos.ne']
  · intro y x y' x' h
    exact hmono' _ _ h
  · intro y x h
    have : (0 : ℤ) ≤ ⌊m / Real.tanh (m / t) * Real.tanh (a.im.get y x / t)⌋ := by
      apply Int.floor_nonneg.2
      apply mul_nonneg hq.le
      have := hmono h
      simpa [Real.tanh_zero] using this
    exact Int.cast_nonneg this
  · simp only [← em]
    rw [div_mul_cancel₀ _ hpos.ne']
  · intro y hy x hx
    exact hmono' _ _ (hmax y hy x hx)

/-- Non-vacuity of `C71_tanh_partial`. -/
example : ∃ out, rescaleTanh (some 3) ⟨uint8, ⟨1, 2, fun _ x => if x = 1 then 7 else 1⟩⟩ = .ok out ∧ out.im.get 0 1 = 7 := by
  obtain ⟨out, h, _, _, _, _, _, h7, _⟩ := C71_tanh_partial 3 (by norm_num) ⟨uint8, ⟨1, 2, fun _ x => if x = 1 then 7 else 1⟩⟩
    0 1 (by simp) (by simp) (by simp) (by intro y _ x _; simp only; split_ifs <;> norm_num)
  refine ⟨out, h, ?_⟩
  rw [h7]
  norm_num

/-- C71 fails for a black image and a threshold given by the user: 0 / 0. -/
theorem C71_black_image_fails (t : ℝ) (ht : t ≠ 0) (d : DType) (ny nx : ℕ) (hy : 0 < ny) (hx : 0 < nx) :
    rescaleTanh (some t) ⟨d, ⟨ny, nx, fun _ _ => 0⟩⟩ = .error .runtime := by
  have hall : ∀ v ∈ pixels ⟨ny, nx, fun _ _ => (0 : ℝ)⟩, v = 0 := by
    intro v hv
    obtain ⟨_, _, _, _, h⟩ := (mem_pixels _ _).1 hv
    exact h.symm
  have hmem : (0 : ℝ) ∈ pixels ⟨ny, nx, fun _ _ => (0 : ℝ)⟩ := (mem_pixels _ _).2 ⟨0, hy, 0, hx, rfl⟩
  generalize hp : pixels ⟨ny, nx, fun _ _ => (0 : ℝ)⟩ = l at *
  obtain ⟨m, hm⟩ : ∃ m, maxOf l = .ok m := by
    cases l with
    | nil => simp at hmem
    | cons v l => exact ⟨_, rfl⟩
  obtain ⟨m', hm'⟩ : ∃ m, maxOf (l.map fun v => Real.tanh (v / t)) = .ok m := by
    cases l with
    | nil => simp at hmem
    | cons v l => exact ⟨_, rfl⟩
  have e : m' = 0 := by
    have := (maxOf_spec _ _ hm').1
    rw [List.mem_map] at this
    obtain ⟨v, hv, rfl⟩ := this
    rw [hall v hv]
    simp
  simp only [rescaleTanh, if_neg ht, hp, hm, hm', e, if_true]

/-- C71 fails for the default threshold and an image of 8 bits: the squares are computed with 8 bits; a uniform image of
intensity 16 is not rescaled, because its mean square is found equal to 0. -/
theorem C71_default_threshold_8bits_fails (ny nx : ℕ) :
    rescaleTanh none ⟨uint8, ⟨ny, nx, fun _ _ => 16⟩⟩ = .ok ⟨uint8, ⟨ny, nx, fun _ _ => 16⟩⟩ := by
  have hsq : square uint8 16 = 0 := by
    have : ⌊(16 : ℝ) ^ 2⌋ = 256 := by
      rw [Int.floor_eq_iff]; norm_num
    simp only [square, uint8, this]
    norm_num
  have hall : ∀ v ∈ pixels ⟨ny, nx, fun _ _ => (16 : ℝ)⟩, v = 16 := by
    intro v hv
    obtain ⟨_, _, _, _, h⟩ := (mem_pixels _ _).1 hv
    exact h.symm
  have hs : ((pixels ⟨ny, nx, fun _ _ => (16 : ℝ)⟩).map (square uint8)).sum = 0 := by
    apply List.sum_eq_zero
    intro v hv
    rw [List.mem_map] at hv
    obtain ⟨w, hw, rfl⟩ := hv
    rw [hall w hw, hsq]
  simp only [rescaleTanh, hs, zero_div, Real.sqrt_zero, mul_zero, if_true]

/-! ## C56: the images of a stack are processed one by one -/

/-- C56: a tool of images applied to a stack gives the result of the tool for each image, in the order of the images, as
floats. -/
theorem C56_iterate (tool : Arr → Except Err Arr) (s out : Stack) (h : iterate tool s = .ok out) :
    out.dtype = .float ∧ out.ims.length = s.ims.length ∧
      ∀ (t : ℕ) im, s.ims[t]? = some im → ∃ o, tool ⟨s.dtype, im⟩ = .ok o ∧ out.ims[t]? = some o.im := by
  unfold iterate at h
  cases hl : iterateLoop s.dtype tool s.ims with
  | error e => rw [hl] at h; cases h
  | ok outs =>
    rw [hl] at h
    cases h
    refine ⟨rfl, ?_⟩
    have key : ∀ (ims outs : List (Img ℝ)), iterateLoop s.dtype tool ims = .ok outs → outs.length = ims.length ∧
        ∀ (t : ℕ) im, ims[t]? = some im → ∃ o, tool ⟨s.dtype, im⟩ = .ok o ∧ outs[t]? = some o.im := by
      intro ims
      induction ims with
      | nil => intro outs h; cases h; simp
      | cons im ims ih =>
        intro outs h
        simp only [iterateLoop] at h
        cases h1 : tool ⟨s.dtype, im⟩ with
        | error e => rw [h1] at h; cases h
        | ok o =>
          cases h2 : iterateLoop s.dtype tool ims with
          | error e => rw [h1, h2] at h; cases h
          | ok os =>
            rw [h1, h2] at h
            cases h
            obtain ⟨ih1, ih2⟩ := ih os h2
            refine ⟨by simp [ih1], ?_⟩
            intro t im' ht
            cases t with
            | zero =>
              cases ht
              exact ⟨o, h1, rfl⟩
            | succ t => exact ih2 t im' ht
    exact key _ _ hl

end Verif
