import Verif.Model.FieldSeries
import Verif.Props.VectorField
import Verif.Props.Spectrum

/-!
# C126: series of vector fields

A series (`ArrayOfVectorFieldsOnGrid`) is used as a list of fields with times: an operation on the series is the operation on
each of its fields, gives new fields in the same order, and leaves what existed as it was.
-/

namespace Verif
open Verif.PivGrid Verif.VectorField Verif.FieldOps Verif.FieldSeries

/-- The series number `k` contains the fields `Fs`, in this order. -/
def HasFields {α : Type} (w : World α) (k : Nat) (Fs : List (VField α)) : Prop :=
  ∃ s, w.series[k]? = some s ∧ s.refs.map (fun a => w.fields[a]?) = Fs.map some

/-- All the objects of `w` are as they were in `w'`. -/
def Unchanged {α : Type} (w w' : World α) : Prop :=
  (∀ a, a < w.fields.length → w'.fields[a]? = w.fields[a]?) ∧ (∀ k, k < w.series.length → w'.series[k]? = w.series[k]?)

/-- The fields of the series number `k` were not in `w`. -/
def OwnFields {α : Type} (w w' : World α) (k : Nat) : Prop :=
  ∃ s, w'.series[k]? = some s ∧ ∀ a ∈ s.refs, w.fields.length ≤ a

/-- The times of the series number `k`. -/
def timesOf {α : Type} (w : World α) (k : Nat) : Option (List ℚ) := (w.series[k]?).bind Series.times

/-! ## Operations field by field -/

theorem fs_mapLoop {α : Type} (f : VField α → Except PyErr (VField α)) (refs : List Nat) (heap : List (VField α))
    (Fs Gs : List (VField α)) (h : refs.map (fun a => heap[a]?) = Fs.map some) (hf : Fs.map f = Gs.map Except.ok) :
    ∃ r, mapLoop f heap refs = .ok (heap ++ Gs, r) ∧ r.map (fun a => (heap ++ Gs)[a]?) = Gs.map some
      ∧ ∀ a ∈ r, heap.length ≤ a := by
  induction refs generalizing heap Fs Gs with
  | nil =>
    cases Fs with
    | cons _ _ => simp at h
    | nil =>
      cases Gs with
      | cons _ _ => simp at hf
      | nil => exact ⟨[], by simp [mapLoop], by simp, by simp⟩
  | cons a refs ih =>
    cases Fs with
    | nil => simp at h
    | cons F Fs =>
      cases Gs with
      | nil => simp at hf
      | cons G Gs =>
        simp only [List.map_cons, List.cons.injEq] at h hf
        obtain ⟨ha, hrest⟩ := h
        obtain ⟨hFG, hfrest⟩ := hf
        have hrest' : refs.map (fun a => (heap ++ [G])[a]?) = Fs.map some := by
          rw [← hrest]
          apply List.map_congr_left
          intro b hb
          have : heap[b]? ∈ refs.map (fun a => heap[a]?) := List.mem_map.2 ⟨b, hb, rfl⟩
          rw [hrest] at this
          obtain ⟨H, _, hH⟩ := List.mem_map.1 this
          rw [List.getElem?_append_left (List.getElem?_eq_some_iff.1 hH.symm).1]
        obtain ⟨r, h1, h2, h3⟩ := ih (heap ++ [G]) Fs Gs hrest' hfrest
        rw [List.append_assoc, List.singleton_append] at h1 h2
        refine ⟨heap.length :: r, ?_, ?_, ?_⟩
        · simp only [mapLoop, ha, hFG, h1]
        · simp only [List.map_cons]
          rw [h2]
          simp
        · intro b hb
          rcases List.mem_cons.1 hb with rfl | hb
          · exact Nat.le_refl _
          · have := h3 b hb
            simp at this
            omega

/-- C126, general form: the method of a series which applies `f` to its fields gives a new series, made of new fields, with the
results of `f` in the same order; nothing else changes. -/
theorem C126_each_field {α : Type} (f : VField α → Except PyErr (VField α)) (w : World α) (k : Nat) (Fs Gs : List (VField α))
    (h : HasFields w k Fs) (hf : Fs.map f = Gs.map Except.ok) :
    ∃ w' k', mapSeries f w k = .ok (w', k') ∧ HasFields w' k' Gs ∧ Unchanged w w' ∧ OwnFields w w' k'
      ∧ w.series.length ≤ k' := by
  obtain ⟨s, hs, hr⟩ := h
  obtain ⟨r, h1, h2, h3⟩ := fs_mapLoop f s.refs w.fields Fs Gs hr hf
  refine ⟨⟨w.fields ++ Gs, w.series ++ [bare r]⟩, w.series.length, ?_, ?_, ?_, ?_, Nat.le_refl _⟩
  · simp only [mapSeries, hs, h1, alloc]
  · exact ⟨bare r, by simp, by simpa [bare] using h2⟩
  · exact ⟨fun a ha => List.getElem?_append_left ha, fun a ha => List.getElem?_append_left ha⟩
  · exact ⟨bare r, by simp, by simpa [bare] using h3⟩

/-- The first error of a field is the error of the series. -/
theorem C126_error {α : Type} (f : VField α → Except PyErr (VField α)) (w : World α) (k : Nat) (s : Series)
    (hs : w.series[k]? = some s) (a : Nat) (l : List Nat) (hl : s.refs = a :: l) (F : VField α) (ha : w.fields[a]? = some F)
    (e : PyErr) (he : f F = .error e) : mapSeries f w k = .error e := by
  simp only [mapSeries, hs, hl, mapLoop, ha, he]

/-- The function of an operation with a number. -/
def withNumber (op : Op) (c : ℚ) (v : ℚ) : ℚ :=
  match op with
  | .add => v + c
  | .sub => v - c
  | .mul => c * v
  | .div => v / c

/-- The function of an operation with a field. -/
def withValue (op : Op) (a b : ℚ) : ℚ :=
  match op with
  | .add => a + b
  | .sub => a - b
  | .mul => b * a
  | .div => a / b

theorem fs_number (op : Op) (F : VField ℚ) (hF : GoodField F) (c : ℚ) :
    ∃ H, evalField op F (.number c) = .ok H ∧ PointwiseMap (withNumber op c) F H := by
  cases op
  · exact opNumber_ok _ F hF
  · exact opNumber_ok _ F hF
  · exact opNumber_ok _ F hF
  · exact opNumber_ok _ F hF

theorem fs_field (op : Op) (F G : VField ℚ) (hF : GoodField F) (hG : WellShaped G) (hx : G.x = F.x) (hy : G.y = F.y) :
    ∃ H, evalField op F (.field G) = .ok H ∧ Pointwise (withValue op) F G H := by
  cases op
  · exact opField_ok _ F G hF hG hx hy
  · exact opField_ok _ F G hF hG hx hy
  · exact opField_ok _ F G hF hG hx hy
  · exact opField_ok _ F G hF hG hx hy

/-- Results for all the elements of a list. -/
theorem fs_choose {β γ : Type} (f : β → Except PyErr γ) (R : β → γ → Prop) (l : List β)
    (h : ∀ b ∈ l, ∃ c, f b = .ok c ∧ R b c) : ∃ m : List γ, l.map f = m.map Except.ok ∧ List.Forall₂ R l m := by
  induction l with
  | nil => exact ⟨[], rfl, .nil⟩
  | cons b l ih =>
    obtain ⟨c, h1, h2⟩ := h b (by simp)
    obtain ⟨m, h3, h4⟩ := ih (fun b hb => h b (by simp [hb]))
    exact ⟨c :: m, by simp [h1, h3], .cons h2 h4⟩

/-- C126, `series + c`, `series - c`, `series * c`, `series / c`: each value of each field is `v + c`, … -/
theorem C126_number (w : World ℚ) (k : Nat) (Fs : List (VField ℚ)) (h : HasFields w k Fs) (hF : ∀ F ∈ Fs, GoodField F)
    (op : Op) (c : ℚ) :
    ∃ w' k' Gs, binop w op (.series k) (.number c) = .ok (w', .series k') ∧ HasFields w' k' Gs
      ∧ List.Forall₂ (PointwiseMap (withNumber op c)) Fs Gs ∧ Unchanged w w' ∧ OwnFields w w' k' := by
  obtain ⟨Gs, h1, h2⟩ := fs_choose (fun F => evalField op F (.number c)) (PointwiseMap (withNumber op c)) Fs
    (fun F hF' => fs_number op F (hF F hF') c)
  obtain ⟨w', k', h3, h4, h5, h6, _⟩ := C126_each_field (fun F => evalField op F (.number c)) w k Fs Gs h h1
  refine ⟨w', k', Gs, ?_, h4, h2, h5, h6⟩
  have e : (each op (operandOf w (.number c)) : VField ℚ → Except PyErr (VField ℚ)) = fun F => evalField op F (.number c) := rfl
  simp only [binop, seriesOp, e, h3]

/-- C126, `series + field`, …, for a field on the same grid. -/
theorem C126_field (w : World ℚ) (k : Nat) (Fs : List (VField ℚ)) (h : HasFields w k Fs) (hF : ∀ F ∈ Fs, GoodField F)
    (b : Nat) (G : VField ℚ) (hb : w.fields[b]? = some G) (hG : WellShaped G) (hg : ∀ F ∈ Fs, G.x = F.x ∧ G.y = F.y) (op : Op) :
    ∃ w' k' Gs, binop w op (.series k) (.field b) = .ok (w', .series k') ∧ HasFields w' k' Gs
      ∧ List.Forall₂ (fun F H => Pointwise (withValue op) F G H) Fs Gs ∧ Unchanged w w' ∧ OwnFields w w' k' := by
  obtain ⟨Gs, h1, h2⟩ := fs_choose (fun F => evalField op F (.field G)) (fun F H => Pointwise (withValue op) F G H) Fs
    (fun F hF' => fs_field op F G (hF F hF') hG (hg F hF').1 (hg F hF').2)
  obtain ⟨w', k', h3, h4, h5, h6, _⟩ := C126_each_field (fun F => evalField op F (.field G)) w k Fs Gs h h1
  refine ⟨w', k', Gs, ?_, h4, h2, h5, h6⟩
  have e : (each op (operandOf w (.field b)) : VField ℚ → Except PyErr (VField ℚ)) = fun F => evalField op F (.field G) := by
    funext F; simp only [each, operandOf, hb]
  simp only [binop, seriesOp, e, h3]

/-- C126, a number on the left: `c + series` and `c * series` are `series + c` and `series * c`; `0 + series` is the series
itself; `c - series` and `c / series` are errors. -/
theorem C126_left_number (w : World ℚ) (k : Nat) (c : ℚ) :
    (c ≠ 0 → binop w .add (.number c) (.series k) = binop w .add (.series k) (.number c))
    ∧ binop w .add (.number 0) (.series k) = .ok (w, .series k)
    ∧ binop w .mul (.number c) (.series k) = binop w .mul (.series k) (.number c)
    ∧ binop w .sub (.number c) (.series k) = .error .typeError
    ∧ binop w .div (.number c) (.series k) = .error .typeError := by
  refine ⟨fun h => ?_, ?_, rfl, rfl, rfl⟩
  · simp only [binop, reflected, if_neg h]
  · simp only [binop, reflected, if_true]

/-- C126, a field on the left: `field + series` raises `AttributeError`, for all the operators, although `series + field` is
defined (`C126_field`). -/
theorem C126_left_field_fails (w : World ℚ) (op : Op) (a k : Nat) (F : VField ℚ) (ha : w.fields[a]? = some F) :
    binop w op (.field a) (.series k) = .error .attributeError := by
  simp only [binop, fieldOp, ha, operandOf]

/-- C126, two series: they cannot be added, even if they have the same number of fields on the same grid; so
`sum([series0, series1])` raises `AttributeError`. -/
theorem C126_two_series_fails (w : World ℚ) (op : Op) (k m : Nat) (F : VField ℚ) (Fs : List (VField ℚ))
    (h : HasFields w k (F :: Fs)) :
    binop w op (.series k) (.series m) = .error .attributeError
      ∧ pySum w [.series k, .series m] = .error .attributeError := by
  obtain ⟨s, hs, hr⟩ := h
  have h1 : ∀ op : Op, binop w op (.series k) (.series m) = .error .attributeError := by
    intro op
    cases hl : s.refs with
    | nil => rw [hl] at hr; simp at hr
    | cons a l =>
      rw [hl] at hr
      simp only [List.map_cons, List.cons.injEq] at hr
      have := C126_error (each op (operandOf w (.series m))) w k s hs a l hl F hr.1 .attributeError rfl
      simp only [binop, seriesOp, this]
  refine ⟨h1 op, ?_⟩
  have h2 : binop w .add (.number 0) (.series k) = .ok (w, .series k) := (C126_left_number w k 0).2.1
  simp only [pySum, sumVals, h2, h1 .add]

/-- C126, methods of the series: filters and extractions. -/
theorem C126_methods {α : Type} (w : World α) (k : Nat) (Fs : List (VField α)) (h : HasFields w k Fs)
    (f : World α → Nat → Except PyErr (World α × Nat)) (g : VField α → VField α)
    (hf : (∃ med s0 s1 niter valid, f = medianSeries med s0 s1 niter valid ∧ g = fun F => medianFilter med F s0 s1 niter valid)
      ∨ (∃ wsum t s0 s1 niter valid, f = gaussianSeries wsum t s0 s1 niter valid
          ∧ g = fun F => gaussianFilter wsum F t s0 s1 niter valid)
      ∨ (∃ a0 b0 a1 b1, f = extractSeries a0 b0 a1 b1 ∧ g = fun F => extract F a0 b0 a1 b1)
      ∨ (∃ cut, f = truncateSeries cut false ∧ g = fun F => truncate F cut)
      ∨ (∃ cut, f = squareSeries cut ∧ g = fun F => extractSquare F cut true)) :
    ∃ w' k', f w k = .ok (w', k') ∧ HasFields w' k' (Fs.map g) ∧ Unchanged w w' ∧ OwnFields w w' k' := by
  have key : ∀ q : VField α → Except PyErr (VField α), (∀ F, q F = .ok (g F)) → f w k = mapSeries q w k →
      ∃ w' k', f w k = .ok (w', k') ∧ HasFields w' k' (Fs.map g) ∧ Unchanged w w' ∧ OwnFields w w' k' := by
    intro q hq e
    obtain ⟨w', k', h1, h2, h3, h4, _⟩ := C126_each_field q w k Fs (Fs.map g) h (by simp [hq])
    exact ⟨w', k', by rw [e, h1], h2, h3, h4⟩
  rcases hf with ⟨med, s0, s1, n, v, rfl, rfl⟩ | ⟨ws, t, s0, s1, n, v, rfl, rfl⟩ | ⟨a0, b0, a1, b1, rfl, rfl⟩ | ⟨cut, rfl, rfl⟩
    | ⟨cut, rfl, rfl⟩
  · exact key _ (fun _ => rfl) rfl
  · exact key _ (fun _ => rfl) rfl
  · exact key _ (fun _ => rfl) rfl
  · exact key _ (fun F => by simp) rfl
  · exact key _ (fun _ => rfl) rfl

/-- A session with one field and one series which contains it twice. -/
def sessionExample : World ℚ := ⟨[fieldExample], [bare [0, 0]]⟩

theorem sessionExample_fields : HasFields sessionExample 0 [fieldExample, fieldExample] := ⟨bare [0, 0], rfl, rfl⟩

example : HasFields sessionExample 0 [fieldExample, fieldExample] ∧ (∀ F ∈ [fieldExample, fieldExample], GoodField F) :=
  ⟨sessionExample_fields, by simp [fieldExample_good]⟩

/-! ## Sum of the fields of a series -/

theorem fs_sumVals (l : List Nat) (heap : List (VField ℚ)) (series : List Series) (r : Nat) :
    sumVals ⟨heap, series⟩ (.field r) (l.map Val.field) = match sumLoop heap r l with
      | .error e => .error e
      | .ok (heap', a) => .ok (⟨heap', series⟩, .field a) := by
  induction l generalizing heap r with
  | nil => rfl
  | cons b l ih =>
    simp only [List.map_cons, sumVals, binop, fieldOp, operandOf, sumLoop]
    cases h1 : heap[r]? with
    | none => simp
    | some R =>
      cases h2 : heap[b]? with
      | none => simp
      | some P =>
        simp only [evalField]
        cases add R (.field P) with
        | error e => rfl
        | ok S => exact ih (heap ++ [S]) heap.length

/-- C126, `sum(series)`: the sum of the values of all the fields at each point of the grid, without a change of the fields.
The sum of a series of one field is this field itself, not a copy. -/
theorem C126_sum (w : World ℚ) (k : Nat) (s : Series) (hs : w.series[k]? = some s) (F : VField ℚ) (Fs : List (VField ℚ))
    (hr : s.refs.map (fun a => w.fields[a]?) = (F :: Fs).map some) (hF : GoodField F) (hsame : SameGrid F Fs) :
    (∃ w' a H, pySum w (s.refs.map Val.field) = .ok (w', .field a) ∧ w'.fields[a]? = some H ∧ Unchanged w w'
      ∧ H.x = F.x ∧ H.y = F.y ∧ (∀ j i, H.vx.get j i = sumAt (fun G => G.vx.get j i) (F :: Fs))
      ∧ (∀ j i, H.vy.get j i = sumAt (fun G => G.vy.get j i) (F :: Fs)))
    ∧ (Fs = [] → ∃ a, s.refs = [a] ∧ pySum w (s.refs.map Val.field) = .ok (w, .field a)) := by
  cases hl : s.refs with
  | nil => rw [hl] at hr; simp at hr
  | cons a l =>
    rw [hl] at hr
    simp only [List.map_cons, List.cons.injEq] at hr
    have e : pySum w ((a :: l).map Val.field) = sumVals w (.field a) (l.map Val.field) := by
      simp only [pySum, List.map_cons, sumVals, binop, reflected, if_true]
    obtain ⟨new, S, b, h1, h2, h3, h4, h5, h6, h7, h8, h9⟩ := sumLoop_spec l Fs w.fields a F hr.1 hF hsame hr.2
    constructor
    · refine ⟨⟨w.fields ++ new, w.series⟩, b, S, ?_, h2, ⟨fun c hc => List.getElem?_append_left hc, fun _ _ => rfl⟩, h4, h5,
        fun j i => ?_, fun j i => ?_⟩
      · rw [e, fs_sumVals l w.fields w.series a, h1]
      · rw [h7]; simp [sumAt]
      · rw [h8]; simp [sumAt]
    · intro hFs
      subst hFs
      have : l = [] := by simpa using hr.2
      subst this
      exact ⟨a, rfl, by rw [e]; rfl⟩

/-! ## Times -/

/-- C126, `set_timestep`: the time of the field number `i` is `i * timestep`, for all the fields of the series. -/
theorem C126_times (s : Series) (dt : ℚ) (unit : List Char) :
    ∃ ts, (setTimestep s dt unit).times = some ts ∧ ts.length = s.refs.length
      ∧ (∀ (i : Nat), i < s.refs.length → ts[i]? = some (i * dt))
      ∧ (setTimestep s dt unit).refs = s.refs := by
  refine ⟨_, rfl, by simp [linspace], ?_, rfl⟩
  intro i hi
  simp only [linspace, List.getElem?_map, List.getElem?_range hi, Option.map_some, Option.some.injEq, sub_zero, zero_add]
  by_cases h1 : s.refs.length = 1
  · have : i = 0 := by omega
    subst this; simp
  · have : ((s.refs.length : ℚ) - 1) ≠ 0 := by
      intro hc
      have : (s.refs.length : ℚ) = 1 := by linarith
      exact h1 (by exact_mod_cast this)
    field_simp

/-- C126, times after an operation: the result of an operation or of a method has no times, whatever the times of the series,
so its temporal Fourier transform raises `RuntimeError`. -/
theorem C126_times_lost_fails {α : Type} (f : VField α → Except PyErr (VField α)) (w w' : World α) (k k' : Nat)
    (h : mapSeries f w k = .ok (w', k')) : timesOf w' k' = none := by
  unfold mapSeries at h
  cases hs : w.series[k]? with
  | none => simp [hs] at h
  | some s =>
    simp only [hs] at h
    cases hm : mapLoop f w.fields s.refs with
    | error e => simp [hm] at h
    | ok p =>
      simp only [hm, alloc, Except.ok.injEq, Prod.mk.injEq] at h
      obtain ⟨rfl, rfl⟩ := h
      simp [timesOf, bare]

/-- C126, times of a part of a series: they are lost too. -/
theorem C126_times_slice_fails {α : Type} (w w' : World α) (k k' : Nat) (sl : Slice) (h : getSlice w k sl = .ok (w', k')) :
    timesOf w' k' = none := by
  unfold getSlice at h
  cases hs : w.series[k]? with
  | none => simp [hs] at h
  | some s =>
    simp only [hs] at h
    cases hm : sl.of s.refs with
    | error e => simp [hm] at h
    | ok p =>
      simp only [hm, alloc, Except.ok.injEq, Prod.mk.injEq] at h
      obtain ⟨rfl, rfl⟩ := h
      simp [timesOf, bare]

/-- C126, times after `append`, `extend` or `del`: they are those of the previous fields; after `del series[0]`, the time of each
field is wrong by one step. -/
theorem C126_times_stale_fails (s : Series) (dt : ℚ) (unit : List Char) (a b : Nat) (l : List Nat) (hr : s.refs = a :: b :: l) :
    (∀ c, (append (setTimestep s dt unit) c).times = (setTimestep s dt unit).times
      ∧ (append (setTimestep s dt unit) c).refs.length = s.refs.length + 1)
    ∧ ∃ s', delInt (setTimestep s dt unit) 0 = .ok s' ∧ s'.refs = b :: l ∧ s'.times = (setTimestep s dt unit).times := by
  refine ⟨fun c => ⟨rfl, by simp [append, setTimestep]⟩, ?_⟩
  have hp : position (setTimestep s dt unit).refs.length 0 = .ok 0 := by
    simp [position, setTimestep, hr]
    omega
  refine ⟨{ (setTimestep s dt unit) with refs := (setTimestep s dt unit).refs.eraseIdx 0 }, ?_, ?_, rfl⟩
  · simp only [delInt, hp]
  · simp [setTimestep, hr]

/-! ## Indexing -/

theorem fs_adjust (n : Nat) (lo hi i : Int) (h : lo ≤ hi) : lo ≤ adjust n lo hi i ∧ adjust n lo hi i ≤ hi := by
  unfold adjust
  simp only
  split_ifs <;> omega

theorem fs_walk_up (n : Nat) (a b st : Int) (ha : 0 ≤ a) (hb : b ≤ n) (hst : 0 < st) : ∀ i ∈ walk a b st, i < n := by
  intro i hi
  unfold walk at hi
  simp only [gt_iff_lt, hst, if_true] at hi
  obtain ⟨m, hm, rfl⟩ := List.mem_map.1 hi
  have hm := List.mem_range.1 hm
  split_ifs at hm with h
  · have hq : (m : Int) ≤ (b - a - 1) / st := by
      have : 0 ≤ (b - a - 1) / st := Int.ediv_nonneg (by omega) (by omega)
      omega
    have h4 : (m : Int) * st ≤ b - a - 1 :=
      calc (m : Int) * st ≤ (b - a - 1) / st * st := by nlinarith
        _ ≤ b - a - 1 := Int.ediv_mul_le _ (by omega)
    have h5 : 0 ≤ (m : Int) * st := by positivity
    omega
  · omega

theorem fs_walk_down (n : Nat) (a b st : Int) (ha : a ≤ n - 1) (hb : -1 ≤ b) (hst : st < 0) : ∀ i ∈ walk a b st, i < n := by
  intro i hi
  unfold walk at hi
  simp only [gt_iff_lt, if_neg (show ¬ 0 < st by omega)] at hi
  obtain ⟨m, hm, rfl⟩ := List.mem_map.1 hi
  have hm := List.mem_range.1 hm
  split_ifs at hm with h
  · have hq : (m : Int) ≤ (a - b - 1) / (-st) := by
      have : 0 ≤ (a - b - 1) / (-st) := Int.ediv_nonneg (by omega) (by omega)
      omega
    have h5 : (m : Int) * st ≤ 0 := by nlinarith
    omega
  · omega

/-- The indices of a slice are indices of the list, so nothing is dropped. -/
theorem C126_slice_indices (s : Slice) (n : Nat) (is : List Nat) (h : s.indices n = .ok is) : ∀ i ∈ is, i < n := by
  unfold Slice.indices at h
  simp only at h
  split_ifs at h with h0 h1
  · rw [← Except.ok.inj h]
    apply fs_walk_up n _ _ _ _ _ (by omega)
    · cases s.start
      · simp [bound]
      · exact (fs_adjust n 0 n _ (by omega)).1
    · cases s.stop
      · simp [bound]
      · exact (fs_adjust n 0 n _ (by omega)).2
  · rw [← Except.ok.inj h]
    apply fs_walk_down n _ _ _ _ _ (by omega)
    · cases s.start
      · simp [bound]
      · exact (fs_adjust n (-1) (n - 1) _ (by omega)).2
    · cases s.stop
      · simp [bound]
      · exact (fs_adjust n (-1) (n - 1) _ (by omega)).1

/-- The elements of a slice with a positive step: the indices `a`, `a + step`, … which are before `b`, for the bounds `a` and `b`
of the slice between 0 and the length. -/
theorem C126_slice_step (n a b st : Nat) (hb : b ≤ n) (ha : a ≤ n) (hst : 0 < st) (is : List Nat)
    (h : Slice.indices ⟨some a, some b, some st⟩ n = .ok is) :
    (∀ i, i ∈ is ↔ ∃ m, i = a + m * st ∧ i < b) ∧ is.Pairwise (· < ·) := by
  have e1 : bound n 0 n 0 (some (a : Int)) = a := by simp only [bound, adjust]; split_ifs <;> omega
  have e2 : bound n 0 n n (some (b : Int)) = b := by simp only [bound, adjust]; split_ifs <;> omega
  unfold Slice.indices at h
  simp only [Option.getD_some, e1, e2] at h
  rw [if_neg (by omega), if_pos (by omega)] at h
  rw [← Except.ok.inj h]
  unfold walk
  simp only [gt_iff_lt, if_pos (show (0 : Int) < st by omega)]
  constructor
  · intro i
    simp only [List.mem_map, List.mem_range]
    constructor
    · rintro ⟨m, hm, rfl⟩
      have hi : ((a : Int) + m * st).toNat = a + m * st := by
        have : ((a : Int) + m * st) = ((a + m * st : Nat) : Int) := by push_cast; rfl
        rw [this, Int.toNat_natCast]
      refine ⟨m, hi, ?_⟩
      rw [hi]
      split_ifs at hm with h
      · have hq : (m : Int) ≤ ((b : Int) - a - 1) / st := by
          have : 0 ≤ ((b : Int) - a - 1) / st := Int.ediv_nonneg (by omega) (by omega)
          omega
        have h4 : (m : Int) * st ≤ b - a - 1 :=
          calc (m : Int) * st ≤ ((b : Int) - a - 1) / st * st := by nlinarith
            _ ≤ b - a - 1 := Int.ediv_mul_le _ (by omega)
        have : ((m * st : Nat) : Int) ≤ b - a - 1 := by push_cast; exact h4
        omega
      · omega
    · rintro ⟨m, rfl, hm⟩
      have h5 : ((m * st : Nat) : Int) ≤ b - a - 1 := by omega
      have h6 : (m : Int) ≤ ((b : Int) - a - 1) / st := by
        rw [Int.le_ediv_iff_mul_le (by omega)]
        push_cast at h5; exact h5
      refine ⟨m, ?_, ?_⟩
      · rw [if_pos (by omega)]
        have : 0 ≤ ((b : Int) - a - 1) / st := by omega
        omega
      · have : ((a : Int) + m * st) = ((a + m * st : Nat) : Int) := by push_cast; rfl
        rw [this, Int.toNat_natCast]
  · rw [List.pairwise_map]
    apply List.pairwise_lt_range.imp
    intro m m' hm
    have h1 : ((a : Int) + m * st) = ((a + m * st : Nat) : Int) := by push_cast; rfl
    have h2 : ((a : Int) + m' * st) = ((a + m' * st : Nat) : Int) := by push_cast; rfl
    rw [h1, h2, Int.toNat_natCast, Int.toNat_natCast]
    have := Nat.mul_lt_mul_of_pos_right hm hst
    omega

/-- A negative bound of a slice is counted from the end: `series[-k:b:step]` is `series[n - k:b:step]` and `series[a:-k:step]` is
`series[a:n - k:step]`, for every step (positive or negative). -/
theorem C126_slice_negative (n k : Nat) (hk : 1 ≤ k) (hkn : k ≤ n) (other step : Option Int) :
    Slice.indices ⟨some (-(k : Int)), other, step⟩ n = Slice.indices ⟨some ((n : Int) - k), other, step⟩ n ∧
      Slice.indices ⟨other, some (-(k : Int)), step⟩ n = Slice.indices ⟨other, some ((n : Int) - k), step⟩ n := by
  have e : ∀ lo hi, adjust n lo hi (-(k : Int)) = adjust n lo hi ((n : Int) - k) := by
    intro lo hi
    have : (if -(k : Int) < 0 then -(k : Int) + n else -k) = (if (n : Int) - k < 0 then (n : Int) - k + n else n - k) := by
      rw [if_pos (by omega), if_neg (by omega)]
      omega
    simp only [adjust, this]
  constructor <;> simp only [Slice.indices, bound, e]

example : Slice.indices ⟨some (-2), none, none⟩ 5 = .ok [3, 4] ∧ Slice.indices ⟨none, some (-2), none⟩ 5 = .ok [0, 1, 2] := by decide

/-- The full slice with a step of one keeps everything. -/
theorem C126_slice_full {β : Type} (l : List β) : Slice.of ⟨none, none, none⟩ l = .ok l := by
  have h : Slice.indices ⟨none, none, none⟩ l.length = .ok (List.range l.length) := by
    unfold Slice.indices
    simp only [Option.getD_none, bound]
    rw [if_neg (by decide), if_pos (by decide)]
    congr 1
    unfold walk
    simp only [gt_iff_lt, show (0 : Int) < 1 from by decide, if_true]
    by_cases hl : (0 : Int) < l.length
    · rw [if_pos hl]
      have : (((l.length : Int) - 0 - 1) / 1 + 1).toNat = l.length := by omega
      rw [this]
      conv_rhs => rw [← List.map_id (List.range l.length)]
      apply List.map_congr_left
      intro i _
      simp
    · rw [if_neg hl]
      have : l.length = 0 := by omega
      rw [this]; rfl
  simp only [Slice.of, h]
  congr 1
  clear h
  induction l using List.reverseRecOn with
  | nil => rfl
  | append_singleton l a ih =>
    simp only [List.length_append, List.length_singleton, List.range_succ, List.filterMap_append]
    have : (List.range l.length).filterMap (fun i => (l ++ [a])[i]?) = (List.range l.length).filterMap (fun i => l[i]?) := by
      apply List.filterMap_congr
      intro i hi
      rw [List.getElem?_append_left (List.mem_range.1 hi)]
    rw [this, ih]
    simp

/-- C126, a slice contains the fields themselves: its elements are elements of the series, in the order of the indices. -/
theorem C126_slice {α : Type} (w w' : World α) (k k' : Nat) (s : Series) (hs : w.series[k]? = some s) (sl : Slice)
    (h : getSlice w k sl = .ok (w', k')) :
    ∃ is s', sl.indices s.refs.length = .ok is ∧ w'.series[k']? = some s' ∧ s'.refs.map some = is.map (fun i => s.refs[i]?)
      ∧ w'.fields = w.fields ∧ Unchanged w w' := by
  unfold getSlice Slice.of at h
  simp only [hs] at h
  cases hm : sl.indices s.refs.length with
  | error e => simp [hm] at h
  | ok is =>
    simp only [hm, alloc, Except.ok.injEq, Prod.mk.injEq] at h
    obtain ⟨rfl, rfl⟩ := h
    refine ⟨is, bare (is.filterMap (fun i => s.refs[i]?)), rfl, by simp, ?_, rfl, fun _ _ => rfl, fun a ha => List.getElem?_append_left ha⟩
    have hin := C126_slice_indices sl _ is hm
    simp only [bare]
    clear hm hs
    induction is with
    | nil => rfl
    | cons i is ih =>
      have hi := hin i (by simp)
      have : s.refs[i]? = some s.refs[i] := List.getElem?_eq_getElem hi
      rw [List.filterMap_cons, this]
      simp only [List.map_cons, this]
      rw [ih (fun j hj => hin j (by simp [hj]))]

/-! ## Regularisation in place -/

theorem fs_regular {α : Type} (F G : VField α) (h : regularizeGrid F = .ok G) : regularizeGrid G = .ok G := by
  have hr : G.regular = true := by
    unfold regularizeGrid at h
    split_ifs at h with h1 h2 h3
    · rw [← Except.ok.inj h]; exact h1
    · cases hx : onlyLastIrregular F.x with
      | error e => simp [hx] at h
      | ok bx =>
        simp only [hx] at h
        cases hy : onlyLastIrregular (if bx then cutX F else F).y with
        | error e => simp [hy] at h
        | ok bY =>
          simp only [hy] at h
          split at h
          · cases h
          · cases h
          · rw [← Except.ok.inj h]
  unfold regularizeGrid
  rw [if_pos hr]

/-- C126, `series.regularize_grid()` without error: every field of the series, and no other one, is regularised (once, even if
it is several times in the series). -/
theorem C126_regularize {α : Type} (refs : List Nat) (heap heap' : List (VField α)) (h : regularizeLoop heap refs = (heap', none)) :
    (∀ a ∈ refs, ∀ F, heap[a]? = some F → ∃ G, regularizeGrid F = .ok G ∧ heap'[a]? = some G)
    ∧ (∀ a, a ∉ refs → heap'[a]? = heap[a]?) := by
  induction refs generalizing heap with
  | nil =>
    simp only [regularizeLoop, Prod.mk.injEq] at h
    rw [h.1]
    exact ⟨by simp, fun _ _ => rfl⟩
  | cons b l ih =>
    simp only [regularizeLoop] at h
    cases hb : heap[b]? with
    | none => simp [hb] at h
    | some B =>
      simp only [hb] at h
      cases hg : regularizeGrid B with
      | error e => simp [hg] at h
      | ok C =>
        simp only [hg] at h
        obtain ⟨h1, h2⟩ := ih (heap.set b C) h
        have hlt := (List.getElem?_eq_some_iff.1 hb).1
        constructor
        · intro a ha F hF
          by_cases hab : a = b
          · subst hab
            have : F = B := by rw [hb] at hF; exact (Option.some.inj hF).symm
            subst this
            have hset : (heap.set a C)[a]? = some C := by rw [List.getElem?_set_self hlt]
            refine ⟨C, hg, ?_⟩
            by_cases hal : a ∈ l
            · obtain ⟨G, g1, g2⟩ := h1 a hal C hset
              rw [fs_regular F C hg] at g1
              rw [← Except.ok.inj g1] at g2
              exact g2
            · rw [h2 a hal, hset]
          · have hal : a ∈ l := by
              rcases List.mem_cons.1 ha with h | h
              · exact absurd h hab
              · exact h
            exact h1 a hal F (by rw [List.getElem?_set_ne (fun h => hab h.symm), hF])
        · intro a ha
          have h3 : a ≠ b := fun h => ha (by simp [h])
          have h4 : a ∉ l := fun h => ha (by simp [h])
          rw [h2 a h4, List.getElem?_set_ne (fun h => h3 h.symm)]

/-- The part of a series shares its fields with the series: a change in place of the part is seen in the series. -/
theorem C126_shared {α : Type} (w w' : World α) (k k' : Nat) (s s' : Series) (hs : w.series[k]? = some s) (sl : Slice)
    (h : getSlice w k sl = .ok (w', k')) (hs' : w'.series[k']? = some s') (heap' : List (VField α))
    (hr : regularizeLoop w'.fields s'.refs = (heap', none)) (a : Nat) (ha : a ∈ s'.refs) (F : VField α)
    (hF : w.fields[a]? = some F) : a ∈ s.refs ∧ ∃ G, regularizeGrid F = .ok G ∧ heap'[a]? = some G := by
  obtain ⟨is, s2, h1, h2, h3, h4, _⟩ := C126_slice w w' k k' s hs sl h
  rw [hs'] at h2
  obtain rfl := Option.some.inj h2
  constructor
  · have : some a ∈ s'.refs.map some := List.mem_map.2 ⟨a, ha, rfl⟩
    rw [h3] at this
    obtain ⟨i, _, hi⟩ := List.mem_map.1 this
    exact List.mem_of_getElem? hi
  · exact (C126_regularize _ _ _ hr).1 a ha F (by rw [h4]; exact hF)

/-- A field whose last column is at an irregular position. -/
def lastIrregular : VField ℚ :=
  ⟨[0, 1, 2, 4], [0, 1], .absent, ⟨2, 4, fun _ i => i⟩, ⟨2, 4, fun _ _ => 0⟩, .num 0, none, false⟩

/-- A field which cannot be regularised. -/
def neverRegular : VField ℚ :=
  ⟨[0, 1, 4, 5], [0, 1], .absent, ⟨2, 4, fun _ i => i⟩, ⟨2, 4, fun _ _ => 0⟩, .num 0, none, false⟩

/-- C126, `series.regularize_grid()` with an error: the fields before the one with the error are changed, so that the fields of
the series do not have the same grid any more. -/
theorem C126_regularize_fails : ∃ heap', regularizeLoop [lastIrregular, neverRegular] [0, 1] = (heap', some .notImplementedError)
    ∧ (heap'[0]?).map (fun F => F.x) = some [0, 1, 2] ∧ (heap'[1]?).map (fun F => F.x) = some [0, 1, 4, 5] := by
  refine ⟨[{ cutX lastIrregular with regular := true }, neverRegular], ?_, ?_, ?_⟩
  · have h1 : regularizeGrid lastIrregular = .ok { cutX lastIrregular with regular := true } := by
      have a : onlyLastIrregular lastIrregular.x = .ok true := by decide +kernel
      have b : onlyLastIrregular (cutX lastIrregular).y = .ok false := by decide +kernel
      have c : gridRegular (cutX lastIrregular).x (cutX lastIrregular).y (cutX lastIrregular).z (cutX lastIrregular).vx
          = .ok true := by decide +kernel
      unfold regularizeGrid
      simp only [a, if_true, b, c, Bool.false_eq_true, if_false]
      rfl
    have h2 : regularizeGrid neverRegular = .error .notImplementedError := by
      have a : onlyLastIrregular neverRegular.x = .ok false := by decide +kernel
      have b : onlyLastIrregular neverRegular.y = .ok false := by decide +kernel
      have c : gridRegular neverRegular.x neverRegular.y neverRegular.z neverRegular.vx = .ok false := by decide +kernel
      unfold regularizeGrid
      simp only [a, b, c, Bool.false_eq_true, if_false]
      rfl
    simp [regularizeLoop, h1, h2]
  · decide +kernel
  · decide +kernel

/-! ## Temporal Fourier transform -/

/-- All the fields are on the same grid. -/
def OneGrid (F : VField ℚ) (l : List (VField ℚ)) : Prop :=
  ∀ G ∈ F :: l, WellShaped G ∧ G.x = F.x ∧ G.y = F.y

theorem fs_sameShapes (F : VField ℚ) (l : List (VField ℚ)) (h : OneGrid F l) :
    (sameShapes F.y.length F.x.length (F :: l) VField.vx && sameShapes F.y.length F.x.length (F :: l) VField.vy) = true := by
  simp only [sameShapes, Bool.and_eq_true, List.all_eq_true, decide_eq_true_eq]
  refine ⟨fun G hG => ?_, fun G hG => ?_⟩
  · obtain ⟨hw, hx, hy⟩ := h G hG
    have := hw.vx; rw [hx, hy] at this; exact this
  · obtain ⟨hw, hx, hy⟩ := h G hG
    have := hw.vy; rw [hx, hy] at this; exact this

/-- C126, temporal Fourier transform of a series of at least two fields after `set_timestep`: there are as many coefficients as
pulsations, and the values of the fields at each point of the grid are the sums of the coefficients times
`exp(i omega t)`, at the times of the fields. -/
theorem C126_temporal_partial (s : Series) (dt : ℚ) (hdt : 0 < dt) (unit : List Char) (F : VField ℚ) (l : List (VField ℚ))
    (h : OneGrid F l) (hlen : s.refs.length = l.length + 1) (hl : l ≠ []) :
    ∃ T, temporalFft (setTimestep s dt unit).times (F :: l) = .ok T ∧ T.ncoef = l.length + 1 ∧ T.nomega = l.length + 1
      ∧ ∀ (t : Nat) (G : VField ℚ), (F :: l)[t]? = some G → ∀ (time : ℚ), ((setTimestep s dt unit).times.getD [])[t]? = some time →
        ∀ j i, (∑ k ∈ Finset.range T.ncoef, T.vx k j i * Complex.exp (Complex.I * (T.omega k : ℂ) * ((time : ℝ) : ℂ)) = (G.vx.get j i : ℂ))
          ∧ (∑ k ∈ Finset.range T.ncoef, T.vy k j i * Complex.exp (Complex.I * (T.omega k : ℂ) * ((time : ℝ) : ℂ)) = (G.vy.get j i : ℂ)) := by
  obtain ⟨ts, h1, h2, h3, _⟩ := C126_times s dt unit
  have hpos : 0 < l.length := List.length_pos_of_ne_nil hl
  have t1 := h3 1 (by omega)
  have t0 := h3 0 (by omega)
  have hd : (((((1 : Nat) : ℚ) * dt - ((0 : Nat) : ℚ) * dt : ℚ)) : ℝ) = (dt : ℝ) := by push_cast; ring
  have hdt' : (0 : ℝ) < (dt : ℝ) := by exact_mod_cast hdt
  rw [h1]
  refine ⟨⟨l.length + 1, ts.length,
      fun k j i => coefficients ts.length (l.length + 1) (dt : ℝ)
        (fun t => ((((F :: l)[t]?).map (fun G => (G.vx.get j i : ℂ))).getD 0)) k,
      fun k j i => coefficients ts.length (l.length + 1) (dt : ℝ)
        (fun t => ((((F :: l)[t]?).map (fun G => (G.vy.get j i : ℂ))).getD 0)) k,
      fun k => Spectrum.omega ts.length (dt : ℝ) k⟩, ?_, ?_⟩
  · simp only [temporalFft, fs_sameShapes F l h, if_true, t1, t0, hd]
  · refine ⟨rfl, by simp [h2, hlen], ?_⟩
    intro t G hG time htime j i
    have ht : t < l.length + 1 := by
      have := (List.getElem?_eq_some_iff.1 hG).1; simpa using this
    simp only [Option.getD_some] at htime
    rw [h3 t (by omega)] at htime
    have htime : time = t * dt := (Option.some.inj htime).symm
    have hn : ts.length = l.length + 1 := by omega
    have hcast : (((time : ℚ) : ℝ) : ℂ) = (((t : ℝ) * (dt : ℝ) : ℝ) : ℂ) := by rw [htime]; push_cast; rfl
    refine ⟨?_, ?_⟩
    · have := C51_coefficients (l.length + 1) (dt : ℝ) hdt'
        (fun t => ((((F :: l)[t]?).map (fun G => (G.vx.get j i : ℂ))).getD 0)) t ht
      simp only [hG, Option.map_some, Option.getD_some] at this
      rw [← this]
      apply Finset.sum_congr rfl
      intro k _
      simp only [hn, coefficients, Spectrum.signalFft, hcast]
    · have := C51_coefficients (l.length + 1) (dt : ℝ) hdt'
        (fun t => ((((F :: l)[t]?).map (fun G => (G.vy.get j i : ℂ))).getD 0)) t ht
      simp only [hG, Option.map_some, Option.getD_some] at this
      rw [← this]
      apply Finset.sum_congr rfl
      intro k _
      simp only [hn, coefficients, Spectrum.signalFft, hcast]

example : OneGrid fieldExample [fieldExample] ∧ (bare [0, 0]).refs.length = [fieldExample].length + 1 :=
  ⟨by intro G hG; simp at hG; subst hG; exact ⟨fieldExample_good.shaped, rfl, rfl⟩, rfl⟩

/-- C126, temporal Fourier transform when a field has been appended after `set_timestep`: no error, and one coefficient more than
there are pulsations. -/
theorem C126_temporal_append_fails (s : Series) (dt : ℚ) (unit : List Char) (c : Nat) (F : VField ℚ) (l : List (VField ℚ))
    (h : OneGrid F l) (hlen : (append (setTimestep s dt unit) c).refs.length = l.length + 1) (hl : 2 ≤ l.length) :
    ∃ T, temporalFft (append (setTimestep s dt unit) c).times (F :: l) = .ok T ∧ T.ncoef = T.nomega + 1 := by
  obtain ⟨ts, h1, h2, h3, _⟩ := C126_times s dt unit
  have h4 : (append (setTimestep s dt unit) c).times = some ts := h1
  have h5 : s.refs.length = l.length := by
    simp [append, setTimestep] at hlen; exact hlen
  have t1 := h3 1 (by omega)
  have t0 := h3 0 (by omega)
  rw [h4]
  simp only [temporalFft, fs_sameShapes F l h, if_true, t1, t0]
  exact ⟨_, rfl, by simp only [h2, h5]⟩

example : (append (setTimestep (bare [0, 0]) 1 ['s']) 0).refs.length = [fieldExample, fieldExample].length + 1 := rfl

/-- C126, temporal Fourier transform without times (for example after a filter, `C126_times_lost_fails`): `RuntimeError`. -/
theorem C126_temporal_times (l : List (VField ℚ)) : temporalFft none l = .error .runtimeError := rfl

/-- A filtered series with times has no temporal Fourier transform. -/
theorem C126_filtered_fails {f : VField ℚ → Except PyErr (VField ℚ)} {w w' : World ℚ} {k k' : Nat}
    (h : mapSeries f w k = .ok (w', k')) (l : List (VField ℚ)) : temporalFft (timesOf w' k') l = .error .runtimeError := by
  rw [C126_times_lost_fails f w w' k k' h]; rfl

example : ∃ w' k', mapSeries (fun F => .ok F) sessionExample 0 = .ok (w', k') := ⟨_, _, rfl⟩

end Verif
