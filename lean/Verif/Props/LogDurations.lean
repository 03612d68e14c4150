import Verif.Model.LogDurations
import Verif.Props.LogPlot

/-!
# C157: the figures of the durations and of the memory
-/

namespace Verif
open Verif.LogDurations Verif.LogFile Verif.LogPlot Verif.Text

/-! ## Specification -/

/-- The mean of the known durations, if there are some. -/
def IsMeanOf (m : Option ℚ) (l : List ℚ) : Prop := (l = [] → m = none) ∧ (l ≠ [] → ∃ x, m = some x ∧ x * l.length = l.sum)

/-- `a` is the first of these times. -/
def IsFirstOf (a : ℚ) (l : List ℚ) : Prop := a ∈ l ∧ ∀ t ∈ l, a ≤ t

/-- `b` is the last of these times. -/
def IsLastOf (b : ℚ) (l : List ℚ) : Prop := b ∈ l ∧ ∀ t ∈ l, t ≤ b

/-! ## Lemmas -/

theorem ld_min (t : ℚ) (ts : List ℚ) : IsFirstOf (ts.foldl min t) (t :: ts) := by
  induction ts generalizing t with
  | nil => exact ⟨by simp, by simp⟩
  | cons s ts ih =>
    obtain ⟨h1, h2⟩ := ih (min t s)
    rw [List.foldl_cons]
    refine ⟨?_, ?_⟩
    · rcases List.mem_cons.1 h1 with h | h
      · rw [h]
        rcases min_choice t s with h' | h' <;> rw [h'] <;> simp
      · simp [h]
    · intro u hu
      have h3 := h2 _ List.mem_cons_self
      rcases List.mem_cons.1 hu with rfl | hu
      · exact h3.trans (min_le_left _ _)
      · rcases List.mem_cons.1 hu with rfl | hu
        · exact h3.trans (min_le_right _ _)
        · exact h2 u (List.mem_cons_of_mem _ hu)

theorem ld_max (t : ℚ) (ts : List ℚ) : IsLastOf (ts.foldl max t) (t :: ts) := by
  induction ts generalizing t with
  | nil => exact ⟨by simp, by simp⟩
  | cons s ts ih =>
    obtain ⟨h1, h2⟩ := ih (max t s)
    rw [List.foldl_cons]
    refine ⟨?_, ?_⟩
    · rcases List.mem_cons.1 h1 with h | h
      · rw [h]
        rcases max_choice t s with h' | h' <;> rw [h'] <;> simp
      · simp [h]
    · intro u hu
      have h3 := h2 _ List.mem_cons_self
      rcases List.mem_cons.1 hu with rfl | hu
      · exact (le_max_left _ _).trans h3
      · rcases List.mem_cons.1 hu with rfl | hu
        · exact (le_max_right _ _).trans h3
        · exact h2 u (List.mem_cons_of_mem _ hu)

theorem ld_nanmean (l : List (Option ℚ)) : IsMeanOf (nanmean l) (l.filterMap id) := by
  unfold nanmean
  cases h : l.filterMap id with
  | nil => exact ⟨fun _ => rfl, fun h => absurd rfl h⟩
  | cons a t =>
    refine ⟨fun h => by simp at h, fun _ => ⟨_, rfl, ?_⟩⟩
    have : (((a :: t).length : ℕ) : ℚ) ≠ 0 := Nat.cast_ne_zero.2 (by simp)
    exact div_mul_cancel₀ _ this

/-- The durations which are used are those of the launches. -/
theorem ld_durations (works : List Launch) (ended : List Ended) (dur : Launch → Option ℚ)
    (hdur : ∀ w ∈ works, ∀ d, dur w = some d ↔ ⟨w.name, w.key, d⟩ ∈ ended) (name : List Char) :
    durationsOf works ended name = (works.filter fun w => w.name = name).map dur := by
  unfold durationsOf keysOf
  rw [List.map_map]
  apply List.map_congr_left
  intro w hw
  rw [List.mem_filter] at hw
  have hn : w.name = name := by simpa using hw.2
  have hd := hdur w hw.1
  simp only [Function.comp]
  cases hf : (ended.filter fun e => e.name = name).reverse.find? (fun e => e.key = w.key) with
  | none =>
    rw [Option.map_none]
    cases hw' : dur w with
    | none => rfl
    | some d =>
      have hm := (hd d).1 hw'
      rw [List.find?_eq_none] at hf
      have := hf ⟨w.name, w.key, d⟩ (by simpa [hn] using hm)
      simp at this
  | some e =>
    have h1 := List.mem_of_find?_eq_some hf
    have h2 := List.find?_some hf
    simp only [List.mem_reverse, List.mem_filter, decide_eq_true_eq] at h1 h2
    have : e = ⟨w.name, w.key, e.duration⟩ := by
      rw [hn, ← h1.2, ← h2]
    rw [Option.map_some, (hd e.duration).2 (this ▸ h1.1)]

theorem ld_plotNames (works : List Launch) (ended : List Ended) (dur : Launch → Option ℚ)
    (hdur : ∀ w ∈ works, ∀ d, dur w = some d ↔ ⟨w.name, w.key, d⟩ ∈ ended) (names : List (List Char))
    (hnames : ∀ name ∈ names, ∃ w ∈ works, w.name = name) :
    ∃ plots, plotNames works ended names = .ok plots ∧ plots.map NamePlot.name = names ∧
      ∀ p ∈ plots,
        p.points = (works.filter fun w => w.name = p.name).map (fun w => (w.time, dur w)) ∧
        p.segments = (works.filter fun w => w.name = p.name).map (fun w => ((w.time, dur w), ((dur w).map (w.time + ·), dur w))) ∧
        IsFirstOf p.first ((works.filter fun w => w.name = p.name).map Launch.time) ∧
        IsLastOf p.last ((works.filter fun w => w.name = p.name).map Launch.time) ∧
        IsMeanOf p.mean ((works.filter fun w => w.name = p.name).filterMap dur) := by
  induction names with
  | nil => exact ⟨[], rfl, rfl, by simp⟩
  | cons name names ih =>
    obtain ⟨plots, h1, h2, h3⟩ := ih fun n hn => hnames n (List.mem_cons_of_mem _ hn)
    obtain ⟨w0, hw0, hn0⟩ := hnames name List.mem_cons_self
    have hne : ∃ t ts, timesOf works name = t :: ts := by
      cases h : timesOf works name with
      | cons t ts => exact ⟨t, ts, rfl⟩
      | nil =>
        have : w0.time ∈ timesOf works name := List.mem_map_of_mem (List.mem_filter.2 ⟨hw0, by simpa using hn0⟩)
        rw [h] at this
        cases this
    obtain ⟨t, ts, ht⟩ := hne
    have hp : plotName works ended name = .ok ⟨name, (timesOf works name).zip (durationsOf works ended name),
        List.zipWith (fun t d => ((t, d), (d.map (t + ·), d))) (timesOf works name) (durationsOf works ended name),
        ts.foldl min t, ts.foldl max t, nanmean (durationsOf works ended name)⟩ := by
      have e1 : minOf (timesOf works name) = .ok (ts.foldl min t) := by rw [ht]; rfl
      have e2 : maxOf (timesOf works name) = .ok (ts.foldl max t) := by rw [ht]; rfl
      unfold plotName
      simp only [e1, e2]
    refine ⟨⟨name, (timesOf works name).zip (durationsOf works ended name),
        List.zipWith (fun t d => ((t, d), (d.map (t + ·), d))) (timesOf works name) (durationsOf works ended name),
        ts.foldl min t, ts.foldl max t, nanmean (durationsOf works ended name)⟩ :: plots, by simp only [plotNames, hp, h1],
      by rw [List.map_cons, h2], ?_⟩
    intro p hp'
    rcases List.mem_cons.1 hp' with rfl | hp'
    · have ht' : (works.filter fun w => w.name = name).map Launch.time = t :: ts := ht
      simp only [ld_durations works ended dur hdur]
      refine ⟨?_, ?_, ?_, ?_, ?_⟩
      · unfold timesOf
        rw [List.zip_map']
      · unfold timesOf
        rw [List.zipWith_map, List.zipWith_self]
      · rw [ht']; exact ld_min t ts
      · rw [ht']; exact ld_max t ts
      · have := ld_nanmean ((works.filter fun w => w.name = name).map dur)
        rwa [List.filterMap_map, Function.id_comp] at this
    · exact h3 p hp'

/-! ## Theorems -/

/-- **C157**, `plot_durations`: if each launch has at most one end (`dur` is its duration), every name is drawn once, with one point and
one segment (from the start to the end) per launch, which are not drawn for a work which has not ended, and a line at the mean of the
durations of the works which have ended, from the first launch to the last one.  Missing: works with the same name and the same key
(`C157_repeated_fails`). -/
theorem C157_durations_partial (works : List Launch) (ended : List Ended) (dur : Launch → Option ℚ)
    (hdur : ∀ w ∈ works, ∀ d, dur w = some d ↔ ⟨w.name, w.key, d⟩ ∈ ended) :
    ∃ plots, plotDurations works ended = .ok plots ∧ (plots.map NamePlot.name).Nodup ∧
      (∀ name, name ∈ plots.map NamePlot.name ↔ ∃ w ∈ works, w.name = name) ∧
      ∀ p ∈ plots,
        p.points = (works.filter fun w => w.name = p.name).map (fun w => (w.time, dur w)) ∧
        p.segments = (works.filter fun w => w.name = p.name).map (fun w => ((w.time, dur w), ((dur w).map (w.time + ·), dur w))) ∧
        IsFirstOf p.first ((works.filter fun w => w.name = p.name).map Launch.time) ∧
        IsLastOf p.last ((works.filter fun w => w.name = p.name).map Launch.time) ∧
        IsMeanOf p.mean ((works.filter fun w => w.name = p.name).filterMap dur) := by
  obtain ⟨hnd, hmem⟩ := C80_names works
  obtain ⟨plots, h1, h2, h3⟩ := ld_plotNames works ended dur hdur (namesWorks works []) fun name hn => (hmem name).1 hn
  exact ⟨plots, h1, h2 ▸ hnd, fun name => by rw [h2]; exact hmem name, h3⟩

/-- **C157** is false when a key is used twice with the same work (for example a topology computed twice in the same process): the two
launches are drawn with the duration of the second one, and the mean is this duration. -/
theorem C157_repeated_fails (name key : List Char) (m t1 t2 d1 d2 : ℚ) (hd : d1 ≠ d2) :
    ∃ p, plotDurations [⟨name, key, m, t1⟩, ⟨name, key, m, t2⟩] [⟨name, key, d1⟩, ⟨name, key, d2⟩] = .ok [p] ∧
      p.points = [(t1, some d2), (t2, some d2)] ∧ p.mean = some d2 ∧ ¬ IsMeanOf p.mean [d1, d2] := by
  have hn : namesWorks [⟨name, key, m, t1⟩, ⟨name, key, m, t2⟩] [] = [name] := by simp [namesWorks]
  have ht : timesOf [⟨name, key, m, t1⟩, ⟨name, key, m, t2⟩] name = [t1, t2] := by simp [timesOf]
  have hdu := C80_repeated_fails name key m t1 t2 d1 d2
  have hm : nanmean [some d2, some d2] = some d2 := by
    unfold nanmean
    simp only [List.filterMap_cons, id, List.filterMap_nil, List.sum_cons, List.sum_nil, List.length_cons, List.length_nil]
    norm_num
  refine ⟨⟨name, [(t1, some d2), (t2, some d2)], [((t1, some d2), (some (t1 + d2), some d2)), ((t2, some d2), (some (t2 + d2), some d2))],
    min t1 t2, max t1 t2, some d2⟩, ?_, rfl, rfl, ?_⟩
  · unfold plotDurations
    rw [hn]
    simp only [plotNames, plotName, ht, hdu, hm, minOf, maxOf, List.foldl_cons, List.foldl_nil, List.zip_cons_cons, List.zip_nil_right,
      List.zipWith_cons_cons, List.zipWith_nil_right, Option.map_some]
  · rintro ⟨-, h⟩
    obtain ⟨x, hx, h⟩ := h (by simp)
    rw [← Option.some.inj hx] at h
    simp only [List.length_cons, List.length_nil, List.sum_cons, List.sum_nil] at h
    apply hd
    push_cast at h
    linarith

/-- **C157**, `plot_memory`, for an execution in one process: the line is made of one point (time, memory) per launch which is in the
log, in the order of the log, and there is a cross for the start and one for the end; when the execution has been killed there is no
cross for the end (`C157_memory_killed`).  Missing: several processes (`C157_memory_processes_fails`). -/
theorem C157_memory_partial (fl pd : List Char → Option ℚ) (hf : FloatOk fl) (pre mid post : List Event)
    (h : ∀ e ∈ pre ++ mid ++ post, GoodEvent fl e) (hpre : EventsNotHeader pre) (date0 mem0 date1 mem1 : List Char) (t0 t1 m0 m1 : ℚ)
    (hd0 : ∀ c ∈ date0, isSpace c = false) (ht0 : pd date0 = some t0) (hm0 : LogLemmas.IsWord mem0) (hfm0 : fl mem0 = some m0)
    (hd1 : ∀ c ∈ date1, isSpace c = false) (ht1 : pd date1 = some t1) (hm1 : LogLemmas.IsWord mem1) (hfm1 : fl mem1 = some m1)
    (T X : List Char) (hT : LogLemmas.IsWord T) (hX : LogLemmas.IsWord X) (c w n : Int) (files : LogPlot.Files)
    (hfiles : ∀ f ∈ files, isProcessFile f.1 = false) :
    ∃ a, analyse fl pd (.file (pre.map Event.line ++ startLine date0 mem0 :: (headerLines T X c w n ++ mid.map Event.line ++
        stopLine date1 mem1 :: post.map Event.line)) files) = .ok a ∧
      plotMemory a = ((launches fl pre ++ launches fl mid ++ launches fl post).map (fun w => (w.time, w.mem)),
        [(0, m0), (t1 - t0, m1)]) := by
  obtain ⟨d, h1, h2, h3, h4, h5, -⟩ := C132_header fl pd hf pre mid post h hpre date0 mem0 date1 mem1 t0 t1 hd0 ht0
    ⟨hm0, by rw [hfm0]; rfl⟩ hd1 ht1 ⟨hm1, by rw [hfm1]; rfl⟩ T X hT hX c w n
  have hp : processLines files = [] := by
    have : files.filter (fun f => isProcessFile f.1) = [] := List.filter_eq_nil_iff.mpr fun f hf => by simp [hfiles f hf]
    unfold processLines
    rw [this]
    rfl
  rw [hfm0] at h2
  rw [hfm1] at h3
  refine ⟨⟨⟨some c, some w, some T, some X⟩, d.works, d.ended, m0, d.duration, some m1⟩, ?_, ?_⟩
  · unfold analyse chooseLog
    simp only [h1, h2, hp, addProcesses, h3, h4]
    rfl
  · simp only [plotMemory, h4, h5]

/-- **C157**, `plot_memory`, for an execution in one process which has been killed. -/
theorem C157_memory_killed (fl pd : List Char → Option ℚ) (hf : FloatOk fl) (pre mid : List Event)
    (h : ∀ e ∈ pre ++ mid, GoodEvent fl e) (hpre : EventsNotHeader pre) (date0 mem0 : List Char) (t0 m0 : ℚ)
    (hd0 : ∀ c ∈ date0, isSpace c = false) (ht0 : pd date0 = some t0) (hm0 : LogLemmas.IsWord mem0) (hfm0 : fl mem0 = some m0)
    (T X : List Char) (hT : LogLemmas.IsWord T) (hX : LogLemmas.IsWord X) (c w n : Int) (files : LogPlot.Files)
    (hfiles : ∀ f ∈ files, isProcessFile f.1 = false) :
    ∃ a, analyse fl pd (.file (pre.map Event.line ++ startLine date0 mem0 :: (headerLines T X c w n ++ mid.map Event.line)) files) =
        .ok a ∧
      plotMemory a = ((launches fl pre ++ launches fl mid).map (fun w => (w.time, w.mem)), [(0, m0)]) := by
  obtain ⟨d, h1, h2, h3, h4, h5⟩ := C132_killed fl pd hf pre mid h hpre date0 mem0 t0 hd0 ht0 ⟨hm0, by rw [hfm0]; rfl⟩ T X hT hX c w n
  have hp : processLines files = [] := by
    have : files.filter (fun f => isProcessFile f.1) = [] := List.filter_eq_nil_iff.mpr fun f hf => by simp [hfiles f hf]
    unfold processLines
    rw [this]
    rfl
  rw [hfm0] at h2
  refine ⟨⟨⟨some c, some w, some T, some X⟩, d.works, d.ended, m0, none, none⟩, ?_, ?_⟩
  · unfold analyse chooseLog
    simp only [h1, h2, hp, addProcesses, h3, h4]
    rfl
  · simp only [plotMemory, h5]

/-- **C157** is false with several processes: the launches of the processes are put one process after the other, so that the line goes
back in time and joins the memories of different processes. -/
theorem C157_memory_processes_fails : ∃ a, analyse exampleFloat exampleFloat
    (.file [startLine ['1'] ['2'], stopLine ['2'] ['1']]
      [("process_000.txt".toList, [launchLine ['1'] ['r'] ['i'] ['2'], launchLine ['2'] ['r'] ['j'] ['2']]),
        ("process_001.txt".toList, [launchLine ['1'] ['r'] ['k'] ['1']])]) = .ok a ∧
      (plotMemory a).1 = [(1, 2), (2, 2), (1, 1)] ∧ ¬ ((plotMemory a).1.map Prod.fst).Pairwise (· ≤ ·) := by
  refine ⟨⟨Header.empty, [⟨['r'], ['i'], 2, 1⟩, ⟨['r'], ['j'], 2, 2⟩, ⟨['r'], ['k'], 1, 1⟩], [], 2, some 1, some 1⟩, by decide +kernel,
    by decide +kernel, by decide +kernel⟩

/-! ## Examples -/

/-- Non-vacuity of `C157_durations_partial`: two works which have ended and one which has not. -/
example : ∀ w ∈ [(⟨['r'], ['i'], 2, 1⟩ : Launch), ⟨['s'], ['i'], 2, 3⟩, ⟨['r'], ['j'], 2, 5⟩], ∀ d,
    (if w.name = ['s'] then none else if w.key = ['i'] then some (2 : ℚ) else some 4) = some d ↔
      (⟨w.name, w.key, d⟩ : Ended) ∈ [(⟨['r'], ['j'], 4⟩ : Ended), ⟨['r'], ['i'], 2⟩] := by
  intro w hw d
  simp only [List.mem_cons, List.not_mem_nil, or_false] at hw
  rcases hw with rfl | rfl | rfl <;> simp [eq_comm]

example : plotDurations [⟨['r'], ['i'], 2, 1⟩, ⟨['s'], ['i'], 2, 3⟩, ⟨['r'], ['j'], 2, 5⟩] [⟨['r'], ['j'], 4⟩, ⟨['r'], ['i'], 2⟩] =
    .ok [⟨['r'], [(1, some 2), (5, some 4)], [((1, some 2), (some 3, some 2)), ((5, some 4), (some 9, some 4))], 1, 5, some 3⟩,
      ⟨['s'], [(3, none)], [((3, none), (none, none))], 3, 3, none⟩] := by decide +kernel

/-- Non-vacuity of `C157_memory_partial` and `C157_memory_killed`. -/
example : FloatOk exampleFloat ∧ (∀ e ∈ [Event.launch ['1'] ['r'] ['i'] ['2']], GoodEvent exampleFloat e) ∧
    EventsNotHeader [Event.launch ['1'] ['r'] ['i'] ['2']] ∧ LogLemmas.IsWord ['2'] ∧ exampleFloat ['2'] = some 2 ∧
    isProcessFile "log_1.txt".toList = false := by
  refine ⟨⟨by decide, by decide, by decide⟩, ?_, ?_, ⟨by decide, by decide⟩, by decide +kernel, by decide⟩
  · intro e he
    rw [List.mem_singleton] at he
    subst he
    refine ⟨⟨⟨by decide, by decide⟩, rfl⟩, ⟨by decide, by decide, by decide⟩, ?_, ⟨⟨by decide, by decide⟩, rfl⟩⟩
    unfold GoodKey
    decide
  · intro line hl
    simp at hl

end Verif
