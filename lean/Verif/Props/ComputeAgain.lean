import Verif.Model.ComputeAgain
import Verif.Props.Distribution

/-!
# Computing a topology several times (C133)
-/

namespace Verif
open Verif.Splitters Verif.Distribution Verif.ComputeAgain

/-! ## Specification -/

/-- The items which have to be computed, given the items of the topology and the ones which have a file. -/
def ToBeDone (how : How) (all disk : List Int) : List Int :=
  match how with
  | .recompute => all
  | .complete => all.filter (fun i => decide (i ∉ disk))

/-- The number of processes of a multi executor is at least one. -/
def ComputeAgain.Exec.HasProcess : Exec → Prop
  | .sequential => True
  | .async => True
  | .multiAsync n => 1 ≤ n
  | .multiSubproc n => 1 ≤ n

/-- The executors which are not `multi_exec_async`. -/
def ComputeAgain.Exec.Safe : Exec → Prop
  | .multiAsync _ => False
  | _ => True

/-- A topology which has not been computed, and its items. -/
inductive NewTopology : Topo → List Int → Prop
  | series (how : How) (start stop step : Int) (h : step ≠ 0) :
    NewTopology (newSeries how start stop step) (pyRange start stop step)
  | images (how : How) (items : List Int) : NewTopology (newImages how items) items

/-! ## Lists -/

theorem ca_missing_eq (disk items : List Int) : missing disk items = items.filter (fun i => decide (i ∉ disk)) := by
  unfold missing
  congr 1; funext i
  simp

theorem ca_mem_missing {disk items : List Int} {i : Int} : i ∈ missing disk items ↔ i ∈ items ∧ i ∉ disk := by
  rw [ca_missing_eq, List.mem_filter]; simp

theorem ca_missing_missing {disk disk' items : List Int} (h : ∀ i ∈ disk, i ∈ disk') :
    missing disk' (missing disk items) = missing disk' items := by
  rw [ca_missing_eq, ca_missing_eq, ca_missing_eq, List.filter_filter]
  congr 1; funext i
  by_cases h1 : i ∈ disk
  · simp [h1, h i h1]
  · simp [h1]

theorem ca_missing_self {disk items : List Int} : missing disk (missing disk items) = missing disk items :=
  ca_missing_missing (fun _ h => h)

theorem ca_select (how : How) (all disk : List Int) : select how disk all = ToBeDone how all disk := by
  cases how
  · rfl
  · exact ca_missing_eq disk all

theorem ca_zipIdx_filter_fst {β : Type} (q : β → Bool) (l : List β) (k : Nat) :
    ((l.zipIdx k).filter (fun p => q p.1)).map (fun p => p.1) = l.filter q := by
  induction l generalizing k with
  | nil => rfl
  | cons b l ih =>
    rw [List.zipIdx_cons]
    by_cases h : q b = true
    · rw [List.filter_cons_of_pos (by simpa using h), List.filter_cons_of_pos h, List.map_cons, ih]
    · rw [List.filter_cons_of_neg (by simpa using h), List.filter_cons_of_neg h, ih]

theorem ca_pyRange_nodup (a b s : Int) (h : s ≠ 0) : (pyRange a b s).Nodup := by
  unfold pyRange
  refine List.Nodup.map ?_ List.nodup_range
  intro i j hij
  have : (i : Int) * s = j * s := by simpa using hij
  exact_mod_cast Int.eq_of_mul_eq_mul_right h this

theorem ca_launch {β : Type} (set : β → Series → Series) (hset : ∀ a b s, set b (set a s) = set b s) :
    ∀ (l : List β) (s : Series), launch set s l = ((l.getLast?.map (fun b => set b s)).getD s, l.map (fun b => set b s))
  | [], s => rfl
  | b :: bs, s => by
    unfold launch
    rw [ca_launch set hset bs (set b s)]
    have e : (fun c => set c (set b s)) = (fun c => set c s) := by funext c; exact hset b c s
    simp only [e, List.map_cons]
    cases bs with
    | nil => rfl
    | cons c cs =>
      rw [List.getLast?_cons_cons, List.getLast?_cons]
      rfl

/-! ## One computation -/

/-- One process which has the range of a series. -/
theorem ca_runOne_range (T : Topo) (disk : List Int) (fails : Int → Bool) (s : Series) (hT : T.source = .series s)
    (hh : T.how = .recompute) :
    runOne T disk fails = (s.items, { T with results := T.results ++ succeed fails s.items }) := by
  unfold runOne fill
  rw [hT, hh]
  by_cases h : s.items = []
  · simp [h, succeed, hT, hh]
  · simp [h, hT, hh]

theorem ca_runOne_complete (T : Topo) (disk : List Int) (fails : Int → Bool) (s : Series) (hT : T.source = .series s)
    (hh : T.how = .complete) (hi : s.items ≠ []) :
    runOne T disk fails = (missing disk s.items,
      ⟨T.how, .series { s with index := some (missing disk s.items) }, T.results ++ succeed fails (missing disk s.items)⟩) := by
  unfold runOne fill
  rw [hT, hh]
  simp [hi]

/-- The processes started by `multi_exec_async` in mode `complete`. -/
theorem ca_multi_complete (n : Nat) (hn : 1 ≤ n) (T : Topo) (disk : List Int) (fails : Int → Bool) (s : Series)
    (hT : T.source = .series s) (hh : T.how = .complete) (hi : missing disk s.items ≠ []) :
    ∃ parts last, Spec.IsBalancedPartition parts (missing disk s.items) (min n (missing disk s.items).length) ∧
      (∀ p ∈ parts, p ≠ []) ∧ parts.getLast? = some last ∧
      compute (.multiAsync n) T disk fails =
        (⟨T.how, .series { s with index := some last }, (parts.map (fun p => T.results ++ succeed fails p)).flatten⟩,
          disk ++ succeed fails (missing disk s.items),
          ⟨missing disk s.items, (parts.map (fun p => T.results ++ succeed fails p)).flatten, none⟩) := by
  obtain ⟨parts, h1, h2, h3⟩ := C02_split_list_balanced_partition (missing disk s.items) n hi hn
  have hne : parts ≠ [] := by
    intro h0
    have := h2.glue
    rw [h0] at this
    exact hi this.symm
  refine ⟨parts, parts.getLast hne, h2, h3, List.getLast?_eq_some_getLast hne, ?_⟩
  have hf : (asyncIndicesLists parts).map (fun p => p.1) = parts := by
    unfold asyncIndicesLists
    rw [ca_zipIdx_filter_fst (fun p : List Int => !p.isEmpty)]
    rw [List.filter_eq_self]
    intro p hp
    have := h3 p hp
    cases p with
    | nil => exact absurd rfl this
    | cons => rfl
  have he : expected T disk = missing disk s.items := by unfold expected; rw [hT, hh]
  have hc : asyncComplete (missing disk s.items) n = .ok (asyncIndicesLists parts) := by
    simp only [asyncComplete, h1]; rfl
  have hset : ∀ a b s, setIndex b (setIndex a s) = setIndex b s := fun _ _ _ => rfl
  have hrun : ∀ p ∈ parts, runOne { T with source := .series (setIndex p s) } disk fails =
      (p, ⟨T.how, .series (setIndex p s), T.results ++ succeed fails p⟩) := by
    intro p hp
    rw [ca_runOne_complete ⟨T.how, .series (setIndex p s), T.results⟩ disk fails (setIndex p s) rfl hh (h3 p hp)]
    have hm : missing disk (setIndex p s).items = p := by
      show missing disk p = p
      rw [ca_missing_eq, List.filter_eq_self]
      intro i hip
      have : i ∈ missing disk s.items := by
        rw [← h2.glue]; exact List.mem_flatten.2 ⟨p, hp, hip⟩
      simpa using (ca_mem_missing.1 this).2
    rw [hm]
    rfl
  unfold compute computeMultiAsync
  simp only [hT, he, hi, if_false, hh, hc, hf]
  rw [ca_launch setIndex hset, List.getLast?_eq_some_getLast hne]
  unfold runChildren
  simp only [List.map_map]
  have e1 : parts.map ((fun r : List Int × Topo => r.1) ∘ (fun s => runOne { T with source := .series s } disk fails) ∘
      fun b => setIndex b s) = parts := by
    conv_rhs => rw [← List.map_id parts]
    exact List.map_congr_left (fun p hp => by simp only [Function.comp]; rw [hrun p hp]; rfl)
  have e2 : parts.map ((fun r : List Int × Topo => r.2.results) ∘ (fun s => runOne { T with source := .series s } disk fails) ∘
      fun b => setIndex b s) = parts.map (fun p => T.results ++ succeed fails p) :=
    List.map_congr_left (fun p hp => by simp only [Function.comp]; rw [hrun p hp])
  rw [e1, e2, h2.glue, hh]
  rfl

/-- The processes started by `multi_exec_async` in the other modes. -/
theorem ca_multi_range (n : Nat) (hn : 1 ≤ n) (T : Topo) (disk : List Int) (fails : Int → Bool) (a b st : Int) (hs : st ≠ 0)
    (hT : T.source = .series ⟨a, b, st, none⟩) (hh : T.how = .recompute) (hi : pyRange a b st ≠ []) :
    ∃ (ranges : List Range) (last : Range), Spec.IsBalancedPartition (ranges.map rangeOf) (pyRange a b st) n ∧
      (ranges.filter (fun r => decide (rangeOf r ≠ []))).getLast? = some last ∧ last.2.2 = st ∧
      compute (.multiAsync n) T disk fails =
        (⟨T.how, .series ⟨last.1, last.2.1, last.2.2, none⟩,
            ((ranges.filter (fun r => decide (rangeOf r ≠ []))).map (fun r => T.results ++ succeed fails (rangeOf r))).flatten⟩,
          disk ++ succeed fails (pyRange a b st),
          ⟨pyRange a b st,
            ((ranges.filter (fun r => decide (rangeOf r ≠ []))).map (fun r => T.results ++ succeed fails (rangeOf r))).flatten,
            none⟩) := by
  obtain ⟨ranges, h1, h2, h3⟩ := C01_split_range_balanced_partition a b st n hs hn
  have hfl : ((ranges.filter (fun r => decide (rangeOf r ≠ []))).map rangeOf).flatten = pyRange a b st := by
    rw [← h3.glue]
    clear h1 h2 h3
    induction ranges with
    | nil => rfl
    | cons r rs ih =>
      by_cases h : rangeOf r = []
      · rw [List.filter_cons_of_neg (by simpa using h), ih]
        simp [h]
      · rw [List.filter_cons_of_pos (by simpa using h)]
        simp only [List.map_cons, List.flatten_cons, ih]
  have hne : ranges.filter (fun r => decide (rangeOf r ≠ [])) ≠ [] := by
    intro h0
    rw [h0] at hfl
    exact hi hfl.symm
  have hf : (asyncRanges ranges).map (fun p => p.1) = ranges.filter (fun r => decide (rangeOf r ≠ [])) := by
    unfold asyncRanges
    rw [ca_zipIdx_filter_fst (fun r : Range => decide (rangeLen r.1 r.2.1 r.2.2 ≠ 0))]
    congr 1; funext r
    have : rangeLen r.1 r.2.1 r.2.2 = (rangeOf r).length := by simp [rangeOf, pyRange]
    rw [this]
    simp
  have hset : ∀ a b s, setRange b (setRange a s) = setRange b s := fun _ _ _ => rfl
  have he : expected T disk = pyRange a b st := by unfold expected; rw [hT, hh]
  have hlast : (List.getLast _ hne) ∈ ranges := List.mem_of_mem_filter (List.getLast_mem hne)
  refine ⟨ranges, List.getLast _ hne, h3, List.getLast?_eq_some_getLast hne, h2 _ hlast, ?_⟩
  have hrun : ∀ r : Range, runOne { T with source := .series (setRange r ⟨a, b, st, none⟩) } disk fails =
      (rangeOf r, ⟨T.how, .series (setRange r ⟨a, b, st, none⟩), T.results ++ succeed fails (rangeOf r)⟩) := by
    intro r
    rw [ca_runOne_range ⟨T.how, .series (setRange r ⟨a, b, st, none⟩), T.results⟩ disk fails (setRange r ⟨a, b, st, none⟩) rfl hh]
    rfl
  unfold compute computeMultiAsync
  simp only [hT, he, hi, if_false, hh, h1, hf]
  rw [ca_launch setRange hset, List.getLast?_eq_some_getLast hne]
  unfold runChildren
  simp only [List.map_map]
  have e1 : (ranges.filter (fun r => decide (rangeOf r ≠ []))).map ((fun r : List Int × Topo => r.1) ∘
      (fun s => runOne { T with source := .series s } disk fails) ∘ fun c => setRange c ⟨a, b, st, none⟩) =
      (ranges.filter (fun r => decide (rangeOf r ≠ []))).map rangeOf :=
    List.map_congr_left (fun r _ => by simp only [Function.comp]; rw [hrun r])
  have e2 : (ranges.filter (fun r => decide (rangeOf r ≠ []))).map ((fun r : List Int × Topo => r.2.results) ∘
      (fun s => runOne { T with source := .series s } disk fails) ∘ fun c => setRange c ⟨a, b, st, none⟩) =
      (ranges.filter (fun r => decide (rangeOf r ≠ []))).map (fun r => T.results ++ succeed fails (rangeOf r)) :=
    List.map_congr_left (fun r _ => by simp only [Function.comp]; rw [hrun r])
  rw [e1, e2, hfl, hh]
  rfl

/-- The sub-processes started by `multi_exec_subproc`. -/
theorem ca_multi_subproc (n : Nat) (hn : 1 ≤ n) (T : Topo) (disk : List Int) (fails : Int → Bool)
    (hs : ∀ s, T.source = .series s → s.step ≠ 0) :
    compute (.multiSubproc n) T disk fails =
      if expected T disk = [] then (T, disk, ⟨[], T.results, none⟩)
      else ({ T with results := succeed fails (expected T disk) }, disk ++ succeed fails (expected T disk),
        ⟨expected T disk, succeed fails (expected T disk), none⟩) := by
  have key : ∃ procs, subprocParts n T disk = .ok procs ∧ (procs.map (fun p => p.1)).flatten = expected T disk := by
    unfold subprocParts
    cases hT : T.source with
    | series s =>
      cases hh : T.how with
      | recompute =>
        obtain ⟨procs, h1, h2⟩ := C04_subproc_series s.start s.stop s.step n (hs s hT) hn
        refine ⟨procs, h1, ?_⟩
        rw [show (procs.map (fun p => p.1)).flatten = _ from h2.glue]
        unfold expected; rw [hT, hh]
      | complete =>
        obtain ⟨procs, h1, h2⟩ := C04_subproc_complete (expected T disk) n hn
        exact ⟨procs, h1, h2.glue⟩
    | images items f =>
      obtain ⟨procs, h1, h2⟩ := C04_subproc_complete (expected T disk) n hn
      exact ⟨procs, h1, h2.glue⟩
  obtain ⟨procs, h1, h2⟩ := key
  unfold compute computeMultiSubproc
  simp only [h1, h2]

/-- The processes started by `multi_exec_async` for images. -/
theorem ca_multi_images (n : Nat) (hn : 1 ≤ n) (T : Topo) (disk : List Int) (fails : Int → Bool) (items : List Int)
    (hT : T.source = .images items true) (hi : expected T disk ≠ []) :
    ∃ parts, Spec.IsBalancedPartition parts (expected T disk) (min n (expected T disk).length) ∧
      compute (.multiAsync n) T disk fails =
        (⟨T.how, .images items false, (parts.map (fun p => T.results ++ succeed fails p)).flatten⟩,
          disk ++ succeed fails (expected T disk),
          ⟨expected T disk, (parts.map (fun p => T.results ++ succeed fails p)).flatten, none⟩) := by
  obtain ⟨parts, h1, h2, h3⟩ := C02_split_list_balanced_partition (expected T disk) n hi hn
  refine ⟨parts, h2, ?_⟩
  unfold compute computeMultiAsync
  simp only [hT, hi, if_false, h1, h2.glue]

/-! ## Histories -/

/-- The topology will compute what has to be computed. -/
structure Faithful (all : List Int) (T : Topo) (disk : List Int) : Prop where
  images : ∀ items f, T.source = .images items f → items = all ∧ f = true
  step : ∀ s, T.source = .series s → s.step ≠ 0
  range : ∀ s, T.source = .series s → T.how = .recompute → s.index = none ∧ pyRange s.start s.stop s.step = all
  complete : ∀ s, T.source = .series s → T.how = .complete → missing disk s.items = missing disk all

theorem ca_new {T : Topo} {all : List Int} (h : NewTopology T all) (disk : List Int) : Faithful all T disk := by
  cases h with
  | series how a b st hs =>
    refine ⟨?_, ?_, ?_, ?_⟩
    · intro items f h; cases h
    · intro s h; cases h; exact hs
    · intro s h _; cases h; exact ⟨rfl, rfl⟩
    · intro s h _; cases h; rfl
  | images how items =>
    refine ⟨?_, ?_, ?_, ?_⟩
    · intro items f h; cases h; exact ⟨rfl, rfl⟩
    · intro s h; cases h
    · intro s h _; cases h
    · intro s h _; cases h

theorem Faithful.expected {all : List Int} {T : Topo} {disk : List Int} (h : Faithful all T disk) :
    expected T disk = ToBeDone T.how all disk := by
  rw [← ca_select]
  unfold ComputeAgain.expected
  cases hT : T.source with
  | images items f => rw [(h.images items f hT).1]
  | series s =>
    cases hh : T.how with
    | recompute => exact (h.range s hT hh).2
    | complete => exact h.complete s hT hh

theorem Faithful.fill {all : List Int} {T : Topo} {disk : List Int} (h : Faithful all T disk) :
    (ComputeAgain.fill T disk).1 = ToBeDone T.how all disk := by
  rw [← h.expected]
  unfold ComputeAgain.fill ComputeAgain.expected
  cases hT : T.source with
  | images items f => rfl
  | series s =>
    by_cases hi : s.items = []
    · cases hh : T.how with
      | recompute =>
        obtain ⟨h1, h2⟩ := h.range s hT hh
        have : s.items = pyRange s.start s.stop s.step := by unfold Series.items; rw [h1]
        simp [← this, hi]
      | complete => simp [hi, missing]
    · cases hh : T.how with
      | recompute =>
        obtain ⟨h1, h2⟩ := h.range s hT hh
        have : s.items = pyRange s.start s.stop s.step := by unfold Series.items; rw [h1]
        simp [← this, hi]
      | complete => simp [hi]

theorem ca_in {all : List Int} {T : Topo} {disk : List Int} (h : Faithful all T disk) (seq : Bool) (fails : Int → Bool) :
    computeIn seq T disk fails = ((runOne T disk fails).2, disk ++ succeed fails (ToBeDone T.how all disk),
      ⟨ToBeDone T.how all disk, T.results ++ succeed fails (ToBeDone T.how all disk),
        if seq && (ToBeDone T.how all disk).isEmpty then some .attributeError else none⟩) := by
  have h1 : (runOne T disk fails).1 = ToBeDone T.how all disk := h.fill
  have h2 : (runOne T disk fails).2.results = T.results ++ succeed fails (ToBeDone T.how all disk) := by
    show (ComputeAgain.fill T disk).2.results ++ succeed fails (ComputeAgain.fill T disk).1 = _
    rw [h.fill]
    congr 1
    unfold ComputeAgain.fill
    cases hT : T.source with
    | images items f => rfl
    | series s =>
      by_cases hi : s.items = []
      · simp [hi]
      · cases hh : T.how <;> simp [hi]
  unfold computeIn
  cases hT : T.source with
  | images items f =>
    rw [(h.images items f hT).2]
    simp only [h1, h2, h.expected]
  | series s => simp only [h1, h2, h.expected]

/-- A computation which is not made with `multi_exec_async` keeps the topology faithful. -/
theorem Faithful.compute {all : List Int} {T : Topo} {disk : List Int} (h : Faithful all T disk) (e : Exec) (he : e.Safe)
    (hp : e.HasProcess) (fails : Int → Bool) :
    Faithful all (compute e T disk fails).1 (compute e T disk fails).2.1 ∧ (compute e T disk fails).1.how = T.how := by
  have hin : Faithful all (runOne T disk fails).2 (disk ++ succeed fails (ToBeDone T.how all disk)) ∧
      (runOne T disk fails).2.how = T.how := by
    cases hT : T.source with
    | images items f =>
      have hr : (runOne T disk fails).2 = { T with results := T.results ++ succeed fails (ToBeDone T.how all disk) } := by
        have : (ComputeAgain.fill T disk) = (ToBeDone T.how all disk, T) := by
          rw [← h.fill]; unfold ComputeAgain.fill; rw [hT]
        unfold runOne; rw [this]
      rw [hr]
      refine ⟨⟨?_, ?_, ?_, ?_⟩, rfl⟩
      · exact fun items f hh => h.images items f hh
      · intro s hh; rw [show T.source = _ from hh] at hT; cases hT
      · intro s hh _; rw [show T.source = _ from hh] at hT; cases hT
      · intro s hh _; rw [show T.source = _ from hh] at hT; cases hT
    | series s =>
      cases hh : T.how with
      | recompute =>
        rw [ca_runOne_range T disk fails s hT hh]
        refine ⟨⟨h.images, h.step, h.range, ?_⟩, hh⟩
        intro s' _ h'
        exact absurd (hh.symm.trans h') (by decide)
      | complete =>
        by_cases hi : s.items = []
        · have hr : runOne T disk fails = ([], { T with results := T.results ++ [] }) := by
            unfold runOne ComputeAgain.fill; rw [hT]; simp [hi, succeed, hT]
          rw [hr]
          refine ⟨⟨h.images, h.step, h.range, ?_⟩, hh⟩
          intro s' hs' h'
          have e1 := h.complete s' hs' h'
          rw [← ca_missing_missing (disk := disk) (items := s'.items) (fun i hi => List.mem_append_left _ hi), e1,
            ca_missing_missing (fun i hi => List.mem_append_left _ hi)]
        · rw [ca_runOne_complete T disk fails s hT hh hi]
          refine ⟨⟨?_, ?_, ?_, ?_⟩, hh⟩
          · intro items f h'; cases h'
          · intro s' h'; cases h'; exact h.step s hT
          · intro s' _ h'; exact absurd (hh.symm.trans h') (by decide)
          · intro s' h' _
            cases h'
            show missing _ (missing disk s.items) = _
            rw [h.complete s hT hh, ca_missing_missing (fun i hi => List.mem_append_left _ hi)]
  cases e with
  | sequential =>
    show Faithful all (computeIn true T disk fails).1 (computeIn true T disk fails).2.1 ∧ (computeIn true T disk fails).1.how = _
    rw [ca_in h]; exact hin
  | async =>
    show Faithful all (computeIn false T disk fails).1 (computeIn false T disk fails).2.1 ∧
      (computeIn false T disk fails).1.how = _
    rw [ca_in h]; exact hin
  | multiAsync n => exact absurd he (by simp [Exec.Safe])
  | multiSubproc n =>
    rw [ca_multi_subproc n hp T disk fails h.step]
    by_cases h0 : ComputeAgain.expected T disk = []
    · rw [if_pos h0]; exact ⟨h, rfl⟩
    · rw [if_neg h0]
      refine ⟨⟨h.images, h.step, h.range, ?_⟩, rfl⟩
      intro s hs hh
      have e1 := h.complete s hs hh
      rw [← ca_missing_missing (disk := disk) (items := s.items) (fun i hi => List.mem_append_left _ hi), e1,
        ca_missing_missing (fun i hi => List.mem_append_left _ hi)]

/-- What a faithful topology executes, with every executor. -/
theorem Faithful.executed {all : List Int} {T : Topo} {disk : List Int} (h : Faithful all T disk) (e : Exec)
    (hp : e.HasProcess) (fails : Int → Bool) :
    (ComputeAgain.compute e T disk fails).2.2.executed = ToBeDone T.how all disk ∧
    (ComputeAgain.compute e T disk fails).2.1 = disk ++ succeed fails (ToBeDone T.how all disk) ∧
    (ComputeAgain.compute e T disk fails).2.2.error =
      if e = .sequential ∧ ToBeDone T.how all disk = [] then some .attributeError else none := by
  cases e with
  | sequential =>
    show (computeIn true T disk fails).2.2.executed = _ ∧ (computeIn true T disk fails).2.1 = _ ∧
      (computeIn true T disk fails).2.2.error = _
    rw [ca_in h]
    refine ⟨rfl, rfl, ?_⟩
    cases hl : ToBeDone T.how all disk <;> simp
  | async =>
    show (computeIn false T disk fails).2.2.executed = _ ∧ (computeIn false T disk fails).2.1 = _ ∧
      (computeIn false T disk fails).2.2.error = _
    rw [ca_in h]
    exact ⟨rfl, rfl, by simp⟩
  | multiSubproc n =>
    rw [ca_multi_subproc n hp T disk fails h.step, h.expected]
    by_cases h0 : ToBeDone T.how all disk = []
    · simp [h0, succeed]
    · simp [h0]
  | multiAsync n =>
    have he := h.expected
    by_cases h0 : ToBeDone T.how all disk = []
    · have : ComputeAgain.compute (.multiAsync n) T disk fails = (T, disk, ⟨[], T.results, none⟩) := by
        unfold ComputeAgain.compute computeMultiAsync
        cases hT : T.source with
        | images items f => rw [(h.images items f hT).2]; simp only [he, h0, if_true]
        | series s => simp only [he, h0, if_true]
      rw [this, h0]
      simp [succeed]
    · cases hT : T.source with
      | images items f =>
        rw [(h.images items f hT).2] at hT
        obtain ⟨parts, _, h2⟩ := ca_multi_images n hp T disk fails items hT (by rw [he]; exact h0)
        rw [h2, he]
        simp
      | series s =>
        cases hh : T.how with
        | complete =>
          have e1 : missing disk s.items = ToBeDone .complete all disk := by
            rw [← hh, ← he]; unfold ComputeAgain.expected; rw [hT, hh]
          obtain ⟨parts, last, _, _, _, h2⟩ := ca_multi_complete n hp T disk fails s hT hh (by rw [e1, ← hh]; exact h0)
          rw [h2, e1]
          simp
        | recompute =>
          obtain ⟨h1, h2⟩ := h.range s hT hh
          obtain ⟨a, b, st, ix⟩ := s
          simp only at h1 h2
          subst h1
          obtain ⟨rs, last, _, _, _, h3⟩ := ca_multi_range n hp T disk fails a b st (h.step _ hT) hT hh
            (by rw [h2]; rw [hh] at h0; exact h0)
          rw [h3, h2]
          simp [ToBeDone]

/-! ## The properties -/

/-- Only computations, none of them with `multi_exec_async`. -/
def SafeHistory (es : List Event) : Prop := ∀ ev ∈ es, ∃ e fails, ev = .compute e fails ∧ e.Safe ∧ e.HasProcess

theorem ca_history {all : List Int} : ∀ (es : List Event) (w : Topo × List Int), SafeHistory es → Faithful all w.1 w.2 →
    Faithful all (history w es).1 (history w es).2 ∧ (history w es).1.how = w.1.how
  | [], w, _, h => ⟨h, rfl⟩
  | ev :: es, w, hs, h => by
    obtain ⟨e, fails, rfl, h1, h2⟩ := hs ev List.mem_cons_self
    obtain ⟨h3, h4⟩ := h.compute e h1 h2 fails
    obtain ⟨h5, h6⟩ := ca_history es (step w (.compute e fails)) (fun ev' hev => hs ev' (List.mem_cons_of_mem _ hev)) h3
    exact ⟨h5, h6.trans h4⟩

/-- **C133** (partial: after computations with the executors other than `multi_exec_async`, files which are not removed).  Whatever the
number of computations already made with a topology and the items which failed, a new computation, with any executor, executes exactly
the items which have to be, each once and in the order of the series; it raises an error only if it is sequential and there is nothing to
do (C20). -/
theorem C133_again_partial (T : Topo) (all disk : List Int) (hT : NewTopology T all) (es : List Event) (hs : SafeHistory es)
    (e : Exec) (hp : e.HasProcess) (fails : Int → Bool) :
    let w := history (T, disk) es
    let report := (compute e w.1 w.2 fails).2.2
    report.executed = ToBeDone T.how all w.2 ∧
      report.error = if e = .sequential ∧ ToBeDone T.how all w.2 = [] then some .attributeError else none := by
  obtain ⟨h1, h2⟩ := ca_history es (T, disk) hs (ca_new hT disk)
  obtain ⟨h3, _, h4⟩ := h1.executed e hp fails
  rw [h2] at h3 h4
  exact ⟨h3, h4⟩

-- the hypotheses: three computations of a series of four couples in mode complete, the couple 2 failing in the first one
example : NewTopology (newSeries .complete 1 9 2) [1, 3, 5, 7] := NewTopology.series .complete 1 9 2 (by decide)
example : SafeHistory [.compute .async (fun i => i == 3), .compute (.multiSubproc 2) (fun _ => true)] := by
  intro ev h
  rcases List.mem_cons.1 h with rfl | h
  · exact ⟨_, _, rfl, trivial, trivial⟩
  · rcases List.mem_cons.1 h with rfl | h
    · exact ⟨_, _, rfl, trivial, (by decide : 1 ≤ 2)⟩
    · cases h
example :
    let w := history (newSeries .complete 1 9 2, []) [.compute .async (fun i => i == 3), .compute (.multiSubproc 2) (fun _ => true)]
    (compute (.multiAsync 3) w.1 w.2 (fun _ => false)).2.2.executed = [3] := by decide

/-- Computations with `multi_exec_subproc` and removals of files. -/
def SubprocHistory (es : List Event) : Prop :=
  ∀ ev ∈ es, (∃ n fails, ev = .compute (.multiSubproc n) fails ∧ 1 ≤ n) ∨ ∃ i, ev = .delete i

theorem ca_subproc_history : ∀ (es : List Event) (w : Topo × List Int), SubprocHistory es →
    (∀ s, w.1.source = .series s → s.step ≠ 0) → (history w es).1.source = w.1.source ∧ (history w es).1.how = w.1.how
  | [], _, _, _ => ⟨rfl, rfl⟩
  | ev :: es, w, hs, h => by
    have key : (step w ev).1.source = w.1.source ∧ (step w ev).1.how = w.1.how := by
      rcases hs ev List.mem_cons_self with ⟨n, fails, rfl, hn⟩ | ⟨i, rfl⟩
      · show (compute (.multiSubproc n) w.1 w.2 fails).1.source = _ ∧ (compute (.multiSubproc n) w.1 w.2 fails).1.how = _
        rw [ca_multi_subproc n hn w.1 w.2 fails h]
        by_cases h0 : expected w.1 w.2 = []
        · rw [if_pos h0]; exact ⟨rfl, rfl⟩
        · rw [if_neg h0]; exact ⟨rfl, rfl⟩
      · exact ⟨rfl, rfl⟩
    obtain ⟨h1, h2⟩ := ca_subproc_history es (step w ev) (fun ev' hev => hs ev' (List.mem_cons_of_mem _ hev))
      (fun s h' => h s (key.1 ▸ h'))
    exact ⟨h1.trans key.1, h2.trans key.2⟩

theorem ca_faithful_source {T T' : Topo} {all disk disk' : List Int} (hT : NewTopology T all) (h1 : T'.source = T.source)
    (h2 : T'.how = T.how) : Faithful all T' disk' := by
  have h := ca_new hT disk'
  refine ⟨?_, ?_, ?_, ?_⟩
  · intro items f hh; exact h.images items f (h1 ▸ hh)
  · intro s hh; exact h.step s (h1 ▸ hh)
  · intro s hh hr; exact h.range s (h1 ▸ hh) (h2 ▸ hr)
  · intro s hh hr; exact h.complete s (h1 ▸ hh) (h2 ▸ hr)

/-- **C133** (`multi_exec_subproc`): the same when all the computations have been made with `multi_exec_subproc`, even if files of
results have been removed in between: in mode `complete` they are computed again. -/
theorem C133_subproc (T : Topo) (all disk : List Int) (hT : NewTopology T all) (es : List Event) (hs : SubprocHistory es)
    (e : Exec) (hp : e.HasProcess) (fails : Int → Bool) :
    let w := history (T, disk) es
    (compute e w.1 w.2 fails).2.2.executed = ToBeDone T.how all w.2 := by
  obtain ⟨h1, h2⟩ := ca_subproc_history es (T, disk) hs (ca_new hT disk).step
  have h := (ca_faithful_source (disk := disk) (disk' := (history (T, disk) es).2) hT h1 h2).executed e hp fails
  rw [h2] at h
  exact h.1

/-- A history which meets the hypothesis: a computation with failures, a file removed, another computation. -/
example : SubprocHistory [.compute (.multiSubproc 2) (fun i => i == 1), .delete 2, .compute (.multiSubproc 3) (fun _ => false)] := by
  intro ev h
  simp only [List.mem_cons, List.not_mem_nil, or_false] at h
  rcases h with rfl | rfl | rfl
  · exact Or.inl ⟨2, _, rfl, by decide⟩
  · exact Or.inr ⟨2, rfl⟩
  · exact Or.inl ⟨3, _, rfl, by decide⟩

example :
    let w := history (newImages .complete [1, 2, 3], [2]) [.compute (.multiSubproc 2) (fun _ => false), .delete 1]
    (compute .async w.1 w.2 (fun _ => false)).2.2.executed = [1] := by decide

/-! ### After `multi_exec_async` -/

/-- A topology on a series of `m` items in a mode other than `complete`. -/
def IsRange (T : Topo) (m : Nat) : Prop :=
  T.how = .recompute ∧ ∃ a b st, T.source = .series ⟨a, b, st, none⟩ ∧ st ≠ 0 ∧ (pyRange a b st).length = m

theorem IsRange.executed {T : Topo} {m : Nat} (h : IsRange T m) (e : Exec) (hp : e.HasProcess) (disk : List Int)
    (fails : Int → Bool) : (compute e T disk fails).2.2.executed.length = m := by
  obtain ⟨h1, a, b, st, h2, h3, h4⟩ := h
  have hf : Faithful (pyRange a b st) T disk := by
    refine ⟨?_, ?_, ?_, ?_⟩
    · intro items f hh; rw [h2] at hh; cases hh
    · intro s hh; rw [h2] at hh; cases hh; exact h3
    · intro s hh _; rw [h2] at hh; cases hh; exact ⟨rfl, rfl⟩
    · intro s _ hh; rw [h1] at hh; cases hh
  rw [(hf.executed e hp fails).1, h1]
  exact h4

theorem ca_sum_filter (l : List (List Int)) : ((l.filter (fun r => decide (r ≠ []))).map List.length).sum = l.flatten.length := by
  induction l with
  | nil => rfl
  | cons r rs ih =>
    by_cases h : r = []
    · rw [List.filter_cons_of_neg (by simpa using h), ih, h]; rfl
    · rw [List.filter_cons_of_pos (by simpa using h), List.map_cons, List.sum_cons, ih, List.flatten_cons, List.length_append]

/-- In a balanced partition of at least two items in at least two parts, the last part which is not empty has at most half of the items;
a single item is its own last part. -/
theorem ca_last_part (parts : List (List Int)) (whole : List Int) (p : Nat) (h : Spec.IsBalancedPartition parts whole p) (hp : 2 ≤ p)
    (last : List Int) (hl : (parts.filter (fun r => decide (r ≠ []))).getLast? = some last) :
    1 ≤ last.length ∧ (2 ≤ whole.length → 2 * last.length ≤ whole.length) ∧ last.length ≤ whole.length := by
  have hsum := ca_sum_filter parts
  rw [h.glue] at hsum
  have hb : ((parts.filter (fun r => decide (r ≠ []))).map List.length).Pairwise (fun a b => b ≤ a ∧ a ≤ b + 1) := by
    have h0 := h.balanced
    unfold Spec.BalancedSizes at h0
    rw [List.pairwise_map] at h0 ⊢
    exact h0.sublist List.filter_sublist
  have hmem : last ∈ parts.filter (fun r => decide (r ≠ [])) := List.mem_of_getLast? hl
  have hne : last ≠ [] := by simpa using (List.mem_filter.1 hmem).2
  have h1 : 1 ≤ last.length := List.length_pos_iff.2 hne
  obtain ⟨init, hinit⟩ : ∃ init, parts.filter (fun r => decide (r ≠ [])) = init ++ [last] := by
    refine ⟨(parts.filter (fun r => decide (r ≠ []))).dropLast, ?_⟩
    have hnn : parts.filter (fun r => decide (r ≠ [])) ≠ [] := List.ne_nil_of_mem hmem
    have := List.dropLast_append_getLast hnn
    rw [List.getLast?_eq_some_getLast hnn] at hl
    rw [← this]
    simp at hl
    simp [hl]
  rw [hinit] at hsum hb
  simp only [List.map_append, List.sum_append, List.map_cons, List.map_nil, List.sum_cons, List.sum_nil, Nat.add_zero] at hsum
  refine ⟨h1, ?_, by omega⟩
  intro hw
  cases init with
  | nil =>
    -- only one part is not empty: it has all the items, and an empty part exists
    exfalso
    simp only [List.map_nil, List.sum_nil, Nat.zero_add] at hsum
    have hlen : parts.length = p := h.count
    have hall : ∀ r ∈ parts, r = [] ∨ r = last := by
      intro r hr
      by_cases h0 : r = []
      · exact .inl h0
      · right
        have : r ∈ parts.filter (fun r => decide (r ≠ [])) := List.mem_filter.2 ⟨hr, by simpa using h0⟩
        rw [hinit] at this
        simpa using this
    have hbal := h.balanced
    unfold Spec.BalancedSizes at hbal
    rw [List.pairwise_map, List.pairwise_iff_getElem] at hbal
    have hb01 := hbal 0 1 (by omega) (by omega) (by omega)
    have h0 := hall parts[0] (List.getElem_mem _)
    have h1' := hall parts[1] (List.getElem_mem _)
    have hflat : (parts[0]).length + (parts[1]).length ≤ last.length := by
      have hg := congrArg List.length h.glue
      clear * - hg hsum hlen hp
      match parts, hlen, hg with
      | [], hlen, _ => simp at hlen; omega
      | [_], hlen, _ => simp at hlen; omega
      | a :: b :: rest, _, hg =>
        simp only [List.flatten_cons, List.length_append] at hg
        simp only [List.getElem_cons_zero, List.getElem_cons_succ]
        omega
    rcases h0 with h0 | h0 <;> rcases h1' with h1' | h1' <;> rw [h0, h1'] at hb01 hflat <;> simp at hb01 hflat
    · -- both empty: the first parts are the larger ones
      obtain ⟨i, hi, hil⟩ := List.getElem_of_mem (List.mem_filter.1 hmem).1
      have hi0 : i ≠ 0 := by
        intro h'; subst h'; rw [h0] at hil; exact hne hil.symm
      have := hbal 0 i (by omega) hi (by omega)
      rw [h0, hil] at this
      have := this.1
      simp only [List.length_nil] at this
      omega
    · exact hne hb01
    · omega
    · omega
  | cons first rest =>
    simp only [List.cons_append, List.map_cons, List.map_append, List.map_nil, List.pairwise_cons] at hb
    have := (hb.1 last.length (by simp)).1
    simp only [List.map_cons, List.sum_cons] at hsum
    omega

/-- One computation with `multi_exec_async` and at least two processes. -/
theorem IsRange.multi {T : Topo} {m : Nat} (h : IsRange T m) (hm : 1 ≤ m) (p : Nat) (hp : 2 ≤ p) (disk : List Int)
    (fails : Int → Bool) :
    ∃ m', IsRange (compute (.multiAsync p) T disk fails).1 m' ∧ 1 ≤ m' ∧ (2 ≤ m → 2 * m' ≤ m) ∧ m' ≤ m := by
  obtain ⟨h1, a, b, st, h2, h3, h4⟩ := h
  obtain ⟨rs, last, h5, h6, h7, h8⟩ := ca_multi_range p (by omega) T disk fails a b st h3 h2 h1
    (by intro h0; rw [h0] at h4; simp at h4; omega)
  have hl : ((rs.map rangeOf).filter (fun r => decide (r ≠ []))).getLast? = some (rangeOf last) := by
    rw [List.filter_map]
    show (List.map rangeOf (rs.filter (fun r => decide (rangeOf r ≠ [])))).getLast? = _
    rw [List.getLast?_map, h6]
    rfl
  obtain ⟨g1, g2, g3⟩ := ca_last_part _ _ p h5 hp _ hl
  rw [h4] at g2 g3
  refine ⟨(rangeOf last).length, ?_, g1, g2, g3⟩
  rw [h8]
  exact ⟨h1, last.1, last.2.1, last.2.2, rfl, by rw [h7]; exact h3, rfl⟩

/-- Computations with `multi_exec_async`, with these numbers of processes, whatever the items which fail. -/
def multiHistory (ps : List (Nat × (Int → Bool))) : List Event := ps.map fun p => .compute (.multiAsync p.1) p.2

theorem ca_shrinks : ∀ (ps : List (Nat × (Int → Bool))) (w : Topo × List Int) (m : Nat), (∀ p ∈ ps, 2 ≤ p.1) → IsRange w.1 m →
    1 ≤ m → ∃ m', IsRange (history w (multiHistory ps)).1 m' ∧ 1 ≤ m' ∧ 2 ^ ps.length * m' ≤ max m (2 ^ ps.length)
  | [], w, m, _, h, hm => ⟨m, h, hm, by simp only [List.length_nil]; omega⟩
  | p :: ps, w, m, hp, h, hm => by
    obtain ⟨m1, h1, h2, h3, h4⟩ := h.multi hm p.1 (hp p List.mem_cons_self) w.2 p.2
    obtain ⟨m2, h5, h6, h7⟩ := ca_shrinks ps (step w (.compute (.multiAsync p.1) p.2)) m1
      (fun q hq => hp q (List.mem_cons_of_mem _ hq)) h1 h2
    refine ⟨m2, h5, h6, ?_⟩
    rw [List.length_cons, Nat.pow_succ]
    have e : 2 ^ ps.length * 2 * m2 = 2 * (2 ^ ps.length * m2) := by
      rw [Nat.mul_comm (2 ^ ps.length) 2, Nat.mul_assoc]
    rw [e]
    have hpos : 1 ≤ 2 ^ ps.length := Nat.one_le_two_pow
    by_cases hm2 : 2 ≤ m
    · have := h3 hm2
      omega
    · omega

/-- **C133, violation** (`multi_exec_async` in the modes `recompute` and `new_dir`): each computation with `multi_exec_async` and at least
two processes leaves in the topology the range of its last process.  The next computation, with any executor, ends without error but
executes at most half of the items, and after `k` such computations at most `n / 2 ^ k` of them, but one. -/
theorem C133_multi_async_fails (start stop st : Int) (hs : st ≠ 0) (disk : List Int) (ps : List (Nat × (Int → Bool)))
    (hp : ∀ p ∈ ps, 2 ≤ p.1) (hn : 2 ^ ps.length ≤ (pyRange start stop st).length) (e : Exec) (he : e.HasProcess)
    (fails : Int → Bool) :
    let w := history (newSeries .recompute start stop st, disk) (multiHistory ps)
    let report := (compute e w.1 w.2 fails).2.2
    1 ≤ report.executed.length ∧ 2 ^ ps.length * report.executed.length ≤ (pyRange start stop st).length ∧
      report.error = none := by
  have hpos : 1 ≤ 2 ^ ps.length := Nat.one_le_two_pow
  obtain ⟨m, h1, h2, h3⟩ := ca_shrinks ps (newSeries .recompute start stop st, disk) (pyRange start stop st).length hp
    ⟨rfl, start, stop, st, rfl, hs, rfl⟩ (by omega)
  have hlen := h1.executed e he (history (newSeries .recompute start stop st, disk) (multiHistory ps)).2 fails
  refine ⟨by rw [hlen]; exact h2, by rw [hlen]; omega, ?_⟩
  obtain ⟨g1, a, b, s', g2, g3, g4⟩ := h1
  have hf : Faithful (pyRange a b s') (history (newSeries .recompute start stop st, disk) (multiHistory ps)).1
      (history (newSeries .recompute start stop st, disk) (multiHistory ps)).2 := by
    refine ⟨?_, ?_, ?_, ?_⟩
    · intro items f hh; rw [g2] at hh; cases hh
    · intro s hh; rw [g2] at hh; cases hh; exact g3
    · intro s hh _; rw [g2] at hh; cases hh; exact ⟨rfl, rfl⟩
    · intro s _ hh; rw [g1] at hh; cases hh
  rw [(hf.executed e he fails).2.2, g1, if_neg]
  rintro ⟨_, h0⟩
  simp only [ToBeDone] at h0
  rw [h0] at g4
  simp at g4
  omega

-- ten couples, `topology.compute("multi_exec_async", nb_max_workers=3)` twice, then the sequential executor
example :
    let w := history (newSeries .recompute 0 10 1, []) (multiHistory [(3, fun _ => false)])
    (compute .sequential w.1 w.2 (fun _ => false)).2.2.executed = [7, 8, 9] := by decide
example :
    let w := history (newSeries .recompute 0 10 1, []) (multiHistory [(3, fun _ => false), (3, fun _ => false)])
    (compute .sequential w.1 w.2 (fun _ => false)).2.2.executed = [9] := by decide

/-- **C133, violation** (`multi_exec_async` with images): after a computation with `multi_exec_async` of a topology which fills a queue of
paths, every computation with another executor than `multi_exec_subproc` raises `NotImplementedError` and does nothing, whatever is done
in between. -/
theorem C133_images_fails (how : How) (items disk : List Int) (hi : ToBeDone how items disk ≠ []) (n : Nat) (hn : 1 ≤ n)
    (fails fails' : Int → Bool) (es : List Event) (e : Exec) (he : ∀ k, e ≠ .multiSubproc k) :
    let w := history (newImages how items, disk) (.compute (.multiAsync n) fails :: es)
    let report := (compute e w.1 w.2 fails').2.2
    report.executed = [] ∧ report.error = some .notImplementedError := by
  have hinv : ∀ (es : List Event) (w : Topo × List Int), (∃ l, w.1.source = .images l false) →
      ∃ l, (history w es).1.source = .images l false := by
    intro es
    induction es with
    | nil => intro w h; exact h
    | cons ev es ih =>
      rintro w ⟨l, hl⟩
      refine ih (step w ev) ⟨l, ?_⟩
      cases ev with
      | delete i => exact hl
      | compute e fails =>
        cases e with
        | sequential => simp only [step, compute, computeIn, hl]
        | async => simp only [step, compute, computeIn, hl]
        | multiAsync n => simp only [step, compute, computeMultiAsync, hl]
        | multiSubproc n =>
          show (computeMultiSubproc n w.1 w.2 fails).1.source = _
          unfold computeMultiSubproc
          split
          · exact hl
          · split
            · exact hl
            · exact hl
  have hne : expected (newImages how items) disk ≠ [] := by
    rw [(ca_new (NewTopology.images how items) disk).expected]; exact hi
  obtain ⟨parts, _, h2⟩ := ca_multi_images n hn (newImages how items) disk fails items rfl hne
  obtain ⟨l, hl⟩ := hinv es (step (newImages how items, disk) (.compute (.multiAsync n) fails)) ⟨items, by
    show (compute (.multiAsync n) (newImages how items) disk fails).1.source = _
    rw [h2]⟩
  have key : ∀ (w : Topo × List Int), w.1.source = .images l false →
      (compute e w.1 w.2 fails').2.2.executed = [] ∧ (compute e w.1 w.2 fails').2.2.error = some .notImplementedError := by
    intro w hw
    cases e with
    | sequential => simp only [compute, computeIn, hw]; exact ⟨trivial, trivial⟩
    | async => simp only [compute, computeIn, hw]; exact ⟨trivial, trivial⟩
    | multiAsync n => simp only [compute, computeMultiAsync, hw]; exact ⟨trivial, trivial⟩
    | multiSubproc n => exact absurd rfl (he n)
  exact key _ hl

example :
    let w := history (newImages .recompute [1, 2, 3], []) [.compute (.multiAsync 2) (fun _ => false)]
    (compute .sequential w.1 w.2 (fun _ => false)).2.2 = ⟨[], w.1.results, some .notImplementedError⟩ := by decide

/-- The topology is in mode `complete` with indices without `i`. -/
theorem ca_never {i : Int} : ∀ (es : List Event) (w : Topo × List Int),
    (w.1.how = .complete ∧ ∃ s l, w.1.source = .series s ∧ s.index = some l ∧ i ∉ l ∧ s.step ≠ 0) →
    (∀ ev ∈ es, ∀ e f, ev = .compute e f → e.HasProcess) →
    (history w es).1.how = .complete ∧ ∃ s l, (history w es).1.source = .series s ∧ s.index = some l ∧ i ∉ l ∧ s.step ≠ 0
  | [], w, h, _ => h
  | ev :: es, w, ⟨hh, s, l, hs, hl, hi, hst⟩, hp => by
    refine ca_never es (step w ev) ?_ (fun ev' hev => hp ev' (List.mem_cons_of_mem _ hev))
    have hitems : s.items = l := by unfold Series.items; rw [hl]
    have hin : ∀ (fails : Int → Bool), (runOne w.1 w.2 fails).2.how = .complete ∧
        ∃ s' l', (runOne w.1 w.2 fails).2.source = .series s' ∧ s'.index = some l' ∧ i ∉ l' ∧ s'.step ≠ 0 := by
      intro fails
      by_cases h0 : s.items = []
      · have : (runOne w.1 w.2 fails).2 = { w.1 with results := w.1.results ++ [] } := by
          unfold runOne fill; rw [hs]; simp [h0, succeed, hs]
        rw [this]
        exact ⟨hh, s, l, hs, hl, hi, hst⟩
      · rw [ca_runOne_complete w.1 w.2 fails s hs hh h0]
        refine ⟨hh, _, _, rfl, rfl, ?_, hst⟩
        rw [hitems]
        exact fun h' => hi (ca_mem_missing.1 h').1
    cases ev with
    | delete j => exact ⟨hh, s, l, hs, hl, hi, hst⟩
    | compute e fails =>
      have hpe := hp _ List.mem_cons_self e fails rfl
      cases e with
      | sequential =>
        have : (step w (.compute .sequential fails)).1 = (runOne w.1 w.2 fails).2 := by
          simp only [step, compute, computeIn, hs]
        rw [this]; exact hin fails
      | async =>
        have : (step w (.compute .async fails)).1 = (runOne w.1 w.2 fails).2 := by
          simp only [step, compute, computeIn, hs]
        rw [this]; exact hin fails
      | multiSubproc n =>
        show (compute (.multiSubproc n) w.1 w.2 fails).1.how = _ ∧ ∃ s' l', (compute (.multiSubproc n) w.1 w.2 fails).1.source = _ ∧ _
        rw [ca_multi_subproc n hpe w.1 w.2 fails (fun s' h' => by rw [hs] at h'; cases h'; exact hst)]
        by_cases h0 : expected w.1 w.2 = []
        · rw [if_pos h0]; exact ⟨hh, s, l, hs, hl, hi, hst⟩
        · rw [if_neg h0]; exact ⟨hh, s, l, hs, hl, hi, hst⟩
      | multiAsync n =>
        show (compute (.multiAsync n) w.1 w.2 fails).1.how = _ ∧ ∃ s' l', (compute (.multiAsync n) w.1 w.2 fails).1.source = _ ∧ _
        by_cases h0 : missing w.2 s.items = []
        · have : compute (.multiAsync n) w.1 w.2 fails = (w.1, w.2, ⟨[], w.1.results, none⟩) := by
            have he : expected w.1 w.2 = [] := by unfold expected; rw [hs, hh]; exact h0
            simp only [compute, computeMultiAsync, hs, he, if_true]
          rw [this]; exact ⟨hh, s, l, hs, hl, hi, hst⟩
        · obtain ⟨parts, last, h1, _, h3, h4⟩ := ca_multi_complete n hpe w.1 w.2 fails s hs hh h0
          rw [h4]
          refine ⟨hh, _, _, rfl, rfl, ?_, hst⟩
          intro h'
          have : i ∈ missing w.2 s.items := by
            rw [← h1.glue]; exact List.mem_flatten.2 ⟨last, List.mem_of_getLast? h3, h'⟩
          rw [hitems] at this
          exact hi (ca_mem_missing.1 this).1

theorem ca_never_executed {i : Int} {w : Topo × List Int} (h : w.1.how = .complete ∧ ∃ s l, w.1.source = .series s ∧
    s.index = some l ∧ i ∉ l ∧ s.step ≠ 0) (e : Exec) (he : e.HasProcess) (fails : Int → Bool) :
    i ∉ (compute e w.1 w.2 fails).2.2.executed := by
  obtain ⟨hh, s, l, hs, hl, hi, hst⟩ := h
  have hf : Faithful l w.1 w.2 := by
    refine ⟨?_, ?_, ?_, ?_⟩
    · intro items f h'; rw [hs] at h'; cases h'
    · intro s' h'; rw [hs] at h'; cases h'; exact hst
    · intro s' _ h'; rw [hh] at h'; cases h'
    · intro s' h' _; rw [hs] at h'; cases h'; unfold Series.items; rw [hl]
  rw [(hf.executed e he fails).1, hh]
  exact fun h' => hi (List.mem_filter.1 h').1

/-- **C133, violation** (`multi_exec_async` in mode `complete`): the topology keeps the indices of the last process only.  The first item
which had to be computed, when there are at least two and at least two processes, is never computed again by this topology, even if it has
failed: whatever the computations which are made afterwards, with any executors. -/
theorem C133_retry_fails (start stop st : Int) (hs : st ≠ 0) (disk : List Int) (n : Nat) (hn : 2 ≤ n) (fails : Int → Bool)
    (i j : Int) (rest : List Int) (hd : ToBeDone .complete (pyRange start stop st) disk = i :: j :: rest)
    (es : List Event) (hes : ∀ ev ∈ es, ∀ e f, ev = .compute e f → e.HasProcess) (e : Exec) (he : e.HasProcess)
    (fails' : Int → Bool) :
    let w := history (newSeries .complete start stop st, disk) (.compute (.multiAsync n) fails :: es)
    i ∉ (compute e w.1 w.2 fails').2.2.executed := by
  have hm : missing disk (pyRange start stop st) = i :: j :: rest := by rw [ca_missing_eq]; exact hd
  obtain ⟨parts, last, h1, h2, h3, h4⟩ := ca_multi_complete n (by omega) (newSeries .complete start stop st) disk fails
    ⟨start, stop, st, none⟩ rfl rfl (by show missing disk (pyRange start stop st) ≠ []; rw [hm]; simp)
  have hm' : missing disk (Series.items ⟨start, stop, st, none⟩) = i :: j :: rest := hm
  rw [hm'] at h1
  have hnd : (i :: j :: rest).Nodup := by
    rw [← hm, ca_missing_eq]
    exact (ca_pyRange_nodup start stop st hs).sublist List.filter_sublist
  have hlast : i ∉ last := by
    have hlen : 2 ≤ parts.length := by rw [h1.count]; simp; omega
    cases parts with
    | nil => simp at hlen
    | cons p0 ps =>
      cases ps with
      | nil => simp at hlen
      | cons p1 ps =>
        rw [List.getLast?_cons_cons] at h3
        have hl : last ∈ p1 :: ps := List.mem_of_getLast? h3
        have hg := h1.glue
        rw [List.flatten_cons] at hg
        have h0 : p0 ≠ [] := h2 p0 List.mem_cons_self
        obtain ⟨x, xs, rfl⟩ := List.exists_cons_of_ne_nil h0
        have hx : x = i := by simpa using (List.cons.inj hg).1
        rw [← hg] at hnd
        rw [List.nodup_append] at hnd
        intro h'
        exact hnd.2.2 x List.mem_cons_self i (List.mem_flatten.2 ⟨last, hl, h'⟩) hx
  have hw : (step (newSeries .complete start stop st, disk) (.compute (.multiAsync n) fails)).1.how = .complete ∧
      ∃ s l, (step (newSeries .complete start stop st, disk) (.compute (.multiAsync n) fails)).1.source = .series s ∧
        s.index = some l ∧ i ∉ l ∧ s.step ≠ 0 := by
    show (compute (.multiAsync n) (newSeries .complete start stop st) disk fails).1.how = _ ∧
      ∃ s l, (compute (.multiAsync n) (newSeries .complete start stop st) disk fails).1.source = _ ∧ _
    rw [h4]
    exact ⟨rfl, _, _, rfl, rfl, hlast, hs⟩
  exact ca_never_executed (ca_never es _ hw hes) e he fails'

-- four couples; the first one fails in the first computation: the second one finds nothing to do
example :
    let w := history (newSeries .complete 0 4 1, []) [.compute (.multiAsync 2) (fun i => i == 0)]
    w.2 = [1, 2, 3] ∧ (compute .async w.1 w.2 (fun _ => false)).2.2.executed = [] := by decide

/-- **C133, violation** (files removed): in mode `complete`, a sequential or asynchronous computation leaves in the topology the indices it
had to compute.  An item which had its file at this time is never computed by this topology, even if its file is removed. -/
theorem C133_deleted_fails (start stop st : Int) (hs : st ≠ 0) (disk : List Int) (i : Int) (hi : i ∈ pyRange start stop st)
    (hd : i ∈ disk) (e₀ : Exec) (h₀ : e₀ = .sequential ∨ e₀ = .async) (fails : Int → Bool) (es : List Event)
    (hes : ∀ ev ∈ es, ∀ e f, ev = .compute e f → e.HasProcess) (e : Exec) (he : e.HasProcess) (fails' : Int → Bool) :
    let w := history (newSeries .complete start stop st, disk) (.compute e₀ fails :: .delete i :: es)
    i ∉ (compute e w.1 w.2 fails').2.2.executed := by
  have hne : (Series.items ⟨start, stop, st, none⟩) ≠ [] := List.ne_nil_of_mem hi
  have hr := ca_runOne_complete (newSeries .complete start stop st) disk fails ⟨start, stop, st, none⟩ rfl rfl hne
  have hstep : (step (newSeries .complete start stop st, disk) (.compute e₀ fails)).1 =
      (runOne (newSeries .complete start stop st) disk fails).2 := by
    rcases h₀ with rfl | rfl <;> rfl
  have hw : (step (newSeries .complete start stop st, disk) (.compute e₀ fails)).1.how = .complete ∧
      ∃ s l, (step (newSeries .complete start stop st, disk) (.compute e₀ fails)).1.source = .series s ∧
        s.index = some l ∧ i ∉ l ∧ s.step ≠ 0 := by
    rw [hstep, hr]
    exact ⟨rfl, _, _, rfl, rfl, fun h' => (ca_mem_missing.1 h').2 hd, hs⟩
  refine ca_never_executed (ca_never (.delete i :: es) _ hw ?_) e he fails'
  intro ev hev e f h'
  rcases List.mem_cons.1 hev with rfl | hev
  · cases h'
  · exact hes ev hev e f h'

example :
    let w := history (newSeries .complete 0 4 1, [2]) [.compute .async (fun _ => false), .delete 2]
    w.2 = [0, 1, 3] ∧ (compute .async w.1 w.2 (fun _ => false)).2.2.executed = [] := by decide

/-! ### The results which are announced -/

theorem ca_results_length (fails : Int → Bool) (old : List Int) (l : List (List Int)) :
    ((l.map (fun p => old ++ succeed fails p)).flatten).length = (succeed fails l.flatten).length + l.length * old.length := by
  induction l with
  | nil => simp [succeed]
  | cons p l ih =>
    rw [List.map_cons, List.flatten_cons, List.length_append, List.length_append, ih, List.flatten_cons, List.length_cons,
      Nat.succ_mul]
    have : succeed fails (p ++ l.flatten) = succeed fails p ++ succeed fails l.flatten := List.filter_append ..
    rw [this, List.length_append]
    omega

/-- **C133** (what is announced, for the computations of `C133_again_partial`): the number of results of the text printed at the end is the
number of items which succeeded plus, for each process, all the results which the topology already had; with `multi_exec_subproc` only the
items which succeeded. -/
theorem C133_announced (all : List Int) (T : Topo) (disk : List Int) (h : Faithful all T disk) (e : Exec) (hp : e.HasProcess)
    (fails : Int → Bool) (hne : ToBeDone T.how all disk ≠ []) :
    ∃ k, (compute e T disk fails).2.2.results.length =
        ((ToBeDone T.how all disk).filter (fun i => !fails i)).length + k * T.results.length ∧
      (k = 0 ↔ ∃ n, e = .multiSubproc n) := by
  cases e with
  | sequential =>
    refine ⟨1, ?_, by simp⟩
    show (computeIn true T disk fails).2.2.results.length = _
    rw [ca_in h]
    simp only [List.length_append, succeed]
    omega
  | async =>
    refine ⟨1, ?_, by simp⟩
    show (computeIn false T disk fails).2.2.results.length = _
    rw [ca_in h]
    simp only [List.length_append, succeed]
    omega
  | multiSubproc n =>
    refine ⟨0, ?_, by simp⟩
    rw [ca_multi_subproc n hp T disk fails h.step, h.expected, if_neg hne]
    simp [succeed]
  | multiAsync n =>
    have he := h.expected
    cases hT : T.source with
    | images items f =>
      rw [(h.images items f hT).2] at hT
      obtain ⟨parts, h1, h2⟩ := ca_multi_images n hp T disk fails items hT (by rw [he]; exact hne)
      rw [he] at h1
      refine ⟨parts.length, ?_, ?_⟩
      · rw [h2]
        show List.length (List.flatten _) = _
        rw [ca_results_length, h1.glue]
        rfl
      · have hp' : 1 ≤ n := hp
        have : 0 < (ToBeDone T.how all disk).length := List.length_pos_iff.2 hne
        have : 0 < parts.length := by rw [h1.count]; exact Nat.lt_min.2 ⟨by omega, by omega⟩
        exact ⟨fun h0 => by omega, fun ⟨_, h0⟩ => by cases h0⟩
    | series s =>
      cases hh : T.how with
      | complete =>
        have e1 : missing disk s.items = ToBeDone .complete all disk := by
          rw [← hh, ← he]; unfold expected; rw [hT, hh]
        rw [hh] at hne
        obtain ⟨parts, last, h1, _, h3, h2⟩ := ca_multi_complete n hp T disk fails s hT hh (by rw [e1]; exact hne)
        refine ⟨parts.length, ?_, ?_⟩
        · rw [h2]
          show List.length (List.flatten _) = _
          rw [ca_results_length, h1.glue, e1]
          rfl
        · have hp' : 1 ≤ n := hp
          have : 0 < (ToBeDone .complete all disk).length := List.length_pos_iff.2 hne
          have : 0 < parts.length := by rw [h1.count, e1]; exact Nat.lt_min.2 ⟨by omega, by omega⟩
          exact ⟨fun h0 => by omega, fun ⟨_, h0⟩ => by cases h0⟩
      | recompute =>
        obtain ⟨h1, h2⟩ := h.range s hT hh
        obtain ⟨a, b, st, ix⟩ := s
        simp only at h1 h2
        subst h1
        rw [hh] at hne
        obtain ⟨rs, last, g1, g2, _, g3⟩ := ca_multi_range n hp T disk fails a b st (h.step _ hT) hT hh (by rw [h2]; exact hne)
        refine ⟨(rs.filter (fun r => decide (rangeOf r ≠ []))).length, ?_, ?_⟩
        · rw [g3]
          have e1 := ca_results_length fails T.results ((rs.filter (fun r => decide (rangeOf r ≠ []))).map rangeOf)
          rw [List.map_map] at e1
          have e2 : ((rs.filter (fun r => decide (rangeOf r ≠ []))).map rangeOf).flatten = pyRange a b st := by
            rw [← g1.glue]
            clear * -
            induction rs with
            | nil => rfl
            | cons r rs ih =>
              by_cases h : rangeOf r = []
              · rw [List.filter_cons_of_neg (by simpa using h), ih]
                simp [h]
              · rw [List.filter_cons_of_pos (by simpa using h)]
                simp only [List.map_cons, List.flatten_cons, ih]
          rw [e2, List.length_map, h2] at e1
          exact e1
        · have : rs.filter (fun r => decide (rangeOf r ≠ [])) ≠ [] := by
            intro h0; rw [h0] at g2; cases g2
          have := List.length_pos_iff.2 this
          exact ⟨fun h0 => by omega, fun ⟨_, h0⟩ => by cases h0⟩

/-- **C133, violation** (results of the previous computations): a topology computed twice with the sequential or asynchronous executor in
mode `recompute`, without failure, announces at the end of the second computation twice the number of items it has executed. -/
theorem C133_results_fails (start stop st : Int) (hs : st ≠ 0) (disk : List Int) (e e' : Exec)
    (he : e = .sequential ∨ e = .async) (he' : e' = .sequential ∨ e' = .async) :
    let w := history (newSeries .recompute start stop st, disk) [.compute e (fun _ => false)]
    let report := (compute e' w.1 w.2 (fun _ => false)).2.2
    report.executed = pyRange start stop st ∧ report.results.length = 2 * report.executed.length := by
  have hf := ca_new (NewTopology.series .recompute start stop st hs) disk
  have hsu : ∀ l : List Int, succeed (fun _ => false) l = l := by intro l; simp [succeed]
  have hr : (runOne (newSeries .recompute start stop st) disk (fun _ => false)) =
      (pyRange start stop st, ⟨.recompute, .series ⟨start, stop, st, none⟩, pyRange start stop st⟩) := by
    rw [ca_runOne_range _ disk _ ⟨start, stop, st, none⟩ rfl rfl, hsu]
    simp [newSeries, Series.items]
  have h1 : (history (newSeries .recompute start stop st, disk) [.compute e (fun _ => false)]).1 =
      ⟨.recompute, .series ⟨start, stop, st, none⟩, pyRange start stop st⟩ := by
    have : (history (newSeries .recompute start stop st, disk) [.compute e (fun _ => false)]).1 =
        (runOne (newSeries .recompute start stop st) disk (fun _ => false)).2 := by
      rcases he with rfl | rfl <;> rfl
    rw [this, hr]
  have key : ∀ d : List Int, (compute e' ⟨.recompute, .series ⟨start, stop, st, none⟩, pyRange start stop st⟩ d
      (fun _ => false)).2.2.executed = pyRange start stop st ∧
      (compute e' ⟨.recompute, .series ⟨start, stop, st, none⟩, pyRange start stop st⟩ d (fun _ => false)).2.2.results =
        pyRange start stop st ++ pyRange start stop st := by
    intro d
    have h2 : runOne ⟨.recompute, .series ⟨start, stop, st, none⟩, pyRange start stop st⟩ d (fun _ => false) =
        (pyRange start stop st, ⟨.recompute, .series ⟨start, stop, st, none⟩, pyRange start stop st ++ pyRange start stop st⟩) := by
      rw [ca_runOne_range _ d _ ⟨start, stop, st, none⟩ rfl rfl, hsu]
      rfl
    rcases he' with rfl | rfl <;> simp only [compute, computeIn, h2] <;> exact ⟨trivial, trivial⟩
  intro w report
  have hrep : report = (compute e' ⟨.recompute, .series ⟨start, stop, st, none⟩, pyRange start stop st⟩ w.2 (fun _ => false)).2.2 := by
    show (compute e' w.1 w.2 (fun _ => false)).2.2 = _
    rw [show w.1 = _ from h1]
  obtain ⟨g1, g2⟩ := key w.2
  rw [hrep, g1, g2, List.length_append]
  exact ⟨rfl, by omega⟩

example :
    let w := history (newSeries .recompute 0 3 1, []) [.compute .async (fun _ => false)]
    (compute .sequential w.1 w.2 (fun _ => false)).2.2.results = [0, 1, 2, 0, 1, 2] := by decide
example :
    let w := history (newSeries .recompute 0 3 1, []) [.compute .async (fun _ => false)]
    (compute (.multiAsync 2) w.1 w.2 (fun _ => false)).2.2.results = [0, 1, 2, 0, 1, 0, 1, 2, 2] := by decide

/-- **C133** (no process): with zero process a computation which has something to do raises an error, which is reported, executes nothing
and changes neither the topology nor the directory. -/
theorem C133_no_process (T : Topo) (all disk : List Int) (hT : NewTopology T all) (e : Exec) (he : e = .multiAsync 0 ∨ e = .multiSubproc 0)
    (hd : ToBeDone T.how all disk ≠ []) (fails : Int → Bool) :
    (compute e T disk fails).1 = T ∧ (compute e T disk fails).2.1 = disk ∧ (compute e T disk fails).2.2.executed = [] ∧
      (compute e T disk fails).2.2.error = some .zeroDivisionError := by
  have hl : ∀ l : List Int, l ≠ [] → splitList l 0 = .error .zeroDivisionError := by
    intro l h; simp [splitList, h]
  have hex : expected T disk = ToBeDone T.how all disk := by
    cases hT with
    | series how a b st hs => cases how <;> simp [newSeries, expected, ToBeDone, ca_missing_eq, Series.items]
    | images how items => cases how <;> simp [newImages, expected, ToBeDone, select, ca_missing_eq]
  have h0 : expected T disk ≠ [] := hex ▸ hd
  have hc : asyncComplete (expected T disk) 0 = .error .zeroDivisionError := by
    unfold asyncComplete; rw [hl _ h0]; rfl
  have hc' : subprocComplete (expected T disk) 0 = .error .zeroDivisionError := by
    unfold subprocComplete; rw [hl _ h0]; rfl
  have hr : ∀ a b st : Int, st ≠ 0 → splitRange a b st 0 = .error .zeroDivisionError := by
    intro a b st h; simp [splitRange, h]
  rcases he with rfl | rfl
  · have hcm : compute (.multiAsync 0) T disk fails = (T, disk, ⟨[], T.results, some .zeroDivisionError⟩) := by
      cases hT with
      | series how a b st hs =>
        unfold compute computeMultiAsync
        cases how with
        | complete => simp only [newSeries] at h0 hc ⊢; simp only [h0, if_false, hc]
        | recompute => simp only [newSeries] at h0 hc ⊢; simp only [h0, if_false, hr _ _ _ hs]
      | images how items =>
        unfold compute computeMultiAsync
        have h1 := hl _ h0
        simp only [newImages] at h0 h1 ⊢
        simp only [h0, if_false, h1]
    rw [hcm]; exact ⟨rfl, rfl, rfl, rfl⟩
  · have hsp : subprocParts 0 T disk = .error .zeroDivisionError := by
      cases hT with
      | series how a b st hs =>
        cases how with
        | complete => exact hc'
        | recompute =>
          show subprocSeries a b st 0 = _
          unfold subprocSeries; rw [hr _ _ _ hs]; rfl
      | images how items => exact hc'
    have hcm : compute (.multiSubproc 0) T disk fails = (T, disk, ⟨[], T.results, some .zeroDivisionError⟩) := by
      show computeMultiSubproc 0 T disk fails = _
      unfold computeMultiSubproc; rw [hsp]
    rw [hcm]; exact ⟨rfl, rfl, rfl, rfl⟩

-- the hypotheses: two couples to be computed
example : ToBeDone (newSeries .complete 0 3 1).how (pyRange 0 3 1) [1] = [0, 2] := by decide

end Verif
