import Verif.Model.Distribution
import Verif.Spec.Distribution
import Verif.Props.Splitters
import Verif.Props.Queue
import Mathlib.Data.List.Nodup

/-!
# C04 — distributing a computation over processes computes each item exactly once
-/

namespace Verif
open Verif.Distribution Verif.Splitters Verif.Dict

/-- In a distribution of distinct items, every item belongs to exactly one process. -/
theorem C04_each_item_in_exactly_one_process {ι : Type} (n : Nat) (whole : List ι) (procs : List (List ι × Nat))
    (h : Spec.IsDistribution n whole procs) (hnd : whole.Nodup) (x : ι) (hx : x ∈ whole) :
    ∃ i, ∃ hi : i < procs.length, x ∈ (procs[i]).1 ∧
      ∀ j, ∀ hj : j < procs.length, x ∈ (procs[j]).1 → j = i := by
  rw [← h.glue, List.mem_flatten] at hx
  obtain ⟨l, hl, hxl⟩ := hx
  obtain ⟨p, hp, rfl⟩ := List.mem_map.1 hl
  obtain ⟨i, hi, rfl⟩ := List.getElem_of_mem hp
  refine ⟨i, hi, hxl, ?_⟩
  intro j hj hxj
  rw [← h.glue, List.nodup_flatten] at hnd
  have hpw := List.pairwise_iff_getElem.1 hnd.2
  rcases Nat.lt_trichotomy i j with hlt | heq | hgt
  · have := hpw i j (by simpa using hi) (by simpa using hj) hlt
    exact absurd (by simpa using hxj) (this (by simpa using hxl))
  · exact heq.symm
  · have := hpw j i (by simpa using hj) (by simpa using hi) hgt
    exact absurd (by simpa using hxl) (this (by simpa using hxj))

/-- Enumerating then skipping the empty parts, or skipping then enumerating: same processes, because the
empty parts come last. -/
private theorem zipIdx_filter {β : Type} (size : β → Nat) (l : List β) (k : Nat)
    (hb : Spec.BalancedSizes (l.map size)) :
    (l.zipIdx k).filter (fun p => decide (size p.1 ≠ 0)) = (l.filter (fun b => decide (size b ≠ 0))).zipIdx k := by
  induction l generalizing k with
  | nil => rfl
  | cons b l ih =>
    have hb' : Spec.BalancedSizes (l.map size) := by
      unfold Spec.BalancedSizes at *
      rw [List.map_cons, List.pairwise_cons] at hb; exact hb.2
    by_cases h : size b = 0
    · -- all following ones are empty
      have hall : ∀ c ∈ l, size c = 0 := by
        intro c hc
        unfold Spec.BalancedSizes at hb
        rw [List.map_cons, List.pairwise_cons] at hb
        have := hb.1 (size c) (List.mem_map.2 ⟨c, hc, rfl⟩)
        omega
      have e1 : (b :: l).filter (fun b => decide (size b ≠ 0)) = [] := by
        rw [List.filter_eq_nil_iff]
        intro c hc
        rcases List.mem_cons.1 hc with rfl | hc
        · simp [h]
        · simp [hall c hc]
      rw [e1]
      simp only [List.zipIdx_nil]
      rw [List.filter_eq_nil_iff]
      intro p hp
      have : p.1 ∈ b :: l := by
        obtain ⟨c, i⟩ := p
        exact (List.mem_zipIdx hp).2.2 ▸ List.getElem_mem _
      rcases List.mem_cons.1 this with h1 | h1
      · simp [h1, h]
      · simp [hall _ h1]
    · rw [List.zipIdx_cons, List.filter_cons_of_pos (by simpa using h),
        List.filter_cons_of_pos (by simpa using h), List.zipIdx_cons, ih (k+1) hb']

private theorem map_snd_zipIdx {β : Type} (l : List β) : l.zipIdx.map Prod.snd = List.range l.length := by
  rw [List.zipIdx_map_snd, List.range_eq_range']

private theorem filter_flatten {β ι : Type} (f : β → List ι) (l : List β) :
    ((l.filter (fun b => decide ((f b).length ≠ 0))).map f).flatten = (l.map f).flatten := by
  induction l with
  | nil => rfl
  | cons b l ih =>
    by_cases h : (f b).length = 0
    · rw [List.filter_cons_of_neg (by simp [h]), ih]
      simp [List.length_eq_zero_iff.1 h]
    · rw [List.filter_cons_of_pos (by simpa using h)]
      simp only [List.map_cons, List.flatten_cons, ih]

/-- Numbering the non-empty parts of a balanced partition gives a distribution. -/
private theorem distribution_of_partition {β ι : Type} (f : β → List ι) (parts : List β) (whole : List ι)
    (n : Nat) (h : Spec.IsBalancedPartition (parts.map f) whole n) :
    Spec.IsDistribution n whole
      (((parts.filter (fun b => decide ((f b).length ≠ 0))).zipIdx).map (fun p => (f p.1, p.2))) := by
  constructor
  · rw [List.map_map]
    show (List.zipIdx _).map Prod.snd = _
    rw [map_snd_zipIdx]; simp
  · simp only [List.length_map, List.length_zipIdx]
    have := h.count
    rw [List.length_map] at this
    rw [← this]; exact List.length_filter_le _ _
  · intro p hp
    rw [List.mem_map] at hp
    obtain ⟨⟨b, i⟩, hb, rfl⟩ := hp
    have : b ∈ parts.filter (fun b => decide ((f b).length ≠ 0)) := by
      exact (List.mem_zipIdx hb).2.2 ▸ List.getElem_mem _
    rw [List.mem_filter] at this
    intro h0
    have h2 := this.2
    simp only at h0
    rw [h0] at h2; simp at h2
  · rw [List.map_map]
    have : (Prod.fst ∘ fun p : β × Nat => (f p.1, p.2)) = f ∘ Prod.fst := rfl
    rw [this, ← List.map_map, List.zipIdx_map_fst, filter_flatten, h.glue]

private theorem rangeLen_eq_length (r : Range) :
    rangeLen r.1 r.2.1 r.2.2 = (rangeOf r).length := by
  simp [rangeOf, pyRange]

/-- **C04** (series, `MultiExecutorSubproc`): the indices computed by the sub-processes distribute the
indices of the series, for every range and every number of processes. -/
theorem C04_subproc_series (start stop step : Int) (n : Nat) (hs : step ≠ 0) (hn : 1 ≤ n) :
    ∃ procs, subprocSeries start stop step n = .ok procs ∧
      Spec.IsDistribution n (pyRange start stop step) procs := by
  obtain ⟨parts, h1, _, h3⟩ := C01_split_range_balanced_partition start stop step n hs hn
  refine ⟨_, by simp only [subprocSeries, h1]; rfl, ?_⟩
  have := distribution_of_partition rangeOf parts _ n h3
  unfold subprocNumbering iterFromRanges
  simp only [rangeLen_eq_length]
  exact this

/-- **C04** (series, `MultiExecutorAsync`). -/
theorem C04_async_series (start stop step : Int) (n : Nat) (hs : step ≠ 0) (hn : 1 ≤ n) :
    ∃ procs, asyncSeries start stop step n = .ok procs ∧
      Spec.IsDistribution n (pyRange start stop step) procs := by
  obtain ⟨parts, h1, _, h3⟩ := C01_split_range_balanced_partition start stop step n hs hn
  refine ⟨_, by simp only [asyncSeries, h1]; rfl, ?_⟩
  have hd := distribution_of_partition rangeOf parts _ n h3
  have hb := h3.balanced
  rw [List.map_map] at hb
  have hz := zipIdx_filter (fun r => (rangeOf r).length) parts 0 hb
  unfold asyncRanges
  simp only [rangeLen_eq_length]
  rw [hz]
  exact hd

theorem partition_of_splitList {ι : Type} (l : List ι) (n : Nat) (hn : 1 ≤ n) :
    ∃ parts m, splitList l n = .ok parts ∧ m ≤ n ∧ Spec.IsBalancedPartition parts l m := by
  by_cases hl : l = []
  · subst hl
    refine ⟨_, n, C02_split_list_empty n, Nat.le_refl _, by simp, by simp, ?_⟩
    unfold Spec.BalancedSizes
    rw [List.pairwise_iff_getElem]
    intro i j hi hj _
    simp
  · obtain ⟨parts, h1, h2, _⟩ := C02_split_list_balanced_partition l n hl hn
    exact ⟨parts, _, h1, Nat.min_le_left _ _, h2⟩

private theorem isEmpty_filter {ι : Type} (parts : List (List ι)) :
    parts.filter (fun l => !l.isEmpty) = parts.filter (fun l => decide ((id l).length ≠ 0)) := by
  congr 1; funext l; cases l <;> simp

/-- **C04** (mode "complete", `MultiExecutorSubproc`, series or images): the index lists given to the
sub-processes distribute the indices to be computed. -/
theorem C04_subproc_complete {ι : Type} (indices : List ι) (n : Nat) (hn : 1 ≤ n) :
    ∃ procs, subprocComplete indices n = .ok procs ∧ Spec.IsDistribution n indices procs := by
  obtain ⟨parts, m, h1, hm, h3⟩ := partition_of_splitList indices n hn
  refine ⟨_, by simp only [subprocComplete, h1]; rfl, ?_⟩
  have hd := distribution_of_partition id parts _ m (by simpa using h3)
  unfold subprocNumbering iterFromIndicesLists
  rw [isEmpty_filter]
  have e : ∀ l : List (List ι × Nat), l.map (fun p => (id p.1, p.2)) = l := by
    intro l; simp
  rw [e] at hd
  exact ⟨hd.numbered, Nat.le_trans hd.bounded hm, hd.busy, hd.glue⟩

/-- **C04** (mode "complete", `MultiExecutorAsync`). -/
theorem C04_async_complete {ι : Type} (indices : List ι) (n : Nat) (hn : 1 ≤ n) :
    ∃ procs, asyncComplete indices n = .ok procs ∧ Spec.IsDistribution n indices procs := by
  obtain ⟨parts, m, h1, hm, h3⟩ := partition_of_splitList indices n hn
  obtain ⟨procs, hp, hd⟩ := C04_subproc_complete indices n hn
  refine ⟨procs, ?_, hd⟩
  simp only [subprocComplete, h1] at hp
  simp only [asyncComplete, h1]
  rw [← hp]
  have hz := zipIdx_filter List.length parts 0 h3.balanced
  unfold asyncIndicesLists subprocNumbering iterFromIndicesLists
  have e1 : (fun p : List ι × Nat => !p.1.isEmpty) = (fun p => decide (p.1.length ≠ 0)) := by
    funext p; cases p.1 <;> simp
  have e2 : (fun p : List ι => !p.isEmpty) = (fun p => decide (p.length ≠ 0)) := by
    funext p; cases p <;> simp
  rw [e1, e2]
  show (Except.ok _ : Except PyErr _) = Except.ok _
  rw [hz]

/-- **C04** (images with several indices, `MultiExecutorSubproc`): splitting the first index only still
distributes all the tuples of indices. The other slicings must be non-empty (as they are for an existing
serie of images). -/
theorem C04_subproc_images (start stop step : Int) (others : List Range) (n : Nat)
    (hs : step ≠ 0) (hn : 1 ≤ n) (ho : ∀ o ∈ others, rangeOf o ≠ []) :
    ∃ procs, subprocImages start stop step others n = .ok procs ∧
      Spec.IsDistribution n (productIndices (pyRange start stop step :: others.map rangeOf)) procs := by
  obtain ⟨parts, h1, _, h3⟩ := C01_split_range_balanced_partition start stop step n hs hn
  refine ⟨_, by simp only [subprocImages, h1]; rfl, ?_⟩
  have hd := distribution_of_partition rangeOf parts _ n h3
  have hprod : ∀ rs : List (List Int), (∀ r ∈ rs, r ≠ []) → productIndices rs ≠ [] := by
    intro rs
    induction rs with
    | nil => intro _; simp [productIndices]
    | cons r rs ih =>
      intro h
      have h1 := h r (by simp)
      have h2 := ih (fun r' hr' => h r' (by simp [hr']))
      cases r with
      | nil => exact absurd rfl h1
      | cons i r => simp [productIndices, h2]
  have hO := hprod (others.map rangeOf) (by
    intro r hr; obtain ⟨o, ho', rfl⟩ := List.mem_map.1 hr; exact ho o ho')
  unfold subprocNumbering iterFromRanges
  simp only [rangeLen_eq_length]
  -- the map from a list of first indices to the tuples
  let g : List Int → List (List Int) := fun r => productIndices (r :: others.map rangeOf)
  have hg : ∀ r, r ≠ [] → g r ≠ [] := by
    intro r hr
    exact hprod _ (by
      intro r' hr'
      rcases List.mem_cons.1 hr' with rfl | h
      · exact hr
      · obtain ⟨o, ho', rfl⟩ := List.mem_map.1 h; exact ho o ho')
  have hflat : ∀ ls : List (List Int), (ls.map g).flatten = g ls.flatten := by
    intro ls
    induction ls with
    | nil => simp [g, productIndices]
    | cons l ls ih => simp only [List.map_cons, List.flatten_cons, ih]; simp [g, productIndices]
  constructor
  · have := hd.numbered
    rw [List.map_map] at this ⊢
    simp only [List.length_map] at this ⊢
    exact this
  · have := hd.bounded
    simp only [List.length_map] at this ⊢
    exact this
  · intro p hp
    rw [List.mem_map] at hp
    obtain ⟨q, hq, rfl⟩ := hp
    exact hg _ (hd.busy (rangeOf q.1, q.2) (List.mem_map.2 ⟨q, hq, rfl⟩))
  · have := hd.glue
    rw [List.map_map] at this ⊢
    have h4 := congrArg g this
    rw [← hflat, List.map_map] at h4
    exact h4

/-! ## Splitting the first queue -/

variable {κ α : Type} [DecidableEq κ]

theorem firstQueue_fill_ok (fq : Dict κ α) (hfq : KeysUnique fq) (ks : List κ) (acc : Dict κ α)
    (hks : ∀ k ∈ ks, k ∈ keys fq) (hnd : (keys acc ++ ks).Nodup) :
    ∃ items : Dict κ α, fillQueue fq ks acc = .ok (acc ++ items) ∧ keys items = ks ∧ ∀ kv ∈ items, kv ∈ fq := by
  induction ks generalizing acc with
  | nil => exact ⟨[], by simp [fillQueue], rfl, by simp⟩
  | cons k ks ih =>
    obtain ⟨v, hv⟩ := (mem_keys_iff fq k).1 (hks k (by simp))
    have hg := mem_get? fq hfq k v hv
    have hk : k ∉ keys acc := by
      rw [List.nodup_append] at hnd
      intro hm; exact hnd.2.2 k hm k (by simp) rfl
    simp only [fillQueue, hg]
    rw [set_of_not_mem acc k v hk]
    obtain ⟨items, h1, h2, h3⟩ := ih (acc ++ [(k, v)]) (fun k' hk' => hks k' (by simp [hk'])) (by
      simpa [keys] using hnd)
    refine ⟨(k, v) :: items, by rw [h1]; simp, by rw [keys_cons, h2], ?_⟩
    intro kv hkv
    rcases List.mem_cons.1 hkv with rfl | h
    · exact hv
    · exact h3 kv h

/-- A child process sees the topology of its parent without the first work, in which the first queue is
replaced everywhere by a queue containing exactly `items`, all other queues being as in the parent. -/
structure SeesItems (mem : Mem κ α) (q0 : Nat) (items : Dict κ α) (c : Child κ α) : Prop where
  fresh : mem.next ≤ c.firstQueue
  works : c.mem.works = (mem.works.drop 1).map (WorkRefs.replace q0 c.firstQueue)
  queues : c.mem.queues = mem.queues.map (fun q => if q = q0 then c.firstQueue else q)
  content : c.mem.heap c.firstQueue = items
  others : ∀ r, r < mem.next → r ≠ q0 → c.mem.heap r = mem.heap r

/-- References of the memory are allocated. -/
def Refs.lt (n : Nat) : Refs → Prop
  | .none => True
  | .one q => q < n
  | .many qs => ∀ q ∈ qs, q < n

def Mem.WF (mem : Mem κ α) : Prop :=
  (∀ w ∈ mem.works, Refs.lt mem.next w.input ∧ Refs.lt mem.next w.output) ∧ ∀ q ∈ mem.queues, q < mem.next

private theorem refs_replace_twice (n q0 a b : Nat) (r : Refs) (hr : Refs.lt n r) (ha : n ≤ a) :
    (r.replace q0 a).replace a b = r.replace q0 b := by
  cases r with
  | none => rfl
  | one q =>
    have : q < n := hr
    simp only [Refs.replace]
    by_cases h : q = q0
    · simp [h]
    · have : q ≠ a := by omega
      simp [h, this]
  | many qs =>
    simp only [Refs.replace, List.map_map]
    congr 1
    apply List.map_congr_left
    intro q hq
    have : q < n := hr q hq
    simp only [Function.comp_apply]
    by_cases h : q = q0
    · simp [h]
    · have : q ≠ a := by omega
      simp [h, this]

/-- Loop invariant: in the current memory, the parent's references to the first queue have been replaced
by the last queue created. -/
private structure LoopInv (mem0 : Mem κ α) (q0 : Nat) (mem : Mem κ α) (old : Nat) : Prop where
  oldCases : (old = q0 ∧ mem.works = mem0.works.drop 1 ∧ mem.queues = mem0.queues) ∨
    (mem0.next ≤ old ∧ mem.works = (mem0.works.drop 1).map (WorkRefs.replace q0 old) ∧
      mem.queues = mem0.queues.map (fun q => if q = q0 then old else q))
  next : mem0.next ≤ mem.next
  heap0 : mem.heap q0 = []
  heap : ∀ r, r < mem0.next → r ≠ q0 → mem.heap r = mem0.heap r

private theorem launchOne_ok (fq : Dict κ α) (hfq : KeysUnique fq) (mem0 : Mem κ α) (hwf : Mem.WF mem0) (q0 : Nat)
    (hq0 : q0 < mem0.next) (mem : Mem κ α) (old : Nat) (inv : LoopInv mem0 q0 mem old) (ks : List κ)
    (idx : Nat) (hks : ∀ k ∈ ks, k ∈ keys fq) (hnd : ks.Nodup) :
    ∃ mem' new c items, launchOne fq q0 mem old ks idx = .ok (mem', new, c) ∧ LoopInv mem0 q0 mem' new ∧
      c.index = idx ∧ SeesItems mem0 q0 items c ∧ keys items = ks ∧ ∀ kv ∈ items, kv ∈ fq := by
  obtain ⟨items, h1, h2, h3⟩ := firstQueue_fill_ok fq hfq ks [] hks (by simpa [keys] using hnd)
  have hcopy : Queue.copy (mem.heap q0) = [] := by rw [inv.heap0]; rfl
  have hworks : mem.works.map (WorkRefs.replace old mem.next)
      = (mem0.works.drop 1).map (WorkRefs.replace q0 mem.next) := by
    rcases inv.oldCases with ⟨rfl, hw, _⟩ | ⟨ho, hw, _⟩
    · rw [hw]
    · rw [hw, List.map_map]
      apply List.map_congr_left
      intro w hw'
      have := hwf.1 w (List.mem_of_mem_drop hw')
      simp only [Function.comp_apply, WorkRefs.replace]
      rw [refs_replace_twice _ _ _ _ _ this.1 ho, refs_replace_twice _ _ _ _ _ this.2 ho]
  have hqueues : mem.queues.map (fun q => if q = old then mem.next else q)
      = mem0.queues.map (fun q => if q = q0 then mem.next else q) := by
    rcases inv.oldCases with ⟨rfl, _, hw⟩ | ⟨ho, _, hw⟩
    · rw [hw]
    · rw [hw, List.map_map]
      apply List.map_congr_left
      intro q hq
      have := hwf.2 q hq
      simp only [Function.comp_apply]
      by_cases h : q = q0
      · simp [h]
      · have : q ≠ old := by omega
        simp [h, this]
  have hn := inv.next
  have e : launchOne fq q0 mem old ks idx = .ok
      (⟨fun r => if r = mem.next then items else mem.heap r, mem.next + 1,
        mem.works.map (WorkRefs.replace old mem.next), mem.queues.map (fun q => if q = old then mem.next else q)⟩,
       mem.next, ⟨⟨fun r => if r = mem.next then items else mem.heap r, mem.next + 1,
        mem.works.map (WorkRefs.replace old mem.next), mem.queues.map (fun q => if q = old then mem.next else q)⟩,
        mem.next, idx⟩) := by
    simp only [launchOne, hcopy, h1, List.nil_append]
  refine ⟨_, _, _, items, e, ⟨?_, ?_, ?_, ?_⟩, rfl, ⟨?_, ?_, ?_, ?_, ?_⟩, h2, h3⟩
  · exact Or.inr ⟨hn, hworks, hqueues⟩
  · show mem0.next ≤ mem.next + 1; omega
  · show (if q0 = mem.next then items else mem.heap q0) = []
    rw [if_neg (by omega)]; exact inv.heap0
  · intro r hr hr0
    show (if r = mem.next then items else mem.heap r) = _
    rw [if_neg (by omega)]; exact inv.heap r hr hr0
  · exact hn
  · exact hworks
  · exact hqueues
  · show (if mem.next = mem.next then items else mem.heap mem.next) = items
    simp
  · intro r hr hr0
    show (if r = mem.next then items else mem.heap r) = _
    rw [if_neg (by omega)]; exact inv.heap r hr hr0

private theorem launchLoop_ok (fq : Dict κ α) (hfq : KeysUnique fq) (mem0 : Mem κ α) (hwf : Mem.WF mem0) (q0 : Nat)
    (hq0 : q0 < mem0.next) (parts : List (List κ × Nat)) (mem : Mem κ α) (old : Nat)
    (inv : LoopInv mem0 q0 mem old) (hks : ∀ p ∈ parts, (∀ k ∈ p.1, k ∈ keys fq) ∧ p.1.Nodup) :
    ∃ children itemss, launchLoop fq q0 mem old parts = .ok children ∧
      children.map Child.index = parts.map Prod.snd ∧
      List.Forall₂ (SeesItems mem0 q0) itemss children ∧
      itemss.map keys = parts.map Prod.fst ∧ (∀ items ∈ itemss, ∀ kv ∈ items, kv ∈ fq) := by
  induction parts generalizing mem old with
  | nil => exact ⟨[], [], rfl, rfl, .nil, rfl, by simp⟩
  | cons p parts ih =>
    obtain ⟨ks, idx⟩ := p
    obtain ⟨hk1, hk2⟩ := hks (ks, idx) (by simp)
    obtain ⟨mem', new, c, items, h1, h2, h3, h4, h5, h6⟩ :=
      launchOne_ok fq hfq mem0 hwf q0 hq0 mem old inv ks idx hk1 hk2
    obtain ⟨children, itemss, g1, g2, g3, g4, g5⟩ := ih mem' new h2 (fun p hp => hks p (by simp [hp]))
    refine ⟨c :: children, items :: itemss, ?_, ?_, .cons h4 g3, ?_, ?_⟩
    · simp only [launchLoop, h1, g1]
    · simp [h3, g2]
    · simp [h5, g4]
    · intro items' hi
      rcases List.mem_cons.1 hi with rfl | hi
      · exact h6
      · exact g5 items' hi

private theorem items_eq_of_keys (fq : Dict κ α) (hfq : KeysUnique fq) (l : List (Dict κ α))
    (hk : (l.map keys).flatten = keys fq) (hm : ∀ items ∈ l, ∀ kv ∈ items, kv ∈ fq) : l.flatten = fq := by
  have hkeys : keys l.flatten = keys fq := by
    rw [← hk]; unfold keys; rw [List.map_flatten]
  have hmem : ∀ kv ∈ l.flatten, kv ∈ fq := by
    intro kv hkv
    obtain ⟨items, h1, h2⟩ := List.mem_flatten.1 hkv
    exact hm items h1 kv h2
  have hu : KeysUnique l.flatten := by unfold KeysUnique; rw [hkeys]; exact hfq
  apply ext_of_keys _ _ hu hkeys
  intro k
  cases h : get? l.flatten k with
  | some v => exact (mem_get? fq hfq k v (hmem _ (get?_mem _ _ _ h))).symm
  | none =>
    rw [get?_eq_none_iff, hkeys, ← get?_eq_none_iff] at h
    exact h.symm

/-- **C04** (topologies without series, `MultiExecutorAsync`): the first queue is distributed over the
processes, with the aliasing of queues between the topologies taken into account: each child process sees
its own part, and nothing else, in the queue that replaces the first queue. -/
theorem C04_async_first_queue (fq : Dict κ α) (hfq : KeysUnique fq) (n : Nat) (hn : 1 ≤ n)
    (mem : Mem κ α) (hwf : Mem.WF mem) (q0 : Nat) (hq0 : q0 < mem.next) (hne : fq ≠ []) :
    ∃ children procs, startFirstQueue fq n mem q0 = .ok children ∧
      Spec.IsDistribution n fq procs ∧
      children.map Child.index = procs.map Prod.snd ∧
      List.Forall₂ (SeesItems mem q0) (procs.map Prod.fst) children := by
  have hkne : keys fq ≠ [] := by cases fq with
    | nil => exact absurd rfl hne
    | cons kv fq => simp [keys]
  obtain ⟨parts, h1, h2, h3⟩ := C02_split_list_balanced_partition (keys fq) n hkne hn
  have hsub : ∀ p ∈ parts, (∀ k ∈ p, k ∈ keys fq) ∧ p.Nodup := by
    intro p hp
    constructor
    · intro k hk; rw [← h2.glue]; exact List.mem_flatten.2 ⟨p, hp, hk⟩
    · have : parts.flatten.Nodup := by rw [h2.glue]; exact hfq
      rw [List.nodup_flatten] at this
      exact this.1 p hp
  obtain ⟨children, itemss, g1, g2, g3, g4, g5⟩ := launchLoop_ok fq hfq mem hwf q0 hq0 parts.zipIdx
    { mem with heap := fun r => if r = q0 then [] else mem.heap r, works := mem.works.drop 1 } q0
    ⟨Or.inl ⟨rfl, rfl, rfl⟩, Nat.le_refl _, by simp, by intro r _ hr; simp [hr]⟩ (by
      intro p hp
      have : p.1 ∈ parts := by
        obtain ⟨b, i⟩ := p
        exact (List.mem_zipIdx hp).2.2 ▸ List.getElem_mem _
      exact hsub _ this)
  rw [List.zipIdx_map_fst] at g4
  have hlen : itemss.length = parts.length := by
    have := congrArg List.length g4; simpa using this
  have hst : startFirstQueue fq n mem q0 = .ok children := by
    simp only [startFirstQueue, h1]; exact g1
  refine ⟨children, itemss.zipIdx, hst, ⟨?_, ?_, ?_, ?_⟩, ?_, ?_⟩
  · rw [map_snd_zipIdx]; simp
  · rw [List.length_zipIdx, hlen, h2.count]; exact Nat.min_le_left _ _
  · intro p hp h0
    have hm : p.1 ∈ itemss := by
      obtain ⟨b, i⟩ := p
      exact (List.mem_zipIdx hp).2.2 ▸ List.getElem_mem _
    have : keys p.1 ∈ parts := by rw [← g4]; exact List.mem_map.2 ⟨_, hm, rfl⟩
    exact h3 _ this (by rw [h0]; rfl)
  · rw [List.zipIdx_map_fst]
    apply items_eq_of_keys fq hfq
    · rw [g4, h2.glue]
    · exact g5
  · rw [g2, map_snd_zipIdx, map_snd_zipIdx, hlen]
  · rw [List.zipIdx_map_fst]; exact g3

-- non-trivial instances
example : subprocSeries 0 7 2 3 = .ok [([0, 2], 0), ([4], 1), ([6], 2)] := by decide
example : subprocSeries 0 3 1 5 = .ok [([0], 0), ([1], 1), ([2], 2)] := by decide
example : asyncSeries 0 3 1 5 = .ok [([0], 0), ([1], 1), ([2], 2)] := by decide
example : subprocImages 1 4 1 [(0, 2, 1)] 2 =
    .ok [([[1, 0], [1, 1], [2, 0], [2, 1]], 0), ([[3, 0], [3, 1]], 1)] := by decide
/-- A chain paths → arrays → results with three paths: a memory that satisfies the hypotheses of
`C04_async_first_queue`. -/
def exampleMem : Mem Nat Nat :=
  { heap := fun r => if r = 0 then [(1, 10), (2, 20), (3, 30)] else []
    next := 3
    works := [⟨.none, .one 0⟩, ⟨.one 0, .one 1⟩, ⟨.one 1, .one 2⟩]
    queues := [0, 1, 2] }
example : Mem.WF exampleMem := by
  refine ⟨?_, by decide⟩
  intro w hw
  simp only [exampleMem, List.mem_cons, List.not_mem_nil, or_false] at hw ⊢
  rcases hw with rfl | rfl | rfl <;> simp [Refs.lt]
example : (match startFirstQueue (exampleMem.heap 0) 2 exampleMem 0 with
    | .ok cs => cs.map (fun c => (c.index, c.mem.works, c.mem.queues, c.mem.heap c.firstQueue))
    | .error _ => []) =
    [(0, [⟨.one 3, .one 1⟩, ⟨.one 1, .one 2⟩], [3, 1, 2], [(1, 10), (2, 20)]),
     (1, [⟨.one 4, .one 1⟩, ⟨.one 1, .one 2⟩], [4, 1, 2], [(3, 30)])] := by decide

end Verif
