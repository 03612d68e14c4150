import Verif.Model.WholeImages
import Verif.Props.Executors
import Verif.Props.StopSignal
import Verif.Props.Distribution
import Verif.Props.Complete
import Verif.Props.Names
import Verif.Props.WholeRun
import Verif.Props.TryWork
import Verif.Exec.StopIfError

/-!
# The files of a computation on images do not depend on how it is executed (C118)
-/

namespace Verif
open Verif.Exec Verif.Spec Verif.ResultsFiles Verif.Distribution Verif.Complete Verif.WholeRun Verif.WholeImages

namespace WholeImages
variable {V : Type}

/-! ## Specification -/

/-- The result of the image `k`: the works are applied one after the other to its path. -/
def resultOf (K : Computation V) (k : Txt) : Except PyErr V := imageOf k K.pre (.ok (K.path k))

/-- The image `k` has the result `v`, which can be written. -/
def HasResult (K : Computation V) (k : Txt) (v : V) : Prop := resultOf K k = .ok v ∧ K.save k v = .ok ()

/-- The indices `i` are in the slices of the serie. -/
def InSerie (K : Computation V) (i : List Int) : Prop :=
  List.Forall₂ (fun j r => j ∈ pyRange r.1 r.2.1 r.2.2) i (K.first :: K.others)

/-- The image `k` has to be computed: it is in the serie and it is not the reference. -/
def Asked (K : Computation V) (k : Txt) : Prop := ∃ i, InSerie K i ∧ K.reference ≠ some i ∧ K.nameOf i = k

/-- The computation is well defined: the slices are ranges, and each image has its own file. -/
structure Usable (K : Computation V) : Prop where
  step : K.first.2.2 ≠ 0
  others : ∀ r ∈ K.others, pyRange r.1 r.2.1 r.2.2 ≠ []
  fileName : ∀ k, Asked K k → ∀ v, resultOf K k = .ok v → K.fileName k v = K.resultName k
  differ : ∀ k, Asked K k → ∀ k', Asked K k' → K.resultName k = K.resultName k' → k = k'

/-- The directory `d'` is the directory `d` with the results of the images. -/
structure HasResults (K : Computation V) (d d' : Files Txt V) : Prop where
  results : ∀ k, Asked K k → ∀ v, HasResult K k v → d' (K.resultName k) = some v
  others : ∀ n, (∀ k, Asked K k → ∀ v, HasResult K k v → K.resultName k ≠ n) → d' n = d n

/-- The files which are already there for the images are their results. -/
def Clean (K : Computation V) (d : Files Txt V) : Prop :=
  ∀ k, Asked K k → ∀ v, d (K.resultName k) = some v → HasResult K k v

/-! ## One process -/

theorem item_error (k : Txt) (w w' : Nat) (v : V) (ws : List (ChainWork Txt V PyErr)) (e : PyErr) :
    Event.call w' k v ∉ itemEvents k w ws (.error e) := by
  induction ws generalizing w with
  | nil => simp [itemEvents]
  | cons c ws ih =>
    unfold itemEvents
    by_cases h : ws = []
    · simp [h]
    · rw [if_neg h]; exact ih _

theorem item_save (k : Txt) (w : Nat) (v : V) (pre : List (ChainWork Txt V PyErr)) (s : ChainWork Txt V PyErr) (r : Except PyErr V) :
    Event.call (w + pre.length) k v ∈ itemEvents k w (pre ++ [s]) r ↔ imageOf k pre r = .ok v := by
  induction pre generalizing w r with
  | nil =>
    cases r with
    | error e => simp [imageOf, item_error]
    | ok v0 =>
      simp only [List.nil_append, List.length_nil, Nat.add_zero, imageOf, itemEvents]
      cases s.f k v0 <;> simp [eq_comm]
  | cons c pre ih =>
    cases r with
    | error e => simp [imageOf, item_error]
    | ok v0 =>
      have e : w + (c :: pre).length = (w + 1) + pre.length := by simp; omega
      simp only [List.cons_append, imageOf, itemEvents, e]
      have hw : ¬ (w + 1 + pre.length = w) := by omega
      cases hc : c.f k v0 with
      | ok v1 => simp only [List.mem_cons, Event.call.injEq, hw, false_and, false_or]; exact ih _ _
      | error e1 =>
        simp only [List.mem_cons, Event.call.injEq, hw, false_and, false_or, reduceCtorEq]; exact ih _ _

/-- The first queue of a process gives the paths of its images. -/
structure Good (K : Computation V) (q : Dict Txt (Except PyErr V)) : Prop where
  unique : q.KeysUnique
  paths : ∀ k v, q.get? k = some v → v = .ok (K.path k)

/-- What is done at any time of a process is the beginning of what it has to do. -/
structure Begun (K : Computation V) (q : Dict Txt (Except PyErr V)) (log : List (Event Txt V PyErr)) : Prop where
  images : ∀ k v, q.get? k = some v → historyOf k log <+: itemEvents k 0 K.works v
  noOther : ∀ k, q.get? k = none → historyOf k log = []

structure Done (K : Computation V) (q : Dict Txt (Except PyErr V)) (log : List (Event Txt V PyErr)) : Prop where
  images : ∀ k v, q.get? k = some v → historyOf k log = itemEvents k 0 K.works v
  noOther : ∀ k, q.get? k = none → historyOf k log = []

theorem Done.begun {K : Computation V} {q : Dict Txt (Except PyErr V)} {log : List (Event Txt V PyErr)} (h : Done K q log) :
    Begun K q log := ⟨fun k v hv => by rw [h.images k v hv], h.noOther⟩

theorem Begun.prefix {K : Computation V} {q : Dict Txt (Except PyErr V)} {log log' : List (Event Txt V PyErr)} (h : Begun K q log)
    (hp : log' <+: log) : Begun K q log' where
  images := fun k v hv => (hp.filter _).trans (h.images k v hv)
  noOther := fun k hk => by
    have h2 : historyOf k log' <+: historyOf k log := hp.filter _
    rw [h.noOther k hk] at h2
    exact List.prefix_nil.1 h2

theorem works_ne (K : Computation V) : K.works ≠ [] := by simp [Computation.works]

theorem ended_done {K : Computation V} {q : Dict Txt (Except PyErr V)} (hq : Good K q) {log : List (Event Txt V PyErr)}
    (h : K.Ended q log) : Done K q log := by
  obtain ⟨c, ls, s, h1, h2, rfl⟩ := h
  obtain ⟨a, b, -⟩ := C10_async_schedule K.works (works_ne K) q hq.unique c ls s h1 h2
  exact ⟨a, b⟩

theorem seq_done {K : Computation V} {q : Dict Txt (Except PyErr V)} (hq : Good K q) (c : Cfg) (n : Nat) (s : SState Txt V PyErr Unit)
    (h : seqLoop (chain K.works) c n (SState.init (startQueues q) ()) = some s) :
    ∃ all, Done K q all ∧ (s.log = all ∨ (s.crashed.isSome = true ∧ s.log <+: all)) := by
  obtain ⟨n', s', h1, -, -, h3, h4, -⟩ := C09_sequential_chain K.works (works_ne K) q hq.unique c.noStop rfl
  refine ⟨s'.log, ⟨h3, h4⟩, ?_⟩
  rcases seqLoop_compare h h1 with h5 | h5
  · exact Or.inl (by rw [h5])
  · exact Or.inr h5

theorem endedSeq_done {K : Computation V} {q : Dict Txt (Except PyErr V)} (hq : Good K q) {log : List (Event Txt V PyErr)}
    (h : K.EndedSeq q log) : Done K q log := by
  obtain ⟨c, n, s, h1, h2, rfl⟩ := h
  obtain ⟨all, h3, h4⟩ := seq_done hq c n s h1
  rcases h4 with rfl | h4
  · exact h3
  · rw [h2] at h4; cases h4.1

theorem killedSeq_begun {K : Computation V} {q : Dict Txt (Except PyErr V)} (hq : Good K q) {log : List (Event Txt V PyErr)}
    (h : K.KilledSeq q log) : Begun K q log := by
  obtain ⟨c, n, s, h1, h2⟩ := h
  obtain ⟨all, h3, h4⟩ := seq_done hq c n s h1
  rcases h4 with rfl | h4
  · exact h3.begun.prefix h2
  · exact h3.begun.prefix (h2.trans h4.2)

theorem killed_begun {K : Computation V} {q : Dict Txt (Except PyErr V)} (hq : Good K q) {log : List (Event Txt V PyErr)}
    (h : K.Killed q log) : Begun K q log := by
  obtain ⟨c, xls, s, h1, rfl⟩ := h
  obtain ⟨a, b, -⟩ := C104_right_chain K.works (works_ne K) q hq.unique c xls s h1
  exact ⟨a, b⟩

theorem mem_saves (K : Computation V) (log : List (Event Txt V PyErr)) (k : Txt) (v : V) :
    (k, v) ∈ K.saves log ↔ Event.call K.pre.length k v ∈ historyOf k log ∧ K.save k v = .ok () := by
  unfold Computation.saves historyOf
  rw [List.mem_filterMap, List.mem_filter]
  constructor
  · rintro ⟨e, he, h⟩
    split at h
    · rename_i w k' v'
      by_cases hw : w = K.pre.length
      · rw [if_pos hw] at h
        cases hs : K.save k' v' with
        | error e => rw [hs] at h; cases h
        | ok u => rw [hs] at h; cases h; subst hw; exact ⟨⟨he, by simp [keyOf]⟩, hs⟩
      · rw [if_neg hw] at h; cases h
    · cases h
  · rintro ⟨⟨he, -⟩, hs⟩
    exact ⟨_, he, by simp only [if_true, hs]⟩

theorem item_result (K : Computation V) (k : Txt) (v : V) :
    Event.call K.pre.length k v ∈ itemEvents k 0 K.works (.ok (K.path k)) ↔ resultOf K k = .ok v := by
  have := item_save k 0 v K.pre ⟨true, fun name v => match K.save name v with
    | .error e => .error e
    | .ok _ => .ok v⟩ (.ok (K.path k))
  rw [Nat.zero_add] at this
  exact this

theorem begun_sound {K : Computation V} {q : Dict Txt (Except PyErr V)} (hq : Good K q) {log : List (Event Txt V PyErr)}
    (h : Begun K q log) (k : Txt) (v : V) (hm : (k, v) ∈ K.saves log) : k ∈ q.keys ∧ HasResult K k v := by
  obtain ⟨he, hs⟩ := (mem_saves K log k v).1 hm
  cases hg : q.get? k with
  | none => rw [h.noOther k hg] at he; cases he
  | some r =>
    have h1 := (h.images k r hg).subset he
    rw [hq.paths k r hg, item_result] at h1
    exact ⟨(Dict.mem_keys_iff q k).2 ⟨r, Dict.get?_mem q k r hg⟩, h1, hs⟩

theorem done_complete {K : Computation V} {q : Dict Txt (Except PyErr V)} (hq : Good K q) {log : List (Event Txt V PyErr)}
    (h : Done K q log) (k : Txt) (hk : k ∈ q.keys) (v : V) (hv : HasResult K k v) : (k, v) ∈ K.saves log := by
  obtain ⟨r, hr⟩ := (Dict.mem_keys_iff q k).1 hk
  have hg := Dict.mem_get? q hq.unique k r hr
  rw [mem_saves, h.images k r hg, hq.paths k r hg, item_result]
  exact hv

theorem process_done {K : Computation V} {x : Executor} (q : Dict Txt (Except PyErr V)) (hq : Good K q)
    (log : List (Event Txt V PyErr)) (h : K.process x q log) : Done K q log := by
  cases x with
  | sequential => exact endedSeq_done hq h
  | async => exact ended_done hq h
  | multiAsync n => exact ended_done hq h
  | multiSubproc n => exact ended_done hq h

theorem processKilled_begun {K : Computation V} {x : Executor} (q : Dict Txt (Except PyErr V)) (hq : Good K q)
    (log : List (Event Txt V PyErr)) (h : K.processKilled x q log) : Begun K q log := by
  have key : (K.Killed q log ∨ K.Ended q log) → Begun K q log := by
    rintro (h | h)
    · exact killed_begun hq h
    · exact (ended_done hq h).begun
  cases x with
  | sequential => exact killedSeq_begun hq h
  | async => exact key h
  | multiAsync n => exact key h
  | multiSubproc n => exact key h

/-! ## The images which are computed -/

theorem mem_product (rs : List (List Int)) (i : List Int) : i ∈ productIndices rs ↔ List.Forall₂ (fun j r => j ∈ r) i rs := by
  induction rs generalizing i with
  | nil => simp [productIndices]
  | cons r rs ih =>
    simp only [productIndices, List.mem_flatMap, List.mem_map]
    constructor
    · rintro ⟨j, hj, t, ht, rfl⟩
      exact List.Forall₂.cons hj ((ih t).1 ht)
    · intro h
      cases h with
      | cons a b => exact ⟨_, a, _, (ih _).2 b, rfl⟩

theorem pyRange_nodup (start stop step : Int) : (pyRange start stop step).Nodup := by
  unfold pyRange
  by_cases hs : step = 0
  · subst hs; simp [rangeLen]
  · refine List.Nodup.map ?_ List.nodup_range
    intro a b h
    simp only [add_right_inj] at h
    exact_mod_cast mul_right_cancel₀ hs h

theorem product_nodup (rs : List (List Int)) (h : ∀ r ∈ rs, r.Nodup) : (productIndices rs).Nodup := by
  induction rs with
  | nil => simp [productIndices]
  | cons r rs ih =>
    have h1 := ih (fun r hr => h r (List.mem_cons_of_mem _ hr))
    have h2 := h r List.mem_cons_self
    simp only [productIndices]
    rw [List.nodup_flatMap]
    constructor
    · intro j _
      exact h1.map (fun a b e => (List.cons.inj e).2)
    · refine h2.imp ?_
      intro a b hab
      simp only [Function.onFun, List.disjoint_left, List.mem_map]
      rintro _ ⟨t, -, rfl⟩ ⟨t', -, e⟩
      exact hab (List.cons.inj e).1.symm

theorem indices_nodup (K : Computation V) : K.indices.Nodup := by
  refine product_nodup _ ?_
  intro r hr
  obtain ⟨s, -, rfl⟩ := List.mem_map.1 hr
  exact pyRange_nodup _ _ _

theorem mem_indices (K : Computation V) (i : List Int) : i ∈ K.indices ↔ InSerie K i := by
  unfold Computation.indices InSerie
  rw [mem_product, List.forall₂_map_right_iff]

theorem mem_remove {ι : Type} [DecidableEq ι] (l : List ι) (hl : l.Nodup) (i r : ι) : i ∈ remove l r ↔ i ≠ r ∧ i ∈ l :=
  hl.mem_erase_iff

theorem mem_fix (K : Computation V) (l : List (List Int)) (hl : l.Nodup) (i : List Int) :
    i ∈ K.fix l ↔ i ∈ l ∧ K.reference ≠ some i := by
  unfold Computation.fix
  cases K.reference with
  | none => simp
  | some r =>
    simp only [mem_remove l hl, ne_eq, Option.some.injEq]
    constructor
    · rintro ⟨a, b⟩; exact ⟨b, fun e => a e.symm⟩
    · rintro ⟨a, b⟩; exact ⟨fun e => b e.symm, a⟩

theorem mem_toCompute (K : Computation V) (d : Files Txt V) (m : Mode) (i : List Int) :
    i ∈ K.toCompute d m ↔ InSerie K i ∧ K.reference ≠ some i ∧ (m = .complete → d (K.resultName (K.nameOf i)) = none) := by
  cases m with
  | recompute =>
    simp only [Computation.toCompute]
    rw [mem_fix K _ (indices_nodup K), mem_indices]
    simp
  | complete =>
    simp only [Computation.toCompute]
    have h := C07_exactly_the_missing (fun i => K.resultName (K.nameOf i)) K.indices d
    rw [mem_fix K _ (h.2.2 (indices_nodup K)), h.1, mem_indices]
    simp only [forall_const]
    tauto

theorem queue_good (K : Computation V) (is : List (List Int)) : Good K (K.queue is) ∧
    ∀ k, k ∈ (K.queue is).keys ↔ ∃ i ∈ is, K.nameOf i = k := by
  have key : ∀ (is : List (List Int)) (q : Dict Txt (Except PyErr V)), Good K q →
      Good K (is.foldl (fun q i => Dict.set q (K.nameOf i) (.ok (K.path (K.nameOf i)))) q) ∧
      ∀ k, k ∈ Dict.keys (is.foldl (fun q i => Dict.set q (K.nameOf i) (.ok (K.path (K.nameOf i)))) q) ↔
        k ∈ Dict.keys q ∨ ∃ i ∈ is, K.nameOf i = k := by
    intro is
    induction is with
    | nil => intro q hq; exact ⟨hq, by simp⟩
    | cons i is ih =>
      intro q hq
      have hg : Good K (Dict.set q (K.nameOf i) (.ok (K.path (K.nameOf i)))) := by
        refine ⟨Dict.keysUnique_set q _ _ hq.unique, ?_⟩
        intro k v hk
        rw [Dict.get?_set] at hk
        by_cases hki : k = K.nameOf i
        · subst hki; simp at hk; exact hk.symm
        · simp [hki] at hk; exact hq.paths k v hk
      obtain ⟨a, b⟩ := ih _ hg
      refine ⟨a, ?_⟩
      intro k
      rw [List.foldl_cons, b]
      have hm : k ∈ Dict.keys (Dict.set q (K.nameOf i) (.ok (K.path (K.nameOf i)))) ↔ k = K.nameOf i ∨ k ∈ Dict.keys q := by
        by_cases hki : k = K.nameOf i
        · subst hki
          simp only [true_or, iff_true]
          by_contra hn
          rw [← Dict.get?_eq_none_iff, Dict.get?_set] at hn
          simp at hn
        · rw [← not_iff_not, ← Dict.get?_eq_none_iff, Dict.get?_set]
          simp [hki, Dict.get?_eq_none_iff]
      rw [hm]
      simp only [List.mem_cons, exists_eq_or_imp]
      tauto
  obtain ⟨a, b⟩ := key is [] ⟨by simp [Dict.KeysUnique, Dict.keys], by simp [Dict.get?]⟩
  refine ⟨a, ?_⟩
  intro k
  have := b k
  simp only [Dict.keys, List.map_nil, List.not_mem_nil, false_or] at this
  exact this

theorem fillQueues_ok (K : Computation V) (q : Dict Txt (Except PyErr V)) (hq : Good K q) (parts : List (List Txt))
    (hp : ∀ p ∈ parts, (∀ k ∈ p, k ∈ q.keys) ∧ p.Nodup) :
    ∃ qs, fillQueues q parts = .ok qs ∧ (∀ q' ∈ qs, Good K q') ∧ ∀ k, (∃ q' ∈ qs, k ∈ q'.keys) ↔ ∃ p ∈ parts, k ∈ p := by
  induction parts with
  | nil => exact ⟨[], rfl, by simp, by simp⟩
  | cons p parts ih =>
    obtain ⟨qs, h1, h2, h3⟩ := ih (fun p hp' => hp p (List.mem_cons_of_mem _ hp'))
    obtain ⟨a, b⟩ := hp p List.mem_cons_self
    obtain ⟨items, f1, f2, f3⟩ := firstQueue_fill_ok q hq.unique p [] a (by simpa [Dict.keys] using b)
    rw [List.nil_append] at f1
    refine ⟨items :: qs, by simp only [fillQueues, f1, h1], ?_, ?_⟩
    · intro q' hq'
      rcases List.mem_cons.1 hq' with rfl | hq'
      · refine ⟨by unfold Dict.KeysUnique; rw [f2]; exact b, ?_⟩
        intro k v hk
        exact hq.paths k v (Dict.mem_get? q hq.unique k v (f3 _ (Dict.get?_mem _ k v hk)))
      · exact h2 q' hq'
    · intro k
      simp only [List.mem_cons, exists_eq_or_imp, h3, f2]

/-- The first queues of the processes give the images which have to be computed. -/
theorem queues_ok {K : Computation V} (hu : Usable K) (d : Files Txt V) (m : Mode) (x : Executor) (hx : x.HasProcess) :
    ∃ qs, K.queues d m x = .ok qs ∧ (∀ q ∈ qs, Good K q) ∧
      ∀ k, (∃ q ∈ qs, k ∈ q.keys) ↔ Asked K k ∧ (m = .complete → d (K.resultName k) = none) := by
  have hone : ∀ k, (∃ i ∈ K.toCompute d m, K.nameOf i = k) ↔ Asked K k ∧ (m = .complete → d (K.resultName k) = none) := by
    intro k
    constructor
    · rintro ⟨i, hi, rfl⟩
      obtain ⟨a, b, c⟩ := (mem_toCompute K d m i).1 hi
      exact ⟨⟨i, a, b, rfl⟩, c⟩
    · rintro ⟨⟨i, a, b, rfl⟩, c⟩
      exact ⟨i, (mem_toCompute K d m i).2 ⟨a, b, c⟩, rfl⟩
  have single : (∀ q ∈ [K.queue (K.toCompute d m)], Good K q) ∧
      ∀ k, (∃ q ∈ [K.queue (K.toCompute d m)], k ∈ q.keys) ↔ Asked K k ∧ (m = .complete → d (K.resultName k) = none) := by
    obtain ⟨a, b⟩ := queue_good K (K.toCompute d m)
    refine ⟨by simpa using a, ?_⟩
    intro k
    rw [← hone k, ← b k]
    simp
  have many : ∀ ps : List (List (List Int)), (∀ q ∈ ps.map K.queue, Good K q) ∧
      ∀ k, (∃ q ∈ ps.map K.queue, k ∈ q.keys) ↔ ∃ i ∈ ps.flatten, K.nameOf i = k := by
    intro ps
    constructor
    · intro q hq
      obtain ⟨p, -, rfl⟩ := List.mem_map.1 hq
      exact (queue_good K p).1
    · intro k
      simp only [List.mem_map, List.mem_flatten]
      constructor
      · rintro ⟨_, ⟨p, hp, rfl⟩, hk⟩
        obtain ⟨i, hi, e⟩ := ((queue_good K p).2 k).1 hk
        exact ⟨i, ⟨p, hp, hi⟩, e⟩
      · rintro ⟨i, ⟨p, hp, hi⟩, e⟩
        exact ⟨_, ⟨p, hp, rfl⟩, ((queue_good K p).2 k).2 ⟨i, hi, e⟩⟩
  cases x with
  | sequential => exact ⟨_, rfl, single⟩
  | async => exact ⟨_, rfl, single⟩
  | multiAsync n =>
    obtain ⟨g1, g2⟩ := queue_good K (K.toCompute d m)
    obtain ⟨parts, c, h1, -, h3⟩ := partition_of_splitList (K.queue (K.toCompute d m)).keys n hx
    have hp : ∀ p ∈ parts, (∀ k ∈ p, k ∈ (K.queue (K.toCompute d m)).keys) ∧ p.Nodup := by
      intro p hp
      have hnd : (K.queue (K.toCompute d m)).keys.Nodup := g1.unique
      rw [← h3.glue] at hnd ⊢
      exact ⟨fun k hk => List.mem_flatten.2 ⟨p, hp, hk⟩, (List.nodup_flatten.1 hnd).1 p hp⟩
    obtain ⟨qs, f1, f2, f3⟩ := fillQueues_ok K _ g1 parts hp
    refine ⟨qs, by simp only [Computation.queues, h1, f1], f2, ?_⟩
    intro k
    rw [f3, ← hone k, ← g2 k, ← List.mem_flatten, h3.glue]
  | multiSubproc n =>
    cases m with
    | recompute =>
      obtain ⟨procs, h1, h2⟩ := C04_subproc_images K.first.1 K.first.2.1 K.first.2.2 K.others n hu.step hx hu.others
      obtain ⟨a, b⟩ := many (procs.map fun p => K.fix p.1)
      rw [List.map_map] at a b
      refine ⟨_, by simp only [Computation.queues, h1]; rfl, a, ?_⟩
      intro k
      have hg : (procs.map Prod.fst).flatten = K.indices := h2.glue
      have hnd := indices_nodup K
      rw [← hg] at hnd
      refine Iff.trans (b k) (Iff.trans ?_ (hone k))
      simp only [Computation.toCompute]
      constructor
      · rintro ⟨i, hi, e⟩
        obtain ⟨l, hl, hil⟩ := List.mem_flatten.1 hi
        obtain ⟨p, hp, rfl⟩ := List.mem_map.1 hl
        have hpm : p.1 ∈ procs.map Prod.fst := List.mem_map.2 ⟨p, hp, rfl⟩
        obtain ⟨i1, i2⟩ := (mem_fix K p.1 ((List.nodup_flatten.1 hnd).1 _ hpm) i).1 hil
        refine ⟨i, (mem_fix K _ (indices_nodup K) i).2 ⟨?_, i2⟩, e⟩
        rw [← hg]
        exact List.mem_flatten.2 ⟨_, hpm, i1⟩
      · rintro ⟨i, hi, e⟩
        obtain ⟨i1, i2⟩ := (mem_fix K _ (indices_nodup K) i).1 hi
        rw [← hg] at i1
        obtain ⟨l, hl, hil⟩ := List.mem_flatten.1 i1
        obtain ⟨p, hp, rfl⟩ := List.mem_map.1 hl
        refine ⟨i, List.mem_flatten.2 ⟨_, List.mem_map.2 ⟨p, hp, rfl⟩, ?_⟩, e⟩
        exact (mem_fix K p.1 ((List.nodup_flatten.1 hnd).1 _ hl) i).2 ⟨hil, i2⟩
    | complete =>
      obtain ⟨procs, h1, h2⟩ := C04_subproc_complete (K.toCompute d .complete) n hx
      obtain ⟨a, b⟩ := many (procs.map Prod.fst)
      rw [List.map_map] at a b
      refine ⟨_, by simp only [Computation.queues, h1]; rfl, a, ?_⟩
      intro k
      refine Iff.trans (b k) (Iff.trans ?_ (hone k))
      rw [h2.glue]

/-! ## The directory -/

theorem HasResult.same {K : Computation V} {k : Txt} {v v' : V} (h : HasResult K k v) (h' : HasResult K k v') : v = v' := by
  have := h.1
  rw [h'.1] at this
  cases this
  rfl

theorem write_results {K : Computation V} (hu : Usable K) (l : List (Txt × V)) (hl : ∀ x ∈ l, Asked K x.1 ∧ HasResult K x.1 x.2)
    (d : Files Txt V) :
    (∀ k v, (k, v) ∈ l → K.write d l (K.resultName k) = some v) ∧
    (∀ n, (∀ k v, (k, v) ∈ l → K.resultName k ≠ n) → K.write d l n = d n) := by
  induction l generalizing d with
  | nil => exact ⟨fun _ _ h => absurd h (List.not_mem_nil), fun _ _ => rfl⟩
  | cons x l ih =>
    obtain ⟨j, q⟩ := x
    obtain ⟨hj, hq⟩ := hl _ List.mem_cons_self
    obtain ⟨a, b⟩ := ih (fun y hy => hl y (List.mem_cons_of_mem _ hy)) (Complete.save d (K.fileName j q) q)
    have hfn := hu.fileName j hj q hq.1
    have hst : K.write d ((j, q) :: l) = K.write (Complete.save d (K.fileName j q) q) l := rfl
    rw [hst]
    constructor
    · intro k v hkv
      by_cases hin : (k, v) ∈ l
      · exact a k v hin
      · rcases List.mem_cons.1 hkv with h | h
        · cases h
          rw [b (K.resultName j)]
          · simp [Complete.save, hfn]
          · intro k' v' h' hne
            obtain ⟨hk', hv'⟩ := hl _ (List.mem_cons_of_mem _ h')
            have := hu.differ k' hk' j hj hne
            subst this
            have e : v' = q := HasResult.same hv' hq
            exact hin (e ▸ h')
        · exact absurd h hin
    · intro n hn
      rw [b n (fun k v h => hn k v (List.mem_cons_of_mem _ h))]
      have := hn j q List.mem_cons_self
      unfold Complete.save
      rw [if_neg (by rw [hfn]; exact fun h => this h.symm)]

/-- What a computation changes in the directory. -/
theorem run_effect {K : Computation V} (hu : Usable K) {x : Executor} (hx : x.HasProcess) {m : Mode}
    {p : Dict Txt (Except PyErr V) → List (Event Txt V PyErr) → Prop} (hp : ∀ q, Good K q → ∀ log, p q log → Begun K q log)
    {d d' : Files Txt V} (h : K.Runs p x m d d') (n : Txt) :
    (d' n = d n ∨ ∃ k v, Asked K k ∧ HasResult K k v ∧ K.resultName k = n ∧ d' n = some v ∧ (m = .complete → d n = none)) ∧
    ((∀ q, Good K q → ∀ log, p q log → Done K q log) → ∀ k, Asked K k → ∀ v, HasResult K k v → K.resultName k = n →
      (m = .complete → d n = none) → d' n = some v) := by
  obtain ⟨qs, h1, logs, l, h2, h3, rfl⟩ := h
  obtain ⟨qs', g1, g2, g3⟩ := queues_ok hu d m x hx
  rw [h1] at g1
  cases g1
  have sound : ∀ y ∈ l, (Asked K y.1 ∧ (m = .complete → d (K.resultName y.1) = none)) ∧ HasResult K y.1 y.2 := by
    rintro ⟨k, v⟩ hy
    obtain ⟨s, hs, hr⟩ := (h3.mem _).1 hy
    obtain ⟨log, hlog, rfl⟩ := List.mem_map.1 hs
    have : ∃ q ∈ qs, p q log := by
      clear h3 h1 g2 g3
      induction h2 with
      | nil => cases hlog
      | cons ha _ ih =>
        rcases List.mem_cons.1 hlog with rfl | hlog
        · exact ⟨_, List.mem_cons_self, ha⟩
        · obtain ⟨q, h4, h5⟩ := ih hlog (List.mem_map.2 ⟨log, hlog, rfl⟩)
          exact ⟨q, List.mem_cons_of_mem _ h4, h5⟩
    obtain ⟨q, hq, hpl⟩ := this
    obtain ⟨h4, h5⟩ := begun_sound (g2 q hq) (hp q (g2 q hq) log hpl) k v hr
    exact ⟨(g3 k).1 ⟨q, hq, h4⟩, h5⟩
  obtain ⟨w1, w2⟩ := write_results hu l (fun y hy => ⟨(sound y hy).1.1, (sound y hy).2⟩) d
  constructor
  · by_cases hex : ∃ k v, (k, v) ∈ l ∧ K.resultName k = n
    · obtain ⟨k, v, hkv, hn⟩ := hex
      obtain ⟨⟨a1, a2⟩, b⟩ := sound _ hkv
      right
      exact ⟨k, v, a1, b, hn, hn ▸ w1 k v hkv, hn ▸ a2⟩
    · left
      exact w2 n (fun k v hkv hn => hex ⟨k, v, hkv, hn⟩)
  · intro hd k hk v hv hn hm
    rw [← hn]
    obtain ⟨q, hq, hkq⟩ := (g3 k).2 ⟨hk, hn ▸ hm⟩
    have : ∃ log ∈ logs, p q log := by
      clear h3 h1 g2 g3 sound
      induction h2 with
      | nil => cases hq
      | cons ha _ ih =>
        rcases List.mem_cons.1 hq with rfl | hq
        · exact ⟨_, List.mem_cons_self, ha⟩
        · obtain ⟨log, h4, h5⟩ := ih hq
          exact ⟨log, List.mem_cons_of_mem _ h4, h5⟩
    obtain ⟨log, hlog, hpl⟩ := this
    refine w1 k v ?_
    rw [h3.mem]
    exact ⟨_, List.mem_map.2 ⟨log, hlog, rfl⟩, done_complete (g2 q hq) (hd q (g2 q hq) log hpl) k hkq v hv⟩

theorem interrupted_clean {K : Computation V} (hu : Usable K) {d d' : Files Txt V} (hc : Clean K d)
    (h : K.Interrupted Executor.HasProcess d d') :
    Clean K d' ∧ (∀ n, (∀ k, Asked K k → ∀ v, HasResult K k v → K.resultName k ≠ n) → d' n = d n) := by
  induction h with
  | none => exact ⟨hc, fun _ _ => rfl⟩
  | more d1 d2 _ x m hx hr ih =>
    obtain ⟨i1, i2⟩ := ih
    have key := fun n => (run_effect hu hx processKilled_begun hr n).1
    constructor
    · intro k hk v hd
      rcases key (K.resultName k) with h | ⟨k', v', h0, h1, h2, h3, -⟩
      · rw [h] at hd; exact i1 k hk v hd
      · rw [h3] at hd
        cases hd
        exact hu.differ k' h0 k hk h2 ▸ h1
    · intro n hn
      rcases key n with h | ⟨k', v', h0, h1, h2, -⟩
      · rw [h, i2 n hn]
      · exact absurd h2 (hn k' h0 v' h1)

theorem process_exists {K : Computation V} (x : Executor) (q : Dict Txt (Except PyErr V)) (hq : Good K q) : ∃ log, K.process x q log := by
  have ha : ∃ log, K.Ended q log := by
    obtain ⟨ls, s, h1, h2⟩ := C12_no_deadlock_chain K.works q ⟨1, 1, false⟩ (by simp) (by simp) [] _ (ARun.nil _) rfl
    rcases h2 with h2 | ⟨h2, -⟩
    · exact ⟨s.log, _, ls, s, h1, h2, rfl⟩
    · cases h2
  cases x with
  | sequential =>
    obtain ⟨n, s, h1, h2, -⟩ := C09_sequential_chain K.works (works_ne K) q hq.unique ⟨1, 1, false⟩ rfl
    exact ⟨s.log, _, n, s, h1, h2, rfl⟩
  | async => exact ha
  | multiAsync n => exact ha
  | multiSubproc n => exact ha

/-- The last file written under a name is the one which stays. -/
theorem write_append (K : Computation V) (d : Files Txt V) (l l' : List (Txt × V)) :
    K.write d (l ++ l') = K.write (K.write d l) l' := by
  simp [Computation.write, List.foldl_append]

end WholeImages

section
variable {V : Type}

/-- C118.  After any number of interrupted computations of the images in the directory, with any executors, numbers of processes,
schedules and modes, a computation which reaches its end, with any executor, number of processes, schedule and mode, leaves in the
directory exactly the results of the images (the ones which exist and can be written), and nothing else has changed. -/
theorem C118_any_execution (K : WholeImages.Computation V) (hu : WholeImages.Usable K) (d d1 d' : Files Txt V)
    (hc : WholeImages.Clean K d) (hi : K.Interrupted Executor.HasProcess d d1) (x : Executor) (hx : x.HasProcess) (m : Mode)
    (h : K.Complete x m d1 d') : WholeImages.HasResults K d d' := by
  obtain ⟨c1, o1⟩ := WholeImages.interrupted_clean hu hc hi
  have key := fun n => WholeImages.run_effect hu hx (fun q hq log hp => (WholeImages.process_done q hq log hp).begun) h n
  constructor
  · intro k hk v hv
    obtain ⟨k1, k2⟩ := key (K.resultName k)
    by_cases hm : m = .complete → d1 (K.resultName k) = none
    · exact k2 WholeImages.process_done k hk v hv rfl hm
    · have hm1 : m = .complete := by by_contra h; exact hm (fun h' => absurd h' h)
      have hm2 : d1 (K.resultName k) ≠ none := fun h => hm (fun _ => h)
      rcases k1 with h1 | ⟨_, _, _, _, _, _, h1⟩
      · rw [h1]
        cases hd : d1 (K.resultName k) with
        | none => exact absurd hd hm2
        | some v' => rw [WholeImages.HasResult.same hv (c1 k hk v' hd)]
      · exact absurd (h1 hm1) hm2
  · intro n hn
    rw [← o1 n hn]
    rcases (key n).1 with h1 | ⟨k, v, hk, hv, h1, -⟩
    · exact h1
    · exact absurd h1 (hn k hk v hv)

/-- C118, in mode "recompute" nothing is assumed on the files which are already in the directory: those of the images which have a
result are replaced. -/
theorem C118_recompute (K : WholeImages.Computation V) (hu : WholeImages.Usable K) (d d' : Files Txt V) (x : Executor)
    (hx : x.HasProcess) (h : K.Complete x .recompute d d') : WholeImages.HasResults K d d' := by
  have key := fun n => WholeImages.run_effect hu hx (fun q hq log hp => (WholeImages.process_done q hq log hp).begun) h n
  constructor
  · intro k hk v hv
    exact (key (K.resultName k)).2 WholeImages.process_done k hk v hv rfl (fun h => by cases h)
  · intro n hn
    rcases (key n).1 with h1 | ⟨k, v, hk, hv, h1, -⟩
    · exact h1
    · exact absurd h1 (hn k hk v hv)

/-- C118: two histories of computations of the same images in the same directory give the same directory. -/
theorem C118_same_files (K : WholeImages.Computation V) (hu : WholeImages.Usable K) (d d1 d2 d1' d2' : Files Txt V)
    (hc : WholeImages.Clean K d) (h1 : K.Interrupted Executor.HasProcess d d1) (h2 : K.Interrupted Executor.HasProcess d d2)
    (x1 x2 : Executor) (hx1 : x1.HasProcess) (hx2 : x2.HasProcess) (m1 m2 : Mode)
    (h1' : K.Complete x1 m1 d1 d1') (h2' : K.Complete x2 m2 d2 d2') : d1' = d2' := by
  have a := C118_any_execution K hu d d1 d1' hc h1 x1 hx1 m1 h1'
  have b := C118_any_execution K hu d d2 d2' hc h2 x2 hx2 m2 h2'
  funext n
  by_cases hn : ∃ k v, WholeImages.Asked K k ∧ WholeImages.HasResult K k v ∧ K.resultName k = n
  · obtain ⟨k, v, hk, hv, rfl⟩ := hn
    rw [a.results k hk v hv, b.results k hk v hv]
  · have : ∀ k, WholeImages.Asked K k → ∀ v, WholeImages.HasResult K k v → K.resultName k ≠ n :=
      fun k hk v hv h => hn ⟨k, v, hk, hv, h⟩
    rw [a.others n this, b.others n this]

/-- C118: in mode "complete", no file which is already there is changed, at any time. -/
theorem C118_complete_keeps (K : WholeImages.Computation V) (hu : WholeImages.Usable K) (d d' : Files Txt V) (x : Executor)
    (hx : x.HasProcess) (h : K.Runs (K.processKilled x) x .complete d d') (n : Txt) (v : V) (hn : d n = some v) : d' n = some v := by
  rcases (WholeImages.run_effect hu hx WholeImages.processKilled_begun h n).1 with h1 | ⟨_, _, _, _, _, _, h1⟩
  · rw [h1, hn]
  · rw [h1 rfl] at hn; cases hn

/-- C118: at any time, a file which is written is the result of its image, and the other files are the same. -/
theorem C118_never_wrong (K : WholeImages.Computation V) (hu : WholeImages.Usable K) (d d' : Files Txt V)
    (hc : WholeImages.Clean K d) (h : K.Interrupted Executor.HasProcess d d') :
    (∀ k, WholeImages.Asked K k → ∀ v, d' (K.resultName k) = some v → WholeImages.HasResult K k v) ∧
    (∀ n, (∀ k, WholeImages.Asked K k → ∀ v, WholeImages.HasResult K k v → K.resultName k ≠ n) → d' n = d n) :=
  WholeImages.interrupted_clean hu hc h

/-- C118: with every executor, number of processes and mode, there are computations which reach their ends. -/
theorem C118_ends (K : WholeImages.Computation V) (hu : WholeImages.Usable K) (d : Files Txt V) (x : Executor) (hx : x.HasProcess)
    (m : Mode) : ∃ d', K.Complete x m d d' := by
  obtain ⟨qs, h1, h2, -⟩ := WholeImages.queues_ok hu d m x hx
  have : ∃ logs, List.Forall₂ (K.process x) qs logs := by
    clear h1
    induction qs with
    | nil => exact ⟨[], List.Forall₂.nil⟩
    | cons q qs ih =>
      obtain ⟨logs, h⟩ := ih (fun q hq => h2 q (List.mem_cons_of_mem _ hq))
      obtain ⟨log, hl⟩ := WholeImages.process_exists x q (h2 q List.mem_cons_self)
      exact ⟨log :: logs, List.Forall₂.cons hl h⟩
  obtain ⟨logs, hl⟩ := this
  exact ⟨_, qs, h1, logs, _, hl, Interleaving.concat _, rfl⟩

/-! ## Image to image -/

/-- C118 for the topology "image to image" (its works are those of `Im2Im.works`): for images which are in one directory and a serie
with at least one image by slice, the hypotheses hold whatever the function, and the result of the image `k` is the
value of the function on its name and its content. -/
theorem C118_im2im {α : Type} (imread : Txt → Except PyErr α) (f : Im2Im.Fun α) (imsave : Txt → Im2Im.Obj α → Except PyErr Unit)
    (dir : Txt) (nameOf : List Int → Txt) (first : Range) (others : List Range) (hs : first.2.2 ≠ 0)
    (ho : ∀ r ∈ others, pyRange r.1 r.2.1 r.2.2 ≠ []) (hn : ∀ i, pathName (nameOf i) = nameOf i) :
    (im2im imread f imsave dir nameOf first others).works = Im2Im.works imread f imsave ∧
    WholeImages.Usable (im2im imread f imsave dir nameOf first others) ∧
    ∀ k, WholeImages.Asked (im2im imread f imsave dir nameOf first others) k → ∀ v,
      WholeImages.HasResult (im2im imread f imsave dir nameOf first others) k v ↔
        (∃ a, imread (dir ++ ['/'] ++ k) = .ok a ∧ f (.pair (.text k) (.image a)) = .ok v) ∧ imsave k v = .ok () := by
  refine ⟨rfl, ⟨hs, ho, ?_, fun k _ k' _ h => h⟩, ?_⟩
  · rintro k ⟨i, -, -, rfl⟩ v -
    exact hn i
  · rintro k ⟨i, -, -, rfl⟩ v
    simp only [WholeImages.HasResult, WholeImages.resultOf, im2im, imageOf, Im2Im.readWork, Im2Im.im2imWork]
    have e : pathName (nameOf i) = nameOf i := hn i
    rw [e]
    cases imread (dir ++ ['/'] ++ nameOf i) with
    | error e => simp [imageOf]
    | ok a => simp [imageOf, Im2Im.im2imWork]

/-! ## BOS -/

theorem bosFix {α ρ : Type} (imread : Txt → Except PyErr α) (calcul : α → Txt → Except PyErr ρ) (write : ρ → Except PyErr Unit)
    (dir : Txt) (S : Bos.Serie (List Int)) (ext : Option Txt) (ref : Bos.FilePath) (first : Range) (others : List Range)
    (is : List (List Int)) :
    (bos imread calcul write dir S ext ref first others).fix is = Bos.fixIndices S ref is := by
  unfold WholeImages.Computation.fix Bos.fixIndices
  simp only [bos, bosReference]
  cases h1 : S.dir.isPrefixOf (ref.dirs ++ [ref.name]) <;> cases h2 : S.baseName.isPrefixOf ref.name <;> simp
  cases S.indicesOf ref.name <;> rfl

/-- C118 for BOS (its works are those of `Bos.works`, and the reference is removed as in `Bos.fixIndices`): for images of a serie,
whose names are a base name, something and an extension, the hypotheses hold whatever the computation of the displacements, the
images which are computed are those of the serie except the reference, and the result of the image `k` is the one
computed from its content. -/
theorem C118_bos {α ρ : Type} (imread : Txt → Except PyErr α) (calcul : α → Txt → Except PyErr ρ) (write : ρ → Except PyErr Unit)
    (dir : Txt) (S : Bos.Serie (List Int)) (ext : Txt) (ref : Bos.FilePath) (first : Range) (others : List Range)
    (hs : first.2.2 ≠ 0) (ho : ∀ r ∈ others, pyRange r.1 r.2.1 r.2.2 ≠ [])
    (hn : ∀ i, '/' ∉ S.nameOf i ∧ ∃ mid, S.nameOf i = S.baseName ++ mid ++ ['.'] ++ ext) (hext : ext ≠ [])
    (hdir : ref.dirs = S.dir) (hinv : ∀ i, S.indicesOf (S.nameOf i) = .ok i)
    (hinv' : ∀ n i, S.indicesOf n = .ok i → S.nameOf i = n) :
    (bos imread calcul write dir S (some ext) ref first others).works =
      Bos.works (bosRead imread) (bosWork calcul) (fun name v => match bosSave write name v with
        | .error e => .error e
        | .ok _ => .ok v) ∧
    WholeImages.Usable (bos imread calcul write dir S (some ext) ref first others) ∧
    (∀ k, WholeImages.Asked (bos imread calcul write dir S (some ext) ref first others) k ↔
      ∃ i, WholeImages.InSerie (bos imread calcul write dir S (some ext) ref first others) i ∧ S.nameOf i = k ∧ k ≠ ref.name) ∧
    ∀ k, WholeImages.Asked (bos imread calcul write dir S (some ext) ref first others) k → ∀ v,
      WholeImages.HasResult (bos imread calcul write dir S (some ext) ref first others) k v ↔
        ∃ a r, imread (dir ++ ['/'] ++ k) = .ok a ∧ calcul a k = .ok r ∧ write r = .ok () ∧ v = .field k r := by
  have hp : ∀ i, pathName (dir ++ ['/'] ++ S.nameOf i) = S.nameOf i := by
    intro i
    obtain ⟨h1, mid, h2⟩ := hn i
    refine TryWork.pathName_join dir _ h1 ?_ ?_
    · rw [h2]; simp
    · intro h
      rw [h2] at h
      have := congrArg List.length h
      simp only [List.length_append, List.length_cons, List.length_nil] at this
      have := List.length_pos_iff.2 hext
      omega
  have hres : ∀ i v, WholeImages.resultOf (bos imread calcul write dir S (some ext) ref first others) (S.nameOf i) = .ok v ↔
      ∃ a r, imread (dir ++ ['/'] ++ S.nameOf i) = .ok a ∧ calcul a (S.nameOf i) = .ok r ∧ v = .field (S.nameOf i) r := by
    intro i v
    simp only [WholeImages.resultOf, bos, imageOf, bosRead]
    cases imread (dir ++ ['/'] ++ S.nameOf i) with
    | error e => simp [imageOf]
    | ok a =>
      simp only [imageOf, bosWork, hp]
      cases hc : calcul a (S.nameOf i) with
      | error e => simp [hc]
      | ok r => simp [hc, eq_comm]
  refine ⟨rfl, ⟨hs, ho, ?_, ?_⟩, ?_, ?_⟩
  · rintro k ⟨i, -, -, rfl⟩ v hv
    obtain ⟨a, r, -, -, rfl⟩ := (hres i v).1 hv
    rfl
  · rintro k ⟨i, -, -, rfl⟩ k' ⟨i', -, -, rfl⟩ h
    obtain ⟨-, mid, h2⟩ := hn i
    obtain ⟨-, mid', h2'⟩ := hn i'
    have h : Names.nameBos (S.nameOf i) S.baseName (some ext) = Names.nameBos (S.nameOf i') S.baseName (some ext) := h
    show S.nameOf i = S.nameOf i'
    rw [h2, h2'] at h
    rw [h2, h2', C46_bos _ _ _ _ h]
  · intro k
    have hr : ∀ i, (bosReference S ref ≠ some i) ↔ S.nameOf i ≠ ref.name := by
      intro i
      have h1 : S.dir.isPrefixOf (ref.dirs ++ [ref.name]) = true := by
        rw [hdir, List.isPrefixOf_iff_prefix]; exact List.prefix_append _ _
      rw [not_iff_not]
      unfold bosReference
      rw [h1, Bool.true_and]
      constructor
      · intro h
        by_cases hb : S.baseName.isPrefixOf ref.name = true
        · rw [if_pos hb] at h
          cases hi : S.indicesOf ref.name with
          | error e => rw [hi] at h; cases h
          | ok j => rw [hi] at h; cases h; exact hinv' _ _ hi
        · rw [if_neg hb] at h; cases h
      · intro h
        obtain ⟨-, mid, h2⟩ := hn i
        have hb : S.baseName.isPrefixOf ref.name = true := by
          rw [← h, h2, List.isPrefixOf_iff_prefix, List.append_assoc, List.append_assoc]
          exact List.prefix_append _ _
        rw [if_pos hb, ← h, hinv]
    constructor
    · rintro ⟨i, h1, h2, rfl⟩
      exact ⟨i, h1, rfl, (hr i).1 h2⟩
    · rintro ⟨i, h1, rfl, h2⟩
      exact ⟨i, h1, (hr i).2 h2, rfl⟩
  · rintro k ⟨i, -, -, rfl⟩ v
    unfold WholeImages.HasResult
    have hres' : WholeImages.resultOf (bos imread calcul write dir S (some ext) ref first others)
      ((bos imread calcul write dir S (some ext) ref first others).nameOf i) = .ok v ↔ _ := hres i v
    rw [hres']
    constructor
    · rintro ⟨⟨a, r, h1, h2, rfl⟩, h3⟩
      exact ⟨a, r, h1, h2, h3, rfl⟩
    · rintro ⟨a, r, h1, h2, h3, rfl⟩
      exact ⟨⟨a, r, h1, h2, rfl⟩, h3⟩

/-! ## Concrete cases -/

/-- Four images numbered 1 to 4; the file of the third one can not be read. -/
def demoIm2im : WholeImages.Computation (Im2Im.Obj Nat) :=
  im2im (fun p => if p = "d/im3".toList then .error .osError else .ok p.length)
    (fun o => match o with
      | .pair (.text k) (.image a) => .ok (.image (k.length + 10 * a))
      | _ => .error .typeError)
    (fun _ _ => .ok ()) "d".toList
    (fun i => match i with
      | [j] => "im".toList ++ (Nat.toDigits 10 j.toNat)
      | _ => "im".toList) (1, 5, 1) []

theorem demoIm2im_name : ∀ i, pathName (demoIm2im.nameOf i) = demoIm2im.nameOf i := by
  have key : ∀ n : Txt, '/' ∉ n → n ≠ [] → n ≠ ['.'] → pathName n = n := by
    intro n h h1 h2
    unfold pathName
    have hs : Text.splitChar '/' n = [n] := by
      clear h1 h2
      induction n with
      | nil => rfl
      | cons c n ih =>
        have hc : c ≠ '/' := fun e => h (e ▸ List.mem_cons_self)
        simp [Text.splitChar, hc, ih (fun hm => h (List.mem_cons_of_mem _ hm))]
    rw [hs]
    simp [h1, h2]
  intro i
  have h0 : demoIm2im.nameOf [] = "im".toList := rfl
  have dig : ∀ j : Int, '/' ∉ Nat.toDigits 10 j.toNat := by
    intro j hm
    have := Nat.isDigit_of_mem_toDigits (by norm_num) (by norm_num) hm
    revert this
    decide
  match i with
  | [] => decide +kernel
  | [j] =>
    refine key _ ?_ (by simp [demoIm2im, im2im]) (by simp [demoIm2im, im2im])
    simp only [demoIm2im, im2im, List.mem_append, not_or]
    exact ⟨by decide, dig j⟩
  | _ :: _ :: _ => exact (by decide +kernel : pathName "im".toList = "im".toList)

theorem demoIm2im_usable : WholeImages.Usable demoIm2im :=
  (C118_im2im _ _ _ _ _ _ _ (by decide) (by simp) demoIm2im_name).2.1

/-- With two processes, from an empty directory: the files of the images 1, 2 and 4, and no other one. -/
example : ∃ d', demoIm2im.Complete (.multiAsync 2) .recompute (fun _ => none) d' ∧
    d' "im1".toList = some (.image 53) ∧ d' "im3".toList = none := by
  obtain ⟨d', h⟩ := C118_ends demoIm2im demoIm2im_usable (fun _ => none) (.multiAsync 2) (by show 1 ≤ 2; decide) .recompute
  have hr := C118_recompute demoIm2im demoIm2im_usable _ d' _ (by show 1 ≤ 2; decide) h
  refine ⟨d', h, ?_, ?_⟩
  · refine hr.results "im1".toList ⟨[1], ?_, by decide, by decide +kernel⟩ (.image 53) ⟨by decide +kernel, rfl⟩
    exact List.Forall₂.cons (by decide +kernel) List.Forall₂.nil
  · refine hr.others _ ?_
    rintro k - v ⟨h1, -⟩ rfl
    have e : WholeImages.resultOf demoIm2im "im3".toList = .error .osError := by decide +kernel
    have h1 : WholeImages.resultOf demoIm2im "im3".toList = .ok v := h1
    rw [e] at h1
    cases h1

end
end Verif
