import Verif.Model.Executor
import Verif.Lemmas.Dict
import Mathlib.Data.List.Nodup

/-!
# Abstract view of an execution

Proof infrastructure (not part of the model).  `Map`: for each queue and key, the item which is in the queue or
has been taken from the queue and is being processed.  `Flow`: what has to be known on a topology to follow the
history of each key.
-/

namespace Verif.Exec
open Verif
set_option linter.unusedSectionVars false

variable {κ α ε σ : Type} [DecidableEq κ]

/-- queue → key → item -/
abbrev Map (κ α ε : Type) := Nat → κ → Option (Except ε α)

def mdel (m : Map κ α ε) (q : Nat) (k : κ) : Map κ α ε :=
  fun q' k' => if q' = q ∧ k' = k then none else m q' k'

def madd (m : Map κ α ε) (q : Nat) (k : κ) (v : Except ε α) : Map κ α ε :=
  fun q' k' => if q' = q ∧ k' = k then some v else m q' k'

def mput (m : Map κ α ε) (out : Option Nat) (k : κ) (v : Except ε α) : Map κ α ε :=
  match out with
  | none => m
  | some o => madd m o k v

/-- The queue from which a running task has taken its item. -/
def inpOf (T : Topology κ α ε σ) (w : Nat) : Option Nat :=
  match T.works[w]? with
  | some (.item inp _ _ _) => some inp
  | _ => none

/-- Running tasks which have taken their item from `q`. -/
def tasksAt (T : Topology κ α ε σ) (fl : List (Task κ α)) (q : Nat) : List (Task κ α) :=
  fl.filter (fun t => inpOf T t.w = some q)

/-- `m` is the content of the queues and of the running tasks. -/
structure Rel (T : Topology κ α ε σ) (q : Queues κ α ε) (fl : List (Task κ α)) (m : Map κ α ε) : Prop where
  at_iff : ∀ i k v, m i k = some v ↔
    ((k, v) ∈ q i ∨ ∃ t ∈ fl, inpOf T t.w = some i ∧ t.key = k ∧ v = .ok t.val)
  nodup : ∀ i, ((q i).keys ++ (tasksAt T fl i).map Task.key).Nodup

theorem Rel.keysUnique {T : Topology κ α ε σ} {q fl} {m : Map κ α ε} (h : Rel T q fl m) (i : Nat) :
    (q i).KeysUnique := (List.nodup_append.1 (h.nodup i)).1

theorem Rel.get? {T : Topology κ α ε σ} {q} {m : Map κ α ε} (h : Rel T q [] m) (i : Nat) (k : κ) :
    m i k = (q i).get? k := by
  cases hm : m i k with
  | some v =>
    rcases (h.at_iff i k v).1 hm with h1 | ⟨t, ht, _⟩
    · rw [Dict.mem_get? _ (h.keysUnique i) _ _ h1]
    · cases ht
  | none =>
    cases hg : (q i).get? k with
    | none => rfl
    | some v =>
      have := (h.at_iff i k v).2 (Or.inl (Dict.get?_mem _ _ _ hg))
      rw [hm] at this; cases this

/-- The content of dictionaries without running tasks. -/
theorem Rel.ofQueues (T : Topology κ α ε σ) (q : Queues κ α ε) (h : ∀ i, (q i).KeysUnique) :
    Rel T q [] (fun i k => (q i).get? k) := by
  refine ⟨?_, ?_⟩
  · intro i k v
    constructor
    · intro hg; exact Or.inl (Dict.get?_mem _ _ _ hg)
    · rintro (h1 | ⟨t, ht, _⟩)
      · exact Dict.mem_get? _ (h i) _ _ h1
      · cases ht
  · intro i; simpa [tasksAt, Dict.KeysUnique] using h i

/-- Taking the first item of a queue (without task). -/
theorem Rel.pop {T : Topology κ α ε σ} {q fl} {m : Map κ α ε} (h : Rel T q fl m) {i : Nat} {k : κ}
    {v : Except ε α} {rest} (hq : q i = (k, v) :: rest) : Rel T (upd q i rest) fl (mdel m i k) := by
  have hn := h.nodup i
  rw [hq, Dict.keys_cons, List.cons_append, List.nodup_cons] at hn
  refine ⟨?_, ?_⟩
  · intro j k' v'
    unfold mdel upd
    by_cases hj : j = i
    · subst hj
      by_cases hk : k' = k
      · subst hk
        simp only [and_self, if_true, reduceCtorEq, false_iff, not_or, not_exists, not_and]
        refine ⟨fun hm => hn.1 ?_, fun t ht hi hk _ => hn.1 ?_⟩
        · exact List.mem_append_left _ ((Dict.mem_keys_iff _ _).2 ⟨_, hm⟩)
        · refine List.mem_append_right _ (List.mem_map.2 ⟨t, ?_, hk⟩)
          simp [tasksAt, ht, hi]
      · simp only [hk, and_false, if_false, if_true]
        rw [h.at_iff, hq, List.mem_cons]
        have : ¬ ((k', v') = (k, v)) := by rintro h; cases h; exact hk rfl
        simp only [this, false_or]
    · simp only [hj, false_and, if_false]
      exact h.at_iff j k' v'
  · intro j
    unfold upd
    by_cases hj : j = i
    · subst hj; simpa using hn.2
    · simpa [hj] using h.nodup j

/-- Storing an item under a new key. -/
theorem Rel.add {T : Topology κ α ε σ} {q fl} {m : Map κ α ε} (h : Rel T q fl m) {o : Nat} {k : κ}
    (r : Except ε α) (hf : m o k = none) : Rel T (upd q o ((q o).set k r)) fl (madd m o k r) := by
  have hk1 : k ∉ (q o).keys := by
    intro hk
    obtain ⟨v, hv⟩ := (Dict.mem_keys_iff _ _).1 hk
    have := (h.at_iff o k v).2 (Or.inl hv)
    rw [hf] at this; cases this
  have hk2 : ∀ t ∈ fl, inpOf T t.w = some o → t.key ≠ k := by
    intro t ht hi hk
    have := (h.at_iff o k (.ok t.val)).2 (Or.inr ⟨t, ht, hi, hk, rfl⟩)
    rw [hf] at this; cases this
  refine ⟨?_, ?_⟩
  · intro j k' v'
    unfold madd upd
    by_cases hj : j = o
    · subst hj
      rw [Dict.set_of_not_mem _ _ _ hk1]
      by_cases hk : k' = k
      · subst hk
        simp only [and_self, if_true, Option.some.injEq, List.mem_append, List.mem_singleton, Prod.mk.injEq,
          true_and]
        constructor
        · intro he; exact Or.inl (Or.inr he.symm)
        · rintro ((h1 | h1) | ⟨t, ht, hi, hk, _⟩)
          · exact absurd ((Dict.mem_keys_iff _ _).2 ⟨_, h1⟩) hk1
          · exact h1.symm
          · exact absurd hk (hk2 t ht hi)
      · simp only [hk, and_false, if_false, if_true, List.mem_append, List.mem_singleton, Prod.mk.injEq,
          false_and, or_false]
        exact h.at_iff j k' v'
    · simp only [hj, false_and, if_false]
      exact h.at_iff j k' v'
  · intro j
    unfold upd
    by_cases hj : j = o
    · subst hj
      simp only [if_true]
      rw [Dict.keys_set_of_not_mem _ _ _ hk1]
      have hn := h.nodup j
      rw [List.nodup_append] at hn ⊢
      obtain ⟨h1, h2, h3⟩ := hn
      refine ⟨?_, h2, ?_⟩
      · rw [List.nodup_append]
        refine ⟨h1, by simp, ?_⟩
        intro a ha b hb
        rw [List.mem_singleton] at hb; subst hb; rintro rfl; exact hk1 ha
      · intro a ha b hb
        rw [List.mem_append, List.mem_singleton] at ha
        rcases ha with ha | rfl
        · exact h3 a ha b hb
        · obtain ⟨t, ht, rfl⟩ := List.mem_map.1 hb
          simp only [tasksAt, List.mem_filter, decide_eq_true_eq] at ht
          exact fun he => hk2 t ht.1 ht.2 he.symm
    · simpa [hj] using h.nodup j

theorem Rel.put {T : Topology κ α ε σ} {q fl} {m : Map κ α ε} (h : Rel T q fl m) {out : Option Nat} {k : κ}
    (r : Except ε α) (hf : ∀ o, out = some o → m o k = none) : Rel T (put q out k r) fl (mput m out k r) := by
  cases out with
  | none => exact h
  | some o => exact h.add r (hf o rfl)

/-- The first item of a queue is given to a task. -/
theorem Rel.start {T : Topology κ α ε σ} {q fl} {m : Map κ α ε} (h : Rel T q fl m) {i w : Nat} {k : κ}
    {v : α} {rest} (hq : q i = (k, .ok v) :: rest) (hw : inpOf T w = some i) :
    Rel T (upd q i rest) (fl ++ [⟨w, k, v⟩]) m := by
  refine ⟨?_, ?_⟩
  · intro j k' v'
    rw [h.at_iff]
    unfold upd
    by_cases hj : j = i
    · subst hj
      rw [hq]
      simp only [if_true, List.mem_cons, List.mem_append, List.not_mem_nil, or_false, Prod.mk.injEq]
      constructor
      · rintro ((⟨rfl, rfl⟩ | h1) | ⟨t, ht, h2⟩)
        · exact Or.inr ⟨_, Or.inr rfl, hw, rfl, rfl⟩
        · exact Or.inl h1
        · exact Or.inr ⟨t, Or.inl ht, h2⟩
      · rintro (h1 | ⟨t, ht | rfl, h2, h3, h4⟩)
        · exact Or.inl (Or.inr h1)
        · exact Or.inr ⟨t, ht, h2, h3, h4⟩
        · exact Or.inl (Or.inl ⟨h3.symm, h4⟩)
    · simp only [hj, if_false, List.mem_append, List.mem_singleton]
      constructor
      · rintro (h1 | ⟨t, ht, h2⟩)
        · exact Or.inl h1
        · exact Or.inr ⟨t, Or.inl ht, h2⟩
      · rintro (h1 | ⟨t, ht | rfl, h2, h3⟩)
        · exact Or.inl h1
        · exact Or.inr ⟨t, ht, h2, h3⟩
        · rw [hw] at h2; cases h2; exact absurd rfl hj
  · intro j
    have hn := h.nodup j
    unfold upd
    by_cases hj : j = i
    · subst hj
      simp only [if_true, tasksAt, List.filter_append]
      rw [List.filter_cons_of_pos (by simpa using hw)]
      rw [hq, Dict.keys_cons] at hn
      simp only [List.filter_nil, List.map_append, List.map_cons, List.map_nil]
      rw [← List.append_assoc]
      refine List.Perm.nodup ?_ hn
      rw [List.cons_append]
      exact (List.perm_append_singleton _ _).symm
    · simp only [hj, if_false, tasksAt, List.filter_append]
      rw [List.filter_cons_of_neg (by rw [hw]; simpa using fun e : i = j => hj e.symm)]
      simpa [tasksAt] using hn

/-- A task gives up its item. -/
theorem Rel.finish {T : Topology κ α ε σ} {q fl} {m : Map κ α ε} (h : Rel T q fl m) {i n : Nat} {t : Task κ α}
    (ht : fl[n]? = some t) (hw : inpOf T t.w = some i) :
    Rel T q (fl.eraseIdx n) (mdel m i t.key) := by
  obtain ⟨hlt, hget⟩ := List.getElem?_eq_some_iff.1 ht
  have hmem : t ∈ fl := hget ▸ List.getElem_mem hlt
  -- split of the list
  have hsplit : fl = fl.take n ++ t :: fl.drop (n + 1) := by
    rw [← hget, List.getElem_cons_drop, List.take_append_drop]
  have herase : fl.eraseIdx n = fl.take n ++ fl.drop (n + 1) := List.eraseIdx_eq_take_drop_succ fl n
  have htasks : (tasksAt T fl i).Perm (t :: tasksAt T (fl.eraseIdx n) i) := by
    rw [herase, hsplit]
    unfold tasksAt
    simp only [List.filter_append]
    rw [List.filter_cons_of_pos (by simpa using hw)]
    have e1 : (fl.take n ++ t :: fl.drop (n + 1)).take n = fl.take n := by rw [← hsplit]
    have e2 : (fl.take n ++ t :: fl.drop (n + 1)).drop (n + 1) = fl.drop (n + 1) := by rw [← hsplit]
    rw [e1, e2]
    exact List.perm_middle
  have hn := h.nodup i
  have hn2 : (t.key :: ((q i).keys ++ (tasksAt T (fl.eraseIdx n) i).map Task.key)).Nodup := by
    refine List.Perm.nodup ?_ hn
    refine (List.Perm.append_left _ (htasks.map Task.key)).trans ?_
    simp only [List.map_cons]
    exact List.perm_middle
  rw [List.nodup_cons] at hn2
  refine ⟨?_, ?_⟩
  · intro j k' v'
    unfold mdel
    by_cases hjk : j = i ∧ k' = t.key
    · obtain ⟨rfl, rfl⟩ := hjk
      simp only [and_self, if_true, reduceCtorEq, false_iff, not_or, not_exists, not_and]
      refine ⟨fun hm => hn2.1 ?_, fun t' ht' hi hk _ => hn2.1 ?_⟩
      · exact List.mem_append_left _ ((Dict.mem_keys_iff _ _).2 ⟨_, hm⟩)
      · refine List.mem_append_right _ (List.mem_map.2 ⟨t', ?_, hk⟩)
        simp [tasksAt, ht', hi]
    · rw [if_neg hjk, h.at_iff]
      constructor
      · rintro (h1 | ⟨t', ht', h2, h3, h4⟩)
        · exact Or.inl h1
        · refine Or.inr ⟨t', ?_, h2, h3, h4⟩
          have : t' ≠ t := by
            rintro rfl
            rw [hw] at h2; cases h2
            exact hjk ⟨rfl, h3.symm⟩
          rw [hsplit] at ht'
          rw [herase]
          simp only [List.mem_append, List.mem_cons] at ht' ⊢
          rcases ht' with h5 | h5 | h5
          · exact Or.inl h5
          · exact absurd h5 this
          · exact Or.inr h5
      · rintro (h1 | ⟨t', ht', h2⟩)
        · exact Or.inl h1
        · exact Or.inr ⟨t', List.mem_of_mem_eraseIdx ht', h2⟩
  · intro j
    have := h.nodup j
    refine List.Nodup.sublist ?_ this
    refine List.Sublist.append_left (List.Sublist.map _ ?_) _
    exact List.Sublist.filter _ (List.eraseIdx_sublist _ _)

/-- Keys present in the map of a related state: membership in dictionary or task. -/
theorem Rel.head_at {T : Topology κ α ε σ} {q fl} {m : Map κ α ε} (h : Rel T q fl m) {i : Nat} {k : κ}
    {v : Except ε α} {rest} (hq : q i = (k, v) :: rest) : m i k = some v :=
  (h.at_iff i k v).2 (Or.inl (by rw [hq]; exact List.mem_cons_self))

end Verif.Exec
