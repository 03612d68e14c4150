import Verif.Model.Queue
import Verif.Spec.Fifo
import Verif.Lemmas.Dict

/-!
# C08 — queues are first-in first-out key/value maps
-/

namespace Verif
open Verif.Queue Verif.Spec Verif.Dict

set_option linter.unusedSectionVars false
variable {κ α : Type} [DecidableEq κ]

/-- The operations of the specification corresponding to those of the code. -/
def fifoOp : Op κ α → FifoOp κ α
  | .set k v => .store k v
  | .popFirst => .serve
  | .del k => .remove k

/-- The line of keys and the content which a queue represents. -/
def fifoOf (q : Dict κ α) : Fifo κ α := ⟨q.keys, q.get?⟩

theorem fifo_ext (a b : Fifo κ α) (h1 : a.line = b.line) (h2 : ∀ k, a.content k = b.content k) : a = b := by
  cases a; cases b; simp only [Fifo.mk.injEq]; exact ⟨h1, funext h2⟩

theorem apply_refines (q : Dict κ α) (hq : KeysUnique q) (op : Op κ α) :
    KeysUnique (apply q op).1 ∧
    (fifoOf q).step (fifoOp op) = (fifoOf (apply q op).1, (apply q op).2) := by
  have hrem : ∀ k, KeysUnique (erase q k) ∧ (fifoOf q).remove k = fifoOf (erase q k) := by
    intro k
    refine ⟨keysUnique_erase q k hq, fifo_ext _ _ ?_ ?_⟩
    · exact (keys_erase q k hq).symm
    · intro k'; exact (get?_erase q k k' hq).symm
  cases op with
  | set k v =>
    refine ⟨keysUnique_set q k v hq, ?_⟩
    show ((fifoOf q).store k v, _) = (fifoOf (set q k v), _)
    congr 1
    apply fifo_ext
    · show (if k ∈ keys q then keys q else keys q ++ [k]) = keys (set q k v)
      split
      · rename_i h; exact (keys_set_of_mem q k v h).symm
      · rename_i h; exact (keys_set_of_not_mem q k v h).symm
    · intro k'; exact (get?_set q k k' v).symm
  | del k =>
    simp only [apply, fifoOp, Fifo.step, fifoOf]
    cases h : get? q k with
    | none => exact ⟨hq, rfl⟩
    | some v =>
      refine ⟨(hrem k).1, ?_⟩
      exact congrArg (fun x => (x, _)) (hrem k).2
  | popFirst =>
    cases q with
    | nil => exact ⟨hq, rfl⟩
    | cons kv q =>
      obtain ⟨k, v⟩ := kv
      refine ⟨keysUnique_tail _ _ hq, ?_⟩
      have h1 := (hrem k).2
      simp only [erase, if_true] at h1
      have h2 : (fifoOf ((k, v) :: q)).content k = some v := by simp [fifoOf, get?]
      have h3 : (fifoOf ((k, v) :: q)).line = k :: keys q := rfl
      simp only [fifoOp, Fifo.step, h3, h2, h1]
      rfl

/-- **C08.** For every sequence of operations on an initially empty queue, the outputs and the final
content are those of the first-in first-out specification, and no key is ever present twice. -/
theorem C08_queue_refines_fifo_map (ops : List (Op κ α)) :
    KeysUnique (run [] ops).1 ∧
    Fifo.empty.run (ops.map fifoOp) = (fifoOf (run [] ops).1, (run [] ops).2) := by
  have h : ∀ (ops : List (Op κ α)) (q : Dict κ α), KeysUnique q →
      KeysUnique (run q ops).1 ∧
      (fifoOf q).run (ops.map fifoOp) = (fifoOf (run q ops).1, (run q ops).2) := by
    intro ops
    induction ops with
    | nil => intro q hq; exact ⟨hq, rfl⟩
    | cons op ops ih =>
      intro q hq
      obtain ⟨h1, h2⟩ := apply_refines q hq op
      obtain ⟨h3, h4⟩ := ih _ h1
      refine ⟨h3, ?_⟩
      simp only [List.map_cons, Fifo.run, h2, h4, run]
  exact h ops [] (by simp [KeysUnique, keys])

/-- C08: `is_name_in_values` tells exactly whether the name occurs in a stored tuple. -/
theorem C08_is_name_in_values_iff {ν : Type} [DecidableEq ν] (q : Dict κ (List ν)) (name : ν) :
    isNameInValues q name = true ↔ ∃ k names, (k, names) ∈ q ∧ name ∈ names := by
  induction q with
  | nil => simp [isNameInValues]
  | cons kv q ih =>
    obtain ⟨k, names⟩ := kv
    simp only [isNameInValues]
    split
    · rename_i h
      simp only [true_iff]
      exact ⟨k, names, List.mem_cons_self, h⟩
    · rename_i h
      rw [ih]
      constructor
      · rintro ⟨k', n', h1, h2⟩; exact ⟨k', n', List.mem_cons_of_mem _ h1, h2⟩
      · rintro ⟨k', n', h1, h2⟩
        rw [List.mem_cons] at h1
        rcases h1 with h1 | h1
        · cases h1; exact absurd h2 h
        · exact ⟨k', n', h1, h2⟩

/-- C08: a copied queue has the same content in the same order. -/
theorem C08_copy_is_identical (q : Dict κ α) (hq : KeysUnique q) : Queue.copy q = q := by
  have h : ∀ (q acc : Dict κ α), KeysUnique (acc ++ q) →
      q.foldl (fun new kv => Dict.set new kv.1 kv.2) acc = acc ++ q := by
    intro q
    induction q with
    | nil => intro acc _; simp
    | cons kv q ih =>
      intro acc hacc
      obtain ⟨k, v⟩ := kv
      have hk : k ∉ keys acc := by
        unfold KeysUnique keys at hacc
        rw [List.map_append, List.nodup_append] at hacc
        intro hm
        exact hacc.2.2 k hm k (by simp) rfl
      rw [List.foldl_cons, set_of_not_mem acc k v hk, ih _ (by simpa using hacc)]
      simp
  exact h q [] (by simpa using hq)

-- a non-trivial run: replacement in place, first-in first-out, KeyError on an unknown key
example : run ([] : Dict Nat Nat) [.set 1 10, .set 2 20, .set 1 11, .popFirst, .del 7, .popFirst, .popFirst]
    = ([], [.ok none, .ok none, .ok none, .ok (some (1, 11)), .error .keyError, .ok (some (2, 20)),
        .error .keyError]) := by decide

end Verif
