import Verif.Py.Basic

/-!
# Specification of a first-in first-out key/value map

Written without dictionaries as lists of pairs: the waiting line is a list of keys (oldest first) and the
content is a function.
-/

namespace Verif.Spec

structure Fifo (κ α : Type) where
  line : List κ
  content : κ → Option α

namespace Fifo
variable {κ α : Type} [DecidableEq κ]

def empty : Fifo κ α := ⟨[], fun _ => none⟩

/-- Store: the key joins the end of the line unless it already waits. -/
def store (f : Fifo κ α) (k : κ) (v : α) : Fifo κ α :=
  { line := if k ∈ f.line then f.line else f.line ++ [k]
    content := fun k' => if k' = k then some v else f.content k' }

/-- Remove a key. -/
def remove (f : Fifo κ α) (k : κ) : Fifo κ α :=
  { line := f.line.filter (· ≠ k)
    content := fun k' => if k' = k then none else f.content k' }

end Fifo

/-- What a user of the queue can observe. -/
inductive FifoOp (κ α : Type) where
  | store (k : κ) (v : α)
  | serve          -- serve the oldest
  | remove (k : κ)

/-- The specification of the outputs: the oldest key and its value, or an error if there is nothing. -/
def Fifo.step {κ α : Type} [DecidableEq κ] (f : Fifo κ α) :
    FifoOp κ α → Fifo κ α × Except PyErr (Option (κ × α))
  | .store k v => (f.store k v, .ok none)
  | .serve => match f.line with
    | [] => (f, .error .keyError)
    | k :: _ => match f.content k with
      | some v => (f.remove k, .ok (some (k, v)))
      | none => (f, .error .keyError)
  | .remove k => match f.content k with
    | some v => (f.remove k, .ok (some (k, v)))
    | none => (f, .error .keyError)

def Fifo.run {κ α : Type} [DecidableEq κ] (f : Fifo κ α) :
    List (FifoOp κ α) → Fifo κ α × List (Except PyErr (Option (κ × α)))
  | [] => (f, [])
  | op :: ops =>
    let r := f.step op
    let r' := Fifo.run r.1 ops
    (r'.1, r.2 :: r'.2)

end Verif.Spec
