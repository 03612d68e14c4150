import Verif.Py.Basic

/-!
# What "a balanced partition" means (no reference to the model of the splitters)
-/

namespace Verif.Spec

/-- The parts are listed with the larger ones first and their sizes differ by at most one. -/
def BalancedSizes (sizes : List Nat) : Prop :=
  sizes.Pairwise (fun a b => b ≤ a ∧ a ≤ b + 1)

/-- `parts` is a balanced partition of the list `whole` in `n` consecutive parts: gluing the parts gives
back `whole` (so nothing is lost, added, duplicated or reordered). -/
structure IsBalancedPartition {α : Type} (parts : List (List α)) (whole : List α) (n : Nat) : Prop where
  count : parts.length = n
  glue : parts.flatten = whole
  balanced : BalancedSizes (parts.map List.length)

end Verif.Spec
