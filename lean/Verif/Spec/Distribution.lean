import Verif.Py.Basic

/-!
# What a correct distribution of items over at most `n` processes is
-/

namespace Verif.Spec

/-- `procs` (items and number of each started process) distributes the items `whole` over at most `n`
processes. -/
structure IsDistribution {ι : Type} (n : Nat) (whole : List ι) (procs : List (List ι × Nat)) : Prop where
  /-- numbers are 0, 1, …, k-1 without gaps -/
  numbered : procs.map Prod.snd = List.range procs.length
  /-- at most `n` processes -/
  bounded : procs.length ≤ n
  /-- no process with nothing to do -/
  busy : ∀ p ∈ procs, p.1 ≠ []
  /-- the items of the processes, one after the other, are all the items -/
  glue : (procs.map Prod.fst).flatten = whole

end Verif.Spec
