import Verif.Exec.Bounds

/-!
# Executions given by a list of labels
-/

namespace Verif.Exec
open Verif

variable {κ α ε σ : Type} [DecidableEq κ]

/-- The state after a list of steps, if all of them are possible. -/
def runLabels (T : Topology κ α ε σ) (c : Cfg) : List Label → AState κ α ε σ → Option (AState κ α ε σ)
  | [], s => some s
  | l :: ls, s =>
    match astep T c l s with
    | none => none
    | some s' => runLabels T c ls s'

/-- A launcher whose last task has not begun. -/
def relaunch (l : Label) (p : List Nat) : Bool :=
  match l with
  | .launch w => decide (w ∈ p)
  | _ => false

/-- The same, launchers waiting for the beginning of the task they have started. -/
def runEager (T : Topology κ α ε σ) (c : Cfg) : List Label → AState κ α ε σ → Option (AState κ α ε σ)
  | [], s => some s
  | l :: ls, s =>
    if relaunch l s.pending then none
    else
      match astep T c l s with
      | none => none
      | some s' => runEager T c ls s'

theorem runLabels_append {T : Topology κ α ε σ} {c : Cfg} {s0 s s' : AState κ α ε σ} {ls0 ls : List Label}
    (h0 : ARun T c s0 ls0 s) (h : runLabels T c ls s = some s') : ARun T c s0 (ls0 ++ ls) s' := by
  induction ls generalizing s ls0 with
  | nil => simp only [runLabels, Option.some.injEq] at h; subst h; simpa using h0
  | cons l ls ih =>
    simp only [runLabels] at h
    split at h
    · cases h
    · rename_i s1 h1
      have := ih (h0.snoc h1) h
      simpa using this

theorem runLabels_run {T : Topology κ α ε σ} {c : Cfg} {s s' : AState κ α ε σ} {ls : List Label}
    (h : runLabels T c ls s = some s') : ARun T c s ls s' := by
  simpa using runLabels_append (.nil s) h

theorem runEager_append {T : Topology κ α ε σ} {c : Cfg} {s0 s s' : AState κ α ε σ} {ls0 ls : List Label}
    (h0 : EagerRun T c s0 ls0 s) (h : runEager T c ls s = some s') : EagerRun T c s0 (ls0 ++ ls) s' := by
  induction ls generalizing s ls0 with
  | nil => simp only [runEager, Option.some.injEq] at h; subst h; simpa using h0
  | cons l ls ih =>
    simp only [runEager] at h
    split at h
    · cases h
    · rename_i hl
      split at h
      · cases h
      · rename_i s1 h1
        have := ih (h0.snoc (fun w e => by subst e; simpa [relaunch] using hl) h1) h
        simpa using this

theorem runEager_run {T : Topology κ α ε σ} {c : Cfg} {s s' : AState κ α ε σ} {ls : List Label}
    (h : runEager T c ls s = some s') : EagerRun T c s ls s' := by
  simpa using runEager_append (.nil s) h

end Verif.Exec
