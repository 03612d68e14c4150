import Verif.Exec.StopIfError
import Verif.Exec.Live

/-!
# Executions without crash

Proof infrastructure: when `stop_if_error` is not used and the global works do not raise in the states satisfying the
invariant, nothing escapes from the executors.
-/

namespace Verif.Exec
open Verif
set_option linter.unusedSectionVars false

variable {κ α ε σ : Type} [DecidableEq κ] {T : Topology κ α ε σ} {c : Cfg} {C : Contract T} {J : Map κ α ε → List (Event κ α ε) → Prop}
  {tot : Nat → κ → List (Event κ α ε)}

/-- Global works do not raise. -/
def GlobSafe (T : Topology κ α ε σ) (C : Contract T) (J : Map κ α ε → List (Event κ α ε) → Prop)
    (tot : Nat → κ → List (Event κ α ε)) : Prop :=
  ∀ {w : Nat} {ready outLen run}, T.works[w]? = some (Work.glob ready outLen run) →
    ∀ nio q a fl log, Holds T C J tot q fl log → ∃ r, run nio q a = .ok r

theorem noCrash_step (hst : c.stopIfError = false) (hsafe : GlobSafe T C J tot) {l : Label}
    {s s' : AState κ α ε σ} (h : Holds T C J tot s.q s.inflight s.log) (hc : s.crashed = none)
    (hs : StepCase T c l s s') : s'.crashed = none := by
  cases hs with
  | launch => exact hc
  | beginEmpty => exact hc
  | beginError => exact hc
  | beginOk => rw [incr_crashed]; exact hc
  | finish => rw [decr_crashed]; exact hc
  | finishCrash _ _ hst' => rw [hst] at hst'; cases hst'
  | glob => exact hc
  | globCrash hw _ hr =>
    obtain ⟨r, hr'⟩ := hsafe hw (some s.nio) s.q s.aux _ _ h
    rw [hr] at hr'; cases hr'
  | checkStop => exact hc
  | check => exact hc

theorem noCrash_run (hC : C.Lawful) (hJ : GlobLaws C J) (hst : c.stopIfError = false)
    (hsafe : GlobSafe T C J tot) {s s' : AState κ α ε σ} {ls} (hrun : ARun T c s ls s')
    (h : Holds T C J tot s.q s.inflight s.log) (hc : s.crashed = none) : s'.crashed = none := by
  induction hrun with
  | nil => exact hc
  | snoc hrun' hstep _ =>
    obtain ⟨h1, h2⟩ := astep_cases hstep
    exact noCrash_step hst hsafe (h.run hC hJ hrun' h1) h1 h2

theorem noCrash_seqWork (hst : c.stopIfError = false) (hsafe : GlobSafe T C J tot) {s : SState κ α ε σ} {w : Nat}
    {work : Work κ α ε σ} (hw : T.works[w]? = some work) (h : Holds T C J tot s.q [] s.log)
    (hc : s.crashed = none) : (seqWork c w work s).crashed = none := by
  unfold seqWork
  rw [hc]
  dsimp only
  split
  · split
    · exact hc
    · rename_i ready outLen run _
      obtain ⟨⟨q, a, evs⟩, hr⟩ := hsafe hw none s.q s.aux _ _ h
      rw [hr]
  · split
    · exact hc
    · split
      · rfl
      · split
        · rfl
        · split
          · rename_i h; rw [hst] at h; cases h
          · rfl

theorem noCrash_seqWorks (hC : C.Lawful) (hJ : GlobLaws C J) (hst : c.stopIfError = false)
    (hsafe : GlobSafe T C J tot) {s : SState κ α ε σ} {w : Nat} {works : List (Work κ α ε σ)}
    (hw : T.works.drop w = works) (h : Holds T C J tot s.q [] s.log) (hc : s.crashed = none) :
    (seqWorks c w works s).crashed = none ∧
    Holds T C J tot (seqWorks c w works s).q [] (seqWorks c w works s).log := by
  induction works generalizing w s with
  | nil => exact ⟨hc, h⟩
  | cons work works ih =>
    have h1 : T.works[w]? = some work := by
      have : (T.works.drop w)[0]? = some work := by rw [hw]; rfl
      rwa [List.getElem?_drop, Nat.add_zero] at this
    have h2 : T.works.drop (w + 1) = works := by rw [← List.drop_drop, hw]; rfl
    have h3 := noCrash_seqWork hst hsafe h1 h hc
    exact ih h2 (h.seqWork hC hJ h1 h3) h3

theorem noCrash_seqLoop (hC : C.Lawful) (hJ : GlobLaws C J) (hst : c.stopIfError = false)
    (hsafe : GlobSafe T C J tot) {n : Nat} {s s' : SState κ α ε σ} (hl : seqLoop T c n s = some s')
    (h : Holds T C J tot s.q [] s.log) (hc : s.crashed = none) : s'.crashed = none := by
  induction n generalizing s with
  | zero =>
    rw [seqLoop_zero] at hl
    split at hl
    · cases hl; exact hc
    · split at hl
      · cases hl; exact hc
      · cases hl
  | succ n ih =>
    rw [seqLoop_succ] at hl
    split at hl
    · cases hl; exact hc
    · split at hl
      · cases hl; exact hc
      · obtain ⟨h1, h2⟩ := noCrash_seqWorks hC hJ hst hsafe (w := 0) (works := T.works) (by simp) h hc
        exact ih hl h2 h1

/-! ## Queues which are only read -/

/-- No work writes in the queue `i`. -/
def ReadOnly (T : Topology κ α ε σ) (i : Nat) : Prop :=
  (∀ {w inp : Nat} {out io f}, T.works[w]? = some (Work.item inp out io f) → out ≠ some i) ∧
  (∀ {w : Nat} {ready outLen run}, T.works[w]? = some (Work.glob ready outLen run) →
    ∀ nio q a q' a' evs, run nio q a = .ok (q', a', evs) → q' i = q i)

theorem put_ne {q : Queues κ α ε} {out : Option Nat} {k : κ} {r : Except ε α} {i : Nat} (h : out ≠ some i) :
    put q out k r i = q i := by
  cases out with
  | none => rfl
  | some o =>
    simp only [put, upd]
    rw [if_neg]
    rintro rfl
    exact h rfl

theorem suffix_upd {q : Queues κ α ε} {inp i : Nat} {kv : κ × Except ε α} {rest} (h : q inp = kv :: rest) :
    upd q inp rest i <:+ q i := by
  unfold upd
  split
  · rename_i h1; rw [h1, h]; exact List.suffix_cons _ _
  · exact List.suffix_refl _

theorem suffix_step {i : Nat} (hro : ReadOnly T i) {l : Label} {s s' : AState κ α ε σ}
    (hs : StepCase T c l s s') : s'.q i <:+ s.q i := by
  cases hs with
  | launch => exact List.suffix_refl _
  | beginEmpty => exact List.suffix_refl _
  | beginError hw _ hq => simp only; rw [put_ne (hro.1 hw)]; exact suffix_upd hq
  | beginOk hw _ hq => rw [incr_q]; exact suffix_upd hq
  | finish _ hw _ => rw [decr_q]; simp only; rw [put_ne (hro.1 hw)]; exact List.suffix_refl _
  | finishCrash => exact List.suffix_refl _
  | glob hw _ hr => simp only; rw [hro.2 hw _ _ _ _ _ _ hr]; exact List.suffix_refl _
  | globCrash => exact List.suffix_refl _
  | checkStop => exact List.suffix_refl _
  | check => exact List.suffix_refl _

theorem suffix_run {i : Nat} (hro : ReadOnly T i) {s s' : AState κ α ε σ} {ls} (hrun : ARun T c s ls s') :
    s'.q i <:+ s.q i := by
  induction hrun with
  | nil => exact List.suffix_refl _
  | snoc _ hstep ih => exact (suffix_step hro (astep_cases hstep).2).trans ih

end Verif.Exec
