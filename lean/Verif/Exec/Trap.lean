import Verif.Exec.NoCrash
import Verif.Exec.StopIfError

/-!
# Executions which never end

A property which is preserved by everything the executors do and which is false when everything is empty.
-/

namespace Verif.Exec
open Verif
set_option linter.unusedSectionVars false

variable {κ α ε σ : Type} [DecidableEq κ] {T : Topology κ α ε σ} {c : Cfg}
  {P : Queues κ α ε → List (Task κ α) → Prop}

structure Trap (T : Topology κ α ε σ) (P : Queues κ α ε → List (Task κ α) → Prop) : Prop where
  pop : ∀ {w inp : Nat} {out io f q fl k v rest}, T.works[w]? = some (Work.item inp out io f) → P q fl →
    q inp = (k, .ok v) :: rest → P (upd q inp rest) (fl ++ [Task.mk w k v])
  forward : ∀ {w inp : Nat} {out io f q fl k e rest}, T.works[w]? = some (Work.item inp out io f) → P q fl →
    q inp = (k, .error e) :: rest → P (put (upd q inp rest) out k (.error e)) fl
  finish : ∀ {i : Nat} {t inp out io f q fl}, fl[i]? = some t → T.works[t.w]? = some (Work.item inp out io f) → P q fl →
    P (put q out t.key (f t.key t.val)) (fl.eraseIdx i)
  glob : ∀ {w : Nat} {ready outLen run nio q a fl}, T.works[w]? = some (Work.glob ready outLen run) → P q fl →
    ∃ q' a' evs, run nio q a = .ok (q', a', evs) ∧ P q' fl
  ne : ∀ {q a}, P q [] → allEmpty T q a = false

theorem Trap.step (h : Trap T P) {l : Label} {s s' : AState κ α ε σ} (hs : StepCase T c l s s')
    (hP : P s.q s.inflight) (hc : s'.crashed = none) : P s'.q s'.inflight := by
  cases hs with
  | launch => exact hP
  | beginEmpty => exact hP
  | beginError hw _ hq => exact h.forward hw hP hq
  | beginOk hw _ hq => simpa using h.pop hw hP hq
  | finish ht hw => simpa using h.finish ht hw hP
  | finishCrash => simp at hc
  | glob hw _ hr =>
    obtain ⟨q', a', evs, h1, h2⟩ := h.glob hw hP
    rw [hr] at h1
    cases h1
    exact h2
  | globCrash => simp at hc
  | checkStop => exact hP
  | check => exact hP

/-- The stop flag is never set. -/
theorem Trap.async (h : Trap T P) (hT : WellFormed T) {q : Queues κ α ε} {a : σ} (h0 : P q [])
    {ls : List Label} {s : AState κ α ε σ} (hrun : ARun T c (AState.init q a) ls s) : s.stop = false := by
  have key : s.crashed = none → P s.q s.inflight := by
    clear hT
    induction hrun with
    | nil => exact fun _ => h0
    | snoc _ hstep ih =>
      intro hc
      obtain ⟨h1, h2⟩ := astep_cases hstep
      exact h.step h2 (ih h1) hc
  cases hs : s.stop with
  | false => rfl
  | true =>
    obtain ⟨h1, h2⟩ := stopped_of_run hT hrun (CInv.init _ _) rfl hs
    have hP := key (h2 rfl)
    rw [h1.idle] at hP
    have := h.ne (a := s.aux) hP
    rw [h1.empty] at this; cases this

theorem Trap.seqWork (h : Trap T P) (hst : c.stopIfError = false) {w : Nat} {work : Work κ α ε σ}
    (hw : T.works[w]? = some work) {s : SState κ α ε σ} (hP : P s.q []) (hc : s.crashed = none) :
    P (seqWork c w work s).q [] ∧ (seqWork c w work s).crashed = none := by
  unfold Exec.seqWork
  rw [hc]
  dsimp only
  cases work with
  | glob ready outLen run =>
    dsimp only
    split
    · exact ⟨hP, hc⟩
    · obtain ⟨q', a', evs, h1, h2⟩ := h.glob (nio := none) (a := s.aux) hw hP
      rw [h1]
      exact ⟨h2, rfl⟩
  | item inp out io f =>
    dsimp only
    cases hp : (s.q inp).popFirst with
    | error e => exact ⟨hP, hc⟩
    | ok r =>
      obtain ⟨⟨k, r⟩, rest⟩ := r
      have hq := popFirst_ok hp
      cases r with
      | error e =>
        dsimp only
        rw [forward_eq]
        exact ⟨h.forward hw hP hq, rfl⟩
      | ok v =>
        dsimp only
        have h1 := h.pop hw hP hq
        have h2 := h.finish (i := 0) (t := ⟨w, k, v⟩) rfl hw h1
        simp only [List.nil_append, List.eraseIdx_zero, List.tail_cons] at h2
        cases hf : f k v with
        | ok r => rw [hf] at h2; exact ⟨h2, rfl⟩
        | error e =>
          rw [hf] at h2
          simp only [hst, Bool.false_eq_true, if_false]
          exact ⟨h2, trivial⟩

theorem Trap.seqWorks (h : Trap T P) (hst : c.stopIfError = false) (works : List (Work κ α ε σ)) :
    ∀ (w : Nat) (s : SState κ α ε σ), (∀ i work, works[i]? = some work → T.works[w + i]? = some work) → P s.q [] →
    s.crashed = none → P (seqWorks c w works s).q [] ∧ (seqWorks c w works s).crashed = none := by
  induction works with
  | nil => intro w s _ hP hc; exact ⟨hP, hc⟩
  | cons work works ih =>
    intro w s hT hP hc
    obtain ⟨h1, h2⟩ := h.seqWork hst (hT 0 work rfl) hP hc
    exact ih (w + 1) _ (fun i work hi => by
      rw [show w + 1 + i = w + (i + 1) by omega]; exact hT (i + 1) work (by simpa using hi)) h1 h2

/-- The loop of the sequential executor never ends. -/
theorem Trap.seq (h : Trap T P) (hst : c.stopIfError = false) (n : Nat) : ∀ (s : SState κ α ε σ), P s.q [] →
    s.crashed = none → seqLoop T c n s = none := by
  induction n with
  | zero =>
    intro s hP hc
    unfold seqLoop
    simp [hc, h.ne hP]
  | succ n ih =>
    intro s hP hc
    unfold seqLoop
    have h1 := h.seqWorks hst T.works 0 s (fun i work hi => by rw [Nat.zero_add]; exact hi) hP hc
    simp [hc, h.ne hP, ih _ h1.1 h1.2]

end Verif.Exec
