import Verif.Exec.Preserve

/-!
# `stop_if_error`, crashes and the stop flag
-/

namespace Verif.Exec
open Verif
set_option linter.unusedSectionVars false

variable {κ α ε σ : Type} [DecidableEq κ] {T : Topology κ α ε σ} {c : Cfg}

/-- Item works read a queue of the topology, and global works are not called when everything is empty. -/
structure WellFormed (T : Topology κ α ε σ) : Prop where
  inp_lt : ∀ {w inp : Nat} {out io f}, T.works[w]? = some (Work.item inp out io f) → inp < T.nq
  ready : ∀ {w : Nat} {ready outLen run}, T.works[w]? = some (Work.glob ready outLen run) →
    ∀ q a, allEmpty T q a = true → ready q a = false

/-- What the stop flag means. -/
structure Stopped (T : Topology κ α ε σ) (s : AState κ α ε σ) : Prop where
  empty : allEmpty T s.q s.aux = true
  idle : s.inflight = []

theorem Stopped.step (hT : WellFormed T) {l : Label} {s s' : AState κ α ε σ} (h : Stopped T s)
    (hs : StepCase T c l s s') : Stopped T s' ∧ s'.log = s.log ∧ s'.crashed = s.crashed := by
  have he := (allEmpty_iff.1 h.empty).1
  cases hs with
  | launch hw hne => exact absurd (he _ (hT.inp_lt hw)) hne
  | beginEmpty => exact ⟨⟨h.empty, h.idle⟩, rfl, rfl⟩
  | beginError hw _ hq => rw [he _ (hT.inp_lt hw)] at hq; cases hq
  | beginOk hw _ hq => rw [he _ (hT.inp_lt hw)] at hq; cases hq
  | finish ht => rw [h.idle] at ht; simp at ht
  | finishCrash ht => rw [h.idle] at ht; simp at ht
  | glob hw hr => rw [hT.ready hw _ _ h.empty] at hr; cases hr
  | globCrash hw hr => rw [hT.ready hw _ _ h.empty] at hr; cases hr
  | checkStop => exact ⟨⟨h.empty, h.idle⟩, rfl, rfl⟩
  | check => exact ⟨h, rfl, rfl⟩

theorem stop_or_not {l : Label} {s s' : AState κ α ε σ} (hC : CInv T s) (hs : StepCase T c l s s')
    (h' : s'.stop = true) : s.stop = true ∨ Stopped T s' := by
  cases hs with
  | launch => exact Or.inl h'
  | beginEmpty => exact Or.inl h'
  | beginError => exact Or.inl h'
  | beginOk => rw [incr_stop] at h'; exact Or.inl h'
  | finish => rw [decr_stop] at h'; exact Or.inl h'
  | finishCrash => exact Or.inl h'
  | glob => exact Or.inl h'
  | globCrash => exact Or.inl h'
  | checkStop h1 h2 h3 =>
    have := inflight_nil_of_counters hC h2 h3
    exact Or.inr ⟨h1, this⟩
  | check => exact Or.inl h'

theorem stopped_of_run (hT : WellFormed T) {s s' : AState κ α ε σ} {ls} (hrun : ARun T c s ls s')
    (hC : CInv T s) (h0 : s.stop = false) (h : s'.stop = true) : Stopped T s' ∧ (s.crashed = none → s'.crashed = none) := by
  induction hrun with
  | nil => rw [h0] at h; cases h
  | snoc hrun hstep ih =>
    obtain ⟨h1, h2⟩ := astep_cases hstep
    rcases stop_or_not (hC.run hrun h1) h2 h with h3 | h3
    · obtain ⟨h4, h5⟩ := ih h3
      obtain ⟨h6, _, h7⟩ := h4.step hT h2
      exact ⟨h6, fun hc => by rw [h7]; exact h5 hc⟩
    · refine ⟨h3, fun _ => ?_⟩
      -- only `check` sets the flag; a crash would not leave the state stopped
      cases h2 with
      | launch => exact h1
      | beginEmpty => exact h1
      | beginError => exact h1
      | beginOk => rw [incr_crashed]; exact h1
      | finish => rw [decr_crashed]; exact h1
      | finishCrash ht =>
        have h8 := ih h
        rw [h8.1.idle] at ht; simp at ht
      | glob => exact h1
      | globCrash hw hr =>
        have h8 := ih h
        rw [hT.ready hw _ _ h8.1.empty] at hr; cases hr
      | checkStop => exact h1
      | check => exact h1

theorem Stopped.run (hT : WellFormed T) {s s' : AState κ α ε σ} {ls} (h : Stopped T s) (hrun : ARun T c s ls s') :
    Stopped T s' ∧ s'.log = s.log ∧ s'.crashed = s.crashed := by
  induction hrun with
  | nil => exact ⟨h, rfl, rfl⟩
  | snoc _ hstep ih =>
    obtain ⟨_, h2⟩ := astep_cases hstep
    obtain ⟨h3, h4, h5⟩ := ih
    obtain ⟨h6, h7, h8⟩ := h3.step hT h2
    exact ⟨h6, h7.trans h4, h8.trans h5⟩

/-! ## Errors -/

/-- `failed` events. -/
def Event.isFailed : Event κ α ε → Bool
  | .failed _ _ _ => true
  | _ => false

/-- Global works make no report of failed calls. -/
def GlobsQuiet (T : Topology κ α ε σ) : Prop :=
  ∀ {w : Nat} {ready outLen run}, T.works[w]? = some (Work.glob ready outLen run) →
    ∀ nio q a q' a' evs, run nio q a = .ok (q', a', evs) → ∀ e ∈ evs, Event.isFailed e = false

/-- A crash is the error of the last call, and it is the first error. -/
def FirstError (T : Topology κ α ε σ) (log : List (Event κ α ε)) (e : ε) : Prop :=
  ∃ log0 w k v inp out io f, log = log0 ++ [Event.call w k v, Event.failed w k e] ∧
    (∀ ev ∈ log0, Event.isFailed ev = false) ∧ T.works[w]? = some (Work.item inp out io f) ∧ f k v = .error e

/-- A global work has raised. -/
def GlobError (T : Topology κ α ε σ) (e : ε) : Prop :=
  ∃ (w : Nat), ∃ ready outLen run nio q a, T.works[w]? = some (Work.glob ready outLen run) ∧ run nio q a = .error e

theorem callEvents_failed {w : Nat} {k : κ} {v : α} {r : Except ε α}
    (h : ∃ x, r = .ok x) : ∀ e ∈ callEvents w k v r, Event.isFailed e = false := by
  obtain ⟨x, rfl⟩ := h
  intro e he
  simp only [callEvents, List.mem_singleton] at he
  subst he; rfl

theorem forwardEvents_failed {w : Nat} {k : κ} {er : ε} {out : Option Nat} :
    ∀ e ∈ (forwardEvents w k er out : List (Event κ α ε)), Event.isFailed e = false := by
  intro e he
  cases out <;> simp only [forwardEvents, List.mem_cons, List.not_mem_nil, or_false] at he
  subst he; rfl

/-- With `stop_if_error`: no failed call before a crash. -/
def ErrInv (T : Topology κ α ε σ) (log : List (Event κ α ε)) : Option ε → Prop
  | none => ∀ ev ∈ log, Event.isFailed ev = false
  | some e => FirstError T log e ∨ GlobError T e

theorem noFail_append {log evs : List (Event κ α ε)} (h1 : ∀ ev ∈ log, Event.isFailed ev = false)
    (h2 : ∀ ev ∈ evs, Event.isFailed ev = false) : ∀ ev ∈ log ++ evs, Event.isFailed ev = false := by
  intro ev hev
  rcases List.mem_append.1 hev with h | h
  · exact h1 ev h
  · exact h2 ev h

theorem ErrInv.step (hq : GlobsQuiet T) (hst : c.stopIfError = true) {l : Label} {s s' : AState κ α ε σ}
    (hc : s.crashed = none) (h : ErrInv T s.log s.crashed) (hs : StepCase T c l s s') : ErrInv T s'.log s'.crashed := by
  rw [hc] at h
  cases hs with
  | launch => rw [hc]; exact h
  | beginEmpty => rw [hc]; exact h
  | beginError =>
    show ErrInv T _ _
    rw [hc]
    exact noFail_append h forwardEvents_failed
  | beginOk => rw [incr_crashed, incr_log]; rw [hc]; exact h
  | finish ht hw hok =>
    rw [decr_crashed, decr_log]
    show ErrInv T _ _
    rw [hc]
    refine noFail_append h (callEvents_failed ?_)
    rcases hok with h1 | h1
    · rw [hst] at h1; cases h1
    · exact h1
  | @finishCrash i s t inp out io f e ht hw _ he =>
    refine Or.inl ⟨s.log, t.w, t.key, t.val, inp, out, io, f, ?_, h, hw, he⟩
    simp [he, callEvents]
  | glob hw _ hr => rw [hc]; exact noFail_append h (hq hw _ _ _ _ _ _ hr)
  | globCrash hw _ hr => exact Or.inr ⟨_, _, _, _, _, _, _, hw, hr⟩
  | checkStop => rw [hc]; exact h
  | check => rw [hc]; exact h

theorem ErrInv.run (hq : GlobsQuiet T) (hst : c.stopIfError = true) {s s' : AState κ α ε σ} {ls}
    (hrun : ARun T c s ls s') (h : ErrInv T s.log s.crashed) : ErrInv T s'.log s'.crashed := by
  induction hrun with
  | nil => exact h
  | snoc _ hstep ih =>
    obtain ⟨h1, h2⟩ := astep_cases hstep
    exact ih.step hq hst h1 h2

theorem ErrInv.seqWork (hq : GlobsQuiet T) (hst : c.stopIfError = true) {s : SState κ α ε σ} {w : Nat}
    {work : Work κ α ε σ} (hw : T.works[w]? = some work) (h : ErrInv T s.log s.crashed) :
    ErrInv T (Exec.seqWork c w work s).log (Exec.seqWork c w work s).crashed := by
  unfold Exec.seqWork
  split
  · exact h
  · rename_i hc
    rw [hc] at h
    split
    · rename_i ready outLen run
      split
      · rw [hc]; exact h
      · split
        · rename_i e he
          exact Or.inr ⟨_, _, _, _, _, _, _, hw, he⟩
        · rename_i q a evs he
          show ErrInv T _ s.crashed
          rw [hc]
          exact noFail_append h (hq hw _ _ _ _ _ _ he)
    · rename_i inp out io f
      split
      · rw [hc]; exact h
      · rename_i k r rest hp
        split
        · rename_i e
          rw [forward_eq]
          show ErrInv T _ s.crashed
          rw [hc]
          exact noFail_append h forwardEvents_failed
        · rename_i v
          split
          · rename_i r hr
            show ErrInv T _ s.crashed
            rw [hc]
            refine noFail_append h ?_
            intro ev hev
            rw [List.mem_singleton] at hev; subst hev; rfl
          · rename_i e he
            split
            · exact Or.inl ⟨s.log, w, k, v, inp, out, io, f, rfl, h, hw, he⟩
            · rename_i hn; exact absurd hst hn

theorem ErrInv.seqWorks (hq : GlobsQuiet T) (hst : c.stopIfError = true) {s : SState κ α ε σ} {w : Nat}
    {works : List (Work κ α ε σ)} (hw : T.works.drop w = works) (h : ErrInv T s.log s.crashed) :
    ErrInv T (Exec.seqWorks c w works s).log (Exec.seqWorks c w works s).crashed := by
  induction works generalizing w s with
  | nil => exact h
  | cons work works ih =>
    have h1 : T.works[w]? = some work := by
      have : (T.works.drop w)[0]? = some work := by rw [hw]; rfl
      rwa [List.getElem?_drop, Nat.add_zero] at this
    have h2 : T.works.drop (w + 1) = works := by rw [← List.drop_drop, hw]; rfl
    exact ih h2 (h.seqWork hq hst h1)

theorem seqLoop_zero (s : SState κ α ε σ) :
    seqLoop T c 0 s = if s.crashed.isSome then some s else if allEmpty T s.q s.aux then some s else none := by
  unfold seqLoop; rfl

theorem seqLoop_succ (n : Nat) (s : SState κ α ε σ) :
    seqLoop T c (n + 1) s = if s.crashed.isSome then some s else if allEmpty T s.q s.aux then some s
      else seqLoop T c n (Exec.seqWorks c 0 T.works s) := by
  conv_lhs => unfold seqLoop

theorem ErrInv.seqLoop (hq : GlobsQuiet T) (hst : c.stopIfError = true) {s s' : SState κ α ε σ} {n : Nat}
    (hl : Exec.seqLoop T c n s = some s') (h : ErrInv T s.log s.crashed) : ErrInv T s'.log s'.crashed := by
  induction n generalizing s with
  | zero =>
    rw [seqLoop_zero] at hl
    split at hl
    · cases hl; exact h
    · split at hl
      · cases hl; exact h
      · cases hl
  | succ n ih =>
    rw [seqLoop_succ] at hl
    split at hl
    · cases hl; exact h
    · split at hl
      · cases hl; exact h
      · exact ih hl (h.seqWorks hq hst (by simp))

/-! ### Comparison of executions with and without `stop_if_error` -/

theorem seqWork_log_prefix (w : Nat) (work : Work κ α ε σ) (s : SState κ α ε σ) :
    s.log <+: (seqWork c w work s).log := by
  unfold seqWork
  split
  · exact List.prefix_refl _
  · split
    · split
      · exact List.prefix_refl _
      · split
        · exact List.prefix_refl _
        · exact List.prefix_append _ _
    · split
      · exact List.prefix_refl _
      · split
        · rw [forward_eq]; exact List.prefix_append _ _
        · split
          · exact List.prefix_append _ _
          · split
            · exact List.prefix_append _ _
            · exact List.prefix_append _ _

theorem seqWorks_log_prefix (w : Nat) (works : List (Work κ α ε σ)) (s : SState κ α ε σ) :
    s.log <+: (seqWorks c w works s).log := by
  induction works generalizing w s with
  | nil => exact List.prefix_refl _
  | cons work works ih => exact (seqWork_log_prefix w work s).trans (ih _ _)

theorem seqLoop_log_prefix {n : Nat} {s s' : SState κ α ε σ} (h : seqLoop T c n s = some s') : s.log <+: s'.log := by
  induction n generalizing s with
  | zero =>
    rw [seqLoop_zero] at h
    split at h
    · cases h; exact List.prefix_refl _
    · split at h
      · cases h; exact List.prefix_refl _
      · cases h
  | succ n ih =>
    rw [seqLoop_succ] at h
    split at h
    · cases h; exact List.prefix_refl _
    · split at h
      · cases h; exact List.prefix_refl _
      · exact (seqWorks_log_prefix _ _ _).trans (ih h)

/-- Same configuration without `stop_if_error`. -/
def Cfg.noStop (c : Cfg) : Cfg := { c with stopIfError := false }

theorem seqWork_compare (w : Nat) (work : Work κ α ε σ) (s : SState κ α ε σ) :
    seqWork c w work s = seqWork c.noStop w work s ∨
    ((seqWork c w work s).crashed.isSome ∧ (seqWork c w work s).log = (seqWork c.noStop w work s).log) := by
  unfold seqWork
  split
  · exact Or.inl rfl
  · split
    · exact Or.inl rfl
    · split
      · exact Or.inl rfl
      · split
        · exact Or.inl rfl
        · split
          · exact Or.inl rfl
          · by_cases h : c.stopIfError = true
            · right
              simp [h, Cfg.noStop]
            · left
              simp [h, Cfg.noStop]

theorem seqWorks_of_crashed {w : Nat} {works : List (Work κ α ε σ)} {s : SState κ α ε σ} (h : s.crashed.isSome) :
    seqWorks c w works s = s := by
  induction works generalizing w with
  | nil => rfl
  | cons work works ih =>
    have : seqWork c w work s = s := by
      unfold seqWork
      split
      · rfl
      · rename_i h1; rw [h1] at h; cases h
    simp only [seqWorks, this, ih]

theorem seqWorks_compare (w : Nat) (works : List (Work κ α ε σ)) (s : SState κ α ε σ) :
    seqWorks c w works s = seqWorks c.noStop w works s ∨
    ((seqWorks c w works s).crashed.isSome ∧ (seqWorks c w works s).log <+: (seqWorks c.noStop w works s).log) := by
  induction works generalizing w s with
  | nil => exact Or.inl rfl
  | cons work works ih =>
    simp only [seqWorks]
    rcases seqWork_compare (c := c) w work s with h | ⟨h1, h2⟩
    · rw [h]; exact ih _ _
    · right
      rw [seqWorks_of_crashed h1]
      exact ⟨h1, by rw [h2]; exact seqWorks_log_prefix _ _ _⟩

theorem seqLoop_compare {n n' : Nat} {s sT sF : SState κ α ε σ} (hT : seqLoop T c n s = some sT)
    (hF : seqLoop T c.noStop n' s = some sF) :
    sT = sF ∨ (sT.crashed.isSome ∧ sT.log <+: sF.log) := by
  induction n generalizing s n' with
  | zero =>
    rw [seqLoop_zero] at hT
    have hF' : (if s.crashed.isSome then some s else if allEmpty T s.q s.aux then some s else none) = some sT →
        seqLoop T c.noStop n' s = some s := by
      intro h
      by_cases h1 : s.crashed.isSome
      · cases n' with
        | zero => rw [seqLoop_zero, if_pos h1]
        | succ n' => rw [seqLoop_succ, if_pos h1]
      · rw [if_neg h1] at h
        by_cases h2 : allEmpty T s.q s.aux = true
        · cases n' with
          | zero => rw [seqLoop_zero, if_neg h1, if_pos h2]
          | succ n' => rw [seqLoop_succ, if_neg h1, if_pos h2]
        · rw [if_neg h2] at h; cases h
    have h1 := hF' hT
    rw [h1] at hF
    cases hF
    split at hT
    · cases hT; exact Or.inl rfl
    · split at hT
      · cases hT; exact Or.inl rfl
      · cases hT
  | succ n ih =>
    rw [seqLoop_succ] at hT
    split at hT
    · rename_i h1
      cases hT
      left
      cases n' with
      | zero => rw [seqLoop_zero, if_pos h1] at hF; exact Option.some.inj hF
      | succ n' => rw [seqLoop_succ, if_pos h1] at hF; exact Option.some.inj hF
    · rename_i h1
      split at hT
      · rename_i h2
        cases hT
        left
        cases n' with
        | zero => rw [seqLoop_zero, if_neg h1, if_pos h2] at hF; exact Option.some.inj hF
        | succ n' => rw [seqLoop_succ, if_neg h1, if_pos h2] at hF; exact Option.some.inj hF
      · rename_i h2
        cases n' with
        | zero => rw [seqLoop_zero, if_neg h1, if_neg h2] at hF; cases hF
        | succ n' =>
          rw [seqLoop_succ, if_neg h1, if_neg h2] at hF
          rcases seqWorks_compare (c := c) 0 T.works s with h3 | ⟨h3, h4⟩
          · rw [h3] at hT; exact ih hT hF
          · right
            have : sT = seqWorks c 0 T.works s := by
              cases n with
              | zero => rw [seqLoop_zero, if_pos h3] at hT; exact (Option.some.inj hT).symm
              | succ n => rw [seqLoop_succ, if_pos h3] at hT; exact (Option.some.inj hT).symm
            rw [this]
            exact ⟨h3, h4.trans (seqLoop_log_prefix hF)⟩

end Verif.Exec
