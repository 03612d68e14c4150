import Verif.Model.StopSignal
import Verif.Exec.Live
import Verif.Exec.GroupLive
import Mathlib.Algebra.BigOperators.Group.Finset.Basic
import Mathlib.Algebra.Order.BigOperators.Group.Finset
import Mathlib.Tactic.Linarith

/-!
# Executions with a stop signal
-/

namespace Verif.Exec
open Verif
set_option linter.unusedSectionVars false

variable {κ α ε σ : Type} [DecidableEq κ] {T : Topology κ α ε σ} {c : Cfg}

/-- The state, the flag being forgotten. -/
def unstop (s : AState κ α ε σ) : AState κ α ε σ := { s with stop := false }

theorem astep_unstop {l : Label} {s s' : AState κ α ε σ} (hl : l ≠ .check) (h : astep T c l s = some s') :
    astep T c l (unstop s) = some (unstop s') := by
  unfold astep at h ⊢
  split at h
  · cases h
  rename_i hc
  have hc' : (unstop s).crashed = none := hc
  rw [hc']
  cases l with
  | launch w =>
    simp only [launchStep] at h ⊢
    split at h
    · rename_i inp out io f hw
      try rw [show T.works[w]? = some (.item inp out io f) from hw]
      try simp only
      split at h
      · cases h
      · rename_i hcond
        simp only [Option.some.injEq] at h
        subst h
        have : ¬ (((unstop s).q inp).isEmpty || decide (c.maxWorkers ≤ (unstop s).counter io) ||
          outFull c (unstop s).q out) = true := hcond
        try rw [if_neg this]
        rfl
    · cases h
  | begin w =>
    simp only [beginStep] at h ⊢
    split at h
    · rename_i hp
      try rw [if_pos (show w ∈ (unstop s).pending from hp)]
      split at h
      · rename_i inp out io f hw
        try rw [show T.works[w]? = some (.item inp out io f) from hw]
        simp only [incr_q] at h ⊢
        try rw [show (unstop s).q = s.q from rfl]
        split at h
        · rename_i hpop
          try rw [hpop]
          simp only [Option.some.injEq] at h
          subst h
          cases io <;> rfl
        · rename_i k r rest hpop
          try rw [hpop]
          cases r with
          | error e =>
            simp only [Option.some.injEq] at h
            subst h
            cases io <;> rfl
          | ok v =>
            simp only [Option.some.injEq] at h
            subst h
            cases io <;> rfl
      · cases h
    · cases h
  | finish i =>
    simp only [finishStep] at h ⊢
    try rw [show (unstop s).inflight = s.inflight from rfl]
    split at h
    · cases h
    · rename_i t ht
      try rw [ht]
      try simp only
      split at h
      · rename_i inp out io f hw
        try rw [hw]
        try simp only
        split at h
        · rename_i r hr
          try rw [hr]
          simp only [Option.some.injEq] at h
          subst h
          cases io <;> rfl
        · rename_i e he
          try rw [he]
          try simp only
          split at h
          · rename_i hst
            try rw [if_pos hst]
            simp only [Option.some.injEq] at h
            subst h
            rfl
          · rename_i hst
            try rw [if_neg hst]
            simp only [Option.some.injEq] at h
            subst h
            cases io <;> rfl
      · cases h
  | glob w =>
    simp only [globStep] at h ⊢
    split at h
    · rename_i ready outLen run hw
      try rw [hw]
      try simp only
      try rw [show (unstop s).q = s.q from rfl, show (unstop s).aux = s.aux from rfl, show (unstop s).nio = s.nio from rfl]
      split at h
      · rename_i hr
        try rw [if_pos hr]
        split at h
        · rename_i e he
          try rw [he]
          simp only [Option.some.injEq] at h
          subst h
          rfl
        · rename_i q a evs he
          try rw [he]
          simp only [Option.some.injEq] at h
          subst h
          rfl
      · cases h
    · cases h
  | check => exact absurd rfl hl

/-- What a step does to the executor. -/
theorem xstep_a {l : XLabel} {s s' : XState κ α ε σ} (h : xstep T c l s = some s') :
    s.a.crashed = none ∧ (unstop s'.a = unstop s.a ∨
      ∃ l', l = .run l' ∧ l' ≠ .check ∧ barred l' s = false ∧ astep T c l' s.a = some s'.a) := by
  cases l with
  | run l =>
    simp only [xstep] at h
    split at h
    · cases h
    · rename_i hb
      split at h
      · cases h
      · rename_i a ha
        simp only [Option.some.injEq] at h
        subst h
        refine ⟨(astep_cases ha).1, ?_⟩
        by_cases hl : l = .check
        · left
          subst hl
          have := (astep_cases ha).2
          cases this with
          | checkStop => rfl
          | check => rfl
        · exact Or.inr ⟨l, rfl, hl, by simpa using hb, ha⟩
  | signal =>
    simp only [xstep] at h
    split at h
    · cases h
    · rename_i hb
      simp only [Option.some.injEq] at h
      subst h
      simp only [Bool.or_eq_true, not_or, Bool.not_eq_true, Option.isSome_eq_false_iff, Option.isNone_iff_eq_none] at hb
      exact ⟨hb.2, Or.inl rfl⟩
  | ret w =>
    simp only [xstep] at h
    split at h
    · rename_i hb
      simp only [Option.some.injEq] at h
      subst h
      simp only [Bool.and_eq_true, Option.isNone_iff_eq_none] at hb
      exact ⟨hb.1.1.1, Or.inl rfl⟩
    · cases h

/-- An execution with a signal is, for the queues, the tasks and the events, an execution of the executor. -/
theorem XRun.proj {s s' : XState κ α ε σ} {xls} (h : XRun T c s xls s') : ∃ ls, ARun T c (unstop s.a) ls (unstop s'.a) := by
  induction h with
  | nil => exact ⟨[], .nil _⟩
  | snoc _ hstep ih =>
    obtain ⟨ls, ih⟩ := ih
    obtain ⟨_, h | ⟨l, _, hl, _, hst⟩⟩ := xstep_a hstep
    · rw [h]; exact ⟨ls, ih⟩
    · exact ⟨_, ih.snoc (astep_unstop hl hst)⟩

theorem XRun.init_proj {q : Queues κ α ε} {a : σ} {s' : XState κ α ε σ} {xls}
    (h : XRun T c (XState.init q a) xls s') : ∃ ls, ARun T c (AState.init q a) ls (unstop s'.a) := h.proj

/-- The pending tasks are tasks of item works, one for each work. -/
structure PInv (T : Topology κ α ε σ) (s : XState κ α ε σ) : Prop where
  items : ∀ w ∈ s.a.pending, ∃ inp out io f, T.works[w]? = some (Work.item inp out io f)
  nodup : s.a.pending.Nodup
  lt : ∀ w ∈ s.returned, w < T.works.length
  rnodup : s.returned.Nodup

theorem PInv.init (q : Queues κ α ε) (a : σ) : PInv T (XState.init q a) := by
  refine ⟨?_, ?_, ?_, ?_⟩ <;> simp [XState.init, AState.init]

theorem unstop_pending {a b : AState κ α ε σ} (h : unstop a = unstop b) : a.pending = b.pending := by
  have := congrArg AState.pending h
  exact this

theorem PInv.step {l : XLabel} {s s' : XState κ α ε σ} (h : PInv T s) (hs : xstep T c l s = some s') : PInv T s' := by
  have hret : (∀ w ∈ s'.returned, w < T.works.length) ∧ s'.returned.Nodup := by
    cases l with
    | run l =>
      simp only [xstep] at hs
      split at hs
      · cases hs
      · rename_i hb
        split at hs
        · cases hs
        · rename_i a ha
          simp only [Option.some.injEq] at hs
          subst hs
          unfold afterStep
          split
          · rename_i w
            split
            · obtain ⟨_, hc⟩ := astep_cases ha
              have hw : w < T.works.length := by
                cases hc with
                | glob hw => exact (List.getElem?_eq_some_iff.1 hw).1
                | globCrash hw => exact (List.getElem?_eq_some_iff.1 hw).1
              refine ⟨?_, ?_⟩
              · intro w' hw'
                rcases List.mem_cons.1 hw' with rfl | h1
                · exact hw
                · exact h.lt _ h1
              · refine List.nodup_cons.2 ⟨?_, h.rnodup⟩
                simpa [barred] using hb
            · exact ⟨h.lt, h.rnodup⟩
          · exact ⟨h.lt, h.rnodup⟩
    | signal =>
      simp only [xstep] at hs
      split at hs
      · cases hs
      · simp only [Option.some.injEq] at hs
        subst hs
        exact ⟨h.lt, h.rnodup⟩
    | ret w =>
      simp only [xstep] at hs
      split at hs
      · rename_i hb
        simp only [Option.some.injEq] at hs
        subst hs
        simp only [Bool.and_eq_true, Bool.not_eq_true', decide_eq_false_iff_not] at hb
        obtain ⟨⟨_, h2⟩, h3⟩ := hb
        refine ⟨?_, List.nodup_cons.2 ⟨h2, h.rnodup⟩⟩
        intro w' hw'
        rcases List.mem_cons.1 hw' with rfl | h1
        · unfold waits at h3
          split at h3
          · rename_i h4; exact (List.getElem?_eq_some_iff.1 h4).1
          · rename_i h4; exact (List.getElem?_eq_some_iff.1 h4).1
          · cases h3
        · exact h.lt _ h1
      · cases hs
  obtain ⟨_, hu | ⟨l', rfl, hl, hb, hst⟩⟩ := xstep_a hs
  · have := unstop_pending hu
    refine ⟨?_, ?_, hret.1, hret.2⟩
    · rw [this]; exact h.items
    · rw [this]; exact h.nodup
  · obtain ⟨_, hc⟩ := astep_cases hst
    refine ⟨?_, ?_, hret.1, hret.2⟩
    · generalize s'.a = a' at hc
      generalize hsa : s.a = a at hc
      cases hc with
      | launch hw _ _ _ =>
        intro w' hw'
        rcases List.mem_append.1 hw' with h1 | h1
        · exact h.items _ (by rw [hsa]; exact h1)
        · rw [List.mem_singleton] at h1; subst h1; exact ⟨_, _, _, _, hw⟩
      | beginEmpty => exact fun w' hw' => h.items _ (by rw [hsa]; exact List.mem_of_mem_erase hw')
      | beginError => exact fun w' hw' => h.items _ (by rw [hsa]; exact List.mem_of_mem_erase hw')
      | beginOk =>
        intro w' hw'
        rw [incr_pending] at hw'
        exact h.items _ (by rw [hsa]; exact List.mem_of_mem_erase hw')
      | finish =>
        intro w' hw'
        rw [decr_pending] at hw'
        exact h.items _ (by rw [hsa]; exact hw')
      | finishCrash => exact fun w' hw' => h.items _ (by rw [hsa]; exact hw')
      | glob => exact fun w' hw' => h.items _ (by rw [hsa]; exact hw')
      | globCrash => exact fun w' hw' => h.items _ (by rw [hsa]; exact hw')
      | checkStop => exact absurd rfl hl
      | check => exact absurd rfl hl
    · have hnd := h.nodup
      have hb' : ∀ w, l' = .launch w → w ∉ s.a.pending := by
        rintro w rfl
        simp only [barred, Bool.or_eq_false_iff, decide_eq_false_iff_not] at hb
        exact hb.2
      generalize s'.a = a' at hc
      generalize s.a = a at hc hnd hb'
      cases hc with
      | launch hw _ _ _ =>
        refine List.nodup_append.2 ⟨hnd, List.nodup_singleton _, ?_⟩
        intro a ha b hb e
        rw [List.mem_singleton] at hb
        subst e; subst hb
        exact hb' _ rfl ha
      | beginEmpty => exact hnd.erase _
      | beginError => exact hnd.erase _
      | beginOk => rw [incr_pending]; exact hnd.erase _
      | finish => rw [decr_pending]; exact hnd
      | finishCrash => exact hnd
      | glob => exact hnd
      | globCrash => exact hnd
      | checkStop => exact absurd rfl hl
      | check => exact absurd rfl hl

theorem PInv.run {s s' : XState κ α ε σ} {xls} (hr : XRun T c s xls s') (h : PInv T s) : PInv T s' := by
  induction hr with
  | nil => exact h
  | snoc _ hstep ih => exact ih.step hstep

theorem stop_step {l : XLabel} {s s' : XState κ α ε σ} (h : s.a.stop = true) (hs : xstep T c l s = some s') :
    s'.a.stop = true := by
  cases l with
  | run l =>
    simp only [xstep] at hs
    split at hs
    · cases hs
    · split at hs
      · cases hs
      · rename_i a ha
        simp only [Option.some.injEq] at hs
        subst hs
        obtain ⟨_, hc⟩ := astep_cases ha
        have hb : a.stop = s.a.stop ∨ a.stop = true := by
          generalize s.a = b at hc
          cases hc with
          | launch => exact Or.inl rfl
          | beginEmpty => exact Or.inl rfl
          | beginError => exact Or.inl rfl
          | @beginOk _ _ _ _ io => cases io <;> exact Or.inl rfl
          | @finish _ _ _ _ _ io => cases io <;> exact Or.inl rfl
          | finishCrash => exact Or.inl rfl
          | glob => exact Or.inl rfl
          | globCrash => exact Or.inl rfl
          | checkStop => exact Or.inr rfl
          | check => exact Or.inl rfl
        rcases hb with hb | hb
        · exact hb.trans h
        · exact hb
  | signal =>
    simp only [xstep, h] at hs
    cases hs
  | ret w =>
    simp only [xstep] at hs
    split at hs
    · simp only [Option.some.injEq] at hs
      subst hs
      exact h
    · cases hs

theorem stop_run {s s' : XState κ α ε σ} {xls} (hr : XRun T c s xls s') (h : s.a.stop = true) : s'.a.stop = true := by
  induction hr with
  | nil => exact h
  | snoc _ hstep ih => exact stop_step ih hstep

/-- After the flag is set, something can happen until the executor has ended. -/
theorem xprogress {s : XState κ α ε σ} (hP : PInv T s) (hC : ∀ t ∈ s.a.inflight, ∃ io, ioOf T t.w = some io)
    (hc : s.a.crashed = none) (hs : s.a.stop = true) : XEnded T s ∨ ∃ l s', xstep T c l s = some s' := by
  by_cases h1 : s.a.pending = []
  · by_cases h2 : s.a.inflight = []
    · by_cases h3 : ∀ w < T.works.length, w ∈ s.returned
      · exact Or.inl ⟨hs, h3, h1, h2⟩
      · right
        push Not at h3
        obtain ⟨w, hw, hr⟩ := h3
        by_cases hwait : waits T c w s.a = true
        · exact ⟨.ret w, { s with returned := w :: s.returned }, by simp [xstep, hc, hs, hr, hwait]⟩
        · have hget : T.works[w]? = some T.works[w] := List.getElem?_eq_getElem hw
          cases hwk : T.works[w] with
          | item inp out io f =>
            rw [hwk] at hget
            simp only [waits, hget] at hwait
            refine ⟨.run (.launch w), ?_⟩
            simp only [xstep, barred, h1, hr, astep, hc, launchStep, hget, decide_false, List.not_mem_nil,
              Bool.or_false, Bool.false_eq_true, if_false]
            rw [if_neg hwait]
            exact ⟨_, rfl⟩
          | glob ready outLen run =>
            rw [hwk] at hget
            simp [waits, hget] at hwait
    · right
      obtain ⟨t, ts, hts⟩ := List.exists_cons_of_ne_nil h2
      obtain ⟨io, hio⟩ := hC t (by rw [hts]; simp)
      unfold ioOf at hio
      split at hio
      · rename_i inp out io' f hw
        cases hf : f t.key t.val with
        | ok r =>
          refine ⟨.run (.finish 0), ?_⟩
          simp only [xstep, barred, Bool.false_eq_true, if_false, astep, hc, finishStep, hts, List.getElem?_cons_zero, hw,
            hf]
          exact ⟨_, rfl⟩
        | error e =>
          refine ⟨.run (.finish 0), ?_⟩
          simp only [xstep, barred, Bool.false_eq_true, if_false, astep, hc, finishStep, hts, List.getElem?_cons_zero, hw,
            hf]
          by_cases hst : c.stopIfError = true
          · rw [if_pos hst]; exact ⟨_, rfl⟩
          · rw [if_neg hst]; exact ⟨_, rfl⟩
      · cases hio
  · right
    obtain ⟨w, ws, hws⟩ := List.exists_cons_of_ne_nil h1
    obtain ⟨inp, out, io, f, hw⟩ := hP.items w (by rw [hws]; simp)
    refine ⟨.run (.begin w), ?_⟩
    simp only [xstep, barred, Bool.false_eq_true, if_false, astep, hc, beginStep, hw, incr_q]
    rw [if_pos (by rw [hws]; simp)]
    cases hpop : (s.a.q inp).popFirst with
    | error e => exact ⟨_, rfl⟩
    | ok x =>
      obtain ⟨⟨k, r⟩, rest⟩ := x
      cases r with
      | error e => exact ⟨_, rfl⟩
      | ok v => exact ⟨_, rfl⟩

/-! ## The number of steps after the flag is set -/

/-- The input queue of an item work is not empty. -/
def hasInput (T : Topology κ α ε σ) (q : Queues κ α ε) (w : Nat) : Bool :=
  match T.works[w]? with
  | some (.item inp _ _ _) => !(q inp).isEmpty
  | _ => false

def lev (T : Topology κ α ε σ) (p : List Nat) (q : Queues κ α ε) (w : Nat) : Nat :=
  if w ∈ p then 1 else if hasInput T q w then 2 else 0

def levs (T : Topology κ α ε σ) (p : List Nat) (q : Queues κ α ε) : Nat :=
  (Finset.range T.works.length).sum (lev T p q)

theorem levs_le (p : List Nat) (q : Queues κ α ε) : levs T p q ≤ 2 * T.works.length := by
  have : levs T p q ≤ (Finset.range T.works.length).sum (fun _ => 2) := by
    refine Finset.sum_le_sum (fun w _ => ?_)
    unfold lev
    split
    · omega
    · split <;> omega
  simp only [Finset.sum_const, Finset.card_range] at this
  have e : T.works.length • 2 = T.works.length * 2 := rfl
  omega

/-- A bound of the number of steps. -/
def xpot (T : Topology κ α ε σ) (rank : Nat → Nat) (auxPot : σ → Nat) (s : XState κ α ε σ) : Nat :=
  (2 * T.works.length + 1) * apot T rank auxPot s.a + levs T s.a.pending s.a.q + (T.works.length - s.returned.length)

variable {rank : Nat → Nat} {auxPot : σ → Nat} {P : Queues κ α ε → List (Task κ α) → σ → Prop}

theorem returned_le {s : XState κ α ε σ} (h : PInv T s) : s.returned.length ≤ T.works.length := by
  have := List.subperm_of_subset h.rnodup (l₂ := List.range T.works.length)
    (fun w hw => List.mem_range.2 (h.lt w hw))
  simpa using this.length_le

theorem xpot_step (hR : RankLaws T rank) (hG : GlobPot T rank auxPot P) {l : XLabel} {s s' : XState κ α ε σ}
    (hP : P s.a.q s.a.inflight s.a.aux) (hI : PInv T s) (hstop : s.a.stop = true) (hs : xstep T c l s = some s')
    (hc : s'.a.crashed = none) : xpot T rank auxPot s' < xpot T rank auxPot s := by
  have hI' := hI.step hs
  have hr' := returned_le hI'
  cases l with
  | signal => simp only [xstep, hstop] at hs; cases hs
  | ret w =>
    simp only [xstep] at hs
    split at hs
    · simp only [Option.some.injEq] at hs
      subst hs
      simp only [xpot, List.length_cons] at hr' ⊢
      omega
    · cases hs
  | run l =>
    simp only [xstep] at hs
    split at hs
    · cases hs
    rename_i hb
    split at hs
    · cases hs
    rename_i a ha
    simp only [Option.some.injEq] at hs
    subst hs
    obtain ⟨_, hcase⟩ := astep_cases ha
    have hlen : s.returned.length ≤ (afterStep l a.stop s.returned).length := by
      unfold afterStep
      split
      · split <;> simp
      · exact Nat.le_refl _
    have key : apot T rank auxPot a < apot T rank auxPot s.a →
        xpot T rank auxPot ⟨a, afterStep l a.stop s.returned⟩ < xpot T rank auxPot s := by
      intro h
      have h1 := levs_le (T := T) a.pending a.q
      have h2 : (2 * T.works.length + 1) * (apot T rank auxPot a + 1) ≤
          (2 * T.works.length + 1) * apot T rank auxPot s.a := Nat.mul_le_mul_left _ h
      rw [Nat.mul_add, Nat.mul_one] at h2
      simp only [xpot]
      omega
    rcases apot_step hR hG hP hcase hc with h | hcore
    · exact key h
    · have happ : apot T rank auxPot a = apot T rank auxPot s.a := by
        simp only [core, Prod.mk.injEq] at hcore
        simp only [apot, hcore.1, hcore.2.1, hcore.2.2.1]
      have hq : a.q = s.a.q := by simp only [core, Prod.mk.injEq] at hcore; exact hcore.1
      have hfl : a.inflight = s.a.inflight := by simp only [core, Prod.mk.injEq] at hcore; exact hcore.2.2.1
      have hlevs : ∀ w, w < T.works.length → lev T a.pending a.q w < lev T s.a.pending s.a.q w →
          (∀ w', w' ≠ w → (w' ∈ a.pending ↔ w' ∈ s.a.pending)) →
          xpot T rank auxPot ⟨a, afterStep l a.stop s.returned⟩ < xpot T rank auxPot s := by
        intro w hw h1 h2
        have : levs T a.pending a.q < levs T s.a.pending s.a.q := by
          refine Finset.sum_lt_sum (fun w' _ => ?_) ⟨w, Finset.mem_range.2 hw, h1⟩
          by_cases e : w' = w
          · subst e; omega
          · simp only [lev, hq, h2 w' e]; exact Nat.le_refl _
        simp only [xpot, happ]
        omega
      cases l with
      | launch w =>
        have hnp : w ∉ s.a.pending := by
          simp only [barred, Bool.or_eq_true, decide_eq_true_eq, not_or] at hb
          exact hb.2
        generalize s.a = b at hcase hnp hq hlevs
        cases hcase with
        | @launch _ _ inp out io f hw hne _ _ =>
          refine hlevs w (List.getElem?_eq_some_iff.1 hw).1 ?_ ?_
          · have : hasInput T b.q w = true := by
              simp only [hasInput, hw, Bool.not_eq_true', List.isEmpty_eq_false_iff]
              exact hne
            simp [lev, hnp, this]
          · intro w' hw'
            simp [hw']
      | begin w =>
        have hnd := hI.nodup
        generalize s.a = b at hcase hnd hq hlevs hfl
        cases hcase with
        | @beginEmpty _ _ inp out io f hw hp he =>
          refine hlevs w (List.getElem?_eq_some_iff.1 hw).1 ?_ ?_
          · have : hasInput T b.q w = false := by simp [hasInput, hw, he]
            have h1 : w ∉ b.pending.erase w := List.Nodup.not_mem_erase hnd
            simp [lev, hp, this, h1]
          · intro w' hw'
            exact List.mem_erase_of_ne hw'
        | @beginError _ _ inp out io f k e rest hw hp he =>
          exfalso
          have h1 := congrFun hq inp
          simp only at h1
          have hne : out ≠ some inp := by
            rintro rfl
            exact absurd (hR.lt hw) (Nat.lt_irrefl _)
          have h2 : put (upd b.q inp rest) out k (.error e) inp = rest := by
            rw [put_other hne]; simp [upd]
          rw [h2, he] at h1
          have := congrArg List.length h1
          simp at this
        | @beginOk _ _ inp out io f k v rest hw hp he =>
          exfalso
          rw [incr_inflight] at hfl
          have := congrArg List.length hfl
          simp at this
      | finish i =>
        exfalso
        generalize s.a = b at hcase hfl
        cases hcase with
        | finish ht =>
          rw [decr_inflight] at hfl
          have := congrArg List.length hfl
          have h2 := (List.getElem?_eq_some_iff.1 ht).1
          simp only [List.length_eraseIdx, h2, if_true] at this
          omega
        | finishCrash => simp at hc
      | glob w =>
        have hst : a.stop = true := by
          have := stop_step (T := T) (c := c) (l := .run (.glob w)) (s := s) (s' := ⟨a, afterStep (.glob w) a.stop s.returned⟩) hstop
            (by simp only [xstep]; rw [if_neg hb, ha])
          exact this
        have hpend : a.pending = s.a.pending := by
          generalize s.a = b at hcase
          cases hcase with
          | glob => rfl
          | globCrash => rfl
        simp only [afterStep, hst, if_true, List.length_cons] at hr' ⊢
        simp only [xpot, happ, hq, hpend, List.length_cons]
        omega
      | check => simp [barred, hstop] at hb

theorem xrun_bound (hR : RankLaws T rank) (hG : GlobPot T rank auxPot P) {s s' : XState κ α ε σ} {xls}
    (hr : XRun T c s xls s') (hI : PInv T s) (hstop : s.a.stop = true)
    (hP : ∀ xls' s'', XRun T c s xls' s'' → s''.a.crashed = none → P s''.a.q s''.a.inflight s''.a.aux) :
    xls.length ≤ xpot T rank auxPot s + 1 ∧
      (s'.a.crashed = none → xls.length + xpot T rank auxPot s' ≤ xpot T rank auxPot s) := by
  induction hr with
  | nil => simp
  | snoc h hstep ih =>
    have h1 := (xstep_a hstep).1
    have h2 := ih.2 h1
    have h3 := stop_run h hstop
    refine ⟨by simp only [List.length_append, List.length_singleton]; omega, fun hc => ?_⟩
    have := xpot_step hR hG (hP _ _ h h1) (hI.run h) h3 hstep hc
    simp only [List.length_append, List.length_singleton]
    omega

theorem XRun.trans {s s' s'' : XState κ α ε σ} {ls ls'} (h : XRun T c s ls s') (h' : XRun T c s' ls' s'') :
    XRun T c s (ls ++ ls') s'' := by
  induction h' with
  | nil => simpa using h
  | snoc _ hstep ih => rw [← List.append_assoc]; exact ih.snoc hstep

end Verif.Exec
