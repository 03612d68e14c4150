import Verif.Exec.Contract

/-!
# The invariants are preserved by the steps of the executors
-/

namespace Verif.Exec
open Verif
set_option linter.unusedSectionVars false

variable {κ α ε σ : Type} [DecidableEq κ] {T : Topology κ α ε σ} {c : Cfg}

/-! ## Counters -/

/-- Kind (I/O or not) of a work. -/
def ioOf (T : Topology κ α ε σ) (w : Nat) : Option Bool :=
  match T.works[w]? with
  | some (.item _ _ io _) => some io
  | _ => none

/-- Number of running tasks of a kind. -/
def running (T : Topology κ α ε σ) (fl : List (Task κ α)) (io : Bool) : Nat :=
  (fl.filter (fun t => ioOf T t.w = some io)).length

/-- The counters are the numbers of running tasks, which are tasks of item works. -/
structure CInv (T : Topology κ α ε σ) (s : AState κ α ε σ) : Prop where
  items : ∀ t ∈ s.inflight, ∃ io, ioOf T t.w = some io
  counter : ∀ io, s.counter io = running T s.inflight io

theorem counter_incr (s : AState κ α ε σ) (io io' : Bool) :
    (s.incr io).counter io' = s.counter io' + (if io' = io then 1 else 0) := by
  cases io <;> cases io' <;> simp [AState.incr, AState.counter]

theorem counter_decr (s : AState κ α ε σ) (io io' : Bool) :
    (s.decr io).counter io' = s.counter io' - (if io' = io then 1 else 0) := by
  cases io <;> cases io' <;> simp [AState.decr, AState.counter]

@[simp] theorem incr_q (s : AState κ α ε σ) (io : Bool) : (s.incr io).q = s.q := by cases io <;> rfl
@[simp] theorem incr_aux (s : AState κ α ε σ) (io : Bool) : (s.incr io).aux = s.aux := by cases io <;> rfl
@[simp] theorem incr_pending (s : AState κ α ε σ) (io : Bool) : (s.incr io).pending = s.pending := by
  cases io <;> rfl
@[simp] theorem incr_inflight (s : AState κ α ε σ) (io : Bool) : (s.incr io).inflight = s.inflight := by
  cases io <;> rfl
@[simp] theorem incr_stop (s : AState κ α ε σ) (io : Bool) : (s.incr io).stop = s.stop := by cases io <;> rfl
@[simp] theorem incr_crashed (s : AState κ α ε σ) (io : Bool) : (s.incr io).crashed = s.crashed := by
  cases io <;> rfl
@[simp] theorem incr_log (s : AState κ α ε σ) (io : Bool) : (s.incr io).log = s.log := by cases io <;> rfl
@[simp] theorem decr_q (s : AState κ α ε σ) (io : Bool) : (s.decr io).q = s.q := by cases io <;> rfl
@[simp] theorem decr_aux (s : AState κ α ε σ) (io : Bool) : (s.decr io).aux = s.aux := by cases io <;> rfl
@[simp] theorem decr_pending (s : AState κ α ε σ) (io : Bool) : (s.decr io).pending = s.pending := by
  cases io <;> rfl
@[simp] theorem decr_inflight (s : AState κ α ε σ) (io : Bool) : (s.decr io).inflight = s.inflight := by
  cases io <;> rfl
@[simp] theorem decr_stop (s : AState κ α ε σ) (io : Bool) : (s.decr io).stop = s.stop := by cases io <;> rfl
@[simp] theorem decr_crashed (s : AState κ α ε σ) (io : Bool) : (s.decr io).crashed = s.crashed := by
  cases io <;> rfl
@[simp] theorem decr_log (s : AState κ α ε σ) (io : Bool) : (s.decr io).log = s.log := by cases io <;> rfl

theorem popFirst_ok {d : Dict κ (Except ε α)} {kv rest} (h : d.popFirst = .ok (kv, rest)) : d = kv :: rest := by
  cases d with
  | nil => simp [Dict.popFirst] at h
  | cons a d => simp only [Dict.popFirst, Except.ok.injEq, Prod.mk.injEq] at h; rw [h.1, h.2]

theorem popFirst_error {d : Dict κ (Except ε α)} {e} (h : d.popFirst = .error e) : d = [] := by
  cases d with
  | nil => rfl
  | cons a d => simp [Dict.popFirst] at h

/-- The possible effects of a step, when there is no crash before the step. -/
inductive StepCase (T : Topology κ α ε σ) (c : Cfg) : Label → AState κ α ε σ → AState κ α ε σ → Prop
  | launch {w s inp out io f} : T.works[w]? = some (Work.item inp out io f) → s.q inp ≠ [] →
      s.counter io < c.maxWorkers → outFull c s.q out = false →
      StepCase T c (.launch w) s { s with pending := s.pending ++ [w] }
  | beginEmpty {w s inp out io f} : T.works[w]? = some (Work.item inp out io f) → w ∈ s.pending → s.q inp = [] →
      StepCase T c (.begin w) s ({ s with pending := s.pending.erase w })
  | beginError {w s inp out io f k e rest} : T.works[w]? = some (Work.item inp out io f) → w ∈ s.pending →
      s.q inp = (k, .error e) :: rest →
      StepCase T c (.begin w) s
        { s with
          pending := s.pending.erase w, q := put (upd s.q inp rest) out k (.error e),
          log := s.log ++ forwardEvents w k e out }
  | beginOk {w s inp out io f k v rest} : T.works[w]? = some (Work.item inp out io f) → w ∈ s.pending →
      s.q inp = (k, .ok v) :: rest →
      StepCase T c (.begin w) s
        ({ s with
          pending := s.pending.erase w, q := upd s.q inp rest, inflight := s.inflight ++ [Task.mk w k v] }.incr io)
  | finish {i s t inp out io f} : s.inflight[i]? = some t → T.works[t.w]? = some (Work.item inp out io f) →
      (c.stopIfError = false ∨ ∃ r, f t.key t.val = .ok r) →
      StepCase T c (.finish i) s
        ({ s with
          inflight := s.inflight.eraseIdx i, q := put s.q out t.key (f t.key t.val),
          log := s.log ++ callEvents t.w t.key t.val (f t.key t.val) }.decr io)
  | finishCrash {i s t inp out io f e} : s.inflight[i]? = some t →
      T.works[t.w]? = some (Work.item inp out io f) → c.stopIfError = true → f t.key t.val = .error e →
      StepCase T c (.finish i) s
        { s with
          inflight := s.inflight.eraseIdx i,
          log := s.log ++ callEvents t.w t.key t.val (f t.key t.val), crashed := some e }
  | glob {w s ready outLen run q a evs} : T.works[w]? = some (Work.glob ready outLen run) →
      ready s.q s.aux = true → run (some s.nio) s.q s.aux = .ok (q, a, evs) →
      StepCase T c (.glob w) s { s with q := q, aux := a, log := s.log ++ evs }
  | globCrash {w s ready outLen run e} : T.works[w]? = some (Work.glob ready outLen run) →
      ready s.q s.aux = true → run (some s.nio) s.q s.aux = .error e →
      StepCase T c (.glob w) s { s with crashed := some e }
  | checkStop {s} : allEmpty T s.q s.aux = true → s.ncpu = 0 → s.nio = 0 →
      StepCase T c .check s { s with stop := true }
  | check {s} : ¬ (allEmpty T s.q s.aux = true ∧ s.ncpu = 0 ∧ s.nio = 0) → StepCase T c .check s s

theorem forward_eq (w : Nat) (q : Queues κ α ε) (log : List (Event κ α ε)) (out : Option Nat) (k : κ) (e : ε) :
    forward w q log out k e = (put q out k (.error e), log ++ forwardEvents w k e out) := by
  cases out <;> simp [forward, put, forwardEvents]

theorem decr_incr (s : AState κ α ε σ) (io : Bool) : (s.incr io).decr io = s := by
  cases io <;> simp [AState.incr, AState.decr]

theorem astep_cases {l : Label} {s s' : AState κ α ε σ} (h : astep T c l s = some s') :
    s.crashed = none ∧ StepCase T c l s s' := by
  unfold astep at h
  split at h
  · cases h
  rename_i hc
  refine ⟨hc, ?_⟩
  cases l with
  | launch w =>
    simp only [launchStep] at h
    split at h
    · rename_i inp out io f hw
      split at h
      · cases h
      · rename_i hcond
        cases h
        simp only [Bool.or_eq_true, List.isEmpty_iff, decide_eq_true_eq, not_or, Nat.not_le,
          Bool.not_eq_true] at hcond
        exact .launch hw hcond.1.1 (by omega) hcond.2
    · cases h
  | begin w =>
    simp only [beginStep] at h
    split at h
    · rename_i hmem
      split at h
      · rename_i inp out io f hw
        split at h
        · rename_i he
          cases h
          rw [decr_incr]
          simp only [incr_q] at he
          exact .beginEmpty hw hmem (popFirst_error he)
        · rename_i k r rest hp
          simp only [incr_q] at hp
          have hq := popFirst_ok hp
          split at h
          · rename_i e
            cases h
            have := StepCase.beginError (c := c) hw hmem hq
            simp only [forward_eq]
            convert this using 1
            cases io <;> simp [AState.incr, AState.decr]
          · rename_i v
            cases h
            have := StepCase.beginOk (c := c) hw hmem hq
            convert this using 1
            cases io <;> simp [AState.incr]
      · cases h
    · cases h
  | finish i =>
    simp only [finishStep] at h
    split at h
    · cases h
    · rename_i t ht
      split at h
      · rename_i inp out io f hw
        split at h
        · rename_i r hr
          cases h
          have := StepCase.finish (c := c) ht hw (Or.inr ⟨r, hr⟩)
          rw [hr] at this
          exact this
        · rename_i e he
          split at h
          · rename_i hst
            cases h
            have := StepCase.finishCrash (c := c) ht hw hst he
            rw [he] at this
            exact this
          · rename_i hst
            cases h
            have := StepCase.finish (c := c) ht hw (Or.inl (by simpa using hst))
            rw [he] at this
            exact this
      · cases h
  | glob w =>
    simp only [globStep] at h
    split at h
    · rename_i ready outLen run hw
      split at h
      · rename_i hr
        split at h
        · rename_i e he
          cases h
          exact .globCrash hw hr he
        · rename_i q a evs he
          cases h
          exact .glob hw hr he
      · cases h
    · cases h
  | check =>
    simp only [checkStep, Option.some.injEq] at h
    split at h
    · rename_i hcond
      subst h
      simp only [Bool.and_eq_true, beq_iff_eq] at hcond
      exact .checkStop hcond.1.1 hcond.1.2 hcond.2
    · rename_i hcond
      subst h
      simp only [Bool.and_eq_true, beq_iff_eq] at hcond
      exact .check (by tauto)

theorem running_append (fl : List (Task κ α)) (t : Task κ α) (io : Bool) :
    running T (fl ++ [t]) io = running T fl io + (if ioOf T t.w = some io then 1 else 0) := by
  unfold running
  rw [List.filter_append, List.length_append]
  congr 1
  by_cases h : ioOf T t.w = some io <;> simp [h]

theorem running_eraseIdx (fl : List (Task κ α)) (n : Nat) (t : Task κ α) (h : fl[n]? = some t) (io : Bool) :
    running T fl io = running T (fl.eraseIdx n) io + (if ioOf T t.w = some io then 1 else 0) := by
  obtain ⟨hlt, hget⟩ := List.getElem?_eq_some_iff.1 h
  have hsplit : fl = fl.take n ++ t :: fl.drop (n + 1) := by
    rw [← hget, List.getElem_cons_drop, List.take_append_drop]
  rw [List.eraseIdx_eq_take_drop_succ]
  unfold running
  conv_lhs => rw [hsplit]
  simp only [List.filter_append, List.length_append, List.filter_cons]
  split <;> rename_i h1 <;> simp only [decide_eq_true_eq] at h1 <;> simp [h1]
  omega

theorem ioOf_eq {w inp : Nat} {out io f} (h : T.works[w]? = some (Work.item inp out io f)) : ioOf T w = some io := by
  simp [ioOf, h]

theorem inpOf_eq {w inp : Nat} {out io f} (h : T.works[w]? = some (Work.item inp out io f)) :
    inpOf T w = some inp := by
  simp [inpOf, h]

theorem CInv.init (q : Queues κ α ε) (a : σ) : CInv T (AState.init q a) := by
  refine ⟨by simp [AState.init], ?_⟩
  intro io; cases io <;> simp [AState.init, AState.counter, running]

theorem CInv.step {l : Label} {s s' : AState κ α ε σ} (h : CInv T s) (hs : StepCase T c l s s')
    (hc : s'.crashed = none) : CInv T s' := by
  cases hs with
  | launch => exact ⟨h.items, h.counter⟩
  | beginEmpty => exact ⟨h.items, h.counter⟩
  | beginError => exact ⟨h.items, h.counter⟩
  | @beginOk w s inp out io f k v rest hw =>
    refine ⟨?_, ?_⟩
    · intro t ht
      simp only [incr_inflight, List.mem_append, List.mem_singleton] at ht
      rcases ht with ht | rfl
      · exact h.items t ht
      · exact ⟨io, ioOf_eq hw⟩
    · intro io'
      rw [counter_incr]
      simp only [incr_inflight]
      rw [running_append, ioOf_eq hw, ← h.counter]
      simp only [AState.counter, Option.some.injEq]
      congr 1
      by_cases e : io = io'
      · simp [e]
      · simp [e, Ne.symm e]
  | @finish i s t inp out io f ht hw =>
    refine ⟨?_, ?_⟩
    · intro t' ht'
      simp only [decr_inflight] at ht'
      exact h.items t' (List.mem_of_mem_eraseIdx ht')
    · intro io'
      rw [counter_decr]
      simp only [decr_inflight]
      have h1 := running_eraseIdx (T := T) s.inflight i t ht io'
      rw [ioOf_eq hw] at h1
      have h2 := h.counter io'
      simp only [AState.counter] at h2 ⊢
      rw [h2, h1]
      simp only [Option.some.injEq]
      by_cases e : io = io'
      · simp [e]
      · simp [e, Ne.symm e]
  | finishCrash => simp at hc
  | glob => exact ⟨h.items, h.counter⟩
  | globCrash => simp at hc
  | checkStop => exact ⟨h.items, h.counter⟩
  | check => exact h

theorem ARun.crashed_mono {s s' : AState κ α ε σ} {ls} (h : ARun T c s ls s') (hc : s'.crashed = none) :
    s.crashed = none := by
  induction h with
  | nil => exact hc
  | snoc _ hstep ih => exact ih (astep_cases hstep).1

theorem CInv.run {s s' : AState κ α ε σ} {ls} (h : ARun T c s ls s') (hi : CInv T s) (hc : s'.crashed = none) :
    CInv T s' := by
  induction h with
  | nil => exact hi
  | snoc _ hstep ih =>
    obtain ⟨h1, h2⟩ := astep_cases hstep
    exact (ih h1).step h2 hc

/-! ## Contracts -/

/-- Laws of an additional invariant `J` on the positions of the items, and of the global works. -/
structure GlobLaws (C : Contract T) (J : Map κ α ε → List (Event κ α ε) → Prop) : Prop where
  call : ∀ {w inp : Nat} {out io f}, T.works[w]? = some (Work.item inp out io f) → ∀ m k v tot log,
    C.Inv tot m log → J m log → m inp k = some (.ok v) →
    J (mput (mdel m inp k) out k (f k v)) (log ++ callEvents w k v (f k v))
  forward : ∀ {w inp : Nat} {out io f}, T.works[w]? = some (Work.item inp out io f) → ∀ m k e tot log,
    C.Inv tot m log → J m log → m inp k = some (.error e) →
    J (mput (mdel m inp k) out k (.error e)) (log ++ forwardEvents w k e out)
  glob : ∀ {w : Nat} {ready outLen run}, T.works[w]? = some (Work.glob ready outLen run) →
    ∀ nio q a fl m tot log q' a' evs, Rel T q fl m → C.Inv tot m log → J m log → run nio q a = .ok (q', a', evs) →
    ∃ m', Rel T q' fl m' ∧ C.Inv tot m' (log ++ evs) ∧ J m' (log ++ evs)

/-- What is known on a state. -/
def Holds (T : Topology κ α ε σ) (C : Contract T) (J : Map κ α ε → List (Event κ α ε) → Prop)
    (tot : Nat → κ → List (Event κ α ε))
    (q : Queues κ α ε) (fl : List (Task κ α)) (log : List (Event κ α ε)) : Prop :=
  ∃ m, Rel T q fl m ∧ C.Inv tot m log ∧ J m log

variable {C : Contract T} {J : Map κ α ε → List (Event κ α ε) → Prop} {tot : Nat → κ → List (Event κ α ε)}

theorem Holds.beginError (hC : C.Lawful) (hJ : GlobLaws C J) {q fl log} (h : Holds T C J tot q fl log)
    {w inp : Nat} {out io f} (hw : T.works[w]? = some (Work.item inp out io f)) {k : κ} {e : ε} {rest}
    (hq : q inp = (k, .error e) :: rest) :
    Holds T C J tot (put (upd q inp rest) out k (.error e)) fl (log ++ forwardEvents w k e out) := by
  obtain ⟨m, h1, h2, h3⟩ := h
  have hm := h1.head_at hq
  exact ⟨_, (h1.pop hq).put _ (h2.fresh hC hw hm), h2.forward hC hw hm, hJ.forward hw m k e tot log h2 h3 hm⟩

theorem Holds.beginOk {q fl log} (h : Holds T C J tot q fl log)
    {w inp : Nat} {out io f} (hw : T.works[w]? = some (Work.item inp out io f)) {k : κ} {v : α} {rest}
    (hq : q inp = (k, .ok v) :: rest) :
    Holds T C J tot (upd q inp rest) (fl ++ [⟨w, k, v⟩]) log := by
  obtain ⟨m, h1, h2, h3⟩ := h
  exact ⟨m, h1.start hq (inpOf_eq hw), h2, h3⟩

theorem Holds.finish (hC : C.Lawful) (hJ : GlobLaws C J) {q fl log} (h : Holds T C J tot q fl log)
    {i : Nat} {t : Task κ α} (ht : fl[i]? = some t) {inp : Nat} {out io f}
    (hw : T.works[t.w]? = some (Work.item inp out io f)) :
    Holds T C J tot (put q out t.key (f t.key t.val)) (fl.eraseIdx i)
      (log ++ callEvents t.w t.key t.val (f t.key t.val)) := by
  obtain ⟨m, h1, h2, h3⟩ := h
  obtain ⟨hlt, hget⟩ := List.getElem?_eq_some_iff.1 ht
  have hm : m inp t.key = some (.ok t.val) :=
    (h1.at_iff _ _ _).2 (Or.inr ⟨t, hget ▸ List.getElem_mem hlt, inpOf_eq hw, rfl, rfl⟩)
  exact ⟨_, (h1.finish ht (inpOf_eq hw)).put _ (h2.fresh hC hw hm), h2.call hC hw hm,
    hJ.call hw m _ _ tot log h2 h3 hm⟩

theorem Holds.step (hC : C.Lawful) (hJ : GlobLaws C J) {l : Label} {s s' : AState κ α ε σ}
    (h : Holds T C J tot s.q s.inflight s.log) (hs : StepCase T c l s s') (hc : s'.crashed = none) :
    Holds T C J tot s'.q s'.inflight s'.log := by
  cases hs with
  | launch => exact h
  | beginEmpty => exact h
  | beginError hw _ hq => exact h.beginError hC hJ hw hq
  | beginOk hw _ hq => simpa using h.beginOk hw hq
  | finish ht hw _ => simpa using h.finish hC hJ ht hw
  | finishCrash => simp at hc
  | glob hw _ hr =>
    obtain ⟨m, h1, h2, h3⟩ := h
    obtain ⟨m', h4⟩ := hJ.glob hw _ _ _ _ m tot _ _ _ _ h1 h2 h3 hr
    exact ⟨m', h4⟩
  | globCrash => simp at hc
  | checkStop => exact h
  | check => exact h

theorem Holds.run (hC : C.Lawful) (hJ : GlobLaws C J) {s s' : AState κ α ε σ} {ls}
    (hrun : ARun T c s ls s') (h : Holds T C J tot s.q s.inflight s.log) (hc : s'.crashed = none) :
    Holds T C J tot s'.q s'.inflight s'.log := by
  induction hrun with
  | nil => exact h
  | snoc _ hstep ih =>
    obtain ⟨h1, h2⟩ := astep_cases hstep
    exact (ih h1).step hC hJ h2 hc

/-! ## Sequential executor -/

theorem Holds.seqWork (hC : C.Lawful) (hJ : GlobLaws C J) {s : SState κ α ε σ} {w : Nat} {work : Work κ α ε σ}
    (hw : T.works[w]? = some work) (h : Holds T C J tot s.q [] s.log)
    (hc : (Exec.seqWork c w work s).crashed = none) :
    Holds T C J tot (Exec.seqWork c w work s).q [] (Exec.seqWork c w work s).log := by
  revert hc
  unfold Exec.seqWork
  split
  · intro _; exact h
  · split
    · rename_i ready outLen run
      split
      · intro _; exact h
      · split
        · intro hc; simp at hc
        · rename_i q a evs hr
          intro _
          obtain ⟨m, h1, h2, h3⟩ := h
          exact hJ.glob hw _ _ _ _ m tot _ _ _ _ h1 h2 h3 hr
    · rename_i inp out io f
      split
      · intro _; exact h
      · rename_i k r rest hp
        have hq := popFirst_ok hp
        split
        · rename_i e
          intro _
          rw [forward_eq]
          exact h.beginError hC hJ hw hq
        · rename_i v
          have h1 := (h.beginOk hw hq).finish hC hJ (i := 0) (t := ⟨w, k, v⟩) rfl hw
          simp only [List.nil_append, List.eraseIdx_zero, List.tail_cons] at h1
          split
          · rename_i r hr
            rw [hr] at h1
            intro _; exact h1
          · rename_i e he
            rw [he] at h1
            split
            · intro hc; simp at hc
            · intro _; exact h1

theorem seqWork_crashed {s : SState κ α ε σ} {w : Nat} {work : Work κ α ε σ}
    (hc : (Exec.seqWork c w work s).crashed = none) : s.crashed = none := by
  revert hc
  unfold Exec.seqWork
  split
  · rename_i e he; intro h; rw [he] at h; cases h
  · rename_i he; intro _; exact he

theorem seqWorks_crashed {s : SState κ α ε σ} {w : Nat} {works : List (Work κ α ε σ)}
    (hc : (Exec.seqWorks c w works s).crashed = none) : s.crashed = none := by
  induction works generalizing w s with
  | nil => exact hc
  | cons work works ih => exact seqWork_crashed (ih hc)

theorem Holds.seqWorks (hC : C.Lawful) (hJ : GlobLaws C J) {s : SState κ α ε σ} {w : Nat}
    {works : List (Work κ α ε σ)} (hw : T.works.drop w = works) (h : Holds T C J tot s.q [] s.log)
    (hc : (Exec.seqWorks c w works s).crashed = none) :
    Holds T C J tot (Exec.seqWorks c w works s).q [] (Exec.seqWorks c w works s).log := by
  induction works generalizing w s with
  | nil => exact h
  | cons work works ih =>
    have h1 : T.works[w]? = some work := by
      have : (T.works.drop w)[0]? = some work := by rw [hw]; rfl
      rwa [List.getElem?_drop, Nat.add_zero] at this
    have h2 : T.works.drop (w + 1) = works := by
      rw [← List.drop_drop, hw]; rfl
    simp only [Exec.seqWorks] at hc ⊢
    exact ih h2 (h.seqWork hC hJ h1 (seqWorks_crashed hc)) hc

theorem Holds.seqLoop (hC : C.Lawful) (hJ : GlobLaws C J) {s s' : SState κ α ε σ} {n : Nat}
    (hl : Exec.seqLoop T c n s = some s') (h : Holds T C J tot s.q [] s.log) (hc : s'.crashed = none) :
    Holds T C J tot s'.q [] s'.log ∧ allEmpty T s'.q s'.aux = true := by
  induction n generalizing s with
  | zero =>
    unfold Exec.seqLoop at hl
    split at hl
    · rename_i h1; cases hl; rw [hc] at h1; cases h1
    · split at hl
      · rename_i h2; cases hl; exact ⟨h, h2⟩
      · cases hl
  | succ n ih =>
    unfold Exec.seqLoop at hl
    split at hl
    · rename_i h1; cases hl; rw [hc] at h1; cases h1
    · split at hl
      · rename_i h2; cases hl; exact ⟨h, h2⟩
      · simp only at hl
        refine ih hl (h.seqWorks hC hJ (by simp) ?_)
        -- the rest of the loop keeps a crash
        cases hcr : (Exec.seqWorks c 0 T.works s).crashed with
        | none => rfl
        | some e =>
          unfold Exec.seqLoop at hl
          rw [if_pos (by rw [hcr]; rfl)] at hl
          cases hl
          rw [hcr] at hc; cases hc

/-! ## End of an execution -/

theorem allEmpty_iff {q : Queues κ α ε} {a : σ} :
    allEmpty T q a = true ↔ (∀ i < T.nq, q i = []) ∧ T.auxEmpty a = true := by
  simp [allEmpty, List.all_eq_true, List.isEmpty_iff]

/-- When the queues are empty and nothing runs, the history of each key of each line is complete. -/
theorem Holds.done {q fl log} (h : Holds T C J tot q fl log) (hq : ∀ i, q i = []) (hfl : fl = []) (l : Nat)
    (k : κ) : C.hist l k log = tot l k := by
  obtain ⟨m, h1, h2, _⟩ := h
  refine h2.gone l k (fun i _ => ?_)
  cases hm : m i k with
  | none => rfl
  | some v =>
    rcases (h1.at_iff i k v).1 hm with h3 | ⟨t, ht, _⟩
    · rw [hq i] at h3; cases h3
    · rw [hfl] at ht; cases ht

theorem inflight_nil_of_counters {s : AState κ α ε σ} (h : CInv T s) (h1 : s.ncpu = 0) (h2 : s.nio = 0) :
    s.inflight = [] := by
  cases hfl : s.inflight with
  | nil => rfl
  | cons t fl =>
    exfalso
    obtain ⟨io, hio⟩ := h.items t (by rw [hfl]; exact List.mem_cons_self)
    have hc := h.counter io
    have : 0 < running T s.inflight io := by
      rw [hfl]
      unfold running
      rw [List.filter_cons_of_pos (by simpa using hio)]
      simp
    cases io <;> simp only [AState.counter] at hc <;> simp at hc <;> omega

end Verif.Exec
