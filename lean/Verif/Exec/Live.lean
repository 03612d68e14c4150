import Verif.Exec.Preserve

/-!
# Termination of the executions
-/

namespace Verif.Exec
open Verif
set_option linter.unusedSectionVars false

variable {κ α ε σ : Type} [DecidableEq κ] {T : Topology κ α ε σ} {c : Cfg}

/-! ## Potential -/

def potQ (rank : Nat → Nat) : Nat → Queues κ α ε → Nat
  | 0, _ => 0
  | n + 1, q => potQ rank n q + 2 * rank n * (q n).length

def potFl (T : Topology κ α ε σ) (rank : Nat → Nat) (fl : List (Task κ α)) : Nat :=
  (fl.map (fun t => 2 * rank ((inpOf T t.w).getD 0) - 1)).sum

def pot (T : Topology κ α ε σ) (rank : Nat → Nat) (auxPot : σ → Nat) (q : Queues κ α ε) (a : σ) : Nat :=
  potQ rank T.nq q + auxPot a

theorem potQ_upd_ge (rank : Nat → Nat) (n i : Nat) (hi : n ≤ i) (q : Queues κ α ε) (d) :
    potQ rank n (upd q i d) = potQ rank n q := by
  induction n with
  | zero => rfl
  | succ n ih =>
    have : n ≠ i := by omega
    simp [potQ, ih (by omega), upd, this]

theorem potQ_upd (rank : Nat → Nat) (n i : Nat) (hi : i < n) (q : Queues κ α ε) (d) :
    potQ rank n (upd q i d) + 2 * rank i * (q i).length = potQ rank n q + 2 * rank i * d.length := by
  induction n with
  | zero => omega
  | succ n ih =>
    by_cases h : n = i
    · subst h
      simp only [potQ, potQ_upd_ge rank n n (Nat.le_refl n) q d]
      simp [upd]
      omega
    · have := ih (by omega)
      simp only [potQ]
      have e : upd q i d n = q n := by simp [upd, h]
      rw [e]
      omega

theorem length_set_le (d : Dict κ (Except ε α)) (k : κ) (r : Except ε α) : (d.set k r).length ≤ d.length + 1 := by
  induction d with
  | nil => simp [Dict.set]
  | cons kv d ih =>
    obtain ⟨k', v'⟩ := kv
    simp only [Dict.set]
    split
    · simp
    · simp only [List.length_cons]; omega

theorem potQ_put_le (rank : Nat → Nat) (n : Nat) (q : Queues κ α ε) (out : Option Nat) (k : κ) (r : Except ε α)
    (B : Nat) (hB : ∀ o, out = some o → rank o ≤ B) : potQ rank n (put q out k r) ≤ potQ rank n q + 2 * B := by
  cases out with
  | none => simp [put]
  | some o =>
    simp only [put]
    by_cases ho : o < n
    · have h1 := potQ_upd rank n o ho q ((q o).set k r)
      have h2 := length_set_le (q o) k r
      have h3 := hB o rfl
      have h4 : 2 * rank o * ((q o).set k r).length ≤ 2 * rank o * ((q o).length + 1) := Nat.mul_le_mul_left _ h2
      have h5 : 2 * rank o * ((q o).length + 1) = 2 * rank o * (q o).length + 2 * rank o := by
        rw [Nat.mul_add, Nat.mul_one]
      omega
    · rw [potQ_upd_ge rank n o (by omega)]; omega

theorem potQ_pop (rank : Nat → Nat) (n i : Nat) (hi : i < n) (q : Queues κ α ε) (kv) (rest)
    (hq : q i = kv :: rest) : potQ rank n (upd q i rest) + 2 * rank i = potQ rank n q := by
  have h := potQ_upd rank n i hi q rest
  rw [hq, List.length_cons, Nat.mul_add, Nat.mul_one] at h
  omega

theorem potFl_append (rank : Nat → Nat) (fl : List (Task κ α)) (t : Task κ α) :
    potFl T rank (fl ++ [t]) = potFl T rank fl + (2 * rank ((inpOf T t.w).getD 0) - 1) := by
  simp [potFl]

theorem potFl_eraseIdx (rank : Nat → Nat) (fl : List (Task κ α)) (n : Nat) (t : Task κ α)
    (h : fl[n]? = some t) :
    potFl T rank fl = potFl T rank (fl.eraseIdx n) + (2 * rank ((inpOf T t.w).getD 0) - 1) := by
  obtain ⟨hlt, hget⟩ := List.getElem?_eq_some_iff.1 h
  have hsplit : fl = fl.take n ++ t :: fl.drop (n + 1) := by
    rw [← hget, List.getElem_cons_drop, List.take_append_drop]
  rw [List.eraseIdx_eq_take_drop_succ]
  conv_lhs => rw [hsplit]
  simp only [potFl, List.map_append, List.sum_append, List.map_cons, List.sum_cons]
  omega

/-! ## Laws -/

/-- Ranks of the queues: works move the items towards smaller ranks. -/
structure RankLaws (T : Topology κ α ε σ) (rank : Nat → Nat) : Prop where
  inp_lt : ∀ {w inp : Nat} {out io f}, T.works[w]? = some (Work.item inp out io f) → inp < T.nq
  pos : ∀ {w inp : Nat} {out io f}, T.works[w]? = some (Work.item inp out io f) → 0 < rank inp
  lt : ∀ {w inp o : Nat} {io f}, T.works[w]? = some (Work.item inp (some o) io f) → rank o < rank inp

/-- Calls of global works decrease the potential or change nothing, in the states satisfying `P`. -/
def GlobPot (T : Topology κ α ε σ) (rank : Nat → Nat) (auxPot : σ → Nat)
    (P : Queues κ α ε → List (Task κ α) → σ → Prop) : Prop :=
  ∀ {w : Nat} {ready outLen run}, T.works[w]? = some (Work.glob ready outLen run) →
    ∀ nio q a fl q' a' evs, P q fl a → run nio q a = .ok (q', a', evs) →
    pot T rank auxPot q' a' < pot T rank auxPot q a ∨ (q' = q ∧ a' = a)

/-- Something can be done by the asynchronous executor, in the states satisfying `P` where nothing runs. -/
def AProgress (T : Topology κ α ε σ) (c : Cfg) (P : Queues κ α ε → List (Task κ α) → σ → Prop) : Prop :=
  ∀ q a, P q [] a → allEmpty T q a = false →
    (∃ (w inp : Nat) (out : Option Nat) (io : Bool) (f : κ → α → Except ε α), T.works[w]? = some (Work.item inp out io f) ∧ q inp ≠ [] ∧ outFull c q out = false) ∨
    (∃ w : Nat, ∃ ready outLen run q' a' evs, T.works[w]? = some (Work.glob ready outLen run) ∧ ready q a = true ∧
      run (some 0) q a = .ok (q', a', evs) ∧ ¬ (q' = q ∧ a' = a))

/-- What matters in a state for the enabled steps, apart from the pending tasks. -/
def core (s : AState κ α ε σ) : Queues κ α ε × σ × List (Task κ α) × Nat × Nat :=
  (s.q, s.aux, s.inflight, s.nio, s.ncpu)

def apot (T : Topology κ α ε σ) (rank : Nat → Nat) (auxPot : σ → Nat) (s : AState κ α ε σ) : Nat :=
  pot T rank auxPot s.q s.aux + potFl T rank s.inflight

variable {rank : Nat → Nat} {auxPot : σ → Nat} {P : Queues κ α ε → List (Task κ α) → σ → Prop}

/-- A step decreases the potential or only changes the pending tasks and the flag. -/
theorem apot_step (hR : RankLaws T rank) (hG : GlobPot T rank auxPot P) {l : Label} {s s' : AState κ α ε σ}
    (hP : P s.q s.inflight s.aux) (hs : StepCase T c l s s') (hc : s'.crashed = none) :
    apot T rank auxPot s' < apot T rank auxPot s ∨ core s' = core s := by
  cases hs with
  | launch => exact Or.inr rfl
  | beginEmpty => exact Or.inr rfl
  | @beginError w s inp out io f k e rest hw _ hq =>
    left
    have h1 := potQ_pop rank T.nq inp (hR.inp_lt hw) s.q _ rest hq
    have h2 := potQ_put_le rank T.nq (upd s.q inp rest) out k (.error e) (rank inp - 1) (by
      rintro o rfl; have := hR.lt hw; omega)
    have h3 := hR.pos hw
    simp only [apot, pot]
    omega
  | @beginOk w s inp out io f k v rest hw _ hq =>
    left
    have h1 := potQ_pop rank T.nq inp (hR.inp_lt hw) s.q _ rest hq
    have h3 := hR.pos hw
    simp only [apot, pot, incr_q, incr_aux, incr_inflight, potFl_append, inpOf_eq hw, Option.getD_some]
    omega
  | @finish i s t inp out io f ht hw _ =>
    left
    have h1 := potFl_eraseIdx (T := T) rank s.inflight i t ht
    have h2 := potQ_put_le rank T.nq s.q out t.key (f t.key t.val) (rank inp - 1) (by
      rintro o rfl; have := hR.lt hw; omega)
    have h3 := hR.pos hw
    rw [inpOf_eq hw, Option.getD_some] at h1
    simp only [apot, pot, decr_q, decr_aux, decr_inflight]
    omega
  | finishCrash => simp at hc
  | @glob w s ready outLen run q a evs hw _ hr =>
    rcases hG hw _ _ _ _ _ _ _ hP hr with h | ⟨h1, h2⟩
    · left; simp only [apot]; omega
    · right; subst h1; subst h2; rfl
  | globCrash => simp at hc
  | checkStop => exact Or.inr rfl
  | check => exact Or.inr rfl

theorem apot_core {s s' : AState κ α ε σ} (h : core s' = core s) : apot T rank auxPot s' = apot T rank auxPot s := by
  simp only [core, Prod.mk.injEq] at h
  obtain ⟨h1, h2, h3, _, _⟩ := h
  simp [apot, h1, h2, h3]

/-- An infinite execution of the asynchronous executor: `lab n` leads from `run n` to `run (n + 1)`. -/
def Infinite (T : Topology κ α ε σ) (c : Cfg) (run : Nat → AState κ α ε σ) (lab : Nat → Label) : Prop :=
  ∀ n, astep T c (lab n) (run n) = some (run (n + 1))

/-- Weak fairness of the scheduler: a step which stays possible from some point on is taken at some later point.
(trio runs every task which is not waiting, and threads make progress.) -/
def Fair (T : Topology κ α ε σ) (c : Cfg) (run : Nat → AState κ α ε σ) (lab : Nat → Label) : Prop :=
  ∀ l n, (∀ m, n ≤ m → (astep T c l (run m)).isSome) → ∃ m, n ≤ m ∧ lab m = l

theorem fair_terminates (hR : RankLaws T rank) (hG : GlobPot T rank auxPot P) (hprog : AProgress T c P)
    (hmax : 0 < c.maxWorkers) {run : Nat → AState κ α ε σ} {lab : Nat → Label} (hstep : Infinite T c run lab)
    (hfair : Fair T c run lab) (hC : ∀ n, CInv T (run n)) (hP : ∀ n, P (run n).q (run n).inflight (run n).aux) :
    ∃ n, (run n).stop = true := by
  have hcr : ∀ n, (run n).crashed = none := fun n => (astep_cases (hstep n)).1
  have hcase : ∀ n, StepCase T c (lab n) (run n) (run (n + 1)) := fun n => (astep_cases (hstep n)).2
  have hdec : ∀ n, apot T rank auxPot (run (n + 1)) < apot T rank auxPot (run n) ∨ core (run (n + 1)) = core (run n) :=
    fun n => apot_step hR hG (hP n) (hcase n) (hcr (n + 1))
  -- from any point, the potential decreases or the flag is set
  have key : ∀ n, ∃ m, n ≤ m ∧ (apot T rank auxPot (run m) < apot T rank auxPot (run n) ∨ (run m).stop = true) := by
    intro n
    by_contra hcon
    have hcon' : ∀ m, n ≤ m → ¬ (apot T rank auxPot (run m) < apot T rank auxPot (run n)) ∧ (run m).stop ≠ true := by
      intro m hm
      exact ⟨fun h => hcon ⟨m, hm, Or.inl h⟩, fun h => hcon ⟨m, hm, Or.inr h⟩⟩
    have hcore : ∀ m, n ≤ m → core (run m) = core (run n) := by
      intro m hm
      obtain ⟨d, rfl⟩ := Nat.exists_eq_add_of_le hm
      clear hm
      induction d with
      | zero => rfl
      | succ d ih =>
        rcases hdec (n + d) with h | h
        · exact absurd (by rw [apot_core ih] at h; exact h) (hcon' (n + (d + 1)) (by omega)).1
        · exact (show core (run (n + d + 1)) = _ from h).trans ih
    have hq : ∀ m, n ≤ m → (run m).q = (run n).q := fun m hm => congrArg (fun x => x.1) (hcore m hm)
    have ha : ∀ m, n ≤ m → (run m).aux = (run n).aux := fun m hm => congrArg (fun x => x.2.1) (hcore m hm)
    have hf : ∀ m, n ≤ m → (run m).inflight = (run n).inflight := fun m hm => congrArg (fun x => x.2.2.1) (hcore m hm)
    have hni : ∀ m, n ≤ m → (run m).nio = (run n).nio := fun m hm => congrArg (fun x => x.2.2.2.1) (hcore m hm)
    have hnc : ∀ m, n ≤ m → (run m).ncpu = (run n).ncpu := fun m hm => congrArg (fun x => x.2.2.2.2) (hcore m hm)
    -- a step taken after `n` keeps the core
    have hkeep : ∀ m, n ≤ m → ∀ s', StepCase T c (lab m) (run m) s' → s' = run (m + 1) → core s' = core (run m) := by
      intro m hm s' _ he
      rw [he, hcore (m + 1) (by omega), hcore m hm]
    cases hfl : (run n).inflight with
    | cons t fl =>
      -- a running function ends
      obtain ⟨io, hio⟩ := (hC n).items t (by rw [hfl]; exact List.mem_cons_self)
      unfold ioOf at hio
      split at hio
      · rename_i inp out io' f hw
        have hen : ∀ m, n ≤ m → (astep T c (.finish 0) (run m)).isSome := by
          intro m hm
          simp only [astep, hcr m, finishStep, hf m hm, hfl, List.getElem?_cons_zero, hw]
          split
          · rfl
          · split <;> rfl
        obtain ⟨m, hm, hlab⟩ := hfair (.finish 0) n hen
        have hl1 : (run (m + 1)).inflight.length = (run m).inflight.length := by
          rw [hf _ (by omega : n ≤ m + 1), hf m hm]
        have hh := hcase m
        have hnoc := hcr (m + 1)
        rw [hlab] at hh
        generalize run (m + 1) = s1 at hh hl1 hnoc
        cases hh with
        | finish ht hw' _ =>
          obtain ⟨hlt, _⟩ := List.getElem?_eq_some_iff.1 ht
          simp only [decr_inflight, List.length_eraseIdx, hlt, if_true] at hl1
          omega
        | finishCrash => simp at hnoc
      · cases hio
    | nil =>
      have hzero : ∀ io, (run n).counter io = 0 := by
        intro io; rw [(hC n).counter io, hfl]; simp [running]
      have hzero' : ∀ m, n ≤ m → ∀ io, (run m).counter io = 0 := by
        intro m hm io
        rw [← hzero io]
        simp only [AState.counter, hni m hm, hnc m hm]
      by_cases hempty : allEmpty T (run n).q (run n).aux = true
      · obtain ⟨m, hm, hlab⟩ := hfair .check n (by intro m _; simp [astep, hcr m])
        have hh := hcase m
        have hstop := (hcon' (m + 1) (by omega)).2
        rw [hlab] at hh
        generalize hs1 : run (m + 1) = s1 at hh hstop
        cases hh with
        | checkStop => exact hstop rfl
        | check hne =>
          apply hne
          refine ⟨by rw [hq m hm, ha m hm]; exact hempty, ?_, ?_⟩
          · simpa [AState.counter] using hzero' m hm false
          · simpa [AState.counter] using hzero' m hm true
      · have hP0 := hP n
        rw [hfl] at hP0
        rcases hprog _ _ hP0 (by simpa using hempty) with
          ⟨w, inp, out, io, f, hw, hne, hfull⟩ | ⟨w, ready, outLen, grun, q', a', evs, hw, hr, hrun, hch⟩
        · -- the launcher starts a task
          have hen : ∀ m, n ≤ m → (astep T c (.launch w) (run m)).isSome := by
            intro m hm
            simp only [astep, hcr m, launchStep, hw]
            rw [if_neg]
            · rfl
            · rw [hq m hm, hzero' m hm io]
              simp only [Bool.or_eq_true, List.isEmpty_iff, decide_eq_true_eq, not_or, hfull]
              exact ⟨⟨hne, by omega⟩, by simp⟩
          obtain ⟨m, hm, hlab⟩ := hfair (.launch w) n hen
          have hpend : w ∈ (run (m + 1)).pending := by
            have hh := hcase m
            rw [hlab] at hh
            generalize run (m + 1) = s1 at hh
            cases hh with
            | launch => simp
          -- the task stays pending until it begins
          have hbeg : ∃ m', m + 1 ≤ m' ∧ lab m' = .begin w ∧ True := by
            by_contra hnb
            have hpend' : ∀ d, w ∈ (run (m + 1 + d)).pending := by
              intro d
              induction d with
              | zero => exact hpend
              | succ d ih =>
                have hh := hcase (m + 1 + d)
                have hnl : lab (m + 1 + d) ≠ .begin w := fun e => hnb ⟨_, by omega, e, trivial⟩
                show w ∈ (run (m + 1 + d + 1)).pending
                generalize run (m + 1 + d + 1) = s1 at hh
                generalize lab (m + 1 + d) = l1 at hh hnl
                cases hh with
                | launch => simp [ih]
                | beginEmpty =>
                  exact (List.mem_erase_of_ne (fun e => hnl (by rw [e]))).2 ih
                | beginError =>
                  exact (List.mem_erase_of_ne (fun e => hnl (by rw [e]))).2 ih
                | beginOk =>
                  rw [incr_pending]
                  exact (List.mem_erase_of_ne (fun e => hnl (by rw [e]))).2 ih
                | finish => rw [decr_pending]; exact ih
                | finishCrash => exact ih
                | glob => exact ih
                | globCrash => exact ih
                | checkStop => exact ih
                | check => exact ih
            have hen2 : ∀ m', m + 1 ≤ m' → (astep T c (.begin w) (run m')).isSome := by
              intro m' hm'
              obtain ⟨d, rfl⟩ := Nat.exists_eq_add_of_le hm'
              simp only [astep, hcr, beginStep, hpend' d, if_true, hw]
              split
              · rfl
              · split <;> rfl
            obtain ⟨m', hm', hl'⟩ := hfair (.begin w) (m + 1) hen2
            exact hnb ⟨m', hm', hl', trivial⟩
          obtain ⟨m', hm', hl', _⟩ := hbeg
          have hh := hcase m'
          have hq1 := hq m' (by omega)
          have hq2 := hq (m' + 1) (by omega)
          have hdec' := hdec m'
          have hc1 := hcore m' (by omega)
          have hc2 := hcore (m' + 1) (by omega)
          have hf2 := hf (m' + 1) (by omega)
          have hlt := (hcon' (m' + 1) (by omega)).1
          rw [hl'] at hh
          -- in all cases the queue `inp` changes
          have hin : ∀ {inp' out' io' f'}, T.works[w]? = some (Work.item inp' out' io' f') →
              inp' = inp ∧ out' = out ∧ io' = io ∧ f' = f := by
            intro inp' out' io' f' h
            rw [hw] at h
            cases h
            exact ⟨rfl, rfl, rfl, rfl⟩
          have hpot := apot_core (T := T) (rank := rank) (auxPot := auxPot) hc1
          have hpot2 := apot_core (T := T) (rank := rank) (auxPot := auxPot) hc2
          have hnc2 := hcr (m' + 1)
          have hPm := hP m'
          generalize run (m' + 1) = s2 at *
          generalize run m' = s1 at *
          cases hh with
          | beginEmpty hw' _ hqe =>
            obtain ⟨rfl, _⟩ := hin hw'
            rw [hq1] at hqe
            exact hne hqe
          | @beginError _ _ inp' out' io' f' k' e' rest' hw' hp hqe =>
            have h1 := potQ_pop rank T.nq inp' (hR.inp_lt hw') s1.q _ _ hqe
            have h2 := potQ_put_le rank T.nq (upd s1.q inp' rest') out' k' (.error e') (rank inp' - 1) (by
              rintro o rfl; have := hR.lt hw'; omega)
            have h3 := hR.pos hw'
            simp only [apot, pot] at hpot hpot2
            omega
          | beginOk hw' _ hqe =>
            rw [incr_inflight] at hf2
            have : (s1.inflight ++ [Task.mk w _ _]).length = (run n).inflight.length := congrArg List.length hf2
            rw [hfl] at this
            simp at this
        · -- the global work is called
          have hen : ∀ m, n ≤ m → (astep T c (.glob w) (run m)).isSome := by
            intro m hm
            simp only [astep, hcr m, globStep, hw, hq m hm, ha m hm, hr, if_true]
            split <;> rfl
          obtain ⟨m, hm, hlab⟩ := hfair (.glob w) n hen
          have hh := hcase m
          have hq1 := hq m hm
          have ha1 := ha m hm
          have hn1 := hzero' m hm true
          have hq2 := hq (m + 1) (by omega)
          have ha2 := ha (m + 1) (by omega)
          have hnc2 := hcr (m + 1)
          rw [hlab] at hh
          generalize run (m + 1) = s2 at *
          generalize run m = s1 at *
          cases hh with
          | glob hw' _ hr' =>
            rw [hw] at hw'
            cases hw'
            simp only [AState.counter, if_true] at hn1
            rw [hq1, ha1, hn1, hrun] at hr'
            cases hr'
            exact hch ⟨hq2, ha2⟩
          | globCrash => simp at hnc2
  -- conclusion by induction on the potential
  have : ∀ N n, apot T rank auxPot (run n) ≤ N → ∃ m, (run m).stop = true := by
    intro N
    induction N with
    | zero =>
      intro n hn
      obtain ⟨m, _, h | h⟩ := key n
      · omega
      · exact ⟨m, h⟩
    | succ N ih =>
      intro n hn
      obtain ⟨m, _, h | h⟩ := key n
      · exact ih m (by omega)
      · exact ⟨m, h⟩
  exact this _ 0 (Nat.le_refl _)

/-! ## Sequential executor -/

/-- Something can be done in a round of the sequential executor. -/
def SProgress (T : Topology κ α ε σ) (c : Cfg) (P : Queues κ α ε → List (Task κ α) → σ → Prop) : Prop :=
  ∀ q a, P q [] a → allEmpty T q a = false →
    (∃ (w inp : Nat) (out : Option Nat) (io : Bool) (f : κ → α → Except ε α), T.works[w]? = some (Work.item inp out io f) ∧ q inp ≠ []) ∨
    (∃ w : Nat, ∃ ready outLen run, T.works[w]? = some (Work.glob ready outLen run) ∧ seqFull c (outLen q) = false ∧
      ∀ q' a' evs, run none q a = .ok (q', a', evs) → ¬ (q' = q ∧ a' = a))

theorem seqWork_pot (hR : RankLaws T rank) (hG : GlobPot T rank auxPot P) {s : SState κ α ε σ} {w : Nat}
    {work : Work κ α ε σ} (hw : T.works[w]? = some work) (hP : P s.q [] s.aux)
    (hc : (seqWork c w work s).crashed = none) :
    pot T rank auxPot (seqWork c w work s).q (seqWork c w work s).aux < pot T rank auxPot s.q s.aux ∨
    ((seqWork c w work s).q = s.q ∧ (seqWork c w work s).aux = s.aux) := by
  revert hc
  unfold seqWork
  split
  · intro _; exact Or.inr ⟨rfl, rfl⟩
  · split
    · rename_i ready outLen run
      split
      · intro _; exact Or.inr ⟨rfl, rfl⟩
      · split
        · intro hc; simp at hc
        · rename_i q a evs hr
          intro _
          exact hG hw _ _ _ _ _ _ _ hP hr
    · rename_i inp out io f
      have hput : ∀ k v rest r, s.q inp = (k, v) :: rest →
          potQ rank T.nq (put (upd s.q inp rest) out k r) < potQ rank T.nq s.q := by
        intro k v rest r hq
        have h1 := potQ_pop rank T.nq inp (hR.inp_lt hw) s.q _ rest hq
        have h2 := potQ_put_le rank T.nq (upd s.q inp rest) out k r (rank inp - 1) (by
          rintro o rfl; have := hR.lt hw; omega)
        have h3 := hR.pos hw
        omega
      split
      · intro _; exact Or.inr ⟨rfl, rfl⟩
      · rename_i k r rest hp
        have hq := popFirst_ok hp
        split
        · rename_i e
          intro _
          left
          rw [forward_eq]
          have := hput k _ rest (.error e) hq
          simp only [pot]; omega
        · rename_i v
          split
          · rename_i r hr
            intro _
            left
            have := hput k _ rest (.ok r) hq
            simp only [pot]; omega
          · rename_i e he
            split
            · intro hc; simp at hc
            · intro _
              left
              have := hput k _ rest (.error e) hq
              simp only [pot]; omega

/-- A round decreases the potential, or changes nothing and every work has seen the initial queues. -/
theorem seqWorks_pot (hR : RankLaws T rank) (hG : GlobPot T rank auxPot P)
    (hPs : ∀ {w : Nat} {work} {s : SState κ α ε σ}, T.works[w]? = some work → P s.q [] s.aux →
      (seqWork c w work s).crashed = none → P (seqWork c w work s).q [] (seqWork c w work s).aux)
    {s : SState κ α ε σ} {w : Nat} {works : List (Work κ α ε σ)} (hw : T.works.drop w = works)
    (hP : P s.q [] s.aux) (hc : (seqWorks c w works s).crashed = none) :
    P (seqWorks c w works s).q [] (seqWorks c w works s).aux ∧
    (pot T rank auxPot (seqWorks c w works s).q (seqWorks c w works s).aux < pot T rank auxPot s.q s.aux ∨
    ((seqWorks c w works s).q = s.q ∧ (seqWorks c w works s).aux = s.aux ∧
      ∀ w' work, w ≤ w' → T.works[w']? = some work → ∃ s1 : SState κ α ε σ, s1.q = s.q ∧ s1.aux = s.aux ∧
        s1.crashed = none ∧ (seqWork c w' work s1).crashed = none ∧
        (seqWork c w' work s1).q = s.q ∧ (seqWork c w' work s1).aux = s.aux)) := by
  induction works generalizing w s with
  | nil =>
    refine ⟨hP, Or.inr ⟨rfl, rfl, ?_⟩⟩
    intro w' work hle hw'
    exfalso
    have h1 : T.works.length ≤ w := List.drop_eq_nil_iff.1 hw
    obtain ⟨h2, _⟩ := List.getElem?_eq_some_iff.1 hw'
    omega
  | cons work works ih =>
    have h1 : T.works[w]? = some work := by
      have : (T.works.drop w)[0]? = some work := by rw [hw]; rfl
      rwa [List.getElem?_drop, Nat.add_zero] at this
    have h2 : T.works.drop (w + 1) = works := by
      rw [← List.drop_drop, hw]; rfl
    simp only [seqWorks] at hc ⊢
    have hc1 := seqWorks_crashed hc
    have hP1 := hPs h1 hP hc1
    obtain ⟨hP2, h3⟩ := ih h2 hP1 hc
    refine ⟨hP2, ?_⟩
    rcases seqWork_pot hR hG h1 hP hc1 with h4 | ⟨h4, h5⟩
    · left
      rcases h3 with h6 | ⟨h6, h7, _⟩
      · omega
      · rw [h6, h7]; exact h4
    · rcases h3 with h6 | ⟨h6, h7, h8⟩
      · left; rw [h4, h5] at h6; exact h6
      · right
        refine ⟨h6.trans h4, h7.trans h5, ?_⟩
        intro w' work' hle hw'
        by_cases he : w' = w
        · subst he
          rw [h1] at hw'; cases hw'
          exact ⟨s, rfl, rfl, seqWork_crashed hc1, hc1, h4, h5⟩
        · obtain ⟨s1, h9, h10, h11, h12, h13, h14⟩ := h8 w' work' (by omega) hw'
          exact ⟨s1, h9.trans h4, h10.trans h5, h11, h12, h13.trans h4, h14.trans h5⟩

theorem seqWork_item_lt (hR : RankLaws T rank) {s : SState κ α ε σ} {w inp : Nat} {out io f}
    (hw : T.works[w]? = some (Work.item inp out io f)) (hs : s.crashed = none) (hne : s.q inp ≠ [])
    (hc : (seqWork c w (Work.item inp out io f) s).crashed = none) :
    potQ rank T.nq (seqWork c w (Work.item inp out io f) s).q < potQ rank T.nq s.q := by
  revert hc
  have hput : ∀ k v rest r, s.q inp = (k, v) :: rest →
      potQ rank T.nq (put (upd s.q inp rest) out k r) < potQ rank T.nq s.q := by
    intro k v rest r hq
    have h1 := potQ_pop rank T.nq inp (hR.inp_lt hw) s.q _ rest hq
    have h2 := potQ_put_le rank T.nq (upd s.q inp rest) out k r (rank inp - 1) (by
      rintro o rfl; have := hR.lt hw; omega)
    have h3 := hR.pos hw
    omega
  simp only [seqWork, hs]
  split
  · rename_i hp; exact absurd (popFirst_error hp) hne
  · rename_i k r rest hp
    have hq := popFirst_ok hp
    split
    · rename_i e
      intro _
      rw [forward_eq]
      exact hput k _ rest (.error e) hq
    · rename_i v
      split
      · rename_i r hr
        intro _
        exact hput k _ rest (.ok r) hq
      · rename_i e he
        split
        · intro hc; simp at hc
        · intro _
          exact hput k _ rest (.error e) hq

theorem no_stuck (hR : RankLaws T rank) (hprog : SProgress T c P) {s : SState κ α ε σ} (hP : P s.q [] s.aux)
    (hne : allEmpty T s.q s.aux = false)
    (h3 : ∀ w' work, 0 ≤ w' → T.works[w']? = some work → ∃ s1 : SState κ α ε σ, s1.q = s.q ∧ s1.aux = s.aux ∧
        s1.crashed = none ∧ (seqWork c w' work s1).crashed = none ∧
        (seqWork c w' work s1).q = s.q ∧ (seqWork c w' work s1).aux = s.aux) : False := by
  rcases hprog _ _ hP hne with ⟨w, inp, out, io, f, hw, hq⟩ | ⟨w, ready, outLen, run, hw, hfull, hch⟩
  · obtain ⟨s1, h4, h5, h6, h7, h8, h9⟩ := h3 w _ (Nat.zero_le _) hw
    have := seqWork_item_lt hR hw h6 (by rw [h4]; exact hq) h7
    rw [h8, h4] at this
    omega
  · obtain ⟨s1, h4, h5, h6, h7, h8, h9⟩ := h3 w _ (Nat.zero_le _) hw
    simp only [seqWork, h6, h4, hfull, h5] at h7 h8 h9
    cases hr : run none s.q s.aux with
    | error e => simp [hr] at h7
    | ok x =>
      obtain ⟨q', a', evs⟩ := x
      simp only [hr] at h8 h9
      exact hch q' a' evs hr ⟨by simpa using h8, by simpa using h9⟩

theorem seq_terminates (hR : RankLaws T rank) (hG : GlobPot T rank auxPot P) (hprog : SProgress T c P)
    (hPs : ∀ {w : Nat} {work} {s : SState κ α ε σ}, T.works[w]? = some work → P s.q [] s.aux →
      (seqWork c w work s).crashed = none → P (seqWork c w work s).q [] (seqWork c w work s).aux)
    (s : SState κ α ε σ) (hP : P s.q [] s.aux) : ∃ n s', seqLoop T c n s = some s' := by
  have : ∀ N (s : SState κ α ε σ), pot T rank auxPot s.q s.aux ≤ N → P s.q [] s.aux →
      ∃ s', seqLoop T c (N + 1) s = some s' := by
    intro N
    induction N with
    | zero =>
      intro s hN hP
      unfold seqLoop
      split
      · exact ⟨_, rfl⟩
      · rename_i hcr
        split
        · exact ⟨_, rfl⟩
        · rename_i hne
          simp only
          cases hc : (seqWorks c 0 T.works s).crashed with
          | some e =>
            unfold seqLoop
            rw [if_pos (by rw [hc]; rfl)]
            exact ⟨_, rfl⟩
          | none =>
            exfalso
            obtain ⟨_, h | ⟨h1, h2, h3⟩⟩ := seqWorks_pot hR hG hPs (w := 0) (by simp) hP hc
            · omega
            · exact no_stuck hR hprog hP (by simpa using hne) h3
    | succ N ih =>
      intro s hN hP
      unfold seqLoop
      split
      · exact ⟨_, rfl⟩
      · split
        · exact ⟨_, rfl⟩
        · rename_i hne
          simp only
          cases hc : (seqWorks c 0 T.works s).crashed with
          | some e =>
            unfold seqLoop
            rw [if_pos (by rw [hc]; rfl)]
            exact ⟨_, rfl⟩
          | none =>
            obtain ⟨hP2, h | ⟨h1, h2, h3⟩⟩ := seqWorks_pot hR hG hPs (w := 0) (by simp) hP hc
            · exact ih _ (by omega) hP2
            · exact absurd h3 (fun h3 => no_stuck hR hprog hP (by simpa using hne) h3)
  obtain ⟨s', h⟩ := this _ s (Nat.le_refl _) hP
  exact ⟨_, s', h⟩

end Verif.Exec
