import Verif.Exec.Live

/-!
# From every reachable state the execution can be finished
-/

namespace Verif.Exec
open Verif
set_option linter.unusedSectionVars false

variable {κ α ε σ : Type} [DecidableEq κ] {T : Topology κ α ε σ} {c : Cfg}
  {rank : Nat → Nat} {auxPot : σ → Nat} {P : Queues κ α ε → List (Task κ α) → σ → Prop}

theorem ARun.trans {s s' s'' : AState κ α ε σ} {ls ls'} (h : ARun T c s ls s') (h' : ARun T c s' ls' s'') :
    ARun T c s (ls ++ ls') s'' := by
  induction h' with
  | nil => simpa using h
  | snoc _ hstep ih => rw [← List.append_assoc]; exact ih.snoc hstep

theorem can_finish (hR : RankLaws T rank) (hG : GlobPot T rank auxPot P) (hprog : AProgress T c P)
    (hmax : 0 < c.maxWorkers)
    (hPs : ∀ {l : Label} {s s' : AState κ α ε σ}, CInv T s → P s.q s.inflight s.aux → astep T c l s = some s' →
      s'.crashed = none → P s'.q s'.inflight s'.aux)
    (s : AState κ α ε σ) (hC : CInv T s) (hP : P s.q s.inflight s.aux) (hc : s.crashed = none) :
    ∃ ls s', ARun T c s ls s' ∧ (s'.stop = true ∨ s'.crashed.isSome) := by
  have main : ∀ N (s : AState κ α ε σ), apot T rank auxPot s ≤ N → CInv T s → P s.q s.inflight s.aux →
      s.crashed = none → ∃ ls s', ARun T c s ls s' ∧ (s'.stop = true ∨ s'.crashed.isSome) := by
    intro N
    induction N using Nat.strongRecOn with
    | ind N ih =>
    intro s hN hC hP hc
    -- a step which changes the core is enough
    have one : ∀ l s1, astep T c l s = some s1 → core s1 ≠ core s →
        ∃ ls s', ARun T c s ls s' ∧ (s'.stop = true ∨ s'.crashed.isSome) := by
      intro l s1 hstep hne
      by_cases hc1 : s1.crashed = none
      · obtain ⟨_, hs⟩ := astep_cases hstep
        rcases apot_step hR hG hP hs hc1 with h | h
        · obtain ⟨ls, s', h1, h2⟩ := ih (apot T rank auxPot s1) (by omega) s1 (Nat.le_refl _) (hC.step hs hc1)
            (hPs hC hP hstep hc1) hc1
          exact ⟨_, s', (ARun.snoc (.nil s) hstep).trans h1, h2⟩
        · exact absurd h hne
      · exact ⟨_, s1, .snoc (.nil s) hstep, Or.inr (by rwa [Option.isSome_iff_ne_none])⟩
    cases hfl : s.inflight with
    | cons t fl =>
      obtain ⟨io, hio⟩ := hC.items t (by rw [hfl]; exact List.mem_cons_self)
      unfold ioOf at hio
      split at hio
      · rename_i inp out io' f hw
        have hen : (astep T c (.finish 0) s).isSome := by
          simp only [astep, hc, finishStep, hfl, List.getElem?_cons_zero, hw]
          split
          · rfl
          · split <;> rfl
        obtain ⟨s1, hs1⟩ := Option.isSome_iff_exists.1 hen
        by_cases hcr : s1.crashed = none
        · refine one _ s1 hs1 ?_
          intro hcore
          have h1 : s1.inflight = s.inflight := congrArg (fun x => x.2.2.1) hcore
          obtain ⟨_, hh⟩ := astep_cases hs1
          cases hh with
          | finish ht hw' _ =>
            obtain ⟨hlt, _⟩ := List.getElem?_eq_some_iff.1 ht
            have := congrArg List.length h1
            simp only [decr_inflight, List.length_eraseIdx, hlt, if_true] at this
            omega
          | finishCrash => simp at hcr
        · exact ⟨_, s1, .snoc (.nil s) hs1, Or.inr (by rwa [Option.isSome_iff_ne_none])⟩
      · cases hio
    | nil =>
      have hzero : ∀ io, s.counter io = 0 := by
        intro io; rw [hC.counter io, hfl]; simp [running]
      by_cases hempty : allEmpty T s.q s.aux = true
      · refine ⟨[.check], checkStep T s, .snoc (.nil s) (by simp [astep, hc]), Or.inl ?_⟩
        have h1 : s.ncpu = 0 := by simpa [AState.counter] using hzero false
        have h2 : s.nio = 0 := by simpa [AState.counter] using hzero true
        simp [checkStep, hempty, h1, h2]
      · rw [hfl] at hP
        rcases hprog _ _ hP (by simpa using hempty) with
          ⟨w, inp, out, io, f, hw, hne, hfull⟩ | ⟨w, ready, outLen, grun, q', a', evs, hw, hr, hrun, hch⟩
        · have hl : astep T c (.launch w) s = some { s with pending := s.pending ++ [w] } := by
            simp only [astep, hc, launchStep, hw]
            rw [if_neg]
            rw [hzero io]
            simp only [Bool.or_eq_true, List.isEmpty_iff, decide_eq_true_eq, not_or, hfull]
            exact ⟨⟨hne, by omega⟩, by simp⟩
          have hen : (astep T c (.begin w) { s with pending := s.pending ++ [w] }).isSome := by
            simp only [astep, hc, beginStep, List.mem_append, List.mem_singleton, or_true, if_true, hw]
            split
            · rfl
            · split <;> rfl
          obtain ⟨s2, hs2⟩ := Option.isSome_iff_exists.1 hen
          obtain ⟨_, hh⟩ := astep_cases hs2
          obtain ⟨_, hh1⟩ := astep_cases hl
          have hP1 : P s.q s.inflight s.aux := by rw [hfl]; exact hP
          have hC1 := hC.step hh1 hc
          have hc2 : s2.crashed = none := by
            cases hh with
            | beginEmpty => exact hc
            | beginError => exact hc
            | beginOk => rw [incr_crashed]; exact hc
          have hcoreNe : core s2 ≠ core s := by
            intro hcore
            have h1 : s2.inflight = s.inflight := congrArg (fun x => x.2.2.1) hcore
            have h2 := apot_core (T := T) (rank := rank) (auxPot := auxPot) hcore
            cases hh with
            | beginEmpty hw' _ hqe => rw [hw] at hw'; cases hw'; exact hne hqe
            | @beginError _ _ inp' out' io' f' k' e' rest' hw' hp hqe =>
              have h3 := potQ_pop rank T.nq inp' (hR.inp_lt hw') s.q _ _ hqe
              have h4 := potQ_put_le rank T.nq (upd s.q inp' rest') out' k' (.error e') (rank inp' - 1) (by
                rintro o rfl; have := hR.lt hw'; omega)
              have h5 := hR.pos hw'
              simp only [apot, pot] at h2
              omega
            | beginOk hw' _ hqe =>
              rw [incr_inflight] at h1
              have := congrArg List.length h1
              simp at this
          rcases apot_step hR hG (P := P) (s := { s with pending := s.pending ++ [w] }) hP1 hh hc2 with h | h
          · have h' : apot T rank auxPot s2 < apot T rank auxPot s := h
            obtain ⟨ls, s', h1, h2⟩ := ih (apot T rank auxPot s2) (by omega) s2 (Nat.le_refl _) (hC1.step hh hc2)
              (hPs hC1 hP1 hs2 hc2) hc2
            exact ⟨_, s', ((ARun.snoc (.nil s) hl).snoc hs2).trans h1, h2⟩
          · exact absurd h hcoreNe
        · have hn : s.nio = 0 := by simpa [AState.counter] using hzero true
          have hg : astep T c (.glob w) s = some { s with q := q', aux := a', log := s.log ++ evs } := by
            simp only [astep, hc, globStep, hw, hr, if_true, hn, hrun]
          refine one _ _ hg ?_
          intro hcore
          exact hch ⟨congrArg (fun x => x.1) hcore, congrArg (fun x => x.2.1) hcore⟩
  exact main _ s (Nat.le_refl _) hC hP hc

end Verif.Exec
