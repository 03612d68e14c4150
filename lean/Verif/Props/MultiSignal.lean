import Verif.Model.MultiSignal
import Mathlib.Tactic.Push
import Mathlib.Data.List.Perm.Subperm
import Mathlib.Tactic.SplitIfs

/-!
# C112 — the stop signal with the multi executors

The multi executors (the default one is among them) run a computation in several processes.  A stop signal received by
the main process should stop all of them, and `compute` should return when they have ended.
-/

namespace Verif
open Verif.MultiSignal

/-! ## Specification -/

/-- The process has ended. -/
def HasEnded : Proc → Prop
  | .ended _ => True
  | .reaped _ => True
  | _ => False

/-- The process knows that it has to stop, or will know it as soon as it handles the signal sent to it. -/
def IsTold (s : State) (i : Nat) : Prop :=
  s.procs i = .ready true ∨ s.procs i = .ready false ∧ s.pending i = true

/-- The exit code of the process has been collected, so that its pid is not its own any more. -/
def IsReaped (s : State) (i : Nat) : Prop := ∃ c, s.procs i = .reaped c

/-! ## Sending the signal -/

theorem killAll_spec (reused : Nat → Bool) : ∀ (is : List Nat) (s : State),
    (killAll reused is s).1.procs = s.procs ∧ (killAll reused is s).1.listed = s.listed ∧ (killAll reused is s).1.main = s.main ∧
    s.strangers ≤ (killAll reused is s).1.strangers ∧ (∀ i, s.pending i = true → (killAll reused is s).1.pending i = true) ∧
    ((∀ i ∈ is, ¬ IsReaped s i) → (killAll reused is s).2 = true ∧ (killAll reused is s).1.strangers = s.strangers ∧
      ∀ i ∈ is, ¬ HasEnded (s.procs i) → (killAll reused is s).1.pending i = true) := by
  intro is
  induction is with
  | nil => intro s; simp [killAll]
  | cons i is ih =>
    intro s
    unfold killAll
    have mid : ∀ s' : State, s'.procs = s.procs → s'.listed = s.listed → s'.main = s.main → s'.strangers = s.strangers →
        (∀ j, s.pending j = true → s'.pending j = true) → (¬ HasEnded (s.procs i) → s'.pending i = true) →
        (killAll reused is s').1.procs = s.procs ∧ (killAll reused is s').1.listed = s.listed ∧
        (killAll reused is s').1.main = s.main ∧ s.strangers ≤ (killAll reused is s').1.strangers ∧
        (∀ i, s.pending i = true → (killAll reused is s').1.pending i = true) ∧
        ((∀ j ∈ i :: is, ¬ IsReaped s j) → (killAll reused is s').2 = true ∧ (killAll reused is s').1.strangers = s.strangers ∧
          ∀ j ∈ i :: is, ¬ HasEnded (s.procs j) → (killAll reused is s').1.pending j = true) := by
      intro s' e1 e2 e3 e4 e5 e6
      obtain ⟨h1, h2, h3, h4, h5, h6⟩ := ih s'
      refine ⟨h1.trans e1, h2.trans e2, h3.trans e3, e4 ▸ h4, fun j hj => h5 j (e5 j hj), ?_⟩
      intro hno
      obtain ⟨g1, g2, g3⟩ := h6 (by
        intro j hj hr
        refine hno j (List.mem_cons_of_mem _ hj) ?_
        obtain ⟨c, hc⟩ := hr
        exact ⟨c, by rw [← e1]; exact hc⟩)
      refine ⟨g1, g2.trans e4, ?_⟩
      intro j hj hn
      rcases List.mem_cons.mp hj with rfl | hj
      · exact h5 _ (e6 hn)
      · exact g3 j hj (by rw [e1]; exact hn)
    cases hp : s.procs i with
    | reaped c =>
      simp only
      split_ifs with hre
      · obtain ⟨h1, h2, h3, h4, h5, h6⟩ := ih { s with strangers := s.strangers + 1 }
        refine ⟨h1, h2, h3, by have : s.strangers + 1 ≤ _ := h4; omega, h5, ?_⟩
        intro hno
        exact absurd ⟨c, hp⟩ (hno i List.mem_cons_self)
      · refine ⟨rfl, rfl, rfl, Nat.le_refl _, fun _ h => h, ?_⟩
        intro hno
        exact absurd ⟨c, hp⟩ (hno i List.mem_cons_self)
    | ended c =>
      simp only
      exact mid s rfl rfl rfl rfl (fun _ h => h) (by rw [hp]; intro h; exact absurd trivial h)
    | notStarted =>
      simp only
      refine mid _ rfl rfl rfl rfl ?_ ?_
      · intro j hj
        simp only [Function.update_apply]; split_ifs <;> simp [hj]
      · intro _; simp
    | young =>
      simp only
      refine mid _ rfl rfl rfl rfl ?_ ?_
      · intro j hj
        simp only [Function.update_apply]; split_ifs <;> simp [hj]
      · intro _; simp
    | ready t =>
      simp only
      refine mid _ rfl rfl rfl rfl ?_ ?_
      · intro j hj
        simp only [Function.update_apply]; split_ifs <;> simp [hj]
      · intro _; simp

/-! ## The states of a computation -/

theorem run_trans {k : Kind} {n : Nat} {s s' s'' : State} {ls ls' : List Label} (h : Run k n s ls s') (h' : Run k n s' ls' s'') :
    Run k n s (ls ++ ls') s'' := by
  induction h with
  | nil => exact h'
  | cons h1 _ ih => exact .cons h1 (ih h')

theorem update_eq {α : Type} (f : Nat → α) (i j : Nat) (v : α) : Function.update f i v j = if j = i then v else f j := by
  rw [Function.update_apply]

/-- What may happen to a process. -/
def Follows (s s' : State) (i : Nat) : Prop :=
  (∀ c, s.procs i = .reaped c → s'.procs i = .reaped c) ∧
  (∀ c, s.procs i = .ended c → s'.procs i = .ended c ∨ s'.procs i = .reaped c) ∧
  (s.procs i = .ready true → s'.procs i = .ready true ∨ HasEnded (s'.procs i)) ∧
  (s.procs i = .ready false → s.pending i = true → IsTold s' i ∨ HasEnded (s'.procs i)) ∧
  (s.procs i = .ready false → s'.procs i = .ready false ∨ s'.procs i = .ready true ∨ HasEnded (s'.procs i)) ∧
  (s.procs i ≠ .notStarted → s'.procs i ≠ .notStarted)

theorem Follows.same {s s' : State} {i : Nat} (h : s'.procs i = s.procs i) (hp : s.pending i = true → s'.pending i = true) :
    Follows s s' i := by
  unfold Follows
  refine ⟨fun c e => h.trans e, fun c e => .inl (h.trans e), fun e => .inl (h.trans e), fun e e' => .inl (.inr ⟨h.trans e, hp e'⟩),
    fun e => .inl (h.trans e), fun e => h ▸ e⟩

theorem kind_cases (k : Kind) : k = .spawn ∨ k = .fork := by cases k <;> simp

/-- What a step does to a process. -/
theorem step_proc {k : Kind} {n : Nat} {l : Label} {s s' : State} (h : step k n l s = some s') (i : Nat) : Follows s s' i := by
  cases l with
  | launch =>
    simp only [step] at h
    split at h
    · rename_i h1 h2
      split_ifs at h
      injection h with h
      subst h
      by_cases hi : i = s.listed
      · subst hi
        unfold Follows
        rw [h2]
        simp [setProc]
      · cases k
        · unfold Follows IsTold setProc reapEnded
          simp only [update_eq, if_neg hi]
          cases hp : s.procs i with
          | ready t => cases t <;> simp [HasEnded]
          | _ => simp [HasEnded]
        · exact .same (by simp [setProc, update_eq, hi]) (fun h => h)
    · cases h
  | append =>
    simp only [step] at h
    split at h <;> cases h <;> exact .same rfl (fun h => h)
  | startPolling =>
    simp only [step] at h
    split at h
    · split_ifs at h
      injection h with h; subst h
      exact .same rfl (fun h => h)
    · cases h
  | poll =>
    simp only [step] at h
    split at h
    · rename_i j todo kept errors hm
      split at h
      · rename_i c hc
        injection h with h; subst h
        by_cases hi : i = j
        · subst hi
          unfold Follows
          rw [hc]
          simp [setProc]
        · exact .same (by simp [setProc, update_eq, hi]) (fun h => h)
      · injection h with h; subst h
        exact .same rfl (fun h => h)
      · injection h with h; subst h
        exact .same rfl (fun h => h)
    · cases h
  | turn =>
    simp only [step] at h
    split at h <;> cases h <;> exact .same rfl (fun h => h)
  | ready j =>
    simp only [step] at h
    split at h
    · rename_i hj
      injection h with h; subst h
      by_cases hi : i = j
      · subst hi
        unfold Follows
        rw [hj]
        simp [setProc]
      · exact .same (by simp [setProc, update_eq, hi]) (fun h => h)
    · cases h
  | finish j c =>
    have key : ∀ p : Proc, s.procs j = p → (p = .young ∨ ∃ t, p = .ready t) →
        Follows s (setProc { s with pending := Function.update s.pending j false } j (.ended c)) i := by
      intro p hj hp
      by_cases hi : i = j
      · subst hi
        unfold Follows
        rcases hp with rfl | ⟨t, rfl⟩ <;> rw [hj] <;> simp [setProc, HasEnded]
      · exact .same (by simp [setProc, update_eq, hi]) (by simp [setProc, update_eq, hi])
    simp only [step] at h
    split at h
    · rename_i hj
      injection h with h; subst h
      exact key _ hj (.inl rfl)
    · rename_i t hj
      injection h with h; subst h
      exact key _ hj (.inr ⟨_, rfl⟩)
    · cases h
  | signal reused =>
    obtain ⟨h1, _, _, _, h5, _⟩ := killAll_spec reused (List.range s.listed) s
    simp only [step] at h
    split_ifs at h
    split at h
    · rename_i s1 hk
      injection h with h; subst h
      rw [hk] at h1 h5
      exact .same (by rw [h1]) (h5 i)
    · rename_i s1 hk
      injection h with h; subst h
      rw [hk] at h1 h5
      exact .same (by show s1.procs i = _; rw [h1]) (h5 i)
  | deliver j reused =>
    simp only [step] at h
    split_ifs at h with hpe
    have other : i ≠ j → ∀ p, Follows s (setProc { s with pending := Function.update s.pending j false } j p) i := by
      intro hi p
      exact .same (by simp [setProc, update_eq, hi]) (by simp [setProc, update_eq, hi])
    split at h
    · rename_i t hj
      injection h with h; subst h
      by_cases hi : i = j
      · subst hi
        unfold Follows
        rw [hj]
        simp [setProc, HasEnded, IsTold]
      · exact other hi _
    · rename_i hj
      injection h with h; subst h
      by_cases hi : i = j
      · subst hi
        unfold Follows
        rw [hj]
        simp [setProc]
      · exact other hi _
    · rename_i hj
      obtain ⟨h1, _, _, _, h5, _⟩ := killAll_spec reused (List.range j) { s with pending := Function.update s.pending j false }
      split at h
      · rename_i s1 hk
        injection h with h; subst h
        rw [hk] at h1 h5
        by_cases hi : i = j
        · subst hi
          have hj' : s.procs i = .young := hj
          unfold Follows
          rw [hj', show s1.procs i = .young by rw [h1]; exact hj]
          simp
        · exact .same (by rw [h1]) (fun hp => h5 i (by simp [update_eq, hi, hp]))
      · rename_i s1 hk
        injection h with h; subst h
        rw [hk] at h1 h5
        by_cases hi : i = j
        · subst hi
          have hj' : s.procs i = .young := hj
          unfold Follows
          rw [hj']
          simp [setProc]
        · exact .same (by simp only [setProc, update_eq, if_neg hi]; rw [h1]) (fun hp => h5 i (by simp [update_eq, hi, hp]))
    · rename_i hx1 hx2 hx3
      injection h with h; subst h
      by_cases hi : i = j
      · subst hi
        cases hp : s.procs i with
        | ready t => exact absurd hp (hx1 t)
        | young => exact (kind_cases _).elim (fun h => (hx2 hp h).elim) (fun h => (hx3 hp h).elim)
        | _ => unfold Follows; simp [hp]
      · exact .same rfl (by simp [update_eq, hi])

/-- Once told, a process knows it until its end. -/
theorem told_run {k : Kind} {n : Nat} {s s' : State} {ls : List Label} (h : Run k n s ls s') (i : Nat)
    (ht : IsTold s i ∨ HasEnded (s.procs i)) : IsTold s' i ∨ HasEnded (s'.procs i) := by
  induction h with
  | nil => exact ht
  | @cons s0 s1 _ l ls h1 _ ih =>
    apply ih
    obtain ⟨a1, a2, a3, a4, _, _⟩ := step_proc h1 i
    rcases ht with (h2 | ⟨h2, h3⟩) | h2
    · rcases a3 h2 with h4 | h4
      · exact .inl (.inl h4)
      · exact .inr h4
    · exact a4 h2 h3
    · refine .inr ?_
      cases hp : s0.procs i with
      | ended c => rcases a2 c hp with h3 | h3 <;> rw [h3] <;> trivial
      | reaped c => rw [a1 c hp]; trivial
      | _ => rw [hp] at h2; cases h2

/-! ## The loop of the main process -/

/-- The errors which are known: the exit codes which are not zero, for the processes outside of `l`. -/
def ErrorsAre (n : Nat) (s : State) (l : List Nat) (errors : List (Nat × Int)) : Prop :=
  ∀ i c, (i, c) ∈ errors ↔ i < n ∧ i ∉ l ∧ s.procs i = .reaped c ∧ c ≠ 0

structure MultiSignal.Ok (n : Nat) (s : State) : Prop where
  le : s.listed ≤ n
  started : ∀ i < s.listed, s.procs i ≠ .notStarted
  fresh : ∀ i, n ≤ i ∨ s.listed < i → s.procs i = .notStarted
  poll : ∀ todo kept errors, s.main = .polling todo kept errors → s.listed = n ∧ (todo ++ kept).Nodup ∧
    (∀ i ∈ todo ++ kept, i < n) ∧ (∀ i < n, i ∉ todo ++ kept → IsReaped s i) ∧ ErrorsAre n s (todo ++ kept) errors
  ret : ∀ errors, s.main = .returned errors → s.listed = n ∧ (∀ i < n, IsReaped s i) ∧ ErrorsAre n s [] errors

/-- A step of the environment or of the processes changes nothing for the main process. -/
theorem MultiSignal.Ok.keep {n : Nat} {s s' : State} (h : Ok n s) (hl : s'.listed = s.listed) (hm : s'.main = s.main ∨ s'.main = .raised)
    (hr : ∀ i c, s.procs i = .reaped c ↔ s'.procs i = .reaped c)
    (hs : ∀ i, s.procs i = .notStarted ↔ s'.procs i = .notStarted) : Ok n s' := by
  have hE : ∀ l errors, ErrorsAre n s l errors → ErrorsAre n s' l errors := by
    intro l errors he i c
    rw [he i c, hr i c]
  have hR : ∀ i, IsReaped s i → IsReaped s' i := fun i ⟨c, hc⟩ => ⟨c, (hr i c).mp hc⟩
  refine ⟨hl ▸ h.le, fun i hi hn => h.started i (hl ▸ hi) ((hs i).mpr hn), fun i hi => (hs i).mp (h.fresh i (hl ▸ hi)), ?_, ?_⟩
  · intro todo kept errors hm'
    rcases hm with hm | hm
    · rw [hm] at hm'
      obtain ⟨a1, a2, a3, a4, a5⟩ := h.poll _ _ _ hm'
      exact ⟨hl ▸ a1, a2, a3, fun i hi hi' => hR i (a4 i hi hi'), hE _ _ a5⟩
    · rw [hm] at hm'; cases hm'
  · intro errors hm'
    rcases hm with hm | hm
    · rw [hm] at hm'
      obtain ⟨a1, a2, a3⟩ := h.ret _ hm'
      exact ⟨hl ▸ a1, fun i hi => hR i (a2 i hi), hE _ _ a3⟩
    · rw [hm] at hm'; cases hm'

theorem MultiSignal.Ok.init (n : Nat) : Ok n MultiSignal.init := by
  refine ⟨Nat.zero_le _, fun i hi => absurd hi (Nat.not_lt_zero _), fun _ _ => rfl, ?_, ?_⟩
  · intro _ _ _ h; cases h
  · intro _ h; cases h

/-- Replacing a process which is neither collected nor missing. -/
theorem MultiSignal.Ok.replace {n : Nat} {s s' : State} (h : Ok n s) {j : Nat} {p : Proc} (hj : s.procs j ≠ .notStarted)
    (hj' : ∀ c, s.procs j ≠ .reaped c) (hp : p ≠ .notStarted) (hp' : ∀ c, p ≠ .reaped c)
    (hl : s'.listed = s.listed) (hm : s'.main = s.main) (hs : s'.procs = Function.update s.procs j p) : Ok n s' := by
  refine h.keep hl (.inl hm) ?_ ?_
  · intro i c
    rw [hs, update_eq]
    split_ifs with hi
    · subst hi
      exact ⟨fun e => absurd e (hj' c), fun e => absurd e (hp' c)⟩
    · rfl
  · intro i
    rw [hs, update_eq]
    split_ifs with hi
    · subst hi
      exact ⟨fun e => absurd e hj, fun e => absurd e hp⟩
    · rfl

theorem MultiSignal.Ok.step {k : Kind} {n : Nat} {l : Label} {s s' : State} (h : Ok n s) (hs : MultiSignal.step k n l s = some s') :
    Ok n s' := by
  cases l with
  | launch =>
    simp only [MultiSignal.step] at hs
    split at hs
    · rename_i h1 h2
      split_ifs at hs with hn
      cases hs
      have hproc : ∀ i, i ≠ s.listed → ((setProc { s with procs := match k with
          | .fork => reapEnded s.procs
          | .spawn => s.procs } s.listed .young).procs i = .notStarted ↔ s.procs i = .notStarted) := by
        intro i hi
        cases k
        · simp only [setProc, update_eq, if_neg hi, reapEnded]
          cases s.procs i <;> simp
        · simp only [setProc, update_eq, if_neg hi]
      refine ⟨h.le, ?_, ?_, ?_, ?_⟩
      · intro i hi
        have hi' : i < s.listed := hi
        exact fun e => h.started i hi' ((hproc i (by omega)).mp e)
      · intro i hi
        have hi' : n ≤ i ∨ s.listed < i := hi
        exact (hproc i (by omega)).mpr (h.fresh i hi)
      · intro todo kept errors hm
        have hm' : s.main = .polling todo kept errors := hm
        rw [h1] at hm'; cases hm'
      · intro errors hm
        have hm' : s.main = .returned errors := hm
        rw [h1] at hm'; cases hm'
    · cases hs
  | append =>
    simp only [MultiSignal.step] at hs
    split at hs
    · cases hs
    · rename_i h1 h2
      cases hs
      have hlt : s.listed < n := by
        by_contra hc
        exact h2 (h.fresh _ (.inl (by omega)))
      refine ⟨hlt, ?_, ?_, ?_, ?_⟩
      · intro i hi
        have hi' : i < s.listed + 1 := hi
        rcases Nat.lt_succ_iff_lt_or_eq.mp hi' with h3 | h3
        · exact h.started i h3
        · subst h3; exact h2
      · intro i hi
        have hi' : n ≤ i ∨ s.listed + 1 < i := hi
        exact h.fresh i (by omega)
      · intro todo kept errors hm
        have hm' : s.main = .polling todo kept errors := hm
        rw [h1] at hm'; cases hm'
      · intro errors hm
        have hm' : s.main = .returned errors := hm
        rw [h1] at hm'; cases hm'
    · cases hs
  | startPolling =>
    simp only [MultiSignal.step] at hs
    split at hs
    · split_ifs at hs with hn
      cases hs
      refine ⟨h.le, h.started, h.fresh, ?_, ?_⟩
      · intro todo kept errors hm
        injection hm with e1 e2 e3
        subst e1 e2 e3
        refine ⟨hn, by simpa using List.nodup_range, by simp, ?_, ?_⟩
        · intro i hi hi'
          exact absurd (by simpa using hi) hi'
        · intro i c
          simp only [List.not_mem_nil, false_iff, List.append_nil, List.mem_range]
          rintro ⟨a, b, _⟩
          exact b a
      · intro errors hm; cases hm
    · cases hs
  | poll =>
    simp only [MultiSignal.step] at hs
    split at hs
    · rename_i j todo kept errors hm
      obtain ⟨a1, a2, a3, a4, a5⟩ := h.poll _ _ _ hm
      have hj : j < n := a3 j (by simp)
      have hjn : j ∉ todo ++ kept := by
        rw [List.cons_append] at a2
        exact (List.nodup_cons.mp a2).1
      have hnd : (todo ++ kept).Nodup := by
        rw [List.cons_append] at a2
        exact (List.nodup_cons.mp a2).2
      -- the exit code is known
      have known : ∀ (s1 : State) (c : Int), s1.listed = s.listed →
          s1.main = .polling todo kept (if c = 0 then errors else errors ++ [(j, c)]) →
          s1.procs j = .reaped c → (∀ i, i ≠ j → s1.procs i = s.procs i) → Ok n s1 := by
        intro s1 c e1 e2 e3 e4
        have hns : s1.procs j ≠ .notStarted := by rw [e3]; simp
        refine ⟨e1 ▸ h.le, ?_, ?_, ?_, ?_⟩
        · intro i hi
          by_cases hij : i = j
          · rw [hij]; exact hns
          · rw [e4 i hij]; exact h.started i (e1 ▸ hi)
        · intro i hi
          have hij : i ≠ j := by rintro rfl; rw [e1, a1] at hi; omega
          rw [e4 i hij]; exact h.fresh i (e1 ▸ hi)
        · intro todo' kept' errors' hm'
          rw [e2] at hm'
          injection hm' with f1 f2 f3
          subst f1 f2
          refine ⟨e1 ▸ a1, hnd, fun i hi => a3 i (by rw [List.cons_append]; exact List.mem_cons_of_mem _ hi), ?_, ?_⟩
          · intro i hi hi'
            by_cases hij : i = j
            · rw [hij]; exact ⟨c, e3⟩
            · obtain ⟨c', hc'⟩ := a4 i hi (by rw [List.cons_append]; simp only [List.mem_cons, not_or]; exact ⟨hij, hi'⟩)
              exact ⟨c', by rw [e4 i hij]; exact hc'⟩
          · rw [← f3]
            intro i c'
            by_cases hij : i = j
            · subst hij
              have hnot : (i, c') ∉ errors := by
                intro hc
                exact ((a5 i c').mp hc).2.1 (by simp)
              rw [e3]
              by_cases hc : c = 0
              · rw [if_pos hc]
                constructor
                · intro hc'; exact absurd hc' hnot
                · rintro ⟨_, _, g1, g2⟩
                  injection g1 with g1
                  exact absurd (g1 ▸ hc) g2
              · rw [if_neg hc, List.mem_append]
                constructor
                · rintro (hc' | hc')
                  · exact absurd hc' hnot
                  · rw [List.mem_singleton] at hc'
                    injection hc' with _ g
                    subst g
                    exact ⟨hj, hjn, rfl, hc⟩
                · rintro ⟨_, _, g1, g2⟩
                  injection g1 with g1
                  subst g1
                  exact .inr (List.mem_singleton.mpr rfl)
            · have hmem : (i, c') ∈ (if c = 0 then errors else errors ++ [(j, c)]) ↔ (i, c') ∈ errors := by
                split_ifs
                · rfl
                · simp [hij]
              rw [hmem, a5 i c', e4 i hij, List.cons_append, List.mem_cons]
              simp [hij]
        · intro errors' hm'
          rw [e2] at hm'; cases hm'
      split at hs
      · rename_i c hc
        cases hs
        exact known _ c rfl rfl (by simp [setProc]) (fun i hi => by simp [setProc, update_eq, hi])
      · rename_i c hc
        cases hs
        exact known _ c rfl rfl hc (fun i hi => rfl)
      · cases hs
        refine ⟨h.le, h.started, h.fresh, ?_, ?_⟩
        · intro todo' kept' errors' hm'
          injection hm' with f1 f2 f3
          subst f1 f2 f3
          have hperm : ∀ i, i ∈ todo ++ (kept ++ [j]) ↔ i ∈ j :: todo ++ kept := by
            intro i; simp only [List.mem_append, List.mem_cons, List.not_mem_nil, or_false]; tauto
          refine ⟨a1, ?_, fun i hi => a3 i ((hperm i).mp hi), fun i hi hi' => a4 i hi (fun hc => hi' ((hperm i).mpr hc)), ?_⟩
          · rw [← List.append_assoc]
            rw [List.nodup_append]
            refine ⟨hnd, by simp, ?_⟩
            intro a ha b hb
            rw [List.mem_singleton] at hb
            subst hb
            rintro rfl
            exact hjn ha
          · intro i c
            rw [a5 i c, hperm i]
        · intro errors' hm'; cases hm'
    · cases hs
  | turn =>
    simp only [MultiSignal.step] at hs
    split at hs
    · rename_i errors hm
      cases hs
      obtain ⟨a1, a2, a3, a4, a5⟩ := h.poll _ _ _ hm
      refine ⟨h.le, h.started, h.fresh, ?_, ?_⟩
      · intro _ _ _ hm'; cases hm'
      · intro errors' hm'
        injection hm' with f1
        subst f1
        exact ⟨a1, fun i hi => a4 i hi (by simp), a5⟩
    · rename_i i kept errors hm
      cases hs
      obtain ⟨a1, a2, a3, a4, a5⟩ := h.poll _ _ _ hm
      refine ⟨h.le, h.started, h.fresh, ?_, ?_⟩
      · intro todo' kept' errors' hm'
        injection hm' with f1 f2 f3
        subst f1 f2 f3
        simp only [List.nil_append, List.append_nil] at a2 a3 a4 a5 ⊢
        exact ⟨a1, a2, a3, a4, a5⟩
      · intro errors' hm'; cases hm'
    · cases hs
  | ready j =>
    simp only [MultiSignal.step] at hs
    split at hs
    · rename_i hj
      cases hs
      exact h.replace (j := j) (by rw [hj]; simp) (by rw [hj]; simp) (p := .ready false) (by simp) (by simp) rfl rfl rfl
    · cases hs
  | finish j c =>
    simp only [MultiSignal.step] at hs
    split at hs
    · rename_i hj
      cases hs
      exact h.replace (j := j) (by rw [hj]; simp) (by rw [hj]; simp) (p := .ended c) (by simp) (by simp) rfl rfl rfl
    · rename_i t hj
      cases hs
      exact h.replace (j := j) (by rw [hj]; simp) (by rw [hj]; simp) (p := .ended c) (by simp) (by simp) rfl rfl rfl
    · cases hs
  | signal reused =>
    obtain ⟨h1, h2, h3, _, _, _⟩ := killAll_spec reused (List.range s.listed) s
    simp only [MultiSignal.step] at hs
    split_ifs at hs
    split at hs
    · rename_i s1 hk
      cases hs
      rw [hk] at h1 h2 h3
      simp only at h1 h2 h3
      exact h.keep h2 (.inl h3) (fun i c => by rw [h1]) (fun i => by rw [h1])
    · rename_i s1 hk
      cases hs
      rw [hk] at h1 h2 h3
      simp only at h1 h2 h3
      exact h.keep h2 (.inr rfl) (fun i c => by show _ ↔ s1.procs i = _; rw [h1]) (fun i => by show _ ↔ s1.procs i = _; rw [h1])
  | deliver j reused =>
    simp only [MultiSignal.step] at hs
    split_ifs at hs with hpe
    split at hs
    · rename_i t hj
      have hj' : s.procs j = .ready t := hj
      cases hs
      exact h.replace (j := j) (by rw [hj']; simp) (by rw [hj']; simp) (p := .ready true) (by simp) (by simp) rfl rfl rfl
    · rename_i hj
      have hj' : s.procs j = .young := hj
      cases hs
      exact h.replace (j := j) (by rw [hj']; simp) (by rw [hj']; simp) (p := .ended (-12)) (by simp) (by simp) rfl rfl rfl
    · rename_i hj
      have hj' : s.procs j = .young := hj
      obtain ⟨h1, h2, h3, _, _, _⟩ := killAll_spec reused (List.range j) { s with pending := Function.update s.pending j false }
      split at hs
      · rename_i s1 hk
        cases hs
        rw [hk] at h1 h2 h3
        simp only at h1 h2 h3
        exact h.keep h2 (.inl h3) (fun i c => by rw [h1]) (fun i => by rw [h1])
      · rename_i s1 hk
        cases hs
        rw [hk] at h1 h2 h3
        simp only at h1 h2 h3
        exact h.replace (j := j) (by rw [hj']; simp) (by rw [hj']; simp) (p := .ended 1) (by simp) (by simp) h2 h3
          (by simp only [setProc]; rw [h1])
    · cases hs
      exact h.keep rfl (.inl rfl) (fun i c => Iff.rfl) (fun i => Iff.rfl)

theorem MultiSignal.Ok.run {k : Kind} {n : Nat} {s s' : State} {ls : List Label} (hr : Run k n s ls s') (h : Ok n s) : Ok n s' := by
  induction hr with
  | nil => exact h
  | cons h1 _ ih => exact ih (h.step h1)

/-! ## C112 -/

/-- **C112, the signal reaches all the processes.**  If the main process receives the signal while it waits for the
processes, when they have all installed their handler and when none of them has been found ended yet, there is no
exception, no other process receives a signal, and every process has ended or is told to stop, from this moment until its
end, whatever happens next.  Missing: the other moments, for which it is false (`C112_late_fails`, `C112_early_fails`,
`C112_young_spawn_fails`, `C112_young_fork_fails`). -/
theorem C112_reaches_partial (k : Kind) (n : Nat) (ls : List Label) (s s1 : State) (hrun : Run k n MultiSignal.init ls s)
    (hm : ∃ todo kept errors, s.main = .polling todo kept errors) (hy : ∀ i < n, s.procs i ≠ .young)
    (hno : ∀ i < n, ¬ IsReaped s i) (reused : Nat → Bool) (hs : step k n (.signal reused) s = some s1) :
    s1.main = s.main ∧ s1.strangers = s.strangers ∧
    ∀ ls' s', Run k n s1 ls' s' → ∀ i < n, IsTold s' i ∨ HasEnded (s'.procs i) := by
  have hok := (MultiSignal.Ok.init n).run hrun
  obtain ⟨todo, kept, errors, hm⟩ := hm
  have hl : s.listed = n := (hok.poll _ _ _ hm).1
  obtain ⟨h1, h2, h3, h4, h5, h6⟩ := killAll_spec reused (List.range s.listed) s
  obtain ⟨g1, g2, g3⟩ := h6 (by intro i hi; rw [hl] at hi; exact hno i (by simpa using hi))
  simp only [step] at hs
  split_ifs at hs
  split at hs
  · rename_i s2 hk
    cases hs
    rw [hk] at h1 h3 g2 g3
    refine ⟨h3, g2, ?_⟩
    intro ls' s' hr i hi
    apply told_run hr i
    have hns := hok.started i (by omega)
    simp only at h1 g3
    unfold IsTold
    rw [h1]
    cases hp : s.procs i with
    | notStarted => exact absurd hp hns
    | young => exact absurd hp (hy i hi)
    | ready t =>
      refine .inl ?_
      cases t
      · exact .inr ⟨rfl, g3 i (by rw [hl]; simpa using hi) (by rw [hp]; simp [HasEnded])⟩
      · exact .inl rfl
    | ended c => exact .inr trivial
    | reaped c => exact .inr trivial
  · rename_i s2 hk
    rw [hk] at g1
    cases g1

/-- **C112, the end.**  Whatever the signals, when `compute` returns all the processes have ended; the errors that it
reports (in a `RuntimeError` if there is one) are exactly those of the processes which have not ended with the code 0. -/
theorem C112_returned (k : Kind) (n : Nat) (ls : List Label) (s : State) (hrun : Run k n MultiSignal.init ls s)
    (errors : List (Nat × Int)) (hm : s.main = .returned errors) :
    (∀ i < n, HasEnded (s.procs i)) ∧ ∀ i c, (i, c) ∈ errors ↔ i < n ∧ s.procs i = .reaped c ∧ c ≠ 0 := by
  obtain ⟨_, h2, h3⟩ := ((MultiSignal.Ok.init n).run hrun).ret _ hm
  refine ⟨fun i hi => ?_, fun i c => ?_⟩
  · obtain ⟨c, hc⟩ := h2 i hi
    rw [hc]; trivial
  · rw [h3 i c]; simp

/-- The steps of the main process. -/
def OfMain : Label → Prop
  | .launch => True
  | .append => True
  | .startPolling => True
  | .poll => True
  | .turn => True
  | _ => False

/-- **C112, no deadlock.**  Whatever the signals, the main process can go on until `compute` has returned or raised. -/
theorem C112_no_deadlock (k : Kind) (n : Nat) (ls : List Label) (s : State) (hrun : Run k n MultiSignal.init ls s) :
    (∃ errors, s.main = .returned errors) ∨ s.main = .raised ∨ ∃ l s', OfMain l ∧ step k n l s = some s' := by
  have hok := (MultiSignal.Ok.init n).run hrun
  cases hm : s.main with
  | returned errors => exact .inl ⟨_, rfl⟩
  | raised => exact .inr (.inl rfl)
  | polling todo kept errors =>
    refine .inr (.inr ?_)
    cases todo with
    | nil =>
      cases kept with
      | nil => exact ⟨.turn, _, trivial, by simp only [step, hm]; rfl⟩
      | cons i kept => exact ⟨.turn, _, trivial, by simp only [step, hm]; rfl⟩
    | cons i todo =>
      refine ⟨.poll, ?_⟩
      simp only [step, hm]
      cases s.procs i <;> exact ⟨_, trivial, rfl⟩
  | starting =>
    refine .inr (.inr ?_)
    by_cases hp : s.procs s.listed = .notStarted
    · rcases Nat.lt_or_ge s.listed n with hl | hl
      · exact ⟨.launch, _, trivial, by simp only [step, hm, hp]; rw [if_pos hl]⟩
      · exact ⟨.startPolling, _, trivial, by simp only [step, hm]; rw [if_pos (by have := hok.le; omega)]⟩
    · refine ⟨.append, { s with listed := s.listed + 1 }, trivial, ?_⟩
      simp only [step, hm]

/-- The number of steps left to the main process when all the processes have ended. -/
def mainStepsLeft : Main → Nat
  | .polling todo kept _ => todo.length + 2 * kept.length + 1
  | _ => 0

/-- **C112, `compute` returns.**  When all the processes have ended, the main process makes a bounded number of steps before
it returns. -/
theorem C112_ends (k : Kind) (n : Nat) (ls : List Label) (s : State) (hrun : Run k n MultiSignal.init ls s)
    (hm : ∃ todo kept errors, s.main = .polling todo kept errors) (hend : ∀ i < n, HasEnded (s.procs i)) :
    ∀ (ls' : List Label) (s' : State), Run k n s ls' s' → (∀ l ∈ ls', OfMain l) → ls'.length ≤ 2 * n + 1 := by
  have hok := (MultiSignal.Ok.init n).run hrun
  have key : ∀ (ls' : List Label) (s s' : State), Run k n s ls' s' → Ok n s → s.main ≠ .starting → (∀ i < n, HasEnded (s.procs i)) →
      (∀ l ∈ ls', OfMain l) → ls'.length ≤ mainStepsLeft s.main := by
    intro ls'
    induction ls' with
    | nil => intros; simp
    | cons l ls' ih =>
      intro s s' hr hok hns hend hl
      cases hr with
      | @cons _ s1 _ _ _ h1 hr =>
        have hend1 : ∀ i < n, HasEnded (s1.procs i) := by
          intro i hi
          have := hend i hi
          obtain ⟨a1, a2, _⟩ := step_proc h1 i
          cases hp : s.procs i with
          | ended c => rcases a2 c hp with h3 | h3 <;> rw [h3] <;> trivial
          | reaped c => rw [a1 c hp]; trivial
          | _ => rw [hp] at this; cases this
        have hlt : mainStepsLeft s1.main < mainStepsLeft s.main ∧ s1.main ≠ .starting := by
          cases l with
          | launch =>
            simp only [step] at h1
            split at h1
            · rename_i h2 _; exact absurd h2 hns
            · cases h1
          | append =>
            simp only [step] at h1
            split at h1
            · cases h1
            · rename_i h2 _; exact absurd h2 hns
            · cases h1
          | startPolling =>
            cases hm : s.main with
            | starting => exact absurd hm hns
            | _ => simp only [step, hm] at h1; cases h1
          | poll =>
            simp only [step] at h1
            split at h1
            · rename_i j todo kept errors hm
              have hj := hend j ((hok.poll _ _ _ hm).2.2.1 j (by simp))
              rw [hm]
              split at h1
              · cases h1; simp [mainStepsLeft]
              · cases h1; simp [mainStepsLeft]
              · rename_i x1 x2
                cases hp : s.procs j with
                | ended c => exact absurd hp (x1 c)
                | reaped c => exact absurd hp (x2 c)
                | _ => rw [hp] at hj; cases hj
            · cases h1
          | turn =>
            simp only [step] at h1
            split at h1
            · rename_i hm; cases h1; rw [hm]; simp [mainStepsLeft]
            · rename_i hm; cases h1; rw [hm]; simp only [mainStepsLeft, List.length_cons, List.length_nil]; exact ⟨by omega, by simp⟩
            · cases h1
          | _ => exact absurd (hl _ List.mem_cons_self) (by simp [OfMain])
        have := ih s1 s' hr (hok.step h1) hlt.2 hend1 (fun l h => hl l (List.mem_cons_of_mem _ h))
        simp only [List.length_cons]
        omega
  intro ls' s' hr hl
  obtain ⟨todo, kept, errors, hm⟩ := hm
  have h1 := key ls' s s' hr hok (by rw [hm]; simp) hend hl
  obtain ⟨_, a2, a3, _⟩ := hok.poll _ _ _ hm
  have hlen : (todo ++ kept).length ≤ n := by
    have hsub : (todo ++ kept) ⊆ List.range n := fun i hi => by simpa using a3 i hi
    have := (List.Nodup.subperm a2 hsub).length_le
    simpa using this
  rw [hm] at h1
  simp only [mainStepsLeft] at h1
  rw [List.length_append] at hlen
  omega

/-! ## When the signal is not transmitted -/

/-- `os.kill` raises if and only if one of the processes has been collected and its pid has not been given to another
process; the processes from this one on receive nothing. -/
theorem killAll_raises (reused : Nat → Bool) : ∀ (is : List Nat) (s : State),
    ((killAll reused is s).2 = false ↔ ∃ i ∈ is, IsReaped s i ∧ reused i = false) ∧
    (is.Nodup → ∀ a i b, is = a ++ i :: b → IsReaped s i → reused i = false → ∀ j ∈ b, (killAll reused is s).1.pending j = s.pending j) := by
  intro is
  induction is with
  | nil => intro s; simp [killAll]
  | cons i is ih =>
    intro s
    unfold killAll
    have mid : ∀ s' : State, s'.procs = s.procs → ¬ (IsReaped s i ∧ reused i = false) →
        (∀ j, j ≠ i → s'.pending j = s.pending j) →
        ((killAll reused is s').2 = false ↔ ∃ j ∈ i :: is, IsReaped s j ∧ reused j = false) ∧
        ((i :: is).Nodup → ∀ a j b, i :: is = a ++ j :: b → IsReaped s j → reused j = false →
          ∀ m ∈ b, (killAll reused is s').1.pending m = s.pending m) := by
      intro s' e1 e2 e3
      have hR : ∀ j, IsReaped s' j ↔ IsReaped s j := by intro j; unfold IsReaped; rw [e1]
      obtain ⟨h1, h2⟩ := ih s'
      constructor
      · rw [h1]
        simp only [List.mem_cons, hR]
        constructor
        · rintro ⟨j, hj, h⟩; exact ⟨j, .inr hj, h⟩
        · rintro ⟨j, rfl | hj, h⟩
          · exact absurd h e2
          · exact ⟨j, hj, h⟩
      · intro hn a j b hab hr hre m hmb
        cases a with
        | nil =>
          rw [List.nil_append] at hab
          injection hab with g1 g2
          subst g1
          exact absurd ⟨hr, hre⟩ e2
        | cons x a =>
          rw [List.cons_append] at hab
          injection hab with g1 g2
          subst g1
          rw [h2 (List.nodup_cons.mp hn).2 a j b g2 ((hR j).mpr hr) hre m hmb]
          apply e3
          rintro rfl
          exact (List.nodup_cons.mp hn).1 (by rw [g2]; simp [hmb])
    cases hp : s.procs i with
    | reaped c =>
      simp only
      split_ifs with hre
      · exact mid _ rfl (by rintro ⟨_, h⟩; rw [hre] at h; cases h) (fun _ _ => rfl)
      · constructor
        · simp only [true_iff]
          exact ⟨i, List.mem_cons_self, ⟨c, hp⟩, by simpa using hre⟩
        · intros; rfl
    | ended c =>
      simp only
      exact mid s rfl (by rintro ⟨⟨c', h⟩, _⟩; rw [hp] at h; cases h) (fun _ _ => rfl)
    | notStarted =>
      simp only
      exact mid _ rfl (by rintro ⟨⟨c', h⟩, _⟩; rw [hp] at h; cases h) (fun j hj => by simp [update_eq, hj])
    | young =>
      simp only
      exact mid _ rfl (by rintro ⟨⟨c', h⟩, _⟩; rw [hp] at h; cases h) (fun j hj => by simp [update_eq, hj])
    | ready t =>
      simp only
      exact mid _ rfl (by rintro ⟨⟨c', h⟩, _⟩; rw [hp] at h; cases h) (fun j hj => by simp [update_eq, hj])

/-- **C112, when `compute` raises.**  The signal makes the main process raise an exception if and only if one of the
processes has already been found ended (and its pid is not used by another process). -/
theorem C112_raises_iff (k : Kind) (n : Nat) (s s1 : State) (reused : Nat → Bool) (hs : step k n (.signal reused) s = some s1) :
    s1.main = .raised ↔ ∃ i < s.listed, IsReaped s i ∧ reused i = false := by
  obtain ⟨h1, _⟩ := killAll_raises reused (List.range s.listed) s
  obtain ⟨_, _, h3, _⟩ := killAll_spec reused (List.range s.listed) s
  simp only [step] at hs
  split_ifs at hs with ha
  split at hs
  · rename_i s2 hk
    cases hs
    rw [hk] at h1 h3
    simp only [List.mem_range] at h1 h3
    rw [← h1, h3]
    constructor
    · intro h; rw [h] at ha; cases ha
    · intro h; cases h
  · rename_i s2 hk
    cases hs
    rw [hk] at h1
    simp only [List.mem_range, true_iff] at h1
    simp only [true_iff]
    exact h1

def IsSignal : Label → Prop
  | .signal _ => True
  | _ => False

/-- Without a signal, the processes to which no signal is sent are not told to stop. -/
theorem untold_run {k : Kind} {n : Nat} {s s' : State} {ls : List Label} (h : Run k n s ls s') (hp : ∀ i, s.pending i = false)
    (hl : ∀ l ∈ ls, ¬ IsSignal l) : (∀ i, s'.pending i = false) ∧ ∀ i, s'.procs i = .ready true → s.procs i = .ready true := by
  induction h with
  | nil => exact ⟨hp, fun _ h => h⟩
  | @cons s0 s1 s2 l ls h1 _ ih =>
    have one : (∀ i, s1.pending i = false) ∧ ∀ i, s1.procs i = .ready true → s0.procs i = .ready true := by
      cases l with
      | launch =>
        simp only [step] at h1
        split at h1
        · split_ifs at h1
          cases h1
          refine ⟨hp, fun i hi => ?_⟩
          simp only [setProc, update_eq] at hi
          split_ifs at hi
          cases k
          · simp only [reapEnded] at hi
            cases hq : s0.procs i <;> simp_all
          · exact hi
        · cases h1
      | append =>
        simp only [step] at h1
        split at h1 <;> cases h1 <;> exact ⟨hp, fun _ h => h⟩
      | startPolling =>
        simp only [step] at h1
        split at h1
        · split_ifs at h1; cases h1; exact ⟨hp, fun _ h => h⟩
        · cases h1
      | poll =>
        simp only [step] at h1
        split at h1
        · split at h1
          · cases h1
            refine ⟨hp, fun i hi => ?_⟩
            simp only [setProc, update_eq] at hi
            split_ifs at hi
            exact hi
          · cases h1; exact ⟨hp, fun _ h => h⟩
          · cases h1; exact ⟨hp, fun _ h => h⟩
        · cases h1
      | turn =>
        simp only [step] at h1
        split at h1 <;> cases h1 <;> exact ⟨hp, fun _ h => h⟩
      | ready j =>
        simp only [step] at h1
        split at h1
        · cases h1
          refine ⟨hp, fun i hi => ?_⟩
          simp only [setProc, update_eq] at hi
          split_ifs at hi
          · cases hi
          · exact hi
        · cases h1
      | finish j c =>
        simp only [step] at h1
        split at h1
        all_goals first
          | (cases h1; done)
          | (cases h1
             refine ⟨fun i => ?_, fun i hi => ?_⟩
             · simp only [setProc, update_eq]; split_ifs
               · rfl
               · exact hp i
             · simp only [setProc, update_eq] at hi
               split_ifs at hi
               exact hi)
      | signal r => exact absurd trivial (hl _ List.mem_cons_self)
      | deliver j r =>
        simp only [step, hp j] at h1
        cases h1
    obtain ⟨a, b⟩ := ih one.1 (fun l h => hl l (List.mem_cons_of_mem _ h))
    exact ⟨a, fun i hi => one.2 i (b i hi)⟩

/-- After an exception no signal is handled by the main process. -/
theorem raised_run {k : Kind} {n : Nat} {s s' : State} {ls : List Label} (h : Run k n s ls s') (hm : s.main = .raised) :
    s'.main = .raised ∧ ∀ l ∈ ls, ¬ IsSignal l := by
  induction h with
  | nil => exact ⟨hm, by simp⟩
  | @cons s0 s1 s2 l ls h1 _ ih =>
    have one : s1.main = .raised ∧ ¬ IsSignal l := by
      cases l with
      | ready j =>
        simp only [step] at h1
        split at h1 <;> cases h1
        exact ⟨hm, fun h => h⟩
      | finish j c =>
        simp only [step] at h1
        split at h1 <;> cases h1 <;> exact ⟨hm, fun h => h⟩
      | deliver j r =>
        refine ⟨?_, fun h => h⟩
        simp only [step] at h1
        split_ifs at h1
        split at h1
        · cases h1; exact hm
        · cases h1; exact hm
        · obtain ⟨_, _, h3, _⟩ := killAll_spec r (List.range j) { s0 with pending := Function.update s0.pending j false }
          split at h1
          · rename_i hk
            cases h1
            rw [hk] at h3
            exact h3.trans hm
          · rename_i hk
            cases h1
            rw [hk] at h3
            exact h3.trans hm
        · cases h1; exact hm
      | _ => simp [step, hm, Main.alive] at h1
    obtain ⟨a, b⟩ := ih one.1
    refine ⟨a, ?_⟩
    intro l' hl'
    rcases List.mem_cons.mp hl' with rfl | hl'
    · exact one.2
    · exact b l' hl'

/-- **C112 fails after the end of a process.**  With two processes: if the signal is received when the first one has been
found ended, the handler raises an exception, so does `compute`, and the second process is never told to stop. -/
theorem C112_late_fails (k : Kind) : ∃ ls s, Run k 2 MultiSignal.init ls s ∧ s.procs 1 = .ready false ∧
    ∃ s1, step k 2 (.signal fun _ => false) s = some s1 ∧ s1.main = .raised ∧
      ∀ ls' s', Run k 2 s1 ls' s' → ¬ IsTold s' 1 := by
  refine ⟨[.launch, .append, .ready 0, .launch, .append, .ready 1, .startPolling, .finish 0 0, .poll], ?_⟩
  cases k
  all_goals
    refine ⟨_, .cons rfl (.cons rfl (.cons rfl (.cons rfl (.cons rfl (.cons rfl (.cons rfl (.cons rfl (.cons rfl (.nil _))))))))), rfl,
      _, rfl, rfl, ?_⟩
    intro ls' s' hr ht
    obtain ⟨h1, h2⟩ := untold_run hr (by intro i; match i with
      | 0 => rfl
      | 1 => rfl
      | i + 2 => rfl) (raised_run hr rfl).2
    rcases ht with ht | ⟨_, ht⟩
    · exact absurd (h2 1 ht) (by simp [setProc, update_eq])
    · rw [h1 1] at ht; cases ht

/-- **C112 fails during the launch.**  The processes started after the signal are not told to stop: they do all their work
(unless another signal is received). -/
theorem C112_early_fails (k : Kind) : ∃ ls s, (∃ r, Label.signal r ∈ ls) ∧ Run k 2 MultiSignal.init ls s ∧
    s.procs 0 = .ready true ∧ s.procs 1 = .ready false ∧ s.main = .polling [0, 1] [] [] ∧
    ∀ ls' s', Run k 2 s ls' s' → (∀ l ∈ ls', ¬ IsSignal l) → ¬ IsTold s' 1 := by
  refine ⟨[.launch, .append, .ready 0, .signal fun _ => false, .deliver 0 fun _ => false, .launch, .append, .ready 1,
    .startPolling], ?_⟩
  cases k
  all_goals
    refine ⟨_, ⟨fun _ => false, by simp⟩,
      .cons rfl (.cons rfl (.cons rfl (.cons rfl (.cons rfl (.cons rfl (.cons rfl (.cons rfl (.cons rfl (.nil _))))))))), rfl, rfl,
      rfl, ?_⟩
    intro ls' s' hr hl ht
    obtain ⟨h1, h2⟩ := untold_run hr (by intro i; match i with
      | 0 => rfl
      | 1 => rfl
      | i + 2 => rfl) hl
    rcases ht with ht | ⟨_, ht⟩
    · exact absurd (h2 1 ht) (by simp [setProc, update_eq])
    · rw [h1 1] at ht; cases ht

/-- **C112 fails just after the launch (new interpreters).**  A process which receives the signal while it imports the
modules is killed, and `compute` reports an error. -/
theorem C112_young_spawn_fails : ∃ ls s, Run .spawn 1 MultiSignal.init ls s ∧ (∃ r, Label.signal r ∈ ls) ∧
    (∀ i c, Label.finish i c ∉ ls) ∧ s.main = .returned [(0, -12)] := by
  refine ⟨[.launch, .append, .startPolling, .signal fun _ => false, .deliver 0 fun _ => false, .poll, .turn], _,
    .cons rfl (.cons rfl (.cons rfl (.cons rfl (.cons rfl (.cons rfl (.cons rfl (.nil _))))))), ⟨fun _ => false, by simp⟩, by simp, rfl⟩

/-- **C112 fails just after the launch (fork).**  A process which receives the signal before the creation of its executor
runs the handler of the main process: the signal is lost, and the process does all its work. -/
theorem C112_young_fork_fails : ∃ ls s, Run .fork 1 MultiSignal.init ls s ∧ (∃ r, Label.signal r ∈ ls) ∧
    s.procs 0 = .ready false ∧ s.main = .polling [0] [] [] ∧
    ∀ ls' s', Run .fork 1 s ls' s' → (∀ l ∈ ls', ¬ IsSignal l) → ¬ IsTold s' 0 := by
  refine ⟨[.launch, .append, .startPolling, .signal fun _ => false, .deliver 0 fun _ => false, .ready 0], _,
    .cons rfl (.cons rfl (.cons rfl (.cons rfl (.cons rfl (.cons rfl (.nil _)))))), ⟨fun _ => false, by simp⟩, rfl, rfl, ?_⟩
  intro ls' s' hr hl ht
  obtain ⟨h1, h2⟩ := untold_run hr (by intro i; match i with
    | 0 => rfl
    | i + 1 => rfl) hl
  rcases ht with ht | ⟨_, ht⟩
  · exact absurd (h2 0 ht) (by simp [setProc, update_eq])
  · rw [h1 0] at ht; cases ht

/-- **C112 fails for other processes.**  If the pid of a process which has ended has been given by the system to another
process, this one receives the signal. -/
theorem C112_stranger_fails (k : Kind) : ∃ ls s, Run k 2 MultiSignal.init ls s ∧ s.strangers = 1 := by
  refine ⟨[.launch, .append, .ready 0, .launch, .append, .ready 1, .startPolling, .finish 0 0, .poll, .signal fun _ => true], ?_⟩
  cases k
  all_goals
    exact ⟨_, .cons rfl (.cons rfl (.cons rfl (.cons rfl (.cons rfl (.cons rfl (.cons rfl (.cons rfl (.cons rfl (.cons rfl
      (.nil _)))))))))), rfl⟩

/-- **C112 fails after the end.**  The handler stays installed: a signal received after `compute` has returned raises an
exception in the program of the user. -/
theorem C112_after_fails (k : Kind) : ∃ ls s, Run k 1 MultiSignal.init ls s ∧ s.main = .returned [] ∧
    ∃ s1, step k 1 (.signal fun _ => false) s = some s1 ∧ s1.main = .raised := by
  refine ⟨[.launch, .append, .ready 0, .startPolling, .finish 0 0, .poll, .turn], ?_⟩
  cases k
  all_goals
    exact ⟨_, .cons rfl (.cons rfl (.cons rfl (.cons rfl (.cons rfl (.cons rfl (.cons rfl (.nil _))))))), rfl, _, rfl, rfl⟩

/-! ## Non-vacuity -/

/-- The hypotheses of `C112_reaches_partial` are met by two processes, one of which has ended, and `compute` returns without
error after the signal. -/
example (k : Kind) : ∃ ls s, Run k 2 MultiSignal.init ls s ∧ s.main = .polling [1] [0] [] ∧ s.procs 0 = .ready false ∧
    s.procs 1 = .ended 0 ∧ ∃ ls' s', Run k 2 s (.signal (fun _ => false) :: ls') s' ∧ s'.main = .returned [] := by
  refine ⟨[.launch, .append, .ready 0, .launch, .append, .ready 1, .startPolling, .poll, .finish 1 0], ?_⟩
  cases k
  all_goals
    refine ⟨_, .cons rfl (.cons rfl (.cons rfl (.cons rfl (.cons rfl (.cons rfl (.cons rfl (.cons rfl (.cons rfl (.nil _))))))))), rfl,
      rfl, rfl, [.poll, .turn, .deliver 0 fun _ => false, .finish 0 0, .poll, .turn], _,
      .cons rfl (.cons rfl (.cons rfl (.cons rfl (.cons rfl (.cons rfl (.cons rfl (.nil _))))))), rfl⟩

end Verif
