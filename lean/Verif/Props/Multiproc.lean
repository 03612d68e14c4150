import Verif.Model.Multiproc
import Mathlib.Algebra.BigOperators.Group.List.Basic
import Mathlib.Tactic.Linarith

/-!
# C79: one item in a sub-process (`exec_async_multiproc`)
-/

namespace Verif
open Verif.Multiproc

namespace MultiprocLemmas
variable {ρ : Type} {res : ρ} {sendable : Bool}

/-- What holds in all the reachable states. -/
structure Inv (res : ρ) (s : State ρ) : Prop where
  pos : 0 < s.children.length
  le : s.children.length ≤ maxAttempts
  pipe : ∀ m ∈ s.pipe, m = res
  done : ∀ r, s.phase = .done r → r = res

theorem set_length {l : List Child} {i : Nat} {c : Child} : (l.set i c).length = l.length := List.length_set ..

theorem inv_init : Inv res (init ρ) :=
  ⟨by simp [init], by simp [init, maxAttempts], by simp [init], by simp [init]⟩

theorem inv_step {s s' : State ρ} {l : Label} (h : Inv res s) (hs : step res sendable s l = some s') : Inv res s' := by
  obtain ⟨hp, hl, hpi, hd⟩ := h
  cases l with
  | accept =>
    simp only [step] at hs
    split at hs <;> try contradiction
    split at hs <;> try contradiction
    injection hs with hs; subst hs
    exact ⟨hp, hl, hpi, by simp⟩
  | timeout =>
    simp only [step] at hs
    split at hs <;> try contradiction
    split at hs <;> try contradiction
    injection hs with hs; subst hs
    exact ⟨hp, hl, hpi, by simp⟩
  | terminate =>
    simp only [step] at hs
    split at hs <;> try contradiction
    split at hs
    · injection hs with hs; subst hs
      refine ⟨by simp, ?_, hpi, by simp⟩
      simp only [List.length_append, List.length_set, List.length_singleton]
      omega
    · injection hs with hs; subst hs
      exact ⟨by simpa using hp, by simpa using hl, hpi, by simp⟩
  | recv =>
    simp only [step] at hs
    split at hs <;> try contradiction
    rename_i m rest h1 h2
    injection hs with hs; subst hs
    have hm : m = res := hpi m (by rw [h2]; simp)
    refine ⟨hp, hl, fun x hx => hpi x (by rw [h2]; simp [hx]), ?_⟩
    intro r hr
    simp only [Phase.done.injEq] at hr
    rw [← hr, hm]
  | start i =>
    simp only [step] at hs
    split at hs <;> try contradiction
    injection hs with hs; subst hs
    exact ⟨by simpa using hp, by simpa using hl, hpi, hd⟩
  | call i =>
    simp only [step] at hs
    split at hs <;> try contradiction
    injection hs with hs; subst hs
    exact ⟨by simpa using hp, by simpa using hl, hpi, hd⟩
  | send i =>
    simp only [step] at hs
    split at hs <;> try contradiction
    split at hs
    · injection hs with hs; subst hs
      refine ⟨by simpa using hp, by simpa using hl, ?_, hd⟩
      intro m hm
      simp only [List.mem_append, List.mem_singleton] at hm
      rcases hm with hm | hm
      · exact hpi m hm
      · exact hm
    · injection hs with hs; subst hs
      exact ⟨by simpa using hp, by simpa using hl, hpi, hd⟩
  | die i =>
    simp only [step] at hs
    split at hs <;> try contradiction
    injection hs with hs; subst hs
    exact ⟨by simpa using hp, by simpa using hl, hpi, hd⟩

theorem inv_run {s : State ρ} {ls : List Label} (h : Run res sendable (init ρ) ls s) : Inv res s := by
  induction h with
  | nil => exact inv_init
  | snoc _ hs ih => exact inv_step ih hs

/-! ### Measure -/

/-- Number of actions a process can still do. -/
def cw : Child → Nat
  | .created => 4
  | .running => 3
  | .called => 2
  | .sent => 1
  | .dead => 0

/-- Weight of the state of the parent. -/
def pw : Phase ρ → Nat → Nat
  | .waiting, n => 6 * (maxAttempts - n) + 2
  | .timedOut, n => 6 * (maxAttempts - n) + 1
  | .receiving, _ => 1
  | .done _, _ => 0
  | .failed, _ => 0

def weight (s : State ρ) : Nat := pw s.phase s.children.length + (s.children.map cw).sum

theorem sum_set : ∀ (l : List Child) (i : Nat) (c d : Child), l[i]? = some c →
    ((l.set i d).map cw).sum + cw c = (l.map cw).sum + cw d
  | [], i, c, d, h => by simp at h
  | a :: l, 0, c, d, h => by
    simp only [List.getElem?_cons_zero, Option.some.injEq] at h
    subst h
    simp only [List.set_cons_zero, List.map_cons, List.sum_cons]
    omega
  | a :: l, i + 1, c, d, h => by
    have := sum_set l i c d (by simpa using h)
    simp only [List.set_cons_succ, List.map_cons, List.sum_cons]
    omega

theorem sum_set_dead (l : List Child) (i : Nat) : ((l.set i .dead).map cw).sum ≤ (l.map cw).sum := by
  cases h : l[i]? with
  | none =>
    rw [List.set_eq_of_length_le (by simpa using h)]
  | some c =>
    have := sum_set l i c .dead h
    simp only [cw] at this
    omega

theorem weight_step {s s' : State ρ} {l : Label} (hi : Inv res s) (hs : step res sendable s l = some s') :
    weight s' + 1 ≤ weight s := by
  have hl := hi.le
  cases l with
  | accept =>
    simp only [step] at hs
    split at hs <;> try contradiction
    rename_i hp
    split at hs <;> try contradiction
    injection hs with hs; subst hs
    simp only [weight, hp, pw]
    omega
  | timeout =>
    simp only [step] at hs
    split at hs <;> try contradiction
    rename_i hp
    split at hs <;> try contradiction
    injection hs with hs; subst hs
    simp only [weight, hp, pw]
    omega
  | terminate =>
    simp only [step] at hs
    split at hs <;> try contradiction
    rename_i hp
    have hd := sum_set_dead s.children (s.children.length - 1)
    split at hs
    · injection hs with hs; subst hs
      simp only [weight, hp, pw, List.map_append, List.sum_append, List.length_append, List.length_set, List.map_cons,
        List.map_nil, List.sum_cons, List.sum_nil, cw, List.length_singleton]
      omega
    · injection hs with hs; subst hs
      simp only [weight, hp, pw]
      omega
  | recv =>
    simp only [step] at hs
    split at hs <;> try contradiction
    rename_i hp _
    injection hs with hs; subst hs
    simp only [weight, hp, pw]
    omega
  | start i =>
    simp only [step] at hs
    split at hs <;> try contradiction
    rename_i hc
    injection hs with hs; subst hs
    have := sum_set _ _ _ .running hc
    simp only [weight, List.length_set, cw] at this ⊢
    omega
  | call i =>
    simp only [step] at hs
    split at hs <;> try contradiction
    rename_i hc
    injection hs with hs; subst hs
    have := sum_set _ _ _ .called hc
    simp only [weight, List.length_set, cw] at this ⊢
    omega
  | send i =>
    simp only [step] at hs
    split at hs <;> try contradiction
    rename_i hc
    split at hs
    · injection hs with hs; subst hs
      have := sum_set _ _ _ .sent hc
      simp only [weight, List.length_set, cw] at this ⊢
      omega
    · injection hs with hs; subst hs
      have := sum_set _ _ _ .dead hc
      simp only [weight, List.length_set, cw] at this ⊢
      omega
  | die i =>
    simp only [step] at hs
    split at hs <;> try contradiction
    rename_i c hne hc
    injection hs with hs; subst hs
    have := sum_set _ _ _ .dead hc
    have h1 : 1 ≤ cw c := by
      cases c <;> simp_all [cw]
    have h0 : cw .dead = 0 := rfl
    simp only [weight, List.length_set]
    omega

theorem weight_run {s : State ρ} {ls : List Label} (h : Run res sendable (init ρ) ls s) : weight s + ls.length ≤ 60 := by
  induction h with
  | nil => simp [weight, init, pw, maxAttempts, cw]
  | snoc hr hs ih =>
    have := weight_step (inv_run hr) hs
    simp only [List.length_append, List.length_singleton]
    omega

/-! ### The process of the current attempt -/

/-- Without death of a process: while the parent has not given up, the process of the current attempt is alive, and if it has sent
its message, it is in the pipe or received. -/
structure Alive (s : State ρ) : Prop where
  waiting : s.phase = .waiting ∨ s.phase = .receiving →
    ∃ c, s.children[s.children.length - 1]? = some c ∧ c ≠ .dead ∧ (c = .sent → s.pipe ≠ [])

theorem get_set_ne {l : List Child} {i j : Nat} {c d : Child} (hij : i ≠ j) :
    (l.set i c)[j]? = some d ↔ l[j]? = some d := by
  rw [List.getElem?_set_ne hij]

theorem alive_child {s : State ρ} (hi : Inv res s) (ha : Alive s) (i : Nat) (c d : Child) (hc : s.children[i]? = some c)
    (hd : d ≠ .dead) (pipe' : List ρ) (ev : Bool) (n : Nat) (hp : s.pipe ≠ [] → pipe' ≠ []) (hs : d = .sent → pipe' ≠ []) :
    Alive { s with children := s.children.set i d, pipe := pipe', event := ev, calls := n } := by
  constructor
  intro h
  obtain ⟨c', h1, h2, h3⟩ := ha.waiting h
  simp only [List.length_set]
  have hlt : i < s.children.length := by
    rw [List.getElem?_eq_some_iff] at hc
    exact hc.1
  by_cases e : i = s.children.length - 1
  · refine ⟨d, ?_, hd, hs⟩
    rw [← e, List.getElem?_set_self hlt]
  · refine ⟨c', ?_, h2, fun h => hp (h3 h)⟩
    rw [List.getElem?_set_ne e]
    exact h1

theorem alive_step {s s' : State ρ} {l : Label} (hi : Inv res s) (ha : Alive s) (hl : ∀ i, l ≠ .die i)
    (hs : step res true s l = some s') : Alive s' := by
  cases l with
  | accept =>
    simp only [step] at hs
    split at hs <;> try contradiction
    rename_i hp
    split at hs <;> try contradiction
    injection hs with hs; subst hs
    exact ⟨fun _ => ha.waiting (Or.inl hp)⟩
  | timeout =>
    simp only [step] at hs
    split at hs <;> try contradiction
    split at hs <;> try contradiction
    injection hs with hs; subst hs
    exact ⟨by simp⟩
  | terminate =>
    simp only [step] at hs
    split at hs <;> try contradiction
    split at hs
    · injection hs with hs; subst hs
      constructor
      intro _
      refine ⟨.created, ?_, by simp, by simp⟩
      simp
    · injection hs with hs; subst hs
      exact ⟨by simp⟩
  | recv =>
    simp only [step] at hs
    split at hs <;> try contradiction
    injection hs with hs; subst hs
    exact ⟨by simp⟩
  | start i =>
    simp only [step] at hs
    split at hs <;> try contradiction
    rename_i hc
    injection hs with hs; subst hs
    exact alive_child hi ha i _ _ hc (by simp) s.pipe _ _ id (by simp)
  | call i =>
    simp only [step] at hs
    split at hs <;> try contradiction
    rename_i hc
    injection hs with hs; subst hs
    exact alive_child hi ha i _ _ hc (by simp) s.pipe _ _ id (by simp)
  | send i =>
    simp only [step] at hs
    split at hs <;> try contradiction
    rename_i hc
    simp only [if_true, Option.some.injEq] at hs
    subst hs
    exact alive_child hi ha i _ _ hc (by simp) _ _ _ (by simp) (by simp)
  | die i => exact absurd rfl (hl i)

theorem alive_run {s : State ρ} {ls : List Label} (h : Run res true (init ρ) ls s) (hl : ∀ i, Label.die i ∉ ls) : Alive s := by
  induction h with
  | nil => exact ⟨fun _ => ⟨.created, by simp [init], by simp, by simp⟩⟩
  | snoc hr hs ih =>
    exact alive_step (inv_run hr) (ih (fun i hi => hl i (by simp [hi]))) (fun i hi => hl i (by simp [hi])) hs

end MultiprocLemmas

open MultiprocLemmas

variable {ρ : Type}

/-- **C79** (result).  Whatever the times, the deaths of processes and the number of attempts, if a result is received, it is what
the function gives for the item. -/
theorem C79_result (res : ρ) (sendable : Bool) (ls : List Label) (s : State ρ) (h : Run res sendable (init ρ) ls s) (r : ρ)
    (hr : s.phase = .done r) : r = res := (inv_run h).done r hr

/-- **C79** (bounds).  At most 10 processes are started for an item, and the parent and the processes do at most 60 actions, without any
hypothesis on the scheduling. -/
theorem C79_bounded (res : ρ) (sendable : Bool) (ls : List Label) (s : State ρ) (h : Run res sendable (init ρ) ls s) :
    s.children.length ≤ 10 ∧ ls.length ≤ 60 :=
  ⟨(inv_run h).le, by have := weight_run h; omega⟩

/-- **C79** (end, proved part).  If no process dies and the result can be sent, the item ends: an execution which cannot be continued has
received the result, or has given up after 10 attempts.  (By `C79_bounded` all executions end.)  Missing: death of the
process, result which cannot be sent; then it is false. -/
theorem C79_ends_partial (res : ρ) (ls : List Label) (s : State ρ) (h : Run res true (init ρ) ls s)
    (hdie : ∀ i, Label.die i ∉ ls) (hmax : ∀ l, (∀ i, l ≠ .die i) → step res true s l = none) :
    s.phase = .done res ∨ s.phase = .failed := by
  have hi := inv_run h
  have ha := alive_run h hdie
  cases hp : s.phase with
  | waiting =>
    exfalso
    cases he : s.event with
    | true => have := hmax .accept (by simp); simp [step, hp, he] at this
    | false => have := hmax .timeout (by simp); simp [step, hp, he] at this
  | timedOut =>
    exfalso
    have := hmax .terminate (by simp)
    simp only [step, hp] at this
    split at this <;> contradiction
  | receiving =>
    exfalso
    obtain ⟨c, h1, h2, h3⟩ := ha.waiting (Or.inr hp)
    cases c with
    | created => have := hmax (.start (s.children.length - 1)) (by simp); simp [step, h1] at this
    | running => have := hmax (.call (s.children.length - 1)) (by simp); simp [step, h1] at this
    | called => have := hmax (.send (s.children.length - 1)) (by simp); simp [step, h1] at this
    | sent =>
      have := hmax .recv (by simp)
      cases hpi : s.pipe with
      | nil => exact h3 rfl hpi
      | cons m rest => simp [step, hp, hpi] at this
    | dead => exact h2 rfl
  | done r => left; rw [hi.done r hp]
  | failed => right; rfl

/-! ### Number of calls -/

/-- **C79** (once, proved part).  If the process starts within one second (no timeout), there is one process, the function is executed at
most once, and exactly once when a result is received.  Missing: slow starts, for which it is false. -/
theorem C79_once_partial (res : ρ) (sendable : Bool) (ls : List Label) (s : State ρ) (h : Run res sendable (init ρ) ls s)
    (ht : Label.timeout ∉ ls) : s.children.length = 1 ∧ s.calls ≤ 1 ∧ (∀ r, s.phase = .done r → s.calls = 1) := by
  have key : (∃ c, s.children = [c] ∧ (c = .created ∨ c = .running → s.calls = 0 ∧ s.pipe = []) ∧
      (c = .called ∨ c = .sent → s.calls = 1)) ∧
      s.calls ≤ 1 ∧ s.phase ≠ .timedOut ∧ (s.pipe ≠ [] ∨ (∃ r, s.phase = .done r) → s.calls = 1) := by
    induction h with
    | nil => simp [init]
    | @snoc s1 s2 ls l hr hs ih =>
      obtain ⟨⟨c, h1, h2, h3⟩, h4, h5, h6⟩ := ih (fun hm => ht (by simp [hm]))
      cases l with
      | accept =>
        simp only [step] at hs
        split at hs <;> try contradiction
        rename_i hp
        split at hs <;> try contradiction
        injection hs with hs; subst hs
        refine ⟨⟨c, h1, h2, h3⟩, h4, by simp, ?_⟩
        rintro (h | ⟨r, h⟩)
        · exact h6 (Or.inl h)
        · cases h
      | timeout => exact absurd (by simp) ht
      | terminate =>
        simp only [step] at hs
        cases hs
      | recv =>
        simp only [step] at hs
        split at hs <;> try contradiction
        rename_i m rest hp hpi
        injection hs with hs; subst hs
        have := h6 (Or.inl (by rw [hpi]; simp))
        refine ⟨⟨c, h1, ?_, h3⟩, h4, by simp, fun _ => this⟩
        intro hc
        have := (h2 hc).2
        rw [hpi] at this
        cases this
      | start i =>
        simp only [step] at hs
        split at hs <;> try contradiction
        rename_i hc
        injection hs with hs; subst hs
        rw [h1] at hc
        cases i with
        | succ i => simp at hc
        | zero =>
          simp only [List.getElem?_cons_zero, Option.some.injEq] at hc
          refine ⟨⟨.running, by simp [h1], fun _ => h2 (Or.inl hc), by simp⟩, h4, h5, h6⟩
      | call i =>
        simp only [step] at hs
        split at hs <;> try contradiction
        rename_i hc
        injection hs with hs; subst hs
        rw [h1] at hc
        cases i with
        | succ i => simp at hc
        | zero =>
          simp only [List.getElem?_cons_zero, Option.some.injEq] at hc
          have := (h2 (Or.inr hc)).1
          refine ⟨⟨.called, by simp [h1], by simp, fun _ => by simp [this]⟩, by simp [this], h5, fun _ => by simp [this]⟩
      | send i =>
        simp only [step] at hs
        split at hs <;> try contradiction
        rename_i hc
        rw [h1] at hc
        cases i with
        | succ i => simp at hc
        | zero =>
          simp only [List.getElem?_cons_zero, Option.some.injEq] at hc
          have := h3 (Or.inl hc)
          split at hs
          · injection hs with hs; subst hs
            exact ⟨⟨.sent, by simp [h1], by simp, fun _ => this⟩, h4, h5, fun _ => this⟩
          · injection hs with hs; subst hs
            exact ⟨⟨.dead, by simp [h1], by simp, by simp⟩, h4, h5, h6⟩
      | die i =>
        simp only [step] at hs
        split at hs <;> try contradiction
        rename_i c' hne hc
        injection hs with hs; subst hs
        rw [h1] at hc
        cases i with
        | succ i => simp at hc
        | zero => exact ⟨⟨.dead, by simp [h1], by simp, by simp⟩, h4, h5, h6⟩
  obtain ⟨⟨c, h1, -, -⟩, h4, -, h6⟩ := key
  exact ⟨by rw [h1]; rfl, h4, fun r hr => h6 (Or.inr ⟨r, hr⟩)⟩

/-- **C79** fails for slow starts: the process of the first attempt starts just after the second, executes the function before it is
terminated, and the process of the second attempt executes it again; the item ends normally. -/
theorem C79_twice_fails (res : ρ) : ∃ s, Run res true (init ρ)
    [.timeout, .start 0, .call 0, .send 0, .terminate, .accept, .start 1, .call 1, .recv] s ∧ s.phase = .done res ∧
      s.calls = 2 := by
  refine ⟨_, .snoc (.snoc (.snoc (.snoc (.snoc (.snoc (.snoc (.snoc (.snoc (.nil _) rfl) rfl) rfl) rfl) rfl) rfl) rfl) rfl)
    rfl, rfl, rfl⟩

/-! ### Death of the process -/

/-- **C79** fails when the process dies before it sends its result (lack of memory, ...): the parent waits forever. -/
theorem C79_death_fails (res : ρ) (sendable : Bool) : ∃ s, Run res sendable (init ρ) [.start 0, .accept, .die 0] s ∧
    s.phase = .receiving ∧ ∀ l, step res sendable s l = none := by
  refine ⟨_, .snoc (.snoc (.snoc (.nil _) rfl) rfl) rfl, rfl, ?_⟩
  intro l
  cases l with
  | accept => rfl
  | timeout => rfl
  | terminate => rfl
  | recv => rfl
  | start i => cases i <;> rfl
  | call i => cases i <;> rfl
  | send i => cases i <;> rfl
  | die i => cases i <;> rfl

/-- **C79** fails when the result cannot be sent: no execution receives a result, the item never ends unless 10 starts are slow. -/
theorem C79_not_sendable_fails (res : ρ) (ls : List Label) (s : State ρ) (h : Run res false (init ρ) ls s) :
    ∀ r, s.phase ≠ .done r := by
  have key : s.pipe = [] ∧ ∀ r, s.phase ≠ .done r := by
    induction h with
    | nil => simp [init]
    | @snoc s1 s2 ls l hr hs ih =>
      obtain ⟨h1, h2⟩ := ih
      cases l with
      | accept =>
        simp only [step] at hs
        split at hs <;> try contradiction
        split at hs <;> try contradiction
        injection hs with hs; subst hs
        exact ⟨h1, by simp⟩
      | timeout =>
        simp only [step] at hs
        split at hs <;> try contradiction
        split at hs <;> try contradiction
        injection hs with hs; subst hs
        exact ⟨h1, by simp⟩
      | terminate =>
        simp only [step] at hs
        split at hs <;> try contradiction
        split at hs
        · injection hs with hs; subst hs
          exact ⟨h1, by simp⟩
        · injection hs with hs; subst hs
          exact ⟨h1, by simp⟩
      | recv =>
        simp only [step, h1] at hs
        split at hs <;> try contradiction
      | start i =>
        simp only [step] at hs
        split at hs <;> try contradiction
        injection hs with hs; subst hs
        exact ⟨h1, h2⟩
      | call i =>
        simp only [step] at hs
        split at hs <;> try contradiction
        injection hs with hs; subst hs
        exact ⟨h1, h2⟩
      | send i =>
        simp only [step] at hs
        split at hs <;> try contradiction
        split at hs <;> try contradiction
        injection hs with hs; subst hs
        exact ⟨h1, h2⟩
      | die i =>
        simp only [step] at hs
        split at hs <;> try contradiction
        injection hs with hs; subst hs
        exact ⟨h1, h2⟩
  exact key.2

/-! ### After the process -/

/-- **C79** (errors).  An item whose function raises an exception is stored like the others, as that exception, unless `stop_if_error`
is given; then the exception leaves `compute`. -/
theorem C79_after {ε α : Type} (r : Except ε α) (stopIfError : Bool) :
    (∀ v, r = .ok v → after stopIfError (.done r) = some (.put (.ok v))) ∧
    (∀ e, r = .error e → after false (.done r) = some (.put (.error e)) ∧ after true (.done r) = some (.raised e)) := by
  constructor
  · rintro v rfl; rfl
  · rintro e rfl; exact ⟨rfl, rfl⟩

/-- **C79** fails when the process cannot be started: it is an execution in which 10 starts are slow, and the error leaves `compute`
even without `stop_if_error`. -/
theorem C79_not_started_fails {ε α : Type} (res : Except ε α) : ∃ s, Run res true (init (Except ε α))
    ((List.replicate 10 [Label.timeout, Label.terminate]).flatten) s ∧ after false s.phase = some .runtimeError := by
  have h : ∀ (n : Nat), n ≤ 9 → Run res true (init (Except ε α)) ((List.replicate n [Label.timeout, Label.terminate]).flatten)
      ⟨.waiting, List.replicate n .dead ++ [.created], false, [], 0⟩ := by
    intro n hn
    induction n with
    | zero => exact .nil _
    | succ n ih =>
      rw [List.replicate_succ', List.flatten_append]
      have h1 := ih (by omega)
      have h2 : Run res true (init (Except ε α)) (((List.replicate n [Label.timeout, Label.terminate]).flatten ++ [.timeout]) ++
          [.terminate]) ⟨.waiting, List.replicate (n + 1) .dead ++ [.created], false, [], 0⟩ := by
        refine .snoc (.snoc h1 rfl) ?_
        have hl : (List.replicate n Child.dead ++ [Child.created]).length < maxAttempts := by
          simp only [List.length_append, List.length_replicate, List.length_singleton, maxAttempts]
          omega
        simp only [step]
        rw [if_pos hl]
        simp [List.replicate_succ']
      simpa using h2
  have h9 := h 9 (by omega)
  rw [List.replicate_succ', List.flatten_append]
  refine ⟨⟨.failed, List.replicate 10 .dead, false, [], 0⟩, ?_, ?_⟩
  · have h2 : Run res true (init (Except ε α)) (((List.replicate 9 [Label.timeout, Label.terminate]).flatten ++ [.timeout]) ++
        [.terminate]) ⟨.failed, List.replicate 10 .dead, false, [], 0⟩ := by
      refine .snoc (.snoc h9 rfl) rfl
    simpa using h2
  · rfl

/-- The normal execution. -/
example : ∃ s, Run (5 : Nat) true (init Nat) [.start 0, .accept, .call 0, .send 0, .recv] s ∧ s.phase = .done 5 ∧ s.calls = 1 :=
  ⟨_, .snoc (.snoc (.snoc (.snoc (.snoc (.nil _) rfl) rfl) rfl) rfl) rfl, rfl, rfl⟩

end Verif
