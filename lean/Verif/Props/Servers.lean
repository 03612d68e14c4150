import Verif.Model.Servers
import Mathlib.Data.List.Perm.Subperm

/-!
# Servers executor (C16)
-/

namespace Verif
open Verif.Servers

variable {κ : Type}

/-- Nothing can happen any more, apart from stop checks. -/
def ServersOver (n : Nat) (c : Exec.Cfg) (s : State κ) : Prop :=
  ∀ l s', step n c l s = some s' → s' = s ∨ l = .check

/-- C16 (full statement): when the stop flag is set, every item has been processed and saved. -/
def C16_statement : Prop :=
  ∀ (n : Nat) (c : Exec.Cfg) (items : List Nat) (ls : List Label) (s : State Nat), 0 < n →
    Run n c (init items) ls s → s.stop = true → s.saved.Perm items

/-- The steps leading to a lost item: the only item is popped, the stop check runs before the thread has marked the
worker as occupied, the launchers return; then the item is processed, but it is never saved. -/
def C16_labels : List Label :=
  [.pass, .choose 0, .begin 0, .check, .cpuExit, .ioExit, .send 0, .answer 0, .store 0]

/-- The state after a list of labels. -/
def serversAfter (n : Nat) (c : Exec.Cfg) : List Label → State κ → Option (State κ)
  | [], s => some s
  | l :: ls, s =>
    match step n c l s with
    | none => none
    | some s' => serversAfter n c ls s'

theorem serversAfter_run_aux {n : Nat} {c : Exec.Cfg} {s0 s s' : State κ} {ls0 ls : List Label} (h0 : Run n c s0 ls0 s)
    (h : serversAfter n c ls s = some s') : Run n c s0 (ls0 ++ ls) s' := by
  induction ls generalizing s ls0 with
  | nil => simp only [serversAfter, Option.some.injEq] at h; subst h; simpa using h0
  | cons l ls ih =>
    simp only [serversAfter] at h
    split at h
    · cases h
    · rename_i s1 h1
      simpa using ih (h0.snoc h1) h

theorem serversAfter_run {n : Nat} {c : Exec.Cfg} {s s' : State κ} {ls : List Label}
    (h : serversAfter n c ls s = some s') : Run n c s ls s' := by
  simpa using serversAfter_run_aux (.nil s) h

/-- C16 is false: an execution with one worker and one item in which the stop flag is set while the item is being
processed, and which ends with the item in the output queue of the CPU work, never saved, nothing being able to
happen any more. -/
theorem C16_item_lost : ∃ s : State Nat, Run 1 ⟨1, 8, false⟩ (init [7]) C16_labels s ∧ s.stop = true ∧
    s.saved = [] ∧ s.qout = [7] ∧ ServersOver 1 ⟨1, 8, false⟩ s := by
  cases h : serversAfter 1 ⟨1, 8, false⟩ C16_labels (init [7]) with
  | none =>
    exact absurd h (by simp [C16_labels, serversAfter, step, init, isBest, Exec.upd])
  | some s =>
    have hs : s = { init [7] with
        qin := [], qout := [7], available := s.available, unoccupied := s.unoccupied, nb := s.nb, tasks := [],
        chosen := [], stop := true, cpuOn := false, ioOn := false } := by
      simp [C16_labels, serversAfter, step, init, isBest, Exec.upd] at h
      rw [← h]; simp [init]
    refine ⟨s, serversAfter_run h, by rw [hs], by rw [hs]; rfl, by rw [hs], ?_⟩
    intro l s' hl
    rw [hs] at hl
    cases l <;> simp [step, init] at hl
    right; rfl

theorem C16_stops_early : ¬ C16_statement := by
  intro h
  obtain ⟨s, h1, h2, h3, _⟩ := C16_item_lost
  have := h 1 ⟨1, 8, false⟩ [7] _ s (by decide) h1 h2
  rw [h3] at this
  exact absurd this.length_eq (by decide)

/-! ## What holds -/

/-- Tasks of a worker whose job has been sent. -/
def sentIn (ts : List (Job κ)) (j : Nat) : Nat :=
  (ts.filter (fun t => decide (t.worker = j) && decide (t.phase ≠ .popped))).length

structure SrvInv (n : Nat) (items : List κ) (s : State κ) : Prop where
  all : (s.qin ++ s.tasks.map (·.key) ++ s.qout ++ s.saving ++ s.saved).Perm items
  nb : ∀ j, s.nb j = sentIn s.tasks j
  occ : ∀ j, s.unoccupied j = true ↔ sentIn s.tasks j = 0
  lt : (∀ t ∈ s.tasks, t.worker < n) ∧ (∀ j ∈ s.chosen, j < n)

theorem mem_set_cases {β : Type} {l : List β} {i : Nat} {x y : β} (h : y ∈ l.set i x) : y = x ∨ y ∈ l := by
  rcases List.mem_or_eq_of_mem_set h with h | h
  · exact Or.inr h
  · exact Or.inl h

theorem map_key_set {l : List (Job κ)} {i : Nat} {t : Job κ} (h : l[i]? = some t) (p : Phase) :
    (l.set i { t with phase := p }).map (·.key) = l.map (·.key) := by
  obtain ⟨hlt, hget⟩ := List.getElem?_eq_some_iff.1 h
  rw [List.map_set]
  have : (l.map (·.key))[i]'(by simpa using hlt) = t.key := by simp [hget]
  show (l.map (·.key)).set i t.key = _
  rw [← this, List.set_getElem_self]

theorem filter_set_length {β : Type} (p : β → Bool) {l : List β} {i : Nat} {t : β} (h : l[i]? = some t) (x : β) :
    ((l.set i x).filter p).length + (if p t then 1 else 0) = (l.filter p).length + (if p x then 1 else 0) := by
  induction l generalizing i with
  | nil => simp at h
  | cons a l ih =>
    cases i with
    | zero =>
      simp only [List.getElem?_cons_zero, Option.some.injEq] at h
      subst h
      simp only [List.set_cons_zero, List.filter_cons]
      split <;> split <;> simp
    | succ i =>
      simp only [List.getElem?_cons_succ] at h
      have := ih h
      simp only [List.set_cons_succ, List.filter_cons]
      by_cases hp : p a = true
      · simp only [hp, if_true, List.length_cons]; omega
      · simp only [hp, if_false]; simpa using this

theorem perm_eraseIdx {β : Type} {l : List β} {i : Nat} {t : β} (h : l[i]? = some t) :
    l.Perm (t :: l.eraseIdx i) := by
  obtain ⟨hlt, hget⟩ := List.getElem?_eq_some_iff.1 h
  have hsplit : l = l.take i ++ t :: l.drop (i + 1) := by
    rw [← hget, List.getElem_cons_drop, List.take_append_drop]
  rw [List.eraseIdx_eq_take_drop_succ]
  conv_lhs => rw [hsplit]
  exact List.perm_middle

theorem filter_eraseIdx_length {β : Type} (p : β → Bool) {l : List β} {i : Nat} {t : β} (h : l[i]? = some t) :
    ((l.eraseIdx i).filter p).length + (if p t then 1 else 0) = (l.filter p).length := by
  have h1 := ((perm_eraseIdx h).filter p).length_eq
  rw [h1, List.filter_cons]
  split <;> simp

theorem SrvInv.init (n : Nat) (items : List κ) : SrvInv n items (Servers.init items) where
  all := by simp [Servers.init]
  nb := by intro j; simp [Servers.init, sentIn]
  occ := by intro j; simp [Servers.init, sentIn]
  lt := by simp [Servers.init]

theorem SrvInv.step {n : Nat} {c : Exec.Cfg} {items : List κ} {l : Label} {s s' : State κ} (h : SrvInv n items s)
    (hs : Servers.step n c l s = some s') : SrvInv n items s' := by
  cases l with
  | pass =>
    simp only [Servers.step] at hs
    split at hs
    · cases hs; exact ⟨h.all, h.nb, h.occ, h.lt⟩
    · cases hs
  | choose j =>
    simp only [Servers.step] at hs
    split at hs
    · rename_i hc
      cases hs
      refine ⟨h.all, h.nb, h.occ, h.lt.1, ?_⟩
      intro j' hj'
      rcases List.mem_append.1 hj' with h1 | h1
      · exact h.lt.2 j' h1
      · rw [List.mem_singleton] at h1
        subst h1
        simp only [Bool.and_eq_true, isBest, decide_eq_true_eq] at hc
        exact hc.2.1.1
    · cases hs
  | begin i =>
    simp only [Servers.step] at hs
    split at hs
    · cases hs
    · rename_i j hj
      have hjn : j < n := h.lt.2 j (List.mem_of_getElem? hj)
      have hch : ∀ j' ∈ s.chosen.eraseIdx i, j' < n := fun j' hj' => h.lt.2 j' (List.mem_of_mem_eraseIdx hj')
      split at hs
      · cases hs
        exact ⟨h.all, h.nb, h.occ, h.lt.1, hch⟩
      · rename_i k rest hq
        cases hs
        have hsent : ∀ j', sentIn (s.tasks ++ [⟨j, k, .popped⟩]) j' = sentIn s.tasks j' := by
          intro j'; simp [sentIn, List.filter_append]
        refine ⟨?_, fun j' => by show s.nb j' = _; rw [hsent]; exact h.nb j', fun j' => by show s.unoccupied j' = true ↔ _; rw [hsent]; exact h.occ j', ?_, hch⟩
        · refine List.Perm.trans ?_ h.all
          show (rest ++ (s.tasks ++ [Job.mk j k .popped]).map (·.key) ++ s.qout ++ s.saving ++ s.saved).Perm
            (s.qin ++ s.tasks.map (·.key) ++ s.qout ++ s.saving ++ s.saved)
          rw [hq]
          refine List.Perm.append_right _ (List.Perm.append_right _ (List.Perm.append_right _ ?_))
          rw [List.map_append, List.map_singleton, ← List.append_assoc]
          exact (List.perm_append_singleton _ _)
        · intro t ht
          rcases List.mem_append.1 ht with h1 | h1
          · exact h.lt.1 t h1
          · rw [List.mem_singleton] at h1; subst h1; exact hjn
  | send i =>
    simp only [Servers.step] at hs
    split at hs
    · rename_i t ht
      split at hs
      · rename_i hph
        cases hs
        have hsent : ∀ j', sentIn (s.tasks.set i { t with phase := .sent }) j' =
            sentIn s.tasks j' + (if t.worker = j' then 1 else 0) := by
          intro j'
          have := filter_set_length (fun t : Job κ => decide (t.worker = j') && decide (t.phase ≠ .popped)) ht
            { t with phase := .sent }
          simp only [hph, ne_eq, not_true_eq_false, decide_false, Bool.and_false, Bool.false_eq_true, if_false,
            Nat.add_zero, reduceCtorEq, not_false_eq_true, decide_true, Bool.and_true, decide_eq_true_eq] at this
          unfold sentIn
          simpa using this
        refine ⟨?_, ?_, ?_, ?_, h.lt.2⟩
        · show (s.qin ++ (s.tasks.set i { t with phase := .sent }).map (·.key) ++ _ ++ _ ++ _).Perm _
          rw [map_key_set ht]; exact h.all
        · intro j'
          have h1 := h.nb j'
          show Exec.upd s.nb t.worker (s.nb t.worker + 1) j' = (sentIn (s.tasks.set i { t with phase := .sent }) j' : Int)
          rw [hsent j']
          unfold Exec.upd
          by_cases e : j' = t.worker
          · subst e; simp; exact h1
          · rw [if_neg e, if_neg (fun e' => e e'.symm)]; simpa using h1
        · intro j'
          show Exec.upd s.unoccupied t.worker false j' = true ↔ sentIn (s.tasks.set i { t with phase := .sent }) j' = 0
          rw [hsent j']
          unfold Exec.upd
          by_cases e : j' = t.worker
          · subst e; simp
          · rw [if_neg e, if_neg (fun e' => e e'.symm)]; simpa using h.occ j'
        · intro t' ht'
          rcases mem_set_cases ht' with h1 | h1
          · subst h1; exact h.lt.1 t (List.mem_of_getElem? ht)
          · exact h.lt.1 t' h1
      · cases hs
    · cases hs
  | answer i =>
    simp only [Servers.step] at hs
    split at hs
    · rename_i t ht
      split at hs
      · rename_i hph
        cases hs
        have hsent : ∀ j', sentIn (s.tasks.set i { t with phase := .answered }) j' = sentIn s.tasks j' := by
          intro j'
          have := filter_set_length (fun t : Job κ => decide (t.worker = j') && decide (t.phase ≠ .popped)) ht
            { t with phase := .answered }
          simp only [hph, ne_eq, reduceCtorEq, not_false_eq_true, decide_true, Bool.and_true] at this
          unfold sentIn
          simp only [ne_eq]
          omega
        refine ⟨?_, fun j' => ?_, fun j' => ?_, ?_, h.lt.2⟩
        · show (s.qin ++ (s.tasks.set i { t with phase := .answered }).map (·.key) ++ _ ++ _ ++ _).Perm _
          rw [map_key_set ht]; exact h.all
        · have h1 := h.nb j'
          show s.nb j' = (sentIn (s.tasks.set i { t with phase := .answered }) j' : Int)
          rw [hsent j']; exact h1
        · show s.unoccupied j' = true ↔ sentIn (s.tasks.set i { t with phase := .answered }) j' = 0
          rw [hsent j']; exact h.occ j'
        · intro t' ht'
          rcases mem_set_cases ht' with h1 | h1
          · subst h1; exact h.lt.1 t (List.mem_of_getElem? ht)
          · exact h.lt.1 t' h1
      · cases hs
    · cases hs
  | store i =>
    simp only [Servers.step] at hs
    split at hs
    · rename_i t ht
      split at hs
      · rename_i hph
        cases hs
        have hsent : ∀ j', sentIn (s.tasks.eraseIdx i) j' +
            (if t.worker = j' then 1 else 0) = sentIn s.tasks j' := by
          intro j'
          have := filter_eraseIdx_length (fun t : Job κ => decide (t.worker = j') && decide (t.phase ≠ .popped)) ht
          simp only [hph, ne_eq, reduceCtorEq, not_false_eq_true, decide_true, Bool.and_true, decide_eq_true_eq] at this
          unfold sentIn
          simpa using this
        refine ⟨?_, ?_, ?_, fun t' ht' => h.lt.1 t' (List.mem_of_mem_eraseIdx ht'), h.lt.2⟩
        · refine List.Perm.trans ?_ h.all
          show (s.qin ++ (s.tasks.eraseIdx i).map (·.key) ++ (s.qout ++ [t.key]) ++ s.saving ++ s.saved).Perm _
          refine List.Perm.append_right _ (List.Perm.append_right _ ?_)
          have h1 : (s.tasks.map (·.key)).Perm (t.key :: (s.tasks.eraseIdx i).map (·.key)) := (perm_eraseIdx ht).map _
          have h2 : (s.qout ++ [t.key]).Perm (t.key :: s.qout) := List.perm_append_singleton _ _
          refine (List.Perm.append_left _ h2).trans ?_
          rw [List.append_assoc, List.append_assoc]
          refine List.Perm.append_left _ ?_
          refine List.perm_middle.trans ?_
          have := List.Perm.append_right s.qout h1.symm
          exact this
        · intro j'
          have h1 := h.nb j'
          have h2 := hsent j'
          show Exec.upd s.nb t.worker (s.nb t.worker - 1) j' = (sentIn (s.tasks.eraseIdx i) j' : Int)
          unfold Exec.upd
          by_cases e : j' = t.worker
          · subst e; simp only [if_true] at h2 ⊢; omega
          · rw [if_neg e]; rw [if_neg (fun e' => e e'.symm)] at h2; omega
        · intro j'
          have h1 := h.nb t.worker
          have h2 := hsent j'
          have h3 := hsent t.worker
          simp only [if_true] at h3
          show (if s.nb t.worker - 1 = 0 then Exec.upd s.unoccupied t.worker true else s.unoccupied) j' = true ↔ sentIn (s.tasks.eraseIdx i) j' = 0
          by_cases e : j' = t.worker
          · subst e
            simp only [if_true] at h2
            by_cases h0 : s.nb t.worker - 1 = 0
            · rw [if_pos h0]
              have : sentIn (s.tasks.eraseIdx i) t.worker = 0 := by omega
              simp [Exec.upd, this]
            · rw [if_neg h0]
              have h4 : sentIn s.tasks t.worker ≠ 0 := by omega
              have h5 : ¬ s.unoccupied t.worker = true := fun hh => h4 ((h.occ _).1 hh)
              constructor
              · intro hh; exact absurd hh h5
              · intro hh; omega
          · rw [if_neg (fun e' => e e'.symm)] at h2
            have h6 : (if s.nb t.worker - 1 = 0 then Exec.upd s.unoccupied t.worker true else s.unoccupied) j' =
                s.unoccupied j' := by
              split
              · simp [Exec.upd, e]
              · rfl
            rw [h6, h.occ j']
            omega
      · cases hs
    · cases hs
  | ioBegin =>
    simp only [Servers.step] at hs
    split at hs
    · cases hs
    · rename_i k rest hq
      split at hs
      · cases hs
        refine ⟨?_, h.nb, h.occ, h.lt⟩
        refine List.Perm.trans ?_ h.all
        show (s.qin ++ s.tasks.map (·.key) ++ rest ++ (s.saving ++ [k]) ++ s.saved).Perm _
        rw [hq]
        refine List.Perm.append_right _ ?_
        rw [List.append_assoc, List.append_assoc, List.append_assoc, List.append_assoc]
        refine List.Perm.append_left _ (List.Perm.append_left _ ?_)
        rw [← List.append_assoc]
        exact List.perm_append_singleton _ _
      · cases hs
  | ioEnd i =>
    simp only [Servers.step] at hs
    split at hs
    · rename_i k hk
      cases hs
      refine ⟨?_, h.nb, h.occ, h.lt⟩
      refine List.Perm.trans ?_ h.all
      show (s.qin ++ s.tasks.map (·.key) ++ s.qout ++ s.saving.eraseIdx i ++ (s.saved ++ [k])).Perm _
      rw [List.append_assoc _ (s.saving.eraseIdx i), List.append_assoc _ s.saving]
      refine List.Perm.append_left _ ?_
      have h1 : (s.saved ++ [k]).Perm (k :: s.saved) := List.perm_append_singleton _ _
      refine (List.Perm.append_left _ h1).trans (List.perm_middle.trans ?_)
      exact List.Perm.append_right s.saved (perm_eraseIdx hk).symm
    · cases hs
  | check =>
    simp only [Servers.step, Option.some.injEq] at hs
    subst hs
    exact ⟨h.all, h.nb, h.occ, h.lt⟩
  | cpuExit =>
    simp only [Servers.step] at hs
    split at hs
    · cases hs; exact ⟨h.all, h.nb, h.occ, h.lt⟩
    · cases hs
  | ioExit =>
    simp only [Servers.step] at hs
    split at hs
    · cases hs; exact ⟨h.all, h.nb, h.occ, h.lt⟩
    · cases hs

theorem SrvInv.run {n : Nat} {c : Exec.Cfg} {items : List κ} {ls : List Label} {s : State κ}
    (h : Run n c (Servers.init items) ls s) : SrvInv n items s := by
  have : ∀ {s0 s : State κ} {ls}, Run n c s0 ls s → SrvInv n items s0 → SrvInv n items s := by
    intro s0 s ls hr
    induction hr with
    | nil => exact id
    | snoc _ hs ih => intro h0; exact (ih h0).step hs
  exact this h (SrvInv.init n items)

/-- C16, what holds: if no popped item is waiting for its thread to call `send_job` at the time of the check which sets
the flag, then every item has been processed and saved when the flag is set.  Missing: the window between the pop and
`send_job`, in which the flag can be set too early (`C16_item_lost`).  (`send_job` and `well_done_thanks` are taken as
atomic.) -/
theorem C16_no_early_stop_partial (n : Nat) (c : Exec.Cfg) (items : List κ) (ls : List Label) (s s' : State κ)
    (hrun : Run n c (Servers.init items) ls s) (hns : s.stop = false) (hcheck : step n c .check s = some s')
    (hstop : s'.stop = true) (hw : ∀ t ∈ s.tasks, t.phase ≠ .popped) : s'.saved.Perm items := by
  have hi := SrvInv.run hrun
  simp only [step, Option.some.injEq] at hcheck
  subst hcheck
  simp only [hns, Bool.false_or, Bool.and_eq_true, List.isEmpty_iff, List.all_eq_true, List.mem_range] at hstop
  obtain ⟨⟨⟨h1, h2⟩, h3⟩, h4⟩ := hstop
  have h5 : s.tasks = [] := by
    cases ht : s.tasks with
    | nil => rfl
    | cons t ts =>
      exfalso
      have hmem : t ∈ s.tasks := by rw [ht]; exact List.mem_cons_self
      have h6 := (hi.occ t.worker).1 (h3 _ (hi.lt.1 t hmem))
      unfold sentIn at h6
      rw [List.length_eq_zero_iff, List.filter_eq_nil_iff] at h6
      have := h6 t hmem
      simp [hw t hmem] at this
  have h6 := hi.all
  rw [h1, h2, h4, h5] at h6
  simpa using h6

/-- The hypotheses are met: one item goes through, and the check is done at the end. -/
example : (serversAfter 1 ⟨1, 8, false⟩
    [.pass, .choose 0, .begin 0, .send 0, .check, .answer 0, .store 0, .check, .ioBegin, .ioEnd 0] (init [7])).map
      (fun s : State Nat => (s.stop, s.tasks, s.saved)) = some (false, [], [7]) := by decide

end Verif
