import Verif.Exec.Preserve
import Mathlib.Data.List.Perm.Subperm

/-!
# Bounds on the number of running tasks and on the queues
-/

namespace Verif.Exec
open Verif
set_option linter.unusedSectionVars false

variable {κ α ε σ : Type} [DecidableEq κ] {T : Topology κ α ε σ} {c : Cfg}

/-- Number of works of a kind. -/
def kindCount (T : Topology κ α ε σ) (io : Bool) : Nat :=
  ((List.range T.works.length).filter (fun w => ioOf T w = some io)).length

/-- Executions in which a launcher does not run again before the task it has started begins. -/
inductive EagerRun (T : Topology κ α ε σ) (c : Cfg) : AState κ α ε σ → List Label → AState κ α ε σ → Prop
  | nil (s) : EagerRun T c s [] s
  | snoc {s s' s'' : AState κ α ε σ} {ls : List Label} {l : Label} :
      EagerRun T c s ls s' → (∀ w, l = .launch w → w ∉ s'.pending) → astep T c l s' = some s'' →
      EagerRun T c s (ls ++ [l]) s''

theorem EagerRun.toRun {s s' : AState κ α ε σ} {ls} (h : EagerRun T c s ls s') : ARun T c s ls s' := by
  induction h with
  | nil => exact .nil _
  | snoc _ _ hstep ih => exact .snoc ih hstep

/-- Pending tasks of a kind. -/
def pendingKind (T : Topology κ α ε σ) (p : List Nat) (io : Bool) : Nat :=
  (p.filter (fun w => ioOf T w = some io)).length

theorem ioOf_lt {w : Nat} {io : Bool} (h : ioOf T w = some io) : w < T.works.length := by
  unfold ioOf at h
  split at h
  · rename_i hw; exact (List.getElem?_eq_some_iff.1 hw).1
  · cases h

theorem pendingKind_le (p : List Nat) (hp : p.Nodup) (io : Bool) : pendingKind T p io ≤ kindCount T io := by
  unfold pendingKind kindCount
  apply List.Subperm.length_le
  apply List.Nodup.subperm (List.Nodup.filter _ hp)
  intro w hw
  simp only [List.mem_filter, decide_eq_true_eq, List.mem_range] at hw ⊢
  exact ⟨ioOf_lt hw.2, hw.2⟩

theorem pendingKind_erase (p : List Nat) (hp : p.Nodup) (w : Nat) (hw : w ∈ p) (io : Bool) :
    pendingKind T p io = pendingKind T (p.erase w) io + (if ioOf T w = some io then 1 else 0) := by
  have hperm : p.Perm (w :: p.erase w) := List.perm_cons_erase hw
  unfold pendingKind
  rw [(hperm.filter _).length_eq, List.filter_cons]
  split <;> rename_i h <;> simp only [decide_eq_true_eq] at h <;> simp [h]

theorem pendingKind_append (p : List Nat) (w : Nat) (io : Bool) :
    pendingKind T (p ++ [w]) io = pendingKind T p io + (if ioOf T w = some io then 1 else 0) := by
  unfold pendingKind
  rw [List.filter_append, List.length_append]
  congr 1
  by_cases h : ioOf T w = some io <;> simp [h]

structure BoundInv (T : Topology κ α ε σ) (c : Cfg) (s : AState κ α ε σ) : Prop where
  nodup : s.pending.Nodup
  bound : ∀ io, s.counter io + pendingKind T s.pending io ≤ c.maxWorkers + kindCount T io - 1

theorem BoundInv.step {l : Label} {s s' : AState κ α ε σ} (h : BoundInv T c s) (hl : ∀ w, l = .launch w → w ∉ s.pending)
    (hs : StepCase T c l s s') (hc : s'.crashed = none) : BoundInv T c s' := by
  have key : ∀ w (_ : w ∈ s.pending) io, pendingKind T (s.pending.erase w) io + (if ioOf T w = some io then 1 else 0) =
      pendingKind T s.pending io := fun w hw io => (pendingKind_erase s.pending h.nodup w hw io).symm
  cases hs with
  | @launch w s inp out io f hw _ hlt _ =>
    have hnot := hl w rfl
    have hnd : (s.pending ++ [w]).Nodup := by
      rw [List.nodup_append]
      refine ⟨h.nodup, by simp, ?_⟩
      intro a ha b hb
      rw [List.mem_singleton] at hb; subst hb; rintro rfl; exact hnot ha
    refine ⟨hnd, ?_⟩
    intro io'
    by_cases e : io' = io
    · subst e
      have h1 := pendingKind_le (T := T) _ hnd io'
      show s.counter io' + pendingKind T (s.pending ++ [w]) io' ≤ _
      omega
    · have h1 := h.bound io'
      show s.counter io' + pendingKind T (s.pending ++ [w]) io' ≤ _
      rw [pendingKind_append, ioOf_eq hw, if_neg (by simpa using fun e' : io = io' => e e'.symm)]
      omega
  | beginEmpty hw hp _ =>
    refine ⟨h.nodup.erase _, fun io' => ?_⟩
    have h1 := h.bound io'
    have h2 := key _ hp io'
    show s.counter io' + pendingKind T (s.pending.erase _) io' ≤ _
    omega
  | beginError hw hp _ =>
    refine ⟨h.nodup.erase _, fun io' => ?_⟩
    have h1 := h.bound io'
    have h2 := key _ hp io'
    show s.counter io' + pendingKind T (s.pending.erase _) io' ≤ _
    omega
  | @beginOk w s inp out io f k v rest hw hp _ =>
    refine ⟨by rw [incr_pending]; exact h.nodup.erase _, fun io' => ?_⟩
    have h1 := h.bound io'
    have h2 := key _ hp io'
    rw [counter_incr, incr_pending]
    rw [ioOf_eq hw] at h2
    simp only [Option.some.injEq] at h2
    show s.counter io' + _ + pendingKind T (s.pending.erase _) io' ≤ _
    by_cases e : io' = io
    · subst e; simp at h2 ⊢; omega
    · rw [if_neg (fun e' : io = io' => e e'.symm)] at h2
      rw [if_neg e]; omega
  | finish =>
    refine ⟨by rw [decr_pending]; exact h.nodup, fun io' => ?_⟩
    have h1 := h.bound io'
    rw [counter_decr, decr_pending]
    show s.counter io' - _ + pendingKind T s.pending io' ≤ _
    omega
  | finishCrash => simp at hc
  | glob => exact ⟨h.nodup, h.bound⟩
  | globCrash => simp at hc
  | checkStop => exact ⟨h.nodup, h.bound⟩
  | check => exact h

theorem BoundInv.run {s s' : AState κ α ε σ} {ls} (hrun : EagerRun T c s ls s') (h : BoundInv T c s)
    (hc : s'.crashed = none) : BoundInv T c s' := by
  induction hrun with
  | nil => exact h
  | snoc _ hl hstep ih =>
    obtain ⟨h1, h2⟩ := astep_cases hstep
    exact (ih h1).step hl h2 hc

/-! ## Output queues -/

/-- Running and pending tasks of a work. -/
def ofWork (s : AState κ α ε σ) (w : Nat) : Nat :=
  (s.inflight.filter (fun t => decide (t.w = w))).length + s.pending.count w

/-- The queue `o` is the output queue of the work `w` and of no other work; global works may only remove items. -/
structure OnlyWriter (T : Topology κ α ε σ) (w o : Nat) : Prop where
  other : ∀ {w' inp : Nat} {out io f}, T.works[w']? = some (Work.item inp out io f) → w' ≠ w → out ≠ some o
  shrink : ∀ {w' : Nat} {ready outLen run}, T.works[w']? = some (Work.glob ready outLen run) →
    ∀ nio q a q' a' evs, run nio q a = .ok (q', a', evs) → (q' o).length ≤ (q o).length

theorem put_other {q : Queues κ α ε} {out : Option Nat} {k : κ} {r : Except ε α} {o : Nat} (h : out ≠ some o) :
    put q out k r o = q o := by
  cases out with
  | none => rfl
  | some o' =>
    have : o ≠ o' := fun e => h (by rw [e])
    simp [put, upd, this]

theorem put_length_le {q : Queues κ α ε} {out : Option Nat} {k : κ} {r : Except ε α} {o : Nat} :
    (put q out k r o).length ≤ (q o).length + 1 := by
  cases out with
  | none => simp [put]
  | some o' =>
    simp only [put, upd]
    split
    · rename_i h; subst h
      generalize q o = d
      induction d with
      | nil => simp [Dict.set]
      | cons kv d ih =>
        obtain ⟨k', v'⟩ := kv
        simp only [Dict.set]
        split
        · simp
        · simp only [List.length_cons]; omega
    · omega

theorem upd_tail_length {q : Queues κ α ε} {inp o : Nat} {kv : κ × Except ε α} {rest} (h : q inp = kv :: rest) :
    (upd q inp rest o).length ≤ (q o).length := by
  unfold upd
  split
  · rename_i e; subst e; rw [h]; simp
  · omega

theorem ofWork_le {s : AState κ α ε σ} {w : Nat} {io : Bool} (hC : CInv T s) (hio : ioOf T w = some io) :
    ofWork s w ≤ s.counter io + pendingKind T s.pending io := by
  unfold ofWork
  rw [hC.counter io]
  have h1 : (s.inflight.filter (fun t => decide (t.w = w))).length ≤ running T s.inflight io := by
    unfold running
    have : s.inflight.filter (fun t => decide (t.w = w)) =
        (s.inflight.filter (fun t => ioOf T t.w = some io)).filter (fun t => decide (t.w = w)) := by
      rw [List.filter_filter]
      congr 1
      funext t
      by_cases h : t.w = w
      · simp [h, hio]
      · simp [h]
    rw [this]
    exact List.length_filter_le _ _
  have h2 : s.pending.count w ≤ pendingKind T s.pending io := by
    unfold pendingKind
    rw [List.count_eq_length_filter]
    have : s.pending.filter (· == w) = (s.pending.filter (fun w => ioOf T w = some io)).filter (· == w) := by
      rw [List.filter_filter]
      congr 1
      funext t
      by_cases h : t = w
      · simp [h, hio]
      · simp [h]
    rw [this]
    exact List.length_filter_le _ _
  omega

theorem queue_bound_step {w o inp : Nat} {io : Bool} {f} (hw : T.works[w]? = some (Work.item inp (some o) io f))
    (hone : OnlyWriter T w o) {B : Nat} (hB : c.queueMax - 1 + (c.maxWorkers + kindCount T io - 1) ≤ B)
    {l : Label} {s s' : AState κ α ε σ} (h : (s.q o).length + ofWork s w ≤ B) (hC' : CInv T s')
    (hb' : BoundInv T c s') (hs : StepCase T c l s s') (hc : s'.crashed = none) :
    (s'.q o).length + ofWork s' w ≤ B := by
  cases hs with
  | @launch w' s inp' out' io' f' hw' hne hlt hfull =>
    by_cases e : w' = w
    · subst e
      rw [hw] at hw'; cases hw'
      have h1 := ofWork_le hC' (ioOf_eq hw)
      have h2 := hb'.bound io
      have h3 : (s.q o).length < c.queueMax := by simpa [outFull] using hfull
      show (s.q o).length + ofWork { s with pending := s.pending ++ [w'] } w' ≤ B
      omega
    · have : ofWork { s with pending := s.pending ++ [w'] } w = ofWork s w := by
        simp [ofWork, List.count_append, List.count_cons, e]
      show (s.q o).length + ofWork { s with pending := s.pending ++ [w'] } w ≤ B
      rw [this]; exact h
  | @beginEmpty w' s inp' out' io' f' hw' hp hq =>
    have : (s.pending.erase w').count w ≤ s.pending.count w := List.Sublist.count_le _ List.erase_sublist
    show (s.q o).length + ofWork _ w ≤ B
    simp only [ofWork] at h ⊢
    omega
  | @beginError w' s inp' out' io' f' k e rest hw' hp hq =>
    have h3 := upd_tail_length (o := o) hq
    by_cases e1 : w' = w
    · subst e1
      have h1 : (s.pending.erase w').count w' = s.pending.count w' - 1 := List.count_erase_self
      have h2 : 0 < s.pending.count w' := List.count_pos_iff.2 hp
      have h4 := put_length_le (q := upd s.q inp' rest) (out := out') (k := k) (r := .error e) (o := o)
      simp only [ofWork] at h ⊢
      omega
    · have h1 : (s.pending.erase w').count w ≤ s.pending.count w := List.Sublist.count_le _ List.erase_sublist
      have h4 := put_other (q := upd s.q inp' rest) (k := k) (r := .error e) (hone.other hw' e1)
      simp only [ofWork] at h ⊢
      rw [h4]
      omega
  | @beginOk w' s inp' out' io' f' k v rest hw' hp hq =>
    have h3 := upd_tail_length (o := o) hq
    by_cases e1 : w' = w
    · subst e1
      have h1 : (s.pending.erase w').count w' = s.pending.count w' - 1 := List.count_erase_self
      have h2 : 0 < s.pending.count w' := List.count_pos_iff.2 hp
      simp only [ofWork, incr_q, incr_inflight, incr_pending, List.filter_append, List.length_append] at h ⊢
      simp only [decide_true, List.filter_cons_of_pos, List.filter_nil, List.length_singleton]
      omega
    · have h1 : (s.pending.erase w').count w ≤ s.pending.count w := List.Sublist.count_le _ List.erase_sublist
      simp only [ofWork, incr_q, incr_inflight, incr_pending, List.filter_append, List.length_append] at h ⊢
      rw [List.filter_cons_of_neg (by simpa using e1)]
      simp only [List.filter_nil, List.length_nil]
      omega
  | @finish i s t inp' out' io' f' ht hw' _ =>
    obtain ⟨hlt, hget⟩ := List.getElem?_eq_some_iff.1 ht
    have hsplit : s.inflight = s.inflight.take i ++ t :: s.inflight.drop (i + 1) := by
      rw [← hget, List.getElem_cons_drop, List.take_append_drop]
    have hcount : (s.inflight.filter (fun t => decide (t.w = w))).length =
        ((s.inflight.eraseIdx i).filter (fun t => decide (t.w = w))).length + (if t.w = w then 1 else 0) := by
      rw [List.eraseIdx_eq_take_drop_succ]
      conv_lhs => rw [hsplit]
      simp only [List.filter_append, List.length_append, List.filter_cons]
      split <;> rename_i h1 <;> simp only [decide_eq_true_eq] at h1 <;> simp [h1]
      omega
    simp only [ofWork, decr_q, decr_inflight, decr_pending] at h ⊢
    by_cases e1 : t.w = w
    · have h4 := put_length_le (q := s.q) (out := out') (k := t.key) (r := f' t.key t.val) (o := o)
      rw [if_pos e1] at hcount
      omega
    · have h4 := put_other (q := s.q) (k := t.key) (r := f' t.key t.val) (hone.other hw' e1)
      rw [if_neg e1] at hcount
      rw [h4]
      omega
  | finishCrash => simp at hc
  | glob hw' _ hr =>
    have := hone.shrink hw' _ _ _ _ _ _ hr
    simp only [ofWork] at h ⊢
    omega
  | globCrash => simp at hc
  | checkStop => exact h
  | check => exact h

theorem queue_bound_run {w o inp : Nat} {io : Bool} {f} (hw : T.works[w]? = some (Work.item inp (some o) io f))
    (hone : OnlyWriter T w o) {B : Nat} (hB : c.queueMax - 1 + (c.maxWorkers + kindCount T io - 1) ≤ B)
    {s s' : AState κ α ε σ} {ls} (hrun : EagerRun T c s ls s') (hC : CInv T s) (hb : BoundInv T c s)
    (h : (s.q o).length + ofWork s w ≤ B) (hc : s'.crashed = none) : (s'.q o).length + ofWork s' w ≤ B := by
  induction hrun with
  | nil => exact h
  | snoc hrun hl hstep ih =>
    obtain ⟨h1, h2⟩ := astep_cases hstep
    have hC1 := hC.run hrun.toRun h1
    have hb1 := hb.run hrun h1
    exact queue_bound_step hw hone hB (ih h1) (hC1.step h2 hc) (hb1.step hl h2 hc) h2 hc

end Verif.Exec
