import Verif.Exec.Flow

/-!
# Following the history of each key

Proof infrastructure.  A `Contract` gives, for every queue, the events still due for an item which is in the queue
(`due`).  Queues are grouped in lines: within a line, a key is at most at one place.
-/

namespace Verif.Exec
open Verif
set_option linter.unusedSectionVars false

variable {κ α ε σ : Type} [DecidableEq κ]

/-- Events of a call. -/
def callEvents (w : Nat) (k : κ) (v : α) (r : Except ε α) : List (Event κ α ε) :=
  match r with
  | .ok _ => [.call w k v]
  | .error e => [.call w k v, .failed w k e]

/-- Events of `check_exception`. -/
def forwardEvents (w : Nat) (k : κ) (e : ε) (out : Option Nat) : List (Event κ α ε) :=
  match out with
  | none => [.dropped w k e]
  | some _ => []

/-- Work of an event. -/
def Event.work : Event κ α ε → Nat
  | .call w _ _ => w
  | .failed w _ _ => w
  | .dropped w _ _ => w
  | .note w _ _ => w

/-- Key of an event. -/
def Event.key : Event κ α ε → κ
  | .call _ k _ => k
  | .failed _ k _ => k
  | .dropped _ k _ => k
  | .note _ k _ => k

structure Contract (T : Topology κ α ε σ) where
  /-- line of a queue -/
  line : Nat → Nat
  /-- line of a work -/
  wline : Nat → Nat
  /-- events still to come for an item of a queue -/
  due : Nat → κ → Except ε α → List (Event κ α ε)
  /-- the item has the value which it has to have -/
  good : Nat → κ → Except ε α → Prop

variable {T : Topology κ α ε σ}

def Contract.dueOut (C : Contract T) (out : Option Nat) (k : κ) (r : Except ε α) : List (Event κ α ε) :=
  match out with
  | none => []
  | some o => C.due o k r

/-- The laws relating the works of the topology and the contract. -/
structure Contract.Lawful (C : Contract T) : Prop where
  out_ne : ∀ {w inp : Nat} {out io f}, T.works[w]? = some (Work.item inp out io f) → out ≠ some inp
  line_eq : ∀ {w inp o : Nat} {io f}, T.works[w]? = some (Work.item inp (some o) io f) → C.line o = C.line inp
  wline_eq : ∀ {w inp : Nat} {out io f}, T.works[w]? = some (Work.item inp out io f) → C.wline w = C.line inp
  due_ok : ∀ {w inp : Nat} {out io f}, T.works[w]? = some (Work.item inp out io f) → ∀ k v, C.good inp k (.ok v) →
    C.due inp k (.ok v) = callEvents w k v (f k v) ++ C.dueOut out k (f k v)
  due_error : ∀ {w inp : Nat} {out io f}, T.works[w]? = some (Work.item inp out io f) → ∀ k e, C.good inp k (.error e) →
    C.due inp k (.error e) = forwardEvents w k e out ++ C.dueOut out k (.error e)
  good_ok : ∀ {w inp o : Nat} {io f}, T.works[w]? = some (Work.item inp (some o) io f) → ∀ k v, C.good inp k (.ok v) →
    C.good o k (f k v)
  good_error : ∀ {w inp o : Nat} {io f}, T.works[w]? = some (Work.item inp (some o) io f) → ∀ k e,
    C.good inp k (.error e) → C.good o k (.error e)

/-- History of the key `k` in the line `l`. -/
def Contract.hist (C : Contract T) (l : Nat) (k : κ) (log : List (Event κ α ε)) : List (Event κ α ε) :=
  log.filter (fun e => decide (C.wline e.work = l) && decide (e.key = k))

theorem Contract.hist_append (C : Contract T) (l : Nat) (k : κ) (a b : List (Event κ α ε)) :
    C.hist l k (a ++ b) = C.hist l k a ++ C.hist l k b := by
  simp [Contract.hist]

theorem Contract.hist_of_all (C : Contract T) (l : Nat) (k : κ) (evs : List (Event κ α ε))
    (h : ∀ e ∈ evs, C.wline e.work = l ∧ e.key = k) : C.hist l k evs = evs := by
  unfold Contract.hist
  rw [List.filter_eq_self]
  intro e he
  simp [h e he]

theorem Contract.hist_of_none (C : Contract T) (l l' : Nat) (k k' : κ) (evs : List (Event κ α ε))
    (h : ∀ e ∈ evs, C.wline e.work = l ∧ e.key = k) (hne : ¬ (l' = l ∧ k' = k)) : C.hist l' k' evs = [] := by
  unfold Contract.hist
  rw [List.filter_eq_nil_iff]
  intro e he
  obtain ⟨h1, h2⟩ := h e he
  rw [h1, h2]
  simp only [Bool.and_eq_true, decide_eq_true_eq, not_and]
  rintro rfl rfl
  exact hne ⟨rfl, rfl⟩

/-- Invariant: unique position in a line, right values, and for each key of each line: what has been done followed
by what is due is a constant. -/
structure Contract.Inv (C : Contract T) (tot : Nat → κ → List (Event κ α ε)) (m : Map κ α ε)
    (log : List (Event κ α ε)) : Prop where
  uniq : ∀ i j k v v', C.line i = C.line j → m i k = some v → m j k = some v' → i = j
  good : ∀ i k v, m i k = some v → C.good i k v
  at_ : ∀ i k v, m i k = some v → C.hist (C.line i) k log ++ C.due i k v = tot (C.line i) k
  gone : ∀ l k, (∀ i, C.line i = l → m i k = none) → C.hist l k log = tot l k

/-- The item of key `k` of the queue `i`, with value `v`, is removed, `evs` happen, and an item of the same key is
added to `out`. -/
theorem Contract.Inv.transfer {C : Contract T} {tot} {m : Map κ α ε} {log} (h : C.Inv tot m log) {i : Nat}
    {out : Option Nat} {k : κ} {v r : Except ε α} {evs : List (Event κ α ε)} (hm : m i k = some v)
    (hline : ∀ o, out = some o → C.line o = C.line i)
    (hgood : ∀ o, out = some o → C.good o k r)
    (hevs : ∀ e ∈ evs, C.wline e.work = C.line i ∧ e.key = k)
    (hdue : C.due i k v = evs ++ C.dueOut out k r) :
    C.Inv tot (mput (mdel m i k) out k r) (log ++ evs) := by
  -- where an item of the new map comes from
  have hsrc : ∀ j k' v', mput (mdel m i k) out k r j k' = some v' →
      (out = some j ∧ k' = k ∧ v' = r) ∨ (¬ (j = i ∧ k' = k) ∧ ¬ (out = some j ∧ k' = k) ∧ m j k' = some v') := by
    intro j k' v' hj
    cases out with
    | none =>
      simp only [mput, mdel] at hj
      split at hj
      · cases hj
      · rename_i hne; exact Or.inr ⟨hne, by simp, hj⟩
    | some o =>
      simp only [mput, madd, mdel] at hj
      split at hj
      · rename_i h1; obtain ⟨rfl, rfl⟩ := h1; cases hj; exact Or.inl ⟨rfl, rfl, rfl⟩
      · rename_i h1
        split at hj
        · cases hj
        · rename_i hne
          refine Or.inr ⟨hne, ?_, hj⟩
          rintro ⟨h2, h3⟩; cases h2; exact h1 ⟨rfl, h3⟩
  have hother : ∀ l' k', ¬ (l' = C.line i ∧ k' = k) → C.hist l' k' (log ++ evs) = C.hist l' k' log := by
    intro l' k' hne
    rw [C.hist_append, C.hist_of_none _ _ _ _ _ hevs hne, List.append_nil]
  have hsame : C.hist (C.line i) k (log ++ evs) = C.hist (C.line i) k log ++ evs := by
    rw [C.hist_append, C.hist_of_all _ _ _ hevs]
  have hat := h.at_ i k v hm
  refine ⟨?_, ?_, ?_, ?_⟩
  · intro a b k' v1 v2 hl ha hb
    rcases hsrc a k' v1 ha with ⟨h1, rfl, rfl⟩ | ⟨h1, h2, h3⟩
    · rcases hsrc b _ v2 hb with ⟨h4, _, _⟩ | ⟨h4, h5, h6⟩
      · rw [h1] at h4; exact Option.some.inj h4
      · exfalso
        have := h.uniq i b _ _ _ (by rw [← hl, hline a h1]) hm h6
        exact h4 ⟨this.symm, rfl⟩
    · rcases hsrc b k' v2 hb with ⟨h4, rfl, rfl⟩ | ⟨h4, h5, h6⟩
      · exfalso
        have := h.uniq i a _ _ _ (by rw [hl, hline b h4]) hm h3
        exact h1 ⟨this.symm, rfl⟩
      · exact h.uniq a b k' _ _ hl h3 h6
  · intro j k' v' hj
    rcases hsrc j k' v' hj with ⟨h1, rfl, rfl⟩ | ⟨_, _, h3⟩
    · exact hgood j h1
    · exact h.good j k' v' h3
  · intro j k' v' hj
    rcases hsrc j k' v' hj with ⟨h1, rfl, rfl⟩ | ⟨h1, _, h3⟩
    · rw [hline j h1, hsame, List.append_assoc, ← hat, hdue, h1]; rfl
    · rw [hother _ _ ?_]
      · exact h.at_ j k' v' h3
      · rintro ⟨h4, rfl⟩
        exact h1 ⟨h.uniq j i _ _ _ h4 h3 hm, rfl⟩
  · intro l k' hgone
    by_cases hlk : l = C.line i ∧ k' = k
    · obtain ⟨rfl, rfl⟩ := hlk
      rw [hsame]
      cases out with
      | none => rw [← hat, hdue]; simp [Contract.dueOut]
      | some o =>
        have := hgone o (hline o rfl)
        simp [mput, madd] at this
    · rw [hother _ _ hlk]
      refine h.gone l k' (fun j hj => ?_)
      cases hmj : m j k' with
      | none => rfl
      | some v' =>
        exfalso
        have hne : ¬ (j = i ∧ k' = k) := by rintro ⟨rfl, rfl⟩; exact hlk ⟨hj.symm, rfl⟩
        have hg := hgone j hj
        cases out with
        | none => simp only [mput, mdel, if_neg hne] at hg; rw [hmj] at hg; cases hg
        | some o =>
          simp only [mput, madd, mdel, if_neg hne] at hg
          split at hg
          · cases hg
          · rw [hmj] at hg; cases hg

theorem callEvents_sel (C : Contract T) {w : Nat} {l : Nat} (hw : C.wline w = l) (k : κ) (v : α)
    (r : Except ε α) : ∀ e ∈ callEvents w k v r, C.wline e.work = l ∧ e.key = k := by
  intro e he
  cases r <;> simp only [callEvents, List.mem_cons, List.not_mem_nil, or_false] at he
  · rcases he with rfl | rfl <;> exact ⟨hw, rfl⟩
  · subst he; exact ⟨hw, rfl⟩

theorem forwardEvents_sel (C : Contract T) {w : Nat} {l : Nat} (hw : C.wline w = l) (k : κ) (er : ε)
    (out : Option Nat) : ∀ e ∈ (forwardEvents w k er out : List (Event κ α ε)), C.wline e.work = l ∧ e.key = k := by
  intro e he
  cases out <;> simp only [forwardEvents, List.mem_cons, List.not_mem_nil, or_false] at he
  subst he; exact ⟨hw, rfl⟩

theorem Contract.Inv.call {C : Contract T} (hC : C.Lawful) {tot} {m : Map κ α ε} {log} (h : C.Inv tot m log)
    {w inp : Nat} {out io f} (hw : T.works[w]? = some (Work.item inp out io f)) {k : κ} {v : α}
    (hm : m inp k = some (.ok v)) :
    C.Inv tot (mput (mdel m inp k) out k (f k v)) (log ++ callEvents w k v (f k v)) := by
  have hg := h.good _ _ _ hm
  refine h.transfer hm ?_ ?_ (callEvents_sel C (hC.wline_eq hw) k v _) (hC.due_ok hw k v hg)
  · rintro o rfl; exact hC.line_eq hw
  · rintro o rfl; exact hC.good_ok hw k v hg

theorem Contract.Inv.forward {C : Contract T} (hC : C.Lawful) {tot} {m : Map κ α ε} {log} (h : C.Inv tot m log)
    {w inp : Nat} {out io f} (hw : T.works[w]? = some (Work.item inp out io f)) {k : κ} {e : ε}
    (hm : m inp k = some (.error e)) :
    C.Inv tot (mput (mdel m inp k) out k (.error e)) (log ++ forwardEvents w k e out) := by
  have hg := h.good _ _ _ hm
  refine h.transfer hm ?_ ?_ (forwardEvents_sel C (hC.wline_eq hw) k e _) (hC.due_error hw k e hg)
  · rintro o rfl; exact hC.line_eq hw
  · rintro o rfl; exact hC.good_error hw k e hg

theorem Contract.Inv.fresh {C : Contract T} (hC : C.Lawful) {tot} {m : Map κ α ε} {log} (h : C.Inv tot m log)
    {w inp : Nat} {out io f} (hw : T.works[w]? = some (Work.item inp out io f)) {k : κ} {v : Except ε α}
    (hm : m inp k = some v) : ∀ o, out = some o → mdel m inp k o k = none := by
  rintro o rfl
  have hne : o ≠ inp := fun e => hC.out_ne hw (by rw [e])
  simp only [mdel, hne, false_and, if_false]
  cases hmo : m o k with
  | none => rfl
  | some v' => exact absurd (h.uniq o inp k _ _ (hC.line_eq hw) hmo hm) hne

/-- The invariant at the beginning. -/
theorem Contract.Inv.init (C : Contract T) (m : Map κ α ε) (tot : Nat → κ → List (Event κ α ε))
    (uniq : ∀ i j k v v', C.line i = C.line j → m i k = some v → m j k = some v' → i = j)
    (good : ∀ i k v, m i k = some v → C.good i k v)
    (htot : ∀ i k v, m i k = some v → tot (C.line i) k = C.due i k v)
    (hgone : ∀ l k, (∀ i, C.line i = l → m i k = none) → tot l k = []) : C.Inv tot m [] := by
  refine ⟨uniq, good, ?_, ?_⟩
  · intro i k v hm; rw [htot i k v hm]; rfl
  · intro l k hg; rw [hgone l k hg]; rfl

end Verif.Exec
