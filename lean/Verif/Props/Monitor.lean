import Verif.Model.Monitor
import Verif.Props.Multi
import Verif.Props.JobDir
import Verif.Lemmas.Text
import Mathlib.Data.List.Lex
import Mathlib.Tactic.IntervalCases
import Mathlib.Tactic.Ring
import Mathlib.Tactic.Positivity
import Mathlib.Algebra.Order.BigOperators.Group.List

/-!
# Counting the results while a computation runs (C93)
-/

namespace Verif
open Verif.Monitor Verif.Multi Verif.Text

/-! ## Specification -/

/-- `n` executors in separate processes, observed by another process at the instants `0, 1, …`: `evs i` is everything
process `i` will do; when its file is read at instant `r`, its `done r i` first events have occurred. -/
structure Execution where
  evs : Nat → List PEv
  done : Nat → Nat → Nat
  mono : ∀ r i, done r i ≤ done (r + 1) i

/-- State of process `i` when its file is read at instant `r`. -/
def Execution.proc (W : Execution) (r i : Nat) : Proc := Proc.init.run ((W.evs i).take (W.done r i))

/-- What the reading gives. -/
def Execution.files (W : Execution) (r i : Nat) : Option (List Char) := (W.proc r i).file

/-- Number of results computed by process `i` at instant `r`. -/
def Execution.results (W : Execution) (r i : Nat) : Nat := ((W.evs i).take (W.done r i)).count .result

/-- Number of results computed by process `i` in the whole computation. -/
def Execution.total (W : Execution) (i : Nat) : Nat := (W.evs i).count .result

/-- A process which ends normally saves the number of its results at the end (`_finalize_compute`). -/
def CleanExit (evs : List PEv) : Prop := ∃ l, evs = l ++ [.openW, .write] ∧ (Proc.init.run l).pending = none

/-! ## Lemmas -/

namespace Monitor

theorem run_append (p : Proc) (a b : List PEv) : p.run (a ++ b) = (p.run a).run b := List.foldl_append

theorem run_known (p : Proc) (evs : List PEv) : (p.run evs).known = p.known + evs.count .result := by
  induction evs generalizing p with
  | nil => rfl
  | cons e evs ih =>
    show ((p.step e).run evs).known = _
    rw [ih, List.count_cons]
    cases e with
    | result => simp [Proc.step]; omega
    | openW => cases h : p.pending <;> simp [Proc.step, h]
    | write => cases h : p.pending <;> simp [Proc.step, h]

/-- States of the file. -/
def FileInv (p : Proc) : Prop :=
  (p.file = none ∧ p.pending = none ∧ p.saved = 0) ∨
  (p.file = some [] ∧ ∃ n, p.pending = some n ∧ p.saved ≤ n ∧ n ≤ p.known) ∨
  (p.file = some (lenText p.saved) ∧ p.pending = none ∧ p.saved ≤ p.known)

theorem FileInv.step {p : Proc} (h : FileInv p) (e : PEv) : FileInv (p.step e) ∧ p.saved ≤ (p.step e).saved := by
  unfold FileInv at h ⊢
  cases e with
  | result =>
    simp only [Proc.step]
    rcases h with h | ⟨h1, n, h2, h3, h4⟩ | ⟨h1, h2, h3⟩
    · exact ⟨.inl h, le_refl _⟩
    · exact ⟨.inr (.inl ⟨h1, n, h2, h3, by omega⟩), le_refl _⟩
    · exact ⟨.inr (.inr ⟨h1, h2, by omega⟩), le_refl _⟩
  | openW =>
    rcases h with ⟨h1, h2, h3⟩ | ⟨h1, n, h2, h3, h4⟩ | ⟨h1, h2, h3⟩
    · simp only [Proc.step, h2]
      exact ⟨.inr (.inl ⟨trivial, _, rfl, by omega, le_refl _⟩), le_refl _⟩
    · simp only [Proc.step, h2]
      exact ⟨.inr (.inl ⟨h1, n, by simp, h3, h4⟩), le_refl _⟩
    · simp only [Proc.step, h2]
      exact ⟨.inr (.inl ⟨trivial, _, rfl, h3, le_refl _⟩), le_refl _⟩
  | write =>
    rcases h with ⟨h1, h2, h3⟩ | ⟨h1, n, h2, h3, h4⟩ | ⟨h1, h2, h3⟩
    · simp only [Proc.step, h2]
      exact ⟨.inl ⟨h1, trivial, h3⟩, le_refl _⟩
    · simp only [Proc.step, h2]
      exact ⟨.inr (.inr ⟨trivial, trivial, h4⟩), h3⟩
    · simp only [Proc.step, h2]
      exact ⟨.inr (.inr ⟨h1, trivial, h3⟩), le_refl _⟩

theorem FileInv.run {p : Proc} (h : FileInv p) (evs : List PEv) : FileInv (p.run evs) ∧ p.saved ≤ (p.run evs).saved := by
  induction evs generalizing p with
  | nil => exact ⟨h, le_refl _⟩
  | cons e evs ih =>
    have h1 := h.step e
    have h2 := ih h1.1
    exact ⟨h2.1, h1.2.trans h2.2⟩

theorem FileInv.init : FileInv Proc.init := .inl ⟨rfl, rfl, rfl⟩

/-- The file is never deleted. -/
theorem file_isSome_run {p : Proc} (evs : List PEv) (h : p.file.isSome) : (p.run evs).file.isSome := by
  induction evs generalizing p with
  | nil => exact h
  | cons e evs ih =>
    refine ih ?_
    cases e with
    | result => exact h
    | openW => cases hp : p.pending <;> simp [Proc.step, hp, h]
    | write => cases hp : p.pending <;> simp [Proc.step, hp, h]

theorem pyInt_lenText (n : Nat) : pyInt (lenText n) = .ok (n : Int) := by
  have h := pyInt_pad [] ['\n'] (n : Int) (by simp) (by simp [isSpace])
  have e : intStr (n : Int) = natStr n := by
    unfold intStr
    rw [if_neg (by omega), Int.natAbs_natCast]
  rw [e] at h
  simpa [lenText] using h

theorem lenText_cons (n : Nat) : ∃ c cs, lenText n = c :: cs := by
  cases h : natStr n with
  | nil => exact absurd h (natStr_ne_nil n)
  | cons c cs => exact ⟨c, cs ++ ['\n'], by simp [lenText, h]⟩

theorem progressRead_spec {p : Proc} (h : FileInv p) (old : Int) (ho : 0 ≤ old) (hos : old ≤ p.saved) :
    ∃ v, progressRead p.file old = .ok v ∧ old ≤ v ∧ v ≤ p.saved ∧ (p.file = some (lenText p.saved) → v = p.saved) := by
  rcases h with ⟨h1, h2, h3⟩ | ⟨h1, n, h2, h3, h4⟩ | ⟨h1, h2, h3⟩
  · exact ⟨old, by simp [progressRead, h1], le_refl _, hos, by simp [h1]⟩
  · refine ⟨old, by simp [progressRead, h1], le_refl _, hos, ?_⟩
    rw [h1]
    obtain ⟨c, cs, hc⟩ := lenText_cons p.saved
    rw [hc]
    intro h; cases h
  · obtain ⟨c, cs, hc⟩ := lenText_cons p.saved
    refine ⟨p.saved, ?_, hos, le_refl _, fun _ => rfl⟩
    rw [h1]
    have := pyInt_lenText p.saved
    rw [hc] at this ⊢
    exact this

theorem progressTurn_spec (files : Nat → Option (List Char)) (run : List Nat) (hn : run.Nodup) (seen : Nat → Int)
    (h : ∀ i ∈ run, ∃ v, progressRead (files i) (seen i) = .ok v) :
    ∃ seen', progressTurn files run seen = .ok seen' ∧ (∀ i, i ∉ run → seen' i = seen i) ∧
      ∀ i ∈ run, progressRead (files i) (seen i) = .ok (seen' i) := by
  induction run generalizing seen with
  | nil => exact ⟨seen, rfl, fun _ _ => rfl, by simp⟩
  | cons a run ih =>
    rw [List.nodup_cons] at hn
    obtain ⟨v, hv⟩ := h a (by simp)
    have key : ∀ i ∈ run, (if i = a then v else seen i) = seen i := by
      intro i hi
      have : i ≠ a := fun e => hn.1 (e ▸ hi)
      simp [this]
    obtain ⟨seen', h1, h2, h3⟩ := ih hn.2 (fun j => if j = a then v else seen j) (by
      intro i hi
      rw [key i hi]
      exact h i (by simp [hi]))
    refine ⟨seen', ?_, ?_, ?_⟩
    · simp only [progressTurn, hv]; exact h1
    · intro i hi
      rw [h2 i (fun hm => hi (by simp [hm]))]
      have : i ≠ a := fun e => hi (by simp [e])
      simp [this]
    · intro i hi
      rcases List.mem_cons.1 hi with e | hm
      · subst e
        rw [h2 i hn.1]
        simpa using hv
      · have := h3 i hm
        rw [key i hm] at this
        exact this

end Monitor

namespace Execution

theorem inv (W : Execution) (r i : Nat) : FileInv (W.proc r i) := (FileInv.init.run _).1

theorem known (W : Execution) (r i : Nat) : (W.proc r i).known = W.results r i := by
  unfold Execution.proc Execution.results
  rw [run_known]
  simp [Proc.init]

theorem split (W : Execution) (r i : Nat) : ∃ l, (W.evs i).take (W.done (r + 1) i) = (W.evs i).take (W.done r i) ++ l := by
  refine ⟨((W.evs i).drop (W.done r i)).take (W.done (r + 1) i - W.done r i), ?_⟩
  rw [← List.take_add]
  congr 1
  have := W.mono r i
  omega

theorem saved_succ (W : Execution) (r i : Nat) : (W.proc r i).saved ≤ (W.proc (r + 1) i).saved := by
  obtain ⟨l, hl⟩ := W.split r i
  unfold Execution.proc
  rw [hl, run_append]
  exact ((FileInv.init.run _).1.run l).2

theorem saved_le (W : Execution) (r i : Nat) : (W.proc r i).saved ≤ W.results r i := by
  have h := W.inv r i
  rw [← W.known]
  rcases h with ⟨_, _, h⟩ | ⟨_, n, _, h1, h2⟩ | ⟨_, _, h⟩ <;> omega

theorem isSome_succ (W : Execution) (r i : Nat) (h : (W.files r i).isSome) : (W.files (r + 1) i).isSome := by
  obtain ⟨l, hl⟩ := W.split r i
  unfold Execution.files Execution.proc
  rw [hl, run_append]
  exact file_isSome_run l h

theorem isSome_zero (W : Execution) (r i : Nat) (h : (W.files 0 i).isSome) : (W.files r i).isSome := by
  induction r with
  | zero => exact h
  | succ r ih => exact W.isSome_succ r i ih

end Execution

theorem clean_run {evs : List PEv} (h : CleanExit evs) :
    (Proc.init.run evs).file = some (lenText (evs.count .result)) ∧ (Proc.init.run evs).saved = evs.count .result ∧
      (Proc.init.run evs).pending = none := by
  obtain ⟨l, rfl, hp⟩ := h
  have hk := run_known Proc.init l
  rw [run_append]
  generalize Proc.init.run l = p at hp hk
  have : p.run [.openW, .write] = { p with file := some (lenText p.known), pending := none, saved := p.known } := by
    simp [Proc.run, Proc.step, hp]
  rw [this]
  simp only [hk, Proc.init, Nat.zero_add, List.count_append]
  simp

/-- What the loop knows before turn `r`. -/
structure SeenInv (W : Execution) (P : Procs) (n r : Nat) (seen : Nat → Int) : Prop where
  nonneg : ∀ i, 0 ≤ seen i
  le : ∀ i < n, seen i ≤ (W.proc r i).saved
  ended : ∀ i < n, P.exit i < r → CleanExit (W.evs i) → seen i = W.total i

/-- A process which has exited does nothing more. -/
def ExitsAt (W : Execution) (P : Procs) : Prop := ∀ r i, P.exit i ≤ r → W.done r i = (W.evs i).length

theorem SeenInv.turn {W : Execution} {P : Procs} (hex : ExitsAt W P) {n r : Nat} {s : Multi.State} {seen : Nat → Int}
    (hi : Multi.Inv P n r s) (h : SeenInv W P n r seen) :
    ∃ seen', progressTurn (W.files r) s.running seen = .ok seen' ∧ SeenInv W P n (r + 1) seen' ∧
      (∀ i, seen i ≤ seen' i) ∧ ∀ i < n, seen' i ≤ (W.proc r i).saved := by
  obtain ⟨seen', h1, h2, h3⟩ := progressTurn_spec (W.files r) s.running hi.nodup seen (fun i hir =>
    let ⟨v, hv, _⟩ := progressRead_spec (W.inv r i) (seen i) (h.nonneg i) (h.le i ((hi.running i).1 hir).1)
    ⟨v, hv⟩)
  have h4 : ∀ i ∈ s.running, seen i ≤ seen' i ∧ seen' i ≤ (W.proc r i).saved ∧
      ((W.proc r i).file = some (lenText (W.proc r i).saved) → seen' i = (W.proc r i).saved) := by
    intro i hir
    obtain ⟨v, hv, ha, hb, hc⟩ :=
      progressRead_spec (W.inv r i) (seen i) (h.nonneg i) (h.le i ((hi.running i).1 hir).1)
    have : Except.ok v = Except.ok (ε := PyErr) (seen' i) := hv.symm.trans (h3 i hir)
    cases this
    exact ⟨ha, hb, hc⟩
  have hmono : ∀ i, seen i ≤ seen' i := by
    intro i
    by_cases hir : i ∈ s.running
    · exact (h4 i hir).1
    · exact le_of_eq (h2 i hir).symm
  have hle : ∀ i < n, seen' i ≤ (W.proc r i).saved := by
    intro i hin
    by_cases hir : i ∈ s.running
    · exact (h4 i hir).2.1
    · rw [h2 i hir]; exact h.le i hin
  refine ⟨seen', h1, ⟨fun i => (h.nonneg i).trans (hmono i), fun i hin => ?_, fun i hin hexit hclean => ?_⟩, hmono, hle⟩
  · have := W.saved_succ r i
    have := hle i hin
    omega
  · by_cases hir : i ∈ s.running
    · have hd := hex r i (by omega)
      have hp : W.proc r i = Proc.init.run (W.evs i) := by
        unfold Execution.proc; rw [hd, List.take_length]
      obtain ⟨c1, c2, _⟩ := clean_run hclean
      have := (h4 i hir).2.2 (by rw [hp, c1, c2])
      rw [this, hp, c2]
      rfl
    · rw [h2 i hir]
      have := mt (hi.running i).2 hir
      exact h.ended i hin (by omega) hclean

theorem progressLoop_spec {W : Execution} {P : Procs} (hex : ExitsAt W P) {n : Nat} (fuel r : Nat) (s : Multi.State)
    (seen : Nat → Int) (hi : Multi.Inv P n r s) (h : SeenInv W P n r seen) :
    ∃ l ended, progressLoop P.poll W.files fuel r s seen = .ok (l, ended) ∧
      (seen :: l).Pairwise (fun a b => ∀ i, a i ≤ b i) ∧
      (∀ k seen', l[k]? = some seen' → (∀ i < n, 0 ≤ seen' i ∧ seen' i ≤ (W.results (r + k) i : Int))) ∧
      (ended = true → (∀ i < n, P.exit i < r + l.length) ∧
        ∀ i < n, CleanExit (W.evs i) → (l.getLast?.getD seen) i = W.total i) := by
  induction fuel generalizing r s seen with
  | zero =>
    unfold progressLoop
    split
    · rename_i he
      have hall : ∀ i < n, P.exit i < r := fun i hin => by
        have := mt (hi.running i).2 (by rw [he]; simp)
        omega
      exact ⟨[], true, rfl, by simp, by simp, fun _ => ⟨by simpa using hall, fun i hin hc => h.ended i hin (hall i hin) hc⟩⟩
    · exact ⟨[], false, rfl, by simp, by simp, by simp⟩
  | succ fuel ih =>
    unfold progressLoop
    split
    · rename_i he
      have hall : ∀ i < n, P.exit i < r := fun i hin => by
        have := mt (hi.running i).2 (by rw [he]; simp)
        omega
      exact ⟨[], true, rfl, by simp, by simp, fun _ => ⟨by simpa using hall, fun i hin hc => h.ended i hin (hall i hin) hc⟩⟩
    · obtain ⟨seen', h1, h2, h3, h4⟩ := h.turn hex hi
      obtain ⟨l, ended, g1, g2, g3, g4⟩ := ih (r + 1) _ seen' hi.turn h2
      rw [h1]
      simp only [g1]
      refine ⟨seen' :: l, ended, rfl, ?_, ?_, ?_⟩
      · rw [List.pairwise_cons]
        refine ⟨fun b hb i => ?_, g2⟩
        rcases List.mem_cons.1 hb with rfl | hb
        · exact h3 i
        · exact (h3 i).trans ((List.pairwise_cons.1 g2).1 b hb i)
      · intro k x hx i hin
        cases k with
        | zero =>
          simp only [List.getElem?_cons_zero, Option.some.injEq] at hx
          subst hx
          have := h4 i hin
          have := W.saved_le r i
          exact ⟨h2.nonneg i, by simp only [Nat.add_zero]; omega⟩
        | succ k =>
          have := g3 k x (by simpa using hx) i hin
          rw [show r + (k + 1) = r + 1 + k by omega]
          exact this
      · intro he
        obtain ⟨e1, e2⟩ := g4 he
        refine ⟨fun i hin => by have := e1 i hin; simp only [List.length_cons]; omega, fun i hin hc => ?_⟩
        have := e2 i hin hc
        rw [List.getLast?_cons]
        simpa using this

theorem SeenInv.init (W : Execution) (P : Procs) (n : Nat) : SeenInv W P n 0 (fun _ => 0) :=
  ⟨fun _ => le_refl _, fun _ _ => by omega, fun _ _ h => by omega⟩

/-! ## The progress bar of the multi-process executors -/

/-- C93: whatever the processes do and whenever their files are read (even between the truncation and the writing of a
file), the loop of the multi-process executors never fails because of these files; the numbers of results never
decrease and never exceed the numbers of results computed so far. -/
theorem C93_progress (W : Execution) (P : Procs) (hex : ExitsAt W P) (n fuel : Nat) :
    ∃ l ended, progress n P.poll W.files fuel = .ok (l, ended) ∧
      l.Pairwise (fun a b => ∀ i, a i ≤ b i) ∧
      ∀ r seen, l[r]? = some seen → ∀ i < n, 0 ≤ seen i ∧ seen i ≤ (W.results r i : Int) := by
  obtain ⟨l, ended, h1, h2, h3, _⟩ := progressLoop_spec hex fuel 0 _ _ (Multi.Inv.init P n) (SeenInv.init W P n)
  exact ⟨l, ended, h1, (List.pairwise_cons.1 h2).2, fun r seen hs i hin => by simpa using h3 r seen hs i hin⟩

theorem displayed_mono (n : Nat) (a b : Nat → Int) (h : ∀ i, a i ≤ b i) : displayed n a ≤ displayed n b := by
  unfold displayed
  exact List.sum_le_sum (fun i _ => h i)

/-- C93: the number shown by the progress bar never decreases and is never larger than the number of results computed
so far. -/
theorem C93_progress_bar (W : Execution) (P : Procs) (hex : ExitsAt W P) (n fuel : Nat) :
    ∃ l ended, progress n P.poll W.files fuel = .ok (l, ended) ∧
      (l.map (displayed n)).Pairwise (· ≤ ·) ∧
      ∀ r v, (l.map (displayed n))[r]? = some v → 0 ≤ v ∧ v ≤ ((List.range n).map (fun i => (W.results r i : Int))).sum := by
  obtain ⟨l, ended, h1, h2, h3⟩ := C93_progress W P hex n fuel
  refine ⟨l, ended, h1, ?_, ?_⟩
  · rw [List.pairwise_map]
    exact h2.imp (fun h => displayed_mono n _ _ h)
  · intro r v hv
    rw [List.getElem?_map] at hv
    cases hs : l[r]? with
    | none => rw [hs] at hv; simp at hv
    | some seen =>
      rw [hs] at hv
      simp only [Option.map_some, Option.some.injEq] at hv
      subst hv
      have hb := h3 r seen hs
      unfold displayed
      refine ⟨List.sum_nonneg ?_, List.sum_le_sum ?_⟩
      · intro x hx
        obtain ⟨i, hi, rfl⟩ := List.mem_map.1 hx
        exact (hb i (List.mem_range.1 hi)).1
      · intro i hi
        exact (hb i (List.mem_range.1 hi)).2

/-- C93: when the loop ends, the count of each process which ended normally is exact: its results have all been
counted. -/
theorem C93_progress_end (W : Execution) (P : Procs) (hex : ExitsAt W P) (n fuel : Nat) (l : List (Nat → Int))
    (h : progress n P.poll W.files fuel = .ok (l, true)) (i : Nat) (hin : i < n) (hc : CleanExit (W.evs i)) :
    (l.getLast?.getD (fun _ => 0)) i = W.total i := by
  obtain ⟨l', ended, h1, _, _, h4⟩ := progressLoop_spec hex fuel 0 _ _ (Multi.Inv.init P n) (SeenInv.init W P n)
  have : (Except.ok (l, true) : Except PyErr _) = .ok (l', ended) := h.symm.trans h1
  cases this
  exact (h4 rfl).2 i hin hc

/-- C93: the loop ends when all the processes have exited. -/
theorem C93_progress_ends (W : Execution) (P : Procs) (hex : ExitsAt W P) (n fuel : Nat)
    (hf : ∀ i < n, P.exit i < fuel) : ∃ l, progress n P.poll W.files fuel = .ok (l, true) := by
  have key : ∀ (fuel r : Nat) (s : Multi.State) (seen : Nat → Int), Multi.Inv P n r s → SeenInv W P n r seen →
      (∀ i < n, P.exit i < r + fuel) → ∃ l, progressLoop P.poll W.files fuel r s seen = .ok (l, true) := by
    intro fuel
    induction fuel with
    | zero =>
      intro r s seen hi h hf
      unfold progressLoop
      split
      · exact ⟨[], rfl⟩
      · rename_i a as he
        have := (hi.running a).1 (by rw [he]; simp)
        have := hf a this.1
        omega
    | succ fuel ih =>
      intro r s seen hi h hf
      unfold progressLoop
      split
      · exact ⟨[], rfl⟩
      · obtain ⟨seen', h1, h2, _⟩ := h.turn hex hi
        obtain ⟨l, hl⟩ := ih (r + 1) _ seen' hi.turn h2 (fun i hin => by have := hf i hin; omega)
        rw [h1]
        simp only [hl]
        exact ⟨_, rfl⟩
  exact key fuel 0 _ _ (Multi.Inv.init P n) (SeenInv.init W P n) (by simpa using hf)

/-! ## The monitoring application -/

theorem monitorRead_spec {p : Proc} (h : FileInv p) (t : List Char) (ht : p.file = some t) :
    ∃ v, monitorRead t = .ok v ∧ 0 ≤ v ∧ v ≤ p.saved ∧ (p.pending = none → v = p.saved) := by
  rcases h with ⟨h1, h2, h3⟩ | ⟨h1, n, h2, h3, h4⟩ | ⟨h1, h2, h3⟩
  · rw [h1] at ht; cases ht
  · rw [h1] at ht; cases ht
    exact ⟨0, rfl, le_refl _, by omega, by simp [h2]⟩
  · rw [h1] at ht
    obtain ⟨c, cs, hc⟩ := lenText_cons p.saved
    have hp := pyInt_lenText p.saved
    cases ht
    refine ⟨p.saved, ?_, by omega, le_refl _, fun _ => rfl⟩
    rw [hc] at hp ⊢
    exact hp

theorem detectResults_spec (W : Execution) (r : Nat) (paths : List Nat) (h : ∀ i ∈ paths, (W.files r i).isSome) :
    ∃ v, detectResults (W.files r) paths = .ok v ∧ 0 ≤ v ∧
      v ≤ (paths.map (fun i => ((W.proc r i).saved : Int))).sum ∧
      ((∀ i ∈ paths, (W.proc r i).pending = none) → v = (paths.map (fun i => ((W.proc r i).saved : Int))).sum) := by
  induction paths with
  | nil => exact ⟨0, rfl, le_refl _, by simp, by simp⟩
  | cons a paths ih =>
    obtain ⟨v, h1, h2, h3, h4⟩ := ih (fun i hi => h i (by simp [hi]))
    obtain ⟨t, ht⟩ := Option.isSome_iff_exists.1 (h a (by simp))
    obtain ⟨w, g1, g2, g3, g4⟩ := monitorRead_spec (W.inv r a) t ht
    refine ⟨w + v, ?_, by omega, ?_, ?_⟩
    · simp only [detectResults, ht, g1, h1]
    · simp only [List.map_cons, List.sum_cons]; omega
    · intro hp
      simp only [List.map_cons, List.sum_cons]
      rw [h4 (fun i hi => hp i (by simp [hi])), g4 (hp a (by simp))]

theorem monitorInit_spec {n : Nat} {files : Nat → Option (List Char)} {paths : List Nat}
    (h : monitorInit n files = .ok paths) : paths = (List.range n).filter (fun i => (files i).isSome) := by
  unfold monitorInit at h
  simp only at h
  split at h
  · cases h
  · cases h; rfl

theorem sum_filter_le (l : List Nat) (q : Nat → Bool) (f g : Nat → Int) (hf : ∀ i, f i ≤ g i) (hg : ∀ i, 0 ≤ g i) :
    ((l.filter q).map f).sum ≤ (l.map g).sum := by
  induction l with
  | nil => simp
  | cons a l ih =>
    have := hf a
    have := hg a
    rw [List.filter_cons]
    split
    · simp only [List.map_cons, List.sum_cons]; omega
    · simp only [List.map_cons, List.sum_cons]; omega

/-- C93: once the monitoring application has started, it never fails because of the files of results, and the number it
shows is never larger than the number of results computed. -/
theorem C93_monitor (W : Execution) (n : Nat) (paths : List Nat) (h : monitorInit n (W.files 0) = .ok paths) (r : Nat) :
    ∃ v, detectResults (W.files r) paths = .ok v ∧ 0 ≤ v ∧
      v ≤ ((List.range n).map (fun i => (W.results r i : Int))).sum := by
  have hp := monitorInit_spec h
  have hs : ∀ i ∈ paths, (W.files r i).isSome := by
    intro i hi
    rw [hp, List.mem_filter] at hi
    exact W.isSome_zero r i hi.2
  obtain ⟨v, h1, h2, h3, _⟩ := detectResults_spec W r paths hs
  refine ⟨v, h1, h2, h3.trans ?_⟩
  rw [hp]
  exact sum_filter_le _ _ _ _ (fun i => by have := W.saved_le r i; omega) (fun i => by omega)

/-- C93 (part): if the files of all the processes exist when the application starts and all the processes have ended
normally, the number shown is the number of results.  Missing: processes which create their file later are never
counted (`C93_monitor_late_fails`), and the number can decrease while a process writes its file
(`C93_monitor_decreases_fails`). -/
theorem C93_monitor_end_partial (W : Execution) (n : Nat) (paths : List Nat)
    (h : monitorInit n (W.files 0) = .ok paths) (hall : ∀ i < n, (W.files 0 i).isSome) (r : Nat)
    (hend : ∀ i < n, W.done r i = (W.evs i).length ∧ CleanExit (W.evs i)) :
    detectResults (W.files r) paths = .ok ((List.range n).map (fun i => (W.total i : Int))).sum := by
  have hp : paths = List.range n := by
    rw [monitorInit_spec h, List.filter_eq_self]
    exact fun i hi => hall i (List.mem_range.1 hi)
  have hfin : ∀ i < n, (W.proc r i).saved = W.total i ∧ (W.proc r i).pending = none := by
    intro i hin
    have hq : W.proc r i = Proc.init.run (W.evs i) := by
      unfold Execution.proc; rw [(hend i hin).1, List.take_length]
    obtain ⟨_, c2, c3⟩ := clean_run (hend i hin).2
    exact ⟨by rw [hq, c2]; rfl, by rw [hq, c3]⟩
  obtain ⟨v, h1, _, _, h4⟩ := detectResults_spec W r paths (by
    intro i hi
    rw [hp] at hi
    exact W.isSome_zero r i (hall i (List.mem_range.1 hi)))
  rw [h1, h4 (by intro i hi; rw [hp] at hi; exact (hfin i (List.mem_range.1 hi)).2), hp]
  congr 2
  apply List.map_congr_left
  intro i hi
  rw [(hfin i (List.mem_range.1 hi)).1]

/-- C93: the number shown depends only on the files which existed when the application was started: whatever the other
processes do, their results are never counted. -/
theorem C93_monitor_late (n : Nat) (files now now' : Nat → Option (List Char)) (paths : List Nat)
    (h : monitorInit n files = .ok paths)
    (hs : ∀ i, (files i).isSome → now i = now' i) : detectResults now paths = detectResults now' paths := by
  have hp := monitorInit_spec h
  have hm : ∀ i ∈ paths, now i = now' i := by
    intro i hi
    rw [hp, List.mem_filter] at hi
    exact hs i hi.2
  clear hp h
  induction paths with
  | nil => rfl
  | cons a paths ih =>
    simp only [detectResults]
    rw [hm a (by simp), ih (fun i hi => hm i (by simp [hi]))]

/-- A process which does not exist at instant 0, creates its file and saves three results, and one which has its file
from the beginning. -/
def lateExample : Execution where
  evs := fun i => if i = 0 then [.openW, .write] else [.openW, .write, .result, .result, .result, .openW, .write]
  done := fun r i => if i = 0 then 2 else if r = 0 then 0 else 7
  mono := by
    intro r i
    split
    · exact le_refl _
    · split
      · simp
      · simp

/-- C93 is false for the processes which start after the application: here process 1 saves three results and ends
normally, and the number shown is 0. -/
theorem C93_monitor_late_fails : ∃ (W : Execution) (paths : List Nat), monitorInit 2 (W.files 0) = .ok paths ∧
    (∀ i < 2, W.done 1 i = (W.evs i).length ∧ CleanExit (W.evs i)) ∧
    ((List.range 2).map W.total).sum = 3 ∧ detectResults (W.files 1) paths = .ok 0 := by
  have h0 : natStr 0 = ['0'] := by rw [natStr]; rfl
  refine ⟨lateExample, [0], ?_, ?_, by decide, ?_⟩
  · have h1 : (lateExample.files 0 0).isSome = true := rfl
    have h2 : (lateExample.files 0 1).isSome = false := rfl
    simp [monitorInit, List.range_succ, h1, h2]
  · intro i hi
    interval_cases i
    · exact ⟨rfl, [], rfl, rfl⟩
    · exact ⟨rfl, [.openW, .write, .result, .result, .result], rfl, rfl⟩
  · have : lateExample.files 1 0 = some (lenText 0) := rfl
    simp only [detectResults, this]
    have hp := pyInt_lenText 0
    simp only [lenText, h0, List.cons_append, List.nil_append] at hp ⊢
    simp [monitorRead, hp]

/-- A process which saves two results, and saves again. -/
def rewriteExample : Execution where
  evs := fun _ => [.openW, .write, .result, .result, .openW, .write, .openW, .write]
  done := fun r _ => 6 + r
  mono := by intro r i; omega

/-- C93 is false: the number shown can decrease (from 2 to 0 and again to 2 here), when the file is read between its
truncation and its writing; the progress bar of the executor does not change in the same case. -/
theorem C93_monitor_decreases_fails : ∃ (W : Execution) (paths : List Nat), monitorInit 1 (W.files 0) = .ok paths ∧
    detectResults (W.files 0) paths = .ok 2 ∧ detectResults (W.files 1) paths = .ok 0 ∧
    detectResults (W.files 2) paths = .ok 2 ∧ progressRead (W.files 1 0) 2 = .ok 2 := by
  have h2 : natStr 2 = ['2'] := by rw [natStr]; rfl
  have hp := pyInt_lenText 2
  have f0 : rewriteExample.files 0 0 = some (lenText 2) := rfl
  have f1 : rewriteExample.files 1 0 = some [] := rfl
  have f2 : rewriteExample.files 2 0 = some (lenText 2) := rfl
  simp only [lenText, h2, List.cons_append, List.nil_append] at hp f0 f2
  refine ⟨rewriteExample, [0], ?_, ?_, ?_, ?_, ?_⟩
  · simp [monitorInit, List.range_succ, f0]
  · simp [detectResults, f0, monitorRead, hp]
  · simp [detectResults, f1, monitorRead]
  · simp [detectResults, f2, monitorRead, hp]
  · simp [f1, progressRead]

/-- C93 is false: the application cannot be started before the first file of results exists (in particular, never for
the executors which do not write such files), it fails with `AssertionError`. -/
theorem C93_monitor_start_fails (n : Nat) (files : Nat → Option (List Char)) (h : ∀ i < n, files i = none) :
    monitorInit n files = .error .assertionError := by
  unfold monitorInit
  have : (List.range n).filter (fun i => (files i).isSome) = [] := by
    rw [List.filter_eq_nil_iff]
    intro i hi
    rw [h i (List.mem_range.1 hi)]
    simp
  simp [this]

/-- C93: when one of the files found at the start has been deleted (for example by `--delete` or by a new execution in the
same directory), the application fails instead of showing a partial number. -/
theorem C93_monitor_deleted (files : Nat → Option (List Char)) (paths : List Nat)
    (hr : ∀ i ∈ paths, ∀ t, files i = some t → ∃ v, monitorRead t = .ok v) (h : ∃ i ∈ paths, files i = none) :
    detectResults files paths = .error .fileNotFoundError := by
  induction paths with
  | nil => simp at h
  | cons a paths ih =>
    cases ha : files a with
    | none => simp only [detectResults, ha]
    | some t =>
      obtain ⟨v, hv⟩ := hr a (by simp) t ha
      have h' : ∃ i ∈ paths, files i = none := by
        obtain ⟨i, hi, hn⟩ := h
        rcases List.mem_cons.1 hi with rfl | hi
        · rw [ha] at hn; cases hn
        · exact ⟨i, hi, hn⟩
      simp only [detectResults, ha, hv, ih (fun i hi => hr i (by simp [hi])) h']

example : detectResults (fun i => if i = 1 then none else some []) [0, 1, 2] = .error .fileNotFoundError :=
  C93_monitor_deleted _ _ (by
    intro i _ t ht
    refine ⟨0, ?_⟩
    by_cases h : i = 1
    · simp [h] at ht
    · simp only [h, if_false, Option.some.injEq] at ht; subst ht; rfl) ⟨1, by simp, rfl⟩

/-! ## Which job is monitored -/

/-- The date read as the number `yyyymmddhhmmss`: the chronological order. -/
def Monitor.Date.stamp (d : Date) : Nat :=
  ((((d.year * 100 + d.month) * 100 + d.day) * 100 + d.hour) * 100 + d.minute) * 100 + d.second

/-- Dates of the calendar (years of four digits). -/
def Monitor.Date.Valid (d : Date) : Prop :=
  d.year < 10000 ∧ d.month < 100 ∧ d.day < 100 ∧ d.hour < 100 ∧ d.minute < 100 ∧ d.second < 100

theorem digitChar_lt {a b : Nat} (ha : a < 10) (hb : b < 10) : digitChar a < digitChar b ↔ a < b := by
  interval_cases a <;> interval_cases b <;> decide

theorem digitChar_inj' {a b : Nat} (ha : a < 10) (hb : b < 10) : digitChar a = digitChar b ↔ a = b := by
  interval_cases a <;> interval_cases b <;> decide

theorem append_same_lt (p : List Char) (s t : List Char) : p ++ s < p ++ t ↔ s < t := by
  induction p with
  | nil => rfl
  | cons c p ih =>
    rw [List.cons_append, List.cons_append, List.cons_lt_cons_iff]
    simp [ih]

/-- Numbers written with the same number of digits are compared as numbers. -/
theorem padded_lt (w a b : Nat) (s t : List Char) :
    padded w a ++ s < padded w b ++ t ↔ a % 10 ^ w < b % 10 ^ w ∨ (a % 10 ^ w = b % 10 ^ w ∧ s < t) := by
  induction w with
  | zero => simp [padded, Nat.mod_one]
  | succ w ih =>
    have ea : a % 10 ^ (w + 1) = a / 10 ^ w % 10 * 10 ^ w + a % 10 ^ w := by
      rw [pow_succ, Nat.mod_mul]; ring
    have eb : b % 10 ^ (w + 1) = b / 10 ^ w % 10 * 10 ^ w + b % 10 ^ w := by
      rw [pow_succ, Nat.mod_mul]; ring
    have hpos : 0 < 10 ^ w := by positivity
    have la := Nat.mod_lt a hpos
    have lb := Nat.mod_lt b hpos
    have ha : a / 10 ^ w % 10 < 10 := Nat.mod_lt _ (by omega)
    have hb : b / 10 ^ w % 10 < 10 := Nat.mod_lt _ (by omega)
    rw [padded, padded, List.cons_append, List.cons_append, List.cons_lt_cons_iff, ih, digitChar_lt ha hb,
      digitChar_inj' ha hb, ea, eb]
    generalize a / 10 ^ w % 10 = x at *
    generalize b / 10 ^ w % 10 = y at *
    generalize a % 10 ^ w = u at *
    generalize b % 10 ^ w = v at *
    generalize 10 ^ w = m at *
    rcases lt_trichotomy x y with h | h | h
    · have h1 : x * m + u < y * m + v := by
        have : (x + 1) * m ≤ y * m := Nat.mul_le_mul_right m h
        rw [Nat.add_mul] at this
        omega
      simp [h, h1]
    · subst h
      simp
    · have h1 : y * m + v < x * m + u := by
        have : (y + 1) * m ≤ x * m := Nat.mul_le_mul_right m h
        rw [Nat.add_mul] at this
        omega
      have h2 : ¬ x < y := by omega
      have h3 : x ≠ y := by omega
      have h4 : ¬ (x * m + u < y * m + v) := by omega
      have h5 : x * m + u ≠ y * m + v := by omega
      simp [h2, h3, h4, h5]

/-- The names of the jobs are in the chronological order. -/
theorem jobName_lt (d d' : Date) (hv : d.Valid) (hv' : d'.Valid) (h : d.stamp < d'.stamp) (pid pid' : Nat)
    (s s' : List Char) : jobName d pid s < jobName d' pid' s' := by
  obtain ⟨h1, h2, h3, h4, h5, h6⟩ := hv
  obtain ⟨g1, g2, g3, g4, g5, g6⟩ := hv'
  have e4 : ∀ x, x < 10000 → x % 10 ^ 4 = x := fun x hx => Nat.mod_eq_of_lt (by omega)
  have e2 : ∀ x, x < 100 → x % 10 ^ 2 = x := fun x hx => Nat.mod_eq_of_lt (by omega)
  unfold jobName timeStr
  simp only [List.append_assoc]
  rw [append_same_lt, padded_lt, e4 _ h1, e4 _ g1, append_same_lt, padded_lt, e2 _ h2, e2 _ g2, append_same_lt,
    padded_lt, e2 _ h3, e2 _ g3, append_same_lt, padded_lt, e2 _ h4, e2 _ g4, append_same_lt, padded_lt, e2 _ h5,
    e2 _ g5, append_same_lt, padded_lt, e2 _ h6, e2 _ g6]
  unfold Monitor.Date.stamp at h
  omega

theorem pickJob_spec (names : List (List Char)) (x : List Char) (h : pickJob names = some x) :
    x ∈ names ∧ globJob x = true ∧ ∀ y ∈ names, globJob y = true → y ≤ x := by
  unfold pickJob at h
  set l := (names.filter globJob).insertionSort (fun a b => a ≤ b) with hl
  have hm : ∀ y, y ∈ l ↔ y ∈ names ∧ globJob y = true := by
    intro y
    rw [hl, List.mem_insertionSort, List.mem_filter]
  have hs : l.Pairwise (· ≤ ·) := List.pairwise_insertionSort _ _
  have hx := (hm x).1 (List.mem_of_getLast? h)
  refine ⟨hx.1, hx.2, fun y hy hg => ?_⟩
  have hyl := (hm y).2 ⟨hy, hg⟩
  obtain ⟨l', hl'⟩ := List.getLast?_eq_some_iff.1 h
  rw [hl'] at hs hyl
  rcases List.mem_append.1 hyl with hy' | hy'
  · exact (List.pairwise_append.1 hs).2.2 y hy' x (by simp)
  · simp only [List.mem_singleton] at hy'
    rw [hy']
    exact List.le_refl x

/-- C93: the job monitored is one of the last ones: no job of the result directory has been started in a later second.
-/
theorem C93_job (names : List (List Char)) (d d' : Date) (pid pid' : Nat) (s s' : List Char) (hv : d.Valid)
    (hv' : d'.Valid) (h : pickJob names = some (jobName d pid s)) (hm : jobName d' pid' s' ∈ names) :
    d'.stamp ≤ d.stamp := by
  by_contra hc
  have hlt := jobName_lt d d' hv hv' (by omega) pid pid' s s'
  have := (pickJob_spec _ _ h).2.2 _ hm (by simp [globJob, jobName])
  exact absurd hlt this

/-- C93: a job is found as soon as there is one. -/
theorem C93_job_found (names : List (List Char)) : pickJob names = none ↔ ∀ x ∈ names, globJob x = false := by
  unfold pickJob
  rw [List.getLast?_eq_none_iff]
  constructor
  · intro h x hx
    by_contra hc
    have : x ∈ (names.filter globJob).insertionSort (fun a b => a ≤ b) := by
      rw [List.mem_insertionSort, List.mem_filter]
      exact ⟨hx, by simpa using hc⟩
    rw [h] at this
    cases this
  · intro h
    have : names.filter globJob = [] := by
      rw [List.filter_eq_nil_iff]
      intro x hx
      simp [h x hx]
    rw [this]
    rfl

/-- C93 is false for the jobs started in the same second: with the identifiers of processes 9999 and 10000, whichever
has been started first, the first one is monitored. -/
theorem C93_same_second_fails (d : Date) (names : List (List Char))
    (hn : names.Perm [jobName d 9999 [], jobName d 10000 []]) :
    pickJob names = some (jobName d 9999 []) := by
  have h9 : natStr 9999 = ['9', '9', '9', '9'] := by
    rw [natStr, natStr, natStr, natStr]; rfl
  have h1 : natStr 10000 = ['1', '0', '0', '0', '0'] := by
    rw [natStr, natStr, natStr, natStr, natStr]; rfl
  have hlt : jobName d 10000 [] < jobName d 9999 [] := by
    unfold jobName
    rw [h9, h1]
    simp only [List.append_assoc]
    rw [append_same_lt, append_same_lt]
    simp only [List.cons_append, List.nil_append, List.append_nil]
    decide
  cases hp : pickJob names with
  | none =>
    have := (C93_job_found names).1 hp _ (hn.mem_iff.2 (by simp : jobName d 9999 [] ∈ _))
    simp [globJob, jobName] at this
  | some x =>
    obtain ⟨h1, _, h3⟩ := pickJob_spec _ _ hp
    have hx := hn.mem_iff.1 h1
    simp only [List.mem_cons, List.not_mem_nil, or_false] at hx
    rcases hx with rfl | rfl
    · rfl
    · have := h3 _ (hn.mem_iff.2 (by simp : jobName d 9999 [] ∈ _)) (by simp [globJob, jobName])
      exact absurd hlt this

/-! ## Is the job running? -/

/-- C93 (part): in every history of the result directory, for an executor whose lock file is in its job directory, the
application says that the job is running while it runs, and not any more after its end.  Missing: the executors which
put their lock file elsewhere (`C93_running_fails`). -/
theorem C93_running_partial (tree : ResultDir.FS) (s : JobDir.State) (h : JobDir.Reach tree s) (e : JobDir.Exe)
    (he : e ∈ s.exes) (hl : e.lockDir = JobDir.jobDir e.pfx) :
    (e.phase = .running → jobIsRunning s.fs e.pfx = true) ∧ (e.phase = .ended → jobIsRunning s.fs e.pfx = false) := by
  obtain ⟨h1, h2⟩ := C19_lock_iff_running tree s h e he
  unfold jobIsRunning
  rw [hl] at h1 h2
  exact ⟨fun hp => by simpa using h1 hp, fun hp => by simpa using (h2 hp).1⟩

/-- C93 is false for a second multi-process executor started in the same second by the same process: it runs and the
application says that it does not. -/
theorem C93_running_fails : ∃ s e, JobDir.Reach [] s ∧ e ∈ s.exes ∧ e.phase = .running ∧
    jobIsRunning s.fs e.pfx = false := by
  have h1 : natStr 1 = ['1'] := by rw [natStr]; rfl
  have e : jobHistory ⟨⟨[], [], []⟩, []⟩ [.build true ['x'], .start 0, .release 0, .build true ['x'], .start 1] =
      some (⟨⟨[(JobDir.logDir ['x'], true), (JobDir.jobDir ['x'], true), (JobDir.logDir ['x', '1'], true),
          (JobDir.jobDir ['x', '1'], true)], [JobDir.logDir ['x', '1']], [JobDir.jobDir ['x']]⟩,
        [⟨['x'], JobDir.jobDir ['x'], .ended⟩, ⟨['x', '1'], JobDir.logDir ['x', '1'], .running⟩]⟩,
        [none, none, none, none, none]) := by
    simp [jobHistory, JobDir.step, JobDir.build, JobDir.initLogPath, JobDir.start, JobDir.saveLock,
      JobDir.releaseLock, JobDir.jobDir, JobDir.logDir, ResultDir.FS.exists, ResultDir.FS.isDir, ResultDir.searchFree,
      h1, ResultDir.mkdirExistOk]
  refine ⟨_, ⟨['x', '1'], JobDir.logDir ['x', '1'], .running⟩, jobHistory_reach (tree := []) .init e, by simp, rfl, ?_⟩
  simp [jobIsRunning, JobDir.jobDir, JobDir.logDir]

/-! ## Non-vacuity -/

/-- Two processes which exit in turns 2 and 1, the file of the first one being truncated when it is read in turn 1. -/
def progressExample : Execution where
  evs := fun i => if i = 0 then [.openW, .write, .result, .openW, .write, .openW, .write] else [.result, .openW, .write]
  done := fun r i => if i = 0 then (if r = 0 then 3 else if r = 1 then 4 else 7) else (if r = 0 then 2 else 3)
  mono := by intro r i; match r with | 0 => split <;> simp | 1 => split <;> simp | r + 2 => split <;> simp

example : ExitsAt progressExample ⟨fun i => if i = 0 then 2 else 1, fun _ => 0⟩ ∧
    (∀ i, CleanExit (progressExample.evs i)) ∧ progressExample.total 0 = 1 ∧ progressExample.total 1 = 1 := by
  refine ⟨?_, ?_, by decide, by decide⟩
  · intro r i h
    by_cases hi : i = 0
    · subst hi
      simp only [if_true] at h
      have : r ≠ 0 ∧ r ≠ 1 := by omega
      simp [progressExample, this.1, this.2]
    · simp only [hi, if_false] at h
      have : r ≠ 0 := by omega
      simp [progressExample, hi, this]
  · intro i
    by_cases hi : i = 0
    · exact ⟨[.openW, .write, .result, .openW, .write], by simp [progressExample, hi], rfl⟩
    · exact ⟨[.result], by simp [progressExample, hi], rfl⟩

/-- The application started when the two files exist. -/
example : ∃ paths, monitorInit 2 (progressExample.files 0) = .ok paths ∧ paths = [0, 1] := by
  have h0 : (progressExample.files 0 0).isSome = true := rfl
  have h1 : (progressExample.files 0 1).isSome = true := rfl
  exact ⟨[0, 1], by simp [monitorInit, List.range_succ, h0, h1], rfl⟩

example : (⟨2024, 12, 31, 23, 59, 59⟩ : Date).Valid ∧
    (⟨2024, 12, 31, 23, 59, 59⟩ : Date).stamp < (⟨2025, 1, 1, 0, 0, 0⟩ : Date).stamp := by
  constructor
  · simp [Monitor.Date.Valid]
  · decide

end Verif
