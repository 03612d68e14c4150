import Mathlib.Logic.Function.Iterate
import Verif.Model.Bos
import Verif.Exec.Preserve
import Verif.Exec.Labels
import Verif.Exec.CanFinish
import Verif.Props.Executors

/-!
# C28: BOS
-/

namespace Verif
open Verif.Exec Verif.Spec Verif.Bos

/-! ## Which images are computed -/

section
variable {ι : Type} [DecidableEq ι]

theorem fixIndices_in {serie : Serie ι} {ref : FilePath} (hdir : ref.dirs = serie.dir)
    (hbase : serie.baseName.isPrefixOf ref.name = true) (indices : List ι) :
    fixIndices serie ref indices = match serie.indicesOf ref.name with
      | .error _ => indices
      | .ok i => indices.erase i := by
  unfold fixIndices
  have : serie.dir.isPrefixOf (ref.dirs ++ [ref.name]) = true := by
    rw [hdir, List.isPrefixOf_iff_prefix]; exact List.prefix_append _ _
  rw [this, hbase]
  rfl

/-- C28: if the reference is in the directory of the serie, the images in the queue are all the selected images except
the reference, in the same order (in mode "complete", only those whose result does not exist). -/
theorem C28_reference_excluded {serie : Serie ι} {ref : FilePath} (hdir : ref.dirs = serie.dir)
    (hbase : ∀ i, serie.nameOf i = ref.name → serie.baseName.isPrefixOf ref.name = true)
    (hinv : ∀ i, serie.indicesOf (serie.nameOf i) = .ok i) (hinv' : ∀ n i, serie.indicesOf n = .ok i → serie.nameOf i = n)
    {indices : List ι} (hnd : indices.Nodup) (done : ι → Bool) :
    fillQueue serie (indicesToCompute serie ref false done indices) =
      (indices.map serie.nameOf).filter (fun n => decide (n ≠ ref.name)) ∧
    fillQueue serie (indicesToCompute serie ref true done indices) =
      ((indices.filter (fun i => !done i)).map serie.nameOf).filter (fun n => decide (n ≠ ref.name)) := by
  have key : ∀ l : List ι, l.Nodup → (fixIndices serie ref l).map serie.nameOf =
      (l.map serie.nameOf).filter (fun n => decide (n ≠ ref.name)) := by
    intro l hl
    by_cases hex : ∃ i, serie.nameOf i = ref.name
    · obtain ⟨i, hi⟩ := hex
      have h1 := hinv i
      rw [hi] at h1
      rw [fixIndices_in hdir (hbase i hi), h1]
      simp only
      rw [hl.erase_eq_filter, List.filter_map]
      congr 1
      apply List.filter_congr
      intro j _
      simp only [Function.comp_apply, bne, beq_eq_decide]
      by_cases hji : j = i
      · simp [hji, hi]
      · have : serie.nameOf j ≠ ref.name := by
          intro h2
          have := hinv j
          rw [h2, h1] at this
          exact hji (by cases this; rfl)
        simp [hji, this]
    · have hno : ∀ n ∈ l.map serie.nameOf, n ≠ ref.name := by
        intro n hn he
        obtain ⟨i, _, rfl⟩ := List.mem_map.1 hn
        exact hex ⟨i, he⟩
      have h2 : (l.map serie.nameOf).filter (fun n => decide (n ≠ ref.name)) = l.map serie.nameOf :=
        List.filter_eq_self.2 (fun n hn => by simpa using hno n hn)
      rw [h2]
      congr 1
      unfold fixIndices
      split
      · rfl
      · split
        · rfl
        · split
          · rfl
          · rename_i i hi
            exact absurd ⟨i, hinv' _ _ hi⟩ hex
  exact ⟨key indices hnd, key _ (hnd.filter _)⟩

/-- C28: if the reference is an image outside of the directory of the serie, all the selected images are computed. -/
theorem C28_other_reference {serie : Serie ι} {ref : FilePath} (hdir : ¬ serie.dir <+: ref.dirs ++ [ref.name])
    (indices : List ι) : fixIndices serie ref indices = indices := by
  unfold fixIndices
  rw [if_pos]
  rw [Bool.not_eq_true', ← Bool.not_eq_true, List.isPrefixOf_iff_prefix]
  exact hdir

/-- C28 fails when the reference is in a sub-directory of the directory of the serie: the image of the serie which has
the name of the reference is not computed, although it is another image. -/
theorem C28_reference_in_subdirectory_fails :
    ∃ (serie : Serie ℕ) (ref : FilePath) (indices : List ℕ), indices.Nodup ∧
      (∀ i ∈ indices, (⟨serie.dir, serie.nameOf i⟩ : FilePath) ≠ ref) ∧
      fillQueue serie (indicesToCompute serie ref false (fun _ => false) indices) ≠ indices.map serie.nameOf := by
  refine ⟨⟨[['d']], ['i'], fun n => if n = ['i', '0'] then .ok 0 else if n = ['i', '1'] then .ok 1 else .error .valueError,
    fun i => if i = 0 then ['i', '0'] else ['i', '1']⟩, ⟨[['d'], ['r']], ['i', '0']⟩, [0, 1], by decide, ?_, by decide⟩
  intro i _ h
  have := congrArg FilePath.dirs h
  simp at this

/-- C28: the reference given as an integer is the image of this index in the sorted list of names; negative indices
count from the end; out of bounds is an error. -/
theorem C28_reference_of_integer (dir : List (List Char)) (names : List (List Char)) (i : ℕ) :
    (∀ h : i < names.length, pathReferenceOfInt dir names i = .ok ⟨dir, names[i]⟩) ∧
    (∀ h : i < names.length, pathReferenceOfInt dir names (-(i : Int) - 1) =
      .ok ⟨dir, names[names.length - 1 - i]⟩) ∧
    (names.length ≤ i → pathReferenceOfInt dir names i = .error .indexError ∧
      pathReferenceOfInt dir names (-(i : Int) - 1) = .error .indexError) := by
  refine ⟨?_, ?_, ?_⟩
  · intro h
    simp only [pathReferenceOfInt]
    rw [if_neg (by omega), if_neg (by omega)]
    simp [h]
  · intro h
    simp only [pathReferenceOfInt]
    have hneg : -(i : Int) - 1 < 0 := by omega
    simp only [hneg, if_true]
    rw [if_neg (by omega)]
    have : (-(i : Int) - 1 + names.length).toNat = names.length - 1 - i := by omega
    rw [this, List.getElem?_eq_getElem (by omega)]
  · intro h
    constructor
    · simp only [pathReferenceOfInt]
      rw [if_neg (by omega), if_neg (by omega)]
      simp [h]
    · simp only [pathReferenceOfInt]
      have hneg : -(i : Int) - 1 < 0 := by omega
      simp only [hneg, if_true]
      rw [if_pos (by omega)]

end

/-- A serie of two images; the reference is the first one. -/
example : ∃ (serie : Serie ℕ) (ref : FilePath), ref.dirs = serie.dir ∧
    (fixIndices serie ref [0, 1]).map serie.nameOf = [['i', '1']] :=
  ⟨⟨[['d']], ['i'], fun n => if n = ['i', '0'] then .ok 0 else .error .valueError,
    fun i => if i = 0 then ['i', '0'] else ['i', '1']⟩, ⟨[['d']], ['i', '0']⟩, rfl, by decide⟩

/-! ## Execution without image-to-image function -/

section
variable {α ε : Type}

/-- What has to happen: every image of the queue is read, computed and saved, in this order, each once (an error stops
the processing of this image only), and nothing else happens. -/
def BosDone (read bos save : List Char → α → Except ε α) (pathOf : List Char → α) (names : List (List Char))
    (log : List (Event (List Char) α ε)) : Prop :=
  (∀ n ∈ names, historyOf n log = itemEvents n 0 [⟨true, read⟩, ⟨false, bos⟩, ⟨true, save⟩] (.ok (pathOf n))) ∧
  (∀ n ∉ names, historyOf n log = [])

/-- The queue of the paths. -/
def bosItems (pathOf : List Char → α) (names : List (List Char)) : Dict (List Char) (Except ε α) :=
  names.map (fun n => (n, .ok (pathOf n)))

theorem bosItems_get (pathOf : List Char → α) (names : List (List Char)) (n : List Char) :
    Dict.get? (bosItems (ε := ε) pathOf names) n = if n ∈ names then some (.ok (pathOf n)) else none := by
  induction names with
  | nil => rfl
  | cons m names ih =>
    simp only [bosItems, List.map_cons, Dict.get?] at ih ⊢
    by_cases h : m = n
    · subst h; simp
    · rw [if_neg h, ih]
      simp [Ne.symm h]

theorem bosItems_unique (pathOf : List Char → α) {names : List (List Char)} (h : names.Nodup) :
    Dict.KeysUnique (bosItems (ε := ε) pathOf names) := by
  unfold Dict.KeysUnique bosItems Dict.keys
  simpa [Function.comp_def] using h

/-- C28 without image-to-image function: with the asynchronous executor, whatever the schedule, when the execution
stops, every image of the queue has been processed once; under a fair scheduler it stops. -/
theorem C28_no_preproc_async_partial (read bos save : List Char → α → Except ε α) (pathOf : List Char → α)
    {names : List (List Char)} (hn : names.Nodup) (c : Cfg) :
    (∀ ls s, ARun (chain (Bos.works read bos save)) c (AState.init (startQueues (bosItems pathOf names)) ()) ls s →
      s.stop = true → BosDone read bos save pathOf names s.log) ∧
    (0 < c.maxWorkers → 0 < c.queueMax → ∀ (run : Nat → AState (List Char) α ε Unit) (lab : Nat → Label),
      run 0 = AState.init (startQueues (bosItems pathOf names)) () → Infinite (chain (Bos.works read bos save)) c run lab →
      Fair (chain (Bos.works read bos save)) c run lab → ∃ m, (run m).stop = true) := by
  constructor
  · intro ls s hrun hs
    obtain ⟨h1, h2, _⟩ := C10_async_schedule _ (by simp [Bos.works]) _ (bosItems_unique pathOf hn) c ls s hrun hs
    exact ⟨fun n hn => h1 n _ (by rw [bosItems_get, if_pos hn]), fun n hn => h2 n (by rw [bosItems_get, if_neg hn])⟩
  · intro h1 h2 run lab h3 h4 h5
    exact C12_async_finishes_chain _ _ c h1 h2 run lab h3 h4 h5

/-- C28 without image-to-image function: with the sequential executor, the execution ends and every image of the queue
has been processed once. -/
theorem C28_no_preproc_sequential_partial (read bos save : List Char → α → Except ε α) (pathOf : List Char → α)
    {names : List (List Char)} (hn : names.Nodup) (c : Cfg) (hc : c.stopIfError = false) :
    ∃ n s, seqLoop (chain (Bos.works read bos save)) c n (SState.init (startQueues (bosItems pathOf names)) ()) = some s ∧
      s.crashed = none ∧ BosDone read bos save pathOf names s.log := by
  obtain ⟨n, s, h1, h2, _, h3, h4, _⟩ := C09_sequential_chain (Bos.works read bos save) (by simp [Bos.works]) _
    (bosItems_unique pathOf hn) c hc
  exact ⟨n, s, h1, h2, fun n hn => h3 n _ (by rw [bosItems_get, if_pos hn]),
    fun n hn => h4 n (by rw [bosItems_get, if_neg hn])⟩

/-! ## Execution with an image-to-image function -/

section
variable {κ : Type} [DecidableEq κ]

theorem set_ne_nil (d : Dict κ (Except ε α)) (k : κ) (r : Except ε α) : d.set k r ≠ [] := by
  cases d with
  | nil => simp [Dict.set]
  | cons kv d =>
    obtain ⟨k', v⟩ := kv
    simp only [Dict.set]
    split <;> simp

theorem put_keeps {q : Queues κ α ε} {out : Option Nat} {k : κ} {r : Except ε α} (h : q 3 ≠ []) : put q out k r 3 ≠ [] := by
  cases out with
  | none => exact h
  | some o =>
    simp only [put, upd]
    split
    · exact set_ne_nil _ _ _
    · exact h

/-- No work reads the queue of the preprocessed images. -/
theorem bos_inp {read im2im bos save : κ → α → Except ε α} {w inp : Nat} {out io f}
    (hw : (topologyPreproc read im2im bos save).works[w]? = some (Work.item inp out io f)) :
    inp ≠ 3 ∧ (w = 1 → out = some 3) := by
  match w with
  | 0 => simp only [topologyPreproc, List.getElem?_cons_zero, Option.some.injEq, Work.item.injEq] at hw; omega
  | 1 =>
    simp only [topologyPreproc, List.getElem?_cons_succ, List.getElem?_cons_zero, Option.some.injEq, Work.item.injEq] at hw
    exact ⟨by omega, fun _ => hw.2.1.symm⟩
  | 2 =>
    simp only [topologyPreproc, List.getElem?_cons_succ, List.getElem?_cons_zero, Option.some.injEq, Work.item.injEq] at hw
    exact ⟨by omega, by omega⟩
  | 3 =>
    simp only [topologyPreproc, List.getElem?_cons_succ, List.getElem?_cons_zero, Option.some.injEq, Work.item.injEq] at hw
    exact ⟨by omega, by omega⟩
  | w + 4 => simp [topologyPreproc] at hw

theorem bos_no_glob {read im2im bos save : κ → α → Except ε α} {w : Nat} {ready outLen run} :
    (topologyPreproc read im2im bos save).works[w]? ≠ some (Work.glob ready outLen run) := by
  match w with
  | 0 | 1 | 2 | 3 => simp [topologyPreproc]
  | w + 4 => simp [topologyPreproc]

theorem bos_stuck_step {read im2im bos save : κ → α → Except ε α} {c : Cfg} {l : Label} {s s' : AState κ α ε Unit}
    (hs : StepCase (topologyPreproc read im2im bos save) c l s s') (h : s.q 3 ≠ []) : s'.q 3 ≠ [] := by
  cases hs with
  | launch => exact h
  | beginEmpty => exact h
  | beginError hw =>
    refine put_keeps ?_
    have := (bos_inp hw).1
    simp [upd, Ne.symm this, h]
  | beginOk hw =>
    have := (bos_inp hw).1
    simp [upd, Ne.symm this, h]
  | finish => simp only [decr_q]; exact put_keeps h
  | finishCrash => exact h
  | glob hw => exact absurd hw bos_no_glob
  | globCrash => exact h
  | checkStop => exact h
  | check => exact h

theorem bos_wellFormed (read im2im bos save : κ → α → Except ε α) : WellFormed (topologyPreproc read im2im bos save) where
  inp_lt := by
    intro w inp out io f hw
    match w with
    | 0 | 1 | 2 | 3 => simp [topologyPreproc] at hw ⊢; omega
    | w + 4 => simp [topologyPreproc] at hw
  ready := fun hw => absurd hw bos_no_glob

/-- C28 fails with an image-to-image function, asynchronous executor: in every execution which ends, the
image-to-image function has never been called: the images which are computed are the raw images. -/
theorem C28_preproc_ignored_fails (read im2im bos save : κ → α → Except ε α) (c : Cfg) (items : Dict κ (Except ε α))
    (ls : List Label) (s : AState κ α ε Unit)
    (hrun : ARun (topologyPreproc read im2im bos save) c (AState.init (startQueues items) ()) ls s)
    (hstop : s.stop = true) : ∀ k v, Event.call 1 k v ∉ s.log := by
  obtain ⟨h1, h3, h4, h2, h5⟩ := C11_never_stops_early _ (bos_wellFormed _ _ _ _) c _ _ ls s hrun hstop
  have key : s.crashed = none → s.q 3 = [] → ∀ k v, Event.call 1 k v ∉ s.log := by
    clear hstop h1 h2 h3 h4 h5
    induction hrun with
    | nil => simp [AState.init]
    | snoc hrun hstep ih =>
      obtain ⟨hc, hcase⟩ := astep_cases hstep
      intro hc' hq3
      have this := ih hc (by
        by_contra hne
        exact bos_stuck_step hcase hne hq3)
      cases hcase with
      | launch => exact this
      | beginEmpty => exact this
      | @beginError w s inp out io f k e rest hw =>
        intro k' v' hm
        simp only [List.mem_append] at hm
        rcases hm with hm | hm
        · exact this k' v' hm
        · cases out <;> simp [forwardEvents] at hm
      | beginOk => intro k' v'; simpa using this k' v'
      | @finish i s t inp out io f ht hw =>
        intro k' v' hm
        simp only [decr_log, List.mem_append] at hm
        rcases hm with hm | hm
        · exact this k' v' hm
        · have hw1 : t.w = 1 := by
            unfold callEvents at hm
            split at hm <;> simp at hm
            · exact hm.1.symm
            · exact hm.1.symm
          have := (bos_inp hw).2 hw1
          subst this
          simp only [decr_q, put, upd, if_true] at hq3
          exact set_ne_nil _ _ _ hq3
      | finishCrash => simp at hc'
      | glob hw => exact absurd hw bos_no_glob
      | globCrash => exact this
      | checkStop => exact this
      | check => exact this
  exact key h2 (h1 3 (by simp [topologyPreproc]))

/-- C28 fails with an image-to-image function, asynchronous executor: as soon as an image has been given to the
image-to-image function and its result is in the queue of the preprocessed images, the execution can never end. -/
theorem C28_preproc_never_ends_fails (read im2im bos save : κ → α → Except ε α) (c : Cfg) (items : Dict κ (Except ε α))
    (ls ls' : List Label) (s s' : AState κ α ε Unit)
    (hrun : ARun (topologyPreproc read im2im bos save) c (AState.init (startQueues items) ()) ls s)
    (hq : s.q 3 ≠ []) (hrun' : ARun (topologyPreproc read im2im bos save) c s ls' s') : s'.stop = false := by
  have hkeep : s'.q 3 ≠ [] := by
    clear hrun
    induction hrun' with
    | nil => exact hq
    | snoc _ hstep ih => exact bos_stuck_step (astep_cases hstep).2 ih
  cases hs : s'.stop with
  | false => rfl
  | true =>
    have h1 := (C11_never_stops_early _ (bos_wellFormed _ _ _ _) c _ _ _ s' (hrun.trans hrun') hs).1
    exact absurd (h1 3 (by simp [topologyPreproc])) hkeep

/-- Such a state is reached with one image. -/
example : ∃ s, runLabels (topologyPreproc (fun (_ : ℕ) (v : ℕ) => (.ok v : Except Unit ℕ)) (fun _ v => .ok (v + 1))
    (fun _ v => .ok v) (fun _ v => .ok v)) ⟨1, 1, false⟩ [.launch 0, .begin 0, .finish 0, .launch 1, .begin 1, .finish 0]
    (AState.init (startQueues [(0, .ok 5)]) ()) = some s ∧ s.q 3 = [(0, .ok 6)] := by
  refine ⟨_, rfl, rfl⟩

/-! ### Sequential executor -/

/-- Between two rounds of the sequential executor: no image waits for the computation, and something remains. -/
structure BosStuck (s : SState κ α ε Unit) : Prop where
  ok : s.crashed = none
  arrays : s.q 1 = []
  fields : s.q 2 = []
  left : s.q 0 ≠ [] ∨ s.q 3 ≠ []
  log : ∀ k v, Event.call 2 k v ∉ s.log

theorem bosStuck_round {read im2im bos save : κ → α → Except ε α} {c : Cfg} (hc : c.stopIfError = false)
    {s : SState κ α ε Unit} (h : BosStuck s) :
    BosStuck (seqWorks c 0 (topologyPreproc read im2im bos save).works s) := by
  obtain ⟨q, aux, log, crashed⟩ := s
  obtain ⟨h1, h2, h3, h4, h5⟩ := h
  simp only at h1 h2 h3 h4 h5
  subst h1
  simp only [topologyPreproc, seqWorks]
  -- reading
  cases hq0 : q 0 with
  | nil =>
    have e0 : ∀ w io f, seqWork c w (.item 0 (some 1) io f) ⟨q, aux, log, none⟩ = ⟨q, aux, log, none⟩ := by
      intros; simp [seqWork, hq0, Dict.popFirst]
    have e1 : ∀ w o io f, seqWork c w (.item 1 o io f) ⟨q, aux, log, none⟩ = ⟨q, aux, log, none⟩ := by
      intros; simp [seqWork, h2, Dict.popFirst]
    have e2 : ∀ w o io f, seqWork c w (.item 2 o io f) ⟨q, aux, log, none⟩ = ⟨q, aux, log, none⟩ := by
      intros; simp [seqWork, h3, Dict.popFirst]
    rw [e0, e1, e1, e2]
    exact ⟨rfl, h2, h3, h4, h5⟩
  | cons kv rest =>
    obtain ⟨k, r⟩ := kv
    have e0 : ∃ r' evs, seqWork c 0 (.item 0 (some 1) true read) ⟨q, aux, log, none⟩ =
        ⟨upd (upd q 0 rest) 1 [(k, r')], aux, log ++ evs, none⟩ ∧ ∀ k v, Event.call 2 k v ∉ evs := by
      cases r with
      | error e =>
        refine ⟨.error e, [], ?_, by simp⟩
        simp [seqWork, hq0, Dict.popFirst, forward, put, upd, h2, Dict.set]
      | ok v =>
        cases hf : read k v with
        | ok r => exact ⟨.ok r, [.call 0 k v], by simp [seqWork, hq0, Dict.popFirst, hf, put, upd, h2, Dict.set], by simp⟩
        | error e =>
          exact ⟨.error e, [.call 0 k v, .failed 0 k e],
            by simp [seqWork, hq0, Dict.popFirst, hf, put, upd, h2, Dict.set, hc], by simp⟩
    obtain ⟨r', evs, e0, hevs⟩ := e0
    rw [e0]
    have e1 : ∃ q' evs', seqWork c 1 (.item 1 (some 3) false im2im) ⟨upd (upd q 0 rest) 1 [(k, r')], aux, log ++ evs, none⟩ =
        ⟨q', aux, (log ++ evs) ++ evs', none⟩ ∧ q' 1 = [] ∧ q' 2 = [] ∧ q' 3 ≠ [] ∧ ∀ k v, Event.call 2 k v ∉ evs' := by
      cases r' with
      | error e =>
        refine ⟨put (upd (upd (upd q 0 rest) 1 [(k, .error e)]) 1 []) (some 3) k (.error e), [], ?_, ?_, ?_, ?_, by simp⟩
        · simp [seqWork, Dict.popFirst, forward, put, upd]
        · simp [put, upd]
        · simp [put, upd, h3]
        · simpa [put, upd] using set_ne_nil _ _ _
      | ok v =>
        cases hf : im2im k v with
        | ok r =>
          refine ⟨put (upd (upd (upd q 0 rest) 1 [(k, .ok v)]) 1 []) (some 3) k (.ok r), [.call 1 k v], ?_, ?_, ?_, ?_, by simp⟩
          · simp [seqWork, Dict.popFirst, hf, upd]
          · simp [put, upd]
          · simp [put, upd, h3]
          · simpa [put, upd] using set_ne_nil _ _ _
        | error e =>
          refine ⟨put (upd (upd (upd q 0 rest) 1 [(k, .ok v)]) 1 []) (some 3) k (.error e),
            [.call 1 k v, .failed 1 k e], ?_, ?_, ?_, ?_, by simp⟩
          · simp [seqWork, Dict.popFirst, hf, upd, hc]
          · simp [put, upd]
          · simp [put, upd, h3]
          · simpa [put, upd] using set_ne_nil _ _ _
    obtain ⟨q', evs', e1, hq1, hq2, hq3, hevs'⟩ := e1
    rw [Nat.zero_add, e1]
    have e2 : ∀ w o io f, seqWork c w (.item 1 o io f) ⟨q', aux, log ++ evs ++ evs', none⟩ = ⟨q', aux, log ++ evs ++ evs', none⟩ := by
      intros; simp [seqWork, hq1, Dict.popFirst]
    have e3 : ∀ w o io f, seqWork c w (.item 2 o io f) ⟨q', aux, log ++ evs ++ evs', none⟩ = ⟨q', aux, log ++ evs ++ evs', none⟩ := by
      intros; simp [seqWork, hq2, Dict.popFirst]
    rw [e2, e3]
    exact ⟨rfl, hq1, hq2, Or.inr hq3, by simp [h5, hevs, hevs']⟩

/-- C28 fails with an image-to-image function, sequential executor: as soon as there is an image to compute, whatever
the functions, the loop of the executor never ends, and no image is ever computed. -/
theorem C28_preproc_sequential_fails (read im2im bos save : κ → α → Except ε α) (c : Cfg) (hc : c.stopIfError = false)
    (items : Dict κ (Except ε α)) (hitems : items ≠ []) (n : ℕ) :
    seqLoop (topologyPreproc read im2im bos save) c n (SState.init (startQueues items) ()) = none ∧
    ∀ k v, Event.call 2 k v ∉
      ((seqWorks c 0 (topologyPreproc read im2im bos save).works)^[n] (SState.init (startQueues items) ())).log := by
  have h0 : BosStuck (SState.init (startQueues items) () : SState κ α ε Unit) :=
    ⟨rfl, rfl, rfl, Or.inl (by simpa [SState.init, startQueues] using hitems), by simp [SState.init]⟩
  generalize (SState.init (startQueues items) () : SState κ α ε Unit) = s at h0
  induction n generalizing s with
  | zero =>
    refine ⟨?_, h0.log⟩
    unfold seqLoop
    have hne : allEmpty (topologyPreproc read im2im bos save) s.q s.aux = false := by
      rw [← Bool.not_eq_true, allEmpty_iff]
      intro hall
      rcases h0.left with h | h
      · exact h (hall.1 0 (by simp [topologyPreproc]))
      · exact h (hall.1 3 (by simp [topologyPreproc]))
    simp [h0.ok, hne]
  | succ n ih =>
    have h1 := bosStuck_round (read := read) (im2im := im2im) (bos := bos) (save := save) hc h0
    obtain ⟨i1, i2⟩ := ih _ h1
    refine ⟨?_, by rw [Function.iterate_succ_apply]; exact i2⟩
    unfold seqLoop
    have hne : allEmpty (topologyPreproc read im2im bos save) s.q s.aux = false := by
      rw [← Bool.not_eq_true, allEmpty_iff]
      intro hall
      rcases h0.left with h | h
      · exact h (hall.1 0 (by simp [topologyPreproc]))
      · exact h (hall.1 3 (by simp [topologyPreproc]))
    simp [h0.ok, hne, i1]

end
end
end Verif
