import Verif.Model.MonitorTimes
import Mathlib.Tactic.Ring
import Mathlib.Tactic.FieldSimp
import Mathlib.Tactic.NormNum

/-!
# C134: what `fluidimage-monitor` says of the state and of the duration of a job

For every interleaving of the program which computes, of the clock and of the monitor: the job is said to be running as long as it is, the
label of the times gives the time since the start while it runs and the total duration once it is finished, and the monitor does not fail.
-/

namespace Verif
open Verif.MonitorTimes

/-! ## Specification -/

/-- The world afterwards, whatever has happened in between. -/
def LaterWorld (w w' : World) : Prop := ∃ es : List Ev, w' = es.foldl step w

/-- A world which can be reached from the start of a job. -/
def JobWorld (w : World) : Prop := ∃ t offset, LaterWorld (newJob t offset) w

/-- A session of the monitor: any number of updates, with anything which can happen between any two of their readings. -/
inductive Watch : Monitor → World → Monitor → World → Prop
  | start (m w) : Watch m w m w
  | tick {m w m' w' a b c d e m''} : Watch m w m' w' → LaterWorld w' a → LaterWorld a b → LaterWorld b c → LaterWorld c d →
      LaterWorld d e → update m' a b c d e = .ok m'' → Watch m w m'' e

/-! ## Invariants -/

structure MtInv (w : World) : Prop where
  lock : w.lock = true ↔ w.job = .running
  file : w.timeEnd = match w.job with
    | .running => none
    | .unlocked => none
    | .named _ => none
    | .opened _ => some none
    | .ended t => some (some t)

theorem mt_step {w : World} (h : MtInv w) (e : Ev) : MtInv (step w e) := by
  cases e with
  | pass d => exact ⟨h.lock, h.file⟩
  | shift d => exact ⟨h.lock, h.file⟩
  | save n => simp only [step]; split <;> exact ⟨h.lock, h.file⟩
  | kill => exact ⟨h.lock, h.file⟩
  | release =>
    simp only [step]
    split
    · unfold releaseStep
      cases hj : w.job with
      | running => exact ⟨by simp, by have := h.file; rw [hj] at this; simpa using this⟩
      | unlocked =>
        refine ⟨?_, ?_⟩
        · have := h.lock; rw [hj] at this; simpa using this
        · have := h.file; rw [hj] at this; simpa using this
      | named t =>
        refine ⟨?_, rfl⟩
        have := h.lock; rw [hj] at this; simpa using this
      | opened t =>
        refine ⟨?_, rfl⟩
        have := h.lock; rw [hj] at this; simpa using this
      | ended t => exact h
    · exact h

theorem mt_foldl {w : World} (h : MtInv w) (es : List Ev) : MtInv (es.foldl step w) := by
  induction es generalizing w with
  | nil => exact h
  | cons e es ih => exact ih (mt_step h e)

theorem mt_later {w w' : World} (h : MtInv w) (hl : LaterWorld w w') : MtInv w' := by
  obtain ⟨es, rfl⟩ := hl; exact mt_foldl h es

theorem mt_job {w : World} (h : JobWorld w) : MtInv w := by
  obtain ⟨t, o, hl⟩ := h
  exact mt_later ⟨by simp [newJob], rfl⟩ hl

theorem LaterWorld.refl (w : World) : LaterWorld w w := ⟨[], rfl⟩

theorem LaterWorld.trans {a b c : World} (h : LaterWorld a b) (h' : LaterWorld b c) : LaterWorld a c := by
  obtain ⟨es, rfl⟩ := h
  obtain ⟨es', rfl⟩ := h'
  exact ⟨es ++ es', by rw [List.foldl_append]⟩

/-- What stays true whatever happens. -/
theorem mt_keep {P : World → Prop} (hs : ∀ w e, P w → P (step w e)) {w w' : World} (hl : LaterWorld w w') (h : P w) : P w' := by
  obtain ⟨es, rfl⟩ := hl
  induction es generalizing w with
  | nil => exact h
  | cons e es ih => exact ih (hs w e h)

theorem mt_ended {t : Int} {w w' : World} (hl : LaterWorld w w') (h : w.job = .ended t) : w'.job = .ended t := by
  refine mt_keep (P := fun w => w.job = .ended t) ?_ hl h
  intro w e h
  cases e <;> simp only [step] <;> try exact h
  · split <;> exact h
  · split
    · unfold releaseStep; rw [h]; exact h
    · exact h

theorem mt_start {w w' : World} (hl : LaterWorld w w') : w'.timeStart = w.timeStart := by
  refine mt_keep (P := fun x => x.timeStart = w.timeStart) ?_ hl rfl
  intro x e h
  cases e <;> simp only [step] <;> try exact h
  · split <;> exact h
  · split
    · unfold releaseStep; cases x.job <;> exact h
    · exact h

theorem mt_unlocked {w w' : World} (hl : LaterWorld w w') (hi : MtInv w) (h : w.lock = false) : w'.lock = false := by
  have : MtInv w' ∧ w'.lock = false := by
    refine mt_keep (P := fun x => MtInv x ∧ x.lock = false) ?_ hl ⟨hi, h⟩
    rintro x e ⟨hi, h⟩
    refine ⟨mt_step hi e, ?_⟩
    cases e <;> simp only [step] <;> try exact h
    · split <;> exact h
    · split
      · have hr : x.job ≠ .running := fun h' => by rw [hi.lock.2 h'] at h; cases h
        unfold releaseStep
        cases hj : x.job <;> first | exact h | exact absurd hj hr
      · exact h
  exact this.2

theorem mt_dead {w w' : World} (hl : LaterWorld w w') (h : w.alive = false) :
    w'.alive = false ∧ w'.lock = w.lock ∧ w'.timeEnd = w.timeEnd ∧ w'.results = w.results ∧ w'.job = w.job := by
  refine mt_keep (P := fun x => x.alive = false ∧ x.lock = w.lock ∧ x.timeEnd = w.timeEnd ∧ x.results = w.results ∧ x.job = w.job) ?_ hl
    ⟨h, rfl, rfl, rfl, rfl⟩
  rintro x e ⟨h1, h2⟩
  cases e <;> simp only [step, h1] <;> exact ⟨by simp [h1], h2⟩

theorem mt_watch_later {m m' : Monitor} {w w' : World} (h : Watch m w m' w') : LaterWorld w w' := by
  induction h with
  | start => exact LaterWorld.refl _
  | tick _ h1 h2 h3 h4 h5 _ ih => exact ((((ih.trans h1).trans h2).trans h3).trans h4).trans h5

/-! ## A job which is finished -/

/-- **C134** (finished jobs): the monitor opened once the job is finished says that it is not running, and that its total duration is the
difference of the two times which have been written, whatever happens while it is opened and afterwards. -/
theorem C134_finished (cpus : Nat) (w : World) (t : Int) (hw : JobWorld w) (ht : w.job = .ended t) (wResults wExists wRead wNow : World)
    (h1 : LaterWorld w wResults) (h2 : LaterWorld wResults wExists) (h3 : LaterWorld wExists wRead) (h4 : LaterWorld wRead wNow) :
    ∃ m, openMonitor cpus w wResults wExists wRead wNow = .ok m ∧ m.labelRunning = false ∧ m.labelTimes.total = true ∧
      m.labelTimes.duration = (t - w.timeStart) * 1000000 ∧ ∀ m' w', Watch m wNow m' w' → m' = m := by
  have hi := mt_job hw
  have hlock : w.lock = false := by
    cases h : w.lock with
    | false => rfl
    | true => rw [hi.lock.1 h] at ht; cases ht
  have hE : wExists.timeEnd = some (some t) := by
    have := (mt_later (mt_later hi h1) h2).file
    rw [mt_ended h2 (mt_ended h1 ht)] at this; exact this
  have hR : wRead.timeEnd = some (some t) := by
    have := (mt_later (mt_later (mt_later hi h1) h2) h3).file
    rw [mt_ended h3 (mt_ended h2 (mt_ended h1 ht))] at this; exact this
  refine ⟨⟨w.timeStart, cpus, some t, false, wResults.results,
    computeTimes w.timeStart cpus false wResults.results (t * 1000000), false, true⟩, ?_, rfl, rfl, ?_, ?_⟩
  · unfold openMonitor loadTimeMax
    simp only [hE, hR, hlock, Bool.not_false]
  · show t * 1000000 - w.timeStart * 1000000 = _
    ring
  · intro m' w' hm
    generalize hm0 : (⟨w.timeStart, cpus, some t, false, wResults.results,
      computeTimes w.timeStart cpus false wResults.results (t * 1000000), false, true⟩ : Monitor) = m0 at hm
    have hp : m0.paused = true := by rw [← hm0]
    clear hm0
    induction hm with
    | start => rfl
    | tick _ _ _ _ _ _ hu ih =>
      have := ih
      rw [this] at hu
      unfold update at hu
      rw [if_pos hp] at hu
      exact (Except.ok.inj hu).symm

/-- What is written in the file of the end: the local time, to the second, when `_release_lock` made the text. -/
theorem mt_end_time {t0 o : Int} {es : List Ev} (hs : ∀ e ∈ es, ∀ d, e ≠ .shift d) :
    let w := es.foldl step (newJob t0 o)
    w.offset = o ∧ w.timeStart = seconds (t0 + o) ∧ w.started = t0 ∧ w.started ≤ w.real ∧
      ∀ t, (w.job = .named t ∨ w.job = .opened t ∨ w.job = .ended t) → t = seconds (w.finished + o) ∧ w.started ≤ w.finished ∧
        w.finished ≤ w.real := by
  have key : ∀ (es : List Ev) (w : World), (∀ e ∈ es, ∀ d, e ≠ .shift d) →
      (w.offset = o ∧ w.timeStart = seconds (t0 + o) ∧ w.started = t0 ∧ w.started ≤ w.real ∧
        ∀ t, (w.job = .named t ∨ w.job = .opened t ∨ w.job = .ended t) → t = seconds (w.finished + o) ∧ w.started ≤ w.finished ∧
          w.finished ≤ w.real) →
      let w' := es.foldl step w
      (w'.offset = o ∧ w'.timeStart = seconds (t0 + o) ∧ w'.started = t0 ∧ w'.started ≤ w'.real ∧
        ∀ t, (w'.job = .named t ∨ w'.job = .opened t ∨ w'.job = .ended t) → t = seconds (w'.finished + o) ∧ w'.started ≤ w'.finished ∧
          w'.finished ≤ w'.real) := by
    intro es
    induction es with
    | nil => intro w _ h; exact h
    | cons e es ih =>
      intro w hs h
      refine ih (step w e) (fun e' he' => hs e' (List.mem_cons_of_mem _ he')) ?_
      obtain ⟨h1, h2, h3, h4, h5⟩ := h
      cases e with
      | pass d =>
        refine ⟨h1, h2, h3, ?_, ?_⟩
        · show w.started ≤ w.real + d; omega
        · intro t ht
          obtain ⟨g1, g2, g3⟩ := h5 t ht
          refine ⟨g1, g2, ?_⟩
          show w.finished ≤ w.real + d; omega
      | shift d => exact absurd rfl (hs _ List.mem_cons_self d)
      | save n => simp only [step]; split <;> exact ⟨h1, h2, h3, h4, h5⟩
      | kill => exact ⟨h1, h2, h3, h4, h5⟩
      | release =>
        simp only [step]
        split
        · unfold releaseStep
          cases hj : w.job with
          | running => exact ⟨h1, h2, h3, h4, by simp⟩
          | unlocked =>
            refine ⟨h1, h2, h3, h4, ?_⟩
            intro t ht
            refine ⟨?_, h4, le_refl _⟩
            simp only [Job.named.injEq, reduceCtorEq, or_false] at ht
            rw [← ht, World.now, h1]
          | named t' =>
            refine ⟨h1, h2, h3, h4, ?_⟩
            intro t ht
            simp only [Job.opened.injEq, reduceCtorEq, or_false, false_or] at ht
            exact h5 t (.inl (by rw [hj, ht]))
          | opened t' =>
            refine ⟨h1, h2, h3, h4, ?_⟩
            intro t ht
            simp only [Job.ended.injEq, reduceCtorEq, false_or] at ht
            exact h5 t (.inr (.inl (by rw [hj, ht])))
          | ended t' => exact ⟨h1, h2, h3, h4, h5⟩
        · exact ⟨h1, h2, h3, h4, h5⟩
  exact key es (newJob t0 o) hs ⟨rfl, rfl, rfl, le_refl _, by simp [newJob]⟩

/-- **C134** (the duration): if the local clock is not changed during the computation, the total duration which is shown for a finished
job is the time from the start to the end of the computation, to less than one second. -/
theorem C134_duration (t0 o : Int) (es : List Ev) (hs : ∀ e ∈ es, ∀ d, e ≠ .shift d) (cpus : Nat) (t : Int)
    (ht : (es.foldl step (newJob t0 o)).job = .ended t) :
    let w := es.foldl step (newJob t0 o)
    ∃ m, openMonitor cpus w w w w w = .ok m ∧ m.labelTimes.total = true ∧
      m.labelTimes.duration - (w.finished - w.started) < 1000000 ∧ (w.finished - w.started) - m.labelTimes.duration < 1000000 := by
  intro w
  obtain ⟨m, h1, _, h3, h4, _⟩ := C134_finished cpus w t ⟨t0, o, es, rfl⟩ ht w w w w (LaterWorld.refl _) (LaterWorld.refl _)
    (LaterWorld.refl _) (LaterWorld.refl _)
  obtain ⟨g1, g2, g3, g4, g5⟩ := mt_end_time (t0 := t0) (o := o) hs
  obtain ⟨g6, g7, _⟩ := g5 t (.inr (.inr ht))
  refine ⟨m, h1, h3, ?_, ?_⟩ <;>
  · rw [h4, g6, show w.timeStart = _ from g2, show w.started = t0 from g3]
    unfold seconds
    show _ < _
    generalize w.finished = f at *
    omega

/-- a computation of 65 s, with three results -/
def mtExample : List Ev := [.save 3, .pass 65000000, .release, .release, .release, .release]

example : (mtExample.foldl step (newJob 2000000 0)).job = .ended 67 ∧ ∀ e ∈ mtExample, ∀ d, e ≠ .shift d := by
  refine ⟨by decide, ?_⟩
  intro e he d h
  subst h
  simp [mtExample] at he
example :
    let w := mtExample.foldl step (newJob 2000000 0)
    openMonitor 4 w w w w w = .ok ⟨2, 4, some 67, false, 3, ⟨true, 65000000, some (65 * 4 / 3)⟩, false, true⟩ := by decide +kernel

/-- **C134, violation** (change of the local clock): the times are local times, without time zone.  For every shift of the clock of `s`
seconds during the computation (`s = -3600` at the end of summer time), the total duration which is shown is the duration plus `s`: it can
be negative. -/
theorem C134_clock_fails (t0 o s : Int) (d : Nat) (cpus : Nat) :
    let w := [Ev.shift (s * 1000000), .pass (d * 1000000), .release, .release, .release, .release].foldl step (newJob t0 o)
    w.finished - w.started = d * 1000000 ∧
      ∃ m, openMonitor cpus w w w w w = .ok m ∧ m.labelTimes.total = true ∧ m.labelTimes.duration = d * 1000000 + s * 1000000 := by
  intro w
  have hw : w = ⟨t0 + ((d * 1000000 : Nat) : Int), o + s * 1000000, false,
      some (some (seconds (t0 + ((d * 1000000 : Nat) : Int) + (o + s * 1000000)))),
      .ended (seconds (t0 + ((d * 1000000 : Nat) : Int) + (o + s * 1000000))), true, 0, seconds (t0 + o), t0,
      t0 + ((d * 1000000 : Nat) : Int)⟩ := rfl
  refine ⟨by rw [hw]; show t0 + ((d * 1000000 : Nat) : Int) - t0 = _; omega, ?_⟩
  obtain ⟨m, h1, _, h3, h4, _⟩ := C134_finished cpus w (seconds (t0 + ((d * 1000000 : Nat) : Int) + (o + s * 1000000)))
    ⟨t0, o, _, rfl⟩ rfl w w w w (LaterWorld.refl _) (LaterWorld.refl _) (LaterWorld.refl _) (LaterWorld.refl _)
  refine ⟨m, h1, h3, ?_⟩
  rw [h4]
  show (seconds (t0 + ((d * 1000000 : Nat) : Int) + (o + s * 1000000)) - seconds (t0 + o)) * 1000000 = _
  unfold seconds
  omega

/-! ## A job which is running -/

/-- **C134** (running jobs; partial: as long as the lock is there at the end of each update): the monitor opened while the job runs says
that it runs and gives the time since its start, each time it is updated, and goes on. -/
theorem C134_running_partial (cpus : Nat) (w wResults wExists wRead wNow : World) (hw : JobWorld w) (h1 : LaterWorld w wResults)
    (h2 : LaterWorld wResults wExists) (h3 : LaterWorld wExists wRead) (h4 : LaterWorld wRead wNow) (hl : wNow.lock = true) :
    ∃ m, openMonitor cpus w wResults wExists wRead wNow = .ok m ∧ m.labelRunning = true ∧ m.labelTimes.total = false ∧
      m.labelTimes.duration = wNow.now - w.timeStart * 1000000 ∧
      ∀ m' w' a b c d e, Watch m wNow m' w' → LaterWorld w' a → LaterWorld a b → LaterWorld b c → LaterWorld c d → LaterWorld d e →
        e.lock = true → ∃ m'', update m' a b c d e = .ok m'' ∧ m''.labelRunning = true ∧ m''.labelTimes.total = false ∧
          m''.labelTimes.duration = d.now - w.timeStart * 1000000 ∧ m''.num = a.results := by
  have hi := mt_job hw
  have back : ∀ {x y : World}, MtInv x → LaterWorld x y → y.lock = true → x.lock = true := by
    intro x y hx hxy hy
    cases h : x.lock with
    | true => rfl
    | false => rw [mt_unlocked hxy hx h] at hy; cases hy
  have hi1 := mt_later hi h1
  have hi2 := mt_later hi1 h2
  have hi3 := mt_later hi2 h3
  have hi4 := mt_later hi3 h4
  have l3 := back hi3 h4 hl
  have l2 := back hi2 h3 l3
  have l1 := back hi1 h2 l2
  have l0 := back hi h1 l1
  have hE : wExists.timeEnd = none := by
    have := hi2.file; rw [hi2.lock.1 l2] at this; exact this
  refine ⟨⟨w.timeStart, cpus, none, true, wResults.results, computeTimes w.timeStart cpus true wResults.results wNow.now, true, false⟩,
    ?_, rfl, rfl, rfl, ?_⟩
  · unfold openMonitor loadTimeMax
    simp only [hE, l0, Bool.not_true]
  · intro m' w' a b c d e hm ha hb hc hd he hel
    have inv : ∀ {m0 m' : Monitor} {w0 w' : World}, Watch m0 w0 m' w' →
        MtInv w0 → w0.lock = true → (m0.timeStart = w.timeStart ∧ m0.timeEnd = none ∧ m0.jobIsRunning = true ∧ m0.labelRunning = true ∧ m0.paused = false) →
        w'.lock = true → MtInv w' ∧ (m'.timeStart = w.timeStart ∧ m'.timeEnd = none ∧ m'.jobIsRunning = true ∧ m'.labelRunning = true ∧ m'.paused = false) := by
      clear hm ha hb hc hd he hel
      intro m0 m' w0 w' hm hi0 hl0 hm0 hlw
      induction hm with
      | start => exact ⟨hi0, hm0⟩
      | @tick m₂ w₂ a b c d e m₃ hw1 ha hb hc hd he hu ih =>
        have hwi := mt_later hi0 (mt_watch_later hw1)
        have ia := mt_later hwi ha
        have ib := mt_later ia hb
        have ic := mt_later ib hc
        have id' := mt_later ic hd
        have ie := mt_later id' he
        have ld := back id' he hlw
        have lc := back ic hd ld
        have lb := back ib hc lc
        have la := back ia hb lb
        have lw := back hwi ha la
        obtain ⟨_, g1, g2, g3, g4, g5⟩ := ih lw
        have hb' : b.timeEnd = none := by
          have := ib.file; rw [ib.lock.1 lb] at this; exact this
        unfold update loadTimeMax at hu
        simp only [g2, g5, hb', hlw, if_true, Bool.false_eq_true, if_false] at hu
        have hu := (Except.ok.inj hu).symm
        rw [hu]
        exact ⟨ie, g1, rfl, rfl, g4, rfl⟩
    have hwi := mt_later hi4 (mt_watch_later hm)
    have ia := mt_later hwi ha
    have ib := mt_later ia hb
    have ic := mt_later ib hc
    have id' := mt_later ic hd
    have ld := back id' he hel
    have lc := back ic hd ld
    have lb := back ib hc lc
    have la := back ia hb lb
    have lw := back hwi ha la
    obtain ⟨_, g1, g2, g3, g4, g5⟩ := inv hm hi4 hl ⟨rfl, rfl, rfl, rfl, rfl⟩ lw
    have hb' : b.timeEnd = none := by
      have := ib.file; rw [ib.lock.1 lb] at this; exact this
    refine ⟨{ m' with timeEnd := none, num := a.results, labelTimes := computeTimes m'.timeStart m'.cpus m'.jobIsRunning a.results d.now, jobIsRunning := true }, ?_, g4, ?_, ?_, rfl⟩
    · unfold update loadTimeMax
      simp only [g2, g5, hb', hel, if_true, Bool.false_eq_true, if_false]
    · show (!m'.jobIsRunning) = false
      rw [g3]; rfl
    · show d.now - m'.timeStart * 1000000 = _
      rw [g1]

example :
    let w := newJob 2000000 0
    let w' := step (step w (.pass 3000000)) (.save 1)
    openMonitor 2 w w w w w' = .ok ⟨2, 2, none, true, 0, ⟨false, 3000000, none⟩, true, false⟩ ∧ w'.lock = true := by decide +kernel

/-- **C134** (the end is seen): if the lock is not there any more when the monitor looks at it, the monitor says that the job is not running,
and whatever happens afterwards it does not change any more. -/
theorem C134_stops (m m' : Monitor) (a b c d e : World) (hp : m.paused = false) (he : e.lock = false)
    (hu : update m a b c d e = .ok m') : m'.labelRunning = false ∧ ∀ m'' w', Watch m' e m'' w' → m'' = m' := by
  have hpp : m'.labelRunning = false ∧ m'.paused = true := by
    unfold update at hu
    simp only [hp, he, Bool.false_eq_true, if_false] at hu
    split at hu
    · cases hu
    · rw [← Except.ok.inj hu]; exact ⟨rfl, rfl⟩
  refine ⟨hpp.1, ?_⟩
  intro m'' w' hm
  have hpp := hpp.2
  clear hu hp he
  induction hm with
  | start => rfl
  | tick _ _ _ _ _ _ hu ih =>
    have := ih
    rw [this] at hu
    unfold update at hu
    rw [if_pos hpp] at hu
    exact (Except.ok.inj hu).symm

example :
    let w := mtExample.foldl step (newJob 2000000 0)
    ∃ m', update ⟨2, 2, none, true, 0, ⟨false, 3000000, none⟩, true, false⟩ w w w w w = .ok m' ∧ w.lock = false := ⟨_, rfl, rfl⟩

/-- **C134, violation** (the total duration): for a monitor opened while the job runs, the label is never `Total duration`, whatever the
number of updates and even when the monitor has seen that the job has ended: the text is made before the state of the job is
read.  The last text, `Started since …`, stays. -/
theorem C134_total_fails (cpus : Nat) (w wResults wExists wRead wNow : World) (hl : w.lock = true) (m : Monitor)
    (hm : openMonitor cpus w wResults wExists wRead wNow = .ok m) (m' : Monitor) (w' : World) (h : Watch m wNow m' w') :
    m'.labelTimes.total = false := by
  have h0 : m.labelTimes.total = false ∧ (m.paused = false → m.jobIsRunning = true) := by
    unfold openMonitor at hm
    split at hm
    · cases hm
    · rw [← Except.ok.inj hm]; simp [computeTimes, hl]
  have : m'.labelTimes.total = false ∧ (m'.paused = false → m'.jobIsRunning = true) := by
    induction h with
    | start => exact h0
    | @tick m₂ w₂ a b c d e m₃ _ _ _ _ _ _ hu ih =>
      obtain ⟨g1, g2⟩ := ih
      unfold update at hu
      by_cases hp : m₂.paused = true
      · rw [if_pos hp] at hu; rw [← Except.ok.inj hu]; exact ⟨g1, g2⟩
      · rw [if_neg hp] at hu
        have hr := g2 (by simpa using hp)
        simp only [] at hu
        split at hu
        · cases hu
        · split at hu
          · rw [← Except.ok.inj hu]; exact ⟨by simp [computeTimes, hr], fun _ => rfl⟩
          · rw [← Except.ok.inj hu]; exact ⟨by simp [computeTimes, hr], by simp⟩
  exact this.1

/-- a job of 65 s watched from its start; the last update is after the end -/
example :
    let w := newJob 2000000 0
    let w' := mtExample.foldl step w
    ∃ m m', openMonitor 2 w w w w w = .ok m ∧ update m w' w' w' w' w' = .ok m' ∧ m'.labelRunning = false ∧
      m'.labelTimes.total = false ∧ m'.labelTimes.duration = 65000000 := ⟨_, _, rfl, rfl, rfl, rfl, rfl⟩

theorem mt_load {cache cache' : Option Int} {b c d : World} {t : Int} (h : loadTimeMax cache b c d = .ok (cache', t)) :
    ∀ x, cache' = some x → t = x * 1000000 ∧ (cache = some x ∨ c.timeEnd = some (some x)) := by
  intro x hx
  unfold loadTimeMax at h
  split at h
  · injection h with h
    injection h with h1 h2
    rw [← h1] at hx
    rw [← h2, Option.some.inj hx]
    exact ⟨rfl, .inl rfl⟩
  · split at h
    · injection h with h
      injection h with h1 h2
      rw [← h1] at hx
      cases hx
    · split at h
      · cases h
      · cases h
      · rename_i y hy
        injection h with h
        injection h with h1 h2
        rw [← h1] at hx
        rw [← h2, Option.some.inj hx]
        exact ⟨rfl, .inr (by rw [hy, Option.some.inj hx])⟩

/-- **C134** (the end is known): once the monitor has read the time of the end, the duration which is shown is, at every update, the
difference of the two times which have been written by the program which computes. -/
theorem C134_end_known (cpus : Nat) (w wResults wExists wRead wNow : World) (hw : JobWorld w) (h1 : LaterWorld w wResults)
    (h2 : LaterWorld wResults wExists) (h3 : LaterWorld wExists wRead) (h4 : LaterWorld wRead wNow) (m : Monitor)
    (hm : openMonitor cpus w wResults wExists wRead wNow = .ok m) (m' : Monitor) (w' : World) (h : Watch m wNow m' w') (t : Int)
    (ht : m'.timeEnd = some t) : w'.job = .ended t ∧ m'.labelTimes.duration = (t - w.timeStart) * 1000000 := by
  have hi := mt_job hw
  have file : ∀ {x : World} {t : Int}, MtInv x → x.timeEnd = some (some t) → x.job = .ended t := by
    intro x t hx hf
    have := hx.file
    rw [hf] at this
    cases hj : x.job <;> rw [hj] at this <;> simp at this
    rw [this]
  have i3 := mt_later (mt_later (mt_later hi h1) h2) h3
  have h0 : m.timeStart = w.timeStart ∧ ∀ t, m.timeEnd = some t → wNow.job = .ended t ∧
      m.labelTimes.duration = (t - w.timeStart) * 1000000 := by
    unfold openMonitor at hm
    split at hm
    · cases hm
    · rename_i cache time hl
      rw [← Except.ok.inj hm]
      refine ⟨rfl, ?_⟩
      intro t ht
      obtain ⟨g1, g2⟩ := mt_load hl t ht
      rcases g2 with g2 | g2
      · cases g2
      · refine ⟨mt_ended h4 (file i3 g2), ?_⟩
        show time - w.timeStart * 1000000 = _
        rw [g1]; ring
  have key : m'.timeStart = w.timeStart ∧ ∀ t, m'.timeEnd = some t → w'.job = .ended t ∧
      m'.labelTimes.duration = (t - w.timeStart) * 1000000 := by
    clear ht
    induction h with
    | start => exact h0
    | @tick m₂ w₂ a b c d e m₃ hw1 ha hb hc hd he hu ih =>
      obtain ⟨g1, g2⟩ := ih
      have ic := mt_later (mt_later (mt_later (mt_later (mt_later i3 h4) (mt_watch_later hw1)) ha) hb) hc
      have hwe := (((ha.trans hb).trans hc).trans hd).trans he
      unfold update at hu
      by_cases hp : m₂.paused = true
      · rw [if_pos hp] at hu
        rw [← Except.ok.inj hu]
        exact ⟨g1, fun t ht => ⟨mt_ended hwe (g2 t ht).1, (g2 t ht).2⟩⟩
      · rw [if_neg hp] at hu
        simp only at hu
        split at hu
        · cases hu
        · rename_i cache time hl
          have hres : m₃.timeStart = m₂.timeStart ∧ m₃.timeEnd = cache ∧
              m₃.labelTimes.duration = time - m₂.timeStart * 1000000 := by
            split at hu <;> rw [← Except.ok.inj hu] <;> exact ⟨rfl, rfl, rfl⟩
          refine ⟨hres.1.trans g1, ?_⟩
          intro t ht
          rw [hres.2.1] at ht
          obtain ⟨g3, g4⟩ := mt_load hl t ht
          refine ⟨?_, ?_⟩
          · rcases g4 with g4 | g4
            · exact mt_ended hwe (g2 t g4).1
            · exact mt_ended (hd.trans he) (file ic g4)
          · rw [hres.2.2, g3, g1]; ring
  exact key.2 t ht

-- the lock is read before the end, `time_end.txt` after it: the time of the end is known, the job is said to be running until the next update
example :
    let w := newJob 2000000 0
    let w' := mtExample.foldl step w
    ∃ m m', openMonitor 2 w w w' w' w' = .ok m ∧ m.timeEnd = some 67 ∧ m.labelRunning = true ∧
      update m w' w' w' w' w' = .ok m' ∧ m'.timeEnd = some 67 := ⟨_, _, rfl, rfl, rfl, rfl, rfl⟩

/-- **C134, violation** (failure of the monitor): `time_end.txt` is empty between its opening and its writing.  For every job which is
running and every monitor which has not seen its end, if `time_end.txt` is read at this time the update raises `ValueError`. -/
theorem C134_empty_fails (w : World) (hw : JobWorld w) (hr : w.job = .running) (ha : w.alive = true) (m : Monitor)
    (hp : m.paused = false) (hm : m.timeEnd = none) :
    ∃ w', LaterWorld w w' ∧ update m w w' w' w' w' = .error .valueError := by
  have hi := mt_job hw
  obtain ⟨real, offset, lock, timeEnd, job, alive, results, ts, started, finished⟩ := w
  simp only at hr ha
  subst hr ha
  refine ⟨_, ⟨[.release, .release, .release], rfl⟩, ?_⟩
  unfold update
  rw [if_neg (by rw [hp]; simp), hm]
  rfl

example : JobWorld (newJob 0 0) ∧ (newJob 0 0).job = .running ∧ (newJob 0 0).alive = true := ⟨⟨0, 0, LaterWorld.refl _⟩, rfl, rfl⟩

/-- **C134** (partial: no failure if `time_end.txt` is not read between its opening and its writing). -/
theorem C134_no_error_partial (w a b c d e : World) (hw : JobWorld w) (m : Monitor) (ha : LaterWorld w a) (hb : LaterWorld a b)
    (hc : LaterWorld b c) (hn : ∀ t, c.job ≠ .opened t) : ∃ m', update m a b c d e = .ok m' := by
  have ib := mt_later (mt_later (mt_job hw) ha) hb
  have ic := mt_later ib hc
  have key : ∃ x, loadTimeMax m.timeEnd b c d = .ok x := by
    unfold loadTimeMax
    cases m.timeEnd with
    | some t => exact ⟨_, rfl⟩
    | none =>
      simp only
      cases hbt : b.timeEnd with
      | none => exact ⟨_, rfl⟩
      | some y =>
        simp only
        cases hct : c.timeEnd with
        | none =>
          -- the file does not disappear
          exfalso
          have : (c.timeEnd).isSome = true := by
            refine mt_keep (P := fun x => x.timeEnd.isSome = true) ?_ hc (by rw [hbt]; rfl)
            intro x e h
            cases e <;> simp only [step] <;> try exact h
            · split <;> exact h
            · split
              · unfold releaseStep; cases x.job <;> first | exact h | rfl
              · exact h
          rw [hct] at this; cases this
        | some z =>
          cases z with
          | some t => exact ⟨_, rfl⟩
          | none =>
            exfalso
            have := ic.file
            rw [hct] at this
            cases hj : c.job <;> rw [hj] at this <;> simp at this
            exact hn _ hj
  obtain ⟨⟨cache, t⟩, hx⟩ := key
  unfold update
  by_cases hp : m.paused = true
  · rw [if_pos hp]; exact ⟨_, rfl⟩
  · rw [if_neg hp]
    simp only [hx]
    split <;> exact ⟨_, rfl⟩

/-- **C134, violation** (killed jobs): for a job whose program has been killed while it was running, the monitor says for ever that the job
is running and the time since its start goes on increasing with the clock. -/
theorem C134_killed_fails (cpus : Nat) (w wNow : World) (hw : JobWorld w) (hr : w.job = .running) (hk : w.alive = false)
    (hl : LaterWorld w wNow) :
    ∃ m, openMonitor cpus w w w w wNow = .ok m ∧ ∀ m' w' d, Watch m wNow m' w' → LaterWorld w' d →
      ∃ m'', update m' w' w' w' d d = .ok m'' ∧ m''.labelRunning = true ∧ m''.labelTimes.total = false ∧
        m''.labelTimes.duration = d.now - w.timeStart * 1000000 := by
  have hi := mt_job hw
  have hlock := hi.lock.2 hr
  obtain ⟨k1, k2, _, _, _⟩ := mt_dead hl hk
  obtain ⟨m, h1, _, _, _, h5⟩ := C134_running_partial cpus w w w w wNow hw (LaterWorld.refl _) (LaterWorld.refl _) (LaterWorld.refl _) hl
    (by rw [k2]; exact hlock)
  refine ⟨m, h1, ?_⟩
  intro m' w' d hm hd
  have hw' := mt_dead (mt_watch_later hm) k1
  have hd' := mt_dead hd hw'.1
  obtain ⟨m'', g1, g2, g3, g4, _⟩ := h5 m' w' w' w' w' d d hm (LaterWorld.refl _) (LaterWorld.refl _) (LaterWorld.refl _) hd
    (LaterWorld.refl _) (by rw [hd'.2.1, hw'.2.1, k2]; exact hlock)
  exact ⟨m'', g1, g2, g3, g4⟩

example : JobWorld (step (newJob 0 0) .kill) ∧ (step (newJob 0 0) .kill).job = .running ∧ (step (newJob 0 0) .kill).alive = false :=
  ⟨⟨0, 0, [.kill], rfl⟩, rfl, rfl⟩

/-- **C134** (cost of a result): the number of s.CPU/result is the duration in seconds which is shown times the number of cores, divided by
the number of results which is shown; it is not shown when there is no result. -/
theorem C134_cost (m m' : Monitor) (a b c d e : World) (hp : m.paused = false) (hu : update m a b c d e = .ok m') :
    m'.num = a.results ∧ (m'.labelTimes.cost = none ↔ a.results = 0) ∧
      ∀ x, m'.labelTimes.cost = some x → x * m'.num = (m'.labelTimes.duration : ℚ) / 1000000 * m.cpus := by
  unfold update at hu
  rw [if_neg (by rw [hp]; simp)] at hu
  simp only at hu
  split at hu
  · cases hu
  · rename_i cache t _
    have h1 : m'.num = a.results ∧ m'.labelTimes = computeTimes m.timeStart m.cpus m.jobIsRunning a.results t := by
      split at hu <;> rw [← Except.ok.inj hu] <;> exact ⟨rfl, rfl⟩
    rw [h1.1, h1.2]
    refine ⟨rfl, ?_, ?_⟩
    · simp [computeTimes]
    · intro x hx
      unfold computeTimes at hx ⊢
      simp only at hx ⊢
      by_cases h0 : a.results = 0
      · rw [if_pos h0] at hx; cases hx
      · rw [if_neg h0] at hx
        rw [← Option.some.inj hx]
        have : (a.results : ℚ) ≠ 0 := by exact_mod_cast h0
        field_simp

example :
    let w := newJob 2000000 0
    let w' := mtExample.foldl step w
    ∃ m', update ⟨2, 2, none, true, 0, ⟨false, 0, none⟩, true, false⟩ w' w' w' w' w' = .ok m' ∧
      m'.labelTimes.cost = some (65 * 2 / 3) := ⟨_, rfl, by decide +kernel⟩

end Verif
