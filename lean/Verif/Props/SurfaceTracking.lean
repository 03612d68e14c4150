import Verif.Exec.TrackTrap
import Verif.Exec.Labels

/-!
# Surface tracking (C29)

`names` are the names of the images, in the order of the serie.  The specification is in `Verif/Spec/Tracking.lean`.

The works of the model are numbered: reading the image (0), image-to-image function when it is used (1), processing of
the frame, couples (global work), correction (number `correctWork`), height, borders, saving.
-/

namespace Verif
open Verif.Exec Verif.Spec

variable {κ α ε : Type} [DecidableEq κ]

/-- Number of the work "correct_couple_of_phases". -/
def correctWork (im2im : Option (κ → α → Except ε α)) : Nat :=
  match im2im with
  | none => 3
  | some _ => 4

theorem correctWork_eq (imread : κ → α → Except ε α) (im2im : Option (κ → α → Except ε α))
    (processFrame : κ → α → Except ε α) :
    (frameWorks imread im2im processFrame).length + 1 = correctWork im2im := by
  cases im2im <;> rfl

/-- Nothing remains in the queues. -/
def NoItemLeft (T : Topology κ α ε Unit) (q : Queues κ α ε) : Prop := ∀ i < T.nq, q i = []

section
variable (O : TrackOps κ α ε) (imread : κ → α → Except ε α) (im2im : Option (κ → α → Except ε α))
  (processFrame correct calculHeight setBordersZero save : κ → α → Except ε α) (ckey : Nat → κ) (pathOf : κ → α)

/-- What has to have been done at the end: for each frame, the calls of the specification, once, in this order, the
reference being the corrected previous frame; nothing else; and the frames have been corrected in the order of the
serie. -/
structure SurfaceDone (names : List κ) (log : List (Event κ α ε)) : Prop where
  frames : ∀ k ref, (k, ref) ∈ references O.pair correct
      (fun n => imageOf n (frameWorks imread im2im processFrame) (.ok (pathOf n))) names →
    historyOf k log = trackEvents (frameWorks imread im2im processFrame) O.pair correct
      (heightWorks calculHeight setBordersZero save) (pathOf k) k ref
  others : ∀ k, k ∉ names → historyOf k log = []
  order : callOrder (correctWork im2im) log = names

theorem surfaceDone_of {names : List κ} {log : List (Event κ α ε)}
    (h : TrackDone O (frameWorks imread im2im processFrame) correct (heightWorks calculHeight setBordersZero save)
      pathOf names log) :
    SurfaceDone O imread im2im processFrame correct calculHeight setBordersZero save pathOf names log := by
  refine ⟨h.frames, h.others, ?_⟩
  rw [← correctWork_eq imread im2im processFrame]
  exact h.order

theorem surface_setup (names : List κ) (hnd : names.Nodup) (hck : Function.Injective ckey) (hN : names.length ≠ 1) :
    TrackSetup (frameWorks imread im2im processFrame) (heightWorks calculHeight setBordersZero save) names ckey where
  up := by cases im2im <;> simp [frameWorks, loadWorks]
  down := by simp [heightWorks]
  nodup := hnd
  keys := hck
  several := hN

/-- C29, asynchronous executor.  Whatever the order in which tasks are started and finish, an execution which ends has
corrected each frame with respect to the corrected previous frame, exactly once, in the order of the serie, and has
saved it; nothing remains.  Missing: mode "complete" with results present and a single image (see below: the executions
do not end). -/
theorem C29_async_partial (names : List κ) (hnd : names.Nodup) (hck : Function.Injective ckey)
    (hN : names.length ≠ 1) (c : Cfg) (ls : List Label) (s : AState κ α ε Unit)
    (hrun : ARun (surfaceTopology O imread im2im processFrame correct calculHeight setBordersZero save) c
      (AState.init (trackStart O ckey pathOf (fun _ => false) names) ()) ls s) (hstop : s.stop = true) :
    SurfaceDone O imread im2im processFrame correct calculHeight setBordersZero save pathOf names s.log ∧
      NoItemLeft (surfaceTopology O imread im2im processFrame correct calculHeight setBordersZero save) s.q ∧
      s.inflight = [] ∧ s.crashed = none := by
  obtain ⟨h1, h2, h3⟩ := (surface_setup imread im2im processFrame calculHeight setBordersZero save ckey names hnd hck
    hN).async hrun hstop
  exact ⟨surfaceDone_of _ _ _ _ _ _ _ _ _ h1, h2, h3⟩

/-- C29, order: at any time of any execution, the frames which have been corrected are the first frames of the serie, in
the order of the serie, whatever the order in which the frames are ready. -/
theorem C29_order_partial (names : List κ) (hnd : names.Nodup) (hck : Function.Injective ckey)
    (hN : names.length ≠ 1) (c : Cfg) (ls : List Label) (s : AState κ α ε Unit)
    (hrun : ARun (surfaceTopology O imread im2im processFrame correct calculHeight setBordersZero save) c
      (AState.init (trackStart O ckey pathOf (fun _ => false) names) ()) ls s) (hc : s.crashed = none) :
    callOrder (correctWork im2im) s.log <+: names := by
  rw [← correctWork_eq imread im2im processFrame]
  exact (surface_setup imread im2im processFrame calculHeight setBordersZero save ckey names hnd hck hN).order hrun hc

/-- C29: without `stop_if_error`, errors never stop the executor. -/
theorem C29_no_crash_partial (names : List κ) (hnd : names.Nodup) (hck : Function.Injective ckey)
    (hN : names.length ≠ 1) (c : Cfg) (hst : c.stopIfError = false) (ls : List Label) (s : AState κ α ε Unit)
    (hrun : ARun (surfaceTopology O imread im2im processFrame correct calculHeight setBordersZero save) c
      (AState.init (trackStart O ckey pathOf (fun _ => false) names) ()) ls s) : s.crashed = none :=
  (surface_setup imread im2im processFrame calculHeight setBordersZero save ckey names hnd hck hN).noCrash hst hrun

/-- C29, termination of the asynchronous executor under a fair scheduler, when all the frames fit in a queue. -/
theorem C29_async_finishes_partial (names : List κ) (hnd : names.Nodup) (hck : Function.Injective ckey)
    (hN : names.length ≠ 1) (c : Cfg) (hmax : 0 < c.maxWorkers) (hq : 0 < c.queueMax)
    (hfit : names.length ≤ c.queueMax) (run : Nat → AState κ α ε Unit) (lab : Nat → Label)
    (h0 : run 0 = AState.init (trackStart O ckey pathOf (fun _ => false) names) ())
    (hrun : Infinite (surfaceTopology O imread im2im processFrame correct calculHeight setBordersZero save) c run lab)
    (hfair : Fair (surfaceTopology O imread im2im processFrame correct calculHeight setBordersZero save) c run lab) :
    ∃ n, (run n).stop = true :=
  (surface_setup imread im2im processFrame calculHeight setBordersZero save ckey names hnd hck hN).fair hmax hq hfit
    h0 hrun hfair

/-- C29, no deadlock, when all the frames fit in a queue: every reachable state can be continued until the end. -/
theorem C29_no_deadlock_partial (names : List κ) (hnd : names.Nodup) (hck : Function.Injective ckey)
    (hN : names.length ≠ 1) (c : Cfg) (hst : c.stopIfError = false) (hmax : 0 < c.maxWorkers) (hq : 0 < c.queueMax)
    (hfit : names.length ≤ c.queueMax) (ls : List Label) (s : AState κ α ε Unit)
    (hrun : ARun (surfaceTopology O imread im2im processFrame correct calculHeight setBordersZero save) c
      (AState.init (trackStart O ckey pathOf (fun _ => false) names) ()) ls s) :
    ∃ ls' s', ARun (surfaceTopology O imread im2im processFrame correct calculHeight setBordersZero save) c s ls' s' ∧
      s'.stop = true :=
  (surface_setup imread im2im processFrame calculHeight setBordersZero save ckey names hnd hck hN).canFinish hst hmax
    hq hfit hrun

/-- C29, sequential executor: it terminates, for any number of images, and everything has been done. -/
theorem C29_sequential_partial (names : List κ) (hnd : names.Nodup) (hck : Function.Injective ckey)
    (hN : names.length ≠ 1) (c : Cfg) (hst : c.stopIfError = false) (hq : 2 ≤ c.queueMax) :
    ∃ n s, seqLoop (surfaceTopology O imread im2im processFrame correct calculHeight setBordersZero save) c n
        (SState.init (trackStart O ckey pathOf (fun _ => false) names) ()) = some s ∧ s.crashed = none ∧
      SurfaceDone O imread im2im processFrame correct calculHeight setBordersZero save pathOf names s.log ∧
      NoItemLeft (surfaceTopology O imread im2im processFrame correct calculHeight setBordersZero save) s.q := by
  obtain ⟨n, s, h1, h2, h3, h4⟩ := (surface_setup imread im2im processFrame calculHeight setBordersZero save ckey names
    hnd hck hN).seq (O := O) (correct := correct) (pathOf := pathOf) hst hq
  exact ⟨n, s, h1, h2, surfaceDone_of _ _ _ _ _ _ _ _ _ h3, h4⟩

end

/-! ## Without any error: the explicit sequence of calls -/

/-- The frame `i` of the serie corrected, without queue or error: the first one with respect to itself, the other ones
with respect to the corrected previous one. -/
def correctedFrame {β : Type} (corr : κ → β → β → β) (angles : κ → β) (names : List κ) : Nat → Option β
  | 0 =>
    match names[0]? with
    | some k => some (corr k (angles k) (angles k))
    | none => none
  | i + 1 =>
    match correctedFrame corr angles names i, names[i + 1]? with
    | some ref, some k => some (corr k ref (angles k))
    | _, _ => none

theorem references_ok {pair : Except ε α → Except ε α → α} {corr : κ → α → α → α} {correct : κ → α → Except ε α}
    (hcorr : ∀ k x y, correct k (pair (.ok x) (.ok y)) = .ok (corr k x y)) (angles : κ → α) (names : List κ)
    (i : Nat) (k : κ) (hk : names[i + 1]? = some k) (ref : α) (hr : correctedFrame corr angles names i = some ref) :
    (references pair correct (fun n => .ok (angles n)) names)[i + 1]? = some (k, .ok ref) := by
  induction i generalizing k ref with
  | zero =>
    match names, hk with
    | a :: b :: l, hk =>
      simp only [Nat.zero_add, List.getElem?_cons_succ, List.getElem?_cons_zero, Option.some.injEq] at hk
      subst hk
      simp only [correctedFrame, List.getElem?_cons_zero, Option.some.injEq] at hr
      simp [references, referencesFrom, hcorr, hr]
  | succ i ih =>
    simp only [correctedFrame] at hr
    split at hr
    · rename_i ref' k' h1 h2
      have h3 := ih k' h2 ref' h1
      have hkeys := references_keys (correct := correct) pair (fun n => Except.ok (angles n)) names
      have h4 : ((references pair correct (fun n => .ok (angles n)) names).map Prod.fst)[i + 1 + 1]? = some k := by
        rw [hkeys]; exact hk
      rw [List.getElem?_map] at h4
      cases h5 : (references pair correct (fun n => .ok (angles n)) names)[i + 1 + 1]? with
      | none => rw [h5] at h4; cases h4
      | some kr =>
        obtain ⟨k2, r2⟩ := kr
        rw [h5] at h4
        simp only [Option.map_some, Option.some.injEq] at h4
        subst h4
        cases names with
        | nil => cases hk
        | cons a l =>
          have := referencesFrom_next pair (fun n => Except.ok (angles n)) (a :: l) _ _ _ _ _ _ h3 h5
          rw [this, hcorr]
          simp only [Option.some.injEq] at hr
          rw [hr]
    · cases hr

/-- C29 without any error and without image-to-image function, asynchronous executor: at the end, the frame number
`i + 1` has been read, processed, corrected once with respect to the corrected frame number `i`, and its height has been
computed and saved, once. -/
theorem C29_frame_calls_partial (O : TrackOps κ α ε) (imread process height zero save : κ → α → α)
    (corr : κ → α → α → α) (correct : κ → α → Except ε α)
    (hcorr : ∀ k x y, correct k (O.pair (.ok x) (.ok y)) = .ok (corr k x y)) (ckey : Nat → κ) (pathOf : κ → α)
    (names : List κ) (hnd : names.Nodup) (hck : Function.Injective ckey) (c : Cfg) (ls : List Label)
    (s : AState κ α ε Unit)
    (hrun : ARun (surfaceTopology O (fun k v => .ok (imread k v)) none (fun k v => .ok (process k v)) correct
      (fun k v => .ok (height k v)) (fun k v => .ok (zero k v)) (fun k v => .ok (save k v))) c
      (AState.init (trackStart O ckey pathOf (fun _ => false) names) ()) ls s) (hstop : s.stop = true)
    (angles : κ → α) (hangles : ∀ k, angles k = process k (imread k (pathOf k)))
    (i : Nat) (k : κ) (hk : names[i + 1]? = some k) (ref : α) (hr : correctedFrame corr angles names i = some ref) :
    historyOf k s.log = [.call 0 k (pathOf k), .call 1 k (imread k (pathOf k)),
      .call 3 k (O.pair (.ok ref) (.ok (angles k))), .call 4 k (corr k ref (angles k)),
      .call 5 k (height k (corr k ref (angles k))), .call 6 k (zero k (height k (corr k ref (angles k))))] := by
  have hN : names.length ≠ 1 := by
    intro h
    obtain ⟨h1, _⟩ := List.getElem?_eq_some_iff.1 hk
    omega
  have hd := (C29_async_partial O _ none _ correct _ _ _ ckey pathOf names hnd hck hN c ls s hrun hstop).1
  have hf : (fun n => imageOf n (frameWorks (fun k v => .ok (imread k v)) none (fun k v => .ok (process k v)))
      (.ok (pathOf n))) = (fun n => (Except.ok (angles n) : Except ε α)) := by
    funext n
    rw [hangles]
    rfl
  have hmem := references_ok hcorr angles names i k hk ref hr
  have := hd.frames k (.ok ref) (by rw [hf]; exact List.mem_of_getElem? hmem)
  rw [this]
  unfold trackEvents
  have hf' := congrFun hf k
  rw [hf']
  simp [hcorr, frameWorks, loadWorks, imageEvents, heightWorks, itemEvents]

/-! ## A concrete case -/

namespace TrackExample

/-- Values: names, angles, couples. -/
inductive V where
  | names (l : List ℕ)
  | img (n : ℕ)
  | pair (a b : V)
  | bad
deriving DecidableEq

def ofE : Except ℕ V → V
  | .ok v => v
  | .error _ => .bad

def ops : TrackOps ℕ V ℕ where
  tup := V.names
  namesOf := fun v => match v with | .names l => l | _ => []
  namesOf_tup := fun _ => rfl
  pair := fun a b => .pair (ofE a) (ofE b)
  indexError := 0

/-- The correction of phases adds the two angles (and keeps errors apart). -/
def correct (_ : ℕ) (v : V) : Except ℕ V :=
  match v with
  | .pair (.img a) (.img b) => .ok (.img (a + b))
  | _ => .error 1

def id_ (_ : ℕ) (v : V) : Except ℕ V := .ok v

def topo : Topology ℕ V ℕ Unit := surfaceTopology ops id_ none id_ correct id_ id_ id_

def start (names : List ℕ) : Queues ℕ V ℕ := trackStart ops (fun i => i) (fun n => .img n) (fun _ => false) names

end TrackExample

open TrackExample in
/-- The hypotheses of the theorems above are met by an execution where the second frame is ready before the first one,
which ends: `corrected (1) = 10 + 20`. -/
example : ∃ s, runLabels topo ⟨2, 8, false⟩
    [.launch 0, .begin 0, .launch 0, .begin 0, .finish 1, .launch 1, .begin 1, .finish 1, .glob 2,
     .finish 0, .launch 1, .begin 1, .finish 0, .glob 2,
     .launch 3, .begin 3, .finish 0, .glob 2, .launch 3, .begin 3, .finish 0, .glob 2,
     .launch 4, .begin 4, .finish 0, .launch 4, .begin 4, .finish 0, .launch 5, .begin 5, .finish 0,
     .launch 5, .begin 5, .finish 0, .launch 6, .begin 6, .finish 0, .launch 6, .begin 6, .finish 0, .check]
    (AState.init (start [10, 20]) ()) = some s ∧ s.stop = true ∧
    callOrder 3 s.log = [10, 20] ∧ Event.call 6 20 (V.img 40) ∈ s.log := by
  refine ⟨_, rfl, rfl, rfl, ?_⟩
  decide

/-! ## Where C29 fails -/

section
variable (O : TrackOps κ α ε) (imread : κ → α → Except ε α) (im2im : Option (κ → α → Except ε α))
  (processFrame correct calculHeight setBordersZero save : κ → α → Except ε α) (ckey : Nat → κ) (pathOf : κ → α)

/-- The first queues in mode "complete", when the result of the frame `b` is present. -/
theorem blocked_start (exists_ : κ → Bool) (names : List κ) (hck : Function.Injective ckey)
    (hN : 2 ≤ names.length) (i : Nat) (b : κ) (hb : names[i]? = some b) (hex : exists_ b = true) (p : Nat) :
    ∃ x, Blocked O p (ckey i) x b (trackStart O ckey pathOf exists_ names) [] := by
  obtain ⟨hi, _⟩ := List.getElem?_eq_some_iff.1 hb
  refine ⟨names[i - 1], ?_⟩
  have h0 : trackStart O ckey pathOf exists_ names 0 = couplesOfNames O.tup ckey names := rfl
  have hm := mem_couplesOfNames (ε := ε) O.tup ckey (names := names) (by omega)
  refine ⟨?_, ?_, ?_, ?_, by simp⟩
  · rw [h0, hm]
    exact ⟨i, _, b, Nat.zero_le _, List.getElem?_eq_getElem (by omega), hb, rfl, rfl⟩
  · intro v hv
    rw [h0, hm] at hv
    obtain ⟨i', a', b', _, h1, h2, h3, h4⟩ := hv
    have := hck h3
    subst this
    rw [hb] at h2
    rw [List.getElem?_eq_getElem (by omega)] at h1
    cases h1; cases h2
    exact h4
  · intro kv hkv
    rw [h0] at hkv
    obtain ⟨_, a', b', _, _, _, _, h4⟩ := (hm kv.1 kv.2).1 hkv
    exact ⟨a', b', h4⟩
  · intro l h1 h2 hk
    unfold trackStart at hk
    rw [if_neg (by omega)] at hk
    split at hk
    · simp only [Dict.keys, List.map_map, List.mem_map, Function.comp_apply, List.mem_filter] at hk
      obtain ⟨n, ⟨_, hn⟩, rfl⟩ := hk
      rw [hex] at hn; cases hn
    · simp [Dict.keys] at hk

/-- C29 fails in mode "complete": as soon as the result of one of the frames is present, no execution of the
asynchronous executor ends. -/
theorem C29_complete_never_ends_fails (exists_ : κ → Bool) (names : List κ) (hck : Function.Injective ckey)
    (hN : 2 ≤ names.length) (b : κ) (hb : b ∈ names) (hex : exists_ b = true) (c : Cfg) (ls : List Label)
    (s : AState κ α ε Unit)
    (hrun : ARun (surfaceTopology O imread im2im processFrame correct calculHeight setBordersZero save) c
      (AState.init (trackStart O ckey pathOf exists_ names) ()) ls s) : s.stop = false := by
  obtain ⟨i, hi⟩ := List.getElem?_of_mem hb
  obtain ⟨x, hx⟩ := blocked_start O ckey pathOf exists_ names hck hN i b hi hex (frameWorks imread im2im processFrame).length
  exact (blocked_trap (ckey i) x b).async track_wellFormed hx hrun

/-- The same for the sequential executor: the loop never ends, and no error is raised. -/
theorem C29_complete_sequential_fails (exists_ : κ → Bool) (names : List κ) (hck : Function.Injective ckey)
    (hN : 2 ≤ names.length) (b : κ) (hb : b ∈ names) (hex : exists_ b = true) (c : Cfg) (hst : c.stopIfError = false)
    (n : Nat) : seqLoop (surfaceTopology O imread im2im processFrame correct calculHeight setBordersZero save) c n
      (SState.init (trackStart O ckey pathOf exists_ names) ()) = none := by
  obtain ⟨i, hi⟩ := List.getElem?_of_mem hb
  obtain ⟨x, hx⟩ := blocked_start O ckey pathOf exists_ names hck hN i b hi hex (frameWorks imread im2im processFrame).length
  exact (blocked_trap (ckey i) x b).seq hst n _ hx rfl

theorem alone_start (exists_ : κ → Bool) (x : κ) (hex : exists_ x = false) (p : Nat) :
    Alone p (trackStart O ckey pathOf exists_ [x]) [] := by
  refine ⟨rfl, Or.inl ⟨1, Nat.le_refl _, by omega, ?_⟩⟩
  simp [trackStart, hex]

/-- C29 fails with a single image: no execution of the asynchronous executor ends. -/
theorem C29_single_image_never_ends_fails (x : κ) (c : Cfg) (ls : List Label) (s : AState κ α ε Unit)
    (hrun : ARun (surfaceTopology O imread im2im processFrame correct calculHeight setBordersZero save) c
      (AState.init (trackStart O ckey pathOf (fun _ => false) [x]) ()) ls s) : s.stop = false :=
  alone_trap.async track_wellFormed (alone_start O ckey pathOf (fun _ => false) x rfl _) hrun

theorem C29_single_image_sequential_fails (x : κ) (c : Cfg) (hst : c.stopIfError = false) (n : Nat) :
    seqLoop (surfaceTopology O imread im2im processFrame correct calculHeight setBordersZero save) c n
      (SState.init (trackStart O ckey pathOf (fun _ => false) [x]) ()) = none :=
  alone_trap.seq hst n _ (alone_start O ckey pathOf (fun _ => false) x rfl _) rfl

/-- With `nb_items_queue_max` lower than 2, the sequential executor never makes a couple (the test compares this number
with the length of a tuple of two queues), so that it does not end. -/
theorem C29_sequential_small_queue_fails (names : List κ) (hN : 2 ≤ names.length) (c : Cfg) (hq : c.queueMax < 2)
    (n : Nat) (s : SState κ α ε Unit)
    (hs : seqLoop (surfaceTopology O imread im2im processFrame correct calculHeight setBordersZero save) c n
      (SState.init (trackStart O ckey pathOf (fun _ => false) names) ()) = some s) : s.crashed.isSome := by
  refine seqLoop_couples hq n _ _ ?_ hs
  match names, hN with
  | a :: b :: l, _ => simp [SState.init, trackStart, couplesOfNames]

end

namespace TrackExample

/-- The state reached when the first frame is read slowly: the eight other frames are ready. -/
def slow : List Label :=
  [.launch 0, .begin 0] ++
  (List.replicate 8 [Label.launch 0, .begin 0, .finish 1, .launch 1, .begin 1, .finish 1]).flatten ++ [.finish 0]

def deadlock : Option (AState ℕ V ℕ Unit) :=
  runLabels topo ⟨2, 8, false⟩ slow (AState.init (start [0, 1, 2, 3, 4, 5, 6, 7, 8]) ())

/-- The first frame can not be processed because the queue of angles is full, and the angles wait for it. -/
structure Dead (s : AState ℕ V ℕ Unit) : Prop where
  stop : s.stop = false
  pending : s.pending = []
  inflight : s.inflight = []
  q0 : s.q 0 = couplesOfNames V.names (fun i => i) [0, 1, 2, 3, 4, 5, 6, 7, 8]
  q1 : s.q 1 = []
  q3 : s.q 3 = [(1, .ok (.img 1)), (2, .ok (.img 2)), (3, .ok (.img 3)), (4, .ok (.img 4)), (5, .ok (.img 5)),
    (6, .ok (.img 6)), (7, .ok (.img 7)), (8, .ok (.img 8))]
  rest : s.q 4 = [] ∧ s.q 5 = [] ∧ s.q 6 = [] ∧ s.q 7 = [] ∧ s.q 8 = []

theorem Dead.step {s s' : AState ℕ V ℕ Unit} {l : Label} (h : Dead s) (hs : astep topo ⟨2, 8, false⟩ l s = some s') :
    Dead s' := by
  obtain ⟨h4, h5, h6, h7, h8⟩ := h.rest
  have hne : ∀ {w inp : Nat} {out io f}, topo.works[w]? = some (Work.item inp out io f) → s.q inp ≠ [] →
      outFull ⟨2, 8, false⟩ s.q out = true := by
    intro w inp out io f hw hq
    match w, hw with
    | 0, hw => cases hw; exact absurd h.q1 hq
    | 1, hw => cases hw; simp [outFull, h.q3]
    | 2, hw => cases hw
    | 3, hw => cases hw; exact absurd h4 hq
    | 4, hw => cases hw; exact absurd h6 hq
    | 5, hw => cases hw; exact absurd h7 hq
    | 6, hw => cases hw; exact absurd h8 hq
    | n + 7, hw => cases hw
  cases (astep_cases hs).2 with
  | launch hw hq _ hf => rw [hne hw hq] at hf; cases hf
  | beginEmpty hw hp => rw [h.pending] at hp; cases hp
  | beginError hw hp => rw [h.pending] at hp; cases hp
  | beginOk hw hp => rw [h.pending] at hp; cases hp
  | finish ht => rw [h.inflight] at ht; simp at ht
  | finishCrash ht => rw [h.inflight] at ht; simp at ht
  | @glob w _ ready outLen run q a evs hw _ hr =>
    have e : ops.makeCouples 3 s.q = .ok s.q := by
      simp [TrackOps.makeCouples, h.q0, h.q3, h5, couplesOfNames, couplesFrom, TrackOps.loop, TrackOps.step,
        NameTuples.names, ops, Dict.get?]
    have hr' := track_run (O := ops) (ups := frameWorks id_ none id_) (correct := correct)
      (downs := heightWorks id_ id_ id_) hw (some s.nio) s.q s.aux
    rw [hr, show (frameWorks id_ none id_).length + 1 = 3 from rfl, show ops.makeCouples 3 s.q = .ok s.q from e] at hr'
    cases hr'
    exact ⟨h.stop, h.pending, h.inflight, h.q0, h.q1, h.q3, h.rest⟩
  | @globCrash w _ ready outLen run e hw _ hr =>
    exact ⟨h.stop, h.pending, h.inflight, h.q0, h.q1, h.q3, h.rest⟩
  | checkStop he =>
    have := (allEmpty_iff.1 he).1 3 (by decide)
    rw [h.q3] at this; cases this
  | check => exact h

end TrackExample

open TrackExample in
/-- C29 fails with more frames than `nb_items_queue_max`: with 9 frames, `nb_items_queue_max = 8` (the default value for
2 workers) and a slow reading of the first frame, a state is reached from which no execution ends. -/
theorem C29_deadlock_fails : ∃ ls s, ARun topo ⟨2, 8, false⟩
      (AState.init (trackStart ops (fun i => i) (fun n => .img n) (fun _ => false) [0, 1, 2, 3, 4, 5, 6, 7, 8]) ()) ls s ∧
    s.crashed = none ∧ ∀ ls' s', ARun topo ⟨2, 8, false⟩ s ls' s' → s'.stop = false := by
  have h : ∃ s, deadlock = some s ∧ s.crashed = none ∧ Dead s :=
    ⟨_, rfl, rfl, rfl, rfl, rfl, rfl, rfl, rfl, rfl, rfl, rfl, rfl, rfl⟩
  obtain ⟨s, h1, h2, h3⟩ := h
  refine ⟨slow, s, runLabels_run h1, h2, fun ls' s' hrun => ?_⟩
  have : Dead s' := by
    clear h1 h2
    induction hrun with
    | nil => exact h3
    | snoc _ hstep ih => exact ih.step hstep
  exact this.stop

end Verif
