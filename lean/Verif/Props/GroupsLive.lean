import Verif.Exec.GroupStuck
import Verif.Exec.Windows
import Verif.Props.Piv
import Verif.Props.Preproc

/-!
# Topologies making groups: termination (C12)

The images of the group queue wait in the queue of arrays until all the images of a group are there; this queue is
bounded, and the executor may wait for ever.  The theorems say when.  `WaitingBelow` and `loadOrder` are in
`Verif/Spec/Groups.lean`.
-/

namespace Verif
open Verif.Exec Verif.Spec

variable {κ α ε : Type} [DecidableEq κ]

theorem loadWorks_pos (imread : κ → α → Except ε α) (im2im : Option (κ → α → Except ε α)) :
    0 < (loadWorks imread im2im).length := by cases im2im <;> simp [loadWorks]

theorem wideEnough_iff (imread : κ → α → Except ε α) (im2im : Option (κ → α → Except ε α)) (series : List (κ × List κ))
    (c : Cfg) (h : (loadOrder series).length ≤ c.queueMax ∨ (im2im.isNone = true ∧ WaitingBelow series c.queueMax)) :
    WideEnough (loadWorks imread im2im) series c := by
  rcases h with h | ⟨h1, h2⟩
  · exact Or.inl h
  · cases im2im with
    | none => exact Or.inr ⟨rfl, h2⟩
    | some f => cases h1

section
variable (imread : κ → α → Except ε α) (im2im : Option (κ → α → Except ε α)) (pathOf : κ → α)

/-- C12 for PIV.  Every infinite execution under a fair scheduler sets the stop flag, provided that all the images fit
in one queue or (without image-to-image function) that fewer than `nb_items_queue_max` images wait for another one when
images are loaded in the order of the series. -/
theorem C12_async_finishes_piv_partial (O : CoupleOps κ α ε) (computePiv savePiv : κ → α → Except ε α)
    (cs : List (κ × κ × κ)) (hk : (cs.map (fun c => c.1)).Nodup) (hne : ∀ c ∈ cs, c.2.1 ≠ c.2.2)
    (hacc : CouplesAccepted O (fun n => imageOf n (loadWorks imread im2im) (.ok (pathOf n))) cs)
    (c : Cfg) (hmax : 0 < c.maxWorkers) (hq : 0 < c.queueMax)
    (hwide : (loadOrder (coupleSeries cs)).length ≤ c.queueMax ∨
      (im2im.isNone = true ∧ WaitingBelow (coupleSeries cs) c.queueMax))
    (run : Nat → AState κ α ε Unit) (lab : Nat → Label)
    (h0 : run 0 = AState.init (groupStart O.toNameTuples pathOf (coupleSeries cs)) ())
    (hrun : Infinite (pivTopology imread im2im O computePiv savePiv) c run lab)
    (hfair : Fair (pivTopology imread im2im O computePiv savePiv) c run lab) : ∃ n, (run n).stop = true :=
  (piv_setup imread im2im O computePiv savePiv cs hk hne).fair (piv_buildOk imread im2im O pathOf cs hacc)
    (loadWorks_pos _ _) hmax hq (wideEnough_iff _ _ _ _ hwide) h0 hrun hfair

/-- C12 for PIV, no deadlock: under the same conditions, every reachable state can be continued until the stop flag is
set. -/
theorem C12_no_deadlock_piv_partial (O : CoupleOps κ α ε) (computePiv savePiv : κ → α → Except ε α)
    (cs : List (κ × κ × κ)) (hk : (cs.map (fun c => c.1)).Nodup) (hne : ∀ c ∈ cs, c.2.1 ≠ c.2.2)
    (hacc : CouplesAccepted O (fun n => imageOf n (loadWorks imread im2im) (.ok (pathOf n))) cs)
    (c : Cfg) (hst : c.stopIfError = false) (hmax : 0 < c.maxWorkers) (hq : 0 < c.queueMax)
    (hwide : (loadOrder (coupleSeries cs)).length ≤ c.queueMax ∨
      (im2im.isNone = true ∧ WaitingBelow (coupleSeries cs) c.queueMax)) (ls : List Label) (s : AState κ α ε Unit)
    (hrun : ARun (pivTopology imread im2im O computePiv savePiv) c
      (AState.init (groupStart O.toNameTuples pathOf (coupleSeries cs)) ()) ls s) :
    ∃ ls' s', ARun (pivTopology imread im2im O computePiv savePiv) c s ls' s' ∧ s'.stop = true :=
  (piv_setup imread im2im O computePiv savePiv cs hk hne).canFinish (piv_buildOk imread im2im O pathOf cs hacc)
    (loadWorks_pos _ _) hst hmax hq (wideEnough_iff _ _ _ _ hwide) hrun

/-- C12 for preprocessing, under the same conditions. -/
theorem C12_async_finishes_preproc_partial (O : SubsetOps κ α ε) (preproc save : κ → α → Except ε α)
    (series : List (κ × List κ)) (hk : (series.map Prod.fst).Nodup)
    (hacc : SubsetsAccepted O (fun n => imageOf n (loadWorks imread im2im) (.ok (pathOf n))) series)
    (c : Cfg) (hmax : 0 < c.maxWorkers) (hq : 0 < c.queueMax)
    (hwide : (loadOrder series).length ≤ c.queueMax ∨ (im2im.isNone = true ∧ WaitingBelow series c.queueMax))
    (run : Nat → AState κ α ε Unit) (lab : Nat → Label)
    (h0 : run 0 = AState.init (groupStart O.toNameTuples pathOf series) ())
    (hrun : Infinite (preprocTopology imread im2im O preproc save) c run lab)
    (hfair : Fair (preprocTopology imread im2im O preproc save) c run lab) : ∃ n, (run n).stop = true :=
  (preproc_setup imread im2im O preproc save series hk).fair (preproc_buildOk imread im2im O pathOf series hacc)
    (loadWorks_pos _ _) hmax hq (wideEnough_iff _ _ _ _ hwide) h0 hrun hfair

theorem C12_no_deadlock_preproc_partial (O : SubsetOps κ α ε) (preproc save : κ → α → Except ε α)
    (series : List (κ × List κ)) (hk : (series.map Prod.fst).Nodup)
    (hacc : SubsetsAccepted O (fun n => imageOf n (loadWorks imread im2im) (.ok (pathOf n))) series)
    (c : Cfg) (hst : c.stopIfError = false) (hmax : 0 < c.maxWorkers) (hq : 0 < c.queueMax)
    (hwide : (loadOrder series).length ≤ c.queueMax ∨ (im2im.isNone = true ∧ WaitingBelow series c.queueMax))
    (ls : List Label) (s : AState κ α ε Unit)
    (hrun : ARun (preprocTopology imread im2im O preproc save) c
      (AState.init (groupStart O.toNameTuples pathOf series) ()) ls s) :
    ∃ ls' s', ARun (preprocTopology imread im2im O preproc save) c s ls' s' ∧ s'.stop = true :=
  (preproc_setup imread im2im O preproc save series hk).canFinish (preproc_buildOk imread im2im O pathOf series hacc)
    (loadWorks_pos _ _) hst hmax hq (wideEnough_iff _ _ _ _ hwide) hrun

end

/-! ## The usual series -/

/-- Windows of `m` consecutive images starting every `d ≤ m` images never have `m` images waiting. -/
theorem C12_windows_waiting {key name : Nat → κ} (hname : ∀ i j, name i = name j → i = j) (m d n : Nat) (hm : 0 < m)
    (hd : d ≤ m) : WaitingBelow (windows key name m d n) m :=
  waitingBelow_of_span hm (windows_span hname hd n)

theorem waitingBelow_mono {series : List (κ × List κ)} {b b' : Nat} (h : WaitingBelow series b) (hb : b ≤ b') :
    WaitingBelow series b' := fun l r h1 h2 => Nat.lt_of_lt_of_le (h l r h1 h2) hb

/-- The couples of consecutive images: (0, 1), (1, 2), ..., (n - 1, n). -/
def consecutive (key name : Nat → κ) (n : Nat) : List (κ × κ × κ) :=
  (List.range n).map (fun i => (key i, name i, name (i + 1)))

theorem consecutive_windows (key name : Nat → κ) (n : Nat) :
    coupleSeries (consecutive key name n) = windows key name 2 1 n := by
  simp [coupleSeries, consecutive, windows, List.map_map, Function.comp_def, List.range_succ]

/-- C12 for PIV on couples of consecutive images, without image-to-image function: no condition on the number of
images, as soon as queues can hold two items. -/
theorem C12_async_finishes_piv_consecutive (imread : κ → α → Except ε α) (pathOf : κ → α) (O : CoupleOps κ α ε)
    (computePiv savePiv : κ → α → Except ε α) (key name : Nat → κ) (hkey : ∀ i j, key i = key j → i = j)
    (hname : ∀ i j, name i = name j → i = j) (n : Nat)
    (hacc : CouplesAccepted O (fun n => imageOf n (loadWorks imread none) (.ok (pathOf n))) (consecutive key name n))
    (c : Cfg) (hmax : 0 < c.maxWorkers) (hq : 2 ≤ c.queueMax) (run : Nat → AState κ α ε Unit) (lab : Nat → Label)
    (h0 : run 0 = AState.init (groupStart O.toNameTuples pathOf (coupleSeries (consecutive key name n))) ())
    (hrun : Infinite (pivTopology imread none O computePiv savePiv) c run lab)
    (hfair : Fair (pivTopology imread none O computePiv savePiv) c run lab) : ∃ n, (run n).stop = true := by
  refine C12_async_finishes_piv_partial imread none pathOf O computePiv savePiv (consecutive key name n) ?_ ?_ hacc c
    hmax (by omega) (Or.inr ⟨rfl, ?_⟩) run lab h0 hrun hfair
  · unfold consecutive
    rw [List.map_map, show ((fun c : κ × κ × κ => c.1) ∘ fun i => (key i, name i, name (i + 1))) = key from rfl,
      List.nodup_map_iff (fun i j h => hkey i j h)]
    exact List.nodup_range
  · intro c hc
    obtain ⟨i, _, rfl⟩ := List.mem_map.1 hc
    intro e
    have := hname _ _ e
    omega
  · rw [consecutive_windows]
    exact waitingBelow_mono (C12_windows_waiting hname 2 1 n (by omega) (by omega)) hq

/-- C12 for preprocessing on windows of `m` consecutive images, without image-to-image function: the windows have to
fit in a queue. -/
theorem C12_async_finishes_preproc_windows (imread : κ → α → Except ε α) (pathOf : κ → α) (O : SubsetOps κ α ε)
    (preproc save : κ → α → Except ε α) (key name : Nat → κ) (hkey : ∀ i j, key i = key j → i = j)
    (hname : ∀ i j, name i = name j → i = j) (m d n : Nat) (hm : 0 < m) (hd : d ≤ m)
    (hacc : SubsetsAccepted O (fun n => imageOf n (loadWorks imread none) (.ok (pathOf n))) (windows key name m d n))
    (c : Cfg) (hmax : 0 < c.maxWorkers) (hq : m ≤ c.queueMax) (run : Nat → AState κ α ε Unit) (lab : Nat → Label)
    (h0 : run 0 = AState.init (groupStart O.toNameTuples pathOf (windows key name m d n)) ())
    (hrun : Infinite (preprocTopology imread none O preproc save) c run lab)
    (hfair : Fair (preprocTopology imread none O preproc save) c run lab) : ∃ n, (run n).stop = true :=
  C12_async_finishes_preproc_partial imread none pathOf O preproc save (windows key name m d n)
    (windows_keys hkey m d n) hacc c hmax (by omega)
    (Or.inr ⟨rfl, waitingBelow_mono (C12_windows_waiting hname m d n hm hd) hq⟩) run lab h0 hrun hfair

/-- The hypotheses of the last theorems are satisfiable: five windows of three images, every two images. -/
example : (∀ i j : Nat, i + 100 = j + 100 → i = j) ∧ windows (fun i => i) (fun i => i + 100) 3 2 3 =
    [(0, [100, 101, 102]), (1, [102, 103, 104]), (2, [104, 105, 106])] ∧
    loadOrder (windows (fun i => i) (fun i => i + 100) 3 2 3) = [100, 101, 102, 103, 104, 105, 106] :=
  ⟨fun i j h => by omega, by decide, by decide⟩

/-! ## Where C12 is false -/

theorem kindCount_load (imread : κ → α → Except ε α) (im2im : Option (κ → α → Except ε α))
    (make : GroupQueues κ α ε → Except ε (GroupQueues κ α ε)) (f g : κ → α → Except ε α) :
    kindCount (groupTopology (loadWorks imread im2im) [⟨false, f⟩, ⟨true, g⟩] make)
      ((loadWorks imread im2im)[(loadWorks imread im2im).length - 1]'(by
        have := loadWorks_pos imread im2im; omega)).io = 2 := by
  cases im2im <;> rfl

/-- C12 is false for preprocessing: when a subset has more than `nb_items_queue_max + nb_max_workers` images, no
execution (whose launchers do not run again before the task they have started begins) ever sets the stop flag: the
queue of arrays is full before the images of the subset are all loaded. -/
theorem C12_large_subset_never_finishes (imread : κ → α → Except ε α) (im2im : Option (κ → α → Except ε α))
    (pathOf : κ → α) (O : SubsetOps κ α ε) (preproc save : κ → α → Except ε α) (series : List (κ × List κ))
    (hk : (series.map Prod.fst).Nodup) (c : Cfg) (hq : 0 < c.queueMax) (k : κ) (ns : List κ) (hs : (k, ns) ∈ series)
    (hnd : ns.Nodup) (hlarge : c.queueMax + c.maxWorkers < ns.length) (ls : List Label) (s : AState κ α ε Unit)
    (hrun : EagerRun (preprocTopology imread im2im O preproc save) c
      (AState.init (groupStart O.toNameTuples pathOf series) ()) ls s) : s.stop = false := by
  refine group_never_stops (preproc_setup imread im2im O preproc save series hk) (makeSubsets_shrinks O)
    (loadWorks_pos _ _) hs hnd ?_ hrun
  rw [kindCount_load]
  omega

/-- For instance: one subset of 10 images, one worker and queues of 8 items (the limits of a sub-process of the
executor "multi_exec_async"). -/
example : let c : Cfg := ⟨1, 8, false⟩
    let series : List (Nat × List Nat) := [(0, List.range 10)]
    (series.map Prod.fst).Nodup ∧ 0 < c.queueMax ∧ (0, List.range 10) ∈ series ∧ (List.range 10).Nodup ∧
      c.queueMax + c.maxWorkers < (List.range 10).length := by decide

/-! ### A deadlock with an image-to-image function -/

/-- From this state nothing happens. -/
theorem dead_run {σ : Type} {T : Topology κ α ε σ} {c : Cfg} {s : AState κ α ε σ}
    (hdead : ∀ l s', astep T c l s = some s' → s' = s) {ls : List Label} {s' : AState κ α ε σ}
    (hrun : ARun T c s ls s') : s' = s := by
  induction hrun with
  | nil => rfl
  | snoc _ hstep ih => subst ih; exact hdead _ _ hstep

theorem group_dead {pre post : List (ChainWork κ α ε)} {make : GroupQueues κ α ε → Except ε (GroupQueues κ α ε)}
    {N : NameTuples κ α} {build : κ → List κ → List (Except ε α) → Except ε (Except ε α)} {okNames : List κ → Prop}
    {pathOf : κ → α} {series : List (κ × List κ)} (h : GroupSetup pre post make N build okNames series)
    (hb : BuildOk pre build pathOf series) {c : Cfg} {ls : List Label} {s : AState κ α ε Unit}
    (hrun : ARun (groupTopology pre post make) c (groupAInit N pathOf series) ls s) (hc : s.crashed = none)
    (hp : s.pending = []) (hfl : s.inflight = []) (hne : s.q 0 ≠ [])
    (hnr : ∀ kv ∈ s.q 0, ¬ ((N.names kv.2).all (fun n => ((s.q (pre.length + 1)).get? n).isSome) = true))
    (hitem : ∀ (w inp : Nat) (out : Option Nat) (io : Bool) (f : κ → α → Except ε α),
      (groupTopology pre post make).works[w]? = some (Work.item inp out io f) → s.q inp = [] ∨ outFull c s.q out = true) :
    ∀ l s', astep (groupTopology pre post make) c l s = some s' → s' = s := by
  intro l s' hstep
  have hcase := (astep_cases hstep).2
  have hh := h.holds hrun hc
  cases hcase with
  | launch hw h1 _ h2 =>
    rcases hitem _ _ _ _ _ hw with h3 | h3
    · exact absurd h3 h1
    · rw [h2] at h3; cases h3
  | beginEmpty _ h1 _ => rw [hp] at h1; cases h1
  | beginError _ h1 _ => rw [hp] at h1; cases h1
  | beginOk _ h1 _ => rw [hp] at h1; cases h1
  | finish h1 _ _ => rw [hfl] at h1; cases h1
  | finishCrash h1 _ _ => rw [hfl] at h1; cases h1
  | glob hw _ hr =>
    have hevs := hr
    obtain ⟨m, hrel, hinv, hJ⟩ := hh
    obtain ⟨s1, rfl, hs1⟩ := group_run_cases h.loop hw hrel hinv hJ hr
    rcases hs1 with ⟨rfl, _⟩ | ⟨h1, h2⟩
    · rw [lift3_self _ (by omega)] at hevs ⊢
      obtain ⟨_, hw'⟩ := group_glob hw
      unfold groupWork at hw'
      injection hw' with _ _ hr'
      subst hr'
      simp only at hevs
      split at hevs
      · cases hevs
      · injection hevs with hevs
        injection hevs with h1 h2
        injection h2 with h2 h3
        subst h3
        simp
    · exfalso
      obtain ⟨_, hw'⟩ := group_glob hw
      unfold groupWork at hw'
      injection hw' with _ _ hr'
      subst hr'
      simp only at hevs
      obtain ⟨todo, hu, hsub, _, he⟩ := h.loop _ (makePre_of hrel hJ) (group_good hrel hinv)
      rw [he] at hevs
      split at hevs
      · cases hevs
      · rename_i s2 hs2
        injection hevs with hevs
        injection hevs with e1 e2
        have e3 : s2.groups = s1.groups := by
          have := congrFun e1 0
          rw [lift3_groups _ (by omega)] at this
          rw [← this]
          exact (lift3_groups _ (by omega) _ _).symm
        rcases gloop_measure todo _ s2 (hrel.keysUnique 0) hu hsub hs2 with ⟨e4, _⟩ | ⟨e4, _⟩
        · rw [← e3, e4] at h1; simp at h1
        · have hk : ∀ kv ∈ s.q 0, kv ∈ s2.groups := fun kv hkv =>
            gloop_keep (k := kv.1) (g := kv.2) todo _ s2 (hrel.keysUnique 0) hsub hu hkv
              (hnr kv hkv) hs2
          have hnd : (s.q 0).keys.Nodup := hrel.keysUnique 0
          have : (s.q 0).keys.length ≤ s2.groups.keys.length :=
            nodup_subset_length hnd (fun n hn => by
              obtain ⟨v, hv⟩ := (Dict.mem_keys_iff _ _).1 hn
              exact (Dict.mem_keys_iff _ _).2 ⟨v, hk _ hv⟩)
          rw [keys_length, keys_length] at this
          simp only at e4
          omega
  | globCrash hw _ hr =>
    obtain ⟨r, hr'⟩ := group_safe h.loop h.post hb hw (some s.nio) s.q s.aux _ _ hh
    rw [hr] at hr'; cases hr'
  | checkStop h1 _ _ =>
    have := (allEmpty_iff.1 h1).1 0 (show 0 < pre.length + 2 + post.length by omega)
    exact absurd this hne
  | check => rfl

namespace ExampleDeadlock

instance : DecidableEq (Dict Nat (Except Nat (List Nat))) :=
  inferInstanceAs (DecidableEq (List (Nat × Except Nat (List Nat))))

def imread (n : Nat) (_ : List Nat) : Except Nat (List Nat) := .ok [n]
def im2im (_ : Nat) (v : List Nat) : Except Nat (List Nat) := .ok v

/-- The couples (0, 1), (1, 2), (2, 3). -/
def couples : List (Nat × Nat × Nat) := consecutive (fun i => i + 10) (fun i => i) 3

def start : AState Nat (List Nat) Nat Unit :=
  AState.init (groupStart ExamplePiv.ops.toNameTuples (fun n => [n]) (coupleSeries couples)) ()

def topology := pivTopology imread (some im2im) ExamplePiv.ops ExamplePiv.computePiv ExamplePiv.savePiv

/-- The image 1 is read slowly: the images 0 and 2 are loaded and transformed before. -/
def labels : List Label :=
  [.launch 0, .begin 0, .launch 0, .begin 0, .finish 0, .launch 1, .begin 1, .launch 0, .begin 0, .finish 2, .finish 1,
   .launch 1, .begin 1, .finish 1, .finish 0, .launch 0, .begin 0, .finish 0]

def final := runEager topology ⟨2, 2, false⟩ labels start

end ExampleDeadlock

/-- C12 is false for PIV with an image-to-image function, even for couples of consecutive images: with two workers and
`nb_items_queue_max = 2`, a state is reachable from which no execution sets the stop flag.  (Without image-to-image
function this cannot happen: `C12_async_finishes_piv_consecutive`.) -/
theorem C12_im2im_deadlock : ∃ (ls : List Label) (s : AState Nat (List Nat) Nat Unit),
    EagerRun ExampleDeadlock.topology ⟨2, 2, false⟩ ExampleDeadlock.start ls s ∧ s.crashed = none ∧
    ∀ ls' s', ARun ExampleDeadlock.topology ⟨2, 2, false⟩ s ls' s' → s'.stop = false := by
  cases h : ExampleDeadlock.final with
  | none => exact absurd h (by decide)
  | some s =>
    have h1 : ExampleDeadlock.final.map (fun s => (s.crashed, s.pending.isEmpty, s.inflight.isEmpty, s.stop)) =
      some (none, true, true, false) := by decide
    have h2 : ExampleDeadlock.final.map (fun s => (s.q 0, s.q 1, s.q 3, s.q 4, s.q 5)) =
      some ([(10, .ok [0, 1]), (11, .ok [1, 2]), (12, .ok [2, 3])], [],
        [(0, .ok [0]), (2, .ok [2])], [], []) := by decide
    rw [h] at h1 h2
    simp only [Option.map_some, Option.some.injEq, Prod.mk.injEq] at h1 h2
    obtain ⟨e1, e2, e3, e4⟩ := h1
    obtain ⟨e5, e6, e7, e8, e9⟩ := h2
    have hrun := runEager_run h
    refine ⟨_, s, hrun, e1, ?_⟩
    intro ls' s' hrun'
    have hsetup := piv_setup ExampleDeadlock.imread (some ExampleDeadlock.im2im) ExamplePiv.ops ExamplePiv.computePiv
      ExamplePiv.savePiv ExampleDeadlock.couples (by decide) (by decide)
    have hb := piv_buildOk ExampleDeadlock.imread (some ExampleDeadlock.im2im) ExamplePiv.ops (fun n => [n])
      ExampleDeadlock.couples (fun _ _ _ _ _ _ _ _ => ⟨_, rfl⟩)
    have hdead := group_dead hsetup hb hrun.toRun e1 (List.isEmpty_iff.1 e2) (List.isEmpty_iff.1 e3) (by rw [e5]; simp)
      (by
        rw [e5]
        show ∀ kv ∈ ([(10, .ok [0, 1]), (11, .ok [1, 2]), (12, .ok [2, 3])] : Dict Nat (Except Nat (List Nat))), ¬ ((ExamplePiv.ops.names kv.2).all (fun n => ((s.q 3).get? n).isSome) = true)
        rw [e7]
        decide)
      (by
        intro w inp out io f hw
        rcases group_item hw with ⟨h2, rfl, rfl, _⟩ | ⟨h2, h3, rfl, _, _⟩
        · have h2' : w < 2 := h2
          have : w = 0 ∨ w = 1 := by omega
          rcases this with rfl | rfl
          · left; exact e6
          · right
            show decide (2 ≤ (s.q 3).length) = true
            rw [e7]; decide
        · left
          have h2' : 2 < w := h2
          have h3' : w < 5 := by
            have := h3
            simp [loadWorks] at this
            omega
          have : w = 3 ∨ w = 4 := by omega
          rcases this with rfl | rfl
          · exact e8
          · exact e9)
    rw [dead_run hdead hrun', e4]

end Verif
