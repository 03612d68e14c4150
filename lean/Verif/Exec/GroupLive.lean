import Verif.Exec.GroupEnd
import Verif.Exec.Labels

/-!
# Termination of the topologies making groups
-/

namespace Verif.Exec
open Verif Verif.Spec
set_option linter.unusedSectionVars false

variable {κ α ε : Type} [DecidableEq κ]
  {pre post : List (ChainWork κ α ε)} {make : GroupQueues κ α ε → Except ε (GroupQueues κ α ε)}
  {N : NameTuples κ α} {build : κ → List κ → List (Except ε α) → Except ε (Except ε α)}
  {okNames : List κ → Prop} {pathOf : κ → α} {series : List (κ × List κ)}

theorem ARun.append {σ : Type} {T : Topology κ α ε σ} {c : Cfg} {s s' s'' : AState κ α ε σ} {ls ls' : List Label}
    (h : ARun T c s ls s') (h' : ARun T c s' ls' s'') : ARun T c s (ls ++ ls') s'' := by
  induction h' with
  | nil => simpa using h
  | snoc _ hstep ih => rw [← List.append_assoc]; exact ih.snoc hstep

theorem Holds.step_log {σ : Type} {T : Topology κ α ε σ} {c : Cfg} {C : Contract T} {J : Map κ α ε → List (Event κ α ε) → Prop}
    {tot : Nat → κ → List (Event κ α ε)} (hC : C.Lawful) (hJ : GlobLaws C J) {l : Label} {s s' : AState κ α ε σ}
    {log : List (Event κ α ε)} (h : Holds T C J tot s.q s.inflight log) (hs : StepCase T c l s s')
    (hc : s'.crashed = none) : ∃ log', Holds T C J tot s'.q s'.inflight log' := by
  cases hs with
  | launch => exact ⟨_, h⟩
  | beginEmpty => exact ⟨_, h⟩
  | beginError hw _ hq => exact ⟨_, h.beginError hC hJ hw hq⟩
  | beginOk hw _ hq => exact ⟨log, by simpa using h.beginOk hw hq⟩
  | finish ht hw _ => exact ⟨_, by simpa using h.finish hC hJ ht hw⟩
  | finishCrash => simp at hc
  | glob hw _ hr =>
    obtain ⟨m, h1, h2, h3⟩ := h
    obtain ⟨m', h4⟩ := hJ.glob hw _ _ _ _ _ _ _ _ _ _ h1 h2 h3 hr
    exact ⟨_, m', h4⟩
  | globCrash => simp at hc
  | checkStop => exact ⟨_, h⟩
  | check => exact ⟨_, h⟩

/-! ## Order of loading -/

theorem fillPaths_keys (pathOf : κ → α) (ns : List κ) (d : Dict κ (Except ε α)) :
    (fillPaths pathOf ns d).keys = ns.foldl (fun acc x => if x ∈ acc then acc else acc ++ [x]) d.keys := by
  induction ns generalizing d with
  | nil => rfl
  | cons n ns ih =>
    unfold fillPaths
    rw [ih, List.foldl_cons]
    by_cases h : n ∈ d.keys
    · rw [if_pos h, Dict.keys_set_of_mem _ _ _ h]
    · rw [if_neg h, Dict.keys_set_of_not_mem _ _ _ h]

theorem groupStart_keys : (groupStart (ε := ε) N pathOf series 1).keys = loadOrder series := by
  unfold groupStart
  rw [if_neg (by omega), if_pos rfl, fillGroups_paths, fillPaths_keys]
  rfl

theorem loadOrder_nodup (series : List (κ × List κ)) : (loadOrder series).Nodup := by
  have := groupStart_keysUnique (ε := Unit) (N := (⟨id, id, fun _ => rfl⟩ : NameTuples κ (List κ)))
    (pathOf := fun _ => []) (series := series) 1
  unfold Dict.KeysUnique at this
  rwa [groupStart_keys] at this

theorem mem_loadOrder (series : List (κ × List κ)) (n : κ) : n ∈ loadOrder series ↔ n ∈ namesOfSeries series := by
  rw [← groupStart_keys (ε := Unit) (N := (⟨id, id, fun _ => rfl⟩ : NameTuples κ (List κ)))
    (pathOf := fun _ => []), Dict.mem_keys_iff]
  unfold groupStart
  rw [if_neg (by omega), if_pos rfl, fillGroups_paths]
  have hu := fillPaths_keysUnique (ε := Unit) (fun _ => ([] : List κ)) (namesOfSeries series) [] List.nodup_nil
  constructor
  · rintro ⟨v, hv⟩
    have := Dict.mem_get? _ hu _ _ hv
    rw [fillPaths_get?] at this
    split at this
    · assumption
    · cases this
  · intro h
    refine ⟨.ok [], Dict.get?_mem _ _ _ ?_⟩
    rw [fillPaths_get?, if_pos h]

/-! ## Facts on the states without running task -/

/-- What is known on a state of an execution. -/
def GState (pre post : List (ChainWork κ α ε)) (make : GroupQueues κ α ε → Except ε (GroupQueues κ α ε))
    (N : NameTuples κ α) (build : κ → List κ → List (Except ε α) → Except ε (Except ε α)) (okNames : List κ → Prop)
    (pathOf : κ → α) (series : List (κ × List κ)) (q : Queues κ α ε) (fl : List (Task κ α)) (_ : Unit) : Prop :=
  ∃ log, GHolds pre post make N build okNames pathOf series q fl log ∧ q 1 <:+ groupStart N pathOf series 1

/-- An image is in one queue only. -/
theorem image_once {q : Queues κ α ε} {fl} {log} (h : GHolds pre post make N build okNames pathOf series q fl log)
    {i j : Nat} (hi : 1 ≤ i ∧ i ≤ pre.length + 1) (hj : 1 ≤ j ∧ j ≤ pre.length + 1) {n : κ}
    (h1 : n ∈ (q i).keys) (h2 : n ∈ (q j).keys) : i = j := by
  obtain ⟨m, hrel, hinv, _⟩ := h
  obtain ⟨v, hv⟩ := (Dict.mem_keys_iff _ _).1 h1
  obtain ⟨v', hv'⟩ := (Dict.mem_keys_iff _ _).1 h2
  refine hinv.uniq i j n v v' ?_ ((hrel.at_iff _ _ _).2 (Or.inl hv)) ((hrel.at_iff _ _ _).2 (Or.inl hv'))
  simp only [seriesContract, groupContract, gline]
  rw [if_pos hi, if_pos hj]

/-- A group which is not made comes from the series. -/
theorem group_from {q : Queues κ α ε} {fl} {log} (h : GHolds pre post make N build okNames pathOf series q fl log)
    {k : κ} {v : Except ε α} (hk : (k, v) ∈ q 0) : ∃ ns, (k, ns) ∈ series ∧ v = .ok (N.tup ns) := by
  obtain ⟨m, hrel, hinv, _⟩ := h
  have := hinv.good 0 k v ((hrel.at_iff _ _ _).2 (Or.inl hk))
  obtain ⟨ns, h1, h2⟩ := this.1 rfl
  exact ⟨ns, Dict.get?_mem _ _ _ h1, h2⟩

theorem rel0 {q : Queues κ α ε} {fl} {m : Map κ α ε} (hrel : Rel (groupTopology pre post make) q fl m) {k v}
    (h : m 0 k = some v) : (k, v) ∈ q 0 := by
  rcases (hrel.at_iff _ _ _).1 h with h | ⟨t, _, h2, _⟩
  · exact h
  · have := group_inpOf h2
    omega

/-- An image is used by a remaining group. -/
theorem image_used {q : Queues κ α ε} {fl} {log} (h : GHolds pre post make N build okNames pathOf series q fl log)
    {i : Nat} (hi : 1 ≤ i ∧ i ≤ pre.length + 1) {n : κ} (h1 : n ∈ (q i).keys) :
    ∃ k ns, (k, ns) ∈ series ∧ (k, .ok (N.tup ns)) ∈ q 0 ∧ n ∈ ns := by
  have h' := h
  obtain ⟨m, hrel, hinv, hJ⟩ := h
  obtain ⟨v, hv⟩ := (Dict.mem_keys_iff _ _).1 h1
  obtain ⟨k, g, h2, h3⟩ := hJ.used i n v hi.1 hi.2 ((hrel.at_iff _ _ _).2 (Or.inl hv))
  have h4 := rel0 hrel h2
  obtain ⟨ns, h5, rfl⟩ := group_from h' h4
  rw [names_tup] at h3
  exact ⟨k, ns, h5, h4, h3⟩

theorem image_name {q : Queues κ α ε} {fl} {log} (h : GHolds pre post make N build okNames pathOf series q fl log)
    {i : Nat} (hi : 1 ≤ i ∧ i ≤ pre.length + 1) {n : κ} (h1 : n ∈ (q i).keys) : n ∈ loadOrder series := by
  obtain ⟨k, ns, h2, _, h3⟩ := image_used h hi h1
  rw [mem_loadOrder]
  exact List.mem_flatMap.2 ⟨_, h2, h3⟩

theorem keys_length {β : Type} (d : Dict κ β) : d.keys.length = d.length := by
  unfold Dict.keys; exact List.length_map ..

theorem nodup_subset_length {l l' : List κ} (h : l.Nodup) (hs : ∀ x ∈ l, x ∈ l') : l.length ≤ l'.length :=
  (List.subperm_of_subset h hs).length_le

/-- (a) all the images fit in a queue -/
theorem width_small (c : Cfg) (hs : (loadOrder series).length ≤ c.queueMax) {q : Queues κ α ε} {a : Unit}
    (hpre : 0 < pre.length)
    (h : GState pre post make N build okNames pathOf series q [] a) (hne : q pre.length ≠ []) :
    (q (pre.length + 1)).length < c.queueMax := by
  obtain ⟨log, h, _⟩ := h
  cases hq : q pre.length with
  | nil => exact absurd hq hne
  | cons kv rest =>
    have h0 : kv.1 ∈ (q pre.length).keys := by rw [hq]; simp [Dict.keys]
    have hnd : (kv.1 :: (q (pre.length + 1)).keys).Nodup := by
      rw [List.nodup_cons]
      refine ⟨fun h1 => ?_, ?_⟩
      · have := image_once h (i := pre.length) (j := pre.length + 1) ⟨hpre, by omega⟩ ⟨by omega, by omega⟩ h0 h1
        omega
      · obtain ⟨m, hrel, _⟩ := h
        exact hrel.keysUnique _
    have := nodup_subset_length (l' := loadOrder series) hnd (by
      intro x hx
      rcases List.mem_cons.1 hx with rfl | hx
      · exact image_name h ⟨hpre, by omega⟩ h0
      · exact image_name h ⟨by omega, by omega⟩ hx)
    simp only [List.length_cons, keys_length] at this
    omega

/-- (b) one work on images: the images which wait for other ones fit in a queue -/
theorem width_one (c : Cfg) (hp : pre.length = 1) (hs : WaitingBelow series c.queueMax) {q : Queues κ α ε} {a : Unit}
    (h : GState pre post make N build okNames pathOf series q [] a) (hne : q pre.length ≠ [])
    (hnr : ∀ kv ∈ q 0, ¬ ((N.names kv.2).all (fun n => ((q (pre.length + 1)).get? n).isSome) = true)) :
    (q (pre.length + 1)).length < c.queueMax := by
  obtain ⟨log, h, hsuf⟩ := h
  obtain ⟨doneItems, hdone⟩ := hsuf
  have horder : loadOrder series = doneItems.map Prod.fst ++ (q 1).keys := by
    rw [← groupStart_keys (ε := ε) (N := N) (pathOf := pathOf), ← hdone]
    simp [Dict.keys]
  have hnd := loadOrder_nodup series
  rw [horder, List.nodup_append] at hnd
  have hrest : (q 1).keys ≠ [] := by
    rw [hp] at hne
    intro h0
    apply hne
    rw [← List.length_eq_zero_iff, ← keys_length, h0]; rfl
  refine Nat.lt_of_le_of_lt ?_ (hs _ _ horder hrest)
  rw [← keys_length]
  refine nodup_subset_length ?_ ?_
  · obtain ⟨m, hrel, _⟩ := h
    exact hrel.keysUnique _
  · intro n hn
    obtain ⟨k, ns, h1, h2, h3⟩ := image_used h ⟨by omega, by omega⟩ hn
    have hn1 : n ∉ (q 1).keys := fun h4 => by
      have := image_once h (i := 1) (j := pre.length + 1) ⟨by omega, by omega⟩ ⟨by omega, by omega⟩ h4 hn
      omega
    have hnl : n ∈ doneItems.map Prod.fst := by
      have := image_name h ⟨by omega, by omega⟩ hn
      rw [horder] at this
      rcases List.mem_append.1 this with h4 | h4
      · exact h4
      · exact absurd h4 hn1
    unfold waiting
    rw [List.mem_filter]
    refine ⟨hnl, ?_⟩
    rw [List.any_eq_true]
    refine ⟨(k, ns), h1, ?_⟩
    simp only [Bool.and_eq_true, decide_eq_true_eq, List.any_eq_true]
    refine ⟨h3, ?_⟩
    have := hnr _ h2
    simp only [names_tup, List.all_eq_true, Classical.not_forall] at this
    obtain ⟨n', h4, h5⟩ := this
    refine ⟨n', h4, fun h6 => ?_⟩
    obtain ⟨m, hrel, hinv, hJ⟩ := h
    obtain ⟨i, e1, e2, r, e3⟩ := (hJ.groups k _ ((hrel.at_iff _ _ _).2 (Or.inl h2))).2 n' (by rw [names_tup]; exact h4)
    rw [hrel.get?] at e3
    by_cases hi : i = pre.length + 1
    · subst hi; rw [e3] at h5; exact h5 rfl
    · have hi1 : i = 1 := by omega
      subst hi1
      have : n' ∈ (q 1).keys := (Dict.mem_keys_iff _ _).2 ⟨_, Dict.get?_mem _ _ _ e3⟩
      exact hnd.2.2 n' h6 n' this rfl

/-- The limits which avoid the deadlock. -/
def WideEnough (pre : List (ChainWork κ α ε)) (series : List (κ × List κ)) (c : Cfg) : Prop :=
  (loadOrder series).length ≤ c.queueMax ∨ (pre.length = 1 ∧ WaitingBelow series c.queueMax)

theorem GroupSetup.aprogress (h : GroupSetup pre post make N build okNames series)
    (hb : BuildOk pre build pathOf series) (hpre : 0 < pre.length) {c : Cfg} (hq : 0 < c.queueMax)
    (hw : WideEnough pre series c) :
    AProgress (groupTopology pre post make) c (GState pre post make N build okNames pathOf series) := by
  refine group_aprogress h.loop h.post hb c hq _ (fun q fl a hP => ?_) (fun q a hP hne hnr => ?_)
  · obtain ⟨log, hP, _⟩ := hP; exact ⟨log, hP⟩
  · rcases hw with hw | ⟨h1, h2⟩
    · exact width_small c hw hpre hP hne
    · exact width_one c h1 h2 hP hne hnr

theorem GroupSetup.state (h : GroupSetup pre post make N build okNames series) (hpre : 0 < pre.length) {c : Cfg}
    {ls : List Label} {s : AState κ α ε Unit}
    (hrun : ARun (groupTopology pre post make) c (groupAInit N pathOf series) ls s) (hc : s.crashed = none) :
    GState pre post make N build okNames pathOf series s.q s.inflight s.aux :=
  ⟨_, h.holds hrun hc, suffix_run (group_readOnly hpre) hrun⟩

theorem GState.globPot (h : GroupSetup pre post make N build okNames series) :
    GlobPot (groupTopology pre post make) (grank pre.length post.length) (fun _ => 0)
      (GState pre post make N build okNames pathOf series) := by
  intro w ready outLen run hw nio q a fl q' a' evs hP hrun
  obtain ⟨log, hP, _⟩ := hP
  exact group_globPot (pathOf := pathOf) (series := series) h.loop h.post hw nio q a fl q' a' evs ⟨log, hP⟩ hrun

theorem GroupSetup.fair (h : GroupSetup pre post make N build okNames series)
    (hb : BuildOk pre build pathOf series) (hpre : 0 < pre.length) {c : Cfg} (hmax : 0 < c.maxWorkers)
    (hq : 0 < c.queueMax) (hw : WideEnough pre series c) {run : Nat → AState κ α ε Unit} {lab : Nat → Label}
    (h0 : run 0 = groupAInit N pathOf series) (hrun : Infinite (groupTopology pre post make) c run lab)
    (hfair : Fair (groupTopology pre post make) c run lab) : ∃ n, (run n).stop = true := by
  have hr : ∀ n, ∃ ls, ARun (groupTopology pre post make) c (groupAInit N pathOf series) ls (run n) := by
    intro n
    induction n with
    | zero => exact ⟨[], by rw [h0]; exact .nil _⟩
    | succ n ih => obtain ⟨ls, h⟩ := ih; exact ⟨_, h.snoc (hrun n)⟩
  refine fair_terminates (auxPot := fun _ => 0) group_rank (GState.globPot h)
    (h.aprogress hb hpre hq hw) hmax hrun hfair (fun n => ?_) (fun n => ?_)
  · obtain ⟨ls, h1⟩ := hr n
    exact (CInv.init _ _).run h1 (astep_cases (hrun n)).1
  · obtain ⟨ls, h1⟩ := hr n
    exact h.state hpre h1 (astep_cases (hrun n)).1

theorem GroupSetup.canFinish (h : GroupSetup pre post make N build okNames series)
    (hb : BuildOk pre build pathOf series) (hpre : 0 < pre.length) {c : Cfg} (hst : c.stopIfError = false)
    (hmax : 0 < c.maxWorkers) (hq : 0 < c.queueMax) (hw : WideEnough pre series c) {ls : List Label}
    {s : AState κ α ε Unit}
    (hrun : ARun (groupTopology pre post make) c (groupAInit N pathOf series) ls s) :
    ∃ ls' s', ARun (groupTopology pre post make) c s ls' s' ∧ s'.stop = true := by
  have hc := h.noCrash hb hst hrun
  obtain ⟨ls', s', h1, h2⟩ := can_finish (auxPot := fun _ => 0) group_rank (GState.globPot h)
    (h.aprogress hb hpre hq hw) hmax (by
      intro l s s' hC hP hstep hcr
      obtain ⟨log, hP, hsuf⟩ := hP
      have hcase := (astep_cases hstep).2
      have hL : (seriesContract pre post make N build pathOf series).Lawful := group_lawful
      have hG := group_globLaws (fin := finOf pre pathOf) (goodG := fromSeries N series) (pre := pre) h.loop h.post
      obtain ⟨log', h3⟩ := Holds.step_log hL hG hP hcase hcr
      exact ⟨log', h3, (suffix_step (group_readOnly hpre) hcase).trans hsuf⟩) s
    ((CInv.init _ _).run hrun hc) (h.state hpre hrun hc) hc
  refine ⟨ls', s', h1, ?_⟩
  rcases h2 with h2 | h2
  · exact h2
  · have := h.noCrash hb hst (ARun.append hrun h1)
    rw [this] at h2; cases h2

end Verif.Exec
