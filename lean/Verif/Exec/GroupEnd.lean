import Verif.Exec.GroupRun

/-!
# Executions of the topologies making groups: summary

The facts used by the theorems on the topologies of PIV and preprocessing.
-/

namespace Verif.Exec
open Verif Verif.Spec
set_option linter.unusedSectionVars false

variable {κ α ε : Type} [DecidableEq κ]
  {pre post : List (ChainWork κ α ε)} {make : GroupQueues κ α ε → Except ε (GroupQueues κ α ε)}
  {N : NameTuples κ α} {build : κ → List κ → List (Except ε α) → Except ε (Except ε α)}
  {okNames : List κ → Prop} {pathOf : κ → α} {series : List (κ × List κ)}

theorem forward_log (w : Nat) (q : Queues κ α ε) (log log' : List (Event κ α ε)) (out : Option Nat) (k : κ) (e : ε) :
    (forward w q log out k e).1 = (forward w q log' out k e).1 := by
  unfold forward
  split <;> rfl

/-- What the sequential executor does does not depend on what has been done. -/
theorem seqWork_log {σ : Type} (c : Cfg) (w : Nat) (work : Work κ α ε σ) (s : SState κ α ε σ)
    (log : List (Event κ α ε)) :
    (seqWork c w work { s with log := log }).crashed = (seqWork c w work s).crashed ∧
    (seqWork c w work { s with log := log }).q = (seqWork c w work s).q := by
  unfold seqWork
  dsimp only
  cases hc : s.crashed with
  | some e => simp [hc]
  | none =>
    cases work with
    | glob ready outLen run =>
      dsimp only
      split
      · simp [hc]
      · cases run none s.q s.aux with
        | error e => simp
        | ok r => simp [hc]
    | item inp out io f =>
      dsimp only
      cases (s.q inp).popFirst with
      | error e => simp [hc]
      | ok r =>
        obtain ⟨⟨k, r⟩, rest⟩ := r
        cases r with
        | error e => simp [hc]; exact forward_log _ _ _ _ _ _ _
        | ok v =>
          cases hf : f k v with
          | ok r => simp [hc, hf]
          | error e =>
            dsimp only
            rw [hf]
            dsimp only
            split <;> simp [hc]

/-- What is known on the topology and the series. -/
structure GroupSetup (pre post : List (ChainWork κ α ε)) (make : GroupQueues κ α ε → Except ε (GroupQueues κ α ε))
    (N : NameTuples κ α) (build : κ → List κ → List (Except ε α) → Except ε (Except ε α))
    (okNames : List κ → Prop) (series : List (κ × List κ)) : Prop where
  loop : IsGroupLoop make N build okNames (fromSeries N series)
  post : 0 < post.length
  keys : (series.map Prod.fst).Nodup
  names : ∀ s ∈ series, okNames s.2

/-- What the events of a finished execution are. -/
structure GroupDone (pre post : List (ChainWork κ α ε))
    (build : κ → List κ → List (Except ε α) → Except ε (Except ε α)) (pathOf : κ → α)
    (series : List (κ × List κ)) (log : List (Event κ α ε)) : Prop where
  groups : ∀ k ns, Dict.get? series k = some ns →
    eventsOf (fun w => decide (pre.length ≤ w)) k log = groupEvents pre post build pathOf k ns
  noGroup : ∀ k, Dict.get? series k = none → eventsOf (fun w => decide (pre.length ≤ w)) k log = []
  images : ∀ n ∈ namesOfSeries series,
    eventsOf (fun w => decide (w < pre.length)) n log = imageEvents n 0 pre (.ok (pathOf n))
  noImage : ∀ n, n ∉ namesOfSeries series → eventsOf (fun w => decide (w < pre.length)) n log = []

/-- The function making the groups does not raise. -/
def BuildOk (pre : List (ChainWork κ α ε)) (build : κ → List κ → List (Except ε α) → Except ε (Except ε α))
    (pathOf : κ → α) (series : List (κ × List κ)) : Prop :=
  ∀ k ns, Dict.get? series k = some ns → ∃ x, build k ns (ns.map (finOf pre pathOf)) = .ok x

abbrev groupAInit (N : NameTuples κ α) (pathOf : κ → α) (series : List (κ × List κ)) : AState κ α ε Unit :=
  AState.init (groupStart N pathOf series) ()

theorem GroupSetup.holds (h : GroupSetup pre post make N build okNames series) {c : Cfg} {ls : List Label}
    {s : AState κ α ε Unit}
    (hrun : ARun (groupTopology pre post make) c (groupAInit N pathOf series) ls s) (hc : s.crashed = none) :
    GHolds pre post make N build okNames pathOf series s.q s.inflight s.log :=
  Holds.run group_lawful (group_globLaws h.loop h.post) hrun (group_init h.keys h.names) hc

theorem GroupSetup.async (h : GroupSetup pre post make N build okNames series) {c : Cfg} {ls : List Label}
    {s : AState κ α ε Unit}
    (hrun : ARun (groupTopology pre post make) c (groupAInit N pathOf series) ls s) (hstop : s.stop = true) :
    GroupDone pre post build pathOf series s.log ∧ (∀ i < pre.length + 2 + post.length, s.q i = []) ∧
      s.inflight = [] ∧ s.crashed = none := by
  obtain ⟨h1, h2⟩ := stopped_of_run group_wellFormed hrun (CInv.init _ _) rfl hstop
  have hh := h.holds hrun (h2 rfl)
  rw [h1.idle] at hh
  obtain ⟨e1, e2, e3, e4⟩ := group_done hh h1.empty
  exact ⟨⟨e1, e2, e3, e4⟩, (allEmpty_iff.1 h1.empty).1, h1.idle, h2 rfl⟩

theorem GroupSetup.noCrash (h : GroupSetup pre post make N build okNames series)
    (hb : BuildOk pre build pathOf series) {c : Cfg} (hst : c.stopIfError = false) {ls : List Label}
    {s : AState κ α ε Unit}
    (hrun : ARun (groupTopology pre post make) c (groupAInit N pathOf series) ls s) : s.crashed = none :=
  noCrash_run group_lawful (group_globLaws h.loop h.post) hst (group_safe h.loop h.post hb) hrun
    (group_init h.keys h.names) rfl

theorem GroupSetup.seq (h : GroupSetup pre post make N build okNames series)
    (hb : BuildOk pre build pathOf series) {c : Cfg} (hst : c.stopIfError = false) :
    ∃ n s, seqLoop (groupTopology pre post make) c n (SState.init (groupStart N pathOf series) ()) = some s ∧
      s.crashed = none ∧ GroupDone pre post build pathOf series s.log ∧
      (∀ i < pre.length + 2 + post.length, s.q i = []) := by
  have hL : (seriesContract pre post make N build pathOf series).Lawful := group_lawful
  have hG := group_globLaws (fin := finOf pre pathOf) (goodG := fromSeries N series) (pre := pre) h.loop h.post
  have h0 : GHolds pre post make N build okNames pathOf series
    (SState.init (groupStart N pathOf series) () : SState κ α ε Unit).q [] [] := group_init h.keys h.names
  obtain ⟨n, s, hs⟩ := seq_terminates (c := c)
    (P := fun q fl _ => ∃ log, GHolds pre post make N build okNames pathOf series q fl log)
    (auxPot := fun _ => 0) group_rank (group_globPot h.loop h.post) (group_sprogress h.loop c) (by
      intro w work s hw hP hcr
      obtain ⟨log, hP⟩ := hP
      -- the log of the state is irrelevant
      have hP' := seqWork_log c w work s log
      rw [← hP'.1] at hcr
      have := Holds.seqWork (s := { s with log := log }) hL hG hw hP hcr
      rw [hP'.2] at this
      exact ⟨_, this⟩) (SState.init (groupStart N pathOf series) ()) ⟨[], h0⟩
  have hcr := noCrash_seqLoop hL hG hst (group_safe h.loop h.post hb) hs h0 rfl
  obtain ⟨h1, h2⟩ := Holds.seqLoop hL hG hs h0 hcr
  obtain ⟨e1, e2, e3, e4⟩ := group_done h1 h2
  exact ⟨n, s, hs, hcr, ⟨e1, e2, e3, e4⟩, (allEmpty_iff.1 h2).1⟩

end Verif.Exec
