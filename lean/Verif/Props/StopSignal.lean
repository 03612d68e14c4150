import Verif.Exec.Signal
import Verif.Exec.StopIfError
import Verif.Exec.ChainRun
import Verif.Props.GroupsLive
import Verif.Props.Mean

/-!
# The stop signal of the clusters (C104)

`XRun` are the executions of the asynchronous executors in which the signal 12 may arrive at any time; `XEnded` says that
`compute` returns.
-/

namespace Verif
open Verif.Exec Verif.Spec

variable {κ α ε σ : Type} [DecidableEq κ]

/-! ## The executor ends -/

/-- After the flag is set, the executor ends: the number of its steps is bounded, and an execution which can not be
continued has ended (or an exception has escaped from the executor). -/
def EndsAfterStop (T : Topology κ α ε σ) (c : Cfg) (s : XState κ α ε σ) : Prop :=
  (∃ n, ∀ xls s', XRun T c s xls s' → xls.length ≤ n) ∧
  ∀ xls s', XRun T c s xls s' → (∀ l, xstep T c l s' = none) → XEnded T s' ∨ s'.a.crashed.isSome

/-- C104, no deadlock.  In every topology, with every limits: when the signal has been received, at any time, either the
executor has ended, or something can be done by one of its tasks.  (This also holds for the topologies which never end
without a signal, see C12 and C29.) -/
theorem C104_no_deadlock (T : Topology κ α ε σ) (c : Cfg) (q : Queues κ α ε) (a : σ) (xls : List XLabel)
    (s : XState κ α ε σ) (hrun : XRun T c (XState.init q a) xls s) (hc : s.a.crashed = none) (hs : s.a.stop = true) :
    XEnded T s ∨ ∃ l s', xstep T c l s = some s' := by
  obtain ⟨ls, h⟩ := hrun.init_proj
  exact xprogress ((PInv.init q a).run hrun) ((CInv.init q a).run h hc).items hc hs

theorem endsAfterStop_of {T : Topology κ α ε σ} {c : Cfg} {rank : Nat → Nat} {auxPot : σ → Nat}
    {P : Queues κ α ε → List (Task κ α) → σ → Prop} (hR : RankLaws T rank) (hG : GlobPot T rank auxPot P)
    {q : Queues κ α ε} {a : σ} {xls : List XLabel} {s : XState κ α ε σ} (hrun : XRun T c (XState.init q a) xls s)
    (hP : ∀ xls s, XRun T c (XState.init q a) xls s → s.a.crashed = none → P s.a.q s.a.inflight s.a.aux)
    (hs : s.a.stop = true) : EndsAfterStop T c s := by
  refine ⟨⟨_, fun xls' s' h => (xrun_bound hR hG h ((PInv.init q a).run hrun) hs
    (fun xls'' s'' h' hc => hP _ _ (hrun.trans h') hc)).1⟩, ?_⟩
  intro xls' s' h hno
  cases hcr : s'.a.crashed with
  | some e => exact Or.inr rfl
  | none =>
    rcases C104_no_deadlock T c q a _ s' (hrun.trans h) hcr (stop_run h hs) with h1 | ⟨l, s'', h1⟩
    · exact Or.inl h1
    · rw [hno l] at h1; cases h1

/-- C104.  A chain of works ends after the signal, whatever the state, the limits and the schedule. -/
theorem C104_ends_chain (ws : List (ChainWork κ α ε)) (items : Dict κ (Except ε α)) (c : Cfg) (xls : List XLabel)
    (s : XState κ α ε Unit) (hrun : XRun (chain ws) c (XState.init (startQueues items) ()) xls s)
    (hs : s.a.stop = true) : EndsAfterStop (chain ws) c s :=
  endsAfterStop_of (P := fun _ _ _ => True) (auxPot := fun _ => 0) (chain_rank ws) (chain_globPot ws _ _ _) hrun
    (fun _ _ _ _ => trivial) hs

section
variable (imread : κ → α → Except ε α) (im2im : Option (κ → α → Except ε α)) (pathOf : κ → α)

/-- C104.  A computation of PIV ends after the signal, whatever the couples (also when the queues are too small for C12)
and the schedule. -/
theorem C104_ends_piv (O : CoupleOps κ α ε) (computePiv savePiv : κ → α → Except ε α) (cs : List (κ × κ × κ))
    (hk : (cs.map (fun c => c.1)).Nodup) (hne : ∀ c ∈ cs, c.2.1 ≠ c.2.2) (c : Cfg) (xls : List XLabel)
    (s : XState κ α ε Unit)
    (hrun : XRun (pivTopology imread im2im O computePiv savePiv) c
      (XState.init (groupStart O.toNameTuples pathOf (coupleSeries cs)) ()) xls s) (hs : s.a.stop = true) :
    EndsAfterStop (pivTopology imread im2im O computePiv savePiv) c s := by
  have h := piv_setup imread im2im O computePiv savePiv cs hk hne
  refine endsAfterStop_of (auxPot := fun _ => 0) group_rank (GState.globPot (pathOf := pathOf) h) hrun ?_ hs
  intro xls s hrun hc
  obtain ⟨ls, h1⟩ := hrun.init_proj
  have := h.state (loadWorks_pos _ _) h1 hc
  exact this

/-- C104.  The same for a preprocessing. -/
theorem C104_ends_preproc (O : SubsetOps κ α ε) (preproc save : κ → α → Except ε α)
    (series : List (κ × List κ)) (hk : (series.map Prod.fst).Nodup) (c : Cfg) (xls : List XLabel)
    (s : XState κ α ε Unit)
    (hrun : XRun (preprocTopology imread im2im O preproc save) c
      (XState.init (groupStart O.toNameTuples pathOf series) ()) xls s) (hs : s.a.stop = true) :
    EndsAfterStop (preprocTopology imread im2im O preproc save) c s := by
  have h := preproc_setup imread im2im O preproc save series hk
  refine endsAfterStop_of (auxPot := fun _ => 0) group_rank (GState.globPot (pathOf := pathOf) h) hrun ?_ hs
  intro xls s hrun hc
  obtain ⟨ls, h1⟩ := hrun.init_proj
  have := h.state (loadWorks_pos _ _) h1 hc
  exact this

end

/-! ## What has been done is right -/

theorem holds_prefix {T : Topology κ α ε σ} {C : Contract T} {J : Map κ α ε → List (Event κ α ε) → Prop}
    {tot : Nat → κ → List (Event κ α ε)} {q : Queues κ α ε} {fl : List (Task κ α)} {log : List (Event κ α ε)}
    (h : Holds T C J tot q fl log) (l : Nat) (k : κ) :
    C.hist l k log <+: tot l k ∧
      (C.hist l k log = tot l k ∨ ∃ i, C.line i = l ∧ (k ∈ (q i).keys ∨ ∃ t ∈ fl, t.key = k)) := by
  obtain ⟨m, h1, h2, _⟩ := h
  by_cases hm : ∀ i, C.line i = l → m i k = none
  · have := h2.gone l k hm
    rw [this]
    exact ⟨List.prefix_refl _, Or.inl rfl⟩
  · push Not at hm
    obtain ⟨i, hi, hne⟩ := hm
    obtain ⟨v, hv⟩ := Option.ne_none_iff_exists'.1 hne
    have := h2.at_ i k v hv
    rw [hi] at this
    refine ⟨⟨_, this⟩, Or.inr ⟨i, hi, ?_⟩⟩
    rcases (h1.at_iff i k v).1 hv with h3 | ⟨t, ht, _, h4, _⟩
    · exact Or.inl (List.mem_map.2 ⟨_, h3, rfl⟩)
    · exact Or.inr ⟨t, ht, h4⟩

theorem hist_chain (ws : List (ChainWork κ α ε)) (k : κ) (log : List (Event κ α ε)) :
    (chainContract ws).hist 0 k log = historyOf k log := by
  unfold historyOf Contract.hist
  simp [keyOf_eq, chainContract]

/-- What an execution which ends with an exception has done is what an execution without `stop_if_error` has done. -/
theorem xrun_noCrash {T : Topology κ α ε σ} {c : Cfg} {s0 s : XState κ α ε σ} {xls : List XLabel} (h : XRun T c s0 xls s)
    (h0 : s0.a.crashed = none) :
    (s.a.crashed = none → XRun T c.noStop s0 xls s) ∧
      ∃ xls' s', XRun T c.noStop s0 xls' s' ∧ s'.a.crashed = none ∧ s'.a.log = s.a.log := by
  induction h with
  | nil => exact ⟨fun _ => .nil _, [], _, .nil _, h0, rfl⟩
  | @snoc s s' xls l h hs ih =>
    obtain ⟨i1, -⟩ := ih
    -- nothing happens after an exception
    have hc : s.a.crashed = none := by
      cases hcr : s.a.crashed with
      | none => rfl
      | some e =>
        exfalso
        cases l with
        | run l =>
          simp only [xstep, astep, hcr] at hs
          split at hs <;> cases hs
        | signal => simp [xstep, hcr] at hs
        | ret w => simp [xstep, hcr] at hs
    have hrun := i1 hc
    have same : xstep T c.noStop l s = some s' → (s'.a.crashed = none → XRun T c.noStop s0 (xls ++ [l]) s') := fun e _ => .snoc hrun e
    cases l with
    | signal =>
      have e : xstep T c.noStop .signal s = some s' := hs
      refine ⟨same e, _, _, .snoc hrun e, ?_, rfl⟩
      simp only [xstep] at hs
      split at hs
      · cases hs
      · cases hs; exact hc
    | ret w =>
      have e : xstep T c.noStop (.ret w) s = some s' := hs
      refine ⟨same e, _, _, .snoc hrun e, ?_, rfl⟩
      simp only [xstep] at hs
      split at hs
      · cases hs; exact hc
      · cases hs
    | run l =>
      simp only [xstep] at hs
      by_cases hb : barred l s
      · rw [if_pos hb] at hs; cases hs
      · rw [if_neg hb] at hs
        cases ha : astep T c l s.a with
        | none => rw [ha] at hs; cases hs
        | some a =>
          rw [ha] at hs
          cases hs
          -- the step is the same, or there is an exception
          have key : (astep T c.noStop l s.a = some a ∧ (a.crashed = none ∨ a.log = s.a.log)) ∨
              (a.crashed ≠ none ∧ ∃ a', astep T c.noStop l s.a = some a' ∧ a'.crashed = none ∧ a'.log = a.log) := by
            cases l with
            | launch w =>
              left
              refine ⟨ha, Or.inl ?_⟩
              simp only [astep, hc, launchStep] at ha
              split at ha
              · split at ha
                · cases ha
                · cases ha; rfl
              · cases ha
            | begin w =>
              left
              refine ⟨ha, Or.inl ?_⟩
              have hd : ∀ (t : AState κ α ε σ) io, (t.decr io).crashed = t.crashed := fun t io => by cases io <;> rfl
              have hi : ∀ (t : AState κ α ε σ) io, (t.incr io).crashed = t.crashed := fun t io => by cases io <;> rfl
              simp only [astep, hc, beginStep] at ha
              split at ha
              · split at ha
                · split at ha
                  · cases ha; rw [hd, hi]
                  · split at ha
                    · cases ha; rw [hd]; simp only [hi]
                    · cases ha; simp only [hi]
                · cases ha
              · cases ha
            | finish i =>
              simp only [astep, hc, finishStep] at ha
              split at ha
              · cases ha
              · rename_i t ht
                split at ha
                · rename_i out io f hw
                  have hd : ∀ (t : AState κ α ε σ) io, (t.decr io).crashed = t.crashed := fun t io => by cases io <;> rfl
                  have hl : ∀ (t : AState κ α ε σ) io, (t.decr io).log = t.log := fun t io => by cases io <;> rfl
                  split at ha
                  · rename_i r hr
                    left
                    refine ⟨?_, Or.inl ?_⟩
                    · simp only [astep, hc, finishStep, ht, hw, hr]; exact ha
                    · cases ha; rw [hd]
                  · rename_i e hr
                    split at ha
                    · right
                      cases ha
                      refine ⟨by simp, _, by simp only [astep, hc, finishStep, ht, hw, hr, Cfg.noStop, Bool.false_eq_true, if_false]; rfl, ?_, ?_⟩
                      · rw [hd]
                      · rw [hl]
                    · left
                      cases ha
                      refine ⟨by simp only [astep, hc, finishStep, ht, hw, hr, Cfg.noStop, Bool.false_eq_true, if_false], Or.inl ?_⟩
                      rw [hd]
                · cases ha
            | glob w =>
              left
              refine ⟨ha, ?_⟩
              simp only [astep, hc, globStep] at ha
              split at ha
              · split at ha
                · split at ha
                  · cases ha; exact Or.inr rfl
                  · cases ha; exact Or.inl rfl
                · cases ha
              · cases ha
            | check =>
              left
              refine ⟨ha, Or.inl ?_⟩
              simp only [astep, hc, checkStep] at ha
              cases ha
              split
              · rfl
              · exact hc
          have mk : ∀ a', astep T c.noStop l s.a = some a' →
              xstep T c.noStop (.run l) s = some ⟨a', afterStep l a'.stop s.returned⟩ := by
            intro a' e
            simp only [xstep, if_neg hb, e]
          rcases key with ⟨e, e'⟩ | ⟨e, a', e1, e2, e3⟩
          · refine ⟨same (mk a e), ?_⟩
            rcases e' with e' | e'
            · exact ⟨_, _, .snoc hrun (mk a e), e', rfl⟩
            · exact ⟨_, _, hrun, hc, e'.symm⟩
          · exact ⟨fun h => absurd h e, _, _, .snoc hrun (mk a' e1), e2, e3⟩

theorem chain_at (ws : List (ChainWork κ α ε)) (hws : ws ≠ []) (items : Dict κ (Except ε α))
    (hk : items.KeysUnique) (c : Cfg) (xls : List XLabel) (s : XState κ α ε Unit)
    (hrun : XRun (chain ws) c (XState.init (startQueues items) ()) xls s) (hc : s.a.crashed = none) (k : κ) :
    historyOf k s.a.log <+: chainTot ws items 0 k ∧ (historyOf k s.a.log = chainTot ws items 0 k ∨
      ∃ i, k ∈ (s.a.q i).keys ∨ ∃ t ∈ s.a.inflight, t.key = k) := by
  obtain ⟨ls, h⟩ := hrun.init_proj
  have hh := Holds.run (chain_lawful ws) (chain_globLaws ws) h (chain_init hws hk) hc
  have hp := holds_prefix hh 0 k
  rw [hist_chain] at hp
  obtain ⟨h1, h2⟩ := hp
  refine ⟨h1, ?_⟩
  rcases h2 with h2 | ⟨i, -, h2⟩
  · exact Or.inl h2
  · exact Or.inr ⟨i, h2⟩

/-- C104.  At any time of an execution of a chain of works, with or without a signal, what has been done for an item is
the beginning of what has to be done: every call is the right one, with the right value, and is made once; nothing is
done for other keys.  When the executor has ended, each item is done entirely or is left in a queue. -/
theorem C104_right_chain (ws : List (ChainWork κ α ε)) (hws : ws ≠ []) (items : Dict κ (Except ε α))
    (hk : items.KeysUnique) (c : Cfg) (xls : List XLabel) (s : XState κ α ε Unit)
    (hrun : XRun (chain ws) c (XState.init (startQueues items) ()) xls s) :
    (∀ k v, items.get? k = some v → historyOf k s.a.log <+: itemEvents k 0 ws v) ∧
    (∀ k, items.get? k = none → historyOf k s.a.log = []) ∧
    (s.a.crashed = none → XEnded (chain ws) s → ∀ k v, items.get? k = some v → historyOf k s.a.log = itemEvents k 0 ws v ∨
      ∃ i, k ∈ (s.a.q i).keys) := by
  have key := fun (c : Cfg) xls (s : XState κ α ε Unit) (hrun : XRun (chain ws) c (XState.init (startQueues items) ()) xls s)
      (hc : s.a.crashed = none) => chain_at ws hws items hk c xls s hrun hc
  obtain ⟨-, xls', s', h1, h2, h3⟩ := xrun_noCrash hrun rfl
  have hp := key _ xls' s' h1 h2
  rw [h3] at hp
  simp only [chainTot, if_true] at hp
  refine ⟨?_, ?_, ?_⟩
  · intro k v hv
    have := (hp k).1
    rw [hv] at this
    exact this
  · intro k hv
    have := (hp k).1
    rw [hv] at this
    exact List.prefix_nil.1 this
  · intro hc hend k v hv
    have := (key c xls s hrun hc k).2
    simp only [chainTot, if_true, hv] at this
    rcases this with h1 | ⟨i, h1 | ⟨t, ht, _⟩⟩
    · exact Or.inl h1
    · exact Or.inr ⟨i, h1⟩
    · have e := hend.inflight
      rw [e] at ht
      cases ht

section
variable (imread : κ → α → Except ε α) (im2im : Option (κ → α → Except ε α)) (pathOf : κ → α)

/-- C104.  At any time of a computation of PIV, with or without a signal: what has been done for a couple (computation,
save) is the beginning of what has to be done with the two images of the couple, each image has been loaded at most
once, and nothing has been done for something which is not a couple of the series. -/
theorem C104_right_piv (O : CoupleOps κ α ε) (computePiv savePiv : κ → α → Except ε α) (cs : List (κ × κ × κ))
    (hk : (cs.map (fun c => c.1)).Nodup) (hne : ∀ c ∈ cs, c.2.1 ≠ c.2.2)
    (hacc : CouplesAccepted O (fun n => imageOf n (loadWorks imread im2im) (.ok (pathOf n))) cs) (c : Cfg)
    (xls : List XLabel) (s : XState κ α ε Unit)
    (hrun : XRun (pivTopology imread im2im O computePiv savePiv) c
      (XState.init (groupStart O.toNameTuples pathOf (coupleSeries cs)) ()) xls s) :
    (∀ k n0 n1, (k, n0, n1) ∈ cs →
      eventsOf (fun w => decide ((loadWorks imread im2im).length ≤ w)) k s.a.log <+:
        itemEvents k ((loadWorks imread im2im).length + 1) [⟨false, computePiv⟩, ⟨true, savePiv⟩]
          (coupleOf (O.make k (n0, n1)) (imageOf n0 (loadWorks imread im2im) (.ok (pathOf n0)))
            (imageOf n1 (loadWorks imread im2im) (.ok (pathOf n1))))) ∧
    (∀ n, eventsOf (fun w => decide (w < (loadWorks imread im2im).length)) n s.a.log <+:
      imageEvents n 0 (loadWorks imread im2im) (.ok (pathOf n))) ∧
    (∀ k, (∀ n0 n1, (k, n0, n1) ∉ cs) →
      eventsOf (fun w => decide ((loadWorks imread im2im).length ≤ w)) k s.a.log = []) := by
  have hset := piv_setup imread im2im O computePiv savePiv cs hk hne
  obtain ⟨-, xls', s', hrun', hc, hlog⟩ := xrun_noCrash hrun rfl
  rw [← hlog]
  clear hrun hlog
  rename' hrun' => hrun, s' => s
  obtain ⟨ls, h⟩ := hrun.init_proj
  have hh := hset.holds (pathOf := pathOf) h hc
  have e0 := fun k => (holds_prefix hh 0 k).1
  have e1 := fun k => (holds_prefix hh 1 k).1
  have hsel : ∀ (l : Nat) (sel : Nat → Bool),
      (∀ w, sel w = decide ((if w < (loadWorks imread im2im).length then 1 else 0) = l)) → ∀ k,
      eventsOf sel k s.a.log =
        (seriesContract (loadWorks imread im2im) [⟨false, computePiv⟩, ⟨true, savePiv⟩] O.makeCouples O.toNameTuples O.build
          pathOf (coupleSeries cs)).hist l k (unstop s.a).log := by
    intro l sel hs k
    rw [eventsOf_eq]
    unfold Contract.hist
    rw [show (unstop s.a).log = s.a.log from rfl]
    apply List.filter_congr
    intro e _
    simp only [seriesContract, groupContract, hs]
    congr
  refine ⟨?_, ?_, ?_⟩
  · intro k n0 n1 hcs
    rw [hsel 0 _ (by intro w; by_cases hw : w < (loadWorks imread im2im).length <;> simp [hw] <;> omega)]
    have := e0 k
    simp only [groupTot, if_true, piv_get cs hk k n0 n1 hcs] at this
    refine List.IsPrefix.trans this ?_
    simp only [groupEvents, List.map_cons, List.map_nil, CoupleOps.build, CoupleOps.couple, finOf, coupleOf]
    cases h0 : imageOf n0 (loadWorks imread im2im) (.ok (pathOf n0)) with
    | error e => exact List.prefix_refl _
    | ok a0 =>
      cases h1 : imageOf n1 (loadWorks imread im2im) (.ok (pathOf n1)) with
      | error e => exact List.prefix_refl _
      | ok a1 =>
        obtain ⟨v, hv⟩ := hacc k n0 n1 hcs a0 a1 h0 h1
        simp only [hv]
        exact List.prefix_refl _
  · intro n
    rw [hsel 1 _ (by intro w; by_cases hw : w < (loadWorks imread im2im).length <;> simp [hw])]
    have := e1 n
    simp only [groupTot] at this
    refine List.IsPrefix.trans this ?_
    simp only [Nat.one_ne_zero, if_false, if_true]
    split
    · exact List.prefix_refl _
    · exact List.nil_prefix
  · intro k hk'
    rw [hsel 0 _ (by intro w; by_cases hw : w < (loadWorks imread im2im).length <;> simp [hw] <;> omega)]
    have := e0 k
    have hn : Dict.get? (coupleSeries cs) k = none := by
      cases hg : Dict.get? (coupleSeries cs) k with
      | none => rfl
      | some ns =>
        obtain ⟨c, hc, he⟩ := List.mem_map.1 (Dict.get?_mem _ _ _ hg)
        obtain ⟨k', n0, n1⟩ := c
        cases he
        exact absurd hc (hk' n0 n1)
    simp only [groupTot, if_true, hn] at this
    exact List.prefix_nil.1 this

/-- C104.  The same at any time of a preprocessing: what has been done for a subset is the beginning of what has to be done with the
images of the subset, each image has been loaded at most once, and nothing else has been done. -/
theorem C104_right_preproc (O : SubsetOps κ α ε) (preproc save : κ → α → Except ε α) (series : List (κ × List κ))
    (hk : (series.map Prod.fst).Nodup)
    (hacc : SubsetsAccepted O (fun n => imageOf n (loadWorks imread im2im) (.ok (pathOf n))) series) (c : Cfg)
    (xls : List XLabel) (s : XState κ α ε Unit)
    (hrun : XRun (preprocTopology imread im2im O preproc save) c
      (XState.init (groupStart O.toNameTuples pathOf series) ()) xls s) :
    (∀ k ns, (k, ns) ∈ series → ∃ v,
      O.make k ns (ns.map (fun n => imageOf n (loadWorks imread im2im) (.ok (pathOf n)))) = .ok v ∧
      eventsOf (fun w => decide ((loadWorks imread im2im).length ≤ w)) k s.a.log <+:
        itemEvents k ((loadWorks imread im2im).length + 1) [⟨false, preproc⟩, ⟨true, save⟩] (.ok v)) ∧
    (∀ n, eventsOf (fun w => decide (w < (loadWorks imread im2im).length)) n s.a.log <+:
      imageEvents n 0 (loadWorks imread im2im) (.ok (pathOf n))) ∧
    (∀ k, (∀ ns, (k, ns) ∉ series) →
      eventsOf (fun w => decide ((loadWorks imread im2im).length ≤ w)) k s.a.log = []) := by
  have hset := preproc_setup imread im2im O preproc save series hk
  obtain ⟨-, xls', s', hrun', hc, hlog⟩ := xrun_noCrash hrun rfl
  rw [← hlog]
  clear hrun hlog
  rename' hrun' => hrun, s' => s
  obtain ⟨ls, h⟩ := hrun.init_proj
  have hh := hset.holds (pathOf := pathOf) h hc
  have e0 := fun k => (holds_prefix hh 0 k).1
  have e1 := fun k => (holds_prefix hh 1 k).1
  have hsel : ∀ (l : Nat) (sel : Nat → Bool),
      (∀ w, sel w = decide ((if w < (loadWorks imread im2im).length then 1 else 0) = l)) → ∀ k,
      eventsOf sel k s.a.log =
        (seriesContract (loadWorks imread im2im) [⟨false, preproc⟩, ⟨true, save⟩] O.makeSubsets O.toNameTuples O.build
          pathOf series).hist l k (unstop s.a).log := by
    intro l sel hs k
    rw [eventsOf_eq]
    unfold Contract.hist
    rw [show (unstop s.a).log = s.a.log from rfl]
    apply List.filter_congr
    intro e _
    simp only [seriesContract, groupContract, hs]
    congr
  refine ⟨?_, ?_, ?_⟩
  · intro k ns hs
    obtain ⟨v, hv⟩ := hacc k ns hs
    refine ⟨v, hv, ?_⟩
    rw [hsel 0 _ (by intro w; by_cases hw : w < (loadWorks imread im2im).length <;> simp [hw] <;> omega)]
    have := e0 k
    simp only [groupTot, if_true, Dict.mem_get? _ hk _ _ hs] at this
    refine List.IsPrefix.trans this ?_
    unfold groupEvents SubsetOps.build finOf
    rw [hv]
  · intro n
    rw [hsel 1 _ (by intro w; by_cases hw : w < (loadWorks imread im2im).length <;> simp [hw])]
    have := e1 n
    simp only [groupTot] at this
    refine List.IsPrefix.trans this ?_
    simp only [Nat.one_ne_zero, if_false, if_true]
    split
    · exact List.prefix_refl _
    · exact List.nil_prefix
  · intro k hk'
    rw [hsel 0 _ (by intro w; by_cases hw : w < (loadWorks imread im2im).length <;> simp [hw] <;> omega)]
    have := e0 k
    have hn : Dict.get? series k = none := by
      cases hg : Dict.get? series k with
      | none => rfl
      | some ns => exact absurd (Dict.get?_mem _ _ _ hg) (hk' ns)
    simp only [groupTot, if_true, hn] at this
    exact List.prefix_nil.1 this

end

/-! ## What is lost -/

/-- The state after a list of steps. -/
def runX (T : Topology κ α ε σ) (c : Cfg) : List XLabel → XState κ α ε σ → Option (XState κ α ε σ)
  | [], s => some s
  | l :: ls, s =>
    match xstep T c l s with
    | none => none
    | some s' => runX T c ls s'

theorem runX_append {T : Topology κ α ε σ} {c : Cfg} {s0 s s' : XState κ α ε σ} {ls0 ls : List XLabel}
    (h0 : XRun T c s0 ls0 s) (h : runX T c ls s = some s') : XRun T c s0 (ls0 ++ ls) s' := by
  induction ls generalizing s ls0 with
  | nil => simp only [runX, Option.some.injEq] at h; subst h; simpa using h0
  | cons l ls ih =>
    simp only [runX] at h
    split at h
    · cases h
    · rename_i s1 h1
      have := ih (h0.snoc h1) h
      simpa using this

theorem runX_run {T : Topology κ α ε σ} {c : Cfg} {s s' : XState κ α ε σ} {ls : List XLabel}
    (h : runX T c ls s = some s') : XRun T c s ls s' := by
  simpa using runX_append (.nil s) h

namespace ExampleSignal

/-- Read, compute, save. -/
def works : List (ChainWork Nat Nat Nat) :=
  [⟨true, fun _ v => .ok (v + 10)⟩, ⟨false, fun _ v => .ok (2 * v)⟩, ⟨true, fun _ v => .ok v⟩]

def items : Dict Nat (Except Nat Nat) := [(1, .ok 1), (2, .ok 2)]

/-- The signal arrives when the first item is being computed: the launcher of "save" returns at once, and the result of
the computation is never saved. -/
def labels : List XLabel :=
  [.run (.launch 0), .run (.begin 0), .run (.finish 0), .run (.launch 1), .run (.begin 1), .run .check, .signal,
   .ret 2, .run (.finish 0), .run (.launch 0), .run (.begin 0), .ret 0, .run (.finish 0), .run (.launch 1),
   .run (.begin 1), .run (.finish 0), .ret 1]

/-- The same items, the signal arriving at the beginning: everything is done. -/
def labelsAll : List XLabel :=
  [.signal, .run (.launch 0), .run (.begin 0), .run (.launch 0), .run (.begin 0), .run (.finish 0), .run (.launch 1),
   .run (.begin 1), .run (.finish 0), .run (.launch 1), .run (.begin 1), .run (.finish 0), .run (.launch 2),
   .run (.begin 2), .run (.finish 0), .run (.launch 2), .run (.begin 2), .run (.finish 0), .run (.finish 0), .ret 2,
   .ret 1, .ret 0]

end ExampleSignal

/-- C104 is false: an item whose computation is running when the signal arrives is computed, and its result is lost: the
work saving the results has no launcher any more. -/
theorem C104_computed_not_saved_fails : ∃ xls s, XRun (chain ExampleSignal.works) ⟨2, 8, false⟩
    (XState.init (startQueues ExampleSignal.items) ()) xls s ∧ XEnded (chain ExampleSignal.works) s ∧
    s.a.crashed = none ∧ Event.call 1 1 11 ∈ s.a.log ∧ (∀ k v, Event.call 2 k v ∉ s.a.log) ∧
    s.a.q 2 = [(1, .ok 22), (2, .ok 24)] := by
  cases h : runX (chain ExampleSignal.works) ⟨2, 8, false⟩ ExampleSignal.labels
      (XState.init (startQueues ExampleSignal.items) ()) with
  | none => exact absurd h (by decide)
  | some s =>
    have h1 : (runX (chain ExampleSignal.works) ⟨2, 8, false⟩ ExampleSignal.labels
        (XState.init (startQueues ExampleSignal.items) ())).map
          (fun s => (s.a.stop, s.returned, s.a.pending, s.a.inflight, s.a.crashed, s.a.log, s.a.q 2)) =
        some (true, [1, 0, 2], [], [], none, [.call 0 1 1, .call 1 1 11, .call 0 2 2, .call 1 2 12],
          [(1, .ok 22), (2, .ok 24)]) := rfl
    rw [h] at h1
    simp only [Option.map_some, Option.some.injEq, Prod.mk.injEq] at h1
    obtain ⟨e1, e2, e3, e4, e5, e6, e7⟩ := h1
    refine ⟨_, s, runX_run h, ⟨e1, ?_, e3, e4⟩, e5, ?_, ?_, e7⟩
    · intro w hw
      have : w < 3 := hw
      rw [e2]
      have : w = 0 ∨ w = 1 ∨ w = 2 := by omega
      rcases this with rfl | rfl | rfl <;> simp
    · rw [e6]; simp
    · intro k v; rw [e6]; simp

/-- The hypotheses of the theorems on chains: the same items can also be done entirely after the signal. -/
example : (runX (chain ExampleSignal.works) ⟨2, 8, false⟩ ExampleSignal.labelsAll
    (XState.init (startQueues ExampleSignal.items) ())).map
      (fun s => (s.a.stop, s.returned, s.a.pending, s.a.inflight, s.a.crashed, s.a.log)) =
    some (true, [0, 1, 2], [], [], none, [.call 0 1 1, .call 0 2 2, .call 1 1 11, .call 1 2 12, .call 2 1 22,
      .call 2 2 24]) := rfl

theorem prompt_loop (io : Bool) (f : κ → α → Except ε α) (c : Cfg) (hmax : 0 < c.maxWorkers)
    (hst : c.stopIfError = false) (vs : List (κ × α)) : ∀ s : XState κ α ε Unit, s.a.stop = true → s.returned = [] →
    s.a.pending = [] → s.a.inflight = [] → s.a.nio = 0 → s.a.ncpu = 0 → s.a.crashed = none →
    s.a.q 0 = vs.map (fun kv => (kv.1, .ok kv.2)) →
    ∃ xls s', XRun (chain [⟨io, f⟩]) c s xls s' ∧ XEnded (chain [⟨io, f⟩]) s' ∧ s'.a.crashed = none ∧
      s'.a.log = s.a.log ++ vs.flatMap (fun kv => itemEvents kv.1 0 [⟨io, f⟩] (.ok kv.2)) := by
  induction vs with
  | nil =>
    intro s h1 h2 h3 h4 h5 h6 h7 h8
    refine ⟨[.ret 0], { s with returned := [0] }, ?_, ⟨h1, ?_, h3, h4⟩, h7, by simp⟩
    · refine runX_run ?_
      have : xstep (chain [⟨io, f⟩]) c (.ret 0) s = some { s with returned := [0] } := by
        simp [xstep, h7, h1, h2, waits, chain, chainWorks, h8]
      simp only [runX, this]
    · intro w hw
      have : w < 1 := hw
      have : w = 0 := by omega
      subst this; simp
  | cons kv vs ih =>
    intro s h1 h2 h3 h4 h5 h6 h7 h8
    obtain ⟨k, v⟩ := kv
    obtain ⟨⟨q, aux, pending, inflight, nio, ncpu, stop, crashed, log⟩, returned⟩ := s
    simp only at h1 h2 h3 h4 h5 h6 h7 h8
    subst h1; subst h2; subst h3; subst h4; subst h5; subst h6; subst h7
    obtain ⟨xls, s', e1, e2, e3, e4⟩ := ih
      ⟨⟨upd q 0 (vs.map (fun kv => (kv.1, .ok kv.2))), aux, [], [], 0, 0, true, none,
        log ++ itemEvents k 0 [⟨io, f⟩] (.ok v)⟩, []⟩ rfl rfl rfl rfl rfl rfl rfl (by simp [upd])
    have hr : XRun (chain [⟨io, f⟩]) c ⟨⟨q, aux, [], [], 0, 0, true, none, log⟩, []⟩
        [.run (.launch 0), .run (.begin 0), .run (.finish 0)]
        ⟨⟨upd q 0 (vs.map (fun kv => (kv.1, .ok kv.2))), aux, [], [], 0, 0, true, none,
          log ++ itemEvents k 0 [⟨io, f⟩] (.ok v)⟩, []⟩ := by
      refine runX_run ?_
      have hm : ¬ c.maxWorkers = 0 := by omega
      cases hf : f k v with
      | ok r =>
        cases io <;>
        simp [runX, xstep, barred, astep, launchStep, chain, chainWorks, h8, AState.counter, hm, outFull, beginStep,
          AState.incr, AState.decr, Dict.popFirst, finishStep, hf, put, afterStep, itemEvents]
      | error e =>
        cases io <;>
        simp [runX, xstep, barred, astep, launchStep, chain, chainWorks, h8, AState.counter, hm, outFull, beginStep,
          AState.incr, AState.decr, Dict.popFirst, finishStep, hf, put, afterStep, itemEvents, hst]
    refine ⟨_, s', hr.trans e1, e2, e3, ?_⟩
    rw [e4]
    simp

/-- C104 is false: the signal does not stop the executor soon.  Whatever the number of items, the signal may arrive before
the beginning of the first one, and all of them are nevertheless processed before `compute` returns: the launchers read
the flag only when they have to wait. -/
theorem C104_not_prompt_fails (io : Bool) (f : κ → α → Except ε α) (vs : List (κ × α)) (c : Cfg)
    (hmax : 0 < c.maxWorkers) (hst : c.stopIfError = false) :
    ∃ xls s, XRun (chain [⟨io, f⟩]) c (XState.init (startQueues (vs.map (fun kv => (kv.1, .ok kv.2)))) ())
      (.signal :: xls) s ∧ XEnded (chain [⟨io, f⟩]) s ∧
      s.a.log = allEvents [⟨io, f⟩] (vs.map (fun kv => (kv.1, .ok kv.2))) := by
  have h1 : XRun (chain [⟨io, f⟩]) c (XState.init (startQueues (vs.map (fun kv => (kv.1, .ok kv.2)))) ()) [.signal]
      ⟨{ AState.init (startQueues (vs.map (fun kv => (kv.1, .ok kv.2)))) () with stop := true }, []⟩ := runX_run rfl
  obtain ⟨xls, s, h2, h3, _, h4⟩ := prompt_loop io f c hmax hst vs
    ⟨{ AState.init (startQueues (vs.map (fun kv => (kv.1, .ok kv.2)))) () with stop := true }, []⟩ rfl rfl rfl rfl rfl rfl
    rfl rfl
  refine ⟨xls, s, h1.trans h2, h3, ?_⟩
  rw [h4]
  simp [AState.init, allEvents, List.flatMap_map]

example : ExampleSignal.items.KeysUnique := by unfold Dict.KeysUnique; decide

/-! ## The mean image -/

section
open Verif.Mean
variable {π : Type} {imread : List Char → Except PyErr (Img π)}

/-- C104.  The computation of a mean image ends after the signal. -/
theorem C104_ends_mean {paths : List (κ × List Char)} {imgs : List (Img π)} (hk : (paths.map Prod.fst).Nodup)
    (hr : paths.map (fun kp => imread kp.2) = imgs.map .ok) (c : Cfg) (xls : List XLabel)
    (s : XState κ (Val π) PyErr (State π))
    (hrun : XRun (topology imread) c (XState.init (initQueues paths) (State.init π)) xls s) (hs : s.a.stop = true) :
    EndsAfterStop (topology imread) c s := by
  refine endsAfterStop_of rankLaws
    (globPot (imread := imread) (total := fun x => (imgs.map (fun im => im x)).sum) (n := imgs.length)) hrun ?_ hs
  intro xls s hrun hc
  obtain ⟨ls, h1⟩ := hrun.init_proj
  have := (MInv.run h1 (MInv.init (π := π) hk hr) (CInv.init _ _) rfl).1
  exact this

/-- C104.  At any time of the computation of a mean image by a process, with or without a signal, there is no temporary
file or the temporary file contains the sum and the number of all the images of the process. -/
theorem C104_mean_all_or_nothing {paths : List (κ × List Char)} {imgs : List (Img π)} (hk : (paths.map Prod.fst).Nodup)
    (hr : paths.map (fun kp => imread kp.2) = imgs.map .ok) (c : Cfg) (xls : List XLabel)
    (s : XState κ (Val π) PyErr (State π))
    (hrun : XRun (topology imread) c (XState.init (initQueues paths) (State.init π)) xls s) :
    s.a.aux.file = none ∨ s.a.aux.file = some (fun x => sumImages imgs x % 2 ^ 32, imgs.length) := by
  obtain ⟨ls, h1⟩ := hrun.init_proj
  have h := (MInv.run h1 (MInv.init (π := π) hk hr) (CInv.init _ _) rfl).1
  cases hf : s.a.aux.file with
  | none => exact Or.inl rfl
  | some f =>
    right
    have hf' : (unstop s.a).aux.file = some f := hf
    obtain ⟨e1, e2, e3⟩ := h.file f hf'
    have hn := h.num
    have hsum := h.sum
    rw [e1, e2, hf'] at hn
    simp only [e1, e2, hf'] at hsum
    obtain ⟨f1, f2⟩ := f
    simp only [List.length_nil, sumN, List.map_nil, List.sum_nil, fileN] at hn
    congr 2
    · funext x
      have h2 := hsum x
      simp only [insAt, sumAt, List.map_nil, List.sum_nil, fileAt, Nat.zero_add] at h2
      unfold Nat.ModEq at h2
      rw [Nat.mod_eq_of_lt (e3 x)] at h2
      exact h2
    · omega

/-- C104 is false for mean images computed by several processes: when a process is stopped by the signal before its end,
its images are ignored, and the mean of the images of the other ones is saved as the result, without error.  Here the
images are 1 (first process) and 6 (second process), and the result is 1. -/
theorem C104_mean_ignores_images_fails :
    (∃ a, MeanEnded MeanExample.imread ⟨2, 8, false⟩ [(0, ['1'])] a ∧
    ∃ xls s, XRun (topology MeanExample.imread) ⟨2, 8, false⟩ (XState.init (initQueues [(1, ['6'])]) (State.init Unit)) xls s ∧
      XEnded (topology MeanExample.imread) s ∧ s.a.crashed = none ∧
    ∃ mean results, finalSeqWork (fun x => x) 8 ([a.file, s.a.aux.file].filterMap id) a.results = .ok (mean, results) ∧
      mean () = 1) := by
  have hk : (([(0, ['1'])] : List (ℕ × List Char)).map Prod.fst).Nodup := by decide
  have hr : ([(0, ['1'])] : List (ℕ × List Char)).map (fun kp => MeanExample.imread kp.2) =
    ([fun _ => 1] : List (Img Unit)).map .ok := rfl
  obtain ⟨N, s, hs⟩ := (C21_process_sequential hk hr ⟨2, 8, false⟩).1
  have hend : MeanEnded MeanExample.imread ⟨2, 8, false⟩ [(0, ['1'])] s.aux := Or.inr ⟨N, s, hs, rfl⟩
  refine ⟨s.aux, hend, ?_⟩
  obtain ⟨_, _, hf⟩ := hend.spec hk hr
  have hfile := hf (by simp)
  have hrunX : ∃ x, runX (topology MeanExample.imread) ⟨2, 8, false⟩
      [.run (.launch 0), .run (.begin 0), .signal, .ret 0, .ret 1, .run (.finish 0)]
      (XState.init (initQueues [(1, ['6'])]) (State.init Unit)) = some x ∧
      (x.a.stop, x.returned, x.a.pending, x.a.crashed) = (true, [1, 0], [], none) ∧ x.a.inflight = [] ∧
      x.a.aux.file = none := ⟨_, rfl, rfl, rfl, rfl⟩
  obtain ⟨x, h1, h2, h3, h4⟩ := hrunX
  simp only [Prod.mk.injEq] at h2
  refine ⟨_, x, runX_run h1, ⟨h2.1, ?_, h2.2.2.1, h3⟩, h2.2.2.2, ?_⟩
  · intro w hw
    have : w < 2 := hw
    rw [h2.2.1]
    have : w = 0 ∨ w = 1 := by omega
    rcases this with rfl | rfl <;> simp
  · obtain ⟨mean, results', e1, e2, e3⟩ := C22_wraps (procs := [(⟨2, 8, false⟩, [(0, ['1'])], s.aux)])
      (by simp) (by simpa using hend) (imgs := [fun _ => 1]) (by simpa using hr) (by simp) (b := 8)
      (by simp) (List.Perm.refl _) (results := s.aux.results) (by simp)
      (rnd := fun x => x) ⟨fun _ _ h => h, fun _ _ => rfl, fun x => by simp; positivity⟩
    rw [List.filterMap_cons_some (f := fun p : Cfg × List (ℕ × List Char) × State Unit => p.2.2.file) hfile] at e1
    refine ⟨mean, results', ?_, by rw [e2]; rfl⟩
    rw [hfile, h4]
    exact e1

end

end Verif
