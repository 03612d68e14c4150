import Verif.Exec.GroupLive

/-!
# Topologies making groups: bounds of the queue of arrays, groups which are too large
-/

namespace Verif.Exec
open Verif Verif.Spec
set_option linter.unusedSectionVars false

variable {κ α ε : Type} [DecidableEq κ]
  {pre post : List (ChainWork κ α ε)} {make : GroupQueues κ α ε → Except ε (GroupQueues κ α ε)}
  {N : NameTuples κ α} {build : κ → List κ → List (Except ε α) → Except ε (Except ε α)}
  {okNames : List κ → Prop} {pathOf : κ → α} {series : List (κ × List κ)}

/-! ## Arrays are only removed -/

theorem length_erase_le {β : Type} (d : Dict κ β) (k : κ) : (d.erase k).length ≤ d.length := by
  induction d with
  | nil => simp [Dict.erase]
  | cons kv d ih =>
    obtain ⟨k', v⟩ := kv
    unfold Dict.erase
    split
    · simp
    · simpa using ih

def ShrinksArrays (make : GroupQueues κ α ε → Except ε (GroupQueues κ α ε)) : Prop :=
  ∀ s s', make s = .ok s' → s'.arrays.length ≤ s.arrays.length

theorem dropUnused_length (O : SubsetOps κ α ε) (groups : Dict κ (Except ε α)) (ns : List κ)
    (arrays : Dict κ (Except ε α)) : (O.dropUnused groups ns arrays).length ≤ arrays.length := by
  induction ns generalizing arrays with
  | nil => exact Nat.le_refl _
  | cons n ns ih =>
    unfold SubsetOps.dropUnused
    refine Nat.le_trans (ih _) ?_
    split
    · exact Nat.le_refl _
    · exact length_erase_le _ _

theorem makeSubsets_shrinks (O : SubsetOps κ α ε) : ShrinksArrays O.makeSubsets := by
  have key : ∀ (todo : Dict κ (Except ε α)) (s s' : GroupQueues κ α ε), O.loop todo s = .ok s' →
      s'.arrays.length ≤ s.arrays.length := by
    intro todo
    induction todo with
    | nil => intro s s' h; simp only [SubsetOps.loop] at h; cases h; exact Nat.le_refl _
    | cons kv todo ih =>
      obtain ⟨k, v⟩ := kv
      intro s s' h
      unfold SubsetOps.loop at h
      split at h
      · cases h
      · rename_i s1 hs1
        refine Nat.le_trans (ih _ _ h) ?_
        unfold SubsetOps.step at hs1
        simp only at hs1
        split at hs1
        · split at hs1
          · cases hs1
          · cases hs1; exact dropUnused_length _ _ _ _
        · cases hs1; exact Nat.le_refl _
  intro s s' h
  exact key _ _ _ h

theorem dropName_length (O : CoupleOps κ α ε) {s s' : GroupQueues κ α ε} {n : κ} (h : O.dropName s n = .ok s') :
    s'.arrays.length ≤ s.arrays.length := by
  unfold CoupleOps.dropName at h
  split at h
  · cases h; exact Nat.le_refl _
  · split at h
    · cases h
    · cases h; exact length_erase_le _ _

theorem makeCouples_shrinks (O : CoupleOps κ α ε) : ShrinksArrays O.makeCouples := by
  have key : ∀ (todo : Dict κ (Except ε α)) (s s' : GroupQueues κ α ε), O.loop todo s = .ok s' →
      s'.arrays.length ≤ s.arrays.length := by
    intro todo
    induction todo with
    | nil => intro s s' h; simp only [CoupleOps.loop] at h; cases h; exact Nat.le_refl _
    | cons kv todo ih =>
      obtain ⟨k, v⟩ := kv
      intro s s' h
      unfold CoupleOps.loop at h
      split at h
      · cases h
      · rename_i s1 hs1
        refine Nat.le_trans (ih _ _ h) ?_
        unfold CoupleOps.step at hs1
        split at hs1
        · split at hs1
          · split at hs1
            · cases hs1
            · simp only at hs1
              split at hs1
              · cases hs1
              · rename_i s2 hs2
                have h1 := dropName_length O hs1
                have h2 := dropName_length O hs2
                exact Nat.le_trans h1 h2
          · cases hs1; exact Nat.le_refl _
        · split at hs1
          · cases hs1
          · cases hs1; exact Nat.le_refl _
        · cases hs1
  intro s s' h
  exact key _ _ _ h

theorem group_onlyWriter (hm : ShrinksArrays make) (hpre : 0 < pre.length) :
    OnlyWriter (groupTopology pre post make) (pre.length - 1) (pre.length + 1) where
  other := by
    intro w inp out io f h hne
    rcases group_item h with ⟨_, _, rfl, _⟩ | ⟨_, _, _, rfl, _⟩
    · intro e; simp only [Option.some.injEq] at e; omega
    · split
      · intro e; simp only [Option.some.injEq] at e; omega
      · simp
  shrink := by
    intro w ready outLen run h nio q a q' a' evs hrun
    obtain ⟨_, hw⟩ := group_glob h
    unfold groupWork at hw
    injection hw with _ _ hr
    subst hr
    simp only at hrun
    split at hrun
    · cases hrun
    · rename_i s hs
      cases hrun
      have := hm _ _ hs
      show (lift3 (pre.length + 1) q s (pre.length + 1)).length ≤ _
      rw [lift3_arrays]
      exact this

theorem group_boundInv {c : Cfg} : BoundInv (groupTopology pre post make) c (groupAInit N pathOf series) := by
  refine ⟨List.nodup_nil, fun io => ?_⟩
  cases io <;> simp [AState.init, AState.counter, pendingKind]

/-- The number of arrays is bounded. -/
theorem arrays_bound (hm : ShrinksArrays make) (hpre : 0 < pre.length) {c : Cfg} {ls : List Label}
    {s : AState κ α ε Unit} (hrun : EagerRun (groupTopology pre post make) c (groupAInit N pathOf series) ls s)
    (hc : s.crashed = none) :
    (s.q (pre.length + 1)).length ≤ c.queueMax - 1 +
      (c.maxWorkers + kindCount (groupTopology pre post make) (pre[pre.length - 1]'(by omega)).io - 1) := by
  have hitem := group_pre_item (post := post) (make := make) (pre := pre) (w := pre.length - 1) (by omega)
  rw [show pre.length - 1 + 2 = pre.length + 1 by omega] at hitem
  have h1 : ((groupAInit N pathOf series : AState κ α ε Unit).q (pre.length + 1)).length +
      ofWork (groupAInit N pathOf series : AState κ α ε Unit) (pre.length - 1) ≤ 0 := by
    simp only [AState.init, ofWork, groupStart]
    rw [if_neg (by omega), if_neg (by omega)]
    simp
  have := queue_bound_run hitem (group_onlyWriter hm hpre) (Nat.le_refl _) hrun (CInv.init _ _) group_boundInv
    (Nat.le_trans h1 (Nat.zero_le _)) hc
  omega

/-! ## A group which is too large -/

theorem gloop_keep {k : κ} {g : Except ε α} (todo : Dict κ (Except ε α)) : ∀ (s s' : GroupQueues κ α ε),
    s.groups.KeysUnique → (∀ kv ∈ todo, kv ∈ s.groups) → todo.KeysUnique →
    (k, g) ∈ s.groups → ¬ ((N.names g).all (fun n => (s.arrays.get? n).isSome) = true) →
    gloop N build todo s = .ok s' → (k, g) ∈ s'.groups := by
  induction todo with
  | nil => intro s s' _ _ _ h _ hs; simp only [gloop] at hs; cases hs; exact h
  | cons kv todo ih =>
    obtain ⟨key, g'⟩ := kv
    intro s s' hu hsub htu h hn hs
    have htu' := htu
    unfold Dict.KeysUnique at htu'
    rw [Dict.keys_cons, List.nodup_cons] at htu'
    unfold gloop at hs
    cases hst : gstep N build key g' s with
    | error e => rw [hst] at hs; cases hs
    | ok s1 =>
      rw [hst] at hs
      have hsub1 : ∀ kv ∈ todo, kv ∈ s1.groups := by
        intro kv hkv
        refine gstep_mem hu hst (hsub kv (List.mem_cons_of_mem _ hkv)) ?_
        intro he
        exact htu'.1 ((Dict.mem_keys_iff _ _).2 ⟨kv.2, he ▸ hkv⟩)
      have hst' := hst
      unfold gstep at hst'
      split at hst'
      · rename_i hall
        split at hst'
        · cases hst'
        · cases hst'
          refine ih _ s' (Dict.keysUnique_erase _ _ hu) hsub1 htu'.2 ?_ ?_ hs
          · refine gstep_mem hu hst h ?_
            rintro rfl
            have e1 := Dict.mem_get? _ hu _ _ (hsub _ List.mem_cons_self)
            have e2 := Dict.mem_get? _ hu _ _ h
            rw [e1] at e2
            cases e2
            exact hn hall
          · intro hall'
            apply hn
            rw [List.all_eq_true] at hall' ⊢
            intro n hn'
            have := hall' n hn'
            simp only [Dict.get?_filter] at this
            split at this
            · exact this
            · cases this
      · cases hst'
        exact ih _ s' hu hsub1 htu'.2 h hn hs

/-- A group whose images are never all in the queue of arrays is never made. -/
theorem group_never (h : GroupSetup pre post make N build okNames series) (hm : ShrinksArrays make)
    (hpre : 0 < pre.length) {c : Cfg} {k : κ} {ns : List κ} (hk : (k, ns) ∈ series) (hnd : ns.Nodup)
    (hlarge : c.queueMax - 1 + (c.maxWorkers + kindCount (groupTopology pre post make)
      (pre[pre.length - 1]'(by omega)).io - 1) < ns.length) {ls : List Label} {s : AState κ α ε Unit}
    (hrun : EagerRun (groupTopology pre post make) c (groupAInit N pathOf series) ls s) (hc : s.crashed = none) :
    (k, .ok (N.tup ns)) ∈ s.q 0 := by
  generalize hs0 : (groupAInit N pathOf series : AState κ α ε Unit) = s0 at hrun
  induction hrun with
  | nil =>
    subst hs0
    refine Dict.get?_mem _ _ _ ?_
    show (groupStart N pathOf series 0).get? k = _
    rw [groupStart_get? h.keys]
    exact Or.inl ⟨rfl, ns, Dict.mem_get? _ h.keys _ _ hk, rfl⟩
  | @snoc s1 s2 ls l hrun hl hstep ih =>
    subst hs0
    obtain ⟨hc1, hcase⟩ := astep_cases hstep
    have ih := ih hc1
    have hbound := arrays_bound hm hpre hrun hc1
    have hkeep : ∀ {w inp : Nat} {out io f} {rest k' r},
        (groupTopology pre post make).works[w]? = some (Work.item inp out io f) →
        put (upd s1.q inp rest) out k' r 0 = s1.q 0 := by
      intro w inp out io f rest k' r hw
      have hi : inp ≠ 0 ∧ out ≠ some 0 := by
        rcases group_item hw with ⟨_, rfl, rfl, _⟩ | ⟨_, _, rfl, rfl, _⟩
        · exact ⟨by omega, by simp⟩
        · refine ⟨by omega, ?_⟩
          split <;> simp
      rw [put_ne hi.2]
      unfold upd
      rw [if_neg (Ne.symm hi.1)]
    cases hcase with
    | launch => exact ih
    | beginEmpty => exact ih
    | beginError hw _ hq => simp only; rw [hkeep hw]; exact ih
    | @beginOk w s inp out io f k' v rest hw _ hq =>
      rw [incr_q]
      have := hkeep (rest := rest) (k' := k') (r := .ok v) hw
      have h2 : upd s1.q inp rest 0 = s1.q 0 := by
        unfold upd
        rw [if_neg]
        rcases group_item hw with ⟨_, rfl, _⟩ | ⟨_, _, rfl, _⟩ <;> omega
      simp only
      rw [h2]; exact ih
    | @finish i s t inp out io f ht hw _ =>
      rw [decr_q]
      have h2 : out ≠ some 0 := by
        rcases group_item hw with ⟨_, _, rfl, _⟩ | ⟨_, _, _, rfl, _⟩
        · simp
        · split <;> simp
      simp only
      rw [put_ne h2]; exact ih
    | finishCrash => simp at hc
    | glob hw _ hr =>
      have hh := h.holds hrun.toRun hc1
      obtain ⟨m, hrel, hinv, hJ⟩ := hh
      obtain ⟨_, hw'⟩ := group_glob hw
      unfold groupWork at hw'
      injection hw' with _ _ hr'
      subst hr'
      simp only at hr
      obtain ⟨todo, hu, hsub0, _, he⟩ := h.loop _ (makePre_of hrel hJ) (group_good hrel hinv)
      rw [he] at hr
      split at hr
      · cases hr
      · rename_i s' hs'
        cases hr
        show (k, _) ∈ lift3 (pre.length + 1) s1.q s' 0
        rw [lift3_groups _ (by omega)]
        refine gloop_keep todo _ s' (hrel.keysUnique 0) hsub0 hu ih ?_ hs'
        intro hall
        rw [names_tup, List.all_eq_true] at hall
        have hsub : ∀ n ∈ ns, n ∈ (s1.q (pre.length + 1)).keys := by
          intro n hn
          exact (Dict.isSome_get?_iff _ _).1 (hall n hn)
        have := nodup_subset_length hnd hsub
        rw [keys_length] at this
        omega
    | globCrash => simp at hc
    | checkStop => exact ih
    | check => exact ih

theorem group_never_stops (h : GroupSetup pre post make N build okNames series) (hm : ShrinksArrays make)
    (hpre : 0 < pre.length) {c : Cfg} {k : κ} {ns : List κ} (hk : (k, ns) ∈ series) (hnd : ns.Nodup)
    (hlarge : c.queueMax - 1 + (c.maxWorkers + kindCount (groupTopology pre post make)
      (pre[pre.length - 1]'(by omega)).io - 1) < ns.length) {ls : List Label} {s : AState κ α ε Unit}
    (hrun : EagerRun (groupTopology pre post make) c (groupAInit N pathOf series) ls s) : s.stop = false := by
  cases hstop : s.stop with
  | false => rfl
  | true =>
    obtain ⟨_, h2, _, h4⟩ := h.async hrun.toRun hstop
    have := group_never h hm hpre hk hnd hlarge hrun h4
    rw [h2 0 (by omega)] at this
    cases this

end Verif.Exec
