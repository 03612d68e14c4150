import Verif.Exec.Groups
import Verif.Exec.NoCrash
import Verif.Exec.CanFinish
import Mathlib.Data.List.Perm.Subperm
import Mathlib.Tactic.Ring
import Mathlib.Tactic.Linarith

/-!
# Executions of the topologies making groups
-/

namespace Verif.Exec
open Verif Verif.Spec
set_option linter.unusedSectionVars false

variable {κ α ε : Type} [DecidableEq κ]

/-! ## The queues after the one-shot work -/

/-- The names of the images of the series, in the order of the code. -/
def namesOfSeries (series : List (κ × List κ)) : List κ := series.flatMap (fun s => s.2)

theorem fillPaths_keysUnique (pathOf : κ → α) (ns : List κ) (d : Dict κ (Except ε α)) (hd : d.KeysUnique) :
    (fillPaths pathOf ns d).KeysUnique := by
  induction ns generalizing d with
  | nil => exact hd
  | cons n ns ih => exact ih _ (Dict.keysUnique_set _ _ _ hd)

theorem fillPaths_get? (pathOf : κ → α) (ns : List κ) (d : Dict κ (Except ε α)) (n : κ) :
    (fillPaths pathOf ns d).get? n = if n ∈ ns then some (.ok (pathOf n)) else d.get? n := by
  induction ns generalizing d with
  | nil => simp [fillPaths]
  | cons n' ns ih =>
    unfold fillPaths
    rw [ih, Dict.get?_set]
    by_cases h1 : n ∈ ns
    · simp [h1]
    · by_cases h2 : n = n'
      · simp [h2]
      · simp [h1, h2]

theorem fillGroups_paths (N : NameTuples κ α) (pathOf : κ → α) (series : List (κ × List κ))
    (d : Dict κ (Except ε α) × Dict κ (Except ε α)) :
    (fillGroups N pathOf series d).2 = fillPaths pathOf (namesOfSeries series) d.2 := by
  induction series generalizing d with
  | nil => rfl
  | cons s series ih =>
    obtain ⟨ind, names⟩ := s
    obtain ⟨g, p⟩ := d
    unfold fillGroups
    rw [ih]
    simp only [namesOfSeries, List.flatMap_cons]
    have : ∀ (a b : List κ) (d : Dict κ (Except ε α)),
        fillPaths pathOf b (fillPaths pathOf a d) = fillPaths pathOf (a ++ b) d := by
      intro a
      induction a with
      | nil => intros; rfl
      | cons x a iha => intro b d; simp only [List.cons_append, fillPaths]; exact iha _ _
    rw [this]

theorem fillGroups_groups_keysUnique (N : NameTuples κ α) (pathOf : κ → α) (series : List (κ × List κ))
    (d : Dict κ (Except ε α) × Dict κ (Except ε α)) (hd : d.1.KeysUnique) :
    (fillGroups N pathOf series d).1.KeysUnique := by
  induction series generalizing d with
  | nil => exact hd
  | cons s series ih => exact ih _ (Dict.keysUnique_set _ _ _ hd)

theorem fillGroups_get? (N : NameTuples κ α) (pathOf : κ → α) (series : List (κ × List κ))
    (hn : (series.map Prod.fst).Nodup) (d : Dict κ (Except ε α) × Dict κ (Except ε α)) (k : κ) :
    (fillGroups N pathOf series d).1.get? k =
      match Dict.get? series k with
      | some ns => some (.ok (N.tup ns))
      | none => d.1.get? k := by
  induction series generalizing d with
  | nil => rfl
  | cons s series ih =>
    obtain ⟨ind, names⟩ := s
    obtain ⟨g, p⟩ := d
    rw [List.map_cons, List.nodup_cons] at hn
    unfold fillGroups
    rw [ih hn.2]
    simp only [Dict.get?]
    by_cases hk : ind = k
    · subst hk
      have : Dict.get? series ind = none := by
        rw [Dict.get?_eq_none_iff]; exact hn.1
      rw [this]
      simp [Dict.get?_set]
    · rw [if_neg hk]
      cases Dict.get? series k with
      | some ns => rfl
      | none => simp [Dict.get?_set, Ne.symm hk]

section
variable {pre post : List (ChainWork κ α ε)} {make : GroupQueues κ α ε → Except ε (GroupQueues κ α ε)}
  {N : NameTuples κ α} {build : κ → List κ → List (Except ε α) → Except ε (Except ε α)}
  {okNames : List κ → Prop} {pathOf : κ → α} {series : List (κ × List κ)}

/-- The image of a name. -/
def finOf (pre : List (ChainWork κ α ε)) (pathOf : κ → α) (n : κ) : Except ε α := imageOf n pre (.ok (pathOf n))

/-- The item of a group comes from the series. -/
def fromSeries (N : NameTuples κ α) (series : List (κ × List κ)) (k : κ) (r : Except ε α) : Prop :=
  ∃ ns, Dict.get? series k = some ns ∧ r = .ok (N.tup ns)

theorem names_tup (ns : List κ) : N.names (Except.ok (N.tup ns) : Except ε α) = ns := N.namesOf_tup ns

/-- The contract of a topology making the groups of `series`. -/
def seriesContract (pre post : List (ChainWork κ α ε)) (make : GroupQueues κ α ε → Except ε (GroupQueues κ α ε))
    (N : NameTuples κ α) (build : κ → List κ → List (Except ε α) → Except ε (Except ε α)) (pathOf : κ → α)
    (series : List (κ × List κ)) : Contract (groupTopology pre post make) :=
  groupContract pre post make N build (finOf pre pathOf) (fromSeries N series)

/-- Events of a group. -/
def groupEvents (pre post : List (ChainWork κ α ε))
    (build : κ → List κ → List (Except ε α) → Except ε (Except ε α)) (pathOf : κ → α) (k : κ) (ns : List κ) :
    List (Event κ α ε) :=
  match build k ns (ns.map (finOf pre pathOf)) with
  | .ok r => itemEvents k (pre.length + 1) post r
  | .error _ => []

def groupTot (pre post : List (ChainWork κ α ε))
    (build : κ → List κ → List (Except ε α) → Except ε (Except ε α)) (pathOf : κ → α)
    (series : List (κ × List κ)) (l : Nat) (k : κ) : List (Event κ α ε) :=
  if l = 0 then
    match Dict.get? series k with
    | some ns => groupEvents pre post build pathOf k ns
    | none => []
  else if l = 1 then
    if k ∈ namesOfSeries series then imageEvents k 0 pre (.ok (pathOf k)) else []
  else []

abbrev GHolds (pre post : List (ChainWork κ α ε)) (make : GroupQueues κ α ε → Except ε (GroupQueues κ α ε))
    (N : NameTuples κ α) (build : κ → List κ → List (Except ε α) → Except ε (Except ε α)) (okNames : List κ → Prop)
    (pathOf : κ → α) (series : List (κ × List κ)) (q : Queues κ α ε) (fl : List (Task κ α))
    (log : List (Event κ α ε)) : Prop :=
  Holds (groupTopology pre post make) (seriesContract pre post make N build pathOf series)
    (fun m _ => GroupJ pre.length post.length N okNames m) (groupTot pre post build pathOf series) q fl log

theorem groupStart_get? (hn : (series.map Prod.fst).Nodup) (i : Nat) (k : κ) (v : Except ε α) :
    (groupStart N pathOf series i).get? k = some v ↔
      (i = 0 ∧ fromSeries N series k v) ∨ (i = 1 ∧ k ∈ namesOfSeries series ∧ v = .ok (pathOf k)) := by
  unfold groupStart
  by_cases h0 : i = 0
  · subst h0
    rw [if_pos rfl, fillGroups_get? _ _ _ hn]
    simp only [true_and, fromSeries]
    cases Dict.get? series k with
    | none => simp [Dict.get?]
    | some ns => simp [eq_comm]
  · rw [if_neg h0]
    by_cases h1 : i = 1
    · subst h1
      rw [if_pos rfl, fillGroups_paths, fillPaths_get?]
      by_cases h2 : k ∈ namesOfSeries series
      · simp [h2, eq_comm]
      · simp [h2, Dict.get?]
    · rw [if_neg h1]
      simp [Dict.get?, h0, h1]

theorem groupStart_keysUnique (i : Nat) : (groupStart (ε := ε) N pathOf series i).KeysUnique := by
  unfold groupStart
  split
  · exact fillGroups_groups_keysUnique _ _ _ _ List.nodup_nil
  · split
    · rw [fillGroups_paths]; exact fillPaths_keysUnique _ _ _ List.nodup_nil
    · exact List.nodup_nil

theorem group_init (hn : (series.map Prod.fst).Nodup) (hok : ∀ s ∈ series, okNames s.2)  :
    GHolds pre post make N build okNames pathOf series (groupStart N pathOf series) [] [] := by
  have hat := groupStart_get? (ε := ε) (N := N) (pathOf := pathOf) hn
  refine ⟨_, Rel.ofQueues _ _ groupStart_keysUnique, ?_, ?_⟩
  · refine Contract.Inv.init _ _ _ ?_ ?_ ?_ ?_
    · intro i j k v v' hl h1 h2
      rw [hat] at h1 h2
      simp only [seriesContract, groupContract, gline] at hl
      rcases h1 with ⟨rfl, _⟩ | ⟨rfl, _⟩ <;> rcases h2 with ⟨rfl, _⟩ | ⟨rfl, _⟩ <;> simp at hl ⊢
    · intro i k v h
      rw [hat] at h
      rcases h with ⟨rfl, h⟩ | ⟨rfl, h, rfl⟩
      · exact ⟨fun _ => h, fun h1 => by omega⟩
      · exact ⟨fun h1 => by omega, fun _ _ => rfl⟩
    · intro i k v h
      rw [hat] at h
      rcases h with ⟨rfl, ns, h1, rfl⟩ | ⟨rfl, h, rfl⟩
      · have hl : (seriesContract pre post make N build pathOf series).line 0 = 0 := by
          simp [seriesContract, groupContract, gline]
        rw [hl]
        simp only [seriesContract, groupContract, groupTot, if_true]
        rw [h1, names_tup]
        rfl
      · have hl : (seriesContract pre post make N build pathOf series).line 1 = 1 := by
          simp [seriesContract, groupContract, gline]
        rw [hl]
        simp [seriesContract, groupContract, groupTot, h]
    · intro l k h
      simp only [groupTot]
      split
      · rename_i hl
        subst hl
        have := h 0 (by simp [seriesContract, groupContract, gline])
        cases hk : Dict.get? series k with
        | none => rfl
        | some ns =>
          rw [(hat 0 k (.ok (N.tup ns))).2 (Or.inl ⟨rfl, ns, hk, rfl⟩)] at this
          cases this
      · split
        · rename_i hl
          subst hl
          have := h 1 (by simp [seriesContract, groupContract, gline])
          split
          · rename_i hk
            rw [(hat 1 k (.ok (pathOf k))).2 (Or.inr ⟨rfl, hk, rfl⟩)] at this
            cases this
          · rfl
        · rfl
  · refine ⟨?_, ?_, ?_⟩
    · intro k v h
      rw [hat] at h
      rcases h with ⟨_, ns, h1, rfl⟩ | ⟨h, _⟩
      · have hmem := Dict.get?_mem _ _ _ h1
        rw [names_tup]
        refine ⟨hok _ hmem, fun n hnn => ⟨1, by omega, by omega, .ok (pathOf n), ?_⟩⟩
        rw [hat]
        exact Or.inr ⟨rfl, List.mem_flatMap.2 ⟨_, hmem, hnn⟩, rfl⟩
      · omega
    · intro i n r h1 h2 h
      rw [hat] at h
      rcases h with ⟨h3, _⟩ | ⟨rfl, h3, rfl⟩
      · omega
      · obtain ⟨⟨k, ns⟩, h4, h5⟩ := List.mem_flatMap.1 h3
        refine ⟨k, .ok (N.tup ns), ?_, by rw [names_tup]; exact h5⟩
        rw [hat]
        exact Or.inl ⟨rfl, ns, Dict.mem_get? _ hn _ _ h4, rfl⟩
    · intro i k v h
      rw [hat] at h
      rcases h with ⟨rfl, _⟩ | ⟨rfl, _⟩ <;> omega

/-! ## End of an execution -/

theorem eventsOf_eq (sel : Nat → Bool) (k : κ) (log : List (Event κ α ε)) :
    eventsOf sel k log = log.filter (fun e => sel e.work && decide (e.key = k)) := by
  unfold eventsOf
  apply List.filter_congr
  intro e _
  cases e <;> rfl

/-- When everything is empty: the events of the groups and of the images. -/
theorem group_done {q : Queues κ α ε} {log : List (Event κ α ε)} {a : Unit}
    (h : GHolds pre post make N build okNames pathOf series q [] log)
    (he : allEmpty (groupTopology pre post make) q a = true) :
    (∀ k ns, Dict.get? series k = some ns →
      eventsOf (fun w => decide (pre.length ≤ w)) k log = groupEvents pre post build pathOf k ns) ∧
    (∀ k, Dict.get? series k = none → eventsOf (fun w => decide (pre.length ≤ w)) k log = []) ∧
    (∀ n ∈ namesOfSeries series,
      eventsOf (fun w => decide (w < pre.length)) n log = imageEvents n 0 pre (.ok (pathOf n))) ∧
    (∀ n, n ∉ namesOfSeries series → eventsOf (fun w => decide (w < pre.length)) n log = []) := by
  have hq : ∀ i, q i = [] := by
    intro i
    by_cases hi : i < pre.length + 2 + post.length
    · exact (allEmpty_iff.1 he).1 i hi
    · obtain ⟨m, h1, _, h3⟩ := h
      cases hqi : q i with
      | nil => rfl
      | cons kv rest =>
        obtain ⟨k, v⟩ := kv
        exact absurd (h3.bound i k v (h1.head_at hqi)) hi
  have h0 := h.done hq rfl 0
  have h1 := h.done hq rfl 1
  have e0 : ∀ k, eventsOf (fun w => decide (pre.length ≤ w)) k log =
      (seriesContract pre post make N build pathOf series).hist 0 k log := by
    intro k
    rw [eventsOf_eq]
    unfold Contract.hist
    apply List.filter_congr
    intro e _
    simp only [seriesContract, groupContract]
    by_cases hw : e.work < pre.length
    · simp [hw]
    · simp [hw]; omega
  have e1 : ∀ k, eventsOf (fun w => decide (w < pre.length)) k log =
      (seriesContract pre post make N build pathOf series).hist 1 k log := by
    intro k
    rw [eventsOf_eq]
    unfold Contract.hist
    apply List.filter_congr
    intro e _
    simp only [seriesContract, groupContract]
    by_cases hw : e.work < pre.length
    · simp [hw]
    · simp [hw]
  refine ⟨?_, ?_, ?_, ?_⟩
  · intro k ns hk; rw [e0, h0]; simp [groupTot, hk]
  · intro k hk; rw [e0, h0]; simp [groupTot, hk]
  · intro n hk; rw [e1, h1]; simp [groupTot, hk]
  · intro n hk; rw [e1, h1]; simp [groupTot, hk]

/-! ## No crash -/

theorem group_safe (hmake : IsGroupLoop make N build okNames (fromSeries N series)) (hpost : 0 < post.length)
    (hbuild : ∀ k ns, Dict.get? series k = some ns → ∃ x, build k ns (ns.map (finOf pre pathOf)) = .ok x) :
    GlobSafe (groupTopology pre post make) (seriesContract pre post make N build pathOf series)
      (fun m _ => GroupJ pre.length post.length N okNames m) (groupTot pre post build pathOf series) := by
  intro w ready outLen run h nio q a fl log hh
  obtain ⟨m, hrel, hinv, hJ⟩ := hh
  obtain ⟨_, hw⟩ := group_glob h
  unfold groupWork at hw
  injection hw with _ _ hr
  subst hr
  have hself : Rel (groupTopology pre post make) (lift3 (pre.length + 1) q
      { groups := q 0, arrays := q (pre.length + 1), out := q (pre.length + 2) }) fl m := by
    rw [lift3_self _ (by omega)]; exact hrel
  obtain ⟨todo, hu, hsub, _, he⟩ := hmake _ (makePre_of hrel hJ) (group_good hrel hinv)
  obtain ⟨s, hs⟩ := (gloop_holds (s' := { groups := q 0, arrays := q (pre.length + 1), out := q (pre.length + 2) })
    todo _ q m hself hinv hJ hu hsub hpost).1 (by
      rintro k r ⟨ns, h1, rfl⟩
      rw [names_tup]
      exact hbuild k ns h1)
  refine ⟨(upd (upd (upd q 0 s.groups) (pre.length + 1) s.arrays) (pre.length + 1 + 1) s.out, a, []), ?_⟩
  simp only
  rw [he, hs]

theorem group_wellFormed : WellFormed (groupTopology pre post make) where
  inp_lt := by
    intro w inp out io f h
    show inp < pre.length + 2 + post.length
    rcases group_item h with ⟨_, rfl, _⟩ | ⟨_, _, rfl, _⟩ <;> omega
  ready := by
    intro w ready outLen run h q a he
    obtain ⟨_, hw⟩ := group_glob h
    unfold groupWork at hw
    injection hw with h1 _ _
    subst h1
    have := (allEmpty_iff.1 he).1
    have e0 := this 0 (show 0 < pre.length + 2 + post.length by omega)
    have e1 := this (pre.length + 1) (show pre.length + 1 < pre.length + 2 + post.length by omega)
    simp [e0, e1]

/-! ## Progress -/

/-- Ranks of the queues. -/
def grank (p np i : Nat) : Nat := if i = 0 then np + 1 else if i ≤ p + 1 then p + 1 - i else p + 2 + np - i

theorem group_rank : RankLaws (groupTopology pre post make) (grank pre.length post.length) where
  inp_lt := group_wellFormed.inp_lt
  pos := by
    intro w inp out io f h
    unfold grank
    rcases group_item h with ⟨_, rfl, _⟩ | ⟨_, _, rfl, _⟩
    · rw [if_neg (by omega), if_pos (by omega)]; omega
    · rw [if_neg (by omega), if_neg (by omega)]; omega
  lt := by
    intro w inp o io f h
    unfold grank
    rcases group_item h with ⟨_, rfl, h1, _⟩ | ⟨_, _, rfl, h1, _⟩
    · cases h1
      rw [if_neg (by omega), if_pos (by omega), if_neg (by omega), if_pos (by omega)]; omega
    · split at h1
      · cases h1
        rw [if_neg (by omega), if_neg (by omega), if_neg (by omega), if_neg (by omega)]; omega
      · cases h1

theorem length_erase (d : Dict κ (Except ε α)) (k : κ) (h : k ∈ d.keys) : (d.erase k).length + 1 = d.length := by
  induction d with
  | nil => simp [Dict.keys] at h
  | cons kv d ih =>
    obtain ⟨k', v⟩ := kv
    unfold Dict.erase
    split
    · rfl
    · rename_i hne
      rw [Dict.keys_cons] at h
      rcases List.mem_cons.1 h with h1 | h1
      · exact absurd h1.symm hne
      · simp [ih h1]

theorem gstep_measure {key : κ} {g : Except ε α} {s s' : GroupQueues κ α ε} (hkey : (key, g) ∈ s.groups)
    (hs : gstep N build key g s = .ok s') :
    (s' = s ∧ ¬ ((N.names g).all (fun n => (s.arrays.get? n).isSome) = true)) ∨
    (s'.groups.length < s.groups.length ∧ s'.out.length + s'.groups.length ≤ s.out.length + s.groups.length) := by
  unfold gstep at hs
  split at hs
  · split at hs
    · cases hs
    · rename_i r _
      cases hs
      right
      have h1 := length_erase s.groups key ((Dict.mem_keys_iff _ _).2 ⟨g, hkey⟩)
      have h2 := length_set_le s.out key r
      simp only
      omega
  · cases hs; exact Or.inl ⟨rfl, ‹_›⟩

theorem gloop_measure (todo : Dict κ (Except ε α)) : ∀ (s s' : GroupQueues κ α ε), s.groups.KeysUnique →
    todo.KeysUnique → (∀ kv ∈ todo, kv ∈ s.groups) → gloop N build todo s = .ok s' →
    (s' = s ∧ ∀ kv ∈ todo, ¬ ((N.names kv.2).all (fun n => (s.arrays.get? n).isSome) = true)) ∨
    (s'.groups.length < s.groups.length ∧ s'.out.length + s'.groups.length ≤ s.out.length + s.groups.length) := by
  induction todo with
  | nil =>
    intro s s' _ _ _ hs
    simp only [gloop] at hs
    cases hs
    exact Or.inl ⟨rfl, fun _ h => by cases h⟩
  | cons kv todo ih =>
    obtain ⟨key, g⟩ := kv
    intro s s' hgu hu hsub hs
    have hu' := hu
    unfold Dict.KeysUnique at hu'
    rw [Dict.keys_cons, List.nodup_cons] at hu'
    unfold gloop at hs
    cases hst : gstep N build key g s with
    | error e => rw [hst] at hs; cases hs
    | ok s1 =>
      rw [hst] at hs
      have hsub1 : ∀ kv ∈ todo, kv ∈ s1.groups := by
        intro kv hkv
        refine gstep_mem hgu hst (hsub kv (List.mem_cons_of_mem _ hkv)) ?_
        intro he
        exact hu'.1 ((Dict.mem_keys_iff _ _).2 ⟨kv.2, he ▸ hkv⟩)
      have hgu1 : s1.groups.KeysUnique := by
        unfold gstep at hst
        split at hst
        · split at hst
          · cases hst
          · cases hst; exact Dict.keysUnique_erase _ _ hgu
        · cases hst; exact hgu
      have h2 := ih s1 s' hgu1 hu'.2 hsub1 hs
      rcases gstep_measure (hsub _ List.mem_cons_self) hst with ⟨rfl, h3⟩ | h3
      · rcases h2 with ⟨h4, h5⟩ | h4
        · refine Or.inl ⟨h4, fun kv hkv => ?_⟩
          rcases List.mem_cons.1 hkv with rfl | hkv
          · exact h3
          · exact h5 kv hkv
        · exact Or.inr h4
      · right
        rcases h2 with ⟨rfl, _⟩ | h4
        · exact h3
        · omega

/-- A call of the global work in a state satisfying the invariant. -/
theorem group_run_cases (hmake : IsGroupLoop make N build okNames (fromSeries N series)) {w : Nat} {ready outLen run}
    (h : (groupTopology pre post make).works[w]? = some (Work.glob ready outLen run)) {nio : Option Nat}
    {q : Queues κ α ε} {a : Unit} {fl} {m : Map κ α ε} {q' : Queues κ α ε} {a' : Unit} {evs}
    (hrel : Rel (groupTopology pre post make) q fl m) {tot log}
    (hinv : (seriesContract pre post make N build pathOf series).Inv tot m log)
    (hJ : GroupJ pre.length post.length N okNames m) (hrun : run nio q a = .ok (q', a', evs)) :
    ∃ s : GroupQueues κ α ε, q' = lift3 (pre.length + 1) q s ∧
      ((s = { groups := q 0, arrays := q (pre.length + 1), out := q (pre.length + 2) } ∧
        ∀ kv ∈ q 0, ¬ ((N.names kv.2).all (fun n => ((q (pre.length + 1)).get? n).isSome) = true)) ∨
       (s.groups.length < (q 0).length ∧
        s.out.length + s.groups.length ≤ (q (pre.length + 2)).length + (q 0).length)) := by
  obtain ⟨_, hw⟩ := group_glob h
  unfold groupWork at hw
  injection hw with _ _ hr
  subst hr
  simp only at hrun
  obtain ⟨todo, hu, hsub, hrest, he⟩ := hmake _ (makePre_of hrel hJ) (group_good hrel hinv)
  rw [he] at hrun
  split at hrun
  · cases hrun
  · rename_i s hs
    cases hrun
    refine ⟨s, rfl, ?_⟩
    rcases gloop_measure todo _ s (hrel.keysUnique 0) hu hsub hs with ⟨h1, h2⟩ | h1
    · refine Or.inl ⟨h1, fun kv hkv => ?_⟩
      by_cases ht : kv ∈ todo
      · exact h2 kv ht
      · exact hrest kv hkv ht
    · exact Or.inr h1

theorem group_globPot (hmake : IsGroupLoop make N build okNames (fromSeries N series)) (hpost : 0 < post.length) :
    GlobPot (groupTopology pre post make) (grank pre.length post.length) (fun _ => 0)
      (fun q fl _ => ∃ log, GHolds pre post make N build okNames pathOf series q fl log) := by
  intro w ready outLen run h nio q a fl q' a' evs hP hrun
  obtain ⟨log, m, hrel, hinv, hJ⟩ := hP
  obtain ⟨s, rfl, hs⟩ := group_run_cases hmake h hrel hinv hJ hrun
  rcases hs with ⟨rfl, _⟩ | ⟨h1, h2⟩
  · exact Or.inr ⟨lift3_self _ (by omega) q, rfl⟩
  · left
    simp only [pot, Nat.add_zero]
    show potQ (grank pre.length post.length) (pre.length + 2 + post.length) _ <
      potQ (grank pre.length post.length) (pre.length + 2 + post.length) _
    unfold lift3
    have r0 : grank pre.length post.length 0 = post.length + 1 := by simp [grank]
    have r1 : grank pre.length post.length (pre.length + 1) = 0 := by simp [grank]
    have r2 : grank pre.length post.length (pre.length + 1 + 1) = post.length := by
      unfold grank; rw [if_neg (by omega), if_neg (by omega)]; omega
    have e1 := potQ_upd (grank pre.length post.length) (pre.length + 2 + post.length) 0 (by omega) q s.groups
    have e2 := potQ_upd (grank pre.length post.length) (pre.length + 2 + post.length) (pre.length + 1) (by omega)
      (upd q 0 s.groups) s.arrays
    rw [r0] at e1
    rw [r1] at e2
    have hq : (upd (upd q 0 s.groups) (pre.length + 1) s.arrays) (pre.length + 1 + 1) = q (pre.length + 2) := by
      unfold upd; rw [if_neg (by omega), if_neg (by omega)]
    have e3 : potQ (grank pre.length post.length) (pre.length + 2 + post.length)
        (upd (upd (upd q 0 s.groups) (pre.length + 1) s.arrays) (pre.length + 1 + 1) s.out) +
        2 * post.length * (q (pre.length + 2)).length =
        potQ (grank pre.length post.length) (pre.length + 2 + post.length)
        (upd (upd q 0 s.groups) (pre.length + 1) s.arrays) + 2 * post.length * s.out.length := by
      have := potQ_upd (grank pre.length post.length) (pre.length + 2 + post.length) (pre.length + 1 + 1) (by omega)
        (upd (upd q 0 s.groups) (pre.length + 1) s.arrays) s.out
      rw [r2, hq] at this
      exact this
    obtain ⟨d, hd⟩ : ∃ d, (q 0).length = s.groups.length + 1 + d := ⟨(q 0).length - (s.groups.length + 1), by omega⟩
    have hout : s.out.length ≤ (q (pre.length + 2)).length + 1 + d := by omega
    have hmul : 2 * post.length * s.out.length ≤ 2 * post.length * ((q (pre.length + 2)).length + 1 + d) :=
      Nat.mul_le_mul_left _ hout
    rw [hd] at e1
    have e1' : 2 * (post.length + 1) * (s.groups.length + 1 + d) =
        2 * (post.length + 1) * s.groups.length + 2 * post.length * (1 + d) + 2 * (1 + d) := by ring
    have hmul' : 2 * post.length * ((q (pre.length + 2)).length + 1 + d) =
        2 * post.length * (q (pre.length + 2)).length + 2 * post.length * (1 + d) := by ring
    omega

theorem group_pre_item {w : Nat} (hw : w < pre.length) :
    (groupTopology pre post make).works[w]? = some (Work.item (w + 1) (some (w + 2)) pre[w].io pre[w].f) := by
  rw [group_works_get, if_pos hw, List.getElem?_eq_getElem hw]
  simp only [Option.map_some, Option.some.injEq, Work.item.injEq, and_true]
  exact ⟨by omega, by omega⟩

theorem group_post_item {j : Nat} (hj : j < post.length) :
    (groupTopology pre post make).works[pre.length + 1 + j]? = some (Work.item (pre.length + 2 + j)
      (if j + 1 < post.length then some (pre.length + 2 + j + 1) else none) post[j].io post[j].f) := by
  rw [group_works_get, if_neg (by omega), if_neg (by omega),
    show pre.length + 1 + j - (pre.length + 1) = j by omega, List.getElem?_eq_getElem hj]
  simp only [Option.map_some, Option.some.injEq, Work.item.injEq, and_true]
  refine ⟨by omega, ?_⟩
  rw [show pre.length + 1 + j - pre.length = j + 1 by omega]
  split
  · congr 1; omega
  · rfl

theorem group_glob_item : (groupTopology pre post make).works[pre.length]? =
    some (groupWork (pre.length + 1) make) := by
  rw [group_works_get, if_neg (by omega), if_pos rfl]

/-- In a state where nothing runs and something remains: an item can be processed without meeting a queue which is
not empty, or a group can be made, or the arrays are the only obstacle. -/
theorem group_stuck {q : Queues κ α ε} {a : Unit} {log}
    (h : GHolds pre post make N build okNames pathOf series q [] log)
    (hne : allEmpty (groupTopology pre post make) q a = false) :
    (∃ (w inp : Nat) (out : Option Nat) (io : Bool) (f : κ → α → Except ε α),
      (groupTopology pre post make).works[w]? = some (Work.item inp out io f) ∧ q inp ≠ [] ∧
      ∀ o, out = some o → q o = []) ∨
    (q (pre.length + 2) = [] ∧
      ∃ kv ∈ q 0, (N.names kv.2).all (fun n => ((q (pre.length + 1)).get? n).isSome) = true) ∨
    ((∃ (io : Bool) (f : κ → α → Except ε α), (groupTopology pre post make).works[pre.length - 1]? =
        some (Work.item pre.length (some (pre.length + 1)) io f)) ∧ q pre.length ≠ [] ∧
      ∀ kv ∈ q 0, ¬ ((N.names kv.2).all (fun n => ((q (pre.length + 1)).get? n).isSome) = true)) := by
  obtain ⟨m, hrel, hinv, hJ⟩ := h
  -- works on groups
  by_cases hpost : ∃ j < post.length, q (pre.length + 2 + j) ≠ []
  · left
    obtain ⟨j, hj, h1, h2⟩ := exists_last (fun j => q (pre.length + 2 + j) ≠ []) _ hpost
    refine ⟨_, _, _, _, _, group_post_item hj, h1, ?_⟩
    intro o ho
    split at ho
    · cases ho
      have := h2 (j + 1) (by omega) ‹_›
      simp only [ne_eq, Classical.not_not] at this
      rw [show pre.length + 2 + j + 1 = pre.length + 2 + (j + 1) by omega]
      exact this
    · cases ho
  · push_neg at hpost
    -- works on images, but the last one
    by_cases hpre : ∃ i < pre.length, q (i + 1) ≠ []
    · obtain ⟨i, hi, h1, h2⟩ := exists_last (fun i => q (i + 1) ≠ []) _ hpre
      by_cases hlast : i + 1 < pre.length
      · left
        refine ⟨_, _, _, _, _, group_pre_item hi, h1, ?_⟩
        intro o ho
        cases ho
        have := h2 (i + 1) (by omega) hlast
        simpa using this
      · right
        have hil : i + 1 = pre.length := by omega
        by_cases hr : ∃ kv ∈ q 0, (N.names kv.2).all (fun n => ((q (pre.length + 1)).get? n).isSome) = true
        · left
          refine ⟨?_, hr⟩
          by_cases hp : 0 < post.length
          · exact hpost 0 hp
          · cases hq : q (pre.length + 2) with
            | nil => rfl
            | cons kv rest =>
              have := hJ.bound _ kv.1 kv.2 (hrel.head_at hq)
              omega
        · right
          push_neg at hr
          refine ⟨⟨pre[i].io, pre[i].f, ?_⟩, ?_, hr⟩
          · have := group_pre_item (post := post) (make := make) hi
            rw [show i + 2 = pre.length + 1 by omega] at this
            rw [← hil, Nat.add_sub_cancel, this, hil]
          · rw [← hil]; exact h1
    · push_neg at hpre
      right; left
      refine ⟨?_, ?_⟩
      · by_cases hp : 0 < post.length
        · exact hpost 0 hp
        · cases hq : q (pre.length + 2) with
          | nil => rfl
          | cons kv rest =>
            have := hJ.bound _ kv.1 kv.2 (hrel.head_at hq)
            omega
      · -- everything is loaded
        have hall : ∀ kv ∈ q 0, (N.names kv.2).all (fun n => ((q (pre.length + 1)).get? n).isSome) = true := by
          rintro ⟨k, v⟩ hkv
          rw [List.all_eq_true]
          intro n hn
          obtain ⟨i, h1, h2, r, h3⟩ := (hJ.groups k v ((hrel.at_iff _ _ _).2 (Or.inl hkv))).2 n hn
          rw [hrel.get?] at h3
          by_cases hi : i = pre.length + 1
          · subst hi; rw [h3]; rfl
          · have := hpre (i - 1) (by omega)
            rw [show i - 1 + 1 = i by omega] at this
            rw [this] at h3; cases h3
        cases hq0 : q 0 with
        | cons kv rest => exact ⟨kv, List.mem_cons_self, hall kv (by rw [hq0]; exact List.mem_cons_self)⟩
        | nil =>
          exfalso
          have hempty : allEmpty (groupTopology pre post make) q a = true := by
            rw [allEmpty_iff]
            refine ⟨fun i hi => ?_, rfl⟩
            have hi' : i < pre.length + 2 + post.length := hi
            by_cases h0 : i = 0
            · rw [h0]; exact hq0
            · by_cases h1 : i ≤ pre.length
              · have := hpre (i - 1) (by omega)
                rwa [show i - 1 + 1 = i by omega] at this
              · by_cases h2 : i = pre.length + 1
                · subst h2
                  cases hqa : q (pre.length + 1) with
                  | nil => rfl
                  | cons kv rest =>
                    obtain ⟨k, v, h3, _⟩ := hJ.used (pre.length + 1) kv.1 kv.2 (by omega) (by omega) (hrel.head_at hqa)
                    rw [hrel.get?, hq0] at h3
                    cases h3
                · have := hpost (i - (pre.length + 2)) (by omega)
                  rwa [show pre.length + 2 + (i - (pre.length + 2)) = i by omega] at this
          rw [hempty] at hne; cases hne

theorem lift3_groups_ne {q : Queues κ α ε} {s : GroupQueues κ α ε} {p : Nat} (h : s.groups.length < (q 0).length) :
    lift3 (p + 1) q s ≠ q := by
  intro he
  have : lift3 (p + 1) q s 0 = q 0 := by rw [he]
  rw [lift3_groups _ (by omega)] at this
  rw [this] at h
  omega

theorem group_sprogress (hmake : IsGroupLoop make N build okNames (fromSeries N series)) (c : Cfg) :
    SProgress (groupTopology pre post make) c
      (fun q fl _ => ∃ log, GHolds pre post make N build okNames pathOf series q fl log) := by
  intro q a hP hne
  obtain ⟨log, h⟩ := hP
  rcases group_stuck h hne with ⟨w, inp, out, io, f, h1, h2, _⟩ | ⟨h1, kv, hkv, hr⟩ | ⟨⟨io, f, h1⟩, h2, _⟩
  · exact Or.inl ⟨w, inp, out, io, f, h1, h2⟩
  · right
    refine ⟨_, _, _, _, group_glob_item, ?_, ?_⟩
    · show seqFull c (some (q (pre.length + 1 + 1)).length) = false
      rw [show pre.length + 1 + 1 = pre.length + 2 by omega, h1]
      simp [seqFull]
    · intro q' a' evs hrun
      obtain ⟨m, hrel, hinv, hJ⟩ := h
      obtain ⟨s, rfl, hs⟩ := group_run_cases hmake group_glob_item (nio := none) hrel hinv hJ hrun
      rintro ⟨he, _⟩
      rcases hs with ⟨_, h3⟩ | ⟨h3, _⟩
      · exact h3 kv hkv hr
      · exact lift3_groups_ne h3 he
  · exact Or.inl ⟨_, _, _, _, _, h1, h2⟩

/-- The executor never waits for ever, provided that the arrays never fill their queue when no group can be made. -/
theorem group_aprogress (hmake : IsGroupLoop make N build okNames (fromSeries N series)) (hpost : 0 < post.length)
    (hbuild : ∀ k ns, Dict.get? series k = some ns → ∃ x, build k ns (ns.map (finOf pre pathOf)) = .ok x)
    (c : Cfg) (hq : 0 < c.queueMax)
    (P : Queues κ α ε → List (Task κ α) → Unit → Prop)
    (hP : ∀ q fl a, P q fl a → ∃ log, GHolds pre post make N build okNames pathOf series q fl log)
    (hwidth : ∀ q a, P q [] a → q pre.length ≠ [] →
      (∀ kv ∈ q 0, ¬ ((N.names kv.2).all (fun n => ((q (pre.length + 1)).get? n).isSome) = true)) →
      (q (pre.length + 1)).length < c.queueMax) :
    AProgress (groupTopology pre post make) c P := by
  intro q a hPq hne
  obtain ⟨log, h⟩ := hP _ _ _ hPq
  rcases group_stuck h hne with ⟨w, inp, out, io, f, h1, h2, h3⟩ | ⟨h1, kv, hkv, hr⟩ | ⟨⟨io, f, h1⟩, h2, h3⟩
  · refine Or.inl ⟨w, inp, out, io, f, h1, h2, ?_⟩
    cases out with
    | none => rfl
    | some o => simp [outFull, h3 o rfl]; omega
  · right
    obtain ⟨⟨q', a', evs⟩, hrun⟩ := group_safe hmake hpost hbuild group_glob_item (some 0) q a [] log h
    refine ⟨_, _, _, _, q', a', evs, group_glob_item, ?_, hrun, ?_⟩
    · have : q 0 ≠ [] := fun e => by rw [e] at hkv; cases hkv
      simp [this]
    · obtain ⟨m, hrel, hinv, hJ⟩ := h
      obtain ⟨s, rfl, hs⟩ := group_run_cases hmake group_glob_item (nio := some 0) hrel hinv hJ hrun
      rintro ⟨he, _⟩
      rcases hs with ⟨_, h4⟩ | ⟨h4, _⟩
      · exact h4 kv hkv hr
      · exact lift3_groups_ne h4 he
  · refine Or.inl ⟨_, _, _, _, _, h1, h2, ?_⟩
    have := hwidth q a hPq h2 h3
    simp only [outFull, decide_eq_false_iff_not]
    omega

/-- The queue of the paths is only read. -/
theorem group_readOnly (hpre : 0 < pre.length) : ReadOnly (groupTopology pre post make) 1 := by
  refine ⟨?_, ?_⟩
  · intro w inp out io f h
    rcases group_item h with ⟨_, _, rfl, _⟩ | ⟨_, _, _, rfl, _⟩
    · simp
    · split <;> simp
  · intro w ready outLen run h nio q a q' a' evs hrun
    obtain ⟨_, hw⟩ := group_glob h
    unfold groupWork at hw
    injection hw with _ _ hr
    subst hr
    simp only at hrun
    split at hrun
    · cases hrun
    · cases hrun
      exact lift3_other _ _ _ 1 (by omega) (by omega) (by omega)

end
end Verif.Exec
