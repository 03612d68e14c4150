import Verif.Exec.GroupEnd
import Verif.Exec.GroupMake
import Verif.Exec.Labels

/-!
# Preprocessing: subsets of images (C25)

The specification is `Verif/Spec/Groups.lean`.
-/

namespace Verif
open Verif.Exec Verif.Spec

variable {κ α ε : Type} [DecidableEq κ]

/-- The subsets are accepted by the constructor of `ArraySubset`.  (An image which could not be loaded is given as it
is, as an exception object.) -/
def SubsetsAccepted (O : SubsetOps κ α ε) (image : κ → Except ε α) (series : List (κ × List κ)) : Prop :=
  ∀ k ns, (k, ns) ∈ series → ∃ v, O.make k ns (ns.map image) = .ok v

/-- What has to happen during a preprocessing: the events of each subset, of each image, and nothing else. -/
structure PreprocDone (imread : κ → α → Except ε α) (im2im : Option (κ → α → Except ε α)) (O : SubsetOps κ α ε)
    (preproc save : κ → α → Except ε α) (pathOf : κ → α) (series : List (κ × List κ)) (log : List (Event κ α ε)) :
    Prop where
  /-- The subset is preprocessed once, with the arrays of its names in the order of the names, and saved once. -/
  subsets : ∀ k ns, (k, ns) ∈ series → ∃ v,
    O.make k ns (ns.map (fun n => imageOf n (loadWorks imread im2im) (.ok (pathOf n)))) = .ok v ∧
    eventsOf (fun w => decide ((loadWorks imread im2im).length ≤ w)) k log =
      itemEvents k ((loadWorks imread im2im).length + 1) [⟨false, preproc⟩, ⟨true, save⟩] (.ok v)
  noOtherSubset : ∀ k, (∀ ns, (k, ns) ∉ series) →
    eventsOf (fun w => decide ((loadWorks imread im2im).length ≤ w)) k log = []
  /-- Each image is loaded once, even if it is used by several subsets. -/
  images : ∀ n, (∃ s ∈ series, n ∈ s.2) →
    eventsOf (fun w => decide (w < (loadWorks imread im2im).length)) n log =
      imageEvents n 0 (loadWorks imread im2im) (.ok (pathOf n))
  noOtherImage : ∀ n, (∀ s ∈ series, n ∉ s.2) →
    eventsOf (fun w => decide (w < (loadWorks imread im2im).length)) n log = []

section
variable (imread : κ → α → Except ε α) (im2im : Option (κ → α → Except ε α)) (O : SubsetOps κ α ε)
  (preproc save : κ → α → Except ε α) (pathOf : κ → α) (series : List (κ × List κ))

theorem preproc_setup (hk : (series.map Prod.fst).Nodup) :
    GroupSetup (loadWorks imread im2im) [⟨false, preproc⟩, ⟨true, save⟩] O.makeSubsets O.toNameTuples O.build
      (fun _ => True) series where
  loop := .all fun _ h => makeSubsets_eq O h
  post := by simp
  keys := hk
  names := fun _ _ => trivial

theorem preproc_buildOk
    (hacc : SubsetsAccepted O (fun n => imageOf n (loadWorks imread im2im) (.ok (pathOf n))) series) :
    BuildOk (loadWorks imread im2im) O.build pathOf series := by
  intro k ns h
  obtain ⟨v, hv⟩ := hacc k ns (Dict.get?_mem _ _ _ h)
  refine ⟨.ok v, ?_⟩
  unfold SubsetOps.build finOf
  rw [hv]

theorem preproc_done (hk : (series.map Prod.fst).Nodup)
    (hacc : SubsetsAccepted O (fun n => imageOf n (loadWorks imread im2im) (.ok (pathOf n))) series)
    {log : List (Event κ α ε)}
    (h : GroupDone (loadWorks imread im2im) [⟨false, preproc⟩, ⟨true, save⟩] O.build pathOf series log) :
    PreprocDone imread im2im O preproc save pathOf series log where
  subsets := by
    intro k ns hs
    obtain ⟨v, hv⟩ := hacc k ns hs
    refine ⟨v, hv, ?_⟩
    rw [h.groups k ns (Dict.mem_get? _ hk _ _ hs)]
    unfold groupEvents SubsetOps.build finOf
    rw [hv]
  noOtherSubset := by
    intro k hk'
    refine h.noGroup k ?_
    cases hg : Dict.get? series k with
    | none => rfl
    | some ns => exact absurd (Dict.get?_mem _ _ _ hg) (hk' ns)
  images := by
    rintro n ⟨s, hs, hn⟩
    exact h.images n (List.mem_flatMap.2 ⟨s, hs, hn⟩)
  noOtherImage := by
    intro n hn
    refine h.noImage n (fun hn' => ?_)
    obtain ⟨s, hs, h1⟩ := List.mem_flatMap.1 hn'
    exact hn s hs h1

/-- C25 (asynchronous executor).  For every series of subsets, of any sizes and overlap: when an execution reaches the
stop flag, whatever the schedule and the limits, each subset has been made exactly once with the arrays of its names
in the order of the names, preprocessed and saved once, each image has been loaded once, and nothing is left. -/
theorem C25_async (hk : (series.map Prod.fst).Nodup)
    (hacc : SubsetsAccepted O (fun n => imageOf n (loadWorks imread im2im) (.ok (pathOf n))) series)
    (c : Cfg) (ls : List Label) (s : AState κ α ε Unit)
    (hrun : ARun (preprocTopology imread im2im O preproc save) c
      (AState.init (groupStart O.toNameTuples pathOf series) ()) ls s) (hstop : s.stop = true) :
    PreprocDone imread im2im O preproc save pathOf series s.log ∧
    (∀ i < (preprocTopology imread im2im O preproc save).nq, s.q i = []) ∧ s.inflight = [] := by
  obtain ⟨h1, h2, h3, _⟩ := (preproc_setup imread im2im O preproc save series hk).async hrun hstop
  exact ⟨preproc_done _ _ _ _ _ _ _ hk hacc h1, h2, h3⟩

/-- C25 (sequential executor): the run terminates, nothing is raised, and the same holds. -/
theorem C25_sequential (hk : (series.map Prod.fst).Nodup)
    (hacc : SubsetsAccepted O (fun n => imageOf n (loadWorks imread im2im) (.ok (pathOf n))) series)
    (c : Cfg) (hst : c.stopIfError = false) :
    ∃ n s, seqLoop (preprocTopology imread im2im O preproc save) c n
        (SState.init (groupStart O.toNameTuples pathOf series) ()) = some s ∧ s.crashed = none ∧
      PreprocDone imread im2im O preproc save pathOf series s.log ∧
      (∀ i < (preprocTopology imread im2im O preproc save).nq, s.q i = []) := by
  obtain ⟨n, s, h0, h1, h2, h3⟩ := (preproc_setup imread im2im O preproc save series hk).seq
    (preproc_buildOk imread im2im O pathOf series hacc) hst
  exact ⟨n, s, h0, h1, preproc_done _ _ _ _ _ _ _ hk hacc h2, h3⟩

/-- C25: without `stop_if_error`, nothing escapes from the asynchronous executor. -/
theorem C25_no_crash (hk : (series.map Prod.fst).Nodup)
    (hacc : SubsetsAccepted O (fun n => imageOf n (loadWorks imread im2im) (.ok (pathOf n))) series)
    (c : Cfg) (hst : c.stopIfError = false) (ls : List Label) (s : AState κ α ε Unit)
    (hrun : ARun (preprocTopology imread im2im O preproc save) c
      (AState.init (groupStart O.toNameTuples pathOf series) ()) ls s) : s.crashed = none :=
  (preproc_setup imread im2im O preproc save series hk).noCrash
    (preproc_buildOk imread im2im O pathOf series hacc) hst hrun

end

/-- The states in which the function making subsets is called. -/
structure SubsetQueues (O : SubsetOps κ α ε) (s : GroupQueues κ α ε) : Prop where
  groups : s.groups.KeysUnique
  arrays : s.arrays.KeysUnique
  used : ∀ n r, s.arrays.get? n = some r → ∃ k g, s.groups.get? k = some g ∧ n ∈ O.names g

theorem SubsetQueues.pre {O : SubsetOps κ α ε} {s : GroupQueues κ α ε} (h : SubsetQueues O s) :
    MakePre O.toNameTuples (fun _ => True) s where
  groups := h.groups
  arrays := h.arrays
  names := fun _ _ => trivial
  used := by
    intro n hn
    rw [usedBy_iff h.groups]
    rw [← Dict.isSome_get?_iff] at hn
    cases hr : s.arrays.get? n with
    | none => rw [hr] at hn; cases hn
    | some r => exact h.used n r hr

/-- The loaded arrays of the names, in the order of the names. -/
def loadedArrays (arrays : Dict κ (Except ε α)) (ns : List κ) : List (Except ε α) :=
  ns.filterMap (fun n => arrays.get? n)

/-- C25 (one call of `make_subsets`).  The subsets which are left are those which have an image which is not loaded; for
each subset which has been made all the images were loaded and what is put in the output queue is made of their
arrays in the order of the names; nothing else is put in the output queue; a loaded image is kept, unchanged, if and
only if a subset which is left uses it. -/
theorem C25_make_subsets (O : SubsetOps κ α ε) (s s' : GroupQueues κ α ε) (hs : SubsetQueues O s)
    (h : O.makeSubsets s = .ok s') :
    (∀ k g, s'.groups.get? k = some g ↔
      s.groups.get? k = some g ∧ ∃ n ∈ O.names g, s.arrays.get? n = none) ∧
    (∀ k g, s.groups.get? k = some g → s'.groups.get? k = none →
      (loadedArrays s.arrays (O.names g)).length = (O.names g).length ∧
      ∃ v, O.make k (O.names g) (loadedArrays s.arrays (O.names g)) = .ok v ∧ s'.out.get? k = some (.ok v)) ∧
    (∀ k, (s'.groups.get? k).isSome ∨ s.groups.get? k = none → s'.out.get? k = s.out.get? k) ∧
    (∀ n r, s'.arrays.get? n = some r ↔
      s.arrays.get? n = some r ∧ ∃ k g, s'.groups.get? k = some g ∧ n ∈ O.names g) := by
  have hm := make_made (fun _ h => makeSubsets_eq O h) hs.pre h
  refine ⟨?_, ?_, hm.out, hm.kept⟩
  · intro k g
    constructor
    · intro hg
      have h1 := hm.sub k g hg
      exact ⟨h1, hm.left k g hg ((Dict.isSome_get?_iff _ _).1 (by rw [h1]; rfl))⟩
    · rintro ⟨h1, n, hn, h2⟩
      cases h3 : s'.groups.get? k with
      | some g' => have := hm.sub k g' h3; rw [h1] at this; cases this; rfl
      | none =>
        have := (hm.made k g h1 h3).1 n hn
        rw [h2] at this; cases this
  · intro k g h1 h2
    obtain ⟨e1, r, e2, e3⟩ := hm.made k g h1 h2
    refine ⟨?_, ?_⟩
    · unfold loadedArrays
      generalize O.names g = ns at e1
      induction ns with
      | nil => rfl
      | cons n ns ih =>
        have h4 := e1 n (by simp)
        cases h5 : s.arrays.get? n with
        | none => rw [h5] at h4; cases h4
        | some r => simp only [List.filterMap_cons, h5, List.length_cons]; rw [ih (fun m hm => e1 m (by simp [hm]))]
    · unfold SubsetOps.build at e2
      unfold loadedArrays
      split at e2
      · cases e2
      · rename_i v hv
        cases e2
        exact ⟨v, hv, e3⟩

section
variable (imread : κ → α → Except ε α) (im2im : Option (κ → α → Except ε α)) (O : SubsetOps κ α ε)
  (preproc save : κ → α → Except ε α) (pathOf : κ → α) (series : List (κ × List κ))

/-- C25.  In every reachable state the queues satisfy the hypotheses of `C25_make_subsets`; in particular at any time
an image in the queue of arrays is used by a subset which is not made. -/
theorem C25_reachable (hk : (series.map Prod.fst).Nodup) (c : Cfg) (ls : List Label) (s : AState κ α ε Unit)
    (hrun : ARun (preprocTopology imread im2im O preproc save) c
      (AState.init (groupStart O.toNameTuples pathOf series) ()) ls s) (hc : s.crashed = none) :
    SubsetQueues O (GroupQueues.mk (s.q 0) (s.q ((loadWorks imread im2im).length + 1))
      (s.q ((loadWorks imread im2im).length + 2))) := by
  obtain ⟨m, hrel, _, hJ⟩ := (preproc_setup imread im2im O preproc save series hk).holds hrun hc
  have hpre := makePre_of hrel hJ
  refine ⟨hpre.groups, hpre.arrays, fun n r hr => ?_⟩
  rw [← usedBy_iff hpre.groups]
  exact hpre.used n ((Dict.isSome_get?_iff _ _).1 (by rw [hr]; rfl))

end

/-! ## A concrete series -/

namespace ExamplePreproc

/-- Names are numbers, values are lists of numbers; an image which could not be read counts as 999. -/
def ops : SubsetOps Nat (List Nat) Nat where
  tup := id
  namesOf := id
  namesOf_tup := fun _ => rfl
  make := fun _ _ rs => .ok (rs.flatMap (fun r => match r with | .ok v => v | .error _ => [999]))

def imread (n : Nat) (_ : List Nat) : Except Nat (List Nat) := if n = 3 then .error 33 else .ok [n]
def preproc (_ : Nat) (v : List Nat) : Except Nat (List Nat) := if 999 ∈ v then .error 5 else .ok v.reverse
def save (_ : Nat) (v : List Nat) : Except Nat (List Nat) := .ok v

/-- Overlapping subsets of different sizes. -/
def series : List (Nat × List Nat) := [(10, [1, 0]), (11, [1, 2, 4]), (12, [3, 4])]

def start : AState Nat (List Nat) Nat Unit :=
  AState.init (groupStart ops.toNameTuples (fun n => [n]) series) ()

def topology := preprocTopology imread none ops preproc save

def labels : List Label :=
  [.launch 0, .begin 0, .launch 0, .begin 0, .finish 1, .glob 1, .finish 0, .glob 1, .launch 2, .begin 2, .finish 0,
   .launch 3, .begin 3, .finish 0, .check, .launch 0, .begin 0, .launch 0, .begin 0, .finish 1, .glob 1,
   .launch 0, .begin 0, .finish 1, .finish 0, .glob 1, .launch 2, .begin 2, .launch 2, .begin 2, .finish 0, .finish 0,
   .launch 3, .begin 3, .launch 3, .begin 3, .finish 0, .check]

def final := runLabels topology ⟨2, 8, false⟩ labels start

end ExamplePreproc

example : (ExamplePreproc.series.map Prod.fst).Nodup ∧
    SubsetsAccepted ExamplePreproc.ops (fun n => imageOf n (loadWorks ExamplePreproc.imread none) (.ok [n]))
      ExamplePreproc.series ∧
    ExamplePreproc.final.map (·.stop) = some true :=
  ⟨by decide, fun _ _ _ => ⟨_, rfl⟩, by decide⟩

/-- What the specification says of this example. -/
example : (ExamplePreproc.series.map (fun s =>
    match ExamplePreproc.ops.make s.1 s.2 (s.2.map (fun n => imageOf n (loadWorks ExamplePreproc.imread none) (.ok [n]))) with
    | .ok v => itemEvents s.1 2 [⟨false, ExamplePreproc.preproc⟩, ⟨true, ExamplePreproc.save⟩] (.ok v)
    | .error _ => [])) =
    [[.call 2 10 [1, 0], .call 3 10 [0, 1]], [.call 2 11 [1, 2, 4], .call 3 11 [4, 2, 1]],
     [.call 2 12 [999, 4], .failed 2 12 5, .dropped 3 12 5]] := by decide

/-- One subset can be made: the image 0 is removed, the image 1, used by another subset, is kept. -/
example : ∃ s', ExamplePreproc.ops.makeSubsets
      { groups := [(10, .ok [1, 0]), (11, .ok [1, 2, 4])], arrays := [(0, .ok [0]), (1, .ok [1])], out := [] } = .ok s' ∧
    s'.groups = [(11, .ok [1, 2, 4])] ∧ s'.arrays = [(1, .ok [1])] ∧ s'.out = [(10, .ok [1, 0])] := ⟨_, rfl, by decide⟩

example : SubsetQueues ExamplePreproc.ops
    { groups := [(10, .ok [1, 0]), (11, .ok [1, 2, 4])], arrays := [(0, .ok [0]), (1, .ok [1])], out := [] } where
  groups := by unfold Dict.KeysUnique; decide
  arrays := by unfold Dict.KeysUnique; decide
  used := by
    intro n r h
    have := Dict.get?_mem _ _ _ h
    simp only [List.mem_cons, Prod.mk.injEq, List.not_mem_nil, or_false] at this
    rcases this with ⟨rfl, _⟩ | ⟨rfl, _⟩
    · exact ⟨10, .ok [1, 0], by decide, by decide⟩
    · exact ⟨10, .ok [1, 0], by decide, by decide⟩

end Verif
