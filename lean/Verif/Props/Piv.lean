import Verif.Exec.GroupEnd
import Verif.Exec.GroupMake
import Verif.Exec.Labels

/-!
# PIV: couples of images (C23, C24)

The specification is `Verif/Spec/Groups.lean`: what has to happen to one image and to one couple.
-/

namespace Verif
open Verif.Exec Verif.Spec

variable {κ α ε : Type} [DecidableEq κ]

/-- The couples of a series, as the series given to the topology: index of the couple, names of its two images. -/
def coupleSeries (cs : List (κ × κ × κ)) : List (κ × List κ) := cs.map (fun c => (c.1, [c.2.1, c.2.2]))

/-- The couples of two images which are loaded are accepted by the constructor of `ArrayCouple`. -/
def CouplesAccepted (O : CoupleOps κ α ε) (image : κ → Except ε α) (cs : List (κ × κ × κ)) : Prop :=
  ∀ k n0 n1, (k, n0, n1) ∈ cs → ∀ a0 a1, image n0 = .ok a0 → image n1 = .ok a1 →
    ∃ v, O.make k (n0, n1) (a0, a1) = .ok v

/-- What has to happen during a run of PIV: the events of each couple, of each image, and nothing else. -/
structure PivDone (imread : κ → α → Except ε α) (im2im : Option (κ → α → Except ε α)) (O : CoupleOps κ α ε)
    (computePiv savePiv : κ → α → Except ε α) (pathOf : κ → α) (cs : List (κ × κ × κ)) (log : List (Event κ α ε)) :
    Prop where
  /-- PIV is computed once for each couple, on the couple of its two images in the right order, and saved once; if an
  image is not available, its error is reported for the couple (the one of the first image first). -/
  couples : ∀ k n0 n1, (k, n0, n1) ∈ cs →
    eventsOf (fun w => decide ((loadWorks imread im2im).length ≤ w)) k log =
      itemEvents k ((loadWorks imread im2im).length + 1) [⟨false, computePiv⟩, ⟨true, savePiv⟩]
        (coupleOf (O.make k (n0, n1)) (imageOf n0 (loadWorks imread im2im) (.ok (pathOf n0)))
          (imageOf n1 (loadWorks imread im2im) (.ok (pathOf n1))))
  noOtherCouple : ∀ k, (∀ n0 n1, (k, n0, n1) ∉ cs) →
    eventsOf (fun w => decide ((loadWorks imread im2im).length ≤ w)) k log = []
  /-- Each image of the couples is loaded once, even if it is used by several couples. -/
  images : ∀ n, (∃ c ∈ cs, n = c.2.1 ∨ n = c.2.2) →
    eventsOf (fun w => decide (w < (loadWorks imread im2im).length)) n log =
      imageEvents n 0 (loadWorks imread im2im) (.ok (pathOf n))
  noOtherImage : ∀ n, (∀ c ∈ cs, n ≠ c.2.1 ∧ n ≠ c.2.2) →
    eventsOf (fun w => decide (w < (loadWorks imread im2im).length)) n log = []

section
variable (imread : κ → α → Except ε α) (im2im : Option (κ → α → Except ε α)) (O : CoupleOps κ α ε)
  (computePiv savePiv : κ → α → Except ε α) (pathOf : κ → α) (cs : List (κ × κ × κ))

theorem piv_setup (hk : (cs.map (fun c => c.1)).Nodup) (hne : ∀ c ∈ cs, c.2.1 ≠ c.2.2) :
    GroupSetup (loadWorks imread im2im) [⟨false, computePiv⟩, ⟨true, savePiv⟩] O.makeCouples O.toNameTuples O.build
      twoNames (coupleSeries cs) where
  loop := .all fun _ h => makeCouples_eq O h
  post := by simp
  keys := by
    have : (coupleSeries cs).map Prod.fst = cs.map (fun c => c.1) := by simp [coupleSeries]
    rw [this]; exact hk
  names := by
    intro s hs
    obtain ⟨c, hc, rfl⟩ := List.mem_map.1 hs
    exact ⟨c.2.1, c.2.2, rfl, hne c hc⟩

theorem piv_get (hk : (cs.map (fun c => c.1)).Nodup) (k n0 n1 : κ) (h : (k, n0, n1) ∈ cs) :
    Dict.get? (coupleSeries cs) k = some [n0, n1] := by
  refine Dict.mem_get? _ ?_ _ _ (List.mem_map.2 ⟨_, h, rfl⟩)
  have : (coupleSeries cs).map Prod.fst = cs.map (fun c => c.1) := by simp [coupleSeries]
  unfold Dict.KeysUnique Dict.keys
  rw [this]; exact hk

theorem piv_buildOk
    (hacc : CouplesAccepted O (fun n => imageOf n (loadWorks imread im2im) (.ok (pathOf n))) cs) :
    BuildOk (loadWorks imread im2im) O.build pathOf (coupleSeries cs) := by
  intro k ns h
  obtain ⟨c, hc, he⟩ := List.mem_map.1 (Dict.get?_mem _ _ _ h)
  obtain ⟨k', n0, n1⟩ := c
  cases he
  simp only [List.map_cons, List.map_nil, CoupleOps.build, CoupleOps.couple, finOf]
  cases h0 : imageOf n0 (loadWorks imread im2im) (.ok (pathOf n0)) with
  | error e => exact ⟨_, rfl⟩
  | ok a0 =>
    cases h1 : imageOf n1 (loadWorks imread im2im) (.ok (pathOf n1)) with
    | error e => exact ⟨_, rfl⟩
    | ok a1 =>
      obtain ⟨v, hv⟩ := hacc k' n0 n1 hc a0 a1 h0 h1
      simp only [hv]
      exact ⟨_, rfl⟩

theorem piv_done (hk : (cs.map (fun c => c.1)).Nodup)
    (hacc : CouplesAccepted O (fun n => imageOf n (loadWorks imread im2im) (.ok (pathOf n))) cs)
    {log : List (Event κ α ε)}
    (h : GroupDone (loadWorks imread im2im) [⟨false, computePiv⟩, ⟨true, savePiv⟩] O.build pathOf (coupleSeries cs) log) :
    PivDone imread im2im O computePiv savePiv pathOf cs log where
  couples := by
    intro k n0 n1 hc
    rw [h.groups k _ (piv_get cs hk k n0 n1 hc)]
    simp only [groupEvents, List.map_cons, List.map_nil, CoupleOps.build, CoupleOps.couple, finOf, coupleOf]
    cases h0 : imageOf n0 (loadWorks imread im2im) (.ok (pathOf n0)) with
    | error e => rfl
    | ok a0 =>
      cases h1 : imageOf n1 (loadWorks imread im2im) (.ok (pathOf n1)) with
      | error e => rfl
      | ok a1 =>
        obtain ⟨v, hv⟩ := hacc k n0 n1 hc a0 a1 h0 h1
        simp only [hv]
  noOtherCouple := by
    intro k hk'
    refine h.noGroup k ?_
    cases hg : Dict.get? (coupleSeries cs) k with
    | none => rfl
    | some ns =>
      obtain ⟨c, hc, he⟩ := List.mem_map.1 (Dict.get?_mem _ _ _ hg)
      obtain ⟨k', n0, n1⟩ := c
      cases he
      exact absurd hc (hk' n0 n1)
  images := by
    rintro n ⟨c, hc, hn⟩
    refine h.images n (List.mem_flatMap.2 ⟨_, List.mem_map.2 ⟨c, hc, rfl⟩, ?_⟩)
    rcases hn with rfl | rfl <;> simp
  noOtherImage := by
    intro n hn
    refine h.noImage n (fun hn' => ?_)
    obtain ⟨s, hs, h1⟩ := List.mem_flatMap.1 hn'
    obtain ⟨c, hc, rfl⟩ := List.mem_map.1 hs
    have := hn c hc
    simp only [List.mem_cons, List.not_mem_nil, or_false] at h1
    rcases h1 with h1 | h1
    · exact this.1 h1
    · exact this.2 h1

/-! ## C23 -/

/-- C23 (asynchronous executor).  For every series of couples of two different images, overlapping or not: when an
execution reaches the stop flag, whatever the schedule and the limits, each couple has been made exactly once with its
images in the right order (or with the error of its first image which is not available), each image has been loaded
once, and nothing is left. -/
theorem C23_async (hk : (cs.map (fun c => c.1)).Nodup) (hne : ∀ c ∈ cs, c.2.1 ≠ c.2.2)
    (hacc : CouplesAccepted O (fun n => imageOf n (loadWorks imread im2im) (.ok (pathOf n))) cs)
    (c : Cfg) (ls : List Label) (s : AState κ α ε Unit)
    (hrun : ARun (pivTopology imread im2im O computePiv savePiv) c
      (AState.init (groupStart O.toNameTuples pathOf (coupleSeries cs)) ()) ls s) (hstop : s.stop = true) :
    PivDone imread im2im O computePiv savePiv pathOf cs s.log ∧
    (∀ i < (pivTopology imread im2im O computePiv savePiv).nq, s.q i = []) ∧ s.inflight = [] := by
  obtain ⟨h1, h2, h3, _⟩ := (piv_setup imread im2im O computePiv savePiv cs hk hne).async hrun hstop
  exact ⟨piv_done _ _ _ _ _ _ _ hk hacc h1, h2, h3⟩

/-- C23 (sequential executor): the run terminates, nothing is raised, and the same holds. -/
theorem C23_sequential (hk : (cs.map (fun c => c.1)).Nodup) (hne : ∀ c ∈ cs, c.2.1 ≠ c.2.2)
    (hacc : CouplesAccepted O (fun n => imageOf n (loadWorks imread im2im) (.ok (pathOf n))) cs)
    (c : Cfg) (hst : c.stopIfError = false) :
    ∃ n s, seqLoop (pivTopology imread im2im O computePiv savePiv) c n
        (SState.init (groupStart O.toNameTuples pathOf (coupleSeries cs)) ()) = some s ∧ s.crashed = none ∧
      PivDone imread im2im O computePiv savePiv pathOf cs s.log ∧
      (∀ i < (pivTopology imread im2im O computePiv savePiv).nq, s.q i = []) := by
  obtain ⟨n, s, h0, h1, h2, h3⟩ := (piv_setup imread im2im O computePiv savePiv cs hk hne).seq
    (piv_buildOk imread im2im O pathOf cs hacc) hst
  exact ⟨n, s, h0, h1, piv_done _ _ _ _ _ _ _ hk hacc h2, h3⟩

/-- C23: without `stop_if_error`, nothing escapes from the asynchronous executor. -/
theorem C23_no_crash (hk : (cs.map (fun c => c.1)).Nodup) (hne : ∀ c ∈ cs, c.2.1 ≠ c.2.2)
    (hacc : CouplesAccepted O (fun n => imageOf n (loadWorks imread im2im) (.ok (pathOf n))) cs)
    (c : Cfg) (hst : c.stopIfError = false) (ls : List Label) (s : AState κ α ε Unit)
    (hrun : ARun (pivTopology imread im2im O computePiv savePiv) c
      (AState.init (groupStart O.toNameTuples pathOf (coupleSeries cs)) ()) ls s) : s.crashed = none :=
  (piv_setup imread im2im O computePiv savePiv cs hk hne).noCrash (piv_buildOk imread im2im O pathOf cs hacc) hst hrun

end

/-- The states in which the function making couples is called: the keys of the dictionaries are unique, the values of
the first one are couples of different names, and each array is used by a couple. -/
structure CoupleQueues (O : CoupleOps κ α ε) (s : GroupQueues κ α ε) : Prop where
  groups : s.groups.KeysUnique
  arrays : s.arrays.KeysUnique
  names : ∀ k g, s.groups.get? k = some g → ∃ n0 n1, O.names g = [n0, n1] ∧ n0 ≠ n1
  used : ∀ n r, s.arrays.get? n = some r → ∃ k g, s.groups.get? k = some g ∧ n ∈ O.names g

theorem CoupleQueues.pre {O : CoupleOps κ α ε} {s : GroupQueues κ α ε} (h : CoupleQueues O s) :
    MakePre O.toNameTuples twoNames s where
  groups := h.groups
  arrays := h.arrays
  names := fun kv hkv => h.names kv.1 kv.2 (Dict.mem_get? _ h.groups _ _ hkv)
  used := by
    intro n hn
    rw [usedBy_iff h.groups]
    rw [← Dict.isSome_get?_iff] at hn
    cases hr : s.arrays.get? n with
    | none => rw [hr] at hn; cases hn
    | some r => exact h.used n r hr

/-- C23 (one call of `make_couples`).  The couples which are left have an image which is not loaded: a couple is made
by the first call after both its images are loaded.  For each couple which has been made, the two images were loaded,
and what is put in the output queue is the couple of these images (or the error of the first one which failed).
Nothing else is put in the output queue. -/
theorem C23_make_couples (O : CoupleOps κ α ε) (s s' : GroupQueues κ α ε) (hs : CoupleQueues O s)
    (h : O.makeCouples s = .ok s') :
    (∀ k g, s'.groups.get? k = some g ↔
      s.groups.get? k = some g ∧ ∃ n ∈ O.names g, s.arrays.get? n = none) ∧
    (∀ k g n0 n1, s.groups.get? k = some g → s'.groups.get? k = none → O.names g = [n0, n1] →
      ∃ r0 r1, s.arrays.get? n0 = some r0 ∧ s.arrays.get? n1 = some r1 ∧
        s'.out.get? k = some (coupleOf (O.make k (n0, n1)) r0 r1)) ∧
    (∀ k, (s'.groups.get? k).isSome ∨ s.groups.get? k = none → s'.out.get? k = s.out.get? k) := by
  have hm := make_made (fun _ h => makeCouples_eq O h) hs.pre h
  refine ⟨?_, ?_, hm.out⟩
  · intro k g
    constructor
    · intro hg
      have h1 := hm.sub k g hg
      exact ⟨h1, hm.left k g hg ((Dict.isSome_get?_iff _ _).1 (by rw [h1]; rfl))⟩
    · rintro ⟨h1, n, hn, h2⟩
      cases h3 : s'.groups.get? k with
      | some g' => have := hm.sub k g' h3; rw [h1] at this; cases this; rfl
      | none =>
        have := (hm.made k g h1 h3).1 n hn
        rw [h2] at this; cases this
  · intro k g n0 n1 h1 h2 hn
    obtain ⟨e1, r, e2, e3⟩ := hm.made k g h1 h2
    rw [hn] at e1 e2
    have e4 := e1 n0 (by simp)
    have e5 := e1 n1 (by simp)
    cases h0 : s.arrays.get? n0 with
    | none => rw [h0] at e4; cases e4
    | some r0 =>
      cases h1 : s.arrays.get? n1 with
      | none => rw [h1] at e5; cases e5
      | some r1 =>
        refine ⟨r0, r1, rfl, rfl, ?_⟩
        rw [e3]
        simp only [List.filterMap_cons, h0, h1, List.filterMap_nil, CoupleOps.build, CoupleOps.couple] at e2
        cases r0 with
        | error e => simp only at e2; cases e2; rfl
        | ok a0 =>
          cases r1 with
          | error e => simp only at e2; cases e2; rfl
          | ok a1 =>
            simp only at e2
            cases hv : O.make k (n0, n1) (a0, a1) with
            | error e => rw [hv] at e2; cases e2
            | ok v => rw [hv] at e2; cases e2; simp [coupleOf, hv]

/-! ## C24 -/

/-- C24 (one call of `make_couples`).  After the call, an image which was loaded is kept, unchanged, if and only if a
couple which is left uses it; no other image is there. -/
theorem C24_make_couples (O : CoupleOps κ α ε) (s s' : GroupQueues κ α ε) (hs : CoupleQueues O s)
    (h : O.makeCouples s = .ok s') (n : κ) (r : Except ε α) :
    s'.arrays.get? n = some r ↔
      s.arrays.get? n = some r ∧ ∃ k g, s'.groups.get? k = some g ∧ n ∈ O.names g :=
  (make_made (fun _ h => makeCouples_eq O h) hs.pre h).kept n r

section
variable (imread : κ → α → Except ε α) (im2im : Option (κ → α → Except ε α)) (O : CoupleOps κ α ε)
  (computePiv savePiv : κ → α → Except ε α) (pathOf : κ → α) (cs : List (κ × κ × κ))

/-- C24.  In every reachable state the queues satisfy the hypotheses of `C23_make_couples` and `C24_make_couples`; in
particular at any time an image in the queue of arrays is used by a couple which is not made. -/
theorem C24_reachable (hk : (cs.map (fun c => c.1)).Nodup) (hne : ∀ c ∈ cs, c.2.1 ≠ c.2.2)
    (c : Cfg) (ls : List Label) (s : AState κ α ε Unit)
    (hrun : ARun (pivTopology imread im2im O computePiv savePiv) c
      (AState.init (groupStart O.toNameTuples pathOf (coupleSeries cs)) ()) ls s) (hc : s.crashed = none) :
    CoupleQueues O (GroupQueues.mk (s.q 0) (s.q ((loadWorks imread im2im).length + 1))
      (s.q ((loadWorks imread im2im).length + 2))) := by
  obtain ⟨m, hrel, _, hJ⟩ := (piv_setup imread im2im O computePiv savePiv cs hk hne).holds hrun hc
  have hpre := makePre_of hrel hJ
  refine ⟨hpre.groups, hpre.arrays, fun k g hg => hpre.names _ (Dict.get?_mem _ _ _ hg), fun n r hr => ?_⟩
  rw [← usedBy_iff hpre.groups]
  exact hpre.used n ((Dict.isSome_get?_iff _ _).1 (by rw [hr]; rfl))

/-- C24.  Each image is read exactly once, and at the end no image is left and all the queues are empty. -/
theorem C24_read_once (hk : (cs.map (fun c => c.1)).Nodup) (hne : ∀ c ∈ cs, c.2.1 ≠ c.2.2)
    (c : Cfg) (ls : List Label) (s : AState κ α ε Unit)
    (hrun : ARun (pivTopology imread im2im O computePiv savePiv) c
      (AState.init (groupStart O.toNameTuples pathOf (coupleSeries cs)) ()) ls s) (hstop : s.stop = true) :
    (∀ n, (∃ c ∈ cs, n = c.2.1 ∨ n = c.2.2) →
      s.log.filter (fun e => match e with
        | .call w k _ => decide (w = 0 ∧ k = n)
        | _ => false) = [.call 0 n (pathOf n)]) ∧
    (∀ i < (pivTopology imread im2im O computePiv savePiv).nq, s.q i = []) ∧ s.inflight = [] := by
  obtain ⟨h1, h2, h3, _⟩ := (piv_setup imread im2im O computePiv savePiv cs hk hne).async hrun hstop
  refine ⟨?_, h2, h3⟩
  rintro n ⟨c', hc, hn⟩
  have h4 := h1.images n (List.mem_flatMap.2 ⟨_, List.mem_map.2 ⟨c', hc, rfl⟩, by
    rcases hn with rfl | rfl <;> simp⟩)
  have h5 : s.log.filter (fun e => match e with
        | .call w k _ => decide (w = 0 ∧ k = n)
        | _ => false) = (eventsOf (fun w => decide (w < (loadWorks imread im2im).length)) n s.log).filter
        (fun e => match e with
        | .call w k _ => decide (w = 0 ∧ k = n)
        | _ => false) := by
    unfold eventsOf
    rw [List.filter_filter]
    apply List.filter_congr
    intro e _
    cases e with
    | call w k v =>
      by_cases hw : w = 0 ∧ k = n
      · have : 0 < (loadWorks imread im2im).length := by cases im2im <;> simp [loadWorks]
        simp [hw.1, hw.2, this]
      · simp [hw]
    | failed => rfl
    | dropped => rfl
    | note => rfl
  rw [h5, h4]
  cases im2im with
  | none =>
    simp only [loadWorks, imageEvents]
    cases imread n (pathOf n) <;> simp
  | some f =>
    simp only [loadWorks, imageEvents]
    cases imread n (pathOf n) with
    | error e => simp
    | ok v => cases hf : f n v <;> simp [hf]

end

/-! ## A concrete series -/

namespace ExamplePiv

/-- Names are numbers, values are lists of numbers; the image 3 cannot be read. -/
def ops : CoupleOps Nat (List Nat) Nat where
  tup := id
  namesOf := id
  namesOf_tup := fun _ => rfl
  make := fun _ _ a => .ok (a.1 ++ a.2)
  keyError := 1000
  indexError := 1001

def imread (n : Nat) (_ : List Nat) : Except Nat (List Nat) := if n = 3 then .error 33 else .ok [n]
def computePiv (_ : Nat) (v : List Nat) : Except Nat (List Nat) := .ok (100 :: v)
def savePiv (_ : Nat) (v : List Nat) : Except Nat (List Nat) := .ok v

/-- Couples (0, 1), (1, 2), (2, 3), (3, 4): indices 10, 11, 12, 13. -/
def couples : List (Nat × Nat × Nat) := [(10, 0, 1), (11, 1, 2), (12, 2, 3), (13, 3, 4)]

def start : AState Nat (List Nat) Nat Unit :=
  AState.init (groupStart ops.toNameTuples (fun n => [n]) (coupleSeries couples)) ()

def topology := pivTopology imread none ops computePiv savePiv

/-- Images are loaded out of order (1 before 0, 4 before 3), couples are made several times in between. -/
def labels : List Label :=
  [.launch 0, .begin 0, .launch 0, .begin 0, .finish 1, .glob 1, .finish 0, .glob 1, .launch 2, .begin 2, .finish 0,
   .launch 3, .begin 3, .finish 0, .check, .launch 0, .begin 0, .launch 0, .begin 0, .finish 0, .glob 1,
   .launch 0, .launch 2, .begin 0, .begin 2, .finish 2, .finish 0, .finish 0, .glob 1, .launch 2, .begin 2, .launch 3, .begin 3,
   .finish 0, .launch 3, .begin 3, .launch 2, .begin 2, .launch 3, .begin 3, .check]

def final := runLabels topology ⟨2, 8, false⟩ labels start

end ExamplePiv

/-- The hypotheses of the theorems hold for the example, whose execution reaches the stop flag. -/
example : (ExamplePiv.couples.map (fun c => c.1)).Nodup ∧ (∀ c ∈ ExamplePiv.couples, c.2.1 ≠ c.2.2) ∧
    CouplesAccepted ExamplePiv.ops (fun n => imageOf n (loadWorks ExamplePiv.imread none) (.ok [n])) ExamplePiv.couples ∧
    ExamplePiv.final.map (·.stop) = some true :=
  ⟨by decide, by decide, fun _ _ _ _ _ _ _ _ => ⟨_, rfl⟩, by decide⟩

/-- What the specification says of this example: the couples of the image 3 are dropped with its error. -/
example : (ExamplePiv.couples.map (fun c =>
    itemEvents c.1 2 [⟨false, ExamplePiv.computePiv⟩, ⟨true, ExamplePiv.savePiv⟩]
      (coupleOf (ExamplePiv.ops.make c.1 c.2) (imageOf c.2.1 (loadWorks ExamplePiv.imread none) (.ok [c.2.1]))
        (imageOf c.2.2 (loadWorks ExamplePiv.imread none) (.ok [c.2.2]))))) =
    [[.call 2 10 [0, 1], .call 3 10 [100, 0, 1]], [.call 2 11 [1, 2], .call 3 11 [100, 1, 2]],
     [.dropped 3 12 33], [.dropped 3 13 33]] := by decide

/-- A state in which one couple can be made, the other ones not: the image 0 is removed, the image 1 is kept. -/
example : ∃ s', ExamplePiv.ops.makeCouples
      { groups := [(10, .ok [0, 1]), (11, .ok [1, 2])], arrays := [(1, .ok [1]), (0, .ok [0])], out := [] } = .ok s' ∧
    s'.groups = [(11, .ok [1, 2])] ∧ s'.arrays = [(1, .ok [1])] ∧ s'.out = [(10, .ok [0, 1])] := ⟨_, rfl, by decide⟩

example : CoupleQueues ExamplePiv.ops
    { groups := [(10, .ok [0, 1]), (11, .ok [1, 2])], arrays := [(1, .ok [1]), (0, .ok [0])], out := [] } where
  groups := by unfold Dict.KeysUnique; decide
  arrays := by unfold Dict.KeysUnique; decide
  names := by
    intro k g h
    have := Dict.get?_mem _ _ _ h
    simp only [List.mem_cons, Prod.mk.injEq, List.not_mem_nil, or_false] at this
    rcases this with ⟨_, rfl⟩ | ⟨_, rfl⟩
    · exact ⟨0, 1, rfl, by decide⟩
    · exact ⟨1, 2, rfl, by decide⟩
  used := by
    intro n r h
    have := Dict.get?_mem _ _ _ h
    simp only [List.mem_cons, Prod.mk.injEq, List.not_mem_nil, or_false] at this
    rcases this with ⟨rfl, _⟩ | ⟨rfl, _⟩
    · exact ⟨10, .ok [0, 1], by decide, by decide⟩
    · exact ⟨10, .ok [0, 1], by decide, by decide⟩

/-- C23 and C24 need couples of two different images: for a couple of an image with itself, `make_couples` removes the
array twice and raises (`del` raises `KeyError`). -/
theorem C23_same_image_twice :
    ExamplePiv.ops.makeCouples { groups := [(10, .ok [1, 1])], arrays := [(1, .ok [1])], out := [] } =
      .error ExamplePiv.ops.keyError := by rfl

end Verif
