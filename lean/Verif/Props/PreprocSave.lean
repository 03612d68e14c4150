import Verif.Model.PreprocSave
import Verif.Lemmas.Dict
import Mathlib.Tactic.Ring
import Mathlib.Tactic.Linarith
import Mathlib.Data.List.Nodup

/-!
# Files written by the preprocessing (C26, C27)
-/

namespace Verif
open Verif.PreprocSave Verif.Names

/-! ## Specification -/

/-- After the tools are applied to the images of the subset `s`, its image named `n` is `v`. -/
def SubsetContent {N V : Type} (tools : List V → List V) (image : N → V) (s : Subset N) (n : N) (v : V) : Prop :=
  ∃ i : Nat, s.names[i]? = some n ∧ (tools (s.names.map image))[i]? = some v

/-- The subsets that contain an image give the same content to it. -/
def ConsistentSubsets {N V : Type} (tools : List V → List V) (image : N → V) (ss : List (Subset N)) : Prop :=
  ∀ s ∈ ss, ∀ s' ∈ ss, ∀ n v v', SubsetContent tools image s n v → SubsetContent tools image s' n v' → v = v'

/-- No image is in two subsets, or twice in a subset. -/
def DisjointSubsets {N : Type} (ss : List (Subset N)) : Prop :=
  (∀ s ∈ ss, s.names.Nodup) ∧ ∀ s ∈ ss, ∀ s' ∈ ss, ∀ n, n ∈ s.names → n ∈ s'.names → s = s'

/-! ## Dictionaries and writes -/

theorem foldl_set_new {N V : Type} [DecidableEq N] (l d : Dict N V) (h : ((d ++ l).map Prod.fst).Nodup) :
    l.foldl (fun d nv => Dict.set d nv.1 nv.2) d = d ++ l := by
  induction l generalizing d with
  | nil => simp
  | cons kv l ih =>
    obtain ⟨k, v⟩ := kv
    have hk : k ∉ Dict.keys d := by
      intro hc
      rw [List.map_append, List.nodup_append] at h
      exact h.2.2 k hc k (by simp) rfl
    rw [List.foldl_cons, Dict.set_of_not_mem d k v hk, ih (d ++ [(k, v)]) (by simpa using h)]
    simp

theorem zip_keys_nodup {N V : Type} (a : List N) (b : List V) (h : a.Nodup) : ((List.zip a b).map Prod.fst).Nodup := by
  induction a generalizing b with
  | nil => simp
  | cons x a ih =>
    cases b with
    | nil => simp
    | cons y b =>
      rw [List.nodup_cons] at h
      rw [List.zip_cons_cons, List.map_cons, List.nodup_cons]
      refine ⟨?_, ih b h.2⟩
      intro hc
      obtain ⟨q, hq, he⟩ := List.mem_map.1 hc
      apply h.1
      have : (q.1, q.2) ∈ List.zip a b := hq
      have := (List.of_mem_zip this).1
      rwa [he] at this

theorem pySlice_all {β : Type} (l : List β) : pySlice l (none, none) = l := by simp [pySlice]

theorem topologyResult_eq {N V : Type} [DecidableEq N] (tools : List V → List V) (image : N → V) (s : Subset N)
    (hs : s.names.Nodup) : topologyResult tools image s = List.zip s.names (tools (s.names.map image)) := by
  unfold topologyResult calcul makeDict
  simp only [saveSlice, and_self, if_true, pySlice_all]
  rw [foldl_set_new _ [] (by simpa using zip_keys_nodup _ _ hs)]
  rfl

theorem mem_topologyResult {N V : Type} [DecidableEq N] (tools : List V → List V) (image : N → V) (s : Subset N)
    (hs : s.names.Nodup) (n : N) (v : V) :
    (n, v) ∈ topologyResult tools image s ↔ SubsetContent tools image s n v := by
  rw [topologyResult_eq _ _ _ hs, List.mem_iff_getElem?]
  unfold SubsetContent
  constructor
  · rintro ⟨i, h⟩
    rw [List.getElem?_zip_eq_some] at h
    exact ⟨i, h.1, h.2⟩
  · rintro ⟨i, h1, h2⟩
    exact ⟨i, List.getElem?_zip_eq_some.2 ⟨h1, h2⟩⟩

/-- When all the writes of a file have the same content, this is the content of the file at the end. -/
theorem writeAll_spec {N V : Type} [DecidableEq N] (l : List (N × V))
    (hc : ∀ n v v', (n, v) ∈ l → (n, v') ∈ l → v = v') (fs : Dir N V) (n : N) :
    (∀ v, (n, v) ∈ l → writeAll fs l n = some v) ∧ ((∀ v, (n, v) ∉ l) → writeAll fs l n = fs n) := by
  induction l generalizing fs with
  | nil => exact ⟨fun v h => absurd h (by simp), fun _ => rfl⟩
  | cons a l ih =>
    obtain ⟨m, w⟩ := a
    obtain ⟨h1, h2⟩ := ih (fun n v v' h h' => hc n v v' (by simp [h]) (by simp [h'])) (fs.write (m, w))
    have e : writeAll fs ((m, w) :: l) = writeAll (fs.write (m, w)) l := rfl
    constructor
    · intro v hv
      rw [e]
      by_cases hl : ∃ v', (n, v') ∈ l
      · obtain ⟨v', hv'⟩ := hl
        rw [h1 v' hv', hc n v' v (by simp [hv']) hv]
      · rcases List.mem_cons.1 hv with hv | hv
        · cases hv
          rw [h2 (fun v' h => hl ⟨v', h⟩)]
          simp [Dir.write]
        · exact absurd ⟨v, hv⟩ hl
    · intro hn
      rw [e, h2 (fun v h => hn v (by simp [h]))]
      have : n ≠ m := by rintro rfl; exact hn w (by simp)
      simp [Dir.write, this]

/-- Two lists of writes with the same elements give the same directory. -/
theorem writeAll_ext {N V : Type} [DecidableEq N] (l l' : List (N × V)) (h : ∀ x, x ∈ l ↔ x ∈ l')
    (hc : ∀ n v v', (n, v) ∈ l → (n, v') ∈ l → v = v') (fs : Dir N V) : writeAll fs l = writeAll fs l' := by
  funext n
  have hc' : ∀ n v v', (n, v) ∈ l' → (n, v') ∈ l' → v = v' := by
    intro n v v' h1 h2; exact hc n v v' ((h _).2 h1) ((h _).2 h2)
  by_cases hl : ∃ v, (n, v) ∈ l
  · obtain ⟨v, hv⟩ := hl
    rw [(writeAll_spec l hc fs n).1 v hv, (writeAll_spec l' hc' fs n).1 v ((h _).1 hv)]
  · rw [(writeAll_spec l hc fs n).2 (fun v hv => hl ⟨v, hv⟩),
      (writeAll_spec l' hc' fs n).2 (fun v hv => hl ⟨v, (h _).2 hv⟩)]

theorem writesOf_consistent {N V : Type} [DecidableEq N] (tools : List V → List V) (image : N → V) (ss : List (Subset N))
    (hn : ∀ s ∈ ss, s.names.Nodup) (hc : ConsistentSubsets tools image ss) :
    ∀ n v v', (n, v) ∈ writesOf tools image ss → (n, v') ∈ writesOf tools image ss → v = v' := by
  intro n v v' h h'
  unfold writesOf at h h'
  rw [List.mem_flatMap] at h h'
  obtain ⟨s, hs, h⟩ := h
  obtain ⟨s', hs', h'⟩ := h'
  exact hc s hs s' hs' n v v' ((mem_topologyResult _ _ _ (hn s hs) _ _).1 h)
    ((mem_topologyResult _ _ _ (hn s' hs') _ _).1 h')

/-! ## C26: the order -/

/-- C26 when the subsets that share an image agree on it: the result directory after all the writes does not depend on
the order of the writes (any order of the subsets, and even any interleaving of their files).  Missing for the
full property: subsets that overlap with tools that mix the images (`C26_order_fails`). -/
theorem C26_order_partial {N V : Type} [DecidableEq N] (tools : List V → List V) (image : N → V)
    (ss : List (Subset N)) (hn : ∀ s ∈ ss, s.names.Nodup) (hc : ConsistentSubsets tools image ss)
    (writes : List (N × V)) (hw : writes.Perm (writesOf tools image ss)) (fs : Dir N V) :
    writeAll fs writes = writeAll fs (writesOf tools image ss) ∧
    (∀ s ∈ ss, ∀ n v, SubsetContent tools image s n v → writeAll fs writes n = some v) ∧
    (∀ n, (∀ s ∈ ss, n ∉ s.names) → writeAll fs writes n = fs n) := by
  have hcons := writesOf_consistent tools image ss hn hc
  have e : writeAll fs writes = writeAll fs (writesOf tools image ss) := by
    symm
    exact writeAll_ext _ _ (fun x => hw.mem_iff.symm) hcons fs
  refine ⟨e, ?_, ?_⟩
  · intro s hs n v hv
    rw [e]
    refine (writeAll_spec _ hcons fs n).1 v ?_
    exact List.mem_flatMap.2 ⟨s, hs, (mem_topologyResult _ _ _ (hn s hs) _ _).2 hv⟩
  · intro n hno
    rw [e]
    refine (writeAll_spec _ hcons fs n).2 ?_
    intro v hv
    obtain ⟨s, hs, h⟩ := List.mem_flatMap.1 hv
    obtain ⟨i, hi, _⟩ := (mem_topologyResult _ _ _ (hn s hs) _ _).1 h
    exact hno s hs (List.mem_of_getElem? hi)

/-- C26: the hypothesis holds when the subsets do not overlap (for example one image per subset, the default). -/
theorem C26_disjoint {N V : Type} (tools : List V → List V) (image : N → V) (ss : List (Subset N))
    (h : DisjointSubsets ss) : ConsistentSubsets tools image ss := by
  intro s hs s' hs' n v v' ⟨i, hi, hv⟩ ⟨j, hj, hv'⟩
  have : s = s' := h.2 s hs s' hs' n (List.mem_of_getElem? hi) (List.mem_of_getElem? hj)
  subst this
  have : i = j := by
    obtain ⟨hi1, hi2⟩ := List.getElem?_eq_some_iff.1 hi
    obtain ⟨hj1, hj2⟩ := List.getElem?_eq_some_iff.1 hj
    exact (List.Nodup.getElem_inj_iff (h.1 s hs)).1 (hi2.trans hj2.symm)
  subst this
  rw [hv] at hv'
  exact Option.some.inj hv'

/-- C26: the hypothesis holds when the tools treat each image alone (spatial filters), whatever the overlap. -/
theorem C26_imagewise {N V : Type} (t : V → V) (image : N → V) (ss : List (Subset N)) :
    ConsistentSubsets (List.map t) image ss := by
  intro s _ s' _ n v v' ⟨i, hi, hv⟩ ⟨j, hj, hv'⟩
  rw [List.map_map, List.getElem?_map] at hv hv'
  rw [hi] at hv
  rw [hj] at hv'
  simp only [Option.map_some, Option.some.injEq] at hv hv'
  rw [← hv, ← hv']

/-- A temporal filter: subtraction of the minimum over the subset, pixel by pixel (here, one pixel). -/
def subtractMin (l : List Nat) : List Nat := l.map (fun x => x - (l.foldl min x))

/-- Windows `i:i+2` of the three images 0, 1, 2 whose values are 1, 5, 7. -/
def windowsOfTwo : List (Subset Nat) := [⟨0, 2, 1, [0, 1]⟩, ⟨1, 2, 1, [1, 2]⟩]

def valuesWitness (n : Nat) : Nat := [1, 5, 7].getD n 0

/-- C26 fails for overlapping subsets: the file of image 1 is 0 or 4 depending on which subset is saved last. -/
theorem C26_order_fails :
    writeAll (fun _ => none) (writesOf subtractMin valuesWitness windowsOfTwo) 1 = some 0 ∧
    writeAll (fun _ => none) (writesOf subtractMin valuesWitness windowsOfTwo.reverse) 1 = some 4 := by decide

/-- Non-vacuity of `C26_order_partial`: two subsets of two images. -/
example : DisjointSubsets ([⟨0, 2, 1, [0, 1]⟩, ⟨1, 2, 1, [2, 3]⟩] : List (Subset Nat)) := by
  constructor
  · decide
  · intro s hs s' hs' n h h'
    simp only [List.mem_cons, List.not_mem_nil, or_false] at hs hs'
    rcases hs with rfl | rfl <;> rcases hs' with rfl | rfl
    · rfl
    · simp at h h'; omega
    · simp at h h'; omega
    · rfl

/-! ## C26: completing an interrupted run -/

theorem item_mem {β : Type} (l : List β) (i : Int) (v : β) (h : item l i = .ok v) : v ∈ l := by
  unfold item at h
  simp only at h
  generalize (if i < 0 then i + (l.length : Int) else i) = j at h
  split at h
  · cases h
  · split at h
    · rename_i hj; cases h; exact List.mem_of_getElem? hj
    · cases h

theorem toCompute_spec {N V : Type} (nb : Nat) (fs : Dir N V) (ss : List (Subset N))
    (hok : ∀ s ∈ ss, ∃ n, checkedName nb s = .ok n) :
    ∃ todo, toCompute nb fs ss = .ok todo ∧
      ∀ s, s ∈ todo ↔ s ∈ ss ∧ ∃ n, checkedName nb s = .ok n ∧ fs n = none := by
  induction ss with
  | nil => exact ⟨[], rfl, by simp⟩
  | cons s ss ih =>
    obtain ⟨todo, h1, h2⟩ := ih (fun s hs => hok s (by simp [hs]))
    obtain ⟨n, hn⟩ := hok s (by simp)
    refine ⟨if (fs n).isNone then s :: todo else todo, ?_, ?_⟩
    · simp only [toCompute, hn, h1]
    · intro s'
      cases hf : fs n with
      | none =>
        simp only [Option.isNone_none, if_true, List.mem_cons, h2]
        constructor
        · rintro (rfl | ⟨h3, h4⟩)
          · exact ⟨Or.inl rfl, n, hn, hf⟩
          · exact ⟨Or.inr h3, h4⟩
        · rintro ⟨rfl | h3, h4⟩
          · exact Or.inl rfl
          · exact Or.inr ⟨h3, h4⟩
      | some v =>
        simp only [Option.isNone_some, Bool.false_eq_true, if_false, List.mem_cons, h2]
        constructor
        · rintro ⟨h3, h4⟩; exact ⟨Or.inr h3, h4⟩
        · rintro ⟨rfl | h3, m, h4, h5⟩
          · rw [hn] at h4; cases h4; rw [hf] at h5; cases h5
          · exact ⟨h3, m, h4, h5⟩

/-- C26 for subsets that do not overlap: if a run is interrupted when the results of the subsets `done` are saved (and
nothing of the others), a run in mode "complete" (whatever the order) gives the same files as an uninterrupted
run.  Missing: an interruption while the files of a subset are written (`C26_crash_fails`) and overlapping
subsets (`C26_complete_overlap_fails`). -/
theorem C26_complete_partial {N V : Type} [DecidableEq N] (tools : List V → List V) (image : N → V) (nb : Nat) (ss : List (Subset N))
    (hd : DisjointSubsets ss) (hok : ∀ s ∈ ss, ∃ n, checkedName nb s = .ok n)
    (done : List (Subset N)) (hdone : ∀ s ∈ done, s ∈ ss) :
    ∃ todo, toCompute nb (writeAll (fun _ => none) (writesOf tools image done)) ss = .ok todo ∧
      ∀ writes, writes.Perm (writesOf tools image todo) →
        writeAll (writeAll (fun _ => none) (writesOf tools image done)) writes
          = writeAll (fun _ => none) (writesOf tools image ss) := by
  have hcons := writesOf_consistent tools image ss hd.1 (C26_disjoint tools image ss hd)
  have hsub : ∀ l : List (Subset N), (∀ s ∈ l, s ∈ ss) → ∀ x, x ∈ writesOf tools image l → x ∈ writesOf tools image ss := by
    intro l hl x hx
    obtain ⟨s, hs, h⟩ := List.mem_flatMap.1 hx
    exact List.mem_flatMap.2 ⟨s, hl s hs, h⟩
  have hcd : ∀ n v v', (n, v) ∈ writesOf tools image done → (n, v') ∈ writesOf tools image done → v = v' :=
    fun n v v' h h' => hcons n v v' (hsub done hdone _ h) (hsub done hdone _ h')
  obtain ⟨todo, h1, h2⟩ := toCompute_spec nb (writeAll (fun _ => none) (writesOf tools image done)) ss hok
  refine ⟨todo, h1, ?_⟩
  intro writes hw
  have e : writeAll (writeAll (fun _ => none) (writesOf tools image done)) writes
      = writeAll (fun _ => none) (writesOf tools image done ++ writes) := by
    unfold writeAll; rw [List.foldl_append]
  rw [e]
  symm
  apply writeAll_ext _ _ _ hcons
  intro x
  rw [List.mem_append]
  constructor
  · intro hx
    obtain ⟨s, hs, h⟩ := List.mem_flatMap.1 hx
    by_cases hds : s ∈ done
    · left; exact List.mem_flatMap.2 ⟨s, hds, h⟩
    · right
      rw [hw.mem_iff]
      refine List.mem_flatMap.2 ⟨s, ?_, h⟩
      rw [h2]
      obtain ⟨n, hn⟩ := hok s hs
      refine ⟨hs, n, hn, ?_⟩
      refine (writeAll_spec _ hcd _ n).2 ?_
      intro v hv
      obtain ⟨s', hs', h'⟩ := List.mem_flatMap.1 hv
      obtain ⟨i, hi, _⟩ := (mem_topologyResult _ _ _ (hd.1 s' (hdone s' hs')) _ _).1 h'
      have : s = s' := hd.2 s hs s' (hdone s' hs') n (item_mem _ _ _ hn) (List.mem_of_getElem? hi)
      subst this
      exact hds hs'
  · rintro (hx | hx)
    · exact hsub done hdone x hx
    · rw [hw.mem_iff] at hx
      exact hsub todo (fun s hs => ((h2 s).1 hs).1) x hx

/-- C26 for subsets of one image (the default): a run interrupted after any number of written files and completed
gives the same files as an uninterrupted run. -/
theorem C26_complete_one_by_one {N V : Type} [DecidableEq N] (tools : List V → List V)
    (htools : ∀ l, (tools l).length = l.length) (image : N → V) (names : List N) (hn : names.Nodup)
    (ss : List (Subset N)) (hss : ss = names.zipIdx.map (fun p => ⟨p.2, 1, 1, [p.1]⟩))
    (order : List (Subset N)) (ho : order.Perm ss) (p : Nat) :
    ∃ todo, toCompute ss.length (writeAll (fun _ => none) ((writesOf tools image order).take p)) ss = .ok todo ∧
      ∀ writes, writes.Perm (writesOf tools image todo) →
        writeAll (writeAll (fun _ => none) ((writesOf tools image order).take p)) writes
          = writeAll (fun _ => none) (writesOf tools image ss) := by
  have hone : ∀ s ∈ ss, ∃ n, s.names = [n] ∧ s.ni = 1 ∧ s.nj = 1 := by
    intro s hs
    rw [hss] at hs
    obtain ⟨q, _, rfl⟩ := List.mem_map.1 hs
    exact ⟨q.1, rfl, rfl, rfl⟩
  have htake : (writesOf tools image order).take p = writesOf tools image (order.take p) := by
    have : ∀ (l : List (Subset N)), (∀ s ∈ l, s ∈ ss) → ∀ p, (writesOf tools image l).take p
        = writesOf tools image (l.take p) := by
      intro l
      induction l with
      | nil => intro _ p; simp [writesOf]
      | cons s l ih =>
        intro hl p
        cases p with
        | zero => simp [writesOf]
        | succ p =>
          obtain ⟨n, hn1, _, _⟩ := hone s (hl s (by simp))
          have hlen : (topologyResult tools image s).length = 1 := by
            rw [topologyResult_eq _ _ _ (by rw [hn1]; simp), List.length_zip, htools, hn1]; simp
          obtain ⟨x, hx⟩ := List.length_eq_one_iff.1 hlen
          have ih' := ih (fun s hs => hl s (by simp [hs])) p
          unfold writesOf at ih' ⊢
          rw [List.flatMap_cons, List.take_succ_cons, List.flatMap_cons, hx, List.singleton_append,
            List.take_succ_cons, ih', List.singleton_append]
    exact this order (fun s hs => ho.mem_iff.1 hs) p
  rw [htake]
  apply C26_complete_partial tools image ss.length ss
  · refine ⟨?_, ?_⟩
    · intro s hs
      obtain ⟨n, h, _, _⟩ := hone s hs
      rw [h]; simp
    · intro s hs s' hs' n h h'
      rw [hss] at hs hs'
      obtain ⟨q, hq, rfl⟩ := List.mem_map.1 hs
      obtain ⟨q', hq', rfl⟩ := List.mem_map.1 hs'
      simp only [List.mem_singleton] at h h'
      have hqn : q.1 = q'.1 := h.symm.trans h'
      have e1 := List.mem_zipIdx_iff_getElem?.1 hq
      have e2 := List.mem_zipIdx_iff_getElem?.1 hq'
      obtain ⟨l1, m1⟩ := List.getElem?_eq_some_iff.1 e1
      obtain ⟨l2, m2⟩ := List.getElem?_eq_some_iff.1 e2
      have : q.2 = q'.2 := (List.Nodup.getElem_inj_iff hn).1 (by rw [m1, m2, hqn])
      rw [hqn, this]
  · intro s hs
    obtain ⟨n, h, h1, h2⟩ := hone s hs
    refine ⟨n, ?_⟩
    unfold checkedName
    rw [h, h1, h2]
    unfold nameIndex indMiddle
    split
    · rfl
    · split
      · rfl
      · split <;> rfl
  · intro s hs
    exact ho.mem_iff.1 (List.mem_of_mem_take hs)

example : ([0, 1, 2] : List Nat).Nodup := by decide

/-- C26 (the code violates the property): a result without image cannot be saved (the message after the loop uses a variable of the
loop); a result with at least one image is saved. -/
theorem C26_empty_fails {N V : Type} [DecidableEq N] (fs : Dir N V) :
    PreprocSave.save fs ([] : Dict N V) = .error .unboundLocalError ∧
    ∀ d : Dict N V, d ≠ [] → PreprocSave.save fs d = .ok (writeAll fs d) := by
  refine ⟨rfl, ?_⟩
  intro d hd
  cases d with
  | nil => exact absurd rfl hd
  | cons a d => rfl

/-- C26 fails for an interruption while the files of a subset are written: one subset of 3 images among two subsets
that do not overlap, crash after two files: the completed run writes the files of the second subset only. -/
theorem C26_crash_fails :
    (toCompute 2 (writeAll (fun _ => none) ((writesOf (fun l => l) valuesWitness
      [⟨0, 3, 1, [0, 1, 2]⟩, ⟨1, 3, 1, [3, 4, 5]⟩]).take 2))
      ([⟨0, 3, 1, [0, 1, 2]⟩, ⟨1, 3, 1, [3, 4, 5]⟩] : List (Subset Nat))).map (fun l => l.map (·.names))
      = .ok [[3, 4, 5]] ∧
    writeAll (fun _ => none) ((writesOf (fun l => l) valuesWitness
      [⟨0, 3, 1, [0, 1, 2]⟩, ⟨1, 3, 1, [3, 4, 5]⟩]).take 2) 2 = none := by decide

/-- Windows `i:i+3` of five images. -/
def windowsOfThree : List (Subset Nat) := [⟨0, 3, 1, [0, 1, 2]⟩, ⟨1, 3, 1, [1, 2, 3]⟩, ⟨2, 3, 1, [2, 3, 4]⟩]

/-- C26 fails for overlapping subsets also when completing: interrupted after the first subset is saved, the run in mode
"complete" does not compute the second subset (its middle image has been written with the first subset). -/
theorem C26_complete_overlap_fails :
    (toCompute 3 (writeAll (fun _ => none) (writesOf subtractMin valuesWitness (windowsOfThree.take 1)))
      windowsOfThree).map (fun l => l.map (·.ind)) = .ok [2] := by decide

/-! ## C27: sliding windows -/

/-- The numbers of the images of the window `k` of a sliding series: `ni` values of the first index starting from `k`,
`nj` images for each. -/
def windowImages (ni nj k : Nat) : List Nat := (List.range (ni * nj)).map (fun j => k * nj + j)

/-- The numbers of the images saved for window `k` among `nb` windows. -/
def savedImages {V : Type} (tools : List V → List V) (image : Nat → V) (ni nj nb k : Nat) : List Nat :=
  Dict.keys (calcul tools ni nj k nb (windowImages ni nj k) ((windowImages ni nj k).map image))

theorem pySlice_length {β γ : Type} (l : List β) (l' : List γ) (h : l.length = l'.length) (s : Option Int × Option Int) :
    (pySlice l s).length = (pySlice l' s).length := by
  unfold pySlice; simp [h]

theorem pySlice_sublist {β : Type} (l : List β) (s : Option Int × Option Int) : (pySlice l s).Sublist l := by
  unfold pySlice
  exact (List.drop_sublist _ _).trans (List.take_sublist _ _)

theorem windowImages_nodup (ni nj k : Nat) : (windowImages ni nj k).Nodup := by
  unfold windowImages
  apply List.Nodup.map _ List.nodup_range
  intro a b h
  simp only at h; omega

theorem savedImages_eq {V : Type} (tools : List V → List V) (htools : ∀ l, (tools l).length = l.length)
    (image : Nat → V) (ni nj nb k : Nat) :
    savedImages tools image ni nj nb k = pySlice (windowImages ni nj k) (saveSlice ni nj k nb) := by
  unfold savedImages calcul makeDict
  simp only
  have hl : (pySlice (windowImages ni nj k) (saveSlice ni nj k nb)).length
      = (pySlice (tools ((windowImages ni nj k).map image)) (saveSlice ni nj k nb)).length := by
    apply pySlice_length; rw [htools]; simp
  have hnd := (windowImages_nodup ni nj k).sublist (pySlice_sublist _ (saveSlice ni nj k nb))
  rw [foldl_set_new _ [] (by simpa using zip_keys_nodup _ _ hnd)]
  unfold Dict.keys
  rw [List.nil_append, List.map_fst_zip (by omega)]

/-- The bounds of the images saved for window `k`. -/
theorem mem_saved (ni nj nb k : Nat) (a b : Nat) (s : Option Int × Option Int)
    (ha : (s.1.map (clampBound (ni * nj))).getD 0 = a) (hb : (s.2.map (clampBound (ni * nj))).getD (ni * nj) = b)
    (hle : b ≤ ni * nj) (p : Nat) :
    p ∈ pySlice (windowImages ni nj k) s ↔ k * nj + a ≤ p ∧ p < k * nj + b := by
  unfold pySlice
  have hlen : (windowImages ni nj k).length = ni * nj := by simp [windowImages]
  simp only [hlen, ha, hb]
  rw [List.mem_iff_getElem?]
  constructor
  · rintro ⟨i, hi⟩
    rw [List.getElem?_drop] at hi
    obtain ⟨h1, h2⟩ := List.getElem?_eq_some_iff.1 hi
    rw [List.length_take, hlen] at h1
    rw [List.getElem_take] at h2
    simp only [windowImages, List.getElem_map, List.getElem_range] at h2
    omega
  · rintro ⟨h1, h2⟩
    refine ⟨p - k * nj - a, ?_⟩
    rw [List.getElem?_drop, List.getElem?_take_of_lt (by omega), List.getElem?_eq_getElem (by rw [hlen]; omega)]
    simp only [windowImages, List.getElem_map, List.getElem_range]
    congr 1; omega

/-- The images saved for window `k` among `nb ≥ 2`, when the middle is given by its first and last images. -/
theorem saved_iff {V : Type} (tools : List V → List V) (htools : ∀ l, (tools l).length = l.length)
    (image : Nat → V) (ni nj nb k a b : Nat) (hnb : 2 ≤ nb) (hm : indMiddle ni nj = ((a : Int), (b : Int)))
    (hab : a ≤ b) (hb : b ≤ ni * nj) (p : Nat) :
    p ∈ savedImages tools image ni nj nb k ↔
      (k = 0 → p < b) ∧ (k ≠ 0 → k * nj + a ≤ p) ∧
      (k + 1 = nb → p < k * nj + ni * nj) ∧ (k ≠ 0 → k + 1 ≠ nb → p < k * nj + b) := by
  rw [savedImages_eq tools htools]
  have hcl : ∀ x : Nat, x ≤ ni * nj → clampBound (ni * nj) (x : Int) = x := by
    intro x hx; unfold clampBound; rw [if_neg (by omega)]; omega
  by_cases h0 : k = 0
  · have e : saveSlice ni nj k nb = (some 0, some (b : Int)) := by
      unfold saveSlice; rw [hm]; simp only
      rw [if_neg (by omega), if_pos h0]
    rw [e, mem_saved ni nj nb k 0 b _ (by simpa using hcl 0 (by omega)) (by simpa using hcl b hb) hb]
    subst h0
    constructor
    · rintro ⟨h1, h2⟩; refine ⟨fun _ => by omega, fun h => absurd rfl h, fun h => by omega, fun h => absurd rfl h⟩
    · rintro ⟨h1, _⟩; have := h1 rfl; omega
  · by_cases hl : k + 1 = nb
    · have e : saveSlice ni nj k nb = (some (a : Int), none) := by
        unfold saveSlice; rw [hm]; simp only
        rw [if_neg (by omega), if_neg h0, if_pos (by omega)]
      rw [e, mem_saved ni nj nb k a (ni * nj) _ (by simpa using hcl a (by omega)) rfl (Nat.le_refl _)]
      constructor
      · rintro ⟨h1, h2⟩; exact ⟨fun h => absurd h h0, fun _ => h1, fun _ => h2, fun _ h => absurd hl h⟩
      · rintro ⟨_, h1, h2, _⟩; exact ⟨h1 h0, h2 hl⟩
    · have e : saveSlice ni nj k nb = (some (a : Int), some (b : Int)) := by
        unfold saveSlice; rw [hm]; simp only
        rw [if_neg (by omega), if_neg h0, if_neg (by omega)]
      rw [e, mem_saved ni nj nb k a b _ (by simpa using hcl a (by omega)) (by simpa using hcl b hb) hb]
      constructor
      · rintro ⟨h1, h2⟩; exact ⟨fun h => absurd h h0, fun _ => h1, fun h => absurd h hl, fun _ _ => h2⟩
      · rintro ⟨_, h1, _, h2⟩; exact ⟨h1 h0, h2 h0 hl⟩

/-- C27 for windows with an odd number of values of the first index, or with one image per value: each image of the
series is saved for exactly one window.  Missing for the full property: even windows with several images per value
(`C27_even_fails`). -/
theorem C27_partial {V : Type} (tools : List V → List V) (htools : ∀ l, (tools l).length = l.length) (image : Nat → V)
    (ni nj nb : Nat) (hi : 1 ≤ ni) (hj : 1 ≤ nj) (hnb : 1 ≤ nb) (hodd : ni % 2 = 1 ∨ nj = 1) (p : Nat)
    (hp : p < (nb - 1 + ni) * nj) :
    ∃ k, k < nb ∧ p ∈ savedImages tools image ni nj nb k ∧
      ∀ k', k' < nb → p ∈ savedImages tools image ni nj nb k' → k' = k := by
  by_cases h1 : nb = 1
  · subst h1
    refine ⟨0, by omega, ?_, fun k' hk' _ => by omega⟩
    rw [savedImages_eq tools htools]
    have e : saveSlice ni nj 0 1 = (none, none) := by unfold saveSlice; simp
    rw [e, pySlice_all]
    unfold windowImages
    rw [List.mem_map]
    refine ⟨p, ?_, by omega⟩
    rw [List.mem_range]
    simpa using hp
  · -- the middle is the set of images of the value number `m`
    obtain ⟨m, hm, hmi⟩ : ∃ m, indMiddle ni nj = (((m * nj : Nat) : Int), (((m + 1) * nj : Nat) : Int)) ∧ m + 1 ≤ ni := by
      rcases Nat.mod_two_eq_zero_or_one ni with hev | hod
      · have hj1 : nj = 1 := by
          rcases hodd with h | h
          · omega
          · exact h
        subst hj1
        refine ⟨ni / 2 - 1, ?_, by omega⟩
        unfold indMiddle
        simp only [show (ni : Int) % 2 = 0 by omega, if_true]
        congr 1
        · push_cast; omega
        · push_cast; omega
      · refine ⟨ni / 2, ?_, by omega⟩
        unfold indMiddle
        simp only [show ¬ (ni : Int) % 2 = 0 by omega, if_false]
        have e1 : ((ni : Int) + 1) / 2 = ni / 2 + 1 := by omega
        rw [e1]
        congr 1
    have hle : (m + 1) * nj ≤ ni * nj := Nat.mul_le_mul_right _ hmi
    have key := fun k => saved_iff tools htools image ni nj nb k (m * nj) ((m + 1) * nj) (by omega) hm
      (Nat.mul_le_mul_right _ (by omega)) hle p
    -- in terms of the value `q = p / nj` of the first index
    have hq : ∀ c, (c * nj ≤ p ↔ c ≤ p / nj) := fun c => (Nat.le_div_iff_mul_le (by omega)).symm
    have hq' : ∀ c, (p < c * nj ↔ p / nj < c) := fun c => (Nat.div_lt_iff_lt_mul (by omega)).symm
    have key' : ∀ k, p ∈ savedImages tools image ni nj nb k ↔
        (k = 0 → p / nj < m + 1) ∧ (k ≠ 0 → k + m ≤ p / nj) ∧
        (k + 1 = nb → p / nj < k + ni) ∧ (k ≠ 0 → k + 1 ≠ nb → p / nj < k + (m + 1)) := by
      intro k
      rw [key k, ← Nat.add_mul, ← Nat.add_mul, ← Nat.add_mul, hq, hq', hq', hq']
    have hpq : p / nj < nb - 1 + ni := (hq' _).1 hp
    generalize p / nj = q at key' hpq
    by_cases hA : q < m + 1
    · refine ⟨0, by omega, ?_, ?_⟩
      · rw [key']
        refine ⟨fun _ => hA, fun h => absurd rfl h, fun h => by omega, fun h => absurd rfl h⟩
      · intro k' _ hk'
        rw [key'] at hk'
        by_contra hne
        have := hk'.2.1 hne
        omega
    · by_cases hB : q < nb - 1 + m
      · refine ⟨q - m, by omega, ?_, ?_⟩
        · rw [key']
          refine ⟨fun h => by omega, fun _ => by omega, fun h => by omega, fun _ _ => by omega⟩
        · intro k' hk'b hk'
          rw [key'] at hk'
          obtain ⟨a1, a2, a3, a4⟩ := hk'
          by_cases h0 : k' = 0
          · have := a1 h0; omega
          · have := a2 h0
            by_cases hl : k' + 1 = nb
            · omega
            · have := a4 h0 hl; omega
      · refine ⟨nb - 1, by omega, ?_, ?_⟩
        · rw [key']
          refine ⟨fun h => by omega, fun _ => by omega, fun h => by omega, fun _ h => by omega⟩
        · intro k' hk'b hk'
          rw [key'] at hk'
          obtain ⟨a1, a2, a3, a4⟩ := hk'
          by_cases h0 : k' = 0
          · have := a1 h0; omega
          · by_cases hl : k' + 1 = nb
            · omega
            · have := a4 h0 hl; omega

example : savedImages (fun l => l) (fun n => n) 3 2 4 0 = [0, 1, 2, 3] ∧
    savedImages (fun l => l) (fun n => n) 3 2 4 1 = [4, 5] ∧
    savedImages (fun l => l) (fun n => n) 3 2 4 2 = [6, 7] ∧
    savedImages (fun l => l) (fun n => n) 3 2 4 3 = [8, 9, 10, 11] := by decide

/-- C27 fails for every even window with several images per value of the first index, as soon as there are two
windows: the image number `ni / 2 * nj` is saved for no window. -/
theorem C27_even_fails {V : Type} (tools : List V → List V) (htools : ∀ l, (tools l).length = l.length)
    (image : Nat → V) (m nj nb : Nat) (hm : 1 ≤ m) (hj : 2 ≤ nj) (hnb : 2 ≤ nb) :
    m * nj < (nb - 1 + 2 * m) * nj ∧ ∀ k, k < nb → m * nj ∉ savedImages tools image (2 * m) nj nb k := by
  have hpos : 1 ≤ m * nj := Nat.mul_pos hm (by omega)
  have hmid : indMiddle ((2 * m : Nat) : Int) nj = (((m * nj - 1 : Nat) : Int), ((m * nj : Nat) : Int)) := by
    unfold indMiddle
    have e0 : ((2 * m : Nat) : Int) / 2 = m := by omega
    have e1 : (((2 * m : Nat) : Int) + 1) / 2 = m := by omega
    have e2 : ((2 * m : Nat) : Int) % 2 = 0 := by omega
    simp only [e0, e1, e2, if_true]
    congr 1
    push_cast [hpos]
    rfl
  have h2m : 2 * m * nj = m * nj + m * nj := by ring
  constructor
  · exact Nat.mul_lt_mul_of_pos_right (by omega) (by omega)
  · intro k hk hmem
    rw [saved_iff tools htools image (2 * m) nj nb k (m * nj - 1) (m * nj) hnb hmid (by omega) (by omega)] at hmem
    obtain ⟨a1, a2, a3, a4⟩ := hmem
    by_cases h0 : k = 0
    · have := a1 h0; omega
    · have h3 := a2 h0
      have : nj ≤ k * nj := Nat.le_mul_of_pos_left _ (by omega)
      omega

/-- C27 in the topology: the index and the number of series are not given, so each image is saved for each window that
contains it (here, image 1 for both windows). -/
theorem C27_topology_fails :
    (windowsOfTwo.map (fun s => Dict.keys (topologyResult (fun l => l) valuesWitness s))) = [[0, 1], [1, 2]] := by decide

end Verif
