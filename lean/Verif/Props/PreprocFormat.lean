import Verif.Model.PreprocFormat
import Verif.Props.PreprocSave
import Verif.Props.Names

/-!
# C145: the preprocessed images are saved in the format which is asked, and the mode "complete" finds them
-/

namespace Verif
open Verif.Names Verif.PreprocSave Verif.PreprocFormat

/-! ## Specification -/

/-- No save raises. -/
def NeverRefuses {V : Type} (W : Writer V) : Prop := ∀ n v e, W.fails n v e = none

/-- The name has the extension `ext` (after something which is not only dots). -/
def HasExtension (n ext : List Char) : Prop :=
  ∃ root : List Char, n = root ++ '.' :: ext ∧ (∃ c ∈ root, c ≠ '.') ∧ '.' ∉ ext

/-- The directory `fs'` is `fs` with the files of `l` (given by their names and contents), and no other change. -/
def Adds {V : Type} (fs fs' : List Char → Option V) (l : List (List Char × V)) : Prop :=
  (∀ n v, (n, v) ∈ l → fs' n = some v) ∧ ∀ n, (∀ v, (n, v) ∉ l) → fs' n = fs n

/-- The directory after `k` computations in mode "complete". -/
def afterRuns {V : Type} (W : Writer V) (fmt : List Char) (tools : List V → List V) (image : List Char → V) (nb : Nat)
    (ss : List (Subset (List Char))) (fs : Dir (List Char) (File V)) : Nat → Dir (List Char) (File V)
  | 0 => fs
  | k + 1 => match complete W fmt tools image nb ss (afterRuns W fmt tools image nb ss fs k) with
    | .ok r => r.1
    | .error _ => afterRuns W fmt tools image nb ss fs k

/-! ## Lemmas -/

theorem fmt_write_spec {V : Type} (l : List (List Char × V)) (fs : Dir (List Char) V) (hl : (l.map Prod.fst).Nodup) :
    Adds fs (writeAll fs l) l := by
  induction l generalizing fs with
  | nil => exact ⟨by simp, fun n _ => rfl⟩
  | cons a l ih =>
    rw [List.map_cons, List.nodup_cons] at hl
    obtain ⟨h1, h2⟩ := ih (Dir.write fs a) hl.2
    refine ⟨?_, ?_⟩
    · intro n v hm
      rcases List.mem_cons.1 hm with e | hm
      · subst e
        have := h2 n (fun v' hv' => hl.1 (List.mem_map.2 ⟨(n, v'), hv', rfl⟩))
        show writeAll (Dir.write fs (n, v)) l n = _
        rw [this]
        simp [Dir.write]
      · exact h1 n v hm
    · intro n hn
      show writeAll (Dir.write fs a) l n = _
      rw [h2 n fun v hv => hn v (List.mem_cons_of_mem _ hv)]
      unfold Dir.write
      rw [if_neg]
      intro e
      exact hn a.2 (by rw [e]; exact List.mem_cons_self)

theorem fmt_write_none {V : Type} (l : List (List Char × V)) (fs : Dir (List Char) V) (n : List Char) :
    writeAll fs l n = none ↔ fs n = none ∧ ∀ v, (n, v) ∉ l := by
  induction l generalizing fs with
  | nil => simp [writeAll]
  | cons a l ih =>
    show writeAll (Dir.write fs a) l n = none ↔ _
    rw [ih]
    unfold Dir.write
    by_cases e : n = a.1
    · rw [if_pos e]
      constructor
      · rintro ⟨h, _⟩; cases h
      · rintro ⟨_, h⟩
        exact absurd (by rw [e]; exact List.mem_cons_self) (h a.2)
    · rw [if_neg e]
      constructor
      · rintro ⟨h, h'⟩
        refine ⟨h, fun v hv => ?_⟩
        rcases List.mem_cons.1 hv with e' | hv
        · exact e (by rw [← e'])
        · exact h' v hv
      · rintro ⟨h, h'⟩
        exact ⟨h, fun v hv => h' v (List.mem_cons_of_mem _ hv)⟩

theorem fmt_saveLoop {V : Type} (W : Writer V) (hW : NeverRefuses W) (fmt : List Char) (d : Dict (List Char) V)
    (last : Option (List Char)) (fs : Dir (List Char) (File V)) :
    saveLoop W fmt last d fs =
      (writeAll fs (d.map fun kv => (place fmt kv.1, (⟨kv.2, encOf fmt⟩ : File V))),
        match (d.getLast?.map Prod.fst).or last with
        | some k => .ok k
        | none => .error .unboundLocalError) := by
  induction d generalizing last fs with
  | nil => rfl
  | cons a d ih =>
    obtain ⟨k, v⟩ := a
    unfold saveLoop
    rw [hW]
    simp only
    rw [ih, List.getLast?_cons]
    simp only [writeAll, List.map_cons, List.foldl_cons]
    congr 1
    cases hd : d.getLast? <;> simp

theorem fmt_saveSubsets {V : Type} (W : Writer V) (hW : NeverRefuses W) (fmt : List Char) (tools : List V → List V)
    (image : List Char → V) (ss : List (Subset (List Char))) (fs : Dir (List Char) (File V)) :
    (saveSubsets W fmt tools image ss fs).1 =
      writeAll fs (ss.flatMap fun s => (topologyResult tools image s).map
        fun kv => (place fmt kv.1, (⟨kv.2, encOf fmt⟩ : File V))) := by
  induction ss generalizing fs with
  | nil => rfl
  | cons s ss ih =>
    unfold saveSubsets
    simp only
    rw [ih]
    unfold PreprocFormat.save
    rw [fmt_saveLoop W hW]
    simp [writeAll, List.foldl_append]

theorem fmt_todo_spec {V : Type} (nb : Nat) (fmt : List Char) (fs : Dir (List Char) V) (ss : List (Subset (List Char)))
    (hok : ∀ s ∈ ss, ∃ n, checked nb fmt s = .ok n) :
    ∃ l, todo nb fmt fs ss = .ok l ∧
      (∀ s, s ∈ l ↔ s ∈ ss ∧ ∃ n, checked nb fmt s = .ok n ∧ fs n = none) ∧
      ((∀ s ∈ ss, ∀ n, checked nb fmt s = .ok n → fs n = none) → l = ss) := by
  induction ss with
  | nil => exact ⟨[], rfl, by simp, fun _ => rfl⟩
  | cons s ss ih =>
    obtain ⟨l, hl, hm, hall⟩ := ih fun s hs => hok s (List.mem_cons_of_mem _ hs)
    obtain ⟨n, hn⟩ := hok s List.mem_cons_self
    unfold todo
    rw [hn, hl]
    simp only
    cases hf : fs n with
    | none =>
      refine ⟨s :: l, by simp, ?_, ?_⟩
      · intro s'
        rw [List.mem_cons, List.mem_cons, hm]
        constructor
        · rintro (e | ⟨h, h'⟩)
          · subst e; exact ⟨Or.inl rfl, n, hn, hf⟩
          · exact ⟨Or.inr h, h'⟩
        · rintro ⟨e | h, h'⟩
          · exact Or.inl e
          · exact Or.inr ⟨h, h'⟩
      · intro h
        rw [hall fun s' hs' => h s' (List.mem_cons_of_mem _ hs')]
    | some v =>
      refine ⟨l, by simp, ?_, ?_⟩
      · intro s'
        rw [List.mem_cons, hm]
        constructor
        · rintro ⟨h, h'⟩; exact ⟨Or.inr h, h'⟩
        · rintro ⟨e | h, h'⟩
          · subst e
            obtain ⟨n', hn', hf'⟩ := h'
            rw [hn] at hn'; cases hn'
            rw [hf] at hf'; cases hf'
          · exact ⟨h, h'⟩
      · intro h
        have := h s List.mem_cons_self n hn
        rw [hf] at this; cases this

/-- The checked name is made from the name of an image of the subset. -/
theorem fmt_checked {nb : Nat} {fmt : List Char} {s : Subset (List Char)} {n : List Char}
    (h : checked nb fmt s = .ok n) :
    ∃ k ∈ s.names, n = if fmt = fmtImg then k else stem k ++ '.' :: fmt := by
  unfold checked namePreproc at h
  cases hi : item s.names (nameIndex s.ni s.nj s.ind nb) with
  | error e => rw [hi] at h; cases h
  | ok k =>
    rw [hi] at h
    refine ⟨k, item_mem _ _ _ hi, ?_⟩
    split at h
    · cases h
    · rename_i f hf
      cases hf
      split at h
      · rename_i h1
        cases h
        by_cases e : fmt = fmtImg
        · rw [if_pos e]
        · rw [if_neg e] at h1; cases h1
      · rename_i ext h1
        cases h
        by_cases e : fmt = fmtImg
        · rw [if_pos e] at h1; cases h1
        · rw [if_neg e] at h1; cases h1
          rw [if_neg e]; simp

theorem fmt_topologyResult_keys {V : Type} (tools : List V → List V) (image : List Char → V) (s : Subset (List Char))
    (hs : s.names.Nodup) (ht : ∀ l, (tools l).length = l.length) (k : List Char) :
    (∃ v, (k, v) ∈ topologyResult tools image s) ↔ k ∈ s.names := by
  constructor
  · rintro ⟨v, hv⟩
    obtain ⟨i, h, _⟩ := (mem_topologyResult tools image s hs k v).1 hv
    exact List.mem_of_getElem? h
  · intro hk
    obtain ⟨i, hi⟩ := List.mem_iff_getElem?.1 hk
    have hlt : i < s.names.length := (List.getElem?_eq_some_iff.1 hi).1
    have hlt' : i < (tools (s.names.map image)).length := by rw [ht, List.length_map]; exact hlt
    exact ⟨_, (mem_topologyResult tools image s hs k _).2 ⟨i, hi, List.getElem?_eq_getElem hlt'⟩⟩

/-! ## Saving one result -/

/-- C145: with the format "img", each image of the result is in the file of its name, encoded as its extension says; no
other file changes; the name of the last image is returned. -/
theorem C145_img {V : Type} (W : Writer V) (hW : NeverRefuses W) (d : List (List Char × V)) (hd : (d.map Prod.fst).Nodup)
    (fs : List Char → Option (File V)) :
    Adds fs (PreprocFormat.save W "img".toList d fs).1 (d.map fun kv => (kv.1, ⟨kv.2, .byName⟩)) ∧
    ∀ k v, d.getLast? = some (k, v) → (PreprocFormat.save W "img".toList d fs).2 = .ok k := by
  unfold PreprocFormat.save
  rw [fmt_saveLoop W hW]
  refine ⟨fmt_write_spec _ _ (by rw [List.map_map]; exact hd), ?_⟩
  intro k v h
  rw [h]; rfl

/-- C145: with the format "h5", if no two names of images differ only by their extensions, each image of the result is in an
HDF5 file with the extension ".h5"; no other file changes. -/
theorem C145_h5_partial {V : Type} (W : Writer V) (hW : NeverRefuses W) (d : List (List Char × V))
    (hd : (d.map fun kv => stem kv.1).Nodup) (fs : List Char → Option (File V)) :
    Adds fs (PreprocFormat.save W "h5".toList d fs).1
      (d.map fun kv => (stem kv.1 ++ ".h5".toList, ⟨kv.2, .h5⟩)) := by
  unfold PreprocFormat.save
  rw [fmt_saveLoop W hW]
  refine fmt_write_spec _ _ ?_
  rw [List.map_map]
  have : (d.map fun kv => stem kv.1).map (fun n => n ++ ['.', 'h', '5']) =
      d.map (Prod.fst ∘ fun kv => (place ['h', '5'] kv.1, (⟨kv.2, encOf ['h', '5']⟩ : File V))) := by
    rw [List.map_map]
    rfl
  show (d.map (Prod.fst ∘ fun kv => (place ['h', '5'] kv.1, (⟨kv.2, encOf ['h', '5']⟩ : File V)))).Nodup
  rw [← this]
  exact hd.map fun a b h => List.append_cancel_right h

/-- C145 is false: with the format "h5", of two images whose names differ only by the extension, only the last one is kept. -/
theorem C145_h5_overwrites_fails {V : Type} (W : Writer V) (hW : NeverRefuses W) (a b : List Char) (v w : V)
    (hab : stem a = stem b) (fs : List Char → Option (File V)) :
    ∀ n, (PreprocFormat.save W "h5".toList [(a, v), (b, w)] fs).1 n =
      if n = stem a ++ ".h5".toList then some ⟨w, .h5⟩ else fs n := by
  intro n
  unfold PreprocFormat.save
  rw [fmt_saveLoop W hW]
  show (if n = stem b ++ ['.', 'h', '5'] then some (⟨w, .h5⟩ : File V) else
    if n = stem a ++ ['.', 'h', '5'] then some (⟨v, .h5⟩ : File V) else fs n) = 
    if n = stem a ++ ['.', 'h', '5'] then some ⟨w, .h5⟩ else fs n
  rw [hab]
  by_cases e : n = stem b ++ ['.', 'h', '5']
  · rw [if_pos e, if_pos e]
  · rw [if_neg e, if_neg e, if_neg e]

/-- C145 is false: with the format "h5", the value returned (kept in the results of the topology) is the name of the original
image, a file which is not written. -/
theorem C145_h5_returned_fails {V : Type} (W : Writer V) (hW : NeverRefuses W) (d : List (List Char × V))
    (k : List Char) (v : V) (hk : d.getLast? = some (k, v)) (hext : ∀ kv ∈ d, k ≠ stem kv.1 ++ ".h5".toList)
    (fs : List Char → Option (File V)) (hfs : fs k = none) :
    (PreprocFormat.save W "h5".toList d fs).2 = .ok k ∧ (PreprocFormat.save W "h5".toList d fs).1 k = none := by
  unfold PreprocFormat.save
  rw [fmt_saveLoop W hW]
  refine ⟨by rw [hk]; rfl, ?_⟩
  rw [fmt_write_none]
  refine ⟨hfs, ?_⟩
  intro v' hv'
  obtain ⟨kv, hkv, e⟩ := List.mem_map.1 hv'
  exact hext kv hkv (congrArg Prod.fst e).symm

/-- C145: with any other format, each image is in the file of its own name, encoded in this format; no other file changes. -/
theorem C145_other {V : Type} (W : Writer V) (hW : NeverRefuses W) (fmt : List Char) (h1 : fmt ≠ "img".toList)
    (h2 : fmt ≠ "h5".toList) (d : List (List Char × V)) (hd : (d.map Prod.fst).Nodup)
    (fs : List Char → Option (File V)) :
    Adds fs (PreprocFormat.save W fmt d fs).1 (d.map fun kv => (kv.1, ⟨kv.2, .named fmt⟩)) ∧
    ∀ k v, d.getLast? = some (k, v) → (PreprocFormat.save W fmt d fs).2 = .ok k := by
  replace h1 : fmt ≠ fmtImg := h1
  replace h2 : fmt ≠ fmtH5 := h2
  have hp : ∀ k, place fmt k = k := fun k => by
    unfold place; rw [if_neg h1, if_neg h2]
  have he : encOf fmt = .named fmt := by
    unfold encOf; rw [if_neg h1, if_neg h2]
  unfold PreprocFormat.save
  rw [fmt_saveLoop W hW]
  simp only [hp, he]
  refine ⟨fmt_write_spec _ _ (by rw [List.map_map]; exact hd), ?_⟩
  intro k v h
  rw [h]; rfl

/-- C145: a save which raises has written the images before the one which is refused, each at its place, and no other. -/
theorem C145_refused {V : Type} (W : Writer V) (fmt : List Char) (d1 d2 : List (List Char × V)) (k : List Char) (v : V)
    (err : PyErr) (fs : List Char → Option (File V))
    (h1 : ∀ kv ∈ d1, W.fails (place fmt kv.1) kv.2 (encOf fmt) = none)
    (hk : W.fails (place fmt k) v (encOf fmt) = some err) :
    (PreprocFormat.save W fmt (d1 ++ (k, v) :: d2) fs).2 = .error err ∧
    ((d1.map fun kv => place fmt kv.1).Nodup →
      Adds fs (PreprocFormat.save W fmt (d1 ++ (k, v) :: d2) fs).1
        (d1.map fun kv => (place fmt kv.1, ⟨kv.2, encOf fmt⟩))) := by
  have key : ∀ last, saveLoop W fmt last (d1 ++ (k, v) :: d2) fs =
      (writeAll fs (d1.map fun kv => (place fmt kv.1, (⟨kv.2, encOf fmt⟩ : File V))), .error err) := by
    induction d1 generalizing fs with
    | nil =>
      intro last
      simp only [List.nil_append]
      unfold saveLoop
      rw [hk]; rfl
    | cons a d1 ih =>
      intro last
      obtain ⟨k', v'⟩ := a
      simp only [List.cons_append]
      unfold saveLoop
      rw [h1 (k', v') List.mem_cons_self]
      simp only
      rw [ih _ fun kv hkv => h1 kv (List.mem_cons_of_mem _ hkv)]
      rfl
  unfold PreprocFormat.save
  rw [key]
  refine ⟨rfl, fun hn => fmt_write_spec _ _ ?_⟩
  rw [List.map_map]; exact hn

/-- C145 is false for the documented format "hdf5": it is given as it is to the function which saves images in the formats
of PIL; if this format is not known there, every result is lost: each save raises and the directory does not change. -/
theorem C145_hdf5_fails {V : Type} (W : Writer V) (err : PyErr)
    (hW : ∀ n v, W.fails n v (.named "hdf5".toList) = some err) (d : List (List Char × V)) (hd : d ≠ [])
    (fs : List Char → Option (File V)) :
    PreprocFormat.save W "hdf5".toList d fs = (fs, .error err) := by
  obtain ⟨⟨k, v⟩, d', rfl⟩ := List.exists_cons_of_ne_nil hd
  have he : encOf "hdf5".toList = .named "hdf5".toList := by decide +kernel
  unfold PreprocFormat.save saveLoop
  rw [he, hW]

/-! ## Saving the results of several subsets -/

theorem fmt_saveLoop_mono {V : Type} (W : Writer V) (fmt : List Char) (d : Dict (List Char) V) (last : Option (List Char))
    (fs : Dir (List Char) (File V)) (n : List Char) (h : fs n ≠ none) : (saveLoop W fmt last d fs).1 n ≠ none := by
  induction d generalizing last fs with
  | nil => exact h
  | cons a d ih =>
    obtain ⟨k, v⟩ := a
    unfold saveLoop
    cases W.fails (place fmt k) v (encOf fmt) with
    | some e => exact h
    | none =>
      refine ih _ _ ?_
      unfold Dir.write
      split
      · simp
      · exact h

theorem fmt_saveLoop_from {V : Type} (W : Writer V) (fmt : List Char) (d : Dict (List Char) V) (last : Option (List Char))
    (fs : Dir (List Char) (File V)) (n : List Char) (f : File V) (h : (saveLoop W fmt last d fs).1 n = some f) :
    fs n = some f ∨ ∃ k v, (k, v) ∈ d ∧ n = place fmt k ∧ f = ⟨v, encOf fmt⟩ := by
  induction d generalizing last fs with
  | nil => exact Or.inl h
  | cons a d ih =>
    obtain ⟨k, v⟩ := a
    unfold saveLoop at h
    cases hf : W.fails (place fmt k) v (encOf fmt) with
    | some e => rw [hf] at h; exact Or.inl h
    | none =>
      rw [hf] at h
      rcases ih _ _ h with h' | ⟨k', v', hm, hn, he⟩
      · unfold Dir.write at h'
        split at h'
        · rename_i hn
          refine Or.inr ⟨k, v, List.mem_cons_self, hn, ?_⟩
          cases h'; rfl
        · exact Or.inl h'
      · exact Or.inr ⟨k', v', List.mem_cons_of_mem _ hm, hn, he⟩

theorem fmt_saveLoop_all {V : Type} (W : Writer V) (fmt : List Char) (d : Dict (List Char) V) (last : Option (List Char))
    (fs : Dir (List Char) (File V)) (hd : ∀ kv ∈ d, W.fails (place fmt kv.1) kv.2 (encOf fmt) = none)
    (k : List Char) (v : V) (hk : (k, v) ∈ d) : (saveLoop W fmt last d fs).1 (place fmt k) ≠ none := by
  induction d generalizing last fs with
  | nil => cases hk
  | cons a d ih =>
    obtain ⟨k', v'⟩ := a
    unfold saveLoop
    rw [hd (k', v') List.mem_cons_self]
    simp only
    rcases List.mem_cons.1 hk with e | hk
    · cases e
      refine fmt_saveLoop_mono W fmt d _ _ _ ?_
      simp [Dir.write]
    · exact ih _ _ (fun kv hkv => hd kv (List.mem_cons_of_mem _ hkv)) hk

/-- C145: a save which raises does not prevent the other results from being saved: whatever happens to the other subsets, each
image of a subset none of whose images is refused has a file in the end. -/
theorem C145_other_subsets {V : Type} (W : Writer V) (fmt : List Char) (tools : List V → List V)
    (ht : ∀ l, (tools l).length = l.length) (image : List Char → V) (ss : List (Subset (List Char)))
    (fs : List Char → Option (File V)) (s : Subset (List Char)) (hs : s ∈ ss) (hn : s.names.Nodup)
    (hok : ∀ k v, SubsetContent tools image s k v → W.fails (place fmt k) v (encOf fmt) = none)
    (k : List Char) (hk : k ∈ s.names) : (saveSubsets W fmt tools image ss fs).1 (place fmt k) ≠ none := by
  have mono : ∀ (ss : List (Subset (List Char))) (fs : Dir (List Char) (File V)) (n : List Char), fs n ≠ none →
      (saveSubsets W fmt tools image ss fs).1 n ≠ none := by
    intro ss
    induction ss with
    | nil => intro fs n h; exact h
    | cons s ss ih =>
      intro fs n h
      unfold saveSubsets
      exact ih _ _ (fmt_saveLoop_mono W fmt _ _ _ _ h)
  induction ss generalizing fs with
  | nil => cases hs
  | cons s' ss ih =>
    unfold saveSubsets
    rcases List.mem_cons.1 hs with e | hs
    · subst e
      obtain ⟨v, hv⟩ := (fmt_topologyResult_keys tools image s hn ht k).2 hk
      refine mono _ _ _ (fmt_saveLoop_all W fmt _ none fs ?_ k v hv)
      rintro ⟨k', v'⟩ hkv
      exact hok k' v' ((mem_topologyResult tools image s hn k' v').1 hkv)
    · exact ih _ hs

/-- C145: in the end a file was there before, or it is the preprocessed image of a subset, at the place and in the encoding of
the format. -/
theorem C145_only_results {V : Type} (W : Writer V) (fmt : List Char) (tools : List V → List V) (image : List Char → V)
    (ss : List (Subset (List Char))) (hss : ∀ s ∈ ss, s.names.Nodup) (fs : List Char → Option (File V))
    (n : List Char) (f : File V) (h : (saveSubsets W fmt tools image ss fs).1 n = some f) :
    fs n = some f ∨ ∃ s ∈ ss, ∃ k v, SubsetContent tools image s k v ∧ n = place fmt k ∧ f = ⟨v, encOf fmt⟩ := by
  induction ss generalizing fs with
  | nil => exact Or.inl h
  | cons s ss ih =>
    unfold saveSubsets at h
    rcases ih (fun s' hs' => hss s' (List.mem_cons_of_mem _ hs')) _ h with h' | ⟨s', hs', r⟩
    · rcases fmt_saveLoop_from W fmt _ _ _ _ _ h' with h' | ⟨k, v, hm, hn, he⟩
      · exact Or.inl h'
      · exact Or.inr ⟨s, List.mem_cons_self, k, v,
          (mem_topologyResult tools image s (hss s List.mem_cons_self) k v).1 hm, hn, he⟩
    · exact Or.inr ⟨s', List.mem_cons_of_mem _ hs', r⟩

/-- C145: if no save raises, the results of the topology are the names of the last images of the subsets, in the order in
which they are saved. -/
theorem C145_results {V : Type} (W : Writer V) (hW : NeverRefuses W) (fmt : List Char) (tools : List V → List V)
    (ht : ∀ l, (tools l).length = l.length) (image : List Char → V) (ss : List (Subset (List Char)))
    (hss : ∀ s ∈ ss, s.names.Nodup ∧ s.names ≠ []) (fs : List Char → Option (File V)) :
    (saveSubsets W fmt tools image ss fs).2.map some = ss.map fun s => s.names.getLast? := by
  induction ss generalizing fs with
  | nil => rfl
  | cons s ss ih =>
    obtain ⟨hn, hne⟩ := hss s List.mem_cons_self
    have hlen : s.names.length = (tools (s.names.map image)).length := by rw [ht, List.length_map]
    have hlast : (topologyResult tools image s).getLast?.map Prod.fst = s.names.getLast? := by
      rw [topologyResult_eq _ _ _ hn, ← List.getLast?_map]
      rw [List.map_fst_zip hlen.le]
    obtain ⟨k, hk⟩ : ∃ k, s.names.getLast? = some k := by
      cases h : s.names.getLast? with
      | none => exact absurd (List.getLast?_eq_none_iff.1 h) hne
      | some k => exact ⟨k, rfl⟩
    unfold saveSubsets
    simp only [List.map_cons]
    rw [← ih (fun s' hs' => hss s' (List.mem_cons_of_mem _ hs'))
      (PreprocFormat.save W fmt (topologyResult tools image s) fs).1]
    have : (PreprocFormat.save W fmt (topologyResult tools image s) fs).2 = .ok k := by
      unfold PreprocFormat.save
      rw [fmt_saveLoop W hW, hlast, hk]
      rfl
    rw [this, hk]
    rfl

/-! ## The mode "complete" -/

/-- C145: after a computation in mode "complete" with the format "img", with the format "h5", or with a format which is the
extension of all the images, no subset remains to be computed, and a second computation changes nothing. -/
theorem C145_complete_partial {V : Type} (W : Writer V) (hW : NeverRefuses W) (fmt : List Char)
    (tools : List V → List V) (ht : ∀ l, (tools l).length = l.length) (image : List Char → V) (nb : Nat)
    (ss : List (Subset (List Char))) (hss : ∀ s ∈ ss, s.names.Nodup)
    (hfmt : fmt = "img".toList ∨ fmt = "h5".toList ∨ ∀ s ∈ ss, ∀ n ∈ s.names, HasExtension n fmt)
    (hok : ∀ s ∈ ss, ∃ n, checked nb fmt s = .ok n) (fs : List Char → Option (File V)) :
    ∃ fs' res, complete W fmt tools image nb ss fs = .ok (fs', res) ∧ todo nb fmt fs' ss = .ok [] ∧
      complete W fmt tools image nb ss fs' = .ok (fs', []) := by
  obtain ⟨l, hl, hm, _⟩ := fmt_todo_spec nb fmt fs ss hok
  have hplace : ∀ s ∈ ss, ∀ k ∈ s.names, (if fmt = fmtImg then k else stem k ++ '.' :: fmt) = place fmt k := by
    intro s hs k hk
    unfold place
    by_cases e1 : fmt = fmtImg
    · rw [if_pos e1, if_pos e1]
    · rw [if_neg e1, if_neg e1]
      by_cases e2 : fmt = fmtH5
      · rw [if_pos e2, e2]; rfl
      · rw [if_neg e2]
        rcases hfmt with h | h | h
        · exact absurd h e1
        · exact absurd h e2
        · obtain ⟨root, hr, hne, hdot⟩ := h s hs k hk
          rw [hr, (C46_stem root fmt hdot).1 hne]
  have hnone : todo nb fmt (saveSubsets W fmt tools image l fs).1 ss = .ok [] := by
    obtain ⟨l', hl', hm', _⟩ := fmt_todo_spec nb fmt (saveSubsets W fmt tools image l fs).1 ss hok
    rw [hl']
    congr 1
    rw [List.eq_nil_iff_forall_not_mem]
    intro s hs
    obtain ⟨hs, n, hn, hf⟩ := (hm' s).1 hs
    rw [fmt_saveSubsets W hW, fmt_write_none] at hf
    have hin : s ∈ l := (hm s).2 ⟨hs, n, hn, hf.1⟩
    obtain ⟨k, hk, e⟩ := fmt_checked hn
    rw [hplace s hs k hk] at e
    obtain ⟨v, hv⟩ := (fmt_topologyResult_keys tools image s (hss s hs) ht k).2 hk
    refine hf.2 ⟨v, encOf fmt⟩ (List.mem_flatMap.2 ⟨s, hin, List.mem_map.2 ⟨(k, v), hv, ?_⟩⟩)
    rw [e]
  refine ⟨(saveSubsets W fmt tools image l fs).1, (saveSubsets W fmt tools image l fs).2, ?_, hnone, ?_⟩
  · unfold complete; rw [hl]
  · unfold complete; rw [hnone]; rfl

/-- C145 is false for the other formats: if the images do not have the extension of the format, and no file has the name
with this extension, all the subsets are computed again by every new computation in mode "complete". -/
theorem C145_complete_fails {V : Type} (W : Writer V) (hW : NeverRefuses W) (fmt : List Char) (h1 : fmt ≠ "img".toList)
    (h2 : fmt ≠ "h5".toList) (tools : List V → List V) (image : List Char → V) (nb : Nat)
    (ss : List (Subset (List Char))) (hss : ∀ s ∈ ss, s.names.Nodup)
    (hok : ∀ s ∈ ss, ∃ n, checked nb fmt s = .ok n)
    (hext : ∀ s ∈ ss, ∀ n ∈ s.names, ∀ s' ∈ ss, stem n ++ '.' :: fmt ∉ s'.names)
    (fs : List Char → Option (File V)) (hfs : ∀ s ∈ ss, ∀ n ∈ s.names, fs (stem n ++ '.' :: fmt) = none) (k : Nat) :
    todo nb fmt (afterRuns W fmt tools image nb ss fs k) ss = .ok ss := by
  replace h1 : fmt ≠ fmtImg := h1
  replace h2 : fmt ≠ fmtH5 := h2
  have key : ∀ g : Dir (List Char) (File V), (∀ s ∈ ss, ∀ n ∈ s.names, g (stem n ++ '.' :: fmt) = none) →
      todo nb fmt g ss = .ok ss := by
    intro g hg
    obtain ⟨l, hl, _, hall⟩ := fmt_todo_spec nb fmt g ss hok
    rw [hl, hall]
    intro s hs n hn
    obtain ⟨k, hk, e⟩ := fmt_checked hn
    rw [if_neg h1] at e
    rw [e]; exact hg s hs k hk
  have inv : ∀ s ∈ ss, ∀ n ∈ s.names, afterRuns W fmt tools image nb ss fs k (stem n ++ '.' :: fmt) = none := by
    induction k with
    | zero => exact hfs
    | succ k ih =>
      intro s hs n hn
      unfold afterRuns complete
      rw [key _ ih]
      simp only
      rw [fmt_saveSubsets W hW, fmt_write_none]
      refine ⟨ih s hs n hn, ?_⟩
      intro v hv
      obtain ⟨s', hs', hv⟩ := List.mem_flatMap.1 hv
      obtain ⟨⟨k', v'⟩, hkv, e⟩ := List.mem_map.1 hv
      have e1 : place fmt k' = stem n ++ '.' :: fmt := congrArg Prod.fst e
      unfold place at e1
      rw [if_neg h1, if_neg h2] at e1
      obtain ⟨i, hi, _⟩ := (mem_topologyResult tools image s' (hss s' hs') k' v').1 hkv
      exact hext s hs n hn s' hs' (e1 ▸ List.mem_of_getElem? hi)
  exact key _ inv

/-! ## Examples -/

def exWriter : Writer Nat := ⟨fun _ _ e => if e = .named "hdf5".toList then some .valueError else none⟩
def exWriterAll : Writer Nat := ⟨fun _ _ _ => none⟩

example : NeverRefuses exWriterAll := fun _ _ _ => rfl

/-- Two subsets of two images. -/
def exFmtSubsets : List (Subset (List Char)) :=
  [⟨0, 2, 1, ["a.png".toList, "b.png".toList]⟩, ⟨1, 2, 1, ["b.png".toList, "c.png".toList]⟩]

example : (∀ s ∈ exFmtSubsets, s.names.Nodup) ∧ (∀ s ∈ exFmtSubsets, ∃ n, checked 2 "img".toList s = .ok n) ∧
    (∀ s ∈ exFmtSubsets, ∃ n, checked 2 "tiff".toList s = .ok n) := by
  refine ⟨by decide +kernel, ?_, ?_⟩
  · intro s hs
    simp only [exFmtSubsets, List.mem_cons, List.not_mem_nil, or_false] at hs
    rcases hs with rfl | rfl
    · exact ⟨"a.png".toList, by decide +kernel⟩
    · exact ⟨"c.png".toList, by decide +kernel⟩
  · intro s hs
    simp only [exFmtSubsets, List.mem_cons, List.not_mem_nil, or_false] at hs
    rcases hs with rfl | rfl
    · exact ⟨"a.tiff".toList, by decide +kernel⟩
    · exact ⟨"c.tiff".toList, by decide +kernel⟩

example : ∀ s ∈ exFmtSubsets, ∀ n ∈ s.names, ∀ s' ∈ exFmtSubsets, stem n ++ '.' :: "tiff".toList ∉ s'.names := by
  decide +kernel

example : HasExtension "a.png".toList "png".toList :=
  ⟨['a'], by decide +kernel, ⟨'a', by decide +kernel, by decide +kernel⟩, by decide +kernel⟩

example : stem "a.png".toList = stem "a.tif".toList := by decide +kernel

end Verif
