import Verif.Model.Together
import Verif.Props.WholeRun
import Verif.Props.WholeImages

/-!
# C144: several computations at the same time in the same directory
-/

namespace Verif
open Verif.Exec Verif.Spec Verif.TryWork Verif.PivGrid Verif.Mask Verif.ResultsFiles Verif.Distribution Verif.Complete Verif.WholeRun Verif.Together

namespace Together

theorem upTo_mem {ω : Type} {h : History ω} {t : Nat} {y : ω} (hy : y ∈ h.upTo t) : y ∈ h.map Prod.snd := by
  obtain ⟨e, he, rfl⟩ := List.mem_map.1 hy
  exact List.mem_map.2 ⟨e, List.mem_of_mem_take he, rfl⟩

theorem of_mem {ω : Type} {h : History ω} {i : Nat} {y : ω} (hy : y ∈ h.of i) : y ∈ h.map Prod.snd := by
  obtain ⟨e, he, rfl⟩ := List.mem_map.1 hy
  exact List.mem_map.2 ⟨e, (List.mem_filter.1 he).1, rfl⟩

theorem mem_of {ω : Type} {h : History ω} {i : Nat} {y : ω} (hy : (i, y) ∈ h) : y ∈ h.of i :=
  List.mem_map.2 ⟨(i, y), List.mem_filter.2 ⟨hy, by simp⟩, rfl⟩

theorem forall₂_right {α β : Type} {p : α → β → Prop} {as : List α} {bs : List β} (h : List.Forall₂ p as bs) {b : β} (hb : b ∈ bs) :
    ∃ a ∈ as, p a b := by
  induction h with
  | nil => cases hb
  | cons ha _ ih =>
    rcases List.mem_cons.1 hb with rfl | hb
    · exact ⟨_, List.mem_cons_self, ha⟩
    · obtain ⟨a, h4, h5⟩ := ih hb
      exact ⟨a, List.mem_cons_of_mem _ h4, h5⟩

theorem forall₂_left {α β : Type} {p : α → β → Prop} {as : List α} {bs : List β} (h : List.Forall₂ p as bs) {a : α} (ha : a ∈ as) :
    ∃ b ∈ bs, p a b := by
  induction h with
  | nil => cases ha
  | cons hb _ ih =>
    rcases List.mem_cons.1 ha with rfl | ha
    · exact ⟨_, List.mem_cons_self, hb⟩
    · obtain ⟨b, h4, h5⟩ := ih ha
      exact ⟨b, List.mem_cons_of_mem _ h4, h5⟩

/-! ## PIV -/

namespace Piv
open WholeRun
variable {F : Type}

/-- What one of the computations writes. -/
theorem does_writes {K : WholeRun.Computation F} {start stop step : Int} (hs : step ≠ 0)
    (hu : WholeRun.Usable K (pyRange start stop step)) {c : Launch} (hx : c.x.HasProcess) {dir : Nat → Files Txt (Result F)} {t0 : Nat}
    {l : List (Int × Result F)} (h : Piv.does K start stop step c dir t0 l) :
    (∀ y ∈ l, y.1 ∈ pyRange start stop step ∧ (c.m = .complete → dir t0 (K.nameOf y.1) = none) ∧ WholeRun.HasResult K y.1 y.2) ∧
    (c.ended = true → ∀ i ∈ pyRange start stop step, ∀ r, WholeRun.HasResult K i r →
      (i, r) ∈ l ∨ (c.m = .complete ∧ ∃ t, dir t (K.nameOf i) ≠ none)) := by
  obtain ⟨ps, h1, logs, h3, h2⟩ := h
  have hfl := WholeRun.parts_flatten hx (WholeRun.selection_step K _ _ _ (dir t0) c.m hs) h1
  have hnd := WholeRun.selection_nodup K start stop step (dir t0) c.m hu.nodup
  have hus : WholeRun.Usable K (K.selection start stop step (dir t0) c.m).indices :=
    hu.sub _ (fun i hi => ((WholeRun.selection_indices K _ _ _ (dir t0) c.m i).1 hi).1) hnd
  have hpart : ∀ q ∈ ps, ∀ e, WholeRun.Usable K (K.computed c.x c.m q e) := fun q hq e => by
    obtain ⟨a, b⟩ := WholeRun.part_sub hfl hnd q hq
    exact hus.sub _ (fun i hi => a i ((WholeRun.computed_sub K c.x c.m q e).subset hi)) (b.sublist (WholeRun.computed_sub K c.x c.m q e))
  constructor
  · rintro ⟨i, r⟩ hy
    obtain ⟨q, hq, hr⟩ := (h3.mem _).1 hy
    obtain ⟨log, hlog, rfl⟩ := List.mem_map.1 hq
    obtain ⟨is, his, t, -, hpl⟩ := forall₂_right h2 hlog
    have hb : WholeRun.Begun K (K.computed c.x c.m is (dir t)) log := by
      cases he : c.ended with
      | true => rw [he] at hpl; exact (WholeRun.process_done _ (hpart is his _) log hpl).begun
      | false => rw [he] at hpl; exact WholeRun.processKilled_begun _ (hpart is his _) log hpl
    obtain ⟨h4, h5⟩ := WholeRun.begun_sound (hpart is his _) hb i r hr
    have h6 := (WholeRun.part_sub hfl hnd is his).1 i ((WholeRun.computed_sub K c.x c.m is _).subset h4)
    obtain ⟨h7, h8⟩ := (WholeRun.selection_indices K start stop step (dir t0) c.m i).1 h6
    exact ⟨h7, h8, h5⟩
  · intro he i hi r hr
    by_cases hm : c.m = .complete → dir t0 (K.nameOf i) = none
    · have hsel := (WholeRun.selection_indices K start stop step (dir t0) c.m i).2 ⟨hi, hm⟩
      rw [← hfl, List.mem_flatten] at hsel
      obtain ⟨is, his, hi'⟩ := hsel
      obtain ⟨log, hlog, t, -, hpl⟩ := forall₂_left h2 his
      rw [he] at hpl
      rcases WholeRun.computed_all K c.x c.m is (dir t) i hi' with hc | ⟨hm', hc⟩
      · left
        rw [h3.mem]
        exact ⟨_, List.mem_map.2 ⟨log, hlog, rfl⟩,
          WholeRun.done_complete (hpart is his _) (WholeRun.process_done _ (hpart is his _) log hpl) i hc r hr⟩
      · exact Or.inr ⟨hm', t, hc⟩
    · right
      have hm1 : c.m = .complete := by by_contra h; exact hm (fun h' => absurd h' h)
      exact ⟨hm1, t0, fun h => hm (fun _ => h)⟩

theorem together_writes {K : WholeRun.Computation F} {start stop step : Int} (hs : step ≠ 0)
    (hu : WholeRun.Usable K (pyRange start stop step)) {cs : List Launch} (hx : ∀ c ∈ cs, c.x.HasProcess) {d d' : Files Txt (Result F)}
    {h : History (Int × Result F)} (ht : Piv.together K start stop step cs d h d') :
    ∀ y ∈ h.map Prod.snd, y.1 ∈ pyRange start stop step ∧ WholeRun.HasResult K y.1 y.2 := by
  intro y hy
  obtain ⟨⟨i, y⟩, he, rfl⟩ := List.mem_map.1 hy
  obtain ⟨h1, -, h2⟩ := ht
  have hlt : i < cs.length := h1 _ he
  have hi : cs[i]? = some cs[i] := List.getElem?_eq_getElem hlt
  obtain ⟨t0, -, h3⟩ := h2 i _ hi
  obtain ⟨a, -, b⟩ := (does_writes hs hu (hx _ (List.getElem_mem _)) h3).1 y (mem_of he)
  exact ⟨a, b⟩

end Piv

/-! ## Images -/

namespace Images
variable {V : Type}

theorem does_writes {K : WholeImages.Computation V} (hu : WholeImages.Usable K) {c : Launch} (hx : c.x.HasProcess)
    {dir : Nat → Files Txt V} {t0 : Nat} {l : List (Txt × V)} (h : Images.does K c dir t0 l) :
    (∀ y ∈ l, WholeImages.Asked K y.1 ∧ (c.m = .complete → dir t0 (K.resultName y.1) = none) ∧ WholeImages.HasResult K y.1 y.2) ∧
    (c.ended = true → ∀ k, WholeImages.Asked K k → ∀ v, WholeImages.HasResult K k v →
      (k, v) ∈ l ∨ (c.m = .complete ∧ ∃ t, dir t (K.resultName k) ≠ none)) := by
  obtain ⟨qs, h1, logs, h3, h2⟩ := h
  obtain ⟨qs', g1, g2, g3⟩ := WholeImages.queues_ok hu (dir t0) c.m c.x hx
  rw [h1] at g1
  cases g1
  constructor
  · rintro ⟨k, v⟩ hy
    obtain ⟨s, hs, hr⟩ := (h3.mem _).1 hy
    obtain ⟨log, hlog, rfl⟩ := List.mem_map.1 hs
    obtain ⟨q, hq, hpl⟩ := forall₂_right h2 hlog
    have hb : WholeImages.Begun K q log := by
      cases he : c.ended with
      | true => rw [he] at hpl; exact (WholeImages.process_done q (g2 q hq) log hpl).begun
      | false => rw [he] at hpl; exact WholeImages.processKilled_begun q (g2 q hq) log hpl
    obtain ⟨h4, h5⟩ := WholeImages.begun_sound (g2 q hq) hb k v hr
    obtain ⟨h6, h7⟩ := (g3 k).1 ⟨q, hq, h4⟩
    exact ⟨h6, h7, h5⟩
  · intro he k hk v hv
    by_cases hm : c.m = .complete → dir t0 (K.resultName k) = none
    · left
      obtain ⟨q, hq, hkq⟩ := (g3 k).2 ⟨hk, hm⟩
      obtain ⟨log, hlog, hpl⟩ := forall₂_left h2 hq
      rw [he] at hpl
      rw [h3.mem]
      exact ⟨_, List.mem_map.2 ⟨log, hlog, rfl⟩,
        WholeImages.done_complete (g2 q hq) (WholeImages.process_done q (g2 q hq) log hpl) k hkq v hv⟩
    · right
      have hm1 : c.m = .complete := by by_contra h; exact hm (fun h' => absurd h' h)
      exact ⟨hm1, t0, fun h => hm (fun _ => h)⟩

theorem together_writes {K : WholeImages.Computation V} (hu : WholeImages.Usable K) {cs : List Launch} (hx : ∀ c ∈ cs, c.x.HasProcess)
    {d d' : Files Txt V} {h : History (Txt × V)} (ht : Images.together K cs d h d') :
    ∀ y ∈ h.map Prod.snd, WholeImages.Asked K y.1 ∧ WholeImages.HasResult K y.1 y.2 := by
  intro y hy
  obtain ⟨⟨i, y⟩, he, rfl⟩ := List.mem_map.1 hy
  obtain ⟨h1, -, h2⟩ := ht
  have hlt : i < cs.length := h1 _ he
  have hi : cs[i]? = some cs[i] := List.getElem?_eq_getElem hlt
  obtain ⟨t0, -, h3⟩ := h2 i _ hi
  obtain ⟨a, -, b⟩ := (does_writes hu (hx _ (List.getElem_mem _)) h3).1 y (mem_of he)
  exact ⟨a, b⟩

end Images

end Together

section
variable {F V : Type}
open Together

/-- C144: at any time `t`, whatever the computations in progress, with any executors and modes, killed or not, the files of the couples
are their results, and the other files are the same as at the beginning. -/
theorem C144_piv_never_wrong (K : WholeRun.Computation F) (start stop step : Int) (hs : step ≠ 0)
    (hu : WholeRun.Usable K (pyRange start stop step)) (cs : List Launch) (hx : ∀ c ∈ cs, c.x.HasProcess) (d d' : Files Txt (Result F))
    (hc : WholeRun.Clean K (pyRange start stop step) d) (h : History (Int × Result F)) (ht : Piv.together K start stop step cs d h d')
    (t : Nat) :
    (∀ i ∈ pyRange start stop step, ∀ r, K.write d (h.upTo t) (K.nameOf i) = some r → WholeRun.HasResult K i r) ∧
    (∀ n, (∀ i ∈ pyRange start stop step, ∀ r, WholeRun.HasResult K i r → K.nameOf i ≠ n) → K.write d (h.upTo t) n = d n) := by
  have hw := Piv.together_writes hs hu hx ht
  obtain ⟨w1, w2⟩ := WholeRun.write_results hu (h.upTo t) (fun y hy => hw y (upTo_mem hy)) d
  constructor
  · intro i hi r hr
    by_cases hex : ∃ j q, (j, q) ∈ h.upTo t ∧ K.nameOf j = K.nameOf i
    · obtain ⟨j, q, hjq, hn⟩ := hex
      obtain ⟨a, b⟩ := hw _ (upTo_mem hjq)
      have := w1 j q hjq
      rw [hn, hr] at this
      cases this
      have := hu.differ j a i hi hn
      subst this
      exact b
    · rw [w2 _ (fun j q hjq hn => hex ⟨j, q, hjq, hn⟩)] at hr
      exact hc i hi r hr
  · intro n hn
    exact w2 n (fun j q hjq => hn j (hw _ (upTo_mem hjq)).1 q (hw _ (upTo_mem hjq)).2)

/-- C144: any number of computations of the same series at the same time in the same directory, with any executors, numbers of
processes, schedules and modes, some of them killed at any time: if one of them reaches its end, the directory has exactly the results
of the couples, and nothing else has changed. -/
theorem C144_piv (K : WholeRun.Computation F) (start stop step : Int) (hs : step ≠ 0)
    (hu : WholeRun.Usable K (pyRange start stop step)) (cs : List Launch) (hx : ∀ c ∈ cs, c.x.HasProcess) (d d' : Files Txt (Result F))
    (hc : WholeRun.Clean K (pyRange start stop step) d) (h : History (Int × Result F)) (ht : Piv.together K start stop step cs d h d')
    (he : ∃ c ∈ cs, c.ended = true) : WholeRun.HasResults K (pyRange start stop step) d d' := by
  have hw := Piv.together_writes hs hu hx ht
  have hall : h.upTo h.length = h.map Prod.snd := by simp [History.upTo]
  have nw := C144_piv_never_wrong K start stop step hs hu cs hx d d' hc h ht
  obtain ⟨-, rfl, h2⟩ := ht
  obtain ⟨w1, w2⟩ := WholeRun.write_results hu _ hw d
  constructor
  · intro i hi r hr
    obtain ⟨c, hcs, hend⟩ := he
    obtain ⟨k, hk⟩ := List.mem_iff_getElem?.1 hcs
    obtain ⟨t0, -, h3⟩ := h2 k c hk
    rcases (Piv.does_writes hs hu (hx c hcs) h3).2 hend i hi r hr with h4 | ⟨-, t, h4⟩
    · exact w1 i r (of_mem h4)
    · by_cases hex : ∃ j q, (j, q) ∈ h.map Prod.snd ∧ K.nameOf j = K.nameOf i
      · obtain ⟨j, q, hjq, hn⟩ := hex
        obtain ⟨a, b⟩ := hw _ hjq
        have := hu.differ j a i hi hn
        subst this
        have h5 := b.1
        have h6 := hr.1
        simp only at h5 h6
        rw [h5] at h6
        cases h6
        exact w1 j r hjq
      · have key : ∀ s, K.write d (h.upTo s) (K.nameOf i) = d (K.nameOf i) := fun s =>
          (WholeRun.write_results hu (h.upTo s) (fun y hy => hw y (upTo_mem hy)) d).2 _
            (fun j q hjq hn => hex ⟨j, q, upTo_mem hjq, hn⟩)
        simp only [key] at h4
        rw [w2 _ (fun j q hjq hn => hex ⟨j, q, hjq, hn⟩)]
        cases hd : d (K.nameOf i) with
        | none => exact absurd hd h4
        | some r' =>
          have := (hc i hi r' hd).1
          rw [hr.1] at this
          cases this
          rfl
  · intro n hn
    have := (nw h.length).2 n hn
    rwa [hall] at this

/-- C144: if all the computations are in mode "complete", no file which is there at the beginning is changed, at any time (nothing is
assumed on the files). -/
theorem C144_piv_keeps (K : WholeRun.Computation F) (start stop step : Int) (hs : step ≠ 0)
    (hu : WholeRun.Usable K (pyRange start stop step)) (cs : List Launch) (hx : ∀ c ∈ cs, c.x.HasProcess)
    (hm : ∀ c ∈ cs, c.m = .complete) (d d' : Files Txt (Result F)) (h : History (Int × Result F))
    (ht : Piv.together K start stop step cs d h d') (t : Nat) (n : Txt) (r : Result F) (hn : d n = some r) :
    K.write d (h.upTo t) n = some r := by
  have hw := Piv.together_writes hs hu hx ht
  have key : ∀ s, ∀ y ∈ h.upTo s, K.nameOf y.1 ≠ n := by
    intro s y hy hne
    obtain ⟨⟨i, y⟩, he, rfl⟩ := List.mem_map.1 hy
    have he' := List.mem_of_mem_take he
    have hlt : i < cs.length := ht.1 _ he'
    have hi : cs[i]? = some cs[i] := List.getElem?_eq_getElem hlt
    obtain ⟨t0, -, h3⟩ := ht.2.2 i _ hi
    have hi' : cs[i] ∈ cs := List.getElem_mem _
    have h4 := ((Piv.does_writes hs hu (hx _ hi') h3).1 y (mem_of he')).2.1 (hm _ hi')
    simp only at hne h4
    rw [hne] at h4
    -- the file was there when the computation looked at the directory
    obtain ⟨w1, w2⟩ := WholeRun.write_results hu (h.upTo t0) (fun y hy => hw y (upTo_mem hy)) d
    by_cases hex : ∃ j q, (j, q) ∈ h.upTo t0 ∧ K.nameOf j = n
    · obtain ⟨j, q, hjq, hj⟩ := hex
      rw [← hj, w1 j q hjq] at h4
      cases h4
    · rw [w2 n (fun j q hjq hj => hex ⟨j, q, hjq, hj⟩), hn] at h4
      cases h4
  rw [(WholeRun.write_results hu (h.upTo t) (fun y hy => hw y (upTo_mem hy)) d).2 n (fun j q hjq => key t _ hjq), hn]

/-- C144 for the images (image2image, BOS): at any time the files are right. -/
theorem C144_images_never_wrong (K : WholeImages.Computation V) (hu : WholeImages.Usable K) (cs : List Launch)
    (hx : ∀ c ∈ cs, c.x.HasProcess) (d d' : Files Txt V) (hc : WholeImages.Clean K d) (h : History (Txt × V))
    (ht : Images.together K cs d h d') (t : Nat) :
    (∀ k, WholeImages.Asked K k → ∀ v, K.write d (h.upTo t) (K.resultName k) = some v → WholeImages.HasResult K k v) ∧
    (∀ n, (∀ k, WholeImages.Asked K k → ∀ v, WholeImages.HasResult K k v → K.resultName k ≠ n) → K.write d (h.upTo t) n = d n) := by
  have hw := Images.together_writes hu hx ht
  obtain ⟨w1, w2⟩ := WholeImages.write_results hu (h.upTo t) (fun y hy => hw y (upTo_mem hy)) d
  constructor
  · intro i hi r hr
    by_cases hex : ∃ j q, (j, q) ∈ h.upTo t ∧ K.resultName j = K.resultName i
    · obtain ⟨j, q, hjq, hn⟩ := hex
      obtain ⟨a, b⟩ := hw _ (upTo_mem hjq)
      have := w1 j q hjq
      rw [hn, hr] at this
      cases this
      have := hu.differ j a i hi hn
      subst this
      exact b
    · rw [w2 _ (fun j q hjq hn => hex ⟨j, q, hjq, hn⟩)] at hr
      exact hc i hi r hr
  · intro n hn
    exact w2 n (fun j q hjq => hn j (hw _ (upTo_mem hjq)).1 q (hw _ (upTo_mem hjq)).2)

/-- C144 for the images: if one of the computations reaches its end, the directory has exactly the results. -/
theorem C144_images (K : WholeImages.Computation V) (hu : WholeImages.Usable K) (cs : List Launch)
    (hx : ∀ c ∈ cs, c.x.HasProcess) (d d' : Files Txt V) (hc : WholeImages.Clean K d) (h : History (Txt × V))
    (ht : Images.together K cs d h d') (he : ∃ c ∈ cs, c.ended = true) : WholeImages.HasResults K d d' := by
  have hw := Images.together_writes hu hx ht
  have hall : h.upTo h.length = h.map Prod.snd := by simp [History.upTo]
  have nw := C144_images_never_wrong K hu cs hx d d' hc h ht
  obtain ⟨-, rfl, h2⟩ := ht
  obtain ⟨w1, w2⟩ := WholeImages.write_results hu _ hw d
  constructor
  · intro i hi r hr
    obtain ⟨c, hcs, hend⟩ := he
    obtain ⟨k, hk⟩ := List.mem_iff_getElem?.1 hcs
    obtain ⟨t0, -, h3⟩ := h2 k c hk
    rcases (Images.does_writes hu (hx c hcs) h3).2 hend i hi r hr with h4 | ⟨-, t, h4⟩
    · exact w1 i r (of_mem h4)
    · by_cases hex : ∃ j q, (j, q) ∈ h.map Prod.snd ∧ K.resultName j = K.resultName i
      · obtain ⟨j, q, hjq, hn⟩ := hex
        obtain ⟨a, b⟩ := hw _ hjq
        have := hu.differ j a i hi hn
        subst this
        rw [WholeImages.HasResult.same hr b]
        exact w1 j q hjq
      · have key : ∀ s, K.write d (h.upTo s) (K.resultName i) = d (K.resultName i) := fun s =>
          (WholeImages.write_results hu (h.upTo s) (fun y hy => hw y (upTo_mem hy)) d).2 _
            (fun j q hjq hn => hex ⟨j, q, upTo_mem hjq, hn⟩)
        simp only [key] at h4
        rw [w2 _ (fun j q hjq hn => hex ⟨j, q, hjq, hn⟩)]
        cases hd : d (K.resultName i) with
        | none => exact absurd hd h4
        | some r' => rw [WholeImages.HasResult.same hr (hc i hi r' hd)]
  · intro n hn
    have := (nw h.length).2 n hn
    rwa [hall] at this

/-- C144 for the images: computations in mode "complete" keep the files. -/
theorem C144_images_keeps (K : WholeImages.Computation V) (hu : WholeImages.Usable K) (cs : List Launch)
    (hx : ∀ c ∈ cs, c.x.HasProcess) (hm : ∀ c ∈ cs, c.m = .complete) (d d' : Files Txt V) (h : History (Txt × V))
    (ht : Images.together K cs d h d') (t : Nat) (n : Txt) (v : V) (hn : d n = some v) : K.write d (h.upTo t) n = some v := by
  have hw := Images.together_writes hu hx ht
  have key : ∀ s, ∀ y ∈ h.upTo s, K.resultName y.1 ≠ n := by
    intro s y hy hne
    obtain ⟨⟨i, y⟩, he, rfl⟩ := List.mem_map.1 hy
    have he' := List.mem_of_mem_take he
    have hlt : i < cs.length := ht.1 _ he'
    have hi : cs[i]? = some cs[i] := List.getElem?_eq_getElem hlt
    obtain ⟨t0, -, h3⟩ := ht.2.2 i _ hi
    have hi' : cs[i] ∈ cs := List.getElem_mem _
    have h4 := ((Images.does_writes hu (hx _ hi') h3).1 y (mem_of he')).2.1 (hm _ hi')
    simp only at hne h4
    rw [hne] at h4
    obtain ⟨w1, w2⟩ := WholeImages.write_results hu (h.upTo t0) (fun y hy => hw y (upTo_mem hy)) d
    by_cases hex : ∃ j q, (j, q) ∈ h.upTo t0 ∧ K.resultName j = n
    · obtain ⟨j, q, hjq, hj⟩ := hex
      rw [← hj, w1 j q hjq] at h4
      cases h4
    · rw [w2 n (fun j q hjq hj => hex ⟨j, q, hjq, hj⟩), hn] at h4
      cases h4
  rw [(WholeImages.write_results hu (h.upTo t) (fun y hy => hw y (upTo_mem hy)) d).2 n (fun j q hjq => key t _ hjq), hn]

end
/-! ## The histories exist -/

namespace Together

theorem upTo_append {ω : Type} (h h' : History ω) (t : Nat) : History.upTo (h ++ h') (min t h.length) = h.upTo t := by
  unfold History.upTo
  rw [List.take_append_of_le_length (by omega)]
  congr 1
  by_cases ht : t ≤ h.length
  · rw [Nat.min_eq_left ht]
  · rw [Nat.min_eq_right (by omega), List.take_length, List.take_of_length_le (by omega)]

theorem of_append {ω : Type} (h h' : History ω) (i : Nat) : History.of (h ++ h') i = h.of i ++ h'.of i := by
  simp [History.of, List.filter_append]

theorem of_tagged {ω : Type} (l : List ω) (k i : Nat) : History.of (l.map fun y => (k, y)) i = if k = i then l else [] := by
  unfold History.of
  split
  · rename_i hk
    subst hk
    rw [List.filter_eq_self.2 (by simp)]
    simp
  · rename_i hk
    rw [List.filter_eq_nil_iff.2 (by simp [hk])]
    rfl

theorem of_none {ω : Type} {h : History ω} {i n : Nat} (hh : ∀ e ∈ h, e.1 < n) (hi : n ≤ i) : h.of i = [] := by
  unfold History.of
  rw [List.filter_eq_nil_iff.2]
  · rfl
  · intro e he
    have := hh e he
    simp
    omega

theorem Piv.process_any {F : Type} {K : WholeRun.Computation F} (c : Launch) {is : List Int} (hu : WholeRun.Usable K is) :
    ∃ log, (if c.ended then K.process c.x else K.processKilled c.x) is log := by
  obtain ⟨log, h⟩ := WholeRun.process_exists c.x hu
  refine ⟨log, ?_⟩
  cases c.ended with
  | true => exact h
  | false =>
    rw [if_neg (by simp)]
    cases hx : c.x with
    | sequential =>
      rw [hx] at h
      obtain ⟨cf, n, s, h1, -, h2⟩ := h
      exact ⟨cf, n, s, h1, h2 ▸ List.prefix_refl _⟩
    | async => rw [hx] at h; exact Or.inr h
    | multiAsync n => rw [hx] at h; exact Or.inr h
    | multiSubproc n => rw [hx] at h; exact Or.inr h

/-- A computation can be done from any directory. -/
theorem Piv.does_exists {F : Type} {K : WholeRun.Computation F} {start stop step : Int} (hs : step ≠ 0)
    (hu : WholeRun.Usable K (pyRange start stop step)) (c : Launch) (hx : c.x.HasProcess) (dir : Nat → Files Txt (Result F)) (t0 : Nat) :
    ∃ l, Piv.does K start stop step c dir t0 l := by
  have hnd := WholeRun.selection_nodup K start stop step (dir t0) c.m hu.nodup
  obtain ⟨ps, hps⟩ := WholeRun.parts_ok c.x (K.selection start stop step (dir t0) c.m) hx (WholeRun.selection_step K _ _ _ (dir t0) c.m hs)
  have hfl := WholeRun.parts_flatten hx (WholeRun.selection_step K _ _ _ (dir t0) c.m hs) hps
  have hpart : ∀ q ∈ ps, WholeRun.Usable K (K.computed c.x c.m q (dir t0)) := fun q hq => by
    obtain ⟨a, b⟩ := WholeRun.part_sub hfl hnd q hq
    exact hu.sub _ (fun i hi => ((WholeRun.selection_indices K _ _ _ (dir t0) c.m i).1 (a i ((WholeRun.computed_sub K c.x c.m q _).subset hi))).1)
      (b.sublist (WholeRun.computed_sub K c.x c.m q _))
  have : ∃ logs, List.Forall₂ (fun part log => ∃ t, t0 ≤ t ∧
      (if c.ended then K.process c.x else K.processKilled c.x) (K.computed c.x c.m part (dir t)) log) ps logs := by
    clear hps hfl
    induction ps with
    | nil => exact ⟨[], List.Forall₂.nil⟩
    | cons q ps ih =>
      obtain ⟨logs, h⟩ := ih (fun q hq => hpart q (List.mem_cons_of_mem _ hq))
      obtain ⟨log, hl⟩ := Piv.process_any c (hpart q List.mem_cons_self)
      exact ⟨log :: logs, List.Forall₂.cons ⟨t0, le_refl _, hl⟩ h⟩
  obtain ⟨logs, hl⟩ := this
  exact ⟨_, ps, hps, logs, Interleaving.concat _, hl⟩

theorem Images.process_any {V : Type} {K : WholeImages.Computation V} (c : Launch) (q : Dict Txt (Except PyErr V))
    (hq : WholeImages.Good K q) : ∃ log, (if c.ended then K.process c.x else K.processKilled c.x) q log := by
  obtain ⟨log, h⟩ := WholeImages.process_exists c.x q hq
  refine ⟨log, ?_⟩
  cases c.ended with
  | true => exact h
  | false =>
    rw [if_neg (by simp)]
    cases hx : c.x with
    | sequential =>
      rw [hx] at h
      obtain ⟨cf, n, s, h1, -, h2⟩ := h
      exact ⟨cf, n, s, h1, h2 ▸ List.prefix_refl _⟩
    | async => rw [hx] at h; exact Or.inr h
    | multiAsync n => rw [hx] at h; exact Or.inr h
    | multiSubproc n => rw [hx] at h; exact Or.inr h

theorem Images.does_exists {V : Type} {K : WholeImages.Computation V} (hu : WholeImages.Usable K) (c : Launch) (hx : c.x.HasProcess)
    (dir : Nat → Files Txt V) (t0 : Nat) : ∃ l, Images.does K c dir t0 l := by
  obtain ⟨qs, g1, g2, -⟩ := WholeImages.queues_ok hu (dir t0) c.m c.x hx
  have : ∃ logs, List.Forall₂ (if c.ended then K.process c.x else K.processKilled c.x) qs logs := by
    clear g1
    induction qs with
    | nil => exact ⟨[], List.Forall₂.nil⟩
    | cons q qs ih =>
      obtain ⟨logs, h⟩ := ih (fun q hq => g2 q (List.mem_cons_of_mem _ hq))
      obtain ⟨log, hl⟩ := Images.process_any c q (g2 q List.mem_cons_self)
      exact ⟨log :: logs, List.Forall₂.cons hl h⟩
  obtain ⟨logs, hl⟩ := this
  exact ⟨_, qs, g1, logs, Interleaving.concat _, hl⟩

end Together

section
variable {F V : Type}
open Together

/-- C144: there are such histories, for all lists of computations (the theorems are not about nothing). -/
theorem C144_piv_exists (K : WholeRun.Computation F) (start stop step : Int) (hs : step ≠ 0)
    (hu : WholeRun.Usable K (pyRange start stop step)) (cs : List Launch) (hx : ∀ c ∈ cs, c.x.HasProcess) (d : Files Txt (Result F)) :
    ∃ h d', Piv.together K start stop step cs d h d' := by
  induction cs using List.reverseRecOn with
  | nil => exact ⟨[], d, by simp, rfl, by simp⟩
  | append_singleton cs c ih =>
    obtain ⟨h, d', h1, rfl, h2⟩ := ih (fun c hc => hx c (List.mem_append_left _ hc))
    have hall : h.upTo h.length = h.map Prod.snd := by simp [History.upTo]
    obtain ⟨l, hl⟩ := Piv.does_exists hs hu c (hx c (by simp)) (fun _ => K.write d (h.map Prod.snd)) 0
    refine ⟨h ++ l.map (fun y => (cs.length, y)), _, ?_, rfl, ?_⟩
    · intro e he
      rcases List.mem_append.1 he with he | he
      · have := h1 e he
        simp; omega
      · obtain ⟨y, -, rfl⟩ := List.mem_map.1 he
        simp
    · intro i c' hi
      rw [of_append, of_tagged]
      by_cases hic : i < cs.length
      · rw [List.getElem?_append_left hic] at hi
        obtain ⟨t0, h3, ps, h4, logs, h5, h6⟩ := h2 i c' hi
        rw [if_neg (by omega), List.append_nil]
        refine ⟨min t0 h.length, ?_, ps, ?_, logs, h5, ?_⟩
        · intro e he
          rw [List.take_append_of_le_length (by omega)] at he
          exact h3 e ((List.take_subset_take_left _ (by omega)) he)
        · beta_reduce; rw [upTo_append]; exact h4
        · refine h6.imp ?_
          rintro part log ⟨t, ht, h7⟩
          refine ⟨min t h.length, by omega, ?_⟩
          beta_reduce; rw [upTo_append]; exact h7
      · have hie : i = cs.length := by
          have := List.getElem?_eq_some_iff.1 hi
          obtain ⟨hlt, -⟩ := this
          simp at hlt
          omega
        subst hie
        rw [List.getElem?_append_right (le_refl _)] at hi
        simp at hi
        subst hi
        rw [if_pos rfl, of_none h1 (le_refl _), List.nil_append]
        obtain ⟨ps, h4, logs, h5, h6⟩ := hl
        have hd : K.write d (History.upTo (h ++ l.map (fun y => (cs.length, y))) h.length) = K.write d (h.map Prod.snd) := by
          have := upTo_append h (l.map (fun y => (cs.length, y))) h.length
          rw [Nat.min_self] at this
          rw [this, hall]
        refine ⟨h.length, ?_, ps, ?_, logs, h5, ?_⟩
        · intro e he
          rw [List.take_append_of_le_length (le_refl _), List.take_length] at he
          have := h1 e he
          omega
        · beta_reduce; rw [hd]; exact h4
        · refine h6.imp ?_
          rintro part log ⟨t, -, h7⟩
          refine ⟨h.length, le_refl _, ?_⟩
          beta_reduce; rw [hd]; exact h7

/-- C144: in mode "recompute", all the orders of the writes of the computations are such histories. -/
theorem C144_piv_any_order (K : WholeRun.Computation F) (start stop step : Int) (cs : List Launch) (hm : ∀ c ∈ cs, c.m = .recompute)
    (d : Files Txt (Result F)) (h : History (Int × Result F)) (h1 : ∀ e ∈ h, e.1 < cs.length)
    (h2 : ∀ i c, cs[i]? = some c → Piv.does K start stop step c (fun _ => d) 0 (h.of i)) :
    Piv.together K start stop step cs d h (K.write d (h.map Prod.snd)) := by
  refine ⟨h1, rfl, fun i c hi => ⟨0, by simp, ?_⟩⟩
  obtain ⟨ps, h3, logs, h4, h5⟩ := h2 i c hi
  have hr := hm c (List.mem_of_getElem? hi)
  refine ⟨ps, ?_, logs, h4, ?_⟩
  · rw [hr] at h3 ⊢; exact h3
  · refine h5.imp ?_
    rintro part log ⟨t, ht, h6⟩
    refine ⟨t, ht, ?_⟩
    rw [hr] at h6 ⊢
    cases hx : c.x <;> rw [hx] at h6 <;> exact h6

/-- Two computations at the same time, one with three processes which is killed and another one in mode "complete" which reaches its
end: the results of the example of C117. -/
example : ∃ h d', Piv.together WholeRun.demo 0 4 1 [⟨.multiAsync 3, .recompute, false⟩, ⟨.sequential, .complete, true⟩] (fun _ => none) h d' ∧
    WholeRun.HasResults WholeRun.demo (pyRange 0 4 1) (fun _ => none) d' := by
  have hx : ∀ c ∈ ([⟨.multiAsync 3, .recompute, false⟩, ⟨.sequential, .complete, true⟩] : List Launch), c.x.HasProcess := by
    intro c hc
    simp only [List.mem_cons, List.not_mem_nil, or_false] at hc
    rcases hc with rfl | rfl
    · show 1 ≤ 3; decide
    · trivial
  obtain ⟨h, d', ht⟩ := C144_piv_exists WholeRun.demo 0 4 1 (by decide) WholeRun.demo_usable _ hx (fun _ => none)
  exact ⟨h, d', ht, C144_piv WholeRun.demo 0 4 1 (by decide) WholeRun.demo_usable _ hx _ d' (by intro i _ r h; cases h) h ht
    ⟨_, List.mem_cons_of_mem _ List.mem_cons_self, rfl⟩⟩

/-- C144 for the images: there are such histories, for all lists of computations. -/
theorem C144_images_exists (K : WholeImages.Computation V) (hu : WholeImages.Usable K) (cs : List Launch)
    (hx : ∀ c ∈ cs, c.x.HasProcess) (d : Files Txt V) : ∃ h d', Images.together K cs d h d' := by
  induction cs using List.reverseRecOn with
  | nil => exact ⟨[], d, by simp, rfl, by simp⟩
  | append_singleton cs c ih =>
    obtain ⟨h, d', h1, rfl, h2⟩ := ih (fun c hc => hx c (List.mem_append_left _ hc))
    have hall : h.upTo h.length = h.map Prod.snd := by simp [History.upTo]
    obtain ⟨l, hl⟩ := Images.does_exists hu c (hx c (by simp)) (fun _ => K.write d (h.map Prod.snd)) 0
    refine ⟨h ++ l.map (fun y => (cs.length, y)), _, ?_, rfl, ?_⟩
    · intro e he
      rcases List.mem_append.1 he with he | he
      · have := h1 e he
        simp; omega
      · obtain ⟨y, -, rfl⟩ := List.mem_map.1 he
        simp
    · intro i c' hi
      rw [of_append, of_tagged]
      by_cases hic : i < cs.length
      · rw [List.getElem?_append_left hic] at hi
        obtain ⟨t0, h3, qs, h4, logs, h5, h6⟩ := h2 i c' hi
        rw [if_neg (by omega), List.append_nil]
        refine ⟨min t0 h.length, ?_, qs, ?_, logs, h5, h6⟩
        · intro e he
          rw [List.take_append_of_le_length (by omega)] at he
          exact h3 e ((List.take_subset_take_left _ (by omega)) he)
        · beta_reduce; rw [upTo_append]; exact h4
      · have hie : i = cs.length := by
          obtain ⟨hlt, -⟩ := List.getElem?_eq_some_iff.1 hi
          simp at hlt
          omega
        subst hie
        rw [List.getElem?_append_right (le_refl _)] at hi
        simp at hi
        subst hi
        rw [if_pos rfl, of_none h1 (le_refl _), List.nil_append]
        obtain ⟨qs, h4, logs, h5, h6⟩ := hl
        refine ⟨h.length, ?_, qs, ?_, logs, h5, h6⟩
        · intro e he
          rw [List.take_append_of_le_length (le_refl _), List.take_length] at he
          have := h1 e he
          omega
        · have := upTo_append h (l.map (fun y => (cs.length, y))) h.length
          rw [Nat.min_self] at this
          beta_reduce; rw [this, hall]; exact h4

/-- Two computations of the example of C118 at the same time, one with two processes which reaches its end and one in mode "complete"
which is killed. -/
example : ∃ h d', Images.together demoIm2im [⟨.multiAsync 2, .recompute, true⟩, ⟨.async, .complete, false⟩] (fun _ => none) h d' ∧
    WholeImages.HasResults demoIm2im (fun _ => none) d' := by
  have hx : ∀ c ∈ ([⟨.multiAsync 2, .recompute, true⟩, ⟨.async, .complete, false⟩] : List Launch), c.x.HasProcess := by
    intro c hc
    simp only [List.mem_cons, List.not_mem_nil, or_false] at hc
    rcases hc with rfl | rfl
    · show 1 ≤ 2; decide
    · trivial
  obtain ⟨h, d', ht⟩ := C144_images_exists demoIm2im demoIm2im_usable _ hx (fun _ => none)
  exact ⟨h, d', ht, C144_images demoIm2im demoIm2im_usable _ hx _ d' (by intro k _ v h; cases h) h ht
    ⟨_, List.mem_cons_self, rfl⟩⟩

end
end Verif
