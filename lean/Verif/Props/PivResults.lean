import Verif.Model.PivResults
import Verif.Lemmas.Dict
import Verif.Props.ResultDir
import Mathlib.Data.List.Perm.Subperm
import Mathlib.Data.List.Nodup

/-!
# Saving and loading PIV results (C44), light results (C45)
-/

namespace Verif
open Verif.PivResults Verif.Text

/-! ## Specification -/

/-- What the works produce: dictionaries have unique keys (always true of a Python `dict`), the errors are texts. -/
structure SaneResult {α π γ : Type} (r : Heavy α π γ) : Prop where
  uniqueTexts : ∀ n d, r.dict n = some (.texts d) → Dict.KeysUnique d
  uniqueNums : ∀ n d, r.dict n = some (.nums d) → Dict.KeysUnique d
  errorsTexts : ∀ d, r.dict .errors = some d → ∃ t, d = .texts t

/-- What is in the file for an array: the array itself, rounded to single precision if it was in double precision. -/
def SameArray {α : Type} (r32 : α → α) (a b : Arr α) : Prop :=
  (a.f64 = false → b = a) ∧ (a.f64 = true → b.f64 = false ∧ b.data = a.data.map r32)

/-- Same presence, and related values when present. -/
def BothOrNone {β : Type} (R : β → β → Prop) : Option β → Option β → Prop
  | none, none => True
  | some a, some b => R a b
  | _, _ => False

/-! ## Names -/

theorem nameLt_irrefl (a : List Char) : nameLt a a = false := by
  induction a with
  | nil => rfl
  | cons c cs ih => simp [nameLt, ih]

theorem nameLt_trans (a b c : List Char) (h1 : nameLt a b = true) (h2 : nameLt b c = true) : nameLt a c = true := by
  induction a generalizing b c with
  | nil =>
    cases b with
    | nil => cases h1
    | cons b bs => cases c with
      | nil => cases h2
      | cons c cs => rfl
  | cons a as ih =>
    cases b with
    | nil => cases h1
    | cons b bs =>
      cases c with
      | nil => cases h2
      | cons c cs =>
        unfold nameLt at h1 h2 ⊢
        by_cases hab : a.toNat < b.toNat
        · by_cases hbc : b.toNat < c.toNat
          · rw [if_pos (by omega)]
          · rw [if_neg hbc] at h2
            by_cases hcb : c.toNat < b.toNat
            · rw [if_pos hcb] at h2; cases h2
            · rw [if_pos (by omega)]
        · rw [if_neg hab] at h1
          by_cases hba : b.toNat < a.toNat
          · rw [if_pos hba] at h1; cases h1
          · rw [if_neg hba] at h1
            by_cases hbc : b.toNat < c.toNat
            · rw [if_pos (by omega)]
            · rw [if_neg hbc] at h2
              by_cases hcb : c.toNat < b.toNat
              · rw [if_pos hcb] at h2; cases h2
              · rw [if_neg hcb] at h2
                rw [if_neg (by omega), if_neg (by omega)]
                exact ih bs cs h1 h2

theorem nameLt_total (a b : List Char) (h : a ≠ b) : nameLt a b = true ∨ nameLt b a = true := by
  induction a generalizing b with
  | nil =>
    cases b with
    | nil => exact absurd rfl h
    | cons b bs => left; rfl
  | cons a as ih =>
    cases b with
    | nil => right; rfl
    | cons b bs =>
      unfold nameLt
      by_cases hab : a.toNat < b.toNat
      · left; rw [if_pos hab]
      · by_cases hba : b.toNat < a.toNat
        · right; rw [if_pos hba]
        · rw [if_neg hab, if_neg hba, if_neg hba, if_neg hab]
          apply ih
          have e : a = b := by
            have := Char.ofNat_toNat a
            rw [← this, show a.toNat = b.toNat by omega, Char.ofNat_toNat]
          intro hc; exact h (by rw [e, hc])

theorem nameLt_prefix (p a b : List Char) : nameLt (p ++ a) (p ++ b) = nameLt a b := by
  induction p with
  | nil => rfl
  | cons c cs ih => simp [nameLt, ih]

/-- The members `nm i`, `nm (i + 1)`, … with the given values. -/
def h5entries {β : Type} (nm : Nat → List Char) : Nat → List β → H5 β
  | _, [] => []
  | i, a :: as => (nm i, a) :: h5entries nm (i + 1) as

/-- The members of a group are in increasing order. -/
def H5Sorted {β : Type} (g : H5 β) : Prop := g.Pairwise (fun a b => nameLt a.1 b.1 = true)

theorem h5place_perm {β : Type} (n : List Char) (v : β) (g : H5 β) : (h5place n v g).Perm ((n, v) :: g) := by
  induction g with
  | nil => exact List.Perm.refl _
  | cons mw g ih =>
    obtain ⟨m, w⟩ := mw
    unfold h5place
    split
    · exact List.Perm.refl _
    · exact (List.Perm.cons _ ih).trans (List.Perm.swap _ _ _)

theorem h5place_sorted {β : Type} (n : List Char) (v : β) (g : H5 β) (hg : H5Sorted g)
    (hn : n ∉ g.map Prod.fst) : H5Sorted (h5place n v g) := by
  induction g with
  | nil => simp [h5place, H5Sorted]
  | cons mw g ih =>
    obtain ⟨m, w⟩ := mw
    unfold H5Sorted at hg
    rw [List.pairwise_cons] at hg
    unfold h5place
    split
    · rename_i hlt
      unfold H5Sorted
      rw [List.pairwise_cons, List.pairwise_cons]
      refine ⟨?_, hg⟩
      intro q hq
      rcases List.mem_cons.1 hq with rfl | hq
      · exact hlt
      · exact nameLt_trans _ _ _ hlt (hg.1 q hq)
    · rename_i hlt
      have hne : n ≠ m := by intro hc; apply hn; simp [hc]
      have hmn : nameLt m n = true := by
        rcases nameLt_total n m hne with h | h
        · exact absurd h hlt
        · exact h
      unfold H5Sorted
      rw [List.pairwise_cons]
      refine ⟨?_, ih hg.2 (by intro hc; apply hn; simp at hc ⊢; exact Or.inr hc)⟩
      intro q hq
      have hq' := (h5place_perm n v g).mem_iff.1 hq
      rcases List.mem_cons.1 hq' with rfl | hq'
      · exact hmn
      · exact hg.1 q hq'

theorem h5entries_length {β : Type} (nm : Nat → List Char) (i : Nat) (as : List β) :
    (h5entries nm i as).length = as.length := by
  induction as generalizing i with
  | nil => rfl
  | cons a as ih => simp [h5entries, ih]

theorem h5entries_snd {β : Type} (nm : Nat → List Char) (i : Nat) (as : List β) :
    (h5entries nm i as).map Prod.snd = as := by
  induction as generalizing i with
  | nil => rfl
  | cons a as ih => simp [h5entries, ih]

theorem h5entries_mem {β : Type} (nm : Nat → List Char) (i : Nat) (as : List β) (q : List Char × β) :
    q ∈ h5entries nm i as ↔ ∃ j, ∃ h : j < as.length, q = (nm (i + j), as[j]) := by
  induction as generalizing i with
  | nil => simp [h5entries]
  | cons a as ih =>
    rw [h5entries, List.mem_cons, ih]
    constructor
    · rintro (h | ⟨j, hj, h⟩)
      · exact ⟨0, by simp, by simpa using h⟩
      · exact ⟨j + 1, by simpa using hj, by rw [h]; simp [Nat.add_assoc, Nat.add_comm 1 j]⟩
    · rintro ⟨j, hj, h⟩
      cases j with
      | zero => left; simpa using h
      | succ j =>
        right
        exact ⟨j, by simpa using hj, by rw [h]; simp [Nat.add_assoc, Nat.add_comm 1 j]⟩

theorem subdomName_inj (i j : Nat) (h : subdomName i = subdomName j) : i = j :=
  natStr_injective _ _ (List.append_cancel_left h)

theorem passName_inj (i j : Nat) (h : passName i = passName j) : i = j :=
  natStr_injective _ _ (List.append_cancel_left h)

theorem natStr_small (i : Nat) (h : i < 10) : natStr i = [digitChar i] := by
  unfold natStr; rw [if_pos h]

theorem natStr_two (i : Nat) (h : 10 ≤ i) (h2 : i < 100) : natStr i = [digitChar (i / 10), digitChar (i % 10)] := by
  rw [natStr, if_neg (by omega), natStr_small _ (by omega)]; rfl

theorem digitChar_toNat (d : Nat) (h : d < 10) : (digitChar d).toNat = 48 + d := by
  have : d = 0 ∨ d = 1 ∨ d = 2 ∨ d = 3 ∨ d = 4 ∨ d = 5 ∨ d = 6 ∨ d = 7 ∨ d = 8 ∨ d = 9 := by omega
  rcases this with rfl | rfl | rfl | rfl | rfl | rfl | rfl | rfl | rfl | rfl <;> decide

theorem natStr_lt_small (i j : Nat) (hij : i < j) (hj : j < 10) : nameLt (natStr i) (natStr j) = true := by
  rw [natStr_small i (by omega), natStr_small j hj]
  simp only [nameLt, digitChar_toNat i (by omega), digitChar_toNat j hj]
  rw [if_pos (by omega)]

/-- With names that come in increasing order up to index 10, the members are in increasing order. -/
theorem h5entries_sorted {β : Type} (nm : Nat → List Char) (hnm : ∀ i j, i < j → j < 10 → nameLt (nm i) (nm j) = true)
    (i : Nat) (as : List β) (h : i + as.length ≤ 10) : H5Sorted (h5entries nm i as) := by
  induction as generalizing i with
  | nil => exact List.Pairwise.nil
  | cons a as ih =>
    simp only [List.length_cons] at h
    unfold H5Sorted
    rw [h5entries, List.pairwise_cons]
    refine ⟨?_, ih (i + 1) (by omega)⟩
    intro q hq
    obtain ⟨j, hj, rfl⟩ := (h5entries_mem nm _ _ _).1 hq
    exact hnm _ _ (by omega) (by omega)

/-- Two groups with the same members have the same list of members. -/
theorem h5sorted_unique {β : Type} (g g' : H5 β) (h : H5Sorted g) (h' : H5Sorted g') (hp : g.Perm g') : g = g' := by
  refine List.Perm.eq_of_pairwise ?_ h h' hp
  intro a b _ _ h1 h2
  have := nameLt_trans _ _ _ h1 h2
  rw [nameLt_irrefl] at this; cases this

theorem saveTps_ok {α : Type} (i : Nat) (as : List (List α)) (g : H5 (List α)) (hg : H5Sorted g)
    (hn : ∀ q ∈ g, ∃ j, j < i ∧ q.1 = subdomName j) :
    ∃ g', saveTps i as g = .ok g' ∧ g'.Perm (g ++ h5entries subdomName i as) ∧ H5Sorted g' := by
  induction as generalizing i g with
  | nil => exact ⟨g, rfl, by simp [h5entries], hg⟩
  | cons a as ih =>
    have hnm : subdomName i ∉ g.map Prod.fst := by
      intro hc
      obtain ⟨q, hq, hq2⟩ := List.mem_map.1 hc
      obtain ⟨j, hj, hj2⟩ := hn q hq
      rw [hq2] at hj2
      have := subdomName_inj _ _ hj2; omega
    obtain ⟨g', h1, h2, h3⟩ := ih (i + 1) (h5place (subdomName i) a g) (h5place_sorted _ _ _ hg hnm) (by
      intro q hq
      rcases List.mem_cons.1 ((h5place_perm _ _ _).mem_iff.1 hq) with rfl | hq
      · exact ⟨i, by omega, rfl⟩
      · obtain ⟨j, hj, hj2⟩ := hn q hq; exact ⟨j, by omega, hj2⟩)
    refine ⟨g', ?_, ?_, h3⟩
    · simp only [saveTps, h5create, hnm, if_false, h1]
    · refine h2.trans ?_
      rw [h5entries]
      exact (List.Perm.append_right _ (h5place_perm _ _ _)).trans List.perm_middle.symm

/-- The arrays of the sub-domains read back: the same ones, in the same order if there are at most ten. -/
theorem tps_back {α : Type} (as : List (List α)) :
    ∃ g, saveTps 0 as [] = .ok g ∧ (g.map Prod.snd).Perm as ∧ (as.length ≤ 10 → g.map Prod.snd = as) ∧
      H5Sorted g ∧ g.Perm (h5entries subdomName 0 as) := by
  obtain ⟨g, h1, h2, h3⟩ := saveTps_ok 0 as [] List.Pairwise.nil (by simp)
  rw [List.nil_append] at h2
  refine ⟨g, h1, ?_, ?_, h3, h2⟩
  · have := h2.map Prod.snd
    rwa [h5entries_snd] at this
  · intro hl
    have hs := h5entries_sorted subdomName (fun i j hij hj => by
      rw [subdomName, subdomName, nameLt_prefix]; exact natStr_lt_small i j hij hj) 0 as (by omega)
    rw [h5sorted_unique g _ h3 hs h2, h5entries_snd]

/-! ## Arrays and dictionaries -/

theorem lookup_saveArrs {α : Type} (r32 : α → α) (arr : Key → Option (Arr α)) (ks : List Key) (k : Key) :
    lookup k (saveArrs r32 arr ks) = if k ∈ ks then (arr k).map (toStored r32) else none := by
  induction ks with
  | nil => rfl
  | cons k' ks ih =>
    unfold saveArrs
    cases hk : arr k' with
    | none =>
      simp only [ih, List.mem_cons]
      by_cases h : k = k'
      · subst h; simp [hk]
      · simp [h]
    | some a =>
      simp only [lookup, ih, List.mem_cons]
      by_cases h : k' = k
      · subst h; simp [hk]
      · simp [h, Ne.symm h]

theorem loadArrs_apply {α : Type} (g : List (Key × Arr α)) (ks : List Key) (at_ : Key → Option (Arr α)) (k : Key) :
    loadArrs g ks at_ k = if k ∈ ks then (match lookup k g with | some a => some a | none => at_ k) else at_ k := by
  induction ks generalizing at_ with
  | nil => rfl
  | cons k' ks ih =>
    unfold loadArrs
    by_cases h : k = k'
    · subst h
      cases hl : lookup k g with
      | none => simp [ih, hl]
      | some a => simp [ih, hl]
    · cases hl : lookup k' g with
      | none => simp [ih, h]
      | some a => simp [ih, h]

theorem loadDicts_apply {α : Type} (g : List (DictName × DGroup α)) (ns : List DictName)
    (at_ : DictName → Option (PDict α)) (n : DictName) :
    loadDicts g ns at_ n =
      if n ∈ ns then (match lookup n g with | some a => some (loadDict a) | none => at_ n) else at_ n := by
  induction ns generalizing at_ with
  | nil => rfl
  | cons k' ks ih =>
    unfold loadDicts
    by_cases h : n = k'
    · subst h
      cases hl : lookup n g with
      | none => simp [ih, hl]
      | some a => simp [ih, hl]
    · cases hl : lookup k' g with
      | none => simp [ih, h]
      | some a => simp [ih, h]

theorem fill_append {β : Type} (l d : Dict Int β) (h : ((d ++ l).map Prod.fst).Nodup) : fill l d = d ++ l := by
  induction l generalizing d with
  | nil => simp [fill]
  | cons kv l ih =>
    obtain ⟨k, v⟩ := kv
    have hk : k ∉ Dict.keys d := by
      intro hc
      rw [List.map_append, List.nodup_append] at h
      exact h.2.2 k hc k (by simp) rfl
    rw [fill, Dict.set_of_not_mem d k v hk, ih (d ++ [(k, v)]) (by simpa using h)]
    simp

theorem zip_fst_snd {β : Type} (d : Dict Int β) : List.zip (Dict.keys d) (d.map Prod.snd) = d := by
  induction d with
  | nil => rfl
  | cons kv d ih =>
    simp only [Dict.keys] at ih ⊢
    simp [ih]

/-- A dictionary is read back as it was written, with its order. -/
theorem dict_back {α : Type} (n : DictName) (d : PDict α) (hu : ∀ t, d = .texts t → Dict.KeysUnique t)
    (hv : ∀ t, d = .nums t → Dict.KeysUnique t) (g : DGroup α) (h : saveDict n d = .ok g) : loadDict g = d := by
  have hg : g.keys = d.keys ∧ g.vals = d.vals := by
    unfold saveDict at h
    split at h
    · cases hc : errorCodes d.vals with
      | error e => rw [hc] at h; cases h
      | ok codes => rw [hc] at h; cases h; exact ⟨rfl, rfl⟩
    · cases h; exact ⟨rfl, rfl⟩
  unfold loadDict
  rw [hg.1, hg.2]
  cases d with
  | texts t =>
    simp only [PDict.vals, PDict.keys, zip_fst_snd]
    rw [fill_append t [] (by simpa [Dict.KeysUnique, Dict.keys] using hu t rfl)]; rfl
  | nums t =>
    simp only [PDict.vals, PDict.keys, zip_fst_snd]
    rw [fill_append t [] (by simpa [Dict.KeysUnique, Dict.keys] using hv t rfl)]; rfl

theorem saveDicts_lookup {α π γ : Type} (r : Heavy α π γ) (hr : SaneResult r) (ns : List DictName) :
    ∃ gs, saveDicts r.dict ns = .ok gs ∧ ∀ n ∈ ns,
      (lookup n gs).map loadDict = r.dict n := by
  induction ns with
  | nil => exact ⟨[], rfl, by simp⟩
  | cons n ns ih =>
    obtain ⟨gs, h1, h2⟩ := ih
    unfold saveDicts
    cases hd : r.dict n with
    | none =>
      -- a name that comes later is looked up in the rest, this one is absent from it or equal
      refine ⟨gs, h1, ?_⟩
      intro n' hn'
      rcases List.mem_cons.1 hn' with rfl | hn'
      · by_cases hm : n' ∈ ns
        · exact (h2 n' hm)
        · rw [hd]
          have : ∀ (ns : List DictName) gs, n' ∉ ns → saveDicts r.dict ns = .ok gs → lookup n' gs = none := by
            intro ns
            induction ns with
            | nil => intro gs _ h; cases h; rfl
            | cons m ms ihm =>
              intro gs hm h
              rw [List.mem_cons, not_or] at hm
              unfold saveDicts at h
              cases hdm : r.dict m with
              | none => rw [hdm] at h; exact ihm gs hm.2 h
              | some d =>
                rw [hdm] at h
                simp only at h
                cases hs : saveDict m d with
                | error e => rw [hs] at h; cases h
                | ok g =>
                  rw [hs] at h
                  simp only at h
                  cases hss : saveDicts r.dict ms with
                  | error e => rw [hss] at h; cases h
                  | ok gs' =>
                    rw [hss] at h
                    cases h
                    simp only [lookup, if_neg (Ne.symm hm.1)]
                    exact ihm gs' hm.2 hss
          rw [this ns gs hm h1]; rfl
      · exact h2 n' hn'
    | some d =>
      have hs : ∃ g, saveDict n d = .ok g := by
        unfold saveDict
        by_cases hn : n = .errors
        · subst hn
          obtain ⟨t, rfl⟩ := hr.errorsTexts d hd
          exact ⟨⟨(PDict.texts t : PDict α).keys, .texts (t.map Prod.snd), some ((t.map Prod.snd).map errorCode)⟩,
            by simp only [if_true, PDict.vals, errorCodes]⟩
        · exact ⟨_, by rw [if_neg hn]⟩
      obtain ⟨g, hg⟩ := hs
      refine ⟨(n, g) :: gs, by simp only [hg, h1], ?_⟩
      intro n' hn'
      by_cases he : n = n'
      · subst he
        simp only [lookup, if_true, Option.map_some]
        rw [hd, dict_back n d (fun t ht => hr.uniqueTexts n t (by rw [hd, ht]))
          (fun t ht => hr.uniqueNums n t (by rw [hd, ht])) g hg]
      · simp only [lookup, if_neg he]
        rcases List.mem_cons.1 hn' with h | h
        · exact absurd h.symm he
        · exact h2 n' h

/-! ## One pass -/

/-- Relation between the result of a pass and what is loaded from the file: same arrays (rounded to single
precision when they were in double precision), same dictionaries, the same arrays of the sub-domains up to their
order, and with the same order if there are at most ten sub-domains. -/
structure LoadedPass {α π γ : Type} (r32 : α → α) (r r' : Heavy α π γ) : Prop where
  arrays : ∀ k, BothOrNone (SameArray r32) (r.arr k) (r'.arr k)
  dicts : ∀ n, r'.dict n = r.dict n
  tps : BothOrNone (fun t t' => t'.1.Perm t.1 ∧ t'.2.Perm t.2 ∧ (t.1.length ≤ 10 → t'.1 = t.1) ∧
    (t.2.length ≤ 10 → t'.2 = t.2)) r.tps r'.tps

theorem keys_complete (k : Key) : k ∈ keysToBeSaved := by cases k <;> decide
theorem dicts_complete (n : DictName) : n ∈ dictToBeSaved := by cases n <;> decide

theorem sameArray_stored {α : Type} (r32 : α → α) (a : Arr α) : SameArray r32 a (toStored r32 a) := by
  unfold SameArray toStored
  constructor
  · intro h; rw [h]; simp
  · intro h; rw [h]; simp

theorem heavy_back {α π γ : Type} (r32 : α → α) (tag : List Char) (r : Heavy α π γ) (hr : SaneResult r)
    (f : File α π γ) (ht : tag ∉ f.groups.map Prod.fst) :
    ∃ g : Group α, saveHeavy r32 tag r f =
        .ok ⟨some (f.params.getD r.params), some (f.couple.getD r.couple), f.nbPasses, h5place tag g f.groups⟩ ∧
      ∀ p c, LoadedPass r32 r (loadHeavy p c g) := by
  obtain ⟨gs, hgs, hgs2⟩ := saveDicts_lookup r hr dictToBeSaved
  have htps : ∃ o, saveTpsPair r.tps = .ok o ∧ ∀ g : Group α, g.tps = o →
      BothOrNone (fun t t' => t'.1.Perm t.1 ∧ t'.2.Perm t.2 ∧ (t.1.length ≤ 10 → t'.1 = t.1) ∧
        (t.2.length ≤ 10 → t'.2 = t.2)) r.tps (loadTps g) := by
    cases h : r.tps with
    | none => exact ⟨none, rfl, by intro g hg; simp [loadTps, hg, BothOrNone]⟩
    | some t =>
      obtain ⟨tx, ty⟩ := t
      obtain ⟨gx, hx1, hx2, hx3, _⟩ := tps_back tx
      obtain ⟨gy, hy1, hy2, hy3, _⟩ := tps_back ty
      refine ⟨some (gx, gy), by simp only [saveTpsPair, hx1, hy1], ?_⟩
      intro g hg
      simp only [loadTps, hg, BothOrNone]
      exact ⟨hx2, hy2, hx3, hy3⟩
  obtain ⟨o, ho, ho2⟩ := htps
  refine ⟨⟨saveArrs r32 r.arr keysToBeSaved, gs, o⟩, ?_, ?_⟩
  · simp only [saveHeavy, hgs, ho, h5create, ht, if_false]
    cases f.params <;> cases f.couple <;> rfl
  · intro p c
    refine ⟨?_, ?_, ho2 _ rfl⟩
    · intro k
      simp only [loadHeavy, loadArrs_apply, keys_complete, if_true, lookup_saveArrs]
      cases hk : r.arr k with
      | none => exact trivial
      | some a => exact sameArray_stored r32 a
    · intro n
      simp only [loadHeavy, loadDicts_apply, dicts_complete, if_true]
      rw [← hgs2 n (dicts_complete n)]
      cases lookup n gs <;> rfl

/-! ## All the passes -/

theorem savePasses_ok {α π γ : Type} (r32 : α → α) (i : Nat) (rs : List (Heavy α π γ)) (hrs : ∀ r ∈ rs, SaneResult r)
    (f : File α π γ) (hf : H5Sorted f.groups) (hn : ∀ q ∈ f.groups, ∃ j, j < i ∧ q.1 = passName j) :
    ∃ (f' : File α π γ) (gs : List (Group α)), savePasses r32 i rs f = .ok f' ∧ f'.nbPasses = f.nbPasses ∧
      f'.groups.Perm (f.groups ++ h5entries passName i gs) ∧ H5Sorted f'.groups ∧
      gs.length = rs.length ∧
      (∀ j (h : j < rs.length) (h' : j < gs.length) p c, LoadedPass r32 rs[j] (loadHeavy p c gs[j])) ∧
      (f'.params = match f.params with | some p => some p | none => rs.head?.map (·.params)) ∧
      (f'.couple = match f.couple with | some p => some p | none => rs.head?.map (·.couple)) := by
  induction rs generalizing i f with
  | nil =>
    refine ⟨f, [], rfl, rfl, by simp [h5entries], hf, rfl, by simp, ?_, ?_⟩
    · cases f.params <;> rfl
    · cases f.couple <;> rfl
  | cons r rs ih =>
    have hnm : passName i ∉ f.groups.map Prod.fst := by
      intro hc
      obtain ⟨q, hq, hq2⟩ := List.mem_map.1 hc
      obtain ⟨j, hj, hj2⟩ := hn q hq
      rw [hq2] at hj2
      have := passName_inj _ _ hj2; omega
    obtain ⟨g, hg, hg2⟩ := heavy_back r32 (passName i) r (hrs r (by simp)) f hnm
    obtain ⟨f', gs, h1, h2, h3, h4, h5, h6, h7, h8⟩ := ih (i + 1) (fun r hr => hrs r (by simp [hr]))
      ⟨some (f.params.getD r.params), some (f.couple.getD r.couple), f.nbPasses, h5place (passName i) g f.groups⟩
      (h5place_sorted _ _ _ hf hnm) (by
        intro q hq
        rcases List.mem_cons.1 ((h5place_perm _ _ _).mem_iff.1 hq) with rfl | hq
        · exact ⟨i, by omega, rfl⟩
        · obtain ⟨j, hj, hj2⟩ := hn q hq; exact ⟨j, by omega, hj2⟩)
    refine ⟨f', g :: gs, ?_, h2, ?_, h4, by simp [h5], ?_, ?_, ?_⟩
    · simp only [savePasses, hg, h1]
    · refine h3.trans ?_
      rw [h5entries]
      exact (List.Perm.append_right _ (h5place_perm _ _ _)).trans List.perm_middle.symm
    · intro j hj hj' p c
      cases j with
      | zero => exact hg2 p c
      | succ j => exact h6 j (by simpa using hj) (by simpa using hj') p c
    · rw [h7]; cases f.params <;> rfl
    · rw [h8]; cases f.couple <;> rfl

theorem h5get_mem {β : Type} (g : H5 β) (n : List Char) (v : β) (h : (n, v) ∈ g) (hu : H5Sorted g) :
    h5get n g = .ok v := by
  induction g with
  | nil => cases h
  | cons mw g ih =>
    obtain ⟨m, w⟩ := mw
    unfold H5Sorted at hu
    rw [List.pairwise_cons] at hu
    unfold h5get
    rcases List.mem_cons.1 h with h | h
    · cases h; rw [if_pos rfl]
    · have : m ≠ n := by
        intro hc
        have := hu.1 _ h
        rw [hc, nameLt_irrefl] at this; cases this
      rw [if_neg this]
      exact ih h hu.2

theorem loadPasses_ok {α π γ : Type} (f : File α π γ) (p : π) (c : γ) (gs : List (Group α)) (ips : List Nat)
    (h : ∀ ip ∈ ips, ∃ hlt : ip < gs.length, h5get (passName ip) f.groups = .ok gs[ip]) :
    ∃ rs, loadPasses f p c ips = .ok rs ∧ rs.length = ips.length ∧
      ∀ k (hk : k < ips.length) (hk' : k < rs.length) (hl : ips[k] < gs.length),
        rs[k] = loadHeavy p c gs[ips[k]] := by
  induction ips with
  | nil => exact ⟨[], rfl, rfl, by simp⟩
  | cons ip ips ih =>
    obtain ⟨hlt, hget⟩ := h ip (by simp)
    obtain ⟨rs, h1, h2, h3⟩ := ih (fun i hi => h i (by simp [hi]))
    refine ⟨loadHeavy p c gs[ip] :: rs, ?_, by simp [h2], ?_⟩
    · simp only [loadPasses, hget, h1]
    · intro k hk hk' hl
      cases k with
      | zero => rfl
      | succ k => exact h3 k (by simpa using hk) (by simpa using hk') hl

/-- The file written by `save`, and how its groups are read. -/
theorem saveMulti_file {α π γ : Type} (r32 : α → α) (r0 : Heavy α π γ) (rs : List (Heavy α π γ))
    (hrs : ∀ r ∈ r0 :: rs, SaneResult r) :
    ∃ (f : File α π γ) (gs : List (Group α)), saveMulti r32 (r0 :: rs) = .ok f ∧
      f.nbPasses = rs.length + 1 ∧ f.params = some r0.params ∧ f.couple = some r0.couple ∧
      f.groups.Perm (h5entries passName 0 gs) ∧ H5Sorted f.groups ∧ gs.length = rs.length + 1 ∧
      (∀ j (h : j < (r0 :: rs).length) (h' : j < gs.length) p c,
        LoadedPass r32 (r0 :: rs)[j] (loadHeavy p c gs[j])) ∧
      (∀ j (h : j < gs.length), h5get (passName j) f.groups = .ok gs[j]) := by
  obtain ⟨f, gs, h1, h2, h3, h4, h5, h6, h7, h8⟩ := savePasses_ok r32 0 (r0 :: rs) hrs
    ⟨none, none, (r0 :: rs).length, []⟩ List.Pairwise.nil (by simp)
  refine ⟨f, gs, ?_, by simpa using h2, by simpa using h7, by simpa using h8, by simpa using h3, h4,
    by simpa using h5, h6, ?_⟩
  · simp only [saveMulti, List.isEmpty_cons, Bool.false_eq_true, if_false]; exact h1
  · intro j hj
    apply h5get_mem _ _ _ _ h4
    rw [h3.mem_iff]
    simp only [List.nil_append]
    exact (h5entries_mem _ _ _ _).2 ⟨j, hj, by simp⟩

/-- C44: for every non-empty list of passes, saving succeeds, loading the file succeeds and gives the same number of
passes in the same order; each loaded pass has the arrays of the saved one (rounded to single precision if they
were in double precision), the same errors and replaced vectors, and the same arrays of the sub-domains of the
thin plate splines, in the same order if there are at most ten sub-domains.  Missing for the full property: the
order of more than ten sub-domains (`C44_eleven_fails`) and double precision. -/
theorem C44_partial {α π γ : Type} (r32 : α → α) (r0 : Heavy α π γ) (rs : List (Heavy α π γ))
    (hrs : ∀ r ∈ r0 :: rs, SaneResult r) :
    ∃ f loaded, saveMulti r32 (r0 :: rs) = .ok f ∧ loadMulti f = .ok loaded ∧
      loaded.length = (r0 :: rs).length ∧
      ∀ i (h : i < (r0 :: rs).length) (h' : i < loaded.length),
        LoadedPass r32 (r0 :: rs)[i] loaded[i] ∧ loaded[i].params = r0.params ∧ loaded[i].couple = r0.couple := by
  obtain ⟨f, gs, h1, h2, h3, h4, _, _, h7, h8, h9⟩ := saveMulti_file r32 r0 rs hrs
  obtain ⟨loaded, l1, l2, l3⟩ := loadPasses_ok f r0.params r0.couple gs (List.range f.nbPasses) (by
    intro ip hip
    rw [List.mem_range, h2] at hip
    exact ⟨by omega, h9 ip (by omega)⟩)
  refine ⟨f, loaded, h1, by simp only [loadMulti, h3, h4, l1], by simp [l2, h2], ?_⟩
  intro i hi hi'
  simp only [List.length_cons] at hi
  have e := l3 i (by simp [h2]; omega) hi' (by simp; omega)
  simp only [List.getElem_range] at e
  rw [e]
  exact ⟨h8 i (by simpa using hi) (by omega) _ _, rfl, rfl⟩

/-- C44: after a first cycle the arrays are in single precision: saving and loading again changes no array and no
dictionary. -/
theorem C44_stable {α π γ : Type} (r32 : α → α) (r r1 r2 : Heavy α π γ) (h1 : LoadedPass r32 r r1)
    (h2 : LoadedPass r32 r1 r2) : (∀ k, r2.arr k = r1.arr k) ∧ ∀ n, r2.dict n = r.dict n := by
  constructor
  · intro k
    have a1 := h1.arrays k
    have a2 := h2.arrays k
    cases e : r.arr k <;> cases e1 : r1.arr k <;> cases e2 : r2.arr k <;> rw [e, e1] at a1 <;> rw [e1, e2] at a2 <;>
      simp only [BothOrNone] at a1 a2 <;> first | rfl | skip
    · rename_i a b c
      have hb : b.f64 = false := by
        cases ha : a.f64 with
        | false => rw [a1.1 ha]; exact ha
        | true => exact (a1.2 ha).1
      rw [a2.1 hb]
  · intro n; rw [h2.dicts n, h1.dicts n]

/-- The hypotheses: what is loaded from the file of what has been loaded. -/
example : ∃ r1 r2 : Heavy Nat Nat Nat, LoadedPass (fun n => n / 10 * 10) ⟨fun k => if k = .xs then some ⟨true, [101, 112]⟩ else none,
      fun _ => none, none, 0, 0⟩ r1 ∧ LoadedPass (fun n => n / 10 * 10) r1 r2 := by
  refine ⟨⟨fun k => if k = .xs then some ⟨false, [100, 110]⟩ else none, fun _ => none, none, 0, 0⟩,
    ⟨fun k => if k = .xs then some ⟨false, [100, 110]⟩ else none, fun _ => none, none, 0, 0⟩, ⟨?_, fun _ => rfl, ?_⟩, ⟨?_, fun _ => rfl, ?_⟩⟩
  all_goals first
    | (intro k; by_cases h : k = .xs <;> simp [h, BothOrNone, SameArray])
    | simp [BothOrNone]

/-- C44 fails for more than ten sub-domains: whatever the arrays, if they are different from each other and there are
at least eleven of them, the loaded list is not the saved one (the names are read in the order subdom0,
subdom1, subdom10, subdom2, …). -/
theorem C44_eleven_fails {α : Type} (as : List (List α)) (hn : as.Nodup) (hl : 11 ≤ as.length) :
    ∃ g, saveTps 0 as [] = .ok g ∧ g.map Prod.snd ≠ as := by
  obtain ⟨g, h1, _, _, hs, hp⟩ := tps_back as
  refine ⟨g, h1, ?_⟩
  intro hc
  have hlen : g.length = as.length := by rw [← hc]; simp
  have hname : ∀ k (hk : k < g.length), (g[k]).1 = subdomName k := by
    intro k hk
    have hm : g[k] ∈ h5entries subdomName 0 as := hp.mem_iff.1 (List.getElem_mem _)
    obtain ⟨j, hj, e⟩ := (h5entries_mem _ _ _ _).1 hm
    have e2 : (g[k]).2 = as[k]'(by omega) := by
      have : (g.map Prod.snd)[k]'(by simpa using hk) = as[k]'(by omega) := by
        simp only [hc]
      simpa using this
    rw [e] at e2
    have : j = k := (List.Nodup.getElem_inj_iff hn).1 e2
    rw [e]; simp [this]
  have hlt := List.pairwise_iff_getElem.1 hs 2 10 (by omega) (by omega) (by omega)
  rw [hname 2, hname 10, subdomName, subdomName, nameLt_prefix, natStr_small 2 (by omega),
    natStr_two 10 (by omega) (by omega)] at hlt
  revert hlt; decide

/-- A pass used as an example: three vectors, one error, two sub-domains. -/
def pivWitness : Heavy Nat Nat Nat where
  arr k := if k = .deltaxs then some ⟨false, [1, 2, 3]⟩ else if k = .xs then some ⟨true, [101, 102, 103]⟩
    else if k = .ixvecs_final then some ⟨false, [4, 5, 6]⟩ else if k = .iyvecs_final then some ⟨false, [7, 8, 9]⟩
    else if k = .deltaxs_final then some ⟨false, [1, 1, 1]⟩ else if k = .deltays_final then some ⟨false, [2, 2, 2]⟩
    else none
  dict n := if n = .errors then some (.texts [(2, "correl < correl_min".toList)]) else none
  tps := some ([[1], [2]], [[3], [4]])
  params := 0
  couple := 0

theorem pivWitness_sane : SaneResult pivWitness := by
  refine ⟨?_, ?_, ?_⟩
  · intro n d h
    cases n
    · cases h; exact List.nodup_singleton _
    · cases h
    · cases h
  · intro n d h; cases n <;> cases h
  · intro d h; cases h; exact ⟨_, rfl⟩

example : ∃ f loaded, saveMulti (· / 10) [pivWitness, pivWitness] = .ok f ∧ loadMulti f = .ok loaded ∧
    loaded.length = 2 := by
  obtain ⟨f, l, h1, h2, h3, _⟩ := C44_partial (· / 10) pivWitness [pivWitness]
    (by intro r hr; simp at hr; subst hr; exact pivWitness_sane)
  exact ⟨f, l, h1, h2, h3⟩

example : ((List.range 11).map (fun i => [i])).Nodup ∧ 11 ≤ ((List.range 11).map (fun i => [i])).length := by decide

/-- C44: the code saved with an error is that of its first reason, whatever follows. -/
theorem C44_codes (rest : List Char) :
    errorCode ("Correlation peak touching".toList ++ rest) = 1 ∧
    errorCode ("correl < correl_min".toList ++ rest) = 2 ∧
    errorCode ("delta2 < displacement_max2".toList ++ rest) = 3 ∧
    errorCode ("diff neighbour too large".toList ++ rest) = 4 := by
  refine ⟨?_, ?_, ?_, ?_⟩ <;> simp [errorCode, startsWith]

theorem startsWith_iff : ∀ (t p : List Char), startsWith t p = true ↔ p <+: t
  | t, [] => by simp [startsWith]
  | [], _ :: _ => by simp [startsWith]
  | a :: t, b :: p => by
    rw [startsWith, Bool.and_eq_true, startsWith_iff t p, List.cons_prefix_cons, beq_iff_eq]
    exact ⟨fun h => ⟨h.1.symm, h.2⟩, fun h => ⟨h.1.symm, h.2⟩⟩

/-- C44: an error with another reason has the code 255. -/
theorem C44_codes_other (error : List Char)
    (h : ∀ reason ∈ ["Correlation peak touching", "correl < correl_min", "delta2 < displacement_max2", "diff neighbour too large"],
      ¬ reason.toList <+: error) : errorCode error = 255 := by
  have key : ∀ reason ∈ ["Correlation peak touching", "correl < correl_min", "delta2 < displacement_max2", "diff neighbour too large"],
      ¬ startsWith error reason.toList = true := fun r hr hc => h r hr ((startsWith_iff _ _).1 hc)
  unfold errorCode
  rw [if_neg (key _ (by simp)), if_neg (key _ (by simp)), if_neg (key _ (by simp)), if_neg (key _ (by simp))]

example : ∀ reason ∈ ["Correlation peak touching", "correl < correl_min", "delta2 < displacement_max2", "diff neighbour too large"],
    ¬ reason.toList <+: "Bad im_crop shape.".toList := by decide +kernel

/-! ## Light results -/

theorem pyItem_last {β : Type} (l : List β) (a : β) : pyItem (l ++ [a]) (-1) = .ok a := by
  unfold pyItem
  have e : (-1 : Int) + ((l ++ [a]).length : Nat) = (l.length : Nat) := by
    rw [List.length_append, List.length_singleton]; omega
  simp only [show (-1 : Int) < 0 by omega, if_true, e]
  rw [if_neg (by omega)]
  simp

/-- C45 for the default (`ind_pass=-1`): the light result has the final displacements and the final coordinates of the
last pass, x as x and y as y. -/
theorem C45_last {α π γ : Type} (passes : List (Heavy α π γ)) (r : Heavy α π γ) (dx dy ix iy : Arr α)
    (h1 : r.arr .deltaxs_final = some dx) (h2 : r.arr .deltays_final = some dy)
    (h3 : r.arr .ixvecs_final = some ix) (h4 : r.arr .iyvecs_final = some iy) :
    makeLight (passes ++ [r]) (-1) = .ok ⟨dx, dy, ix, iy, r.params, r.couple⟩ := by
  simp only [makeLight, pyItem_last, lightArrs, h1, h2, h3, h4, if_true]

example : (makeLight [pivWitness, pivWitness] (-1)).toOption.map (fun l => l.iyvecs_final.data) = some [7, 8, 9] := by
  decide

/-- C45 fails for every other way of choosing a pass: the y coordinates of the light result are the x coordinates. -/
theorem C45_other_pass_fails {α π γ : Type} (passes : List (Heavy α π γ)) (i : Int) (hi : i ≠ -1)
    (l : Light α π γ) (h : makeLight passes i = .ok l) :
    ∃ r ∈ passes, r.arr .ixvecs_approx = some l.ixvecs_final ∧ l.iyvecs_final = l.ixvecs_final ∧
      r.arr .deltaxs_approx = some l.deltaxs_final ∧ r.arr .deltays_approx = some l.deltays_final := by
  unfold makeLight at h
  cases hp : pyItem passes i with
  | error e => rw [hp] at h; cases h
  | ok r =>
    rw [hp] at h
    simp only [lightArrs, if_neg hi] at h
    have hr : r ∈ passes := by
      unfold pyItem at hp
      simp only at hp
      generalize (if i < 0 then i + (passes.length : Int) else i) = j at hp
      split at hp
      · cases hp
      · split at hp
        · rename_i hj; cases hp; exact List.mem_of_getElem? hj
        · cases hp
    cases h1 : r.arr .deltaxs_approx <;> cases h2 : r.arr .deltays_approx <;> cases h3 : r.arr .ixvecs_approx <;>
      rw [h1, h2, h3] at h <;> first | (exfalso; revert h; simp; done) | skip
    cases h
    exact ⟨r, hr, h3, rfl, h1, h2⟩

/-- A first pass with 2 vectors at (10, 30) and (20, 40). -/
def lightWitness : Heavy Nat Nat Nat where
  arr k := if k = .deltaxs_approx then some ⟨false, [1, 1]⟩ else if k = .deltays_approx then some ⟨false, [2, 2]⟩
    else if k = .ixvecs_approx then some ⟨false, [10, 20]⟩ else if k = .iyvecs_approx then some ⟨false, [30, 40]⟩
    else none
  dict _ := none
  tps := none
  params := 0
  couple := 0

/-- C45: concrete case: the y coordinates of the first pass are 30 and 40, the light result says 10 and 20. -/
theorem C45_witness : (makeLight [lightWitness, pivWitness] 0).toOption.map (fun l => l.iyvecs_final.data)
    = some [10, 20] := by decide

/-- C45: the last pass chosen by its index instead of -1 is refused (the last pass has no approximate field). -/
theorem C45_last_index : (makeLight [lightWitness, pivWitness] 1).toOption.isNone = true ∧
    (makeLight [lightWitness, pivWitness] (-1)).toOption.isSome = true := by decide

/-- C45: a light result saved and loaded again has exactly the same arrays. -/
theorem C45_file {α π γ : Type} (l : Light α π γ) :
    ∃ a, loadLight (saveLight l) = .ok a ∧ a .ixvecs_final = some l.ixvecs_final ∧
      a .iyvecs_final = some l.iyvecs_final ∧ a .deltaxs_final = some l.deltaxs_final ∧
      a .deltays_final = some l.deltays_final :=
  ⟨_, rfl, rfl, rfl, rfl, rfl⟩

/-! ### Light results read from the file of a multi-pass result -/

theorem maxName_ok (n : List Char) (ns : List (List Char)) :
    ∃ m, maxName (n :: ns) = .ok m ∧ m ∈ n :: ns ∧ ∀ q ∈ n :: ns, q = m ∨ nameLt q m = true := by
  have H : ∀ (ns : List (List Char)) (n : List Char),
      (ns.foldl (fun m n => if nameLt m n then n else m) n) ∈ n :: ns ∧
      ∀ q ∈ n :: ns, q = (ns.foldl (fun m n => if nameLt m n then n else m) n) ∨
        nameLt q (ns.foldl (fun m n => if nameLt m n then n else m) n) = true := by
    intro ns
    induction ns with
    | nil => intro n; simp
    | cons n' ns ih =>
      intro n
      simp only [List.foldl_cons]
      by_cases h : nameLt n n' = true
      · rw [if_pos h]
        obtain ⟨h1, h2⟩ := ih n'
        refine ⟨List.mem_cons_of_mem _ h1, ?_⟩
        intro q hq
        rcases List.mem_cons.1 hq with rfl | hq
        · right
          rcases h2 n' (by simp) with h3 | h3
          · rw [← h3]; exact h
          · exact nameLt_trans _ _ _ h h3
        · exact h2 q hq
      · rw [if_neg h]
        obtain ⟨h1, h2⟩ := ih n
        refine ⟨?_, ?_⟩
        · rcases List.mem_cons.1 h1 with h3 | h3
          · rw [h3]; simp
          · simp [h3]
        · intro q hq
          rcases List.mem_cons.1 hq with rfl | hq
          · exact h2 _ (by simp)
          · rcases List.mem_cons.1 hq with rfl | hq
            · by_cases hnq : n = q
              · subst hnq; exact h2 _ (by simp)
              · rcases nameLt_total n q hnq with h3 | h3
                · exact absurd h3 h
                · right
                  rcases h2 n (by simp) with h4 | h4
                  · rw [← h4]; exact h3
                  · exact nameLt_trans _ _ _ h3 h4
            · exact h2 q (by simp [hq])
  exact ⟨_, rfl, H ns n⟩

theorem containsPiv_passName (i : Nat) : containsPiv (passName i) = true := by
  simp [passName, containsPiv, startsWith]

/-- Reading the file of a multi-pass result as a light result takes the pass with the largest name. -/
theorem loadLight_pass {α π γ : Type} (r32 : α → α) (r0 : Heavy α π γ) (rs : List (Heavy α π γ))
    (hrs : ∀ r ∈ r0 :: rs, SaneResult r) :
    ∃ f a k, saveMulti r32 (r0 :: rs) = .ok f ∧ loadLight f = .ok a ∧ k < rs.length + 1 ∧
      (∀ j, j < rs.length + 1 → j = k ∨ nameLt (passName j) (passName k) = true) ∧
      ∀ r, (r0 :: rs)[k]? = some r → ∀ key ∈ [Key.ixvecs_final, .iyvecs_final, .deltaxs_final, .deltays_final],
        BothOrNone (SameArray r32) (r.arr key) (a key) := by
  obtain ⟨f, gs, h1, h2, h3, h4, h5, h6, h7, h8, h9⟩ := saveMulti_file r32 r0 rs hrs
  have hnames : ∀ q, q ∈ (f.groups.map Prod.fst).filter containsPiv ↔ ∃ j, j < gs.length ∧ q = passName j := by
    intro q
    rw [List.mem_filter, List.mem_map]
    constructor
    · rintro ⟨⟨e, he, rfl⟩, _⟩
      obtain ⟨j, hj, rfl⟩ := (h5entries_mem _ _ _ _).1 (h5.mem_iff.1 he)
      exact ⟨j, hj, by simp⟩
    · rintro ⟨j, hj, rfl⟩
      exact ⟨⟨(passName j, gs[j]), h5.mem_iff.2 ((h5entries_mem _ _ _ _).2 ⟨j, hj, by simp⟩), rfl⟩,
        containsPiv_passName j⟩
  cases hl : (f.groups.map Prod.fst).filter containsPiv with
  | nil =>
    have := (hnames (passName 0)).2 ⟨0, by omega, rfl⟩
    rw [hl] at this; cases this
  | cons n ns =>
    obtain ⟨m, hm1, hm2, hm3⟩ := maxName_ok n ns
    rw [← hl] at hm2
    obtain ⟨k, hk, rfl⟩ := (hnames m).1 hm2
    have hget := h9 k hk
    refine ⟨f, loadArrs gs[k].arrs [Key.ixvecs_final, Key.iyvecs_final, Key.deltaxs_final, Key.deltays_final]
      (fun _ => none), k, h1, by simp only [loadLight, h3, h4, hl, hm1, hget], by omega, ?_, ?_⟩
    · intro j hj
      rw [← hl] at hm3
      rcases hm3 _ ((hnames (passName j)).2 ⟨j, by omega, rfl⟩) with h | h
      · exact Or.inl (passName_inj _ _ h)
      · exact Or.inr h
    · intro r hr key hkey
      have hrl : k < (r0 :: rs).length := by simp; omega
      rw [List.getElem?_eq_getElem hrl] at hr
      cases hr
      have := (h8 k hrl hk r0.params r0.couple).arrays key
      simp only [loadHeavy, loadArrs_apply, keys_complete, if_true] at this
      rw [loadArrs_apply, if_pos hkey]
      exact this

/-- C45: with at most ten passes, reading the file of a multi-pass result as a light result gives the final
displacements and coordinates of the last pass. -/
theorem C45_file_ten {α π γ : Type} (r32 : α → α) (r0 : Heavy α π γ) (rs : List (Heavy α π γ))
    (hrs : ∀ r ∈ r0 :: rs, SaneResult r) (hl : rs.length + 1 ≤ 10) :
    ∃ f a, saveMulti r32 (r0 :: rs) = .ok f ∧ loadLight f = .ok a ∧
      ∀ key ∈ [Key.ixvecs_final, .iyvecs_final, .deltaxs_final, .deltays_final],
        BothOrNone (SameArray r32) (((r0 :: rs).getLast (by simp)).arr key) (a key) := by
  obtain ⟨f, a, k, h1, h2, h3, h4, h5⟩ := loadLight_pass r32 r0 rs hrs
  have hk : k = rs.length := by
    by_contra hc
    have hlt := natStr_lt_small k rs.length (by omega) (by omega)
    rcases h4 rs.length (by omega) with h | h
    · exact hc h.symm
    · rw [passName, passName, nameLt_prefix] at h
      have := nameLt_trans _ _ _ hlt h
      rw [nameLt_irrefl] at this; cases this
  refine ⟨f, a, h1, h2, h5 _ ?_⟩
  rw [hk, List.getLast_eq_getElem, List.getElem?_eq_getElem]
  rfl

/-- C45 fails for a file with 11 to 90 passes: the pass number 9 is read instead of the last one. -/
theorem C45_file_eleven_fails {α π γ : Type} (r32 : α → α) (r0 : Heavy α π γ) (rs : List (Heavy α π γ))
    (hrs : ∀ r ∈ r0 :: rs, SaneResult r) (hl : 11 ≤ rs.length + 1) (hl2 : rs.length + 1 ≤ 90) :
    ∃ f a, saveMulti r32 (r0 :: rs) = .ok f ∧ loadLight f = .ok a ∧
      ∀ r, (r0 :: rs)[9]? = some r →
        ∀ key ∈ [Key.ixvecs_final, .iyvecs_final, .deltaxs_final, .deltays_final],
        BothOrNone (SameArray r32) (r.arr key) (a key) := by
  obtain ⟨f, a, k, h1, h2, h3, h4, h5⟩ := loadLight_pass r32 r0 rs hrs
  have hk : k = 9 := by
    by_contra hc
    rcases h4 9 (by omega) with h | h
    · exact hc h.symm
    · rw [passName, passName, nameLt_prefix] at h
      have hlt : nameLt (natStr k) (natStr 9) = true := by
        by_cases h10 : k < 10
        · exact natStr_lt_small k 9 (by omega) (by omega)
        · rw [natStr_two k (by omega) (by omega), natStr_small 9 (by omega)]
          simp only [nameLt, digitChar_toNat (k / 10) (by omega), digitChar_toNat 9 (by omega)]
          rw [if_pos (by omega)]
      have := nameLt_trans _ _ _ hlt h
      rw [nameLt_irrefl] at this; cases this
  subst hk
  exact ⟨f, a, h1, h2, h5⟩

/-- Passes that meet the hypotheses of the two theorems. -/
example (n : Nat) : ∀ r ∈ pivWitness :: List.replicate n pivWitness, SaneResult r := by
  intro r hr
  rcases List.mem_cons.1 hr with rfl | hr
  · exact pivWitness_sane
  · rw [List.eq_of_mem_replicate hr]; exact pivWitness_sane

end Verif
