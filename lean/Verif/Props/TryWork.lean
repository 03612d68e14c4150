import Verif.Model.TryWork
import Verif.Props.Piv
import Verif.Props.Mask

/-!
# Trial on one couple of images (C115)
-/

namespace Verif
open Verif.Exec Verif.Spec Verif.TryWork Verif.PivGrid Verif.Mask Verif.ResultsFiles Verif.Text

namespace TryWork
variable {F P : Type}

/-! ## Specification -/

/-- The results saved for the couple `i` during a run, in order. -/
def savedFor (log : List (Event Key (Val F) PyErr)) (i : Int) : List (Result F) :=
  log.filterMap fun e => match e with
    | .call _ (.idx j) (.results r) => if j = i then some r else none
    | _ => none

/-- The couple `i` is reported as not done. -/
def ReportedFor (log : List (Event Key (Val F) PyErr)) (i : Int) : Prop := ∃ w e, Event.dropped w (.idx i) e ∈ log

/-- The couples `cs` of a computation (index, names of its two different images), whose images are in the directory `dir`,
as seen by fluiddyn's series; a path and its absolute path are the same file; a file which can be read exists. -/
structure Setup (E : Ext F) (S : Series) (dir : Txt) (cs : List (Int × Txt × Txt)) : Prop where
  keys : (cs.map fun c => c.1).Nodup
  differ : ∀ c ∈ cs, c.2.1 ≠ c.2.2
  serie : ∀ c ∈ cs, S.serie c.1 = .ok ⟨[c.2.1, c.2.2], [dir ++ ['/'] ++ c.2.1, dir ++ ['/'] ++ c.2.2]⟩
  absolute : ∀ p, E.imread (E.abspath p) = E.imread p
  exists_ : ∀ p a, E.imread p = .ok a → E.exist p = true

/-- The mask can be applied to every image. -/
def MaskAccepted (mask : MaskParams) : Prop := ∀ im : Img Int, ∃ im', maskArray (some mask) im = .ok im'

/-- A work made with the given parameters and used for any trials before. -/
def usedWork (make : P → Except PyErr Series) (p : P) (mask : MaskParams) (before : List (Option Int)) : Obj P :=
  before.foldl (fun o i => (getSerie make o i).1) ⟨p, mask, none⟩

/-- The expected content of the results for an outcome of the trial. -/
def expected : Except PyErr (Result F) → List (Result F)
  | .ok r => [r]
  | .error _ => []

/-- A result without the information about the serie it comes from. -/
def Result.withoutSerie (r : Result F) : Result F := { r with couple := { r.couple with serie := none } }

/-! ## The couples -/

theorem maskArrays_none (l : List (Img Int)) : maskArrays none l = .ok l := by
  induction l with
  | nil => rfl
  | cons a l ih => simp [maskArrays, maskArray, ih]

theorem maskArrays_two (pm : Option MaskParams) (a b a' b' : Img Int) (ha : maskArray pm a = .ok a')
    (hb : maskArray pm b = .ok b') : maskArrays pm [a, b] = .ok [a', b'] := by
  simp [maskArrays, ha, hb]

theorem used_state (make : P → Except PyErr Series) (p : P) (mask : MaskParams) (S : Series) (hS : make p = .ok S)
    (before : List (Option Int)) :
    (usedWork make p mask before).mask = mask ∧ (usedWork make p mask before).series = p ∧
    ((usedWork make p mask before).cache = none ∨ (usedWork make p mask before).cache = some S) := by
  have key : ∀ (l : List (Option Int)) (o : Obj P), o.mask = mask → o.series = p → (o.cache = none ∨ o.cache = some S) →
      (l.foldl (fun o i => (getSerie make o i).1) o).mask = mask ∧
      (l.foldl (fun o i => (getSerie make o i).1) o).series = p ∧
      ((l.foldl (fun o i => (getSerie make o i).1) o).cache = none ∨
       (l.foldl (fun o i => (getSerie make o i).1) o).cache = some S) := by
    intro l
    induction l with
    | nil => intro o h1 h2 h3; exact ⟨h1, h2, h3⟩
    | cons i l ih =>
      intro o h1 h2 h3
      rw [List.foldl_cons]
      rcases h3 with h3 | h3
      · refine ih _ ?_ ?_ ?_ <;> simp [getSerie, h3, h2, hS, h1]
      · refine ih _ ?_ ?_ ?_ <;> simp [getSerie, h3, h2, h1]
  exact key before _ rfl rfl (Or.inl rfl)

theorem getSerie_used (make : P → Except PyErr Series) (p : P) (mask : MaskParams) (S : Series) (hS : make p = .ok S)
    (before : List (Option Int)) (i : Option Int) :
    (getSerie make (usedWork make p mask before) i).2 = S.serie (i.getD S.indStart) ∧
    (getSerie make (usedWork make p mask before) i).1.mask = mask := by
  obtain ⟨h1, h2, h3⟩ := used_state make p mask S hS before
  rcases h3 with h3 | h3 <;> simp [getSerie, h3, h2, h1, hS]

/-- The events of a couple decide what is saved and reported for it. -/
theorem saved_of_events {imread : Key → Val F → Except PyErr (Val F)} {im2im : Option (Key → Val F → Except PyErr (Val F))}
    {O : CoupleOps Key (Val F) PyErr} {computePiv savePiv : Key → Val F → Except PyErr (Val F)} {path : Key → Val F}
    {cs : List (Int × Txt × Txt)} {log : List (Event Key (Val F) PyErr)}
    (h : PivDone imread im2im O computePiv savePiv path (TryWork.keys cs) log) (i : Int) :
    savedFor log i = savedFor (eventsOf (fun w => decide ((loadWorks imread im2im).length ≤ w)) (.idx i) log) i ∧
    (ReportedFor log i ↔
      ReportedFor (eventsOf (fun w => decide ((loadWorks imread im2im).length ≤ w)) (.idx i) log) i) := by
  have hno := h.noOtherImage (.idx i) (by
    intro c hc
    obtain ⟨d, -, rfl⟩ := List.mem_map.1 hc
    exact ⟨by simp, by simp⟩)
  -- every event of the key is an event of a work on couples
  have hall : ∀ e ∈ log, (match e with
      | .call w k _ => k = .idx i → (loadWorks imread im2im).length ≤ w
      | .dropped w k _ => k = .idx i → (loadWorks imread im2im).length ≤ w
      | _ => True) := by
    intro e he
    have := List.filter_eq_nil_iff.1 hno e he
    cases e with
    | call w k v =>
      intro hk
      simp only [hk, Bool.and_eq_true, decide_eq_true_eq, and_true] at this
      omega
    | dropped w k v =>
      intro hk
      simp only [hk, Bool.and_eq_true, decide_eq_true_eq, and_true] at this
      omega
    | failed w k v => trivial
    | note w k v => trivial
  constructor
  · unfold savedFor eventsOf
    rw [List.filterMap_filter]
    apply List.filterMap_congr
    intro e he
    have := hall e he
    cases e with
    | call w k v =>
      cases k with
      | name n => simp
      | idx j =>
        by_cases hj : j = i
        · subst hj
          have hw := this rfl
          simp [hw]
        · cases v <;> simp [hj]
    | dropped w k v => simp
    | failed w k v => simp
    | note w k v => simp
  · constructor
    · rintro ⟨w, e, he⟩
      refine ⟨w, e, List.mem_filter.2 ⟨he, ?_⟩⟩
      have := hall _ he rfl
      simp [this]
    · rintro ⟨w, e, he⟩
      exact ⟨w, e, (List.mem_filter.1 he).1⟩

/-- What is saved and reported for a couple, from the couple of its images. -/
theorem events_error (E : Ext F) (mask : MaskParams) (save : Result F → Except PyErr Unit) (i : Int) (w : Nat) (e : PyErr) :
    savedFor (itemEvents (.idx i) w [⟨false, computeWork E mask⟩, ⟨true, saveWork save⟩] (.error e)) i = [] ∧
    ReportedFor (itemEvents (.idx i) w [⟨false, computeWork E mask⟩, ⟨true, saveWork save⟩] (.error e)) i := by
  simp [itemEvents, savedFor, ReportedFor]

theorem events_couple (E : Ext F) (mask : MaskParams) (save : Result F → Except PyErr Unit) (i : Int) (w : Nat) (c : Couple) :
    savedFor (itemEvents (.idx i) w [⟨false, computeWork E mask⟩, ⟨true, saveWork save⟩] (.ok (.couple c))) i =
      expected (calcul E mask (.couple c)) ∧
    (∀ e, calcul E mask (.couple c) = .error e →
      ReportedFor (itemEvents (.idx i) w [⟨false, computeWork E mask⟩, ⟨true, saveWork save⟩] (.ok (.couple c))) i) := by
  cases hc : calcul E mask (.couple c) with
  | error e =>
    have : computeWork E mask (.idx i) (.couple c) = .error e := by simp [computeWork, hc]
    refine ⟨by simp [itemEvents, this, savedFor, expected], fun _ _ => ?_⟩
    refine ⟨w + 1, e, ?_⟩
    simp [itemEvents, this]
  | ok r =>
    have : computeWork E mask (.idx i) (.couple c) = .ok (.results r) := by simp [computeWork, hc]
    refine ⟨?_, fun e he => by cases he⟩
    simp only [itemEvents, this]
    cases hs : saveWork save (.idx i) (.results r) with
    | error e => simp [savedFor, expected]
    | ok v => simp [savedFor, expected]

/-! ## The images -/

/-- The image used for the file `n` of the directory: it is read, then given with its name to the function, if there is one. -/
def loaded (E : Ext F) (f : Option (Txt → Img Int → Except PyErr (Img Int))) (dir n : Txt) : Except PyErr (Img Int) :=
  match E.imread (dir ++ ['/'] ++ n) with
  | .error e => .error e
  | .ok a => match f with
    | none => .ok a
    | some f => f n a

theorem imageOf_loaded (E : Ext F) (f : Option (Txt → Img Int → Except PyErr (Img Int))) (dir n : Txt) :
    imageOf (.name n) (loadWorks (readWork E) (f.map im2imWork)) (.ok (pathOf dir (.name n))) =
      (match loaded E f dir n with
       | .error e => .error e
       | .ok a => .ok (Val.image a)) := by
  cases f with
  | none =>
    cases h : E.imread (dir ++ ['/'] ++ n) with
    | error e => simp only [loaded, h, Option.map_none, loadWorks, imageOf, readWork, pathOf]
    | ok a => simp only [loaded, h, Option.map_none, loadWorks, imageOf, readWork, pathOf]
  | some g =>
    cases h : E.imread (dir ++ ['/'] ++ n) with
    | error e => simp only [loaded, h, Option.map_some, loadWorks, imageOf, readWork, pathOf]
    | ok a =>
      cases hg : g n a with
      | error e => simp only [loaded, h, hg, Option.map_some, loadWorks, imageOf, readWork, pathOf, im2imWork]
      | ok b => simp only [loaded, h, hg, Option.map_some, loadWorks, imageOf, readWork, pathOf, im2imWork]

theorem loaded_exists (E : Ext F) (f : Option (Txt → Img Int → Except PyErr (Img Int))) (dir n : Txt) (a : Img Int)
    (h : loaded E f dir n = .ok a) : ∃ b, E.imread (dir ++ ['/'] ++ n) = .ok b := by
  unfold loaded at h
  cases h1 : E.imread (dir ++ ['/'] ++ n) with
  | error e => rw [h1] at h; cases h
  | ok b => exact ⟨b, rfl⟩

/-- The serie of a couple. -/
def serieOf (dir : Txt) (c : Int × Txt × Txt) : Serie :=
  ⟨[c.2.1, c.2.2], [dir ++ ['/'] ++ c.2.1, dir ++ ['/'] ++ c.2.2]⟩

/-- The masked couple of two images. -/
def theCouple (E : Ext F) (dir : Txt) (mask : MaskParams) (c : Int × Txt × Txt) (a0 m0 m1 : Img Int) (s : Option Serie) : Couple :=
  ⟨[c.2.1, c.2.2], some [E.abspath (dir ++ ['/'] ++ c.2.1), E.abspath (dir ++ ['/'] ++ c.2.2)], (a0.ny, a0.nx), [m0, m1],
    some mask, s⟩

theorem make_ok {E : Ext F} {S : Series} {dir : Txt} {cs : List (Int × Txt × Txt)} (hs : Setup E S dir cs) (mask : MaskParams)
    (c : Int × Txt × Txt) (hc : c ∈ cs) (a0 a1 m0 m1 b0 b1 : Img Int) (h0 : E.imread (dir ++ ['/'] ++ c.2.1) = .ok b0)
    (h1 : E.imread (dir ++ ['/'] ++ c.2.2) = .ok b1) (hm0 : maskArray (some mask) a0 = .ok m0)
    (hm1 : maskArray (some mask) a1 = .ok m1) :
    makeCouple E S mask (.idx c.1) (.name c.2.1, .name c.2.2) (.image a0, .image a1) =
      .ok (.couple (theCouple E dir mask c a0 m0 m1 (some (serieOf dir c)))) := by
  have e0 := hs.exists_ _ _ h0
  have e1 := hs.exists_ _ _ h1
  rw [List.append_assoc, List.singleton_append] at e0 e1
  simp [makeCouple, hs.serie c hc, newCouple, namesPaths, givenArrays, e0, e1, maskArrays_two _ _ _ _ _ hm0 hm1, theCouple,
    serieOf]

theorem accepted {E : Ext F} {S : Series} {dir : Txt} {cs : List (Int × Txt × Txt)} (hs : Setup E S dir cs) {mask : MaskParams}
    (hm : MaskAccepted mask) (f : Option (Txt → Img Int → Except PyErr (Img Int))) :
    CouplesAccepted (coupleOps E S mask)
      (fun n => imageOf n (loadWorks (readWork E) (f.map im2imWork)) (.ok (pathOf dir n))) (TryWork.keys cs) := by
  intro k n0 n1 hk a0 a1 h0 h1
  obtain ⟨c, hc, he⟩ := List.mem_map.1 hk
  cases he
  simp only [imageOf_loaded] at h0 h1
  cases l0 : loaded E f dir c.2.1 with
  | error e => rw [l0] at h0; cases h0
  | ok i0 =>
    cases l1 : loaded E f dir c.2.2 with
    | error e => rw [l1] at h1; cases h1
    | ok i1 =>
      rw [l0] at h0; rw [l1] at h1
      cases h0; cases h1
      obtain ⟨b0, hb0⟩ := loaded_exists E f dir _ _ l0
      obtain ⟨b1, hb1⟩ := loaded_exists E f dir _ _ l1
      obtain ⟨m0, hm0⟩ := hm i0
      obtain ⟨m1, hm1⟩ := hm i1
      exact ⟨_, make_ok hs mask c hc i0 i1 m0 m1 b0 b1 hb0 hb1 hm0 hm1⟩

theorem keys_nodup {E : Ext F} {S : Series} {dir : Txt} {cs : List (Int × Txt × Txt)} (hs : Setup E S dir cs) :
    ((TryWork.keys cs).map fun c => c.1).Nodup := by
  have : (TryWork.keys cs).map (fun c => c.1) = (cs.map fun c => c.1).map Key.idx := by simp [TryWork.keys]
  rw [this]
  exact hs.keys.map (fun a b h => by cases h; rfl)

theorem keys_differ {E : Ext F} {S : Series} {dir : Txt} {cs : List (Int × Txt × Txt)} (hs : Setup E S dir cs) :
    ∀ c ∈ TryWork.keys cs, c.2.1 ≠ c.2.2 := by
  intro c hc
  obtain ⟨d, hd, rfl⟩ := List.mem_map.1 hc
  have := hs.differ d hd
  simpa using this

/-- What a run saves and reports for a couple, from its images. -/
theorem run_couple {E : Ext F} {S : Series} {dir : Txt} {cs : List (Int × Txt × Txt)} (hs : Setup E S dir cs) {mask : MaskParams}
    {f : Option (Txt → Img Int → Except PyErr (Img Int))} {save : Result F → Except PyErr Unit}
    {log : List (Event Key (Val F) PyErr)}
    (h : PivDone (readWork E) (f.map im2imWork) (coupleOps E S mask) (computeWork E mask) (saveWork save) (pathOf dir)
      (TryWork.keys cs) log) (c : Int × Txt × Txt) (hc : c ∈ cs) :
    (((∃ e, loaded E f dir c.2.1 = .error e) ∨ (∃ e, loaded E f dir c.2.2 = .error e)) →
      savedFor log c.1 = [] ∧ ReportedFor log c.1) ∧
    (∀ a0 a1 m0 m1, loaded E f dir c.2.1 = .ok a0 → loaded E f dir c.2.2 = .ok a1 → maskArray (some mask) a0 = .ok m0 →
      maskArray (some mask) a1 = .ok m1 →
      savedFor log c.1 =
        expected (calcul E mask (.couple (theCouple E dir mask c a0 m0 m1 (some (serieOf dir c))))) ∧
      (∀ e, calcul E mask (.couple (theCouple E dir mask c a0 m0 m1 (some (serieOf dir c)))) = .error e →
        ReportedFor log c.1)) := by
  obtain ⟨k1, k2⟩ := saved_of_events h c.1
  have hev := h.couples (.idx c.1) (.name c.2.1) (.name c.2.2) (List.mem_map.2 ⟨c, hc, rfl⟩)
  rw [hev] at k1 k2
  rw [k1, k2, imageOf_loaded, imageOf_loaded]
  constructor
  · rintro (⟨e, he⟩ | ⟨e, he⟩)
    · rw [he]
      exact events_error E mask save c.1 _ e
    · rw [he]
      cases h0 : loaded E f dir c.2.1 with
      | error e0 => exact events_error E mask save c.1 _ e0
      | ok a0 => exact events_error E mask save c.1 _ e
  · intro a0 a1 m0 m1 h0 h1 hm0 hm1
    obtain ⟨b0, hb0⟩ := loaded_exists E f dir _ _ h0
    obtain ⟨b1, hb1⟩ := loaded_exists E f dir _ _ h1
    have hmk := make_ok hs mask c hc a0 a1 m0 m1 b0 b1 hb0 hb1 hm0 hm1
    rw [h0, h1]
    simp only [coupleOf, coupleOps, hmk]
    exact events_couple E mask save c.1 _ _

/-! ## The trial -/

theorem calcul_couple (E : Ext F) (mask : MaskParams) (dir : Txt) (c : Int × Txt × Txt) (a0 m0 m1 : Img Int) (s : Option Serie) :
    calcul E mask (.couple (theCouple E dir mask c a0 m0 m1 s)) =
      (match E.velo m0 m1 with
       | .error e => .error e
       | .ok r => .ok ⟨theCouple E dir mask c a0 m0 m1 s, r⟩) := by
  cases h : E.velo m0 m1 <;> simp [calcul, toCouple, Couple.applyMask, theCouple, h]

/-- The trial without function: the error of the files, or the result of the masked couple. -/
theorem trial_none {E : Ext F} {S : Series} {dir : Txt} {cs : List (Int × Txt × Txt)} (hs : Setup E S dir cs) (mask : MaskParams)
    (c : Int × Txt × Txt) (hc : c ∈ cs) :
    (((∃ e, loaded E none dir c.2.1 = .error e) ∨ (∃ e, loaded E none dir c.2.2 = .error e)) →
      ∃ e, calcul E mask (.serie (serieOf dir c)) = .error e) ∧
    (∀ a0 a1 m0 m1, loaded E none dir c.2.1 = .ok a0 → loaded E none dir c.2.2 = .ok a1 → maskArray (some mask) a0 = .ok m0 →
      maskArray (some mask) a1 = .ok m1 →
      calcul E mask (.serie (serieOf dir c)) =
        calcul E mask (.couple (theCouple E dir mask c a0 m0 m1 (some (serieOf dir c))))) := by
  have l : ∀ n, loaded E none dir n = E.imread (dir ++ ['/'] ++ n) := by
    intro n; unfold loaded; cases E.imread (dir ++ ['/'] ++ n) <;> rfl
  simp only [l]
  have hab := hs.absolute
  by_cases hex : ([dir ++ ['/'] ++ c.2.1, dir ++ ['/'] ++ c.2.2].all E.exist) = true
  · have hnp : namesPaths E none none (some (serieOf dir c)) =
        .ok (some [c.2.1, c.2.2], some [dir ++ ['/'] ++ c.2.1, dir ++ ['/'] ++ c.2.2]) := by
      simp only [namesPaths, serieOf, hex]; rfl
    constructor
    · rintro (⟨e, he⟩ | ⟨e, he⟩)
      · refine ⟨e, ?_⟩
        simp only [calcul, toCouple, newCouple, hnp, givenArrays, Option.map_some, List.map_cons, readImages, hab, he]
      · cases h0 : E.imread (dir ++ ['/'] ++ c.2.1) with
        | error e0 =>
          refine ⟨e0, ?_⟩
          simp only [calcul, toCouple, newCouple, hnp, givenArrays, Option.map_some, List.map_cons, readImages, hab, h0]
        | ok a0 =>
          refine ⟨e, ?_⟩
          simp only [calcul, toCouple, newCouple, hnp, givenArrays, Option.map_some, List.map_cons, readImages, hab, h0, he]
    · intro a0 a1 m0 m1 h0 h1 hm0 hm1
      rw [calcul_couple]
      simp only [calcul, toCouple, newCouple, hnp, givenArrays, Option.map_some, List.map_cons, List.map_nil, readImages, hab,
        h0, h1, maskArrays_none, Couple.applyMask, maskArrays_two _ _ _ _ _ hm0 hm1, theCouple]
      cases E.velo m0 m1 <;> rfl
  · have hnp : namesPaths E none none (some (serieOf dir c)) = .error .valueError := by
      simp only [Bool.not_eq_true] at hex
      simp only [namesPaths, serieOf, hex]; rfl
    constructor
    · intro _
      exact ⟨.valueError, by simp only [calcul, toCouple, newCouple, hnp]⟩
    · intro a0 a1 m0 m1 h0 h1 _ _
      exfalso
      apply hex
      have e0 := hs.exists_ _ _ h0
      have e1 := hs.exists_ _ _ h1
      simp only [List.all_cons, List.all_nil, e0, e1]
      rfl

theorem pathName_join (dir n : Txt) (h : '/' ∉ n) (h1 : n ≠ []) (h2 : n ≠ ['.']) : pathName (dir ++ ['/'] ++ n) = n := by
  have hn : ∀ c ∈ n, c ≠ '/' := fun c hc e => h (e ▸ hc)
  have key : ∀ d : Txt, ∃ l, splitChar '/' (d ++ ['/'] ++ n) = l ++ [n] := by
    intro d
    induction d with
    | nil => exact ⟨[[]], by simp [splitChar, splitChar_last '/' n hn]⟩
    | cons x d ih =>
      obtain ⟨l, hl⟩ := ih
      simp only [List.cons_append, splitChar]
      rw [hl]
      by_cases hx : (x == '/') = true
      · exact ⟨[] :: l, by simp [hx]⟩
      · cases l with
        | nil =>
          exfalso
          rw [List.append_assoc, List.singleton_append] at hl
          have : ∀ d : Txt, (splitChar '/' (d ++ '/' :: n)).length ≥ 2 := by
            intro d
            induction d with
            | nil => simp [splitChar, splitChar_last '/' n hn]
            | cons y d ih2 =>
              simp only [List.cons_append, splitChar]
              split
              · simp only [List.length_cons]; omega
              · cases hq : splitChar '/' (d ++ '/' :: n) with
                | nil => rw [hq] at ih2; simp at ih2
                | cons p ps => rw [hq] at ih2; simpa using ih2
          have := this d
          rw [hl] at this
          simp at this
        | cons p l => exact ⟨(x :: p) :: l, by simp [hx]⟩
  obtain ⟨l, hl⟩ := key dir
  have hk : (!n.isEmpty && n != ['.']) = true := by
    simp [h1, h2]
  unfold pathName
  rw [hl, List.filter_append, List.filter_cons_of_pos (by exact hk)]
  simp

/-- The trial with a function which does not use the directory of the paths. -/
theorem trial_some {E : Ext F} {S : Series} {dir : Txt} {cs : List (Int × Txt × Txt)} (hs : Setup E S dir cs) (mask : MaskParams)
    (f : Txt → Img Int → Except PyErr (Img Int)) (c : Int × Txt × Txt) (hc : c ∈ cs)
    (hn : pathName (dir ++ ['/'] ++ c.2.1) = c.2.1 ∧ pathName (dir ++ ['/'] ++ c.2.2) = c.2.2)
    (hf : ∀ a, f (dir ++ ['/'] ++ c.2.1) a = f c.2.1 a ∧ f (dir ++ ['/'] ++ c.2.2) a = f c.2.2 a) :
    (((∃ e, loaded E (some f) dir c.2.1 = .error e) ∨ (∃ e, loaded E (some f) dir c.2.2 = .error e)) →
      ∀ arg, applyFilter E (some f) (serieOf dir c) ≠ .ok arg) ∧
    (∀ a0 a1 m0 m1, loaded E (some f) dir c.2.1 = .ok a0 → loaded E (some f) dir c.2.2 = .ok a1 →
      maskArray (some mask) a0 = .ok m0 → maskArray (some mask) a1 = .ok m1 →
      ∃ arg, applyFilter E (some f) (serieOf dir c) = .ok arg ∧
        calcul E mask arg = calcul E mask (.couple (theCouple E dir mask c a0 m0 m1 none))) := by
  obtain ⟨hn0, hn1⟩ := hn
  have hf0 := fun a => (hf a).1
  have hf1 := fun a => (hf a).2
  unfold loaded
  constructor
  · intro h arg harg
    cases h0 : E.imread (dir ++ ['/'] ++ c.2.1) with
    | error e => simp only [applyFilter, serieOf, getArrays, h0] at harg; cases harg
    | ok b0 =>
      cases h1 : E.imread (dir ++ ['/'] ++ c.2.2) with
      | error e => simp only [applyFilter, serieOf, getArrays, h0, h1] at harg; cases harg
      | ok b1 =>
        simp only [h0, h1] at h
        cases g0 : f c.2.1 b0 with
        | error e => simp only [applyFilter, serieOf, getArrays, h0, h1, filterLoop, hf0, g0] at harg; cases harg
        | ok a0 =>
          cases g1 : f c.2.2 b1 with
          | error e => simp only [applyFilter, serieOf, getArrays, h0, h1, filterLoop, hf0, hf1, g0, g1] at harg; cases harg
          | ok a1 =>
            rw [g0, g1] at h
            rcases h with ⟨e, he⟩ | ⟨e, he⟩ <;> cases he
  · intro a0 a1 m0 m1 h0 h1 hm0 hm1
    cases r0 : E.imread (dir ++ ['/'] ++ c.2.1) with
    | error e => rw [r0] at h0; cases h0
    | ok b0 =>
      cases r1 : E.imread (dir ++ ['/'] ++ c.2.2) with
      | error e => rw [r1] at h1; cases h1
      | ok b1 =>
        rw [r0] at h0; rw [r1] at h1
        simp only at h0 h1
        refine ⟨.dict [c.2.1, c.2.2] [a0, a1] (some [dir ++ ['/'] ++ c.2.1, dir ++ ['/'] ++ c.2.2]), ?_, ?_⟩
        · simp only [applyFilter, serieOf, getArrays, r0, r1, filterLoop, hf0, hf1, h0, h1, List.map_cons, List.map_nil, hn0, hn1]
        · rw [calcul_couple]
          simp only [calcul, toCouple, newCouple, namesPaths, givenArrays, Option.map_some, List.map_cons, List.map_nil,
            maskArrays_none, Couple.applyMask, maskArrays_two _ _ _ _ _ hm0 hm1, theCouple]
          cases E.velo m0 m1 <;> rfl

/-- The trial of a used work, for a couple of the computation. -/
theorem process_used {E : Ext F} {S : Series} {dir : Txt} {cs : List (Int × Txt × Txt)} (hs : Setup E S dir cs)
    (make : P → Except PyErr Series) (p : P) (hS : make p = .ok S) (mask : MaskParams) (before : List (Option Int))
    (c : Int × Txt × Txt) (hc : c ∈ cs) :
    (processOneSerie E make (usedWork make p mask before) (some c.1)).2 = calcul E mask (.serie (serieOf dir c)) := by
  obtain ⟨h1, h2⟩ := getSerie_used make p mask S hS before (some c.1)
  rw [Option.getD_some, hs.serie c hc] at h1
  rcases hg : getSerie make (usedWork make p mask before) (some c.1) with ⟨o, r⟩
  rw [hg] at h1 h2
  simp only at h1 h2
  simp only [processOneSerie, hg, h1, h2, serieOf]

theorem try_used {E : Ext F} {S : Series} {dir : Txt} {cs : List (Int × Txt × Txt)} (hs : Setup E S dir cs)
    (make : P → Except PyErr Series) (p : P) (hS : make p = .ok S) (mask : MaskParams) (before : List (Option Int))
    (f : Option (Txt → Img Int → Except PyErr (Img Int))) (c : Int × Txt × Txt) (hc : c ∈ cs) :
    (tryFiltered E make f (usedWork make p mask before) (some c.1)).2 =
      (match applyFilter E f (serieOf dir c) with
       | .error e => .error e
       | .ok arg => calcul E mask arg) := by
  obtain ⟨h1, h2⟩ := getSerie_used make p mask S hS before (some c.1)
  rw [Option.getD_some, hs.serie c hc] at h1
  rcases hg : getSerie make (usedWork make p mask before) (some c.1) with ⟨o, r⟩
  rw [hg] at h1 h2
  simp only at h1 h2
  simp only [tryFiltered, hg, h1]
  cases h : applyFilter E f (serieOf dir c) with
  | error e => rw [serieOf] at h; simp only [h]
  | ok arg => rw [serieOf] at h; simp only [h, h2]

theorem done_trial {E : Ext F} {S : Series} {dir : Txt} {cs : List (Int × Txt × Txt)} (hs : Setup E S dir cs)
    (make : P → Except PyErr Series) (p : P) (hS : make p = .ok S) {mask : MaskParams} (hm : MaskAccepted mask)
    (before : List (Option Int)) {save : Result F → Except PyErr Unit} {log : List (Event Key (Val F) PyErr)}
    (h : PivDone (readWork E) none (coupleOps E S mask) (computeWork E mask) (saveWork save) (pathOf dir)
      (TryWork.keys cs) log) (c : Int × Txt × Txt) (hc : c ∈ cs) :
    savedFor log c.1 = expected (processOneSerie E make (usedWork make p mask before) (some c.1)).2 ∧
    (∀ e, (processOneSerie E make (usedWork make p mask before) (some c.1)).2 = .error e → ReportedFor log c.1) := by
  rw [process_used hs make p hS mask before c hc]
  obtain ⟨r1, r2⟩ := run_couple (f := none) hs h c hc
  obtain ⟨t1, t2⟩ := trial_none hs mask c hc
  cases h0 : loaded E none dir c.2.1 with
  | error e =>
    obtain ⟨e', he⟩ := t1 (Or.inl ⟨e, h0⟩)
    obtain ⟨s1, s2⟩ := r1 (Or.inl ⟨e, h0⟩)
    rw [he]
    exact ⟨s1, fun _ _ => s2⟩
  | ok a0 =>
    cases h1 : loaded E none dir c.2.2 with
    | error e =>
      obtain ⟨e', he⟩ := t1 (Or.inr ⟨e, h1⟩)
      obtain ⟨s1, s2⟩ := r1 (Or.inr ⟨e, h1⟩)
      rw [he]
      exact ⟨s1, fun _ _ => s2⟩
    | ok a1 =>
      obtain ⟨m0, hm0⟩ := hm a0
      obtain ⟨m1, hm1⟩ := hm a1
      rw [t2 a0 a1 m0 m1 h0 h1 hm0 hm1]
      exact r2 a0 a1 m0 m1 h0 h1 hm0 hm1

theorem done_trial_im2im {E : Ext F} {S : Series} {dir : Txt} {cs : List (Int × Txt × Txt)} (hs : Setup E S dir cs)
    (make : P → Except PyErr Series) (p : P) (hS : make p = .ok S) {mask : MaskParams} (hm : MaskAccepted mask)
    (before : List (Option Int)) {save : Result F → Except PyErr Unit} {log : List (Event Key (Val F) PyErr)}
    (f : Txt → Img Int → Except PyErr (Img Int))
    (h : PivDone (readWork E) (some (im2imWork f)) (coupleOps E S mask) (computeWork E mask) (saveWork save) (pathOf dir)
      (TryWork.keys cs) log) (c : Int × Txt × Txt) (hc : c ∈ cs)
    (hn : pathName (dir ++ ['/'] ++ c.2.1) = c.2.1 ∧ pathName (dir ++ ['/'] ++ c.2.2) = c.2.2)
    (hf : ∀ a, f (dir ++ ['/'] ++ c.2.1) a = f c.2.1 a ∧ f (dir ++ ['/'] ++ c.2.2) a = f c.2.2 a) :
    (savedFor log c.1).map Result.withoutSerie =
      expected (tryFiltered E make (some f) (usedWork make p mask before) (some c.1)).2 ∧
    (∀ e, (tryFiltered E make (some f) (usedWork make p mask before) (some c.1)).2 = .error e → ReportedFor log c.1) := by
  rw [try_used hs make p hS mask before (some f) c hc]
  obtain ⟨r1, r2⟩ := run_couple (f := some f) hs h c hc
  obtain ⟨t1, t2⟩ := trial_some hs mask f c hc hn hf
  have bad : ((∃ e, loaded E (some f) dir c.2.1 = .error e) ∨ (∃ e, loaded E (some f) dir c.2.2 = .error e)) →
      (savedFor log c.1).map Result.withoutSerie = expected (match applyFilter E (some f) (serieOf dir c) with
       | .error e => .error e
       | .ok arg => calcul E mask arg) ∧
      (∀ e, (match applyFilter E (some f) (serieOf dir c) with
       | .error e => (.error e : Except PyErr (Result F))
       | .ok arg => calcul E mask arg) = .error e → ReportedFor log c.1) := by
    intro hb
    obtain ⟨s1, s2⟩ := r1 hb
    cases ha : applyFilter E (some f) (serieOf dir c) with
    | ok arg => exact absurd ha (t1 hb arg)
    | error e => rw [s1]; exact ⟨rfl, fun _ _ => s2⟩
  cases h0 : loaded E (some f) dir c.2.1 with
  | error e => exact bad (Or.inl ⟨e, h0⟩)
  | ok a0 =>
    cases h1 : loaded E (some f) dir c.2.2 with
    | error e => exact bad (Or.inr ⟨e, h1⟩)
    | ok a1 =>
      obtain ⟨m0, hm0⟩ := hm a0
      obtain ⟨m1, hm1⟩ := hm a1
      obtain ⟨arg, ha, hcal⟩ := t2 a0 a1 m0 m1 h0 h1 hm0 hm1
      obtain ⟨s1, s2⟩ := r2 a0 a1 m0 m1 h0 h1 hm0 hm1
      rw [ha, s1]
      simp only [hcal]
      rw [calcul_couple] at s2 ⊢
      rw [calcul_couple]
      cases hv : E.velo m0 m1 with
      | error e => rw [hv] at s2; exact ⟨rfl, fun _ _ => s2 e rfl⟩
      | ok r => exact ⟨rfl, fun _ he => by cases he⟩

end TryWork

open TryWork
variable {F P : Type}

/-! ## C115 -/

/-- C115 (sequential executor), without preprocessing.  For every couple of the computation: what `process_1_serie` returns
for its index, with a work made with the same parameters and already used or not, is exactly what the computation saves
for this couple; and if `process_1_serie` raises, the computation saves nothing for it and reports it. -/
theorem C115_sequential (E : Ext F) (S : Series) (dir : Txt) (cs : List (Int × Txt × Txt)) (hs : Setup E S dir cs)
    (make : P → Except PyErr Series) (p : P) (hS : make p = .ok S) (mask : MaskParams) (hm : MaskAccepted mask)
    (save : Result F → Except PyErr Unit) (c : Cfg) (hc : c.stopIfError = false) :
    ∃ n s, seqLoop (topology E S mask none save) c n
        (SState.init (groupStart (coupleOps E S mask).toNameTuples (pathOf dir) (coupleSeries (TryWork.keys cs))) ()) = some s ∧
      s.crashed = none ∧ ∀ x ∈ cs, ∀ before : List (Option Int),
        savedFor s.log x.1 = expected (processOneSerie E make (usedWork make p mask before) (some x.1)).2 ∧
        (∀ e, (processOneSerie E make (usedWork make p mask before) (some x.1)).2 = .error e → ReportedFor s.log x.1) := by
  obtain ⟨n, s, h1, h2, h3, -⟩ := C23_sequential (readWork E) none (coupleOps E S mask) (computeWork E mask) (saveWork save)
    (pathOf dir) (TryWork.keys cs) (keys_nodup hs) (keys_differ hs) (accepted hs hm none) c hc
  exact ⟨n, s, h1, h2, fun x hx before => done_trial hs make p hS hm before h3 x hx⟩

/-- C115 (asynchronous executor): the same, for every schedule. -/
theorem C115_async (E : Ext F) (S : Series) (dir : Txt) (cs : List (Int × Txt × Txt)) (hs : Setup E S dir cs)
    (make : P → Except PyErr Series) (p : P) (hS : make p = .ok S) (mask : MaskParams) (hm : MaskAccepted mask)
    (save : Result F → Except PyErr Unit) (c : Cfg) (ls : List Label) (s : AState Key (Val F) PyErr Unit)
    (hrun : ARun (topology E S mask none save) c
      (AState.init (groupStart (coupleOps E S mask).toNameTuples (pathOf dir) (coupleSeries (TryWork.keys cs))) ()) ls s)
    (hstop : s.stop = true) (x : Int × Txt × Txt) (hx : x ∈ cs) (before : List (Option Int)) :
    savedFor s.log x.1 = expected (processOneSerie E make (usedWork make p mask before) (some x.1)).2 ∧
    (∀ e, (processOneSerie E make (usedWork make p mask before) (some x.1)).2 = .error e → ReportedFor s.log x.1) := by
  obtain ⟨h3, -⟩ := C23_async (readWork E) none (coupleOps E S mask) (computeWork E mask) (saveWork save)
    (pathOf dir) (TryWork.keys cs) (keys_nodup hs) (keys_differ hs) (accepted hs hm none) c ls s hrun hstop
  exact done_trial hs make p hS hm before h3 x hx

/-- C115: without index, the couple tried is the first one of the series. -/
theorem C115_default_index (E : Ext F) (make : P → Except PyErr Series) (p : P) (S : Series) (hS : make p = .ok S)
    (mask : MaskParams) (before : List (Option Int)) :
    (processOneSerie E make (usedWork make p mask before) none).2 =
      (processOneSerie E make (usedWork make p mask before) (some S.indStart)).2 := by
  obtain ⟨h1, h2, h3⟩ := used_state make p mask S hS before
  rcases h3 with h3 | h3 <;> simp [processOneSerie, getSerie, h3, h2, hS]

/-! ### With preprocessing -/

/-- C115 (sequential executor) with an "image to image" function, for the trial of the documentation
(`work.calcul(apply_im2im_filter(work.get_serie(index), im2im))`), if the function gives the same image for the name of a file
and for its path: what the trial returns is what the computation saves (the trial does not know the serie). -/
theorem C115_im2im_sequential_partial (E : Ext F) (S : Series) (dir : Txt) (cs : List (Int × Txt × Txt)) (hs : Setup E S dir cs)
    (make : P → Except PyErr Series) (p : P) (hS : make p = .ok S) (mask : MaskParams) (hm : MaskAccepted mask)
    (f : Txt → Img Int → Except PyErr (Img Int))
    (hn : ∀ x ∈ cs, ∀ n, n = x.2.1 ∨ n = x.2.2 → '/' ∉ n ∧ n ≠ [] ∧ n ≠ ['.'])
    (hf : ∀ x ∈ cs, ∀ n, n = x.2.1 ∨ n = x.2.2 → ∀ a, f (dir ++ ['/'] ++ n) a = f n a)
    (save : Result F → Except PyErr Unit) (c : Cfg) (hc : c.stopIfError = false) :
    ∃ n s, seqLoop (topology E S mask (some f) save) c n
        (SState.init (groupStart (coupleOps E S mask).toNameTuples (pathOf dir) (coupleSeries (TryWork.keys cs))) ()) = some s ∧
      s.crashed = none ∧ ∀ x ∈ cs, ∀ before : List (Option Int),
        (savedFor s.log x.1).map Result.withoutSerie =
          expected (tryFiltered E make (some f) (usedWork make p mask before) (some x.1)).2 ∧
        (∀ e, (tryFiltered E make (some f) (usedWork make p mask before) (some x.1)).2 = .error e → ReportedFor s.log x.1) := by
  obtain ⟨n, s, h1, h2, h3, -⟩ := C23_sequential (readWork E) (some (im2imWork f)) (coupleOps E S mask) (computeWork E mask)
    (saveWork save) (pathOf dir) (TryWork.keys cs) (keys_nodup hs) (keys_differ hs) (accepted hs hm (some f)) c hc
  refine ⟨n, s, h1, h2, fun x hx before => done_trial_im2im hs make p hS hm before f h3 x hx ?_ fun a => ⟨hf x hx _ (Or.inl rfl) a, hf x hx _ (Or.inr rfl) a⟩⟩
  obtain ⟨a1, a2, a3⟩ := hn x hx _ (Or.inl rfl)
  obtain ⟨b1, b2, b3⟩ := hn x hx _ (Or.inr rfl)
  exact ⟨pathName_join dir _ a1 a2 a3, pathName_join dir _ b1 b2 b3⟩

/-- C115 (asynchronous executor) with an "image to image" function: the same, for every schedule. -/
theorem C115_im2im_async_partial (E : Ext F) (S : Series) (dir : Txt) (cs : List (Int × Txt × Txt)) (hs : Setup E S dir cs)
    (make : P → Except PyErr Series) (p : P) (hS : make p = .ok S) (mask : MaskParams) (hm : MaskAccepted mask)
    (f : Txt → Img Int → Except PyErr (Img Int))
    (hn : ∀ x ∈ cs, ∀ n, n = x.2.1 ∨ n = x.2.2 → '/' ∉ n ∧ n ≠ [] ∧ n ≠ ['.'])
    (hf : ∀ x ∈ cs, ∀ n, n = x.2.1 ∨ n = x.2.2 → ∀ a, f (dir ++ ['/'] ++ n) a = f n a)
    (save : Result F → Except PyErr Unit) (c : Cfg) (ls : List Label) (s : AState Key (Val F) PyErr Unit)
    (hrun : ARun (topology E S mask (some f) save) c
      (AState.init (groupStart (coupleOps E S mask).toNameTuples (pathOf dir) (coupleSeries (TryWork.keys cs))) ()) ls s)
    (hstop : s.stop = true) (x : Int × Txt × Txt) (hx : x ∈ cs) (before : List (Option Int)) :
    (savedFor s.log x.1).map Result.withoutSerie =
      expected (tryFiltered E make (some f) (usedWork make p mask before) (some x.1)).2 ∧
    (∀ e, (tryFiltered E make (some f) (usedWork make p mask before) (some x.1)).2 = .error e → ReportedFor s.log x.1) := by
  obtain ⟨h3, -⟩ := C23_async (readWork E) (some (im2imWork f)) (coupleOps E S mask) (computeWork E mask) (saveWork save)
    (pathOf dir) (TryWork.keys cs) (keys_nodup hs) (keys_differ hs) (accepted hs hm (some f)) c ls s hrun hstop
  refine done_trial_im2im hs make p hS hm before f h3 x hx ?_ fun a => ⟨hf x hx _ (Or.inl rfl) a, hf x hx _ (Or.inr rfl) a⟩
  obtain ⟨a1, a2, a3⟩ := hn x hx _ (Or.inl rfl)
  obtain ⟨b1, b2, b3⟩ := hn x hx _ (Or.inr rfl)
  exact ⟨pathName_join dir _ a1 a2 a3, pathName_join dir _ b1 b2 b3⟩

/-! ### `calcul_from_arrays` -/

theorem names_two : (List.range 2).map arrayName = ["array0".toList, "array1".toList] := by decide

/-- C115: `calcul_from_arrays` returns something only for two images; it is what is computed with the two images, masked, in the
order given; the names in the result are "array0" and "array1". -/
theorem C115_from_arrays (E : Ext F) (o : Obj P) (arrays : List (Img Int)) (names : Option (List Txt)) (r : Result F)
    (h : calculFromArrays E o arrays names = .ok r) :
    ∃ a0 a1 m0 m1, arrays = [a0, a1] ∧ maskArray (some o.mask) a0 = .ok m0 ∧ maskArray (some o.mask) a1 = .ok m1 ∧
      E.velo m0 m1 = .ok r.fields ∧ r.couple.arrays = [m0, m1] ∧ r.couple.shape = (a0.ny, a0.nx) ∧
      r.couple.names = ["array0".toList, "array1".toList] ∧ r.couple.paths = none := by
  cases arrays with
  | nil => cases h
  | cons a0 l =>
    simp only [calculFromArrays, calcul, toCouple, newCouple, namesPaths, givenArrays, maskArrays_none,
      TryWork.Couple.applyMask, Option.map_none] at h
    simp only [maskArrays] at h
    cases hm0 : maskArray (some o.mask) a0 with
    | error e => rw [hm0] at h; cases h
    | ok m0 =>
      rw [hm0] at h
      simp only at h
      cases hl : maskArrays (some o.mask) l with
      | error e => rw [hl] at h; cases h
      | ok ms =>
        rw [hl] at h
        simp only at h
        cases l with
        | nil => cases hl; cases h
        | cons a1 l =>
          simp only [maskArrays] at hl
          cases hm1 : maskArray (some o.mask) a1 with
          | error e => rw [hm1] at hl; cases hl
          | ok m1 =>
            rw [hm1] at hl
            simp only at hl
            cases hl2 : maskArrays (some o.mask) l with
            | error e => rw [hl2] at hl; cases hl
            | ok ms2 =>
              rw [hl2] at hl
              cases hl
              cases l with
              | cons a2 l =>
                simp only [maskArrays] at hl2
                cases hm2 : maskArray (some o.mask) a2 with
                | error e => rw [hm2] at hl2; cases hl2
                | ok m2 =>
                  rw [hm2] at hl2
                  simp only at hl2
                  cases hl3 : maskArrays (some o.mask) l with
                  | error e => rw [hl3] at hl2; cases hl2
                  | ok ms3 => rw [hl3] at hl2; cases hl2; cases h
              | nil =>
                cases hl2
                simp only at h
                cases hv : E.velo m0 m1 with
                | error e => rw [hv] at h; cases h
                | ok r' =>
                  rw [hv] at h
                  cases h
                  exact ⟨a0, a1, m0, m1, rfl, hm0, hm1, hv, rfl, rfl, names_two, rfl⟩

/-- C115: two images accepted by the mask are always processed. -/
theorem C115_from_two_arrays (E : Ext F) (o : Obj P) (a0 a1 m0 m1 : Img Int) (names : Option (List Txt)) (v : F)
    (h0 : maskArray (some o.mask) a0 = .ok m0) (h1 : maskArray (some o.mask) a1 = .ok m1) (hv : E.velo m0 m1 = .ok v) :
    ∃ r, calculFromArrays E o [a0, a1] names = .ok r ∧ r.fields = v := by
  simp [calculFromArrays, calcul, toCouple, newCouple, namesPaths, givenArrays, maskArrays_none, TryWork.Couple.applyMask,
    maskArrays_two _ _ _ _ _ h0 h1, hv]

/-- C115 is false for the argument `names` of `calcul_from_arrays`: it is ignored. -/
theorem C115_names_fails (E : Ext F) (o : Obj P) (arrays : List (Img Int)) (n0 n1 : Txt) (hn : n0 ≠ "array0".toList)
    (r : Result F) (h : calculFromArrays E o arrays (some [n0, n1]) = .ok r) : r.couple.names ≠ [n0, n1] := by
  obtain ⟨_, _, _, _, -, -, -, -, -, -, h7, -⟩ := C115_from_arrays E o arrays _ r h
  rw [h7]
  intro he
  cases he
  exact hn rfl

/-! ### Changed parameters -/

/-- C115 is false when `params.series` is modified after a trial: as soon as a first serie has been obtained, the later trials use
the series of the first one, whatever the new parameters. -/
theorem C115_changed_series_fails (E : Ext F) (make : P → Except PyErr Series) (p p' : P) (S : Series) (hS : make p = .ok S)
    (mask : MaskParams) (first : Option Int) (before : List (Option Int)) (i : Option Int) :
    (processOneSerie E make { usedWork make p mask (first :: before) with series := p' } i).2 =
      (processOneSerie E make (usedWork make p mask []) i).2 := by
  have hc : (usedWork make p mask (first :: before)).cache = some S := by
    have key : ∀ (l : List (Option Int)) (o : Obj P), o.cache = some S →
        (l.foldl (fun o i => (getSerie make o i).1) o).cache = some S := by
      intro l
      induction l with
      | nil => intro o h; exact h
      | cons j l ih => intro o h; exact ih _ (by simp [getSerie, h])
    exact key before _ (by simp [getSerie, hS])
  obtain ⟨h1, -, -⟩ := used_state make p mask S hS (first :: before)
  generalize usedWork make p mask (first :: before) = o at hc h1
  simp [processOneSerie, getSerie, hc, h1, usedWork, hS]
  cases S.serie (i.getD S.indStart) <;> rfl

namespace TryWork

/-! ## Example: two couples, the last image can not be read -/

def pixel (v : Int) : Img Int := ⟨1, 1, fun _ _ => v⟩

def demoExt : Ext (Int × Int) where
  exist := fun p => decide (p ≠ "d/c".toList)
  imread := fun p => if p = "d/a".toList then .ok (pixel 1) else if p = "d/b".toList then .ok (pixel 2) else .error .keyError
  abspath := id
  velo := fun a b => .ok (a.get 0 0, b.get 0 0)

def demoSeries : Series where
  indStart := 0
  serie := fun i => if i = 0 then .ok ⟨["a".toList, "b".toList], ["d/a".toList, "d/b".toList]⟩
    else if i = 1 then .ok ⟨["b".toList, "c".toList], ["d/b".toList, "d/c".toList]⟩ else .error .indexError

def demoCouples : List (Int × Txt × Txt) := [(0, "a".toList, "b".toList), (1, "b".toList, "c".toList)]

theorem demo_setup : Setup demoExt demoSeries "d".toList demoCouples where
  keys := by decide
  differ := by decide
  serie := by decide
  absolute := fun _ => rfl
  exists_ := by
    intro p a h
    simp only [demoExt, decide_eq_true_eq]
    rintro rfl
    simp only [demoExt] at h
    rw [if_neg (by decide), if_neg (by decide)] at h
    cases h

/-- A function which depends on the directory of the image. -/
def demoFun (p : Txt) (a : Img Int) : Except PyErr (Img Int) := if '/' ∈ p then .ok (pixel (a.get 0 0 + 10)) else .ok a

theorem no_mask : MaskAccepted none := fun im => ⟨im, rfl⟩

theorem demo_saved (f : Option (Txt → Img Int → Except PyErr (Img Int))) (a0 a1 : Img Int)
    (h0 : loaded demoExt f "d".toList "a".toList = .ok a0) (h1 : loaded demoExt f "d".toList "b".toList = .ok a1) :
    ∃ n s, seqLoop (topology demoExt demoSeries none f (fun _ => .ok ())) ⟨1, 4, false⟩ n
        (SState.init (groupStart (coupleOps demoExt demoSeries none).toNameTuples (pathOf "d".toList)
          (coupleSeries (TryWork.keys demoCouples))) ()) = some s ∧ s.crashed = none ∧
      (savedFor s.log 0).map (fun r => r.fields) = [(a0.get 0 0, a1.get 0 0)] := by
  obtain ⟨n, s, r1, r2, r3, -⟩ := C23_sequential (readWork demoExt) (f.map im2imWork) (coupleOps demoExt demoSeries none)
    (computeWork demoExt none) (saveWork (fun _ => .ok ())) (pathOf "d".toList) (TryWork.keys demoCouples)
    (keys_nodup demo_setup) (keys_differ demo_setup) (accepted demo_setup no_mask f) ⟨1, 4, false⟩ rfl
  refine ⟨n, s, r1, r2, ?_⟩
  obtain ⟨-, k2⟩ := run_couple demo_setup r3 (0, "a".toList, "b".toList) (by simp [demoCouples])
  obtain ⟨k3, -⟩ := k2 a0 a1 a0 a1 h0 h1 rfl rfl
  rw [show savedFor s.log 0 = _ from k3, calcul_couple]
  rfl

example : ∃ n s, seqLoop (topology demoExt demoSeries none none (fun _ => .ok ())) ⟨1, 4, false⟩ n
      (SState.init (groupStart (coupleOps demoExt demoSeries none).toNameTuples (pathOf "d".toList)
        (coupleSeries (TryWork.keys demoCouples))) ()) = some s ∧ s.crashed = none ∧
    (savedFor s.log 0).map (fun r => r.fields) = [(1, 2)] ∧ savedFor s.log 1 = [] ∧ ReportedFor s.log 1 := by
  obtain ⟨n, s, h1, h2, h3⟩ := C115_sequential demoExt demoSeries _ demoCouples demo_setup
    (fun _ : Unit => .ok demoSeries) () rfl none no_mask (fun _ => .ok ()) ⟨1, 4, false⟩ rfl
  refine ⟨n, s, h1, h2, ?_, ?_, ?_⟩
  · obtain ⟨k, -⟩ := h3 (0, "a".toList, "b".toList) (by simp [demoCouples]) []
    rw [show savedFor s.log 0 = _ from k]
    rfl
  · obtain ⟨k, -⟩ := h3 (1, "b".toList, "c".toList) (by simp [demoCouples]) [none, some 0]
    rw [show savedFor s.log 1 = _ from k]
    rfl
  · obtain ⟨-, k⟩ := h3 (1, "b".toList, "c".toList) (by simp [demoCouples]) []
    exact k .valueError rfl

end TryWork

/-- C115 is false for a function which uses the directory of the path: the trial gives it the path, the computation only the name
of the file.  Here the pixels of the two images are 1 and 2, and the function adds 10 if the path has a directory. -/
theorem C115_path_fails :
    (∃ r, (tryFiltered demoExt (fun _ : Unit => .ok demoSeries) (some demoFun) ⟨(), none, none⟩ (some 0)).2 = .ok r ∧
      r.fields = (11, 12)) ∧
    ∃ n s, seqLoop (topology demoExt demoSeries none (some demoFun) (fun _ => .ok ())) ⟨1, 4, false⟩ n
      (SState.init (groupStart (coupleOps demoExt demoSeries none).toNameTuples (pathOf "d".toList)
        (coupleSeries (TryWork.keys demoCouples))) ()) = some s ∧ s.crashed = none ∧
      (savedFor s.log 0).map (fun r => r.fields) = [(1, 2)] :=
  ⟨⟨_, rfl, rfl⟩, demo_saved (some demoFun) (pixel 1) (pixel 2) rfl rfl⟩

/-- C115 is false with preprocessing for `process_1_serie`: the parameter `preproc.im2im` of the computation is ignored by the
trial.  Here the function of the computation adds 5 to the pixels. -/
theorem C115_preproc_fails :
    (∃ r, (processOneSerie demoExt (fun _ : Unit => .ok demoSeries) ⟨(), none, none⟩ (some 0)).2 = .ok r ∧
      r.fields = (1, 2)) ∧
    ∃ n s, seqLoop (topology demoExt demoSeries none (some fun _ a => .ok (pixel (a.get 0 0 + 5))) (fun _ => .ok ())) ⟨1, 4, false⟩ n
      (SState.init (groupStart (coupleOps demoExt demoSeries none).toNameTuples (pathOf "d".toList)
        (coupleSeries (TryWork.keys demoCouples))) ()) = some s ∧ s.crashed = none ∧
      (savedFor s.log 0).map (fun r => r.fields) = [(6, 7)] :=
  ⟨⟨_, rfl, rfl⟩, demo_saved (some fun _ a => .ok (pixel (a.get 0 0 + 5))) (pixel 6) (pixel 7) rfl rfl⟩

/-- The masks given by ranges of rows and columns. -/
theorem C115_box_mask (y0 y1 x0 x1 : Option Int) (hy0 : FromStart y0) (hy1 : FromStart y1) (hx0 : FromStart x0)
    (hx1 : FromStart x1) : MaskAccepted (some (maskBoxText y0 y1 x0 x1)) := by
  intro im
  obtain ⟨c, hc, -⟩ := C43_offsets im y0 y1 x0 x1 hy0 hy1 hx0 hx1
  simp only [Mask.Couple.applyMask] at hc
  cases h : maskArray (some (some (maskBoxText y0 y1 x0 x1))) im with
  | error e => rw [h] at hc; cases hc
  | ok a => exact ⟨a, rfl⟩

/-- A mask, and a function which uses only the name of the file: the hypotheses of the theorems with preprocessing. -/
example : MaskAccepted (some (maskBoxText (some 50) (some 350) none (some 400))) ∧
    (∀ x ∈ demoCouples, ∀ n, n = x.2.1 ∨ n = x.2.2 → '/' ∉ n ∧ n ≠ [] ∧ n ≠ ['.']) ∧
    (∀ x ∈ demoCouples, ∀ n, n = x.2.1 ∨ n = x.2.2 → ∀ a,
      (fun p a => if pathName p = "b".toList then .ok (pixel 3) else .ok a : Txt → Img Int → Except PyErr (Img Int))
        ("d".toList ++ ['/'] ++ n) a =
      (fun p a => if pathName p = "b".toList then .ok (pixel 3) else .ok a : Txt → Img Int → Except PyErr (Img Int)) n a) := by
  refine ⟨C115_box_mask _ _ _ _ (by simp [FromStart]) (by simp [FromStart]) (by simp [FromStart]) (by simp [FromStart]), ?_, ?_⟩
  · intro x hx n hn
    simp only [demoCouples, List.mem_cons, List.not_mem_nil, or_false] at hx
    rcases hx with rfl | rfl <;> rcases hn with rfl | rfl <;> decide
  · intro x hx n hn a
    have : pathName ("d".toList ++ ['/'] ++ n) = pathName n := by
      simp only [demoCouples, List.mem_cons, List.not_mem_nil, or_false] at hx
      rcases hx with rfl | rfl <;> rcases hn with rfl | rfl <;> decide
    simp only [this]

end Verif
