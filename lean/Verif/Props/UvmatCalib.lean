import Verif.Model.UvmatCalib
import Verif.Props.TsaiField

/-!
# Reading of a calibration made with UVMAT (C151)
-/

namespace Verif
open Verif.Calib Verif.UvmatCalib

/-! ## Specification -/

/-- What is written in a calibration file of UVMAT.  `slices`: the points of the slices, with or without vectors of angles. -/
structure UvFile where
  f : ℝ × ℝ
  C : ℝ × ℝ
  kc : ℝ
  T : V3
  R : M3
  omc : V3
  slices : Option (List V3 × Option (List V3))
  interface : Option V3
  refraction : Option ℝ

/-- The attribute is the text with these numbers. -/
def IsText (a : Option Attr) (l : List ℝ) : Prop := a = some (.text (l.map some))

/-- The attribute is the text with the three components. -/
def IsVec (a : Option Attr) (v : V3) : Prop := IsText a [v.x, v.y, v.z]

/-- The attribute is this number. -/
def IsUvNumber (a : Option Attr) (x : ℝ) : Prop := a = some (.num x) ∨ ∃ n : ℤ, a = some (.int n) ∧ (n : ℝ) = x

/-- The attribute does not exist or is empty. -/
def NotGiven (a : Option Attr) : Prop := a = none ∨ a = some .null

/-- One vector for each slice: without number if there is one slice, numbered from 1 otherwise. -/
def SliceVectors (c : Container) (one : Key) (many : ℕ → Key) (l : List V3) : Prop :=
  (∀ v, l = [v] → IsVec (c one) v) ∧ (l.length ≠ 1 → ∀ i v, l[i]? = some v → IsVec (c (many (i + 1))) v)

/-- The container has what is written in the file. -/
structure IsFileOf (u : UvFile) (c : Container) : Prop where
  f : IsText (c .fxFy) [u.f.1, u.f.2]
  C : IsText (c .cxCy) [u.C.1, u.C.2]
  kc : IsUvNumber (c .kc) u.kc
  T : IsVec (c .txTyTz) u.T
  R1 : IsVec (c (.r 1)) u.R.r0
  R2 : IsVec (c (.r 2)) u.R.r1
  R3 : IsVec (c (.r 3)) u.R.r2
  omc : IsVec (c .omc) u.omc ∨
    c .omc = none ∧ IsUvNumber (c (.omcI 1)) u.omc.x ∧ IsUvNumber (c (.omcI 2)) u.omc.y ∧ IsUvNumber (c (.omcI 3)) u.omc.z
  noSlice : u.slices = none → c .nbSlice = some .null
  nbSlice : ∀ pts angles, u.slices = some (pts, angles) → c .nbSlice = some (.int pts.length)
  points : ∀ pts angles, u.slices = some (pts, angles) → SliceVectors c .sliceCoord .sliceCoordI pts
  angles : ∀ pts angles, u.slices = some (pts, some angles) → angles.length = pts.length ∧ SliceVectors c .sliceAngle .sliceAngleI angles
  noAngle : ∀ pts, u.slices = some (pts, none) → NotGiven (c .sliceAngle) ∧ NotGiven (c (.sliceAngleI 1))
  interface : match u.interface with
    | none => c .interfaceCoord = none
    | some v => IsVec (c .interfaceCoord) v
  refraction : match u.refraction with
    | none => c .refractionIndex = none
    | some x => IsUvNumber (c .refractionIndex) x

/-! ## Reading -/

theorem floats_map (l : List ℝ) : floats (l.map some) = .ok l := by
  induction l with
  | nil => rfl
  | cons x l ih => simp only [List.map_cons, floats, ih]

theorem numbers_of_text {a : Option Attr} {l : List ℝ} (h : IsText a l) : numbers a = .ok l := by
  unfold IsText at h
  subst h
  exact floats_map l

theorem row_of_vec {a : Option Attr} {v : V3} (h : IsVec a v) : row a = .ok v := by
  unfold row
  rw [numbers_of_text h]
  rfl

theorem value_of_number {a : Attr} {x : ℝ} (h : IsUvNumber (some a) x) : a.value = some x := by
  rcases h with h | ⟨n, h, rfl⟩
  · injection h with h; subst h; rfl
  · injection h with h; subst h; rfl

theorem number_of {a : Option Attr} {x : ℝ} (h : IsUvNumber a x) : number a = .ok x := by
  rcases h with h | ⟨n, h, rfl⟩ <;> subst h <;> rfl

theorem isNumber_some {a : Option Attr} {x : ℝ} (h : IsUvNumber a x) : ∃ b, a = some b := by
  rcases h with h | ⟨n, h, _⟩
  · exact ⟨_, h⟩
  · exact ⟨_, h⟩

theorem rows_of (c : Container) (key : ℕ → Key) : ∀ (l : List V3) (k : ℕ), (∀ i v, l[i]? = some v → IsVec (c (key (k + i + 1))) v) →
    rows c key l.length k = .ok l
  | [], _, _ => rfl
  | v :: l, k, h => by
    have h1 := row_of_vec (h 0 v rfl)
    have h2 := rows_of c key l (k + 1) (fun i w hw => by
      have := h (i + 1) w (by simpa using hw)
      rw [show k + 1 + i + 1 = k + (i + 1) + 1 by omega]
      exact this)
    rw [Nat.add_zero] at h1
    simp only [List.length_cons, rows, h1, h2]

theorem given_of_vec {a : Option Attr} {v : V3} (h : IsVec a v) : given a = true := by
  unfold IsVec IsText at h
  subst h
  rfl

theorem given_of_not {a : Option Attr} (h : NotGiven a) : given a = false := by
  rcases h with h | h <;> subst h <;> rfl

theorem readSlices_of {u : UvFile} {c : Container} (h : IsFileOf u c) :
    (u.slices = none → readSlices c = .ok none) ∧
    (∀ pts, u.slices = some (pts, none) → readSlices c = .ok (some (.zeros, pts))) ∧
    ∀ pts angles, u.slices = some (pts, some angles) → pts ≠ [] → readSlices c = .ok (some (.rows angles, pts)) := by
  refine ⟨?_, ?_, ?_⟩
  · intro hu
    unfold readSlices
    rw [h.noSlice hu]
  · intro pts hu
    have hn := h.nbSlice pts none hu
    obtain ⟨hp1, hp2⟩ := h.points pts none hu
    obtain ⟨ha1, ha2⟩ := h.noAngle pts hu
    unfold readSlices
    rw [hn]
    simp only
    rw [if_neg (by omega)]
    by_cases h1 : pts.length = 1
    · obtain ⟨v, rfl⟩ := List.length_eq_one_iff.1 h1
      rw [if_pos (by exact_mod_cast h1), row_of_vec (hp1 v rfl)]
      simp only
      rw [given_of_not ha1]
      rfl
    · rw [if_neg (by exact_mod_cast h1), Int.toNat_natCast, rows_of c .sliceCoordI pts 0 (fun i v hv => by
        rw [Nat.zero_add]; exact hp2 h1 i v hv)]
      simp only
      rw [given_of_not ha2]
      rfl
  · intro pts angles hu hne
    have hn := h.nbSlice pts (some angles) hu
    obtain ⟨hp1, hp2⟩ := h.points pts (some angles) hu
    obtain ⟨hlen, ha1, ha2⟩ := h.angles pts angles hu
    unfold readSlices
    rw [hn]
    simp only
    rw [if_neg (by omega)]
    by_cases h1 : pts.length = 1
    · obtain ⟨v, rfl⟩ := List.length_eq_one_iff.1 h1
      obtain ⟨a, rfl⟩ := List.length_eq_one_iff.1 (hlen.trans h1)
      rw [if_pos (by exact_mod_cast h1), row_of_vec (hp1 v rfl)]
      simp only
      rw [given_of_vec (ha1 a rfl), row_of_vec (ha1 a rfl)]
      rfl
    · have h1' : angles.length ≠ 1 := by rw [hlen]; exact h1
      rw [if_neg (by exact_mod_cast h1), Int.toNat_natCast, rows_of c .sliceCoordI pts 0 (fun i v hv => by
        rw [Nat.zero_add]; exact hp2 h1 i v hv)]
      simp only
      have ha0 : ∃ a, angles[0]? = some a := by
        cases angles with
        | nil =>
          simp only [List.length_nil] at hlen
          exact absurd (List.length_eq_zero_iff.1 hlen.symm) hne
        | cons a l => exact ⟨a, rfl⟩
      obtain ⟨a, ha⟩ := ha0
      rw [given_of_vec (ha2 h1' 0 a ha), ← hlen, rows_of c .sliceAngleI angles 0 (fun i v hv => by
        rw [Nat.zero_add]; exact ha2 h1' i v hv)]
      rfl

theorem readOmc_of {u : UvFile} {c : Container} (h : IsFileOf u c) : readOmc c = .ok [u.omc.x, u.omc.y, u.omc.z] := by
  unfold readOmc
  rcases h.omc with h | ⟨h, h1, h2, h3⟩
  · have := numbers_of_text h
    unfold IsVec IsText at h
    rw [h] at this ⊢
    exact this
  · rw [h]
    simp only [number_of h1, number_of h2, number_of h3]

/-- **C151**: the parameters read from a file of UVMAT are the numbers which are written in it: intrinsic parameters, translation, lines of
the rotation matrix, interface and refraction index, and every slice with its vector of angles; without angles this is proved for the
first three slices. -/
theorem C151_read_partial (u : UvFile) (c : Container) (h : IsFileOf u c) :
    ∃ P t, makeParams c = .ok P ∧ P.toTsai = some t ∧ P.omc = [u.omc.x, u.omc.y, u.omc.z] ∧
      t.f = some u.f ∧ t.C = some u.C ∧ t.kc = some u.kc ∧ t.T = some u.T ∧ t.R = some u.R ∧
      t.interface = u.interface ∧ t.refraction = u.refraction ∧ (u.slices = none → t.slices = none) ∧
      (∀ pts angles, u.slices = some (pts, some angles) → ∀ i p a, pts[i]? = some p → angles[i]? = some a → HasSlice t i p a) ∧
      ∀ pts, u.slices = some (pts, none) → ∀ i p, i < 3 → pts[i]? = some p → HasSlice t i p ⟨0, 0, 0⟩ := by
  have hR : readR c = .ok ([u.R.r0.x, u.R.r0.y, u.R.r0.z] ++ [u.R.r1.x, u.R.r1.y, u.R.r1.z] ++ [u.R.r2.x, u.R.r2.y, u.R.r2.z]) := by
    unfold readR
    rw [numbers_of_text h.R1]; simp only
    rw [numbers_of_text h.R2]; simp only
    rw [numbers_of_text h.R3]
  obtain ⟨kc, hkc⟩ := isNumber_some h.kc
  have hkv : kc.value = some u.kc := by
    have := h.kc
    rw [hkc] at this
    exact value_of_number this
  have hI : readInterface c = .ok (u.interface.map fun v => [v.x, v.y, v.z]) := by
    have := h.interface
    unfold readInterface
    cases hu : u.interface with
    | none => rw [hu] at this; simp only at this; rw [this]; rfl
    | some v =>
      rw [hu] at this
      simp only at this
      have hn := numbers_of_text this
      unfold IsVec IsText at this
      rw [this] at hn ⊢
      simp only [hn, Option.map_some]
  have hN : refractionNumber (c .refractionIndex) = some u.refraction := by
    have := h.refraction
    cases hu : u.refraction with
    | none => rw [hu] at this; simp only at this; rw [this]; rfl
    | some x =>
      rw [hu] at this
      simp only at this
      obtain ⟨b, hb⟩ := isNumber_some this
      rw [hb] at this ⊢
      simp only [refractionNumber, value_of_number this]
  have hP : interfacePoint (u.interface.map fun v => [v.x, v.y, v.z]) = some u.interface := by
    cases u.interface <;> rfl
  obtain ⟨s1, s2, s3⟩ := readSlices_of h
  have hS : ∃ s, readSlices c = .ok s := by
    cases hu : u.slices with
    | none => exact ⟨_, s1 hu⟩
    | some q =>
      obtain ⟨pts, angles⟩ := q
      cases angles with
      | none => exact ⟨_, s2 pts hu⟩
      | some angles =>
        by_cases hne : pts = []
        · subst hne
          have hn := h.nbSlice [] (some angles) hu
          obtain ⟨hlen, _⟩ := h.angles [] angles hu
          unfold readSlices
          rw [hn]
          rw [List.length_nil, Int.natCast_zero]
          simp only [rows, lt_self_iff_false, if_false, Int.toNat_zero, show (0 : ℤ) ≠ 1 by decide]
          split <;> exact ⟨_, rfl⟩
        · exact ⟨_, s3 pts angles hu hne⟩
  obtain ⟨s, hs⟩ := hS
  refine ⟨⟨[u.f.1, u.f.2], [u.C.1, u.C.2], kc, [u.T.x, u.T.y, u.T.z],
      [u.R.r0.x, u.R.r0.y, u.R.r0.z] ++ [u.R.r1.x, u.R.r1.y, u.R.r1.z] ++ [u.R.r2.x, u.R.r2.y, u.R.r2.z], [u.omc.x, u.omc.y, u.omc.z], s,
      c .refractionIndex, u.interface.map fun v => [v.x, v.y, v.z]⟩,
    ⟨some u.f, some u.T, some u.C, some u.kc, some u.R, u.interface, u.refraction, s⟩, ?_, ?_, rfl, rfl, rfl, rfl, rfl, rfl, rfl, rfl, ?_, ?_, ?_⟩
  · simp only [makeParams, numbers_of_text h.f, numbers_of_text h.C, hkc, numbers_of_text h.T, hR, readOmc_of h, hs, hI]
  · simp only [Params.toTsai, List.cons_append, List.nil_append, hkv, hN, hP]
  · intro hu
    rw [s1 hu] at hs
    injection hs with hs
    exact hs.symm
  · intro pts angles hu i p a hp ha
    have hne : pts ≠ [] := by rintro rfl; simp at hp
    rw [s3 pts angles hu hne] at hs
    injection hs with hs
    exact ⟨pts, hp, Or.inl ⟨angles, hs.symm, ha⟩⟩
  · intro pts hu i p hi hp
    rw [s2 pts hu] at hs
    injection hs with hs
    exact ⟨pts, hp, Or.inr (Or.inr ⟨hs.symm, hi, rfl⟩)⟩

/-- C151 fails for the files with more than three slices without angles: the fourth slice and the following ones cannot be used
(`IndexError` for every pixel). -/
theorem C151_untilted_fails (u : UvFile) (c : Container) (h : IsFileOf u c) (pts : List V3) (hu : u.slices = some (pts, none)) :
    ∃ P t, makeParams c = .ok P ∧ P.toTsai = some t ∧ ∀ level, 3 ≤ level → level < pts.length → ∀ X Y nbypix angle,
      pix2phys t X Y level nbypix angle = .error .indexError := by
  obtain ⟨P, t, hP, ht, _⟩ := C151_read_partial u c h
  refine ⟨P, t, hP, ht, ?_⟩
  intro level hl _ X Y nbypix angle
  have hPs : P.slices = some (.zeros, pts) := by
    unfold makeParams at hP
    repeat (split at hP; · cases hP)
    injection hP with hP
    subst hP
    next hs _ _ _ _ =>
      rw [(readSlices_of h).2.1 pts hu] at hs
      injection hs with hs
      exact hs.symm
  have hts : t.slices = P.slices := by
    unfold Params.toTsai at ht
    split at ht
    · split at ht
      · injection ht with ht
        rw [← ht]
      · cases ht
    · cases ht
  exact C53_fourth_slice_fails t X Y level nbypix angle pts (hts.trans hPs) hl

/-- C151 fails for the files without one of the elements: the cases of `calib_tsai.py` for missing parameters (no rotation matrix: case
"rescale" of UVMAT; no distortion; no number of slices) never happen, because the file cannot be read. -/
theorem C151_missing_fails (c : Container) (h : c .fxFy = none ∨ c .cxCy = none ∨ c .kc = none ∨ c .txTyTz = none ∨ c (.r 1) = none ∨
    c (.r 2) = none ∨ c (.r 3) = none ∨ c .nbSlice = none) : ∃ e, makeParams c = .error e := by
  cases hq : makeParams c with
  | error e => exact ⟨e, rfl⟩
  | ok P =>
    exfalso
    unfold makeParams at hq
    split at hq
    · cases hq
    next hf =>
    split at hq
    · cases hq
    next hC =>
    split at hq
    · cases hq
    next hkc =>
    split at hq
    · cases hq
    next hT =>
    split at hq
    · cases hq
    next hR =>
    split at hq
    · cases hq
    split at hq
    · cases hq
    next hS =>
    rcases h with h | h | h | h | h | h | h | h
    · rw [h] at hf; cases hf
    · rw [h] at hC; cases hC
    · rw [h] at hkc; cases hkc
    · rw [h] at hT; cases hT
    · unfold readR at hR; rw [h] at hR; cases hR
    · unfold readR at hR; rw [h] at hR
      split at hR
      · cases hR
      · cases hR
    · unfold readR at hR; rw [h] at hR
      split at hR
      · cases hR
      · split at hR
        · cases hR
        · cases hR
    · unfold readSlices at hS; rw [h] at hS; cases hS

/-- In particular a file of UVMAT which is right in all but the absence of the number of slices is an `AttributeError`, while the same file
with an empty element is read. -/
theorem C151_no_number_fails (u : UvFile) (c : Container) (h : IsFileOf u c) (hu : u.slices = none) :
    (∃ P, makeParams c = .ok P) ∧ makeParams (fun k => if k = .nbSlice then none else c k) = .error .attributeError := by
  obtain ⟨P, _, hP, _⟩ := C151_read_partial u c h
  refine ⟨⟨P, hP⟩, ?_⟩
  have hR : readR (fun k => if k = .nbSlice then none else c k) = readR c := rfl
  have hO : readOmc (fun k => if k = .nbSlice then none else c k) = readOmc c := rfl
  obtain ⟨kc, hkc⟩ := isNumber_some h.kc
  have hR' : ∃ R, readR c = .ok R := by
    unfold readR
    rw [numbers_of_text h.R1]; simp only
    rw [numbers_of_text h.R2]; simp only
    rw [numbers_of_text h.R3]
    exact ⟨_, rfl⟩
  obtain ⟨R, hR'⟩ := hR'
  unfold makeParams
  rw [hR, hO, hR', readOmc_of h]
  simp only [reduceCtorEq, if_false, numbers_of_text h.f, numbers_of_text h.C, hkc, numbers_of_text h.T, readSlices, if_true]

/-- C151: a word which is not a number is a `ValueError`; a single number where several are expected is an `AttributeError` (it has already
been converted, and has no words). -/
theorem C151_bad_text (a : List ℝ) (l : List (Option ℝ)) (x : ℝ) (c : Container) :
    (c .fxFy = some (.text (a.map some ++ none :: l)) → makeParams c = .error .valueError) ∧
    (c .fxFy = some (.num x) → makeParams c = .error .attributeError) := by
  refine ⟨?_, ?_⟩
  · intro h
    have : floats (a.map some ++ none :: l) = .error .valueError := by
      clear h
      induction a with
      | nil => rfl
      | cons y a ih => simp only [List.map_cons, List.cons_append, floats, ih]
    unfold makeParams
    simp only [h, numbers, this]
  · intro h
    unfold makeParams
    simp only [h, numbers]

/-! ## Non-vacuity -/

/-- The numbers of a camera, with some slices. -/
noncomputable def demoUvFile (slices : Option (List V3 × Option (List V3))) : UvFile :=
  ⟨(3119, 3114), (1279, 1076), -1 / 16, ⟨-5, 65, 411⟩, ⟨⟨0, -1, 0⟩, ⟨1, 0, 0⟩, ⟨0, 0, -1⟩⟩, ⟨127, -126, 4⟩, slices, some ⟨0, 0, 81⟩, some (4 / 3)⟩

def demoText (v : V3) : Option Attr := some (.text [some v.x, some v.y, some v.z])

/-- The attributes written for these numbers, without angles. -/
noncomputable def demoContainer (pts : List V3) : Container
  | .fxFy => some (.text [some 3119, some 3114])
  | .cxCy => some (.text [some 1279, some 1076])
  | .kc => some (.num (-1 / 16))
  | .txTyTz => demoText ⟨-5, 65, 411⟩
  | .r 1 => demoText ⟨0, -1, 0⟩
  | .r 2 => demoText ⟨1, 0, 0⟩
  | .r 3 => demoText ⟨0, 0, -1⟩
  | .omc => demoText ⟨127, -126, 4⟩
  | .nbSlice => some (.int pts.length)
  | .sliceCoord => pts[0]?.bind demoText
  | .sliceCoordI i => pts[i - 1]?.bind demoText
  | .interfaceCoord => demoText ⟨0, 0, 81⟩
  | .refractionIndex => some (.num (4 / 3))
  | _ => none

/-- Four horizontal slices. -/
theorem demoUvFile_ok (pts : List V3) : IsFileOf (demoUvFile (some (pts, none))) (demoContainer pts) where
  f := rfl
  C := rfl
  kc := Or.inl rfl
  T := rfl
  R1 := rfl
  R2 := rfl
  R3 := rfl
  omc := Or.inl rfl
  noSlice := fun h => by cases h
  nbSlice := by
    intro p a h
    simp only [demoUvFile, Option.some.injEq, Prod.mk.injEq] at h
    rw [← h.1]; rfl
  points := by
    intro p a h
    simp only [demoUvFile, Option.some.injEq, Prod.mk.injEq] at h
    rw [← h.1]
    refine ⟨?_, ?_⟩
    · rintro v rfl; rfl
    · intro _ i v hv
      show (pts[i + 1 - 1]?.bind demoText) = _
      rw [Nat.add_sub_cancel, hv]; rfl
  angles := by
    intro p a h
    simp [demoUvFile] at h
  noAngle := fun _ _ => ⟨Or.inl rfl, Or.inl rfl⟩
  interface := rfl
  refraction := Or.inl rfl

/-- A file with four slices satisfies the hypotheses of `C151_untilted_fails` with a slice which cannot be used. -/
example : ∃ P t, makeParams (demoContainer [⟨0, 0, 1⟩, ⟨0, 0, 2⟩, ⟨0, 0, 3⟩, ⟨0, 0, 4⟩]) = .ok P ∧ P.toTsai = some t ∧
    pix2phys t 10 20 3 100 true = .error .indexError := by
  obtain ⟨P, t, h1, h2, h3⟩ := C151_untilted_fails _ _ (demoUvFile_ok [⟨0, 0, 1⟩, ⟨0, 0, 2⟩, ⟨0, 0, 3⟩, ⟨0, 0, 4⟩]) _ rfl
  exact ⟨P, t, h1, h2, h3 3 (by decide) (by decide) 10 20 100 true⟩

/-- The same numbers without slices (hypotheses of `C151_no_number_fails`), and with two slices with angles. -/
example : IsFileOf (demoUvFile none) (fun k => if k = .nbSlice then some .null else demoContainer [] k) ∧
    IsFileOf (demoUvFile (some ([⟨0, 0, 1⟩, ⟨0, 0, 2⟩], some [⟨-1, 0, 0⟩, ⟨3, 0, 0⟩]))) (fun k => match k with
      | .sliceAngleI 1 => demoText ⟨-1, 0, 0⟩
      | .sliceAngleI 2 => demoText ⟨3, 0, 0⟩
      | k => demoContainer [⟨0, 0, 1⟩, ⟨0, 0, 2⟩] k) := by
  refine ⟨⟨rfl, rfl, Or.inl rfl, rfl, rfl, rfl, rfl, Or.inl rfl, fun _ => rfl, ?_, ?_, ?_, ?_, rfl, Or.inl rfl⟩,
    ⟨rfl, rfl, Or.inl rfl, rfl, rfl, rfl, rfl, Or.inl rfl, ?_, ?_, ?_, ?_, ?_, rfl, Or.inl rfl⟩⟩
  · intro _ _ h; cases h
  · intro _ _ h; cases h
  · intro _ _ h; cases h
  · intro _ h; cases h
  · intro h; cases h
  · intro p a h
    simp only [demoUvFile, Option.some.injEq, Prod.mk.injEq] at h
    rw [← h.1]; rfl
  · intro p a h
    simp only [demoUvFile, Option.some.injEq, Prod.mk.injEq] at h
    rw [← h.1]
    refine ⟨by simp, ?_⟩
    intro _ i v hv
    match i, hv with
    | 0, hv => injection hv with hv; subst hv; rfl
    | 1, hv => injection hv with hv; subst hv; rfl
    | i + 2, hv => simp at hv
  · intro p a h
    simp only [demoUvFile, Option.some.injEq, Prod.mk.injEq] at h
    rw [← h.1, ← h.2]
    refine ⟨rfl, by simp, ?_⟩
    intro _ i v hv
    match i, hv with
    | 0, hv => injection hv with hv; subst hv; rfl
    | 1, hv => injection hv with hv; subst hv; rfl
    | i + 2, hv => simp at hv
  · intro p h
    simp [demoUvFile] at h

end Verif
