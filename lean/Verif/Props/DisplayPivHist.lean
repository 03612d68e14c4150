import Verif.Model.DisplayPivHist

/-!
# C122: the histograms of the displacements
-/

namespace Verif
open Verif.DisplayPiv Verif.DisplayPivHist

/-! ## Specification -/

/-- The displacements of the vectors which have one (both components are numbers), in order. -/
def knownDisplacements (us vs : List Val) : List (ℚ × ℚ) := (us.zip vs).filterMap fun p => match p with
  | (some u, some v) => some (u, v)
  | _ => none

theorem hist_unmasked : ∀ us vs : List Val,
    unmasked us (badMask us vs) = (knownDisplacements us vs).map (fun p => some p.1) ∧
    unmasked vs (badMask us vs) = (knownDisplacements us vs).map (fun p => some p.2)
  | [], vs => by cases vs <;> exact ⟨rfl, rfl⟩
  | _ :: _, [] => ⟨rfl, rfl⟩
  | u :: us, v :: vs => by
    obtain ⟨h1, h2⟩ := hist_unmasked us vs
    unfold badMask knownDisplacements at *
    cases u with
    | none => exact ⟨h1, h2⟩
    | some u => cases v with
      | none => exact ⟨h1, h2⟩
      | some v => exact ⟨congrArg (some u :: ·) h1, congrArg (some v :: ·) h2⟩

theorem hist_opposite : ∀ us vs : List Val,
    knownDisplacements us (vs.map neg) = (knownDisplacements us vs).map fun p => (p.1, -p.2)
  | [], vs => by cases vs <;> rfl
  | _ :: _, [] => rfl
  | u :: us, v :: vs => by
    have h := hist_opposite us vs
    unfold knownDisplacements at *
    cases u with
    | none => exact h
    | some u => cases v with
      | none => exact h
      | some v => exact congrArg ((u, -v) :: ·) h

/-! ## Theorems -/

/-- **C122**: with images, the two histograms contain the components of all the displacements which are known, once each, and no nan.
Missing: without images (`C122_hist_fails`). -/
theorem C122_hist_partial (interp : Interp) (r : Res) (f : Field) (hf : field r (which r interp) = .ok f) :
    histData true interp r = .ok ((knownDisplacements f.us f.vs).map (fun p => some p.1), (knownDisplacements f.us f.vs).map (fun p => some p.2)) := by
  obtain ⟨h1, h2⟩ := hist_unmasked f.us f.vs
  unfold histData
  simp only [hf, if_true, h1, h2]

/-- **C122** is false without images: the histogram of the displacements along `y` is the one of the opposite displacements. -/
theorem C122_hist_fails (interp : Interp) (r : Res) (f : Field) (hf : field r (which r interp) = .ok f) :
    histData false interp r = .ok ((knownDisplacements f.us f.vs).map (fun p => some p.1), (knownDisplacements f.us f.vs).map (fun p => some (-p.2))) := by
  obtain ⟨h1, h2⟩ := hist_unmasked f.us (f.vs.map neg)
  unfold histData
  simp only [hf, Bool.false_eq_true, if_false, Field.flip, h1, h2, hist_opposite, List.map_map]
  rfl

/-- Non-vacuity: a vector which is known, one with an unknown component, and one which is unknown. -/
example : histData false .no ⟨⟨[0, 1, 2], [0, 0, 0], [some 1, some 2, none], [some 3, none, none]⟩, none, none, none, none, none, none, none⟩
    = .ok ([some 1], [some (-3)]) := rfl

end Verif
