import Verif.Model.Calibration
import Mathlib.Tactic.Ring
import Mathlib.Tactic.FieldSimp
import Mathlib.Tactic.LinearCombination

/-! # Lemmas on the vectors and the matrices of the calibrations -/

namespace Verif.Calib

theorem M3.mul_assoc' (a b c : M3) : (a.mul b).mul c = a.mul (b.mul c) := by
  ext <;> simp only [M3.mul, V3.dot, M3.col0, M3.col1, M3.col2] <;> ring

theorem M3.one_mul' (a : M3) : M3.one.mul a = a := by
  ext <;> simp only [M3.mul, V3.dot, M3.col0, M3.col1, M3.col2, M3.one] <;> ring

theorem M3.mul_one' (a : M3) : a.mul M3.one = a := by
  ext <;> simp only [M3.mul, V3.dot, M3.col0, M3.col1, M3.col2, M3.one] <;> ring

theorem M3.mulVec_mul (a b : M3) (v : V3) : (a.mul b).mulVec v = a.mulVec (b.mulVec v) := by
  ext <;> simp only [M3.mul, M3.mulVec, V3.dot, M3.col0, M3.col1, M3.col2] <;> ring

theorem M3.one_mulVec (v : V3) : M3.one.mulVec v = v := by
  ext <;> simp only [M3.mulVec, V3.dot, M3.one] <;> ring

theorem M3.inv_spec (m b : M3) (h : m.inv = .ok b) : b.mul m = M3.one ∧ m.mul b = M3.one := by
  unfold M3.inv at h
  split at h
  · exact absurd h (by simp)
  · rename_i hd
    cases h
    obtain ⟨⟨a, b, c⟩, ⟨d, e, f⟩, ⟨g, h, i⟩⟩ := m
    generalize hD : (M3.mk ⟨a, b, c⟩ ⟨d, e, f⟩ ⟨g, h, i⟩).det = D at hd
    have hD' : a * (e * i - f * h) + b * (f * g - d * i) + c * (d * h - e * g) = D := hD
    constructor <;>
    · ext <;> simp only [M3.mul, V3.dot, M3.col0, M3.col1, M3.col2, M3.one, M3.transpose, V3.smul, V3.cross] <;> field_simp <;>
        first | ring1 | linear_combination hD'

theorem M3.inv_mulVec (m b : M3) (h : m.inv = .ok b) (v : V3) : b.mulVec (m.mulVec v) = v := by
  rw [← M3.mulVec_mul, (M3.inv_spec m b h).1, M3.one_mulVec]

theorem M3.inv_eq (m b c : M3) (h : m.inv = .ok b) (hc : c.mul m = M3.one) : b = c := by
  rw [← M3.one_mul' b, ← hc, M3.mul_assoc', (M3.inv_spec m b h).2, M3.mul_one']

end Verif.Calib
