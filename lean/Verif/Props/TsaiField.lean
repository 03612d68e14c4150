import Verif.Model.TsaiField
import Verif.Props.Calibration

/-!
# C137: slices and displacements with the Tsai calibration
-/

namespace Verif
open Verif.Calib Verif.TsaiField

/-! ## Specification -/

/-- The vector `u` rotated by the angle `θ` (in radians) around the unit vector `e` (formula of Rodrigues). -/
noncomputable def rotated (e : V3) (θ : ℝ) (u : V3) : V3 :=
  ((V3.smul (Real.cos θ) u).add (V3.smul (Real.sin θ) (e.cross u))).add (V3.smul ((1 - Real.cos θ) * e.dot u) e)

/-- The slice `level` of the calibration: its point and its vector of angles. -/
def HasSlice (p : Tsai) (level : ℕ) (point angles : V3) : Prop :=
  ∃ coords, coords[level]? = some point ∧
    ((∃ rows, p.slices = some (.rows rows, coords) ∧ rows[level]? = some angles) ∨
      (p.slices = some (.absent, coords) ∧ angles = ⟨0, 0, 0⟩) ∨ (p.slices = some (.zeros, coords) ∧ level < 3 ∧ angles = ⟨0, 0, 0⟩))

/-- A point of the slice at the height `z` (physical coordinates are in metres, the slices in centimetres). -/
def OnSlice (z : ℝ) (v : V3) : Prop := v.z * 100 = z

/-! ## Slices -/

theorem tf_norm_zero (v : V3) : v.norm = 0 ↔ v = ⟨0, 0, 0⟩ := by
  unfold V3.norm
  rw [Real.sqrt_eq_zero (by positivity)]
  constructor
  · intro h
    have h1 : v.x ^ 2 = 0 := by nlinarith [sq_nonneg v.x, sq_nonneg v.y, sq_nonneg v.z]
    have h2 : v.y ^ 2 = 0 := by nlinarith [sq_nonneg v.x, sq_nonneg v.y, sq_nonneg v.z]
    have h3 : v.z ^ 2 = 0 := by nlinarith [sq_nonneg v.x, sq_nonneg v.y, sq_nonneg v.z]
    ext
    · exact pow_eq_zero_iff (two_ne_zero) |>.1 h1
    · exact pow_eq_zero_iff (two_ne_zero) |>.1 h2
    · exact pow_eq_zero_iff (two_ne_zero) |>.1 h3
  · rintro rfl; norm_num

theorem tf_sliceAngle (l : List V3) (level : ℕ) (v : V3) (angle : Bool) (h : l[level]? = some v) :
    (v = ⟨0, 0, 0⟩ ∨ angle = false → sliceAngle (.rows l) level angle = .ok none) ∧
      (¬ (v = ⟨0, 0, 0⟩ ∨ angle = false) → sliceAngle (.rows l) level angle = .ok (some v)) := by
  unfold sliceAngle
  simp only [h]
  have : ((v.x ≠ 0 ∨ v.y ≠ 0 ∨ v.z ≠ 0) ∧ angle = true) ↔ ¬ (v = ⟨0, 0, 0⟩ ∨ angle = false) := by
    rw [not_or, Bool.not_eq_false]
    refine and_congr_left fun _ => ?_
    constructor
    · rintro h rfl
      simp at h
    · intro h
      by_contra h'
      simp only [ne_eq, not_or, not_not] at h'
      exact h (V3.ext h'.1 h'.2.1 h'.2.2)
  exact ⟨fun hc => if_neg (fun h => this.1 h hc), fun hc => if_pos (this.2 hc)⟩

/-- **C137** (horizontal slices): a slice whose angles are zero, or any slice if the angles are not used, is the plane at the height of its
point; a slice with angles is the plane through its point whose normal is the vertical rotated by the norm of the vector of angles (in
degrees) around this vector, and its height is the one above the origin. -/
theorem C137_slice (p : Tsai) (level : ℕ) (point angles : V3) (h : HasSlice p level point angles) (angle : Bool) :
    (angles = ⟨0, 0, 0⟩ ∨ angle = false → slicePlane p level angle = .ok (point.z, none)) ∧
      (¬ (angles = ⟨0, 0, 0⟩ ∨ angle = false) →
        let n := rotated (V3.smul (1 / angles.norm) angles) (Real.pi * angles.norm / 180) ⟨0, 0, 1⟩
        (n.z = 0 → slicePlane p level angle = .error .notFinite) ∧
          (n.z ≠ 0 → ∃ z, slicePlane p level angle = .ok (z, some n) ∧ n.dot ⟨0, 0, z⟩ = n.dot point)) := by
  have hn : normPlane angles = rotated (V3.smul (1 / angles.norm) angles) (Real.pi * angles.norm / 180) ⟨0, 0, 1⟩ := by
    unfold normPlane rotated
    simp only [V3.smul, V3.add, V3.cross, V3.dot]
    ext <;> simp only <;> ring
  obtain ⟨coords, hc, h⟩ := h
  rcases h with ⟨rows, hs, hr⟩ | ⟨hs, rfl⟩ | ⟨hs, hl, rfl⟩
  · unfold slicePlane
    obtain ⟨k1, k2⟩ := tf_sliceAngle rows level angles angle hr
    simp only [hs]
    refine ⟨?_, ?_⟩
    · intro h0
      simp only [k1 h0, hc]
    · intro h0
      simp only [k2 h0, hc, hn]
      refine ⟨fun hz => if_pos hz, fun hz => ?_⟩
      refine ⟨_, if_neg hz, ?_⟩
      generalize rotated (V3.smul (1 / angles.norm) angles) (Real.pi * angles.norm / 180) ⟨0, 0, 1⟩ = n at hz ⊢
      simp only [V3.dot, mul_zero, zero_add]
      rw [mul_div_cancel₀ _ hz]
  · refine ⟨fun _ => ?_, fun h => absurd (.inl rfl) h⟩
    unfold slicePlane
    simp only [hs, sliceAngle, hc]
  · refine ⟨fun _ => ?_, fun h => absurd (.inl rfl) h⟩
    unfold slicePlane
    simp only [hs, sliceAngle, if_pos hl, hc]

/-- **C137**: the normal of a slice with angles is a unit vector. -/
theorem C137_normal_unit (angles : V3) (h : angles ≠ ⟨0, 0, 0⟩) :
    let n := rotated (V3.smul (1 / angles.norm) angles) (Real.pi * angles.norm / 180) ⟨0, 0, 1⟩
    n.x ^ 2 + n.y ^ 2 + n.z ^ 2 = 1 := by
  have hne : angles.norm ≠ 0 := fun h' => h ((tf_norm_zero angles).1 h')
  have hsq : angles.norm ^ 2 = angles.x ^ 2 + angles.y ^ 2 + angles.z ^ 2 := Real.sq_sqrt (by positivity)
  have hu : (1 / angles.norm * angles.x) ^ 2 + (1 / angles.norm * angles.y) ^ 2 + (1 / angles.norm * angles.z) ^ 2 = 1 := by
    field_simp
    linarith
  simp only [rotated, V3.smul, V3.add, V3.cross, V3.dot]
  have hcs := Real.sin_sq_add_cos_sq (Real.pi * angles.norm / 180)
  generalize Real.sin (Real.pi * angles.norm / 180) = s at *
  generalize Real.cos (Real.pi * angles.norm / 180) = c at *
  generalize 1 / angles.norm * angles.x = a at *
  generalize 1 / angles.norm * angles.y = b at *
  generalize 1 / angles.norm * angles.z = d at *
  have e1 : a ^ 2 + b ^ 2 = 1 - d ^ 2 := by linarith
  have e2 : s ^ 2 = 1 - c ^ 2 := by linarith
  have : ∀ A B : ℝ, A = B → A = B := fun _ _ h => h
  calc _ = (a ^ 2 + b ^ 2) * (s ^ 2 + ((1 - c) * d) ^ 2) + (c + (1 - c) * d ^ 2) ^ 2 := by ring
    _ = 1 := by rw [e1, e2]; ring

example : HasSlice exTsai 0 ⟨0, 0, 1⟩ ⟨0, 0, 0⟩ := ⟨[⟨0, 0, 1⟩], rfl, .inr (.inr ⟨rfl, by decide, rfl⟩)⟩
example : HasSlice tiltTsai 0 ⟨0, 0, 0⟩ ⟨45, 0, 0⟩ := ⟨[⟨0, 0, 0⟩], rfl, .inl ⟨[⟨45, 0, 0⟩], rfl, rfl⟩⟩

/-! ## From the physical coordinates to the image and back -/

theorem tf_solve (R : M3) (T : V3) (z x y : ℝ) (hz : (camera R T ⟨x, y, z⟩).z ≠ 0) (hl : NotSeenAsLine R T z) :
    solvePlane R T z ((camera R T ⟨x, y, z⟩).x / (camera R T ⟨x, y, z⟩).z) ((camera R T ⟨x, y, z⟩).y / (camera R T ⟨x, y, z⟩).z) = .ok (x, y) := by
  obtain ⟨⟨R0, R1, R2⟩, ⟨R3, R4, R5⟩, ⟨R6, R7, R8⟩⟩ := R
  obtain ⟨Tx, Ty, Tz⟩ := T
  simp only [NotSeenAsLine, M3.transpose, M3.col0, M3.col1, M3.col2, M3.det, V3.dot, V3.cross, camera, M3.mulVec, V3.add] at hl hz ⊢
  unfold solvePlane
  simp only
  set cx := R0 * x + R1 * y + R2 * z + Tx with hcx
  set cy := R3 * x + R4 * y + R5 * z + Ty with hcy
  set cz := R6 * x + R7 * y + R8 * z + Tz with hcz
  have hden : (R4 * R6 - R3 * R7) * (cx / cz) + (R0 * R7 - R1 * R6) * (cy / cz) + (R1 * R3 - R0 * R4) ≠ 0 := by
    intro h
    apply hl
    have h' : (R4 * R6 - R3 * R7) * cx + (R0 * R7 - R1 * R6) * cy + (R1 * R3 - R0 * R4) * cz = 0 := by
      have := congrArg (· * cz) h
      simp only [zero_mul] at this
      rw [← this]
      field_simp
    rw [hcx, hcy, hcz] at h'
    linear_combination -h'
  rw [if_neg hden]
  congr 1
  ext
  · simp only
    rw [div_eq_iff hden]
    field_simp
    rw [hcx, hcy, hcz]
    ring
  · simp only
    rw [div_eq_iff hden]
    field_simp
    rw [hcx, hcy, hcz]
    ring

/-- **C137** (partial: without distortion, horizontal slices): a point of the slice converted to a pixel and back is the same point, with or
without refraction. -/
theorem C137_back_partial (p : Tsai) (level : ℕ) (nbypix : ℝ) (angle : Bool) (v : V3) (z : ℝ) (q : ℝ × ℝ)
    (hkc : p.kc = none ∨ p.kc = some 0) (hf : p.f'.1 ≠ 0 ∧ p.f'.2 ≠ 0) (R : M3) (hR : p.R = some R)
    (hs : slicePlane p level angle = .ok (z, none)) (hv : OnSlice z v) (hline : NotSeenAsLine R p.T' (virtualZ p z).1)
    (h : phys2pix p v = .ok q) : pix2phys p q.1 (nbypix - q.2) level nbypix angle = .ok v := by
  have hk : p.kc' = 0 := by rcases hkc with h | h <;> simp [Tsai.kc', h]
  unfold phys2pix at h
  simp only [hR] at h
  unfold OnSlice at hv
  rw [hv] at h
  split_ifs at h with hrefr hcz
  simp only [hk, zero_mul, add_zero, mul_one, Except.ok.injEq] at h
  unfold pix2phys
  rw [hs]
  simp only [if_neg hrefr, hR]
  have hu : undistort p q.1 (nbypix - (nbypix - q.2)) = .ok ((camera R p.T' ⟨v.x * 100, v.y * 100, (virtualZ p z).1⟩).x /
      (camera R p.T' ⟨v.x * 100, v.y * 100, (virtualZ p z).1⟩).z, (camera R p.T' ⟨v.x * 100, v.y * 100, (virtualZ p z).1⟩).y /
      (camera R p.T' ⟨v.x * 100, v.y * 100, (virtualZ p z).1⟩).z) := by
    unfold undistort
    rw [if_neg (not_or.2 hf)]
    simp only [hk, zero_mul, add_zero, one_ne_zero, if_false, div_one]
    rw [← h]
    have f1 := hf.1
    have f2 := hf.2
    congr 1
    ext
    · simp only; field_simp; ring
    · simp only; field_simp; ring
  rw [hu]
  simp only
  rw [tf_solve R p.T' _ _ _ hcz hline]
  simp only
  congr 1
  ext
  · simp only; ring
  · simp only; ring
  · simp only; rw [← hv]; ring

/-- **C137, violation** (distortion): with radial distortion a point of the slice at 1 cm comes back at 4 mm. -/
theorem C137_distortion_fails : ∃ (p : Tsai) (v v' : V3) (q : ℝ × ℝ) (nbypix : ℝ), Horizontal p 0 true ∧ phys2pix p v = .ok q ∧
    pix2phys p q.1 (nbypix - q.2) 0 nbypix true = .ok v' ∧ v.x = 1 / 100 ∧ v'.x = 4 / 1000 := by
  have hz : slicePlane distTsai 0 true = .ok (0, none) := by simp [slicePlane, distTsai, sliceAngle]
  refine ⟨distTsai, ⟨1 / 100, 0, 0⟩, ⟨4 / 1000, 0, 0⟩, (2, 0), 0, ⟨0, hz⟩, ?_, ?_, rfl, rfl⟩
  · unfold phys2pix
    simp only [distTsai, Tsai.f', Tsai.kc', Tsai.C', Tsai.T', virtualZ, Option.getD_some,
      Option.getD_none, reduceCtorEq, if_false, M3.one, camera, M3.mulVec, V3.dot, V3.add]
    norm_num
  · unfold pix2phys
    rw [hz]
    simp only [distTsai, undistort, solvePlane, Tsai.f', Tsai.kc', Tsai.C', Tsai.T', virtualZ, Option.getD_some,
      Option.getD_none, M3.one, reduceCtorEq, if_false]
    norm_num

/-! ## Displacements -/

/-- **C137** (displacements): the position is the one of the pixel, and the displacement is the difference of the positions of the two ends. -/
theorem C137_displacement (p : Tsai) (X Y dx dy : ℝ) (level : ℕ) (nbypix : ℝ) (angle : Bool) (v d : V3)
    (h : pix2physUV p X Y dx dy level nbypix angle = .ok (v, d)) :
    pix2phys p X Y level nbypix angle = .ok v ∧ ∃ a b, pix2phys p (X - dx / 2) (Y - dy / 2) level nbypix angle = .ok a ∧
      pix2phys p (X + dx / 2) (Y + dy / 2) level nbypix angle = .ok b ∧ d.x = b.x - a.x ∧ d.y = b.y - a.y ∧ d.z = b.z - a.z := by
  unfold pix2physUV at h
  cases h1 : pix2phys p X Y level nbypix angle with
  | error e => simp only [h1] at h; cases h
  | ok w =>
    cases h2 : pix2phys p (X + dx / 2) (Y + dy / 2) level nbypix angle with
    | error e => simp only [h1, h2] at h; cases h
    | ok b =>
      cases h3 : pix2phys p (X - dx / 2) (Y - dy / 2) level nbypix angle with
      | error e => simp only [h1, h2, h3] at h; cases h
      | ok a =>
        simp only [h1, h2, h3, Except.ok.injEq, Prod.mk.injEq] at h
        obtain ⟨rfl, rfl⟩ := h
        exact ⟨rfl, a, b, rfl, rfl, rfl, rfl, rfl⟩

/-- **C137** (no displacement, opposite displacement): no displacement gives no displacement, and the opposite displacement gives the
opposite one. -/
theorem C137_opposite (p : Tsai) (X Y dx dy : ℝ) (level : ℕ) (nbypix : ℝ) (angle : Bool) (v d : V3) :
    (pix2physUV p X Y 0 0 level nbypix angle = .ok (v, d) → d = ⟨0, 0, 0⟩) ∧
      (pix2physUV p X Y dx dy level nbypix angle = .ok (v, d) →
        pix2physUV p X Y (-dx) (-dy) level nbypix angle = .ok (v, ⟨-d.x, -d.y, -d.z⟩)) := by
  refine ⟨?_, ?_⟩
  · intro h
    obtain ⟨_, a, b, ha, hb, h1, h2, h3⟩ := C137_displacement p X Y 0 0 level nbypix angle v d h
    simp only [zero_div, add_zero, sub_zero] at ha hb
    rw [ha] at hb
    cases hb
    ext <;> simp only [h1, h2, h3, sub_self]
  · intro h
    obtain ⟨hv, a, b, ha, hb, h1, h2, h3⟩ := C137_displacement p X Y dx dy level nbypix angle v d h
    unfold pix2physUV
    rw [show X + -dx / 2 = X - dx / 2 by ring, show Y + -dy / 2 = Y - dy / 2 by ring, show X - -dx / 2 = X + dx / 2 by ring,
      show Y - -dy / 2 = Y + dy / 2 by ring]
    simp only [hv, ha, hb]
    congr 2
    ext <;> simp only [V3.sub, h1, h2, h3, neg_sub]

/-- **C137** (particles; partial: without distortion, horizontal slices).  For a particle which goes from a point of the slice to another one,
the displacement in pixels between its two images (with y counted from the other side) placed at the middle of the two images is
converted in the physical displacement of the particle, exactly. -/
theorem C137_particle_partial (p : Tsai) (level : ℕ) (nbypix : ℝ) (angle : Bool) (v w : V3) (z : ℝ) (q r : ℝ × ℝ)
    (hkc : p.kc = none ∨ p.kc = some 0) (hf : p.f'.1 ≠ 0 ∧ p.f'.2 ≠ 0) (R : M3) (hR : p.R = some R)
    (hs : slicePlane p level angle = .ok (z, none)) (hv : OnSlice z v) (hw : OnSlice z w)
    (hline : NotSeenAsLine R p.T' (virtualZ p z).1) (h1 : phys2pix p v = .ok q) (h2 : phys2pix p w = .ok r) (m d : V3)
    (h : pix2physUV p ((q.1 + r.1) / 2) (nbypix - (q.2 + r.2) / 2) (r.1 - q.1) (-(r.2 - q.2)) level nbypix angle = .ok (m, d)) :
    d.x = w.x - v.x ∧ d.y = w.y - v.y ∧ d.z = 0 := by
  obtain ⟨_, a, b, ha, hb, e1, e2, e3⟩ := C137_displacement _ _ _ _ _ _ _ _ _ _ h
  have hq := C137_back_partial p level nbypix angle v z q hkc hf R hR hs hv hline h1
  have hr := C137_back_partial p level nbypix angle w z r hkc hf R hR hs hw hline h2
  rw [show (q.1 + r.1) / 2 - (r.1 - q.1) / 2 = q.1 by ring, show nbypix - (q.2 + r.2) / 2 - -(r.2 - q.2) / 2 = nbypix - q.2 by ring, hq] at ha
  rw [show (q.1 + r.1) / 2 + (r.1 - q.1) / 2 = r.1 by ring, show nbypix - (q.2 + r.2) / 2 + -(r.2 - q.2) / 2 = nbypix - r.2 by ring, hr] at hb
  cases ha
  cases hb
  refine ⟨e1, e2, ?_⟩
  unfold OnSlice at hv hw
  rw [e3]
  linarith

/-- Two points of the slice of `exTsai` have images, and so has the middle of these images. -/
example : ∃ q r m d, OnSlice 1 ⟨0, 0, 1 / 100⟩ ∧ OnSlice 1 ⟨1 / 100, 0, 1 / 100⟩ ∧ slicePlane exTsai 0 true = .ok (1, none) ∧
    phys2pix exTsai ⟨0, 0, 1 / 100⟩ = .ok q ∧ phys2pix exTsai ⟨1 / 100, 0, 1 / 100⟩ = .ok r ∧
    pix2physUV exTsai ((q.1 + r.1) / 2) (500 - (q.2 + r.2) / 2) (r.1 - q.1) (-(r.2 - q.2)) 0 500 true = .ok (m, d) := by
  have h1 : phys2pix exTsai ⟨0, 0, 1 / 100⟩ = .ok (50, 60) := by
    unfold phys2pix
    simp only [exTsai, Tsai.f', Tsai.kc', Tsai.C', Tsai.T', virtualZ, Option.getD_some, camera, M3.mulVec, V3.dot, V3.add, Option.some.injEq]
    norm_num
  have h2 : ∃ r, phys2pix exTsai ⟨1 / 100, 0, 1 / 100⟩ = .ok r := by
    unfold phys2pix
    simp only [exTsai, Tsai.f', Tsai.kc', Tsai.C', Tsai.T', virtualZ, Option.getD_some, camera, M3.mulVec, V3.dot, V3.add, Option.some.injEq]
    norm_num
  obtain ⟨r, h2⟩ := h2
  have h3 : ∀ X Y, ∃ v, pix2phys exTsai X Y 0 500 true = .ok v := by
    intro X Y
    unfold pix2phys
    rw [exTsai_plane]
    simp only [exTsai, undistort, solvePlane, Tsai.f', Tsai.kc', Tsai.C', Tsai.T', virtualZ, Option.getD_some, Option.some.injEq]
    norm_num
  refine ⟨(50, 60), r, ?_⟩
  obtain ⟨m, hm⟩ := h3 ((50 + r.1) / 2) (500 - (60 + r.2) / 2)
  obtain ⟨b, hb⟩ := h3 ((50 + r.1) / 2 + (r.1 - 50) / 2) (500 - (60 + r.2) / 2 + -(r.2 - 60) / 2)
  obtain ⟨a, ha⟩ := h3 ((50 + r.1) / 2 - (r.1 - 50) / 2) (500 - (60 + r.2) / 2 - -(r.2 - 60) / 2)
  refine ⟨m, b.sub a, by norm_num [OnSlice], by norm_num [OnSlice], exTsai_plane, h1, h2, ?_⟩
  unfold pix2physUV
  simp only [hm, hb, ha]

/-- **C137** (calibrations without rotation): the displacement is the one in pixels divided by the focal lengths, in metres, with the sign of
y changed. -/
theorem C137_affine (p : Tsai) (hR : p.R = none) (X Y dx dy : ℝ) (level : ℕ) (nbypix : ℝ) (angle : Bool) (v d : V3)
    (h : pix2physUV p X Y dx dy level nbypix angle = .ok (v, d)) :
    d.x = dx / p.f'.1 / 100 ∧ d.y = -(dy / p.f'.2 / 100) ∧ d.z = 0 := by
  have key : ∀ X Y v, pix2phys p X Y level nbypix angle = .ok v →
      v = ⟨(-p.T'.x + X / p.f'.1) / 100, (-p.T'.y + (nbypix - Y) / p.f'.2) / 100, 0⟩ := by
    intro X Y v h
    unfold pix2phys at h
    rw [hR] at h
    cases hs : slicePlane p level angle with
    | error e => simp only [hs] at h; cases h
    | ok zp =>
      simp only [hs] at h
      split_ifs at h
      cases h
      rfl
  obtain ⟨_, a, b, ha, hb, e1, e2, e3⟩ := C137_displacement _ _ _ _ _ _ _ _ _ _ h
  have ha' := key _ _ _ ha
  have hb' := key _ _ _ hb
  rw [e1, e2, e3, ha', hb']
  refine ⟨?_, ?_, ?_⟩ <;> simp only <;> ring

end Verif
