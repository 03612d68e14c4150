import Verif.Props.CorrelFft

/-!
# Displacement found for translated windows (C106)

End to end for the correlation methods based on FFT: correlation of two windows (`C65`), its norm (`C66`), search of the
peak (`C36`) and conversion to a displacement (`C38`).
-/

namespace Verif
open Finset Verif.PivGrid Verif.Correl Verif.CorrelFft

/-! ## Specification -/

/-- No circular translation leaves the image the same, except the translations by a whole number of windows. -/
def NoPeriod (n0 n1 : ℕ) (im : ℕ → ℕ → ℝ) : Prop :=
  ∀ dx dy : ℤ, TranslatedBy n0 n1 dx dy im im → (n1 : ℤ) ∣ dx ∧ (n0 : ℤ) ∣ dy

/-- `c` and `norm` (rational numbers, `none` for NaN) are the two results `res` of the call of the correlation object. -/
def SameMap (n0 n1 : ℕ) (res : Img ℝ × ℝ) (c : Map) (norm : ℚ) : Prop :=
  c.ny = n0 ∧ c.nx = n1 ∧
  (∀ i j, i < n0 → j < n1 → ∃ q : ℚ, c.get i j = some q ∧ (q : ℝ) = res.1.get i j) ∧ (norm : ℝ) = res.2

/-- The displacement is less than half of the window, in one direction, by one pixel at least (`n` pixels). -/
def InsideHalf (n : ℕ) (d : ℤ) : Prop := (n : ℤ) / 2 - n < d ∧ d < (n : ℤ) / 2 - 1

/-- The maximum displacement, if any, allows this displacement and its 8 neighbours. -/
def AllowedAround (dmax : Option ℚ) (dx dy : ℤ) : Prop :=
  ∀ m, dmax = some m → 0 ≤ m ∧ ∀ ex ey : ℤ, |ex| ≤ 1 → |ey| ≤ 1 → (((dx + ex) ^ 2 + (dy + ey) ^ 2 : ℤ) : ℚ) ≤ m ^ 2

/-! ## The correlation of translated images -/

theorem fluct_translated (n0 n1 : ℕ) (h0 : 0 < n0) (h1 : 0 < n1) (dx dy : ℤ) (im0 im1 : ℕ → ℕ → ℝ)
    (ht : TranslatedBy n0 n1 dx dy im0 im1) (a b : ℕ) (ha : a < n0) (hb : b < n1) :
    fluct n0 n1 im1 (((a : ℤ) + dy) % n0).toNat (((b : ℤ) + dx) % n1).toNat = fluct n0 n1 im0 a b := by
  unfold fluct
  rw [mean_translated n0 n1 h0 h1 dx dy im0 im1 ht, ht a b ha hb]

theorem sumSq_translated (n0 n1 : ℕ) (h0 : 0 < n0) (h1 : 0 < n1) (dx dy : ℤ) (im0 im1 : ℕ → ℕ → ℝ)
    (ht : TranslatedBy n0 n1 dx dy im0 im1) : sumSq n0 n1 im1 = sumSq n0 n1 im0 := by
  unfold sumSq
  rw [← sum_translate2 n0 n1 h0 h1 dx dy (fun a b => fluct n0 n1 im1 a b ^ 2)]
  apply sum_congr rfl; intro a ha
  apply sum_congr rfl; intro b hb
  rw [fluct_translated n0 n1 h0 h1 dx dy im0 im1 ht a b (mem_range.1 ha) (mem_range.1 hb)]

theorem circCorrel_translated (n0 n1 : ℕ) (h0 : 0 < n0) (h1 : 0 < n1) (dx dy : ℤ) (im0 im1 : ℕ → ℕ → ℝ)
    (ht : TranslatedBy n0 n1 dx dy im0 im1) : circCorrel n0 n1 im0 im1 dx dy = sumSq n0 n1 im0 := by
  unfold circCorrel sumSq
  apply sum_congr rfl; intro a ha
  apply sum_congr rfl; intro b hb
  rw [fluct_translated n0 n1 h0 h1 dx dy im0 im1 ht a b (mem_range.1 ha) (mem_range.1 hb), sq]

theorem index_add (n : ℕ) (hn : 0 < n) (a : ℕ) (d d' : ℤ) :
    ((((((a : ℤ) + d) % n).toNat : ℕ) : ℤ) + d') % n = ((a : ℤ) + (d + d')) % n := by
  rw [Int.toNat_of_nonneg (Int.emod_nonneg _ (by omega)), Int.emod_add_emod, add_assoc]

theorem index_lt (n : ℕ) (hn : 0 < n) (x : ℤ) : (x % n).toNat < n := by
  have h1 : 0 ≤ x % (n : ℤ) := Int.emod_nonneg _ (by omega)
  have h2 : x % (n : ℤ) < n := Int.emod_lt_of_pos _ (by omega)
  omega

/-- Two translations from the same image to the same image: their difference leaves the image the same. -/
theorem translated_twice (n0 n1 : ℕ) (h0 : 0 < n0) (h1 : 0 < n1) (dx dy ex ey : ℤ) (im0 im1 : ℕ → ℕ → ℝ)
    (ht : TranslatedBy n0 n1 dx dy im0 im1) (hs : TranslatedBy n0 n1 ex ey im0 im1) :
    TranslatedBy n0 n1 (ex - dx) (ey - dy) im0 im0 := by
  intro a b ha hb
  have h := ht (((a : ℤ) + (ey - dy)) % n0).toNat (((b : ℤ) + (ex - dx)) % n1).toNat (index_lt n0 h0 _) (index_lt n1 h1 _)
  rw [index_add n0 h0, index_add n1 h1] at h
  rw [← h, ← hs a b ha hb]
  congr 3 <;> omega

/-- All other displacements have a smaller correlation. -/
theorem circCorrel_lt (n0 n1 : ℕ) (h0 : 0 < n0) (h1 : 0 < n1) (dx dy ex ey : ℤ) (im0 im1 : ℕ → ℕ → ℝ)
    (ht : TranslatedBy n0 n1 dx dy im0 im1) (hp : NoPeriod n0 n1 im0)
    (hne : ¬ ((n1 : ℤ) ∣ ex - dx ∧ (n0 : ℤ) ∣ ey - dy)) :
    circCorrel n0 n1 im0 im1 ex ey < circCorrel n0 n1 im0 im1 dx dy := by
  rw [circCorrel_translated n0 n1 h0 h1 dx dy im0 im1 ht]
  have key : ∑ a ∈ range n0, ∑ b ∈ range n1, (fluct n0 n1 im0 a b -
      fluct n0 n1 im1 (((a : ℤ) + ey) % n0).toNat (((b : ℤ) + ex) % n1).toNat) ^ 2
      = 2 * (sumSq n0 n1 im0 - circCorrel n0 n1 im0 im1 ex ey) := by
    have e1 : sumSq n0 n1 im0 = ∑ a ∈ range n0, ∑ b ∈ range n1,
        fluct n0 n1 im1 (((a : ℤ) + ey) % n0).toNat (((b : ℤ) + ex) % n1).toNat ^ 2 := by
      rw [← sumSq_translated n0 n1 h0 h1 dx dy im0 im1 ht]
      exact (sum_translate2 n0 n1 h0 h1 ex ey (fun a b => fluct n0 n1 im1 a b ^ 2)).symm
    have e2 : ∀ S A B C : ℝ, S = A → S = B → A + B - 2 * C = 2 * (S - C) := by intros; linarith
    rw [← e2 (sumSq n0 n1 im0) _ _ (circCorrel n0 n1 im0 im1 ex ey) rfl e1]
    unfold sumSq circCorrel
    rw [mul_sum, ← sum_add_distrib, ← sum_sub_distrib]
    apply sum_congr rfl; intro a _
    rw [mul_sum, ← sum_add_distrib, ← sum_sub_distrib]
    apply sum_congr rfl; intro b _
    ring
  have hnn : 0 ≤ ∑ a ∈ range n0, ∑ b ∈ range n1, (fluct n0 n1 im0 a b -
      fluct n0 n1 im1 (((a : ℤ) + ey) % n0).toNat (((b : ℤ) + ex) % n1).toNat) ^ 2 :=
    sum_nonneg (fun _ _ => sum_nonneg (fun _ _ => sq_nonneg _))
  by_contra hc
  have hz : ∑ a ∈ range n0, ∑ b ∈ range n1, (fluct n0 n1 im0 a b -
      fluct n0 n1 im1 (((a : ℤ) + ey) % n0).toNat (((b : ℤ) + ex) % n1).toNat) ^ 2 = 0 := by linarith
  apply hne
  apply hp
  apply translated_twice n0 n1 h0 h1 dx dy ex ey im0 im1 ht
  intro a b ha hb
  have h2 := (sum_eq_zero_iff_of_nonneg (fun a _ => sum_nonneg (fun b _ => sq_nonneg _))).1 hz a (mem_range.2 ha)
  have h3 := (sum_eq_zero_iff_of_nonneg (fun b _ => sq_nonneg _)).1 h2 b (mem_range.2 hb)
  have h4 := pow_eq_zero_iff two_ne_zero |>.1 h3
  unfold fluct at h4
  rw [mean_translated n0 n1 h0 h1 dx dy im0 im1 ht] at h4
  linarith

/-- A uniform image has periods. -/
theorem sumSq_pos (n0 n1 : ℕ) (h0 : 0 < n0) (h1 : 1 < n1) (im : ℕ → ℕ → ℝ) (hp : NoPeriod n0 n1 im) :
    sumSq n0 n1 im ≠ 0 := by
  intro hz
  have ht : TranslatedBy n0 n1 0 0 im im := by
    intro a b ha hb
    rw [add_zero, add_zero, Int.emod_eq_of_lt (by omega) (by omega), Int.emod_eq_of_lt (by omega) (by omega)]
    simp
  have h := circCorrel_lt n0 n1 h0 (by omega) 0 0 1 0 im im ht hp (by
    rintro ⟨h, _⟩
    have := Int.le_of_dvd (by omega) h
    omega)
  rw [circCorrel_translated n0 n1 h0 (by omega) 0 0 im im ht] at h
  have h2 := circCorrel_sq_le n0 n1 h0 (by omega) im im 1 0
  rw [hz, zero_mul] at h2
  have h3 : circCorrel n0 n1 im im 1 0 = 0 := pow_eq_zero_iff two_ne_zero |>.1 (le_antisymm h2 (sq_nonneg _))
  rw [hz, h3] at h
  exact lt_irrefl _ h

/-! ## The search of the peak -/

/-- A strict maximum away from the borders and from NaN is the peak which is found. -/
theorem peak_unique {c : Map} {norm : ℚ} {a : SearchArea} (hb : AreaCovers c (a.getD (0, c.ny, 0, c.nx)))
    {i j : Nat} {q : ℚ} (hi : 0 < i) (hi' : i + 1 < c.ny) (hj : 0 < j) (hj' : j + 1 < c.nx) (hq : c.get i j = some q)
    (hmax : ∀ i' j' v, i' < c.ny → j' < c.nx → c.get i' j' = some v → (i', j') ≠ (i, j) → v < q)
    (hnan : ∀ i' j', i' ≤ i + 1 → i ≤ i' + 1 → j' ≤ j + 1 → j ≤ j' + 1 → c.get i' j' ≠ none) :
    computeIndicesMax c norm a = .ok ⟨j, i, if norm = 0 then some 0 else some (q / norm)⟩ := by
  obtain ⟨h1, h2, h3⟩ := C36_nan_indices_max c _ hb
  unfold computeIndicesMax
  simp only
  generalize a.getD (0, c.ny, 0, c.nx) = b at *
  cases hn : nanIndicesMax c b.1 b.2.1 b.2.2.1 b.2.2.2 with
  | error e =>
    have he := h2 e hn
    subst he
    have := h1.1 hn i j (by omega) (by omega)
    rw [hq] at this; cases this
  | ok r =>
    obtain ⟨iy, ix, m⟩ := r
    obtain ⟨⟨m1, m2, v, hv, hv'⟩, hbd, hna⟩ := h3 iy ix m hn
    have heq : (iy, ix) = (i, j) := by
      by_contra hc
      have h5 := hmax iy ix v m1 m2 hv hc
      have h6 := hv' i j q (by omega) (by omega) hq
      exact absurd h6 (not_le.2 h5)
    injection heq with e1 e2
    subst e1 e2
    have hm : m = none := by
      cases m with
      | none => rfl
      | some m =>
        cases m with
        | boundary => have := hbd.1 rfl; omega
        | nan =>
          obtain ⟨_, i', j', g1, g2, g3, g4, g5⟩ := hna.1 rfl
          exact absurd g5 (hnan i' j' g1 g2 g3 g4)
    subst hm
    simp only
    rw [hq]
    rfl

/-- The first displacement of the results is the one of the first peak. -/
theorem displacements_first {k : Cls} {c : Map} {norm : ℚ} {p : Peak} (h : computeIndicesMax c norm k.area = .ok p) :
    (k.nbPeaks = 1 → displacements k c norm = .ok (k.toDispl p, none)) ∧
    (∀ r, displacements k c norm = .ok r → r.1 = k.toDispl p) := by
  have hf : firstPeak k c norm = .ok (p, c) := by unfold firstPeak; rw [h]
  constructor
  · intro hk
    unfold displacements
    rw [hf]
    simp only
    rw [if_pos hk]
  · intro r hr
    unfold displacements at hr
    rw [hf] at hr
    simp only at hr
    split at hr
    · injection hr with hr; subst hr; rfl
    · split at hr
      · split at hr
        · cases hr
        · injection hr with hr; subst hr; rfl
      · cases hr

/-- The map in which the peak is searched. -/
def masked (n0 n1 : ℕ) (dmax : Option ℚ) (c : Map) : Map :=
  match dmax with
  | none => c
  | some d => maskLarge n0 n1 d c

/-- The core: the values of the map are proportional to the circular correlation. -/
theorem recover_peak (n0 n1 : ℕ) (im0 im1 : ℕ → ℕ → ℝ) (dx dy : ℤ) (K : ℝ) (hK : 0 < K)
    (ht : TranslatedBy n0 n1 dx dy im0 im1) (hp : NoPeriod n0 n1 im0) (hdx : InsideHalf n1 dx) (hdy : InsideHalf n0 dy)
    (dmax : Option ℚ) (hd : AllowedAround dmax dx dy) (radius nb : ℕ) (c : Map) (norm : ℚ) (hy : c.ny = n0)
    (hx : c.nx = n1)
    (hc : ∀ i j, i < n0 → j < n1 → ∃ q : ℚ, c.get i j = some q ∧
      (q : ℝ) = K * circCorrel n0 n1 im0 im1 ((Correl.fftCls n0 n1 none 0 0).displacement j i).1
        ((Correl.fftCls n0 n1 none 0 0).displacement j i).2) :
    ∃ q : ℚ, (q : ℝ) = K * sumSq n0 n1 im0 ∧ ∃ p : Peak,
      computeIndicesMax (masked n0 n1 dmax c) norm (Correl.fftCls n0 n1 dmax radius nb).area = .ok p ∧
      (Correl.fftCls n0 n1 dmax radius nb).toDispl p = ⟨dx, dy, if norm = 0 then some 0 else some (q / norm)⟩ := by
  obtain ⟨hx1, hx2⟩ := hdx
  obtain ⟨hy1, hy2⟩ := hdy
  have h0 : 0 < n0 := by omega
  have h1 : 0 < n1 := by omega
  obtain ⟨i, hi⟩ : ∃ i : ℕ, (i : ℤ) = (n0 : ℤ) / 2 - 1 - dy := ⟨((n0 : ℤ) / 2 - 1 - dy).toNat, by omega⟩
  obtain ⟨j, hj⟩ : ∃ j : ℕ, (j : ℤ) = (n1 : ℤ) / 2 - 1 - dx := ⟨((n1 : ℤ) / 2 - 1 - dx).toNat, by omega⟩
  have hdis : ∀ i' j' : ℕ, (Correl.fftCls n0 n1 none 0 0).displacement j' i' =
      ((n1 : ℤ) / 2 - 1 - j', (n0 : ℤ) / 2 - 1 - i') := fun _ _ => rfl
  obtain ⟨q, hq, hqv⟩ := hc i j (by omega) (by omega)
  rw [hdis] at hqv
  simp only at hqv
  have ex : (n1 : ℤ) / 2 - 1 - j = dx := by omega
  have ey : (n0 : ℤ) / 2 - 1 - i = dy := by omega
  rw [ex, ey] at hqv
  have hlt : ∀ i' j' v, i' < n0 → j' < n1 → c.get i' j' = some v → (i', j') ≠ (i, j) → v < q := by
    intro i' j' v hi' hj' hv hne
    obtain ⟨q', hq', hqv'⟩ := hc i' j' hi' hj'
    rw [hv] at hq'
    injection hq' with hq'
    subst hq'
    rw [hdis] at hqv'
    simp only at hqv'
    have := circCorrel_lt n0 n1 h0 h1 dx dy ((n1 : ℤ) / 2 - 1 - j') ((n0 : ℤ) / 2 - 1 - i') im0 im1 ht hp (by
      rintro ⟨⟨k1, g1⟩, ⟨k2, g2⟩⟩
      apply hne
      have hk1 : k1 = 0 := by
        by_contra hk
        rcases lt_or_gt_of_ne hk with hk | hk <;> nlinarith
      have hk2 : k2 = 0 := by
        by_contra hk
        rcases lt_or_gt_of_ne hk with hk | hk <;> nlinarith
      rw [hk1, mul_zero] at g1
      rw [hk2, mul_zero] at g2
      exact Prod.ext (by simp only; omega) (by simp only; omega))
    have h5 : (v : ℝ) < (q : ℝ) := by rw [hqv', hqv]; exact mul_lt_mul_of_pos_left this hK
    exact_mod_cast h5
  have hdisp : ∀ x, (Correl.fftCls n0 n1 dmax radius nb).toDispl ⟨j, i, x⟩ = ⟨dx, dy, x⟩ := by
    intro x
    unfold Cls.toDispl Cls.displacement fftCls centre
    simp only [ex, ey]
  refine ⟨q, by rw [hqv, circCorrel_translated n0 n1 h0 h1 dx dy im0 im1 ht], ?_⟩
  cases dmax with
  | none =>
    have hpk : computeIndicesMax c norm (Correl.fftCls n0 n1 none radius nb).area = _ :=
      peak_unique (covers_all c) (i := i) (j := j) (by omega) (by omega) (by omega) (by omega) hq
        (fun i' j' v a1 a2 a3 a4 => hlt i' j' v (by omega) (by omega) a3 a4)
        (fun i' j' a1 a2 a3 a4 => by
          obtain ⟨q', hq', _⟩ := hc i' j' (by omega) (by omega)
          rw [hq']; exact Option.some_ne_none _)
    exact ⟨_, hpk, hdisp _⟩
  | some m =>
    obtain ⟨hm, hall⟩ := hd m rfl
    have ha : ∀ i' j', i' ≤ i + 1 → i ≤ i' + 1 → j' ≤ j + 1 → j ≤ j' + 1 → Allowed n0 n1 m i' j' := by
      intro i' j' a1 a2 a3 a4
      refine ⟨hm, ?_⟩
      have := hall ((n1 : ℤ) / 2 - 1 - j' - dx) ((n0 : ℤ) / 2 - 1 - i' - dy) (abs_le.2 ⟨by omega, by omega⟩)
        (abs_le.2 ⟨by omega, by omega⟩)
      rw [show dx + ((n1 : ℤ) / 2 - 1 - j' - dx) = (n1 : ℤ) / 2 - 1 - j' by ring,
        show dy + ((n0 : ℤ) / 2 - 1 - i' - dy) = (n0 : ℤ) / 2 - 1 - i' by ring] at this
      exact this
    have hpk : computeIndicesMax (maskLarge n0 n1 m c) norm (Correl.fftCls n0 n1 (some m) radius nb).area = _ :=
      peak_unique (c := maskLarge n0 n1 m c) (a := some (fftArea n0 n1 m)) (covers_fft h0 h1 (onlyAllowed_maskLarge m hy hx)) (i := i) (j := j)
        (by omega) (by show i + 1 < c.ny; omega) (by omega) (by show j + 1 < c.nx; omega)
        (((maskLarge_get n0 n1 m c i j).2 q).2 ⟨hq, ha i j (by omega) (by omega) (by omega) (by omega)⟩)
        (fun i' j' v a1 a2 a3 a4 => hlt i' j' v (by rw [← hy]; exact a1) (by rw [← hx]; exact a2)
          (((maskLarge_get n0 n1 m c i' j').2 v).1 a3).1 a4)
        (fun i' j' a1 a2 a3 a4 => by
          obtain ⟨q', hq', _⟩ := hc i' j' (by omega) (by omega)
          rw [((maskLarge_get n0 n1 m c i' j').2 q').2 ⟨hq', ha i' j' a1 a2 a3 a4⟩]; exact Option.some_ne_none _)
    exact ⟨_, hpk, hdisp _⟩

theorem recover_core (n0 n1 : ℕ) (im0 im1 : ℕ → ℕ → ℝ) (dx dy : ℤ) (K : ℝ) (hK : 0 < K)
    (ht : TranslatedBy n0 n1 dx dy im0 im1) (hp : NoPeriod n0 n1 im0) (hdx : InsideHalf n1 dx) (hdy : InsideHalf n0 dy)
    (dmax : Option ℚ) (hd : AllowedAround dmax dx dy) (radius nb : ℕ) (c : Map) (norm : ℚ) (hy : c.ny = n0)
    (hx : c.nx = n1)
    (hc : ∀ i j, i < n0 → j < n1 → ∃ q : ℚ, c.get i j = some q ∧
      (q : ℝ) = K * circCorrel n0 n1 im0 im1 ((Correl.fftCls n0 n1 none 0 0).displacement j i).1
        ((Correl.fftCls n0 n1 none 0 0).displacement j i).2) :
    ∃ q : ℚ, (q : ℝ) = K * sumSq n0 n1 im0 ∧
      (nb = 1 → fftDisplacements n0 n1 dmax radius nb c norm =
        .ok (⟨dx, dy, if norm = 0 then some 0 else some (q / norm)⟩, none)) ∧
      ∀ r, fftDisplacements n0 n1 dmax radius nb c norm = .ok r →
        r.1 = ⟨dx, dy, if norm = 0 then some 0 else some (q / norm)⟩ := by
  obtain ⟨q, hq, p, hpk, hdisp⟩ := recover_peak n0 n1 im0 im1 dx dy K hK ht hp hdx hdy dmax hd radius nb c norm hy hx hc
  obtain ⟨d1, d2⟩ := displacements_first hpk
  have e : fftDisplacements n0 n1 dmax radius nb c norm =
      displacements (Correl.fftCls n0 n1 dmax radius nb) (masked n0 n1 dmax c) norm := by
    unfold fftDisplacements masked
    cases dmax <;> rfl
  refine ⟨q, hq, fun hnb => ?_, fun r hr => ?_⟩
  · rw [e, d1 hnb, hdisp]
  · rw [e] at hr
    rw [d2 r hr, hdisp]

/-! ## C106 -/

/-- C106, numpy: when the second window is the first one translated circularly by `(dx, dy)`, less than half of the window,
and no other translation gives the same window, the displacement found is exactly `(dx, dy)`, with the correlation 1, for all
parameters (number of peaks, radius, maximum displacement which allows the peak and its neighbours).  With one peak the search
always succeeds. -/
theorem C106_numpy_partial (junk : ℕ → ℕ → ℝ) (n0 n1 : ℕ) (im0 im1 : ℕ → ℕ → ℝ) (dx dy : ℤ)
    (ht : TranslatedBy n0 n1 dx dy im0 im1) (hp : NoPeriod n0 n1 im0) (hdx : InsideHalf n1 dx) (hdy : InsideHalf n0 dy)
    (dmax : Option ℚ) (hd : AllowedAround dmax dx dy) (radius nb : ℕ) (c : Map) (norm : ℚ)
    (hc : SameMap n0 n1 (npCorrel junk n0 n1 im0 im1) c norm) :
    (nb = 1 → fftDisplacements n0 n1 dmax radius nb c norm = .ok (⟨dx, dy, some 1⟩, none)) ∧
    ∀ r, fftDisplacements n0 n1 dmax radius nb c norm = .ok r → r.1 = ⟨dx, dy, some 1⟩ := by
  obtain ⟨hy, hx, hg, hn⟩ := hc
  have h0 : 0 < n0 := by obtain ⟨a, b⟩ := hdy; omega
  have h1 : 1 < n1 := by obtain ⟨a, b⟩ := hdx; omega
  have hs := sumSq_pos n0 n1 h0 h1 im0 hp
  obtain ⟨q, hq, hr⟩ := recover_core n0 n1 im0 im1 dx dy 1 one_pos ht hp hdx hdy dmax hd radius nb c norm hy hx
    (fun i j hi hj => by
      obtain ⟨q, g1, g2⟩ := hg i j hi hj
      exact ⟨q, g1, by rw [g2, one_mul, C65_numpy junk n0 n1 im0 im1 i j hi hj]⟩)
  rw [C66_norm_numpy junk n0 n1 h0 (by omega), sumSq_translated n0 n1 h0 (by omega) dx dy im0 im1 ht,
    Real.sqrt_mul_self (sumSq_nonneg n0 n1 im0)] at hn
  have hqn : q = norm := by
    have : (q : ℝ) = (norm : ℝ) := by rw [hq, hn, one_mul]
    exact_mod_cast this
  have hnz : norm ≠ 0 := by
    intro hz
    rw [hz] at hn
    exact hs (by rw [← hn]; simp)
  rw [if_neg hnz, hqn, div_self hnz] at hr
  exact hr

/-- C106, fftw: the same displacement; the correlation is 1 when the number of columns is even (C66). -/
theorem C106_fftw_partial (junk : ℕ → ℕ → ℝ) (n0 n1 : ℕ) (im0 im1 : ℕ → ℕ → ℝ) (dx dy : ℤ)
    (ht : TranslatedBy n0 n1 dx dy im0 im1) (hp : NoPeriod n0 n1 im0) (hdx : InsideHalf n1 dx) (hdy : InsideHalf n0 dy)
    (dmax : Option ℚ) (hd : AllowedAround dmax dx dy) (radius nb : ℕ) (c : Map) (norm : ℚ)
    (hc : SameMap n0 n1 (fftwCorrel junk n0 n1 im0 im1) c norm) :
    (∃ x, (n1 % 2 = 0 → x = some 1) ∧
      (nb = 1 → fftDisplacements n0 n1 dmax radius nb c norm = .ok (⟨dx, dy, x⟩, none)) ∧
      ∀ r, fftDisplacements n0 n1 dmax radius nb c norm = .ok r → r.1 = ⟨dx, dy, x⟩) := by
  obtain ⟨hy, hx, hg, hn⟩ := hc
  have h0 : 0 < n0 := by obtain ⟨a, b⟩ := hdy; omega
  have h1 : 1 < n1 := by obtain ⟨a, b⟩ := hdx; omega
  have hs := sumSq_pos n0 n1 h0 h1 im0 hp
  have hK : (0 : ℝ) < (n1 : ℝ) * n0 := by
    have r0 : (0 : ℝ) < n0 := by exact_mod_cast h0
    have r1 : (0 : ℝ) < n1 := by exact_mod_cast (by omega : 0 < n1)
    positivity
  obtain ⟨q, hq, hr⟩ := recover_core n0 n1 im0 im1 dx dy ((n1 : ℝ) * n0) hK ht hp hdx hdy dmax hd radius nb c norm hy hx
    (fun i j hi hj => by
      obtain ⟨q, g1, g2⟩ := hg i j hi hj
      exact ⟨q, g1, by rw [g2, C65_fftw junk n0 n1 im0 im1 i j hi hj]⟩)
  refine ⟨_, ?_, hr⟩
  intro heven
  rw [C66_norm_fftw junk n0 n1 h0 (by omega) heven, sumSq_translated n0 n1 h0 (by omega) dx dy im0 im1 ht,
    Real.sqrt_mul_self (sumSq_nonneg n0 n1 im0)] at hn
  have hqn : q = norm := by
    have : (q : ℝ) = (norm : ℝ) := by rw [hq, hn]
    exact_mod_cast this
  have hnz : norm ≠ 0 := by
    intro hz
    rw [hz, Rat.cast_zero] at hn
    rcases mul_eq_zero.1 hn.symm with h | h
    · exact hK.ne' h
    · exact hs h
  rw [if_neg hnz, hqn, div_self hnz]

/-! ## Rational images -/

/-- An image with rational pixels. -/
def toR (im : ℕ → ℕ → ℚ) : ℕ → ℕ → ℝ := fun i j => (im i j : ℝ)

/-- The circular correlation of rational images. -/
def circCorrelQ (n0 n1 : ℕ) (im0 im1 : ℕ → ℕ → ℚ) (dx dy : ℤ) : ℚ :=
  let m0 := (∑ i ∈ range n0, ∑ j ∈ range n1, im0 i j) / (n0 * n1)
  let m1 := (∑ i ∈ range n0, ∑ j ∈ range n1, im1 i j) / (n0 * n1)
  ∑ a ∈ range n0, ∑ b ∈ range n1,
    (im0 a b - m0) * (im1 (((a : ℤ) + dy) % n0).toNat (((b : ℤ) + dx) % n1).toNat - m1)

theorem circCorrelQ_cast (n0 n1 : ℕ) (im0 im1 : ℕ → ℕ → ℚ) (dx dy : ℤ) :
    ((circCorrelQ n0 n1 im0 im1 dx dy : ℚ) : ℝ) = circCorrel n0 n1 (toR im0) (toR im1) dx dy := by
  unfold circCorrelQ circCorrel fluct imMean toR
  push_cast
  rfl

/-- The results of the call of the correlation object (numpy) for rational images. -/
def mapQ (n0 n1 : ℕ) (im0 im1 : ℕ → ℕ → ℚ) : Map :=
  ⟨n0, n1, fun i j => some (circCorrelQ n0 n1 im0 im1 ((n1 : ℤ) / 2 - 1 - j) ((n0 : ℤ) / 2 - 1 - i))⟩

/-- The hypothesis on the map is met by all rational images translated: no rounding error and no NaN. -/
theorem sameMap_mapQ (junk : ℕ → ℕ → ℝ) (n0 n1 : ℕ) (h0 : 0 < n0) (h1 : 0 < n1) (im0 im1 : ℕ → ℕ → ℚ) (dx dy : ℤ)
    (ht : TranslatedBy n0 n1 dx dy (toR im0) (toR im1)) :
    SameMap n0 n1 (npCorrel junk n0 n1 (toR im0) (toR im1)) (mapQ n0 n1 im0 im1) (circCorrelQ n0 n1 im0 im1 dx dy) := by
  refine ⟨rfl, rfl, ?_, ?_⟩
  · intro i j hi hj
    exact ⟨_, rfl, by rw [circCorrelQ_cast, C65_numpy junk n0 n1 _ _ i j hi hj]; rfl⟩
  · rw [circCorrelQ_cast, circCorrel_translated n0 n1 h0 h1 dx dy _ _ ht, C66_norm_numpy junk n0 n1 h0 h1,
      sumSq_translated n0 n1 h0 h1 dx dy _ _ ht, Real.sqrt_mul_self (sumSq_nonneg n0 n1 _)]

/-- An image with one bright pixel has no period. -/
theorem noPeriod_bright (n0 n1 p q : ℕ) (hp : p < n0) (hq : q < n1) (im : ℕ → ℕ → ℝ)
    (h : ∀ a b, a < n0 → b < n1 → im a b = im p q → a = p ∧ b = q) : NoPeriod n0 n1 im := by
  intro dx dy ht
  obtain ⟨e1, e2⟩ := h _ _ (index_lt n0 (by omega) _) (index_lt n1 (by omega) _) (ht p q hp hq)
  have g1 : 0 ≤ ((p : ℤ) + dy) % (n0 : ℤ) := Int.emod_nonneg _ (by omega)
  have g2 : 0 ≤ ((q : ℤ) + dx) % (n1 : ℤ) := Int.emod_nonneg _ (by omega)
  have k1 : ((p : ℤ) + dy) % (n0 : ℤ) = p := by omega
  have k2 : ((q : ℤ) + dx) % (n1 : ℤ) = q := by omega
  constructor
  · have := Int.dvd_self_sub_of_emod_eq k2
    rwa [show (q : ℤ) + dx - q = dx by ring] at this
  · have := Int.dvd_self_sub_of_emod_eq k1
    rwa [show (p : ℤ) + dy - p = dy by ring] at this

/-- Two particles, of which one is brighter. -/
def twoParticles : ℕ → ℕ → ℚ := fun a b => if a = 0 ∧ b = 0 then 2 else if a = 1 ∧ b = 2 then 1 else 0

/-- The same particles moved, in a window of 6 pixels. -/
def particlesMoved (dx dy : ℤ) : ℕ → ℕ → ℚ := fun a b => twoParticles (((a : ℤ) - dy) % 6).toNat (((b : ℤ) - dx) % 6).toNat

theorem particlesMoved_translated (dx dy : ℤ) : TranslatedBy 6 6 dx dy (toR twoParticles) (toR (particlesMoved dx dy)) := by
  intro a b ha hb
  unfold toR particlesMoved
  rw [show (((((((a : ℤ) + dy) % (6 : ℕ)).toNat : ℕ) : ℤ) - dy) % 6).toNat = a by omega,
    show (((((((b : ℤ) + dx) % (6 : ℕ)).toNat : ℕ) : ℤ) - dx) % 6).toNat = b by omega]

theorem twoParticles_noPeriod : NoPeriod 6 6 (toR twoParticles) := by
  apply noPeriod_bright 6 6 0 0 (by omega) (by omega)
  intro a b ha hb h
  unfold toR twoParticles at h
  by_contra hc
  rw [if_neg hc] at h
  split at h <;> norm_num at h

/-- Non-vacuity: two particles moved by `(1, -2)`. -/
example : fftDisplacements 6 6 (some 4) 1 1 (mapQ 6 6 twoParticles (particlesMoved 1 (-2)))
    (circCorrelQ 6 6 twoParticles (particlesMoved 1 (-2)) 1 (-2)) = .ok (⟨1, -2, some 1⟩, none) :=
  (C106_numpy_partial (fun _ _ => 0) 6 6 _ _ 1 (-2) (particlesMoved_translated 1 (-2)) twoParticles_noPeriod
    (by constructor <;> decide) (by constructor <;> decide) (some 4)
    (by
      intro m hm
      injection hm with hm
      subst hm
      refine ⟨by norm_num, ?_⟩
      intro ex ey h1 h2
      rw [abs_le] at h1 h2
      have : (1 + ex) ^ 2 + (-2 + ey) ^ 2 ≤ (16 : ℤ) := by nlinarith [h1.1, h1.2, h2.1, h2.2]
      calc (((1 + ex) ^ 2 + (-2 + ey) ^ 2 : ℤ) : ℚ) ≤ ((16 : ℤ) : ℚ) := by exact_mod_cast this
        _ = 4 ^ 2 := by norm_num)
    1 1 _ _ (sameMap_mapQ _ 6 6 (by omega) (by omega) _ _ 1 (-2) (particlesMoved_translated 1 (-2)))).1 rfl

/-! ## The displacements which are not found -/

theorem accepted_interior {c : Map} {norm : ℚ} {a : SearchArea} (hb : AreaCovers c (a.getD (0, c.ny, 0, c.nx))) {p : Peak}
    (h : computeIndicesMax c norm a = .ok p) : 0 < p.iy ∧ p.iy + 1 < c.ny ∧ 0 < p.ix ∧ p.ix + 1 < c.nx := by
  obtain ⟨h1, h2, h3⟩ := C36_nan_indices_max c _ hb
  unfold computeIndicesMax at h
  simp only at h
  generalize a.getD (0, c.ny, 0, c.nx) = b at *
  cases hn : nanIndicesMax c b.1 b.2.1 b.2.2.1 b.2.2.2 with
  | error e => rw [hn] at h; cases h
  | ok r =>
    obtain ⟨iy, ix, m⟩ := r
    rw [hn] at h
    obtain ⟨⟨m1, m2, _⟩, hbd, _⟩ := h3 iy ix m hn
    cases m with
    | some m => cases h
    | none =>
      injection h with h
      subst h
      have : ¬ (iy = 0 ∨ iy + 1 = c.ny ∨ ix = 0 ∨ ix + 1 = c.nx) := fun hc => by have := hbd.2 hc; cases this
      simp only
      omega

/-- C106, converse: the displacements which are not inside the half of the window are never found, whatever the images are:
when the windows are translated by such a displacement, the result is an error or a wrong displacement. -/
theorem C106_large_fails (n0 n1 : ℕ) (dmax : Option ℚ) (radius nb : ℕ) (c : Map) (norm : ℚ) (hy : c.ny = n0) (hx : c.nx = n1)
    (h0 : 0 < n0) (h1 : 0 < n1) (r : Displ × Option (List Displ))
    (hr : fftDisplacements n0 n1 dmax radius nb c norm = .ok r) : InsideHalf n1 r.1.dx ∧ InsideHalf n0 r.1.dy := by
  have hall : ∀ (k : Cls) (c0 : Map), (k.ix0 = (n1 : ℤ) / 2 - 1 ∧ k.iy0 = (n0 : ℤ) / 2 - 1) → c0.ny = n0 → c0.nx = n1 →
      Searches k c0 → displacements k c0 norm = .ok r → InsideHalf n1 r.1.dx ∧ InsideHalf n0 r.1.dy := by
    intro k c0 hk hy0 hx0 hs hd
    have hpk : ∀ c1 p, c1.ny = n0 → c1.nx = n1 → Searches k c1 → computeIndicesMax c1 norm k.area = .ok p →
        InsideHalf n1 (k.toDispl p).dx ∧ InsideHalf n0 (k.toDispl p).dy := by
      intro c1 p e1 e2 hs1 hc1
      have := accepted_interior hs1 hc1
      unfold InsideHalf Cls.toDispl Cls.displacement
      simp only
      omega
    have hfirst : ∀ p c', firstPeak k c0 norm = .ok (p, c') →
        InsideHalf n1 (k.toDispl p).dx ∧ InsideHalf n0 (k.toDispl p).dy := by
      intro p c' h
      unfold firstPeak at h
      split at h
      · rename_i p' hp'
        injection h with h
        injection h with g1 g2
        subst g1
        exact hpk c0 _ hy0 hx0 hs hp'
      · cases h
      · rename_i m p' hp'
        simp only at h
        split at h
        · rename_i p2 hp2
          injection h with h
          injection h with g1 g2
          subst g1
          exact hpk (mask c0 k.radius p'.ix p'.iy) _ hy0 hx0 (searches_mask _ _ _ hs) hp2
        · cases h
        · cases h
    unfold displacements at hd
    split at hd
    · cases hd
    · rename_i p c' hp
      have := hfirst p c' hp
      split at hd
      · injection hd with hd; subst hd; exact this
      · split at hd
        · split at hd
          · cases hd
          · injection hd with hd; subst hd; exact this
        · cases hd
  unfold fftDisplacements at hr
  cases dmax with
  | none => exact hall (Correl.fftCls n0 n1 none radius nb) c ⟨rfl, rfl⟩ hy hx (covers_all c) hr
  | some m =>
    exact hall (Correl.fftCls n0 n1 (some m) radius nb) (maskLarge n0 n1 m c) ⟨rfl, rfl⟩ hy hx (covers_fft h0 h1 (onlyAllowed_maskLarge m hy hx)) hr

/-- C106 fails at half of the window: with the two particles moved by 3 pixels to the left in windows of 6 pixels, the
displacement returned, without any error, is 1 pixel to the right and 1 pixel in the other direction, with a correlation of
7/19. -/
theorem C106_half_window_fails (junk : ℕ → ℕ → ℝ) :
    TranslatedBy 6 6 (-3) 0 (toR twoParticles) (toR (particlesMoved (-3) 0)) ∧ NoPeriod 6 6 (toR twoParticles) ∧
    ∃ c norm, SameMap 6 6 (npCorrel junk 6 6 (toR twoParticles) (toR (particlesMoved (-3) 0))) c norm ∧
      fftDisplacements 6 6 none 1 1 c norm = .ok (⟨1, -1, some (7 / 19)⟩, none) :=
  ⟨particlesMoved_translated (-3) 0, twoParticles_noPeriod, _, _, sameMap_mapQ junk 6 6 (by omega) (by omega) _ _ (-3) 0
    (particlesMoved_translated (-3) 0), by decide +kernel⟩

end Verif
