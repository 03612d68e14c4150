import Verif.Model.Fix
import Verif.Props.MeanNeighbors
import Verif.Lemmas.Dict
import Mathlib.Tactic.Linarith
import Mathlib.Tactic.Ring
import Mathlib.Tactic.NormNum

/-!
# Removal of the false vectors (C40)
-/

namespace Verif
open Verif.PivGrid Verif.Correl Verif.LoopVectors Verif.MeanNeighbors Verif.Fix

/-! ## Specification -/

/-- The correlation of the vector is known and smaller than the minimum. -/
def LowCorrel (p : Params) (r : Res) (i : Nat) : Prop := ∃ c, r.correls i = some c ∧ c < p.correlMin

/-- The displacement is longer than the maximum (a limit equal to 0 is no limit). -/
def TooLong (p : Params) (r : Res) (i : Nat) : Prop :=
  ∃ x y m, r.dx i = some x ∧ r.dy i = some y ∧ p.displacementMax = some m ∧ m ≠ 0 ∧ m ^ 2 < x ^ 2 + y ^ 2

/-- Outliers which do not depend on the neighbours: errors of the computation, small correlations, long vectors. -/
def Outlier (p : Params) (r : Res) (i : Nat) : Prop := i ∈ r.errors.keys ∨ LowCorrel p r i ∨ TooLong p r i

open Classical in
/-- One component of the field without these outliers, as an array `n0 x n1`. -/
noncomputable def cleaned (p : Params) (r : Res) (d : Nat → Option ℚ) (n0 n1 : Nat) : Img (Option ℚ) :=
  ⟨n0, n1, fun i j => if Outlier p r (i * n1 + j) then none else d (i * n1 + j)⟩

/-- The vectors of the neighbours of the point `i`, for the field without the outliers. -/
noncomputable def around (p : Params) (r : Res) (n0 n1 i : Nat) : List (ℚ × ℚ) :=
  neighbourVectors (cleaned p r r.dx n0 n1) (cleaned p r r.dy n0 n1) (i / n1) (i % n1)

/-- The vector differs from the mean of its neighbours by more than the threshold. -/
def FarFromNeighbours (p : Params) (r : Res) (n0 n1 i : Nat) : Prop :=
  ∃ x y t, ¬ Outlier p r i ∧ r.dx i = some x ∧ r.dy i = some y ∧ p.threshold = some t ∧ around p r n0 n1 i ≠ [] ∧
    t ^ 2 < (((around p r n0 n1 i).map Prod.fst).sum / ((around p r n0 n1 i).length : ℚ) - x) ^ 2 +
      (((around p r n0 n1 i).map Prod.snd).sum / ((around p r n0 n1 i).length : ℚ) - y) ^ 2

/-- The vectors which have to be removed. -/
def Removed (p : Params) (r : Res) (n0 n1 i : Nat) : Prop := Outlier p r i ∨ FarFromNeighbours p r n0 n1 i

/-! ## Detection -/

/-- State of the detection: `E` gives the explanations, and the vectors with an explanation have been removed. -/
structure DetInv (r : Res) (E : Nat → Option (List Reason)) (s : Fix.St) : Prop where
  err : ∀ i, s.res.errors.get? i = E i
  wrong : ∀ i, s.wrong.get? i = if E i = none then none else some (r.dx i, r.dy i)
  dx : ∀ i, s.res.dx i = if E i = none then r.dx i else none
  dy : ∀ i, s.res.dy i = if E i = none then r.dy i else none
  cor : s.res.correls = r.correls
  rep : s.res.replaced = r.replaced
  wr : s.res.wrong = r.wrong
  uniqE : s.res.errors.KeysUnique
  uniqW : s.wrong.KeysUnique

/-- A reason is added for the vectors of `L`. -/
def addReason (L : List Nat) (why : Reason) (E : Nat → Option (List Reason)) : Nat → Option (List Reason) :=
  fun i => if i ∈ L then some ((E i).getD [] ++ [why]) else E i

theorem addReason_ne_none {L : List Nat} {why : Reason} {E : Nat → Option (List Reason)} {i : Nat} :
    addReason L why E i ≠ none ↔ i ∈ L ∨ E i ≠ none := by
  unfold addReason
  by_cases h : i ∈ L <;> simp [h]

theorem putToNan_inv (r : Res) (why : Reason) : ∀ (L : List Nat) (E : Nat → Option (List Reason)) (s : Fix.St),
    L.Nodup → DetInv r E s → ∃ s', putToNan why L s = .ok s' ∧ DetInv r (addReason L why E) s'
  | [], E, s, _, h => ⟨s, rfl, by
      have : addReason [] why E = E := by funext i; simp [addReason]
      rw [this]; exact h⟩
  | i :: L, E, s, hn, h => by
    obtain ⟨hi, hn⟩ := List.nodup_cons.1 hn
    have hE : ∀ E', (∀ j, E' j = if j = i then some ((E i).getD [] ++ [why]) else E j) →
        addReason L why E' = addReason (i :: L) why E := by
      intro E' h'
      funext j
      unfold addReason
      by_cases hj : j = i
      · subst hj; rw [if_neg hi, if_pos List.mem_cons_self, h' j, if_pos rfl]
      · by_cases hjL : j ∈ L
        · rw [if_pos hjL, if_pos (List.mem_cons_of_mem _ hjL), h' j, if_neg hj]
        · rw [if_neg hjL, if_neg (by simp [hj, hjL]), h' j, if_neg hj]
    rw [putToNan]
    have hw := h.wrong i
    cases hEi : E i with
    | none =>
      rw [hEi, if_pos rfl] at hw
      rw [hw]
      simp only
      obtain ⟨s', e, h'⟩ := putToNan_inv r why L (fun j => if j = i then some ((E i).getD [] ++ [why]) else E j)
        ({ (Fix.remove s i) with res := { (Fix.remove s i).res with errors := (Fix.remove s i).res.errors.set i [why] } }) hn
        { err := by
            intro j; simp only [Fix.remove]; rw [Dict.get?_set, h.err j]
            by_cases hj : j = i
            · rw [if_pos hj, if_pos hj, hEi]; rfl
            · rw [if_neg hj, if_neg hj]
          wrong := by
            intro j; simp only [Fix.remove]; rw [Dict.get?_set, h.wrong j]
            by_cases hj : j = i
            · subst hj; simp [h.dx j, h.dy j, hEi]
            · simp [hj]
          dx := by
            intro j; simp only [Fix.remove, set1]
            by_cases hj : j = i
            · simp [hj]
            · simp [hj, h.dx j]
          dy := by
            intro j; simp only [Fix.remove, set1]
            by_cases hj : j = i
            · simp [hj]
            · simp [hj, h.dy j]
          cor := h.cor
          rep := h.rep
          wr := h.wr
          uniqE := Dict.keysUnique_set _ _ _ h.uniqE
          uniqW := Dict.keysUnique_set _ _ _ h.uniqW }
      rw [hE _ (fun j => rfl)] at h'
      exact ⟨s', e, h'⟩
    | some ei =>
      rw [hEi, if_neg (by simp)] at hw
      rw [hw]
      simp only
      rw [h.err i, hEi]
      simp only
      obtain ⟨s', e, h'⟩ := putToNan_inv r why L (fun j => if j = i then some ((E i).getD [] ++ [why]) else E j)
        ({ s with res := { s.res with errors := s.res.errors.set i (ei ++ [why]) } }) hn
        { err := by
            intro j; simp only; rw [Dict.get?_set, h.err j]
            by_cases hj : j = i
            · rw [if_pos hj, if_pos hj, hEi]; rfl
            · rw [if_neg hj, if_neg hj]
          wrong := by
            intro j; simp only; rw [h.wrong j]
            by_cases hj : j = i
            · subst hj; simp [hEi]
            · simp [hj]
          dx := by
            intro j; simp only; rw [h.dx j]
            by_cases hj : j = i
            · subst hj; simp [hEi]
            · simp [hj]
          dy := by
            intro j; simp only; rw [h.dy j]
            by_cases hj : j = i
            · subst hj; simp [hEi]
            · simp [hj]
          cor := h.cor
          rep := h.rep
          wr := h.wr
          uniqE := Dict.keysUnique_set _ _ _ h.uniqE
          uniqW := h.uniqW }
      rw [hE _ (fun j => rfl)] at h'
      exact ⟨s', e, h'⟩

theorem removeErrors_inv (n : Nat) (r : Res) : ∀ (L K : List Nat) (s : Fix.St), (∀ i ∈ L, i < n) → (K ++ L).Nodup →
    s.res.errors = r.errors → s.res.correls = r.correls → s.res.replaced = r.replaced → s.res.wrong = r.wrong →
    s.wrong.KeysUnique →
    (∀ i, s.wrong.get? i = (if i ∈ K then some (r.dx i, r.dy i) else none) ∧
      s.res.dx i = (if i ∈ K then none else r.dx i) ∧ s.res.dy i = (if i ∈ K then none else r.dy i)) →
    ∃ s', removeErrors n L s = .ok s' ∧ s'.res.errors = r.errors ∧ s'.res.correls = r.correls ∧
      s'.res.replaced = r.replaced ∧ s'.res.wrong = r.wrong ∧ s'.wrong.KeysUnique ∧
      ∀ i, s'.wrong.get? i = (if i ∈ K ++ L then some (r.dx i, r.dy i) else none) ∧
        s'.res.dx i = (if i ∈ K ++ L then none else r.dx i) ∧ s'.res.dy i = (if i ∈ K ++ L then none else r.dy i)
  | [], K, s, _, _, h1, h2, h3, h4, h5, h6 => ⟨s, rfl, h1, h2, h3, h4, h5, by simpa using h6⟩
  | i :: L, K, s, hlt, hn, h1, h2, h3, h4, h5, h6 => by
    rw [removeErrors, if_neg (by have := hlt i List.mem_cons_self; omega)]
    have hiK : i ∉ K := by
      intro hc
      exact (List.nodup_append.1 hn).2.2 i hc i List.mem_cons_self rfl
    obtain ⟨q1, q2, q3⟩ := h6 i
    rw [if_neg hiK] at q1 q2 q3
    have := removeErrors_inv n r L (K ++ [i]) (Fix.remove s i) (fun j hj => hlt j (List.mem_cons_of_mem _ hj))
      (by simpa using hn) h1 h2 h3 h4 (Dict.keysUnique_set _ _ _ h5) (by
        intro j
        obtain ⟨k1, k2, k3⟩ := h6 j
        simp only [Fix.remove, set1]
        rw [Dict.get?_set, k1, k2, k3, q2, q3]
        by_cases hj : j = i
        · subst hj; simp
        · simp [hj])
    simpa using this

theorem nonzero_nodup (n : Nat) (c : Nat → Bool) : (nonzero n c).Nodup := List.nodup_range.filter _

theorem mem_nonzero {n : Nat} {c : Nat → Bool} {i : Nat} : i ∈ nonzero n c ↔ i < n ∧ c i = true := by
  unfold nonzero; rw [List.mem_filter, List.mem_range]

theorem explain_ok (d2 : Nat → Option ℚ) : ∀ (L : List Nat) (r : Res), L.Nodup → r.errors.KeysUnique →
    (∀ i ∈ L, r.errors.get? i ≠ none) →
    ∃ r', explain d2 L r = .ok r' ∧ r'.dx = r.dx ∧ r'.dy = r.dy ∧ r'.correls = r.correls ∧ r'.replaced = r.replaced ∧
      r'.errors.KeysUnique ∧
      ∀ i, r'.errors.get? i = if i ∈ L then (r.errors.get? i).map (· ++ [.diff ((d2 i).getD 0)]) else r.errors.get? i
  | [], r, _, hu, _ => ⟨r, rfl, rfl, rfl, rfl, rfl, hu, by simp⟩
  | i :: L, r, hn, hu, h => by
    obtain ⟨hi, hn⟩ := List.nodup_cons.1 hn
    cases he : r.errors.get? i with
    | none => exact absurd he (h i List.mem_cons_self)
    | some e =>
      rw [explain, he]
      simp only
      obtain ⟨r', e1, a1, a2, a3, a4, a5, a6⟩ := explain_ok d2 L
        { r with errors := r.errors.set i (e ++ [.diff ((d2 i).getD 0)]) } hn (Dict.keysUnique_set _ _ _ hu) (by
          intro j hj
          simp only
          rw [Dict.get?_set]
          by_cases hji : j = i
          · rw [if_pos hji]; exact fun hc => nomatch hc
          · rw [if_neg hji]; exact h j (List.mem_cons_of_mem _ hj))
      refine ⟨r', e1, a1, a2, a3, a4, a5, ?_⟩
      intro j
      rw [a6 j]
      simp only
      rw [Dict.get?_set]
      by_cases hj : j = i
      · subst hj
        rw [if_neg hi, if_pos rfl, if_pos List.mem_cons_self, he]; rfl
      · simp [hj]

/-- The explanations of the first stage, and the ones of the vectors too far from their neighbours. -/
theorem gt_iff {a : Option ℚ} {b : ℚ} : Fix.gt a b = true ↔ ∃ x, a = some x ∧ b < x := by
  cases a with
  | none => simp [Fix.gt]
  | some x => simp [Fix.gt]

theorem norm2_eq {x y : Option ℚ} {v : ℚ} : norm2 x y = some v ↔ ∃ a b, x = some a ∧ y = some b ∧ a ^ 2 + b ^ 2 = v := by
  cases x with
  | none => simp [norm2]
  | some a =>
    cases y with
    | none => simp [norm2]
    | some b => simp [norm2]

theorem sub_eq {x y : Option ℚ} {v : ℚ} : Fix.sub x y = some v ↔ ∃ a b, x = some a ∧ y = some b ∧ a - b = v := by
  cases x with
  | none => simp [Fix.sub]
  | some a =>
    cases y with
    | none => simp [Fix.sub]
    | some b => simp [Fix.sub]

theorem usedMax_eq {p : Params} {m : ℚ} : usedMax p = some m ↔ p.displacementMax = some m ∧ m ≠ 0 := by
  unfold usedMax
  cases p.displacementMax with
  | none => simp
  | some m' =>
    simp only
    by_cases h : m' = 0
    · rw [if_pos h]; constructor
      · intro hc; cases hc
      · rintro ⟨h1, h2⟩; injection h1 with h1; subst h1; exact absurd h h2
    · rw [if_neg h]; constructor
      · intro hc; injection hc with hc; subst hc; exact ⟨rfl, h⟩
      · rintro ⟨h1, _⟩; exact h1

/-- First stage: what is known after lines 66-103. -/
theorem stage1 (n0 n1 : Nat) (p : Params) (r : Res) (hu : r.errors.KeysUnique) (hk : ∀ i ∈ r.errors.keys, i < n0 * n1) :
    ∃ E s, (∃ s0 s1, removeErrors (n0 * n1) r.errors.keys ⟨r, []⟩ = .ok s0 ∧
        putToNan .correl (nonzero (n0 * n1) (lowCorrel p s0.res)) s0 = .ok s1 ∧ fixDelta (n0 * n1) p s1 = .ok s) ∧
      DetInv r E s ∧ (∀ i, i < n0 * n1 → (E i ≠ none ↔ Outlier p r i)) ∧ (∀ i, n0 * n1 ≤ i → E i = none) := by
  obtain ⟨s0, e0, a1, a2, a3, a4, a5, a6⟩ := removeErrors_inv (n0 * n1) r r.errors.keys [] ⟨r, []⟩ hk
    (by rw [List.nil_append]; exact hu) rfl rfl rfl rfl (by simp [Dict.KeysUnique, Dict.keys]) (by intro i; simp [Dict.get?])
  have inv0 : DetInv r (fun i => r.errors.get? i) s0 := by
    have hm : ∀ i, (r.errors.get? i = none) = (i ∉ r.errors.keys) := fun i => propext (Dict.get?_eq_none_iff _ _)
    refine ⟨fun i => by rw [a1], ?_, ?_, ?_, a2, a3, a4, by rw [a1]; exact hu, a5⟩
    · intro i; rw [(a6 i).1, List.nil_append]
      by_cases h : i ∈ r.errors.keys <;> simp [hm, h]
    · intro i; rw [(a6 i).2.1, List.nil_append]
      by_cases h : i ∈ r.errors.keys <;> simp [hm, h]
    · intro i; rw [(a6 i).2.2, List.nil_append]
      by_cases h : i ∈ r.errors.keys <;> simp [hm, h]
  obtain ⟨s1, e1, inv1⟩ := putToNan_inv r .correl _ _ s0 (nonzero_nodup (n0 * n1) (lowCorrel p s0.res)) inv0
  generalize hE1 : addReason (nonzero (n0 * n1) (lowCorrel p s0.res)) .correl (fun i => r.errors.get? i) = E1 at inv1
  have hlow : ∀ i, lowCorrel p s0.res i = true ↔ LowCorrel p r i := by
    intro i
    unfold lowCorrel LowCorrel
    rw [a2]
    cases r.correls i with
    | none => simp
    | some c => simp
  have h1 : ∀ i, E1 i ≠ none ↔ i ∈ r.errors.keys ∨ (i < n0 * n1 ∧ LowCorrel p r i) := by
    intro i
    subst hE1
    rw [addReason_ne_none, mem_nonzero, hlow]
    simp only [ne_eq, Dict.get?_eq_none_iff, not_not]
    exact Or.comm
  cases hm : usedMax p with
  | none =>
    refine ⟨E1, s1, ⟨s0, s1, e0, e1, by unfold fixDelta; rw [hm]⟩, inv1, ?_, ?_⟩
    · intro i hi
      rw [h1]
      unfold Outlier
      constructor
      · rintro (h | ⟨_, h⟩)
        · exact Or.inl h
        · exact Or.inr (Or.inl h)
      · rintro (h | h | ⟨x, y, m, _, _, hd, hm0, _⟩)
        · exact Or.inl h
        · exact Or.inr ⟨hi, h⟩
        · rw [usedMax_eq.2 ⟨hd, hm0⟩] at hm; cases hm
    · intro i hi
      by_contra hc
      rcases (h1 i).1 hc with h | ⟨h, _⟩
      · have := hk i h; omega
      · omega
  | some m =>
    obtain ⟨hd, hm0⟩ := usedMax_eq.1 hm
    obtain ⟨s2, e2, inv2⟩ := putToNan_inv r .delta _ _ s1
      (nonzero_nodup (n0 * n1) (fun i => Fix.gt (norm2 (s1.res.dx i) (s1.res.dy i)) (m ^ 2))) inv1
    refine ⟨_, s2, ⟨s0, s1, e0, e1, by unfold fixDelta; rw [hm]; exact e2⟩, inv2, ?_, ?_⟩
    · intro i hi
      rw [addReason_ne_none, mem_nonzero]
      simp only [gt_iff, norm2_eq]
      constructor
      · rintro (⟨_, x, ⟨a, b, ha, hb, rfl⟩, hlt⟩ | h)
        · rw [inv1.dx] at ha
          rw [inv1.dy] at hb
          by_cases hE : E1 i = none
          · rw [if_pos hE] at ha hb
            exact Or.inr (Or.inr ⟨a, b, m, ha, hb, hd, hm0, hlt⟩)
          · rw [if_neg hE] at ha; cases ha
        · rcases (h1 i).1 h with h | ⟨_, h⟩
          · exact Or.inl h
          · exact Or.inr (Or.inl h)
      · intro h
        by_cases hE : E1 i = none
        · have hno := (not_congr (h1 i)).1 (by simp [hE])
          rcases h with h | h | ⟨x, y, m', hx, hy, hd', hm', hlt⟩
          · exact absurd (Or.inl h) hno
          · exact absurd (Or.inr ⟨hi, h⟩) hno
          · rw [hd] at hd'; injection hd' with hd'; subst hd'
            left
            refine ⟨hi, _, ⟨x, y, ?_, ?_, rfl⟩, hlt⟩
            · rw [inv1.dx, if_pos hE]; exact hx
            · rw [inv1.dy, if_pos hE]; exact hy
        · exact Or.inr hE
    · intro i hi
      unfold addReason
      rw [if_neg (by rw [mem_nonzero]; omega)]
      by_contra hc
      rcases (h1 i).1 hc with h | ⟨h, _⟩
      · have := hk i h; omega
      · omega

theorem neighbourVectors_congr {a b a' b' : Img (Option ℚ)} (hy : a.ny = a'.ny) (hx : a.nx = a'.nx)
    (ha : ∀ i j, i < a.ny → j < a.nx → a.get i j = a'.get i j) (hb : ∀ i j, i < a.ny → j < a.nx → b.get i j = b'.get i j)
    (i j : Nat) : neighbourVectors a b i j = neighbourVectors a' b' i j := by
  unfold neighbourVectors
  rw [← hy, ← hx]
  apply List.filterMap_congr
  rintro ⟨i', j'⟩ hm
  obtain ⟨h1, h2, _⟩ := mem_neighbours.1 hm
  rw [ha i' j' h1 h2, hb i' j' h1 h2]

theorem fix_flat_lt {n0 n1 i j : Nat} (hi : i < n0) (hj : j < n1) : i * n1 + j < n0 * n1 := by
  have h := Nat.mul_le_mul_right n1 (show i + 1 ≤ n0 from hi)
  rw [Nat.add_mul] at h
  omega

theorem unflat {n0 n1 k : Nat} (hk : k < n0 * n1) : k / n1 < n0 ∧ k % n1 < n1 ∧ k / n1 * n1 + k % n1 = k := by
  have h1 : 0 < n1 := by
    rcases Nat.eq_zero_or_pos n1 with h | h
    · subst h; omega
    · exact h
  exact ⟨Nat.div_lt_of_lt_mul (by rw [Nat.mul_comm]; exact hk), Nat.mod_lt _ h1, Nat.div_add_mod' _ _⟩

/-- Mean of the first (`f = Prod.fst`) or second components. -/
def meanOf (f : ℚ × ℚ → ℚ) (V : List (ℚ × ℚ)) : ℚ := (V.map f).sum / (V.length : ℚ)

/-- Lines 105-123: the differences with the neighbours. -/
theorem meanFlat_spec {n0 n1 : Nat} (h0 : 2 ≤ n0) (h1 : 2 ≤ n1) {p : Params} {r : Res} {E : Nat → Option (List Reason)}
    {s : Fix.St} (inv : DetInv r E s) (hE : ∀ i, i < n0 * n1 → (E i ≠ none ↔ Outlier p r i)) :
    ∃ mx my, meanFlat n0 n1 s.res.dx s.res.dy = .ok (mx, my) ∧ ∀ i, i < n0 * n1 →
      (∀ a b, s.res.dx i = some a → s.res.dy i = some b →
        mx i = (if around p r n0 n1 i = [] then none else some (meanOf Prod.fst (around p r n0 n1 i))) ∧
        my i = (if around p r n0 n1 i = [] then none else some (meanOf Prod.snd (around p r n0 n1 i)))) ∧
      (s.res.dx i = none ∨ s.res.dy i = none → mx i = none ∧ my i = none) := by
  obtain ⟨mx, my, e, h⟩ := C41_partial ⟨n0, n1, fun i j => s.res.dx (i * n1 + j)⟩ ⟨n0, n1, fun i j => s.res.dy (i * n1 + j)⟩ h0 h1
  have hnan := C41_nan_point ⟨n0, n1, fun i j => s.res.dx (i * n1 + j)⟩ ⟨n0, n1, fun i j => s.res.dy (i * n1 + j)⟩ h0 h1 mx my e
  refine ⟨fun k => mx.get (k / n1) (k % n1), fun k => my.get (k / n1) (k % n1), by unfold meanFlat; rw [e], ?_⟩
  intro i hi
  obtain ⟨u1, u2, u3⟩ := unflat hi
  refine ⟨?_, ?_⟩
  · intro a b ha hb
    have hV : neighbourVectors ⟨n0, n1, fun i j => s.res.dx (i * n1 + j)⟩ ⟨n0, n1, fun i j => s.res.dy (i * n1 + j)⟩ (i / n1) (i % n1)
        = around p r n0 n1 i := by
      unfold around
      apply neighbourVectors_congr
      · rfl
      · rfl
      · intro i' j' hi' hj'
        have hlt := fix_flat_lt hi' hj'
        simp only [cleaned]
        rw [inv.dx]
        by_cases ho : Outlier p r (i' * n1 + j')
        · rw [if_neg ((hE _ hlt).2 ho), if_pos ho]
        · rw [if_neg ho, if_pos (by by_contra hc; exact ho ((hE _ hlt).1 hc))]
      · intro i' j' hi' hj'
        have hlt := fix_flat_lt hi' hj'
        simp only [cleaned]
        rw [inv.dy]
        by_cases ho : Outlier p r (i' * n1 + j')
        · rw [if_neg ((hE _ hlt).2 ho), if_pos ho]
        · rw [if_neg ho, if_pos (by by_contra hc; exact ho ((hE _ hlt).1 hc))]
    have := h (i / n1) (i % n1) u1 u2 (by simp only; rw [u3, ha]; simp) (by simp only; rw [u3, hb]; simp)
    rw [hV] at this
    exact this
  · intro hn
    exact hnan (i / n1) (i % n1) u1 u2 (by simp only; rw [u3]; exact hn)

/-- What the detection of the false vectors gives. -/
structure Marked (p : Params) (n0 n1 : Nat) (r r' : Res) : Prop where
  /-- the removed vectors are NaN and have an explanation -/
  removed : ∀ i, i < n0 * n1 → Removed p r n0 n1 i → r'.dx i = none ∧ r'.dy i = none ∧ r'.errors.get? i ≠ none
  /-- the others are unchanged and have no error -/
  others : ∀ i, i < n0 * n1 → ¬ Removed p r n0 n1 i → r'.dx i = r.dx i ∧ r'.dy i = r.dy i ∧ r'.errors.get? i = none
  correls : r'.correls = r.correls
  replaced : r'.replaced = r.replaced

/-- The removed values are kept, and only them. -/
def Kept (p : Params) (n0 n1 : Nat) (r r' : Res) : Prop :=
  ∃ w, r'.wrong = some w ∧ ∀ i, i < n0 * n1 →
    (Removed p r n0 n1 i → w.get? i = some (r.dx i, r.dy i)) ∧ (¬ Removed p r n0 n1 i → w.get? i = none)

/-- Relation between the local variables of the detection and the specification. -/
structure NeighSpec (p : Params) (n0 n1 : Nat) (r : Res) (nb : Neigh) : Prop where
  /-- for the vectors with no neighbour, or removed before the comparison with the neighbours -/
  nan : ∀ i, i < n0 * n1 → (Outlier p r i ∨ r.dx i = none ∨ r.dy i = none ∨ around p r n0 n1 i = []) →
    nb.d2 i = none ∧ nb.mx i = none ∧ nb.my i = none
  val : ∀ i x y, i < n0 * n1 → ¬ Outlier p r i → r.dx i = some x → r.dy i = some y → around p r n0 n1 i ≠ [] →
    nb.mx i = some (meanOf Prod.fst (around p r n0 n1 i)) ∧ nb.my i = some (meanOf Prod.snd (around p r n0 n1 i)) ∧
    nb.d2 i = some ((meanOf Prod.fst (around p r n0 n1 i) - x) ^ 2 + (meanOf Prod.snd (around p r n0 n1 i) - y) ^ 2)

theorem detect_some {n0 n1 : Nat} (h0 : 2 ≤ n0) (h1 : 2 ≤ n1) {p : Params} {t : ℚ} (ht : p.threshold = some t) {r : Res}
    (hu : r.errors.KeysUnique) (hk : ∀ i ∈ r.errors.keys, i < n0 * n1) :
    ∃ r' nb, detect n0 n1 p r = .ok (r', some nb) ∧ Marked p n0 n1 r r' ∧ Kept p n0 n1 r r' ∧ NeighSpec p n0 n1 r nb ∧
      r'.errors.KeysUnique ∧ (∃ w, r'.wrong = some w ∧ w.KeysUnique ∧ ∀ i, r'.errors.get? i ≠ none → w.get? i ≠ none) := by
  obtain ⟨E, s, ⟨s0, s1, e0, e1, e2⟩, inv, hE, hE'⟩ := stage1 n0 n1 p r hu hk
  obtain ⟨mx, my, em, hm⟩ := meanFlat_spec h0 h1 inv hE
  generalize hd2 : (fun i => norm2 (Fix.sub (mx i) (s.res.dx i)) (Fix.sub (my i) (s.res.dy i))) = d2
  generalize hinds : nonzero (n0 * n1) (fun i => Fix.gt (d2 i) (t ^ 2)) = inds
  obtain ⟨s3, e3, inv3⟩ := putToNan_inv r .neighbour inds E s (hinds ▸ nonzero_nodup _ _) inv
  obtain ⟨r4, e4, b1, b2, b3, b4, b5, b6⟩ := explain_ok d2 inds s3.res (hinds ▸ nonzero_nodup _ _) inv3.uniqE (by
    intro i hi; rw [inv3.err]; exact addReason_ne_none.2 (Or.inl hi))
  have hEo : ∀ i, i < n0 * n1 → (E i = none ↔ ¬ Outlier p r i) := by
    intro i hi; rw [← hE i hi, ne_eq, not_not]
  have hval : NeighSpec p n0 n1 r ⟨mx, my, d2⟩ := by
    constructor
    · intro i hi hor
      have hcase : (s.res.dx i = none ∨ s.res.dy i = none) ∨
          (∃ a b, s.res.dx i = some a ∧ s.res.dy i = some b ∧ around p r n0 n1 i = []) := by
        cases hx : s.res.dx i with
        | none => exact Or.inl (Or.inl rfl)
        | some a =>
          cases hy : s.res.dy i with
          | none => exact Or.inl (Or.inr rfl)
          | some b =>
            right
            refine ⟨a, b, rfl, rfl, ?_⟩
            rw [inv.dx] at hx
            rw [inv.dy] at hy
            by_cases hEi : E i = none
            · rw [if_pos hEi] at hx hy
              rcases hor with ho | ho | ho | ho
              · exact absurd ho ((hEo i hi).1 hEi)
              · rw [ho] at hx; cases hx
              · rw [ho] at hy; cases hy
              · exact ho
            · rw [if_neg hEi] at hx; cases hx
      have hmm : mx i = none ∧ my i = none := by
        rcases hcase with hc | ⟨a, b, hx, hy, hV⟩
        · exact (hm i hi).2 hc
        · obtain ⟨q1, q2⟩ := (hm i hi).1 a b hx hy
          rw [if_pos hV] at q1 q2
          exact ⟨q1, q2⟩
      refine ⟨?_, hmm.1, hmm.2⟩
      subst hd2
      simp only [hmm.1, Fix.sub, norm2]
    · intro i x y hi ho hx hy hV
      have hEi := (hEo i hi).2 ho
      have hx' : s.res.dx i = some x := by rw [inv.dx, if_pos hEi]; exact hx
      have hy' : s.res.dy i = some y := by rw [inv.dy, if_pos hEi]; exact hy
      obtain ⟨q1, q2⟩ := (hm i hi).1 x y hx' hy'
      rw [if_neg hV] at q1 q2
      refine ⟨q1, q2, ?_⟩
      subst hd2
      simp only [q1, q2, hx', hy', Fix.sub, norm2]
  have hfar : ∀ i, i < n0 * n1 → (i ∈ inds ↔ FarFromNeighbours p r n0 n1 i) := by
    intro i hi
    subst hinds
    rw [mem_nonzero, gt_iff]
    constructor
    · rintro ⟨_, v, hv, hlt⟩
      by_cases hnan : Outlier p r i ∨ r.dx i = none ∨ r.dy i = none ∨ around p r n0 n1 i = []
      · have := (hval.nan i hi hnan).1
        simp only at this
        rw [this] at hv; cases hv
      · simp only [not_or] at hnan
        obtain ⟨c1, c2, c3, c4⟩ := hnan
        obtain ⟨x, hx⟩ := Option.ne_none_iff_exists'.1 c2
        obtain ⟨y, hy⟩ := Option.ne_none_iff_exists'.1 c3
        have := (hval.val i x y hi c1 hx hy c4).2.2
        simp only at this
        rw [this] at hv
        injection hv with hv
        subst hv
        exact ⟨x, y, t, c1, hx, hy, ht, c4, hlt⟩
    · rintro ⟨x, y, t', c1, hx, hy, ht', c4, hlt⟩
      rw [ht] at ht'; injection ht' with ht'; subst ht'
      exact ⟨hi, _, (hval.val i x y hi c1 hx hy c4).2.2, hlt⟩
  have hrem : ∀ i, i < n0 * n1 → (addReason inds .neighbour E i ≠ none ↔ Removed p r n0 n1 i) := by
    intro i hi
    rw [addReason_ne_none, hfar i hi, hE i hi]
    exact Or.comm
  have herr : ∀ i, (r4.errors.get? i ≠ none ↔ addReason inds .neighbour E i ≠ none) := by
    intro i
    rw [b6, ← inv3.err]
    by_cases hi : i ∈ inds
    · rw [if_pos hi]; simp
    · rw [if_neg hi]
  refine ⟨{ r4 with wrong := some s3.wrong }, ⟨mx, my, d2⟩, ?_, ?_, ?_, hval, b5, s3.wrong, rfl, inv3.uniqW, ?_⟩
  · unfold detect
    rw [e0]; simp only
    rw [e1]; simp only
    rw [e2]; simp only
    unfold fixNeighbours
    rw [ht]; simp only
    rw [em]; simp only
    have hinds' : nonzero (n0 * n1) (fun i => Fix.gt (norm2 (Fix.sub (mx i) (s.res.dx i)) (Fix.sub (my i) (s.res.dy i)))
        (t ^ 2)) = inds := by rw [← hinds, ← hd2]
    rw [hd2, hinds', e3]; simp only
    rw [e4]
  · refine ⟨?_, ?_, by simp only; rw [b3]; exact inv3.cor, by simp only; rw [b4]; exact inv3.rep⟩
    · intro i hi hr
      have hne := (hrem i hi).2 hr
      refine ⟨?_, ?_, (herr i).2 hne⟩
      · simp only; rw [b1, inv3.dx, if_neg hne]
      · simp only; rw [b2, inv3.dy, if_neg hne]
    · intro i hi hr
      have heq : addReason inds .neighbour E i = none := by
        by_contra hc; exact hr ((hrem i hi).1 hc)
      refine ⟨?_, ?_, ?_⟩
      · simp only; rw [b1, inv3.dx, if_pos heq]
      · simp only; rw [b2, inv3.dy, if_pos heq]
      · by_contra hc; exact (herr i).1 hc heq
  · refine ⟨s3.wrong, rfl, ?_⟩
    intro i hi
    rw [inv3.wrong]
    constructor
    · intro hr; rw [if_neg ((hrem i hi).2 hr)]
    · intro hr; rw [if_pos (by by_contra hc; exact hr ((hrem i hi).1 hc))]
  · intro i hi
    rw [inv3.wrong, if_neg ((herr i).1 hi)]
    exact fun hc => nomatch hc

theorem detect_none {n0 n1 : Nat} {p : Params} (ht : p.threshold = none) {r : Res}
    (hu : r.errors.KeysUnique) (hk : ∀ i ∈ r.errors.keys, i < n0 * n1) :
    ∃ r', detect n0 n1 p r = .ok (r', none) ∧ Marked p n0 n1 r r' ∧ r'.wrong = r.wrong := by
  obtain ⟨E, s, ⟨s0, s1, e0, e1, e2⟩, inv, hE, hE'⟩ := stage1 n0 n1 p r hu hk
  have hr : ∀ i, i < n0 * n1 → (E i ≠ none ↔ Removed p r n0 n1 i) := by
    intro i hi
    rw [hE i hi]
    constructor
    · exact Or.inl
    · rintro (h | ⟨_, _, _, _, _, _, h, _⟩)
      · exact h
      · rw [ht] at h; cases h
  refine ⟨s.res, ?_, ⟨?_, ?_, inv.cor, inv.rep⟩, inv.wr⟩
  · unfold detect
    rw [e0]; simp only
    rw [e1]; simp only
    rw [e2]; simp only
    unfold fixNeighbours
    rw [ht]
  · intro i hi h
    have hne := (hr i hi).2 h
    exact ⟨by rw [inv.dx, if_neg hne], by rw [inv.dy, if_neg hne], by rw [inv.err]; exact hne⟩
  · intro i hi h
    have heq : E i = none := by by_contra hc; exact h ((hr i hi).1 hc)
    exact ⟨by rw [inv.dx, if_pos heq], by rw [inv.dy, if_pos heq], by rw [inv.err]; exact heq⟩

/-- C40 without secondary peaks (default parameters): for every set of vectors on a grid of at least `2 x 2` points, and
every thresholds, the vectors set to NaN are exactly the outliers; their values are kept; the other vectors are
unchanged. -/
theorem C40_marks {n0 n1 : Nat} (h0 : 2 ≤ n0) (h1 : 2 ≤ n1) (p : Params) {t : ℚ} (ht : p.threshold = some t)
    (hp : p.nbPeaks < 2) (env : PeakEnv) (r : Res) (hu : r.errors.KeysUnique) (hk : ∀ i ∈ r.errors.keys, i < n0 * n1) :
    ∃ r', calcul n0 n1 p env r = .ok r' ∧ Marked p n0 n1 r r' ∧ Kept p n0 n1 r r' := by
  obtain ⟨r', nb, e, hM, hK, _⟩ := detect_some h0 h1 ht hu hk
  refine ⟨r', ?_, hM, hK⟩
  unfold calcul
  rw [e]
  simp only
  rw [if_pos hp]

/-- C40 with `threshold_diff_neighbour = None`: the vectors set to NaN are the outliers and the others are unchanged, but
the removed values are lost: the attributes `deltaxs_wrong` and `deltays_wrong` are not set. -/
theorem C40_no_threshold {n0 n1 : Nat} (p : Params) (ht : p.threshold = none)
    (hp : p.nbPeaks < 2) (env : PeakEnv) (r : Res) (hu : r.errors.KeysUnique) (hk : ∀ i ∈ r.errors.keys, i < n0 * n1) :
    ∃ r', calcul n0 n1 p env r = .ok r' ∧ Marked p n0 n1 r r' ∧ r'.wrong = r.wrong := by
  obtain ⟨r', e, hM, hw⟩ := detect_none (n0 := n0) (n1 := n1) ht hu hk
  refine ⟨r', ?_, hM, hw⟩
  unfold calcul
  rw [e]
  simp only
  rw [if_pos hp]

/-- The negation of C40 for the grids with one row or one column: with a threshold for the difference with the neighbours
(default parameters), if any vector is not an outlier, the work raises `IndexError`, whatever the parameters. -/
theorem C40_one_line_fails {n0 n1 : Nat} (h : n0 = 1 ∨ n1 = 1) (p : Params) {t : ℚ} (ht : p.threshold = some t)
    (env : PeakEnv) (r : Res) (hu : r.errors.KeysUnique) (hk : ∀ i ∈ r.errors.keys, i < n0 * n1)
    {i : Nat} (hi : i < n0 * n1) (ho : ¬ Outlier p r i) (hx : r.dx i ≠ none) (hy : r.dy i ≠ none) :
    calcul n0 n1 p env r = .error .indexError := by
  obtain ⟨E, s, ⟨s0, s1, e0, e1, e2⟩, inv, hE, _⟩ := stage1 n0 n1 p r hu hk
  have hEi : E i = none := by by_contra hc; exact ho ((hE i hi).1 hc)
  have hn1 : 0 < n1 := by
    rcases Nat.eq_zero_or_pos n1 with h' | h'
    · subst h'; simp at hi
    · exact h'
  have hdiv : i / n1 * n1 + i % n1 = i := by rw [Nat.mul_comm]; exact Nat.div_add_mod i n1
  have hm : meanFlat n0 n1 s.res.dx s.res.dy = .error .indexError := by
    unfold meanFlat
    rw [C41_one_line_fails _ _ h (i := i / n1) (j := i % n1)]
    · exact (Nat.div_lt_iff_lt_mul hn1).2 hi
    · exact Nat.mod_lt _ hn1
    · show s.res.dx (i / n1 * n1 + i % n1) ≠ none
      rw [hdiv, inv.dx, if_pos hEi]; exact hx
    · show s.res.dy (i / n1 * n1 + i % n1) ≠ none
      rw [hdiv, inv.dy, if_pos hEi]; exact hy
  have hd : detect n0 n1 p r = .error .indexError := by
    unfold detect
    rw [e0]; simp only
    rw [e1]; simp only
    rw [e2]; simp only
    unfold fixNeighbours
    rw [ht]; simp only
    rw [hm]
  unfold calcul
  rw [hd]

/-- A concrete grid of 4 points on one row, with one error. -/
example (env : PeakEnv) : calcul 1 4 ⟨1 / 5, some 10, none, 1⟩ env ⟨fun _ => some 3, fun _ => some 1, fun _ => some 1,
    [(2, [.correl])], none, []⟩ = .error .indexError := by
  refine C40_one_line_fails (i := 1) (Or.inl rfl) _ rfl env _ (by simp [Dict.KeysUnique, Dict.keys])
    (by simp [Dict.keys]) (by decide) ?_ (by simp) (by simp)
  rintro (h | ⟨c, h, hc⟩ | ⟨x, y, m, _, _, h, _⟩)
  · simp [Dict.keys] at h
  · simp only [Option.some.injEq] at h
    subst h
    norm_num at hc
  · cases h

/-! ## Secondary peaks -/

/-- What is known about one vector. -/
structure FixView where
  dx : Option ℚ
  dy : Option ℚ
  correl : Option ℚ
  err : Option (List Reason)
  wrong : Option (Option Vec)
  repl : Option (Option ℚ × Option ℚ × Option ℚ)

def fixView (r : Res) (i : Nat) : FixView :=
  ⟨r.dx i, r.dy i, r.correls i, r.errors.get? i, r.wrong.map (fun w => w.get? i), r.replaced.get? i⟩

/-- The displacement of a secondary peak: the estimate of the previous pass is added. -/
def peakDx (env : PeakEnv) (i : Nat) (k : Fix.Peak) : ℚ := k.dx + (env.inp i).1
def peakDy (env : PeakEnv) (i : Nat) (k : Fix.Peak) : ℚ := k.dy + (env.inp i).2

/-- A peak which can replace a vector of correlation `c0`: its correlation is larger than the minimum and the ratio of the
correlations is larger than 0.6 (for the usual positive `c0`; otherwise what the comparison of the quotient means). -/
def GoodPeak (p : Params) (c0 : Option ℚ) (k : Fix.Peak) : Prop :=
  p.correlMin < k.corr ∧ ∃ c, c0 = some c ∧ (0 < c ∧ 6 / 10 * c < k.corr ∨ c = 0 ∧ 0 < k.corr ∨ c < 0 ∧ k.corr < 6 / 10 * c)

theorem goodPeak_iff {p : Params} {c0 : Option ℚ} {k : Fix.Peak} :
    (ratioOk k.corr c0 = true ∧ p.correlMin < k.corr) ↔ GoodPeak p c0 k := by
  unfold GoodPeak ratioOk
  cases c0 with
  | none => simp
  | some c =>
    simp only [Option.some.injEq, exists_eq_left']
    rw [and_comm]
    refine and_congr_right fun _ => ?_
    rcases lt_trichotomy c 0 with h | h | h
    · rw [if_neg (ne_of_lt h)]
      simp only [decide_eq_true_eq, lt_div_iff_of_neg h]
      constructor
      · intro h'; exact Or.inr (Or.inr ⟨h, by linarith⟩)
      · rintro (⟨h1, _⟩ | ⟨h1, _⟩ | ⟨_, h1⟩)
        · linarith
        · linarith
        · linarith
    · rw [if_pos h]
      simp [h]
    · rw [if_neg (ne_of_gt h)]
      simp only [decide_eq_true_eq, lt_div_iff₀ h]
      constructor
      · intro h'; exact Or.inl ⟨h, by linarith⟩
      · rintro (⟨_, h1⟩ | ⟨h1, _⟩ | ⟨h1, _⟩)
        · linarith
        · linarith
        · linarith

/-- The vector `i` is replaced by a secondary peak `k`. -/
structure ReplacedBy (p : Params) (env : PeakEnv) (nb : Neigh) (i : Nat) (v v' : FixView) (k : Fix.Peak) : Prop where
  peak : ∃ others, env.secondary i = some others ∧ k ∈ others ∧
    /- the closest to the mean of the neighbours -/
    ∃ mx my d0, nb.mx i = some mx ∧ nb.my i = some my ∧ nb.d2 i = some d0 ∧
      (mx - peakDx env i k) ^ 2 + (my - peakDy env i k) ^ 2 < d0 ∧
      (∀ k' ∈ others, GoodPeak p v.correl k' →
        (mx - peakDx env i k) ^ 2 + (my - peakDy env i k) ^ 2 ≤ (mx - peakDx env i k') ^ 2 + (my - peakDy env i k') ^ 2) ∧
      (∀ t, p.threshold = some t → 0 ≤ t ∧ (mx - peakDx env i k) ^ 2 + (my - peakDy env i k) ^ 2 ≤ t ^ 2)
  good : GoodPeak p v.correl k
  /-- the square of the length is at most the maximum displacement (not its square) -/
  bound : ∀ m, p.displacementMax = some m → m ≠ 0 → peakDx env i k ^ 2 + peakDy env i k ^ 2 ≤ m
  sub : ∃ w, env.subpix i k.dx k.dy = .ok w ∧ v'.dx = w.1.map (· + (env.inp i).1) ∧ v'.dy = w.2.map (· + (env.inp i).2)
  correl : v'.correl = some k.corr
  err : v'.err = none
  wrong : ∃ old, v.wrong = some old ∧ (v.err ≠ none → v'.wrong = some none) ∧ (v.err = none → v'.wrong = some old) ∧
    v'.repl = some ((old.getD (v.dx, v.dy)).1, (old.getD (v.dx, v.dy)).2, v.correl)

/-- There is a reason not to replace the vector `i`: there is no comparison with its neighbours, or no good secondary peak is closer to
the mean of the neighbours than the vector, or the closest good peak is too far from it, or is too long, or has no sub-pixel position. -/
def NoBetterPeak (p : Params) (env : PeakEnv) (nb : Neigh) (i : Nat) (v : FixView) : Prop :=
  ∀ others mx my d0, env.secondary i = some others → nb.mx i = some mx → nb.my i = some my → nb.d2 i = some d0 →
    (∀ k ∈ others, GoodPeak p v.correl k → d0 ≤ (mx - peakDx env i k) ^ 2 + (my - peakDy env i k) ^ 2) ∨
    ∃ k ∈ others, GoodPeak p v.correl k ∧
      (∀ k' ∈ others, GoodPeak p v.correl k' →
        (mx - peakDx env i k) ^ 2 + (my - peakDy env i k) ^ 2 ≤ (mx - peakDx env i k') ^ 2 + (my - peakDy env i k') ^ 2) ∧
      ((∃ t, p.threshold = some t ∧ (t < 0 ∨ t ^ 2 < (mx - peakDx env i k) ^ 2 + (my - peakDy env i k) ^ 2)) ∨
       (∃ m, p.displacementMax = some m ∧ m ≠ 0 ∧ m < peakDx env i k ^ 2 + peakDy env i k ^ 2) ∨
       ∃ e, env.subpix i k.dx k.dy = .error e)

/-- Nothing changes, and there is a reason for that, or the vector is replaced. -/
def PeakOutcome (p : Params) (env : PeakEnv) (nb : Neigh) (i : Nat) (v v' : FixView) : Prop :=
  (v' = v ∧ NoBetterPeak p env nb i v) ∨ ∃ k, ReplacedBy p env nb i v v' k

theorem goodPeaks_mem {p : Params} {c0 : Option ℚ} {inp : ℚ × ℚ} : ∀ {L : List Fix.Peak} {k : Fix.Peak},
    k ∈ goodPeaks p c0 inp L ↔ ∃ k0 ∈ L, GoodPeak p c0 k0 ∧ k = ⟨k0.dx + inp.1, k0.dy + inp.2, k0.corr⟩
  | [], k => by simp [goodPeaks]
  | k1 :: L, k => by
    rw [goodPeaks]
    by_cases h : ratioOk k1.corr c0 = true ∧ p.correlMin < k1.corr
    · rw [if_pos h, List.mem_cons, goodPeaks_mem]
      constructor
      · rintro (rfl | ⟨k0, h1, h2⟩)
        · exact ⟨k1, List.mem_cons_self, goodPeak_iff.1 h, rfl⟩
        · exact ⟨k0, List.mem_cons_of_mem _ h1, h2⟩
      · rintro ⟨k0, h1, h2, h3⟩
        rcases List.mem_cons.1 h1 with rfl | h1
        · exact Or.inl h3
        · exact Or.inr ⟨k0, h1, h2, h3⟩
    · rw [if_neg h, goodPeaks_mem]
      constructor
      · rintro ⟨k0, h1, h2⟩; exact ⟨k0, List.mem_cons_of_mem _ h1, h2⟩
      · rintro ⟨k0, h1, h2, h3⟩
        rcases List.mem_cons.1 h1 with rfl | h1
        · exact absurd (goodPeak_iff.2 h2) h
        · exact ⟨k0, h1, h2, h3⟩

theorem argminFrom_spec : ∀ (l : List ℚ) (pos b : Nat) (x : ℚ),
    (argminFrom pos (b, some x) (l.map some) = b ∧ ∀ y ∈ l, x ≤ y) ∨
    (∃ j y, argminFrom pos (b, some x) (l.map some) = pos + j ∧ l[j]? = some y ∧ y < x ∧ ∀ y' ∈ l, y ≤ y')
  | [], pos, b, x => Or.inl ⟨rfl, by simp⟩
  | y :: l, pos, b, x => by
    have hu : argminFrom pos (b, some x) (some y :: l.map some) =
        if y < x then argminFrom (pos + 1) (pos, some y) (l.map some) else argminFrom (pos + 1) (b, some x) (l.map some) := rfl
    rw [List.map_cons, hu]
    by_cases h : y < x
    · rw [if_pos h]
      right
      rcases argminFrom_spec l (pos + 1) pos y with ⟨h1, h2⟩ | ⟨j, z, h1, h2, h3, h4⟩
      · refine ⟨0, y, by rw [h1, Nat.add_zero], rfl, h, ?_⟩
        intro y' hy'
        rcases List.mem_cons.1 hy' with rfl | hy'
        · exact le_refl _
        · exact h2 y' hy'
      · refine ⟨j + 1, z, by rw [h1]; omega, by simpa using h2, by linarith, ?_⟩
        intro y' hy'
        rcases List.mem_cons.1 hy' with rfl | hy'
        · linarith
        · exact h4 y' hy'
    · rw [if_neg h]
      rcases argminFrom_spec l (pos + 1) b x with ⟨h1, h2⟩ | ⟨j, z, h1, h2, h3, h4⟩
      · left
        refine ⟨h1, ?_⟩
        intro y' hy'
        rcases List.mem_cons.1 hy' with rfl | hy'
        · linarith
        · exact h2 y' hy'
      · right
        refine ⟨j + 1, z, by rw [h1]; omega, by simpa using h2, h3, ?_⟩
        intro y' hy'
        rcases List.mem_cons.1 hy' with rfl | hy'
        · linarith
        · exact h4 y' hy'

/-- What the loop needs and keeps: the removed vectors are in the dictionary of the removed values. -/
structure PeakInv (r : Res) : Prop where
  uniqE : r.errors.KeysUnique
  wrong : ∃ w, r.wrong = some w ∧ w.KeysUnique ∧ ∀ i, r.errors.get? i ≠ none → w.get? i ≠ none

theorem farther_false {d t : ℚ} (h : farther (some d) t = false) : 0 ≤ t ∧ d ≤ t ^ 2 := by
  simp only [farther, decide_eq_false_iff_not, not_or, not_lt] at h
  exact ⟨h.1, by nlinarith [h.2]⟩

theorem peakBody_spec {p : Params} {env : PeakEnv} {nb : Neigh} {i : Nat} {r : Res} (hinv : PeakInv r)
    (hnb : nb.d2 i = none ∨ ∃ mx my d0, nb.mx i = some mx ∧ nb.my i = some my ∧ nb.d2 i = some d0) :
    ∃ r', peakBody p env (some nb) i r = .ok r' ∧ PeakInv r' ∧ (∀ j, j ≠ i → fixView r' j = fixView r j) ∧
      PeakOutcome p env nb i (fixView r i) (fixView r' i) := by
  have hsame : NoBetterPeak p env nb i (fixView r i) →
      ∃ r', (Except.ok r : Except PyErr Res) = .ok r' ∧ PeakInv r' ∧ (∀ j, j ≠ i → fixView r' j = fixView r j) ∧
      PeakOutcome p env nb i (fixView r i) (fixView r' i) := fun hno => ⟨r, rfl, hinv, fun _ _ => rfl, Or.inl ⟨rfl, hno⟩⟩
  unfold peakBody
  cases hsec : env.secondary i with
  | none => exact hsame fun _ _ _ _ h => by rw [hsec] at h; cases h
  | some others =>
    simp only
    by_cases hg : goodPeaks p (r.correls i) (env.inp i) others = []
    · rw [if_pos hg]
      refine hsame fun o mx my d0 ho _ _ _ => Or.inl fun k hk hgk => ?_
      obtain rfl : others = o := Option.some.inj (hsec.symm.trans ho)
      have hmem := (goodPeaks_mem (p := p) (c0 := r.correls i) (inp := env.inp i)).2 ⟨k, hk, hgk, rfl⟩
      rw [hg] at hmem
      cases hmem
    · rw [if_neg hg]
      rcases hnb with hnb | ⟨mx, my, d0, hmx, hmy, hd0⟩
      · have : argmin (nb.d2 i :: (goodPeaks p (r.correls i) (env.inp i) others).map (peakDiff nb i)) = 0 := by
          rw [hnb, argmin]
          cases (goodPeaks p (r.correls i) (env.inp i) others).map (peakDiff nb i) <;> simp [argminFrom]
        rw [this]; exact hsame fun _ _ _ _ _ _ _ h => by rw [hnb] at h; cases h
      · generalize hG : goodPeaks p (r.correls i) (env.inp i) others = G
        have hmap : G.map (peakDiff nb i) = (G.map (fun k => (mx - k.dx) ^ 2 + (my - k.dy) ^ 2)).map some := by
          rw [List.map_map]
          apply List.map_congr_left
          intro k _
          simp only [peakDiff, hmx, hmy, Fix.sub, norm2, Function.comp]
        rw [argmin, hmap, hd0]
        rcases argminFrom_spec (G.map (fun k => (mx - k.dx) ^ 2 + (my - k.dy) ^ 2)) 1 0 d0 with ⟨h1, h4⟩ | ⟨j, y, h1, h2, h3, h4⟩
        · rw [h1]
          refine hsame fun o mx' my' d0' ho hx' hy' hd' => Or.inl fun k hk hgk => ?_
          obtain rfl : others = o := Option.some.inj (hsec.symm.trans ho)
          obtain rfl : mx = mx' := Option.some.inj (hmx.symm.trans hx')
          obtain rfl : my = my' := Option.some.inj (hmy.symm.trans hy')
          obtain rfl : d0 = d0' := Option.some.inj (hd0.symm.trans hd')
          exact h4 _ (List.mem_map.2 ⟨⟨k.dx + (env.inp i).1, k.dy + (env.inp i).2, k.corr⟩, by
            rw [← hG]; exact goodPeaks_mem.2 ⟨k, hk, hgk, rfl⟩, rfl⟩)
        · rw [h1, Nat.add_comm 1 j]
          simp only
          rw [List.getElem?_map] at h2
          cases hk : G[j]? with
          | none => rw [hk] at h2; cases h2
          | some k =>
            rw [hk] at h2
            injection h2 with h2
            simp only at h2
            simp only
            have hkd : peakDiff nb i k = some y := by
              simp only [peakDiff, hmx, hmy, Fix.sub, norm2]; exact congrArg some h2
            have hmem : k ∈ G := List.mem_of_getElem? hk
            have hmem' := hmem
            rw [← hG] at hmem'
            obtain ⟨k0, hk0, hgood, hkk⟩ := goodPeaks_mem.1 hmem'
            have ex : k.dx = peakDx env i k0 := by rw [hkk]; rfl
            have ey : k.dy = peakDy env i k0 := by rw [hkk]; rfl
            have ec : k.corr = k0.corr := by rw [hkk]
            rw [hkd]
            have hno : ((∃ t, p.threshold = some t ∧ (t < 0 ∨ t ^ 2 < (mx - peakDx env i k0) ^ 2 + (my - peakDy env i k0) ^ 2)) ∨
                (∃ m, p.displacementMax = some m ∧ m ≠ 0 ∧ m < peakDx env i k0 ^ 2 + peakDy env i k0 ^ 2) ∨
                ∃ e, env.subpix i k0.dx k0.dy = .error e) → NoBetterPeak p env nb i (fixView r i) := by
              intro hwhy o mx' my' d0' ho hx' hy' hd'
              obtain rfl : others = o := Option.some.inj (hsec.symm.trans ho)
              obtain rfl : mx = mx' := Option.some.inj (hmx.symm.trans hx')
              obtain rfl : my = my' := Option.some.inj (hmy.symm.trans hy')
              refine Or.inr ⟨k0, hk0, hgood, ?_, hwhy⟩
              intro k' hk' hg'
              have := h4 ((mx - peakDx env i k') ^ 2 + (my - peakDy env i k') ^ 2) (List.mem_map.2
                ⟨⟨k'.dx + (env.inp i).1, k'.dy + (env.inp i).2, k'.corr⟩, by
                  rw [← hG]; exact goodPeaks_mem.2 ⟨k', hk', hg', rfl⟩, rfl⟩)
              rw [← ex, ← ey, h2]; exact this
            by_cases hfar : tooFar p (some y) = true
            · rw [if_pos hfar]
              refine hsame (hno (Or.inl ?_))
              cases ht : p.threshold with
              | none => simp [tooFar, ht] at hfar
              | some t =>
                simp only [tooFar, ht, farther, decide_eq_true_eq] at hfar
                refine ⟨t, rfl, ?_⟩
                rw [← ex, ← ey, h2, pow_two t]; exact hfar
            · rw [if_neg hfar]
              by_cases hlong : tooLong p k = true
              · rw [if_pos hlong]
                refine hsame (hno (Or.inr (Or.inl ?_)))
                cases hm : usedMax p with
                | none => simp [tooLong, hm] at hlong
                | some m =>
                  simp only [tooLong, hm, decide_eq_true_eq] at hlong
                  refine ⟨m, (usedMax_eq.1 hm).1, (usedMax_eq.1 hm).2, ?_⟩
                  rw [← ex, ← ey]; exact hlong
              · rw [if_neg hlong]
                unfold replace
                have e1 : k.dx - (env.inp i).1 = k0.dx := by rw [hkk]; ring
                have e2 : k.dy - (env.inp i).2 = k0.dy := by rw [hkk]; ring
                rw [e1, e2]
                cases hsub : env.subpix i k0.dx k0.dy with
                | error e => exact hsame (hno (Or.inr (Or.inr ⟨e, hsub⟩)))
                | ok w =>
                  obtain ⟨uE, wr, hwr, uW, hin⟩ := hinv
                  simp only
                  rw [hwr]
                  simp only
                  have hpeak : ∃ others, env.secondary i = some others ∧ k0 ∈ others ∧
                      ∃ mx my d0, nb.mx i = some mx ∧ nb.my i = some my ∧ nb.d2 i = some d0 ∧
                      (mx - peakDx env i k0) ^ 2 + (my - peakDy env i k0) ^ 2 < d0 ∧
                      (∀ k' ∈ others, GoodPeak p (r.correls i) k' →
                        (mx - peakDx env i k0) ^ 2 + (my - peakDy env i k0) ^ 2 ≤
                          (mx - peakDx env i k') ^ 2 + (my - peakDy env i k') ^ 2) ∧
                      (∀ t, p.threshold = some t → 0 ≤ t ∧
                        (mx - peakDx env i k0) ^ 2 + (my - peakDy env i k0) ^ 2 ≤ t ^ 2) := by
                    refine ⟨others, hsec, hk0, mx, my, d0, hmx, hmy, hd0, ?_, ?_, ?_⟩
                    · rw [← ex, ← ey, h2]; exact h3
                    · intro k' hk' hg'
                      have := h4 ((mx - peakDx env i k') ^ 2 + (my - peakDy env i k') ^ 2) (List.mem_map.2
                        ⟨⟨k'.dx + (env.inp i).1, k'.dy + (env.inp i).2, k'.corr⟩, by
                          rw [← hG]; exact goodPeaks_mem.2 ⟨k', hk', hg', rfl⟩, rfl⟩)
                      rw [← ex, ← ey, h2]; exact this
                    · intro t ht
                      simp only [tooFar, ht, Bool.not_eq_true] at hfar
                      rw [← ex, ← ey, h2]
                      exact farther_false hfar
                  have hbound : ∀ m, p.displacementMax = some m → m ≠ 0 → peakDx env i k0 ^ 2 + peakDy env i k0 ^ 2 ≤ m := by
                    intro m hm hm0
                    simp only [tooLong, usedMax_eq.2 ⟨hm, hm0⟩, decide_eq_true_eq, not_lt] at hlong
                    rw [← ex, ← ey]; exact hlong
                  cases hw : wr.get? i with
                  | none =>
                    have herr : r.errors.get? i = none := by
                      by_contra hc; exact hin i hc hw
                    simp only
                    rw [herr]
                    refine ⟨_, rfl, ⟨uE, wr, rfl, uW, hin⟩, ?_, Or.inr ⟨k0, ?_⟩⟩
                    · intro j hj
                      simp only [fixView, set1, if_neg hj, Dict.get?_set, hwr]
                    · refine ⟨hpeak, hgood, hbound, ⟨w, hsub, ?_, ?_⟩, ?_, herr, none, ?_, ?_, ?_, ?_⟩
                      · simp [fixView, set1]
                      · simp [fixView, set1]
                      · simp [fixView, set1, ec]
                      · simp [fixView, hwr, hw]
                      · intro hc; exact absurd herr hc
                      · intro _; simp [fixView, hwr, hw]
                      · simp [fixView, Dict.get?_set]
                  | some old =>
                    simp only
                    cases herr : r.errors.get? i with
                    | none =>
                      refine ⟨_, rfl, ⟨uE, wr, rfl, uW, hin⟩, ?_, Or.inr ⟨k0, ?_⟩⟩
                      · intro j hj
                        simp only [fixView, set1, if_neg hj, Dict.get?_set, hwr]
                      · refine ⟨hpeak, hgood, hbound, ⟨w, hsub, ?_, ?_⟩, ?_, herr, some old, ?_, ?_, ?_, ?_⟩
                        · simp [fixView, set1]
                        · simp [fixView, set1]
                        · simp [fixView, set1, ec]
                        · simp [fixView, hwr, hw]
                        · intro hc; exact absurd herr hc
                        · intro _; simp [fixView, hwr, hw]
                        · simp [fixView, Dict.get?_set]
                    | some er =>
                      simp only
                      refine ⟨_, rfl, ⟨Dict.keysUnique_erase _ _ uE, _, rfl, Dict.keysUnique_erase _ _ uW, ?_⟩, ?_, Or.inr ⟨k0, ?_⟩⟩
                      · intro j
                        simp only
                        rw [Dict.get?_erase _ _ _ uE, Dict.get?_erase _ _ _ uW]
                        by_cases hj : j = i
                        · rw [if_pos hj]; intro hc; exact absurd rfl hc
                        · rw [if_neg hj, if_neg hj]; exact hin j
                      · intro j hj
                        simp only [fixView, set1, if_neg hj, Dict.get?_set, Option.map_some]
                        rw [Dict.get?_erase _ _ _ uE, Dict.get?_erase _ _ _ uW, if_neg hj, if_neg hj, hwr]
                        rfl
                      · refine ⟨hpeak, hgood, hbound, ⟨w, hsub, ?_, ?_⟩, ?_, ?_, some old, ?_, ?_, ?_, ?_⟩
                        · simp [fixView, set1]
                        · simp [fixView, set1]
                        · simp [fixView, set1, ec]
                        · simp [fixView, Dict.get?_erase _ _ _ uE]
                        · simp [fixView, hwr, hw]
                        · intro _; simp [fixView, Dict.get?_erase _ _ _ uW]
                        · intro hc; simp [fixView, herr] at hc
                        · simp [fixView, Dict.get?_set]

theorem peakLoop_spec {p : Params} {env : PeakEnv} {nb : Neigh} : ∀ {L : List Nat} {r : Res}, L.Nodup → PeakInv r →
    (∀ i ∈ L, nb.d2 i = none ∨ ∃ mx my d0, nb.mx i = some mx ∧ nb.my i = some my ∧ nb.d2 i = some d0) →
    ∃ r', peakLoop p env (some nb) L r = .ok r' ∧ PeakInv r' ∧ (∀ j, j ∉ L → fixView r' j = fixView r j) ∧
      ∀ i ∈ L, PeakOutcome p env nb i (fixView r i) (fixView r' i)
  | [], r, _, h, _ => ⟨r, rfl, h, fun _ _ => rfl, by simp⟩
  | i :: L, r, hn, h, hnb => by
    obtain ⟨hi, hn⟩ := List.nodup_cons.1 hn
    obtain ⟨r1, e1, i1, s1, o1⟩ := peakBody_spec (p := p) (env := env) h (hnb i List.mem_cons_self)
    obtain ⟨r2, e2, i2, s2, o2⟩ := peakLoop_spec (p := p) (env := env) hn i1 (fun j hj => hnb j (List.mem_cons_of_mem _ hj))
    refine ⟨r2, by rw [peakLoop, e1]; exact e2, i2, ?_, ?_⟩
    · intro j hj
      rw [List.mem_cons, not_or] at hj
      rw [s2 j hj.2, s1 j hj.1]
    · intro j hj
      rcases List.mem_cons.1 hj with rfl | hj
      · rw [s2 j hi]; exact o1
      · rw [← s1 j (fun hc => hi (hc ▸ hj))]; exact o2 j hj

/-- C40 with secondary peaks (partial: the bound on the displacements of the peaks is not the one of the vectors, see
`C40_peak_bound`, `C40_peak_too_long`).  The work never fails; its result is the one of the detection, except that some
vectors are replaced by the best of their secondary peaks, which satisfies the same conditions on the correlation and on
the neighbours; a replaced vector is no more in the errors and its previous value is in `replaced_vectors`. -/
theorem C40_peaks_partial {n0 n1 : Nat} (h0 : 2 ≤ n0) (h1 : 2 ≤ n1) (p : Params) {t : ℚ} (ht : p.threshold = some t)
    (hp : ¬ p.nbPeaks < 2) (env : PeakEnv) (r : Res) (hu : r.errors.KeysUnique)
    (hk : ∀ i ∈ r.errors.keys, i < n0 * n1) :
    ∃ r1 nb r', Marked p n0 n1 r r1 ∧ Kept p n0 n1 r r1 ∧ NeighSpec p n0 n1 r nb ∧ calcul n0 n1 p env r = .ok r' ∧
      ∀ i, i < n0 * n1 → PeakOutcome p env nb i (fixView r1 i) (fixView r' i) := by
  obtain ⟨r1, nb, e, hM, hK, hN, uE, hw⟩ := detect_some h0 h1 ht hu hk
  obtain ⟨r', e', _, _, ho⟩ := peakLoop_spec (p := p) (env := env) (nb := nb) (L := List.range (n0 * n1)) (r := r1)
    List.nodup_range ⟨uE, hw⟩ (by
      intro i hi
      have hi := List.mem_range.1 hi
      by_cases hnan : Outlier p r i ∨ r.dx i = none ∨ r.dy i = none ∨ around p r n0 n1 i = []
      · exact Or.inl (hN.nan i hi hnan).1
      · simp only [not_or] at hnan
        obtain ⟨c1, c2, c3, c4⟩ := hnan
        obtain ⟨x, hx⟩ := Option.ne_none_iff_exists'.1 c2
        obtain ⟨y, hy⟩ := Option.ne_none_iff_exists'.1 c3
        obtain ⟨q1, q2, q3⟩ := hN.val i x y hi c1 hx hy c4
        exact Or.inr ⟨_, _, _, q1, q2, q3⟩)
  refine ⟨r1, nb, r', hM, hK, hN, ?_, fun i hi => ho i (List.mem_range.2 hi)⟩
  unfold calcul
  rw [e]
  simp only
  rw [if_neg hp]
  exact e'

/-- C40, displacement bound of the secondary peaks (partial: only for maxima of at least 1 pixel): a peak which replaces a
vector satisfies the bound of the vectors. -/
theorem C40_peak_bound_partial {p : Params} {env : PeakEnv} {nb : Neigh} {i : Nat} {v v' : FixView} {k : Fix.Peak}
    (h : ReplacedBy p env nb i v v' k) {m : ℚ} (hm : p.displacementMax = some m) (h1 : 1 ≤ m) :
    peakDx env i k ^ 2 + peakDy env i k ^ 2 ≤ m ^ 2 := by
  have := h.bound m hm (by intro hc; rw [hc] at h1; norm_num at h1)
  nlinarith

/-- The vectors removed because of an error, of their correlation or of their length are never replaced by a secondary
peak: the comparison with the neighbours is NaN for them. -/
theorem C40_outlier_never_replaced {p : Params} {n0 n1 : Nat} {r : Res} {env : PeakEnv} {nb : Neigh} {i : Nat}
    (hN : NeighSpec p n0 n1 r nb) (hi : i < n0 * n1) (ho : Outlier p r i) {v v' : FixView}
    (h : PeakOutcome p env nb i v v') : v' = v := by
  rcases h with h | ⟨k, h⟩
  · exact h.1
  · obtain ⟨_, _, _, _, _, _, _, _, hd, _⟩ := h.peak
    rw [(hN.nan i hi (Or.inl ho)).1] at hd
    cases hd

/-- C40, the other direction: a vector which is compared with its neighbours, and for which a good secondary peak is closer to the mean of
the neighbours, is replaced if every good peak is acceptable (not too far, not too long, with a sub-pixel position). -/
theorem C40_must_replace {p : Params} {env : PeakEnv} {nb : Neigh} {i : Nat} {v v' : FixView} (h : PeakOutcome p env nb i v v')
    {others : List Fix.Peak} {mx my d0 : ℚ} (hs : env.secondary i = some others) (hx : nb.mx i = some mx) (hy : nb.my i = some my)
    (hd : nb.d2 i = some d0)
    (hc : ∃ k ∈ others, GoodPeak p v.correl k ∧ (mx - peakDx env i k) ^ 2 + (my - peakDy env i k) ^ 2 < d0)
    (ht : ∀ k ∈ others, GoodPeak p v.correl k → ∀ t, p.threshold = some t →
      0 ≤ t ∧ (mx - peakDx env i k) ^ 2 + (my - peakDy env i k) ^ 2 ≤ t ^ 2)
    (hm : ∀ k ∈ others, GoodPeak p v.correl k → ∀ m, p.displacementMax = some m → m ≠ 0 →
      peakDx env i k ^ 2 + peakDy env i k ^ 2 ≤ m)
    (hw : ∀ k ∈ others, GoodPeak p v.correl k → ∃ w, env.subpix i k.dx k.dy = .ok w) :
    ∃ k, ReplacedBy p env nb i v v' k := by
  rcases h with ⟨_, h⟩ | h
  · obtain ⟨k, hk, hg, hlt⟩ := hc
    rcases h others mx my d0 hs hx hy hd with h | ⟨k', hk', hg', _, h⟩
    · exact absurd (h k hk hg) (not_le.2 hlt)
    · rcases h with ⟨t, et, h⟩ | ⟨m, em, m0, h⟩ | ⟨e, h⟩
      · obtain ⟨t0, t1⟩ := ht k' hk' hg' t et
        rcases h with h | h
        · exact absurd h (not_lt.2 t0)
        · exact absurd h (not_lt.2 t1)
      · exact absurd h (not_lt.2 (hm k' hk' hg' m em m0))
      · obtain ⟨w, ew⟩ := hw k' hk' hg'
        rw [h] at ew; cases ew
  · exact h

theorem peakLoop_unbound {p : Params} {env : PeakEnv} {r : Res} : ∀ {L : List Nat},
    (∃ i ∈ L, ∃ others, env.secondary i = some others ∧ ∃ k ∈ others, GoodPeak p (r.correls i) k) →
    peakLoop p env none L r = .error .unboundLocalError
  | [], h => by obtain ⟨i, hi, _⟩ := h; cases hi
  | j :: L, h => by
    rw [peakLoop]
    have hgood : ∀ i, (∃ others, env.secondary i = some others ∧ ∃ k ∈ others, GoodPeak p (r.correls i) k) →
        peakBody p env none i r = .error .unboundLocalError := by
      rintro i ⟨others, hs, k, hk, hg⟩
      unfold peakBody
      rw [hs]
      simp only
      rw [if_neg]
      intro hc
      have : (⟨k.dx + (env.inp i).1, k.dy + (env.inp i).2, k.corr⟩ : Fix.Peak) ∈ goodPeaks p (r.correls i) (env.inp i) others :=
        goodPeaks_mem.2 ⟨k, hk, hg, rfl⟩
      rw [hc] at this; cases this
    by_cases hj : ∃ others, env.secondary j = some others ∧ ∃ k ∈ others, GoodPeak p (r.correls j) k
    · rw [hgood j hj]
    · have : peakBody p env none j r = .ok r := by
        unfold peakBody
        cases hs : env.secondary j with
        | none => rfl
        | some others =>
          simp only
          rw [if_pos]
          rw [List.eq_nil_iff_forall_not_mem]
          intro k hk
          obtain ⟨k0, h1, h2, _⟩ := goodPeaks_mem.1 hk
          exact hj ⟨others, hs, k0, h1, h2⟩
      rw [this]
      apply peakLoop_unbound
      obtain ⟨i, hi, hg⟩ := h
      rcases List.mem_cons.1 hi with rfl | hi
      · exact absurd hg hj
      · exact ⟨i, hi, hg⟩

/-- Disagreement: without threshold for the neighbours, the work fails with `UnboundLocalError` as soon as one vector has
an acceptable secondary peak. -/
theorem C40_no_threshold_peaks_fails {n0 n1 : Nat} (p : Params) (ht : p.threshold = none)
    (hp : ¬ p.nbPeaks < 2) (env : PeakEnv) (r : Res) (hu : r.errors.KeysUnique) (hk : ∀ i ∈ r.errors.keys, i < n0 * n1)
    (hpk : ∃ i < n0 * n1, ∃ others, env.secondary i = some others ∧ ∃ k ∈ others, GoodPeak p (r.correls i) k) :
    calcul n0 n1 p env r = .error .unboundLocalError := by
  obtain ⟨r', e, hM, hw⟩ := detect_none (n0 := n0) (n1 := n1) ht hu hk
  unfold calcul
  rw [e]
  simp only
  rw [if_neg hp]
  apply peakLoop_unbound
  obtain ⟨i, hi, h⟩ := hpk
  rw [hM.correls]
  exact ⟨i, List.mem_range.2 hi, h⟩

/-! ## Concrete cases -/

/-- A uniform field `3 x 3` with another vector at the centre. -/
def exField (x c : ℚ) : Res :=
  ⟨fun i => if i = 4 then some c else some x, fun _ => some 0, fun i => if i = 0 then some (1 / 10) else some (9 / 10), [], none, []⟩

def exPeaks (x : ℚ) : PeakEnv :=
  ⟨fun i => if i = 4 then some [⟨x, 0, 4 / 5⟩] else none, none, fun _ dx dy => .ok (some dx, some dy)⟩

/-- The hypotheses hold, the vector 0 (correlation) and the vector 4 (neighbours) are removed and kept; the vector 1 is
unchanged. -/
example : let res := calcul 3 3 ⟨1 / 5, some 10, none, 1⟩ (exPeaks 3) (exField 2 20)
    res.map (fun r => (r.dx 0, r.dx 4, r.dx 1)) = .ok (none, none, some 2) ∧
    res.map (fun r => r.errors.get? 0) = .ok (some [.correl]) ∧
    res.map (fun r => r.errors.get? 4) = .ok (some [.neighbour, .diff 324]) ∧
    res.map (fun r => r.wrong.map (fun w => w.get? 4)) = .ok (some (some (some 20, some 0))) := by decide +kernel

/-- The vector 4 is replaced by its secondary peak. -/
example : let res := calcul 3 3 ⟨1 / 5, some 10, none, 2⟩ (exPeaks 3) (exField 2 20)
    res.map (fun r => r.dx 4) = .ok (some 3) ∧ res.map (fun r => r.errors.get? 4) = .ok none ∧
    res.map (fun r => r.wrong.map (fun w => w.get? 4)) = .ok (some none) ∧
    res.map (fun r => r.replaced.get? 4) = .ok (some (some 20, some 0, some (9 / 10))) := by
  decide +kernel

/-- The hypotheses of `C40_must_replace` hold in this case: the only secondary peak is close to the mean of the neighbours and the vector
is far from it. -/
example : let p : Params := ⟨1 / 5, some 10, none, 2⟩
    let nb : Neigh := ⟨fun _ => some 2, fun _ => some 0, fun _ => some 324⟩
    let r : Res := { exField 2 20 with wrong := some [] }
    ∃ r', PeakOutcome p (exPeaks 3) nb 4 (fixView r 4) (fixView r' 4) ∧ ∃ k, ReplacedBy p (exPeaks 3) nb 4 (fixView r 4) (fixView r' 4) k := by
  intro p nb r
  obtain ⟨r', -, -, -, ho⟩ := peakBody_spec (p := p) (env := exPeaks 3) (nb := nb) (i := 4) (r := r)
    ⟨List.nodup_nil, [], rfl, List.nodup_nil, by simp [r, exField, Dict.get?]⟩ (Or.inr ⟨2, 0, 324, rfl, rfl, rfl⟩)
  refine ⟨r', ho, C40_must_replace ho (others := [⟨3, 0, 4 / 5⟩]) rfl rfl rfl rfl ⟨⟨3, 0, 4 / 5⟩, List.mem_singleton.2 rfl, ?_, ?_⟩ ?_ ?_ ?_⟩
  · exact ⟨by norm_num [p], 9 / 10, by simp [fixView, r, exField], Or.inl ⟨by norm_num, by norm_num⟩⟩
  · norm_num [peakDx, peakDy, PeakEnv.inp, exPeaks]
  · intro k hk _ t ht
    obtain rfl := List.mem_singleton.1 hk
    obtain rfl := Option.some.inj ht
    norm_num [peakDx, peakDy, PeakEnv.inp, exPeaks]
  · intro k _ _ m hm
    cases hm
  · intro k _ _
    exact ⟨_, rfl⟩

/-- The removed values are lost without threshold. -/
theorem C40_values_lost : (calcul 3 3 ⟨1 / 5, none, none, 1⟩ (exPeaks 3) (exField 2 20)).map
    (fun r => (r.dx 0, r.wrong.isSome)) = .ok (none, false) ∧ (exField 2 20).dx 0 = some 2 := by decide +kernel

/-- The negation of C40 for the secondary peaks: with a maximum displacement of 1/2, the vector of length 3/10 is replaced
by a peak of length 3/5. -/
theorem C40_peak_too_long : (calcul 3 3 ⟨1 / 5, some 10, some (1 / 2), 2⟩ (exPeaks (3 / 5)) (exField (9 / 20) (-3 / 10))).map
    (fun r => (r.dx 4, r.dy 4)) = .ok (some (3 / 5), some 0) ∧ ((1 : ℚ) / 2) ^ 2 < (3 / 5) ^ 2 + 0 ^ 2 := by decide +kernel

/-- And with a maximum of 3, a peak of length 2, at the mean of the neighbours, is refused. -/
theorem C40_peak_refused : (calcul 3 3 ⟨1 / 5, some 10, some 3, 2⟩ (exPeaks 2) (exField 2 (-2))).map
    (fun r => (r.dx 4, r.dy 4)) = .ok (some (-2), some 0) ∧ (2 : ℚ) ^ 2 + 0 ^ 2 < 3 ^ 2 := by decide +kernel

end Verif
