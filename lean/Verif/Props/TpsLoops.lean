import Verif.Model.TpsLoops
import Verif.Model.TpsWeights
import Mathlib.Algebra.BigOperators.Fin
import Mathlib.Tactic.Linarith

/-!
# C140: the matrix of the thin plate splines does not depend on the installation
-/

namespace Verif
open Verif.TpsLoops

/-! ## Specification -/

section
variable {I F : Type} (A : Arith I F)

/-- The square of the distance between a new position and a center, with the numbers of the results: the dimensions are added one after the other. -/
def tlDist (newPos centers : Nat → Nat → F) (dims i j : Nat) : F :=
  (List.range dims).foldl (fun s k => A.add s (A.sq (A.sub (newPos k j) (centers k i)))) A.zero

/-- The entry of the matrix: a line for each center, a line of ones, a line for each coordinate. -/
def tlEntry (newPos centers : Nat → Nat → F) (dims nbCenters i j : Nat) : F :=
  if i < nbCenters then
    if A.ne0 (tlDist A newPos centers dims i j) then A.xlogx (tlDist A newPos centers dims i j) else tlDist A newPos centers dims i j
  else if i = nbCenters then A.one
  else newPos (i - (nbCenters + 1)) j

/-- The differences and the squares of these positions are the same in the type of the positions and in float64 (for positions which are already
float64, the conversion is the identity). -/
def ExactSquares (newPos centers : Arr I) : Prop :=
  ∀ k i j, k < newPos.n → i < centers.m → j < newPos.m →
    A.cast (A.sqI (A.subI (newPos.at_ k j) (centers.at_ k i))) = A.sq (A.sub (A.cast (newPos.at_ k j)) (A.cast (centers.at_ k i)))

/-! ## Loops -/

theorem tl_addNewPos (center : F) (newPos : Nat → F) (ic : Nat) : ∀ (l : List Nat) (em : Nat → Nat → F), l.Nodup → ∀ i j,
    addNewPos A center newPos ic l em i j =
      if i = ic ∧ j ∈ l then A.add (em ic j) (A.sq (A.sub (newPos j) center)) else em i j := by
  intro l
  induction l with
  | nil => intro em _ i j; simp [addNewPos]
  | cons p l ih =>
    intro em hl i j
    obtain ⟨hp, hl⟩ := List.nodup_cons.1 hl
    simp only [addNewPos, ih _ hl, put]
    by_cases hi : i = ic
    · subst hi
      by_cases hj : j ∈ l
      · have : j ≠ p := fun h => hp (h ▸ hj)
        simp [hj, this]
      · by_cases hjp : j = p
        · subst hjp; simp [hj]
        · simp [hj, hjp]
    · simp [hi]

theorem tl_addCenters (centers newPos : Nat → F) (nbNew : Nat) : ∀ (l : List Nat) (em : Nat → Nat → F), l.Nodup → ∀ i j,
    addCenters A centers newPos nbNew l em i j =
      if i ∈ l ∧ j < nbNew then A.add (em i j) (A.sq (A.sub (newPos j) (centers i))) else em i j := by
  intro l
  induction l with
  | nil => intro em _ i j; simp [addCenters]
  | cons c l ih =>
    intro em hl i j
    obtain ⟨hc, hl⟩ := List.nodup_cons.1 hl
    simp only [addCenters, ih _ hl, tl_addNewPos A _ _ _ _ _ List.nodup_range, List.mem_range]
    by_cases hi : i ∈ l
    · have : i ≠ c := fun h => hc (h ▸ hi)
      simp [hi, this]
    · by_cases hic : i = c
      · subst hic; simp [hi]
      · simp [hi, hic]

theorem tl_addDims (centers newPos : Nat → Nat → F) (nc nn : Nat) : ∀ (l : List Nat) (em : Nat → Nat → F) (i j : Nat), i < nc → j < nn →
    addDims A centers newPos nc nn l em i j = l.foldl (fun s k => A.add s (A.sq (A.sub (newPos k j) (centers k i)))) (em i j) := by
  intro l
  induction l with
  | nil => intro em i j _ _; rfl
  | cons k l ih =>
    intro em i j hi hj
    simp only [addDims, ih _ i j hi hj, tl_addCenters A _ _ _ _ _ List.nodup_range, List.mem_range, hi, hj, and_self, if_true, List.foldl_cons]

theorem tl_logRow (ic : Nat) : ∀ (l : List Nat) (em : Nat → Nat → F), l.Nodup → ∀ i j,
    logRow A ic l em i j = if i = ic ∧ j ∈ l ∧ A.ne0 (em i j) = true then A.xlogx (em i j) else em i j := by
  intro l
  induction l with
  | nil => intro em _ i j; simp [logRow]
  | cons p l ih =>
    intro em hl i j
    obtain ⟨hp, hl⟩ := List.nodup_cons.1 hl
    simp only [logRow, ih _ hl]
    by_cases hi : i = ic
    · subst hi
      by_cases hj : j ∈ l
      · have hjp : j ≠ p := fun h => hp (h ▸ hj)
        cases h : A.ne0 (em i p) <;> simp [hj, put, hjp]
      · by_cases hjp : j = p
        · subst hjp
          cases h : A.ne0 (em i j) <;> simp [hj, put, h]
        · cases h : A.ne0 (em i p) <;> simp [hj, put, hjp]
    · cases h : A.ne0 (em ic p) <;> simp [hi, put]

theorem tl_logRows (nn : Nat) : ∀ (l : List Nat) (em : Nat → Nat → F), l.Nodup → ∀ i j,
    logRows A nn l em i j = if i ∈ l ∧ j < nn ∧ A.ne0 (em i j) = true then A.xlogx (em i j) else em i j := by
  intro l
  induction l with
  | nil => intro em _ i j; simp [logRows]
  | cons c l ih =>
    intro em hl i j
    obtain ⟨hc, hl⟩ := List.nodup_cons.1 hl
    simp only [logRows, ih _ hl, tl_logRow A _ _ _ List.nodup_range, List.mem_range]
    by_cases hi : i ∈ l
    · have : i ≠ c := fun h => hc (h ▸ hi)
      simp [hi, this]
    · by_cases hic : i = c
      · subst hic; simp [hi]
      · simp [hi, hic]

theorem tl_addMeshes (centers newPos : Nat → Nat → I) : ∀ (l : List Nat) (em : Nat → Nat → F) (i j : Nat),
    addMeshes A centers newPos l em i j = l.foldl (fun s k => A.add s (A.cast (A.sqI (A.subI (newPos k j) (centers k i))))) (em i j) := by
  intro l
  induction l with
  | nil => intro em i j; rfl
  | cons k l ih => intro em i j; simp only [addMeshes, ih, List.foldl_cons, meshgrid]

theorem tl_putAll (f : Nat × Nat → F) : ∀ (l : List (Nat × Nat)) (em : Nat → Nat → F) (i j : Nat),
    putAll em (l.map fun p => (p, f p)) i j = if (i, j) ∈ l then f (i, j) else em i j := by
  intro l
  induction l with
  | nil => intro em i j; simp [putAll]
  | cons p l ih =>
    intro em i j
    simp only [List.map_cons, putAll, ih]
    by_cases h : (i, j) ∈ l
    · simp [h]
    · by_cases hp : (i, j) = p
      · subst hp; simp [h, put]
      · have hp' : ¬ (i = p.1 ∧ j = p.2) := fun ⟨a, b⟩ => hp (Prod.ext a b)
        simp [h, hp, put, hp']

theorem tl_where (em : Nat → Nat → F) (n m i j : Nat) : (i, j) ∈ whereNe0 A em n m ↔ i < n ∧ j < m ∧ A.ne0 (em i j) = true := by
  unfold whereNe0
  simp only [List.mem_flatMap, List.mem_range, List.mem_map, List.mem_filter, Prod.mk.injEq]
  constructor
  · rintro ⟨a, ha, b, ⟨hb, hn⟩, rfl, rfl⟩; exact ⟨ha, hb, hn⟩
  · rintro ⟨ha, hb, hn⟩; exact ⟨i, ha, j, ⟨hb, hn⟩, rfl, rfl⟩

/-! ## The two implementations -/

/-- The compiled function gives the matrix of the specification, whatever is in the memory which is allocated. -/
theorem tl_pythran (junk : Nat → Nat → F) (newPos centers : Arr F) (h : newPos.n = centers.n) :
    ∃ r, pythran A junk newPos centers = .ok r ∧ r.n = centers.m + 1 + newPos.n ∧ r.m = newPos.m ∧
      ∀ i j, i < r.n → j < r.m → r.at_ i j = tlEntry A newPos.at_ centers.at_ newPos.n centers.m i j := by
  have hne : ¬ newPos.n ≠ centers.n := fun hn => hn h
  unfold pythran
  simp only [hne, if_false]
  refine ⟨_, rfl, rfl, rfl, ?_⟩
  intro i j hi hj
  simp only at hi hj ⊢
  unfold tlEntry
  by_cases h1 : i < centers.m
  · have h2 : ¬ (centers.m + 1 ≤ i ∧ i < centers.m + 1 + newPos.n) := by omega
    have h3 : i ≠ centers.m := by omega
    simp only [h2, h3, h1, if_false, if_true, tl_logRows A _ _ _ List.nodup_range, List.mem_range, hj, true_and,
      tl_addDims A _ _ _ _ _ _ i j h1 hj]
    rfl
  · by_cases h2 : i = centers.m
    · have h3 : ¬ (centers.m + 1 ≤ i ∧ i < centers.m + 1 + newPos.n) := by omega
      simp only [h1, h2, h3, if_false, if_true]
      simp
    · have h3 : centers.m + 1 ≤ i ∧ i < centers.m + 1 + newPos.n := by omega
      simp only [h1, h2, h3, if_false, if_true, and_self]

/-- The function for NumPy gives the same matrix for positions whose squares are exact. -/
theorem tl_numpy (newPos centers : Arr I) (h : newPos.n = centers.n) (he : ExactSquares A newPos centers) :
    ∃ r, numpy A newPos centers = .ok r ∧ r.n = centers.m + 1 + newPos.n ∧ r.m = newPos.m ∧
      ∀ i j, i < r.n → j < r.m → r.at_ i j =
        tlEntry A (fun i j => A.cast (newPos.at_ i j)) (fun i j => A.cast (centers.at_ i j)) newPos.n centers.m i j := by
  have hne : ¬ newPos.n ≠ centers.n := fun hn => hn h
  unfold numpy
  simp only [hne, if_false]
  refine ⟨_, rfl, by simp only; omega, rfl, ?_⟩
  intro i j hi hj
  simp only at hi hj ⊢
  unfold tlEntry
  simp only [vstack]
  by_cases h1 : i < centers.m
  · have hd : (List.range newPos.n).foldl (fun s k => A.add s (A.cast (A.sqI (A.subI (newPos.at_ k j) (centers.at_ k i))))) A.zero =
        tlDist A (fun i j => A.cast (newPos.at_ i j)) (fun i j => A.cast (centers.at_ i j)) newPos.n i j := by
      unfold tlDist
      have : ∀ (l : List Nat), (∀ k ∈ l, k < newPos.n) → ∀ s : F,
          l.foldl (fun s k => A.add s (A.cast (A.sqI (A.subI (newPos.at_ k j) (centers.at_ k i))))) s =
          l.foldl (fun s k => A.add s (A.sq (A.sub (A.cast (newPos.at_ k j)) (A.cast (centers.at_ k i))))) s := by
        intro l
        induction l with
        | nil => intro _ s; rfl
        | cons k l ih =>
          intro hk s
          rw [List.foldl_cons, List.foldl_cons, he k i j (hk k (by simp)) h1 hj]
          exact ih (fun k' hk' => hk k' (by simp [hk'])) _
      exact this _ (fun k hk => List.mem_range.1 hk) _
    have := tl_putAll (fun p => A.xlogx (addMeshes A centers.at_ newPos.at_ (List.range newPos.n) (fun _ _ => A.zero) p.1 p.2))
      (whereNe0 A (addMeshes A centers.at_ newPos.at_ (List.range newPos.n) fun _ _ => A.zero) centers.m newPos.m)
      (addMeshes A centers.at_ newPos.at_ (List.range newPos.n) fun _ _ => A.zero) i j
    simp only [h1, if_true]
    rw [this]
    simp only [tl_where, tl_addMeshes, hd, h1, hj, true_and]
  · by_cases h2 : i = centers.m
    · have h3 : i - centers.m < 1 := by omega
      simp only [h1, h3, if_false, if_true]
      simp [h2]
    · have h3 : ¬ i - centers.m < 1 := by omega
      have h4 : i - centers.m - 1 < newPos.n := by omega
      simp only [h1, h2, h3, h4, if_false, if_true]
      congr 2

/-- C140.  Positions whose squares are exact (in particular positions in float64): the function gives, compiled or not, the same matrix, bit by bit:
the one of the specification. -/
theorem C140_same_partial (compiled : Bool) (junk : Nat → Nat → F) (newPos centers : Arr I) (h : newPos.n = centers.n)
    (he : ExactSquares A newPos centers) :
    ∃ r, computeTpsMatrix A compiled junk newPos centers = .ok r ∧ r.n = centers.m + 1 + newPos.n ∧ r.m = newPos.m ∧
      ∀ i j, i < r.n → j < r.m → r.at_ i j =
        tlEntry A (fun i j => A.cast (newPos.at_ i j)) (fun i j => A.cast (centers.at_ i j)) newPos.n centers.m i j := by
  cases compiled with
  | true => exact tl_pythran A junk ⟨newPos.n, newPos.m, fun i j => A.cast (newPos.at_ i j)⟩ ⟨centers.n, centers.m, fun i j => A.cast (centers.at_ i j)⟩ h
  | false => exact tl_numpy A newPos centers h he

/-- C140.  Positions and centers which do not have the same number of coordinates are refused, compiled or not. -/
theorem C140_dimensions (compiled : Bool) (junk : Nat → Nat → F) (newPos centers : Arr I) (h : newPos.n ≠ centers.n) :
    computeTpsMatrix A compiled junk newPos centers = .error .assertionError := by
  cases compiled <;> simp [computeTpsMatrix, pythran, numpy, h]

end

/-- The arithmetic of positions in float64 (any operations): no conversion. -/
def sameType {F : Type} (zero one : F) (add sub : F → F → F) (sq xlogx : F → F) (ne0 : F → Bool) : Arith F F :=
  ⟨zero, one, add, sub, sq, xlogx, ne0, sub, sq, id⟩

/-- C140.  Positions in float64: the same matrix, compiled or not, for every arithmetic (no law of the operations is used). -/
theorem C140_float64 {F : Type} (zero one : F) (add sub : F → F → F) (sq xlogx : F → F) (ne0 : F → Bool) (junk junk' : Nat → Nat → F)
    (newPos centers : Arr F) (h : newPos.n = centers.n) :
    ∃ r r', computeTpsMatrix (sameType zero one add sub sq xlogx ne0) true junk newPos centers = .ok r ∧
      computeTpsMatrix (sameType zero one add sub sq xlogx ne0) false junk' newPos centers = .ok r' ∧ r.n = r'.n ∧ r.m = r'.m ∧
      ∀ i j, i < r.n → j < r.m → r.at_ i j = r'.at_ i j := by
  obtain ⟨r, e1, n1, m1, f1⟩ := C140_same_partial (sameType zero one add sub sq xlogx ne0) true junk newPos centers h (fun _ _ _ _ _ _ => rfl)
  obtain ⟨r', e2, n2, m2, f2⟩ := C140_same_partial (sameType zero one add sub sq xlogx ne0) false junk' newPos centers h (fun _ _ _ _ _ _ => rfl)
  refine ⟨r, r', e1, e2, by omega, by omega, fun i j hi hj => ?_⟩
  rw [f1 i j hi hj, f2 i j (by omega) (by omega)]

/-! ## Real numbers -/

/-- The arithmetic of real numbers, with positions of the type `I`. -/
noncomputable def realArith {I : Type} (subI : I → I → I) (sqI : I → I) (cast : I → ℝ) : Arith I ℝ :=
  ⟨0, 1, fun a b => a + b, fun a b => a - b, fun a => a ^ 2, fun a => a * Real.log a / 2, fun a => @decide (a ≠ 0) (Classical.dec _), subI, sqI, cast⟩

theorem tl_foldl_sum (f : Nat → ℝ) (n : Nat) : (List.range n).foldl (fun s k => s + f k) 0 = ∑ k : Fin n, f k := by
  induction n with
  | zero => simp
  | succ n ih => rw [List.range_succ, List.foldl_append, ih, Fin.sum_univ_castSucc]; rfl

/-- C140.  With real numbers, the matrix which is computed by the loops, or by the operations on arrays, is the matrix of the splines about which C81 is
proved: line of a center, line of ones, lines of the coordinates. -/
theorem C140_matrix (compiled : Bool) (junk : Nat → Nat → ℝ) {N M d : ℕ} (newPos : Fin M → Fin d → ℝ) (centers : Fin N → Fin d → ℝ)
    (p c : Arr ℝ) (hp : p.n = d ∧ p.m = M ∧ ∀ (k : Fin d) (m : Fin M), p.at_ k m = newPos m k)
    (hc : c.n = d ∧ c.m = N ∧ ∀ (k : Fin d) (i : Fin N), c.at_ k i = centers i k) :
    ∃ r, computeTpsMatrix (realArith (fun a b => a - b) (fun a => a ^ 2) id) compiled junk p c = .ok r ∧ r.n = N + 1 + d ∧ r.m = M ∧
      ∀ m : Fin M, (∀ i : Fin N, r.at_ i m = TpsWeights.tpsMatrix newPos centers (.inl i) m) ∧
        r.at_ N m = TpsWeights.tpsMatrix newPos centers (.inr (.inl ())) m ∧
        ∀ k : Fin d, r.at_ (N + 1 + k) m = TpsWeights.tpsMatrix newPos centers (.inr (.inr k)) m := by
  obtain ⟨hp1, hp2, hp3⟩ := hp
  obtain ⟨hc1, hc2, hc3⟩ := hc
  obtain ⟨r, e, n, m, f⟩ := C140_same_partial (realArith (fun a b => a - b) (fun a => a ^ 2) id) compiled junk p c (by omega)
    (fun _ _ _ _ _ _ => rfl)
  refine ⟨r, e, by omega, by omega, fun x => ⟨fun i => ?_, ?_, fun k => ?_⟩⟩
  · rw [f i x (by omega) (by omega)]
    have hi : (i : Nat) < c.m := by omega
    have hd : tlDist (realArith (fun a b => a - b) (fun a => a ^ 2) id) (fun i j => id (p.at_ i j)) (fun i j => id (c.at_ i j)) p.n i x =
        TpsWeights.sqDist (newPos x) (centers i) := by
      unfold tlDist TpsWeights.sqDist
      rw [hp1]
      show (List.range d).foldl (fun s k => s + (p.at_ k x - c.at_ k i) ^ 2) 0 = _
      rw [tl_foldl_sum]
      exact Finset.sum_congr rfl fun k _ => by rw [hp3, hc3]
    unfold tlEntry
    simp only [hi, if_true]
    show (if (realArith (fun a b => a - b) (fun a => a ^ 2) id).ne0 _ = true then _ else _) = TpsWeights.kernel _
    rw [show tlDist (realArith (fun a b => a - b) (fun a => a ^ 2) id) (fun i j => (realArith (fun a b : ℝ => a - b) (fun a => a ^ 2) id).cast (p.at_ i j))
      (fun i j => (realArith (fun a b : ℝ => a - b) (fun a => a ^ 2) id).cast (c.at_ i j)) p.n i x = TpsWeights.sqDist (newPos x) (centers i) from hd]
    unfold TpsWeights.kernel
    by_cases h0 : TpsWeights.sqDist (newPos x) (centers i) = 0
    · simp [realArith, h0]
    · simp [realArith, h0]
  · rw [f N x (by omega) (by omega)]
    unfold tlEntry
    simp [hc2, realArith, TpsWeights.tpsMatrix]
  · rw [f (N + 1 + k) x (by omega) (by omega)]
    unfold tlEntry
    have h1 : ¬ N + 1 + (k : Nat) < c.m := by omega
    have h2 : N + 1 + (k : Nat) ≠ c.m := by omega
    simp only [h1, h2, if_false]
    show p.at_ (N + 1 + k - (c.m + 1)) x = newPos x k
    rw [hc2, show N + 1 + (k : Nat) - (N + 1) = k by omega, hp3]

/-- Two centers and three positions in two dimensions. -/
example : ∃ p c : Arr ℝ, (p.n = 2 ∧ p.m = 3 ∧ ∀ (k : Fin 2) (m : Fin 3), p.at_ k m = (fun (m : Fin 3) (k : Fin 2) => (m : ℝ) + 10 * k) m k) ∧
    c.n = 2 ∧ c.m = 2 ∧ ∀ (k : Fin 2) (i : Fin 2), c.at_ k i = (fun (i k : Fin 2) => (i : ℝ) - k) i k :=
  ⟨⟨2, 3, fun k m => m + 10 * k⟩, ⟨2, 2, fun k i => i - k⟩, ⟨rfl, rfl, fun _ _ => rfl⟩, rfl, rfl, fun _ _ => rfl⟩

/-- The function for NumPy at the line of a center, without hypothesis on the positions. -/
theorem tl_numpy_center {I F : Type} (A : Arith I F) (newPos centers : Arr I) (h : newPos.n = centers.n) :
    ∃ r, numpy A newPos centers = .ok r ∧ r.n = centers.m + 1 + newPos.n ∧ r.m = newPos.m ∧
      ∀ i j, i < centers.m → j < r.m → ∀ D,
        D = (List.range newPos.n).foldl (fun s k => A.add s (A.cast (A.sqI (A.subI (newPos.at_ k j) (centers.at_ k i))))) A.zero →
        r.at_ i j = if A.ne0 D = true then A.xlogx D else D := by
  have hne : ¬ newPos.n ≠ centers.n := fun hn => hn h
  unfold numpy
  simp only [hne, if_false]
  refine ⟨_, rfl, by simp only; omega, rfl, ?_⟩
  intro i j h1 hj D hD
  simp only at hj ⊢
  simp only [vstack]
  have := tl_putAll (fun p => A.xlogx (addMeshes A centers.at_ newPos.at_ (List.range newPos.n) (fun _ _ => A.zero) p.1 p.2))
    (whereNe0 A (addMeshes A centers.at_ newPos.at_ (List.range newPos.n) fun _ _ => A.zero) centers.m newPos.m)
    (addMeshes A centers.at_ newPos.at_ (List.range newPos.n) fun _ _ => A.zero) i j
  simp only [h1, if_true]
  rw [this]
  simp only [tl_where, tl_addMeshes, h1, hj, true_and, ← hD]

/-- C140 fails for positions in small integers: without the compiled extension the squares of the differences are computed with these integers, and are
wrong when they are too large.  Positions 0 and 200 in uint8: the squared distance is 64 and not 40000. -/
theorem C140_integers_fails : ∃ (newPos centers : Arr UInt8) (r r' : Arr ℝ),
    computeTpsMatrix (realArith (fun a b => a - b) (fun a => a * a) fun a => (a.toNat : ℝ)) true (fun _ _ => 0) newPos centers = .ok r ∧
    computeTpsMatrix (realArith (fun a b => a - b) (fun a => a * a) fun a => (a.toNat : ℝ)) false (fun _ _ => 0) newPos centers = .ok r' ∧
    r.n = r'.n ∧ r.m = r'.m ∧ 0 < r.n ∧ 0 < r.m ∧ r.at_ 0 0 = 40000 * Real.log 40000 / 2 ∧ r'.at_ 0 0 = 64 * Real.log 64 / 2 ∧
    r.at_ 0 0 ≠ r'.at_ 0 0 := by
  obtain ⟨r, e, n, m, f⟩ := tl_pythran (realArith (fun a b : UInt8 => a - b) (fun a => a * a) fun a => (a.toNat : ℝ)) (fun _ _ => 0)
    ⟨1, 1, fun _ _ => (((0 : UInt8).toNat : ℕ) : ℝ)⟩ ⟨1, 1, fun _ _ => (((200 : UInt8).toNat : ℕ) : ℝ)⟩ rfl
  obtain ⟨r', e', n', m', f'⟩ := tl_numpy_center (realArith (fun a b : UInt8 => a - b) (fun a => a * a) fun a => (a.toNat : ℝ))
    ⟨1, 1, fun _ _ => 0⟩ ⟨1, 1, fun _ _ => 200⟩ rfl
  simp only at n m n' m'
  have h1 : r.at_ 0 0 = 40000 * Real.log 40000 / 2 := by
    rw [f 0 0 (by omega) (by omega)]
    have hd : ∀ a b : ℝ, a = 0 → b = 200 → tlDist (realArith (fun a b : UInt8 => a - b) (fun a => a * a) fun a => (a.toNat : ℝ)) (fun _ _ => a) (fun _ _ => b) 1 0 0 = 40000 := by
      intro a b ha hb
      subst ha hb
      show (0 : ℝ) + (0 - 200) ^ 2 = 40000
      norm_num
    unfold tlEntry
    simp only [Nat.lt_one_iff, if_true]
    rw [hd _ _ (by simp) (by rw [show (200 : UInt8).toNat = 200 by decide]; norm_num)]
    simp [realArith]
  have h2 : r'.at_ 0 0 = 64 * Real.log 64 / 2 := by
    rw [f' 0 0 (by norm_num) (by omega) 64 ?_]
    · simp [realArith]
    · show (64 : ℝ) = 0 + ((((0 : UInt8) - 200) * ((0 : UInt8) - 200)).toNat : ℝ)
      rw [show (((0 : UInt8) - 200) * ((0 : UInt8) - 200)).toNat = 64 by decide]
      norm_num
  refine ⟨⟨1, 1, fun _ _ => 0⟩, ⟨1, 1, fun _ _ => 200⟩, r, r', e, e', by omega, by omega, by omega, by omega, h1, h2, ?_⟩
  rw [h1, h2]
  have hl : Real.log 64 < Real.log 40000 := Real.log_lt_log (by norm_num) (by norm_num)
  have hp : 0 < Real.log 64 := Real.log_pos (by norm_num)
  intro he
  nlinarith

end Verif
