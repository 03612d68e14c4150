import Verif.Model.CorrelCuda
import Verif.Props.CorrelDirect
import Mathlib.Algebra.BigOperators.Intervals
import Mathlib.Algebra.BigOperators.Ring.Finset
import Mathlib.Tactic.Ring
import Mathlib.Tactic.NormNum

/-!
# C141: the correlation computed with CUDA

Specification: for every order in which the graphics card runs the threads, the value of index `(i, j)` is the sum over
the overlap of the windows of the products of the pixels.
-/

namespace Verif
open Verif.PivGrid Verif.Correl Verif.CorrelDirect Verif.CorrelCuda

/-! ## Specification -/

/-- Sum over the overlap of the products of the pixels of window 1 by the pixels of window 0 shifted by `(sy, sx)`. -/
def sumProduct (im0 im1 : Img ℚ) (sy sx : Int) : ℚ :=
  ((overlap im0.ny im1.ny sy).flatMap (fun y => (overlap im0.nx im1.nx sx).map (fun x =>
    im1.get y x * im0.get ((y : Int) + sy).toNat ((x : Int) + sx).toNat))).sum

/-- The threads of a launch of `g × g` blocks of `16 × 16` threads. -/
def gridThreads (g : Nat) : List (Nat × Nat) :=
  (List.range (16 * g)).flatMap (fun iy => (List.range (16 * g)).map (fun ix => (ix, iy)))

/-- The events of a launch of `B` blocks of `T` threads: each thread of each block loads its element once, each block
stores its result once, after the loads of the block (there is a barrier).  Nothing is said on the order of the
blocks. -/
structure LaunchOf (T B : Nat) (l : List Ev) : Prop where
  once : l.Nodup
  loads : ∀ b t, Ev.load b t ∈ l ↔ b < B ∧ t < T
  stores : ∀ b, Ev.store b ∈ l ↔ b < B
  barrier : ∀ pre post b, l = pre ++ Ev.store b :: post → ∀ t, t < T → Ev.load b t ∈ pre

/-- No block stores its result in an element before this element is loaded by the thread which needs it. -/
def NoRace (T : Nat) (l : List Ev) : Prop :=
  ∀ pre post b t, l = pre ++ Ev.load b t :: post → Ev.store (b * T + t) ∉ pre

/-- The orders of the threads of the blocks between two barriers: each thread runs once. -/
def ThreadOrders (T : Nat) (orders : Nat → Nat → List Nat) : Prop := ∀ b s, (orders b s).Perm (List.range T)

/-- Number of elements which remain to be summed before the launch `k`, when there are `n` elements. -/
def remaining (n k : Nat) : Nat := n / 16 ^ k

/-- The launches which sum `n` elements, for `n` a power of two: blocks of (at most) 16 threads. -/
def GoodScheds (n : Nat) (scheds : Nat → Sched) : Prop :=
  ∀ k, 0 < remaining n k →
    LaunchOf (min 16 (remaining n k)) (remaining n k / min 16 (remaining n k)) (scheds k).events ∧
    NoRace (min 16 (remaining n k)) (scheds k).events ∧ ThreadOrders (min 16 (remaining n k)) (scheds k).orders

/-! ## Proofs -/

theorem powLoop_spec : ∀ (f a i : Nat), i ≤ 2 ^ (a + f) → (a = 0 ∨ 2 ^ (a - 1) < i) →
    ∃ k, powLoop f (2 ^ a) i = 2 ^ k ∧ i ≤ 2 ^ k ∧ (k = 0 ∨ 2 ^ (k - 1) < i)
  | 0, a, i, h, h2 => ⟨a, rfl, h, h2⟩
  | f + 1, a, i, h, h2 => by
    rw [powLoop]
    by_cases hlt : 2 ^ a < i
    · rw [if_pos hlt, show 2 ^ a * 2 = 2 ^ (a + 1) from (Nat.pow_succ ..).symm]
      exact powLoop_spec f (a + 1) i (by rw [show a + 1 + f = a + (f + 1) by omega]; exact h) (Or.inr hlt)
    · rw [if_neg hlt]
      exact ⟨a, rfl, by omega, h2⟩

/-- `nextpow2` gives the smallest power of two which is not smaller than the number. -/
theorem C141_nextpow2 (i : Nat) : ∃ k, nextpow2 i = 2 ^ k ∧ i ≤ 2 ^ k ∧ ∀ m, i ≤ 2 ^ m → 2 ^ k ≤ 2 ^ m := by
  obtain ⟨k, h1, h2, h3⟩ := powLoop_spec i 0 i (by rw [Nat.zero_add]; exact Nat.lt_two_pow_self.le) (Or.inl rfl)
  refine ⟨k, h1, h2, fun m hm => ?_⟩
  rcases h3 with h3 | h3
  · subst h3; exact Nat.one_le_two_pow
  · have : k - 1 < m := (Nat.pow_lt_pow_iff_right (by omega)).1 (lt_of_lt_of_le h3 hm)
    exact Nat.pow_le_pow_right (by omega) (by omega)

theorem nextpow2_pow (k : Nat) : nextpow2 (2 ^ k) = 2 ^ k := by
  obtain ⟨j, h1, h2, h3⟩ := C141_nextpow2 (2 ^ k)
  rw [h1]
  exact le_antisymm (h3 k le_rfl) h2

theorem addThread_at (T s tid : Nat) (sd : Mem) (k : Nat) :
    addThread T s tid sd k = if k = 2 * s * tid ∧ k < T then sd k + sd (k + s) else sd k := by
  unfold addThread put
  by_cases h : 2 * s * tid < T
  · simp only [h, if_true]
    by_cases hk : k = 2 * s * tid
    · subst hk; simp [h]
    · simp [hk]
  · simp only [h, if_false]
    by_cases hk : k = 2 * s * tid
    · rw [if_neg (by omega)]
    · simp [hk]

theorem turn_at (T s : Nat) (hs : 0 < s) : ∀ (l : List Nat), l.Nodup → ∀ (sd : Mem) (k : Nat),
    turn T s l sd k = if k % (2 * s) = 0 ∧ k < T ∧ k / (2 * s) ∈ l then sd k + sd (k + s) else sd k
  | [], _, sd, k => by simp [turn]
  | tid :: l, hl, sd, k => by
    rw [List.nodup_cons] at hl
    rw [turn, turn_at T s hs l hl.2]
    have hpos : 0 < 2 * s := by omega
    by_cases hk : k % (2 * s) = 0 ∧ k < T
    · have hks : addThread T s tid sd (k + s) = sd (k + s) := by
        rw [addThread_at, if_neg]
        rintro ⟨h, _⟩
        have : (k + s) % (2 * s) = 0 := by rw [h]; exact Nat.mul_mod_right _ _
        rw [Nat.add_mod, hk.1, Nat.zero_add, Nat.mod_mod, Nat.mod_eq_of_lt (by omega)] at this
        omega
      have hkk : k = 2 * s * (k / (2 * s)) := (Nat.mul_div_cancel' (Nat.dvd_of_mod_eq_zero hk.1)).symm
      rw [hks, addThread_at]
      by_cases ht : k / (2 * s) = tid
      · rw [if_neg (by rw [ht]; exact fun h => hl.1 h.2.2), if_pos ⟨by rw [← ht]; exact hkk, hk.2⟩,
          if_pos ⟨hk.1, hk.2, by rw [ht]; exact List.mem_cons_self⟩]
      · have hne : ¬ (k = 2 * s * tid ∧ k < T) := by
          rintro ⟨h, _⟩
          exact ht (by rw [h, Nat.mul_div_cancel_left _ hpos])
        simp only [hne, if_false, List.mem_cons, ht, false_or]
    · have h1 : ¬ (k % (2 * s) = 0 ∧ k < T ∧ k / (2 * s) ∈ l) := fun h => hk ⟨h.1, h.2.1⟩
      have h2 : ¬ (k % (2 * s) = 0 ∧ k < T ∧ k / (2 * s) ∈ tid :: l) := fun h => hk ⟨h.1, h.2.1⟩
      rw [if_neg h1, if_neg h2, addThread_at, if_neg]
      rintro ⟨h, h'⟩
      exact hk ⟨by rw [h]; exact Nat.mul_mod_right _ _, h'⟩

theorem turn_all (T s : Nat) (hs : 0 < s) {l : List Nat} (hl : l.Perm (List.range T)) (sd : Mem) {k : Nat}
    (h1 : k % (2 * s) = 0) (h2 : k < T) : turn T s l sd k = sd k + sd (k + s) := by
  rw [turn_at T s hs l (hl.nodup_iff.2 List.nodup_range), if_pos]
  refine ⟨h1, h2, hl.mem_iff.2 (List.mem_range.2 ?_)⟩
  exact lt_of_le_of_lt (Nat.div_le_self _ _) h2

theorem treeLoop_sum (K : Nat) (orders : Nat → List Nat) (ho : ∀ s, (orders s).Perm (List.range (2 ^ K))) (sd0 : Mem) :
    ∀ (f j : Nat) (sd : Mem), j ≤ K → K ≤ j + f →
    (∀ k, k % 2 ^ j = 0 → k < 2 ^ K → sd k = ∑ i ∈ Finset.range (2 ^ j), sd0 (k + i)) →
    treeLoop (2 ^ K) orders f (2 ^ j) sd 0 = ∑ i ∈ Finset.range (2 ^ K), sd0 i
  | 0, j, sd, h1, h2, hsd => by
    have : j = K := by omega
    subst this
    rw [treeLoop, hsd 0 (Nat.zero_mod _) (Nat.two_pow_pos _)]
    simp
  | f + 1, j, sd, h1, h2, hsd => by
    rw [treeLoop]
    by_cases hlt : j < K
    · rw [if_pos ((Nat.pow_lt_pow_iff_right (by omega)).2 hlt), show 2 ^ j * 2 = 2 ^ (j + 1) from (Nat.pow_succ ..).symm]
      refine treeLoop_sum K orders ho sd0 f (j + 1) _ (by omega) (by omega) ?_
      intro k hk hkT
      have h2j : 2 * 2 ^ j = 2 ^ (j + 1) := by rw [Nat.pow_succ, Nat.mul_comm]
      have hd : 2 ^ (j + 1) ∣ k := Nat.dvd_of_mod_eq_zero hk
      have hdj : 2 ^ j ∣ k := dvd_trans (pow_dvd_pow 2 (Nat.le_succ j)) hd
      have hle : k + 2 ^ (j + 1) ≤ 2 ^ K := by
        obtain ⟨a, rfl⟩ := hd
        obtain ⟨c, hc⟩ := Nat.exists_eq_add_of_le (show j + 1 ≤ K by omega)
        have hK : 2 ^ K = 2 ^ (j + 1) * 2 ^ c := by rw [hc, pow_add 2 (j + 1) c]
        rw [hK] at hkT ⊢
        have : a < 2 ^ c := Nat.lt_of_mul_lt_mul_left hkT
        calc 2 ^ (j + 1) * a + 2 ^ (j + 1) = 2 ^ (j + 1) * (a + 1) := by ring
          _ ≤ _ := Nat.mul_le_mul_left _ this
      have hp : 0 < 2 ^ j := Nat.two_pow_pos _
      rw [turn_all (2 ^ K) (2 ^ j) hp (ho _) sd (by rw [h2j]; exact hk) hkT,
        hsd k (Nat.mod_eq_zero_of_dvd hdj) hkT,
        hsd (k + 2 ^ j) (Nat.mod_eq_zero_of_dvd (dvd_add hdj dvd_rfl)) (by omega), ← h2j, two_mul, Finset.sum_range_add]
      congr 1
      refine Finset.sum_congr rfl fun i _ => ?_
      rw [Nat.add_assoc]
    · have : j = K := by omega
      subst this
      rw [if_neg (lt_irrefl _), hsd 0 (Nat.zero_mod _) (Nat.two_pow_pos _)]
      simp

/-- A block of a power of two threads gives the sum of the elements it has loaded, whatever the order of its threads
between the barriers. -/
theorem C141_tree (K : Nat) (orders : Nat → List Nat) (ho : ∀ s, (orders s).Perm (List.range (2 ^ K))) (sd : Mem) :
    blockValue (2 ^ K) orders sd = ∑ i ∈ Finset.range (2 ^ K), sd i := by
  unfold blockValue
  refine treeLoop_sum K orders ho sd (2 ^ K) 0 sd (by omega) ?_ ?_
  · have := @Nat.lt_two_pow_self K
    omega
  · intro k _ _
    simp

theorem put_eq (a : Mem) (i : Nat) (v : ℚ) : put a i v i = v := by simp [put]
theorem put_ne (a : Mem) {i k : Nat} (v : ℚ) (h : k ≠ i) : put a i v k = a k := by simp [put, h]

theorem runEvents_append (T : Nat) (orders : Nat → Nat → List Nat) : ∀ (l l' : List Ev) (g : Gpu),
    runEvents T orders (l ++ l') g = runEvents T orders l' (runEvents T orders l g)
  | [], _, _ => rfl
  | e :: l, l', g => runEvents_append T orders l l' _

/-- A launch in place without race: each block stores the sum of its elements, the other elements do not change. -/
theorem C141_launch_partial (K B : Nat) (c : Sched) (junk : Nat → Mem) (o : Mem) (hl : LaunchOf (2 ^ K) B c.events)
    (hr : NoRace (2 ^ K) c.events) (ho : ThreadOrders (2 ^ K) c.orders) (e : Nat) :
    reduceInPlace (2 ^ K) c junk o e =
      if e < B then ∑ t ∈ Finset.range (2 ^ K), o (e * 2 ^ K + t) else o e := by
  have inv : ∀ (pre post : List Ev), c.events = pre ++ post →
      (∀ e, Ev.store e ∉ pre → (runEvents (2 ^ K) c.orders pre ⟨o, junk⟩).mem e = o e) ∧
      (∀ e, Ev.store e ∈ pre → (runEvents (2 ^ K) c.orders pre ⟨o, junk⟩).mem e =
        ∑ t ∈ Finset.range (2 ^ K), o (e * 2 ^ K + t)) ∧
      (∀ b t, Ev.load b t ∈ pre → (runEvents (2 ^ K) c.orders pre ⟨o, junk⟩).shared b t = o (b * 2 ^ K + t)) := by
    intro pre
    induction pre using List.reverseRecOn with
    | nil => intro post _; exact ⟨fun _ _ => rfl, fun e h => absurd h List.not_mem_nil, fun b t h => absurd h List.not_mem_nil⟩
    | append_singleton pre x ih =>
      intro post hpost
      rw [List.append_assoc, List.singleton_append] at hpost
      obtain ⟨i1, i2, i3⟩ := ih (x :: post) hpost
      rw [runEvents_append]
      cases x with
      | load b t =>
        have hno := hr pre post b t hpost
        refine ⟨fun e he => ?_, fun e he => ?_, fun b' t' h => ?_⟩
        · exact i1 e (fun h => he (List.mem_append_left _ h))
        · refine i2 e ?_
          rcases List.mem_append.1 he with h | h
          · exact h
          · simp at h
        · simp only [runEvents, evStep]
          by_cases hb : b' = b
          · subst hb
            simp only [if_true]
            by_cases ht : t' = t
            · subst ht
              rw [put_eq, i1 _ hno]
            · rw [put_ne _ _ ht]
              refine i3 b' t' ?_
              rcases List.mem_append.1 h with h | h
              · exact h
              · simp [ht] at h
          · simp only [if_neg hb]
            refine i3 b' t' ?_
            rcases List.mem_append.1 h with h | h
            · exact h
            · simp [hb] at h
      | store b =>
        have hall := hl.barrier pre post b hpost
        refine ⟨fun e he => ?_, fun e he => ?_, fun b' t' h => ?_⟩
        · have hne : e ≠ b := by
            rintro rfl
            exact he (List.mem_append_right _ List.mem_cons_self)
          simp only [runEvents, evStep]
          rw [put_ne _ _ hne]
          exact i1 e (fun h => he (List.mem_append_left _ h))
        · simp only [runEvents, evStep]
          by_cases heb : e = b
          · subst heb
            rw [put_eq, C141_tree K _ (ho e)]
            refine Finset.sum_congr rfl fun t ht => ?_
            exact i3 e t (hall t (Finset.mem_range.1 ht))
          · rw [put_ne _ _ heb]
            refine i2 e ?_
            rcases List.mem_append.1 he with h | h
            · exact h
            · simp [heb] at h
        · refine i3 b' t' ?_
          rcases List.mem_append.1 h with h | h
          · exact h
          · simp at h
  obtain ⟨i1, i2, _⟩ := inv c.events [] (List.append_nil _).symm
  unfold reduceInPlace
  by_cases he : e < B
  · rw [if_pos he, i2 e ((hl.stores e).2 he)]
  · rw [if_neg he, i1 e (fun h => he ((hl.stores e).1 h))]

theorem sum_blocks (T : Nat) (o : Mem) : ∀ B : Nat,
    ∑ b ∈ Finset.range B, ∑ t ∈ Finset.range T, o (b * T + t) = ∑ e ∈ Finset.range (B * T), o e
  | 0 => by simp
  | B + 1 => by
    rw [Finset.sum_range_succ, sum_blocks T o B, Nat.succ_mul, Finset.sum_range_add]

theorem blocksFor_mul {B T : Nat} (hT : 0 < T) : blocksFor (B * T) T = B := by
  unfold blocksFor
  rw [show B * T + T - 1 = (T - 1) + B * T by omega, Nat.add_mul_div_right _ _ hT, Nat.div_eq_of_lt (by omega), Nat.zero_add]

/-- The launch `k` for a remaining number `2 ^ j` of elements. -/
theorem launch_sizes (j : Nat) : min 16 (2 ^ j) = 2 ^ (min 4 j) ∧
    2 ^ j / min 16 (2 ^ j) = 2 ^ (j - 4) ∧ 2 ^ j / 16 = if 4 ≤ j then 2 ^ (j - 4) else 0 := by
  by_cases h : 4 ≤ j
  · obtain ⟨c, rfl⟩ := Nat.exists_eq_add_of_le h
    have : 16 ≤ 2 ^ (4 + c) := by rw [pow_add]; have := Nat.two_pow_pos c; omega
    rw [Nat.min_eq_left this, Nat.min_eq_left h, if_pos h, Nat.add_sub_cancel_left, pow_add,
      show (2 : Nat) ^ 4 = 16 from rfl, Nat.mul_div_cancel_left _ (by omega)]
    exact ⟨rfl, rfl, rfl⟩
  · have : j = 0 ∨ j = 1 ∨ j = 2 ∨ j = 3 := by omega
    rcases this with rfl | rfl | rfl | rfl <;> decide

theorem firstLaunch_pow (j : Nat) : firstLaunch (2 ^ j) = (2 ^ min 4 j, 2 ^ (j - 4)) := by
  unfold firstLaunch
  by_cases h : 4 ≤ j
  · obtain ⟨c, rfl⟩ := Nat.exists_eq_add_of_le h
    have h16 : ¬ 2 ^ (4 + c) < 16 := by rw [pow_add]; have := Nat.two_pow_pos c; omega
    simp only [h16, if_false]
    rw [Nat.min_eq_left h, Nat.add_sub_cancel_left, pow_add, Nat.mul_comm, show (2 : Nat) ^ 4 = 16 from rfl,
      blocksFor_mul (by omega)]
  · have : j = 0 ∨ j = 1 ∨ j = 2 ∨ j = 3 := by omega
    rcases this with rfl | rfl | rfl | rfl <;> decide

theorem nextLaunch_pow (j : Nat) (hj : 4 < j) :
    nextLaunch (2 ^ min 4 j, 2 ^ (j - 4)) = (2 ^ min 4 (j - 4), 2 ^ (j - 4 - 4)) := by
  have := firstLaunch_pow (j - 4)
  unfold firstLaunch at this
  unfold nextLaunch
  simp only at this ⊢
  rw [Nat.min_eq_left hj.le, show (2 : Nat) ^ 4 = 16 from rfl]
  exact this

theorem remaining_succ (n k : Nat) : remaining n (k + 1) = remaining n k / 16 := by
  unfold remaining
  rw [Nat.pow_succ, Nat.div_div_eq_div_mul]

theorem reduceLoop_sum (n : Nat) (scheds : Nat → Sched) (junk : Nat → Mem) (hg : GoodScheds n scheds) (S : ℚ) :
    ∀ (f k j : Nat) (o : Mem), remaining n k = 2 ^ j → j < f → ∑ e ∈ Finset.range (2 ^ j), o e = S →
    reduceLoop scheds junk f k (2 ^ min 4 j, 2 ^ (j - 4)) o = some S
  | 0, k, j, o, _, h, _ => by omega
  | f + 1, k, j, o, hrem, hf, hS => by
    obtain ⟨s1, s2, s3⟩ := launch_sizes j
    have hk := hg k (by rw [hrem]; exact Nat.two_pow_pos _)
    rw [hrem, s2, s1] at hk
    obtain ⟨hl, hr, ho⟩ := hk
    rw [reduceLoop]
    by_cases hj : j ≤ 4
    · have hone : 2 ^ (j - 4) = 1 := by rw [show j - 4 = 0 by omega]; rfl
      simp only [hone, if_true]
      unfold reduceLast
      rw [C141_tree _ _ (ho 0), Nat.min_eq_right hj, hS]
    · have hne : 2 ^ (j - 4) ≠ 1 := by
        have : 2 ^ 1 ≤ 2 ^ (j - 4) := Nat.pow_le_pow_right (by omega) (by omega)
        omega
      simp only [hne, if_false]
      rw [nextLaunch_pow j (by omega)]
      refine reduceLoop_sum n scheds junk hg S f (k + 1) (j - 4) _ ?_ (by omega) ?_
      · rw [remaining_succ, hrem, s3, if_pos (by omega)]
      · rw [← hS]
        rw [Finset.sum_congr rfl (fun e he => by
          rw [C141_launch_partial _ _ _ junk o hl hr ho e, if_pos (Finset.mem_range.1 he)]), sum_blocks, ← pow_add,
          show j - 4 + min 4 j = j by omega]

/-- The sum of `n` elements is computed when `n` is a power of two and there is no race, whatever the order of the
threads and (without race) of the blocks. -/
theorem C141_reduce_partial (m : Nat) (scheds : Nat → Sched) (junk : Nat → Mem) (hg : GoodScheds (2 ^ m) scheds) (o : Mem) :
    reduceAll scheds junk (2 ^ m) o = some (∑ e ∈ Finset.range (2 ^ m), o e) := by
  unfold reduceAll
  rw [firstLaunch_pow]
  refine reduceLoop_sum (2 ^ m) scheds junk hg _ _ 0 m o (by simp [remaining]) ?_ rfl
  have := @Nat.lt_two_pow_self m
  omega

/-! ## The products -/

/-- What one thread writes. -/
theorem cucorrelate_at (a : Args) (im0 im1 : Mem) (ix iy : Nat) (o : Mem) (hx : a.nxmax ≤ a.nx0) (hy : a.nymax ≤ a.ny0)
    (e : Nat) : cucorrelate a im0 im1 ix iy o e =
      if ix < a.nx0 ∧ iy < a.ny0 ∧ e = ix + a.nx0 * iy then
        (if ix < a.nxmax ∧ iy < a.nymax then
          im1 ((iy + a.ny1dep) * a.nx1 + (ix + a.nx1dep)) * im0 ((a.ny0dep + iy) * a.nx0 + a.nx0dep + ix) else 0)
      else o e := by
  unfold cucorrelate put
  by_cases h1 : ix < a.nxmax ∧ iy < a.nymax
  · have h2 : ix < a.nx0 := by omega
    have h3 : iy < a.ny0 := by omega
    simp only [h1, h2, h3, and_self, true_and, if_true]
  · simp only [h1, if_false]
    by_cases h2 : ix < a.nx0 ∧ iy < a.ny0
    · simp only [h2, and_self, if_true, true_and]
    · rw [if_neg h2, if_neg (fun h => h2 ⟨h.1, h.2.1⟩)]

theorem index_inj {n ix iy jx jy : Nat} (h1 : ix < n) (h2 : jx < n) (h : ix + n * iy = jx + n * jy) : ix = jx ∧ iy = jy := by
  have hm := congrArg (· % n) h
  have hd := congrArg (· / n) h
  simp only [Nat.add_mul_mod_self_left, Nat.mod_eq_of_lt h1, Nat.mod_eq_of_lt h2] at hm
  have hn : 0 < n := by omega
  simp only [Nat.add_mul_div_left _ _ hn, Nat.div_eq_of_lt h1, Nat.div_eq_of_lt h2, Nat.zero_add] at hd
  exact ⟨hm, hd⟩

theorem runThreads_at (a : Args) (im0 im1 : Mem) (hx : a.nxmax ≤ a.nx0) (hy : a.nymax ≤ a.ny0) (ix iy : Nat)
    (h1 : ix < a.nx0) (h2 : iy < a.ny0) : ∀ (l : List (Nat × Nat)) (o : Mem),
    runThreads a im0 im1 l o (ix + a.nx0 * iy) =
      if (ix, iy) ∈ l then
        (if ix < a.nxmax ∧ iy < a.nymax then
          im1 ((iy + a.ny1dep) * a.nx1 + (ix + a.nx1dep)) * im0 ((a.ny0dep + iy) * a.nx0 + a.nx0dep + ix) else 0)
      else o (ix + a.nx0 * iy)
  | [], o => by simp [runThreads]
  | (jx, jy) :: l, o => by
    rw [runThreads, runThreads_at a im0 im1 hx hy ix iy h1 h2 l]
    by_cases hl : (ix, iy) ∈ l
    · rw [if_pos hl, if_pos (List.mem_cons_of_mem _ hl)]
    · rw [if_neg hl, cucorrelate_at _ _ _ _ _ _ hx hy]
      by_cases hj : ix = jx ∧ iy = jy
      · obtain ⟨rfl, rfl⟩ := hj
        rw [if_pos ⟨h1, h2, rfl⟩, if_pos List.mem_cons_self]
      · rw [if_neg, if_neg]
        · intro h
          rcases List.mem_cons.1 h with h | h
          · exact hj ⟨(Prod.mk.inj h).1, (Prod.mk.inj h).2⟩
          · exact hl h
        · rintro ⟨h3, _, h5⟩
          exact hj (index_inj h1 h3 h5)

theorem mem_gridThreads (g ix iy : Nat) : (ix, iy) ∈ gridThreads g ↔ ix < 16 * g ∧ iy < 16 * g := by
  unfold gridThreads
  simp only [List.mem_flatMap, List.mem_range, List.mem_map, Prod.mk.injEq]
  constructor
  · rintro ⟨a, ha, b, hb, rfl, rfl⟩
    exact ⟨hb, ha⟩
  · rintro ⟨h1, h2⟩
    exact ⟨iy, h2, ix, h1, rfl, rfl⟩

/-- The kernel of the products: whatever the order of the threads, each element of the array is the product of the
pixels, or 0 outside of the overlap — when the grid covers the array. -/
theorem C141_products (a : Args) (im0 im1 : Mem) (hx : a.nxmax ≤ a.nx0) (hy : a.nymax ≤ a.ny0) (g : Nat)
    (l : List (Nat × Nat)) (hl : l.Perm (gridThreads g)) (o : Mem) (ix iy : Nat) (h1 : ix < a.nx0) (h2 : iy < a.ny0) :
    runThreads a im0 im1 l o (ix + a.nx0 * iy) =
      if ix < 16 * g ∧ iy < 16 * g then
        (if ix < a.nxmax ∧ iy < a.nymax then
          im1 ((iy + a.ny1dep) * a.nx1 + (ix + a.nx1dep)) * im0 ((a.ny0dep + iy) * a.nx0 + a.nx0dep + ix) else 0)
      else o (ix + a.nx0 * iy) := by
  rw [runThreads_at a im0 im1 hx hy ix iy h1 h2]
  have : (ix, iy) ∈ l ↔ ix < 16 * g ∧ iy < 16 * g := by rw [hl.mem_iff, mem_gridThreads]
  simp only [this]

theorem list_sum_range' (f : Nat → ℚ) (a : Nat) : ∀ n, ((List.range' a n).map f).sum = ∑ i ∈ Finset.range n, f (a + i)
  | 0 => by simp
  | n + 1 => by
    rw [List.range'_concat, List.map_append, List.sum_append, list_sum_range' f a n, Finset.sum_range_succ]
    simp

theorem list_sum_flatMap {α : Type} (f : α → List ℚ) : ∀ l : List α, (l.flatMap f).sum = (l.map (fun x => (f x).sum)).sum
  | [] => rfl
  | x :: l => by rw [List.flatMap_cons, List.sum_append, list_sum_flatMap f l, List.map_cons, List.sum_cons]

theorem sum_prefix (f : Nat → ℚ) {n m : Nat} (h : n ≤ m) :
    ∑ i ∈ Finset.range m, (if i < n then f i else 0) = ∑ i ∈ Finset.range n, f i := by
  obtain ⟨c, rfl⟩ := Nat.exists_eq_add_of_le h
  rw [Finset.sum_range_add, Finset.sum_eq_zero (s := Finset.range c) (fun i _ => if_neg (by omega)), add_zero]
  exact Finset.sum_congr rfl fun i hi => if_pos (Finset.mem_range.1 hi)

theorem flat_at (im : Img ℚ) {i j : Nat} (hj : j < im.nx) : flat im (i * im.nx + j) = im.get i j := by
  unfold flat
  rw [show i * im.nx + j = j + im.nx * i by rw [Nat.mul_comm]; omega, Nat.add_mul_div_left _ _ (by omega), Nat.div_eq_of_lt hj,
    Nat.zero_add, Nat.add_mul_mod_self_left, Nat.mod_eq_of_lt hj]

/-- One value of the correlation. -/
theorem C141_value_partial (im0 im1 : Img ℚ) (dmax i j m g : Nat) (card : Card)
    (hy : GoodSizes im0.ny im1.ny dmax) (hx : GoodSizes im0.nx im1.nx dmax) (hi : i < 2 * dmax + 1) (hj : j < 2 * dmax + 1)
    (hm : im0.nx * im0.ny = 2 ^ m) (hg : im0.nx ≤ 16 * g ∧ im0.ny ≤ 16 * g) (ht : card.threads.Perm (gridThreads g))
    (hs : GoodScheds (im0.nx * im0.ny) card.scheds) :
    gpuCell card im0 im1 (bounds im0.ny im1.ny dmax i) (bounds im0.nx im1.nx dmax j) =
      some (sumProduct im0 im1 ((im0.ny : Int) / 2 - im1.ny / 2 - ((dmax : Int) - i))
        ((im0.nx : Int) / 2 - im1.nx / 2 - ((dmax : Int) - j))) := by
  have by_ := bounds_good hy hi
  have bx := bounds_good hx hj
  have e1 : (im0.ny : Int) / 2 - im1.ny / 2 - ((dmax : Int) - i) = (im0.ny : Int) / 2 - im1.ny / 2 + ((i : Int) - dmax) := by omega
  have e2 : (im0.nx : Int) / 2 - im1.nx / 2 - ((dmax : Int) - j) = (im0.nx : Int) / 2 - im1.nx / 2 + ((j : Int) - dmax) := by omega
  rw [e1, e2]
  simp only at by_ bx
  generalize bounds im0.ny im1.ny dmax i = b at by_ ⊢
  generalize bounds im0.nx im1.nx dmax j = c at bx ⊢
  generalize (im0.ny : Int) / 2 - im1.ny / 2 + ((i : Int) - dmax) = sy at by_ ⊢
  generalize (im0.nx : Int) / 2 - im1.nx / 2 + ((j : Int) - dmax) = sx at bx ⊢
  obtain ⟨y1, y2, y3, y4, y5, y6, y7⟩ := by_
  obtain ⟨x1, x2, x3, x4, x5, x6, x7⟩ := bx
  unfold gpuCell
  rw [hm] at hs ⊢
  rw [C141_reduce_partial m _ _ hs]
  congr 1
  rw [← hm, Nat.mul_comm, ← sum_blocks]
  have hax : (argsOf im0 im1 b c).nxmax ≤ (argsOf im0 im1 b c).nx0 := by simp only [argsOf]; omega
  have hay : (argsOf im0 im1 b c).nymax ≤ (argsOf im0 im1 b c).ny0 := by simp only [argsOf]; omega
  have hin : ∀ iy ∈ Finset.range im0.ny, ∑ ix ∈ Finset.range im0.nx,
      runThreads (argsOf im0 im1 b c) (flat im0) (flat im1) card.threads card.odata (iy * im0.nx + ix) =
      if iy < b.nmax.toNat then ∑ ix ∈ Finset.range c.nmax.toNat,
        im1.get (b.dep1.toNat + iy) (c.dep1.toNat + ix) *
          im0.get (((b.dep1.toNat + iy : Nat) : Int) + sy).toNat (((c.dep1.toNat + ix : Nat) : Int) + sx).toNat else 0 := by
    intro iy hiy
    rw [Finset.mem_range] at hiy
    have hstep : ∀ ix ∈ Finset.range im0.nx,
        runThreads (argsOf im0 im1 b c) (flat im0) (flat im1) card.threads card.odata (iy * im0.nx + ix) =
        if ix < c.nmax.toNat then (if iy < b.nmax.toNat then
          im1.get (b.dep1.toNat + iy) (c.dep1.toNat + ix) *
          im0.get (((b.dep1.toNat + iy : Nat) : Int) + sy).toNat (((c.dep1.toNat + ix : Nat) : Int) + sx).toNat else 0) else 0 := by
      intro ix hix
      rw [Finset.mem_range] at hix
      have := C141_products (argsOf im0 im1 b c) (flat im0) (flat im1) hax hay g card.threads ht card.odata ix iy hix hiy
      rw [if_pos (by omega)] at this
      rw [show iy * im0.nx + ix = ix + (argsOf im0 im1 b c).nx0 * iy by
        simp only [argsOf]; rw [Nat.mul_comm]; omega, this]
      by_cases hcx : ix < c.nmax.toNat
      · by_cases hcy : iy < b.nmax.toNat
        · have hboth : ix < (argsOf im0 im1 b c).nxmax ∧ iy < (argsOf im0 im1 b c).nymax := ⟨hcx, hcy⟩
          rw [if_pos hboth, if_pos hcx, if_pos hcy]
          simp only [argsOf]
          rw [show iy + b.dep1.toNat = b.dep1.toNat + iy by omega, show ix + c.dep1.toNat = c.dep1.toNat + ix by omega,
            flat_at im1 (by omega), Nat.add_assoc, flat_at im0 (by omega)]
          congr 2 <;> omega
        · rw [if_neg (fun h => hcy h.2), if_pos hcx, if_neg hcy]
      · rw [if_neg (fun h => hcx h.1), if_neg hcx]
    rw [Finset.sum_congr rfl hstep, sum_prefix _ (by omega)]
    by_cases hcy : iy < b.nmax.toNat
    · simp only [hcy, if_true]
    · simp only [hcy, if_false, Finset.sum_const_zero]
  rw [Finset.sum_congr rfl hin, sum_prefix _ (by omega)]
  unfold sumProduct
  rw [list_sum_flatMap, y7, x7, list_sum_range']
  refine Finset.sum_congr rfl fun iy _ => ?_
  rw [list_sum_range']

theorem launches_ok (g : Nat) : ∀ l, launches (.ok g) l = .ok l
  | [] => rfl
  | c :: l => by simp only [launches, launches_ok g l]

/-- C141 for a grid of integers which covers the first window, a number of pixels which is a power of two, and launches
without race: the correlation is, for each displacement, the sum of the products over the overlap — that of `correl_numpy`
without the division by the number of pixels of the overlap. -/
theorem C141_partial (im0 im1 : Img ℚ) (dmax m g : Nat) (cards : Nat → Nat → Card)
    (hy : GoodSizes im0.ny im1.ny dmax) (hx : GoodSizes im0.nx im1.nx dmax)
    (hm : im0.nx * im0.ny = 2 ^ m) (hg : im0.nx ≤ 16 * g ∧ im0.ny ≤ 16 * g)
    (hc : ∀ i j, (cards i j).threads.Perm (gridThreads g) ∧ GoodScheds (im0.nx * im0.ny) (cards i j).scheds) :
    ∃ c, correlWith (.int g) cards im0 im1 dmax = .ok c ∧ c.ny = 2 * dmax + 1 ∧ c.nx = 2 * dmax + 1 ∧
    ∀ i j, i < c.ny → j < c.nx → c.get i j =
      some (sumProduct im0 im1 ((im0.ny : Int) / 2 - im1.ny / 2 - ((dmax : Int) - i))
        ((im0.nx : Int) / 2 - im1.nx / 2 - ((dmax : Int) - j))) := by
  unfold correlWith
  simp only [gridOf, launches_ok]
  refine ⟨_, rfl, rfl, rfl, fun i j hi hj => ?_⟩
  exact C141_value_partial im0 im1 dmax i j m g _ hy hx hi hj hm hg (hc i j).1 (hc i j).2

/-- Negation of C141: in Python 3, the number of blocks is a `float`: the function raises for all images, all maximum
displacements and whatever the card does. -/
theorem C141_call_fails (cards : Nat → Nat → Card) (im0 im1 : Img ℚ) (dmax : Nat) :
    correlPycuda cards im0 im1 dmax = .error .typeError := by
  unfold correlPycuda correlWith indices blocksPerTile
  rw [List.range_succ_eq_map]
  simp only [List.map_cons, List.flatMap_cons, List.cons_append, gridOf, launches]

/-- So that the class never gives a correlation: the object is not created (a maximum displacement given by the user, or
windows too small), or its call raises. -/
theorem C141_class_fails (cards : Nat → Nat → Card) (dmax : Option ℚ) (im0 im1 : Img ℚ) :
    cudaCall cards dmax im0 im1 = .error (if dmax.isSome then .unboundLocalError else
      if (im0.ny = im1.ny ∧ im0.nx = im1.nx ∧ 2 ≤ im0.ny ∧ 2 ≤ im0.nx) ∨
        (im1.ny + 4 ≤ im0.ny ∧ im1.nx + 4 ≤ im0.nx) then .typeError else .valueError) := by
  unfold cudaCall cudaInit
  cases dmax with
  | some d => rfl
  | none =>
    simp only [Option.isSome_none, Bool.false_eq_true, if_false, C141_call_fails]
    by_cases h : im0.ny = im1.ny ∧ im0.nx = im1.nx
    · have hc : (im0.ny : Int) = im1.ny ∧ (im0.nx : Int) = im1.nx := by omega
      rw [if_pos hc]
      by_cases h2 : 2 ≤ im0.ny ∧ 2 ≤ im0.nx
      · rw [if_neg (by omega), if_pos (by omega)]
      · rw [if_pos (by omega), if_neg (by omega)]
    · have hc : ¬ ((im0.ny : Int) = im1.ny ∧ (im0.nx : Int) = im1.nx) := by omega
      rw [if_neg hc]
      by_cases h2 : im1.ny + 4 ≤ im0.ny ∧ im1.nx + 4 ≤ im0.nx
      · rw [if_neg (by omega), if_pos (by omega)]
      · rw [if_pos (by omega), if_neg (by omega)]

/-- Negation of C141 for the order of the blocks: two blocks of 16 threads, the second one runs before the first one.
The launch is a valid one, and the sum of 32 ones is 47: the first block has summed the result of the second one. -/
theorem C141_race_fails :
    let events := (List.range 16).map (Ev.load 1) ++ [Ev.store 1] ++ (List.range 16).map (Ev.load 0) ++ [Ev.store 0]
    LaunchOf 16 2 events ∧ ¬ NoRace 16 events ∧
    reduceAll (fun k => if k = 0 then ⟨events, fun _ _ => List.range 16⟩ else ⟨[], fun _ _ => List.range 2⟩)
      (fun _ _ => 0) 32 (fun _ => 1) = some 47 := by
  intro events
  refine ⟨⟨by decide, ?_, ?_, ?_⟩, ?_, by decide +kernel⟩
  · intro b t
    simp [events]
    omega
  · intro b
    simp [events]
    omega
  · intro pre post b h t ht
    have hp : events.Pairwise (fun x y => ∀ b t, x = Ev.store b → y ≠ Ev.load b t) := by
      have : events.Pairwise (fun x y => (match x, y with | .store b, .load b' _ => b != b' | _, _ => true) = true) := by decide
      refine this.imp ?_
      rintro x y hxy b t rfl rfl
      simp at hxy
    have hb : b < 2 := by
      have : Ev.store b ∈ events := h ▸ List.mem_append_right _ List.mem_cons_self
      simp [events] at this
      omega
    have hm : Ev.load b t ∈ events := by
      simp [events]
      omega
    rw [h] at hp hm
    rcases List.mem_append.1 hm with hm | hm
    · exact hm
    · rcases List.mem_cons.1 hm with hm | hm
      · cases hm
      · exact absurd rfl ((List.pairwise_cons.1 (List.pairwise_append.1 hp).2.1).1 _ hm b t rfl)
  · intro h
    refine h ((List.range 16).map (Ev.load 1) ++ [Ev.store 1] ++ [Ev.load 0 0])
      ((List.range' 2 14).map (Ev.load 0) ++ [Ev.store 0]) 0 1 (by decide) (by decide)

/-- Negation of C141 for the number of pixels: for the default windows of 48 × 48 pixels, whatever the order of the
threads and blocks (without race), the sum of 2304 ones is 2416: the last launch reads 7 elements which were already
summed. -/
theorem C141_sizes_fails (scheds : Nat → Sched) (junk : Nat → Mem)
    (h0 : LaunchOf 16 144 (scheds 0).events ∧ NoRace 16 (scheds 0).events ∧ ThreadOrders 16 (scheds 0).orders)
    (h1 : LaunchOf 16 9 (scheds 1).events ∧ NoRace 16 (scheds 1).events ∧ ThreadOrders 16 (scheds 1).orders)
    (h2 : ThreadOrders 16 (scheds 2).orders) :
    reduceAll scheds junk (48 * 48) (fun _ => 1) = some 2416 := by
  unfold reduceAll
  rw [show firstLaunch (48 * 48) = (16, 144) by decide, show 48 * 48 + 1 = 2302 + 1 + 1 + 1 from rfl]
  rw [reduceLoop, if_neg (by decide), show nextLaunch (16, 144) = (16, 9) by decide]
  rw [reduceLoop, if_neg (by decide), show nextLaunch (16, 9) = (16, 1) by decide]
  rw [reduceLoop, if_pos rfl]
  unfold reduceLast
  have l0 := C141_launch_partial 4 144 (scheds 0) junk (fun _ => 1) h0.1 h0.2.1 h0.2.2
  have l1 := C141_launch_partial 4 9 (scheds 1) junk (reduceInPlace 16 (scheds 0) junk (fun _ => 1)) h1.1 h1.2.1 h1.2.2
  have l2 := C141_tree 4 ((scheds 2).orders 0) (h2 0)
    (reduceInPlace 16 (scheds 1) junk (reduceInPlace 16 (scheds 0) junk (fun _ => 1)))
  simp only [show (2 : Nat) ^ 4 = 16 from rfl] at l0 l1 l2
  rw [l2]
  simp only [l1, l0]
  decide +kernel

/-- When the grid does not cover the first window (a size which is not a multiple of 16, if the number of blocks was
rounded down), the elements which are not covered are not computed: what was in the memory of the card is summed. -/
theorem C141_uncovered (a : Args) (im0 im1 : Mem) (hx : a.nxmax ≤ a.nx0) (hy : a.nymax ≤ a.ny0) (g : Nat)
    (l : List (Nat × Nat)) (hl : l.Perm (gridThreads g)) (o : Mem) (ix iy : Nat) (h1 : ix < a.nx0) (h2 : iy < a.ny0)
    (h : 16 * g ≤ ix ∨ 16 * g ≤ iy) : runThreads a im0 im1 l o (ix + a.nx0 * iy) = o (ix + a.nx0 * iy) := by
  rw [C141_products a im0 im1 hx hy g l hl o ix iy h1 h2, if_neg (by omega)]

/-! ## Launches in order -/

/-- The blocks one after the other. -/
def inOrder (T B : Nat) : List Ev := (List.range B).flatMap (fun b => (List.range T).map (Ev.load b) ++ [Ev.store b])

theorem mem_inOrder_load (T B b t : Nat) : Ev.load b t ∈ inOrder T B ↔ b < B ∧ t < T := by
  simp [inOrder]

theorem mem_inOrder_store (T B b : Nat) : Ev.store b ∈ inOrder T B ↔ b < B := by
  simp [inOrder]

theorem inOrder_pairwise (T B : Nat) : (inOrder T B).Pairwise (fun x y => x ≠ y ∧ ∀ b' b t, x = Ev.store b' → y = Ev.load b t → b' < b) := by
  unfold inOrder
  rw [List.pairwise_flatMap]
  constructor
  · intro b _
    rw [List.pairwise_append, List.pairwise_map]
    refine ⟨?_, List.pairwise_singleton _ _, ?_⟩
    · refine List.nodup_range.imp ?_
      intro t t' h
      exact ⟨fun h' => h (Ev.load.inj h').2, fun b' b t h' => by cases h'⟩
    · intro x hx y hy
      obtain ⟨t, _, rfl⟩ := List.mem_map.1 hx
      rw [List.mem_singleton] at hy
      subst hy
      exact ⟨fun h => (by cases h), fun b' b t h => by cases h⟩
  · refine (List.pairwise_lt_range (n := B)).imp ?_
    intro a b hab x hx y hy
    rcases List.mem_append.1 hx with hx | hx <;> rcases List.mem_append.1 hy with hy | hy <;>
      simp only [List.mem_map, List.mem_singleton] at hx hy
    · obtain ⟨t, _, rfl⟩ := hx; obtain ⟨t', _, rfl⟩ := hy
      exact ⟨fun h => by have := (Ev.load.inj h).1; omega, fun b' b t h => by cases h⟩
    · obtain ⟨t, _, rfl⟩ := hx; subst hy
      exact ⟨fun h => (by cases h), fun b' b t h => by cases h⟩
    · subst hx; obtain ⟨t', _, rfl⟩ := hy
      refine ⟨fun h => (by cases h), fun b' b'' t h h' => ?_⟩
      have := Ev.store.inj h; have := (Ev.load.inj h').1; omega
    · subst hx; subst hy
      exact ⟨fun h => (by have := Ev.store.inj h; omega), fun b' b t _ h => by cases h⟩

/-- When the card runs the blocks one after the other, in increasing order, there is no race. -/
theorem C141_in_order (T B : Nat) (hT : 0 < T) : LaunchOf T B (inOrder T B) ∧ NoRace T (inOrder T B) := by
  have hp := inOrder_pairwise T B
  refine ⟨⟨hp.imp (fun h => h.1), mem_inOrder_load T B, mem_inOrder_store T B, ?_⟩, ?_⟩
  · intro pre post b h t ht
    have hb : b < B := (mem_inOrder_store T B b).1 (h ▸ List.mem_append_right _ List.mem_cons_self)
    have hm : Ev.load b t ∈ inOrder T B := (mem_inOrder_load T B b t).2 ⟨hb, ht⟩
    rw [h] at hp hm
    rcases List.mem_append.1 hm with hm | hm
    · exact hm
    · rcases List.mem_cons.1 hm with hm | hm
      · cases hm
      · exact absurd (((List.pairwise_cons.1 (List.pairwise_append.1 hp).2.1).1 _ hm).2 b b t rfl rfl) (lt_irrefl _)
  · intro pre post b t h hmem
    rw [h] at hp
    have := ((List.pairwise_append.1 hp).2.2 _ hmem _ List.mem_cons_self).2 _ b t rfl rfl
    have : b * 1 ≤ b * T := Nat.mul_le_mul_left _ hT
    omega

/-- So that there are choices of the card for which the correlation is right, for each number of pixels. -/
theorem C141_in_order_all (n : Nat) : GoodScheds n (fun k =>
    ⟨inOrder (min 16 (remaining n k)) (remaining n k / min 16 (remaining n k)), fun _ _ => List.range (min 16 (remaining n k))⟩) := by
  intro k hk
  obtain ⟨h1, h2⟩ := C141_in_order (min 16 (remaining n k)) (remaining n k / min 16 (remaining n k)) (by omega)
  exact ⟨h1, h2, fun _ _ => List.Perm.refl _⟩

/-! ## The hypotheses of the theorems hold for concrete cases -/

/-- The choices of a card which runs everything in order. -/
def orderedCard (g n : Nat) (o : Mem) : Card :=
  ⟨gridThreads g, fun k => ⟨inOrder (min 16 (remaining n k)) (remaining n k / min 16 (remaining n k)),
    fun _ _ => List.range (min 16 (remaining n k))⟩, o, fun _ _ => 7⟩

/-- Windows of 64 × 32 and 32 × 32 pixels, whatever their contents. -/
example (f h : Nat → Nat → ℚ) (o : Nat → Nat → Mem) :
    ∃ c, correlWith (.int 4) (fun i j => orderedCard 4 (64 * 32) (o i j)) ⟨32, 64, f⟩ ⟨32, 32, h⟩ 7 = .ok c ∧ c.ny = 15 ∧ c.nx = 15 ∧
    c.get 9 3 = some (sumProduct ⟨32, 64, f⟩ ⟨32, 32, h⟩ 2 12) := by
  obtain ⟨c, h1, h2, h3, h4⟩ := C141_partial ⟨32, 64, f⟩ ⟨32, 32, h⟩ 7 11 4 (fun i j => orderedCard 4 (64 * 32) (o i j))
    (show GoodSizes 32 32 7 by unfold GoodSizes; omega) (show GoodSizes 64 32 7 by unfold GoodSizes; omega) rfl
    (show 64 ≤ 16 * 4 ∧ 32 ≤ 16 * 4 by omega) (fun i j => ⟨List.Perm.refl _, C141_in_order_all _⟩)
  refine ⟨c, h1, h2, h3, ?_⟩
  rw [h4 9 3 (by rw [h2]; omega) (by rw [h3]; omega)]
  norm_num

/-- Two windows of ones: the value of the correlation is the number of pixels of the overlap, it is not that of
`correl_numpy` (which is the same for all displacements). -/
example : sumProduct ⟨4, 4, fun _ _ => 1⟩ ⟨4, 4, fun _ _ => 1⟩ 1 2 = 6 ∧
    meanProduct ⟨4, 4, fun _ _ => 1⟩ ⟨4, 4, fun _ _ => 1⟩ 1 2 = 1 := by decide +kernel

example : nextpow2 9 = 16 ∧ nextpow2 16 = 16 ∧ nextpow2 1 = 1 ∧ firstLaunch 1024 = (16, 64) ∧ nextLaunch (16, 64) = (16, 4) ∧
    nextLaunch (16, 4) = (4, 1) := by decide

/-- The sum of the integers below 64, computed. -/
example : reduceAll (orderedCard 1 64 (fun _ => 0)).scheds (fun _ _ => 0) 64 (fun e => (e : ℚ)) = some 2016 := by
  decide +kernel

end Verif
