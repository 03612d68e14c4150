import Verif.Lemmas.Mean
import Mathlib.Tactic.Linarith
import Mathlib.Tactic.Positivity
import Mathlib.Tactic.FieldSimp
import Mathlib.Algebra.Order.Floor.Ring

/-!
# C21, C22: mean image
-/

namespace Verif
open Verif.Exec Verif.Mean

/-! ## Specification -/

/-- Sum of the images at a pixel. -/
def sumImages {π : Type} (imgs : List (Img π)) (x : π) : Nat := (imgs.map (fun im => im x)).sum

/-- The execution of the topology, in one process, for these paths, has ended in this state: either the asynchronous
executor has decided to stop, or the loop of the sequential executor has ended. -/
def MeanEnded {κ π : Type} [DecidableEq κ] (imread : List Char → Except PyErr (Img π)) (c : Cfg)
    (paths : List (κ × List Char)) (a : State π) : Prop :=
  (∃ ls s, ARun (topology imread) c (AState.init (initQueues paths) (State.init π)) ls s ∧ s.stop = true ∧ s.aux = a) ∨
  (∃ N s, seqLoop (topology imread) c N (SState.init (initQueues paths) (State.init π)) = some s ∧ s.aux = a)

/-- What is used of the rounding of the divisions in double precision (53 bits). -/
structure IsRounding (rnd : ℚ → ℚ) : Prop where
  mono : ∀ x y, x ≤ y → rnd x ≤ rnd y
  exact : ∀ n : ℕ, n ≤ 2 ^ 53 → rnd n = n
  close : ∀ x, |rnd x - x| ≤ |x| / 2 ^ 53

section
variable {κ π : Type} [DecidableEq κ] {imread : List Char → Except PyErr (Img π)}

/-! ## One process -/

theorem stop_empty {T : Topology κ (Val π) PyErr (State π)} {c : Cfg} {q a ls s}
    (hrun : ARun T c (AState.init q a) ls s) (hT : T = topology imread) (hs : s.stop = true)
    (hi : ∀ ls s, ARun T c (AState.init q a) ls s → s.inflight ≠ [] → s.nio ≠ 0) :
    allEmpty T s.q s.aux = true ∧ s.inflight = [] := by
  subst hT
  induction hrun with
  | nil => simp [AState.init] at hs
  | @snoc s' s'' ls l hrun hstep ih =>
    obtain ⟨hc, hcase⟩ := astep_cases hstep
    have hback : ∀ b, s''.stop = b → s'.stop = s''.stop → s'.stop = true := by
      intro b _ he; rw [he]; exact hs
    cases hcase with
    | launch => exact ih hs
    | beginEmpty => exact ih hs
    | beginError hw _ hq =>
      obtain ⟨h1, h2⟩ := ih hs
      obtain ⟨rfl, rfl, rfl, rfl, rfl⟩ := works_item hw
      simp only [allEmpty, topology, Bool.and_eq_true, List.all_eq_true, List.mem_range, List.isEmpty_iff] at h1
      rw [h1.1 0 (by omega)] at hq
      cases hq
    | beginOk hw _ hq =>
      simp only [incr_stop] at hs
      obtain ⟨h1, h2⟩ := ih hs
      obtain ⟨rfl, rfl, rfl, rfl, rfl⟩ := works_item hw
      simp only [allEmpty, topology, Bool.and_eq_true, List.all_eq_true, List.mem_range, List.isEmpty_iff] at h1
      rw [h1.1 0 (by omega)] at hq
      cases hq
    | finish ht hw =>
      simp only [decr_stop] at hs
      obtain ⟨h1, h2⟩ := ih hs
      rw [h2] at ht
      cases ht
    | finishCrash ht hw =>
      obtain ⟨h1, h2⟩ := ih hs
      rw [h2] at ht
      cases ht
    | glob hw hready hr =>
      obtain ⟨h1, h2⟩ := ih hs
      obtain ⟨rfl, rfl, rfl, rfl⟩ := works_glob hw
      simp only [allEmpty, topology, Bool.and_eq_true, List.all_eq_true, List.mem_range, List.isEmpty_iff] at h1
      simp [h1.1 0 (by omega), h1.1 1 (by omega), h1.2] at hready
    | globCrash hw hready hr =>
      obtain ⟨h1, h2⟩ := ih hs
      exact ⟨h1, h2⟩
    | checkStop h1 _ h3 =>
      refine ⟨h1, ?_⟩
      by_contra hne
      exact hi _ _ hrun hne h3
    | check => exact ih hs

/-- C21, one process, asynchronous executor: every image is read and counted exactly once whatever the schedule: at the
end, the temporary file of the process contains the sum (modulo 2^32) and the number of all the images, and there is
one result less than images (no file without image). -/
theorem C21_process_async {paths : List (κ × List Char)} {imgs : List (Img π)} (hk : (paths.map Prod.fst).Nodup)
    (hr : paths.map (fun kp => imread kp.2) = imgs.map .ok) {c : Cfg} {ls s}
    (hrun : ARun (topology imread) c (AState.init (initQueues paths) (State.init π)) ls s) (hs : s.stop = true) :
    s.crashed = none ∧ s.aux.results.length = imgs.length - 1 ∧ (imgs = [] → s.aux.file = none) ∧
      (imgs ≠ [] → s.aux.file = some (fun x => sumImages imgs x % 2 ^ 32, imgs.length)) := by
  have hinit := MInv.init (π := π) hk hr
  have hinv : ∀ ls s, ARun (topology imread) c (AState.init (initQueues paths) (State.init π)) ls s → _ :=
    fun ls s hrun => MInv.run hrun hinit (CInv.init _ _) rfl
  obtain ⟨h1, h2, h3⟩ := hinv ls s hrun
  obtain ⟨h4, h5⟩ := stop_empty (imread := imread) hrun rfl hs (by
    intro ls s hrun hne h0
    obtain ⟨h1, h2, h3⟩ := hinv ls s hrun
    exact hne (no_inflight h1 h2 h0))
  rw [h5] at h1
  obtain ⟨h6, h7, h8⟩ := h1.final h4
  refine ⟨h3, h6, fun h => h7 (by rw [h]; rfl), fun h => ?_⟩
  exact h8 (List.length_pos_iff.2 h)

/-- C21, one process, asynchronous executor: no schedule crashes, and under a fair scheduler the execution ends. -/
theorem C21_async_terminates {paths : List (κ × List Char)} {imgs : List (Img π)} (hk : (paths.map Prod.fst).Nodup)
    (hr : paths.map (fun kp => imread kp.2) = imgs.map .ok) {c : Cfg} (hw : 0 < c.maxWorkers) (hq : 0 < c.queueMax) :
    (∀ ls s, ARun (topology imread) c (AState.init (initQueues paths) (State.init π)) ls s → s.crashed = none) ∧
    (∀ (run : Nat → AState κ (Val π) PyErr (State π)) (lab : Nat → Label),
      run 0 = AState.init (initQueues paths) (State.init π) → Infinite (topology imread) c run lab →
      Fair (topology imread) c run lab → ∃ m, (run m).stop = true) := by
  have hinit := MInv.init (π := π) hk hr
  refine ⟨fun ls s hrun => (MInv.run hrun hinit (CInv.init _ _) rfl).2.2, ?_⟩
  intro run lab h0 hinf hfair
  have hinv : ∀ m, MInv imread (fun x => (imgs.map (fun im => im x)).sum) imgs.length (run m).q (run m).inflight (run m).aux ∧
      CInv (topology imread) (run m) ∧ (run m).crashed = none := by
    intro m
    induction m with
    | zero => rw [h0]; exact ⟨hinit, CInv.init _ _, rfl⟩
    | succ m ih =>
      obtain ⟨h1, h2, h3⟩ := ih
      obtain ⟨h4, h5⟩ := astep_cases (hinf m)
      obtain ⟨h6, h7⟩ := h1.step h2 h3 h5
      exact ⟨h6, h2.step h5 h7, h7⟩
  exact fair_terminates rankLaws globPot (aprogress hq) hw hinf hfair (fun m => (hinv m).2.1) (fun m => (hinv m).1)

/-- C21, one process, sequential executor: the execution ends, without crash, with the same state. -/
theorem C21_process_sequential {paths : List (κ × List Char)} {imgs : List (Img π)} (hk : (paths.map Prod.fst).Nodup)
    (hr : paths.map (fun kp => imread kp.2) = imgs.map .ok) (c : Cfg) :
    (∃ N s, seqLoop (topology imread) c N (SState.init (initQueues paths) (State.init π)) = some s) ∧
    (∀ N s, seqLoop (topology imread) c N (SState.init (initQueues paths) (State.init π)) = some s →
      s.crashed = none ∧ s.aux.results.length = imgs.length - 1 ∧ (imgs = [] → s.aux.file = none) ∧
        (imgs ≠ [] → s.aux.file = some (fun x => sumImages imgs x % 2 ^ 32, imgs.length))) := by
  have hinit := MInv.init (π := π) hk hr
  constructor
  · refine seq_terminates rankLaws globPot sprogress ?_ _ hinit
    intro w work s hw hP hc
    have : s.crashed = none := by
      cases hs : s.crashed with
      | none => rfl
      | some e => simp [seqWork, hs] at hc
    exact (hP.seqWork hw this).1
  · intro N s hl
    obtain ⟨h1, h2, h3⟩ := hinit.seqLoop hl rfl
    obtain ⟨h6, h7, h8⟩ := h1.final h3
    exact ⟨h2, h6, fun h => h7 (by rw [h]; rfl), fun h => h8 (List.length_pos_iff.2 h)⟩

theorem MeanEnded.spec {paths : List (κ × List Char)} {imgs : List (Img π)} (hk : (paths.map Prod.fst).Nodup)
    (hr : paths.map (fun kp => imread kp.2) = imgs.map .ok) {c : Cfg} {a : State π} (h : MeanEnded imread c paths a) :
    a.results.length = imgs.length - 1 ∧ (imgs = [] → a.file = none) ∧
      (imgs ≠ [] → a.file = some (fun x => sumImages imgs x % 2 ^ 32, imgs.length)) := by
  rcases h with ⟨ls, s, hrun, hs, rfl⟩ | ⟨N, s, hl, rfl⟩
  · exact (C21_process_async hk hr hrun hs).2
  · exact ((C21_process_sequential hk hr c).2 N s hl).2

/-! ## All the processes -/

theorem floor_rnd {rnd : ℚ → ℚ} (h : IsRounding rnd) (a n : ℕ) (ha : a < 2 ^ 32) (hn : 0 < n) :
    ⌊rnd ((a : ℚ) / n)⌋.toNat = a / n := by
  have hq : (0 : ℚ) < n := by exact_mod_cast hn
  have h1 : ((a / n : ℕ) : ℚ) ≤ (a : ℚ) / n := by
    rw [le_div_iff₀ hq]
    exact_mod_cast Nat.div_mul_le_self a n
  have hle : a / n ≤ a := Nat.div_le_self _ _
  have h2 := h.mono _ _ h1
  rw [h.exact _ (by omega)] at h2
  have h3 : (a : ℚ) / n + 1 / n ≤ ((a / n : ℕ) : ℚ) + 1 := by
    rw [← add_div, div_le_iff₀ hq]
    have : a + 1 ≤ (a / n + 1) * n := by
      have := Nat.lt_mul_div_succ a hn
      rw [Nat.mul_comm] at this
      exact this
    exact_mod_cast this
  have h4 := h.close ((a : ℚ) / n)
  have hpos : (0 : ℚ) ≤ (a : ℚ) / n := by positivity
  rw [abs_of_nonneg hpos] at h4
  have h5 := (abs_le.1 h4).2
  have h6 : (a : ℚ) / n / 2 ^ 53 < 1 / n := by
    rw [div_div, mul_comm, ← div_div]
    apply (div_lt_div_iff_of_pos_right hq).2
    rw [div_lt_one (by positivity)]
    have : (a : ℚ) < 2 ^ 32 := by exact_mod_cast ha
    linarith [show (2 : ℚ) ^ 32 < 2 ^ 53 by norm_num]
  have h7 : ⌊rnd ((a : ℚ) / n)⌋ = ((a / n : ℕ) : ℤ) := by
    rw [Int.floor_eq_iff]
    constructor
    · exact_mod_cast h2
    · have : rnd ((a : ℚ) / n) < ((a / n : ℕ) : ℚ) + 1 := by linarith
      exact_mod_cast this
  rw [h7]
  exact Int.toNat_natCast _

theorem sumImages_append (l l' : List (Img π)) (x : π) : sumImages (l ++ l') x = sumImages l x + sumImages l' x := by
  simp [sumImages]

theorem sumImages_lt {b : ℕ} {imgs : List (Img π)} (hb : ∀ im ∈ imgs, ∀ x, im x < 2 ^ b) (x : π) :
    sumImages imgs x ≤ imgs.length * (2 ^ b - 1) := by
  induction imgs with
  | nil => simp [sumImages]
  | cons im imgs ih =>
    have h1 := ih (fun im h => hb im (List.mem_cons_of_mem _ h))
    have h2 := hb im List.mem_cons_self x
    simp only [sumImages, List.map_cons, List.sum_cons, List.length_cons] at h1 ⊢
    rw [Nat.add_mul, Nat.one_mul]
    omega

/-- The files, the results and the images of all the processes. -/
theorem procs_spec {procs : List (Cfg × List (κ × List Char) × State π)}
    (hk : ∀ p ∈ procs, (p.2.1.map Prod.fst).Nodup) (hend : ∀ p ∈ procs, MeanEnded imread p.1 p.2.1 p.2.2)
    {imgs : List (Img π)}
    (hread : (procs.flatMap (fun p => p.2.1)).map (fun kp => imread kp.2) = imgs.map .ok) :
    (∀ x, sumAt (procs.filterMap (fun p => p.2.2.file)) x ≡ sumImages imgs x [MOD 2 ^ 32]) ∧
    sumN (procs.filterMap (fun p => p.2.2.file)) = imgs.length ∧
    (∀ e ∈ procs.filterMap (fun p => p.2.2.file), ∀ x, e.1 x < 2 ^ 32) ∧
    (procs.filterMap (fun p => p.2.2.file)).length + (procs.flatMap (fun p => p.2.2.results)).length = imgs.length ∧
    (imgs ≠ [] → procs.filterMap (fun p => p.2.2.file) ≠ []) := by
  induction procs generalizing imgs with
  | nil =>
    have : imgs = [] := by simpa using hread.symm
    subst this
    simp [sumAt, sumImages, sumN, Nat.ModEq]
  | cons p procs ih =>
    obtain ⟨i1, i2, rfl, hi1, hi2⟩ : ∃ i1 i2, imgs = i1 ++ i2 ∧
        p.2.1.map (fun kp => imread kp.2) = i1.map .ok ∧
        (procs.flatMap (fun p => p.2.1)).map (fun kp => imread kp.2) = i2.map .ok := by
      simp only [List.flatMap_cons, List.map_append] at hread
      obtain ⟨l1, l2, h1, h2, h3⟩ := List.append_eq_map_iff.1 hread
      exact ⟨l1, l2, h1, h2.symm, h3.symm⟩
    obtain ⟨h1, h2, h3, h4, h5⟩ := ih (fun p hp => hk p (List.mem_cons_of_mem _ hp))
      (fun p hp => hend p (List.mem_cons_of_mem _ hp)) hi2
    obtain ⟨g1, g2, g3⟩ := (hend p List.mem_cons_self).spec (hk p List.mem_cons_self) hi1
    by_cases he : i1 = []
    · rw [List.filterMap_cons_none (f := fun p : Cfg × List (κ × List Char) × State π => p.2.2.file) (g2 he)]
      subst he
      simp only [List.nil_append, List.flatMap_cons, List.length_append]
      refine ⟨h1, h2, h3, ?_, h5⟩
      simp only [List.length_nil] at g1
      omega
    · rw [List.filterMap_cons_some (f := fun p : Cfg × List (κ × List Char) × State π => p.2.2.file) (g3 he)]
      have hpos : 0 < i1.length := List.length_pos_iff.2 he
      refine ⟨?_, ?_, ?_, ?_, fun _ => by simp⟩
      · intro x
        have := h1 x
        rw [sumImages_append]
        simp only [sumAt, List.map_cons, List.sum_cons] at this ⊢
        unfold Nat.ModEq at *
        omega
      · simp only [sumN, List.map_cons, List.sum_cons, List.length_append] at h2 ⊢
        omega
      · intro e hm x
        simp only [List.mem_cons] at hm
        rcases hm with rfl | hm
        · exact Nat.mod_lt _ (by norm_num)
        · exact h3 e hm x
      · simp only [List.length_cons, List.flatMap_cons, List.length_append]
        omega

/-- C22: in all cases, for images of `b`-bit pixels split in any way over any number of processes, each of them having
ended in any possible way, `final_seq_work`, which reads the temporary files in any order, gives at every pixel the
integer part of (the sum modulo 2^32) / (number of images), and there are as many results as images. -/
theorem C22_wraps {procs : List (Cfg × List (κ × List Char) × State π)}
    (hk : ∀ p ∈ procs, (p.2.1.map Prod.fst).Nodup) (hend : ∀ p ∈ procs, MeanEnded imread p.1 p.2.1 p.2.2)
    {imgs : List (Img π)}
    (hread : (procs.flatMap (fun p => p.2.1)).map (fun kp => imread kp.2) = imgs.map .ok) (hne : imgs ≠ [])
    {b : ℕ} (hb : ∀ im ∈ imgs, ∀ x, im x < 2 ^ b)
    {files : List (Img π × ℕ)} (hfiles : files.Perm (procs.filterMap (fun p => p.2.2.file)))
    {results : List ℕ} (hres : results.length = (procs.flatMap (fun p => p.2.2.results)).length)
    {rnd : ℚ → ℚ} (hrnd : IsRounding rnd) :
    ∃ mean results', finalSeqWork rnd b files results = .ok (mean, results') ∧
      (∀ x, mean x = (sumImages imgs x % 2 ^ 32) / imgs.length) ∧ results'.length = imgs.length := by
  obtain ⟨h1, h2, h3, h4, h5⟩ := procs_spec hk hend hread
  have hs : ∀ x, sumAt files x = sumAt (procs.filterMap (fun p => p.2.2.file)) x := fun x => (hfiles.map _).sum_eq
  have hn : sumN files = sumN (procs.filterMap (fun p => p.2.2.file)) := (hfiles.map _).sum_eq
  obtain ⟨k4, l4, -⟩ := reduce4_kept files results
  obtain ⟨k2, l2, -⟩ := reduce2_kept (reduce4 files results).1 (reduce4 files results).2
  have hK := k4.trans k2
  unfold finalSeqWork
  simp only
  generalize reduce2 (reduce4 files results).1 (reduce4 files results).2 = r at hK l2
  obtain ⟨rl, rr⟩ := r
  have hfne : files ≠ [] := by
    intro h0
    rw [h0] at hfiles
    exact h5 hne (List.nil_perm.1 hfiles)
  match rl with
  | [] => exact absurd rfl (hK.ne hfne)
  | _ :: _ :: _ => simp only [List.length_cons] at l2; omega
  | [(arr, m)] =>
    have hm : m = imgs.length := by
      have := hK.num
      rw [hn, h2] at this
      simpa [sumN] using this
    have harr : ∀ x, arr x = sumImages imgs x % 2 ^ 32 := by
      intro x
      have e1 : sumAt [(arr, m)] x ≡ sumImages imgs x [MOD 2 ^ 32] := by
        refine (hK.sum x).trans ?_
        rw [hs x]; exact h1 x
      have e2 := hK.lt (fun e he => h3 e (hfiles.mem_iff.1 he)) (arr, m) (by simp) x
      simp only [sumAt, List.map_cons, List.map_nil, List.sum_cons, List.sum_nil, Nat.add_zero] at e1
      unfold Nat.ModEq at e1
      rw [Nat.mod_eq_of_lt e2] at e1
      exact e1
    have hpos : 0 < imgs.length := List.length_pos_iff.2 hne
    refine ⟨_, _, rfl, ?_, ?_⟩
    · intro x
      subst hm
      rw [floor_rnd hrnd _ _ (by rw [harr]; exact Nat.mod_lt _ (by norm_num)) hpos, harr x]
      apply Nat.mod_eq_of_lt
      have e1 := sumImages_lt hb x
      have e2 : sumImages imgs x % 2 ^ 32 ≤ sumImages imgs x := Nat.mod_le _ _
      rw [Nat.div_lt_iff_lt_mul hpos]
      have e3 : imgs.length * (2 ^ b - 1) < 2 ^ b * imgs.length := by
        rw [Nat.mul_comm]
        exact Nat.mul_lt_mul_of_pos_right (by have := Nat.one_le_two_pow (n := b); omega) hpos
      omega
    · have := hK.len
      have hfl := hfiles.length_eq
      simp only [List.length_singleton] at this
      simp only [List.length_append, List.length_singleton]
      omega

/-- C21: if the sums fit in 32 bits, the result is exactly the integer part of the mean of all the images at every
pixel, whatever the splitting, the schedules and the order of the reductions, and there are as many results as images. -/
theorem C21_mean {procs : List (Cfg × List (κ × List Char) × State π)}
    (hk : ∀ p ∈ procs, (p.2.1.map Prod.fst).Nodup) (hend : ∀ p ∈ procs, MeanEnded imread p.1 p.2.1 p.2.2)
    {imgs : List (Img π)}
    (hread : (procs.flatMap (fun p => p.2.1)).map (fun kp => imread kp.2) = imgs.map .ok) (hne : imgs ≠ [])
    {b : ℕ} (hb : ∀ im ∈ imgs, ∀ x, im x < 2 ^ b) (hfit : ∀ x, sumImages imgs x < 2 ^ 32)
    {files : List (Img π × ℕ)} (hfiles : files.Perm (procs.filterMap (fun p => p.2.2.file)))
    {results : List ℕ} (hres : results.length = (procs.flatMap (fun p => p.2.2.results)).length)
    {rnd : ℚ → ℚ} (hrnd : IsRounding rnd) :
    ∃ mean results', finalSeqWork rnd b files results = .ok (mean, results') ∧
      (∀ x, (mean x : ℤ) = ⌊(sumImages imgs x : ℚ) / imgs.length⌋) ∧ results'.length = imgs.length := by
  obtain ⟨mean, results', h1, h2, h3⟩ := C22_wraps hk hend hread hne hb hfiles hres hrnd
  refine ⟨mean, results', h1, fun x => ?_, h3⟩
  rw [h2 x, Nat.mod_eq_of_lt (hfit x), Rat.floor_natCast_div_natCast]
  rfl

/-- C22: the mean of `n` images of `b`-bit pixels is exact as soon as n (2^b - 1) < 2^32. -/
theorem C22_exact {procs : List (Cfg × List (κ × List Char) × State π)}
    (hk : ∀ p ∈ procs, (p.2.1.map Prod.fst).Nodup) (hend : ∀ p ∈ procs, MeanEnded imread p.1 p.2.1 p.2.2)
    {imgs : List (Img π)}
    (hread : (procs.flatMap (fun p => p.2.1)).map (fun kp => imread kp.2) = imgs.map .ok) (hne : imgs ≠ [])
    {b : ℕ} (hb : ∀ im ∈ imgs, ∀ x, im x < 2 ^ b) (hfit : imgs.length * (2 ^ b - 1) < 2 ^ 32)
    {files : List (Img π × ℕ)} (hfiles : files.Perm (procs.filterMap (fun p => p.2.2.file)))
    {results : List ℕ} (hres : results.length = (procs.flatMap (fun p => p.2.2.results)).length)
    {rnd : ℚ → ℚ} (hrnd : IsRounding rnd) :
    ∃ mean results', finalSeqWork rnd b files results = .ok (mean, results') ∧
      (∀ x, (mean x : ℤ) = ⌊(sumImages imgs x : ℚ) / imgs.length⌋) ∧ results'.length = imgs.length :=
  C21_mean hk hend hread hne hb (fun x => lt_of_le_of_lt (sumImages_lt hb x) hfit) hfiles hres hrnd

/-- C22: the bound is necessary: 65538 white images of 16 bits, read by one process, give a black mean image. -/
theorem C22_overflow_fails :
    ∃ imread : List Char → Except PyErr (Img Unit), (∀ p, imread p = .ok (fun _ => 65535)) ∧
      ∀ paths : List (ℕ × List Char), (paths.map Prod.fst).Nodup → paths.length = 65538 →
      ∀ c a, MeanEnded imread c paths a → ∀ rnd, IsRounding rnd →
        ∃ f mean results', a.file = some f ∧ finalSeqWork rnd 16 [f] a.results = .ok (mean, results') ∧ mean () = 0 := by
  refine ⟨fun _ => .ok (fun _ => 65535), fun _ => rfl, ?_⟩
  intro paths hk hlen c a hend rnd hrnd
  obtain ⟨N, hN⟩ : ∃ N, N = 65538 := ⟨_, rfl⟩
  rw [← hN] at hlen
  obtain ⟨imgs, himgs⟩ : ∃ imgs, imgs = List.replicate N (fun _ => 65535 : Img Unit) := ⟨_, rfl⟩
  have hlen' : imgs.length = N := by rw [himgs, List.length_replicate]
  have hread : paths.map (fun kp => (fun _ => .ok (fun _ => 65535) : List Char → Except PyErr (Img Unit)) kp.2) =
      imgs.map .ok := by
    rw [himgs, List.map_replicate, ← hlen]
    exact List.map_const
  have hne : imgs ≠ [] := by
    intro h0
    rw [h0, hN] at hlen'
    exact absurd hlen' (by norm_num)
  obtain ⟨_, _, hf⟩ := hend.spec hk hread
  have hfile := hf hne
  obtain ⟨mean, results', h1, h2, h3⟩ := C22_wraps (procs := [(c, paths, a)])
    (by intro p hp; rw [List.mem_singleton.1 hp]; exact hk) (by intro p hp; rw [List.mem_singleton.1 hp]; exact hend)
    (imgs := imgs) (by rw [List.flatMap_cons, List.flatMap_nil, List.append_nil]; exact hread) hne (b := 16)
    (by
      intro im him x
      rw [himgs] at him
      rw [(List.mem_replicate.1 him).2]; norm_num)
    (List.Perm.refl _) (results := a.results)
    (by rw [List.flatMap_cons, List.flatMap_nil, List.append_nil]) hrnd
  rw [List.filterMap_cons_some (f := fun p : Cfg × List (ℕ × List Char) × State Unit => p.2.2.file) hfile] at h1
  refine ⟨_, mean, results', hfile, h1, ?_⟩
  rw [h2]
  have hsum : sumImages imgs () = N * 65535 := by
    rw [himgs]
    simp only [sumImages, List.map_replicate, List.sum_replicate, nsmul_eq_mul, Nat.cast_id]
  rw [hsum, hlen', hN]
  norm_num

end

/-! ## Non-vacuity and failures -/

/-- The hypotheses on the rounding are satisfied by the exact division. -/
example : IsRounding (fun x => x) :=
  ⟨fun _ _ h => h, fun _ _ => rfl, fun x => by simp; positivity⟩

namespace MeanExample

/-- Three images of one pixel, named by their value; any other path can not be read. -/
def imread : List Char → Except PyErr (Img Unit)
  | ['1'] => .ok (fun _ => 1)
  | ['2'] => .ok (fun _ => 2)
  | ['6'] => .ok (fun _ => 6)
  | _ => .error .osError

def paths : List (ℕ × List Char) := [(0, ['1']), (1, ['2']), (2, ['6'])]

/-- The hypotheses of `C21_process_sequential` and `C21_mean` are met by three images in one process. -/
example : ∃ a, MeanEnded imread ⟨2, 8, false⟩ paths a ∧
    ∃ f mean results', a.file = some f ∧ finalSeqWork (fun x => x) 8 [f] a.results = .ok (mean, results') ∧
      mean () = 3 ∧ results'.length = 3 := by
  have hk : (paths.map Prod.fst).Nodup := by decide
  have hr : paths.map (fun kp => imread kp.2) = ([fun _ => 1, fun _ => 2, fun _ => 6] : List (Img Unit)).map .ok := rfl
  obtain ⟨N, s, hs⟩ := (C21_process_sequential hk hr ⟨2, 8, false⟩).1
  have hend : MeanEnded imread ⟨2, 8, false⟩ paths s.aux := Or.inr ⟨N, s, hs, rfl⟩
  refine ⟨s.aux, hend, ?_⟩
  obtain ⟨_, _, hf⟩ := hend.spec hk hr
  have hfile := hf (by simp)
  obtain ⟨mean, results', h1, h2, h3⟩ := C22_wraps (procs := [(⟨2, 8, false⟩, paths, s.aux)]) (by simpa using hk)
    (by simpa using hend) (imgs := [fun _ => 1, fun _ => 2, fun _ => 6]) (by simpa using hr) (by simp) (b := 8)
    (by simp) (List.Perm.refl _) (results := s.aux.results) (by simp)
    (rnd := fun x => x) ⟨fun _ _ h => h, fun _ _ => rfl, fun x => by simp; positivity⟩
  rw [List.filterMap_cons_some (f := fun p : Cfg × List (ℕ × List Char) × State Unit => p.2.2.file) hfile] at h1
  exact ⟨_, mean, results', hfile, h1, by rw [h2]; rfl, h3⟩

end MeanExample

/-- C21: the other works of the library report an image which can not be read and go on; here the computation crashes
with an AttributeError (the exception stored in the queue has no attribute `astype`), and no mean is computed: with the
sequential executor and two images, the second one being unreadable. -/
theorem C21_unreadable_image_fails :
    ∃ s : SState ℕ (Val Unit) PyErr (State Unit),
      seqLoop (topology MeanExample.imread) ⟨1, 8, false⟩ 2
        (SState.init (initQueues [(0, ['1']), (1, ['x'])]) (State.init Unit)) = some s ∧
      s.crashed = some .attributeError ∧ s.aux.file = none := by
  have r1 : ∀ e : Img Unit × ℕ, reduce4 [e] [] = ([e], []) := fun e => (reduce4_kept [e] []).2.2 (by simp)
  simp [seqLoop, allEmpty, topology, initQueues, SState.init, State.init, seqWorks, seqWork, Dict.popFirst,
    MeanExample.imread, put, upd, Dict.set, seqFull, main, collect, r1, List.range_succ]

end Verif
