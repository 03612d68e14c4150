import Verif.Model.ExitText
import Mathlib.Tactic.Linarith
import Mathlib.Tactic.Ring
import Mathlib.Tactic.NormNum
import Mathlib.Tactic.Push

/-!
# C155: the text printed at the end of a computation
-/

namespace Verif
open Verif.ExitText Verif.Text

/-! ## Specification -/

/-- The text `txt` is a decimal number with two decimals, the nearest (up to half of the last digit) to `x`. -/
def ShownTwo (txt : List Char) (x : ℚ) : Prop :=
  ∃ a b c : ℕ, b < 10 ∧ c < 10 ∧ txt = natStr a ++ ['.', digitChar b, digitChar c] ∧
    |((a : ℚ) + (b : ℚ) / 10 + (c : ℚ) / 100) - x| ≤ 1 / 200

/-- How many computations an executor can do at the same time: one for the two executors which compute in their own process one after
the other, one per process for the multi executors, one per worker for the others. -/
def computingAtOnce (workers started : ℕ) : Exec → ℕ
  | .sequential => 1
  | .asyncSequential => 1
  | .multi => started
  | _ => workers

/-! ## Rounding -/

theorem et_roundEven (x : ℚ) (hx : 0 ≤ x) : |(roundEven x : ℚ) - x| ≤ 1 / 2 := by
  have h1 := Nat.floor_le hx
  have h2 := Nat.lt_floor_add_one x
  unfold roundEven
  split
  · rename_i h; rw [abs_le]; constructor <;> linarith
  · split
    · rename_i h; push_cast; rw [abs_le]; constructor <;> linarith
    · split
      · rw [abs_le]; constructor <;> linarith
      · push_cast; rw [abs_le]; constructor <;> linarith

theorem et_fixed2 (x : ℚ) (hx : 0 ≤ x) : ShownTwo (fixed2 x) x := by
  refine ⟨_, _, _, Nat.mod_lt _ (by omega), Nat.mod_lt _ (by omega), rfl, ?_⟩
  have h := et_roundEven (x * 100) (by linarith)
  generalize roundEven (x * 100) = q at h ⊢
  have hq : q = 100 * (q / 100) + 10 * (q / 10 % 10) + q % 10 := by omega
  have hq' : (q : ℚ) = 100 * ((q / 100 : ℕ) : ℚ) + 10 * ((q / 10 % 10 : ℕ) : ℚ) + ((q % 10 : ℕ) : ℚ) := by
    exact_mod_cast congrArg (Nat.cast (R := ℚ)) hq
  rw [abs_le] at h ⊢
  constructor <;> linarith [h.1, h.2]

/-- A number with at most two decimals is shown exactly. -/
theorem et_exact (q : ℕ) : roundEven (q : ℚ) = q := by
  unfold roundEven
  simp

theorem et_append9 (a b c d e f g h i j : List Char) :
    ((a ++ b) ++ c) ++ (d ++ e ++ f ++ g ++ h) ++ (i ++ j) = a ++ b ++ c ++ d ++ e ++ f ++ g ++ h ++ i ++ j := by
  simp only [List.append_assoc]

theorem et_append10 (a b c d e f g h i j k : List Char) :
    ((a ++ b) ++ c) ++ (d ++ e ++ f ++ g ++ h) ++ (i ++ j ++ k) = a ++ b ++ c ++ d ++ e ++ f ++ g ++ h ++ i ++ j ++ k := by
  simp only [List.append_assoc]

theorem et_append12 (a b c d e f g h i j k l : List Char) :
    ((a ++ b) ++ c) ++ (d ++ e ++ f ++ g ++ h ++ i ++ j) ++ (k ++ l) = a ++ b ++ c ++ d ++ e ++ f ++ g ++ h ++ i ++ j ++ k ++ l := by
  simp only [List.append_assoc]

/-- What the three texts are when there is no result. -/
theorem et_none (t : ℚ) (results : Option ℕ) (hr : ∀ n, results = some n → n = 0) (path : Option (List Char)) (p : List Char) (cores : ℕ)
    (ex : Option Attrs) :
    textBase t results path = begin_ t ++ ".".toList ++
      (match path with | some p => "\npath results:\n".toList ++ p ++ "\n".toList | none => []) ∧
    textBos t results p = begin_ t ++ ".".toList ++ ("\npath results:\n".toList ++ p) ∧
    textPiv t results p cores ex = .ok (begin_ t ++ ".".toList ++ ("\npath results:\n".toList ++ p)) := by
  cases results with
  | none => exact ⟨rfl, rfl, rfl⟩
  | some n => have := hr n rfl; subst this; exact ⟨rfl, rfl, rfl⟩

theorem et_append4 (a b c d e : List Char) : ((a ++ b) ++ c) ++ (d ++ e) = a ++ b ++ c ++ d ++ e := by
  simp only [List.append_assoc]

theorem et_append5 (a b c d e f : List Char) : ((a ++ b) ++ c) ++ (d ++ e ++ f) = a ++ b ++ c ++ d ++ e ++ f := by
  simp only [List.append_assoc]

/-! ## Theorems -/

/-- **C155** (topologies without a text of their own): the duration, the number of results of the list of the topology, the mean
duration of one result, and the directory. -/
theorem C155_results (t : ℚ) (ht : 0 ≤ t) (n : ℕ) (hn : 0 < n) (path : List Char) :
    ∃ a b, ShownTwo a t ∧ ShownTwo b (t / n) ∧
      textBase t (some n) (some path) = "Stop compute after t = ".toList ++ a ++ " s".toList ++ " (".toList ++ natStr n ++
        " results, ".toList ++ b ++ " s/result).".toList ++ "\npath results:\n".toList ++ path ++ "\n".toList := by
  refine ⟨_, _, et_fixed2 t ht, et_fixed2 (t / n) (div_nonneg ht (Nat.cast_nonneg _)), ?_⟩
  have h : textBase t (some n) (some path) = begin_ t ++
      (if 0 < n then " (".toList ++ natStr n ++ " results, ".toList ++ fixed2 (t / n) ++ " s/result).".toList else ".".toList) ++
      ("\npath results:\n".toList ++ path ++ "\n".toList) := rfl
  rw [h, if_pos hn]
  exact et_append10 _ _ _ _ _ _ _ _ _ _ _

/-- **C155** (BOS). -/
theorem C155_bos (t : ℚ) (ht : 0 ≤ t) (n : ℕ) (hn : 0 < n) (path : List Char) :
    ∃ a b, ShownTwo a t ∧ ShownTwo b (t / n) ∧
      textBos t (some n) path = "Stop compute after t = ".toList ++ a ++ " s".toList ++ " (".toList ++ natStr n ++
        " bos fields, ".toList ++ b ++ " s/field).".toList ++ "\npath results:\n".toList ++ path := by
  refine ⟨_, _, et_fixed2 t ht, et_fixed2 (t / n) (div_nonneg ht (Nat.cast_nonneg _)), ?_⟩
  have h : textBos t (some n) path = begin_ t ++
      (if 0 < n then " (".toList ++ natStr n ++ " bos fields, ".toList ++ fixed2 (t / n) ++ " s/field).".toList else ".".toList) ++
      ("\npath results:\n".toList ++ path) := rfl
  rw [h, if_pos hn]
  exact et_append9 _ _ _ _ _ _ _ _ _ _

/-- The text of a PIV computation, with the number of cores `c` which is taken into account. -/
theorem et_piv (t : ℚ) (ht : 0 ≤ t) (n : ℕ) (hn : 0 < n) (path : List Char) (cores c : ℕ) (ex : Option Attrs)
    (hc : coresUsed cores ex = .ok c) :
    ∃ x y z, ShownTwo x t ∧ ShownTwo y (t / n) ∧ ShownTwo z (t * c / n) ∧
      textPiv t (some n) path cores ex = .ok ("Stop compute after t = ".toList ++ x ++ " s".toList ++ " (".toList ++ natStr n ++
        " piv fields, ".toList ++ y ++ " s/field, ".toList ++ z ++ " s.CPU/field).".toList ++ "\npath results:\n".toList ++ path) := by
  refine ⟨_, _, _, et_fixed2 t ht, et_fixed2 (t / n) (div_nonneg ht (Nat.cast_nonneg _)),
    et_fixed2 (t * c / n) (div_nonneg (mul_nonneg ht (Nat.cast_nonneg _)) (Nat.cast_nonneg _)), ?_⟩
  unfold textPiv
  dsimp -zeta only
  rw [if_pos hn, hc]
  exact congrArg Except.ok (et_append12 _ _ _ _ _ _ _ _ _ _ _ _)

/-- **C155** (PIV), for all the executors but `exec_async_sequential`: the time of CPU of one field is the duration multiplied by the
number of cores which can compute at the same time, divided by the number of fields.  What is missing is `exec_async_sequential`
(`C155_cpu_fails`). -/
theorem C155_cpu_partial (e : Exec) (he : e ≠ .asyncSequential) (arg cfg : Option ℕ) (cores started : ℕ) (hcores : 1 ≤ cores) (t : ℚ)
    (ht : 0 ≤ t) (n : ℕ) (hn : 0 < n) (path : List Char) :
    ∃ x y z, ShownTwo x t ∧ ShownTwo y (t / n) ∧
      ShownTwo z (t * (min cores (computingAtOnce (Builder.maxWorkers arg cfg cores) started e) : ℕ) / n) ∧
      textPiv t (some n) path cores (some (attrsOf e arg cfg cores started)) = .ok ("Stop compute after t = ".toList ++ x ++
        " s".toList ++ " (".toList ++ natStr n ++ " piv fields, ".toList ++ y ++ " s/field, ".toList ++ z ++
        " s.CPU/field).".toList ++ "\npath results:\n".toList ++ path) := by
  refine et_piv t ht n hn path cores _ _ ?_
  cases e <;> simp_all [coresUsed, attrsOf, computingAtOnce]

/-- **C155** is false with `exec_async_sequential`: it computes on one core, and with the default number of workers the time of CPU
of one field is shown as if all the cores had computed. -/
theorem C155_cpu_fails (cores started : ℕ) (t : ℚ) (ht : 0 ≤ t) (n : ℕ) (hn : 0 < n) (path : List Char) :
    computingAtOnce (Builder.maxWorkers none none cores) started .asyncSequential = 1 ∧
    ∃ x y z, ShownTwo x t ∧ ShownTwo y (t / n) ∧ ShownTwo z (cores * (t / n)) ∧
      textPiv t (some n) path cores (some (attrsOf .asyncSequential none none cores started)) = .ok ("Stop compute after t = ".toList ++
        x ++ " s".toList ++ " (".toList ++ natStr n ++ " piv fields, ".toList ++ y ++ " s/field, ".toList ++ z ++
        " s.CPU/field).".toList ++ "\npath results:\n".toList ++ path) := by
  refine ⟨rfl, ?_⟩
  have hc : coresUsed cores (some (attrsOf .asyncSequential none none cores started)) = .ok cores := by
    simp only [coresUsed, attrsOf, Builder.maxWorkers]
    congr 1
    split <;> omega
  obtain ⟨x, y, z, hx, hy, hz, h⟩ := et_piv t ht n hn path cores cores _ hc
  refine ⟨x, y, z, hx, hy, ?_, h⟩
  have : (cores : ℚ) * (t / n) = t * cores / n := by ring
  rw [this]; exact hz

/-- **C155**, when nothing has been saved (or for a topology without list of results): only the duration and the directory, and the
executor does not matter. -/
theorem C155_nothing (t : ℚ) (ht : 0 ≤ t) (results : Option ℕ) (hr : ∀ n, results = some n → n = 0) (path : List Char) (cores : ℕ)
    (ex : Option Attrs) :
    ∃ x, ShownTwo x t ∧
      textBase t results none = "Stop compute after t = ".toList ++ x ++ " s".toList ++ ".".toList ∧
      textBase t results (some path) = "Stop compute after t = ".toList ++ x ++ " s".toList ++ ".".toList ++
        "\npath results:\n".toList ++ path ++ "\n".toList ∧
      textBos t results path = "Stop compute after t = ".toList ++ x ++ " s".toList ++ ".".toList ++ "\npath results:\n".toList ++ path ∧
      textPiv t results path cores ex = .ok ("Stop compute after t = ".toList ++ x ++ " s".toList ++ ".".toList ++
        "\npath results:\n".toList ++ path) := by
  refine ⟨_, et_fixed2 t ht, ?_⟩
  obtain ⟨h1, -, -⟩ := et_none t results hr none path cores ex
  obtain ⟨h2, h3, h4⟩ := et_none t results hr (some path) path cores ex
  refine ⟨?_, ?_, ?_, ?_⟩
  · rw [h1]; exact List.append_nil _
  · rw [h2]; exact et_append5 (_ ++ _) _ _ _ _ _
  · rw [h3]; exact et_append4 (_ ++ _) _ _ _ _
  · rw [h4]; exact congrArg Except.ok (et_append4 (_ ++ _) _ _ _ _)

/-- A PIV topology with results but without executor (for example when the results have been put by hand) has no text. -/
theorem C155_no_executor_fails (t : ℚ) (n : ℕ) (path : List Char) (cores : ℕ) :
    (∃ txt, textPiv t (some n) path cores none = .ok txt) ↔ n = 0 := by
  simp only [textPiv, coresUsed]
  rcases Nat.eq_zero_or_pos n with h | h
  · subst h; simp
  · simp [h]; omega

/-! ## Examples -/

example : textPiv (25 / 2) (some 4) "/d".toList 8 (some (attrsOf .multi none none 8 3)) =
    .ok "Stop compute after t = 12.50 s (4 piv fields, 3.12 s/field, 9.38 s.CPU/field).\npath results:\n/d".toList := by
  decide +kernel

example : textPiv (25 / 2) (some 4) "/d".toList 8 (some (attrsOf .asyncSequential none none 8 0)) =
    .ok "Stop compute after t = 12.50 s (4 piv fields, 3.12 s/field, 25.00 s.CPU/field).\npath results:\n/d".toList := by
  decide +kernel

example : textBase (1 / 8) (some 2) (some "/d".toList) =
    "Stop compute after t = 0.12 s (2 results, 0.06 s/result).\npath results:\n/d\n".toList := by decide +kernel

example : textBos 3 (some 0) "/d".toList = "Stop compute after t = 3.00 s.\npath results:\n/d".toList := by decide +kernel

end Verif
