import Verif.Model.Multi
import Verif.Lemmas.Dict
import Mathlib.Data.List.Nodup

/-!
# Multi-process executors (C17)
-/

namespace Verif
open Verif.Multi

/-- Processes of the operating system: process `i` exits with code `code i`; the first poll which sees it is the one
of turn `exit i`. -/
structure Procs where
  exit : Nat → Nat
  code : Nat → Int

/-- What polling a process gives. -/
def Procs.poll (P : Procs) (r i : Nat) : Option Int := if P.exit i ≤ r then some (P.code i) else none

namespace Multi

theorem pollAll_spec (f : Nat → Option Int) (run upd : List Nat) (codes errors : Dict Nat Int) :
    (pollAll f run upd codes errors).1 = upd ++ run.filter (fun i => (f i).isNone) ∧
    (∀ i, i ∉ run → (pollAll f run upd codes errors).2.1.get? i = codes.get? i ∧
      (pollAll f run upd codes errors).2.2.get? i = errors.get? i) := by
  induction run generalizing upd codes errors with
  | nil => simp [pollAll]
  | cons a run ih =>
    unfold pollAll
    cases h : f a with
    | none =>
      refine ⟨?_, fun i hi => (ih _ _ _).2 i (fun hm => hi (List.mem_cons_of_mem _ hm))⟩
      simp only
      rw [(ih _ _ _).1, List.filter_cons]
      simp [h]
    | some ret =>
      simp only
      split
      · refine ⟨by rw [(ih _ _ _).1, List.filter_cons]; simp [h], fun i hi => ?_⟩
        have hne : a ≠ i := fun e => hi (by simp [e])
        obtain ⟨h1, h2⟩ := (ih upd (codes.set a ret) (errors.set a ret)).2 i (fun hm => hi (List.mem_cons_of_mem _ hm))
        rw [h1, h2, Dict.get?_set, Dict.get?_set]
        simp [hne, Ne.symm hne]
      · refine ⟨by rw [(ih _ _ _).1, List.filter_cons]; simp [h], fun i hi => ?_⟩
        have hne : a ≠ i := fun e => hi (by simp [e])
        obtain ⟨h1, h2⟩ := (ih upd (codes.set a ret) errors).2 i (fun hm => hi (List.mem_cons_of_mem _ hm))
        rw [h1, h2, Dict.get?_set]
        simp [hne, Ne.symm hne]

theorem pollAll_unique (f : Nat → Option Int) (run upd : List Nat) (codes errors : Dict Nat Int)
    (hc : codes.KeysUnique) (he : errors.KeysUnique) :
    (pollAll f run upd codes errors).2.1.KeysUnique ∧ (pollAll f run upd codes errors).2.2.KeysUnique := by
  induction run generalizing upd codes errors with
  | nil => exact ⟨hc, he⟩
  | cons a run ih =>
    unfold pollAll
    cases f a with
    | none => exact ih _ _ _ hc he
    | some ret =>
      simp only
      split
      · exact ih _ _ _ (Dict.keysUnique_set _ _ _ hc) (Dict.keysUnique_set _ _ _ he)
      · exact ih _ _ _ (Dict.keysUnique_set _ _ _ hc) he

theorem pollAll_mem (f : Nat → Option Int) (run upd : List Nat) (codes errors : Dict Nat Int) (hn : run.Nodup)
    (i : Nat) (hi : i ∈ run) :
    (∀ c, f i = some c → (pollAll f run upd codes errors).2.1.get? i = some c ∧
      (pollAll f run upd codes errors).2.2.get? i = if c ≠ 0 then some c else errors.get? i) ∧
    (f i = none → (pollAll f run upd codes errors).2.1.get? i = codes.get? i ∧
      (pollAll f run upd codes errors).2.2.get? i = errors.get? i) := by
  induction run generalizing upd codes errors with
  | nil => cases hi
  | cons a run ih =>
    rw [List.nodup_cons] at hn
    by_cases e : i = a
    · subst e
      unfold pollAll
      cases h : f i with
      | none =>
        exact ⟨(fun c hc => nomatch hc), fun _ => (pollAll_spec f run _ codes errors).2 i hn.1⟩
      | some ret =>
        refine ⟨fun c hc => ?_, fun hc => by cases hc⟩
        cases hc
        simp only
        split
        · rw [((pollAll_spec f run _ _ _).2 i hn.1).1, ((pollAll_spec f run _ _ _).2 i hn.1).2, Dict.get?_set,
            Dict.get?_set]
          simp
        · rw [((pollAll_spec f run _ _ _).2 i hn.1).1, ((pollAll_spec f run _ _ _).2 i hn.1).2, Dict.get?_set]
          simp
    · have hi' : i ∈ run := by simpa [e] using hi
      unfold pollAll
      cases h : f a with
      | none => exact ih _ _ _ hn.2 hi'
      | some ret =>
        simp only
        split
        · have := ih upd (codes.set a ret) (errors.set a ret) hn.2 hi'
          rw [Dict.get?_set, Dict.get?_set] at this
          simpa [e, Ne.symm e, fun h : a = i => e h.symm] using this
        · have := ih upd (codes.set a ret) errors hn.2 hi'
          rw [Dict.get?_set] at this
          simpa [e, Ne.symm e, fun h : a = i => e h.symm] using this

/-- State of the loop before turn `r`. -/
structure Inv (P : Procs) (n r : Nat) (s : State) : Prop where
  running : ∀ i, i ∈ s.running ↔ i < n ∧ r ≤ P.exit i
  nodup : s.running.Nodup
  cu : s.codes.KeysUnique
  eu : s.errors.KeysUnique
  codes : ∀ i, s.codes.get? i = if i < n ∧ P.exit i < r then some (P.code i) else none
  errors : ∀ i, s.errors.get? i = if i < n ∧ P.exit i < r ∧ P.code i ≠ 0 then some (P.code i) else none

theorem Inv.init (P : Procs) (n : Nat) : Inv P n 0 ⟨List.range n, [], []⟩ where
  running := by simp
  nodup := List.nodup_range
  cu := by unfold Dict.KeysUnique; exact List.nodup_nil
  eu := by unfold Dict.KeysUnique; exact List.nodup_nil
  codes := by intro i; simp [Dict.get?]
  errors := by intro i; simp [Dict.get?]

theorem Inv.turn {P : Procs} {n r : Nat} {s : State} (h : Inv P n r s) : Inv P n (r + 1) (Multi.turn (P.poll r) s) := by
  have hu := pollAll_unique (P.poll r) s.running [] s.codes s.errors h.cu h.eu
  have hsp := pollAll_spec (P.poll r) s.running [] s.codes s.errors
  have hmem := pollAll_mem (P.poll r) s.running [] s.codes s.errors h.nodup
  unfold Multi.turn
  refine ⟨?_, ?_, hu.1, hu.2, ?_, ?_⟩
  · intro i
    show i ∈ (pollAll _ _ _ _ _).1 ↔ _
    rw [hsp.1]
    simp only [List.nil_append, List.mem_filter, h.running, Procs.poll]
    by_cases h1 : P.exit i ≤ r
    · simp [h1]; omega
    · simp [h1]; omega
  · show (pollAll _ _ _ _ _).1.Nodup
    rw [hsp.1]; simpa using h.nodup.filter _
  · intro i
    show (pollAll _ _ _ _ _).2.1.get? i = _
    by_cases hi : i ∈ s.running
    · have hr := (h.running i).1 hi
      by_cases h1 : P.exit i ≤ r
      · rw [((hmem i hi).1 (P.code i) (by simp [Procs.poll, h1])).1, if_pos ⟨hr.1, by omega⟩]
      · rw [((hmem i hi).2 (by simp [Procs.poll, h1])).1, h.codes, if_neg (by omega), if_neg (by omega)]
    · rw [(hsp.2 i hi).1, h.codes]
      have hr := mt (h.running i).2 hi
      by_cases h2 : i < n ∧ P.exit i < r
      · rw [if_pos h2, if_pos ⟨h2.1, by omega⟩]
      · rw [if_neg h2, if_neg (by omega)]
  · intro i
    show (pollAll _ _ _ _ _).2.2.get? i = _
    by_cases hi : i ∈ s.running
    · have hr := (h.running i).1 hi
      by_cases h1 : P.exit i ≤ r
      · rw [((hmem i hi).1 (P.code i) (by simp [Procs.poll, h1])).2]
        by_cases h3 : P.code i ≠ 0
        · rw [if_pos h3, if_pos ⟨hr.1, by omega, h3⟩]
        · rw [if_neg h3, if_neg (fun hh => h3 hh.2.2), h.errors, if_neg (fun hh => h3 hh.2.2)]
      · rw [((hmem i hi).2 (by simp [Procs.poll, h1])).2, h.errors, if_neg (by omega), if_neg (by omega)]
    · rw [(hsp.2 i hi).2, h.errors]
      have hr := mt (h.running i).2 hi
      by_cases h2 : i < n ∧ P.exit i < r ∧ P.code i ≠ 0
      · rw [if_pos h2, if_pos ⟨h2.1, by omega, h2.2.2⟩]
      · rw [if_neg h2, if_neg]
        rintro ⟨h3, h4, h5⟩
        exact h2 ⟨h3, by omega, h5⟩

theorem loop_inv {P : Procs} {n fuel r r' : Nat} {s s' : State} (h : Inv P n r s)
    (hl : loop P.poll fuel r s = some (r', s')) : Inv P n r' s' ∧ s'.running = [] := by
  induction fuel generalizing r s with
  | zero =>
    unfold loop at hl
    split at hl
    · rename_i he; cases hl; exact ⟨h, he⟩
    · simp at hl
  | succ fuel ih =>
    unfold loop at hl
    split at hl
    · rename_i he; cases hl; exact ⟨h, he⟩
    · exact ih h.turn hl

theorem loop_some {P : Procs} {n fuel r : Nat} {s : State} (h : Inv P n r s) (hf : ∀ i < n, P.exit i < r + fuel) :
    loop P.poll fuel r s ≠ none := by
  induction fuel generalizing r s with
  | zero =>
    unfold loop
    split
    · simp
    · rename_i a as he
      have := (h.running a).1 (by rw [he]; simp)
      have := hf a this.1
      omega
  | succ fuel ih =>
    unfold loop
    split
    · simp
    · exact ih h.turn (fun i hi => by have := hf i hi; omega)

theorem compute_loop {P : Procs} {n fuel : Nat} {final : Option (Option PyErr)} {o : Outcome}
    (h : compute n P.poll final fuel = some o) :
    ∃ s, Inv P n o.turns s ∧ s.running = [] ∧ o.codes = s.codes ∧ o.errors = s.errors ∧
      o.exc = match final with
        | some (some e) => some e
        | _ => if s.errors.isEmpty then none else some .runtimeError := by
  unfold compute at h
  split at h
  · cases h
  · rename_i r s hl
    obtain ⟨h1, h2⟩ := loop_inv (Inv.init P n) hl
    split at h <;> cases h <;> exact ⟨s, h1, h2, rfl, rfl, rfl⟩

end Multi

/-- C17: `compute` ends if every sub-process exits (whatever the order). -/
theorem C17_terminates (P : Procs) (n fuel : Nat) (final : Option (Option PyErr)) (hf : ∀ i < n, P.exit i < fuel) :
    ∃ o, compute n P.poll final fuel = some o := by
  have := loop_some (Inv.init P n) (fuel := fuel) (by simpa using hf)
  unfold compute
  split
  · rename_i h; exact absurd h this
  · split <;> exact ⟨_, rfl⟩

/-- C17: `compute` returns (normally or not) only after all the sub-processes have exited. -/
theorem C17_returns_after_all (P : Procs) (n fuel : Nat) (final : Option (Option PyErr)) (o : Outcome)
    (h : compute n P.poll final fuel = some o) : ∀ i < n, P.exit i < o.turns := by
  obtain ⟨s, hi, hr, _⟩ := compute_loop h
  intro i hin
  have := mt (hi.running i).2 (by rw [hr]; simp)
  omega

/-- C17: each exit code is recorded, exactly once. -/
theorem C17_codes (P : Procs) (n fuel : Nat) (final : Option (Option PyErr)) (o : Outcome)
    (h : compute n P.poll final fuel = some o) :
    o.codes.Perm ((List.range n).map fun i => (i, P.code i)) := by
  have hall := C17_returns_after_all P n fuel final o h
  obtain ⟨s, hi, hr, hc, _⟩ := compute_loop h
  rw [hc]
  have hku := hi.cu
  refine (List.perm_ext_iff_of_nodup (List.Nodup.of_map _ hku) ?_).2 ?_
  · exact List.Nodup.of_map Prod.fst (by simpa [List.map_map, Function.comp_def] using List.nodup_range)
  · rintro ⟨i, c⟩
    constructor
    · intro hm
      have := Dict.mem_get? _ hku i c hm
      rw [hi.codes] at this
      split at this
      · rename_i hh
        simp only [Option.some.injEq] at this
        exact List.mem_map.2 ⟨i, List.mem_range.2 hh.1, by rw [this]⟩
      · cases this
    · intro hm
      obtain ⟨j, hj, he⟩ := List.mem_map.1 hm
      cases he
      rw [List.mem_range] at hj
      exact Dict.get?_mem _ _ _ (by rw [hi.codes, if_pos ⟨hj, hall _ hj⟩])

/-- C17: with a `final_seq_work` which does not raise (or without one), `compute` raises exactly when at least one exit
code is not zero, and then it raises `RuntimeError`. -/
theorem C17_fails_iff (P : Procs) (n fuel : Nat) (final : Option (Option PyErr)) (o : Outcome)
    (hfin : ∀ e, final ≠ some (some e)) (h : compute n P.poll final fuel = some o) :
    (o.exc = some .runtimeError ↔ ∃ i < n, P.code i ≠ 0) ∧ (o.exc = none ↔ ∀ i < n, P.code i = 0) := by
  have hall := C17_returns_after_all P n fuel final o h
  obtain ⟨s, hi, hr, _, _, hexc⟩ := compute_loop h
  have hexc' : o.exc = if s.errors.isEmpty then none else some .runtimeError := by
    rw [hexc]
    match final, hfin with
    | some (some e), hfin => exact absurd rfl (hfin e)
    | some none, _ => rfl
    | none, _ => rfl
  have key : s.errors.isEmpty = true ↔ ∀ i < n, P.code i = 0 := by
    constructor
    · intro he i hin
      by_contra hne
      have := hi.errors i
      rw [if_pos ⟨hin, hall i hin, hne⟩, List.isEmpty_iff.1 he] at this
      simp [Dict.get?] at this
    · intro hz
      cases hs : s.errors with
      | nil => rfl
      | cons kv d =>
        exfalso
        have := hi.errors kv.1
        rw [if_neg (fun hh => hh.2.2 (hz _ hh.1)), Dict.get?_eq_none_iff] at this
        exact this ((Dict.mem_keys_iff _ _).2 ⟨kv.2, by rw [hs]; simp⟩)
  rw [hexc']
  by_cases he : s.errors.isEmpty = true
  · have hz := key.1 he
    rw [if_pos he]
    exact ⟨⟨(fun hh => nomatch hh), fun ⟨i, hin, hne⟩ => absurd (hz i hin) hne⟩, fun _ => hz, fun _ => rfl⟩
  · rw [if_neg he]
    have hnz := mt key.2 he
    refine ⟨⟨fun _ => ?_, fun _ => rfl⟩, ⟨(fun hh => nomatch hh), fun hh => absurd hh hnz⟩⟩
    by_contra hcon
    exact hnz (fun i hin => by by_contra hne; exact hcon ⟨i, hin, hne⟩)

/-- C17: the errors recorded are those of the processes which failed. -/
theorem C17_errors (P : Procs) (n fuel : Nat) (final : Option (Option PyErr)) (o : Outcome)
    (h : compute n P.poll final fuel = some o) (i : Nat) :
    o.errors.get? i = if i < n ∧ P.code i ≠ 0 then some (P.code i) else none := by
  have hall := C17_returns_after_all P n fuel final o h
  obtain ⟨s, hi, hr, _, he, _⟩ := compute_loop h
  rw [he, hi.errors]
  by_cases hh : i < n ∧ P.code i ≠ 0
  · rw [if_pos hh, if_pos ⟨hh.1, hall i hh.1, hh.2⟩]
  · rw [if_neg hh, if_neg (fun h' => hh ⟨h'.1, h'.2.2⟩)]

/-- C17 is false for a topology whose `final_seq_work` raises: the caller sees that exception, whatever the exit codes
are, in particular instead of the `RuntimeError` due to a failed sub-process. -/
theorem C17_final_seq_work_masks (P : Procs) (n fuel : Nat) (e : PyErr) (o : Outcome)
    (h : compute n P.poll (some (some e)) fuel = some o) : o.exc = some e := by
  obtain ⟨s, _, _, _, _, hexc⟩ := compute_loop h
  exact hexc

/-- `final_seq_work` is called exactly once, if the topology has one. -/
theorem C17_final_once (P : Procs) (n fuel : Nat) (final : Option (Option PyErr)) (o : Outcome)
    (h : compute n P.poll final fuel = some o) : o.nbFinal = if final.isSome then 1 else 0 := by
  unfold compute at h
  split at h
  · cases h
  · split at h <;> cases h <;> rfl

/-- Three processes which exit in the order 2, 0, 1; process 1 fails. -/
example : compute 3 (Procs.poll ⟨fun i => [1, 2, 0].getD i 0, fun i => [0, -9, 0].getD i 0⟩) none 5 =
    some ⟨some .runtimeError, 3, [(2, 0), (0, 0), (1, -9)], [(1, -9)], 0⟩ := by decide

/-- The same processes with a `final_seq_work` which raises `ValueError`. -/
example : compute 3 (Procs.poll ⟨fun i => [1, 2, 0].getD i 0, fun i => [0, -9, 0].getD i 0⟩) (some (some .valueError)) 5 =
    some ⟨some .valueError, 3, [(2, 0), (0, 0), (1, -9)], [(1, -9)], 1⟩ := by decide

end Verif
