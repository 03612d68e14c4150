import Verif.Model.WorkKinds
import Verif.Props.Graphviz

/-!
# C153: the works are executed as their kinds announce
-/

namespace Verif
open Graphviz WorkKinds

variable {σ : Type}

/-- The words of the documentation of `Work`. -/
def kindWords : List Txt :=
  ["global".toList, "one shot".toList, "io".toList, "eat key value".toList]

/-- The kind contains the word: it is this word, or a sequence in which it is. -/
def Announces (k : Kind) (x : Txt) : Prop := k = .text x ∨ ∃ l, k = .seq l ∧ x ∈ l

/-- The kinds which are documented: none, one of the words, or a sequence of these words. -/
def DocumentedKind (k : Kind) : Prop :=
  k = .none ∨ (∃ x ∈ kindWords, k = .text x) ∨ ∃ l, k = .seq l ∧ ∀ x ∈ l, x ∈ kindWords

theorem kindWords_substring : ∀ x ∈ kindWords, ∀ y ∈ kindWords, substring x y = true → x = y := by
  decide +kernel

theorem substring_self (x : Txt) : substring x x = true := by
  have h := (has_iff (.text x) x).2 ⟨[], [], by simp⟩
  simpa [Kind.has] using h

theorem has_documented (k : Kind) (hk : DocumentedKind k) (x : Txt) (hx : x ∈ kindWords) :
    k.has x = true ↔ Announces k x := by
  rcases hk with rfl | ⟨y, hy, rfl⟩ | ⟨l, rfl, -⟩
  · simp [Kind.has, Announces]
  · simp only [Kind.has, Announces]
    constructor
    · intro h; exact .inl (by rw [kindWords_substring x hx y hy h])
    · rintro (h | ⟨l, h, -⟩)
      · cases h; exact substring_self _
      · cases h
  · simp [Kind.has, Announces]

theorem eatKeyValue_iff (k : Kind) : eatKeyValue k = true ↔ Announces k "eat key value".toList := by
  cases k with
  | none => exact ⟨fun h => (Bool.false_ne_true h).elim, fun h => by rcases h with h | ⟨l, h, -⟩ <;> cases h⟩
  | text s =>
    refine ⟨fun h => .inl (congrArg _ (of_decide_eq_true h)), fun h => ?_⟩
    rcases h with h | ⟨l, h, -⟩
    · exact decide_eq_true (Kind.text.inj h)
    · cases h
  | seq l =>
    refine ⟨fun h => .inr ⟨l, rfl, of_decide_eq_true h⟩, fun h => ?_⟩
    rcases h with h | ⟨m, h, hm⟩
    · cases h
    · cases h; exact decide_eq_true hm

/-- **C153** (documented kinds): a work is executed once at the beginning exactly when it announces "one shot"; otherwise it
is called with its queues exactly when it announces "global"; otherwise it is called for each item, in the class of the
inputs and outputs exactly when it announces "io"; the argument is the couple (key, value) exactly when it announces "eat
key value". -/
theorem C153_documented_partial (k : Kind) (hk : DocumentedKind k) :
    (∀ (w : KWork σ) (ws : List (KWork σ)), w.kind = k → w ∈ ws →
      (w ∈ executorWorks ws ↔ ¬ Announces k "one shot".toList)) ∧
    (asyncTreatment k = .queues ↔ Announces k "global".toList) ∧
    (seqTreatment k = .queues ↔ Announces k "global".toList) ∧
    (asyncTreatment k = .itemIo ↔ Announces k "io".toList ∧ ¬ Announces k "global".toList) ∧
    (∀ (κ α : Type) (key : κ) (obj : α),
      (Announces k "eat key value".toList → prepareArgument k key obj = .inl (key, obj)) ∧
      (¬ Announces k "eat key value".toList → prepareArgument k key obj = .inr obj)) := by
  have ho := has_documented k hk "one shot".toList (by decide +kernel)
  have hg := has_documented k hk "global".toList (by decide +kernel)
  have hi := has_documented k hk "io".toList (by decide +kernel)
  refine ⟨?_, ?_, ?_, ?_, ?_⟩
  · intro w ws hw hmem
    simp only [executorWorks, List.mem_filter, hmem, true_and, hw, ← ho, Bool.not_eq_true, Bool.not_eq_eq_eq_not,
      Bool.not_true]
  · rw [← hg]
    unfold asyncTreatment
    cases k.has "global".toList
    · cases (k.has "io".toList || decide (k = Kind.text "io".toList)) <;> simp
    · simp
  · rw [← hg]
    unfold seqTreatment
    cases k.has "global".toList <;> simp
  · have hio : (k.has "io".toList || decide (k = Kind.text "io".toList)) = k.has "io".toList := by
      by_cases h : k = Kind.text "io".toList
      · rw [hi.2 (.inl h)]; rfl
      · rw [decide_eq_false h, Bool.or_false]
    rw [← hg, ← hi]
    unfold asyncTreatment
    rw [hio]
    cases k.has "global".toList <;> cases k.has "io".toList <;> simp
  · intro κ α key obj
    rw [← eatKeyValue_iff]
    unfold prepareArgument
    constructor
    · intro h; rw [if_pos h]
    · intro h; rw [if_neg h]

/-- The effects of some works called one after the other. -/
def callAll : List (KWork σ) → σ → Except PyErr σ
  | [], s => .ok s
  | w :: ws, s =>
    match w.call s with
    | .error e => .error e
    | .ok s2 => callAll ws s2

/-- The works which announce "one shot", in the order in which they have been added. -/
noncomputable def oneShotWorks (ws : List (KWork σ)) : List (KWork σ) :=
  open Classical in ws.filter (fun w => decide (Announces w.kind "one shot".toList))

theorem oneShotWorks_cons (w : KWork σ) (ws : List (KWork σ)) (hw : DocumentedKind w.kind) :
    oneShotWorks (w :: ws) = if w.kind.has "one shot".toList then w :: oneShotWorks ws else oneShotWorks ws := by
  have h := has_documented w.kind hw "one shot".toList (by decide +kernel)
  unfold oneShotWorks
  revert h
  generalize "one shot".toList = x
  intro h
  by_cases c : w.kind.has x = true
  · rw [if_pos c, List.filter_cons_of_pos (by simpa using h.1 c)]
  · rw [if_neg c, List.filter_cons_of_neg (by simpa using fun a => c (h.2 a))]

/-- **C153** (one shot works): when their functions are methods of objects, the works which announce "one shot", and no
other one, are called once each, in the order in which they have been added; an exception ends the execution, after the
works called before. -/
theorem C153_one_shot_partial (ws : List (KWork σ)) (hk : ∀ w ∈ ws, DocumentedKind w.kind)
    (hb : ∀ w ∈ oneShotWorks ws, w.callable = .bound) (s : σ) :
    (∀ s2, callAll (oneShotWorks ws) s = .ok s2 →
      execOneShot ws s = (none, s2, (oneShotWorks ws).map (·.name))) ∧
    (∀ e, callAll (oneShotWorks ws) s = .error e →
      ∃ before w after s2, oneShotWorks ws = before ++ w :: after ∧ callAll before s = .ok s2 ∧ w.call s2 = .error e ∧
        execOneShot ws s = (some e, s2, (before ++ [w]).map (·.name))) := by
  induction ws generalizing s with
  | nil => simp [oneShotWorks, callAll, execOneShot]
  | cons w ws ih =>
    have hc := oneShotWorks_cons w ws (hk w (by simp))
    have hk' : ∀ w ∈ ws, DocumentedKind w.kind := fun v hv => hk v (by simp [hv])
    rw [hc] at hb ⊢
    by_cases c : w.kind.has "one shot".toList = true
    · rw [if_pos c] at hb ⊢
      have hw := hb w (by simp)
      have ih := fun s => ih hk' (fun v hv => hb v (by simp [hv])) s
      constructor
      · intro s2 h
        simp only [callAll] at h
        cases e : w.call s with
        | error x => rw [e] at h; cases h
        | ok s1 =>
          rw [e] at h
          have := (ih s1).1 s2 h
          simp only [execOneShot, c, if_true, hw, e, this, List.map_cons]
      · intro x h
        simp only [callAll] at h
        cases e : w.call s with
        | error y =>
          rw [e] at h
          cases h
          refine ⟨[], w, oneShotWorks ws, s, rfl, rfl, e, ?_⟩
          simp only [execOneShot, c, if_true, hw, e, List.nil_append, List.map_cons, List.map_nil]
        | ok s1 =>
          rw [e] at h
          obtain ⟨b, v, a, s2, h1, h2, h3, h4⟩ := (ih s1).2 x h
          refine ⟨w :: b, v, a, s2, by rw [h1]; rfl, by simp only [callAll, e, h2], h3, ?_⟩
          simp only [execOneShot, c, if_true, hw, e, h4, List.cons_append, List.map_cons]
    · rw [if_neg c] at hb ⊢
      have e : execOneShot (w :: ws) s = execOneShot ws s := by simp only [execOneShot, c]; rfl
      rw [e]
      exact ih hk' hb s

/-- **C153**, what is false: a work "one shot" whose function is not a method (a function, a class...) is never called: the
computation fails with an `AttributeError`, after the works "one shot" added before it. -/
theorem C153_function_fails (before after : List (KWork σ)) (w : KWork σ)
    (hk : ∀ v ∈ before, DocumentedKind v.kind) (hb : ∀ v ∈ oneShotWorks before, v.callable = .bound)
    (hw : Announces w.kind "one shot".toList) (hf : w.callable = .other) (s s2 : σ)
    (hs : callAll (oneShotWorks before) s = .ok s2) :
    execOneShot (before ++ w :: after) s = (some .attributeError, s2, (oneShotWorks before).map (·.name)) := by
  have hone : w.kind.has "one shot".toList = true := by
    rcases hw with h | ⟨l, h, hl⟩
    · rw [h]; exact substring_self _
    · rw [h]; exact decide_eq_true hl
  induction before generalizing s with
  | nil =>
    have : callAll ([] : List (KWork σ)) s = .ok s2 := hs
    cases this
    simp only [List.nil_append, execOneShot, hone, if_true, hf]
    rfl
  | cons v vs ih =>
    have hc := oneShotWorks_cons v vs (hk v (by simp))
    rw [hc] at hb hs ⊢
    have hk' : ∀ v ∈ vs, DocumentedKind v.kind := fun u hu => hk u (by simp [hu])
    by_cases c : v.kind.has "one shot".toList = true
    · rw [if_pos c] at hb hs ⊢
      have hv := hb v (by simp)
      simp only [callAll] at hs
      cases e : v.call s with
      | error x => rw [e] at hs; cases hs
      | ok s1 =>
        rw [e] at hs
        have := ih hk' (fun u hu => hb u (by simp [hu])) s1 hs
        simp only [List.cons_append, execOneShot, c, if_true, hv, e, this, List.map_cons]
    · rw [if_neg c] at hb hs ⊢
      have e : execOneShot (v :: (vs ++ w :: after)) s = execOneShot (vs ++ w :: after) s := by
        simp only [execOneShot, c]; rfl
      rw [List.cons_append, e]
      exact ih hk' hb s hs

/-- **C153**, what is false: in a text with several words, "io" and "one shot" are found but not "eat key value"; and "io" is
found inside other words. -/
theorem C153_text_fails :
    asyncTreatment (.text "io, eat key value".toList) = .itemIo ∧
    prepareArgument (.text "io, eat key value".toList) 1 2 = .inr 2 ∧
    prepareArgument (.seq ["io".toList, "eat key value".toList]) 1 2 = .inl (1, 2) ∧
    asyncTreatment (.text "interpolation".toList) = .itemIo ∧
    asyncTreatment (.seq ["interpolation".toList]) = .itemCpu := by
  decide +kernel

/-- **C153**: a work of kind "global" is called by the asynchronous executors exactly when one of its input queues has an
item. -/
theorem C153_global_ready (i : Input) :
    asyncWaits i = false ↔ (∃ n, i = .one n ∧ 0 < n) ∨ ∃ l, i = .tuple l ∧ ∃ n ∈ l, 0 < n := by
  cases i with
  | none => simp [asyncWaits, Input.falsy]
  | one n => simp [asyncWaits, Input.falsy, Nat.pos_iff_ne_zero]
  | tuple l =>
    cases l with
    | nil => simp [asyncWaits, Input.falsy]
    | cons a l =>
      simp [asyncWaits, Input.falsy, Nat.pos_iff_ne_zero]
      constructor
      · intro h
        by_cases ha : a = 0
        · exact .inr (h ha)
        · exact .inl ha
      · rintro (h | h) ha
        · exact absurd ha h
        · exact h

/-- **C153**, what is false: a work of kind "global" without input queue is called by the sequential executor, and never
by the asynchronous executors; the sequential executor calls it also when its input queues are empty. -/
theorem C153_no_input_fails (queueMax : Nat) :
    asyncWaits .none = true ∧ seqCalls queueMax none = true ∧ ∀ n, seqCalls queueMax (some n) = true ↔ n ≤ queueMax := by
  refine ⟨rfl, rfl, fun n => ?_⟩
  simp [seqCalls]

/-- A topology with two works "one shot" (the second one is also "global"), and two other works. -/
def demoKinds : List (KWork (List Nat)) :=
  [⟨"fill".toList, .text "one shot".toList, .bound, fun s => .ok (s ++ [1])⟩,
   ⟨"read".toList, .text "io".toList, .other, fun s => .ok (s ++ [2])⟩,
   ⟨"fill couples".toList, .seq ["global".toList, "one shot".toList], .bound, fun s => .ok (s ++ [3])⟩,
   ⟨"compute".toList, .none, .other, fun s => .ok (s ++ [4])⟩]

theorem demoKinds_documented : ∀ w ∈ demoKinds, DocumentedKind w.kind := by
  intro w hw
  simp only [demoKinds, List.mem_cons, List.not_mem_nil, or_false] at hw
  rcases hw with rfl | rfl | rfl | rfl
  · exact .inr (.inl ⟨_, by decide +kernel, rfl⟩)
  · exact .inr (.inl ⟨_, by decide +kernel, rfl⟩)
  · exact .inr (.inr ⟨_, rfl, by decide +kernel⟩)
  · exact .inl rfl

theorem demoKinds_bound : ∀ w ∈ oneShotWorks demoKinds, w.callable = .bound := by
  intro w hw
  simp only [oneShotWorks, List.mem_filter, demoKinds, List.mem_cons, List.not_mem_nil, or_false, decide_eq_true_eq] at hw
  obtain ⟨rfl | rfl | rfl | rfl, h⟩ := hw
  · rfl
  · rcases h with h | ⟨l, h, -⟩
    · exact absurd h (by decide +kernel)
    · cases h
  · rfl
  · rcases h with h | ⟨l, h, -⟩ <;> cases h

/-- The hypotheses of `C153_one_shot_partial` hold, and what it says for this topology. -/
example : (∀ w ∈ demoKinds, DocumentedKind w.kind) ∧ (∀ w ∈ oneShotWorks demoKinds, w.callable = .bound) ∧
    execOneShot demoKinds [] = (none, [1, 3], ["fill".toList, "fill couples".toList]) ∧
    (executorWorks demoKinds).map (·.name) = ["read".toList, "compute".toList] :=
  ⟨demoKinds_documented, demoKinds_bound, by decide +kernel, by decide +kernel⟩

/-- The hypotheses of `C153_function_fails`: a function given as a work "one shot" after these works. -/
example : execOneShot (demoKinds ++ [⟨"f".toList, .text "one shot".toList, .other, fun s => .ok (s ++ [5])⟩]) [] =
    (some .attributeError, [1, 3], ["fill".toList, "fill couples".toList]) := by
  decide +kernel

end Verif
