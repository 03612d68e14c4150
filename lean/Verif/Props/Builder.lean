import Verif.Model.Builder
import Verif.Lemmas.Dict
import Verif.Props.GroupsLive
import Mathlib.Data.List.Nodup

/-!
# Creation of topologies (C58), configuration (C59), logger (C60)
-/

namespace Verif
open Verif.Builder

variable {φ : Type}

/-! ## C58 -/

theorem addWorks_ok (t t' : Topo φ) (ws : List (WorkDef φ)) (h : addWorks t ws = .ok t') :
    t'.works = t.works ++ ws ∧ t'.worksDict = t.worksDict ++ ws.map (fun w => (w.name, w)) ∧
      (ws.map WorkDef.name).Nodup ∧ (∀ w ∈ ws, w.name ∉ t.worksDict.keys) := by
  induction ws generalizing t with
  | nil => injection h with h; subst h; simp
  | cons w ws ih =>
    unfold addWorks addWork at h
    simp only at h
    split at h
    · rename_i t1 heq
      split at heq
      · cases heq
      · rename_i hmem
        injection heq with heq _
        subst heq
        obtain ⟨h1, h2, h3, h4⟩ := ih _ h
        simp only at h1 h2 h4
        rw [Dict.set_of_not_mem _ _ _ hmem] at h2 h4
        refine ⟨by rw [h1]; simp, by rw [h2]; simp, ?_, ?_⟩
        · rw [List.map_cons, List.nodup_cons]
          refine ⟨?_, h3⟩
          intro hc
          obtain ⟨w', hw', hn⟩ := List.mem_map.1 hc
          refine h4 w' hw' ?_
          simp [Dict.keys, hn]
        · intro w' hw'
          rcases List.mem_cons.1 hw' with rfl | hw'
          · exact hmem
          · intro hc
            refine h4 w' hw' ?_
            unfold Dict.keys at hc ⊢
            rw [List.map_append]
            exact List.mem_append_left _ hc
    · cases h

theorem addWorks_nodup (t : Topo φ) (ws : List (WorkDef φ)) (h : (ws.map WorkDef.name).Nodup)
    (hd : ∀ w ∈ ws, w.name ∉ t.worksDict.keys) : ∃ t', addWorks t ws = .ok t' := by
  induction ws generalizing t with
  | nil => exact ⟨_, rfl⟩
  | cons w ws ih =>
    rw [List.map_cons, List.nodup_cons] at h
    have hw := hd w (List.mem_cons_self)
    have e : addWork t w = ({ t with works := t.works ++ [w], worksDict := t.worksDict.set w.name w }, none) := by
      unfold addWork
      simp only
      rw [if_neg hw]
    unfold addWorks
    rw [e]
    refine ih _ h.2 ?_
    intro w' hw'
    simp only
    rw [Dict.keys_set_of_not_mem _ _ _ hw]
    intro hc
    rcases List.mem_append.1 hc with hc | hc
    · exact hd w' (List.mem_cons_of_mem _ hw') hc
    · simp only [List.mem_singleton] at hc
      exact h.1 (hc ▸ List.mem_map_of_mem hw')

/-- C58: the creation of a topology succeeds if and only if the names of its works are different.  The works are kept
in the order in which they were added, and each one is found from its name. -/
theorem C58_names (ws : List (WorkDef φ)) :
    ((∃ t, addWorks Topo.empty ws = .ok t) ↔ (ws.map WorkDef.name).Nodup) ∧
    (∀ t, addWorks Topo.empty ws = .ok t → t.works = ws ∧ ∀ w ∈ ws, t.worksDict.get? w.name = some w) := by
  refine ⟨⟨fun ⟨t, h⟩ => (addWorks_ok _ _ _ h).2.2.1, fun h => addWorks_nodup _ _ h (fun _ _ => ?_)⟩, ?_⟩
  · simp [Topo.empty, Dict.keys]
  · intro t h
    obtain ⟨h1, h2, h3, _⟩ := addWorks_ok _ _ _ h
    refine ⟨by rw [h1]; rfl, ?_⟩
    intro w hw
    have e : t.worksDict = ws.map (fun w => (w.name, w)) := by rw [h2]; rfl
    rw [e]
    refine Dict.mem_get? _ ?_ _ _ (List.mem_map.2 ⟨w, hw, rfl⟩)
    unfold Dict.KeysUnique Dict.keys
    rw [List.map_map]
    exact h3

/-- C58: an addition raises `ValueError` exactly when the name is already used, and it is the only exception. -/
theorem C58_raises (t : Topo φ) (w : WorkDef φ) :
    ((addWork t w).2 = some .valueError ↔ w.name ∈ t.worksDict.keys) ∧
    ((addWork t w).2 = none ↔ w.name ∉ t.worksDict.keys) := by
  unfold addWork
  simp only
  split <;> rename_i h <;> simp [h]

/-- C58 is false: the rejected work is in the list of works of the topology (it would be executed if the caller
catches the exception). -/
theorem C58_rejected_work_added (t : Topo φ) (w : WorkDef φ) (h : w.name ∈ t.worksDict.keys) :
    (addWork t w).2 = some .valueError ∧ (addWork t w).1.works = t.works ++ [w] ∧
      (addWork t w).1.worksDict = t.worksDict ∧ (addWork t w).1.queues = t.queues := by
  unfold addWork
  simp only
  rw [if_pos h]
  exact ⟨rfl, rfl, rfl, rfl⟩

theorem C58_partial (t : Topo φ) (w : WorkDef φ) :
    (addWork t w).1.works = t.works ++ [w] ∧ (addWork t w).1.queues = t.queues ∧
    (∀ w' , (w'.name, w') ∈ t.worksDict → (w'.name, w') ∈ (addWork t w).1.worksDict) := by
  unfold addWork
  simp only
  split
  · exact ⟨rfl, rfl, fun _ h => h⟩
  · rename_i h
    refine ⟨rfl, rfl, fun w' hw' => ?_⟩
    simp only
    rw [Dict.set_of_not_mem _ _ _ h]
    exact List.mem_append_left _ hw'

/-- An example: two works with the same name. -/
example : let w1 : WorkDef Nat := ⟨['a'], some 1, none, none, []⟩
    let w2 : WorkDef Nat := ⟨['b'], some 2, none, none, []⟩
    let w3 : WorkDef Nat := ⟨['a'], some 3, none, none, []⟩
    (∃ t, addWorks Topo.empty [w1, w2] = .ok t) ∧ addWorks Topo.empty [w1, w2, w3] = .error .valueError ∧
      (addWorksCaught Topo.empty [w1, w2, w3]).works = [w1, w2, w3] :=
  ⟨⟨_, rfl⟩, rfl, rfl⟩

/-! ## C59 -/

theorem convertValue_eq (v : List Char) : convertValue v = .str v := by
  unfold convertValue
  rw [if_neg]
  simp

theorem foldl_set_keysUnique {β γ : Type} (f : β → γ) (l : List (List Char × β)) (d : Dict (List Char) γ)
    (hl : (l.map Prod.fst).Nodup) (hd : ∀ k ∈ l.map Prod.fst, k ∉ d.keys) :
    l.foldl (fun e o => e.set o.1 (f o.2)) d = d ++ l.map (fun o => (o.1, f o.2)) := by
  induction l generalizing d with
  | nil => simp
  | cons o l ih =>
    rw [List.map_cons, List.nodup_cons] at hl
    rw [List.foldl_cons]
    have h1 : o.1 ∉ d.keys := hd _ (by simp)
    rw [ih _ hl.2, Dict.set_of_not_mem _ _ _ h1]
    · simp
    · intro k hk
      rw [Dict.keys_set_of_not_mem _ _ _ h1]
      intro hc
      rcases List.mem_append.1 hc with hc | hc
      · exact hd k (by rw [List.map_cons]; exact List.mem_cons_of_mem _ hk) hc
      · simp only [List.mem_singleton] at hc
        exact hl.1 (hc ▸ hk)

/-- What `get_config` returns: every option of the file with its text, unchanged. -/
theorem C59_partial (sections : Dict (List Char) (Dict (List Char) (List Char))) (hs : sections.KeysUnique)
    (ho : ∀ s ∈ sections, s.2.KeysUnique) :
    getConfig (some sections) = sections.map (fun s => (s.1, s.2.map (fun o => (o.1, Obj.str o.2)))) := by
  unfold getConfig
  simp only
  rw [foldl_set_keysUnique (fun s : Dict (List Char) (List Char) =>
      s.foldl (fun (e : Dict (List Char) Obj) o => e.set o.1 (convertValue o.2)) []) sections [] hs (by simp [Dict.keys])]
  rw [List.nil_append]
  refine List.map_congr_left ?_
  intro s hs'
  rw [foldl_set_keysUnique convertValue s.2 [] (ho s hs') (by simp [Dict.keys])]
  simp [convertValue_eq]

/-- C59 is false: no value is ever converted to a boolean, whatever its capitalisation ... -/
theorem C59_never_boolean (v : List Char) (b : Bool) : convertValue v ≠ .bool b := by
  rw [convertValue_eq]; exact fun h => nomatch h

/-- ... and an option set to `false` is true when it is tested. -/
theorem C59_false_is_true : (convertValue ['f', 'a', 'l', 's', 'e']).truthy = true := by decide

example : getConfig (some [(['t'], [(['a'], ['f', 'a', 'l', 's', 'e']), (['b'], ['4'])])]) =
    [(['t'], [(['a'], .str ['f', 'a', 'l', 's', 'e']), (['b'], .str ['4'])])] := by decide

/-! ## C60 -/

/-- The elements at odd positions. -/
def oddPositions {η : Type} : List η → List η
  | [] => []
  | [_] => []
  | _ :: b :: l => b :: oddPositions l

theorem oddPositions_length {η : Type} : ∀ l : List η, (oddPositions l).length = l.length / 2
  | [] => by simp [oddPositions]
  | [_] => by simp [oddPositions]
  | a :: b :: l => by
    show (oddPositions l).length + 1 = (l.length + 1 + 1) / 2
    rw [oddPositions_length l]; omega

theorem resetLoop_eq {η : Type} [DecidableEq η] : ∀ (fuel : Nat) (done rest : List η), (done ++ rest).Nodup →
    rest.length ≤ fuel → resetLoop fuel done.length (done ++ rest) = done ++ oddPositions rest
  | fuel, done, [], _, _ => by
    cases fuel with
    | zero => simp [resetLoop, oddPositions]
    | succ n => simp [resetLoop, oddPositions]
  | 0, done, a :: l, _, h => by simp at h
  | fuel + 1, done, [a], hnd, _ => by
    have hda : a ∉ done := by
      intro hc
      rw [List.nodup_append] at hnd
      exact hnd.2.2 a hc a (by simp) rfl
    have h1 : (done ++ [a])[done.length]? = some a := by simp
    unfold resetLoop
    rw [h1]
    simp only
    rw [List.erase_append_right _ hda]
    simp only [List.erase_cons_head, List.append_nil]
    cases fuel with
    | zero => simp [resetLoop, oddPositions]
    | succ n => simp [resetLoop, oddPositions]
  | fuel + 1, done, a :: b :: l, hnd, h => by
    have hda : a ∉ done := by
      intro hc
      rw [List.nodup_append] at hnd
      exact hnd.2.2 a hc a (by simp) rfl
    have h1 : (done ++ a :: b :: l)[done.length]? = some a := by simp
    unfold resetLoop
    rw [h1]
    simp only
    rw [List.erase_append_right _ hda]
    simp only [List.erase_cons_head]
    have h2 : (done ++ b :: l) = (done ++ [b]) ++ l := by simp
    have h3 : done.length + 1 = (done ++ [b]).length := by simp
    rw [h2, h3, resetLoop_eq fuel (done ++ [b]) l ?_ (by simp at h; omega)]
    · simp [oddPositions]
    · rw [← h2]
      rw [List.nodup_append] at hnd ⊢
      refine ⟨hnd.1, (List.nodup_cons.1 hnd.2.1).2, ?_⟩
      intro x hx y hy
      exact hnd.2.2 x hx y (List.mem_cons_of_mem _ hy)

/-- C60, exactly: `reset_logger` leaves every second handler. -/
theorem C60_handlers_left {η : Type} [DecidableEq η] (hs : List η) (h : hs.Nodup) :
    resetLogger hs = oddPositions hs :=
  resetLoop_eq hs.length [] hs h (Nat.le_refl _)

/-- C60 is false as soon as two handlers are attached. -/
theorem C60_handlers_remain {η : Type} [DecidableEq η] (hs : List η) (h : hs.Nodup) :
    resetLogger hs = [] ↔ hs.length ≤ 1 := by
  rw [← List.length_eq_zero_iff, C60_handlers_left hs h, oddPositions_length]
  omega

/-- C60, what holds: no handler is left when at most one was attached; and nothing is added. -/
theorem C60_partial {η : Type} [DecidableEq η] (hs : List η) (h : hs.Nodup) :
    (hs.length ≤ 1 → resetLogger hs = []) ∧ (resetLogger hs).length = hs.length / 2 := by
  refine ⟨(C60_handlers_remain hs h).2, ?_⟩
  rw [C60_handlers_left hs h, oddPositions_length]

/-- The bound on the iterations in the model is large enough. -/
theorem C60_fuel {η : Type} [DecidableEq η] (hs : List η) (h : hs.Nodup) (fuel : Nat) (hf : hs.length ≤ fuel) :
    resetLoop fuel 0 hs = resetLogger hs :=
  (resetLoop_eq fuel [] hs h hf).trans (resetLoop_eq hs.length [] hs h (Nat.le_refl _)).symm

example : resetLogger [1, 2, 3, 4, 5] = [2, 4] := by decide

/-! ## Queues (C58) -/

/-- **C58** (queues).  After any additions of queues, the topology has these queues in this order, those of kind `"list"` being
lists and the others dictionaries; the works are not modified. -/
theorem C58_queues (t : Topo φ) (qs : List (List Char × List Char)) :
    ((qs.foldl (fun t q => addQueue t q.1 q.2) t).queues.map Prod.fst = t.queues.map Prod.fst ++ qs.map Prod.fst) ∧
    (∀ i name kind, qs[i]? = some (name, kind) →
      ∃ isList, (qs.foldl (fun t q => addQueue t q.1 q.2) t).queues[t.queues.length + i]? = some (name, isList) ∧
        (isList = true ↔ kind = "list".toList)) ∧
    (qs.foldl (fun t q => addQueue t q.1 q.2) t).works = t.works ∧
    (qs.foldl (fun t q => addQueue t q.1 q.2) t).worksDict = t.worksDict := by
  induction qs generalizing t with
  | nil => simp
  | cons q qs ih =>
    obtain ⟨h1, h2, h3, h4⟩ := ih (addQueue t q.1 q.2)
    simp only [List.foldl_cons]
    have hpre : ∀ (qs : List (List Char × List Char)) (t : Topo φ), ∃ r,
        (qs.foldl (fun t q => addQueue t q.1 q.2) t).queues = t.queues ++ r := by
      intro qs
      induction qs with
      | nil => intro t; exact ⟨[], by simp⟩
      | cons q qs ih =>
        intro t
        obtain ⟨r, hr⟩ := ih (addQueue t q.1 q.2)
        exact ⟨_, by rw [List.foldl_cons, hr]; simp only [addQueue, List.append_assoc]; rfl⟩
    refine ⟨?_, ?_, by rw [h3]; rfl, by rw [h4]; rfl⟩
    · rw [h1]; simp [addQueue]
    · intro i name kind hi
      cases i with
      | zero =>
        simp only [List.getElem?_cons_zero, Option.some.injEq] at hi
        subst hi
        obtain ⟨r, hr⟩ := hpre qs (addQueue t name kind)
        refine ⟨decide (kind = ['l', 'i', 's', 't']), ?_, by rw [decide_eq_true_iff]; rfl⟩
        simp only
        rw [hr]
        simp [addQueue]
      | succ i =>
        obtain ⟨b, hb, hk⟩ := h2 i name kind (by simpa using hi)
        refine ⟨b, ?_, hk⟩
        rw [← hb]
        congr 1
        simp only [addQueue, List.length_append, List.length_singleton]
        omega

example : ((addQueue (addQueue (Topo.empty : Topo Unit) ['a'] []) ['b'] "list".toList).queues) = [(['a'], false), (['b'], true)] := by
  decide

/-! ## Default limits and C12 -/

theorem default_limits (cores : Nat) (hc : 0 < cores) :
    0 < maxWorkers none none cores ∧ 8 ≤ queueMax none (maxWorkers none none cores) := by
  unfold maxWorkers queueMax
  simp only
  refine ⟨?_, Nat.le_max_right _ _⟩
  split <;> omega

open Verif.Exec Verif.Spec in
/-- C12 for PIV on couples of consecutive images with the default limits: fair executions finish on every computer. -/
theorem C12_piv_default_limits {κ α ε : Type} [DecidableEq κ] (imread : κ → α → Except ε α) (pathOf : κ → α)
    (O : CoupleOps κ α ε) (computePiv savePiv : κ → α → Except ε α) (key name : Nat → κ)
    (hkey : ∀ i j, key i = key j → i = j) (hname : ∀ i j, name i = name j → i = j) (n : Nat)
    (hacc : CouplesAccepted O (fun n => imageOf n (loadWorks imread none) (.ok (pathOf n))) (consecutive key name n))
    (cores : Nat) (hc : 0 < cores) (stopIfError : Bool) (run : Nat → AState κ α ε Unit) (lab : Nat → Label)
    (h0 : run 0 = AState.init (groupStart O.toNameTuples pathOf (coupleSeries (consecutive key name n))) ())
    (hrun : Infinite (pivTopology imread none O computePiv savePiv)
      ⟨maxWorkers none none cores, queueMax none (maxWorkers none none cores), stopIfError⟩ run lab)
    (hfair : Fair (pivTopology imread none O computePiv savePiv)
      ⟨maxWorkers none none cores, queueMax none (maxWorkers none none cores), stopIfError⟩ run lab) :
    ∃ n, (run n).stop = true :=
  C12_async_finishes_piv_consecutive imread pathOf O computePiv savePiv key name hkey hname n hacc _
    (default_limits cores hc).1 (Nat.le_trans (by omega) (default_limits cores hc).2) run lab h0 hrun hfair

example : maxWorkers none none 4 = 6 ∧ queueMax none 6 = 24 ∧ queueMax none 1 = 8 := by decide

end Verif
