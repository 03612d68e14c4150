import Verif.Model.Mean
import Verif.Exec.Live
import Verif.Lemmas.Dict
import Mathlib.Data.Int.ModEq
import Mathlib.Algebra.BigOperators.Group.List.Basic
import Mathlib.Tactic.Ring

/-!
# Invariants of the computation of a mean image
-/

namespace Verif.Mean
open Verif Verif.Exec
set_option linter.unusedSectionVars false

/-! ## Reductions -/

/-- Sum of the values at a pixel. -/
def sumAt {π : Type} (l : List (Img π × Nat)) (x : π) : Nat := (l.map (fun e => e.1 x)).sum

/-- Number of images. -/
def sumN {π : Type} (l : List (Img π × Nat)) : Nat := (l.map (fun e => e.2)).sum

theorem sumAt_reverse {π : Type} (l : List (Img π × Nat)) (x : π) : sumAt l.reverse x = sumAt l x := by
  simp [sumAt, List.sum_reverse]

theorem sumN_reverse {π : Type} (l : List (Img π × Nat)) : sumN l.reverse = sumN l := by
  simp [sumN, List.sum_reverse]

/-- What a reduction of the list keeps. -/
structure Kept {π : Type} (l : List (Img π × Nat)) (res : List Nat) (r : List (Img π × Nat) × List Nat) : Prop where
  sum : ∀ x, sumAt r.1 x ≡ sumAt l x [MOD 2 ^ 32]
  num : sumN r.1 = sumN l
  len : r.1.length + r.2.length = l.length + res.length
  lt : (∀ e ∈ l, ∀ x, e.1 x < 2 ^ 32) → ∀ e ∈ r.1, ∀ x, e.1 x < 2 ^ 32
  ne : l ≠ [] → r.1 ≠ []

theorem Kept.refl {π : Type} (l : List (Img π × Nat)) (res : List Nat) : Kept l res (l, res) :=
  ⟨fun _ => rfl, rfl, rfl, fun h => h, fun h => h⟩

theorem add4_mod (a b c d t : Nat) :
    (((a + b) % 2 ^ 32 + c) % 2 ^ 32 + d) % 2 ^ 32 + t ≡ a + (b + (c + (d + t))) [MOD 2 ^ 32] := by
  unfold Nat.ModEq; omega

theorem add2_mod (a b t : Nat) : (a + b) % 2 ^ 32 + t ≡ a + (b + t) [MOD 2 ^ 32] := by
  unfold Nat.ModEq; omega

theorem reduce4_kept {π : Type} (l : List (Img π × Nat)) (res : List Nat) :
    Kept l res (reduce4 l res) ∧ (reduce4 l res).1.length < 4 ∧ (l.length < 4 → reduce4 l res = (l, res)) := by
  induction hn : l.length using Nat.strong_induction_on generalizing l res with
  | _ n ih =>
    rw [reduce4]
    split
    · rename_i a0 n0 a1 n1 a2 n2 a3 n3 rest h
      have hlen := congrArg List.length h
      simp only [List.length_reverse, List.length_cons] at hlen
      obtain ⟨hk, h4, _⟩ := ih (rest.length + 1) (by omega)
        ((add32 (add32 (add32 a0 a1) a2) a3, n0 + n1 + n2 + n3) :: rest.reverse)
        (res ++ List.replicate 3 (n0 + n1 + n2 + n3)) (by simp)
      refine ⟨⟨fun x => (hk.sum x).trans ?_, hk.num.trans ?_, hk.len.trans ?_, fun hlt => hk.lt ?_, fun _ => hk.ne (by simp)⟩,
        h4, by omega⟩
      · rw [← sumAt_reverse l, h]
        have := sumAt_reverse rest x
        simp only [sumAt, List.map_cons, List.sum_cons, add32] at this ⊢
        rw [this]
        exact add4_mod _ _ _ _ _
      · rw [← sumN_reverse l, h]
        have := sumN_reverse rest
        simp only [sumN, List.map_cons, List.sum_cons] at this ⊢
        rw [this]; ring
      · simp only [List.length_cons, List.length_reverse, List.length_append, List.length_replicate]; omega
      · intro e he x
        simp only [List.mem_cons, List.mem_reverse] at he
        rcases he with rfl | he
        · exact Nat.mod_lt _ (by norm_num)
        · exact hlt e (by rw [← List.mem_reverse, h]; simp [he]) x
    · rename_i hno
      refine ⟨Kept.refl l res, ?_, fun _ => rfl⟩
      by_contra hcon
      simp only [not_lt] at hcon
      have h4 : 4 ≤ l.reverse.length := by simpa using hcon
      match hr : l.reverse with
      | a0 :: a1 :: a2 :: a3 :: rest => exact hno _ _ _ _ _ _ _ _ rest hr
      | [] | [_] | [_, _] | [_, _, _] => rw [hr] at h4; simp at h4

theorem reduce2_kept {π : Type} (l : List (Img π × Nat)) (res : List Nat) :
    Kept l res (reduce2 l res) ∧ (reduce2 l res).1.length < 2 ∧ (l.length < 2 → reduce2 l res = (l, res)) := by
  induction hn : l.length using Nat.strong_induction_on generalizing l res with
  | _ n ih =>
    rw [reduce2]
    split
    · rename_i a0 n0 a1 n1 rest h
      have hlen := congrArg List.length h
      simp only [List.length_reverse, List.length_cons] at hlen
      obtain ⟨hk, h4, _⟩ := ih (rest.length + 1) (by omega)
        ((add32 a0 a1, n0 + n1) :: rest.reverse) (res ++ [n0 + n1]) (by simp)
      refine ⟨⟨fun x => (hk.sum x).trans ?_, hk.num.trans ?_, hk.len.trans ?_, fun hlt => hk.lt ?_, fun _ => hk.ne (by simp)⟩,
        h4, by omega⟩
      · rw [← sumAt_reverse l, h]
        have := sumAt_reverse rest x
        simp only [sumAt, List.map_cons, List.sum_cons, add32] at this ⊢
        rw [this]
        exact add2_mod _ _ _
      · rw [← sumN_reverse l, h]
        have := sumN_reverse rest
        simp only [sumN, List.map_cons, List.sum_cons] at this ⊢
        rw [this]; ring
      · simp only [List.length_cons, List.length_reverse, List.length_append, List.length_cons, List.length_nil]; omega
      · intro e he x
        simp only [List.mem_cons, List.mem_reverse] at he
        rcases he with rfl | he
        · exact Nat.mod_lt _ (by norm_num)
        · exact hlt e (by rw [← List.mem_reverse, h]; simp [he]) x
    · rename_i hno
      refine ⟨Kept.refl l res, ?_, fun _ => rfl⟩
      by_contra hcon
      simp only [not_lt] at hcon
      have h4 : 2 ≤ l.reverse.length := by simpa using hcon
      match hr : l.reverse with
      | a0 :: a1 :: rest => exact hno _ _ _ _ rest hr
      | [] | [_] => rw [hr] at h4; simp at h4

theorem Kept.trans {π : Type} {l : List (Img π × Nat)} {res : List Nat} {r r' : List (Img π × Nat) × List Nat}
    (h : Kept l res r) (h' : Kept r.1 r.2 r') : Kept l res r' :=
  ⟨fun x => (h'.sum x).trans (h.sum x), h'.num.trans h.num, h'.len.trans h.len, fun hl => h'.lt (h.lt hl),
    fun hl => h'.ne (h.ne hl)⟩

/-! ## Invariant -/

variable {κ π : Type} [DecidableEq κ]

/-- The image of an item of the queues (the image which is, or will be, read). -/
def imgOf (imread : List Char → Except PyErr (Img π)) : Val π → Img π
  | .path p => match imread p with
    | .ok a => a
    | .error _ => fun _ => 0
  | .arr a => a

def imgE (imread : List Char → Except PyErr (Img π)) : Except PyErr (Val π) → Img π
  | .ok v => imgOf imread v
  | .error _ => fun _ => 0

/-- The images which are not yet in the temporary list, with their keys. -/
def ins (imread : List Char → Except PyErr (Img π)) (q : Queues κ (Val π) PyErr) (fl : List (Task κ (Val π))) :
    List (κ × Img π) :=
  (q 0).map (fun kv => (kv.1, imgE imread kv.2)) ++
    (fl.map (fun t => (t.key, imgOf imread t.val)) ++ (q 1).map (fun kv => (kv.1, imgE imread kv.2)))

/-- Sum of the images at a pixel. -/
def insAt (l : List (κ × Img π)) (x : π) : Nat := (l.map (fun e => e.2 x)).sum

/-- A path of an image which can be read. -/
def Readable (imread : List Char → Except PyErr (Img π)) (v : Val π) : Prop := ∃ p a, v = .path p ∧ imread p = .ok a

/-- What is known of the temporary file. -/
def fileAt (f : Option (Img π × Nat)) (x : π) : Nat := match f with
  | none => 0
  | some f => f.1 x

def fileN (f : Option (Img π × Nat)) : Nat := match f with
  | none => 0
  | some f => f.2

structure MInv (imread : List Char → Except PyErr (Img π)) (total : π → Nat) (n : Nat) (q : Queues κ (Val π) PyErr)
    (fl : List (Task κ (Val π))) (a : State π) : Prop where
  q0 : ∀ kv ∈ q 0, ∃ v, kv.2 = .ok v ∧ Readable imread v
  flok : ∀ t ∈ fl, t.w = 0 ∧ Readable imread t.val
  q1 : ∀ kv ∈ q 1, ∃ im, kv.2 = .ok (.arr im)
  nodup : ((ins imread q fl).map Prod.fst).Nodup
  len : (ins imread q fl).length + a.tmp.length + a.results.length + (if a.file.isSome then 1 else 0) = n
  num : (ins imread q fl).length + sumN a.tmp + fileN a.file = n
  sum : ∀ x, insAt (ins imread q fl) x + sumAt a.tmp x + fileAt a.file x ≡ total x [MOD 2 ^ 32]
  lt : ∀ e ∈ a.tmp, ∀ x, e.1 x < 2 ^ 32
  file : ∀ f, a.file = some f → ins imread q fl = [] ∧ a.tmp = [] ∧ ∀ x, f.1 x < 2 ^ 32

variable {imread : List Char → Except PyErr (Img π)} {total : π → Nat} {n : Nat}

theorem MInv.congr {q q' : Queues κ (Val π) PyErr} {fl fl' : List (Task κ (Val π))} {a : State π}
    (h : MInv imread total n q fl a) (hp : (ins imread q' fl').Perm (ins imread q fl))
    (h0 : ∀ kv ∈ q' 0, ∃ v, kv.2 = .ok v ∧ Readable imread v) (hf : ∀ t ∈ fl', t.w = 0 ∧ Readable imread t.val)
    (h1 : ∀ kv ∈ q' 1, ∃ im, kv.2 = .ok (.arr im)) : MInv imread total n q' fl' a where
  q0 := h0
  flok := hf
  q1 := h1
  nodup := ((hp.map Prod.fst).nodup_iff).2 h.nodup
  len := by rw [hp.length_eq]; exact h.len
  num := by rw [hp.length_eq]; exact h.num
  sum := fun x => by
    have : insAt (ins imread q' fl') x = insAt (ins imread q fl) x := (hp.map _).sum_eq
    rw [this]; exact h.sum x
  lt := h.lt
  file := fun f hfile => by
    obtain ⟨h1, h2, h3⟩ := h.file f hfile
    rw [h1] at hp
    exact ⟨List.perm_nil.1 hp, h2, h3⟩

theorem collect_ok (d : Dict κ (Except PyErr (Val π))) (tmp : List (Img π × Nat))
    (h : ∀ kv ∈ d, ∃ im, kv.2 = .ok (.arr im)) :
    ∃ tmp', collect d tmp = .ok tmp' ∧ tmp'.length = tmp.length + d.length ∧ sumN tmp' = sumN tmp + d.length ∧
      (∀ x, sumAt tmp' x ≡ sumAt tmp x + insAt (d.map (fun kv => (kv.1, imgE imread kv.2))) x [MOD 2 ^ 32]) ∧
      ((∀ e ∈ tmp, ∀ x, e.1 x < 2 ^ 32) → ∀ e ∈ tmp', ∀ x, e.1 x < 2 ^ 32) := by
  induction d generalizing tmp with
  | nil => exact ⟨tmp, rfl, rfl, rfl, fun x => by simp [insAt, Nat.ModEq], fun h => h⟩
  | cons kv d ih =>
    obtain ⟨k, r⟩ := kv
    obtain ⟨im, him⟩ := h (k, r) List.mem_cons_self
    simp only at him
    subst him
    obtain ⟨tmp', h1, h2, h3, h4, h5⟩ := ih (tmp ++ [(toUint32 im, 1)]) (fun kv hkv => h kv (List.mem_cons_of_mem _ hkv))
    refine ⟨tmp', h1, ?_, ?_, ?_, ?_⟩
    · rw [h2]; simp only [List.length_append, List.length_cons, List.length_nil]; omega
    · rw [h3]; simp only [sumN, List.map_append, List.sum_append, List.map_cons, List.map_nil, List.sum_cons,
        List.sum_nil, List.length_cons]; omega
    · intro x
      refine (h4 x).trans ?_
      simp only [sumAt, insAt, List.map_append, List.sum_append, List.map_cons, List.map_nil, List.sum_cons,
        List.sum_nil, imgE, imgOf, toUint32]
      unfold Nat.ModEq; omega
    · intro hlt
      refine h5 ?_
      intro e he x
      simp only [List.mem_append, List.mem_singleton] at he
      rcases he with he | rfl
      · exact hlt e he x
      · exact Nat.mod_lt _ (by norm_num)

theorem ins_split (q : Queues κ (Val π) PyErr) (fl : List (Task κ (Val π))) (x : π) :
    insAt (ins imread q fl) x = insAt (ins imread (upd q 1 []) fl) x +
      insAt ((q 1).map (fun kv => (kv.1, imgE imread kv.2))) x := by
  simp only [insAt, ins, upd, List.map_append, List.sum_append]
  simp
  omega

theorem ins_len (q : Queues κ (Val π) PyErr) (fl : List (Task κ (Val π))) :
    (ins imread q fl).length = (ins imread (upd q 1 []) fl).length + (q 1).length := by
  simp only [ins, upd, List.length_append, List.length_map]
  simp
  omega

/-- What `main` does, in the states satisfying the invariant: either the images go to the temporary list, or, when
there is nothing else, everything goes to the file. -/
theorem main_spec {q : Queues κ (Val π) PyErr} {fl : List (Task κ (Val π))} {a : State π}
    (h : MInv imread total n q fl a) (nio : Option Nat) (hio : nio = none ∨ nio = some 0 → fl = []) :
    ∃ a', main nio q a = .ok (upd q 1 [], a', []) ∧ MInv imread total n (upd q 1 []) fl a' ∧
      (a'.tmp.length < a.tmp.length + 2 * (q 1).length ∨ (q 1 = [] ∧ a' = a)) ∧
      (q 0 = [] → (nio = none ∨ nio = some 0) → a'.tmp = []) := by
  obtain ⟨tmp, h1, h2, h3, h4, h5⟩ := collect_ok (imread := imread) (q 1) a.tmp h.q1
  obtain ⟨k4, l4, e4⟩ := reduce4_kept tmp a.results
  have hsplit := ins_split (imread := imread) q fl
  have hlen := ins_len (imread := imread) q fl
  have hnd : ((ins imread (upd q 1 []) fl).map Prod.fst).Nodup := by
    refine List.Sublist.nodup ?_ h.nodup
    refine List.Sublist.map _ ?_
    simp only [ins, upd]
    simp
  have hq0 : ∀ kv ∈ (upd q 1 []) 0, ∃ v, kv.2 = .ok v ∧ Readable imread v := by
    intro kv hkv; exact h.q0 kv (by simpa [upd] using hkv)
  have hq1 : ∀ kv ∈ (upd q 1 []) 1, ∃ im, kv.2 = .ok (.arr im) := by
    intro kv hkv; simp [upd] at hkv
  unfold main
  rw [h1]
  simp only
  have hunch : q 1 = [] → tmp = a.tmp := by
    intro hq
    rw [hq] at h1
    simp only [collect, Except.ok.injEq] at h1
    exact h1.symm
  by_cases hcond : ((q 0).isEmpty && (nio == none || nio == some 0)) = true
  · rw [if_pos hcond]
    simp only [Bool.and_eq_true, List.isEmpty_iff, Bool.or_eq_true, beq_iff_eq] at hcond
    obtain ⟨hq0e, hnio⟩ := hcond
    have hfl := hio hnio
    obtain ⟨k2, l2, e2⟩ := reduce2_kept (reduce4 tmp a.results).1 (reduce4 tmp a.results).2
    have hk := k4.trans k2
    have hins : ins imread (upd q 1 []) fl = [] := by simp [ins, upd, hq0e, hfl]
    generalize hr : reduce2 (reduce4 tmp a.results).1 (reduce4 tmp a.results).2 = r at hk l2 k2 e2
    obtain ⟨rl, rr⟩ := r
    cases rl with
    | nil =>
      have htmp : tmp = [] := by
        by_contra hne
        exact hk.ne hne rfl
      have hl0 : a.tmp.length + (q 1).length = 0 := by rw [← h2, htmp]; rfl
      have ht0 : a.tmp = [] := List.length_eq_zero_iff.1 (by omega)
      have hq10 : q 1 = [] := List.length_eq_zero_iff.1 (by omega)
      have hres : rr = a.results := by
        rw [htmp, (reduce4_kept [] a.results).2.2 (by simp), (reduce2_kept [] a.results).2.2 (by simp)] at hr
        simpa using hr.symm
      have hsame : (⟨[], rr, a.file⟩ : State π) = a := by
        cases a; simp_all
      refine ⟨_, rfl, ?_, Or.inr ⟨hq10, hsame⟩, fun _ _ => rfl⟩
      rw [hsame]
      have hup : upd q 1 [] = q := by
        funext i
        by_cases hi : i = 1
        · subst hi; simp [upd, hq10]
        · simp [upd, hi]
      rw [hup]; exact h
    | cons e es =>
      cases es with
      | cons e' es => simp only [List.length_cons] at l2; omega
      | nil =>
        obtain ⟨arr, m⟩ := e
        have hne : a.tmp.length + (q 1).length ≠ 0 := by
          intro h0
          have : tmp = [] := List.length_eq_zero_iff.1 (by omega)
          rw [this, (reduce4_kept [] a.results).2.2 (by simp), (reduce2_kept [] a.results).2.2 (by simp)] at hr
          simp at hr
        have hfile : a.file = none := by
          cases hf : a.file with
          | none => rfl
          | some f =>
            exfalso
            obtain ⟨h7, h8, _⟩ := h.file f hf
            rw [h7] at hlen
            simp only [List.length_nil] at hlen
            rw [h8] at hne
            simp only [List.length_nil] at hne
            omega
        have hs := h.sum
        have hn := h.num
        have hl := h.len
        rw [hfile] at hs hn hl
        rw [hlen, hins] at hn hl
        simp only [fileAt, fileN, List.length_nil, Option.isSome_none] at hs hn hl
        have hkl := hk.len
        have hkn := hk.num
        simp only [List.length_singleton, sumN, List.map_cons, List.map_nil, List.sum_cons, List.sum_nil] at hkl hkn
        refine ⟨_, rfl, ⟨hq0, by rw [hfl]; simp, hq1, by rw [hins]; simp, ?_, ?_, ?_, by simp, ?_⟩, Or.inl ?_, fun _ _ => rfl⟩
        · rw [hins]; simp only [List.length_nil, Option.isSome_some, if_true]
          simp at hl
          omega
        · rw [hins]
          simp only [List.length_nil, fileN, sumN, List.map_nil, List.sum_nil]
          simp only [sumN] at h3 hn
          omega
        · intro x
          rw [hins]
          have e1 := hk.sum x
          have e2' := h4 x
          have e3 := hs x
          rw [hsplit x, hins] at e3
          simp only [insAt, sumAt, List.map_cons, List.map_nil, List.sum_cons, List.sum_nil, fileAt] at e1 e2' e3 ⊢
          unfold Nat.ModEq at *
          omega
        · intro f hf
          simp only [Option.some.injEq] at hf
          subst hf
          exact ⟨hins, rfl, hk.lt (h5 h.lt) _ (by simp)⟩
        · simp only [List.length_nil]; omega
  · rw [if_neg hcond]
    have hs := h.sum
    have hn := h.num
    have hl := h.len
    have hkl := k4.len
    have hkn := k4.num
    have htmplen : (reduce4 tmp a.results).1.length < a.tmp.length + 2 * (q 1).length ∨
        (q 1 = [] ∧ reduce4 tmp a.results = (a.tmp, a.results)) := by
      by_cases hq : q 1 = []
      · rw [hunch hq]
        by_cases h4' : a.tmp.length < 4
        · exact Or.inr ⟨hq, (reduce4_kept a.tmp a.results).2.2 h4'⟩
        · left
          have := (reduce4_kept a.tmp a.results).2.1
          omega
      · have : 0 < (q 1).length := List.length_pos_iff.2 hq
        by_cases h4' : tmp.length < 4
        · rw [e4 h4']; left; simp only; omega
        · left; omega
    refine ⟨_, rfl, ⟨hq0, h.flok, hq1, hnd, ?_, ?_, ?_, k4.lt (h5 h.lt), ?_⟩, ?_, ?_⟩
    · rw [hlen] at hl
      split at hl <;> rename_i hc <;> simp only [hc] <;> simp at * <;> omega
    · rw [hlen] at hn
      simp only
      omega
    · intro x
      have e1 := k4.sum x
      have e2' := h4 x
      have e3 := hs x
      rw [hsplit x] at e3
      simp only
      unfold Nat.ModEq at *
      omega
    · intro f hf
      simp only at hf
      obtain ⟨h7, h8, h9⟩ := h.file f hf
      have hq1e : (q 1).length = 0 := by rw [h7] at hlen; simp only [List.length_nil] at hlen; omega
      have : tmp = [] := by
        rw [hunch (List.length_eq_zero_iff.1 hq1e), h8]
      refine ⟨?_, ?_, h9⟩
      · rw [h7] at hlen
        simp only [List.length_nil] at hlen
        exact List.length_eq_zero_iff.1 (by omega)
      · rw [e4 (by rw [this]; simp)]; exact this
    · rcases htmplen with h6 | ⟨h6, h7⟩
      · exact Or.inl h6
      · right
        refine ⟨h6, ?_⟩
        rw [h7]
    · intro h6 h7
      exfalso
      apply hcond
      simp [h6]
      rcases h7 with h7 | h7 <;> simp [h7]

/-! ## Steps -/

/-- The function of the work "read_array". -/
def readArray (imread : List Char → Except PyErr (Img π)) : κ → Val π → Except PyErr (Val π) := fun _ v =>
  match v with
  | .path p => match imread p with
    | .ok a => .ok (.arr a)
    | .error e => .error e
  | .arr _ => .error .typeError

theorem works_item {w inp : Nat} {out io f} (h : (topology (κ := κ) imread).works[w]? = some (Work.item inp out io f)) :
    w = 0 ∧ inp = 0 ∧ out = some 1 ∧ io = true ∧ f = readArray imread := by
  match w with
  | 0 =>
    simp only [topology, List.getElem?_cons_zero, Option.some.injEq, Work.item.injEq] at h
    exact ⟨rfl, h.1.symm, h.2.1.symm, h.2.2.1.symm, h.2.2.2.symm⟩
  | 1 => simp [topology] at h
  | w + 2 => simp [topology] at h

theorem works_glob {w : Nat} {ready outLen run}
    (h : (topology (κ := κ) imread).works[w]? = some (Work.glob ready outLen run)) :
    w = 1 ∧ (ready = fun q s => !(q 0).isEmpty || !(q 1).isEmpty || !s.tmp.isEmpty) ∧ outLen = (fun _ => none) ∧
      run = main := by
  match w with
  | 0 => simp [topology] at h
  | 1 =>
    simp only [topology, List.getElem?_cons_succ, List.getElem?_cons_zero, Option.some.injEq, Work.glob.injEq] at h
    exact ⟨rfl, h.1.symm, h.2.1.symm, h.2.2.symm⟩
  | w + 2 => simp [topology] at h

theorem readArray_ok {k : κ} {v : Val π} (h : Readable imread v) :
    readArray imread k v = .ok (.arr (imgOf imread v)) := by
  obtain ⟨p, a, rfl, ha⟩ := h
  simp [readArray, imgOf, ha]

/-- The first path is popped and its image begins to be read. -/
theorem MInv.pop {q : Queues κ (Val π) PyErr} {fl : List (Task κ (Val π))} {a : State π}
    (h : MInv imread total n q fl a) {k : κ} {v : Val π} {rest} (hq : q 0 = (k, .ok v) :: rest) :
    MInv imread total n (upd q 0 rest) (fl ++ [⟨0, k, v⟩]) a := by
  refine h.congr ?_ ?_ ?_ ?_
  · simp only [ins, hq, upd, if_true, List.map_append, List.map_cons, List.map_nil, imgE]
    simp only [one_ne_zero, if_false, List.append_assoc, List.singleton_append, List.cons_append]
    rw [← List.append_assoc, ← List.append_assoc]
    exact List.perm_middle
  · intro kv hkv
    exact h.q0 kv (by rw [hq]; exact List.mem_cons_of_mem _ (by simpa [upd] using hkv))
  · intro t ht
    simp only [List.mem_append, List.mem_singleton] at ht
    rcases ht with ht | rfl
    · exact h.flok t ht
    · obtain ⟨v', hv, hr⟩ := h.q0 (k, .ok v) (by rw [hq]; exact List.mem_cons_self)
      cases hv
      exact ⟨rfl, hr⟩
  · intro kv hkv; exact h.q1 kv (by simpa [upd] using hkv)

/-- An image has been read. -/
theorem MInv.read {q : Queues κ (Val π) PyErr} {fl : List (Task κ (Val π))} {a : State π}
    (h : MInv imread total n q fl a) {i : Nat} {t : Task κ (Val π)} (ht : fl[i]? = some t) :
    MInv imread total n (put q (some 1) t.key (readArray imread t.key t.val)) (fl.eraseIdx i) a := by
  have hmem : t ∈ fl := List.mem_of_getElem? ht
  have hr := (h.flok t hmem).2
  rw [readArray_ok hr]
  have hsplit : fl.Perm (t :: fl.eraseIdx i) := by
    obtain ⟨hlt, hget⟩ := List.getElem?_eq_some_iff.1 ht
    rw [List.eraseIdx_eq_take_drop_succ]
    have hs : fl = fl.take i ++ t :: fl.drop (i + 1) := by
      rw [← hget, List.getElem_cons_drop, List.take_append_drop]
    conv_lhs => rw [hs]
    exact List.perm_middle
  have hnot : t.key ∉ Dict.keys (q 1) := by
    intro hin
    have hnd := h.nodup
    simp only [ins, List.map_append, List.map_map] at hnd
    have h2 := (List.nodup_append.1 hnd).2.1
    have h3 := (List.nodup_append.1 h2).2.2 t.key (List.mem_map.2 ⟨t, hmem, rfl⟩) t.key (by
      simp only [Dict.keys, List.mem_map] at hin
      obtain ⟨kv, hkv, he⟩ := hin
      exact List.mem_map.2 ⟨kv, hkv, he⟩)
    exact h3 rfl
  refine h.congr ?_ ?_ ?_ ?_
  · simp only [ins, put, upd, if_true, Dict.set_of_not_mem _ _ _ hnot]
    simp only [zero_ne_one, if_false, List.map_append, List.map_cons, List.map_nil, imgE, imgOf]
    refine List.Perm.append_left _ ?_
    refine List.Perm.trans ?_ (List.Perm.append_right _ (hsplit.map _)).symm
    simp only [List.map_cons, List.cons_append]
    rw [← List.append_assoc]
    exact List.perm_append_singleton _ _
  · intro kv hkv; exact h.q0 kv (by simpa [put, upd] using hkv)
  · intro t' ht'; exact h.flok t' (List.mem_of_mem_eraseIdx ht')
  · intro kv hkv
    simp only [put, upd, if_true, Dict.set_of_not_mem _ _ _ hnot, List.mem_append, List.mem_singleton] at hkv
    rcases hkv with hkv | rfl
    · exact h.q1 kv hkv
    · exact ⟨_, rfl⟩

/-- Without I/O worker, no image is being read. -/
theorem no_inflight {s : AState κ (Val π) PyErr (State π)} (h : MInv imread total n s.q s.inflight s.aux)
    (hC : CInv (topology imread) s) (h0 : s.nio = 0) : s.inflight = [] := by
  have h1 := hC.counter true
  simp only [AState.counter, if_true, h0, running] at h1
  cases hfl : s.inflight with
  | nil => rfl
  | cons t fl =>
    exfalso
    rw [hfl] at h1
    have ht := (h.flok t (by rw [hfl]; exact List.mem_cons_self)).1
    have : ioOf (topology (κ := κ) imread) t.w = some true := by rw [ht]; rfl
    rw [List.filter_cons, if_pos (by simp [this])] at h1
    simp at h1

/-- The invariant is kept by the steps, which do not crash. -/
theorem MInv.step {c : Cfg} {l : Label} {s s' : AState κ (Val π) PyErr (State π)}
    (h : MInv imread total n s.q s.inflight s.aux) (hC : CInv (topology imread) s) (hc : s.crashed = none)
    (hs : StepCase (topology imread) c l s s') :
    MInv imread total n s'.q s'.inflight s'.aux ∧ s'.crashed = none := by
  cases hs with
  | launch => exact ⟨h, hc⟩
  | beginEmpty => exact ⟨h, hc⟩
  | beginError hw _ hq =>
    obtain ⟨rfl, rfl, rfl, rfl, rfl⟩ := works_item hw
    obtain ⟨v, hv, _⟩ := h.q0 _ (by rw [hq]; exact List.mem_cons_self)
    cases hv
  | beginOk hw _ hq =>
    obtain ⟨rfl, rfl, rfl, rfl, rfl⟩ := works_item hw
    simp only [incr_q, incr_inflight, incr_aux, incr_crashed]
    exact ⟨h.pop hq, hc⟩
  | finish ht hw _ =>
    obtain ⟨_, rfl, rfl, rfl, rfl⟩ := works_item hw
    simp only [decr_q, decr_inflight, decr_aux, decr_crashed]
    exact ⟨h.read ht, hc⟩
  | finishCrash ht hw _ he =>
    obtain ⟨_, rfl, rfl, rfl, rfl⟩ := works_item hw
    rw [readArray_ok (h.flok _ (List.mem_of_getElem? ht)).2] at he
    cases he
  | glob hw _ hr =>
    obtain ⟨rfl, rfl, rfl, rfl⟩ := works_glob hw
    obtain ⟨a', h1, h2, _⟩ := main_spec h (some s.nio) (by
      rintro (h0 | h0)
      · cases h0
      · exact no_inflight h hC (Option.some.inj h0))
    rw [h1] at hr
    cases hr
    exact ⟨h2, hc⟩
  | globCrash hw _ hr =>
    obtain ⟨rfl, rfl, rfl, rfl⟩ := works_glob hw
    obtain ⟨a', h1, h2, _⟩ := main_spec h (some s.nio) (by
      rintro (h0 | h0)
      · cases h0
      · exact no_inflight h hC (Option.some.inj h0))
    rw [h1] at hr
    cases hr
  | checkStop => exact ⟨h, hc⟩
  | check => exact ⟨h, hc⟩

theorem MInv.run {c : Cfg} {s s' : AState κ (Val π) PyErr (State π)} {ls} (hrun : ARun (topology imread) c s ls s')
    (h : MInv imread total n s.q s.inflight s.aux) (hC : CInv (topology imread) s) (hc : s.crashed = none) :
    MInv imread total n s'.q s'.inflight s'.aux ∧ CInv (topology imread) s' ∧ s'.crashed = none := by
  induction hrun with
  | nil => exact ⟨h, hC, hc⟩
  | snoc _ hstep ih =>
    obtain ⟨h1, h2, h3⟩ := ih
    obtain ⟨h4, h5⟩ := astep_cases hstep
    obtain ⟨h6, h7⟩ := h1.step h2 h3 h5
    exact ⟨h6, h2.step h5 h7, h7⟩

/-- The invariant is kept by the works of the sequential executor. -/
theorem MInv.seqWork {c : Cfg} {s : SState κ (Val π) PyErr (State π)} {w : Nat} {work}
    (hw : (topology (κ := κ) imread).works[w]? = some work) (h : MInv imread total n s.q [] s.aux)
    (hc : s.crashed = none) :
    MInv imread total n (seqWork c w work s).q [] (seqWork c w work s).aux ∧ (Exec.seqWork c w work s).crashed = none := by
  cases work with
  | glob ready outLen run =>
    obtain ⟨rfl, rfl, rfl, rfl⟩ := works_glob hw
    obtain ⟨a', h1, h2, _⟩ := main_spec h none (fun _ => rfl)
    simp only [Exec.seqWork, hc, seqFull, h1, Bool.false_eq_true, if_false]
    exact ⟨h2, trivial⟩
  | item inp out io f =>
    obtain ⟨rfl, rfl, rfl, rfl, rfl⟩ := works_item hw
    simp only [Exec.seqWork, hc]
    cases hq : s.q 0 with
    | nil => simp only [Dict.popFirst]; exact ⟨h, hc⟩
    | cons kv rest =>
      obtain ⟨k, r⟩ := kv
      obtain ⟨v, hv, hr⟩ := h.q0 (k, r) (by rw [hq]; exact List.mem_cons_self)
      simp only at hv
      subst hv
      simp only [Dict.popFirst]
      have h2 := (h.pop hq).read (i := 0) (t := ⟨0, k, v⟩) rfl
      simp only [List.nil_append, List.eraseIdx_cons_zero] at h2
      rw [readArray_ok hr] at h2 ⊢
      exact ⟨h2, rfl⟩

theorem MInv.seqWorks {c : Cfg} {s : SState κ (Val π) PyErr (State π)} (works) {w : Nat}
    (hw : (topology (κ := κ) imread).works.drop w = works) (h : MInv imread total n s.q [] s.aux)
    (hc : s.crashed = none) :
    MInv imread total n (seqWorks c w works s).q [] (seqWorks c w works s).aux ∧
      (Exec.seqWorks c w works s).crashed = none := by
  induction works generalizing w s with
  | nil => exact ⟨h, hc⟩
  | cons work works ih =>
    have h1 : (topology (κ := κ) imread).works[w]? = some work := by
      have : ((topology (κ := κ) imread).works.drop w)[0]? = some work := by rw [hw]; rfl
      rwa [List.getElem?_drop, Nat.add_zero] at this
    obtain ⟨h2, h3⟩ := h.seqWork (c := c) h1 hc
    exact ih (by rw [← List.drop_drop, hw]; rfl) h2 h3

theorem MInv.seqLoop {c : Cfg} {s s' : SState κ (Val π) PyErr (State π)} {N : Nat}
    (hl : seqLoop (topology imread) c N s = some s') (h : MInv imread total n s.q [] s.aux) (hc : s.crashed = none) :
    MInv imread total n s'.q [] s'.aux ∧ s'.crashed = none ∧ allEmpty (topology imread) s'.q s'.aux = true := by
  induction N generalizing s with
  | zero =>
    unfold Exec.seqLoop at hl
    rw [if_neg (by rw [hc]; simp)] at hl
    split at hl
    · cases hl; exact ⟨h, hc, by assumption⟩
    · cases hl
  | succ N ih =>
    unfold Exec.seqLoop at hl
    rw [if_neg (by rw [hc]; simp)] at hl
    split at hl
    · cases hl; exact ⟨h, hc, by assumption⟩
    · obtain ⟨h1, h2⟩ := h.seqWorks (c := c) (topology imread).works (w := 0) rfl hc
      exact ih hl h1 h2

/-! ## Termination -/

theorem main_dec {nio : Option Nat} {q q' : Queues κ (Val π) PyErr} {a a' : State π} {evs}
    (h1 : ∀ kv ∈ q 1, ∃ im, kv.2 = .ok (.arr im)) (h : main nio q a = .ok (q', a', evs)) :
    q' = upd q 1 [] ∧ (a'.tmp.length < a.tmp.length + 2 * (q 1).length ∨ (q 1 = [] ∧ a' = a)) := by
  obtain ⟨tmp, hc, hlen, _⟩ := collect_ok (imread := fun _ => .error .osError) (q 1) a.tmp h1
  have hunch : q 1 = [] → tmp = a.tmp := by
    intro hq
    rw [hq] at hc
    simp only [collect, Except.ok.injEq] at hc
    exact hc.symm
  obtain ⟨k4, l4, e4⟩ := reduce4_kept tmp a.results
  have htmplen : (reduce4 tmp a.results).1.length < a.tmp.length + 2 * (q 1).length ∨
      (q 1 = [] ∧ reduce4 tmp a.results = (a.tmp, a.results)) := by
    by_cases hq : q 1 = []
    · rw [hunch hq]
      by_cases h4' : a.tmp.length < 4
      · exact Or.inr ⟨hq, (reduce4_kept a.tmp a.results).2.2 h4'⟩
      · left
        have := (reduce4_kept a.tmp a.results).2.1
        omega
    · have : 0 < (q 1).length := List.length_pos_iff.2 hq
      by_cases h4' : tmp.length < 4
      · rw [e4 h4']; left; simp only; omega
      · left; omega
  unfold main at h
  rw [hc] at h
  simp only at h
  obtain ⟨k2, l2, e2⟩ := reduce2_kept (reduce4 tmp a.results).1 (reduce4 tmp a.results).2
  have hk := k4.trans k2
  split at h
  · generalize hr : reduce2 (reduce4 tmp a.results).1 (reduce4 tmp a.results).2 = r at h hk
    obtain ⟨rl, rr⟩ := r
    match rl with
    | [] =>
      simp only [Except.ok.injEq, Prod.mk.injEq] at h
      obtain ⟨rfl, rfl, _⟩ := h
      have htmp : tmp = [] := by
        by_contra hne
        exact hk.ne hne rfl
      have hl0 : a.tmp.length + (q 1).length = 0 := by rw [← hlen, htmp]; rfl
      have ht0 : a.tmp = [] := List.length_eq_zero_iff.1 (by omega)
      have hq10 : q 1 = [] := List.length_eq_zero_iff.1 (by omega)
      have hres : rr = a.results := by
        rw [htmp, (reduce4_kept [] a.results).2.2 (by simp), (reduce2_kept [] a.results).2.2 (by simp)] at hr
        simpa using hr.symm
      refine ⟨rfl, Or.inr ⟨hq10, ?_⟩⟩
      cases a; simp_all
    | [(arr, m)] =>
      simp only [Except.ok.injEq, Prod.mk.injEq] at h
      obtain ⟨rfl, rfl, _⟩ := h
      refine ⟨rfl, Or.inl ?_⟩
      have hne : a.tmp.length + (q 1).length ≠ 0 := by
        intro h0
        have : tmp = [] := List.length_eq_zero_iff.1 (by omega)
        rw [this, (reduce4_kept [] a.results).2.2 (by simp), (reduce2_kept [] a.results).2.2 (by simp)] at hr
        simp at hr
      simp only [List.length_nil]; omega
    | _ :: _ :: _ => simp at h
  · simp only [Except.ok.injEq, Prod.mk.injEq] at h
    obtain ⟨rfl, rfl, _⟩ := h
    refine ⟨rfl, ?_⟩
    rcases htmplen with h6 | ⟨h6, h7⟩
    · exact Or.inl h6
    · right
      refine ⟨h6, ?_⟩
      rw [h7]

theorem rankLaws : RankLaws (topology (κ := κ) imread) (fun i => 2 - i) where
  inp_lt := by
    intro w inp out io f hw
    obtain ⟨rfl, rfl, rfl, rfl, rfl⟩ := works_item hw
    simp [topology]
  pos := by
    intro w inp out io f hw
    obtain ⟨rfl, rfl, rfl, rfl, rfl⟩ := works_item hw
    simp
  lt := by
    intro w inp o io f hw
    obtain ⟨rfl, rfl, ho, rfl, rfl⟩ := works_item hw
    cases ho
    simp

theorem upd_self {q : Queues κ (Val π) PyErr} (h : q 1 = []) : upd q 1 [] = q := by
  funext i
  by_cases hi : i = 1
  · subst hi; simp [upd, h]
  · simp [upd, hi]

theorem globPot : GlobPot (topology (κ := κ) imread) (fun i => 2 - i) (fun a => a.tmp.length)
    (fun q fl a => MInv imread total n q fl a) := by
  intro w ready outLen run hw nio q a fl q' a' evs hP hr
  obtain ⟨rfl, rfl, rfl, rfl⟩ := works_glob hw
  obtain ⟨rfl, h | ⟨h, rfl⟩⟩ := main_dec hP.q1 hr
  · left
    simp only [pot, topology, potQ, upd]
    simp
    omega
  · exact Or.inr ⟨upd_self h, rfl⟩

theorem main_changes {q : Queues κ (Val π) PyErr} {a : State π} (h : MInv imread total n q [] a) (nio : Option Nat)
    (hne : q 1 ≠ [] ∨ (q 0 = [] ∧ (nio = none ∨ nio = some 0) ∧ a.tmp ≠ [])) :
    ∃ q' a' evs, main nio q a = .ok (q', a', evs) ∧ ¬ (q' = q ∧ a' = a) := by
  obtain ⟨a', h1, _, _, h4⟩ := main_spec h nio (fun _ => rfl)
  refine ⟨_, a', [], h1, ?_⟩
  rintro ⟨h5, h6⟩
  rcases hne with hne | ⟨h7, h8, h9⟩
  · apply hne
    rw [← h5]; simp [upd]
  · exact h9 (h6 ▸ h4 h7 h8)

theorem aprogress {c : Cfg} (hmax : 0 < c.queueMax) : AProgress (topology (κ := κ) imread) c
    (fun q fl a => MInv imread total n q fl a) := by
  intro q a hP hne
  by_cases hq1 : q 1 = []
  · by_cases hq0 : q 0 = []
    · right
      have ht : a.tmp ≠ [] := by
        intro ht
        rw [allEmpty] at hne
        simp [topology, hq0, hq1, ht, List.range_succ] at hne
      obtain ⟨q', a', evs, h1, h2⟩ := main_changes hP (some 0) (Or.inr ⟨hq0, Or.inr rfl, ht⟩)
      exact ⟨1, _, _, _, q', a', evs, rfl, by simp [ht], h1, h2⟩
    · left
      exact ⟨0, 0, some 1, true, _, rfl, hq0, by simp [outFull, hq1]; omega⟩
  · right
    obtain ⟨q', a', evs, h1, h2⟩ := main_changes hP (some 0) (Or.inl hq1)
    exact ⟨1, _, _, _, q', a', evs, rfl, by simp [hq1], h1, h2⟩

theorem sprogress {c : Cfg} : SProgress (topology (κ := κ) imread) c
    (fun q fl a => MInv imread total n q fl a) := by
  intro q a hP hne
  by_cases hq0 : q 0 = []
  · right
    refine ⟨1, _, _, _, rfl, rfl, ?_⟩
    have ht : q 1 ≠ [] ∨ (q 0 = [] ∧ ((none : Option Nat) = none ∨ (none : Option Nat) = some 0) ∧ a.tmp ≠ []) := by
      by_cases hq1 : q 1 = []
      · right
        refine ⟨hq0, Or.inl rfl, ?_⟩
        intro ht
        rw [allEmpty] at hne
        simp [topology, hq0, hq1, ht, List.range_succ] at hne
      · exact Or.inl hq1
    obtain ⟨q1, a1, evs1, h1, h2⟩ := main_changes hP none ht
    intro q' a' evs hr
    rw [h1] at hr
    cases hr
    exact h2
  · left
    exact ⟨0, 0, some 1, true, _, rfl, hq0⟩

/-! ## Initial state -/

/-- Sum at a pixel of a list of images. -/
theorem MInv.init {paths : List (κ × List Char)} {imgs : List (Img π)} (hk : (paths.map Prod.fst).Nodup)
    (hr : paths.map (fun kp => imread kp.2) = imgs.map .ok) :
    MInv imread (fun x => (imgs.map (fun im => im x)).sum) imgs.length (initQueues paths) [] (State.init π) := by
  have hlen : paths.length = imgs.length := by simpa using congrArg List.length hr
  have hread : ∀ kp ∈ paths, ∃ im, imread kp.2 = .ok im := by
    intro kp hkp
    have : imread kp.2 ∈ imgs.map Except.ok := by rw [← hr]; exact List.mem_map.2 ⟨kp, hkp, rfl⟩
    obtain ⟨im, _, he⟩ := List.mem_map.1 this
    exact ⟨im, he.symm⟩
  have hins : ins imread (initQueues (π := π) paths) [] =
      paths.map (fun kp => (kp.1, imgOf imread (.path kp.2))) := by
    simp [ins, initQueues, Function.comp_def, imgE]
  have hsum : ∀ x, insAt (paths.map (fun kp => (kp.1, imgOf imread (.path kp.2)))) x =
      (imgs.map (fun im => im x)).sum := by
    intro x
    clear hk hread hins hlen
    induction paths generalizing imgs with
    | nil =>
      cases imgs with
      | nil => rfl
      | cons => simp at hr
    | cons kp paths ih =>
      cases imgs with
      | nil => simp at hr
      | cons im imgs =>
        simp only [List.map_cons, List.cons.injEq] at hr
        have := ih hr.2
        simp only [insAt, List.map_cons, List.sum_cons, List.map_map] at this ⊢
        rw [this]
        simp [imgOf, hr.1]
  refine ⟨?_, by simp, ?_, ?_, ?_, ?_, ?_, by simp [State.init], by simp [State.init]⟩
  · intro kv hkv
    simp only [initQueues, if_true, List.mem_map] at hkv
    obtain ⟨kp, hkp, rfl⟩ := hkv
    obtain ⟨im, him⟩ := hread kp hkp
    exact ⟨_, rfl, kp.2, im, rfl, him⟩
  · intro kv hkv; simp [initQueues] at hkv
  · rw [hins]; simpa [Function.comp_def] using hk
  · rw [hins]; simp [State.init, hlen]
  · rw [hins]; simp [State.init, hlen, sumN, fileN]
  · intro x
    rw [hins, hsum]
    simp [State.init, sumAt, fileAt, Nat.ModEq]

/-- What holds when everything is empty. -/
theorem MInv.final {q : Queues κ (Val π) PyErr} {a : State π} (h : MInv imread total n q [] a)
    (he : allEmpty (topology imread) q a = true) :
    a.results.length = n - 1 ∧ (n = 0 → a.file = none) ∧
      (0 < n → a.file = some (fun x => total x % 2 ^ 32, n)) := by
  simp only [allEmpty, topology, Bool.and_eq_true, List.all_eq_true, List.mem_range, List.isEmpty_iff] at he
  have h0 := he.1 0 (by omega)
  have h1 := he.1 1 (by omega)
  have hins : ins imread q [] = [] := by simp [ins, h0, h1]
  have hl := h.len
  have hn := h.num
  have hs := h.sum
  rw [hins, he.2] at hl hn hs
  cases hf : a.file with
  | none =>
    rw [hf] at hn hl
    simp [sumN, fileN] at hn hl
    refine ⟨by omega, fun _ => rfl, fun h => by omega⟩
  | some f =>
    obtain ⟨_, _, hlt⟩ := h.file f hf
    rw [hf] at hn hl hs
    simp [sumN, fileN] at hn hl
    refine ⟨by omega, fun h => by omega, fun _ => ?_⟩
    congr 1
    refine Prod.ext ?_ hn
    funext x
    have := hs x
    simp only [insAt, sumAt, List.map_nil, List.sum_nil, fileAt, Nat.zero_add] at this
    unfold Nat.ModEq at this
    rw [Nat.mod_eq_of_lt (hlt x)] at this
    exact this

end Verif.Mean
