import Verif.Model.UvmatFile
import Verif.Lemmas.Text
import Mathlib.Data.List.Basic
import Mathlib.Data.List.Nodup
import Mathlib.Tactic.Common

/-!
# C83: PIV results saved in the format of uvmat

Specification: for the pass number `i` (from 1), the variables `Civ{i}_X`, `Civ{i}_Y`, `Civ{i}_C` are the arrays of the result,
`Civ{i}_U` and `Civ{i}_V` are the displacements with 0 for NaN, `Civ{i}_FF` and `Civ{i}_F` are 1 for the vectors which are NaN and 0
for the others; the smoothed displacements and the weights of the thin plate splines are in the file when they have been computed.
-/

namespace Verif
open Verif.Text Verif.UvmatFile

/-! ## Names -/

theorem uvmat_natStr_inj {a b : Nat} (h : natStr a = natStr b) : a = b := by
  have := digitsVal_natStr a
  rw [h, digitsVal_natStr b] at this
  injection this with this
  exact this.symm

theorem uvmat_digits_sep : ∀ (a b s t : List Char) (c : Char), (∀ x ∈ a, (digitVal x).isSome = true) →
    (∀ x ∈ b, (digitVal x).isSome = true) → (digitVal c).isSome = false → a ++ c :: s = b ++ c :: t → a = b ∧ s = t
  | [], [], s, t, c, _, _, _, h => by simpa using h
  | [], y :: b, s, t, c, _, hb, hc, h => by
    simp only [List.nil_append, List.cons_append, List.cons.injEq] at h
    have := hb y (by simp)
    rw [← h.1, hc] at this; cases this
  | x :: a, [], s, t, c, ha, _, hc, h => by
    simp only [List.nil_append, List.cons_append, List.cons.injEq] at h
    have := ha x (by simp)
    rw [h.1, hc] at this; cases this
  | x :: a, y :: b, s, t, c, ha, hb, hc, h => by
    simp only [List.cons_append, List.cons.injEq] at h
    obtain ⟨h1, h2⟩ := uvmat_digits_sep a b s t c (fun x hx => ha x (by simp [hx])) (fun x hx => hb x (by simp [hx])) hc h.2
    exact ⟨by rw [h.1, h1], h2⟩

theorem civ_inj {i j : Nat} {s t : String} (h : civ i s = civ j t) : i = j ∧ s.toList = t.toList := by
  unfold civ at h
  have h := List.append_cancel_left h
  obtain ⟨h1, h2⟩ := uvmat_digits_sep _ _ _ _ '_' (natStr_digits _) (natStr_digits _) (by decide) h
  exact ⟨by have := uvmat_natStr_inj h1; omega, h2⟩

/-! ## Lists of names -/

theorem lookup_eq_none_of_not_mem {β : Type} {l : List (Name × β)} {a : Name} (h : a ∉ l.map Prod.fst) : l.lookup a = none := by
  rw [List.lookup_eq_none_iff]
  intro p hp
  simp only [beq_iff_eq, bne_iff_ne, ne_eq]
  intro he
  exact h (List.mem_map.2 ⟨p, hp, by first | exact he.symm | exact he⟩)

theorem uvmat_lookup_append_left {β : Type} (l l' : List (Name × β)) (a : Name) (b : β) (h : l.lookup a = some b) :
    (l ++ l').lookup a = some b := by
  induction l with
  | nil => cases h
  | cons p l ih =>
    rw [List.cons_append, List.lookup_cons]
    rw [List.lookup_cons] at h
    split
    · rename_i hc; rw [hc] at h; exact h
    · rename_i hc; rw [hc] at h; exact ih h

theorem uvmat_lookup_append_right {β : Type} (l l' : List (Name × β)) (a : Name) (h : a ∉ l.map Prod.fst) :
    (l ++ l').lookup a = l'.lookup a := by
  induction l with
  | nil => rfl
  | cons p l ih =>
    simp only [List.map_cons, List.mem_cons, not_or] at h
    rw [List.cons_append, List.lookup_cons]
    have : (a == p.1) = false := by simpa using h.1
    rw [this]
    exact ih h.2

/-! ## What the operations do to the file -/

/-- Name of the variable created by an operation. -/
def Op.varNames : Op → List Name
  | .dim _ _ => []
  | .var name _ _ => [name]

/-- Names of the dimensions that an operation can create. -/
def Op.dimNames : Op → List Name
  | .dim name _ => [name]
  | .var _ dims _ => dims

/-- `f'` has all that `f` has, and other things whose names are among those given. -/
structure Extends (f f' : File) (vs ds : List Name) : Prop where
  vars : ∃ l, f'.vars = f.vars ++ l ∧ ∀ p ∈ l, p.1 ∈ vs
  dims : ∃ l, f'.dims = f.dims ++ l ∧ ∀ p ∈ l, p.1 ∈ ds

theorem Extends.refl (f : File) (vs ds : List Name) : Extends f f vs ds :=
  ⟨⟨[], by simp, by simp⟩, ⟨[], by simp, by simp⟩⟩

theorem Extends.trans {f f' f'' : File} {vs ds vs' ds' : List Name} (h : Extends f f' vs ds) (h' : Extends f' f'' vs' ds') :
    Extends f f'' (vs ++ vs') (ds ++ ds') := by
  obtain ⟨⟨l, h1, h2⟩, ⟨m, h3, h4⟩⟩ := h
  obtain ⟨⟨l', h1', h2'⟩, ⟨m', h3', h4'⟩⟩ := h'
  refine ⟨⟨l ++ l', by rw [h1', h1, List.append_assoc], ?_⟩, ⟨m ++ m', by rw [h3', h3, List.append_assoc], ?_⟩⟩
  · intro p hp
    rcases List.mem_append.1 hp with hp | hp
    · exact List.mem_append_left _ (h2 p hp)
    · exact List.mem_append_right _ (h2' p hp)
  · intro p hp
    rcases List.mem_append.1 hp with hp | hp
    · exact List.mem_append_left _ (h4 p hp)
    · exact List.mem_append_right _ (h4' p hp)

theorem Extends.mono {f f' : File} {vs ds vs' ds' : List Name} (h : Extends f f' vs ds) (hv : ∀ a ∈ vs, a ∈ vs')
    (hd : ∀ a ∈ ds, a ∈ ds') : Extends f f' vs' ds' := by
  obtain ⟨⟨l, h1, h2⟩, ⟨m, h3, h4⟩⟩ := h
  exact ⟨⟨l, h1, fun p hp => hv _ (h2 p hp)⟩, ⟨m, h3, fun p hp => hd _ (h4 p hp)⟩⟩

theorem fitDims_extends : ∀ (ds : List Name) (ss : List Nat) (f f' : File), fitDims f ds ss = .ok f' →
    f'.vars = f.vars ∧ Extends f f' [] ds
  | [], [], f, f', h => by
    rw [fitDims] at h; injection h with h; subst h
    exact ⟨rfl, Extends.refl _ _ _⟩
  | [], s :: ss, f, f', h => by simp [fitDims] at h
  | d :: ds, [], f, f', h => by simp [fitDims] at h
  | d :: ds, s :: ss, f, f', h => by
    rw [fitDims] at h
    split at h
    · split at h
      · obtain ⟨h1, h2⟩ := fitDims_extends ds ss f f' h
        exact ⟨h1, h2.mono (by simp) (fun a ha => List.mem_cons_of_mem _ ha)⟩
      · cases h
    · obtain ⟨h1, h2⟩ := fitDims_extends ds ss _ f' h
      have h0 : Extends f { f with dims := f.dims ++ [(d, s)] } [] [d] := ⟨⟨[], by simp, by simp⟩, ⟨[(d, s)], rfl, by simp⟩⟩
      exact ⟨h1, (h0.trans h2).mono (by simp) (by simp)⟩

theorem apply_extends (op : Op) (f f' : File) (h : op.apply f = .ok f') : Extends f f' (Op.varNames op) (Op.dimNames op) := by
  cases op with
  | dim name size =>
    cases size with
    | error e => cases h
    | ok n =>
      unfold Op.apply setDim at h
      simp only at h
      split at h
      · cases h
      · injection h with h; subst h
        exact ⟨⟨[], by simp, by simp⟩, ⟨[(name, n)], rfl, by simp [Op.dimNames]⟩⟩
  | var name dims data =>
    cases data with
    | error e => cases h
    | ok data =>
      unfold Op.apply createVar at h
      simp only at h
      split at h
      · cases h
      · split at h
        · cases h
        · split at h
          · cases h
          · rename_i g hg
            injection h with h; subst h
            obtain ⟨h1, h2⟩ := fitDims_extends _ _ _ _ hg
            refine ⟨⟨[(name, dims, data)], by rw [h1], by simp [Op.varNames]⟩, ?_⟩
            exact h2.dims

theorem run_extends : ∀ (ops : List Op) (f : File),
    Extends f (run f ops).1 (ops.flatMap Op.varNames) (ops.flatMap Op.dimNames)
  | [], f => Extends.refl _ _ _
  | op :: ops, f => by
    rw [run]
    cases h : op.apply f with
    | error e => exact (Extends.refl _ _ _)
    | ok f1 =>
      simp only [List.flatMap_cons]
      exact (apply_extends op f f1 h).trans (run_extends ops f1)

/-- Variables along one dimension which exists: they are all created. -/
theorem run_vecs (d : Name) (n : Nat) : ∀ (l : List (Name × List (Option ℚ))) (f : File), f.dims.lookup d = some n →
    (∀ p ∈ l, p.2.length = n) → (l.map Prod.fst).Nodup → (∀ p ∈ l, p.1 ∉ f.vars.map Prod.fst) →
    run f (l.map fun p => .var p.1 [d] (.ok (.vec p.2))) =
      ({ f with vars := f.vars ++ l.map fun p => (p.1, [d], Data.vec p.2) }, none)
  | [], f, _, _, _, _ => by simp [run]
  | p :: l, f, hd, hl, hn, hf => by
    have ha : Op.apply f (.var p.1 [d] (.ok (.vec p.2))) = .ok { f with vars := f.vars ++ [(p.1, [d], .vec p.2)] } := by
      unfold Op.apply createVar
      simp only
      rw [lookup_eq_none_of_not_mem (hf p (by simp))]
      simp only [Data.shape, fitDims, hd]
      rw [if_pos (hl p (by simp)).symm]
    rw [List.map_cons, run, ha]
    simp only
    rw [List.map_cons, List.nodup_cons] at hn
    rw [run_vecs d n l { f with vars := f.vars ++ [(p.1, [d], .vec p.2)] } hd (fun q hq => hl q (by simp [hq])) hn.2]
    · simp [List.append_assoc]
    · intro q hq hc
      simp only [List.map_append, List.map_cons, List.map_nil, List.mem_append, List.mem_singleton] at hc
      rcases hc with hc | hc
      · exact hf q (by simp [hq]) hc
      · exact hn.1 (hc ▸ List.mem_map.2 ⟨q, hq, rfl⟩)

/-! ## One pass -/

/-- The names of a file before the pass `i`: those of the previous passes. -/
def Before (i : Nat) (f : File) : Prop :=
  (∀ p ∈ f.vars, ∃ j s, j < i ∧ p.1 = civ j s) ∧ ∀ p ∈ f.dims, ∀ j, i ≤ j → p.1 ≠ nbVec j ∧ p.1 ≠ nbSubdomain j ∧
    p.1 ≠ nbTps j ∧ p.1 ≠ nbVecTps j

/-- The arrays of the result of a pass have the same length. -/
def SameLengths (p : Pass) : Prop :=
  p.ys.length = p.xs.length ∧ p.deltaxs.length = p.xs.length ∧ p.deltays.length = p.xs.length ∧ p.correls.length = p.xs.length

/-- The seven variables of the pass `i` which are always there. -/
structure HasPass (f : File) (i : Nat) (p : Pass) : Prop where
  X : f.get (civ i "X") = some (.vec (p.xs.map some))
  Y : f.get (civ i "Y") = some (.vec (p.ys.map some))
  U : f.get (civ i "U") = some (.vec (p.deltaxs.map fun x => some (x.getD 0)))
  V : f.get (civ i "V") = some (.vec (p.deltays.map fun x => some (x.getD 0)))
  C : f.get (civ i "C") = some (.vec p.correls)
  FF : f.get (civ i "FF") = some (.vec (p.deltaxs.map fun x => some (if x = none then 1 else 0)))
  F : f.get (civ i "F") = some (.vec (p.deltaxs.map fun x => some (if x = none then 1 else 0)))

theorem lookup_civ {β : Type} (i : Nat) (s : String) (l : List (String × β)) :
    (l.map fun p => (civ i p.1, p.2)).lookup (civ i s) = l.lookup s := by
  induction l with
  | nil => rfl
  | cons p l ih =>
    rw [List.map_cons, List.lookup_cons, List.lookup_cons, ih]
    by_cases h : s = p.1
    · subst h; simp
    · have h1 : (s == p.1) = false := by simpa using h
      have h2 : (civ i s == civ i p.1) = false := by
        simp only [beq_eq_false_iff_ne, ne_eq]
        intro hc
        exact h (String.toList_inj.1 (civ_inj hc).2)
      rw [h1, h2]

theorem nodup_civ {β : Type} (i : Nat) (l : List (String × β)) (h : (l.map Prod.fst).Nodup) :
    ((l.map fun p => (civ i p.1, p.2)).map Prod.fst).Nodup := by
  rw [List.map_map]
  have : (Prod.fst ∘ fun p : String × β => (civ i p.1, p.2)) = (civ i) ∘ Prod.fst := rfl
  rw [this, ← List.map_map]
  exact List.Nodup.map (fun a b hab => String.toList_inj.1 (civ_inj hab).2) h

/-- The variables written before the smoothed fields. -/
def headVars (p : Pass) : List (String × List (Option ℚ)) :=
  [("X", p.xs.map some), ("Y", p.ys.map some), ("U", nanToNum p.deltaxs), ("V", nanToNum p.deltays)]

/-- The variables written after. -/
def tailVars (p : Pass) : List (String × List (Option ℚ)) :=
  [("C", p.correls), ("FF", flags p.deltaxs), ("F", flags p.deltaxs)]

theorem dims_lookup_new {i : Nat} {f : File} (h : Before i f) : f.dims.lookup (nbVec i) = none := by
  apply lookup_eq_none_of_not_mem
  intro hc
  obtain ⟨q, hq, he⟩ := List.mem_map.1 hc
  exact (h.2 q hq i (Nat.le_refl _)).1 he

theorem vars_new {i : Nat} {f : File} (h : Before i f) (s : String) : civ i s ∉ f.vars.map Prod.fst := by
  intro hc
  obtain ⟨q, hq, he⟩ := List.mem_map.1 hc
  obtain ⟨j, t, hj, hq⟩ := h.1 q hq
  have := (civ_inj (he ▸ hq : civ i s = civ j t)).1
  omega

/-- The file after the first variables of a pass. -/
theorem run_head {i : Nat} {f : File} (h : Before i f) {p : Pass} (hp : SameLengths p) :
    run f (headOps i p) = (⟨f.dims ++ [(nbVec i, p.xs.length)],
      f.vars ++ ((headVars p).map fun q => (civ i q.1, q.2)).map fun q => (q.1, [nbVec i], Data.vec q.2)⟩, none) := by
  obtain ⟨h1, h2, h3, h4⟩ := hp
  have e : headOps i p = .dim (nbVec i) (.ok p.xs.length) ::
      (((headVars p).map fun q => (civ i q.1, q.2)).map fun q => .var q.1 [nbVec i] (.ok (.vec q.2))) := rfl
  rw [e, run]
  have ha : Op.apply f (.dim (nbVec i) (.ok p.xs.length)) = .ok { f with dims := f.dims ++ [(nbVec i, p.xs.length)] } := by
    unfold Op.apply setDim
    simp only
    rw [dims_lookup_new h]
  rw [ha]
  simp only
  rw [run_vecs (nbVec i) p.xs.length _ { f with dims := f.dims ++ [(nbVec i, p.xs.length)] }]
  · simp only
    rw [uvmat_lookup_append_right]
    · simp
    · intro hc
      obtain ⟨q, hq, he⟩ := List.mem_map.1 hc
      exact (h.2 q hq i (Nat.le_refl _)).1 he
  · simp [headVars, nanToNum, h1, h2, h3]
  · exact nodup_civ i _ (by simp [headVars])
  · intro q hq
    obtain ⟨r, _, rfl⟩ := List.mem_map.1 hq
    exact vars_new h r.1

/-- The suffixes of the variables of the `try` block. -/
def tpsSuffixes : List String := ["U_smooth", "V_smooth", "U_tps", "V_tps", "NbCentres"]

theorem tps_extends (dimInt : Bool) (i : Nat) (p : Pass) (f : File) :
    Extends f (run f (tpsOps dimInt i p)).1 (tpsSuffixes.map (civ i)) [nbVec i, nbSubdomain i, nbTps i, nbVecTps i] := by
  refine (run_extends (tpsOps dimInt i p) f).mono ?_ ?_
  · intro a ha
    simpa [tpsOps, Op.varNames, tpsSuffixes] using ha
  · intro a ha
    simp only [tpsOps, Op.dimNames, List.flatMap_cons, List.flatMap_nil, List.append_nil, List.cons_append, List.nil_append,
      List.mem_cons, List.not_mem_nil, or_false] at ha ⊢
    tauto

/-- The end of a pass. -/
theorem run_tail {i : Nat} {f : File} {p : Pass} (hp : SameLengths p) (hd : f.dims.lookup (nbVec i) = some p.xs.length)
    (hv : ∀ s ∈ ["C", "FF", "F"], civ i s ∉ f.vars.map Prod.fst) :
    run f (tailOps i p) = ({ f with vars :=
      f.vars ++ ((tailVars p).map fun q => (civ i q.1, q.2)).map fun q => (q.1, [nbVec i], Data.vec q.2) }, none) := by
  obtain ⟨h1, h2, h3, h4⟩ := hp
  have e : tailOps i p =
      (((tailVars p).map fun q => (civ i q.1, q.2)).map fun q => .var q.1 [nbVec i] (.ok (.vec q.2))) := rfl
  rw [e, run_vecs (nbVec i) p.xs.length _ f hd]
  · simp [tailVars, flags, h2, h4]
  · exact nodup_civ i _ (by simp [tailVars])
  · intro q hq
    obtain ⟨r, hr, rfl⟩ := List.mem_map.1 hq
    exact hv r.1 (by
      simp only [tailVars, List.mem_cons, List.not_mem_nil, or_false] at hr ⊢
      rcases hr with rfl | rfl | rfl <;> simp)

/-- The file after the first variables of the pass `i`. -/
def headFile (i : Nat) (f : File) (p : Pass) : File :=
  ⟨f.dims ++ [(nbVec i, p.xs.length)],
    f.vars ++ ((headVars p).map fun q => (civ i q.1, q.2)).map fun q => (q.1, [nbVec i], Data.vec q.2)⟩

theorem nbNames_digits {a b : List Char} {i j : Nat} (h : a ++ natStr (i + 1) = b ++ natStr (j + 1)) (hl : a.length = b.length) :
    a = b ∧ i = j := by
  obtain ⟨h1, h2⟩ := List.append_inj h hl
  exact ⟨h1, by have := uvmat_natStr_inj h2; omega⟩

/-- Prefixes ended by characters which are not digits: two names are equal only if the prefixes and the numbers are. -/
theorem nbNames_inj : ∀ (a b : List Char) (i j : Nat), (∀ c ∈ a.getLast?, (digitVal c).isSome = false) →
    (∀ c ∈ b.getLast?, (digitVal c).isSome = false) → a ++ natStr (i + 1) = b ++ natStr (j + 1) → a = b ∧ i = j := by
  intro a b i j ha hb h
  have key : ∀ (a b : List Char) (m n : List Char), (∀ c ∈ b.getLast?, (digitVal c).isSome = false) →
      (∀ c ∈ m, (digitVal c).isSome = true) → a ++ m = b ++ n → b.length ≤ a.length := by
    intro a b m n hb hm h
    by_contra hlt
    obtain ⟨t, rfl, rfl⟩ : ∃ t, b = a ++ t ∧ m = t ++ n := by
      rcases List.append_eq_append_iff.1 h with ⟨t, h1, h2⟩ | ⟨t, h1, h2⟩
      · exact ⟨t, h1, h2⟩
      · exfalso; rw [h1] at hlt; simp at hlt
    rcases List.eq_nil_or_concat t with rfl | ⟨t, c, rfl⟩
    · simp at hlt
    · have h1 := hb c (by simp)
      have h2 := hm c (by simp)
      rw [h1] at h2; cases h2
  have l1 := key a b _ _ hb (natStr_digits _) h
  have l2 := key b a _ _ ha (natStr_digits _) h.symm
  exact nbNames_digits h (by omega)

/-- The names of the dimensions of different passes are different. -/
theorem dims_names (i j : Nat) (h : i < j) : ∀ a ∈ [nbVec i, nbSubdomain i, nbTps i, nbVecTps i],
    a ≠ nbVec j ∧ a ≠ nbSubdomain j ∧ a ≠ nbTps j ∧ a ≠ nbVecTps j := by
  intro a ha
  simp only [List.mem_cons, List.not_mem_nil, or_false] at ha
  have gen : ∀ (a b : String), (∀ c ∈ a.toList.getLast?, (digitVal c).isSome = false) →
      (∀ c ∈ b.toList.getLast?, (digitVal c).isSome = false) → a.toList ++ natStr (i + 1) ≠ b.toList ++ natStr (j + 1) := by
    intro a b ha hb hc
    have := (nbNames_inj _ _ _ _ ha hb hc).2
    omega
  rcases ha with rfl | rfl | rfl | rfl <;>
    exact ⟨gen _ _ (by decide) (by decide), gen _ _ (by decide) (by decide), gen _ _ (by decide) (by decide),
      gen _ _ (by decide) (by decide)⟩

theorem uvmat_savePass_file (dimInt : Bool) {i : Nat} {f : File} (h : Before i f) {p : Pass} (hp : SameLengths p) :
    ∃ (T : List (Name × List Name × Data)) (D : List (Name × Nat)),
      savePass dimInt i f p = (⟨(headFile i f p).dims ++ D, ((headFile i f p).vars ++ T) ++
        ((tailVars p).map fun q => (civ i q.1, q.2)).map fun q => (q.1, [nbVec i], Data.vec q.2)⟩, none) ∧
      (∀ q ∈ T, q.1 ∈ tpsSuffixes.map (civ i)) ∧ (∀ q ∈ D, q.1 ∈ [nbVec i, nbSubdomain i, nbTps i, nbVecTps i]) ∧
      (if p.useTps then (run (headFile i f p) (tpsOps dimInt i p)).1 else headFile i f p) =
        ⟨(headFile i f p).dims ++ D, (headFile i f p).vars ++ T⟩ := by
  have hx : ∃ (T : List (Name × List Name × Data)) (D : List (Name × Nat)),
      (if p.useTps then (run (headFile i f p) (tpsOps dimInt i p)).1 else headFile i f p) =
        ⟨(headFile i f p).dims ++ D, (headFile i f p).vars ++ T⟩ ∧
      (∀ q ∈ T, q.1 ∈ tpsSuffixes.map (civ i)) ∧ (∀ q ∈ D, q.1 ∈ [nbVec i, nbSubdomain i, nbTps i, nbVecTps i]) := by
    split
    · obtain ⟨⟨T, hT, hT'⟩, ⟨D, hD, hD'⟩⟩ := tps_extends dimInt i p (headFile i f p)
      exact ⟨T, D, by rw [← hT, ← hD], hT', hD'⟩
    · exact ⟨[], [], by simp, by simp, by simp⟩
  obtain ⟨T, D, e, hT, hD⟩ := hx
  refine ⟨T, D, ?_, hT, hD, e⟩
  unfold savePass
  rw [run_head h hp]
  simp only
  rw [show (⟨f.dims ++ [(nbVec i, p.xs.length)],
    f.vars ++ ((headVars p).map fun q => (civ i q.1, q.2)).map fun q => (q.1, [nbVec i], Data.vec q.2)⟩ : File) = headFile i f p from rfl, e]
  rw [run_tail hp]
  · apply uvmat_lookup_append_left
    unfold headFile
    simp only
    rw [uvmat_lookup_append_right]
    · simp
    · intro hc
      obtain ⟨q, hq, he⟩ := List.mem_map.1 hc
      exact (h.2 q hq i (Nat.le_refl _)).1 he
  · intro s hs hc
    simp only [headFile, List.map_append, List.mem_append] at hc
    rcases hc with (hc | hc) | hc
    · exact vars_new h s hc
    · simp only [List.map_map, List.mem_map, Function.comp_apply] at hc
      obtain ⟨q, hq, hc⟩ := hc
      have := String.toList_inj.1 (civ_inj hc).2
      subst this
      simp only [headVars, List.mem_cons, List.not_mem_nil, or_false] at hq
      rcases hq with rfl | rfl | rfl | rfl <;> simp at hs
    · obtain ⟨q, hq, hc⟩ := List.mem_map.1 hc
      obtain ⟨t, ht, hc'⟩ := List.mem_map.1 (hT q hq)
      have := String.toList_inj.1 (civ_inj (hc'.trans hc)).2
      subst this
      simp only [tpsSuffixes, List.mem_cons, List.not_mem_nil, or_false] at ht hs
      rcases ht with rfl | rfl | rfl | rfl | rfl <;> simp at hs

theorem get_left {f g : File} {name : Name} {d : Data} {l : List (Name × List Name × Data)} (hg : g.vars = f.vars ++ l)
    (h : f.get name = some d) : g.get name = some d := by
  unfold File.get at h ⊢
  cases e : f.vars.lookup name with
  | none => rw [e] at h; cases h
  | some b => rw [hg, uvmat_lookup_append_left _ _ _ _ e, ← e]; exact h

/-- The variables of a list written for the pass `i`. -/
theorem get_vecs (i : Nat) (d : List Name) (l : List (String × List (Option ℚ))) (s : String) :
    (((l.map fun q => (civ i q.1, q.2)).map fun q => (q.1, d, Data.vec q.2)).lookup (civ i s)).map Prod.snd
      = (l.lookup s).map Data.vec := by
  rw [List.map_map]
  have : ((fun q : Name × List (Option ℚ) => (q.1, d, Data.vec q.2)) ∘ fun q : String × List (Option ℚ) => (civ i q.1, q.2)) =
      (fun q : String × (List Name × Data) => (civ i q.1, q.2)) ∘ fun q : String × List (Option ℚ) => (q.1, (d, Data.vec q.2)) := rfl
  rw [this, ← List.map_map, lookup_civ]
  induction l with
  | nil => rfl
  | cons q l ih =>
    rw [List.map_cons, List.lookup_cons, List.lookup_cons]
    cases (s == q.1) <;> simp [ih]

theorem uvmat_savePass_ok (dimInt : Bool) {i : Nat} {f : File} (h : Before i f) {p : Pass} (hp : SameLengths p) :
    ∃ f', savePass dimInt i f p = (f', none) ∧ Before (i + 1) f' ∧ (∃ l, f'.vars = f.vars ++ l) ∧ HasPass f' i p := by
  obtain ⟨T, D, e, hT, hD, -⟩ := uvmat_savePass_file dimInt h hp
  refine ⟨_, e, ⟨?_, ?_⟩, ⟨_, by simp [headFile, List.append_assoc]; rfl⟩, ?_⟩
  · intro q hq
    simp only [headFile, List.mem_append] at hq
    rcases hq with ((hq | hq) | hq) | hq
    · obtain ⟨j, s, hj, hs⟩ := h.1 q hq
      exact ⟨j, s, by omega, hs⟩
    · simp only [List.map_map, List.mem_map, Function.comp_apply] at hq
      obtain ⟨r, _, rfl⟩ := hq
      exact ⟨i, r.1, by omega, rfl⟩
    · obtain ⟨s, _, hs⟩ := List.mem_map.1 (hT q hq)
      exact ⟨i, s, by omega, hs.symm⟩
    · simp only [List.map_map, List.mem_map, Function.comp_apply] at hq
      obtain ⟨r, _, rfl⟩ := hq
      exact ⟨i, r.1, by omega, rfl⟩
  · intro q hq j hj
    simp only [headFile, List.mem_append, List.mem_singleton] at hq
    rcases hq with (hq | hq) | hq
    · exact h.2 q hq j (by omega)
    · subst hq
      exact dims_names i j (by omega) _ (by simp)
    · exact dims_names i j (by omega) _ (hD q hq)
  · have hnew : ∀ s, civ i s ∉ f.vars.map Prod.fst := fun s => vars_new h s
    have hhead : ∀ s l, (headVars p).lookup s = some l → (headFile i f p).get (civ i s) = some (.vec l) := by
      intro s l hl
      unfold File.get headFile
      simp only
      rw [uvmat_lookup_append_right _ _ _ (hnew s), get_vecs, hl]
      rfl
    have htail : ∀ s l, s ∉ ["X", "Y", "U", "V"] → s ∉ tpsSuffixes → (tailVars p).lookup s = some l →
        ((((headFile i f p).vars ++ T) ++ ((tailVars p).map fun q => (civ i q.1, q.2)).map fun q =>
          (q.1, [nbVec i], Data.vec q.2)).lookup (civ i s)).map Prod.snd = some (.vec l) := by
      intro s l h1 h2 hl
      rw [uvmat_lookup_append_right, get_vecs, hl]
      · rfl
      · intro hc
        simp only [headFile, List.map_append, List.mem_append] at hc
        rcases hc with (hc | hc) | hc
        · exact hnew s hc
        · simp only [List.map_map, List.mem_map, Function.comp_apply] at hc
          obtain ⟨q, hq, hc⟩ := hc
          have := String.toList_inj.1 (civ_inj hc).2
          subst this
          simp only [headVars, List.mem_cons, List.not_mem_nil, or_false] at hq
          rcases hq with rfl | rfl | rfl | rfl <;> simp at h1
        · obtain ⟨q, hq, hc⟩ := List.mem_map.1 hc
          obtain ⟨t, ht, hc'⟩ := List.mem_map.1 (hT q hq)
          have := String.toList_inj.1 (civ_inj (hc'.trans hc)).2
          subst this
          exact h2 ht
    have hflags : flags p.deltaxs = p.deltaxs.map fun x => some (if x = none then 1 else 0) := by
      unfold flags
      apply List.map_congr_left
      intro x _
      cases x <;> simp
    constructor
    · exact get_left (f := headFile i f p) (by simp [List.append_assoc]; rfl) (hhead "X" _ rfl)
    · exact get_left (f := headFile i f p) (by simp [List.append_assoc]; rfl) (hhead "Y" _ rfl)
    · exact get_left (f := headFile i f p) (by simp [List.append_assoc]; rfl) (hhead "U" _ rfl)
    · exact get_left (f := headFile i f p) (by simp [List.append_assoc]; rfl) (hhead "V" _ rfl)
    · exact htail "C" _ (by simp) (by simp [tpsSuffixes]) rfl
    · rw [← hflags]; exact htail "FF" _ (by simp) (by simp [tpsSuffixes]) rfl
    · rw [← hflags]; exact htail "F" _ (by simp) (by simp [tpsSuffixes]) rfl

theorem HasPass.mono {f g : File} {i : Nat} {p : Pass} {l : List (Name × List Name × Data)} (hg : g.vars = f.vars ++ l)
    (h : HasPass f i p) : HasPass g i p :=
  ⟨get_left hg h.X, get_left hg h.Y, get_left hg h.U, get_left hg h.V, get_left hg h.C, get_left hg h.FF, get_left hg h.F⟩

theorem uvmat_savePasses_ok (dimInt : Bool) : ∀ (ps : List Pass) (i : Nat) (f : File), Before i f → (∀ p ∈ ps, SameLengths p) →
    ∃ f', savePasses dimInt i f ps = (f', none) ∧ (∃ l, f'.vars = f.vars ++ l) ∧
      ∀ k p, ps[k]? = some p → HasPass f' (i + k) p
  | [], i, f, _, _ => ⟨f, rfl, ⟨[], by simp⟩, by simp⟩
  | p :: ps, i, f, h, hs => by
    obtain ⟨f1, e1, b1, ⟨l1, x1⟩, p1⟩ := uvmat_savePass_ok dimInt h (hs p (by simp))
    obtain ⟨f2, e2, ⟨l2, x2⟩, p2⟩ := uvmat_savePasses_ok dimInt ps (i + 1) f1 b1 (fun q hq => hs q (by simp [hq]))
    refine ⟨f2, ?_, ⟨l1 ++ l2, by rw [x2, x1, List.append_assoc]⟩, ?_⟩
    · rw [savePasses, e1]; exact e2
    · intro k q hk
      cases k with
      | zero =>
        simp only [List.getElem?_cons_zero, Option.some.injEq] at hk
        subst hk
        exact p1.mono x2
      | succ k =>
        have := p2 k q (by simpa using hk)
        rwa [show i + 1 + k = i + (k + 1) from by omega] at this

theorem before_empty : Before 0 emptyFile := by
  refine ⟨by simp [emptyFile], ?_⟩
  intro q hq j _
  have gen : ∀ (a b : String), (∀ c ∈ a.toList.getLast?, (digitVal c).isSome = false) → a.toList ≠ b.toList ++ natStr (j + 1) := by
    intro a b ha hc
    have hd := natStr_digits (j + 1)
    rcases List.eq_nil_or_concat (natStr (j + 1)) with hn | ⟨t, c, hn⟩
    · exact natStr_ne_nil _ hn
    · have h1 := hd c (by rw [hn]; simp)
      have h2 := ha c (by rw [hc, hn]; simp)
      rw [h1] at h2; cases h2
  simp only [emptyFile, List.mem_cons, List.not_mem_nil, or_false] at hq
  rcases hq with rfl | rfl <;>
    exact ⟨gen _ _ (by decide), gen _ _ (by decide), gen _ _ (by decide), gen _ _ (by decide)⟩

theorem lookup_append_some {β : Type} (l m : List (Name × β)) (d : Name) (b : β) (h : l.lookup d = some b) :
    (l ++ m).lookup d = some b := by
  induction l with
  | nil => cases h
  | cons q l ih =>
    rw [List.cons_append, List.lookup_cons]
    rw [List.lookup_cons] at h
    cases hq : d == q.1 with
    | true => rw [hq] at h; exact h
    | false => rw [hq] at h; exact ih h

theorem fitDims_keeps (d : Name) (n : Nat) : ∀ (ds : List Name) (ss : List Nat) (f f' : File), fitDims f ds ss = .ok f' →
    f.dims.lookup d = some n → f'.dims.lookup d = some n
  | [], [], f, f', h, hd => by cases h; exact hd
  | [], _ :: _, _, _, h, _ => by cases h
  | _ :: _, [], _, _, h, _ => by cases h
  | a :: ds, s :: ss, f, f', h, hd => by
    unfold fitDims at h
    cases hl : f.dims.lookup a with
    | some s' =>
      rw [hl] at h
      simp only at h
      by_cases hs : s' = s
      · rw [if_pos hs] at h; exact fitDims_keeps d n ds ss f f' h hd
      · rw [if_neg hs] at h; cases h
    | none =>
      rw [hl] at h
      exact fitDims_keeps d n ds ss _ f' h (lookup_append_some _ _ _ _ hd)

theorem createVar_keeps (d : Name) (n : Nat) (f f' : File) (name : Name) (dims : List Name) (data : Data)
    (h : createVar f name dims data = .ok f') (hd : f.dims.lookup d = some n) : f'.dims.lookup d = some n := by
  unfold createVar at h
  cases h1 : f.vars.lookup name with
  | some v => rw [h1] at h; cases h
  | none =>
    rw [h1] at h
    simp only at h
    cases h2 : data.shape with
    | error e => rw [h2] at h; cases h
    | ok shape =>
      rw [h2] at h
      simp only at h
      cases h3 : fitDims f dims shape with
      | error e => rw [h3] at h; cases h
      | ok g =>
        rw [h3] at h
        cases h
        exact fitDims_keeps d n _ _ f g h3 hd

theorem apply_keeps (d : Name) (n : Nat) (f f' : File) (op : Op) (h : op.apply f = .ok f') (hd : f.dims.lookup d = some n) :
    f'.dims.lookup d = some n := by
  cases op with
  | dim name size =>
    cases size with
    | error e => cases h
    | ok k =>
      simp only [Op.apply, setDim] at h
      cases hl : f.dims.lookup name with
      | some v => rw [hl] at h; cases h
      | none =>
        rw [hl] at h
        cases h
        exact lookup_append_some _ _ _ _ hd
  | var name dims data =>
    cases data with
    | error e => cases h
    | ok data => exact createVar_keeps d n f f' name dims data h hd

theorem run_keeps (d : Name) (n : Nat) : ∀ (ops : List Op) (f : File), f.dims.lookup d = some n →
    (run f ops).1.dims.lookup d = some n
  | [], _, hd => hd
  | op :: ops, f, hd => by
    unfold run
    cases h : op.apply f with
    | error e => exact hd
    | ok g => exact run_keeps d n ops g (apply_keeps d n f g op h hd)

theorem run_lengths (d : Name) (n : Nat) : ∀ (ops : List Op) (f f' : File), run f ops = (f', none) →
    f.dims.lookup d = some n → ∀ name l, Op.var name [d] (.ok (.vec l)) ∈ ops → l.length = n
  | [], _, _, _, _, _, _, hm => by cases hm
  | op :: ops, f, f', h, hd, name, l, hm => by
    unfold run at h
    cases ha : op.apply f with
    | error e => rw [ha] at h; cases h
    | ok g =>
      rw [ha] at h
      rcases List.mem_cons.1 hm with hm | hm
      · subst hm
        simp only [Op.apply, createVar, Data.shape] at ha
        cases h1 : f.vars.lookup name with
        | some v => rw [h1] at ha; cases ha
        | none =>
          rw [h1] at ha
          simp only [fitDims, hd] at ha
          by_cases hl : n = l.length
          · exact hl.symm
          · rw [if_neg hl] at ha; cases ha
      · exact run_lengths d n ops g f' h (apply_keeps d n f g op ha hd) name l hm

theorem savePass_lengths (dimInt : Bool) (i : Nat) (f f' : File) (p : Pass) (h : savePass dimInt i f p = (f', none)) :
    SameLengths p := by
  unfold savePass at h
  cases hh : run f (headOps i p) with
  | mk f1 r =>
    rw [hh] at h
    cases r with
    | some e => cases h
    | none =>
      simp only at h
      have hsplit : headOps i p = .dim (nbVec i) (.ok p.xs.length) :: (headOps i p).tail := rfl
      rw [hsplit] at hh
      unfold run at hh
      cases hl : f.dims.lookup (nbVec i) with
      | some v => simp only [Op.apply, setDim, hl] at hh; cases hh
      | none =>
        simp only [Op.apply, setDim, hl] at hh
        have hd : (f.dims ++ [(nbVec i, p.xs.length)]).lookup (nbVec i) = some p.xs.length := by
          rw [uvmat_lookup_append_right]
          · simp
          · intro hc
            have : f.dims.lookup (nbVec i) ≠ none := by
              intro hn
              obtain ⟨q, hq, he⟩ := List.mem_map.1 hc
              exact List.lookup_eq_none_iff.1 hn q hq |> fun hne => by simp [he] at hne
            exact this hl
        have hlen := run_lengths (nbVec i) p.xs.length _ _ _ hh hd
        have hd1 : f1.dims.lookup (nbVec i) = some p.xs.length := by
          have := run_keeps (nbVec i) p.xs.length (headOps i p).tail { f with dims := f.dims ++ [(nbVec i, p.xs.length)] } hd
          rw [hh] at this
          exact this
        have hy := hlen (civ i "Y") (p.ys.map some) (by simp [headOps])
        have hu := hlen (civ i "U") (nanToNum p.deltaxs) (by simp [headOps])
        have hv := hlen (civ i "V") (nanToNum p.deltays) (by simp [headOps])
        have hd2 : (if p.useTps then (run f1 (tpsOps dimInt i p)).1 else f1).dims.lookup (nbVec i) = some p.xs.length := by
          split
          · exact run_keeps _ _ _ _ hd1
          · exact hd1
        have hc := run_lengths (nbVec i) p.xs.length _ _ _ h hd2 (civ i "C") p.correls (by simp [tailOps])
        refine ⟨?_, ?_, ?_, hc⟩
        · simpa using hy
        · simpa [nanToNum] using hu
        · simpa [nanToNum] using hv

theorem savePasses_lengths (dimInt : Bool) : ∀ (ps : List Pass) (i : Nat) (f f' : File),
    savePasses dimInt i f ps = (f', none) → ∀ p ∈ ps, SameLengths p
  | [], _, _, _, _, _, hp => by cases hp
  | q :: ps, i, f, f', h, p, hp => by
    unfold savePasses at h
    cases hq : savePass dimInt i f q with
    | mk g r =>
      rw [hq] at h
      cases r with
      | some e => cases h
      | none =>
        rcases List.mem_cons.1 hp with rfl | hp
        · exact savePass_lengths dimInt i f g p hq
        · exact savePasses_lengths dimInt ps (i + 1) g f' h p hp

/-- C83: saving fails exactly when, for one of the passes, the arrays do not have the same length: a file is never
announced as saved with data which are cut or shifted. -/
theorem C83_fails_iff (dimInt : Bool) (passes : List Pass) :
    (saveAsUvmat dimInt passes).2 = none ↔ ∀ p ∈ passes, SameLengths p := by
  constructor
  · intro h
    exact savePasses_lengths dimInt passes 0 emptyFile (saveAsUvmat dimInt passes).1 (Prod.ext rfl h)
  · intro h
    obtain ⟨f, e, -⟩ := uvmat_savePasses_ok dimInt passes 0 emptyFile before_empty h
    unfold saveAsUvmat
    rw [e]

/-- The two cases: arrays of the same length; one correlation missing. -/
example : SameLengths ⟨[1, 2], [3, 4], [some 1, none], [some 2, none], [some 1, some 0], false, none, none⟩ ∧
    ¬ SameLengths ⟨[1, 2], [3, 4], [some 1, none], [some 2, none], [some 1], false, none, none⟩ := by
  simp [SameLengths]

/-- C83: saving never fails and the file has, for each pass, its seven variables. -/
theorem C83_saved (dimInt : Bool) (passes : List Pass) (h : ∀ p ∈ passes, SameLengths p) :
    ∃ f, saveAsUvmat dimInt passes = (f, none) ∧ ∀ i p, passes[i]? = some p → HasPass f i p := by
  obtain ⟨f, e, -, hf⟩ := uvmat_savePasses_ok dimInt passes 0 emptyFile before_empty h
  exact ⟨f, e, fun i p hi => by simpa using hf i p hi⟩

/-- The values of a pass can be recovered from the file: the flag says which displacements are NaN (for the second component when
the two are NaN together, as in the results of the PIV). -/
theorem C83_recover (dimInt : Bool) (passes : List Pass) (h : ∀ p ∈ passes, SameLengths p) (i : Nat) (p : Pass)
    (hp : passes[i]? = some p) :
    ∃ f U V FF, saveAsUvmat dimInt passes = (f, none) ∧ f.get (civ i "U") = some (.vec U) ∧ f.get (civ i "V") = some (.vec V) ∧
      f.get (civ i "FF") = some (.vec FF) ∧
      p.deltaxs = List.zipWith (fun ff u => if ff = some 1 then none else u) FF U ∧
      (p.deltaxs.map Option.isNone = p.deltays.map Option.isNone →
        p.deltays = List.zipWith (fun ff v => if ff = some 1 then none else v) FF V) := by
  obtain ⟨f, e, hf⟩ := C83_saved dimInt passes h
  have hh := hf i p hp
  refine ⟨f, _, _, _, e, hh.U, hh.V, hh.FF, ?_, ?_⟩
  · generalize p.deltaxs = l
    induction l with
    | nil => rfl
    | cons x l ih =>
      simp only [List.map_cons, List.zipWith_cons_cons]
      rw [← ih]
      cases x <;> simp
  · generalize p.deltaxs = l
    generalize p.deltays = m
    intro hn
    induction l generalizing m with
    | nil => cases m with
      | nil => rfl
      | cons y m => simp at hn
    | cons x l ih => cases m with
      | nil => simp at hn
      | cons y m =>
        simp only [List.map_cons, List.cons.injEq] at hn
        have := ih m hn.2
        simp only [List.map_cons, List.zipWith_cons_cons]
        rw [← this]
        cases x <;> cases y <;> simp at hn ⊢

/-! ## Smoothed fields -/

theorem get_civ_append {f g : File} {i : Nat} {s : String} {l : List (Name × List Name × Data)} (hg : g.vars = f.vars ++ l)
    (hl : ∀ q ∈ l, ∃ j t, i < j ∧ q.1 = civ j t) : g.get (civ i s) = f.get (civ i s) := by
  unfold File.get
  rw [hg]
  cases e : f.vars.lookup (civ i s) with
  | some b => rw [uvmat_lookup_append_left _ _ _ _ e]
  | none =>
    rw [uvmat_lookup_append_right]
    · rw [lookup_eq_none_of_not_mem]
      intro hc
      obtain ⟨q, hq, he⟩ := List.mem_map.1 hc
      obtain ⟨j, t, hj, ht⟩ := hl q hq
      have := (civ_inj (ht.symm.trans he)).1
      omega
    · intro hc
      obtain ⟨q, hq, he⟩ := List.mem_map.1 hc
      rw [List.lookup_eq_none_iff] at e
      have := e q hq
      simp [he] at this

theorem savePass_vars (dimInt : Bool) {i : Nat} {f : File} (h : Before i f) {p : Pass} (hp : SameLengths p) {f' : File}
    (e : savePass dimInt i f p = (f', none)) : ∃ l, f'.vars = f.vars ++ l ∧ ∀ q ∈ l, ∃ t, q.1 = civ i t := by
  obtain ⟨T, D, e', hT, -, -⟩ := uvmat_savePass_file dimInt h hp
  rw [e] at e'
  injection e' with e'
  subst e'
  refine ⟨_, by simp only [headFile, List.append_assoc]; rfl, ?_⟩
  intro q hq
  simp only [List.mem_append, List.map_map, List.mem_map, Function.comp_apply] at hq
  rcases hq with ⟨r, _, rfl⟩ | hq | ⟨r, _, rfl⟩
  · exact ⟨r.1, rfl⟩
  · obtain ⟨s, _, hs⟩ := List.mem_map.1 (hT q hq)
    exact ⟨s, hs.symm⟩
  · exact ⟨r.1, rfl⟩

/-- What the file has for a pass is what was written by this pass. -/
theorem uvmat_savePasses_at (dimInt : Bool) : ∀ (ps : List Pass) (i : Nat) (f : File), Before i f → (∀ p ∈ ps, SameLengths p) →
    ∃ f', savePasses dimInt i f ps = (f', none) ∧ (∃ l, f'.vars = f.vars ++ l ∧ ∀ q ∈ l, ∃ j t, i ≤ j ∧ q.1 = civ j t) ∧
      ∀ k p, ps[k]? = some p → ∃ g g', Before (i + k) g ∧ savePass dimInt (i + k) g p = (g', none) ∧
        ∀ s, f'.get (civ (i + k) s) = g'.get (civ (i + k) s)
  | [], i, f, _, _ => ⟨f, rfl, ⟨[], by simp, by simp⟩, by simp⟩
  | p :: ps, i, f, h, hs => by
    obtain ⟨f1, e1, b1, -, -⟩ := uvmat_savePass_ok dimInt h (hs p (by simp))
    obtain ⟨l1, x1, n1⟩ := savePass_vars dimInt h (hs p (by simp)) e1
    obtain ⟨f2, e2, ⟨l2, x2, n2⟩, p2⟩ := uvmat_savePasses_at dimInt ps (i + 1) f1 b1 (fun q hq => hs q (by simp [hq]))
    refine ⟨f2, ?_, ⟨l1 ++ l2, by rw [x2, x1, List.append_assoc], ?_⟩, ?_⟩
    · rw [savePasses, e1]; exact e2
    · intro q hq
      rcases List.mem_append.1 hq with hq | hq
      · obtain ⟨t, ht⟩ := n1 q hq
        exact ⟨i, t, by omega, ht⟩
      · obtain ⟨j, t, hj, ht⟩ := n2 q hq
        exact ⟨j, t, by omega, ht⟩
    · intro k q hk
      cases k with
      | zero =>
        simp only [List.getElem?_cons_zero, Option.some.injEq] at hk
        subst hk
        refine ⟨f, f1, h, e1, fun s => get_civ_append x2 ?_⟩
        intro r hr
        obtain ⟨j, t, hj, ht⟩ := n2 r hr
        exact ⟨j, t, by omega, ht⟩
      | succ k =>
        have := p2 k q (by simpa using hk)
        rwa [show i + 1 + k = i + (k + 1) from by omega] at this

/-- A pass for which nothing is written in the `try` block has no smoothed field and no weight. -/
theorem no_tps_fields (dimInt : Bool) (passes : List Pass) (h : ∀ p ∈ passes, SameLengths p) (i : Nat) (p : Pass)
    (hp : passes[i]? = some p) (hr : ∀ g, (run g (tpsOps dimInt i p)).1.vars = g.vars) :
    ∃ f, saveAsUvmat dimInt passes = (f, none) ∧
      ∀ s ∈ ["U_smooth", "V_smooth", "U_tps", "V_tps", "NbCentres"], f.get (civ i s) = none := by
  obtain ⟨f, e, -, hf⟩ := uvmat_savePasses_at dimInt passes 0 emptyFile before_empty h
  refine ⟨f, e, ?_⟩
  intro s hs
  obtain ⟨g, g', hb, hg, hget⟩ := hf i p hp
  simp only [Nat.zero_add] at hb hg hget
  rw [hget]
  obtain ⟨T, D, e', hT, -, hrun⟩ := uvmat_savePass_file dimInt hb (h p (List.mem_of_getElem? hp))
  rw [hg] at e'
  injection e' with e'
  have hTnil : T = [] := by
    have : (if p.useTps then (run (headFile i g p) (tpsOps dimInt i p)).1 else headFile i g p).vars = (headFile i g p).vars := by
      split
      · exact hr _
      · rfl
    rw [hrun] at this
    simpa using this
  subst e' hTnil
  unfold File.get
  rw [lookup_eq_none_of_not_mem]
  · rfl
  · intro hc
    simp only [headFile, List.append_nil, List.map_append, List.mem_append] at hc
    rcases hc with (hc | hc) | hc
    · exact vars_new hb s hc
    · simp only [List.map_map, List.mem_map, Function.comp_apply] at hc
      obtain ⟨q, hq, hc⟩ := hc
      have := String.toList_inj.1 (civ_inj hc).2
      subst this
      simp only [headVars, List.mem_cons, List.not_mem_nil, or_false] at hq
      rcases hq with rfl | rfl | rfl | rfl <;> simp at hs
    · simp only [List.map_map, List.mem_map, Function.comp_apply] at hc
      obtain ⟨q, hq, hc⟩ := hc
      have := String.toList_inj.1 (civ_inj hc).2
      subst this
      simp only [tailVars, List.mem_cons, List.not_mem_nil, or_false] at hq
      rcases hq with rfl | rfl | rfl <;> simp at hs

theorem apply_dim_vars {f f' : File} {name : Name} {size : Except PyErr Nat} (h : Op.apply f (.dim name size) = .ok f') :
    f'.vars = f.vars := by
  obtain ⟨⟨l, h1, h2⟩, -⟩ := apply_extends _ _ _ h
  cases l with
  | nil => simpa using h1
  | cons q l => have := h2 q (by simp); simp [Op.varNames] at this

/-- The first smoothed field cannot be written: nothing is. -/
theorem tps_nothing (dimInt : Bool) (i : Nat) (p : Pass) (e : PyErr) (h : smoothData p Prod.fst = .error e) (g : File) :
    (run g (tpsOps dimInt i p)).1.vars = g.vars := by
  unfold tpsOps
  rw [run]
  cases h1 : Op.apply g (.dim (nbSubdomain i) (tpsSize p 0)) with
  | error e => rfl
  | ok g1 =>
    have v1 := apply_dim_vars h1
    simp only
    rw [run]
    cases h2 : Op.apply g1 (.dim (nbTps i) (tpsSize p 1)) with
    | error e => exact v1
    | ok g2 =>
      have v2 := apply_dim_vars h2
      simp only
      rw [run, h]
      simp only [Op.apply]
      rw [v2, v1]

/-- C83 is false for the smoothed fields: as soon as one vector is NaN, the arrays of the smoothed fields (one value per vector) do
not have the length of the values to be set and nothing is written, neither the smoothed fields nor the weights; there is no
error. -/
theorem C83_nan_fails (dimInt : Bool) (passes : List Pass) (h : ∀ p ∈ passes, SameLengths p) (i : Nat) (p : Pass)
    (hp : passes[i]? = some p) (sx sy : List (Option ℚ)) (hs : p.smooth = some (sx, sy)) (hl : sx.length = p.xs.length)
    (h2 : 2 ≤ p.xs.length) (hnan : none ∈ p.deltaxs) :
    ∃ f, saveAsUvmat dimInt passes = (f, none) ∧
      ∀ s ∈ ["U_smooth", "V_smooth", "U_tps", "V_tps", "NbCentres"], f.get (civ i s) = none := by
  refine no_tps_fields dimInt passes h i p hp ?_
  have hlen := (h p (List.mem_of_getElem? hp)).2.1
  have hlt : (p.deltaxs.filter Option.isSome).length < p.deltaxs.length := by
    rw [List.length_filter_lt_length_iff_exists]
    exact ⟨none, hnan, by simp⟩
  refine tps_nothing dimInt i p .valueError ?_
  unfold smoothData
  rw [hs]
  simp only
  have : putAt p.deltaxs sx = .error .valueError := by
    unfold putAt
    simp only
    rw [if_neg (by omega)]
    match sx, hl with
    | [], hl => rfl
    | [_], hl => simp at hl; omega
    | _ :: _ :: _, _ => rfl
  rw [this]

/-- C83 is false for the passes before the last one, and for a last pass where the thin plate splines have failed: without the
attribute `deltaxs_smooth` the weights are not written even when they are in the result. -/
theorem C83_not_last_fails (dimInt : Bool) (passes : List Pass) (h : ∀ p ∈ passes, SameLengths p) (i : Nat) (p : Pass)
    (hp : passes[i]? = some p) (hs : p.smooth = none) :
    ∃ f, saveAsUvmat dimInt passes = (f, none) ∧
      ∀ s ∈ ["U_smooth", "V_smooth", "U_tps", "V_tps", "NbCentres"], f.get (civ i s) = none := by
  refine no_tps_fields dimInt passes h i p hp ?_
  refine tps_nothing dimInt i p .attributeError ?_
  unfold smoothData
  rw [hs]

/-- C83 is false with several sub-domains of different numbers of vectors: the lists of weights do not make an array, and nothing is
written, neither the weights nor the smoothed fields. -/
theorem C83_subdomains_fails (dimInt : Bool) (passes : List Pass) (h : ∀ p ∈ passes, SameLengths p) (i : Nat) (p : Pass)
    (hp : passes[i]? = some p) (wx wy : List (List ℚ)) (ht : p.tps = some (wx, wy)) (a b : List ℚ) (ha : a ∈ wx) (hb : b ∈ wx)
    (hab : a.length ≠ b.length) :
    ∃ f, saveAsUvmat dimInt passes = (f, none) ∧
      ∀ s ∈ ["U_smooth", "V_smooth", "U_tps", "V_tps", "NbCentres"], f.get (civ i s) = none := by
  refine no_tps_fields dimInt passes h i p hp ?_
  intro g
  have hsh : shapeMat wx = .error .valueError := by
    unfold shapeMat
    cases wx with
    | nil => cases ha
    | cons c l =>
      simp only
      rw [if_neg]
      intro hc
      have hall : ∀ x ∈ c :: l, x.length = c.length := by
        intro x hx
        rcases List.mem_cons.1 hx with rfl | hx
        · rfl
        · simpa using List.all_eq_true.1 hc x hx
      exact hab ((hall a ha).trans (hall b hb).symm)
  have : tpsSize p 0 = .error .valueError := by
    unfold tpsSize
    rw [ht]
    simp only
    rw [hsh]
  unfold tpsOps
  rw [run, this]
  rfl

theorem putAt_all {ds vs : List (Option ℚ)} (hn : none ∉ ds) (hl : vs.length = ds.length) : putAt ds vs = .ok vs := by
  have hf : ds.filter Option.isSome = ds := by
    rw [List.filter_eq_self]
    intro x hx
    cases x with
    | none => exact absurd hx hn
    | some v => rfl
  unfold putAt
  simp only
  rw [hf, if_pos hl]
  congr 1
  induction ds generalizing vs with
  | nil => cases vs with
    | nil => rfl
    | cons v vs => simp at hl
  | cons x ds ih =>
    cases vs with
    | nil => simp at hl
    | cons v vs =>
      cases x with
      | none => simp at hn
      | some y =>
        rw [putAt.go]
        simp only [List.length_cons, Nat.add_right_cancel_iff] at hl
        have hn' : none ∉ ds := fun hc => hn (by simp [hc])
        rw [ih hn' hl]
        rw [List.filter_eq_self]
        intro z hz
        cases z with
        | none => exact absurd hz hn'
        | some v => rfl

/-- Prefixes of the names of the dimensions. -/
theorem dims_distinct (i : Nat) : nbSubdomain i ≠ nbVec i ∧ nbTps i ≠ nbVec i ∧ nbTps i ≠ nbSubdomain i ∧
    nbVecTps i ≠ nbVec i ∧ nbVecTps i ≠ nbSubdomain i ∧ nbVecTps i ≠ nbTps i := by
  have gen : ∀ (a b : String), a.toList ≠ b.toList → (∀ c ∈ a.toList.getLast?, (digitVal c).isSome = false) →
      (∀ c ∈ b.toList.getLast?, (digitVal c).isSome = false) → a.toList ++ natStr (i + 1) ≠ b.toList ++ natStr (i + 1) :=
    fun a b hab ha hb hc => hab (nbNames_inj _ _ _ _ ha hb hc).1
  refine ⟨?_, ?_, ?_, ?_, ?_, ?_⟩ <;> exact gen _ _ (by decide) (by decide) (by decide)

/-- A variable whose name is new and whose dimensions fit is created. -/
theorem apply_var {f g : File} {name : Name} {dims : List Name} {data : Data} {shape : List Nat}
    (hv : name ∉ f.vars.map Prod.fst) (hs : data.shape = .ok shape) (hd : fitDims f dims shape = .ok g) :
    Op.apply f (.var name dims (.ok data)) = .ok { g with vars := g.vars ++ [(name, dims, data)] } := by
  unfold Op.apply createVar
  simp only
  rw [lookup_eq_none_of_not_mem hv]
  simp only [hs, hd]

theorem shapeMat_ok {l : List (List ℚ)} {m : Nat} (hl : l ≠ []) (hm : ∀ a ∈ l, a.length = m) : shapeMat l = .ok [l.length, m] := by
  cases l with
  | nil => exact absurd rfl hl
  | cons a l =>
    unfold shapeMat
    simp only
    rw [if_pos, hm a (by simp)]
    rw [List.all_eq_true]
    intro b hb
    simp [hm a (by simp), hm b (by simp [hb])]

/-- The variables of the `try` block when nothing fails. -/
def tpsVars (dimInt : Bool) (i : Nat) (sx sy : List (Option ℚ)) (wx wy : List (List ℚ)) : List (String × List Name × Data) :=
  [("U_smooth", [nbVec i], .vec sx), ("V_smooth", [nbVec i], .vec sy), ("U_tps", [nbSubdomain i, nbVecTps i], .mat wx),
   ("V_tps", [nbSubdomain i, nbVecTps i], .mat wy)] ++
    (if dimInt then [("NbCentres", [nbSubdomain i], .ints (wx.map List.length))] else [])

theorem civ_new {g : File} {i : Nat} {s : String} {l : List (String × List Name × Data)} {v : List (Name × List Name × Data)}
    (hg : g.vars = v ++ l.map fun q => (civ i q.1, q.2)) (hv : civ i s ∉ v.map Prod.fst) (hs : s ∉ l.map Prod.fst) :
    civ i s ∉ g.vars.map Prod.fst := by
  intro hc
  rw [hg, List.map_append, List.mem_append] at hc
  rcases hc with hc | hc
  · exact hv hc
  · simp only [List.map_map, List.mem_map, Function.comp_apply] at hc
    obtain ⟨q, hq, hc⟩ := hc
    exact hs (List.mem_map.2 ⟨q, hq, String.toList_inj.1 (civ_inj hc).2⟩)

theorem run_tps (dimInt : Bool) {i n : Nat} {f : File} (p : Pass) (sx sy : List (Option ℚ)) (wx wy : List (List ℚ)) (m : Nat)
    (hs : p.smooth = some (sx, sy)) (ht : p.tps = some (wx, wy)) (hn : none ∉ p.deltaxs) (hpn : p.deltaxs.length = n)
    (hsx : sx.length = n) (hsy : sy.length = n) (hw : wx ≠ []) (hwl : wy.length = wx.length)
    (hm : ∀ a ∈ wx, a.length = m) (hm' : ∀ a ∈ wy, a.length = m)
    (hd : f.dims.lookup (nbVec i) = some n) (hd1 : nbSubdomain i ∉ f.dims.map Prod.fst) (hd2 : nbTps i ∉ f.dims.map Prod.fst)
    (hd3 : nbVecTps i ∉ f.dims.map Prod.fst)
    (hv : ∀ s ∈ tpsSuffixes, civ i s ∉ f.vars.map Prod.fst) :
    (run f (tpsOps dimInt i p)).1.vars = f.vars ++ (tpsVars dimInt i sx sy wx wy).map fun q => (civ i q.1, q.2) := by
  obtain ⟨n1, n2, n3, n4, n5, n6⟩ := dims_distinct i
  have hwy : wy ≠ [] := by intro hc; apply hw; rw [hc] at hwl; exact List.length_eq_zero_iff.1 hwl.symm
  have s0 : tpsSize p 0 = .ok wx.length := by unfold tpsSize; rw [ht]; simp only; rw [shapeMat_ok hw hm]; rfl
  have s1 : tpsSize p 1 = .ok m := by unfold tpsSize; rw [ht]; simp only; rw [shapeMat_ok hw hm]; rfl
  have d1 : smoothData p Prod.fst = .ok (.vec sx) := by
    unfold smoothData; rw [hs]; simp only; rw [putAt_all hn (by omega)]
  have d2 : smoothData p Prod.snd = .ok (.vec sy) := by
    unfold smoothData; rw [hs]; simp only; rw [putAt_all hn (by omega)]
  have d3 : tpsData p Prod.fst = .ok (.mat wx) := by unfold tpsData; rw [ht]
  have d4 : tpsData p Prod.snd = .ok (.mat wy) := by unfold tpsData; rw [ht]
  unfold tpsOps
  rw [s0, s1, d1, d2, d3, d4]
  -- the two dimensions
  let f1 : File := ⟨f.dims ++ [(nbSubdomain i, wx.length)], f.vars⟩
  let f2 : File := ⟨f1.dims ++ [(nbTps i, m)], f.vars⟩
  have a1 : Op.apply f (.dim (nbSubdomain i) (.ok wx.length)) = .ok f1 := by
    unfold Op.apply setDim; simp only; rw [lookup_eq_none_of_not_mem hd1]
  have a2 : Op.apply f1 (.dim (nbTps i) (.ok m)) = .ok f2 := by
    unfold Op.apply setDim; simp only; rw [lookup_eq_none_of_not_mem]
    simp only [f1, List.map_append, List.mem_append, List.map_cons, List.map_nil, List.mem_singleton, not_or]
    exact ⟨hd2, n3⟩
  have l1 : ∀ x, f2.dims.lookup (nbVec i) = some x ↔ x = n := by
    intro x
    have : f2.dims.lookup (nbVec i) = some n := uvmat_lookup_append_left _ _ _ _ (uvmat_lookup_append_left _ _ _ _ hd)
    rw [this]; simp [eq_comm]
  have l1' := (l1 n).2 rfl
  have l2 : f2.dims.lookup (nbSubdomain i) = some wx.length := by
    apply uvmat_lookup_append_left
    rw [uvmat_lookup_append_right _ _ _ hd1]
    simp
  have l3 : f2.dims.lookup (nbVecTps i) = none := by
    apply lookup_eq_none_of_not_mem
    simp only [f2, f1, List.map_append, List.mem_append, List.map_cons, List.map_nil, List.mem_singleton, not_or]
    exact ⟨⟨hd3, n5⟩, n6⟩
  let f3 : File := ⟨f2.dims, f.vars ++ ([("U_smooth", [nbVec i], Data.vec sx)] : List (String × List Name × Data)).map fun q => (civ i q.1, q.2)⟩
  let f4 : File := ⟨f2.dims, f.vars ++ ([("U_smooth", [nbVec i], Data.vec sx), ("V_smooth", [nbVec i], .vec sy)] :
    List (String × List Name × Data)).map fun q => (civ i q.1, q.2)⟩
  let f5 : File := ⟨f2.dims ++ [(nbVecTps i, m)], f.vars ++ ([("U_smooth", [nbVec i], Data.vec sx), ("V_smooth", [nbVec i], .vec sy),
    ("U_tps", [nbSubdomain i, nbVecTps i], .mat wx)] : List (String × List Name × Data)).map fun q => (civ i q.1, q.2)⟩
  let f6 : File := ⟨f2.dims ++ [(nbVecTps i, m)], f.vars ++ ([("U_smooth", [nbVec i], Data.vec sx), ("V_smooth", [nbVec i], .vec sy),
    ("U_tps", [nbSubdomain i, nbVecTps i], .mat wx), ("V_tps", [nbSubdomain i, nbVecTps i], .mat wy)] :
    List (String × List Name × Data)).map fun q => (civ i q.1, q.2)⟩
  have a3 : Op.apply f2 (.var (civ i "U_smooth") [nbVec i] (.ok (.vec sx))) = .ok f3 := by
    rw [apply_var (f := f2) (g := f2) (data := .vec sx) (shape := [sx.length]) (hv "U_smooth" (by simp [tpsSuffixes])) rfl]
    · rfl
    · simp [fitDims, l1', hsx]
  have a4 : Op.apply f3 (.var (civ i "V_smooth") [nbVec i] (.ok (.vec sy))) = .ok f4 := by
    rw [apply_var (f := f3) (g := f3) (data := .vec sy) (shape := [sy.length]) (civ_new (g := f3) rfl (hv "V_smooth" (by simp [tpsSuffixes])) (by simp)) rfl]
    · simp [f3, f4]
    · simp [f3, fitDims, l1', hsy]
  have a5 : Op.apply f4 (.var (civ i "U_tps") [nbSubdomain i, nbVecTps i] (.ok (.mat wx))) = .ok f5 := by
    rw [apply_var (f := f4) (data := .mat wx) (g := ⟨f2.dims ++ [(nbVecTps i, m)], f4.vars⟩) (shape := [wx.length, m])
      (civ_new (g := f4) rfl (hv "U_tps" (by simp [tpsSuffixes])) (by simp)) (shapeMat_ok hw hm)]
    · simp [f4, f5]
    · simp [f4, fitDims, l2, l3]
  have l2' : f5.dims.lookup (nbSubdomain i) = some wx.length := uvmat_lookup_append_left _ _ _ _ l2
  have l3' : f5.dims.lookup (nbVecTps i) = some m := by
    show (f2.dims ++ [(nbVecTps i, m)]).lookup (nbVecTps i) = some m
    rw [uvmat_lookup_append_right]
    · simp
    · intro hc
      rw [List.lookup_eq_none_iff] at l3
      obtain ⟨q, hq, he⟩ := List.mem_map.1 hc
      have := l3 q hq
      simp [he] at this
  have a6 : Op.apply f5 (.var (civ i "V_tps") [nbSubdomain i, nbVecTps i] (.ok (.mat wy))) = .ok f6 := by
    rw [apply_var (f := f5) (data := .mat wy) (g := f5) (shape := [wy.length, m])
      (civ_new (g := f5) rfl (hv "V_tps" (by simp [tpsSuffixes])) (by simp)) (shapeMat_ok hwy hm')]
    · simp [f5, f6]
    · simp [fitDims, l2', l3', hwl]
  rw [run, a1]; simp only
  rw [run, a2]; simp only
  rw [run, a3]; simp only
  rw [run, a4]; simp only
  rw [run, a5]; simp only
  rw [run, a6]; simp only
  rw [run]
  cases dimInt with
  | false =>
    unfold nbCentres
    rw [ht]
    simp [Op.apply, f6, tpsVars]
  | true =>
    have d5 : nbCentres true p = .ok (.ints (wx.map List.length)) := by unfold nbCentres; rw [ht]; simp
    rw [d5, apply_var (f := f6) (data := .ints (wx.map List.length)) (g := f6) (shape := [(wx.map List.length).length])
      (civ_new (g := f6) rfl (hv "NbCentres" (by simp [tpsSuffixes])) (by simp)) rfl]
    · simp [run, f6, tpsVars]
    · have : f6.dims.lookup (nbSubdomain i) = some wx.length := l2'
      simp [fitDims, this]

/-- C83, what holds for the smoothed fields: when no vector is NaN and all the sub-domains have the same number of vectors (one
sub-domain for example), they are in the file with the weights; the numbers of weights only with the versions of `h5netcdf` where the
size of a dimension is an integer. -/
theorem C83_smooth_partial (dimInt : Bool) (passes : List Pass) (h : ∀ p ∈ passes, SameLengths p) (i : Nat) (p : Pass)
    (hp : passes[i]? = some p) (hu : p.useTps = true) (sx sy : List (Option ℚ)) (wx wy : List (List ℚ)) (m : Nat)
    (hs : p.smooth = some (sx, sy)) (ht : p.tps = some (wx, wy)) (hn : none ∉ p.deltaxs)
    (hsx : sx.length = p.xs.length) (hsy : sy.length = p.xs.length) (hw : wx ≠ []) (hwl : wy.length = wx.length)
    (hm : ∀ a ∈ wx, a.length = m) (hm' : ∀ a ∈ wy, a.length = m) :
    ∃ f, saveAsUvmat dimInt passes = (f, none) ∧ f.get (civ i "U_smooth") = some (.vec sx) ∧
      f.get (civ i "V_smooth") = some (.vec sy) ∧ f.get (civ i "U_tps") = some (.mat wx) ∧ f.get (civ i "V_tps") = some (.mat wy) ∧
      f.get (civ i "NbCentres") = if dimInt then some (.ints (wx.map List.length)) else none := by
  obtain ⟨f, e, -, hf⟩ := uvmat_savePasses_at dimInt passes 0 emptyFile before_empty h
  obtain ⟨g, g', hb, hg, hget⟩ := hf i p hp
  simp only [Nat.zero_add] at hb hg hget
  have hl := h p (List.mem_of_getElem? hp)
  obtain ⟨T, D, e', hT, -, hrun⟩ := uvmat_savePass_file dimInt hb hl
  rw [hg] at e'
  injection e' with e' _
  have hdim : ∀ a, a ∈ [nbSubdomain i, nbTps i, nbVecTps i] → a ∉ (headFile i g p).dims.map Prod.fst := by
    intro a ha hc
    obtain ⟨n1, n2, n3, n4, n5, n6⟩ := dims_distinct i
    simp only [headFile, List.map_append, List.mem_append, List.map_cons, List.map_nil, List.mem_singleton] at hc
    simp only [List.mem_cons, List.not_mem_nil, or_false] at ha
    rcases hc with hc | hc
    · obtain ⟨q, hq, he⟩ := List.mem_map.1 hc
      have := hb.2 q hq i (Nat.le_refl _)
      rcases ha with rfl | rfl | rfl
      · exact this.2.1 he
      · exact this.2.2.1 he
      · exact this.2.2.2 he
    · rcases ha with rfl | rfl | rfl
      · exact n1 hc
      · exact n2 hc
      · exact n4 hc
  have hnew : ∀ s ∈ tpsSuffixes, civ i s ∉ (headFile i g p).vars.map Prod.fst := by
    intro s hs hc
    simp only [headFile, List.map_append, List.mem_append] at hc
    rcases hc with hc | hc
    · exact vars_new hb s hc
    · simp only [List.map_map, List.mem_map, Function.comp_apply] at hc
      obtain ⟨q, hq, hc⟩ := hc
      have := String.toList_inj.1 (civ_inj hc).2
      subst this
      simp only [headVars, List.mem_cons, List.not_mem_nil, or_false] at hq
      rcases hq with rfl | rfl | rfl | rfl <;> simp [tpsSuffixes] at hs
  have hTeq : T = (tpsVars dimInt i sx sy wx wy).map fun q => (civ i q.1, q.2) := by
    have hv := run_tps dimInt (i := i) (n := p.xs.length) (f := headFile i g p) p sx sy wx wy m hs ht hn hl.2.1 hsx hsy hw hwl hm hm'
      (by
        unfold headFile
        simp only
        rw [uvmat_lookup_append_right]
        · simp
        · intro hc
          obtain ⟨q, hq, he⟩ := List.mem_map.1 hc
          exact (hb.2 q hq i (Nat.le_refl _)).1 he)
      (hdim _ (by simp)) (hdim _ (by simp)) (hdim _ (by simp)) hnew
    rw [hu, if_pos rfl] at hrun
    rw [hrun] at hv
    simpa using hv
  have hgv : g'.vars = ((headFile i g p).vars ++ T) ++
      ((tailVars p).map fun q => (civ i q.1, q.2)).map fun q => (q.1, [nbVec i], Data.vec q.2) := by rw [e']
  have key : ∀ s ∈ tpsSuffixes, ∀ d, (tpsVars dimInt i sx sy wx wy).lookup s = some d → g'.get (civ i s) = some d.2 := by
    intro s hs d hd
    refine get_left (f := ⟨(headFile i g p).dims, (headFile i g p).vars ++ T⟩) hgv ?_
    unfold File.get
    simp only
    rw [uvmat_lookup_append_right _ _ _ (hnew s hs), hTeq, lookup_civ, hd]
    rfl
  refine ⟨f, e, ?_⟩
  rw [hget, hget, hget, hget, hget]
  refine ⟨key "U_smooth" (by simp [tpsSuffixes]) _ rfl, key "V_smooth" (by simp [tpsSuffixes]) _ rfl,
    key "U_tps" (by simp [tpsSuffixes]) _ rfl, key "V_tps" (by simp [tpsSuffixes]) _ rfl, ?_⟩
  cases dimInt with
  | true => exact key "NbCentres" (by simp [tpsSuffixes]) _ rfl
  | false =>
    unfold File.get
    rw [hgv, hTeq, lookup_eq_none_of_not_mem]
    · rfl
    · intro hc
      simp only [List.map_append, List.mem_append] at hc
      rcases hc with (hc | hc) | hc
      · exact hnew _ (by simp [tpsSuffixes]) hc
      · simp only [List.map_map, List.mem_map, Function.comp_apply] at hc
        obtain ⟨q, hq, hc⟩ := hc
        have := String.toList_inj.1 (civ_inj hc).2
        simp only [tpsVars, List.mem_append, List.mem_cons, List.not_mem_nil, or_false] at hq
        rcases hq with (rfl | rfl | rfl | rfl) | hq
        · simp at this
        · simp at this
        · simp at this
        · simp at this
        · simp at hq
      · simp only [List.map_map, List.mem_map, Function.comp_apply] at hc
        obtain ⟨q, hq, hc⟩ := hc
        have := String.toList_inj.1 (civ_inj hc).2
        simp only [tailVars, List.mem_cons, List.not_mem_nil, or_false] at hq
        rcases hq with rfl | rfl | rfl <;> simp at this

/-- Specification of the names of the variables: `Civ`, the number of the pass counted from 1 written in base 10, `_` and the name of
the field. -/
def IsUvmatName (number : Nat) (field : String) (x : List Char) : Prop :=
  ∃ d, x = "Civ".toList ++ d ++ "_".toList ++ field.toList ∧ digitsVal 0 d = some number

/-- C83: the variables of the pass at index `i` have the number `i + 1` in their names. -/
theorem C83_names (i : Nat) (field : String) : IsUvmatName (i + 1) field (civ i field) :=
  ⟨natStr (i + 1), by simp [civ], digitsVal_natStr _⟩

example : IsUvmatName 1 "U" "Civ1_U".toList ∧ civ 0 "U" = "Civ1_U".toList :=
  ⟨⟨"1".toList, by decide, by decide⟩, by simp [civ, show natStr 1 = ['1'] by decide +kernel]⟩

theorem uvmat_go : ∀ (d v : List (Option ℚ)), v.length = (d.filter Option.isSome).length →
    (putAt.go d v).length = d.length ∧ ((d.zip (putAt.go d v)).filter fun q => q.1.isSome).map Prod.snd = v ∧
      ∀ q ∈ d.zip (putAt.go d v), q.1 = none → q.2 = some 0
  | [], [], _ => by simp [putAt.go]
  | [], v :: vs, h => by simp at h
  | none :: d, v, h => by
    obtain ⟨h1, h2, h3⟩ := uvmat_go d v (by simpa using h)
    simp only [putAt.go, List.length_cons, List.zip_cons_cons, List.mem_cons, h1, true_and]
    refine ⟨by simpa using h2, ?_⟩
    rintro q (rfl | hq) hn
    · rfl
    · exact h3 q hq hn
  | some x :: d, [], h => by simp at h
  | some x :: d, v :: vs, h => by
    obtain ⟨h1, h2, h3⟩ := uvmat_go d vs (by simpa using h)
    simp only [putAt.go, List.length_cons, List.zip_cons_cons, List.mem_cons, h1, true_and]
    refine ⟨by simpa using h2, ?_⟩
    rintro q (rfl | hq) hn
    · simp at hn
    · exact h3 q hq hn

/-- C83: values given only for the vectors which are not NaN are put at the places of these vectors, in the same order, with zeros
elsewhere. -/
theorem C83_put (d v : List (Option ℚ)) (h : v.length = (d.filter Option.isSome).length) :
    ∃ r, putAt d v = .ok r ∧ r.length = d.length ∧ ((d.zip r).filter fun q => q.1.isSome).map Prod.snd = v ∧
      ∀ q ∈ d.zip r, q.1 = none → q.2 = some 0 := by
  obtain ⟨h1, h2, h3⟩ := uvmat_go d v h
  exact ⟨putAt.go d v, by simp [putAt, h], h1, h2, h3⟩

example : putAt [some 3, none, some 4] [some 1, some 2] = .ok [some 1, some 0, some 2] := by decide +kernel

/-! ## Concrete cases -/

/-- A first pass with a vector which is NaN and weights, and a last pass without NaN. -/
def uvmatWitness : List Pass :=
  [⟨[2, 6], [3, 3], [some 1, none], [some 0, none], [some (1 / 2), none], true, none, some ([[1, 2, 3, 4]], [[0, 0, 0, 0]])⟩,
   ⟨[2, 6], [3, 3], [some 1, some 2], [some 0, some (1 / 3)], [some (1 / 2), some (3 / 4)], true,
    some ([some 1, some 2], [some 0, some 0]), some ([[1, 2, 3, 4, 5]], [[0, 0, 0, 0, 0]])⟩]

example : ∀ p ∈ uvmatWitness, SameLengths p := by simp [uvmatWitness, SameLengths]

example : ∃ f, saveAsUvmat false uvmatWitness = (f, none) ∧ HasPass f 0 uvmatWitness[0] ∧ HasPass f 1 uvmatWitness[1] := by
  obtain ⟨f, h1, h2⟩ := C83_saved false uvmatWitness (by simp [uvmatWitness, SameLengths])
  exact ⟨f, h1, h2 0 _ rfl, h2 1 _ rfl⟩

example : ∃ f, saveAsUvmat false uvmatWitness = (f, none) ∧ f.get (civ 0 "U_tps") = none := by
  obtain ⟨f, h1, h2⟩ := C83_not_last_fails false uvmatWitness (by simp [uvmatWitness, SameLengths]) 0 _ rfl rfl
  exact ⟨f, h1, h2 _ (by simp)⟩

example : ∃ f, saveAsUvmat true uvmatWitness = (f, none) ∧ f.get (civ 1 "U_smooth") = some (.vec [some 1, some 2]) ∧
    f.get (civ 1 "NbCentres") = some (.ints [5]) := by
  obtain ⟨f, h1, h2, _, _, _, h3⟩ := C83_smooth_partial true uvmatWitness (by simp [uvmatWitness, SameLengths]) 1 _ rfl rfl
    [some 1, some 2] [some 0, some 0] [[1, 2, 3, 4, 5]] [[0, 0, 0, 0, 0]] 5 rfl rfl (by simp) rfl rfl (by simp) rfl (by simp) (by simp)
  exact ⟨f, h1, h2, by simpa using h3⟩

/-- A last pass with a NaN vector, and one with two sub-domains of different sizes. -/
def uvmatWitness2 : List Pass :=
  [⟨[2, 6], [3, 3], [some 1, none], [some 0, none], [some (1 / 2), none], true, some ([some 1, some 2], [some 0, some 0]),
    some ([[1, 2, 3, 4]], [[0, 0, 0, 0]])⟩,
   ⟨[2, 6], [3, 3], [some 1, some 1], [some 0, some 0], [some (1 / 2), some 1], true, some ([some 1, some 2], [some 0, some 0]),
    some ([[1, 2, 3, 4], [1, 2, 3, 4, 5]], [[0, 0, 0, 0], [0, 0, 0, 0, 0]])⟩]

example : ∃ f, saveAsUvmat false uvmatWitness2 = (f, none) ∧ f.get (civ 0 "U_smooth") = none := by
  obtain ⟨f, h1, h2⟩ := C83_nan_fails false uvmatWitness2 (by simp [uvmatWitness2, SameLengths]) 0 _ rfl _ _ rfl rfl (by decide)
    (by simp)
  exact ⟨f, h1, h2 _ (by simp)⟩

example : ∃ f, saveAsUvmat false uvmatWitness2 = (f, none) ∧ f.get (civ 1 "U_smooth") = none := by
  obtain ⟨f, h1, h2⟩ := C83_subdomains_fails false uvmatWitness2 (by simp [uvmatWitness2, SameLengths]) 1 _ rfl _ _ rfl
    [1, 2, 3, 4] [1, 2, 3, 4, 5] (by simp) (by simp) (by simp)
  exact ⟨f, h1, h2 _ (by simp)⟩

end Verif
