import Verif.Model.MeanNeighbors
import Verif.Props.Uvmat
import Mathlib.Tactic.Linarith
import Mathlib.Tactic.Ring
import Mathlib.Data.List.Nodup
import Mathlib.Data.List.Perm.Subperm
import Mathlib.Algebra.BigOperators.Group.List.Basic

/-!
# Mean over the neighbours (C41)
-/

namespace Verif
open Verif.PivGrid Verif.CorrelDirect Verif.MeanNeighbors

/-- The points of an array `n0 x n1` which touch `(i, j)` (also by a corner). -/
def neighbours (n0 n1 i j : Nat) : List (Nat × Nat) :=
  ((List.range n0).flatMap (fun i' => (List.range n1).map (fun j' => (i', j')))).filter
    (fun p => decide (p ≠ (i, j) ∧ p.1 ≤ i + 1 ∧ i ≤ p.1 + 1 ∧ p.2 ≤ j + 1 ∧ j ≤ p.2 + 1))

/-- The vectors of the neighbours which have one (no component is NaN). -/
def neighbourVectors (dx dy : Img (Option ℚ)) (i j : Nat) : List (ℚ × ℚ) :=
  (neighbours dx.ny dx.nx i j).filterMap (fun p => match dx.get p.1 p.2, dy.get p.1 p.2 with
    | some x, some y => some (x, y)
    | _, _ => none)

theorem mem_neighbours {n0 n1 i j i' j' : Nat} : (i', j') ∈ neighbours n0 n1 i j ↔
    i' < n0 ∧ j' < n1 ∧ ¬ (i' = i ∧ j' = j) ∧ i' ≤ i + 1 ∧ i ≤ i' + 1 ∧ j' ≤ j + 1 ∧ j ≤ j' + 1 := by
  unfold neighbours
  rw [List.mem_filter, List.mem_flatMap]
  simp only [List.mem_range, List.mem_map, Prod.mk.injEq, decide_eq_true_iff, ne_eq]
  constructor
  · rintro ⟨⟨a, ha, b, hb, rfl, rfl⟩, h⟩; exact ⟨ha, hb, h⟩
  · rintro ⟨ha, hb, h⟩; exact ⟨⟨i', ha, j', hb, rfl, rfl⟩, h⟩

theorem nodup_neighbours (n0 n1 i j : Nat) : (neighbours n0 n1 i j).Nodup := by
  unfold neighbours
  apply List.Nodup.filter
  rw [List.nodup_flatMap]
  constructor
  · intro a _
    exact List.nodup_range.map (fun b b' h => by simpa using h)
  · refine List.Pairwise.imp ?_ (List.nodup_range (n := n0))
    intro a b hab p hp hp'
    obtain ⟨_, _, rfl⟩ := List.mem_map.1 hp
    obtain ⟨_, _, h⟩ := List.mem_map.1 hp'
    injection h with h _
    exact hab h.symm

/-- Positions read by a step. -/
def reads (s : Step) : List (Nat × Nat) := s.2.map (fun d => ((s.1.1 + d.1).toNat, (s.1.2 + d.2).toNat))

/-- A step is at a point of the array, reads points of the array, and these are the neighbours. -/
structure GoodStep (n0 n1 : Nat) (s : Step) : Prop where
  tgt : 0 ≤ s.1.1 ∧ s.1.1 < n0 ∧ 0 ≤ s.1.2 ∧ s.1.2 < n1
  ins : ∀ d ∈ s.2, 0 ≤ s.1.1 + d.1 ∧ s.1.1 + d.1 < n0 ∧ 0 ≤ s.1.2 + d.2 ∧ s.1.2 + d.2 < n1
  perm : (reads s).Perm (neighbours n0 n1 s.1.1.toNat s.1.2.toNat)

theorem goodStep_of {n0 n1 : Nat} {s : Step} (tgt : 0 ≤ s.1.1 ∧ s.1.1 < n0 ∧ 0 ≤ s.1.2 ∧ s.1.2 < n1)
    (ins : ∀ d ∈ s.2, 0 ≤ s.1.1 + d.1 ∧ s.1.1 + d.1 < n0 ∧ 0 ≤ s.1.2 + d.2 ∧ s.1.2 + d.2 < n1)
    (hn : s.2.Nodup) (hd : ∀ d ∈ s.2, d ≠ (0, 0) ∧ -1 ≤ d.1 ∧ d.1 ≤ 1 ∧ -1 ≤ d.2 ∧ d.2 ≤ 1)
    (hall : ∀ d1 d2 : Int, ¬ (d1 = 0 ∧ d2 = 0) → -1 ≤ d1 → d1 ≤ 1 → -1 ≤ d2 → d2 ≤ 1 →
      0 ≤ s.1.1 + d1 → s.1.1 + d1 < n0 → 0 ≤ s.1.2 + d2 → s.1.2 + d2 < n1 → (d1, d2) ∈ s.2) :
    GoodStep n0 n1 s := by
  refine ⟨tgt, ins, ?_⟩
  have hnd : (reads s).Nodup := by
    unfold reads
    refine (List.nodup_map_iff_inj_on hn).2 ?_
    intro a ha b hb h
    have h1 := ins a ha
    have h2 := ins b hb
    injection h with e1 e2
    refine Prod.ext ?_ ?_ <;> omega
  rw [List.perm_ext_iff_of_nodup hnd (nodup_neighbours _ _ _ _)]
  rintro ⟨i, j⟩
  rw [mem_neighbours]
  unfold reads
  rw [List.mem_map]
  constructor
  · rintro ⟨d, hdm, h⟩
    injection h with e1 e2
    have h1 := ins d hdm
    obtain ⟨h2, h3⟩ := hd d hdm
    have h4 : ¬ (d.1 = 0 ∧ d.2 = 0) := fun hc => h2 (Prod.ext hc.1 hc.2)
    omega
  · rintro ⟨h1, h2, h3, h4⟩
    refine ⟨((i : Int) - s.1.1, (j : Int) - s.1.2), ?_, ?_⟩
    · apply hall <;> omega
    · refine Prod.ext ?_ ?_ <;> simp

theorem mem_inner {n : Nat} {i : Int} : i ∈ inner n ↔ 1 ≤ i ∧ i < (n : Int) - 1 := by
  unfold inner
  rw [mem_pyRange_pos _ _ _ _ (by omega)]
  constructor
  · rintro ⟨h1, h2, _⟩; exact ⟨h1, h2⟩
  · rintro ⟨h1, h2⟩; exact ⟨h1, h2, i - 1, by omega⟩

theorem steps_good {n0 n1 : Nat} (h0 : 2 ≤ n0) (h1 : 2 ≤ n1) : ∀ s ∈ steps n0 n1, GoodStep n0 n1 s := by
  intro s hs
  have hsmall : ∀ (d1 d2 : Int), -1 ≤ d1 → d1 ≤ 1 → -1 ≤ d2 → d2 ≤ 1 →
      (d1 = -1 ∨ d1 = 0 ∨ d1 = 1) ∧ (d2 = -1 ∨ d2 = 0 ∨ d2 = 1) := by intros; omega
  have fin : ∀ (t : Int × Int) (offs : List (Int × Int)), s = (t, offs) →
      (0 ≤ t.1 ∧ t.1 < n0 ∧ 0 ≤ t.2 ∧ t.2 < n1) →
      (∀ d ∈ offs, 0 ≤ t.1 + d.1 ∧ t.1 + d.1 < n0 ∧ 0 ≤ t.2 + d.2 ∧ t.2 + d.2 < n1) →
      offs.Nodup → (∀ d ∈ offs, d ≠ (0, 0) ∧ -1 ≤ d.1 ∧ d.1 ≤ 1 ∧ -1 ≤ d.2 ∧ d.2 ≤ 1) →
      (∀ d1 d2 : Int, ¬ (d1 = 0 ∧ d2 = 0) → -1 ≤ d1 → d1 ≤ 1 → -1 ≤ d2 → d2 ≤ 1 →
        0 ≤ t.1 + d1 → t.1 + d1 < n0 → 0 ≤ t.2 + d2 → t.2 + d2 < n1 → (d1, d2) ∈ offs) → GoodStep n0 n1 s := by
    rintro t offs rfl a b c d e
    exact goodStep_of a b c d e
  unfold steps at hs
  simp only [List.mem_append] at hs
  rcases hs with ((((hs | hs) | hs) | hs) | hs) | hs
  · unfold corners at hs
    simp only [List.mem_cons, List.not_mem_nil, or_false] at hs
    rcases hs with hs | hs | hs | hs
    all_goals
      refine fin _ _ hs ?_ ?_ (by decide) (by decide) ?_
      · simp only; omega
      · intro d hd
        simp only [List.mem_cons, List.not_mem_nil, or_false] at hd
        rcases hd with rfl | rfl | rfl <;> simp only <;> omega
      · intro d1 d2 hne a1 a2 a3 a4 a5 a6 a7 a8
        obtain ⟨b1, b2⟩ := hsmall d1 d2 a1 a2 a3 a4
        simp only at a5 a6 a7 a8
        rcases b1 with rfl | rfl | rfl <;> rcases b2 with rfl | rfl | rfl <;> first | (exfalso; omega) | decide
  · unfold upper at hs
    obtain ⟨k, hk, rfl⟩ := List.mem_map.1 hs
    rw [mem_inner] at hk
    refine fin _ _ rfl ?_ ?_ (by decide) (by decide) ?_
    · simp only; omega
    · intro d hd
      simp only [List.mem_cons, List.not_mem_nil, or_false] at hd
      rcases hd with rfl | rfl | rfl | rfl | rfl <;> simp only <;> omega
    · intro d1 d2 hne a1 a2 a3 a4 a5 a6 a7 a8
      obtain ⟨b1, b2⟩ := hsmall d1 d2 a1 a2 a3 a4
      simp only at a5 a6 a7 a8
      rcases b1 with rfl | rfl | rfl <;> rcases b2 with rfl | rfl | rfl <;> first | (exfalso; omega) | decide
  · unfold bottom at hs
    obtain ⟨k, hk, rfl⟩ := List.mem_map.1 hs
    rw [mem_inner] at hk
    refine fin _ _ rfl ?_ ?_ (by decide) (by decide) ?_
    · simp only; omega
    · intro d hd
      simp only [List.mem_cons, List.not_mem_nil, or_false] at hd
      rcases hd with rfl | rfl | rfl | rfl | rfl <;> simp only <;> omega
    · intro d1 d2 hne a1 a2 a3 a4 a5 a6 a7 a8
      obtain ⟨b1, b2⟩ := hsmall d1 d2 a1 a2 a3 a4
      simp only at a5 a6 a7 a8
      rcases b1 with rfl | rfl | rfl <;> rcases b2 with rfl | rfl | rfl <;> first | (exfalso; omega) | decide
  · unfold left at hs
    obtain ⟨k, hk, rfl⟩ := List.mem_map.1 hs
    rw [mem_inner] at hk
    refine fin _ _ rfl ?_ ?_ (by decide) (by decide) ?_
    · simp only; omega
    · intro d hd
      simp only [List.mem_cons, List.not_mem_nil, or_false] at hd
      rcases hd with rfl | rfl | rfl | rfl | rfl <;> simp only <;> omega
    · intro d1 d2 hne a1 a2 a3 a4 a5 a6 a7 a8
      obtain ⟨b1, b2⟩ := hsmall d1 d2 a1 a2 a3 a4
      simp only at a5 a6 a7 a8
      rcases b1 with rfl | rfl | rfl <;> rcases b2 with rfl | rfl | rfl <;> first | (exfalso; omega) | decide
  · unfold right at hs
    obtain ⟨k, hk, rfl⟩ := List.mem_map.1 hs
    rw [mem_inner] at hk
    refine fin _ _ rfl ?_ ?_ (by decide) (by decide) ?_
    · simp only; omega
    · intro d hd
      simp only [List.mem_cons, List.not_mem_nil, or_false] at hd
      rcases hd with rfl | rfl | rfl | rfl | rfl <;> simp only <;> omega
    · intro d1 d2 hne a1 a2 a3 a4 a5 a6 a7 a8
      obtain ⟨b1, b2⟩ := hsmall d1 d2 a1 a2 a3 a4
      simp only at a5 a6 a7 a8
      rcases b1 with rfl | rfl | rfl <;> rcases b2 with rfl | rfl | rfl <;> first | (exfalso; omega) | decide
  · unfold core at hs
    obtain ⟨k0, hk0, hs⟩ := List.mem_flatMap.1 hs
    obtain ⟨k1, hk1, rfl⟩ := List.mem_map.1 hs
    rw [mem_inner] at hk0 hk1
    refine fin _ _ rfl ?_ ?_ (by decide) (by decide) ?_
    · simp only; omega
    · intro d hd
      simp only [List.mem_cons, List.not_mem_nil, or_false] at hd
      rcases hd with rfl | rfl | rfl | rfl | rfl | rfl | rfl | rfl <;> simp only <;> omega
    · intro d1 d2 hne a1 a2 a3 a4 a5 a6 a7 a8
      obtain ⟨b1, b2⟩ := hsmall d1 d2 a1 a2 a3 a4
      simp only at a5 a6 a7 a8
      rcases b1 with rfl | rfl | rfl <;> rcases b2 with rfl | rfl | rfl <;> first | (exfalso; omega) | decide

theorem steps_all {n0 n1 i j : Nat} (h0 : 2 ≤ n0) (h1 : 2 ≤ n1) (hi : i < n0) (hj : j < n1) :
    ∃ s ∈ steps n0 n1, s.1.1 = (i : Int) ∧ s.1.2 = (j : Int) := by
  unfold steps
  simp only [List.mem_append]
  by_cases hi0 : i = 0
  · by_cases hj0 : j = 0
    · exact ⟨_, Or.inl (Or.inl (Or.inl (Or.inl (Or.inl (List.mem_cons_self))))), by simp [hi0], by simp [hj0]⟩
    · by_cases hj1 : j = n1 - 1
      · exact ⟨_, Or.inl (Or.inl (Or.inl (Or.inl (Or.inl (List.mem_cons_of_mem _ List.mem_cons_self))))),
          by simp [hi0], by simp only; omega⟩
      · exact ⟨_, Or.inl (Or.inl (Or.inl (Or.inl (Or.inr (List.mem_map.2 ⟨(j : Int), mem_inner.2 (by omega), rfl⟩))))),
          by simp [hi0], rfl⟩
  · by_cases hi1 : i = n0 - 1
    · by_cases hj0 : j = 0
      · exact ⟨_, Or.inl (Or.inl (Or.inl (Or.inl (Or.inl (List.mem_cons_of_mem _ (List.mem_cons_of_mem _ List.mem_cons_self)))))),
          by simp only; omega, by simp [hj0]⟩
      · by_cases hj1 : j = n1 - 1
        · exact ⟨_, Or.inl (Or.inl (Or.inl (Or.inl (Or.inl
            (List.mem_cons_of_mem _ (List.mem_cons_of_mem _ (List.mem_cons_of_mem _ List.mem_cons_self))))))),
            by simp only; omega, by simp only; omega⟩
        · exact ⟨_, Or.inl (Or.inl (Or.inl (Or.inr (List.mem_map.2 ⟨(j : Int), mem_inner.2 (by omega), rfl⟩)))),
            by simp only; omega, rfl⟩
    · by_cases hj0 : j = 0
      · exact ⟨_, Or.inl (Or.inl (Or.inr (List.mem_map.2 ⟨(i : Int), mem_inner.2 (by omega), rfl⟩))), rfl, by simp [hj0]⟩
      · by_cases hj1 : j = n1 - 1
        · exact ⟨_, Or.inl (Or.inr (List.mem_map.2 ⟨(i : Int), mem_inner.2 (by omega), rfl⟩)), rfl, by simp only; omega⟩
        · exact ⟨_, Or.inr (List.mem_flatMap.2 ⟨(i : Int), mem_inner.2 (by omega),
            List.mem_map.2 ⟨(j : Int), mem_inner.2 (by omega), rfl⟩⟩), rfl, rfl⟩

theorem pyGet_ok {α : Type} {a : Img α} {i j : Int} (h1 : 0 ≤ i) (h2 : i < a.ny) (h3 : 0 ≤ j) (h4 : j < a.nx) :
    pyGet a i j = .ok (a.get i.toNat j.toNat) := by
  unfold pyGet pyIndex
  rw [if_pos h1, if_pos h2, if_pos h3, if_pos h4]

theorem sumReads_ok (a : Img ℚ) (i0 i1 : Int) : ∀ (offs : List (Int × Int)) (t : ℚ),
    (∀ d ∈ offs, 0 ≤ i0 + d.1 ∧ i0 + d.1 < a.ny ∧ 0 ≤ i1 + d.2 ∧ i1 + d.2 < a.nx) →
    sumReads id a i0 i1 offs t =
      .ok (t + (offs.map (fun d => a.get (i0 + d.1).toNat (i1 + d.2).toNat)).sum)
  | [], t, _ => by simp [sumReads]
  | d :: offs, t, h => by
    obtain ⟨h1, h2, h3, h4⟩ := h d List.mem_cons_self
    rw [sumReads, pyGet_ok h1 h2 h3 h4]
    simp only
    rw [sumReads_ok a i0 i1 offs _ (fun d hd => h d (List.mem_cons_of_mem _ hd)), List.map_cons, List.sum_cons]
    simp only [id]
    congr 1; ring

theorem countReads_ok (b : Img Bool) (i0 i1 : Int) : ∀ (offs : List (Int × Int)) (t : Nat),
    (∀ d ∈ offs, 0 ≤ i0 + d.1 ∧ i0 + d.1 < b.ny ∧ 0 ≤ i1 + d.2 ∧ i1 + d.2 < b.nx) →
    countReads b i0 i1 offs t =
      .ok (t + (offs.map (fun d => if b.get (i0 + d.1).toNat (i1 + d.2).toNat then 1 else 0)).sum)
  | [], t, _ => by simp [countReads]
  | d :: offs, t, h => by
    obtain ⟨h1, h2, h3, h4⟩ := h d List.mem_cons_self
    rw [countReads, pyGet_ok h1 h2 h3 h4]
    simp only
    rw [countReads_ok b i0 i1 offs _ (fun d hd => h d (List.mem_cons_of_mem _ hd)), List.map_cons, List.sum_cons]
    congr 1; omega

theorem step_ok {a : Img ℚ} {b : Img Bool} (hy : b.ny = a.ny) (hx : b.nx = a.nx) (st : St) {s : Step}
    (hs : GoodStep a.ny a.nx s) : ∃ st', step a b st s = .ok st' ∧ ∀ i j : Nat,
      (s.1.1 = (i : Int) ∧ s.1.2 = (j : Int) ∧ b.get i j = true →
        st'.out i j = ((neighbours a.ny a.nx i j).map (fun p => a.get p.1 p.2)).sum ∧
        st'.nb i j = ((neighbours a.ny a.nx i j).map (fun p => if b.get p.1 p.2 then 1 else 0)).sum) ∧
      (¬ (s.1.1 = (i : Int) ∧ s.1.2 = (j : Int)) → st'.out i j = st.out i j ∧ st'.nb i j = st.nb i j) := by
  obtain ⟨⟨t1, t2, t3, t4⟩, ins, perm⟩ := hs
  have hp1 : pyIndex a.ny s.1.1 = some s.1.1.toNat := by unfold pyIndex; rw [if_pos t1, if_pos t2]
  have hp2 : pyIndex a.nx s.1.2 = some s.1.2.toNat := by unfold pyIndex; rw [if_pos t3, if_pos t4]
  unfold step
  rw [hp1, hp2]
  simp only
  by_cases hb : b.get s.1.1.toNat s.1.2.toNat = true
  · rw [if_pos hb, sumReads_ok a _ _ _ _ ins]
    simp only
    rw [countReads_ok b _ _ _ _ (by rw [hy, hx]; exact ins)]
    simp only
    refine ⟨_, rfl, ?_⟩
    intro i j
    constructor
    · rintro ⟨e1, e2, _⟩
      have e1' : i = s.1.1.toNat := by omega
      have e2' : j = s.1.2.toNat := by omega
      simp only
      rw [if_pos ⟨e1', e2'⟩, if_pos ⟨e1', e2'⟩, zero_add, zero_add]
      have hsum := (perm.map (fun p : Nat × Nat => a.get p.1 p.2)).sum_eq
      have hcnt := (perm.map (fun p : Nat × Nat => if b.get p.1 p.2 then 1 else 0)).sum_eq
      unfold reads at hsum hcnt
      rw [List.map_map] at hsum hcnt
      rw [e1', e2', ← hsum, ← hcnt]
      exact ⟨rfl, rfl⟩
    · intro hne
      have : ¬ (i = s.1.1.toNat ∧ j = s.1.2.toNat) := by omega
      simp only
      rw [if_neg this, if_neg this]
      exact ⟨rfl, rfl⟩
  · rw [if_neg hb]
    refine ⟨_, rfl, ?_⟩
    intro i j
    refine ⟨?_, fun _ => ⟨rfl, rfl⟩⟩
    rintro ⟨e1, e2, hbt⟩
    have e1' : s.1.1.toNat = i := by omega
    have e2' : s.1.2.toNat = j := by omega
    rw [e1', e2', hbt] at hb
    exact absurd rfl hb

theorem runSteps_ok {a : Img ℚ} {b : Img Bool} (hy : b.ny = a.ny) (hx : b.nx = a.nx) : ∀ (L : List Step) (st : St),
    (∀ s ∈ L, GoodStep a.ny a.nx s) → ∃ st', runSteps a b L st = .ok st' ∧ ∀ i j : Nat, b.get i j = true →
      ((∃ s ∈ L, s.1.1 = (i : Int) ∧ s.1.2 = (j : Int)) ∨
        (st.out i j = ((neighbours a.ny a.nx i j).map (fun p => a.get p.1 p.2)).sum ∧
        st.nb i j = ((neighbours a.ny a.nx i j).map (fun p => if b.get p.1 p.2 then 1 else 0)).sum)) →
      st'.out i j = ((neighbours a.ny a.nx i j).map (fun p => a.get p.1 p.2)).sum ∧
      st'.nb i j = ((neighbours a.ny a.nx i j).map (fun p => if b.get p.1 p.2 then 1 else 0)).sum
  | [], st, _ => by
    refine ⟨st, rfl, ?_⟩
    rintro i j _ (⟨s, hs, _⟩ | h)
    · cases hs
    · exact h
  | s :: L, st, h => by
    obtain ⟨st1, e1, h1⟩ := step_ok hy hx st (h s List.mem_cons_self)
    obtain ⟨st2, e2, h2⟩ := runSteps_ok hy hx L st1 (fun s hs => h s (List.mem_cons_of_mem _ hs))
    refine ⟨st2, by rw [runSteps, e1]; exact e2, ?_⟩
    intro i j hb hor
    apply h2 i j hb
    by_cases ht : s.1.1 = (i : Int) ∧ s.1.2 = (j : Int)
    · right; exact (h1 i j).1 ⟨ht.1, ht.2, hb⟩
    · rcases hor with ⟨s', hs', ht'⟩ | hor
      · rcases List.mem_cons.1 hs' with rfl | hs'
        · exact absurd ht' ht
        · left; exact ⟨s', hs', ht'⟩
      · right
        rw [((h1 i j).2 ht).1, ((h1 i j).2 ht).2]
        exact hor

theorem meanNeighbors_ok {a : Img ℚ} {b : Img Bool} (hy : b.ny = a.ny) (hx : b.nx = a.nx) (h0 : 2 ≤ a.ny) (h1 : 2 ≤ a.nx) :
    ∃ m, meanNeighbors a b = .ok m ∧ m.ny = a.ny ∧ m.nx = a.nx ∧ ∀ i j : Nat, i < a.ny → j < a.nx → m.get i j =
      if b.get i j = false ∨ ((neighbours a.ny a.nx i j).map (fun p => if b.get p.1 p.2 then 1 else 0)).sum = 0 then none
      else some (((neighbours a.ny a.nx i j).map (fun p => a.get p.1 p.2)).sum /
        (((neighbours a.ny a.nx i j).map (fun p => if b.get p.1 p.2 then 1 else 0)).sum : Nat)) := by
  obtain ⟨st, e, h⟩ := runSteps_ok hy hx (steps a.ny a.nx) ⟨fun _ _ => 0, fun _ _ => 0⟩ (steps_good h0 h1)
  unfold meanNeighbors
  rw [e]
  refine ⟨_, rfl, rfl, rfl, ?_⟩
  intro i j hi hj
  simp only
  by_cases hb : b.get i j = true
  · obtain ⟨q1, q2⟩ := h i j hb (Or.inl (steps_all h0 h1 hi hj))
    rw [q1, q2]
  · have hb' : b.get i j = false := by simpa using hb
    rw [if_pos (Or.inl hb'), if_pos (Or.inl hb')]

/-- C41 (partial: only the points with a vector; see `C41_nan_point` for the others).  For every array with at least
`2 x 2` points and every point with a vector (no NaN), interior, on an edge or at a corner: the result is the mean of
the vectors of its neighbours which have one, or NaN if there is none. -/
theorem C41_partial (dx dy : Img (Option ℚ)) (h0 : 2 ≤ dx.ny) (h1 : 2 ≤ dx.nx) :
    ∃ mx my, meanNeighborsXY dx dy = .ok (mx, my) ∧
    ∀ i j, i < dx.ny → j < dx.nx → dx.get i j ≠ none → dy.get i j ≠ none →
      let V := neighbourVectors dx dy i j
      mx.get i j = (if V = [] then none else some ((V.map Prod.fst).sum / (V.length : ℚ))) ∧
      my.get i j = (if V = [] then none else some ((V.map Prod.snd).sum / (V.length : ℚ))) := by
  have hcount : ∀ L : List (Nat × Nat), (L.map (fun p => if ((dx.get p.1 p.2).isSome && (dy.get p.1 p.2).isSome) = true then 1 else 0)).sum =
      (L.filterMap (fun p => match dx.get p.1 p.2, dy.get p.1 p.2 with
        | some x, some y => some (x, y)
        | _, _ => none)).length := by
    intro L
    induction L with
    | nil => rfl
    | cons p L ih =>
      rw [List.map_cons, List.sum_cons, ih, List.filterMap_cons]
      cases dx.get p.1 p.2 <;> cases dy.get p.1 p.2 <;> simp
      omega
  have hsx : ∀ L : List (Nat × Nat), (L.map (fun p => if ((dx.get p.1 p.2).isSome && (dy.get p.1 p.2).isSome) = true then (dx.get p.1 p.2).getD 0 else 0)).sum =
      ((L.filterMap (fun p => match dx.get p.1 p.2, dy.get p.1 p.2 with
        | some x, some y => some (x, y)
        | _, _ => none)).map Prod.fst).sum := by
    intro L
    induction L with
    | nil => rfl
    | cons p L ih =>
      rw [List.map_cons, List.sum_cons, ih, List.filterMap_cons]
      cases dx.get p.1 p.2 <;> cases dy.get p.1 p.2 <;> simp
  have hsy : ∀ L : List (Nat × Nat), (L.map (fun p => if ((dx.get p.1 p.2).isSome && (dy.get p.1 p.2).isSome) = true then (dy.get p.1 p.2).getD 0 else 0)).sum =
      ((L.filterMap (fun p => match dx.get p.1 p.2, dy.get p.1 p.2 with
        | some x, some y => some (x, y)
        | _, _ => none)).map Prod.snd).sum := by
    intro L
    induction L with
    | nil => rfl
    | cons p L ih =>
      rw [List.map_cons, List.sum_cons, ih, List.filterMap_cons]
      cases dx.get p.1 p.2 <;> cases dy.get p.1 p.2 <;> simp
  unfold meanNeighborsXY
  simp only
  obtain ⟨mx, ex, _, _, vx⟩ := meanNeighbors_ok (a := ⟨dx.ny, dx.nx, fun i j => if ((dx.get i j).isSome && (dy.get i j).isSome) = true then (dx.get i j).getD 0 else 0⟩)
    (b := ⟨dx.ny, dx.nx, fun i j => (dx.get i j).isSome && (dy.get i j).isSome⟩) rfl rfl h0 h1
  obtain ⟨my, ey, _, _, vy⟩ := meanNeighbors_ok (a := ⟨dx.ny, dx.nx, fun i j => if ((dx.get i j).isSome && (dy.get i j).isSome) = true then (dy.get i j).getD 0 else 0⟩)
    (b := ⟨dx.ny, dx.nx, fun i j => (dx.get i j).isSome && (dy.get i j).isSome⟩) rfl rfl h0 h1
  rw [ex, ey]
  simp only
  refine ⟨mx, my, rfl, ?_⟩
  intro i j hi hj hx hy
  have hb : ((dx.get i j).isSome && (dy.get i j).isSome) = true := by
    cases hdx : dx.get i j with
    | none => exact absurd hdx hx
    | some x =>
      cases hdy : dy.get i j with
      | none => exact absurd hdy hy
      | some y => rfl
  rw [vx i j hi hj, vy i j hi hj]
  simp only [hb, hcount, hsx, hsy]
  unfold neighbourVectors
  simp only [Bool.true_eq_false, false_or, List.length_eq_zero_iff]
  exact ⟨trivial, trivial⟩

/-- The negation of C41 for the other points: the result is always NaN at a point without vector, even if all its
neighbours have one. -/
theorem C41_nan_point (dx dy : Img (Option ℚ)) (h0 : 2 ≤ dx.ny) (h1 : 2 ≤ dx.nx) (mx my : Img (Option ℚ))
    (h : meanNeighborsXY dx dy = .ok (mx, my)) (i j : Nat) (hi : i < dx.ny) (hj : j < dx.nx)
    (hn : dx.get i j = none ∨ dy.get i j = none) : mx.get i j = none ∧ my.get i j = none := by
  have hb : ((dx.get i j).isSome && (dy.get i j).isSome) = false := by
    rcases hn with hn | hn
    · rw [hn]; rfl
    · rw [hn]; simp
  unfold meanNeighborsXY at h
  simp only at h
  obtain ⟨mx', ex, _, _, vx⟩ := meanNeighbors_ok (a := ⟨dx.ny, dx.nx, fun i j => if ((dx.get i j).isSome && (dy.get i j).isSome) = true then (dx.get i j).getD 0 else 0⟩)
    (b := ⟨dx.ny, dx.nx, fun i j => (dx.get i j).isSome && (dy.get i j).isSome⟩) rfl rfl h0 h1
  obtain ⟨my', ey, _, _, vy⟩ := meanNeighbors_ok (a := ⟨dx.ny, dx.nx, fun i j => if ((dx.get i j).isSome && (dy.get i j).isSome) = true then (dy.get i j).getD 0 else 0⟩)
    (b := ⟨dx.ny, dx.nx, fun i j => (dx.get i j).isSome && (dy.get i j).isSome⟩) rfl rfl h0 h1
  rw [ex, ey] at h
  simp only at h
  injection h with h
  injection h with e1 e2
  subst e1 e2
  rw [vx i j hi hj, vy i j hi hj, if_pos (Or.inl hb), if_pos (Or.inl hb)]
  exact ⟨rfl, rfl⟩

/-- A concrete array `2 x 3` with one NaN: values at a corner and at an edge. -/
example : let dx : Img (Option ℚ) := ⟨2, 3, fun i j => if i = 1 ∧ j = 1 then none else some (3 * i + j)⟩
    ((meanNeighborsXY dx dx).map (fun r => (r.1.get 0 0, r.1.get 0 1, r.1.get 1 1))) =
      .ok (some 2, some (5 / 2), none) := by decide +kernel

/-- With only one row the first corner reads outside of the array. -/
theorem C41_one_row (a : Img ℚ) (b : Img Bool) (h0 : a.ny = 1) (h1 : 1 ≤ a.nx) (hb : b.get 0 0 = true) :
    meanNeighbors a b = .error .indexError := by
  unfold meanNeighbors steps corners
  simp only [List.cons_append, List.nil_append]
  rw [runSteps]
  have : step a b ⟨fun _ _ => 0, fun _ _ => 0⟩ ((0, 0), [(1, 0), (1, 1), (0, 1)]) = .error .indexError := by
    unfold step
    have e1 : pyIndex a.ny 0 = some 0 := by unfold pyIndex; rw [h0]; rfl
    have e2 : pyIndex a.nx 0 = some 0 := by
      unfold pyIndex; rw [if_pos (by omega), if_pos (by omega)]; rfl
    simp only
    rw [e1, e2]
    simp only
    rw [if_pos hb]
    unfold sumReads pyGet pyIndex
    simp [h0]
  rw [this]

/-! ## Arrays with one row or one column -/

theorem pyGet_err {α : Type} {a : Img α} {i j : Int} {e : PyErr} (h : pyGet a i j = .error e) : e = .indexError := by
  unfold pyGet at h
  split at h
  · cases h
  · injection h with h; exact h.symm

theorem sumReads_err {α : Type} (f : α → ℚ) (a : Img α) (i j : Int) : ∀ (L : List (Int × Int)) (t : ℚ) (e : PyErr),
    sumReads f a i j L t = .error e → e = .indexError
  | [], _, _, h => by simp [sumReads] at h
  | d :: L, t, e, h => by
    cases hq : pyGet a (i + d.1) (j + d.2) with
    | error e' =>
      simp only [sumReads, hq] at h
      injection h with h
      rw [← h]; exact pyGet_err hq
    | ok v =>
      simp only [sumReads, hq] at h
      exact sumReads_err f a i j L _ e h

theorem countReads_err (b : Img Bool) (i j : Int) : ∀ (L : List (Int × Int)) (t : Nat) (e : PyErr),
    countReads b i j L t = .error e → e = .indexError
  | [], _, _, h => by simp [countReads] at h
  | d :: L, t, e, h => by
    cases hq : pyGet b (i + d.1) (j + d.2) with
    | error e' =>
      simp only [countReads, hq] at h
      injection h with h
      rw [← h]; exact pyGet_err hq
    | ok v =>
      simp only [countReads, hq] at h
      exact countReads_err b i j L _ e h

/-- One read outside of the array is enough. -/
theorem sumReads_outside {α : Type} (f : α → ℚ) (a : Img α) (i j : Int) : ∀ (L : List (Int × Int)) (t : ℚ),
    (∃ d ∈ L, pyGet a (i + d.1) (j + d.2) = .error .indexError) → sumReads f a i j L t = .error .indexError
  | [], _, h => by obtain ⟨d, hd, _⟩ := h; cases hd
  | d :: L, t, h => by
    cases hq : pyGet a (i + d.1) (j + d.2) with
    | error e' => simp only [sumReads, hq]; rw [pyGet_err hq]
    | ok v =>
      simp only [sumReads, hq]
      refine sumReads_outside f a i j L _ ?_
      obtain ⟨d', hd', h'⟩ := h
      rcases List.mem_cons.1 hd' with rfl | hd'
      · rw [hq] at h'; cases h'
      · exact ⟨d', hd', h'⟩

theorem step_err {a : Img ℚ} {b : Img Bool} {st : St} {s : Step} {e : PyErr} (h : step a b st s = .error e) :
    e = .indexError := by
  unfold step at h
  split at h
  · split at h
    · split at h
      · next hs => injection h with h; rw [← h]; exact sumReads_err _ _ _ _ _ _ _ hs
      · split at h
        · next hs => injection h with h; rw [← h]; exact countReads_err _ _ _ _ _ _ hs
        · cases h
    · cases h
  · injection h with h; exact h.symm

theorem runSteps_outside (a : Img ℚ) (b : Img Bool) : ∀ (L : List Step) (st : St),
    (∃ s ∈ L, ∀ st, step a b st s = .error .indexError) → runSteps a b L st = .error .indexError
  | [], _, h => by obtain ⟨d, hd, _⟩ := h; cases hd
  | s :: L, st, h => by
    cases hq : step a b st s with
    | error e' => simp only [runSteps, hq]; rw [step_err hq]
    | ok st' =>
      simp only [runSteps, hq]
      refine runSteps_outside a b L st' ?_
      obtain ⟨s', hs', h'⟩ := h
      rcases List.mem_cons.1 hs' with rfl | hs'
      · rw [h'] at hq; cases hq
      · exact ⟨s', hs', h'⟩

theorem pyIndex_in {n i : Nat} (h : i < n) : pyIndex n (i : Int) = some i := by
  unfold pyIndex
  rw [if_pos (by omega), if_pos (by omega)]
  simp

theorem pyIndex_out {n : Nat} {i : Int} (h : (n : Int) ≤ i) : pyIndex n i = none := by
  unfold pyIndex
  rw [if_pos (by omega), if_neg (by omega)]

theorem step_outside {a : Img ℚ} {b : Img Bool} {i j : Nat} (hi : i < a.ny) (hj : j < a.nx) (hb : b.get i j = true)
    {p : Int × Int} (hp : p = ((i : Int), (j : Int))) {offs : List (Int × Int)} {d : Int × Int} (hd : d ∈ offs)
    (ho : (a.ny : Int) ≤ i + d.1 ∨ (a.nx : Int) ≤ j + d.2) (st : St) :
    step a b st (p, offs) = .error .indexError := by
  subst hp
  unfold step
  simp only [pyIndex_in hi, pyIndex_in hj, hb, if_true]
  rw [sumReads_outside]
  refine ⟨d, hd, ?_⟩
  unfold pyGet
  rcases ho with ho | ho
  · rw [pyIndex_out ho]
  · rw [pyIndex_out ho]
    cases pyIndex a.ny ((i : Int) + d.1) <;> rfl

theorem mem_inner_of {n i : Nat} (h0 : 1 ≤ i) (h1 : i + 1 < n) : (i : Int) ∈ inner n := by
  rw [mem_inner]
  omega

/-- On an array with one row or one column, every vector leads to a read outside of the array. -/
theorem meanNeighbors_one_line {a : Img ℚ} {b : Img Bool} (h : a.ny = 1 ∨ a.nx = 1) {i j : Nat} (hi : i < a.ny)
    (hj : j < a.nx) (hb : b.get i j = true) : meanNeighbors a b = .error .indexError := by
  unfold meanNeighbors
  rw [runSteps_outside]
  have key : ∀ (p : Int × Int) (offs : List (Int × Int)) (d : Int × Int), (p, offs) ∈ steps a.ny a.nx →
      p = ((i : Int), (j : Int)) → d ∈ offs → ((a.ny : Int) ≤ i + d.1 ∨ (a.nx : Int) ≤ j + d.2) →
      ∃ s ∈ steps a.ny a.nx, ∀ st, step a b st s = .error .indexError :=
    fun p offs d hm hp hd ho => ⟨_, hm, step_outside hi hj hb hp hd ho⟩
  rcases h with h | h
  · have hi0 : i = 0 := by omega
    subst hi0
    by_cases h0 : j = 0
    · subst h0
      refine key (0, 0) [(1, 0), (1, 1), (0, 1)] (1, 0) ?_ rfl (by simp) (Or.inl (by simp [h]))
      simp [steps, corners]
    · by_cases h1 : j = a.nx - 1
      · refine key (0, (a.nx : Int) - 1) [(1, 0), (1, -1), (0, -1)] (1, 0) ?_ ?_ (by simp) (Or.inl (by simp [h]))
        · simp [steps, corners]
        · rw [Prod.mk.injEq]; exact ⟨by simp, by omega⟩
      · refine key (0, (j : Int)) [(0, -1), (0, 1), (1, 1), (1, 0), (1, -1)] (1, 0) ?_ rfl (by simp) (Or.inl (by simp [h]))
        unfold steps upper
        simp only [List.mem_append]
        refine Or.inl (Or.inl (Or.inl (Or.inl (Or.inr ?_))))
        exact List.mem_map.2 ⟨_, mem_inner_of (by omega) (by omega), rfl⟩
  · have hj0 : j = 0 := by omega
    subst hj0
    by_cases h0 : i = 0
    · subst h0
      refine key (0, 0) [(1, 0), (1, 1), (0, 1)] (0, 1) ?_ rfl (by simp) (Or.inr (by simp [h]))
      simp [steps, corners]
    · by_cases h1 : i = a.ny - 1
      · refine key ((a.ny : Int) - 1, 0) [(-1, 0), (-1, 1), (0, 1)] (0, 1) ?_ ?_ (by simp) (Or.inr (by simp [h]))
        · simp [steps, corners]
        · rw [Prod.mk.injEq]; exact ⟨by omega, by simp⟩
      · refine key ((i : Int), 0) [(-1, 0), (1, 0), (-1, 1), (0, 1), (1, 1)] (0, 1) ?_ rfl (by simp) (Or.inr (by simp [h]))
        unfold steps left
        simp only [List.mem_append]
        refine Or.inl (Or.inl (Or.inr ?_))
        exact List.mem_map.2 ⟨_, mem_inner_of (by omega) (by omega), rfl⟩

/-- The negation of C41 for the arrays with one row or one column: as soon as one point has a vector, whatever the other
values, the function raises `IndexError` instead of giving the means. -/
theorem C41_one_line_fails (dx dy : Img (Option ℚ)) (h : dx.ny = 1 ∨ dx.nx = 1) {i j : Nat} (hi : i < dx.ny)
    (hj : j < dx.nx) (hx : dx.get i j ≠ none) (hy : dy.get i j ≠ none) :
    meanNeighborsXY dx dy = .error .indexError := by
  unfold meanNeighborsXY
  simp only
  rw [meanNeighbors_one_line (i := i) (j := j) h hi hj]
  simp only [Bool.and_eq_true]
  exact ⟨Option.isSome_iff_ne_none.2 hx, Option.isSome_iff_ne_none.2 hy⟩

/-- A concrete column of 3 points with only the second one known. -/
example : meanNeighborsXY ⟨3, 1, fun i _ => if i = 1 then some 2 else none⟩ ⟨3, 1, fun i _ => if i = 1 then some 1 else none⟩ =
    .error .indexError :=
  C41_one_line_fails _ _ (Or.inr rfl) (i := 1) (j := 0) (by decide) (by decide) (by decide) (by decide)

end Verif
