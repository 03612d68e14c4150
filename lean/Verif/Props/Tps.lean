import Verif.Model.Tps
import Mathlib.Tactic.Linarith
import Mathlib.Tactic.Ring
import Mathlib.Tactic.NormNum
import Mathlib.Tactic.FieldSimp
import Mathlib.Tactic.Positivity
import Mathlib.Algebra.BigOperators.Group.List.Basic
import Mathlib.Data.List.Nodup

/-!
# Thin plate splines with sub-domains (C42)
-/

namespace Verif
open Verif.Tps

/-! ## Limits -/

theorem foldl_min_le : ∀ (l : List ℚ) (x : ℚ), l.foldl min x ≤ x ∧ ∀ y ∈ l, l.foldl min x ≤ y
  | [], x => ⟨le_refl _, by simp⟩
  | a :: l, x => by
    rw [List.foldl_cons]
    obtain ⟨h1, h2⟩ := foldl_min_le l (min x a)
    refine ⟨le_trans h1 (min_le_left _ _), ?_⟩
    intro y hy
    rcases List.mem_cons.1 hy with rfl | hy
    · exact le_trans h1 (min_le_right _ _)
    · exact h2 y hy

theorem foldl_max_ge : ∀ (l : List ℚ) (x : ℚ), x ≤ l.foldl max x ∧ ∀ y ∈ l, y ≤ l.foldl max x
  | [], x => ⟨le_refl _, by simp⟩
  | a :: l, x => by
    rw [List.foldl_cons]
    obtain ⟨h1, h2⟩ := foldl_max_ge l (max x a)
    refine ⟨le_trans (le_max_left _ _) h1, ?_⟩
    intro y hy
    rcases List.mem_cons.1 hy with rfl | hy
    · exact le_trans (le_max_right _ _) h1
    · exact h2 y hy

theorem foldl_min_mem : ∀ (l : List ℚ) (x : ℚ), l.foldl min x = x ∨ l.foldl min x ∈ l
  | [], x => Or.inl rfl
  | a :: l, x => by
    rw [List.foldl_cons]
    rcases foldl_min_mem l (min x a) with h | h
    · rcases min_choice x a with h' | h'
      · left; rw [h, h']
      · right; rw [h, h']; exact List.mem_cons_self
    · right; exact List.mem_cons_of_mem _ h

theorem foldl_max_mem : ∀ (l : List ℚ) (x : ℚ), l.foldl max x = x ∨ l.foldl max x ∈ l
  | [], x => Or.inl rfl
  | a :: l, x => by
    rw [List.foldl_cons]
    rcases foldl_max_mem l (max x a) with h | h
    · rcases max_choice x a with h' | h'
      · left; rw [h, h']
      · right; rw [h, h']; exact List.mem_cons_self
    · right; exact List.mem_cons_of_mem _ h

theorem listMin_spec {l : List ℚ} {m : ℚ} (h : listMin l = .ok m) : m ∈ l ∧ ∀ x ∈ l, m ≤ x := by
  cases l with
  | nil => cases h
  | cons a l =>
    injection h with h; subst h
    refine ⟨?_, ?_⟩
    · rcases foldl_min_mem l a with h | h
      · rw [h]; exact List.mem_cons_self
      · exact List.mem_cons_of_mem _ h
    · intro x hx
      rcases List.mem_cons.1 hx with rfl | hx
      · exact (foldl_min_le l x).1
      · exact (foldl_min_le l a).2 x hx

theorem listMax_spec {l : List ℚ} {m : ℚ} (h : listMax l = .ok m) : m ∈ l ∧ ∀ x ∈ l, x ≤ m := by
  cases l with
  | nil => cases h
  | cons a l =>
    injection h with h; subst h
    refine ⟨?_, ?_⟩
    · rcases foldl_max_mem l a with h | h
      · rw [h]; exact List.mem_cons_self
      · exact List.mem_cons_of_mem _ h
    · intro x hx
      rcases List.mem_cons.1 hx with rfl | hx
      · exact (foldl_max_ge l x).1
      · exact (foldl_max_ge l a).2 x hx

/-- A grid of sub-domains which is not degenerate. -/
structure GoodGrid (g : Grid) : Prop where
  nbx : 0 < g.nbx
  nby : 0 < g.nby
  x : g.x0 < g.x1
  y : g.y0 < g.y1
  bufX : 0 < g.bufX
  bufY : 0 < g.bufY

theorem orOne_pos (n : Nat) : 0 < orOne n := by unfold orOne; split <;> omega

/-- What the constructor gives: limits of the points, numbers of sub-domains, buffers. -/
theorem setup_spec {xs ys : List ℚ} {size : Nat} {percent : ℚ} {g : Grid} (h : setup xs ys size percent = .ok g)
    (hp : 0 < percent) : GoodGrid g ∧ (∀ x ∈ xs, g.x0 ≤ x ∧ x ≤ g.x1) ∧ (∀ y ∈ ys, g.y0 ≤ y ∧ y ≤ g.y1) := by
  unfold setup at h
  split at h
  · next x0 x1 y0 y1 h1 h2 h3 h4 =>
    obtain ⟨a1, b1⟩ := listMin_spec h1
    obtain ⟨a2, b2⟩ := listMax_spec h2
    obtain ⟨a3, b3⟩ := listMin_spec h3
    obtain ⟨a4, b4⟩ := listMax_spec h4
    simp only at h
    by_cases hs : size = 0
    · rw [if_pos hs] at h; cases h
    rw [if_neg hs] at h
    by_cases hc : x1 - x0 = 0 ∧ y1 - y0 = 0
    · rw [if_pos hc] at h; cases h
    rw [if_neg hc] at h
    by_cases hd : x1 - x0 = 0 ∨ y1 - y0 = 0
    · rw [if_pos hd] at h; cases h
    rw [if_neg hd] at h
    rw [not_or] at hd
    injection h with h
    subst h
    have hx : x0 < x1 := lt_of_le_of_ne (b1 x1 a2) (fun hc => hd.1 (by rw [hc]; ring))
    have hy : y0 < y1 := lt_of_le_of_ne (b3 y1 a4) (fun hc => hd.2 (by rw [hc]; ring))
    have hq : ∀ (q : ℚ) (n : Nat), 0 < q → 0 < n → 0 < percent / 100 * q / (n : ℚ) := by
      intro q n hq hn
      have hn' : (0 : ℚ) < (n : ℚ) := by exact_mod_cast hn
      positivity
    refine ⟨⟨orOne_pos _, orOne_pos _, hx, hy, hq _ _ (by linarith) (orOne_pos _), hq _ _ (by linarith) (orOne_pos _)⟩, ?_, ?_⟩
    · intro x hx; exact ⟨b1 x hx, b2 x hx⟩
    · intro y hy; exact ⟨b3 y hy, b4 y hy⟩
  all_goals cases h

/-! ## Covering -/

theorem linspace_zero (a b : ℚ) (n : Nat) : linspace a b n 0 = a := by unfold linspace; push_cast; ring

theorem linspace_last (a b : ℚ) {n : Nat} (hn : 0 < n) : linspace a b n n = b := by
  unfold linspace
  have : (n : ℚ) ≠ 0 := by exact_mod_cast (by omega : n ≠ 0)
  field_simp
  ring

theorem linspace_mono {a b : ℚ} (hab : a ≤ b) (n : Nat) {j k : Nat} (h : j ≤ k) : linspace a b n j ≤ linspace a b n k := by
  unfold linspace
  have h1 : (j : ℚ) ≤ (k : ℚ) := by exact_mod_cast h
  have h2 : 0 ≤ (b - a) / (n : ℚ) := div_nonneg (by linarith) (by positivity)
  nlinarith

/-- A value between the first and the last limits is between two successive limits. -/
theorem between (s : Nat → ℚ) (x : ℚ) : ∀ n, 0 < n → s 0 ≤ x → x ≤ s n → ∃ k < n, s k ≤ x ∧ x ≤ s (k + 1)
  | 0, h, _, _ => absurd h (by omega)
  | n + 1, _, h0, h1 => by
    by_cases hc : s n ≤ x
    · exact ⟨n, by omega, hc, h1⟩
    · rcases Nat.eq_zero_or_pos n with hn | hn
      · subst hn; exact absurd h0 hc
      · obtain ⟨k, hk, h⟩ := between s x n hn h0 (le_of_lt (not_le.1 hc))
        exact ⟨k, by omega, h⟩

theorem between_buf {a b buf x : ℚ} {n : Nat} (hn : 0 < n) (hab : a < b) (hb : 0 < buf) :
    (∃ k < n, linspace a b n k - buf ≤ x ∧ x < linspace a b n (k + 1) + buf) ↔ a - buf ≤ x ∧ x < b + buf := by
  constructor
  · rintro ⟨k, hk, h1, h2⟩
    have e1 := linspace_mono hab.le n (Nat.zero_le k)
    have e2 := linspace_mono hab.le n (show k + 1 ≤ n from hk)
    rw [linspace_zero] at e1
    rw [linspace_last _ _ hn] at e2
    constructor <;> linarith
  · rintro ⟨h1, h2⟩
    by_cases hlo : x < a
    · refine ⟨0, hn, by rw [linspace_zero]; exact h1, ?_⟩
      have := linspace_mono hab.le n (show 0 ≤ 0 + 1 by omega)
      rw [linspace_zero] at this
      linarith
    · by_cases hhi : b < x
      · refine ⟨n - 1, by omega, ?_, ?_⟩
        · have := linspace_mono hab.le n (show n - 1 ≤ n by omega)
          rw [linspace_last _ _ hn] at this
          linarith
        · rw [Nat.sub_add_cancel hn, linspace_last _ _ hn]; exact h2
      · obtain ⟨k, hk, h3, h4⟩ := between (linspace a b n) x n hn (by rw [linspace_zero]; linarith)
          (by rw [linspace_last _ _ hn]; linarith)
        exact ⟨k, hk, by linarith, by linarith⟩

/-- C42, new positions: a position is in a sub-domain if and only if it is in the rectangle of the points, extended by the
buffers. -/
theorem C42_covered_iff {g : Grid} (hg : GoodGrid g) (x y : ℚ) :
    (∃ d ∈ g.doms, d.contains x y = true) ↔
      (g.x0 - g.bufX ≤ x ∧ x < g.x1 + g.bufX) ∧ (g.y0 - g.bufY ≤ y ∧ y < g.y1 + g.bufY) := by
  rw [← between_buf hg.nbx hg.x hg.bufX, ← between_buf hg.nby hg.y hg.bufY]
  unfold Grid.doms Dom.contains
  simp only [List.mem_flatMap, List.mem_map, List.mem_range, decide_eq_true_eq]
  constructor
  · rintro ⟨d, ⟨iy, hiy, ix, hix, rfl⟩, h1, h2, h3, h4⟩
    exact ⟨⟨ix, hix, h1, h2⟩, iy, hiy, h3, h4⟩
  · rintro ⟨⟨ix, hix, h1, h2⟩, iy, hiy, h3, h4⟩
    exact ⟨_, ⟨iy, hiy, ix, hix, rfl⟩, h1, h2, h3, h4⟩

/-- C42: every input point belongs to at least one sub-domain. -/
theorem C42_cover {xs ys : List ℚ} {size : Nat} {percent : ℚ} {g : Grid} (h : setup xs ys size percent = .ok g)
    (hp : 0 < percent) (hl : xs.length = ys.length) {i : Nat} (hi : i < xs.length) :
    ∃ d ∈ g.doms, i ∈ d.indices xs.length (fun i => xs.getD i 0) (fun i => ys.getD i 0) := by
  obtain ⟨hg, hx, hy⟩ := setup_spec h hp
  have mx : xs.getD i 0 ∈ xs := by
    rw [List.getD_eq_getElem?_getD, List.getElem?_eq_getElem hi]; exact List.getElem_mem hi
  have my : ys.getD i 0 ∈ ys := by
    rw [List.getD_eq_getElem?_getD, List.getElem?_eq_getElem (hl ▸ hi)]; exact List.getElem_mem _
  have a1 := hx _ mx
  have a2 := hy _ my
  have b1 := hg.bufX
  have b2 := hg.bufY
  obtain ⟨d, hd, hc⟩ := (C42_covered_iff hg (xs.getD i 0) (ys.getD i 0)).2
    ⟨⟨by linarith [a1.1], by linarith [a1.2]⟩, ⟨by linarith [a2.1], by linarith [a2.2]⟩⟩
  exact ⟨d, hd, List.mem_filter.2 ⟨List.mem_range.2 hi, hc⟩⟩

/-- C42, number of sub-domains: for `n` points in a rectangle of aspect ratio `a`, cut in sub-domains of `size` points, the number of columns
is the largest integer whose square is at most `n / size / a`, and the number of lines the smallest one whose square is at least
`n / size * a` (at least one column and one line). -/
theorem C42_numbers {xs ys : List ℚ} {size : Nat} {percent : ℚ} {g : Grid} (h : setup xs ys size percent = .ok g) (a : ℚ)
    (ha : a = (g.y1 - g.y0) / (g.x1 - g.x0)) :
    0 < a ∧ 1 ≤ g.nbx ∧ (g.nbx = 1 ∨ (g.nbx : ℚ) ^ 2 ≤ xs.length / size / a) ∧ xs.length / size / a < ((g.nbx : ℚ) + 1) ^ 2 ∧
    1 ≤ g.nby ∧ (xs.length / size * a ≤ (g.nby : ℚ) ^ 2) ∧ (g.nby = 1 ∨ ((g.nby : ℚ) - 1) ^ 2 < xs.length / size * a) := by
  have hfloor : ∀ q : ℚ, 0 ≤ q → (orOne (floorSqrt q) = 1 ∨ ((orOne (floorSqrt q) : ℕ) : ℚ) ^ 2 ≤ q) ∧
      q < ((orOne (floorSqrt q) : ℕ) + 1 : ℚ) ^ 2 := by
    intro q hq
    have h1 : ((⌊q⌋.toNat : ℕ) : ℚ) ≤ q := by
      have : (((⌊q⌋.toNat : ℕ) : ℤ) : ℚ) = (⌊q⌋ : ℚ) := by rw [Int.toNat_of_nonneg (Int.floor_nonneg.2 hq)]
      rw [Int.cast_natCast] at this
      rw [this]; exact Int.floor_le q
    have h2 : q < ((⌊q⌋.toNat : ℕ) : ℚ) + 1 := by
      have : (((⌊q⌋.toNat : ℕ) : ℤ) : ℚ) = (⌊q⌋ : ℚ) := by rw [Int.toNat_of_nonneg (Int.floor_nonneg.2 hq)]
      rw [Int.cast_natCast] at this
      rw [this]; exact Int.lt_floor_add_one q
    unfold floorSqrt orOne
    have s1 : ((Nat.sqrt ⌊q⌋.toNat * Nat.sqrt ⌊q⌋.toNat : ℕ) : ℚ) ≤ ((⌊q⌋.toNat : ℕ) : ℚ) := by exact_mod_cast Nat.sqrt_le _
    have s2 : ((⌊q⌋.toNat : ℕ) : ℚ) + 1 ≤ (((Nat.sqrt ⌊q⌋.toNat + 1) * (Nat.sqrt ⌊q⌋.toNat + 1) : ℕ) : ℚ) := by
      exact_mod_cast Nat.lt_succ_sqrt ⌊q⌋.toNat
    push_cast at s1 s2
    split
    · rename_i h0
      rw [h0] at s2
      refine ⟨.inl rfl, ?_⟩
      push_cast at s2 ⊢
      nlinarith
    · exact ⟨.inr (by nlinarith), by nlinarith⟩
  have hceil : ∀ q : ℚ, 0 ≤ q → q ≤ ((orOne (ceilSqrt q) : ℕ) : ℚ) ^ 2 ∧
      (orOne (ceilSqrt q) = 1 ∨ ((orOne (ceilSqrt q) : ℕ) - 1 : ℚ) ^ 2 < q) := by
    intro q hq
    have e : (((⌈q⌉.toNat : ℕ) : ℤ) : ℚ) = (⌈q⌉ : ℚ) := by rw [Int.toNat_of_nonneg (Int.ceil_nonneg hq)]
    rw [Int.cast_natCast] at e
    have h1 : q ≤ ((⌈q⌉.toNat : ℕ) : ℚ) := by rw [e]; exact Int.le_ceil q
    have h2 : ((⌈q⌉.toNat : ℕ) : ℚ) < q + 1 := by rw [e]; exact Int.ceil_lt_add_one q
    unfold ceilSqrt orOne
    simp only
    generalize ⌈q⌉.toNat = n at *
    have s2 : n + 1 ≤ (Nat.sqrt n + 1) * (Nat.sqrt n + 1) := Nat.lt_succ_sqrt n
    have s1 : Nat.sqrt n * Nat.sqrt n ≤ n := Nat.sqrt_le n
    generalize Nat.sqrt n = r at *
    by_cases hsq : r * r = n
    · rw [if_pos hsq]
      have hsq' : (r : ℚ) * r = n := by exact_mod_cast hsq
      split
      · rename_i h0
        subst h0
        refine ⟨?_, .inl rfl⟩
        push_cast at hsq' ⊢
        nlinarith
      · rename_i h0
        refine ⟨by nlinarith, ?_⟩
        by_cases hr1 : r = 1
        · exact .inl hr1
        · right
          have : (2 : ℚ) ≤ r := by exact_mod_cast (by omega : 2 ≤ r)
          nlinarith
    · rw [if_neg hsq, if_neg (by omega)]
      have s3 : r * r + 1 ≤ n := by omega
      have s3' : (r : ℚ) * r + 1 ≤ n := by exact_mod_cast s3
      have s2' : (n : ℚ) + 1 ≤ (r + 1) * (r + 1) := by exact_mod_cast s2
      push_cast
      refine ⟨by nlinarith, .inr ?_⟩
      rw [show (r : ℚ) + 1 - 1 = r by ring]
      nlinarith
  unfold setup at h
  split at h
  · rename_i x0 x1 y0 y1 e1 e2 e3 e4
    simp only at h
    split at h
    · cases h
    rename_i hsz
    split at h
    · cases h
    split at h
    · cases h
    rename_i hd
    rw [not_or] at hd
    injection h with h
    subst h
    obtain ⟨a1, b1⟩ := listMin_spec e1
    obtain ⟨a2, b2⟩ := listMax_spec e2
    obtain ⟨a3, b3⟩ := listMin_spec e3
    obtain ⟨a4, b4⟩ := listMax_spec e4
    have hx : x0 < x1 := lt_of_le_of_ne (b1 x1 a2) (fun hc => hd.1 (by rw [hc]; ring))
    have hy : y0 < y1 := lt_of_le_of_ne (b3 y1 a4) (fun hc => hd.2 (by rw [hc]; ring))
    simp only at ha ⊢
    have hpos : 0 < a := by rw [ha]; exact div_pos (by linarith) (by linarith)
    rw [← ha]
    have hnb : (0 : ℚ) ≤ xs.length / size := by positivity
    obtain ⟨f1, f2⟩ := hfloor (xs.length / size / a) (by positivity)
    obtain ⟨c1, c2⟩ := hceil (xs.length / size * a) (by positivity)
    exact ⟨hpos, orOne_pos _, f1, f2, orOne_pos _, c1, c2⟩
  all_goals cases h

/-- A case: four points, two sub-domains. -/
example : (setup [0, 10, 0, 10] [0, 0, 20, 20] 2 20).map (fun g => (g.nbx, g.nby, g.bufX, g.bufY)) =
    .ok (1, 2, 2, 2) := by decide +kernel

/-- Without buffer the points on the upper limits would be in no sub-domain (they are with the buffer of 20 %). -/
theorem C42_no_buffer : (setup [0, 10, 0, 10] [0, 0, 20, 20] 2 0).map
    (fun g => g.doms.map (fun d => d.contains 10 20)) = .ok [false, false] ∧
    (setup [0, 10, 0, 10] [0, 0, 20, 20] 2 20).map
    (fun g => g.doms.map (fun d => d.contains 10 20)) = .ok [false, true] := by decide +kernel

/-- Disagreement: if all the points are on a horizontal or vertical line the constructor fails. -/
theorem C42_line_fails {xs ys : List ℚ} {size : Nat} {percent : ℚ} {c : ℚ}
    (hline : (∀ x ∈ xs, x = c) ∨ (∀ y ∈ ys, y = c)) : ∃ e, setup xs ys size percent = .error e := by
  cases hs : setup xs ys size percent with
  | error e => exact ⟨e, rfl⟩
  | ok g =>
    exfalso
    unfold setup at hs
    split at hs
    · next x0 x1 y0 y1 h1 h2 h3 h4 =>
      simp only at hs
      by_cases hz : size = 0
      · rw [if_pos hz] at hs; cases hs
      rw [if_neg hz] at hs
      by_cases hc : x1 - x0 = 0 ∧ y1 - y0 = 0
      · rw [if_pos hc] at hs; cases hs
      rw [if_neg hc] at hs
      rw [if_pos] at hs
      · cases hs
      · rcases hline with hl | hl
        · left; rw [hl x0 (listMin_spec h1).1, hl x1 (listMax_spec h2).1]; ring
        · right; rw [hl y0 (listMin_spec h3).1, hl y1 (listMax_spec h4).1]; ring
    all_goals cases hs

/-! ## Recombination -/

theorem addAt_eq : ∀ (inds : List Nat) (vals : List ℚ) (f : Nat → ℚ) (i : Nat), inds.Nodup →
    addAt f inds vals i = f i + ((inds.zip vals).lookup i).getD 0
  | [], vals, f, i, _ => by simp [addAt]
  | a :: inds, [], f, i, _ => by simp [addAt]
  | a :: inds, v :: vals, f, i, hn => by
    obtain ⟨ha, hn⟩ := List.nodup_cons.1 hn
    rw [addAt, addAt_eq inds vals _ i hn, List.zip_cons_cons, List.lookup_cons]
    by_cases h : i = a
    · subst h
      have hno : (inds.zip vals).lookup i = none := by
        rw [List.lookup_eq_none_iff]
        intro p hp
        have := (List.of_mem_zip hp).1
        simp only [bne_iff_ne, ne_eq, beq_eq_false_iff_ne]
        intro hc; rw [← hc] at this; exact ha this
      simp [hno]
    · have hb : (i == a) = false := by simpa using h
      rw [hb]
      simp [h]

theorem lookup_zip_map (f : Nat → ℚ) (i : Nat) : ∀ (inds : List Nat),
    (inds.zip (inds.map f)).lookup i = if i ∈ inds then some (f i) else none
  | [] => by simp
  | a :: inds => by
    rw [List.map_cons, List.zip_cons_cons, List.lookup_cons]
    by_cases h : i = a
    · subst h; simp
    · have hb : (i == a) = false := by simpa using h
      rw [hb]
      rw [lookup_zip_map f i inds]
      simp [h]

theorem lookup_zip_zipWith (f : Nat → ℚ) (i : Nat) : ∀ (inds : List Nat) (v : List ℚ),
    (inds.zip (List.zipWith (· * ·) (inds.map f) v)).lookup i = ((inds.zip v).lookup i).map (fun y => f i * y)
  | [], v => by simp
  | a :: inds, [] => by simp
  | a :: inds, y :: v => by
    rw [List.map_cons, List.zipWith_cons_cons, List.zip_cons_cons, List.zip_cons_cons, List.lookup_cons, List.lookup_cons]
    by_cases h : i = a
    · subst h; simp
    · have hb : (i == a) = false := by simpa using h
      rw [hb]
      exact lookup_zip_zipWith f i inds v

theorem indices_nodup (d : Dom) (n : Nat) (xs ys : Nat → ℚ) : (d.indices n xs ys).Nodup := List.nodup_range.filter _

theorem mem_indices {d : Dom} {n : Nat} {xs ys : Nat → ℚ} {i : Nat} :
    i ∈ d.indices n xs ys ↔ i < n ∧ d.contains (xs i) (ys i) = true := by
  unfold Dom.indices; rw [List.mem_filter, List.mem_range]

/-- The weight of the sub-domain `d` at the point `i`: 0 outside. -/
def weightAt (n : Nat) (xs ys : Nat → ℚ) (i : Nat) (d : Dom) : ℚ :=
  if i ∈ d.indices n xs ys then d.coef (xs i) (ys i) else 0

/-- The value given by a sub-domain at the point `i` (0 outside): the values of a sub-domain are in the order of its
points. -/
def valueAt (n : Nat) (xs ys : Nat → ℚ) (i : Nat) (p : Dom × List ℚ) : ℚ :=
  (((p.1.indices n xs ys).zip p.2).lookup i).getD 0

theorem normCoefs_eq (n : Nat) (xs ys : Nat → ℚ) (i : Nat) : ∀ (ds : List Dom) (f : Nat → ℚ),
    normCoefs n xs ys ds f i = f i + (ds.map (weightAt n xs ys i)).sum
  | [], f => by simp [normCoefs]
  | d :: ds, f => by
    rw [normCoefs]
    rw [normCoefs_eq n xs ys i ds, addAt_eq _ _ _ _ (indices_nodup _ _ _ _), lookup_zip_map, List.map_cons, List.sum_cons]
    unfold weightAt
    by_cases h : i ∈ d.indices n xs ys
    · simp [h]; ring
    · simp [h]

theorem combine_eq (n : Nat) (xs ys : Nat → ℚ) (i : Nat) : ∀ (ds : List Dom) (vs : List (List ℚ)) (f : Nat → ℚ),
    combine n xs ys ds vs f i = f i + ((ds.zip vs).map (fun p => weightAt n xs ys i p.1 * valueAt n xs ys i p)).sum
  | [], vs, f => by simp [combine]
  | d :: ds, [], f => by simp [combine]
  | d :: ds, v :: vs, f => by
    rw [combine]
    rw [combine_eq n xs ys i ds vs, addAt_eq _ _ _ _ (indices_nodup _ _ _ _), lookup_zip_zipWith, List.zip_cons_cons,
      List.map_cons, List.sum_cons]
    unfold weightAt valueAt
    simp only
    by_cases h : i ∈ d.indices n xs ys
    · rw [if_pos h]
      cases ((d.indices n xs ys).zip v).lookup i with
      | none => simp
      | some y => simp; ring
    · have hno : ((d.indices n xs ys).zip v).lookup i = none := by
        rw [List.lookup_eq_none_iff]
        intro p hp
        have := (List.of_mem_zip hp).1
        simp only [bne_iff_ne, ne_eq, beq_eq_false_iff_ne]
        intro hc; rw [← hc] at this; exact h this
      simp [h, hno]

/-- The weights are positive inside the sub-domains. -/
theorem coef_pos {d : Dom} {x y : ℚ} (h : d.contains x y = true) : 1 / 1000 ≤ d.coef x y := by
  unfold Dom.contains at h
  rw [decide_eq_true_eq] at h
  obtain ⟨h1, h2, h3, h4⟩ := h
  unfold Dom.coef
  simp only
  have key : ∀ lo hi z : ℚ, lo ≤ z → z < hi → 0 ≤ 1 - (z - 1 / 2 * (lo + hi)) ^ 2 / (hi - 1 / 2 * (lo + hi)) ^ 2 := by
    intro lo hi z h1 h2
    have hp : 0 < hi - 1 / 2 * (lo + hi) := by linarith
    rw [sub_nonneg, div_le_one (by positivity)]
    nlinarith
  have := mul_nonneg (key _ _ _ h1 h2) (key _ _ _ h3 h4)
  linarith

theorem sum_nonneg_pos {l : List ℚ} (h : ∀ x ∈ l, 0 ≤ x) : 0 ≤ l.sum ∧ ((∃ x ∈ l, 0 < x) → 0 < l.sum) := by
  induction l with
  | nil => simp
  | cons a l ih =>
    obtain ⟨i1, i2⟩ := ih (fun x hx => h x (List.mem_cons_of_mem _ hx))
    have ha := h a List.mem_cons_self
    rw [List.sum_cons]
    refine ⟨by linarith, ?_⟩
    rintro ⟨x, hx, hp⟩
    rcases List.mem_cons.1 hx with rfl | hx
    · linarith
    · have := i2 ⟨x, hx, hp⟩; linarith

theorem weightAt_nonneg (n : Nat) (xs ys : Nat → ℚ) (i : Nat) (d : Dom) : 0 ≤ weightAt n xs ys i d := by
  unfold weightAt
  by_cases h : i ∈ d.indices n xs ys
  · rw [if_pos h]; have := coef_pos (mem_indices.1 h).2; linarith
  · rw [if_neg h]

/-- C42, recombination: at a point of at least one sub-domain the result is the mean of the values given by the
sub-domains which contain it, with positive weights (the ones of these sub-domains); at the other points there is no
value (NaN). -/
theorem C42_recombine (g : Grid) (n : Nat) (xs ys : Nat → ℚ) (vals : List (List ℚ)) (i : Nat) :
    ((∃ d ∈ g.doms, i ∈ d.indices n xs ys) →
      0 < (g.doms.map (weightAt n xs ys i)).sum ∧
      recombine g n xs ys vals i = some
        (((g.doms.zip vals).map (fun p => weightAt n xs ys i p.1 * valueAt n xs ys i p)).sum /
          (g.doms.map (weightAt n xs ys i)).sum)) ∧
    ((∀ d ∈ g.doms, i ∉ d.indices n xs ys) → recombine g n xs ys vals i = none) := by
  unfold recombine normalise
  rw [normCoefs_eq, combine_eq, zero_add, zero_add]
  constructor
  · rintro ⟨d, hd, hi⟩
    have hpos : 0 < (g.doms.map (weightAt n xs ys i)).sum := by
      refine (sum_nonneg_pos ?_).2 ⟨weightAt n xs ys i d, List.mem_map_of_mem hd, ?_⟩
      · intro x hx
        obtain ⟨d, _, rfl⟩ := List.mem_map.1 hx
        exact weightAt_nonneg n xs ys i d
      · unfold weightAt
        rw [if_pos hi]; have := coef_pos (mem_indices.1 hi).2; linarith
    exact ⟨hpos, by rw [if_neg (ne_of_gt hpos)]⟩
  · intro h
    rw [if_pos]
    apply List.sum_eq_zero
    intro x hx
    obtain ⟨d, hd, rfl⟩ := List.mem_map.1 hx
    unfold weightAt
    rw [if_neg (h d hd)]

theorem sum_between {α : Type} (w v : α → ℚ) (lo hi : ℚ) : ∀ (l : List α), (∀ p ∈ l, 0 ≤ w p) →
    (∀ p ∈ l, w p ≠ 0 → lo ≤ v p ∧ v p ≤ hi) →
    lo * (l.map w).sum ≤ (l.map (fun p => w p * v p)).sum ∧ (l.map (fun p => w p * v p)).sum ≤ hi * (l.map w).sum
  | [], _, _ => by simp
  | p :: l, h1, h2 => by
    obtain ⟨i1, i2⟩ := sum_between w v lo hi l (fun q hq => h1 q (List.mem_cons_of_mem _ hq))
      (fun q hq => h2 q (List.mem_cons_of_mem _ hq))
    have hw := h1 p List.mem_cons_self
    simp only [List.map_cons, List.sum_cons]
    by_cases h0 : w p = 0
    · rw [h0]; constructor <;> linarith
    · obtain ⟨a, b⟩ := h2 p List.mem_cons_self h0
      constructor <;> nlinarith

/-- C42, consequence: the result at a point is between the smallest and the largest values given by the sub-domains
containing it; in particular where the sub-domains agree the result is their common value. -/
theorem C42_recombine_between (g : Grid) (n : Nat) (xs ys : Nat → ℚ) (vals : List (List ℚ)) (i : Nat)
    (hl : vals.length = g.doms.length) {lo hi : ℚ} (hc : ∃ d ∈ g.doms, i ∈ d.indices n xs ys)
    (hv : ∀ p ∈ g.doms.zip vals, i ∈ p.1.indices n xs ys → lo ≤ valueAt n xs ys i p ∧ valueAt n xs ys i p ≤ hi) :
    ∃ r, recombine g n xs ys vals i = some r ∧ lo ≤ r ∧ r ≤ hi := by
  obtain ⟨hpos, he⟩ := (C42_recombine g n xs ys vals i).1 hc
  refine ⟨_, he, ?_⟩
  have hm : ((g.doms.zip vals).map (fun p => weightAt n xs ys i p.1)) = g.doms.map (weightAt n xs ys i) := by
    have : (g.doms.zip vals).map Prod.fst = g.doms := List.map_fst_zip (by omega)
    conv_rhs => rw [← this]
    rw [List.map_map]
    rfl
  obtain ⟨h1, h2⟩ := sum_between (fun p : Dom × List ℚ => weightAt n xs ys i p.1) (valueAt n xs ys i) lo hi (g.doms.zip vals)
    (fun p _ => weightAt_nonneg n xs ys i p.1) (by
      intro p hp hw
      apply hv p hp
      by_contra hcon
      apply hw
      unfold weightAt
      rw [if_neg hcon])
  rw [hm] at h1 h2
  exact ⟨by rw [le_div_iff₀ hpos]; exact h1, by rw [div_le_iff₀ hpos]; exact h2⟩

/-! ## Iterations -/

theorem iterLoop_spec (solve : Solver) (t : ℚ) : ∀ (m count : Nat) (r : Iter), 10 - count = m → count ≤ 10 →
    r.given.length = count → solve r.values = some (r.smoothed, r.weights) →
    ∀ r', iterLoop solve t count r = .ok r' →
      r'.given.length = r'.nbIterations ∧ r'.nbIterations ≤ 11 ∧ solve r'.values = some (r'.smoothed, r'.weights) ∧
      (r'.nbIterations ≤ 10 → (erratic t r'.smoothed r'.values).count true = 0) := by
  intro m
  induction m with
  | zero =>
    intro count r hm hc hg hs r' h
    rw [iterLoop] at h
    by_cases h0 : (erratic t r.smoothed r.values).count true = 0
    · rw [if_pos h0] at h
      injection h with h
      subst h
      exact ⟨hg, by simp only; omega, hs, fun _ => h0⟩
    · rw [if_neg h0] at h
      simp only at h
      cases hsv : solve (fixValues t r.smoothed r.values) with
      | none => rw [hsv] at h; cases h
      | some sw =>
        obtain ⟨s, w⟩ := sw
        rw [hsv] at h
        simp only at h
        rw [if_pos (by omega)] at h
        injection h with h
        subst h
        exact ⟨by simp [hg], by simp only; omega, hsv, fun hle => by simp only at hle; omega⟩
  | succ m ih =>
    intro count r hm hc hg hs r' h
    rw [iterLoop] at h
    by_cases h0 : (erratic t r.smoothed r.values).count true = 0
    · rw [if_pos h0] at h
      injection h with h
      subst h
      exact ⟨hg, by simp only; omega, hs, fun _ => h0⟩
    · rw [if_neg h0] at h
      simp only at h
      cases hsv : solve (fixValues t r.smoothed r.values) with
      | none => rw [hsv] at h; cases h
      | some sw =>
        obtain ⟨s, w⟩ := sw
        rw [hsv] at h
        simp only at h
        rw [if_neg (by omega)] at h
        exact ih (count + 1) _ (by omega) (by omega) (by simp [hg]) hsv r' h

/-- C42, iterations: for every solver and threshold, the number of solved systems is the number of iterations of the
summary, and at most 11 (not 10 as said by the message of the code, see `C42_eleven`); the result is the solution for the
corrected values, and all these values are within the threshold of the smoothed values if there are at most 10
iterations. -/
theorem C42_iterations (solve : Solver) (t : ℚ) (values : List ℚ) {r : Iter} (h : Tps.iter solve (some t) values = .ok r) :
    r.given.length = r.nbIterations ∧ r.nbIterations ≤ 11 ∧ solve r.values = some (r.smoothed, r.weights) ∧
    (r.nbIterations ≤ 10 → ∀ p ∈ r.smoothed.zip r.values, |p.1 - p.2| ≤ t) := by
  unfold Tps.iter at h
  cases hs : solve values with
  | none => rw [hs] at h; cases h
  | some sw =>
    obtain ⟨s, w⟩ := sw
    rw [hs] at h
    simp only at h
    obtain ⟨h1, h2, h3, h4⟩ := iterLoop_spec solve t 9 1 _ (by omega) (by omega) (by rfl) hs r h
    refine ⟨h1, h2, h3, ?_⟩
    intro hle p hp
    have h5 := h4 hle
    rw [List.count_eq_zero] at h5
    by_contra hc
    apply h5
    unfold erratic
    rw [← List.map_uncurry_zip_eq_zipWith]
    refine List.mem_map.2 ⟨p, hp, ?_⟩
    simp only [Function.uncurry, decide_eq_true_eq]
    exact not_le.1 hc

/-- Specification: the number of values which differ from their smoothed value by more than the threshold. -/
def nbErratic (solve : Solver) (t : ℚ) (values : List ℚ) : Nat := match solve values with
  | none => 0
  | some (s, _) => ((s.zip values).filter fun p => t < |p.1 - p.2|).length

theorem erratic_count (t : ℚ) : ∀ (s v : List ℚ),
    (erratic t s v).count true = ((s.zip v).filter fun p => t < |p.1 - p.2|).length
  | [], v => by simp [erratic]
  | a :: s, [] => by simp [erratic]
  | a :: s, b :: v => by
    have ih := erratic_count t s v
    unfold erratic at ih ⊢
    rw [List.zipWith_cons_cons, List.count_cons, ih, List.zip_cons_cons, List.filter_cons]
    by_cases h : t < |a - b| <;> simp [h]

theorem iterLoop_fixed (solve : Solver) (t : ℚ) : ∀ (m count : Nat) (r : Iter), 10 - count = m →
    solve r.values = some (r.smoothed, r.weights) → (∃ l, r.given = l ++ [r.values] ∧ r.nbFixed = (l.map (nbErratic solve t)).sum) →
    ∀ r', iterLoop solve t count r = .ok r' →
      ∃ l, r'.given = l ++ [r'.values] ∧ r'.nbFixed = (l.map (nbErratic solve t)).sum := by
  intro m
  induction m with
  | zero =>
    intro count r hm hs hg r' h
    rw [iterLoop] at h
    by_cases h0 : (erratic t r.smoothed r.values).count true = 0
    · rw [if_pos h0] at h
      injection h with h
      subst h
      exact hg
    · rw [if_neg h0] at h
      simp only at h
      cases hsv : solve (fixValues t r.smoothed r.values) with
      | none => rw [hsv] at h; cases h
      | some sw =>
        obtain ⟨s, w⟩ := sw
        rw [hsv] at h
        simp only at h
        rw [if_pos (by omega)] at h
        injection h with h
        subst h
        obtain ⟨l, h1, h2⟩ := hg
        refine ⟨l ++ [r.values], by rw [h1], ?_⟩
        simp [h2, nbErratic, hs, erratic_count]
  | succ m ih =>
    intro count r hm hs hg r' h
    rw [iterLoop] at h
    by_cases h0 : (erratic t r.smoothed r.values).count true = 0
    · rw [if_pos h0] at h
      injection h with h
      subst h
      exact hg
    · rw [if_neg h0] at h
      simp only at h
      cases hsv : solve (fixValues t r.smoothed r.values) with
      | none => rw [hsv] at h; cases h
      | some sw =>
        obtain ⟨s, w⟩ := sw
        rw [hsv] at h
        simp only at h
        rw [if_neg (by omega)] at h
        refine ih (count + 1) _ (by omega) hsv ?_ r' h
        obtain ⟨l, h1, h2⟩ := hg
        refine ⟨l ++ [r.values], by rw [h1], ?_⟩
        simp [h2, nbErratic, hs, erratic_count]

/-- C42: the number of fixed vectors of the summary is the number of replacements of all the iterations (the last system is solved
for the values returned, which are not replaced any more). -/
theorem C42_nb_fixed (solve : Solver) (t : ℚ) (values : List ℚ) {r : Iter} (h : Tps.iter solve (some t) values = .ok r) :
    ∃ l, r.given = l ++ [r.values] ∧ r.nbFixed = (l.map (nbErratic solve t)).sum := by
  unfold Tps.iter at h
  cases hs : solve values with
  | none => rw [hs] at h; cases h
  | some sw =>
    obtain ⟨s, w⟩ := sw
    rw [hs] at h
    simp only at h
    exact iterLoop_fixed solve t 9 1 _ (by omega) hs ⟨[], by simp⟩ r h

/-- A case which converges in two iterations: the erratic value 5 is replaced. -/
example : ∃ r, Tps.iter (fun v => some (if v = [0, 5] then [0, 1] else v, [])) (some 2) [0, 5] = .ok r ∧
    r.nbIterations = 2 ∧ r.values = [0, 1] ∧ r.nbFixed = 1 := by
  refine ⟨⟨[0, 1], [], 1, 2, [0, 1], [[0, 5], [0, 1]]⟩, ?_, rfl, rfl, rfl⟩
  unfold Tps.iter
  simp only
  rw [iterLoop]
  rw [if_neg (by decide +kernel)]
  simp only
  rw [if_neg (by omega), iterLoop, if_pos (by decide +kernel)]
  norm_num [erratic, fixValues, abs_of_nonneg]

/-- The limit is really reached: eleven solves if the smoothed values never get close to the values. -/
theorem C42_eleven : ∃ (solve : Solver) (r : Iter), Tps.iter solve (some 0) [0] = .ok r ∧ r.nbIterations = 11 ∧
    r.given.length = 11 := by
  have key : ∀ (m count nf : Nat) (a : ℚ) (x : Nat) (gv : List (List ℚ)), count + m = 10 → gv.length = count →
      ∃ r, iterLoop (fun v => some (v.map (· + 1), [])) 0 count ⟨[a + 1], [], nf, x, [a], gv⟩ = .ok r ∧
        r.nbIterations = 11 ∧ r.given.length = 11 := by
    intro m
    induction m with
    | zero =>
      intro count nf a x gv hc hg
      rw [iterLoop, if_neg (by simp [erratic])]
      simp only
      rw [if_pos (by omega)]
      exact ⟨_, rfl, by simp only; omega, by simp only [List.length_append, List.length_cons, List.length_nil]; omega⟩
    | succ m ih =>
      intro count nf a x gv hc hg
      rw [iterLoop, if_neg (by simp [erratic])]
      simp only
      rw [if_neg (by omega)]
      have : fixValues 0 [a + 1] [a] = [a + 1] := by simp [fixValues]
      rw [this]
      exact ih (count + 1) _ (a + 1) _ _ (by omega) (by simp [hg])
  obtain ⟨r, h, h1, h2⟩ := key 9 1 0 0 1 [[0]] rfl rfl
  exact ⟨fun v => some (v.map (· + 1), []), r, by unfold Tps.iter; exact h, h1, h2⟩

/-- Disagreement: without threshold (`threshold_tps = None`, the default of the class) the computation of the weights of
the sub-domains always fails. -/
theorem C42_no_threshold_fails {g : Grid} (hg : GoodGrid g) (n : Nat) (xs ys : Nat → ℚ) (solvers : List Solver)
    (hl : solvers.length = g.doms.length) (hs : ∀ s ∈ solvers, ∀ v, s v ≠ none) (values : Nat → ℚ) :
    weightsSubdom g n xs ys solvers none values = .error (.py .keyError) := by
  have hall : ∀ (ss : List Solver) (vs : List (List ℚ)), (∀ s ∈ ss, ∀ v, s v ≠ none) → ss.length = vs.length →
      ∃ rs, iterAll none ss vs = .ok rs ∧ rs.length = vs.length := by
    intro ss
    induction ss with
    | nil =>
      intro vs _ hl
      cases vs with
      | nil => exact ⟨[], rfl, rfl⟩
      | cons v vs => simp at hl
    | cons s ss ih =>
      intro vs hs hl
      cases vs with
      | nil => simp at hl
      | cons v vs =>
        obtain ⟨rs, e, hlen⟩ := ih vs (fun s hs' => hs s (List.mem_cons_of_mem _ hs')) (by simpa using hl)
        obtain ⟨sw, hsw⟩ := Option.ne_none_iff_exists'.1 (hs s List.mem_cons_self v)
        rw [iterAll]
        unfold Tps.iter
        rw [hsw]
        simp only
        rw [e]
        exact ⟨_, rfl, by simp [hlen]⟩
  obtain ⟨rs, e, hlen⟩ := hall solvers (g.doms.map (fun d => (d.indices n xs ys).map values)) hs (by simpa using hl)
  unfold weightsSubdom
  rw [e]
  have hne : 0 < g.doms.length := by
    obtain ⟨d, hd, _⟩ := (C42_covered_iff hg g.x0 g.y0).2 (by
      have := hg.x; have := hg.y; have := hg.bufX; have := hg.bufY
      refine ⟨⟨?_, ?_⟩, ?_, ?_⟩ <;> linarith)
    exact List.length_pos_of_mem hd
  cases rs with
  | nil => rw [List.length_map] at hlen; simp at hlen; omega
  | cons a l => rfl

/-- A solver which does not change the values (no smoothing). -/
def ExactSolver (s : Solver) : Prop := ∀ v, ∃ w, s v = some (v, w)

/-- C42, the whole computation: if the solution in each sub-domain goes through the values (no smoothing), the
recombined field goes through the values at every input point. -/
theorem C42_exact {xs ys : List ℚ} {size : Nat} {percent : ℚ} {g : Grid} (h : setup xs ys size percent = .ok g)
    (hp : 0 < percent) (hl : xs.length = ys.length) {solvers : List Solver} (hs : ∀ s ∈ solvers, ExactSolver s)
    (hn : solvers.length = g.doms.length) {t : ℚ} (ht : 0 ≤ t) (values : Nat → ℚ) :
    ∃ field ws, weightsSubdom g xs.length (fun i => xs.getD i 0) (fun i => ys.getD i 0) solvers (some t) values =
      .ok (field, ws) ∧ ∀ i < xs.length, field i = some (values i) := by
  have hall : ∀ (ss : List Solver) (vs : List (List ℚ)), (∀ s ∈ ss, ExactSolver s) → ss.length = vs.length →
      ∃ rs, iterAll (some t) ss vs = .ok rs ∧ rs.map Iter.smoothed = vs := by
    intro ss
    induction ss with
    | nil =>
      intro vs _ hl
      cases vs with
      | nil => exact ⟨[], rfl, rfl⟩
      | cons v vs => simp at hl
    | cons s ss ih =>
      intro vs hs hl
      cases vs with
      | nil => simp at hl
      | cons v vs =>
        obtain ⟨rs, e, hlen⟩ := ih vs (fun s hs' => hs s (List.mem_cons_of_mem _ hs')) (by simpa using hl)
        obtain ⟨w, hw⟩ := hs s List.mem_cons_self v
        have he : (erratic t v v).count true = 0 := by
          unfold erratic
          rw [List.count_eq_zero, ← List.map_uncurry_zip_eq_zipWith]
          intro hc
          obtain ⟨p, hp, hq⟩ := List.mem_map.1 hc
          have hpp : p.1 = p.2 := by
            obtain ⟨k, hk, rfl⟩ := List.mem_iff_getElem.1 hp
            simp
          simp only [Function.uncurry, decide_eq_true_eq] at hq
          rw [hpp, sub_self, abs_zero] at hq
          linarith
        rw [iterAll]
        unfold Tps.iter
        rw [hw]
        simp only
        rw [iterLoop, if_pos he]
        simp only
        rw [e]
        exact ⟨_, rfl, by simp [hlen]⟩
  obtain ⟨rs, e, hsm⟩ := hall solvers (g.doms.map (fun d => (d.indices xs.length (fun i => xs.getD i 0)
    (fun i => ys.getD i 0)).map values)) hs (by simpa using hn)
  unfold weightsSubdom
  rw [e]
  refine ⟨_, _, rfl, ?_⟩
  intro i hi
  rw [hsm]
  obtain ⟨r, hr, h1, h2⟩ := C42_recombine_between g xs.length (fun i => xs.getD i 0) (fun i => ys.getD i 0)
    (g.doms.map (fun d => (d.indices xs.length (fun i => xs.getD i 0) (fun i => ys.getD i 0)).map values)) i (by simp)
    (lo := values i) (hi := values i) (C42_cover h hp hl hi) (by
      intro p hp' hin
      have : ∃ d, p = (d, (d.indices xs.length (fun i => xs.getD i 0) (fun i => ys.getD i 0)).map values) := by
        obtain ⟨k, hk, rfl⟩ := List.mem_iff_getElem.1 hp'
        have hk' : k < g.doms.length := by simpa using hk
        exact ⟨g.doms[k], by rw [List.getElem_zip, List.getElem_map]⟩
      obtain ⟨d, rfl⟩ := this
      unfold valueAt
      simp only at hin ⊢
      rw [lookup_zip_map, if_pos hin]
      simp)
  rw [hr, le_antisymm h2 h1]

/-- The hypotheses: five points, one sub-domain, a solver without smoothing. -/
example : ∃ g, setup [0, 10, 0, 10, 5] [0, 0, 10, 10, 5] 200 20 = .ok g ∧
    ∃ solvers : List Solver, (∀ s ∈ solvers, ExactSolver s) ∧ solvers.length = g.doms.length := by
  have h : ((setup [0, 10, 0, 10, 5] [0, 0, 10, 10, 5] 200 20).toOption).isSome = true := by decide +kernel
  cases hg : setup [0, 10, 0, 10, 5] [0, 0, 10, 10, 5] 200 20 with
  | error e => rw [hg] at h; cases h
  | ok g =>
    refine ⟨g, rfl, List.replicate g.doms.length (fun v => some (v, [])), ?_, by simp⟩
    intro s hs v
    rw [List.eq_of_mem_replicate hs]
    exact ⟨[], rfl⟩

end Verif
