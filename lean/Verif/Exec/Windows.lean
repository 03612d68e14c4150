import Verif.Exec.GroupLive

/-!
# Order of loading of windows of consecutive images
-/

namespace Verif.Exec
open Verif Verif.Spec

variable {κ : Type} [DecidableEq κ]

/-- The images of each group are within `m` consecutive images of the order of loading. -/
def SpanBelow (series : List (κ × List κ)) (m : Nat) : Prop :=
  ∀ s ∈ series, ∀ a ∈ s.2, ∀ b ∈ s.2, (loadOrder series).idxOf b < (loadOrder series).idxOf a + m

theorem waitingBelow_of_span {series : List (κ × List κ)} {m : Nat} (hm : 0 < m) (h : SpanBelow series m) :
    WaitingBelow series m := by
  intro loaded rest horder _
  have hnd := loadOrder_nodup series
  have hndl : loaded.Nodup := by rw [horder, List.nodup_append] at hnd; exact hnd.1
  have hsub : ∀ n ∈ waiting series loaded, n ∈ loaded.drop (loaded.length - (m - 1)) := by
    intro n hn
    unfold waiting at hn
    rw [List.mem_filter, List.any_eq_true] at hn
    obtain ⟨hnl, s, hs, hn2⟩ := hn
    simp only [Bool.and_eq_true, decide_eq_true_eq, List.any_eq_true] at hn2
    obtain ⟨hns, n', hn's, hn'⟩ := hn2
    have hspan := h s hs n hns n' hn's
    have hi : (loadOrder series).idxOf n = loaded.idxOf n := by
      rw [horder, List.idxOf_append_of_mem hnl]
    have hi' : loaded.length ≤ (loadOrder series).idxOf n' := by
      rw [horder, List.idxOf_append_of_notMem hn']
      omega
    have hlt : loaded.idxOf n < loaded.length := List.idxOf_lt_length_of_mem hnl
    rw [List.mem_drop_iff_getElem]
    refine ⟨loaded.idxOf n - (loaded.length - (m - 1)), by omega, ?_⟩
    have : loaded.length - (m - 1) + (loaded.idxOf n - (loaded.length - (m - 1))) = loaded.idxOf n := by omega
    simp only [this]
    exact List.getElem_idxOf hlt
  have := nodup_subset_length (List.Nodup.filter _ hndl) hsub
  rw [List.length_drop] at this
  have h2 : (waiting series loaded).length ≤ loaded.length - (loaded.length - (m - 1)) := this
  omega

/-- The windows of `m` consecutive images starting at the images `0, d, 2 d, ...`. -/
def windows (key name : Nat → κ) (m d n : Nat) : List (κ × List κ) :=
  (List.range n).map (fun i => (key i, (List.range m).map (fun j => name (i * d + j))))

theorem foldl_window {name : Nat → κ} (hname : ∀ i j, name i = name j → i = j) (a b : Nat) (hab : a ≤ b) (m : Nat) :
    ((List.range m).map (fun j => name (a + j))).foldl (fun acc x => if x ∈ acc then acc else acc ++ [x])
      ((List.range b).map name) = (List.range (max b (a + m))).map name := by
  induction m with
  | zero => simp [Nat.max_eq_left hab]
  | succ m ih =>
    rw [List.range_succ, List.map_append, List.foldl_append, ih]
    simp only [List.map_cons, List.map_nil, List.foldl_cons, List.foldl_nil]
    by_cases h : a + m < b
    · have e1 : max b (a + m) = b := by omega
      have e2 : max b (a + (m + 1)) = b := by omega
      rw [e1, e2, if_pos]
      exact List.mem_map.2 ⟨a + m, List.mem_range.2 h, rfl⟩
    · have e1 : max b (a + m) = a + m := by omega
      have e2 : max b (a + (m + 1)) = a + m + 1 := by omega
      rw [e1, e2, if_neg]
      · rw [List.range_succ, List.map_append]; rfl
      · intro hmem
        obtain ⟨j, hj, hj2⟩ := List.mem_map.1 hmem
        have := hname _ _ hj2
        rw [List.mem_range] at hj
        omega

theorem loadOrder_windows {key name : Nat → κ} (hname : ∀ i j, name i = name j → i = j) {m d : Nat} (hd : d ≤ m)
    (n : Nat) : loadOrder (windows key name m d n) = (List.range (if n = 0 then 0 else (n - 1) * d + m)).map name := by
  induction n with
  | zero => rfl
  | succ n ih =>
    unfold loadOrder firstOccurrences windows at ih ⊢
    rw [List.range_succ, List.map_append, List.flatMap_append, List.foldl_append, ih]
    simp only [List.map_cons, List.map_nil, List.flatMap_cons, List.flatMap_nil, List.append_nil]
    by_cases hn : n = 0
    · subst hn
      simp only [if_true]
      rw [foldl_window hname (0 * d) 0 (by omega)]
      simp
    · obtain ⟨n, rfl⟩ := Nat.exists_eq_succ_of_ne_zero hn
      rw [if_neg hn, if_neg (by omega)]
      have h1 : (n + 1) * d = n * d + d := by rw [Nat.add_mul, Nat.one_mul]
      simp only [Nat.succ_eq_add_one, Nat.add_sub_cancel]
      rw [h1]
      by_cases hle : n * d + d ≤ n * d + m
      · rw [foldl_window hname (n * d + d) _ hle]
        congr 2
        omega
      · omega

theorem idxOf_map_range {name : Nat → κ} (hname : ∀ i j, name i = name j → i = j) {b i : Nat} (hi : i < b) :
    ((List.range b).map name).idxOf (name i) = i := by
  have hnd : ((List.range b).map name).Nodup := by
    rw [List.nodup_map_iff (fun i j h => hname i j h)]
    exact List.nodup_range
  have hl : i < ((List.range b).map name).length := by simpa using hi
  have := List.Nodup.idxOf_getElem hnd i hl
  simpa using this

theorem windows_span {key name : Nat → κ} (hname : ∀ i j, name i = name j → i = j) {m d : Nat} (hd : d ≤ m) (n : Nat) :
    SpanBelow (windows key name m d n) m := by
  intro s hs a ha b hb
  rw [loadOrder_windows hname hd]
  obtain ⟨i, hi, rfl⟩ := List.mem_map.1 hs
  obtain ⟨j, hj, rfl⟩ := List.mem_map.1 ha
  obtain ⟨j', hj', rfl⟩ := List.mem_map.1 hb
  rw [List.mem_range] at hi hj hj'
  rw [if_neg (by omega)]
  have : i * d ≤ (n - 1) * d := Nat.mul_le_mul_right _ (by omega)
  rw [idxOf_map_range hname (by omega), idxOf_map_range hname (by omega)]
  omega

theorem windows_keys {key name : Nat → κ} (hkey : ∀ i j, key i = key j → i = j) (m d n : Nat) :
    ((windows key name m d n).map Prod.fst).Nodup := by
  unfold windows
  rw [List.map_map, show (Prod.fst ∘ fun i => (key i, (List.range m).map (fun j => name (i * d + j)))) = key from rfl,
    List.nodup_map_iff (fun i j h => hkey i j h)]
  exact List.nodup_range

end Verif.Exec
