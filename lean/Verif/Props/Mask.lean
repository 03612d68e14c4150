import Verif.Model.Mask
import Verif.Lemmas.Text
import Verif.Props.PivGrid

/-!
# Masked coordinates (C43)
-/

namespace Verif
open Verif.Mask Verif.Text Verif.PivGrid

/-! ## Specification -/

/-- An optional bound as a user writes it in a slice. -/
def maskBoundText : Option Int → List Char
  | none => []
  | some i => intStr i

/-- The text of a slice `a:b`. -/
def maskRangeText (a b : Option Int) : List Char := maskBoundText a ++ ':' :: maskBoundText b

/-- The crop `y0:y1, x0:x1` as documented ("for example '100:600, :'"). -/
def maskBoxText (y0 y1 x0 x1 : Option Int) : List Char :=
  maskRangeText y0 y1 ++ ',' :: ' ' :: maskRangeText x0 x1

/-- A coordinate of the original image is in the range `a:b` (bounds counted from the start of the image). -/
def InRange (a b : Option Int) (L : Nat) (p : Int) : Prop :=
  0 ≤ p ∧ p < L ∧ (∀ a', a = some a' → a' ≤ p) ∧ (∀ b', b = some b' → p < b')

/-- A bound which is counted from the start of the image. -/
def FromStart (a : Option Int) : Prop := ∀ i, a = some i → 0 ≤ i

/-! ## The text -/

theorem numChar_ne_colon (c : Char) (h : isNumChar c = true) : c ≠ ':' := by
  intro hc; subst hc; revert h; decide

theorem maskBound_chars (a : Option Int) : ∀ c ∈ maskBoundText a, isNumChar c = true := by
  intro c hc
  cases a with
  | none => cases hc
  | some i => exact intStr_chars i c hc

theorem maskBound_ok (a : Option Int) : bound (maskBoundText a) = .ok a := by
  cases a with
  | none => rfl
  | some i =>
    have h := pyInt_pad [] [] i (by simp) (by simp)
    simp only [List.nil_append, List.append_nil] at h
    have hne : (intStr i).isEmpty = false := by simp [intStr_ne_nil]
    simp only [bound, maskBoundText, hne, h, Bool.false_eq_true, if_false]

theorem maskRange_noSpace (a b : Option Int) : ∀ c ∈ maskRangeText a b, isSpace c = false := by
  intro c hc
  rw [maskRangeText, List.mem_append, List.mem_cons] at hc
  rcases hc with h | h | h
  · exact (numChar_facts c (maskBound_chars a c h)).1
  · rw [h]; decide
  · exact (numChar_facts c (maskBound_chars b c h)).1

theorem maskRange_noComma (a b : Option Int) : ∀ c ∈ maskRangeText a b, c ≠ ',' := by
  intro c hc
  rw [maskRangeText, List.mem_append, List.mem_cons] at hc
  rcases hc with h | h | h
  · exact (numChar_facts c (maskBound_chars a c h)).2.1
  · rw [h]; decide
  · exact (numChar_facts c (maskBound_chars b c h)).2.1

theorem maskPart_ok (a b : Option Int) (ws : List Char) (h : ∀ c ∈ ws, isSpace c = true) :
    partSlice (ws ++ maskRangeText a b) = .ok ⟨a, b, none⟩ := by
  have hne : maskRangeText a b ≠ [] := by simp [maskRangeText]
  have e := strip_pad ws [] (maskRangeText a b) h (by simp) hne
    (maskRange_noSpace a b _ (List.head_mem _)) (maskRange_noSpace a b _ (List.getLast_mem _))
  rw [List.append_nil] at e
  have e2 : splitChar ':' (maskRangeText a b) = [maskBoundText a, maskBoundText b] := by
    rw [maskRangeText, splitChar_piece _ _ _ (fun c hc => numChar_ne_colon c (maskBound_chars a c hc)),
      splitChar_last _ _ (fun c hc => numChar_ne_colon c (maskBound_chars b c hc))]
  rw [partSlice, e, e2]
  simp only [bounds, maskBound_ok, mkSlice]

/-- The documented texts are read as the two slices they name. -/
theorem C43_text (y0 y1 x0 x1 : Option Int) :
    slicesOf (maskBoxText y0 y1 x0 x1) = .ok [⟨y0, y1, none⟩, ⟨x0, x1, none⟩] := by
  have hp : ∀ c ∈ ' ' :: maskRangeText x0 x1, c ≠ ',' := by
    intro c hc
    rcases List.mem_cons.1 hc with rfl | hc
    · decide
    · exact maskRange_noComma _ _ _ hc
  rw [slicesOf, maskBoxText, splitChar_piece _ _ _ (maskRange_noComma y0 y1), splitChar_last _ _ hp]
  have h1 := maskPart_ok y0 y1 [] (by simp)
  have h2 := maskPart_ok x0 x1 [' '] (by decide)
  rw [List.nil_append] at h1
  rw [List.singleton_append] at h2
  simp only [partSlices, h1, h2]

example : slicesOf "100:600, :".toList = .ok [⟨some 100, some 600, none⟩, ⟨none, none, none⟩] := by decide
example : slicesOf "20:, 3".toList = .ok [⟨some 20, none, none⟩, ⟨none, some 3, none⟩] := by decide
example : slicesOf "a:b, :".toList = .error .valueError := by decide
example : slicesOf "1:2:3:4, :".toList = .error .typeError := by decide

/-! ## Round trip -/

/-- C43: whatever the text of the crop, converting from the masked image to the original one and back (and the
other way round) gives the same coordinates, as soon as one conversion does not fail; they fail for the same texts. -/
theorem C43_roundtrip (strcrop : MaskParams) (x y x' y' : Int) :
    (toOriginal strcrop x y = .ok (x', y') ↔ toMasked strcrop x' y' = .ok (x, y)) ∧
    (∀ e, toOriginal strcrop x y = .error e ↔ toMasked strcrop x' y' = .error e) := by
  unfold toOriginal toMasked
  cases strcrop with
  | none =>
    constructor
    · simp only [Except.ok.injEq, Prod.mk.injEq]; omega
    · intro e; simp
  | some t =>
    simp only
    cases hs : slicesOf t with
    | error e' => simp
    | ok ss =>
      simp only
      cases h1 : ss[1]? with
      | none => simp
      | some s1 =>
        cases h0 : ss[0]? with
        | none => simp
        | some s0 =>
          simp only
          constructor
          · simp only [Except.ok.injEq, Prod.mk.injEq, Mask.add, Mask.sub]
            cases s1.start <;> cases s0.start <;> simp only <;> omega
          · intro e; simp

example : toOriginal (some "100:600, 5:".toList) 3 4 = .ok (8, 104) := by decide
example : toMasked (some "100:600, 5:".toList) 8 104 = .ok (3, 4) := by decide

/-! ## The pixels -/

theorem rangeLen_one (a b : Int) : rangeLen a b 1 = (b - a).toNat := by
  unfold rangeLen
  rw [if_pos (by omega)]
  split <;> omega

/-- The indices selected by `a:b` with bounds counted from the start. -/
theorem mask_indices (a b : Option Int) (L : Nat) (ha : FromStart a) (hb : FromStart b) :
    ∃ l : List Int, (⟨a, b, none⟩ : Slice).indices L = .ok l ∧
      (∀ i, i < l.length → InRange a b L (l.getD i 0) ∧ l.getD i 0 = Mask.add i a) ∧
      (∀ p, InRange a b L p → ∃ i : Nat, i < l.length ∧ Mask.sub p a = i ∧ l.getD i 0 = p) := by
  have hA : ∃ A : Int, (a.map (adjust L 0 L)).getD 0 = A ∧ 0 ≤ A ∧ A ≤ L ∧
      (∀ p : Int, p < L → 0 ≤ p → (A ≤ p ↔ ∀ a', a = some a' → a' ≤ p)) ∧
      (∀ p : Int, p < L → A ≤ p → Mask.add (p - A) a = p ∧ Mask.sub p a = p - A) := by
    cases a with
    | none =>
      refine ⟨0, rfl, by omega, by omega, ?_, ?_⟩
      · intro p _ h; constructor
        · intro _ a' h'; cases h'
        · intro _; exact h
      · intro p _ _; simp [Mask.add, Mask.sub]
    | some a' =>
      have h0 := ha a' rfl
      have e : adjust L 0 L a' = if (L : Int) < a' then (L : Int) else a' := by
        unfold adjust; simp only [if_neg (show ¬ a' < 0 by omega)]
      refine ⟨adjust L 0 L a', rfl, ?_, ?_, ?_, ?_⟩
      · rw [e]; split <;> omega
      · rw [e]; split <;> omega
      · intro p hp _
        rw [e]; constructor
        · intro h a'' h'; cases h'; split at h <;> omega
        · intro h; have := h a' rfl; split <;> omega
      · intro p hp hp2
        rw [e] at hp2 ⊢
        split at hp2
        · omega
        · rename_i hn
          rw [if_neg hn]
          simp [Mask.add, Mask.sub]
  have hB : ∃ B : Int, (b.map (adjust L 0 L)).getD L = B ∧ B ≤ L ∧
      (∀ p : Int, 0 ≤ p → p < L → (p < B ↔ ∀ b', b = some b' → p < b')) := by
    cases b with
    | none =>
      refine ⟨L, rfl, by omega, ?_⟩
      intro p _ h; constructor
      · intro _ b' h'; cases h'
      · intro _; exact h
    | some b' =>
      have h0 := hb b' rfl
      have e : adjust L 0 L b' = if (L : Int) < b' then (L : Int) else b' := by
        unfold adjust; simp only [if_neg (show ¬ b' < 0 by omega)]
      refine ⟨adjust L 0 L b', rfl, ?_, ?_⟩
      · rw [e]; split <;> omega
      · intro p _ hp
        rw [e]; constructor
        · intro h b'' h'; cases h'; split at h <;> omega
        · intro h; have := h b' rfl; split <;> omega
  obtain ⟨A, eA, hA0, hAL, hA1, hA2⟩ := hA
  obtain ⟨B, eB, hBL, hB1⟩ := hB
  refine ⟨pyRange A B 1, ?_, ?_, ?_⟩
  · simp only [Slice.indices, Option.getD_none, eA, eB]
    rfl
  · intro i hi
    have hl : i < (B - A).toNat := by rw [pyRange_length, rangeLen_one] at hi; exact hi
    have hg : (pyRange A B 1).getD i 0 = A + i := by
      rw [List.getD_eq_getElem?_getD, List.getElem?_eq_getElem hi, pyRange_get]; simp
    rw [hg]
    have h1 : A + (i : Int) < B := by omega
    have h2 := (hA1 (A + i) (by omega) (by omega)).1 (by omega)
    have h3 := (hB1 (A + i) (by omega) (by omega)).1 h1
    refine ⟨⟨by omega, by omega, h2, h3⟩, ?_⟩
    have := (hA2 (A + i) (by omega) (by omega)).1
    rw [show A + (i : Int) - A = i by omega] at this
    exact this.symm
  · intro p hp
    obtain ⟨h0, h1, h2, h3⟩ := hp
    have hAp := (hA1 p h1 h0).2 h2
    have hpB := (hB1 p h0 h1).2 h3
    have hlen : (p - A).toNat < (pyRange A B 1).length := by
      rw [pyRange_length, rangeLen_one]; omega
    refine ⟨(p - A).toNat, hlen, ?_, ?_⟩
    · rw [(hA2 p h1 hAp).2]; omega
    · rw [List.getD_eq_getElem?_getD, List.getElem?_eq_getElem hlen, pyRange_get]; simp only [Option.getD_some]; omega

/-- C43: a crop `y0:y1, x0:x1` whose bounds are counted from the start of the image (they may be absent, or larger
than the image).  The couple then holds exactly the pixels of the original image that are in the box, and the
conversions between masked and original coordinates are those of the pixels. -/
theorem C43_offsets {α : Type} (im : Img α) (y0 y1 x0 x1 : Option Int) (hy0 : FromStart y0) (hy1 : FromStart y1)
    (hx0 : FromStart x0) (hx1 : FromStart x1) :
    ∃ c : Couple α,
      (⟨none, im⟩ : Couple α).applyMask (some (some (maskBoxText y0 y1 x0 x1))) = .ok c ∧
      -- each pixel of the cropped image is the pixel of the original image at the converted coordinates
      (∀ y x : Nat, y < c.array.ny → x < c.array.nx → ∃ Y X : Nat,
        toOriginal (some (maskBoxText y0 y1 x0 x1)) x y = .ok (X, Y) ∧
        InRange y0 y1 im.ny Y ∧ InRange x0 x1 im.nx X ∧ c.array.get y x = im.get Y X) ∧
      -- each pixel of the box is in the cropped image
      (∀ Y X : Nat, InRange y0 y1 im.ny Y → InRange x0 x1 im.nx X → ∃ y x : Nat,
        toMasked (some (maskBoxText y0 y1 x0 x1)) X Y = .ok (x, y) ∧
        y < c.array.ny ∧ x < c.array.nx ∧ c.array.get y x = im.get Y X) := by
  obtain ⟨ly, ey, hy, hy'⟩ := mask_indices y0 y1 im.ny hy0 hy1
  obtain ⟨lx, ex, hx, hx'⟩ := mask_indices x0 x1 im.nx hx0 hx1
  refine ⟨⟨some (some (maskBoxText y0 y1 x0 x1)), take2 im ly lx⟩, ?_, ?_, ?_⟩
  · simp only [Couple.applyMask, maskArray, C43_text, cropArray, ey, ex]
  · intro y x hly hlx
    obtain ⟨hyr, hya⟩ := hy y hly
    obtain ⟨hxr, hxa⟩ := hx x hlx
    have hY : (((ly.getD y 0).toNat : Nat) : Int) = ly.getD y 0 := by have := hyr.1; omega
    have hX : (((lx.getD x 0).toNat : Nat) : Int) = lx.getD x 0 := by have := hxr.1; omega
    refine ⟨(ly.getD y 0).toNat, (lx.getD x 0).toNat, ?_, ?_, ?_, rfl⟩
    · simp only [toOriginal, C43_text, List.getElem?_cons_succ, List.getElem?_cons_zero]
      rw [hY, hX, hya, hxa]
    · rw [hY]; exact hyr
    · rw [hX]; exact hxr
  · intro Y X hY hX
    obtain ⟨i, hi, hi2, hi3⟩ := hy' Y hY
    obtain ⟨j, hj, hj2, hj3⟩ := hx' X hX
    refine ⟨i, j, ?_, hi, hj, ?_⟩
    · simp only [toMasked, C43_text, List.getElem?_cons_succ, List.getElem?_cons_zero]
      rw [hi2, hj2]
    · simp only [take2, hi3, hj3, Int.toNat_natCast]

/-- A 10 x 8 image whose pixels hold their own coordinates. -/
def maskWitness : Img (Nat × Nat) := ⟨10, 8, fun y x => (y, x)⟩

example : (((⟨none, maskWitness⟩ : Couple (Nat × Nat)).applyMask (some (some "2:6, 3:".toList))).map
    (fun c => (c.array.ny, c.array.nx, c.array.get 1 2))) = .ok (4, 5, (3, 5)) := by decide

/-- C43 fails for a start counted from the end of the image, a legal slice which is accepted: the first pixel of
the crop `-4:, :` is the pixel (0, 6) of the original image, the conversion says (0, -4). -/
theorem C43_negative_start_fails :
    (((⟨none, maskWitness⟩ : Couple (Nat × Nat)).applyMask (some (some "-4:, :".toList))).map
      (fun c => c.array.get 0 0)) = .ok (6, 0) ∧
    toOriginal (some "-4:, :".toList) 0 0 = .ok (0, -4) := by decide

/-- C43 fails for a slice with a step: the second row of the crop `0:10:2, :` is row 2, the conversion says 1. -/
theorem C43_step_fails :
    (((⟨none, maskWitness⟩ : Couple (Nat × Nat)).applyMask (some (some "0:10:2, :".toList))).map
      (fun c => c.array.get 1 0)) = .ok (2, 0) ∧
    toOriginal (some "0:10:2, :".toList) 0 1 = .ok (0, 1) := by decide

/-- A bound of a slice counted from the start: negative bounds are counted from the end. -/
def fromEnd (L : Nat) (b : Int) : Int := if b < 0 then b + L else b

/-- C43: a slice with a negative step selects the indices from the start (at most the last index) down to the stop, which is excluded, by steps; this is
the order in which they are in the crop (as in Python).  Missing bounds are the last index and "down to 0 included". -/
theorem C43_decreasing (L n : Nat) (hn : 0 < n) (a b : Option Int) :
    ∃ l, Slice.indices ⟨a, b, some (-n)⟩ L = .ok l ∧ l.Pairwise (fun i j => j < i) ∧
      ∀ A, A = min ((a.map (fromEnd L)).getD L) (L - 1) → ∀ k : Int,
        k ∈ l ↔ 0 ≤ k ∧ k ≤ A ∧ (∀ b', b = some b' → fromEnd L b' < k) ∧ (n : Int) ∣ A - k := by
  have hs : ¬ (-(n : Int) = 0) := by omega
  have hp : ¬ (0 < -(n : Int)) := by omega
  obtain ⟨S, hS⟩ : ∃ S, S = (a.map (adjust L (-1) (L - 1))).getD ((L : Int) - 1) := ⟨_, rfl⟩
  obtain ⟨T, hT⟩ : ∃ T, T = (b.map (adjust L (-1) (L - 1))).getD (-1) := ⟨_, rfl⟩
  have hS1 : ∀ k : Int, 0 ≤ k → (k ≤ S ↔ k ≤ min ((a.map (fromEnd L)).getD L) (L - 1)) := by
    intro k hk
    rw [hS]
    cases a with
    | none => simp
    | some a =>
      simp only [Option.map_some, Option.getD_some]
      unfold adjust fromEnd
      simp only [le_min_iff]
      split <;> split <;> (try split) <;> omega
  have hS2 : 0 ≤ S → S = min ((a.map (fromEnd L)).getD L) (L - 1) := by
    intro h
    have h1 := (hS1 S h).1 (le_refl _)
    have h2 : min ((a.map (fromEnd L)).getD (L : Int)) ((L : Int) - 1) ≤ S := (hS1 _ (by omega)).2 (le_refl _)
    omega
  have hT0 : -1 ≤ T := by
    rw [hT]
    cases b with
    | none => simp
    | some b =>
      simp only [Option.map_some, Option.getD_some]
      unfold adjust
      simp only
      split <;> split <;> (try split) <;> omega
  have hT1 : ∀ k : Int, 0 ≤ k → k < L → (T < k ↔ ∀ b', b = some b' → fromEnd L b' < k) := by
    intro k hk hkL
    rw [hT]
    cases b with
    | none => simp; omega
    | some b =>
      simp only [Option.map_some, Option.getD_some, Option.some.injEq, forall_eq']
      unfold adjust fromEnd
      simp only
      split <;> split <;> (try split) <;> omega
  refine ⟨pyRange S T (-n), ?_, ?_, ?_⟩
  · unfold Slice.indices
    simp only [Option.getD_some, hs, hp, if_false, ← hS, ← hT]
  · unfold pyRange
    rw [List.pairwise_map]
    exact List.Pairwise.imp (fun {i j} hij => by nlinarith) List.pairwise_lt_range
  · intro A hA k
    have hn' : (0 : Int) < n := by omega
    unfold pyRange rangeLen
    simp only [hp, if_false, show -(n : Int) < 0 by omega, if_true, neg_neg, List.mem_map, List.mem_range]
    constructor
    · rintro ⟨i, hi, rfl⟩
      by_cases hTS : T < S
      · simp only [hTS, if_true] at hi
        have h1 : (i : Int) ≤ (S - T - 1) / n := by omega
        have h2 : (i : Int) * n ≤ S - T - 1 := (Int.le_ediv_iff_mul_le hn').1 h1
        have h3 : 0 ≤ (i : Int) * n := by positivity
        have h4 : S + (i : Int) * -n = S - i * n := by ring
        rw [h4]
        have h5 : S = A := by rw [hA]; exact hS2 (by omega)
        refine ⟨by omega, by omega, (hT1 _ (by omega) (by omega)).1 (by omega), ⟨i, by rw [h5]; ring⟩⟩
      · simp only [hTS, if_false] at hi
        omega
    · rintro ⟨h0, h1, h2, m, hm⟩
      have h3 := (hS1 k h0).2 (hA ▸ h1)
      have h5 : S = A := by rw [hA]; exact hS2 (by omega)
      have h6 := (hT1 k h0 (by omega)).2 h2
      have hTS : T < S := by omega
      have hm0 : 0 ≤ m := by
        by_contra hneg
        have : (n : Int) * m < 0 := mul_neg_of_pos_of_neg hn' (by omega)
        omega
      refine ⟨m.toNat, ?_, ?_⟩
      · simp only [hTS, if_true]
        have : m ≤ (S - T - 1) / n := (Int.le_ediv_iff_mul_le hn').2 (by rw [mul_comm]; omega)
        omega
      · rw [Int.toNat_of_nonneg hm0, h5]
        have : m * -(n : Int) = -((n : Int) * m) := by ring
        rw [this]; omega

/-- Python: `list(range(10))[8:1:-3]` is `[8, 5, 2]`, `list(range(10))[-2::-4]` is `[8, 4, 0]`. -/
example : Slice.indices ⟨some 8, some 1, some (-3)⟩ 10 = .ok [8, 5, 2] ∧ Slice.indices ⟨some (-2), none, some (-4)⟩ 10 = .ok [8, 4, 0] := by decide

/-- C43 fails for a slice with a negative step: the crop `::-1, :` turns the image upside down, and the conversions do not see it. -/
theorem C43_upside_down_fails {α : Type} (im : Img α) (x y : Nat) (hy : y < im.ny) (hx : x < im.nx) :
    ∃ c : Couple α, (⟨none, im⟩ : Couple α).applyMask (some (some "::-1, :".toList)) = .ok c ∧ c.array.ny = im.ny ∧ c.array.nx = im.nx ∧
      c.array.get y x = im.get (im.ny - 1 - y) x ∧ toOriginal (some "::-1, :".toList) x y = .ok ((x : Int), (y : Int)) := by
  have hs : slicesOf "::-1, :".toList = .ok [⟨none, none, some (-1)⟩, ⟨none, none, none⟩] := by decide
  have e1 : Slice.indices ⟨none, none, some (-1)⟩ im.ny = .ok ((List.range im.ny).map fun i : Nat => (im.ny : Int) - 1 - i) := by
    unfold Slice.indices pyRange rangeLen
    simp only [Option.getD_some, Option.map_none, Option.getD_none]
    norm_num
    have hl : (-1 : Int) < (im.ny : Int) - 1 := by omega
    simp only [show 0 < im.ny by omega, if_true]
    congr 1
  have e2 : Slice.indices ⟨none, none, none⟩ im.nx = .ok ((List.range im.nx).map fun i : Nat => (i : Int)) := by
    unfold Slice.indices pyRange rangeLen
    simp only [Option.map_none, Option.getD_none]
    norm_num
    simp only [show 0 < im.nx by omega, if_true]
  refine ⟨⟨some (some "::-1, :".toList), take2 im ((List.range im.ny).map fun i : Nat => (im.ny : Int) - 1 - i) ((List.range im.nx).map fun i : Nat => (i : Int))⟩, ?_, ?_, ?_, ?_, ?_⟩
  · simp only [Couple.applyMask, maskArray, hs, cropArray, e1, e2]
  · simp [take2]
  · simp [take2]
  · show im.get _ _ = _
    simp only [List.getD_eq_getElem?_getD, List.getElem?_map, List.getElem?_range hy, List.getElem?_range hx, Option.map_some, Option.getD_some]
    congr 1
    omega
  · unfold toOriginal
    simp only [hs]
    rfl

/-- C43 fails for a crop of the rows only (`2:6`), which NumPy accepts: the conversions raise `IndexError`. -/
theorem C43_rows_only_fails :
    (((⟨none, maskWitness⟩ : Couple (Nat × Nat)).applyMask (some (some "2:6".toList))).map
      (fun c => (c.array.ny, c.array.nx))) = .ok (4, 8) ∧
    toOriginal (some "2:6".toList) 0 0 = .error .indexError := by decide

/-! ## One mask -/

/-- C43: whatever the sequence of works (passes) that apply their mask to a couple, if none fails then the images
have been cropped once, with the mask that all the works asked for. -/
theorem C43_mask_once {α : Type} (im : Img α) (pms : List (Option MaskParams)) (c : Couple α)
    (h : (⟨none, im⟩ : Couple α).applyAll pms = .ok c) :
    maskArray c.paramsMask im = .ok c.array ∧
    (∀ k, c.paramsMask = some k → some k ∈ pms ∧ ∀ k', some k' ∈ pms → k' = k) ∧
    (c.paramsMask = none → ∀ pm ∈ pms, pm = none) := by
  have masked : ∀ (pms : List (Option MaskParams)) (c c' : Couple α) (k : MaskParams), c.paramsMask = some k →
      c.applyAll pms = .ok c' → c' = c ∧ ∀ pm ∈ pms, pm = some k := by
    intro pms
    induction pms with
    | nil => intro c c' k hk h; cases h; exact ⟨rfl, by simp⟩
    | cons pm pms ih =>
      intro c c' k hk h
      unfold Couple.applyAll at h
      cases pm with
      | none => simp [Couple.applyMask, hk] at h
      | some q =>
        simp only [Couple.applyMask, hk] at h
        by_cases hq : q = k
        · rw [if_pos hq] at h
          obtain ⟨h1, h2⟩ := ih c c' k hk h
          refine ⟨h1, ?_⟩
          intro pm hpm
          rcases List.mem_cons.1 hpm with rfl | hpm
          · rw [hq]
          · exact h2 pm hpm
        · rw [if_neg hq] at h; cases h
  induction pms with
  | nil =>
    cases h
    exact ⟨rfl, (fun k hk => nomatch hk), by simp⟩
  | cons pm pms ih =>
    unfold Couple.applyAll at h
    cases pm with
    | none =>
      simp only [Couple.applyMask, maskArray] at h
      obtain ⟨h1, h2, h3⟩ := ih h
      refine ⟨h1, ?_, ?_⟩
      · intro k hk
        refine ⟨by simp [(h2 k hk).1], ?_⟩
        intro k' hk'
        rcases List.mem_cons.1 hk' with h4 | h4
        · cases h4
        · exact (h2 k hk).2 k' h4
      · intro hn pm hpm
        rcases List.mem_cons.1 hpm with h4 | h4
        · exact h4
        · exact h3 hn pm h4
    | some q =>
      simp only [Couple.applyMask] at h
      cases hm : maskArray (some q) im with
      | error e => rw [hm] at h; cases h
      | ok a =>
        rw [hm] at h
        obtain ⟨h1, h2⟩ := masked pms _ c q rfl h
        subst h1
        refine ⟨hm, ?_, (fun hn => nomatch hn)⟩
        intro k hk
        cases hk
        refine ⟨by simp, ?_⟩
        intro k' hk'
        rcases List.mem_cons.1 hk' with h4 | h4
        · cases h4; rfl
        · cases h2 _ h4; rfl

example : (((⟨none, maskWitness⟩ : Couple (Nat × Nat)).applyAll
    [some (some "2:6, 3:".toList), some (some "2:6, 3:".toList)]).map (fun c => (c.array.ny, c.array.nx)))
    = .ok (4, 5) := by decide

end Verif
