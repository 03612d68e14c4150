import Verif.Model.CoupleFile
import Mathlib.Tactic.IntervalCases

/-!
# C131: the couple of images of a file of results is the couple which has been saved
-/

namespace Verif
open Verif.CoupleFile Verif.ResultsFiles Verif.TryWork Verif.PivGrid Verif.Mask

/-! ## `repr` and its evaluation -/

theorem cf_unhex (d : Nat) (h : d < 16) : unhex (hexDigit d) = some d := by
  interval_cases d <;> decide

theorem cf_hex (q : Char) (text l : Txt) : ∀ (w n v k : Nat), n < 16 ^ w → 1 ≤ k →
    readText q (.hex (w + k) v) text (toHex w n ++ l) = readText q (.hex k (v * 16 ^ w + n)) text l := by
  intro w
  induction w generalizing l with
  | zero =>
    intro n v k hn hk
    have : n = 0 := by simpa using hn
    subst this
    simp [toHex]
  | succ w ih =>
    intro n v k hn hk
    have h1 : n / 16 < 16 ^ w := by
      rw [Nat.div_lt_iff_lt_mul (by norm_num)]
      rw [pow_succ] at hn
      exact hn
    have e : w + 1 + k = w + (k + 1) := by omega
    rw [toHex, List.append_assoc, e, ih _ (n / 16) v (k + 1) h1 (by omega)]
    rw [List.singleton_append, readText, cf_unhex _ (Nat.mod_lt _ (by norm_num))]
    simp only
    rw [if_neg (by omega)]
    have e2 : (v * 16 ^ w + n / 16) * 16 + n % 16 = v * 16 ^ (w + 1) + n := by
      have := Nat.div_add_mod n 16
      rw [pow_succ]
      ring_nf
      omega
    rw [e2]
    rfl

theorem cf_hex_char (q : Char) (text l : Txt) (w n : Nat) (hn : n < 16 ^ (w + 1)) :
    readText q (.hex (w + 1) 0) text (toHex (w + 1) n ++ l) = readText q .normal (text ++ [Char.ofNat n]) l := by
  have h1 : n / 16 < 16 ^ w := by
    rw [Nat.div_lt_iff_lt_mul (by norm_num)]
    rw [pow_succ] at hn
    exact hn
  rw [toHex, List.append_assoc, cf_hex q text _ w (n / 16) 0 1 h1 (by omega)]
  rw [List.singleton_append, readText, cf_unhex _ (Nat.mod_lt _ (by norm_num))]
  simp only
  rw [if_pos (by omega)]
  have e2 : (0 * 16 ^ w + n / 16) * 16 + n % 16 = n := by
    have := Nat.div_add_mod n 16
    omega
  rw [e2]

theorem cf_numeric (q c : Char) (hq : q = '\'' ∨ q = '"') (text l : Txt) (x : Char) (w n : Nat) (hx : digits x = some (w + 1)) (hn : n < 16 ^ (w + 1)) :
    readText q .normal text ('\\' :: x :: (toHex (w + 1) n ++ l)) = readText q .normal (text ++ [Char.ofNat n]) l := by
  have h1 : ¬ '\\' = q := by rcases hq with rfl | rfl <;> decide
  rw [readText, if_neg h1, if_pos rfl, readText, hx]
  exact cf_hex_char q text l w n hn

theorem cf_simple (q : Char) (hq : q = '\'' ∨ q = '"') (text l : Txt) (x d : Char) (h1 : digits x = none) (h2 : simpleEscape x = some d) :
    readText q .normal text ('\\' :: x :: l) = readText q .normal (text ++ [d]) l := by
  have h : ¬ '\\' = q := by rcases hq with rfl | rfl <;> decide
  rw [readText, if_neg h, if_pos rfl, readText, h1]
  simp only [h2]

theorem cf_escape (printable : Char → Bool) (q c : Char) (hq : q = '\'' ∨ q = '"') (text l : Txt) :
    readText q .normal text (escape printable q c ++ l) = readText q .normal (text ++ [c]) l := by
  have hc : Char.ofNat c.toNat = c := Char.ofNat_toNat c
  have hmax : c.toNat < 1114112 := by
    rcases c.valid with h | h
    · exact Nat.lt_trans h (by decide)
    · exact h.2
  unfold escape
  split
  next h =>
    have : c = '\'' ∨ c = '"' ∨ c = '\\' := by
      rcases h with rfl | rfl
      · rcases hq with h | h
        · exact Or.inl h
        · exact Or.inr (Or.inl h)
      · exact Or.inr (Or.inr rfl)
    rcases this with rfl | rfl | rfl
    · exact cf_simple q hq text l _ _ (by decide) (by decide)
    · exact cf_simple q hq text l _ _ (by decide) (by decide)
    · exact cf_simple q hq text l _ _ (by decide) (by decide)
  next hcq =>
  split
  next h => subst h; exact cf_simple q hq text l 't' '\t' (by decide) (by decide)
  next ht =>
  split
  next h => subst h; exact cf_simple q hq text l 'n' '\n' (by decide) (by decide)
  next hn =>
  split
  next h => subst h; exact cf_simple q hq text l 'r' '\r' (by decide) (by decide)
  next hr =>
  split
  next h =>
    have := cf_numeric q c hq text l 'x' 1 c.toNat (by decide) (by omega)
    rw [hc] at this
    exact this
  next h32 =>
  split
  next h =>
    rw [List.singleton_append, readText]
    push Not at hcq
    rw [if_neg hcq.1, if_neg hcq.2, if_neg (by rintro (h | h); exacts [hn h, hr h])]
  next hp =>
  split
  next h =>
    have := cf_numeric q c hq text l 'x' 1 c.toNat (by decide) (by omega)
    rw [hc] at this
    exact this
  split
  next h =>
    have := cf_numeric q c hq text l 'u' 3 c.toNat (by decide) (by omega)
    rw [hc] at this
    exact this
  next h =>
    have := cf_numeric q c hq text l 'U' 7 c.toNat (by decide) (by omega)
    rw [hc] at this
    exact this

theorem cf_body (printable : Char → Bool) (q : Char) (hq : q = '\'' ∨ q = '"') (l : Txt) : ∀ (s text : Txt),
    readText q .normal text (s.flatMap (escape printable q) ++ q :: l) = some (text ++ s, l) := by
  intro s
  induction s with
  | nil =>
    intro text
    rw [List.flatMap_nil, List.nil_append, readText, if_pos rfl, List.append_nil]
  | cons c s ih =>
    intro text
    rw [List.flatMap_cons, List.append_assoc, cf_escape printable q c hq, ih, List.append_assoc, List.singleton_append]

theorem cf_quote (s : Txt) : quote s = '\'' ∨ quote s = '"' := by
  unfold quote
  split
  · exact Or.inr rfl
  · exact Or.inl rfl

theorem cf_text (printable : Char → Bool) (s l : Txt) : evalText (reprText printable s ++ l) = some (s, l) := by
  unfold reprText
  rw [List.cons_append, List.append_assoc, List.singleton_append, evalText, if_pos (cf_quote s), cf_body printable _ (cf_quote s), List.nil_append]

theorem cf_head (printable : Char → Bool) (s l : Txt) : (reprText printable s ++ l).head? = some (quote s) := rfl

theorem cf_skip (printable : Char → Bool) (s l : Txt) : skip (reprText printable s ++ l) = reprText printable s ++ l := by
  unfold skip reprText
  rw [List.cons_append, List.dropWhile_cons, if_neg]
  rcases cf_quote s with h | h <;> rw [h] <;> decide

theorem cf_items (printable : Char → Bool) (r : Txt) : ∀ (l : List Txt) (s : Txt) (f : Nat), l.length + 1 ≤ f →
    evalItems f (reprItems printable (s :: l) ++ r) = some (s :: l, false, r) := by
  intro l
  induction l with
  | nil =>
    intro s f hf
    obtain ⟨f, rfl⟩ : ∃ g, f = g + 1 := ⟨f - 1, by simp at hf; omega⟩
    rw [reprItems, List.append_assoc, evalItems, if_neg, cf_text]
    · rfl
    · rw [cf_head]
      rcases cf_quote s with h | h <;> rw [h] <;> decide
  | cons t l ih =>
    intro s f hf
    obtain ⟨f, rfl⟩ : ∃ g, f = g + 1 := ⟨f - 1, by simp at hf; omega⟩
    rw [reprItems, List.append_assoc, evalItems, if_neg, cf_text]
    · simp only [List.cons_append]
      have e1 : skip (',' :: ' ' :: (reprItems printable (t :: l) ++ r)) = ',' :: ' ' :: (reprItems printable (t :: l) ++ r) := rfl
      have e2 : skip (' ' :: (reprItems printable (t :: l) ++ r)) = reprItems printable (t :: l) ++ r := by
        have : skip (' ' :: (reprItems printable (t :: l) ++ r)) = skip (reprItems printable (t :: l) ++ r) := rfl
        rw [this]
        cases l with
        | nil => rw [reprItems, List.append_assoc, cf_skip]
        | cons u l => rw [reprItems, List.append_assoc, cf_skip]
      rw [e1]
      simp only
      rw [e2, if_neg (by decide)]
      simp only [if_true]
      rw [ih t f (by simp at hf ⊢; omega)]
    · rw [cf_head]
      rcases cf_quote s with h | h <;> rw [h] <;> decide

theorem cf_items_length (printable : Char → Bool) : ∀ (l : List Txt) (s : Txt), l.length + 1 ≤ (reprItems printable (s :: l)).length := by
  intro l
  induction l with
  | nil => intro s; simp [reprItems]
  | cons t l ih =>
    intro s
    have := ih t
    rw [reprItems, List.length_append, List.length_cons, List.length_cons, List.length_cons]
    omega

/-- C131: for every tuple of texts, whatever their characters, the evaluation of what `repr` writes gives the tuple. -/
theorem C131_repr (printable : Char → Bool) (l : List Txt) : safeEval (reprTuple printable l) = .ok (.tuple l) := by
  have hno : ∀ x : Txt, ¬ '(' :: x = "None".toList := by intro x h; cases h
  match l with
  | [] =>
    have : reprTuple printable [] = ['(', ')'] := rfl
    rw [this]
    rfl
  | [s] =>
    have : reprTuple printable [s] = '(' :: (reprText printable s ++ [',', ')']) := rfl
    rw [this]
    unfold safeEval
    rw [if_neg (hno _)]
    simp only [if_true]
    have hlen : (reprText printable s ++ [',', ')']).length + 1 = (reprText printable s).length + 1 + 2 := by simp
    rw [hlen, evalItems, if_neg, cf_text]
    · rfl
    · rw [cf_head]
      rcases cf_quote s with h | h <;> rw [h] <;> decide
  | s :: t :: l =>
    have : reprTuple printable (s :: t :: l) = '(' :: (reprItems printable (s :: t :: l) ++ []) := by rw [List.append_nil]; rfl
    rw [this]
    unfold safeEval
    rw [if_neg (hno _)]
    simp only [if_true]
    rw [cf_items printable [] (t :: l) s _ (by rw [List.append_nil]; exact (cf_items_length printable (t :: l) s).trans (by omega))]

/-! ## The couple -/

/-- C131: a couple which is read in a file has the names of its images, their paths and their shape, whatever the characters of the names
and of the paths. -/
theorem C131_loaded (printable : Char → Bool) (c : Couple) (pm : Option MaskParams) :
    load pm (store printable c) = .ok ⟨c.names, c.paths, c.shape, pm⟩ := by
  unfold load store
  simp only
  rw [C131_repr]
  simp only
  obtain ⟨names, paths, shape, arrays, pm', m⟩ := c
  cases paths with
  | none => rfl
  | some ps =>
    simp only
    unfold loadPaths
    rw [C131_repr]

theorem cf_mask_none (as : List (Img Int)) : maskArrays none as = .ok as := by
  induction as with
  | nil => rfl
  | cons a as ih => rw [maskArrays]; simp only [maskArray, ih]

/-- C131: for a computation from the files of the images, the images given by a result which is loaded are those which have been used, with
the same mask, if the files have not changed. -/
theorem C131_images_partial {F : Type} (E : Ext F) (printable : Char → Bool) (mask : MaskParams) (s : TryWork.Serie) (r : Result F)
    (h : calcul E mask (.serie s) = .ok r) :
    ∃ c, load (some mask) (store printable r.couple) = .ok c ∧ CoupleFile.getArrays E c = .ok r.couple.arrays := by
  refine ⟨_, C131_loaded printable r.couple (some mask), ?_⟩
  unfold calcul at h
  split at h
  · cases h
  next c0 hc0 =>
  split at h
  · cases h
  next c1 hc1 =>
  have hr : r.couple = c1 := by
    split at h
    · split at h
      · cases h
      · injection h with h; rw [← h]
    · cases h
  rw [hr]
  simp only [toCouple] at hc0
  unfold newCouple at hc0
  split at hc0
  · cases hc0
  next names paths hnp =>
  simp only at hc0
  split at hc0
  · cases hc0
  next as has =>
  split at hc0
  · cases hc0
  next names' =>
  split at hc0
  · cases hc0
  next a rest =>
  rw [cf_mask_none] at hc0
  simp only at hc0
  injection hc0 with hc0
  subst hc0
  unfold TryWork.Couple.applyMask at hc1
  simp only at hc1
  split at hc1
  · cases hc1
  next as' hm =>
  injection hc1 with hc1
  subst hc1
  unfold CoupleFile.getArrays readFiles
  simp only
  have hp : ∃ ps, paths = some ps := by
    cases paths with
    | none => simp [givenArrays, readImages] at has
    | some ps => exact ⟨ps, rfl⟩
  obtain ⟨ps, rfl⟩ := hp
  simp only [Option.map_some] at has ⊢
  have : readImages E (some (ps.map E.abspath)) = .ok (a :: rest) := has
  rw [this]
  exact hm

/-- C131: for a computation from images which have been filtered, the images given by a result which is loaded are not those which have been
used: they are those of the files. -/
theorem C131_filtered_fails : ∃ (E : Ext Unit) (s : TryWork.Serie) (f : Txt → Img Int → Except PyErr (Img Int)) (arg : Arg) (r : Result Unit) (c : Loaded)
    (as : List (Img Int)), applyFilter E (some f) s = .ok arg ∧ calcul E none arg = .ok r ∧ load (some none) (store (fun _ => true) r.couple) = .ok c ∧
      CoupleFile.getArrays E c = .ok as ∧ (as.map fun im => im.get 0 0) ≠ r.couple.arrays.map fun im => im.get 0 0 := by
  let E : Ext Unit := ⟨fun _ => true, fun _ => .ok ⟨1, 1, fun _ _ => 1⟩, fun p => p, fun _ _ => .ok ()⟩
  let s : TryWork.Serie := ⟨[['a'], ['b']], [['/', 'a'], ['/', 'b']]⟩
  let f : Txt → Img Int → Except PyErr (Img Int) := fun _ im => .ok ⟨im.ny, im.nx, fun y x => im.get y x + 1⟩
  refine ⟨E, s, f, .dict [['a'], ['b']] [⟨1, 1, fun _ _ => 2⟩, ⟨1, 1, fun _ _ => 2⟩] (some [['/', 'a'], ['/', 'b']]),
    ⟨⟨[['a'], ['b']], some [['/', 'a'], ['/', 'b']], (1, 1), [⟨1, 1, fun _ _ => 2⟩, ⟨1, 1, fun _ _ => 2⟩], some none, none⟩, ()⟩,
    ⟨[['a'], ['b']], some [['/', 'a'], ['/', 'b']], (1, 1), some none⟩, [⟨1, 1, fun _ _ => 1⟩, ⟨1, 1, fun _ _ => 1⟩], ?_, rfl,
    C131_loaded _ _ _, rfl, by decide⟩
  have : ([['/', 'a'], ['/', 'b']] : List Txt).map pathName = [['a'], ['b']] := by decide
  simp only [applyFilter, E, s, f, TryWork.getArrays, filterLoop]
  rw [this]
  rfl

/-- C131: the window can be opened when the files of the images are no more there (without the images). -/
theorem C131_display_without_files {F : Type} (E : Ext F) (p q : Txt) (e : PyErr) (he : e = .fileNotFoundError ∨ e = .osError)
    (h : E.imread p = .error e) : imagesOfDisplay E (some [p, q]) = .ok none := by
  unfold imagesOfDisplay readFiles
  simp only [readImages, h]
  rcases he with rfl | rfl <;> rfl

/-- C131: the window can not be opened for a result computed from arrays, even before it is saved. -/
theorem C131_display_arrays_fails {P F : Type} (E : Ext F) (o : TryWork.Obj P) (arrays : List (Img Int)) (names : Option (List Txt)) (r : Result F)
    (h : calculFromArrays E o arrays names = .ok r) : imagesOfDisplay E r.couple.paths = .error .typeError := by
  have : r.couple.paths = none := by
    unfold calculFromArrays calcul at h
    split at h
    · cases h
    next c0 hc0 =>
    split at h
    · cases h
    next c1 hc1 =>
    have hr : r.couple = c1 := by
      split at h
      · split at h
        · cases h
        · injection h with h; rw [← h]
      · cases h
    rw [hr]
    have h0 : c0.paths = none := by
      simp only [toCouple] at hc0
      unfold newCouple namesPaths at hc0
      simp only [Option.map_none] at hc0
      split at hc0
      · cases hc0
      split at hc0
      · cases hc0
      · split at hc0
        · cases hc0
        · injection hc0 with hc0
          rw [← hc0]
    unfold TryWork.Couple.applyMask at hc1
    split at hc1
    · cases hc1
    · split at hc1
      · injection hc1 with hc1; rw [← hc1]; exact h0
      · cases hc1
    · split at hc1
      · cases hc1
      · injection hc1 with hc1; rw [← hc1]; exact h0
  rw [this]
  rfl

/-! ## Concrete cases -/

example : reprTuple (fun _ => false) ["it's".toList, "a\\b\n".toList] = "(\"it's\", 'a\\\\b\\n')".toList := by decide +kernel

example : reprTuple (fun _ => false) ["'\"é€😀".toList] = "('\\'\"\\xe9\\u20ac\\U0001f600',)".toList := by decide +kernel

example : safeEval "('a', 'b')".toList = .ok (.tuple [['a'], ['b']]) ∧ safeEval "('a')".toList = .ok (.text ['a']) := by decide +kernel

/-- The hypotheses of `C131_images_partial` are met: two files whose names need escapes, with a mask. -/
example : ∃ r, calcul (F := Unit) ⟨fun _ => true, fun _ => .ok ⟨4, 6, fun y x => 10 * y + x⟩, fun p => p, fun _ _ => .ok ()⟩ (some "1:3, :4".toList)
    (.serie ⟨["it's".toList, "\n".toList], ["/it's".toList, "/\n".toList]⟩) = .ok r ∧ r.couple.names = ["it's".toList, "\n".toList] ∧
    (r.couple.arrays.map fun im => (im.ny, im.nx, im.get 0 0)) = [(2, 4, 10), (2, 4, 10)] := ⟨_, rfl, rfl, by decide +kernel⟩

/-- The hypotheses of `C131_display_arrays_fails` are met. -/
example : ∃ r, calculFromArrays (P := Unit) (F := Unit) ⟨fun _ => true, fun _ => .error .osError, fun p => p, fun _ _ => .ok ()⟩ ⟨(), none, none⟩
    [⟨1, 1, fun _ _ => 1⟩, ⟨1, 1, fun _ _ => 2⟩] (some [['a'], ['b']]) = .ok r := ⟨_, rfl⟩

end Verif
