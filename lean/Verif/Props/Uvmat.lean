import Verif.Model.Uvmat
import Verif.Lemmas.Text
import Mathlib.Tactic.Ring
import Mathlib.Tactic.Linarith

/-!
# UVMAT instructions (C62)
-/

namespace Verif
open Verif.Text Verif.Uvmat

/-- What is asked for in mode "series(Di)": for every `i` from `first` to `last` (included) every `incr`, the couple of
images `i` and `i + 1`. -/
def requestedDi (i : Int) : List (List Int) := [[i], [i + 1]]

/-- In mode "pair j1-j2" (`a-b`): the first two images of each index `i`. -/
def requestedPair (i : Int) : List (List Int) := [[i, 0], [i, 1]]

/-- In mode "series(Dj)": for the index `i0`, the couple of images `j` and `j + 1`. -/
def requestedDj (i0 j : Int) : List (List Int) := [[i0, j], [i0, j + 1]]

theorem txt_seriesDi : "series(Di)".toList = seriesDi := by decide
theorem txt_seriesDj : "series(Dj)".toList = seriesDj := by decide
theorem txt_pairJ : "pair j1-j2".toList = pairJ := by decide
theorem txt_pairAB : "j= a-b".toList = pairAB := by decide

theorem mem_pyRange_pos (a b s x : Int) (hs : 0 < s) : x ∈ pyRange a b s ↔ a ≤ x ∧ x < b ∧ ∃ k : Int, x = a + k * s := by
  unfold pyRange rangeLen
  rw [if_pos hs]
  simp only [List.mem_map, List.mem_range]
  constructor
  · rintro ⟨i, hi, rfl⟩
    split at hi
    · rename_i hab
      have hi' : (i : Int) ≤ (b - a - 1) / s := by omega
      have h2 := Int.ediv_mul_le (b - a - 1) (Int.ne_of_gt hs)
      have h3 : (i : Int) * s ≤ (b - a - 1) / s * s := Int.mul_le_mul_of_nonneg_right hi' (by omega)
      have h4 : 0 ≤ (i : Int) * s := Int.mul_nonneg (by omega) (by omega)
      exact ⟨by omega, by omega, i, rfl⟩
    · omega
  · rintro ⟨h1, h2, k, rfl⟩
    have hk : 0 ≤ k := by
      by_contra hc
      have : k * s ≤ (-1) * s := Int.mul_le_mul_of_nonneg_right (by omega) (by omega)
      omega
    refine ⟨k.toNat, ?_, by rw [Int.toNat_of_nonneg hk]⟩
    rw [if_pos (by have : 0 ≤ k * s := Int.mul_nonneg hk (by omega); omega)]
    have : k ≤ (b - a - 1) / s := (Int.le_ediv_iff_mul_le hs).2 (by omega)
    omega

theorem pyRange_two (i : Int) : pyRange i (i + 2) 1 = [i, i + 1] := by
  have : rangeLen i (i + 2) 1 = 2 := by
    unfold rangeLen
    rw [if_pos (by omega), if_pos (by omega)]
    have : (i + 2 - i - 1) / 1 + 1 = 2 := by omega
    rw [this]; rfl
  unfold pyRange
  rw [this]
  simp [List.range_succ]

theorem evalSubset_Di (i : Int) : evalSubset i ['i', ':', 'i', '+', '2', ':', '1'] = .ok (requestedDi i) := by
  have h : evalPart i ['i', ':', 'i', '+', '2', ':', '1'] = .ok [i, i + 1] := by
    show (if (1 : Int) = 0 then Except.error PyErr.valueError else Except.ok (pyRange i (i + 2) 1)) = _
    rw [if_neg (by omega), pyRange_two]
  unfold evalSubset
  rw [show splitChar ',' _ = [['i', ':', 'i', '+', '2', ':', '1']] from rfl]
  simp [h, requestedDi, pure, bind, Except.bind, Except.pure]

theorem evalSubset_pair (i : Int) : evalSubset i ['i', ',', '0', ':', '2'] = .ok (requestedPair i) := by
  have h1 : evalPart i ['i'] = .ok [i] := rfl
  have h2 : evalPart i ['0', ':', '2'] = .ok [0, 1] := by
    show Except.ok (pyRange 0 2 1) = _
    exact congrArg _ (pyRange_two 0)
  unfold evalSubset
  rw [show splitChar ',' _ = [['i'], ['0', ':', '2']] from rfl]
  simp [h1, h2, requestedPair, pure, bind, Except.bind, Except.pure]

theorem mapM_ok {α β : Type} (f : α → Except PyErr β) (g : α → β) (h : ∀ a, f a = .ok (g a)) (l : List α) :
    l.mapM f = .ok (l.map g) := by
  induction l with
  | nil => rfl
  | cons a l ih => simp [h, ih, pure, bind, Except.bind, Except.pure]

/-- C62 in mode "series(Di)": the couples of the series are exactly those of the indices from the first to the last one
included, with the increment (1 if it is not given). -/
theorem C62_series_Di (civ1 : Option (List Char)) (ir : IndexRange) (first last : Int) (hf : ir.firstI = some first)
    (hl : ir.lastI = some last) (hs : 0 < ir.incrI.getD 1) :
    ∃ (s : Series) (stop : Int) (is : List Int), setParamsSeries "series(Di)".toList civ1 ir = .ok s ∧ s.indStop = some stop ∧
      selected s stop = .ok (is.map requestedDi) ∧
      ∀ i, i ∈ is ↔ first ≤ i ∧ i ≤ last ∧ ∃ k : Int, i = first + k * ir.incrI.getD 1 := by
  refine ⟨⟨['i', ':', 'i', '+', '2', ':', '1'], first, ir.incrI.getD 1, some (last + 1)⟩, last + 1,
    pyRange first (last + 1) (ir.incrI.getD 1), ?_, rfl, ?_, ?_⟩
  · rw [txt_seriesDi]
    unfold setParamsSeries
    rw [if_pos (Or.inl rfl)]
    unfold range3
    rw [hf, hl]
    rfl
  · unfold selected
    simp only
    rw [if_neg (by omega)]
    exact mapM_ok _ _ evalSubset_Di _
  · intro i
    rw [mem_pyRange_pos _ _ _ _ hs]
    constructor
    · rintro ⟨h1, h2, h3⟩; exact ⟨h1, by omega, h3⟩
    · rintro ⟨h1, h2, h3⟩; exact ⟨h1, by omega, h3⟩

/-- C62 in mode "pair j1-j2". -/
theorem C62_pair (suffix : List Char) (ir : IndexRange) (first last : Int) (hf : ir.firstI = some first)
    (hl : ir.lastI = some last) (hs : 0 < ir.incrI.getD 1) :
    ∃ (s : Series) (stop : Int) (is : List Int), setParamsSeries "pair j1-j2".toList (some ("j= a-b".toList ++ suffix)) ir = .ok s ∧
      s.indStop = some stop ∧ selected s stop = .ok (is.map requestedPair) ∧
      ∀ i, i ∈ is ↔ first ≤ i ∧ i ≤ last ∧ ∃ k : Int, i = first + k * ir.incrI.getD 1 := by
  refine ⟨⟨['i', ',', '0', ':', '2'], first, ir.incrI.getD 1, some (last + 1)⟩, last + 1,
    pyRange first (last + 1) (ir.incrI.getD 1), ?_, rfl, ?_, ?_⟩
  · rw [txt_pairJ, txt_pairAB]
    unfold setParamsSeries
    rw [if_pos (Or.inr rfl)]
    unfold range3
    rw [hf, hl]
    simp [pairAB]
  · unfold selected
    simp only
    rw [if_neg (by omega)]
    exact mapM_ok _ _ evalSubset_pair _
  · intro i
    rw [mem_pyRange_pos _ _ _ _ hs]
    constructor
    · rintro ⟨h1, h2, h3⟩; exact ⟨h1, by omega, h3⟩
    · rintro ⟨h1, h2, h3⟩; exact ⟨h1, by omega, h3⟩

/-- Without last index, the stop index is left to `SeriesOfArrays`; the start and the step are the requested ones. -/
theorem C62_no_last (civ1 : Option (List Char)) (ir : IndexRange) (first : Int) (hf : ir.firstI = some first)
    (hl : ir.lastI = none) : ∃ s, setParamsSeries "series(Di)".toList civ1 ir = .ok s ∧ s.indStop = none ∧ s.indStart = first ∧
      s.indStep = ir.incrI.getD 1 := by
  refine ⟨⟨['i', ':', 'i', '+', '2', ':', '1'], first, ir.incrI.getD 1, none⟩, ?_, rfl, rfl, rfl⟩
  rw [txt_seriesDi]
  unfold setParamsSeries range3
  rw [if_pos (Or.inl rfl), hf, hl]
  rfl

theorem Dj_text : "{ir.first_i},i:i+2:1".toList =
    ['{', 'i', 'r', '.', 'f', 'i', 'r', 's', 't', '_', 'i', '}', ',', 'i', ':', 'i', '+', '2', ':', '1'] := by decide

/-- C62 is false in mode "series(Dj)": the text of the subsets is not a formatted string, it contains the braces, and no
couple is selected (an error is raised as soon as there is one index). -/
theorem C62_series_Dj_fails (civ1 : Option (List Char)) (ir : IndexRange) (s : Series)
    (h : setParamsSeries "series(Dj)".toList civ1 ir = .ok s) (i : Int) : evalSubset i s.strSubset = .error .valueError := by
  have hs : s.strSubset = "{ir.first_i},i:i+2:1".toList := by
    rw [txt_seriesDj] at h
    unfold setParamsSeries at h
    rw [if_neg (by decide), if_pos rfl] at h
    split at h
    · cases h
    · split at h
      · split at h
        · cases h
        · injection h with h; subst h; rfl
      · cases h
  rw [hs, Dj_text]
  have h1 : evalPart i ['{', 'i', 'r', '.', 'f', 'i', 'r', 's', 't', '_', 'i', '}'] = .error .valueError := rfl
  unfold evalSubset
  rw [show splitChar ',' _ = [['{', 'i', 'r', '.', 'f', 'i', 'r', 's', 't', '_', 'i', '}'], ['i', ':', 'i', '+', '2', ':', '1']] from rfl]
  simp [h1, pure, bind, Except.bind]

/-- In this mode, several values of the first index are refused. -/
theorem C62_series_Dj_refused (civ1 : Option (List Char)) (ir : IndexRange) (f fi li : Int) (hf : ir.firstJ = some f)
    (h1 : ir.firstI = some fi) (h2 : ir.lastI = some li) (h : fi ≠ li) :
    setParamsSeries "series(Dj)".toList civ1 ir = .error .notImplementedError := by
  rw [txt_seriesDj]
  unfold setParamsSeries range3
  rw [if_neg (by decide), if_pos rfl]
  simp [hf, h1, h2, h]

/-- Such parameters exist. -/
example : ∃ s, setParamsSeries "series(Dj)".toList none ⟨some 1, none, some 1, some 1, some 2, some 9⟩ = .ok s ∧ s.indStep = 2 ∧
    s.indStop = some 10 := by rw [txt_seriesDj]; exact ⟨_, rfl, rfl, rfl⟩

/-- Other pair modes are refused. -/
theorem C62_other_modes (mode : List Char) (civ1 : Option (List Char)) (ir : IndexRange) (h1 : mode ≠ "series(Di)".toList)
    (h2 : mode ≠ "series(Dj)".toList) (h3 : mode ≠ "pair j1-j2".toList) : setParamsSeries mode civ1 ir = .error .notImplementedError := by
  rw [txt_seriesDi] at h1
  rw [txt_seriesDj] at h2
  rw [txt_pairJ] at h3
  unfold setParamsSeries
  rw [if_neg (by rintro (h | h); exacts [h1 h, h3 h]), if_neg h2]

/-- Hypotheses of `C62_series_Di`: indices 2, 5, 8. -/
example : (IndexRange.mk (some 2) (some 3) (some 9) none none none).firstI = some 2 ∧ pyRange 2 10 3 = [2, 5, 8] ∧
    requestedDi 2 = [[2], [3]] := by decide

/-! ## Paths and parameters of the PIV -/

theorem splitStr_amp (p : List Char) (rest : List Char) (h : ∀ c ∈ p, c ≠ '&') :
    splitStr [' ', '&', ' '] (p ++ ' ' :: '&' :: ' ' :: rest) = p :: splitStr [' ', '&', ' '] rest := by
  induction p with
  | nil =>
    rw [List.nil_append, splitStr, if_pos ⟨by simp, by simp⟩]
    simp
  | cons c cs ih =>
    have hcs := ih (fun d hd => h d (List.mem_cons_of_mem _ hd))
    rw [List.cons_append, splitStr, if_neg]
    · rw [hcs]
    · rintro ⟨hp, _⟩
      cases cs with
      | nil => simp at hp
      | cons d ds =>
        have hd : d ≠ '&' := h d (by simp)
        simp only [List.cons_append, List.isPrefixOf_cons₂, Bool.and_eq_true, beq_iff_eq] at hp
        exact hd hp.2.1.symm

theorem splitStr_last (p : List Char) (h : ∀ c ∈ p, c ≠ '&') : splitStr [' ', '&', ' '] p = [p] := by
  induction p with
  | nil => rw [splitStr]
  | cons c cs ih =>
    have hcs := ih (fun d hd => h d (List.mem_cons_of_mem _ hd))
    rw [splitStr, if_neg]
    · rw [hcs]
    · rintro ⟨hp, _⟩
      cases cs with
      | nil => simp at hp
      | cons d ds =>
        have hd : d ≠ '&' := h d (by simp)
        simp only [List.isPrefixOf_cons₂, Bool.and_eq_true, beq_iff_eq] at hp
        exact hd hp.2.1.symm

/-- C62, input files: for the table `root & /subdir & /base & indices & extension`, the images are
`root/subdir/base*extension` and the results are saved in `root/subdir` followed by the given extension. -/
theorem C62_paths (root sub base ind ext out : List Char) (h : ∀ s ∈ [root, sub, base, ind, ext], ∀ c ∈ s, c ≠ '&')
    (hext : ext.head? ≠ some '/') (hb : base ≠ []) (hbh : base.head? ≠ some '/') (hsub : sub ≠ [])
    (hsubh : sub.head? ≠ some '/') (hsubl : sub.getLast? ≠ some '/') (hr : root ≠ []) (hrl : root.getLast? ≠ some '/') :
    tidy (root ++ " & /".toList ++ sub ++ " & /".toList ++ base ++ " & ".toList ++ ind ++ " & ".toList ++ ext) out =
      .ok ⟨root ++ '/' :: sub, root ++ '/' :: sub ++ '/' :: base ++ '*' :: ext, root ++ '/' :: sub ++ out⟩ := by
  have e1 : " & /".toList = [' ', '&', ' ', '/'] := by decide
  have e2 : " & ".toList = [' ', '&', ' '] := by decide
  have hsplit : splitStr [' ', '&', ' ']
      (root ++ " & /".toList ++ sub ++ " & /".toList ++ base ++ " & ".toList ++ ind ++ " & ".toList ++ ext) =
      [root, '/' :: sub, '/' :: base, ind, ext] := by
    rw [e1, e2]
    have e : root ++ [' ', '&', ' ', '/'] ++ sub ++ [' ', '&', ' ', '/'] ++ base ++ [' ', '&', ' '] ++ ind ++
        [' ', '&', ' '] ++ ext = root ++ ' ' :: '&' :: ' ' :: (('/' :: sub) ++ ' ' :: '&' :: ' ' ::
          (('/' :: base) ++ ' ' :: '&' :: ' ' :: (ind ++ ' ' :: '&' :: ' ' :: ext))) := by simp
    rw [e, splitStr_amp _ _ (h root (by simp)), splitStr_amp, splitStr_amp, splitStr_amp _ _ (h ind (by simp)),
      splitStr_last _ (h ext (by simp))]
    · intro c hc
      rcases List.mem_cons.1 hc with rfl | hc
      · decide
      · exact h base (by simp) c hc
    · intro c hc
      rcases List.mem_cons.1 hc with rfl | hc
      · decide
      · exact h sub (by simp) c hc
  have hstrip : stripSlash ext = ext := by
    cases ext with
    | nil => rfl
    | cons c cs =>
      simp only [List.head?_cons, ne_eq, Option.some.injEq] at hext
      unfold stripSlash
      split
      · rename_i heq; injection heq with h1 _; exact absurd h1 hext
      · rfl
  have hj1 : pathJoin root sub = root ++ '/' :: sub := by
    unfold pathJoin
    rw [if_neg hsubh, if_neg]
    rintro (h | h)
    · exact hr h
    · exact hrl h
  have hj2 : pathJoin (root ++ '/' :: sub) (base ++ '*' :: ext) = root ++ '/' :: sub ++ '/' :: base ++ '*' :: ext := by
    unfold pathJoin
    rw [if_neg, if_neg]
    · simp
    · rintro (h | h)
      · simp at h
      · apply hsubl
        rw [List.getLast?_append, List.getLast?_cons] at h
        obtain ⟨x, xs, rfl⟩ := List.exists_cons_of_ne_nil hsub
        simp at h
        rw [List.getLast?_cons] at h ⊢
        simpa using h
    · cases base with
      | nil => exact absurd rfl hb
      | cons c cs => simpa using hbh
  unfold tidy
  rw [hsplit]
  simp only [List.map_cons, List.map_nil]
  show (Except.ok (Paths.mk (pathJoin root sub) (pathJoin (pathJoin root sub) (base ++ '*' :: [stripSlash ext].flatten))
    (pathJoin root sub ++ out))) = _
  rw [hstrip]
  simp only [List.flatten_cons, List.flatten_nil, List.append_nil]
  rw [hj1, hj2]

/-- C62, parameters of the PIV: the window size is the largest even number not larger than the requested one; the
number of passes is 2 if a second pass is asked for; the thresholds are the requested ones. -/
theorem C62_piv_params (p p' : PivParams) (a : Action) (n0 : Int) (rest : List Char)
    (hn : a.searchBoxSize = intStr n0 ++ '\t' :: rest) (h : paramsPiv p a = .ok p') :
    p'.shapeCrop % 2 = 0 ∧ p'.shapeCrop ≤ n0 ∧ n0 ≤ p'.shapeCrop + 1 ∧ p'.correlMin = a.minCorr ∧
      p'.number = (if a.civ2 then 2 else p.number) ∧ p'.useTps = (a.patch2.isSome && p.useTps) ∧
      p'.displacementMax = (a.maxVel.or p.displacementMax) := by
  unfold paramsPiv at h
  rw [hn, splitChar_piece] at h
  · simp only at h
    have hi : pyInt (intStr n0) = .ok n0 := by
      have := pyInt_pad [] [] n0 (by simp) (by simp)
      simpa using this
    rw [hi] at h
    simp only at h
    rcases ha : a.patch2 with _ | ⟨x, y, z⟩ <;> rcases hv : a.maxVel with _ | v <;> rw [ha, hv] at h <;>
      cases hc : a.civ2 <;> rw [hc] at h <;> injection h with h <;> subst h <;> simp <;> split <;> omega
  · intro c hc
    have := numChar_facts c (intStr_chars n0 c hc)
    intro e
    subst e
    have := intStr_chars n0 _ hc
    revert this; decide

example : paramsPiv ⟨32, true, 100, 0, 0, 1, 0, none⟩ ⟨['3', '1', '\t', '3'], some (50, 2, 3), true, 2, some 7⟩ =
    .ok ⟨30, true, 50, 2, 3, 2, 2, some 7⟩ := by decide

end Verif
