import Verif.Model.ViewerFiles
import Verif.Lemmas.Text
import Verif.Props.LogPlot

/-!
# C135: the viewers open the files which are asked

Given the path of an image, `fluidimviewer` shows this image first and lets the user go through the images of its directory, and given a
directory, through the images of this directory.  Given a file of vectors, `fluidpivviewer` shows this file first.
-/

namespace Verif
open Verif.ViewerFiles Verif.Text
open Verif.LogPlot (txtLe)
open Verif.Uvmat (pathJoin)

/-! ## Specification -/

/-- A text without the characters which `glob` interprets. -/
def Plain (t : ViewerFiles.Txt) : Prop := ∀ c ∈ t, c ≠ '*' ∧ c ≠ '?' ∧ c ≠ '['

/-- A path of a directory: not empty, without slash at its end. -/
def ViewDir (d : ViewerFiles.Txt) : Prop := d ≠ [] ∧ d.getLast? ≠ some '/'

/-- A name of an entry of a directory. -/
def EntryName (n : ViewerFiles.Txt) : Prop := n ≠ [] ∧ '/' ∉ n ∧ n ≠ ['.']

/-- The extensions of the images. -/
def ImageExtensions : List ViewerFiles.Txt :=
  [".png", ".tif", ".tiff", ".jpg", ".jpeg", ".bmp", ".cine"].map String.toList

/-- Has the name one of the extensions of the images (in lower case), and is it not hidden? -/
def ShownName (n : ViewerFiles.Txt) : Bool := (ImageExtensions.any fun e => e.isSuffixOf n) && !(n.head? == some '.')

/-- The entries which have to be shown, with the path of the directory before them. -/
def imagesOf (d : ViewerFiles.Txt) (names : List ViewerFiles.Txt) : List ViewerFiles.Txt := (names.filter ShownName).map fun n => d ++ '/' :: n

theorem vf_extensions : ImageExtensions = extensions := by decide +kernel

theorem vf_shown (n : ViewerFiles.Txt) : (checkImage n && !ViewerFiles.hidden n) = ShownName n := by
  unfold ShownName checkImage ViewerFiles.hidden
  rw [vf_extensions]
  by_cases h : n.head? = some '.' <;> simp [h]

/-! ## `os.path` -/

theorem vf_split (d n : ViewerFiles.Txt) (hn : '/' ∉ n) (k : Nat) :
    headOf (d ++ List.replicate (k + 1) '/' ++ n) = d ++ List.replicate (k + 1) '/' ∧ tailOf (d ++ List.replicate (k + 1) '/' ++ n) = n := by
  have hall : ∀ c ∈ n.reverse, (c != '/') = true := by
    intro c hc
    have : c ≠ '/' := fun h => hn (by rw [← h]; exact List.mem_reverse.1 hc)
    simpa using this
  have hrev : (d ++ List.replicate (k + 1) '/' ++ n).reverse = n.reverse ++ '/' :: (List.replicate k '/' ++ d.reverse) := by
    simp only [List.replicate_succ', List.reverse_append, List.reverse_cons, List.reverse_nil, List.nil_append, List.reverse_replicate,
      List.append_assoc, List.cons_append]
  unfold headOf tailOf
  rw [hrev, List.dropWhile_append_of_pos hall, List.takeWhile_append_of_pos hall]
  simp only [List.dropWhile_cons, List.takeWhile_cons]
  simp [List.replicate_succ']

theorem vf_split_none (n : ViewerFiles.Txt) (hn : '/' ∉ n) : headOf n = [] ∧ tailOf n = n := by
  have hall : ∀ c ∈ n.reverse, (c != '/') = true := by
    intro c hc
    have : c ≠ '/' := fun h => hn (by rw [← h]; exact List.mem_reverse.1 hc)
    simpa using this
  unfold headOf tailOf
  have h1 : n.reverse.dropWhile (fun c => c != '/') = [] := by
    have := List.dropWhile_append_of_pos (l₂ := []) hall
    simpa using this
  have h2 : n.reverse.takeWhile (fun c => c != '/') = n.reverse := by
    have := List.takeWhile_append_of_pos (l₂ := []) hall
    simpa using this
  rw [h1, h2]
  simp

theorem vf_rstrip (d : ViewerFiles.Txt) (hd : d.getLast? ≠ some '/') (k : Nat) : rstripSlash (d ++ List.replicate k '/') = d := by
  unfold rstripSlash
  rw [List.reverse_append, List.reverse_replicate]
  have : ∀ c ∈ List.replicate k '/', (c == '/') = true := by
    intro c hc; rw [List.eq_of_mem_replicate hc]; rfl
  rw [List.dropWhile_append_of_pos this]
  cases hr : d.reverse with
  | nil => have : d = [] := by simpa using hr
           rw [this]; rfl
  | cons c l =>
    have hc : (c == '/') = false := by
      have : d.getLast? = some c := by rw [← List.head?_reverse, hr]; rfl
      rw [this] at hd
      simpa using hd
    rw [List.dropWhile_cons, hc]
    simp only [Bool.false_eq_true, if_false]
    rw [← hr, List.reverse_reverse]

theorem vf_osSplit (d n : ViewerFiles.Txt) (hd : ViewDir d) (hn : '/' ∉ n) (k : Nat) :
    osSplit (d ++ List.replicate (k + 1) '/' ++ n) = (d, n) := by
  obtain ⟨h1, h2⟩ := vf_split d n hn k
  unfold osSplit
  rw [h1, h2]
  have : (d ++ List.replicate (k + 1) '/').all (fun c => c == '/') = false := by
    rw [List.all_append]
    have : d.all (fun c => c == '/') = false := by
      rw [Bool.eq_false_iff]
      intro h
      apply hd.2
      have hl := List.getLast?_eq_some_getLast hd.1
      rw [hl]
      have := List.all_eq_true.1 h _ (List.getLast_mem hd.1)
      simpa using this
    rw [this]; rfl
  rw [this]
  simp only [Bool.false_eq_true, if_false]
  rw [vf_rstrip d hd.2]

theorem vf_osSplit_one (d n : ViewerFiles.Txt) (hd : ViewDir d) (hn : '/' ∉ n) : osSplit (d ++ '/' :: n) = (d, n) := by
  have := vf_osSplit d n hd hn 0
  simpa using this

theorem vf_osSplit_none (n : ViewerFiles.Txt) (hn : '/' ∉ n) : osSplit n = ([], n) := by
  obtain ⟨h1, h2⟩ := vf_split_none n hn
  unfold osSplit
  rw [h1, h2]; rfl

theorem vf_join_slash (d n : ViewerFiles.Txt) (hd : ViewDir d) (hn : n.head? ≠ some '/') (k : Nat) :
    pathJoin (d ++ List.replicate (k + 1) '/') n = d ++ List.replicate (k + 1) '/' ++ n := by
  unfold pathJoin
  rw [if_neg hn, if_pos]
  right
  rw [List.replicate_succ', ← List.append_assoc]
  simp

theorem vf_join (d n : ViewerFiles.Txt) (hd : ViewDir d) (hn : n.head? ≠ some '/') : pathJoin d n = d ++ '/' :: n := by
  unfold pathJoin
  rw [if_neg hn, if_neg]
  rintro (h | h)
  · exact hd.1 h
  · exact hd.2 h

theorem vf_head_name {n : ViewerFiles.Txt} (hn : '/' ∉ n) : n.head? ≠ some '/' := by
  intro h
  exact hn (List.mem_of_mem_head? h)

/-! ## `fnmatch` -/

theorem vf_magic {t : ViewerFiles.Txt} : hasMagic t = false ↔ Plain t := by
  unfold hasMagic Plain
  rw [List.any_eq_false]
  constructor
  · intro h c hc
    have := h c hc
    simp at this
    exact ⟨this.1.1, this.1.2, this.2⟩
  · intro h c hc
    obtain ⟨h1, h2, h3⟩ := h c hc
    simp [h1, h2, h3]

theorem vf_tokenize (a rest : ViewerFiles.Txt) (ha : Plain a) : ∀ n, a.length ≤ n →
    tokenize n (a ++ rest) = a.map Tok.lit ++ tokenize (n - a.length) rest := by
  induction a with
  | nil => intro n _; simp
  | cons c a ih =>
    intro n hn
    cases n with
    | zero => simp at hn
    | succ n =>
      obtain ⟨h1, h2, h3⟩ := ha c List.mem_cons_self
      have hn' : a.length ≤ n := by simpa using hn
      show tokenize (n + 1) (c :: (a ++ rest)) = _
      rw [tokenize]
      rw [if_neg h1, if_neg h2, if_neg h3, ih (fun x hx => ha x (List.mem_cons_of_mem _ hx)) n hn']
      simp

theorem vf_lits (a : ViewerFiles.Txt) (ts : List Tok) (n : ViewerFiles.Txt) :
    matchToks (a.map Tok.lit ++ ts) n = true ↔ ∃ r, n = a ++ r ∧ matchToks ts r = true := by
  induction a generalizing n with
  | nil => simp
  | cons c a ih =>
    cases n with
    | nil => simp [matchToks]
    | cons x n =>
      show matchToks (.lit c :: (a.map Tok.lit ++ ts)) (x :: n) = true ↔ _
      rw [matchToks]
      simp only [Bool.and_eq_true, beq_iff_eq, ih]
      constructor
      · rintro ⟨rfl, r, rfl, h⟩; exact ⟨r, rfl, h⟩
      · rintro ⟨r, h, hr⟩
        injection h with h1 h2
        exact ⟨h1, r, h2, hr⟩

theorem vf_nil (n : ViewerFiles.Txt) : matchToks [] n = true ↔ n = [] := by
  rw [matchToks]; exact List.isEmpty_iff

theorem vf_star (ts : List Tok) (n : ViewerFiles.Txt) : matchToks (.star :: ts) n = true ↔ ∃ m, m <:+ n ∧ matchToks ts m = true := by
  rw [matchToks, List.any_eq_true]
  simp only [List.mem_tails]

/-- a pattern with one star between plain texts -/
theorem vf_one_star (a b n : ViewerFiles.Txt) (ha : Plain a) (hb : Plain b) :
    fnmatch n (a ++ '*' :: b) = true ↔ ∃ mid, n = a ++ mid ++ b := by
  unfold fnmatch
  rw [vf_tokenize a _ ha _ (by simp)]
  have hl : (a ++ '*' :: b).length - a.length = b.length + 1 := by simp
  rw [hl, tokenize, if_pos rfl, vf_lits]
  have hb' : tokenize b.length b = b.map Tok.lit := by
    have := vf_tokenize b [] hb b.length (le_refl _)
    simp only [List.append_nil, Nat.sub_self] at this
    rw [this]; simp [tokenize]
  rw [hb']
  simp only [vf_star]
  constructor
  · rintro ⟨r, rfl, m, ⟨mid, rfl⟩, hm⟩
    rw [← List.append_nil (b.map Tok.lit), vf_lits] at hm
    obtain ⟨r, rfl, hr⟩ := hm
    rw [vf_nil] at hr
    subst hr
    exact ⟨mid, by simp⟩
  · rintro ⟨mid, rfl⟩
    refine ⟨mid ++ b, by simp, b, List.suffix_append _ _, ?_⟩
    rw [← List.append_nil (b.map Tok.lit), vf_lits]
    exact ⟨[], by simp, by rw [vf_nil]⟩

theorem vf_all (n : ViewerFiles.Txt) : fnmatch n ['*'] = true := by
  have := (vf_one_star [] [] n (by intro c hc; cases hc) (by intro c hc; cases hc)).2 ⟨n, by simp⟩
  exact this

/-! ## `glob` of the entries of a directory -/

theorem vf_plain_append {a b : ViewerFiles.Txt} : Plain (a ++ b) ↔ Plain a ∧ Plain b := by
  unfold Plain
  simp only [List.mem_append]
  constructor
  · intro h; exact ⟨fun c hc => h c (.inl hc), fun c hc => h c (.inr hc)⟩
  · rintro ⟨h1, h2⟩ c (hc | hc)
    · exact h1 c hc
    · exact h2 c hc

theorem vf_comps_slash (a b : ViewerFiles.Txt) : comps (a ++ '/' :: b) = comps a ++ comps b := by
  have key : ∀ a : ViewerFiles.Txt, splitChar '/' (a ++ '/' :: b) = splitChar '/' a ++ splitChar '/' b := by
    intro a
    induction a with
    | nil => simp [splitChar]
    | cons c a ih =>
      show splitChar '/' (c :: (a ++ '/' :: b)) = _
      rw [splitChar, ih]
      conv_rhs => rw [splitChar]
      split
      · simp
      · cases h : splitChar '/' a with
        | nil => exact absurd h (splitChar_ne_nil _ _)
        | cons p ps => simp
  unfold comps
  rw [key, List.filter_append]

theorem vf_comps_replicate (d : ViewerFiles.Txt) (k : Nat) : comps (d ++ List.replicate k '/') = comps d := by
  induction k with
  | zero => simp
  | succ k ih =>
    rw [List.replicate_succ', ← List.append_assoc]
    have h2 := vf_comps_slash (d ++ List.replicate k '/') []
    rw [ih] at h2
    simpa [comps, splitChar] using h2

theorem vf_resolve_slashes (fs : Fs) (d : ViewerFiles.Txt) (hd : d ≠ []) (k : Nat) :
    resolve fs (d ++ List.replicate k '/') = resolve fs d := by
  unfold resolve
  rw [vf_comps_replicate]
  cases d with
  | nil => exact absurd rfl hd
  | cons c d => rfl

theorem vf_comps_name (n : ViewerFiles.Txt) (hn : EntryName n) : comps n = [n] := by
  unfold comps
  rw [splitChar_last '/' n (fun c hc h => hn.2.1 (h ▸ hc))]
  simp [hn.1, hn.2.2]

theorem vf_resolve_join (fs : Fs) (d n : ViewerFiles.Txt) (hd : d ≠ []) (hn : EntryName n) :
    resolve fs (d ++ '/' :: n) = resolve fs d ++ [n] := by
  unfold resolve
  rw [vf_comps_slash, vf_comps_name n hn]
  cases d with
  | nil => exact absurd rfl hd
  | cons c d =>
    have e1 : (c :: d ++ '/' :: n).head? = some c := rfl
    have e2 : (c :: d).head? = some c := rfl
    by_cases h : some c = some '/'
    · rw [if_pos (e1.trans h), if_pos (e2.trans h)]
    · rw [if_neg (fun h' => h (e1.symm.trans h')), if_neg (fun h' => h (e2.symm.trans h')), List.append_assoc]

theorem vf_glob1_all (fs : Fs) (d : ViewerFiles.Txt) (names : List ViewerFiles.Txt) (h : listdir fs d = some names) :
    glob1 fs d ['*'] = names.filter (fun n => !hidden n) := by
  unfold glob1
  rw [h]
  have hh : hidden ['*'] = false := by decide
  simp only [hh, Bool.false_eq_true, if_false]
  rw [List.filter_eq_self]
  intro n _
  exact vf_all n

/-- the entries of a directory without special characters in its path -/
theorem vf_glob_dir (fs : Fs) (d : ViewerFiles.Txt) (hd : ViewDir d) (hp : Plain d) (k : Nat) (names : List ViewerFiles.Txt)
    (hnames : ∀ n ∈ names, EntryName n) (h : listdir fs d = some names) :
    glob fs (pathJoin (d ++ List.replicate k '/') ['*']) = (names.filter (fun n => !hidden n)).map fun n => d ++ '/' :: n := by
  have e : ∃ j, pathJoin (d ++ List.replicate k '/') ['*'] = d ++ List.replicate (j + 1) '/' ++ ['*'] := by
    cases k with
    | zero => exact ⟨0, by rw [List.replicate_zero, List.append_nil, vf_join d _ hd (by decide)]; simp⟩
    | succ k => exact ⟨k, vf_join_slash d _ hd (by decide) k⟩
  obtain ⟨j, e⟩ := e
  rw [e]
  unfold glob
  rw [globN]
  have hs := vf_osSplit d ['*'] hd (by decide) j
  have hm : hasMagic (d ++ List.replicate (j + 1) '/' ++ ['*']) = true := by
    unfold hasMagic; simp
  have hmd : hasMagic d = false := vf_magic.2 hp
  have hm1 : hasMagic ['*'] = true := by decide
  simp only [hs, hm, Bool.not_true, Bool.false_eq_true, if_false, if_neg hd.1, hmd, Bool.and_false, List.flatMap_cons, List.flatMap_nil,
    List.append_nil, hm1, if_true]
  rw [vf_glob1_all fs d names h]
  refine List.map_congr_left ?_
  intro n hn
  have := hnames n (List.mem_filter.1 hn).1
  exact vf_join d n hd (vf_head_name this.2.1)

theorem vf_suffix (e d n : ViewerFiles.Txt) (he : '/' ∉ e) : e.isSuffixOf (d ++ '/' :: n) = e.isSuffixOf n := by
  have : e <:+ d ++ '/' :: n ↔ e <:+ n := by
    constructor
    · intro h
      have h2 : ('/' :: n) <:+ d ++ '/' :: n := List.suffix_append _ _
      rcases List.suffix_or_suffix_of_suffix h h2 with h3 | h3
      · rcases List.suffix_cons_iff.1 h3 with h4 | h4
        · exfalso; apply he; rw [h4]; exact List.mem_cons_self
        · exact h4
      · exfalso; exact he (h3.subset List.mem_cons_self)
    · intro h
      exact h.trans ((List.suffix_cons _ _).trans (List.suffix_append _ _))
  rw [Bool.eq_iff_iff, List.isSuffixOf_iff_suffix, List.isSuffixOf_iff_suffix, this]

theorem vf_check (d n : ViewerFiles.Txt) : checkImage (d ++ '/' :: n) = extensions.any fun e => e.isSuffixOf n := by
  unfold checkImage
  have : ∀ e ∈ extensions, '/' ∉ e := by decide
  rw [Bool.eq_iff_iff, List.any_eq_true, List.any_eq_true]
  constructor
  · rintro ⟨e, he, h⟩; rw [vf_suffix e d n (this e he)] at h; exact ⟨e, he, h⟩
  · rintro ⟨e, he, h⟩; exact ⟨e, he, by rw [vf_suffix e d n (this e he)]; exact h⟩

theorem vf_le_total : ∀ a b : ViewerFiles.Txt, txtLe a b = true ∨ txtLe b a = true
  | [], _ => .inl rfl
  | _ :: _, [] => .inr rfl
  | a :: x, b :: y => by
    unfold txtLe
    rcases Nat.lt_trichotomy a.toNat b.toNat with h | h | h
    · left; rw [if_pos h]
    · have := vf_le_total x y
      simp only [h, Nat.lt_irrefl, if_false]
      exact this
    · right; rw [if_pos h]

theorem vf_le_trans : ∀ a b c : ViewerFiles.Txt, txtLe a b = true → txtLe b c = true → txtLe a c = true
  | [], _, _ => fun _ _ => rfl
  | _ :: _, [], _ => fun h _ => by simp [txtLe] at h
  | _ :: _, _ :: _, [] => fun _ h => by simp [txtLe] at h
  | a :: x, b :: y, c :: z => by
    intro h1 h2
    have ih := vf_le_trans x y z
    unfold txtLe at h1 h2 ⊢
    rcases Nat.lt_trichotomy a.toNat b.toNat with h | h | h
    · rcases Nat.lt_trichotomy b.toNat c.toNat with h' | h' | h'
      · rw [if_pos (by omega)]
      · rw [if_pos (by omega)]
      · rw [if_neg (by omega), if_pos h'] at h2; cases h2
    · rcases Nat.lt_trichotomy b.toNat c.toNat with h' | h' | h'
      · rw [if_pos (by omega)]
      · rw [if_neg (by omega), if_neg (by omega)] at h1 h2 ⊢
        exact ih h1 h2
      · rw [if_neg (by omega), if_pos h'] at h2; cases h2
    · rw [if_neg (by omega), if_pos h] at h1; cases h1

theorem vf_sorted (l : List ViewerFiles.Txt) :
    (l.insertionSort (fun a b => txtLe a b = true)).Pairwise (fun a b => txtLe a b = true) := by
  have : Std.Total (fun a b : ViewerFiles.Txt => txtLe a b = true) := ⟨vf_le_total⟩
  have : IsTrans ViewerFiles.Txt (fun a b => txtLe a b = true) := ⟨vf_le_trans⟩
  exact List.pairwise_insertionSort _ l

theorem vf_pathFiles (fs : Fs) (d : ViewerFiles.Txt) (hd : ViewDir d) (hp : Plain d) (k : Nat) (names : List ViewerFiles.Txt)
    (hnames : ∀ n ∈ names, EntryName n) (h : listdir fs d = some names) :
    (pathFiles fs (d ++ List.replicate k '/')).Perm (imagesOf d names) ∧
      (pathFiles fs (d ++ List.replicate k '/')).Pairwise (fun a b => txtLe a b = true) := by
  unfold pathFiles
  rw [vf_glob_dir fs d hd hp k names hnames h]
  have e : ((names.filter (fun n => !hidden n)).map fun n => d ++ '/' :: n).filter checkImage = imagesOf d names := by
    unfold imagesOf
    rw [List.filter_map, List.filter_filter]
    congr 1
    refine List.filter_congr ?_
    intro n _
    show (checkImage (d ++ '/' :: n) && !hidden n) = _
    rw [← vf_shown, vf_check]; rfl
  rw [e]
  refine ⟨List.perm_insertionSort _ _, ?_⟩
  exact vf_sorted _

theorem vf_isdir (fs : Fs) (d : ViewerFiles.Txt) (hd : d ≠ []) (k : Nat) (names : List ViewerFiles.Txt) (h : listdir fs d = some names) :
    isdir fs (d ++ List.replicate k '/') = true := by
  unfold isdir listdir
  rw [vf_resolve_slashes fs d hd k]
  unfold listdir at h
  rw [h]
  simp [hd]

/-! ## The viewer of images -/

/-- **C135** (directories; partial: no special character in the path of the directory).  Given the path of a directory, with any number of
slashes at its end, the images which are shown are exactly the entries of this directory which are not hidden and have one of the
extensions, in the order of the texts, starting with the first one; if there is none, the error is the one which is documented. -/
theorem C135_directory_partial (fs : Fs) (d : ViewerFiles.Txt) (hd : ViewDir d) (hp : Plain d) (k : Nat) (names : List ViewerFiles.Txt)
    (hnames : ∀ n ∈ names, EntryName n) (h : listdir fs d = some names) :
    (imagesOf d names = [] → openImages fs (d ++ List.replicate k '/') = .error .valueError) ∧
      (imagesOf d names ≠ [] → ∃ files, openImages fs (d ++ List.replicate k '/') = .ok (files, 0) ∧ files.Perm (imagesOf d names) ∧
        files.Pairwise (fun a b => txtLe a b = true)) := by
  obtain ⟨h1, h2⟩ := vf_pathFiles fs d hd hp k names hnames h
  unfold openImages
  rw [if_pos (vf_isdir fs d hd.1 k names h)]
  refine ⟨?_, ?_⟩
  · intro h0
    rw [h0] at h1
    unfold notEmpty
    rw [if_pos (List.perm_nil.1 h1)]
  · intro h0
    refine ⟨_, ?_, h1, h2⟩
    unfold notEmpty
    rw [if_neg]
    intro h'
    rw [h'] at h1
    exact h0 (List.nil_perm.1 h1)

/-- `/h` with `x2.png`, `x10.png`, a hidden image, a text, and the directories `r1` and `r[1]` -/
def vfExample : Fs :=
  ⟨[([['h']], [['x', '2', '.', 'p', 'n', 'g'], ['r', '1'], ['n', '.', 't', 'x', 't'], ['r', '[', '1', ']'], ['.', 'a', '.', 'p', 'n', 'g'],
      ['x', '1', '0', '.', 'p', 'n', 'g'], ['I', '.', 'T', 'I', 'F']]),
    ([['h'], ['r', '1']], [['u', '.', 'p', 'n', 'g']]), ([['h'], ['r', '[', '1', ']']], [['v', '.', 'p', 'n', 'g']])], [['h']]⟩

example : openImages vfExample ['/', 'h', '/'] = .ok ([['/', 'h', '/', 'x', '1', '0', '.', 'p', 'n', 'g'], ['/', 'h', '/', 'x', '2', '.', 'p', 'n', 'g']], 0) := by
  decide
example : ViewDir ['/', 'h'] ∧ Plain ['/', 'h'] ∧ ∃ names, listdir vfExample ['/', 'h'] = some names ∧ (∀ n ∈ names, EntryName n) ∧
    imagesOf ['/', 'h'] names ≠ [] := by
  refine ⟨by unfold ViewDir; decide, by unfold Plain; decide, _, rfl, by unfold EntryName; decide, by decide⟩

theorem vf_lexists (fs : Fs) (d n : ViewerFiles.Txt) (hd : d ≠ []) (k : Nat) (names : List ViewerFiles.Txt) (hn : EntryName n)
    (hmem : n ∈ names) (h : listdir fs d = some names) : lexists fs (d ++ List.replicate k '/' ++ '/' :: n) = true := by
  unfold lexists
  have hr : resolve fs (d ++ List.replicate k '/' ++ '/' :: n) = resolve fs d ++ [n] := by
    rw [vf_resolve_join fs _ n (by simp [hd]) hn, vf_resolve_slashes fs d hd k]
  have hi : inParent fs (resolve fs d ++ [n]) = true := by
    unfold inParent
    unfold listdir at h
    simp only [List.getLast?_append, List.getLast?_singleton, Option.some_or, List.dropLast_concat, h]
    simpa using hmem
  rw [hr, hi]
  simp

theorem vf_glob_file (fs : Fs) (d n : ViewerFiles.Txt) (hd : ViewDir d) (k : Nat) (names : List ViewerFiles.Txt) (hn : EntryName n)
    (hmem : n ∈ names) (h : listdir fs d = some names) (hp : Plain (d ++ '/' :: n)) :
    glob fs (d ++ List.replicate k '/' ++ '/' :: n) = [d ++ List.replicate k '/' ++ '/' :: n] := by
  have hm : hasMagic (d ++ List.replicate k '/' ++ '/' :: n) = false := by
    rw [vf_magic]
    intro c hc
    simp only [List.mem_append, List.mem_cons] at hc
    rcases hc with (hc | hc) | rfl | hc
    · exact hp c (by simp [hc])
    · rw [List.eq_of_mem_replicate hc]; decide
    · decide
    · exact hp c (by simp [hc])
  have hs : osSplit (d ++ List.replicate k '/' ++ '/' :: n) = (d, n) := by
    have := vf_osSplit d n hd hn.2.1 k
    rw [List.replicate_succ'] at this
    simpa using this
  unfold glob
  rw [globN]
  simp only [hm, Bool.not_false, if_true, hs, if_neg hn.1, vf_lexists fs d n hd.1 k names hn hmem h]

/-- **C135** (files; partial: no special character in the path, one slash before the name).  Given the path of an image of a directory, this
image is the first which is shown, and the images are those of its directory. -/
theorem C135_file_partial (fs : Fs) (d n : ViewerFiles.Txt) (hd : ViewDir d) (names : List ViewerFiles.Txt)
    (hnames : ∀ n ∈ names, EntryName n) (h : listdir fs d = some names) (hmem : n ∈ names) (hs : ShownName n = true)
    (hp : Plain (d ++ '/' :: n)) (hf : listdir fs (d ++ '/' :: n) = none) :
    ∃ files i, openImages fs (d ++ '/' :: n) = .ok (files, i) ∧ files[i]? = some (d ++ '/' :: n) ∧ files.Perm (imagesOf d names) ∧
      files.Pairwise (fun a b => txtLe a b = true) := by
  have hn := hnames n hmem
  have hpd := (vf_plain_append.1 hp).1
  obtain ⟨h1, h2⟩ := vf_pathFiles fs d hd hpd 0 names hnames h
  rw [List.replicate_zero, List.append_nil] at h1 h2
  have hg := vf_glob_file fs d n hd 0 names hn hmem h hp
  rw [List.replicate_zero, List.append_nil] at hg
  have hin : (d ++ '/' :: n) ∈ pathFiles fs d := by
    rw [h1.mem_iff]
    exact List.mem_map.2 ⟨n, List.mem_filter.2 ⟨hmem, hs⟩, rfl⟩
  refine ⟨pathFiles fs d, (pathFiles fs d).idxOf (d ++ '/' :: n), ?_, ?_, h1, h2⟩
  · unfold openImages
    have : isdir fs (d ++ '/' :: n) = false := by unfold isdir; rw [hf]; simp
    rw [if_neg (by rw [this]; simp)]
    simp only [hg, vf_osSplit_one d n hd hn.2.1]
    rw [if_pos (by simpa using hin)]
    unfold notEmpty
    rw [if_neg (List.ne_nil_of_mem hin)]
  · rw [List.getElem?_eq_getElem (List.idxOf_lt_length_iff.2 hin), List.getElem_idxOf]

example : openImages vfExample ['/', 'h', '/', 'x', '2', '.', 'p', 'n', 'g'] =
    .ok ([['/', 'h', '/', 'x', '1', '0', '.', 'p', 'n', 'g'], ['/', 'h', '/', 'x', '2', '.', 'p', 'n', 'g']], 1) := by decide
example : ShownName ['x', '2', '.', 'p', 'n', 'g'] = true ∧ Plain ['/', 'h', '/', 'x', '2', '.', 'p', 'n', 'g'] ∧
    listdir vfExample ['/', 'h', '/', 'x', '2', '.', 'p', 'n', 'g'] = none := by
  refine ⟨by decide, by unfold Plain; decide, rfl⟩

/-- **C135** (files of the current directory, given by their names; partial: no special character in the name). -/
theorem C135_here_partial (fs : Fs) (n : ViewerFiles.Txt) (names : List ViewerFiles.Txt)
    (hnames : ∀ n ∈ names, EntryName n) (h : fs.dirs.lookup fs.cwd = some names) (hmem : n ∈ names) (hs : ShownName n = true)
    (hp : Plain n) (hf : listdir fs n = none) :
    ∃ files i, openImages fs n = .ok (files, i) ∧ files[i]? = some n ∧ files.Perm (names.filter ShownName) ∧
      files.Pairwise (fun a b => txtLe a b = true) := by
  have hn := hnames n hmem
  have hres : resolve fs n = fs.cwd ++ [n] := by
    unfold resolve
    rw [if_neg (vf_head_name hn.2.1), vf_comps_name n hn]
  have hl : listdir fs [] = some names := by
    unfold listdir
    have : resolve fs [] = fs.cwd := by simp [resolve, comps, splitChar]
    rw [this, h]
  have hlex : lexists fs n = true := by
    unfold lexists
    have hi : inParent fs (fs.cwd ++ [n]) = true := by
      unfold inParent
      simp only [List.getLast?_append, List.getLast?_singleton, Option.some_or, List.dropLast_concat, h]
      simpa using hmem
    rw [hres, hi]
    simp [hn.1]
  have hg : glob fs n = [n] := by
    unfold glob
    rw [globN]
    simp only [vf_magic.2 hp, Bool.not_false, if_true, vf_osSplit_none n hn.2.1, if_neg hn.1, hlex]
  have hall : glob fs (pathJoin [] ['*']) = names.filter (fun n => !hidden n) := by
    have : pathJoin [] ['*'] = ['*'] := by decide
    rw [this]
    unfold glob
    rw [globN]
    have hm1 : hasMagic ['*'] = true := by decide
    simp only [vf_osSplit_none ['*'] (by decide), hm1, Bool.not_true, Bool.false_eq_true, if_false, if_true]
    exact vf_glob1_all fs [] names hl
  have e : (names.filter (fun n => !hidden n)).filter checkImage = names.filter ShownName := by
    rw [List.filter_filter]
    exact List.filter_congr fun n _ => vf_shown n
  have h1 : (pathFiles fs []).Perm (names.filter ShownName) := by
    unfold pathFiles
    rw [hall, e]
    exact List.perm_insertionSort _ _
  have h2 : (pathFiles fs []).Pairwise (fun a b => txtLe a b = true) := vf_sorted _
  have hin : n ∈ pathFiles fs [] := by
    rw [h1.mem_iff]; exact List.mem_filter.2 ⟨hmem, hs⟩
  refine ⟨pathFiles fs [], (pathFiles fs []).idxOf n, ?_, ?_, h1, h2⟩
  · unfold openImages
    have : isdir fs n = false := by unfold isdir; rw [hf]; simp
    rw [if_neg (by rw [this]; simp)]
    simp only [hg, vf_osSplit_none n hn.2.1]
    rw [if_pos (by simpa using hin)]
    unfold notEmpty
    rw [if_neg (List.ne_nil_of_mem hin)]
  · rw [List.getElem?_eq_getElem (List.idxOf_lt_length_iff.2 hin), List.getElem_idxOf]

example : openImages vfExample ['x', '2', '.', 'p', 'n', 'g'] =
    .ok ([['x', '1', '0', '.', 'p', 'n', 'g'], ['x', '2', '.', 'p', 'n', 'g']], 1) := by decide

/-- **C135, violation** (two slashes): with two slashes or more before the name of the image, as shells give when they complete a path which
ends with a slash, the image is not found in the list: `ValueError`. -/
theorem C135_slashes_fails (fs : Fs) (d n : ViewerFiles.Txt) (hd : ViewDir d) (k : Nat) (names : List ViewerFiles.Txt)
    (hnames : ∀ n ∈ names, EntryName n) (h : listdir fs d = some names) (hmem : n ∈ names)
    (hp : Plain (d ++ '/' :: n)) (hf : listdir fs (d ++ '/' :: n) = none) :
    openImages fs (d ++ List.replicate (k + 1) '/' ++ '/' :: n) = .error .valueError := by
  have hn := hnames n hmem
  have hpd := (vf_plain_append.1 hp).1
  obtain ⟨h1, _⟩ := vf_pathFiles fs d hd hpd 0 names hnames h
  rw [List.replicate_zero, List.append_nil] at h1
  have hout : (d ++ List.replicate (k + 1) '/' ++ '/' :: n) ∉ pathFiles fs d := by
    rw [h1.mem_iff]
    intro hx
    obtain ⟨m, hm, he⟩ := List.mem_map.1 hx
    have hm' := hnames m (List.mem_filter.1 hm).1
    rw [List.append_assoc, List.replicate_succ, List.cons_append] at he
    have := (List.cons.inj (List.append_cancel_left he)).2
    exact hm'.2.1 (by rw [this]; simp)
  unfold openImages
  have hdir : isdir fs (d ++ List.replicate (k + 1) '/' ++ '/' :: n) = false := by
    unfold isdir listdir
    have : resolve fs (d ++ List.replicate (k + 1) '/' ++ '/' :: n) = resolve fs (d ++ '/' :: n) := by
      rw [vf_resolve_join fs _ n (by simp [hd.1]) hn, vf_resolve_slashes fs d hd.1, vf_resolve_join fs d n hd.1 hn]
    rw [this]
    unfold listdir at hf
    rw [hf]; simp
  have hs : osSplit (d ++ List.replicate (k + 1) '/' ++ '/' :: n) = (d, n) := by
    have := vf_osSplit d n hd hn.2.1 (k + 1)
    rw [List.replicate_succ'] at this
    simpa using this
  rw [if_neg (by rw [hdir]; simp)]
  simp only [vf_glob_file fs d n hd (k + 1) names hn hmem h hp, hs]
  rw [if_neg (by simpa using hout)]

example : openImages vfExample ['/', 'h', '/', '/', 'x', '2', '.', 'p', 'n', 'g'] = .error .valueError := by decide

/-- **C135, violation** (names): the path of a file which is hidden or whose extension is not, in lower case, one of the list
(`IMG.PNG`, `im.TIF`) gives `ValueError`, even if the file is an image. -/
theorem C135_extension_fails (fs : Fs) (d n : ViewerFiles.Txt) (hd : ViewDir d) (names : List ViewerFiles.Txt)
    (hnames : ∀ n ∈ names, EntryName n) (h : listdir fs d = some names) (hmem : n ∈ names) (hs : ShownName n = false)
    (hp : Plain (d ++ '/' :: n)) (hf : listdir fs (d ++ '/' :: n) = none) :
    openImages fs (d ++ '/' :: n) = .error .valueError := by
  have hn := hnames n hmem
  have hpd := (vf_plain_append.1 hp).1
  obtain ⟨h1, _⟩ := vf_pathFiles fs d hd hpd 0 names hnames h
  have hg := vf_glob_file fs d n hd 0 names hn hmem h hp
  rw [List.replicate_zero, List.append_nil] at h1 hg
  have hout : (d ++ '/' :: n) ∉ pathFiles fs d := by
    rw [h1.mem_iff]
    intro hx
    obtain ⟨m, hm, he⟩ := List.mem_map.1 hx
    have := (List.cons.inj (List.append_cancel_left he)).2
    rw [this] at hm
    rw [(List.mem_filter.1 hm).2] at hs
    cases hs
  unfold openImages
  have : isdir fs (d ++ '/' :: n) = false := by unfold isdir; rw [hf]; simp
  rw [if_neg (by rw [this]; simp)]
  simp only [hg, vf_osSplit_one d n hd hn.2.1]
  rw [if_neg (by simpa using hout)]

example : ShownName ['I', '.', 'T', 'I', 'F'] = false ∧ openImages vfExample ['/', 'h', '/', 'I', '.', 'T', 'I', 'F'] = .error .valueError := by decide

/-! ### Brackets -/

/-- A character which has no special role between brackets. -/
def BracketChar (c : Char) : Prop := c ≠ '!' ∧ c ≠ ']' ∧ c ≠ '[' ∧ c ≠ '*' ∧ c ≠ '?' ∧ c ≠ '/'

theorem vf_closing (c : Char) (hc : BracketChar c) (rest : ViewerFiles.Txt) : closing (c :: ']' :: rest) = some ([c], rest) := by
  have h1 : (c :: ']' :: rest).head? ≠ some '!' := by simpa using hc.1
  have h2 : (c :: ']' :: rest)[0]? ≠ some ']' := by simpa using hc.2.1
  have h3 : (c :: ']' :: rest).idxOf ']' = 1 := by
    rw [List.idxOf_cons]
    have : (c == ']') = false := by simpa using hc.2.1
    rw [this]
    simp
  unfold closing
  simp only [if_neg h1, if_neg h2, List.drop_zero, h3]
  simp

theorem vf_set (c : Char) (hc : BracketChar c) : ViewerFiles.setOf [c] = .cls false [(c, c)] := by
  unfold ViewerFiles.setOf
  split
  · rename_i h; injection h with h _; exact absurd h hc.1
  · rw [items]
    · rfl
    · simp

theorem vf_bracket_prefix (b : ViewerFiles.Txt) (hb : Plain b) (c : Char) (hc : BracketChar c) (rest n : ViewerFiles.Txt)
    (h : fnmatch n (b ++ '[' :: c :: ']' :: rest) = true) : ∃ r, n = b ++ c :: r := by
  unfold fnmatch at h
  rw [vf_tokenize b _ hb _ (by simp)] at h
  have hl : (b ++ '[' :: c :: ']' :: rest).length - b.length = rest.length + 2 + 1 := by simp
  rw [hl, tokenize, if_neg (by decide), if_neg (by decide), if_pos rfl, vf_closing c hc, vf_lits] at h
  obtain ⟨r, rfl, h⟩ := h
  simp only [vf_set c hc] at h
  cases r with
  | nil => simp [matchToks] at h
  | cons x r =>
    simp only [matchToks, Bool.and_eq_true, inSet] at h
    have hx := h.1
    simp at hx
    exact ⟨r, by rw [show x = c from Char.le_antisymm hx.2 hx.1]⟩

theorem vf_bracket (b : ViewerFiles.Txt) (hb : Plain b) (c : Char) (hc : BracketChar c) (n : ViewerFiles.Txt) :
    fnmatch n (b ++ ['[', c, ']']) = true ↔ n = b ++ [c] := by
  unfold fnmatch
  rw [vf_tokenize b _ hb _ (by simp)]
  have hl : (b ++ ['[', c, ']']).length - b.length = 2 + 1 := by simp
  rw [hl, tokenize, if_neg (by decide), if_neg (by decide), if_pos rfl, vf_closing c hc, vf_lits]
  simp only [vf_set c hc, tokenize]
  constructor
  · rintro ⟨r, rfl, h⟩
    cases r with
    | nil => simp [matchToks] at h
    | cons x r =>
      simp only [matchToks, Bool.and_eq_true, inSet] at h
      have hx := h.1
      simp at hx
      have hr := List.isEmpty_iff.1 h.2
      rw [show x = c from Char.le_antisymm hx.2 hx.1, hr]
  · rintro rfl
    refine ⟨[c], rfl, ?_⟩
    simp [matchToks, inSet]

/-- the directories which match the path of a directory with brackets -/
theorem vf_glob_bracket (fs : Fs) (d b : ViewerFiles.Txt) (c : Char) (hd : ViewDir d) (hpd : Plain d) (hb : Plain b) (hc : BracketChar c)
    (hbn : '/' ∉ b) (hbh : b ≠ [] ∧ b.head? ≠ some '.') (parent : List ViewerFiles.Txt) (hpn : ∀ n ∈ parent, EntryName n)
    (hnd : parent.Nodup) (h : listdir fs d = some parent) (m : Nat) :
    (globN fs (m + 1) (d ++ '/' :: (b ++ ['[', c, ']']))) = if b ++ [c] ∈ parent then [d ++ '/' :: (b ++ [c])] else [] := by
  have hsl : '/' ∉ b ++ ['[', c, ']'] := by
    intro hx
    simp only [List.mem_append, List.mem_cons, List.not_mem_nil, or_false] at hx
    rcases hx with hx | hx | hx | hx
    · exact hbn hx
    · cases hx
    · exact hc.2.2.2.2.2 hx.symm
    · cases hx
  rw [globN]
  have hm : hasMagic (d ++ '/' :: (b ++ ['[', c, ']'])) = true := by unfold hasMagic; simp
  have hm1 : hasMagic (b ++ ['[', c, ']']) = true := by unfold hasMagic; simp
  simp only [vf_osSplit_one d _ hd hsl, hm, Bool.not_true, Bool.false_eq_true, if_false, if_neg hd.1, vf_magic.2 hpd, Bool.and_false,
    List.flatMap_cons, List.flatMap_nil, List.append_nil, hm1, if_true]
  have hhid : ViewerFiles.hidden (b ++ ['[', c, ']']) = false := by
    unfold ViewerFiles.hidden
    obtain ⟨x, xs, rfl⟩ := List.exists_cons_of_ne_nil hbh.1
    simpa using hbh.2
  have e : glob1 fs d (b ++ ['[', c, ']']) = if b ++ [c] ∈ parent then [b ++ [c]] else [] := by
    unfold glob1
    rw [h]
    simp only [hhid, Bool.false_eq_true, if_false]
    rw [List.filter_filter]
    have e1 : parent.filter (fun n => fnmatch n (b ++ ['[', c, ']']) && !ViewerFiles.hidden n) = parent.filter (fun n => n == b ++ [c]) := by
      refine List.filter_congr ?_
      intro n _
      rw [Bool.eq_iff_iff, Bool.and_eq_true, vf_bracket b hb c hc, beq_iff_eq]
      constructor
      · exact fun h => h.1
      · rintro rfl
        refine ⟨rfl, ?_⟩
        unfold ViewerFiles.hidden
        obtain ⟨x, xs, rfl⟩ := List.exists_cons_of_ne_nil hbh.1
        simpa using hbh.2
    rw [e1]
    by_cases hmem : b ++ [c] ∈ parent
    · rw [if_pos hmem, List.filter_beq, List.count_eq_one_of_mem hnd hmem]; rfl
    · rw [if_neg hmem, List.filter_beq, List.count_eq_zero_of_not_mem hmem]; rfl
  rw [e]
  by_cases hmem : b ++ [c] ∈ parent
  · rw [if_pos hmem, if_pos hmem]
    simp only [List.map_cons, List.map_nil]
    rw [vf_join d _ hd (vf_head_name (hpn _ hmem).2.1)]
  · rw [if_neg hmem, if_neg hmem]; rfl

/-- **C135, violation** (brackets in the name of a directory): `glob` takes the path of the directory for a pattern.  For a directory `b[c]`,
what is shown is what is shown for the directory `bc` beside it, whatever the images of `b[c]`; if there is no `bc` beside it the
error says that no image has been detected. -/
theorem C135_brackets_fails (fs : Fs) (d b : ViewerFiles.Txt) (c : Char) (hd : ViewDir d) (hpd : Plain d) (hb : Plain b) (hc : BracketChar c)
    (hbn : '/' ∉ b) (hbh : b ≠ [] ∧ b.head? ≠ some '.') (parent : List ViewerFiles.Txt) (hpn : ∀ n ∈ parent, EntryName n)
    (hnd : parent.Nodup) (h : listdir fs d = some parent) (own : List ViewerFiles.Txt)
    (hown : listdir fs (d ++ '/' :: (b ++ ['[', c, ']'])) = some own) :
    (b ++ [c] ∉ parent → openImages fs (d ++ '/' :: (b ++ ['[', c, ']'])) = .error .valueError) ∧
    (∀ names, b ++ [c] ∈ parent → listdir fs (d ++ '/' :: (b ++ [c])) = some names → (∀ n ∈ names, EntryName n) →
      openImages fs (d ++ '/' :: (b ++ ['[', c, ']'])) = openImages fs (d ++ '/' :: (b ++ [c]))) := by
  have hsl : '/' ∉ b ++ ['[', c, ']'] := by
    intro hx
    simp only [List.mem_append, List.mem_cons, List.not_mem_nil, or_false] at hx
    rcases hx with hx | hx | hx | hx
    · exact hbn hx
    · cases hx
    · exact hc.2.2.2.2.2 hx.symm
    · cases hx
  have hPd : ViewDir (d ++ '/' :: (b ++ ['[', c, ']'])) := by
    refine ⟨by simp, ?_⟩
    rw [show d ++ '/' :: (b ++ ['[', c, ']']) = (d ++ '/' :: (b ++ ['[', c])) ++ [']'] by simp, List.getLast?_concat]
    decide
  have hdir : isdir fs (d ++ '/' :: (b ++ ['[', c, ']'])) = true := by
    have := vf_isdir fs (d ++ '/' :: (b ++ ['[', c, ']'])) hPd.1 0 own hown
    rwa [List.replicate_zero, List.append_nil] at this
  have hmP : hasMagic (d ++ '/' :: (b ++ ['[', c, ']'])) = true := by unfold hasMagic; simp
  have hm1 : hasMagic ['*'] = true := by decide
  have key : glob fs (pathJoin (d ++ '/' :: (b ++ ['[', c, ']'])) ['*']) =
      ((if b ++ [c] ∈ parent then [d ++ '/' :: (b ++ [c])] else []).filter (isdir fs)).flatMap fun d' => (glob1 fs d' ['*']).map (pathJoin d') := by
    rw [vf_join _ _ hPd (by decide)]
    unfold glob
    rw [globN]
    have hm : hasMagic ((d ++ '/' :: (b ++ ['[', c, ']'])) ++ '/' :: ['*']) = true := by unfold hasMagic; simp
    have hne : (d ++ '/' :: (b ++ ['[', c, ']'])) ≠ (d ++ '/' :: (b ++ ['[', c, ']'])) ++ '/' :: ['*'] := by
      intro h'
      have := congrArg List.length h'
      simp at this
    have hlen : ((d ++ '/' :: (b ++ ['[', c, ']'])) ++ '/' :: ['*']).length = (d.length + b.length + 5) + 1 := by
      simp; omega
    simp only [vf_osSplit_one _ ['*'] hPd (by decide), hm, Bool.not_true, Bool.false_eq_true, if_false, if_neg hPd.1, hmP, hne, ne_eq,
      not_false_eq_true, decide_true, Bool.and_self, if_true, hm1]
    rw [hlen, vf_glob_bracket fs d b c hd hpd hb hc hbn hbh parent hpn hnd h]
  refine ⟨?_, ?_⟩
  · intro hno
    unfold openImages
    rw [if_pos hdir]
    unfold pathFiles
    rw [key, if_neg hno]
    rfl
  · intro names hmem hn hnames
    have hSd : ViewDir (d ++ '/' :: (b ++ [c])) := by
      refine ⟨by simp, ?_⟩
      rw [show d ++ '/' :: (b ++ [c]) = (d ++ '/' :: b) ++ [c] by simp, List.getLast?_concat]
      simpa using hc.2.2.2.2.2
    have hSp : Plain (d ++ '/' :: (b ++ [c])) := by
      intro x hx
      simp only [List.mem_append, List.mem_cons, List.not_mem_nil, or_false] at hx
      rcases hx with hx | rfl | hx | rfl
      · exact hpd x hx
      · decide
      · exact hb x hx
      · exact ⟨hc.2.2.2.1, hc.2.2.2.2.1, hc.2.2.1⟩
    have hSdir : isdir fs (d ++ '/' :: (b ++ [c])) = true := by
      have := vf_isdir fs (d ++ '/' :: (b ++ [c])) hSd.1 0 names hn
      rwa [List.replicate_zero, List.append_nil] at this
    unfold openImages
    rw [if_pos hdir, if_pos hSdir]
    unfold pathFiles
    have h2 := vf_glob_dir fs _ hSd hSp 0 names hnames hn
    rw [List.replicate_zero, List.append_nil] at h2
    rw [key, if_pos hmem, h2]
    simp only [List.filter_cons, hSdir, if_true, List.filter_nil, List.flatMap_cons, List.flatMap_nil, List.append_nil]
    rw [vf_glob1_all fs _ names hn]
    congr 3
    refine List.map_congr_left ?_
    intro n hn'
    exact vf_join _ n hSd (vf_head_name (hnames n (List.mem_filter.1 hn').1).2.1)

-- the directory `r[1]` has the image `v.png`; the image which is shown is `/h/r1/u.png`
example : openImages vfExample ['/', 'h', '/', 'r', '[', '1', ']'] = .ok ([['/', 'h', '/', 'r', '1', '/', 'u', '.', 'p', 'n', 'g']], 0) := by decide
example : listdir vfExample ['/', 'h', '/', 'r', '[', '1', ']'] = some [['v', '.', 'p', 'n', 'g']] ∧ BracketChar '1' := by
  refine ⟨rfl, ?_⟩
  unfold BracketChar
  decide

/-- **C135, violation** (an image in a directory with brackets): the path of an image of the directory `b[c]` gives `IndexError` if there is
no `bc` beside it. -/
theorem C135_brackets_file_fails (fs : Fs) (d b n : ViewerFiles.Txt) (c : Char) (hd : ViewDir d) (hpd : Plain d) (hb : Plain b)
    (hc : BracketChar c) (hbn : '/' ∉ b) (hbh : b ≠ [] ∧ b.head? ≠ some '.') (parent : List ViewerFiles.Txt)
    (hpn : ∀ n ∈ parent, EntryName n) (hnd : parent.Nodup) (h : listdir fs d = some parent) (hn : EntryName n)
    (hf : listdir fs (d ++ '/' :: (b ++ ['[', c, ']']) ++ '/' :: n) = none) (hno : b ++ [c] ∉ parent) :
    openImages fs (d ++ '/' :: (b ++ ['[', c, ']']) ++ '/' :: n) = .error .indexError := by
  have hPd : ViewDir (d ++ '/' :: (b ++ ['[', c, ']'])) := by
    refine ⟨by simp, ?_⟩
    rw [show d ++ '/' :: (b ++ ['[', c, ']']) = (d ++ '/' :: (b ++ ['[', c])) ++ [']'] by simp, List.getLast?_concat]
    decide
  have hmP : hasMagic (d ++ '/' :: (b ++ ['[', c, ']'])) = true := by unfold hasMagic; simp
  have hm : hasMagic ((d ++ '/' :: (b ++ ['[', c, ']'])) ++ '/' :: n) = true := by unfold hasMagic; simp
  have hne : (d ++ '/' :: (b ++ ['[', c, ']'])) ≠ (d ++ '/' :: (b ++ ['[', c, ']'])) ++ '/' :: n := by
    intro h'
    have := congrArg List.length h'
    simp at this
  have hlen : ((d ++ '/' :: (b ++ ['[', c, ']'])) ++ '/' :: n).length = (d.length + b.length + n.length + 4) + 1 := by
    simp; omega
  have hg : glob fs (d ++ '/' :: (b ++ ['[', c, ']']) ++ '/' :: n) = [] := by
    unfold glob
    rw [globN]
    simp only [vf_osSplit_one _ n hPd hn.2.1, hm, Bool.not_true, Bool.false_eq_true, if_false, if_neg hPd.1, hmP, hne, ne_eq,
      not_false_eq_true, decide_true, Bool.and_self, if_true]
    rw [hlen, vf_glob_bracket fs d b c hd hpd hb hc hbn hbh parent hpn hnd h, if_neg hno]
    rfl
  unfold openImages
  have : isdir fs (d ++ '/' :: (b ++ ['[', c, ']']) ++ '/' :: n) = false := by unfold isdir; rw [hf]; simp
  rw [if_neg (by rw [this]; simp)]
  simp only [hg]

example : openImages ⟨[([], [['r', '[', '1', ']']]), ([['r', '[', '1', ']']], [['v', '.', 'p', 'n', 'g']])], []⟩
    ['.', '/', 'r', '[', '1', ']', '/', 'v', '.', 'p', 'n', 'g'] = .error .indexError := by decide

/-! ## The viewer of vector fields -/

/-- The names of a series: they start with the base name and end with the extension. -/
def InPivSerie (base ext n : ViewerFiles.Txt) : Prop := ∃ mid, n = base ++ mid ++ ext

theorem vf_nameFiles (names : List ViewerFiles.Txt) (base ext : ViewerFiles.Txt) (hb : Plain base) (he : Plain ext) (n : ViewerFiles.Txt) :
    n ∈ nameFiles names base ext ↔ n ∈ names ∧ InPivSerie base ext n := by
  unfold nameFiles
  rw [(List.perm_insertionSort _ _).mem_iff, List.mem_filter, vf_one_star base ext n hb he]
  rfl

/-- **C135** (a file of vectors; partial: no special character in the base name).  Given a file of vectors, this file is the first which is
shown, and the files are those of its series in its directory, in the order of the texts. -/
theorem C135_piv_partial (serie : ViewerFiles.Txt → ViewerFiles.Txt × ViewerFiles.Txt) (names : List ViewerFiles.Txt) (n : ViewerFiles.Txt)
    (hmem : n ∈ names) (hb : Plain (serie n).1) (he : Plain (serie n).2) (hs : InPivSerie (serie n).1 (serie n).2 n) :
    ∃ files i, openPiv serie names (some n) = .ok (files, i) ∧ files[i]? = some n ∧
      (∀ f, f ∈ files ↔ f ∈ names ∧ InPivSerie (serie n).1 (serie n).2 f) ∧ files.Pairwise (fun a b => txtLe a b = true) := by
  have hin := (vf_nameFiles names (serie n).1 (serie n).2 hb he n).2 ⟨hmem, hs⟩
  refine ⟨nameFiles names (serie n).1 (serie n).2, (nameFiles names (serie n).1 (serie n).2).idxOf n, ?_, ?_,
    vf_nameFiles names (serie n).1 (serie n).2 hb he, vf_sorted _⟩
  · unfold openPiv
    simp only
    rw [if_pos (by simpa using hin)]
  · rw [List.getElem?_eq_getElem (List.idxOf_lt_length_iff.2 hin), List.getElem_idxOf]

/-- the base name is the text before the first digit -/
def vfSerie (n : ViewerFiles.Txt) : ViewerFiles.Txt × ViewerFiles.Txt := (n.takeWhile fun c => !c.isDigit, ['h', '5'])

example : openPiv vfSerie [['p', 'i', 'v', '2', '.', 'h', '5'], ['a'], ['p', 'i', 'v', '1', '.', 'h', '5']] (some ['p', 'i', 'v', '2', '.', 'h', '5']) =
    .ok ([['p', 'i', 'v', '1', '.', 'h', '5'], ['p', 'i', 'v', '2', '.', 'h', '5']], 1) := by decide

/-- **C135** (a directory of vectors; partial: all the entries which start with `piv` are of one series): all of them are shown. -/
theorem C135_piv_directory_partial (serie : ViewerFiles.Txt → ViewerFiles.Txt × ViewerFiles.Txt) (names : List ViewerFiles.Txt)
    (base ext : ViewerFiles.Txt) (hb : Plain base) (he : Plain ext) (hpiv : ['p', 'i', 'v'].isPrefixOf base = true)
    (hall : ∀ n ∈ names, ['p', 'i', 'v'].isPrefixOf n = true → serie n = (base, ext) ∧ InPivSerie base ext n)
    (hne : ∃ n ∈ names, ['p', 'i', 'v'].isPrefixOf n = true) :
    ∃ files, openPiv serie names none = .ok (files, 0) ∧ files.Perm (names.filter (fun n => ['p', 'i', 'v'].isPrefixOf n)) ∧
      files.Pairwise (fun a b => txtLe a b = true) := by
  have e : nameFiles names base ext = (names.filter (fun n => ['p', 'i', 'v'].isPrefixOf n)).insertionSort (fun a b => txtLe a b = true) := by
    unfold nameFiles
    congr 1
    refine List.filter_congr ?_
    intro n hn
    rw [Bool.eq_iff_iff, vf_one_star base ext n hb he]
    constructor
    · rintro ⟨mid, rfl⟩
      rw [List.isPrefixOf_iff_prefix] at hpiv ⊢
      rw [List.append_assoc]
      exact hpiv.trans (List.prefix_append _ _)
    · intro h; exact (hall n hn h).2
  obtain ⟨n0, hn0, hp0⟩ := hne
  cases hl : names.filter (fun n => ['p', 'i', 'v'].isPrefixOf n) with
  | nil => exact absurd (List.mem_filter.2 ⟨hn0, hp0⟩) (by rw [hl]; simp)
  | cons f rest =>
    have hf : f ∈ names.filter (fun n => ['p', 'i', 'v'].isPrefixOf n) := by rw [hl]; simp
    have hser := (hall f (List.mem_filter.1 hf).1 (List.mem_filter.1 hf).2).1
    refine ⟨nameFiles names base ext, ?_, ?_, vf_sorted _⟩
    · unfold openPiv
      simp only [hl, hser]
      cases hnf : nameFiles names base ext with
      | nil =>
        exfalso
        have := (List.perm_insertionSort (fun a b => txtLe a b = true) (names.filter (fun n => ['p', 'i', 'v'].isPrefixOf n))).mem_iff.2 hf
        rw [← e, hnf] at this
        cases this
      | cons a l => rfl
    · rw [e, hl]; exact List.perm_insertionSort _ _

example : openPiv vfSerie [['p', 'i', 'v', '2', '.', 'h', '5'], ['a'], ['p', 'i', 'v', '1', '.', 'h', '5']] none =
    .ok ([['p', 'i', 'v', '1', '.', 'h', '5'], ['p', 'i', 'v', '2', '.', 'h', '5']], 0) := by decide

/-- **C135** (a directory without vectors): the viewer exits and says so. -/
theorem C135_piv_none (serie : ViewerFiles.Txt → ViewerFiles.Txt × ViewerFiles.Txt) (names : List ViewerFiles.Txt)
    (h : ∀ n ∈ names, ['p', 'i', 'v'].isPrefixOf n = false) : openPiv serie names none = .error .systemExit := by
  unfold openPiv
  have : names.filter (fun n => ['p', 'i', 'v'].isPrefixOf n) = [] := by
    rw [List.filter_eq_nil_iff]; intro n hn; rw [h n hn]; simp
  simp only [this]

example : openPiv vfSerie [['a'], ['P', 'I', 'V', '1']] none = .error .systemExit := by decide

/-- **C135, violation** (several series in a directory): with the files of two series in a directory, only the files of one of them are
shown, and which one depends on the order in which the system gives the entries. -/
theorem C135_piv_order_fails (serie : ViewerFiles.Txt → ViewerFiles.Txt × ViewerFiles.Txt) (n m : ViewerFiles.Txt)
    (hn : ['p', 'i', 'v'].isPrefixOf n = true) (hm : ['p', 'i', 'v'].isPrefixOf m = true)
    (hpn : Plain (serie n).1 ∧ Plain (serie n).2) (hpm : Plain (serie m).1 ∧ Plain (serie m).2)
    (h1 : InPivSerie (serie n).1 (serie n).2 n) (h2 : InPivSerie (serie m).1 (serie m).2 m)
    (h3 : ¬ InPivSerie (serie n).1 (serie n).2 m) (h4 : ¬ InPivSerie (serie m).1 (serie m).2 n) :
    openPiv serie [n, m] none = .ok ([n], 0) ∧ openPiv serie [m, n] none = .ok ([m], 0) := by
  have key : ∀ x y, ['p', 'i', 'v'].isPrefixOf x = true → ['p', 'i', 'v'].isPrefixOf y = true → Plain (serie x).1 → Plain (serie x).2 →
      InPivSerie (serie x).1 (serie x).2 x → ¬ InPivSerie (serie x).1 (serie x).2 y → openPiv serie [x, y] none = .ok ([x], 0) := by
    intro x y hx hy hp1 hp2 g1 g2
    have e : nameFiles [x, y] (serie x).1 (serie x).2 = [x] := by
      unfold nameFiles
      have e1 : fnmatch x ((serie x).1 ++ '*' :: (serie x).2) = true := (vf_one_star _ _ x hp1 hp2).2 g1
      have e2 : fnmatch y ((serie x).1 ++ '*' :: (serie x).2) = false := by
        rw [Bool.eq_false_iff]; exact fun h => g2 ((vf_one_star _ _ y hp1 hp2).1 h)
      rw [List.filter_cons_of_pos (by exact e1), List.filter_cons_of_neg (by rw [e2]; simp)]
      rfl
    unfold openPiv
    simp only [List.filter_cons, hx, hy, if_true, List.filter_nil, e]
  exact ⟨key n m hn hm hpn.1 hpn.2 h1 h3, key m n hm hn hpm.1 hpm.2 h2 h4⟩

example : InPivSerie ['p', 'i', 'v', 'a'] ['h', '5'] ['p', 'i', 'v', 'a', '1', '.', 'h', '5'] ∧ ¬ InPivSerie ['p', 'i', 'v', 'a'] ['h', '5'] ['p', 'i', 'v', 'b', '1', '.', 'h', '5'] := by
  refine ⟨⟨['1', '.'], rfl⟩, ?_⟩
  rintro ⟨mid, h⟩
  simp at h

/-- **C135, violation** (brackets in the name of a file of vectors): for a series whose base name is `b[c]…`, no file of the series is found,
and the viewer fails. -/
theorem C135_piv_brackets_fails (serie : ViewerFiles.Txt → ViewerFiles.Txt × ViewerFiles.Txt) (names : List ViewerFiles.Txt)
    (n b rest : ViewerFiles.Txt) (c : Char) (hb : Plain b) (hc : BracketChar c) (hbase : (serie n).1 = b ++ '[' :: c :: ']' :: rest)
    (hs : InPivSerie (serie n).1 (serie n).2 n) : openPiv serie names (some n) = .error .valueError := by
  have hout : n ∉ nameFiles names (serie n).1 (serie n).2 := by
    unfold nameFiles
    rw [(List.perm_insertionSort _ _).mem_iff, List.mem_filter]
    rintro ⟨_, h⟩
    rw [hbase] at h hs
    have h' : fnmatch n (b ++ '[' :: c :: ']' :: (rest ++ '*' :: (serie n).2)) = true := by
      simpa using h
    obtain ⟨r, hr⟩ := vf_bracket_prefix b hb c hc _ n h'
    obtain ⟨mid, hm⟩ := hs
    rw [hm, List.append_assoc, List.append_assoc] at hr
    have := (List.cons.inj (List.append_cancel_left hr)).1
    exact hc.2.2.1 this.symm
  unfold openPiv
  simp only
  rw [if_neg (by simpa using hout)]

example : openPiv (fun _ => (['p', 'i', 'v', '[', 'a', ']'], ['5'])) [['p', 'i', 'v', '[', 'a', ']', '1', '.', 'h', '5']]
    (some ['p', 'i', 'v', '[', 'a', ']', '1', '.', 'h', '5']) = .error .valueError := by decide

end Verif
