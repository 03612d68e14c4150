import Verif.Model.DirectFiles
import Verif.Props.DirectCalib
import Verif.Props.Splitters

/-!
# Files and checks of a direct calibration (C150)
-/

namespace Verif
open Verif.Calib Verif.DirectFiles

/-! ## Specification -/

/-- The attributes used by the reconstruction are those made by the two methods which compute the calibration, for an image of
`o.nbX` times `o.nbY` pixels. -/
def MadeFrom (o : Obj) (g : GridData) (svd : Svd) (files : List (List GridPoint)) (linesX linesY : ℕ) : Prop :=
  ∃ L, calibDirect g svd files o.nbX o.nbY linesX linesY = .ok L ∧ o.lines = some L

/-- Some calls of `save`, one after the other, by several objects; a call which raises an exception writes nothing. -/
def afterSaves (d : Disk) : List (Obj × Path) → Disk
  | [] => d
  | c :: cs => afterSaves (match save c.1 c.2 d with
    | .ok d' => d'
    | .error _ => d) cs

/-- The two objects give the same results for everything but the interpolations at the levels. -/
structure SameCalibration (o o' : Obj) : Prop where
  paths : o'.paths = o.paths
  nbX : o'.nbX = o.nbX
  nbY : o'.nbY = o.nbY
  lines : o'.lines = o.lines
  plane : basePlane o' = basePlane o
  fig : ∀ files number, checkLines files o' number = checkLines files o number
  coeffs : ∀ number, checkCoeffs o' number = checkCoeffs o number

/-! ## Files -/

theorem isSuffixOf_npz (p : Path) : npz.isSuffixOf p = true ↔ ".npz".toList <:+ p := by
  rw [List.isSuffixOf_iff_suffix]; rfl

theorem savezName_of_suffix {p : Path} (h : ".npz".toList <:+ p) : savezName p = p := by
  unfold savezName
  rw [if_pos ((isSuffixOf_npz p).2 h)]

theorem savezName_of_not {p : Path} (h : ¬ ".npz".toList <:+ p) : savezName p = p ++ ".npz".toList := by
  unfold savezName
  rw [if_neg (fun h' => h ((isSuffixOf_npz p).1 h'))]
  rfl

theorem savezName_cases (p : Path) : savezName p = p ∨ savezName p = p ++ ".npz".toList := by
  by_cases h : ".npz".toList <:+ p
  · exact Or.inl (savezName_of_suffix h)
  · exact Or.inr (savezName_of_not h)

theorem afterSaves_other (p : Path) : ∀ (cs : List (Obj × Path)) (d : Disk),
    (∀ c ∈ cs, c.2 ≠ p ∧ c.2 ++ ".npz".toList ≠ p) → afterSaves d cs p = d p
  | [], _, _ => rfl
  | c :: cs, d, h => by
    rw [afterSaves, afterSaves_other p cs _ fun c' hc' => h c' (List.mem_cons_of_mem _ hc')]
    obtain ⟨h1, h2⟩ := h c (by simp)
    unfold save
    cases hl : c.1.lines with
    | none => rfl
    | some l =>
      have hne : p ≠ savezName c.2 := by
        rcases savezName_cases c.2 with e | e
        · rw [e]; exact Ne.symm h1
        · rw [e]; exact Ne.symm h2
      simp only [hne, if_false]

/-- C150: after `save` in a file whose name ends with `.npz`, whatever is saved afterwards in other files by other objects, the
object made with this file gives what the saved object gives. -/
theorem C150_save_load_partial (o : Obj) (L : LinesFn) (hL : o.lines = some L) (p : Path) (hp : ".npz".toList <:+ p) (d : Disk) :
    ∃ d', save o p d = .ok d' ∧ (∀ q, q ≠ p → d' q = d q) ∧
      ∀ cs : List (Obj × Path), (∀ c ∈ cs, c.2 ≠ p ∧ c.2 ++ ".npz".toList ≠ p) →
        ∃ o', load (afterSaves d' cs) p = .ok o' ∧ SameCalibration o o' := by
  refine ⟨fun q => if q = p then some ⟨L, o.paths, o.nbX, o.nbY⟩ else d q, ?_, ?_, ?_⟩
  · unfold save
    rw [hL, savezName_of_suffix hp]
  · intro q hq
    simp [hq]
  · intro cs hcs
    refine ⟨⟨o.paths, o.nbX, o.nbY, none, some L⟩, ?_, ?_⟩
    · unfold load
      rw [afterSaves_other p cs _ hcs]
      simp
    · refine ⟨rfl, rfl, rfl, hL.symm, ?_, ?_, ?_⟩
      · unfold basePlane; rw [hL]
      · intro files number; unfold checkLines; rw [hL]
      · intro number; unfold checkCoeffs; rw [hL]

/-- C150 fails for the other names: `numpy` adds the extension, and the object made with the name given to `save` is what it was
before (`FileNotFoundError` if there was no file). -/
theorem C150_name_fails (o : Obj) (L : LinesFn) (hL : o.lines = some L) (p : Path) (hp : ¬ ".npz".toList <:+ p) (d : Disk) :
    ∃ d', save o p d = .ok d' ∧ load d' p = load d p ∧ (d p = none → load d' p = .error .fileNotFoundError) ∧
      ∃ o', load d' (p ++ ".npz".toList) = .ok o' ∧ SameCalibration o o' := by
  have hne : p ≠ p ++ ".npz".toList := by
    intro h
    have := congrArg List.length h
    rw [List.length_append] at this
    have h4 : (".npz".toList).length = 4 := by decide
    omega
  refine ⟨fun q => if q = p ++ ".npz".toList then some ⟨L, o.paths, o.nbX, o.nbY⟩ else d q, ?_, ?_, ?_, ?_⟩
  · unfold save
    rw [hL, savezName_of_not hp]
  · unfold load
    beta_reduce
    rw [if_neg hne]
  · intro h
    unfold load
    beta_reduce
    rw [if_neg hne, h]
  · refine ⟨⟨o.paths, o.nbX, o.nbY, none, some L⟩, ?_, ?_⟩
    · unfold load
      beta_reduce
      rw [if_pos rfl]
    · refine ⟨rfl, rfl, rfl, hL.symm, ?_, ?_, ?_⟩
      · unfold basePlane; rw [hL]
      · intro files number; unfold checkLines; rw [hL]
      · intro number; unfold checkCoeffs; rw [hL]

/-- C150 fails for the interpolations at the levels, which are not saved: `check_interp_levels` of an object made with a file always raises
`AttributeError`. -/
theorem C150_levels_fails (d : Disk) (p : Path) (o : Obj) (h : load d p = .ok o) (g : GridData) (number : ℕ) :
    checkLevels g o number = .error .attributeError := by
  unfold load at h
  split at h
  · cases h
  · injection h with h
    subst h
    rfl

/-- C150: no file of points is a `ValueError`; nothing is saved and no plane is given before the calibration is computed; the shape of the
image is `(height, width)`. -/
theorem C150_new (found : List Path) (shape : ℕ × ℕ) :
    (found = [] → new found shape = .error .valueError) ∧
    (found ≠ [] → ∃ o, new found shape = .ok o ∧ o.paths = found ∧ o.nbY = shape.1 ∧ o.nbX = shape.2 ∧
      (∀ p d, save o p d = .error .attributeError) ∧ basePlane o = .error .attributeError) := by
  cases found with
  | nil => exact ⟨fun _ => rfl, fun h => absurd rfl h⟩
  | cons a l => exact ⟨fun h => by simp at h, fun _ => ⟨_, rfl, rfl, rfl, rfl, fun _ _ => rfl, rfl⟩⟩

/-! ## Pixels of the checks -/

/-- C150: the pixels of the checks are in the image and at least `number` in each direction, and every pixel of the image is at less
than a step of `n // number` pixels of one of them. -/
theorem C150_samples (n number : ℕ) (h0 : 1 ≤ number) (hn : number ≤ n) :
    ∃ l, samples n number = .ok l ∧ (∀ x ∈ l, 0 ≤ x ∧ x < n) ∧ l.Pairwise (· < ·) ∧ number ≤ l.length ∧
      ∀ x : ℤ, 0 ≤ x → x < n → ∃ s ∈ l, s ≤ x ∧ x < s + (n / number : ℕ) := by
  have hs : 1 ≤ n / number := (Nat.le_div_iff_mul_le h0).2 (by omega)
  have hmul : n / number * number ≤ n := Nat.div_mul_le_self n number
  refine ⟨pyRange 0 n ((n / number : ℕ) : ℤ), ?_, ?_, ?_, ?_, ?_⟩
  · unfold samples
    rw [if_neg (by omega), if_neg (by omega)]
  · intro x hx
    obtain ⟨i, rfl, h, _⟩ := (mem_pyRange_iff _ _ _ _ (by omega)).1 hx
    refine ⟨?_, h (by omega)⟩
    have : (0 : ℤ) ≤ (i : ℤ) * ((n / number : ℕ) : ℤ) := by positivity
    omega
  · unfold pyRange
    rw [List.pairwise_map]
    refine List.pairwise_lt_range.imp ?_
    intro a b hab
    have : (a : ℤ) * ((n / number : ℕ) : ℤ) < (b : ℤ) * ((n / number : ℕ) : ℤ) := by
      apply mul_lt_mul_of_pos_right
      · exact_mod_cast hab
      · exact_mod_cast hs
    omega
  · unfold pyRange rangeLen
    rw [List.length_map, List.length_range, if_pos (by omega), if_pos (by omega)]
    have h1 : ((number : ℤ) - 1) ≤ ((n : ℤ) - 0 - 1) / ((n / number : ℕ) : ℤ) := by
      rw [Int.le_ediv_iff_mul_le (by omega)]
      have : ((n / number : ℕ) : ℤ) * (number : ℤ) ≤ n := by exact_mod_cast hmul
      nlinarith
    omega
  · intro x hx0 hx1
    obtain ⟨k, rfl⟩ := Int.eq_ofNat_of_zero_le hx0
    refine ⟨((k / (n / number) * (n / number) : ℕ) : ℤ), ?_, ?_, ?_⟩
    · rw [mem_pyRange_iff _ _ _ _ (by omega)]
      refine ⟨k / (n / number), by push_cast; ring, ?_, fun h => by omega⟩
      intro _
      have := Nat.div_mul_le_self k (n / number)
      omega
    · exact_mod_cast Nat.div_mul_le_self k (n / number)
    · have := Nat.div_add_mod k (n / number)
      have hm := Nat.mod_lt k (show n / number > 0 by omega)
      have h2 : n / number * (k / (n / number)) = k / (n / number) * (n / number) := Nat.mul_comm _ _
      omega

/-- C150 fails for the images with less pixels than `number` (10 or 100 by default) in a direction: `ValueError`. -/
theorem C150_small_checks_fails (o : Obj) (number : ℕ) (h : o.nbX < number ∨ o.nbY < number) :
    (∃ e, checkCoeffs o number = .error e) ∧ (∀ files, ∃ e, checkLines files o number = .error e) ∧
      (o.nbX < number → checkCoeffs o number = .error .valueError) ∧
      (o.levels ≠ none → ∀ g, checkLevels g o number = .error .valueError) := by
  have hn : number ≠ 0 := by omega
  have hsmall : ∀ n, n < number → samples n number = .error .valueError := by
    intro n hlt
    unfold samples
    rw [if_neg hn, if_pos (Nat.div_eq_of_lt hlt)]
  have hval : ∀ n e, samples n number = .error e → e = .valueError := by
    intro n e he
    unfold samples at he
    rw [if_neg hn] at he
    split at he
    · injection he with he; exact he.symm
    · cases he
  refine ⟨?_, ?_, ?_, ?_⟩
  · rcases h with h | h
    · exact ⟨.valueError, by simp only [checkCoeffs, hsmall _ h]⟩
    · cases hx : samples o.nbX number with
      | error e => exact ⟨e, by simp only [checkCoeffs, hx]⟩
      | ok xs => exact ⟨.valueError, by simp only [checkCoeffs, hx, hsmall _ h]⟩
  · intro files
    cases hs : scatter files o.paths with
    | error e => exact ⟨e, by simp only [checkLines, hs]⟩
    | ok pts =>
      rcases h with h | h
      · exact ⟨.valueError, by simp only [checkLines, hs, hsmall _ h]⟩
      · cases hx : samples o.nbX number with
        | error e => exact ⟨e, by simp only [checkLines, hs, hx]⟩
        | ok xs => exact ⟨.valueError, by simp only [checkLines, hs, hx, hsmall _ h]⟩
  · intro h; simp only [checkCoeffs, hsmall _ h]
  · intro hl g
    cases hL : o.levels with
    | none => exact absurd hL hl
    | some ls =>
      rcases h with h | h
      · simp only [checkLevels, hL, hsmall _ h]
      · cases hx : samples o.nbX number with
        | error e => simp only [checkLevels, hL, hx]; rw [hval _ _ hx]
        | ok xs => simp only [checkLevels, hL, hx, hsmall _ h]

/-! ## What is drawn -/

theorem evalAll_ok (L : LinesFn) : ∀ (qs : List (ℤ × ℤ)) (ls : List (Option (V3 × V3))), evalAll L qs = .ok ls →
    List.Forall₂ (fun q l => L ((q.1 : ℝ), (q.2 : ℝ)) = .ok l) qs ls
  | [], ls, h => by
    simp only [evalAll] at h
    injection h with h
    subst h
    exact .nil
  | q :: qs, ls, h => by
    cases hq : L ((q.1 : ℝ), (q.2 : ℝ)) with
    | error e => simp only [evalAll, hq] at h; cases h
    | ok l =>
      cases hr : evalAll L qs with
      | error e => simp only [evalAll, hq, hr] at h; cases h
      | ok ls' =>
        simp only [evalAll, hq, hr] at h
        injection h with h
        subst h
        exact .cons hq (evalAll_ok L qs ls' hr)

theorem evalAll_of (L : LinesFn) : ∀ (qs : List (ℤ × ℤ)), (∀ q ∈ qs, ∃ l, L ((q.1 : ℝ), (q.2 : ℝ)) = .ok l) →
    ∃ ls, evalAll L qs = .ok ls
  | [], _ => ⟨[], rfl⟩
  | q :: qs, h => by
    obtain ⟨l, hl⟩ := h q (by simp)
    obtain ⟨ls, hls⟩ := evalAll_of L qs fun q' hq' => h q' (List.mem_cons_of_mem _ hq')
    exact ⟨l :: ls, by simp only [evalAll, hl, hls]⟩

theorem mem_mesh {xs ys : List ℤ} {q : ℤ × ℤ} : q ∈ mesh xs ys ↔ q.1 ∈ xs ∧ q.2 ∈ ys := by
  unfold mesh
  simp only [List.mem_flatMap, List.mem_map]
  constructor
  · rintro ⟨y, hy, x, hx, rfl⟩; exact ⟨hx, hy⟩
  · rintro ⟨hx, hy⟩; exact ⟨q.2, hy, q.1, hx, rfl⟩

theorem mesh_length (xs ys : List ℤ) : (mesh xs ys).length = ys.length * xs.length := by
  unfold mesh
  induction ys with
  | nil => simp
  | cons y ys ih => rw [List.flatMap_cons, List.length_append, ih, List.length_map, List.length_cons]; ring

theorem forall₂_first {α β : Type} {R : α → β → Prop} : ∀ {l : List α} {m : List β}, List.Forall₂ R l m →
    ∀ a ∈ l, ∃ b ∈ m, R a b
  | _, _, .nil, a, h => by cases h
  | _, _, .cons (b := b) hab hr, a, h => by
    rcases List.mem_cons.1 h with rfl | h
    · exact ⟨b, by simp, hab⟩
    · obtain ⟨b', hb', hR⟩ := forall₂_first hr a h
      exact ⟨b', List.mem_cons_of_mem _ hb', hR⟩

theorem forall₂_second {α β : Type} {R : α → β → Prop} : ∀ {l : List α} {m : List β}, List.Forall₂ R l m →
    ∀ b ∈ m, ∃ a ∈ l, R a b
  | _, _, .nil, b, h => by cases h
  | _, _, .cons (a := a) hab hr, b, h => by
    rcases List.mem_cons.1 h with rfl | h
    · exact ⟨a, by simp, hab⟩
    · obtain ⟨a', ha', hR⟩ := forall₂_second hr b h
      exact ⟨a', List.mem_cons_of_mem _ ha', hR⟩

/-- C150: every curve drawn by `check_interp_lines` is a part of the optical path of one of the sample pixels: ten points on the path, at
parameters between `-1/4` and `1/4`; all the sample pixels have their curve. -/
theorem C150_curves (files : Path → Option (List GridPoint)) (o : Obj) (number : ℕ) (fig : LinesFigure)
    (h : checkLines files o number = .ok fig) :
    ∃ L xs ys, o.lines = some L ∧ samples o.nbX number = .ok xs ∧ samples o.nbY number = .ok ys ∧
      fig.curves.length = xs.length * ys.length ∧
      (∀ x ∈ xs, ∀ y ∈ ys, ∀ c u, L ((x : ℝ), (y : ℝ)) = .ok (some (c, u)) → ∃ P, some P ∈ fig.curves ∧ P.length = 10 ∧ c ∈ P ∧
        ∀ r ∈ P, ∃ s : ℝ, |s| ≤ 1 / 4 ∧ r = c.add (u.smul s)) ∧
      ∀ P, some P ∈ fig.curves → ∃ x ∈ xs, ∃ y ∈ ys, ∃ c u, L ((x : ℝ), (y : ℝ)) = .ok (some (c, u)) ∧ ∀ r ∈ P, OnLine c u r := by
  cases hs : scatter files o.paths with
  | error e => simp only [checkLines, hs] at h; cases h
  | ok pts =>
  cases hx : samples o.nbX number with
  | error e => simp only [checkLines, hs, hx] at h; cases h
  | ok xs =>
  cases hy : samples o.nbY number with
  | error e => simp only [checkLines, hs, hx, hy] at h; cases h
  | ok ys =>
  cases hL : o.lines with
  | none => simp only [checkLines, hs, hx, hy, hL] at h; cases h
  | some L =>
  cases he : evalAll L (mesh xs ys) with
  | error e => simp only [checkLines, hs, hx, hy, hL, he] at h; cases h
  | ok ls =>
  simp only [checkLines, hs, hx, hy, hL, he] at h
  injection h with h
  subst h
  have hf := evalAll_ok L _ _ he
  refine ⟨L, xs, ys, rfl, rfl, rfl, ?_, ?_, ?_⟩
  · simp only [List.length_map]
    rw [← hf.length_eq, mesh_length, Nat.mul_comm]
  · intro x hxm y hym c u hl
    obtain ⟨l, hlm, hl'⟩ := forall₂_first hf (x, y) (mem_mesh.2 ⟨hxm, hym⟩)
    simp only at hl'
    rw [hl] at hl'
    injection hl' with hl'
    subst hl'
    refine ⟨DirectFiles.segment (c, u), List.mem_map.2 ⟨_, hlm, rfl⟩, by simp [DirectFiles.segment], ?_, ?_⟩
    · unfold DirectFiles.segment
      refine List.mem_map.2 ⟨5, by simp, ?_⟩
      ext <;> simp [V3.add, V3.smul]
    · intro r hr
      unfold DirectFiles.segment at hr
      obtain ⟨k, hk, rfl⟩ := List.mem_map.1 hr
      rw [List.mem_range] at hk
      refine ⟨((k : ℝ) - 5) / 20, ?_, rfl⟩
      have h1 : (k : ℝ) ≤ 9 := by exact_mod_cast Nat.le_of_lt_succ hk
      have h2 : (0 : ℝ) ≤ k := Nat.cast_nonneg k
      rw [abs_le]
      constructor <;> linarith
  · intro P hP
    obtain ⟨l, hlm, hlP⟩ := List.mem_map.1 hP
    obtain ⟨q, hq, hl⟩ := forall₂_second hf l hlm
    obtain ⟨hq1, hq2⟩ := mem_mesh.1 hq
    cases l with
    | none => simp at hlP
    | some l =>
      simp only [Option.map_some, Option.some.injEq] at hlP
      subst hlP
      refine ⟨q.1, hq1, q.2, hq2, l.1, l.2, hl, ?_⟩
      intro r hr
      unfold DirectFiles.segment at hr
      obtain ⟨k, _, rfl⟩ := List.mem_map.1 hr
      exact ⟨_, rfl⟩

/-- C150: the points drawn by `check_interp_lines` are those of the files, in metres, at the height of the first point of their file. -/
theorem C150_points (files : Path → Option (List GridPoint)) : ∀ (ps : List Path) (r : List (List V3)), scatter files ps = .ok r →
    List.Forall₂ (fun p P => ∃ q l, files p = some (q :: l) ∧ P = (q :: l).map fun s : GridPoint => (⟨s.X / 100, s.Y / 100, q.Z / 100⟩ : V3)) ps r
  | [], r, h => by
    simp only [scatter] at h
    injection h with h
    subst h
    exact .nil
  | p :: ps, r, h => by
    cases hf : files p with
    | none => simp only [scatter, hf] at h; cases h
    | some f =>
      cases f with
      | nil => simp only [scatter, hf, getPoints] at h; cases h
      | cons q l =>
        cases hr : scatter files ps with
        | error e => simp only [scatter, hf, getPoints, hr] at h; cases h
        | ok r' =>
          simp only [scatter, hf, getPoints, hr] at h
          injection h with h
          subst h
          refine .cons ⟨q, l, hf, ?_⟩ (C150_points files ps r' hr)
          have hz : ∀ m : List GridPoint, List.zipWith (fun x y => (⟨x, y, q.Z / 100⟩ : V3)) (m.map fun s => s.X / 100) (m.map fun s => s.Y / 100) =
              m.map fun s : GridPoint => (⟨s.X / 100, s.Y / 100, q.Z / 100⟩ : V3) := by
            intro m
            induction m with
            | nil => rfl
            | cons a m ih => simp only [List.map_cons, List.zipWith_cons_cons, ih]
          exact hz (q :: l)

/-- C150: the figures of the coefficients show, for each sample pixel, the path of this pixel and the length of its direction. -/
theorem C150_coeffs (o : Obj) (number : ℕ) (fig : CoeffsFigures) (h : checkCoeffs o number = .ok fig) :
    ∃ L xs ys, o.lines = some L ∧ samples o.nbX number = .ok xs ∧ samples o.nbY number = .ok ys ∧
      (∀ x y, (∃ v, ((x, y), v) ∈ fig) ↔ x ∈ xs ∧ y ∈ ys) ∧
      ∀ x y v, ((x, y), v) ∈ fig → (v = none ∧ L ((x : ℝ), (y : ℝ)) = .ok none) ∨
        ∃ c u, L ((x : ℝ), (y : ℝ)) = .ok (some (c, u)) ∧ v = some ((c, u), Real.sqrt (u.x ^ 2 + u.y ^ 2 + u.z ^ 2)) := by
  cases hx : samples o.nbX number with
  | error e => simp only [checkCoeffs, hx] at h; cases h
  | ok xs =>
  cases hy : samples o.nbY number with
  | error e => simp only [checkCoeffs, hx, hy] at h; cases h
  | ok ys =>
  cases hL : o.lines with
  | none => simp only [checkCoeffs, hx, hy, hL] at h; cases h
  | some L =>
  cases he : evalAll L (mesh xs ys) with
  | error e => simp only [checkCoeffs, hx, hy, hL, he] at h; cases h
  | ok ls =>
  simp only [checkCoeffs, hx, hy, hL, he] at h
  injection h with h
  subst h
  have hf := evalAll_ok L _ _ he
  have key : ∀ (qs : List (ℤ × ℤ)) (ls : List (Option (V3 × V3))), List.Forall₂ (fun q l => L ((q.1 : ℝ), (q.2 : ℝ)) = .ok l) qs ls →
      (∀ q, (∃ v, (q, v) ∈ qs.zip (ls.map (Option.map fun l => (l, l.2.norm)))) ↔ q ∈ qs) ∧
      ∀ q v, (q, v) ∈ qs.zip (ls.map (Option.map fun l => (l, l.2.norm))) →
        ∃ l, L ((q.1 : ℝ), (q.2 : ℝ)) = .ok l ∧ v = l.map fun l => (l, l.2.norm) := by
    intro qs ls hf
    induction hf with
    | nil => simp
    | @cons q l qs ls hq hr ih =>
      refine ⟨?_, ?_⟩
      · intro q'
        simp only [List.map_cons, List.zip_cons_cons, List.mem_cons, Prod.mk.injEq]
        constructor
        · rintro ⟨v, h | h⟩
          · exact Or.inl h.1
          · exact Or.inr ((ih.1 q').1 ⟨v, h⟩)
        · rintro (h | h)
          · exact ⟨_, Or.inl ⟨h, rfl⟩⟩
          · obtain ⟨v, hv⟩ := (ih.1 q').2 h
            exact ⟨v, Or.inr hv⟩
      · intro q' v hv
        simp only [List.map_cons, List.zip_cons_cons, List.mem_cons, Prod.mk.injEq] at hv
        rcases hv with ⟨rfl, rfl⟩ | hv
        · exact ⟨l, hq, rfl⟩
        · exact ih.2 q' v hv
  obtain ⟨k1, k2⟩ := key _ _ hf
  refine ⟨L, xs, ys, rfl, rfl, rfl, ?_, ?_⟩
  · intro x y
    rw [k1 (x, y), mem_mesh]
  · intro x y v hv
    obtain ⟨l, hl, rfl⟩ := k2 _ _ hv
    cases l with
    | none => exact Or.inl ⟨rfl, hl⟩
    | some l => exact Or.inr ⟨l.1, l.2, hl, rfl⟩

/-! ## Bounds -/

/-- A pixel in the image (borders included) is never out of the bounds of the interpolations. -/
theorem calibDirect_inside (g : GridData) (svd : Svd) (files : List (List GridPoint)) (nbX nbY linesX linesY : ℕ)
    (hX : 1 ≤ nbX) (hY : 1 ≤ nbY) (hlX : 2 ≤ linesX) (hlY : 2 ≤ linesY) (L : LinesFn)
    (hL : calibDirect g svd files nbX nbY linesX linesY = .ok L) (q : ℝ × ℝ) (h1 : 0 ≤ q.1) (h2 : q.1 ≤ nbX) (h3 : 0 ≤ q.2)
    (h4 : q.2 ≤ nbY) : ∃ l, L q = .ok l := by
  unfold calibDirect at hL
  split at hL
  · simp at hL
  split at hL
  · simp at hL
  simp only at hL
  split at hL
  · simp at hL
  rw [← Except.ok.inj hL]
  obtain ⟨xa, xb, e1, e2, _, hx1, hx2⟩ := cell_bounds (nodes nbX linesX) 0 nbX (nodes_sorted _ _) (zero_mem_nodes _ _ hlX)
    (last_mem_nodes _ _ hlX) (nodes_bounds _ _ hlX) (by omega) q.1 (by exact_mod_cast h1) (by exact_mod_cast h2)
  obtain ⟨ya, yb, e3, e4, _, hy1, hy2⟩ := cell_bounds (nodes nbY linesY) 0 nbY (nodes_sorted _ _) (zero_mem_nodes _ _ hlY)
    (last_mem_nodes _ _ hlY) (nodes_bounds _ _ hlY) (by omega) q.2 (by exact_mod_cast h3) (by exact_mod_cast h4)
  unfold interpLines
  rw [e1, e2, e3, e4]
  simp only
  rw [if_pos ⟨hx1, hx2, hy1, hy2⟩]
  split
  · exact ⟨_, rfl⟩
  · exact ⟨_, rfl⟩

/-- C150: the checks of a computed calibration succeed, for every `number` which is not larger than the numbers of pixels, if the files of
points still exist. -/
theorem C150_checks (o : Obj) (g : GridData) (svd : Svd) (fs : List (List GridPoint)) (linesX linesY : ℕ) (hlX : 2 ≤ linesX)
    (hlY : 2 ≤ linesY) (ho : MadeFrom o g svd fs linesX linesY) (number : ℕ) (h0 : 1 ≤ number) (hX : number ≤ o.nbX)
    (hY : number ≤ o.nbY) :
    (∃ fig, checkCoeffs o number = .ok fig) ∧
    ∀ files : Path → Option (List GridPoint), (∀ p ∈ o.paths, ∃ q l, files p = some (q :: l)) →
      ∃ fig, checkLines files o number = .ok fig := by
  obtain ⟨L, hL, hoL⟩ := ho
  obtain ⟨xs, hxs, bx, _⟩ := C150_samples o.nbX number h0 hX
  obtain ⟨ys, hys, by', _⟩ := C150_samples o.nbY number h0 hY
  obtain ⟨ls, hls⟩ := evalAll_of L (mesh xs ys) (by
    intro q hq
    obtain ⟨hq1, hq2⟩ := mem_mesh.1 hq
    refine calibDirect_inside g svd fs o.nbX o.nbY linesX linesY (by omega) (by omega) hlX hlY L hL _ ?_ ?_ ?_ ?_
    · show (0 : ℝ) ≤ (q.1 : ℝ); exact_mod_cast (bx _ hq1).1
    · show (q.1 : ℝ) ≤ (o.nbX : ℝ); exact_mod_cast (bx _ hq1).2.le
    · show (0 : ℝ) ≤ (q.2 : ℝ); exact_mod_cast (by' _ hq2).1
    · show (q.2 : ℝ) ≤ (o.nbY : ℝ); exact_mod_cast (by' _ hq2).2.le)
  refine ⟨?_, ?_⟩
  · simp only [checkCoeffs, hxs, hys, hoL, hls]
    exact ⟨_, rfl⟩
  intro files hfiles
  have hsc : ∀ ps : List Path, (∀ p ∈ ps, ∃ q l, files p = some (q :: l)) → ∃ r, scatter files ps = .ok r := by
    intro ps
    induction ps with
    | nil => exact fun _ => ⟨[], rfl⟩
    | cons p ps ih =>
      intro hp
      obtain ⟨q, l, hq⟩ := hp p (by simp)
      obtain ⟨r, hr⟩ := ih fun p' hp' => hp p' (List.mem_cons_of_mem _ hp')
      simp only [scatter, hq, getPoints, hr]
      exact ⟨_, rfl⟩
  obtain ⟨pts, hpts⟩ := hsc o.paths hfiles
  simp only [checkLines, hpts, hxs, hys, hoL, hls]
  exact ⟨_, rfl⟩

theorem mem_middle (n : ℕ) (x : ℤ) : x ∈ middle n ↔ ((n / 2 : ℕ) : ℤ) - 20 ≤ x ∧ x < ((n / 2 : ℕ) : ℤ) + 20 := by
  unfold middle
  rw [mem_pyRange_iff _ _ _ _ (by omega)]
  constructor
  · rintro ⟨i, rfl, h, _⟩
    have := h (by omega)
    omega
  · rintro ⟨h1, h2⟩
    exact ⟨(x - (((n / 2 : ℕ) : ℤ) - 20)).toNat, by omega, fun _ => h2, fun h => by omega⟩

theorem evalAll_error (L : LinesFn) : ∀ (qs : List (ℤ × ℤ)),
    (∀ q ∈ qs, (∃ l, L ((q.1 : ℝ), (q.2 : ℝ)) = .ok l) ∨ L ((q.1 : ℝ), (q.2 : ℝ)) = .error .valueError) →
    (∃ q ∈ qs, L ((q.1 : ℝ), (q.2 : ℝ)) = .error .valueError) → evalAll L qs = .error .valueError
  | [], _, h => by obtain ⟨q, hq, _⟩ := h; cases hq
  | q :: qs, ha, h => by
    rcases ha q (by simp) with ⟨l, hl⟩ | hl
    · have hr : evalAll L qs = .error .valueError := by
        refine evalAll_error L qs (fun q' hq' => ha q' (List.mem_cons_of_mem _ hq')) ?_
        obtain ⟨q', hq', he⟩ := h
        rcases List.mem_cons.1 hq' with rfl | hq'
        · rw [hl] at he; cases he
        · exact ⟨q', hq', he⟩
      simp only [evalAll, hl, hr]
    · simp only [evalAll, hl, ofErr]

/-- C150: for an image with at least 40 pixels in the two directions, the base of the plane of the camera is computed with the directions
of the paths of the pixels of the square of 40 pixels in the middle of the image. -/
theorem C150_plane (o : Obj) (g : GridData) (svd : Svd) (fs : List (List GridPoint)) (linesX linesY : ℕ) (hlX : 2 ≤ linesX)
    (hlY : 2 ≤ linesY) (ho : MadeFrom o g svd fs linesX linesY) (hX : 40 ≤ o.nbX) (hY : 40 ≤ o.nbY) :
    ∃ L, ∃ ls : List (Option (V3 × V3)), o.lines = some L ∧ ls.length = 1600 ∧
      (∀ l, l ∈ ls ↔ ∃ x y : ℤ, ((o.nbX / 2 : ℕ) : ℤ) - 20 ≤ x ∧ x < ((o.nbX / 2 : ℕ) : ℤ) + 20 ∧
        ((o.nbY / 2 : ℕ) : ℤ) - 20 ≤ y ∧ y < ((o.nbY / 2 : ℕ) : ℤ) + 20 ∧ L ((x : ℝ), (y : ℝ)) = .ok l) ∧
      ∀ b, baseCamera (ls.map (Option.map Prod.snd)) = .ok b → basePlane o = .ok b := by
  obtain ⟨L, hL, hoL⟩ := ho
  have hin : ∀ (n : ℕ), 40 ≤ n → ∀ x ∈ middle n, 0 ≤ x ∧ x ≤ n := by
    intro n hn x hx
    rw [mem_middle] at hx
    omega
  obtain ⟨ls, hls⟩ := evalAll_of L (mesh (middle o.nbX) (middle o.nbY)) (by
    intro q hq
    obtain ⟨hq1, hq2⟩ := mem_mesh.1 hq
    refine calibDirect_inside g svd fs o.nbX o.nbY linesX linesY (by omega) (by omega) hlX hlY L hL _ ?_ ?_ ?_ ?_
    · show (0 : ℝ) ≤ (q.1 : ℝ); exact_mod_cast (hin _ hX _ hq1).1
    · show (q.1 : ℝ) ≤ (o.nbX : ℝ); exact_mod_cast (hin _ hX _ hq1).2
    · show (0 : ℝ) ≤ (q.2 : ℝ); exact_mod_cast (hin _ hY _ hq2).1
    · show (q.2 : ℝ) ≤ (o.nbY : ℝ); exact_mod_cast (hin _ hY _ hq2).2)
  have hf := evalAll_ok L _ _ hls
  have hlen : ∀ n, (middle n).length = 40 := by
    intro n
    unfold middle pyRange rangeLen
    rw [List.length_map, List.length_range, if_pos (by omega), if_pos (by omega)]
    omega
  refine ⟨L, ls, hoL, ?_, ?_, ?_⟩
  · rw [← hf.length_eq, mesh_length, hlen, hlen]
  · intro l
    constructor
    · intro hl
      obtain ⟨q, hq, he⟩ := forall₂_second hf l hl
      obtain ⟨hq1, hq2⟩ := mem_mesh.1 hq
      rw [mem_middle] at hq1 hq2
      exact ⟨q.1, q.2, hq1.1, hq1.2, hq2.1, hq2.2, he⟩
    · rintro ⟨x, y, h1, h2, h3, h4, he⟩
      obtain ⟨l', hl', he'⟩ := forall₂_first hf (x, y) (mem_mesh.2 ⟨(mem_middle _ _).2 ⟨h1, h2⟩, (mem_middle _ _).2 ⟨h3, h4⟩⟩)
      simp only at he'
      rw [he] at he'
      injection he' with he'
      rw [he']; exact hl'
  · intro b hb
    simp only [basePlane, hoL, hls, hb]

/-- C150 fails for the images with less than 40 pixels in a direction: the base of the plane of the camera, which the reconstruction
needs, is a `ValueError`. -/
theorem C150_small_image_fails (o : Obj) (g : GridData) (svd : Svd) (fs : List (List GridPoint)) (linesX linesY : ℕ)
    (hlX : 2 ≤ linesX) (hlY : 2 ≤ linesY) (ho : MadeFrom o g svd fs linesX linesY) (h1X : 1 ≤ o.nbX) (h1Y : 1 ≤ o.nbY)
    (h : o.nbX < 40 ∨ o.nbY < 40) : basePlane o = .error .valueError := by
  obtain ⟨L, hL, hoL⟩ := ho
  have hout := (C105_errors g svd o.nbX o.nbY linesX linesY hlX hlY).2.2 fs L hL
  have he : evalAll L (mesh (middle o.nbX) (middle o.nbY)) = .error .valueError := by
    apply evalAll_error
    · intro q _
      by_cases hq : ((q.1 : ℝ) < 0 ∨ (o.nbX : ℝ) < q.1 ∨ (q.2 : ℝ) < 0 ∨ (o.nbY : ℝ) < q.2)
      · exact Or.inr (hout _ hq)
      · simp only [not_or, not_lt] at hq
        exact Or.inl (calibDirect_inside g svd fs o.nbX o.nbY linesX linesY h1X h1Y hlX hlY L hL _ hq.1 hq.2.1 hq.2.2.1 hq.2.2.2)
    · refine ⟨(((o.nbX / 2 : ℕ) : ℤ) - 20, ((o.nbY / 2 : ℕ) : ℤ) - 20), ?_, ?_⟩
      · rw [mem_mesh, mem_middle, mem_middle]
        simp only
        omega
      · apply hout
        rcases h with h | h
        · left
          have : ((o.nbX / 2 : ℕ) : ℤ) - 20 < 0 := by omega
          exact Int.cast_lt_zero.2 this
        · right; right; left
          have : ((o.nbY / 2 : ℕ) : ℤ) - 20 < 0 := by omega
          exact Int.cast_lt_zero.2 this
  simp only [basePlane, hoL, he]

/-- C150: the figures of the levels show, for each file and each sample pixel, the coordinates interpolated from the points of the
file. -/
theorem C150_levels (g : GridData) (o : Obj) (number : ℕ) (h0 : 1 ≤ number) (hX : number ≤ o.nbX) (hY : number ≤ o.nbY)
    (ls : List Level) (hl : o.levels = some ls) :
    ∃ fig xs ys, checkLevels g o number = .ok fig ∧ samples o.nbX number = .ok xs ∧ samples o.nbY number = .ok ys ∧
      List.Forall₂ (fun (l : Level) f => ∀ x y X Y, ((x, y), (X, Y)) ∈ f ↔ x ∈ xs ∧ y ∈ ys ∧ X = g l.pix l.X ((x : ℝ), (y : ℝ)) ∧
        Y = g l.pix l.Y ((x : ℝ), (y : ℝ))) ls fig := by
  obtain ⟨xs, hxs, _⟩ := C150_samples o.nbX number h0 hX
  obtain ⟨ys, hys, _⟩ := C150_samples o.nbY number h0 hY
  simp only [checkLevels, hl, hxs, hys]
  refine ⟨_, xs, ys, rfl, rfl, rfl, ?_⟩
  rw [List.forall₂_map_right_iff]
  refine List.forall₂_same.2 ?_
  intro l _ x y X Y
  rw [List.mem_map]
  constructor
  · rintro ⟨q, hq, e⟩
    obtain ⟨hq1, hq2⟩ := mem_mesh.1 hq
    rw [Prod.mk.injEq] at e
    obtain ⟨rfl, e⟩ := e
    unfold Level.at at e
    rw [Prod.mk.injEq] at e
    exact ⟨hq1, hq2, e.1.symm, e.2.symm⟩
  · rintro ⟨h1, h2, rfl, rfl⟩
    exact ⟨(x, y), mem_mesh.2 ⟨h1, h2⟩, rfl⟩

/-! ## Non-vacuity -/

/-- A calibration can be computed with the two files of the example, whatever the size of the image. -/
theorem exists_made (svd : Svd) (nbX nbY linesX linesY : ℕ) (hlX : 2 ≤ linesX) (hlY : 2 ≤ linesY) :
    ∃ L, calibDirect exactInterp svd [exFile 0, exFile 1] nbX nbY linesX linesY = .ok L := by
  have hp : ∃ l, pixel2line exactInterp svd [⟨(exFile 0).map fun q => q.X / 100, (exFile 0).map fun q => q.Y / 100, 100 * 0 / 100,
      (exFile 0).map fun q => (q.x, q.y)⟩, ⟨(exFile 1).map fun q => q.X / 100, (exFile 1).map fun q => q.Y / 100, 100 * 1 / 100,
      (exFile 1).map fun q => (q.x, q.y)⟩] (((0 : ℤ) : ℝ), ((0 : ℤ) : ℝ)) = some l := by
    simp [pixel2line, Level.at, exactInterp, exFile, nanmean, centred]
  obtain ⟨l, hl⟩ := hp
  have hmem : (((((0 : ℤ) : ℝ), ((0 : ℤ) : ℝ)), l) : (ℝ × ℝ) × (V3 × V3)) ∈ goodNodes exactInterp svd
      [⟨(exFile 0).map fun q => q.X / 100, (exFile 0).map fun q => q.Y / 100, 100 * 0 / 100,
      (exFile 0).map fun q => (q.x, q.y)⟩, ⟨(exFile 1).map fun q => q.X / 100, (exFile 1).map fun q => q.Y / 100, 100 * 1 / 100,
      (exFile 1).map fun q => (q.x, q.y)⟩] (nodes nbX linesX) (nodes nbY linesY) := by
    unfold goodNodes
    refine List.mem_flatMap.2 ⟨0, zero_mem_nodes _ _ hlX, List.mem_filterMap.2 ⟨0, zero_mem_nodes _ _ hlY, ?_⟩⟩
    rw [hl]
    rfl
  have hr : readLevels [exFile 0, exFile 1] = .ok [⟨(exFile 0).map fun q => q.X / 100, (exFile 0).map fun q => q.Y / 100, 100 * 0 / 100,
      (exFile 0).map fun q => (q.x, q.y)⟩, ⟨(exFile 1).map fun q => q.X / 100, (exFile 1).map fun q => q.Y / 100, 100 * 1 / 100,
      (exFile 1).map fun q => (q.x, q.y)⟩] := rfl
  unfold calibDirect
  simp only
  rw [hr]
  simp only
  split
  · next h => rw [h] at hmem; cases hmem
  · exact ⟨_, rfl⟩

/-- Hypotheses of `C150_checks` and `C150_plane` (with 60 times 50 pixels) and of `C150_small_image_fails` (with 30 times 50 pixels). -/
example (svd : Svd) : (∃ o : Obj, MadeFrom o exactInterp svd [exFile 0, exFile 1] 5 5 ∧ o.nbX = 60 ∧ o.nbY = 50) ∧
    ∃ o : Obj, MadeFrom o exactInterp svd [exFile 0, exFile 1] 5 5 ∧ o.nbX = 30 ∧ o.nbY = 50 := by
  obtain ⟨L, hL⟩ := exists_made svd 60 50 5 5 (by omega) (by omega)
  obtain ⟨L', hL'⟩ := exists_made svd 30 50 5 5 (by omega) (by omega)
  exact ⟨⟨⟨[], 60, 50, none, some L⟩, ⟨L, hL, rfl⟩, rfl, rfl⟩, ⟨⟨[], 30, 50, none, some L'⟩, ⟨L', hL', rfl⟩, rfl, rfl⟩⟩

/-- The pixels of the checks: 3 or more for 10 pixels. -/
example : samples 10 3 = .ok [0, 3, 6, 9] ∧ samples 10 100 = .error .valueError ∧ samples 10 0 = .error .zeroDivisionError := by
  decide

/-- Two names, with and without the extension. -/
example : savezName "calib.npz".toList = "calib.npz".toList ∧ savezName "calib".toList = "calib.npz".toList := by decide

end Verif
