import Verif.Model.Viewer
import Verif.Props.PivResults
import Mathlib.Tactic.Linarith

/-!
# Viewers of images and of vector fields (C100, C101)
-/

namespace Verif
open Verif.Viewer

section images
variable {α τ : Type}

/-! ## Specification -/

/-- What the events mean for the user: position in the list of the files (not reduced), number `n` and direction of the
next switch. -/
def wanted (T : Texts τ) : Ev τ → Int × Int × Bool → Int × Int × Bool
  | .minusN, (i, n, b) => (i - n, n, b)
  | .minusOne, (i, n, b) => (i - 1, n, b)
  | .plusOne, (i, n, b) => (i + 1, n, b)
  | .plusN, (i, n, b) => (i + n, n, b)
  | .setN t, (i, n, b) =>
    match T.value t with
    | .int k => (i, k, b)
    | _ => (i, n, b)
  | .switch, (i, n, b) => if b then (i - n, n, false) else (i + n, n, true)
  | _, w => w

/-- ... after a list of events, from the file `i`. -/
def wantedAll (T : Texts τ) (i : Nat) (evs : List (Ev τ)) : Int × Int × Bool :=
  evs.foldl (fun w ev => wanted T ev w) ((i : Int), 1, false)

/-- The events for which the viewer is right: no reload, and the numbers `n` are integers between 1 and the number of files
minus 1. -/
def FairEvent (T : Texts τ) (nb : Nat) : Ev τ → Prop
  | .reload => False
  | .setN t => ∃ k : Int, T.value t = .int k ∧ 0 < k ∧ k < nb
  | _ => True

/-- Histories in which the files do not change and can be read. -/
def Fair (T : Texts τ) (nb : Nat) (img : Nat → Img α) (h : List (Disk α × Ev τ)) : Prop :=
  ∀ e ∈ h, (∀ i, i < nb → e.1 i = .ok (img i)) ∧ FairEvent T nb e.2

/-! ## Lemmas -/

theorem filter_single {β : Type} {p : β → Bool} {l : List β} {c : Nat} {x : β} (hx : l[c]? = some x)
    (h : ∀ (k : Nat) (d : β), l[k]? = some d → (p d = true ↔ k = c)) : l.filter p = [x] := by
  induction l generalizing c with
  | nil => simp at hx
  | cons a l ih =>
    cases c with
    | zero =>
      simp only [List.getElem?_cons_zero, Option.some.injEq] at hx
      subst hx
      rw [List.filter_cons_of_pos ((h 0 a rfl).2 rfl)]
      congr 1
      rw [List.filter_eq_nil_iff]
      intro d hd hp
      obtain ⟨k, hk⟩ := List.getElem?_of_mem hd
      have := (h (k + 1) d (by simpa using hk)).1 hp
      omega
    | succ c =>
      have h0 : ¬ p a = true := fun hp => by have := (h 0 a rfl).1 hp; omega
      rw [List.filter_cons_of_neg h0]
      refine ih (c := c) (by simpa using hx) ?_
      intro k d hk
      have := h (k + 1) d (by simpa using hk)
      rw [this]
      omega

theorem modify_get (k j : Nat) (f : Drawn α → Drawn α) (l : List (Drawn α)) :
    (modifyDrawn k f l)[j]? = if k = j then (l[j]?).map f else l[j]? := by
  unfold modifyDrawn
  split
  · rename_i h
    split
    · rename_i e; subst e; rw [h]; rfl
    · rfl
  · rename_i d h
    rw [List.getElem?_set]
    split
    · rename_i e
      subst e
      have := (List.getElem?_eq_some_iff.1 h).1
      rw [if_pos this, h]; rfl
    · rfl

theorem modify_length (k : Nat) (f : Drawn α → Drawn α) (l : List (Drawn α)) : (modifyDrawn k f l).length = l.length := by
  unfold modifyDrawn
  split <;> simp

/-- The state of a viewer which is right: the file `i` is shown. -/
structure ViewInv (nb : Nat) (img : Nat → Img α) (i : Nat) (m : Int) (b : Bool) (s : View α τ) : Prop where
  nbEq : s.nb = nb
  ifile : s.ifile = some (i : Int)
  lt : i < nb
  title : s.title = i
  changing : s.changing = false
  n : s.n = .int m
  mpos : 0 < m ∧ m < nb
  lastInc : s.lastInc = b
  maps : ∀ f k, mapsGet f s.maps = some k → f < nb ∧ ∃ d, s.drawn[k]? = some d ∧ d.img = img f
  inj : ∀ f g k, mapsGet f s.maps = some k → mapsGet g s.maps = some k → f = g
  cur : mapsGet i s.maps = some s.cur
  visible : ∀ (k : Nat) (d : Drawn α), s.drawn[k]? = some d → (d.visible = true ↔ k = s.cur)

theorem ViewInv.shown {nb : Nat} {img : Nat → Img α} {i : Nat} {m : Int} {b : Bool} {s : View α τ}
    (h : ViewInv nb img i m b s) : ∃ d, s.shown = some d ∧ s.drawn[s.cur]? = some d ∧ d.img = img i ∧
      (s.drawn.filter (·.visible)).length = 1 := by
  obtain ⟨_, d, hd, himg⟩ := h.maps _ _ h.cur
  have := filter_single hd h.visible
  exact ⟨d, by rw [View.shown, this]; rfl, hd, himg, by rw [this]; rfl⟩

/-- A change of image; what it does to the limits is also given. -/
theorem ViewInv.move {nb : Nat} {img : Nat → Img α} {i : Nat} {m : Int} {b : Bool} {s : View α τ}
    (h : ViewInv nb img i m b s) (disk : Disk α) (hdisk : ∀ i, i < nb → disk i = .ok (img i)) (k : Int)
    (hk : k % (nb : Int) ≠ 0) :
    ∃ s', move disk (.int k) s = (s', none) ∧ ViewInv nb img (((i : Int) + k) % nb).toNat m b s' ∧ s'.clim = s.clim ∧
      (∃ d, s'.drawn[s'.cur]? = some d ∧ d.clim = s.clim) ∧ s'.boxMin = s.boxMin ∧ s'.boxMax = s.boxMax := by
  have hnb : (0 : Int) < nb := by have := h.lt; omega
  have hpos : 0 ≤ ((i : Int) + k) % nb := Int.emod_nonneg _ (by omega)
  have hltj : ((i : Int) + k) % nb < nb := Int.emod_lt_of_pos _ hnb
  generalize hj : (((i : Int) + k) % nb).toNat = j
  have hj' : ((i : Int) + k) % nb = (j : Int) := by omega
  have hne : j ≠ i := by
    intro e
    apply hk
    have h1 : ((i : Int) + k) % nb = (i : Int) % nb := by
      rw [hj', e, Int.emod_eq_of_lt (by omega) (by have := h.lt; omega)]
    have := Int.emod_emod_of_dvd ((i : Int) + k - i) (dvd_refl (nb : Int))
    have h2 : ((i : Int) + k - i) % nb = 0 := by
      rw [Int.sub_emod, h1, Int.sub_self, Int.zero_emod]
    simpa using h2
  have hmove : Viewer.move disk (.int k) s = changeIm disk { s with ifile := some ((i : Int) + k) } := by
    simp [Viewer.move, h.ifile]
  rw [hmove]
  unfold changeIm
  simp only [Option.map_some, h.nbEq, hj', h.changing, Bool.false_eq_true, if_false, Int.toNat_natCast]
  cases hm : mapsGet j s.maps with
  | some k' =>
    obtain ⟨hjlt, d, hd, himg⟩ := h.maps _ _ hm
    have hkc : k' ≠ s.cur := fun e => hne (h.inj j i s.cur (by rw [hm, e]) h.cur)
    refine ⟨_, rfl, ⟨rfl, rfl, hjlt, rfl, rfl, h.n, h.mpos, h.lastInc, ?_, h.inj, hm, ?_⟩, rfl, ?_, rfl, rfl⟩
    · intro f k2 hf
      obtain ⟨h1, d2, hd2, himg2⟩ := h.maps f k2 hf
      refine ⟨h1, ?_⟩
      simp only [modify_get]
      rw [hd2]
      split <;> split <;> exact ⟨_, rfl, himg2⟩
    · intro k2 d2 hd2
      simp only [modify_get] at hd2
      split at hd2
      · rename_i e
        subst e
        rw [if_neg hkc] at hd2
        cases hx : s.drawn[s.cur]? with
        | none => rw [hx] at hd2; cases hd2
        | some x =>
          rw [hx] at hd2
          cases hd2
          simp only [Bool.false_eq_true, false_iff]
          exact fun e => hkc e.symm
      · rename_i e
        split at hd2
        · rename_i e2
          subst e2
          rw [hd] at hd2
          cases hd2
          simp
        · rename_i e2
          rw [h.visible k2 d2 hd2]
          exact ⟨fun e' => absurd e'.symm e, fun e' => absurd e'.symm e2⟩
    · simp only [modify_get]
      rw [if_neg (fun e => hkc e.symm), if_pos trivial, hd]
      exact ⟨_, rfl, rfl⟩
  | none =>
    have hjlt : j < nb := by omega
    simp only [loadim, hdisk j hjlt]
    have hcl : s.cur < s.drawn.length := by
      obtain ⟨_, d, hd, _⟩ := h.maps _ _ h.cur
      exact (List.getElem?_eq_some_iff.1 hd).1
    refine ⟨_, rfl, ⟨rfl, rfl, hjlt, rfl, rfl, h.n, h.mpos, h.lastInc, ?_, ?_, ?_, ?_⟩, rfl, ?_, rfl, rfl⟩
    · intro f k2 hf
      simp only [mapsGet] at hf
      split at hf
      · rename_i e
        subst e
        simp only [Option.some.injEq] at hf
        subst hf
        refine ⟨hjlt, ?_⟩
        simp only [modify_get]
        rw [if_neg (by omega), List.getElem?_concat_length]
        exact ⟨_, rfl, rfl⟩
      · obtain ⟨h1, d2, hd2, himg2⟩ := h.maps f k2 hf
        refine ⟨h1, ?_⟩
        simp only [modify_get]
        rw [List.getElem?_append_left (List.getElem?_eq_some_iff.1 hd2).1, hd2]
        split <;> exact ⟨_, rfl, himg2⟩
    · intro f g k2 hf hg
      have hlt : ∀ f k2, mapsGet f s.maps = some k2 → k2 < s.drawn.length := by
        intro f k2 hf
        obtain ⟨_, d2, hd2, _⟩ := h.maps f k2 hf
        exact (List.getElem?_eq_some_iff.1 hd2).1
      simp only [mapsGet] at hf hg
      split at hf <;> split at hg
      · rename_i e1 e2; rw [← e1, ← e2]
      · cases hf; have := hlt _ _ hg; omega
      · cases hg; have := hlt _ _ hf; omega
      · exact h.inj f g k2 hf hg
    · simp [mapsGet]
    · intro k2 d2 hd2
      simp only [modify_get] at hd2
      rcases Nat.lt_trichotomy k2 s.drawn.length with hlt | heq | hgt
      · rw [List.getElem?_append_left hlt] at hd2
        split at hd2
        · cases hx : s.drawn[k2]? with
          | none => rw [hx] at hd2; cases hd2
          | some x =>
            rw [hx] at hd2
            cases hd2
            simp only [Bool.false_eq_true, false_iff]
            omega
        · rename_i e
          rw [h.visible k2 d2 hd2]
          refine ⟨fun e' => absurd e'.symm e, fun e' => ?_⟩
          simp only at e'
          omega
      · subst heq
        rw [if_neg (by omega), List.getElem?_concat_length] at hd2
        cases hd2
        simp
      · rw [List.getElem?_eq_none (by simp; omega)] at hd2
        split at hd2 <;> cases hd2
    · simp only [modify_get]
      rw [if_neg (by omega), List.getElem?_concat_length]
      exact ⟨_, rfl, rfl⟩

theorem ViewInv.updateClim [DecidableEq τ] {nb : Nat} {img : Nat → Img α} {i : Nat} {m : Int} {b : Bool} {s : View α τ}
    (h : ViewInv nb img i m b s) (T : Texts τ) : ViewInv nb img i m b (updateClim T s) := by
  refine ⟨h.nbEq, h.ifile, h.lt, h.title, h.changing, h.n, h.mpos, h.lastInc, ?_, h.inj, h.cur, ?_⟩
  · intro f k hf
    obtain ⟨h1, d, hd, himg⟩ := h.maps f k hf
    refine ⟨h1, ?_⟩
    simp only [Viewer.updateClim, modify_get]
    rw [hd]
    split <;> exact ⟨_, rfl, himg⟩
  · intro k d hd
    simp only [Viewer.updateClim, modify_get] at hd ⊢
    split at hd
    · cases hx : s.drawn[k]? with
      | none => rw [hx] at hd; cases hd
      | some x =>
        rw [hx] at hd
        cases hd
        exact h.visible k x hx
    · exact h.visible k d hd

theorem ViewInv.clim {nb : Nat} {img : Nat → Img α} {i : Nat} {m : Int} {b : Bool} {s : View α τ}
    (h : ViewInv nb img i m b s) (c : ℚ × ℚ) (t t' : τ) :
    ViewInv nb img i m b { s with clim := c, boxMin := t, boxMax := t' } :=
  ⟨h.nbEq, h.ifile, h.lt, h.title, h.changing, h.n, h.mpos, h.lastInc, h.maps, h.inj, h.cur, h.visible⟩

theorem wanted_emod {T : Texts τ} {ev : Ev τ} {i n : Int} {b : Bool} {nb : Nat} (_h : 0 < nb) :
    (wanted T ev ((i % nb), n, b)).1 % nb = (wanted T ev (i, n, b)).1 % nb ∧
    (wanted T ev ((i % nb), n, b)).2 = (wanted T ev (i, n, b)).2 := by
  cases ev <;> simp only [wanted, Int.emod_sub_emod, Int.emod_add_emod, Int.emod_emod, and_self]
  · split <;> simp
  · split <;> simp

/-- One event. -/
theorem ViewInv.handle [DecidableEq τ] {T : Texts τ} {nb : Nat} {img : Nat → Img α} {i : Nat} {m : Int} {b : Bool}
    {s : View α τ} (h : ViewInv nb img i m b s) (disk : Disk α) (hdisk : ∀ i, i < nb → disk i = .ok (img i)) (ev : Ev τ)
    (hev : FairEvent T nb ev) (hnb : 2 ≤ nb) :
    ViewInv nb img ((wanted T ev ((i : Int), m, b)).1 % nb).toNat (wanted T ev ((i : Int), m, b)).2.1
      (wanted T ev ((i : Int), m, b)).2.2 (handle T disk s ev) := by
  have hi : ((i : Int) % nb).toNat = i := by
    rw [Int.emod_eq_of_lt (by omega) (by have := h.lt; omega)]; simp
  have h1 : (1 : Int) % (nb : Int) ≠ 0 := by rw [Int.emod_eq_of_lt (by omega) (by omega)]; omega
  have hneg : ∀ k : Int, k % (nb : Int) ≠ 0 → (-k) % (nb : Int) ≠ 0 := by
    intro k hk e
    apply hk
    have := Int.dvd_of_emod_eq_zero e
    exact Int.emod_eq_zero_of_dvd (by simpa using this)
  have hm : m % (nb : Int) ≠ 0 := by
    have := h.mpos
    rw [Int.emod_eq_of_lt (by omega) (by omega)]; omega
  cases ev with
  | minusN =>
    obtain ⟨s', e, hs', _⟩ := h.move disk hdisk (-m) (hneg m hm)
    simp only [Viewer.handle, h.n, Value.neg, e, wanted]
    exact hs'
  | minusOne =>
    obtain ⟨s', e, hs', _⟩ := h.move disk hdisk (-1) (hneg 1 h1)
    simp only [Viewer.handle, e, wanted]
    exact hs'
  | plusOne =>
    obtain ⟨s', e, hs', _⟩ := h.move disk hdisk 1 h1
    simp only [Viewer.handle, e, wanted]
    exact hs'
  | plusN =>
    obtain ⟨s', e, hs', _⟩ := h.move disk hdisk m hm
    simp only [Viewer.handle, h.n, e, wanted]
    exact hs'
  | setN t =>
    obtain ⟨k, hk, hk1, hk2⟩ := hev
    simp only [Viewer.handle, hk, wanted, hi]
    exact ⟨h.nbEq, h.ifile, h.lt, h.title, h.changing, rfl, ⟨hk1, hk2⟩, h.lastInc, h.maps, h.inj, h.cur, h.visible⟩
  | switch =>
    simp only [Viewer.handle, h.n, h.lastInc, wanted]
    cases b with
    | false =>
      obtain ⟨s', e, hs', _⟩ := h.move disk hdisk m hm
      simp only [Bool.false_eq_true, if_false, e, Bool.not_false]
      exact ⟨hs'.nbEq, hs'.ifile, hs'.lt, hs'.title, hs'.changing, hs'.n, hs'.mpos, rfl, hs'.maps, hs'.inj, hs'.cur,
        hs'.visible⟩
    | true =>
      obtain ⟨s', e, hs', _⟩ := h.move disk hdisk (-m) (hneg m hm)
      simp only [if_true, Value.neg, e, Bool.not_true]
      exact ⟨hs'.nbEq, hs'.ifile, hs'.lt, hs'.title, hs'.changing, hs'.n, hs'.mpos, rfl, hs'.maps, hs'.inj, hs'.cur,
        hs'.visible⟩
  | reload => exact absurd hev id
  | auto =>
    simp only [Viewer.handle, h.ifile, Int.toNat_natCast, hdisk i h.lt, wanted, hi]
    rw [← h.ifile]
    exact (h.clim _ s.boxMin s.boxMax).updateClim T
  | cmax t =>
    simp only [Viewer.handle, wanted, hi]
    split
    · exact h.clim s.clim s.boxMin t
    · split
      · exact h.clim s.clim s.boxMin t
      · exact (h.clim _ s.boxMin t).updateClim T
  | cmin t =>
    simp only [Viewer.handle, wanted, hi]
    split
    · exact h.clim s.clim t s.boxMax
    · split
      · exact h.clim s.clim t s.boxMax
      · exact (h.clim _ t s.boxMax).updateClim T

theorem ViewInv.init (T : Texts τ) (nb i : Nat) (img : Nat → Img α) (hnb : 2 ≤ nb) (hi : i < nb) :
    ViewInv nb img i 1 false (View.init T nb i (img i)) := by
  refine ⟨rfl, rfl, hi, rfl, rfl, rfl, ⟨by omega, by omega⟩, rfl, ?_, ?_, by simp [View.init, mapsGet], ?_⟩
  · intro f k hf
    simp only [View.init, mapsGet] at hf
    split at hf
    · rename_i e
      cases hf
      subst e
      exact ⟨hi, _, rfl, rfl⟩
    · cases hf
  · intro f g k hf hg
    simp only [View.init, mapsGet] at hf hg
    split at hf
    · split at hg
      · rename_i e1 e2; rw [← e1, ← e2]
      · cases hg
    · cases hf
  · intro k d hd
    cases k with
    | zero => cases hd; simp [View.init]
    | succ k => simp [View.init] at hd

/-- The invariant after a history, with the expected position. -/
theorem ViewInv.history [DecidableEq τ] {T : Texts τ} {nb : Nat} {img : Nat → Img α} (hnb : 2 ≤ nb) :
    ∀ (hs : List (Disk α × Ev τ)) {s : View α τ} {w : Int × Int × Bool},
      ViewInv nb img (w.1 % nb).toNat w.2.1 w.2.2 s → Fair T nb img hs →
      ViewInv nb img (((hs.map Prod.snd).foldl (fun w ev => wanted T ev w) w).1 % nb).toNat
        ((hs.map Prod.snd).foldl (fun w ev => wanted T ev w) w).2.1
        ((hs.map Prod.snd).foldl (fun w ev => wanted T ev w) w).2.2 (history T hs s)
  | [], _, _, h, _ => h
  | (disk, ev) :: hs, s, w, h, hf => by
    have hh := hf (disk, ev) (by simp)
    have h1 := h.handle (T := T) disk hh.1 ev hh.2 hnb
    have hcast : (((w.1 % (nb : Int)).toNat : Nat) : Int) = w.1 % nb :=
      Int.toNat_of_nonneg (Int.emod_nonneg _ (by omega))
    rw [hcast] at h1
    obtain ⟨e1, e2⟩ := wanted_emod (T := T) (ev := ev) (i := w.1) (n := w.2.1) (b := w.2.2) (nb := nb) (by omega)
    rw [e1, e2] at h1
    exact ViewInv.history hnb hs h1 (fun e he => hf e (List.mem_cons_of_mem _ he))

/-! ## Theorems -/

/-- C100: whatever the user does (with at least two files which can be read and do not change, numbers `n` between 1 and the
number of files minus 1, and no reload), exactly one image is visible, it is the image of the file whose name is the title, and
this file is the one which the user has asked for: the position moves by the requested numbers, modulo the number of
files, and two switches are a return. -/
theorem C100_shown_partial [DecidableEq τ] (T : Texts τ) (nb i : Nat) (img : Nat → Img α) (hnb : 2 ≤ nb) (hi : i < nb)
    (h : List (Disk α × Ev τ)) (hf : Fair T nb img h) :
    let s := history T h (View.init T nb i (img i))
    s.title = ((wantedAll T i (h.map Prod.snd)).1 % nb).toNat ∧ (s.drawn.filter (·.visible)).length = 1 ∧
    ∃ d, s.shown = some d ∧ d.img = img s.title := by
  have h0 : ViewInv nb img (((i : Int), (1 : Int), false).1 % (nb : Int)).toNat 1 false (View.init T nb i (img i)) := by
    rw [show ((((i : Int), (1 : Int), false).1) % (nb : Int)).toNat = i by
      rw [Int.emod_eq_of_lt (by omega) (by omega)]; simp]
    exact ViewInv.init T nb i img hnb hi
  have := ViewInv.history (T := T) hnb h (w := ((i : Int), (1 : Int), false)) h0 hf
  obtain ⟨d, h1, _, h3, h4⟩ := this.shown
  refine ⟨this.title, h4, d, h1, ?_⟩
  rw [this.title]
  exact h3

/-- The limits which the user has asked for: `auto` gives those of the image at the current position. -/
def wantedClim (T : Texts τ) (img : Nat → Img α) (shownFile : Nat) : Ev τ → ℚ × ℚ → ℚ × ℚ
  | .auto, _ => ((img shownFile).lo, 99 / 100 * (img shownFile).hi)
  | .cmax t, c => match (T.value t).num with | some v => (c.1, v) | none => c
  | .cmin t, c => match (T.value t).num with | some v => (v, c.2) | none => c
  | _, c => c

/-- A number which is not changed by its conversion in a text with two decimals. -/
def TwoDecimals (T : Texts τ) (x : ℚ) : Prop := (T.value (T.fmt x)).num = some x

/-- The numbers used as limits have at most two decimals. -/
def FairClim (T : Texts τ) : Ev τ → Prop
  | .cmax t => ∀ v, (T.value t).num = some v → TwoDecimals T v
  | .cmin t => ∀ v, (T.value t).num = some v → TwoDecimals T v
  | _ => True

theorem updateClim_exact [DecidableEq τ] (T : Texts τ) (s : View α τ) (h1 : TwoDecimals T s.clim.1)
    (h2 : TwoDecimals T s.clim.2) : (updateClim T s).clim = s.clim := by
  simp only [updateClim]
  have e1 : (if s.boxMin = T.fmt s.clim.1 then s.clim else changeNested T false (T.fmt s.clim.1) s.clim) = s.clim := by
    split
    · rfl
    · simp [changeNested, h1.symm ▸ (rfl : (T.value (T.fmt s.clim.1)).num = _)]
      rw [show (T.value (T.fmt s.clim.1)).num = some s.clim.1 from h1]
  rw [e1]
  split
  · rfl
  · simp only [changeNested]
    rw [show (T.value (T.fmt s.clim.2)).num = some s.clim.2 from h2]
    simp

theorem updateClim_drawn [DecidableEq τ] {T : Texts τ} {s : View α τ} {d : Drawn α} (hd : s.drawn[s.cur]? = some d) :
    (updateClim T s).drawn[(updateClim T s).cur]? = some { d with clim := s.clim } := by
  simp only [updateClim, modify_get]
  rw [if_pos trivial, hd]
  rfl

/-- C100, colour limits: with limits which have at most two decimals (typed by the user or given by the images), the image which
is shown always has the limits which the user has asked for, for all the images. -/
theorem C100_limits_partial [DecidableEq τ] (T : Texts τ) (nb i : Nat) (img : Nat → Img α) (hnb : 2 ≤ nb) (hi : i < nb)
    (h : List (Disk α × Ev τ)) (hf : Fair T nb img h) (h0 : TwoDecimals T 0)
    (himg : ∀ k, k < nb → TwoDecimals T (img k).lo ∧ TwoDecimals T (99 / 100 * (img k).hi))
    (hc : ∀ e ∈ h, FairClim T e.2) (disk : Disk α) (ev : Ev τ) (hdisk : ∀ i, i < nb → disk i = .ok (img i))
    (hev : FairEvent T nb ev) (hcl : FairClim T ev) :
    let s := history T h (View.init T nb i (img i))
    let s' := handle T disk s ev
    ∃ d d', s.shown = some d ∧ s'.shown = some d' ∧ d'.clim = wantedClim T img s.title ev d.clim := by
  -- the invariant
  let Q : View α τ → Prop := fun s => TwoDecimals T s.clim.1 ∧ TwoDecimals T s.clim.2 ∧
    ∃ d, s.drawn[s.cur]? = some d ∧ d.clim = s.clim
  have step : ∀ {s : View α τ} {i : Nat} {m : Int} {b : Bool} (disk : Disk α) (ev : Ev τ), ViewInv nb img i m b s → Q s →
      (∀ i, i < nb → disk i = .ok (img i)) → FairEvent T nb ev → FairClim T ev →
      Q (handle T disk s ev) ∧ (handle T disk s ev).clim = wantedClim T img i ev s.clim := by
    intro s i m b disk ev hv hq hdisk hev hcl
    obtain ⟨q1, q2, d, hd, hdc⟩ := hq
    have h1 : (1 : Int) % (nb : Int) ≠ 0 := by rw [Int.emod_eq_of_lt (by omega) (by omega)]; omega
    have hneg : ∀ k : Int, k % (nb : Int) ≠ 0 → (-k) % (nb : Int) ≠ 0 := by
      intro k hk e
      apply hk
      have := Int.dvd_of_emod_eq_zero e
      exact Int.emod_eq_zero_of_dvd (by simpa using this)
    have hm : m % (nb : Int) ≠ 0 := by
      have := hv.mpos
      rw [Int.emod_eq_of_lt (by omega) (by omega)]; omega
    have hmv : ∀ k : Int, k % (nb : Int) ≠ 0 → ∃ s', Viewer.move disk (.int k) s = (s', none) ∧ Q s' ∧
        s'.clim = s.clim := by
      intro k hk
      obtain ⟨s', e, _, hcl', ⟨d', hd', hdc'⟩, _⟩ := hv.move disk hdisk k hk
      exact ⟨s', e, ⟨by rw [hcl']; exact q1, by rw [hcl']; exact q2, d', hd', by rw [hdc', hcl']⟩, hcl'⟩
    have hup : ∀ (s1 : View α τ), s1.drawn[s1.cur]? = some d → TwoDecimals T s1.clim.1 → TwoDecimals T s1.clim.2 →
        Q (updateClim T s1) ∧ (updateClim T s1).clim = s1.clim := by
      intro s1 hd1 a1 a2
      have e := updateClim_exact T s1 a1 a2
      refine ⟨⟨by rw [e]; exact a1, by rw [e]; exact a2, _, updateClim_drawn hd1, ?_⟩, e⟩
      rw [e]
    cases ev with
    | minusN =>
      obtain ⟨s', e, hs', hc'⟩ := hmv (-m) (hneg m hm)
      simp only [Viewer.handle, hv.n, Value.neg, e, wantedClim]
      exact ⟨hs', hc'⟩
    | minusOne =>
      obtain ⟨s', e, hs', hc'⟩ := hmv (-1) (hneg 1 h1)
      simp only [Viewer.handle, e, wantedClim]
      exact ⟨hs', hc'⟩
    | plusOne =>
      obtain ⟨s', e, hs', hc'⟩ := hmv 1 h1
      simp only [Viewer.handle, e, wantedClim]
      exact ⟨hs', hc'⟩
    | plusN =>
      obtain ⟨s', e, hs', hc'⟩ := hmv m hm
      simp only [Viewer.handle, hv.n, e, wantedClim]
      exact ⟨hs', hc'⟩
    | setN t =>
      obtain ⟨k, hk, -, -⟩ := hev
      simp only [Viewer.handle, hk, wantedClim, and_true]
      exact ⟨q1, q2, d, hd, hdc⟩
    | switch =>
      simp only [Viewer.handle, hv.n, hv.lastInc, wantedClim]
      cases b with
      | false =>
        obtain ⟨s', e, hs', hc'⟩ := hmv m hm
        simp only [Bool.false_eq_true, if_false, e, Bool.not_false]
        exact ⟨hs', hc'⟩
      | true =>
        obtain ⟨s', e, hs', hc'⟩ := hmv (-m) (hneg m hm)
        simp only [if_true, Value.neg, e, Bool.not_true]
        exact ⟨hs', hc'⟩
    | reload => exact absurd hev id
    | auto =>
      simp only [Viewer.handle, hv.ifile, Int.toNat_natCast, hdisk i hv.lt, wantedClim]
      exact hup _ hd (himg i hv.lt).1 (himg i hv.lt).2
    | cmax t =>
      simp only [Viewer.handle, wantedClim]
      split
      · rename_i hn
        simp only [hn]
        exact ⟨⟨q1, q2, d, hd, hdc⟩, trivial⟩
      · rename_i v hn
        simp only [hn]
        split
        · rename_i e
          exact ⟨⟨q1, q2, d, hd, hdc⟩, by rw [e]⟩
        · exact hup _ hd q1 (hcl v hn)
    | cmin t =>
      simp only [Viewer.handle, wantedClim]
      split
      · rename_i hn
        simp only [hn]
        exact ⟨⟨q1, q2, d, hd, hdc⟩, trivial⟩
      · rename_i v hn
        simp only [hn]
        split
        · rename_i e
          exact ⟨⟨q1, q2, d, hd, hdc⟩, by rw [e]⟩
        · exact hup _ hd (hcl v hn) q2
  have all : ∀ (hs : List (Disk α × Ev τ)) {s : View α τ} {i : Nat} {m : Int} {b : Bool}, ViewInv nb img i m b s → Q s →
      Fair T nb img hs → (∀ e ∈ hs, FairClim T e.2) → Q (history T hs s) ∧
      ∃ i m b, ViewInv nb img i m b (history T hs s) := by
    intro hs
    induction hs with
    | nil => intro s i m b hv hq _ _; exact ⟨hq, i, m, b, hv⟩
    | cons e hs ih =>
      obtain ⟨disk, ev⟩ := e
      intro s i m b hv hq hf hc
      have hh := hf (disk, ev) (by simp)
      exact ih (hv.handle (T := T) disk hh.1 ev hh.2 hnb) (step disk ev hv hq hh.1 hh.2 (hc (disk, ev) (by simp))).1
        (fun e he => hf e (List.mem_cons_of_mem _ he)) (fun e he => hc e (List.mem_cons_of_mem _ he))
  have q0 : Q (View.init T nb i (img i)) := ⟨h0, (himg i hi).2, _, rfl, rfl⟩
  obtain ⟨hq, i', m', b', hv⟩ := all h (ViewInv.init T nb i img hnb hi) q0 hf hc
  obtain ⟨hq', hcl'⟩ := step disk ev hv hq hdisk hev hcl
  have hv' := hv.handle (T := T) disk hdisk ev hev hnb
  obtain ⟨d, s1, s2, _⟩ := hv.shown
  obtain ⟨d', t1, t2, _⟩ := hv'.shown
  refine ⟨d, d', s1, t1, ?_⟩
  obtain ⟨_, _, x, hx, hxc⟩ := hq
  obtain ⟨_, _, x', hx', hxc'⟩ := hq'
  rw [s2] at hx; cases hx
  rw [t2] at hx'; cases hx'
  rw [hxc', hcl', hxc, hv.title]

/-- C100 is false for a number of files to skip which is a multiple of the number of files (for example with only one file in the
directory): the image disappears, and nothing is shown. -/
theorem C100_same_image_fails [DecidableEq τ] (T : Texts τ) (nb i : Nat) (im : Img α) (hi : i < nb) (disk : Disk α) (t : τ)
    (k : Int) (ht : T.value t = .int (k * nb)) :
    let s := history T [(disk, .setN t), (disk, .plusN)] (View.init T nb i im)
    s.shown = none ∧ s.title = i := by
  have e : ((i : Int) + k * nb) % nb = i := by
    rw [Int.add_mul_emod_self_right, Int.emod_eq_of_lt (by omega) (by omega)]
  simp [history, handle, ht, move, changeIm, View.init, e, mapsGet, modifyDrawn, View.shown]

/-- C100 is false after a reload: start at the second of two files, go to the first one, reload it and come back: the title is
the name of the second file, but the first image is shown. -/
theorem C100_reload_fails [DecidableEq τ] (T : Texts τ) (img : Nat → Img α) (disk : Disk α)
    (hdisk : ∀ i, i < 2 → disk i = .ok (img i)) :
    let s := history T [(disk, .plusOne), (disk, .reload), (disk, .plusOne)] (View.init T 2 1 (img 1))
    s.title = 1 ∧ s.shown.map (·.img) = some (img 0) := by
  have h0 := hdisk 0 (by omega)
  simp [history, handle, move, changeIm, View.init, mapsGet, modifyDrawn, View.shown, loadim, h0]

/-- Events which ask for another image. -/
def IsMove : Ev τ → Prop
  | .minusN | .minusOne | .plusOne | .plusN | .switch => True
  | _ => False

theorem stuck_move [DecidableEq τ] (T : Texts τ) (disk : Disk α) (s : View α τ) (ev : Ev τ) (h : s.changing = true)
    (hev : IsMove ev) : (handle T disk s ev).changing = true ∧ (handle T disk s ev).title = s.title ∧
      (handle T disk s ev).drawn = s.drawn := by
  have hm : ∀ v, (move disk v s).1.changing = true ∧ (move disk v s).1.title = s.title ∧
      (move disk v s).1.drawn = s.drawn := by
    intro v
    cases v <;> simp [move, changeIm, h]
  cases ev with
  | minusN => exact hm _
  | minusOne => exact hm _
  | plusOne => exact hm _
  | plusN => exact hm _
  | switch =>
    have := hm (if s.lastInc then s.n.neg else s.n)
    simp only [handle]
    split
    · rename_i h1; rw [h1] at this; exact this
    · rename_i h1; rw [h1] at this; exact this
  | setN t => exact absurd hev id
  | reload => exact absurd hev id
  | auto => exact absurd hev id
  | cmax t => exact absurd hev id
  | cmin t => exact absurd hev id

/-- C100 is false after a file which cannot be read (or a number `n` which is not an integer): from then on, whatever the buttons
which are used to change the image, and even if all the files can be read, the image and the title never change. -/
theorem C100_stuck_fails [DecidableEq τ] (T : Texts τ) (nb : Nat) (hnb : 2 ≤ nb) (im : Img α) (disk : Disk α) (e : PyErr)
    (hdisk : disk 1 = .error e) (h : List (Disk α × Ev τ)) (hm : ∀ x ∈ h, IsMove x.2) :
    let s := history T ((disk, .plusOne) :: h) (View.init T nb 0 im)
    s.title = 0 ∧ s.shown.map (·.img) = some im := by
  have key : ∀ (h : List (Disk α × Ev τ)) (s : View α τ), (∀ x ∈ h, IsMove x.2) → s.changing = true →
      (history T h s).title = s.title ∧ (history T h s).drawn = s.drawn := by
    intro h
    induction h with
    | nil => intro s _ _; exact ⟨rfl, rfl⟩
    | cons x h ih =>
      obtain ⟨d, ev⟩ := x
      intro s hm hs
      obtain ⟨a1, a2, a3⟩ := stuck_move T d s ev hs (hm (d, ev) (by simp))
      obtain ⟨b1, b2⟩ := ih (handle T d s ev) (fun x hx => hm x (List.mem_cons_of_mem _ hx)) a1
      exact ⟨b1.trans a2, b2.trans a3⟩
  have e1 : (1 : Int) % (nb : Int) = 1 := Int.emod_eq_of_lt (by omega) (by omega)
  have h1 : handle T disk (View.init T nb 0 im) .plusOne =
      { View.init T nb 0 im with ifile := some 1, changing := true } := by
    simp [handle, move, changeIm, View.init, e1, mapsGet, loadim, hdisk]
  simp only [history]
  rw [h1]
  obtain ⟨b1, b2⟩ := key h { View.init T nb 0 im with ifile := some 1, changing := true } hm rfl
  rw [View.shown, b2]
  exact ⟨b1, by simp [View.init]⟩

/-- C100 is false for limits with more than two decimals: the user types `v`, which is used for this image, but the limit of the
next image is the number `w` written with two decimals. -/
theorem C100_limits_fails [DecidableEq τ] (T : Texts τ) (img : Nat → Img α) (disk : Disk α)
    (hdisk : ∀ i, i < 2 → disk i = .ok (img i)) (t : τ) (v w : ℚ) (ht : (T.value t).num = some v) (htv : t ≠ T.fmt v)
    (hw : (T.value (T.fmt v)).num = some w) (hv : v ≠ 99 / 100 * (img 0).hi) :
    let s := handle T disk (View.init T 2 0 (img 0)) (.cmax t)
    s.shown.map (·.clim) = some (0, v) ∧
    (handle T disk s .plusOne).shown.map (·.clim) = some (0, w) := by
  have h1 := hdisk 1 (by omega)
  have e0 : handle T disk (View.init T 2 0 (img 0)) (.cmax t) =
      { View.init T 2 0 (img 0) with
        drawn := [⟨img 0, true, (0, v)⟩], clim := (0, w), boxMin := T.fmt 0, boxMax := T.fmt v } := by
    simp [handle, ht, View.init, hv, updateClim, modifyDrawn, htv, changeNested, hw]
  rw [e0]
  constructor
  · simp [View.shown]
  · simp [handle, move, changeIm, View.init, mapsGet, modifyDrawn, View.shown, loadim, h1]

/-- Texts: the numbers with two decimals, as integers (hundredths), and the other ones. -/
def demoTexts : Texts (ℤ ⊕ ℚ) where
  fmt x := .inl (x * 100).floor
  value
    | .inl k => .number (k / 100)
    | .inr q => if q.den = 1 then .int q.num else .number q

/-- A fair history with 5 files: `n = 3`, two switches, then three moves. -/
example : Fair (α := Unit) demoTexts 5 (fun _ => ⟨(), 0, 100⟩)
    [(fun _ => .ok ⟨(), 0, 100⟩, .setN (.inr 3)), (fun _ => .ok ⟨(), 0, 100⟩, .switch), (fun _ => .ok ⟨(), 0, 100⟩, .switch),
     (fun _ => .ok ⟨(), 0, 100⟩, .minusOne), (fun _ => .ok ⟨(), 0, 100⟩, .plusN), (fun _ => .ok ⟨(), 0, 100⟩, .minusN)] := by
  intro e he
  simp only [List.mem_cons, List.not_mem_nil, or_false] at he
  rcases he with rfl | rfl | rfl | rfl | rfl | rfl <;> refine ⟨fun _ _ => rfl, ?_⟩ <;> simp [FairEvent]
  exact ⟨3, by decide +kernel, by decide, by decide⟩

/-- Limits with two decimals, a text which is not a number. -/
example : TwoDecimals demoTexts 0 ∧ TwoDecimals demoTexts (99 / 100 * 100) ∧ FairClim demoTexts (.cmax (.inr (1 / 4))) ∧
    FairClim demoTexts (.cmin (.inl 50)) ∧ FairEvent demoTexts 5 (.cmax (.inr (1 / 4))) := by
  refine ⟨by unfold TwoDecimals; decide +kernel, by unfold TwoDecimals; decide +kernel, fun v h => ?_, fun v h => ?_, trivial⟩
  · have h' : some (1 / 4 : ℚ) = some v := by rw [← h]; decide +kernel
    cases h'; unfold TwoDecimals; decide +kernel
  · have h' : some (1 / 2 : ℚ) = some v := by rw [← h]; decide +kernel
    cases h'; unfold TwoDecimals; decide +kernel

example : (wantedAll demoTexts 1 [.setN (.inr 3), .switch, .switch, .minusOne, .plusN, .minusN, .minusN]) =
    (-3, 3, false) := by decide +kernel

end images

/-! ## Vector fields -/

section vectors
variable {β γ : Type}

/-- What the events mean for the user: the files are in a circle for the buttons, and a number which is typed is limited to the
numbers of the files. -/
def wantedIndex (nb : Nat) : PEv → Int → Int
  | .minus, i => (i - 1) % nb
  | .plus, i => (i + 1) % nb
  | .type t, i =>
    match t.int with
    | none => i
    | some k => max 0 (min k (nb - 1))

/-- Files which can all be read, with vectors at the same positions. -/
def SamePositions (nb : Nat) (load : Load β γ) (positions : List β) : Prop :=
  ∀ i, i < nb → ∃ v, load i = .ok v ∧ v.positions = positions ∧ v.components.length = positions.length

/-- The viewer shows the file of its index. -/
structure PInv (nb : Nat) (load : Load β γ) (positions : List β) (i : Nat) (s : PView β γ) : Prop where
  nbEq : s.nb = nb
  lt : i < nb
  index : s.index = i
  box : s.box = .str i
  title : s.title = i
  pos : s.arrows.positions = positions
  arrows : load i = .ok s.arrows

theorem call_setText_same (load : Load β γ) (fuel : Nat) (s : PView β γ) (k : Int) (h : s.box = .str k) :
    call load (fuel + 1) (.setText k) s = some s := by
  simp [call, h]

theorem call_setIndex_same (load : Load β γ) (fuel : Nat) (s : PView β γ) (k : Int) (h : s.index = k) :
    call load (fuel + 1) (.setIndex k) s = some s := by
  simp [call, h]

/-- `_change_index_from_textbox` when the text is the index which is already displayed. -/
theorem call_submit_same (load : Load β γ) (fuel : Nat) (s : PView β γ) (k : Int) (hb : s.box = .str k) (hi : s.index = k)
    (h0 : 0 ≤ k) (h1 : k < s.nb) : call load (fuel + 2) .submit s = some s := by
  rw [call]
  simp only [hb, Text.int]
  rw [if_neg (by omega), if_neg (by omega), call_setText_same load fuel s k hb]
  exact call_setIndex_same load fuel s k hi

/-- `_set_textbox_value` with the index. -/
theorem call_setText_index (load : Load β γ) (fuel : Nat) (s : PView β γ) (k : Int) (hi : s.index = k) (h0 : 0 ≤ k)
    (h1 : k < s.nb) : call load (fuel + 3) (.setText k) s = some { s with box := .str k } := by
  rw [call]
  split
  · rename_i h
    rw [← h]
  · exact call_submit_same load fuel _ k rfl hi h0 h1

theorem updateFig_inv {nb : Nat} {load : Load β γ} {positions : List β} {j : Nat} {s : PView β γ}
    (hg : SamePositions nb load positions) (hnb : s.nb = nb) (hj : j < nb) (hi : s.index = j) (hb : s.box = .str j)
    (hp : s.arrows.positions = positions) : PInv nb load positions j (updateFig load s) := by
  obtain ⟨v, hv, hv1, hv2⟩ := hg j hj
  have e : updateFig load s = { s with title := j, arrows := ⟨s.arrows.positions, v.components⟩ } := by
    simp [updateFig, hi, hv, hv2, hp]
  rw [e]
  refine ⟨hnb, hj, hi, hb, rfl, hp, ?_⟩
  rw [hv, hp, ← hv1]

/-- `_set_index` -/
theorem call_setIndex {nb : Nat} {load : Load β γ} {positions : List β} {i : Nat} {s : PView β γ}
    (hg : SamePositions nb load positions) (fuel : Nat) (hnb : s.nb = nb) (hi : s.index = (i : Int)) (hpos : 0 < nb)
    (hp : s.arrows.positions = positions) (k : Int) (hk : k ≠ s.index) :
    ∃ s', call load (fuel + 4) (.setIndex k) s = some s' ∧ PInv nb load positions (k % nb).toNat s' := by
  have h0 : 0 ≤ k % (nb : Int) := Int.emod_nonneg _ (by omega)
  have h1 : k % (nb : Int) < nb := Int.emod_lt_of_pos _ (by omega)
  rw [call, if_neg hk]
  simp only
  rw [call_setText_index load fuel { s with index := k % (s.nb : Int) } _ rfl (by rw [hnb]; exact h0)
    (by simp only [hnb]; exact h1)]
  refine ⟨_, rfl, ?_⟩
  refine updateFig_inv hg hnb (by omega) ?_ ?_ hp
  · simp only [hnb]; omega
  · simp only [hnb]; congr 1; omega

theorem PInv.handle {nb : Nat} {load : Load β γ} {positions : List β} {i : Nat} {s : PView β γ}
    (hg : SamePositions nb load positions) (fuel : Nat) (h : PInv nb load positions i s) (ev : PEv) :
    ∃ s', phandle load (fuel + 6) s ev = some s' ∧ PInv nb load positions (wantedIndex nb ev i).toNat s' := by
  have hpos : 0 < nb := by have := h.lt; omega
  cases ev with
  | minus =>
    simp only [phandle, h.index, wantedIndex]
    exact call_setIndex hg (fuel + 2) h.nbEq h.index hpos h.pos _ (by rw [h.index]; omega)
  | plus =>
    simp only [phandle, h.index, wantedIndex]
    exact call_setIndex hg (fuel + 2) h.nbEq h.index hpos h.pos _ (by rw [h.index]; omega)
  | type t =>
    simp only [phandle, wantedIndex]
    rw [call]
    simp only
    cases ht : t.int with
    | none =>
      simp only
      rw [call_setText_index load (fuel + 2) { s with box := t } s.index rfl (by rw [h.index]; omega)
        (by rw [h.index, h.nbEq]; have := h.lt; omega)]
      refine ⟨_, rfl, ?_⟩
      rw [Int.toNat_natCast]
      exact ⟨h.nbEq, h.lt, h.index, by rw [h.index], h.title, h.pos, h.arrows⟩
    | some k =>
      simp only
      have hidx : (if k ≥ (s.nb : Int) then (s.nb : Int) - 1 else if k < 0 then 0 else k) = max 0 (min k (nb - 1)) := by
        rw [h.nbEq]
        split
        · omega
        · split <;> omega
      rw [hidx]
      generalize hj : max 0 (min k ((nb : Int) - 1)) = j
      have hj0 : 0 ≤ j := by omega
      have hj1 : j < nb := by omega
      by_cases hs : j = (i : Int)
      · rw [call_setText_index load (fuel + 2) { s with box := t } j (by rw [hs]; exact h.index) hj0
          (by simp only [h.nbEq]; exact hj1)]
        simp only
        rw [call_setIndex_same load (fuel + 4) _ j (by simp only [hs]; exact h.index)]
        refine ⟨_, rfl, ?_⟩
        rw [hs, Int.toNat_natCast]
        exact ⟨h.nbEq, h.lt, h.index, rfl, h.title, h.pos, h.arrows⟩
      · have hne : j ≠ s.index := by rw [h.index]; exact hs
        have hjm : j % (nb : Int) = j := Int.emod_eq_of_lt hj0 hj1
        by_cases hb : t = .str j
        · subst hb
          rw [call_setText_same load (fuel + 4) _ j rfl]
          simp only
          obtain ⟨s', e, hs'⟩ := call_setIndex hg (fuel + 1) (s := { s with box := .str j }) h.nbEq h.index hpos h.pos j hne
          rw [hjm] at hs'
          exact ⟨s', e, hs'⟩
        · have e1 : call load (fuel + 5) (.setText j) { s with box := t } =
              call load (fuel + 4) .submit { s with box := .str j } := by
            conv_lhs => rw [call]
            rw [if_neg hb]
          rw [e1, call]
          simp only [Text.int]
          rw [if_neg (by rw [h.nbEq]; omega), if_neg (by omega), call_setText_same load (fuel + 2) _ j rfl]
          simp only
          have e3 : ∃ s', call load (fuel + 3) (.setIndex j) { s with box := .str j } = some s' ∧
              PInv nb load positions j.toNat s' := by
            rw [call, if_neg hne]
            simp only
            rw [call_setText_same load (fuel + 1) _ _ (by simp only [h.nbEq, hjm])]
            refine ⟨_, rfl, updateFig_inv hg h.nbEq (by omega) ?_ ?_ h.pos⟩
            · simp only [h.nbEq, hjm]; omega
            · simp only; congr 1; omega
          obtain ⟨s2, e2, hs2⟩ := e3
          rw [e2]
          simp only
          rw [call_setIndex_same load (fuel + 4) s2 j (by rw [hs2.index]; omega)]
          exact ⟨s2, rfl, hs2⟩

/-- C101: if all the files can be read and have their vectors at the same positions, then whatever the buttons and the texts
typed by the user, the functions return (no endless recursion between the box and the index), the index is the one which the
user has asked for, it is displayed in the box, the title is the name of this file, and the arrows are its vectors. -/
theorem C101_shown_partial (nb : Nat) (load : Load β γ) (positions : List β) (hg : SamePositions nb load positions) (i : Nat)
    (hi : i < nb) (v : Vectors β γ) (hv : load i = .ok v) (evs : List PEv) (fuel : Nat) (hfuel : 6 ≤ fuel) :
    ∃ s, phistory load fuel evs (PView.init nb i v) = some s ∧
      s.index = evs.foldl (fun i ev => wantedIndex nb ev i) i ∧ 0 ≤ s.index ∧ s.index < nb ∧
      s.box = .str s.index ∧ (s.title : Int) = s.index ∧ load s.title = .ok s.arrows := by
  obtain ⟨f, rfl⟩ : ∃ f, fuel = f + 6 := ⟨fuel - 6, by omega⟩
  have key : ∀ (evs : List PEv) (i : Nat) (s : PView β γ), PInv nb load positions i s →
      ∃ s' j, phistory load (f + 6) evs s = some s' ∧ PInv nb load positions j s' ∧
        (j : Int) = evs.foldl (fun i ev => wantedIndex nb ev i) (i : Int) := by
    intro evs
    induction evs with
    | nil => intro i s h; exact ⟨s, i, rfl, h, rfl⟩
    | cons ev evs ih =>
      intro i s h
      obtain ⟨s1, e1, h1⟩ := h.handle hg f ev
      obtain ⟨s2, j, e2, h2, hj⟩ := ih _ s1 h1
      refine ⟨s2, j, by simp only [phistory, e1, e2], h2, ?_⟩
      rw [hj, List.foldl_cons]
      congr 1
      have : 0 ≤ wantedIndex nb ev i := by
        have := h.lt
        cases ev with
        | minus => exact Int.emod_nonneg _ (by omega)
        | plus => exact Int.emod_nonneg _ (by omega)
        | type t =>
          simp only [wantedIndex]
          split <;> omega
      omega
  obtain ⟨v', hv', hp, _⟩ := hg i hi
  rw [hv] at hv'
  cases hv'
  obtain ⟨s, j, e, h, hj⟩ := key evs i (PView.init nb i v) ⟨rfl, hi, rfl, rfl, rfl, hp, hv⟩
  have := h.lt
  exact ⟨s, e, by rw [h.index, hj], by rw [h.index]; omega, by rw [h.index]; omega, by rw [h.box, h.index],
    by rw [h.title, h.index], by rw [h.title]; exact h.arrows⟩

/-- C101 is false for files with different positions: the arrows of the second file are drawn at the positions of the first
one. -/
theorem C101_positions_fails (load : Load β γ) (v0 v1 : Vectors β γ) (h1 : load 1 = .ok v1)
    (hl : v1.components.length = v0.positions.length) :
    (phandle load 6 (PView.init 2 0 v0) .plus).map (fun s => (s.title, s.arrows)) =
      some (1, ⟨v0.positions, v1.components⟩) := by
  simp [phandle, call, PView.init, updateFig, h1, hl, Text.int]

/-- C101 is false for files with different numbers of vectors: the title is the name of the second file, and the arrows are those of
the first one. -/
theorem C101_number_fails (load : Load β γ) (v0 v1 : Vectors β γ) (h1 : load 1 = .ok v1)
    (hl : v1.components.length ≠ v0.positions.length) :
    (phandle load 6 (PView.init 2 0 v0) .plus).map (fun s => (s.title, s.arrows)) = some (1, v0) := by
  simp [phandle, call, PView.init, updateFig, h1, hl, Text.int]

/-- C101 is false for a file which cannot be read: the box displays its index, and the title and the arrows are those of the
previous file. -/
theorem C101_unreadable_fails (load : Load β γ) (v0 : Vectors β γ) (e : PyErr) (h1 : load 1 = .error e) :
    (phandle load 6 (PView.init 2 0 v0) .plus).map (fun s => (s.box, s.title, s.arrows)) = some (.str 1, 0, v0) := by
  simp [phandle, call, PView.init, updateFig, h1, Text.int]

/-- The group which is read is the one with the largest name. -/
theorem viewedGroup_pass (n : Nat) (hn : 0 < n) (others : List (List Char))
    (ho : ∀ o ∈ others, ¬ "piv".toList <+: o) :
    ∃ k, k < n ∧ viewedGroup (others ++ (List.range n).map PivResults.passName) = .ok (PivResults.passName k) ∧
      ∀ j, j < n → j = k ∨ PivResults.nameLt (PivResults.passName j) (PivResults.passName k) = true := by
  have hf : (others ++ (List.range n).map PivResults.passName).filter
      (fun x => PivResults.startsWith x "piv".toList) = (List.range n).map PivResults.passName := by
    rw [List.filter_append, List.filter_eq_nil_iff.2 (fun o h hc => ho o h ((startsWith_iff _ _).1 hc)), List.nil_append,
      List.filter_eq_self]
    intro x hx
    obtain ⟨k, _, rfl⟩ := List.mem_map.1 hx
    simp [PivResults.passName, PivResults.startsWith]
  unfold viewedGroup
  rw [hf]
  cases hl : (List.range n).map PivResults.passName with
  | nil =>
    rw [List.map_eq_nil_iff, List.range_eq_nil] at hl
    omega
  | cons a l =>
    obtain ⟨m, h1, h2, h3⟩ := maxName_ok a l
    rw [← hl] at h2 h3
    obtain ⟨k, hk, rfl⟩ := List.mem_map.1 h2
    refine ⟨k, List.mem_range.1 hk, by rw [h1], ?_⟩
    intro j hj
    rcases h3 _ (List.mem_map.2 ⟨j, List.mem_range.2 hj, rfl⟩) with h | h
    · exact Or.inl (passName_inj _ _ h)
    · exact Or.inr h

/-- C101, multi-pass results: with at most ten passes, the vectors which are shown are those of the last pass. -/
theorem C101_last_pass_partial (n : Nat) (hn : 0 < n) (hn2 : n ≤ 10) (others : List (List Char))
    (ho : ∀ o ∈ others, ¬ "piv".toList <+: o) :
    viewedGroup (others ++ (List.range n).map PivResults.passName) = .ok (PivResults.passName (n - 1)) := by
  obtain ⟨k, hk, e, hmax⟩ := viewedGroup_pass n hn others ho
  have : k = n - 1 := by
    by_contra hc
    have hlt := natStr_lt_small k (n - 1) (by omega) (by omega)
    rcases hmax (n - 1) (by omega) with h | h
    · exact hc h.symm
    · rw [PivResults.passName, PivResults.passName, nameLt_prefix] at h
      have := nameLt_trans _ _ _ hlt h
      rw [nameLt_irrefl] at this; cases this
  rw [e, this]

/-- C101 is false for 11 to 90 passes: the vectors of the pass number 9 are shown. -/
theorem C101_last_pass_fails (n : Nat) (hn : 11 ≤ n) (hn2 : n ≤ 90) (others : List (List Char))
    (ho : ∀ o ∈ others, ¬ "piv".toList <+: o) :
    viewedGroup (others ++ (List.range n).map PivResults.passName) = .ok (PivResults.passName 9) := by
  obtain ⟨k, hk, e, hmax⟩ := viewedGroup_pass n (by omega) others ho
  have : k = 9 := by
    by_contra hc
    rcases hmax 9 (by omega) with h | h
    · exact hc h.symm
    · rw [PivResults.passName, PivResults.passName, nameLt_prefix] at h
      have hlt : PivResults.nameLt (Verif.Text.natStr k) (Verif.Text.natStr 9) = true := by
        by_cases h10 : k < 10
        · exact natStr_lt_small k 9 (by omega) (by omega)
        · rw [natStr_two k (by omega) (by omega), natStr_small 9 (by omega)]
          simp only [PivResults.nameLt, digitChar_toNat (k / 10) (by omega), digitChar_toNat 9 (by omega)]
          rw [if_pos (by omega)]
      have := nameLt_trans _ _ _ hlt h
      rw [nameLt_irrefl] at this; cases this
  rw [e, this]

/-- Five files with two vectors. -/
example : SamePositions 5 (fun i => .ok ⟨[1, 2], [i, i + 10]⟩ : Load Nat Nat) [1, 2] :=
  fun _ _ => ⟨_, rfl, rfl, rfl⟩

example : [PEv.minus, .type (.typed (some 7)), .plus, .type (.typed none), .plus, .type (.typed (some (-3)))].foldl
    (fun i ev => wantedIndex 5 ev i) 0 = 0 := by decide

end vectors

end Verif
