import Verif.Exec.GroupLive
import Verif.Model.SurfaceTracking
import Verif.Spec.Tracking

/-!
# Surface tracking: the laws

Proof infrastructure for the topology of surface tracking.
-/

namespace Verif.Exec
open Verif Verif.Spec
set_option linter.unusedSectionVars false

variable {κ α ε : Type} [DecidableEq κ]

section general
variable {σ : Type} {T : Topology κ α ε σ}

theorem upd_comm {β : Type} (q : Nat → β) {i j : Nat} (h : i ≠ j) (x y : β) :
    upd (upd q i x) j y = upd (upd q j y) i x := by
  funext l
  unfold upd
  by_cases h1 : l = i <;> by_cases h2 : l = j <;> simp [h1, h2, h] ; omega

theorem upd_ne {β : Type} (q : Nat → β) {i j : Nat} (h : j ≠ i) (x : β) : upd q i x j = q j := by
  unfold upd; rw [if_neg h]

theorem upd_eq {β : Type} (q : Nat → β) (i : Nat) (x : β) : upd q i x i = x := by
  unfold upd; rw [if_pos rfl]

theorem Rel.erase {q : Queues κ α ε} {fl} {m : Map κ α ε} (h : Rel T q fl m) (i : Nat) (k : κ)
    (hfl : ∀ t ∈ fl, inpOf T t.w ≠ some i) : Rel T (upd q i ((q i).erase k)) fl (mdel m i k) := by
  have := h.restrict (q' := upd q i ((q i).erase k)) (fun j k' => decide (¬ (j = i ∧ k' = k))) ?_ ?_
  · have e : (fun j k' => if decide (¬ (j = i ∧ k' = k)) then m j k' else none) = mdel m i k := by
      funext j k'
      unfold mdel
      by_cases hjk : j = i ∧ k' = k
      · simp [hjk]
      · simp only [hjk, not_false_eq_true, decide_true, if_true, if_false]
    rwa [e] at this
  · intro j
    by_cases hj : j = i
    · subst hj
      rw [upd_eq, Dict.erase_eq_filter _ _ (h.keysUnique j)]
      simp
    · rw [upd_ne _ hj]
      symm
      rw [List.filter_eq_self]
      simp [hj]
  · intro t ht j hj
    have : j ≠ i := fun e => hfl t ht (e ▸ hj)
    simp [this]

/-- An item goes from a queue to another one. -/
def moveQ (q : Queues κ α ε) (i o : Nat) (k : κ) (r : Except ε α) : Queues κ α ε :=
  upd (upd q i ((q i).erase k)) o ((q o).set k r)

theorem Rel.move {q : Queues κ α ε} {fl} {m : Map κ α ε} (h : Rel T q fl m) {i o : Nat} {k : κ} (r : Except ε α)
    (hfl : ∀ t ∈ fl, inpOf T t.w ≠ some i) (hio : o ≠ i) (hf : m o k = none) :
    Rel T (moveQ q i o k r) fl (mput (mdel m i k) (some o) k r) := by
  have h1 := h.erase i k hfl
  have h2 := h1.add (o := o) (k := k) r (by simp [mdel, hio, hf])
  rw [upd_ne _ hio] at h2
  exact h2

theorem mput_mdel_iff (m : Map κ α ε) (i : Nat) (out : Option Nat) (k : κ) (r : Except ε α) (l : Nat) (k' : κ)
    (v : Except ε α) : mput (mdel m i k) out k r l k' = some v ↔
      (out = some l ∧ k' = k ∧ v = r) ∨
      (¬ (out = some l ∧ k' = k) ∧ ¬ (l = i ∧ k' = k) ∧ m l k' = some v) := by
  cases out with
  | none =>
    simp only [mput, mdel, reduceCtorEq, false_and, false_or, not_false_eq_true, true_and]
    by_cases h : l = i ∧ k' = k <;> simp [h]
  | some o =>
    simp only [mput, madd, mdel, Option.some.injEq]
    by_cases h : l = o ∧ k' = k
    · obtain ⟨rfl, rfl⟩ := h; simp [eq_comm]
    · have h' : ¬ (o = l ∧ k' = k) := fun e => h ⟨e.1.symm, e.2⟩
      rw [if_neg h]
      have h2 : ¬ (o = l ∧ k' = k ∧ v = r) := fun e => h' ⟨e.1, e.2.1⟩
      simp only [h2, false_or, h', not_false_eq_true, true_and]
      by_cases h3 : l = i ∧ k' = k <;> simp [h3]

theorem potQ_move (rank : Nat → Nat) (n : Nat) {q : Queues κ α ε} {i o : Nat} (hi : i < n) (ho : o < n) (hio : o ≠ i)
    (hr : rank o < rank i) {k : κ} (hk : k ∈ (q i).keys) (r : Except ε α) :
    potQ rank n (moveQ q i o k r) < potQ rank n q := by
  unfold moveQ
  have e1 := potQ_upd rank n i hi q ((q i).erase k)
  have e2 := potQ_upd rank n o ho (upd q i ((q i).erase k)) ((q o).set k r)
  rw [upd_ne _ hio] at e2
  have l1 := length_erase (q i) k hk
  have l2 := length_set_le (q o) k r
  have m1 : 2 * rank i * (q i).length = 2 * rank i * ((q i).erase k).length + 2 * rank i := by rw [← l1]; ring
  have m2 : 2 * rank o * ((q o).set k r).length ≤ 2 * rank o * (q o).length + 2 * rank o := by
    calc _ ≤ 2 * rank o * ((q o).length + 1) := Nat.mul_le_mul_left _ l2
      _ = _ := by ring
  omega

end general

section
variable {O : TrackOps κ α ε} {ups downs : List (ChainWork κ α ε)} {correct : κ → α → Except ε α}

/-! ## The works -/

theorem track_works_get (w : Nat) : (trackTopology O ups correct downs).works[w]? =
    if w < ups.length then (ups[w]?).map (fun c => Work.item (1 + w) (some (1 + w + 1)) c.io c.f)
    else if w = ups.length then some (O.work (ups.length + 1))
    else if w = ups.length + 1 then some (Work.item (ups.length + 2) (some (ups.length + 3)) false correct)
    else (downs[w - (ups.length + 2)]?).map (fun c => Work.item (w + 2)
      (if w - (ups.length + 2) + 1 < downs.length then some (w + 3) else none) c.io c.f) := by
  simp only [trackTopology]
  rw [List.getElem?_append, imageWorks_length]
  split
  · rw [imageWorks_get]
  · by_cases he : w = ups.length
    · subst he; simp
    · rw [if_neg he]
      by_cases he1 : w = ups.length + 1
      · subst he1
        rw [if_pos rfl, show ups.length + 1 - ups.length = 1 by omega]
        rfl
      · rw [if_neg he1]
        obtain ⟨n, rfl⟩ : ∃ n, w = ups.length + 2 + n := ⟨w - (ups.length + 2), by omega⟩
        rw [show ups.length + 2 + n - ups.length = n + 1 + 1 by omega, List.getElem?_cons_succ,
          List.getElem?_cons_succ, chainWorks_get, show ups.length + 2 + n - (ups.length + 2) = n by omega]
        congr 1
        funext c
        rw [show ups.length + 4 + n = ups.length + 2 + n + 2 by omega]

theorem track_item {w inp : Nat} {out io f}
    (h : (trackTopology O ups correct downs).works[w]? = some (Work.item inp out io f)) :
    (w < ups.length ∧ inp = w + 1 ∧ out = some (w + 2) ∧ ∃ c, ups[w]? = some c ∧ c.io = io ∧ c.f = f) ∨
    (w = ups.length + 1 ∧ inp = ups.length + 2 ∧ out = some (ups.length + 3) ∧ io = false ∧ f = correct) ∨
    (ups.length + 2 ≤ w ∧ w - (ups.length + 2) < downs.length ∧ inp = w + 2 ∧
      out = (if w - (ups.length + 2) + 1 < downs.length then some (w + 3) else none) ∧
      ∃ c, downs[w - (ups.length + 2)]? = some c ∧ c.io = io ∧ c.f = f) := by
  rw [track_works_get] at h
  split at h
  · rename_i hlt
    cases hc : ups[w]? with
    | none => rw [hc] at h; simp at h
    | some c =>
      rw [hc] at h
      simp only [Option.map_some, Option.some.injEq, Work.item.injEq] at h
      obtain ⟨h1, h2, h3, h4⟩ := h
      exact Or.inl ⟨hlt, by omega, by rw [← h2]; congr 1; omega, c, rfl, h3, h4⟩
  · split at h
    · simp [TrackOps.work] at h
    · split at h
      · rename_i h1
        simp only [Option.some.injEq, Work.item.injEq] at h
        obtain ⟨h2, h3, h4, h5⟩ := h
        exact Or.inr (Or.inl ⟨h1, h2.symm, h3.symm, h4.symm, h5.symm⟩)
      · rename_i h1 h2 h3
        cases hc : downs[w - (ups.length + 2)]? with
        | none => rw [hc] at h; simp at h
        | some c =>
          rw [hc] at h
          simp only [Option.map_some, Option.some.injEq, Work.item.injEq] at h
          obtain ⟨h4, h5, h6, h7⟩ := h
          obtain ⟨hlt, _⟩ := List.getElem?_eq_some_iff.1 hc
          exact Or.inr (Or.inr ⟨by omega, hlt, by omega, h5.symm, c, rfl, h6, h7⟩)

theorem track_glob {w : Nat} {ready outLen run}
    (h : (trackTopology O ups correct downs).works[w]? = some (Work.glob ready outLen run)) :
    w = ups.length ∧ Work.glob ready outLen run = O.work (ups.length + 1) := by
  rw [track_works_get] at h
  split at h
  · cases hc : ups[w]? with
    | none => rw [hc] at h; simp at h
    | some c => rw [hc] at h; simp at h
  · split at h
    · rename_i h2; exact ⟨h2, (Option.some.inj h).symm⟩
    · split at h
      · simp at h
      · cases hc : downs[w - (ups.length + 2)]? with
        | none => rw [hc] at h; simp at h
        | some c => rw [hc] at h; simp at h

/-- No item work reads the couples of names, the angles or the copies of the corrected angles. -/
theorem track_inpOf {w i : Nat} (h : inpOf (trackTopology O ups correct downs) w = some i) :
    i ≠ 0 ∧ i ≠ ups.length + 1 ∧ i ≠ ups.length + 3 := by
  unfold inpOf at h
  split at h
  · rename_i inp out io f hw
    cases h
    rcases track_item hw with ⟨h1, h2, _⟩ | ⟨h1, h2, _⟩ | ⟨h1, h2, h3, _⟩ <;> omega
  · cases h

theorem track_ups_item {w : Nat} (hw : w < ups.length) :
    (trackTopology O ups correct downs).works[w]? =
      some (Work.item (w + 1) (some (w + 2)) ups[w].io ups[w].f) := by
  rw [track_works_get, if_pos hw, List.getElem?_eq_getElem hw]
  simp only [Option.map_some, Option.some.injEq, Work.item.injEq, and_true]
  exact ⟨by omega, by omega⟩

theorem track_glob_item : (trackTopology O ups correct downs).works[ups.length]? =
    some (O.work (ups.length + 1)) := by
  rw [track_works_get, if_neg (by omega), if_pos rfl]

theorem track_correct_item : (trackTopology O ups correct downs).works[ups.length + 1]? =
    some (Work.item (ups.length + 2) (some (ups.length + 3)) false correct) := by
  rw [track_works_get, if_neg (by omega), if_neg (by omega), if_pos rfl]

theorem track_downs_item {j : Nat} (hj : j < downs.length) :
    (trackTopology O ups correct downs).works[ups.length + 2 + j]? = some (Work.item (ups.length + 4 + j)
      (if j + 1 < downs.length then some (ups.length + 4 + (j + 1)) else none) downs[j].io downs[j].f) := by
  rw [track_works_get, if_neg (by omega), if_neg (by omega), if_neg (by omega),
    show ups.length + 2 + j - (ups.length + 2) = j by omega, List.getElem?_eq_getElem hj]
  simp only [Option.map_some, Option.some.injEq, Work.item.injEq, and_true]
  refine ⟨by omega, ?_⟩
  split
  · congr 1; omega
  · rfl

/-! ## The contract -/

/-- Events of the correction of a frame and of what follows. -/
def correctEvents (ups downs : List (ChainWork κ α ε)) (correct : κ → α → Except ε α) (k : κ) (a : α) :
    List (Event κ α ε) :=
  callEvents (ups.length + 1) k a (correct k a) ++ itemEvents k (ups.length + 2) downs (correct k a)

/-- `frame k`: the angles of the frame `k`; `prev k`: the corrected angles with respect to which they are corrected. -/
def trackContract (O : TrackOps κ α ε) (ups downs : List (ChainWork κ α ε)) (correct : κ → α → Except ε α)
    (names : List κ) (frame prev : κ → Except ε α) : Contract (trackTopology O ups correct downs) where
  line := fun i => if i = 0 then 0 else 1
  wline := fun _ => 1
  due := fun i k v =>
    if i = 0 then []
    else if i ≤ ups.length + 1 then imageEvents k (i - 1) (ups.drop (i - 1)) v ++
      correctEvents ups downs correct k (O.pair (prev k) (imageOf k (ups.drop (i - 1)) v))
    else if i = ups.length + 2 then
      match v with
      | .ok a => correctEvents ups downs correct k a
      | .error _ => []
    else if i = ups.length + 3 then itemEvents k (ups.length + 2) downs v
    else itemEvents k (i - 2) (downs.drop (i - (ups.length + 4))) v
  good := fun i k v =>
    (1 ≤ i → k ∈ names) ∧
    (1 ≤ i → i ≤ ups.length + 1 → imageOf k (ups.drop (i - 1)) v = frame k) ∧
    (i = ups.length + 2 → v = .ok (O.pair (prev k) (frame k))) ∧
    (i = ups.length + 3 → v = correct k (O.pair (prev k) (frame k)))

variable {names : List κ} {frame prev : κ → Except ε α}

theorem track_lawful : (trackContract O ups downs correct names frame prev).Lawful where
  out_ne := by
    intro w inp out io f h
    rcases track_item h with ⟨_, rfl, rfl, _⟩ | ⟨_, rfl, rfl, _⟩ | ⟨_, _, rfl, rfl, _⟩
    · simp
    · simp
    · split <;> simp
  line_eq := by
    intro w inp o io f h
    rcases track_item h with ⟨h1, rfl, h2, _⟩ | ⟨h1, rfl, h2, _⟩ | ⟨h1, h2, rfl, h3, _⟩
    · cases h2; simp [trackContract]
    · cases h2; simp [trackContract]
    · split at h3
      · cases h3; simp [trackContract]
      · cases h3
  wline_eq := by
    intro w inp out io f h
    rcases track_item h with ⟨h1, rfl, h2, _⟩ | ⟨h1, rfl, h2, _⟩ | ⟨h1, h2, rfl, h3, _⟩ <;> simp [trackContract]
  due_ok := by
    intro w inp out io f h k v hg
    rcases track_item h with ⟨h1, rfl, rfl, c, hc, rfl, rfl⟩ | ⟨rfl, rfl, rfl, rfl, rfl⟩ |
      ⟨h1, h2, rfl, rfl, c, hc, rfl, rfl⟩
    · simp only [trackContract, Contract.dueOut, Nat.add_sub_cancel]
      rw [if_neg (by omega), if_pos (by omega), drop_eq_cons hc, if_neg (by omega), if_pos (by omega),
        show w + 2 - 1 = w + 1 by omega]
      cases hr : c.f k v with
      | ok r => simp [imageEvents, imageOf, hr, callEvents]
      | error e => simp [imageEvents, imageOf, hr, callEvents, imageEvents_error]
    · simp only [trackContract, Contract.dueOut]
      simp [correctEvents]
    · simp only [trackContract]
      rw [if_neg (by omega), if_neg (by omega), if_neg (by omega), if_neg (by omega),
        show w + 2 - (ups.length + 4) = w - (ups.length + 2) by omega, drop_eq_cons hc, Nat.add_sub_cancel]
      by_cases hlast : w - (ups.length + 2) + 1 < downs.length
      · simp only [hlast, if_true, Contract.dueOut]
        rw [if_neg (by omega), if_neg (by omega), if_neg (by omega), if_neg (by omega),
          show w + 3 - 2 = w + 1 by omega,
          show w + 3 - (ups.length + 4) = w - (ups.length + 2) + 1 by omega]
        cases hr : c.f k v <;> simp [itemEvents, hr, callEvents]
      · have hnil : downs.drop (w - (ups.length + 2) + 1) = [] := List.drop_eq_nil_iff.2 (by omega)
        rw [hnil]
        simp only [hlast, if_false, Contract.dueOut]
        cases hr : c.f k v <;> simp [itemEvents, hr, callEvents]
  due_error := by
    intro w inp out io f h k e hg
    rcases track_item h with ⟨h1, rfl, rfl, c, hc, rfl, rfl⟩ | ⟨rfl, rfl, rfl, rfl, rfl⟩ |
      ⟨h1, h2, rfl, rfl, c, hc, rfl, rfl⟩
    · simp only [trackContract, Contract.dueOut, Nat.add_sub_cancel, forwardEvents]
      rw [if_neg (by omega), if_pos (by omega), if_neg (by omega), if_pos (by omega)]
      simp [imageEvents_error, imageOf_error]
    · have := hg.2.2.1 rfl
      cases this
    · simp only [trackContract]
      rw [if_neg (by omega), if_neg (by omega), if_neg (by omega), if_neg (by omega),
        show w + 2 - (ups.length + 4) = w - (ups.length + 2) by omega, drop_eq_cons hc, Nat.add_sub_cancel]
      by_cases hlast : w - (ups.length + 2) + 1 < downs.length
      · have hne : downs.drop (w - (ups.length + 2) + 1) ≠ [] := fun e => by
          have := List.drop_eq_nil_iff.1 e; omega
        simp only [hlast, if_true, Contract.dueOut]
        rw [if_neg (by omega), if_neg (by omega), if_neg (by omega), if_neg (by omega),
          show w + 3 - 2 = w + 1 by omega,
          show w + 3 - (ups.length + 4) = w - (ups.length + 2) + 1 by omega]
        simp [itemEvents, hne, forwardEvents]
      · have hnil : downs.drop (w - (ups.length + 2) + 1) = [] := List.drop_eq_nil_iff.2 (by omega)
        rw [hnil]
        simp [hlast, Contract.dueOut, itemEvents, forwardEvents]
  good_ok := by
    intro w inp o io f h k v hg
    rcases track_item h with ⟨h1, rfl, h2, c, hc, rfl, rfl⟩ | ⟨rfl, rfl, h2, rfl, rfl⟩ |
      ⟨h1, h2, rfl, h3, c, hc, rfl, rfl⟩
    · cases h2
      refine ⟨fun _ => hg.1 (by omega), fun _ _ => ?_, fun h => by omega, fun h => by omega⟩
      have := hg.2.1 (by omega) (by omega)
      simp only [Nat.add_sub_cancel] at this
      rw [drop_eq_cons hc] at this
      exact this
    · cases h2
      refine ⟨fun _ => hg.1 (by omega), fun _ h => by omega, fun h => by omega, fun _ => ?_⟩
      have := hg.2.2.1 rfl
      cases this
      rfl
    · split at h3
      · cases h3
        exact ⟨fun _ => hg.1 (by omega), fun _ h => by omega, fun h => by omega, fun h => by omega⟩
      · cases h3
  good_error := by
    intro w inp o io f h k e hg
    rcases track_item h with ⟨h1, rfl, h2, c, hc, rfl, rfl⟩ | ⟨rfl, rfl, h2, rfl, rfl⟩ |
      ⟨h1, h2, rfl, h3, c, hc, rfl, rfl⟩
    · cases h2
      refine ⟨fun _ => hg.1 (by omega), fun _ _ => ?_, fun h => by omega, fun h => by omega⟩
      have := hg.2.1 (by omega) (by omega)
      rw [imageOf_error] at this ⊢
      exact this
    · have := hg.2.2.1 rfl
      cases this
    · split at h3
      · cases h3
        exact ⟨fun _ => hg.1 (by omega), fun _ h => by omega, fun h => by omega, fun h => by omega⟩
      · cases h3

/-! ## The invariant -/

/-- The couples of the frames of index lower than `j` have been made; `done`: the frames which have been corrected. -/
structure TrackJ (p nd : Nat) (tup : List κ → α) (ckey : Nat → κ) (names : List κ) (j : Nat) (m : Map κ α ε)
    (done : List κ) : Prop where
  le : j ≤ names.length
  pairs : ∀ k v, m 0 k = some v ↔ ∃ i a b, j ≤ i ∧ names[i - 1]? = some a ∧ names[i]? = some b ∧ k = ckey i ∧
    v = .ok (tup [a, b])
  up : ∀ i b, j ≤ i → names[i]? = some b → ∃ l, 1 ≤ l ∧ l ≤ p + 1 ∧ ∃ v, m l b = some v
  upIdx : ∀ l b v, 1 ≤ l → l ≤ p + 1 → m l b = some v → ∃ i, j ≤ i ∧ names[i]? = some b
  mid : ∀ l b v, (l = p + 2 ∨ l = p + 3) → m l b = some v → ∃ i, i + 1 = j ∧ names[i]? = some b
  ref : ∀ i a, i + 1 = j → j < names.length → names[i]? = some a →
    ∃ l, (l = p + 2 ∨ l = p + 3) ∧ ∃ v, m l a = some v
  bound : ∀ i k v, m i k = some v → i < p + 4 + nd
  order : (∃ i b v, i + 1 = j ∧ names[i]? = some b ∧ m (p + 2) b = some v ∧ done = names.take i) ∨
    ((∀ k, m (p + 2) k = none) ∧ done = names.take j)

variable {ckey : Nat → κ}

theorem trackJ_move {w inp : Nat} {out io f}
    (h : (trackTopology O ups correct downs).works[w]? = some (Work.item inp out io f)) {m : Map κ α ε} {j : Nat}
    {done done' : List κ} (hm : TrackJ ups.length downs.length O.tup ckey names j m done) {k : κ} {v : Except ε α}
    (hk : m inp k = some v) (r : Except ε α)
    (hdone : done' = if w = ups.length + 1 then done ++ [k] else done) :
    TrackJ ups.length downs.length O.tup ckey names j (mput (mdel m inp k) out k r) done' := by
  have h0 : ∀ k' v', mput (mdel m inp k) out k r 0 k' = some v' ↔ m 0 k' = some v' := by
    intro k' v'
    rw [mput_mdel_iff]
    have h1 : ¬ (out = some 0 ∧ k' = k) := by
      rintro ⟨e, _⟩
      rcases track_item h with ⟨_, _, h2, _⟩ | ⟨_, _, h2, _⟩ | ⟨_, _, _, h2, _⟩
      · rw [h2] at e; simp at e
      · rw [h2] at e; simp at e
      · rw [h2] at e; split at e <;> simp at e
    have h2 : ¬ (out = some 0 ∧ k' = k ∧ v' = r) := fun e => h1 ⟨e.1, e.2.1⟩
    have h3 : ¬ (0 = inp ∧ k' = k) := by
      rintro ⟨e, _⟩
      rcases track_item h with ⟨_, h2, _⟩ | ⟨_, h2, _⟩ | ⟨_, _, h2, _⟩ <;> omega
    simp [h1, h2, h3]
  refine ⟨hm.le, fun k' v' => by rw [h0]; exact hm.pairs k' v', ?_, ?_, ?_, ?_, ?_, ?_⟩
  · intro i b hi hb
    obtain ⟨l, h1, h2, v', h3⟩ := hm.up i b hi hb
    by_cases he : l = inp ∧ b = k
    · obtain ⟨rfl, rfl⟩ := he
      rcases track_item h with ⟨e1, e2, rfl, _⟩ | ⟨e1, e2, _⟩ | ⟨e1, _, e2, _⟩
      · exact ⟨w + 2, by omega, by omega, r, (mput_mdel_iff ..).2 (Or.inl ⟨rfl, rfl, rfl⟩)⟩
      · omega
      · omega
    · by_cases ho : out = some l ∧ b = k
      · exact ⟨l, h1, h2, r, (mput_mdel_iff ..).2 (Or.inl ⟨ho.1, ho.2, rfl⟩)⟩
      · exact ⟨l, h1, h2, v', (mput_mdel_iff ..).2 (Or.inr ⟨ho, he, h3⟩)⟩
  · intro l b v' h1 h2 h3
    rcases (mput_mdel_iff ..).1 h3 with ⟨rfl, rfl, rfl⟩ | ⟨_, _, h4⟩
    · rcases track_item h with ⟨e1, e2, e3, _⟩ | ⟨e1, e2, e3, _⟩ | ⟨e1, _, e2, e3, _⟩
      · exact hm.upIdx inp b v (by omega) (by omega) hk
      · simp at e3; omega
      · split at e3 <;> simp at e3; omega
    · exact hm.upIdx l b v' h1 h2 h4
  · intro l b v' h1 h3
    rcases (mput_mdel_iff ..).1 h3 with ⟨rfl, rfl, rfl⟩ | ⟨_, _, h4⟩
    · rcases track_item h with ⟨e1, e2, e3, _⟩ | ⟨e1, e2, e3, _⟩ | ⟨e1, _, e2, e3, _⟩
      · simp at e3; omega
      · exact hm.mid inp b v (Or.inl e2) hk
      · split at e3 <;> simp at e3; omega
    · exact hm.mid l b v' h1 h4
  · intro i a hi hlt ha
    obtain ⟨l, h1, v', h3⟩ := hm.ref i a hi hlt ha
    by_cases he : l = inp ∧ a = k
    · obtain ⟨rfl, rfl⟩ := he
      rcases track_item h with ⟨e1, e2, rfl, _⟩ | ⟨e1, e2, rfl, _⟩ | ⟨e1, _, e2, _⟩
      · omega
      · exact ⟨_, Or.inr rfl, r, (mput_mdel_iff ..).2 (Or.inl ⟨rfl, rfl, rfl⟩)⟩
      · omega
    · by_cases ho : out = some l ∧ a = k
      · exact ⟨l, h1, r, (mput_mdel_iff ..).2 (Or.inl ⟨ho.1, ho.2, rfl⟩)⟩
      · exact ⟨l, h1, v', (mput_mdel_iff ..).2 (Or.inr ⟨ho, he, h3⟩)⟩
  · intro i k' v' h3
    rcases (mput_mdel_iff ..).1 h3 with ⟨rfl, rfl, rfl⟩ | ⟨_, _, h4⟩
    · rcases track_item h with ⟨e1, e2, e3, _⟩ | ⟨e1, e2, e3, _⟩ | ⟨e1, e4, e2, e3, _⟩
      · simp at e3; omega
      · simp at e3; omega
      · split at e3 <;> simp at e3; omega
    · exact hm.bound i k' v' h4
  · have hsame : w ≠ ups.length + 1 → ∀ k', mput (mdel m inp k) out k r (ups.length + 2) k' = m (ups.length + 2) k' := by
      intro hne k'
      have h1 : out ≠ some (ups.length + 2) ∧ inp ≠ ups.length + 2 := by
        rcases track_item h with ⟨e1, e2, rfl, _⟩ | ⟨e1, e2, rfl, _⟩ | ⟨e1, e4, e2, rfl, _⟩
        · exact ⟨by simp; omega, by omega⟩
        · omega
        · refine ⟨?_, by omega⟩
          split <;> simp; omega
      cases out with
      | none =>
        simp only [mput, mdel]
        rw [if_neg (fun e => h1.2 e.1.symm)]
      | some o =>
        simp only [mput, madd, mdel]
        rw [if_neg (fun e => h1.1 (by rw [e.1])), if_neg (fun e => h1.2 e.1.symm)]
    by_cases hw : w = ups.length + 1
    · rw [if_pos hw] at hdone
      rcases track_item h with ⟨e1, _⟩ | ⟨_, rfl, rfl, _⟩ | ⟨e1, _⟩
      · omega
      · right
        obtain ⟨i, hi, hik⟩ := hm.mid _ _ _ (Or.inl rfl) hk
        constructor
        · intro k'
          cases hk' : mput (mdel m (ups.length + 2) k) (some (ups.length + 3)) k r (ups.length + 2) k' with
          | none => rfl
          | some v' =>
            exfalso
            rcases (mput_mdel_iff ..).1 hk' with ⟨e, _⟩ | ⟨_, h2, h3⟩
            · simp at e
            · obtain ⟨i', hi', hik'⟩ := hm.mid _ _ _ (Or.inl rfl) h3
              rw [show i' = i by omega, hik] at hik'
              exact h2 ⟨rfl, (Option.some.inj hik').symm⟩
        · rcases hm.order with ⟨i', b, v', h1, h2, h3, h4⟩ | ⟨h1, _⟩
          · rw [hdone, h4, ← hi, show i' = i by omega, List.take_add_one, hik]; rfl
          · rw [h1] at hk; cases hk
      · omega
    · rw [if_neg hw] at hdone
      rw [hdone]
      rcases hm.order with ⟨i', b, v', h1, h2, h3, h4⟩ | ⟨h1, h2⟩
      · exact Or.inl ⟨i', b, v', h1, h2, by rw [hsame hw]; exact h3, h4⟩
      · exact Or.inr ⟨fun k' => by rw [hsame hw]; exact h1 k', h2⟩

/-- The couple of the frame `j` is made. -/
theorem TrackJ.advance {p nd : Nat} {tup : List κ → α} {j : Nat} {m m' : Map κ α ε} (hnd : names.Nodup)
    (hck : Function.Injective ckey) {done : List κ} (h : TrackJ p nd tup ckey names j m done) {b : κ}
    (hb : names[j]? = some b) (hempty : ∀ k, m (p + 2) k = none)
    (h0 : ∀ k, m' 0 k = if k = ckey j then none else m 0 k)
    (hup : ∀ l k, 1 ≤ l → l ≤ p + 1 → m' l k = if k = b then none else m l k)
    (hmid : ∀ l k v, (l = p + 2 ∨ l = p + 3) → m' l k = some v → k = b)
    (hmid' : ∃ v, m' (p + 2) b = some v)
    (hbound : ∀ i k v, m' i k = some v → i < p + 4 + nd) : TrackJ p nd tup ckey names (j + 1) m' done := by
  obtain ⟨hjlt, hbj⟩ := List.getElem?_eq_some_iff.1 hb
  have hidx : ∀ i, names[i]? = some b → i = j := by
    intro i hi
    obtain ⟨h1, h2⟩ := List.getElem?_eq_some_iff.1 hi
    exact (List.Nodup.getElem_inj_iff hnd).1 (h2.trans hbj.symm)
  refine ⟨hjlt, ?_, ?_, ?_, ?_, ?_, hbound, ?_⟩
  · intro k v
    rw [h0]
    by_cases hk : k = ckey j
    · subst hk
      simp only [if_true, reduceCtorEq, false_iff, not_exists, not_and]
      intro i a b' hi _ _ he
      have := hck he
      omega
    · rw [if_neg hk, h.pairs]
      constructor
      · rintro ⟨i, a, b', hi, h1, h2, h3, h4⟩
        refine ⟨i, a, b', ?_, h1, h2, h3, h4⟩
        have : i ≠ j := by rintro rfl; exact hk h3
        omega
      · rintro ⟨i, a, b', hi, h1⟩
        exact ⟨i, a, b', by omega, h1⟩
  · intro i b' hi hb'
    obtain ⟨l, h1, h2, v, h3⟩ := h.up i b' (by omega) hb'
    refine ⟨l, h1, h2, v, ?_⟩
    rw [hup l b' h1 h2, if_neg, h3]
    rintro rfl
    have := hidx i hb'
    omega
  · intro l b' v h1 h2 h3
    rw [hup l b' h1 h2] at h3
    split at h3
    · cases h3
    · rename_i hne
      obtain ⟨i, hi, hb'⟩ := h.upIdx l b' v h1 h2 h3
      refine ⟨i, ?_, hb'⟩
      have : i ≠ j := by rintro rfl; rw [hb] at hb'; cases hb'; exact hne rfl
      omega
  · intro l b' v h1 h2
    have := hmid l b' v h1 h2
    subst this
    exact ⟨j, rfl, hb⟩
  · intro i a hi _ ha
    have : i = j := by omega
    subst this
    rw [hb] at ha; cases ha
    obtain ⟨v, hv⟩ := hmid'
    exact ⟨p + 2, Or.inl rfl, v, hv⟩
  · obtain ⟨v, hv⟩ := hmid'
    refine Or.inl ⟨j, b, v, rfl, hb, hv, ?_⟩
    rcases h.order with ⟨i', b, v', _, _, h3, _⟩ | ⟨_, h2⟩
    · rw [hempty] at h3; cases h3
    · exact h2

end
end Verif.Exec
