import Verif.Exec.Chain
import Verif.Exec.GroupDict
import Verif.Spec.Groups

/-!
# Topologies making groups satisfy the laws
-/

namespace Verif.Exec
open Verif Verif.Spec
set_option linter.unusedSectionVars false

variable {κ α ε : Type} [DecidableEq κ]

/-! ## General lemmas on `Rel` and `Inv` -/

section general
variable {σ : Type} {T : Topology κ α ε σ}

theorem Rel.restrict {q q' : Queues κ α ε} {fl} {m : Map κ α ε} (h : Rel T q fl m) (keep : Nat → κ → Bool)
    (hq : ∀ i, q' i = (q i).filter (fun kv => keep i kv.1))
    (hfl : ∀ t ∈ fl, ∀ i, inpOf T t.w = some i → keep i t.key = true) :
    Rel T q' fl (fun i k => if keep i k then m i k else none) := by
  refine ⟨?_, ?_⟩
  · intro i k v
    rw [hq i, List.mem_filter]
    constructor
    · intro h1
      split at h1
      · rename_i hk
        rcases (h.at_iff i k v).1 h1 with h2 | h2
        · exact Or.inl ⟨h2, hk⟩
        · exact Or.inr h2
      · cases h1
    · rintro (⟨h1, h2⟩ | ⟨t, ht, h1, h2, h3⟩)
      · have h2' : keep i k = true := h2
        rw [if_pos h2']
        exact (h.at_iff i k v).2 (Or.inl h1)
      · have := hfl t ht i h1
        rw [h2] at this
        rw [if_pos this]
        exact (h.at_iff i k v).2 (Or.inr ⟨t, ht, h1, h2, h3⟩)
  · intro i
    rw [hq i, Dict.keys_filter]
    exact List.Nodup.sublist (List.Sublist.append List.filter_sublist (List.Sublist.refl _)) (h.nodup i)

/-- Items for which nothing is due can be removed. -/
theorem Contract.Inv.restrict {C : Contract T} {tot} {m : Map κ α ε} {log} (h : C.Inv tot m log)
    (keep : Nat → κ → Bool) (hdue : ∀ i k v, m i k = some v → keep i k = false → C.due i k v = []) :
    C.Inv tot (fun i k => if keep i k then m i k else none) log := by
  have hsrc : ∀ i k v, (if keep i k then m i k else none) = some v → m i k = some v := by
    intro i k v h1
    split at h1
    · exact h1
    · cases h1
  refine ⟨?_, ?_, ?_, ?_⟩
  · intro i j k v v' hl h1 h2
    exact h.uniq i j k v v' hl (hsrc _ _ _ h1) (hsrc _ _ _ h2)
  · intro i k v h1; exact h.good i k v (hsrc _ _ _ h1)
  · intro i k v h1; exact h.at_ i k v (hsrc _ _ _ h1)
  · intro l k hg
    by_cases hall : ∀ i, C.line i = l → m i k = none
    · exact h.gone l k hall
    · push_neg at hall
      obtain ⟨i, hi, hne⟩ := hall
      obtain ⟨v, hv⟩ := Option.ne_none_iff_exists'.1 hne
      have hk : keep i k = false := by
        have := hg i hi
        cases hk : keep i k with
        | false => rfl
        | true => rw [hk, if_pos rfl, hv] at this; cases this
      have h1 := h.at_ i k v hv
      rw [hdue i k v hv hk, List.append_nil, hi] at h1
      exact h1

end general

/-! ## The works of the topology -/

theorem imageWorks_get (i : Nat) (ws : List (ChainWork κ α ε)) (n : Nat) :
    (imageWorks i ws)[n]? = (ws[n]?).map (fun c => Work.item (i + n) (some (i + n + 1)) c.io c.f) := by
  induction ws generalizing i n with
  | nil => simp [imageWorks]
  | cons w ws ih =>
    cases n with
    | zero => simp [imageWorks]
    | succ n =>
      simp only [imageWorks, List.getElem?_cons_succ]
      rw [ih (i + 1) n, show i + 1 + n = i + (n + 1) by omega]

theorem imageWorks_length (i : Nat) (ws : List (ChainWork κ α ε)) : (imageWorks i ws).length = ws.length := by
  induction ws generalizing i with
  | nil => rfl
  | cons w ws ih => simp [imageWorks, ih]

section
variable {pre post : List (ChainWork κ α ε)} {make : GroupQueues κ α ε → Except ε (GroupQueues κ α ε)}

theorem group_works_get (w : Nat) : (groupTopology pre post make).works[w]? =
    if w < pre.length then (pre[w]?).map (fun c => Work.item (1 + w) (some (1 + w + 1)) c.io c.f)
    else if w = pre.length then some (groupWork (pre.length + 1) make)
    else (post[w - (pre.length + 1)]?).map (fun c => Work.item (w + 1)
      (if w - pre.length < post.length then some (w + 2) else none) c.io c.f) := by
  simp only [groupTopology]
  rw [List.getElem?_append, imageWorks_length]
  split
  · rw [imageWorks_get]
  · rename_i h
    by_cases he : w = pre.length
    · subst he; simp
    · rw [if_neg he]
      obtain ⟨n, rfl⟩ : ∃ n, w = pre.length + 1 + n := ⟨w - (pre.length + 1), by omega⟩
      rw [show pre.length + 1 + n - pre.length = n + 1 by omega, List.getElem?_cons_succ, chainWorks_get,
        show pre.length + 1 + n - (pre.length + 1) = n by omega]
      congr 1
      funext c
      rw [show pre.length + 2 + n = pre.length + 1 + n + 1 by omega]

/-- An item work is a work on images or a work on groups. -/
theorem group_item {w inp : Nat} {out io f}
    (h : (groupTopology pre post make).works[w]? = some (Work.item inp out io f)) :
    (w < pre.length ∧ inp = w + 1 ∧ out = some (w + 2) ∧ ∃ c, pre[w]? = some c ∧ c.io = io ∧ c.f = f) ∨
    (pre.length < w ∧ w - pre.length ≤ post.length ∧ inp = w + 1 ∧
      out = (if w - pre.length < post.length then some (w + 2) else none) ∧
      ∃ c, post[w - (pre.length + 1)]? = some c ∧ c.io = io ∧ c.f = f) := by
  rw [group_works_get] at h
  split at h
  · rename_i hlt
    cases hc : pre[w]? with
    | none => rw [hc] at h; simp at h
    | some c =>
      rw [hc] at h
      simp only [Option.map_some, Option.some.injEq, Work.item.injEq] at h
      obtain ⟨h1, h2, h3, h4⟩ := h
      exact Or.inl ⟨hlt, by omega, by rw [← h2]; congr 1; omega, c, rfl, h3, h4⟩
  · split at h
    · simp [groupWork] at h
    · rename_i h1 h2
      cases hc : post[w - (pre.length + 1)]? with
      | none => rw [hc] at h; simp at h
      | some c =>
        rw [hc] at h
        simp only [Option.map_some, Option.some.injEq, Work.item.injEq] at h
        obtain ⟨h3, h4, h5, h6⟩ := h
        obtain ⟨hlt, _⟩ := List.getElem?_eq_some_iff.1 hc
        exact Or.inr ⟨by omega, by omega, by omega, h4.symm, c, rfl, h5, h6⟩

theorem group_glob {w : Nat} {ready outLen run}
    (h : (groupTopology pre post make).works[w]? = some (Work.glob ready outLen run)) :
    w = pre.length ∧ Work.glob ready outLen run = groupWork (pre.length + 1) make := by
  rw [group_works_get] at h
  split at h
  · cases hc : pre[w]? with
    | none => rw [hc] at h; simp at h
    | some c => rw [hc] at h; simp at h
  · split at h
    · rename_i h2; exact ⟨h2, (Option.some.inj h).symm⟩
    · cases hc : post[w - (pre.length + 1)]? with
      | none => rw [hc] at h; simp at h
      | some c => rw [hc] at h; simp at h

/-- No item work reads the queue of groups of names or the queue of arrays. -/
theorem group_inpOf {w i : Nat} (h : inpOf (groupTopology pre post make) w = some i) :
    (1 ≤ i ∧ i ≤ pre.length) ∨ (pre.length + 2 ≤ i ∧ i < pre.length + 2 + post.length) := by
  unfold inpOf at h
  split at h
  · rename_i inp out io f hw
    cases h
    rcases group_item hw with ⟨h1, h2, _⟩ | ⟨h1, h2, h3, _⟩ <;> omega
  · cases h

/-! ## The contract -/

/-- Line of a queue: 1 for images, 0 for groups. -/
def gline (p : Nat) (i : Nat) : Nat := if 1 ≤ i ∧ i ≤ p + 1 then 1 else 0

/-- The final image of a name. -/
def groupContract (pre post : List (ChainWork κ α ε)) (make : GroupQueues κ α ε → Except ε (GroupQueues κ α ε))
    (N : NameTuples κ α) (build : κ → List κ → List (Except ε α) → Except ε (Except ε α)) (fin : κ → Except ε α)
    (goodG : κ → Except ε α → Prop) : Contract (groupTopology pre post make) where
  line := gline pre.length
  wline := fun w => if w < pre.length then 1 else 0
  due := fun i k r =>
    if i = 0 then
      match build k (N.names r) ((N.names r).map fin) with
      | .ok r => itemEvents k (pre.length + 1) post r
      | .error _ => []
    else if i ≤ pre.length + 1 then imageEvents k (i - 1) (pre.drop (i - 1)) r
    else itemEvents k (i - 1) (post.drop (i - (pre.length + 2))) r
  good := fun i k r =>
    (i = 0 → goodG k r) ∧ (1 ≤ i → i ≤ pre.length + 1 → imageOf k (pre.drop (i - 1)) r = fin k)

variable {N : NameTuples κ α} {build : κ → List κ → List (Except ε α) → Except ε (Except ε α)} {fin : κ → Except ε α}
  {goodG : κ → Except ε α → Prop}

theorem imageEvents_error (k : κ) (w : Nat) (ws : List (ChainWork κ α ε)) (e : ε) :
    imageEvents k w ws (.error e) = [] := by cases ws <;> rfl

theorem imageOf_error (k : κ) (ws : List (ChainWork κ α ε)) (e : ε) :
    imageOf k ws (.error e) = .error e := by cases ws <;> rfl

theorem group_lawful : (groupContract pre post make N build fin goodG).Lawful where
  out_ne := by
    intro w inp out io f h
    rcases group_item h with ⟨_, rfl, rfl, _⟩ | ⟨_, _, rfl, rfl, _⟩
    · simp
    · split <;> simp
  line_eq := by
    intro w inp o io f h
    rcases group_item h with ⟨h1, rfl, h2, _⟩ | ⟨h1, h2, rfl, h3, _⟩
    · cases h2
      simp only [groupContract, gline]
      rw [if_pos (by omega), if_pos (by omega)]
    · split at h3
      · cases h3
        simp only [groupContract, gline]
        rw [if_neg (by omega), if_neg (by omega)]
      · cases h3
  wline_eq := by
    intro w inp out io f h
    rcases group_item h with ⟨h1, rfl, h2, _⟩ | ⟨h1, h2, rfl, h3, _⟩
    · simp only [groupContract, gline]
      rw [if_pos (by omega), if_pos (by omega)]
    · simp only [groupContract, gline]
      rw [if_neg (by omega), if_neg (by omega)]
  due_ok := by
    intro w inp out io f h k v _
    rcases group_item h with ⟨h1, rfl, rfl, c, hc, rfl, rfl⟩ | ⟨h1, h2, rfl, rfl, c, hc, rfl, rfl⟩
    · simp only [groupContract, Contract.dueOut, Nat.add_sub_cancel]
      rw [if_neg (by omega), if_pos (by omega), drop_eq_cons hc, if_neg (by omega), if_pos (by omega),
        show w + 2 - 1 = w + 1 by omega]
      cases hr : c.f k v with
      | ok r => simp [imageEvents, hr, callEvents]
      | error e => simp [imageEvents, hr, callEvents, imageEvents_error]
    · simp only [groupContract, Nat.add_sub_cancel]
      rw [if_neg (by omega), if_neg (by omega), show w + 1 - (pre.length + 2) = w - (pre.length + 1) by omega,
        drop_eq_cons hc]
      by_cases hlast : w - pre.length < post.length
      · simp only [hlast, if_true, Contract.dueOut]
        rw [if_neg (by omega), if_neg (by omega), show w + 2 - 1 = w + 1 by omega,
          show w + 2 - (pre.length + 2) = w - (pre.length + 1) + 1 by omega]
        cases hr : c.f k v <;> simp [itemEvents, hr, callEvents]
      · have hnil : post.drop (w - (pre.length + 1) + 1) = [] := List.drop_eq_nil_iff.2 (by omega)
        rw [hnil]
        simp only [hlast, if_false, Contract.dueOut]
        cases hr : c.f k v <;> simp [itemEvents, hr, callEvents]
  due_error := by
    intro w inp out io f h k e _
    rcases group_item h with ⟨h1, rfl, rfl, c, hc, rfl, rfl⟩ | ⟨h1, h2, rfl, rfl, c, hc, rfl, rfl⟩
    · simp only [groupContract, Contract.dueOut, Nat.add_sub_cancel, forwardEvents]
      rw [if_neg (by omega), if_pos (by omega), if_neg (by omega), if_pos (by omega)]
      simp [imageEvents_error]
    · simp only [groupContract, Nat.add_sub_cancel]
      rw [if_neg (by omega), if_neg (by omega), show w + 1 - (pre.length + 2) = w - (pre.length + 1) by omega,
        drop_eq_cons hc]
      by_cases hlast : w - pre.length < post.length
      · have hne : post.drop (w - (pre.length + 1) + 1) ≠ [] := fun e => by
          have := List.drop_eq_nil_iff.1 e; omega
        simp only [hlast, if_true, Contract.dueOut]
        rw [if_neg (by omega), if_neg (by omega), show w + 2 - 1 = w + 1 by omega,
          show w + 2 - (pre.length + 2) = w - (pre.length + 1) + 1 by omega]
        simp [itemEvents, hne, forwardEvents]
      · have hnil : post.drop (w - (pre.length + 1) + 1) = [] := List.drop_eq_nil_iff.2 (by omega)
        rw [hnil]
        simp [hlast, Contract.dueOut, itemEvents, forwardEvents]
  good_ok := by
    intro w inp o io f h k v hg
    rcases group_item h with ⟨h1, rfl, h2, c, hc, rfl, rfl⟩ | ⟨h1, h2, rfl, h3, c, hc, rfl, rfl⟩
    · cases h2
      simp only [groupContract] at hg ⊢
      refine ⟨fun h0 => by omega, fun _ _ => ?_⟩
      have := hg.2 (by omega) (by omega)
      simp only [Nat.add_sub_cancel] at this
      rw [drop_eq_cons hc] at this
      exact this
    · split at h3
      · cases h3
        exact ⟨fun h0 => by omega, fun _ h5 => by omega⟩
      · cases h3
  good_error := by
    intro w inp o io f h k e hg
    rcases group_item h with ⟨h1, rfl, h2, c, hc, rfl, rfl⟩ | ⟨h1, h2, rfl, h3, c, hc, rfl, rfl⟩
    · cases h2
      simp only [groupContract] at hg ⊢
      refine ⟨fun h0 => by omega, fun _ _ => ?_⟩
      have := hg.2 (by omega) (by omega)
      rw [imageOf_error] at this ⊢
      exact this
    · split at h3
      · cases h3
        exact ⟨fun h0 => by omega, fun _ h5 => by omega⟩
      · cases h3

/-! ## The invariant linking groups and images -/

/-- Every name of a remaining group is still in the line of images, and every image of the line of images is used by
a remaining group. -/
structure GroupJ (p np : Nat) (N : NameTuples κ α) (okNames : List κ → Prop) (m : Map κ α ε) : Prop where
  groups : ∀ k v, m 0 k = some v → okNames (N.names v) ∧
    ∀ n ∈ N.names v, ∃ i, 1 ≤ i ∧ i ≤ p + 1 ∧ ∃ r, m i n = some r
  used : ∀ i n r, 1 ≤ i → i ≤ p + 1 → m i n = some r → ∃ k v, m 0 k = some v ∧ n ∈ N.names v
  bound : ∀ i k v, m i k = some v → i < p + 2 + np

variable {okNames : List κ → Prop}

theorem groupJ_move {w inp : Nat} {out io f}
    (h : (groupTopology pre post make).works[w]? = some (Work.item inp out io f)) {m : Map κ α ε}
    (hm : GroupJ pre.length post.length N okNames m) {k : κ} {v : Except ε α} (hk : m inp k = some v)
    (r : Except ε α) : GroupJ pre.length post.length N okNames (mput (mdel m inp k) out k r) := by
  have hinp : inp ≠ 0 := by rcases group_item h with ⟨_, rfl, _⟩ | ⟨_, _, rfl, _⟩ <;> omega
  have h0 : ∀ k', mput (mdel m inp k) out k r 0 k' = m 0 k' := by
    intro k'
    have hd : mdel m inp k 0 k' = m 0 k' := by
      unfold mdel; rw [if_neg]; rintro ⟨e, _⟩; exact hinp e.symm
    cases out with
    | none => exact hd
    | some o =>
      have ho : (0 : Nat) ≠ o := by
        rcases group_item h with ⟨_, _, h1, _⟩ | ⟨_, _, _, h1, _⟩
        · cases h1; omega
        · split at h1
          · cases h1; omega
          · cases h1
      simp only [mput, madd]
      rw [if_neg (by rintro ⟨e, _⟩; exact ho e), hd]
  rcases group_item h with ⟨h1, rfl, rfl, _⟩ | ⟨h1, h2, rfl, hout, _⟩
  · -- image
    refine ⟨?_, ?_, ?_⟩
    · intro k' v' hk'
      rw [h0] at hk'
      obtain ⟨h3, h4⟩ := hm.groups k' v' hk'
      refine ⟨h3, fun n hn => ?_⟩
      by_cases hnk : n = k
      · subst hnk
        exact ⟨w + 2, by omega, by omega, r, by simp [mput, madd]⟩
      · obtain ⟨i, h5, h6, x, h7⟩ := h4 n hn
        exact ⟨i, h5, h6, x, by simp [mput, madd, mdel, hnk, h7]⟩
    · intro i n x h3 h4 h5
      simp only [h0]
      simp only [mput, madd, mdel] at h5
      split at h5
      · rename_i h6
        rw [h6.2]
        exact hm.used (w + 1) k v (by omega) (by omega) hk
      · split at h5
        · cases h5
        · exact hm.used i n x h3 h4 h5
    · intro i k' v' h3
      simp only [mput, madd, mdel] at h3
      split at h3
      · omega
      · split at h3
        · cases h3
        · exact hm.bound i k' v' h3
  · -- group
    have hsame : ∀ i n, i ≤ pre.length + 1 → mput (mdel m (w + 1) k) out k r i n = m i n := by
      intro i n hi
      have hd : mdel m (w + 1) k i n = m i n := by
        unfold mdel; rw [if_neg]; rintro ⟨e, _⟩; omega
      subst hout
      split
      · simp only [mput, madd]
        rw [if_neg (by rintro ⟨e, _⟩; omega), hd]
      · exact hd
    refine ⟨?_, ?_, ?_⟩
    · intro k' v' hk'
      rw [h0] at hk'
      obtain ⟨h3, h4⟩ := hm.groups k' v' hk'
      refine ⟨h3, fun n hn => ?_⟩
      obtain ⟨i, h5, h6, x, h7⟩ := h4 n hn
      exact ⟨i, h5, h6, x, by rw [hsame i n h6]; exact h7⟩
    · intro i n x h3 h4 h5
      simp only [h0]
      rw [hsame i n h4] at h5
      exact hm.used i n x h3 h4 h5
    · intro i k' v' h3
      subst hout
      split at h3
      · simp only [mput, madd, mdel] at h3
        split at h3
        · omega
        · split at h3
          · cases h3
          · exact hm.bound i k' v' h3
      · simp only [mput, mdel] at h3
        split at h3
        · cases h3
        · exact hm.bound i k' v' h3

/-- The queues with the three queues of the global work replaced. -/
def lift3 (a : Nat) (q : Queues κ α ε) (s : GroupQueues κ α ε) : Queues κ α ε :=
  upd (upd (upd q 0 s.groups) a s.arrays) (a + 1) s.out

theorem lift3_self (a : Nat) (ha : a ≠ 0) (q : Queues κ α ε) :
    lift3 a q { groups := q 0, arrays := q a, out := q (a + 1) } = q := by
  funext i
  unfold lift3 upd
  split
  · rename_i h; rw [h]
  · split
    · rename_i h; rw [h]
    · split
      · rename_i h; rw [h]
      · rfl

theorem lift3_groups (a : Nat) (ha : a ≠ 0) (q : Queues κ α ε) (s : GroupQueues κ α ε) :
    lift3 a q s 0 = s.groups := by
  unfold lift3 upd
  rw [if_neg (by omega), if_neg (by omega), if_pos rfl]

theorem lift3_arrays (a : Nat) (q : Queues κ α ε) (s : GroupQueues κ α ε) : lift3 a q s a = s.arrays := by
  unfold lift3 upd
  rw [if_neg (by omega), if_pos rfl]

theorem lift3_out (a : Nat) (q : Queues κ α ε) (s : GroupQueues κ α ε) : lift3 a q s (a + 1) = s.out := by
  unfold lift3 upd
  rw [if_pos rfl]

theorem lift3_other (a : Nat) (q : Queues κ α ε) (s : GroupQueues κ α ε) (i : Nat) (h0 : i ≠ 0) (h1 : i ≠ a)
    (h2 : i ≠ a + 1) : lift3 a q s i = q i := by
  unfold lift3 upd
  rw [if_neg h2, if_neg h1, if_neg h0]

/-- What the invariant says on the three queues. -/
theorem group_at {q : Queues κ α ε} {fl} {m : Map κ α ε} (hrel : Rel (groupTopology pre post make) q fl m)
    {i : Nat} (hi : i = 0 ∨ i = pre.length + 1) (k : κ) : m i k = (q i).get? k := by
  have hnot : ∀ t : Task κ α, inpOf (groupTopology pre post make) t.w ≠ some i := by
    intro t ht
    have := group_inpOf ht
    omega
  cases hm : m i k with
  | some v =>
    rcases (hrel.at_iff i k v).1 hm with h1 | ⟨t, _, h2, _⟩
    · rw [Dict.mem_get? _ (hrel.keysUnique i) _ _ h1]
    · exact absurd h2 (hnot t)
  | none =>
    cases hg : (q i).get? k with
    | none => rfl
    | some v =>
      have := (hrel.at_iff i k v).2 (Or.inl (Dict.get?_mem _ _ _ hg))
      rw [hm] at this; cases this

theorem makePre_of {q : Queues κ α ε} {fl} {m : Map κ α ε} (hrel : Rel (groupTopology pre post make) q fl m)
    (hJ : GroupJ pre.length post.length N okNames m) :
    MakePre N okNames { groups := q 0, arrays := q (pre.length + 1), out := q (pre.length + 2) } := by
  refine ⟨hrel.keysUnique _, hrel.keysUnique _, ?_, ?_⟩
  · rintro ⟨k, v⟩ hkv
    exact (hJ.groups k v ((hrel.at_iff _ _ _).2 (Or.inl hkv))).1
  · intro n hn
    obtain ⟨r, hr⟩ := (Dict.mem_keys_iff _ _).1 hn
    obtain ⟨k, v, h1, h2⟩ := hJ.used (pre.length + 1) n r (by omega) (by omega)
      ((hrel.at_iff _ _ _).2 (Or.inl hr))
    rw [group_at hrel (Or.inl rfl)] at h1
    exact (isNameInValues_iff _ _ _).2 ⟨k, v, Dict.get?_mem _ _ _ h1, h2⟩

theorem gstep_holds {fl : List (Task κ α)} {tot log} {key : κ} {g : Except ε α} {s s1 : GroupQueues κ α ε}
    {q : Queues κ α ε} {m : Map κ α ε}
    (hrel : Rel (groupTopology pre post make) (lift3 (pre.length + 1) q s) fl m)
    (hinv : (groupContract pre post make N build fin goodG).Inv tot m log)
    (hJ : GroupJ pre.length post.length N okNames m) (hkey : (key, g) ∈ s.groups) (hpost : 0 < post.length) :
    ((∀ k r, goodG k r → ∃ x, build k (N.names r) ((N.names r).map fin) = .ok x) →
      ∃ s1, gstep N build key g s = .ok s1) ∧
    (gstep N build key g s = .ok s1 → ∃ m1, Rel (groupTopology pre post make) (lift3 (pre.length + 1) q s1) fl m1 ∧
      (groupContract pre post make N build fin goodG).Inv tot m1 log ∧
      GroupJ pre.length post.length N okNames m1) := by
  have hgu : s.groups.KeysUnique := by
    have := hrel.keysUnique 0
    rwa [lift3_groups _ (by omega)] at this
  have m0 : m 0 key = some g := by
    refine (hrel.at_iff _ _ _).2 (Or.inl ?_)
    rw [lift3_groups _ (by omega)]; exact hkey
  have harr : ∀ n, m (pre.length + 1) n = s.arrays.get? n := by
    intro n; rw [group_at hrel (Or.inr rfl), lift3_arrays]
  have hm0 : ∀ k, m 0 k = s.groups.get? k := by
    intro k; rw [group_at hrel (Or.inl rfl), lift3_groups _ (by omega)]
  by_cases hall : (N.names g).all (fun n => (s.arrays.get? n).isSome) = true
  swap
  · unfold gstep
    rw [if_neg hall]
    exact ⟨fun _ => ⟨s, rfl⟩, fun hst => by cases hst; exact ⟨m, hrel, hinv, hJ⟩⟩
  -- the arrays are the right ones
  have hvals : (N.names g).filterMap (fun n => s.arrays.get? n) = (N.names g).map fin := by
    have : ∀ ns : List κ, (∀ n ∈ ns, (s.arrays.get? n).isSome = true) →
        ns.filterMap (fun n => s.arrays.get? n) = ns.map fin := by
      intro ns
      induction ns with
      | nil => intro _; rfl
      | cons n ns ih =>
        intro hns
        have h1 := hns n List.mem_cons_self
        obtain ⟨v, hv⟩ := Option.isSome_iff_exists.1 h1
        rw [List.filterMap_cons_some hv, List.map_cons, ih (fun n hn => hns n (List.mem_cons_of_mem _ hn))]
        congr 1
        have hgd := hinv.good (pre.length + 1) n v (by rw [harr]; exact hv)
        simp only [groupContract] at hgd
        have := hgd.2 (by omega) (by omega)
        rw [Nat.add_sub_cancel, List.drop_length] at this
        exact this
    exact this _ (by simpa [List.all_eq_true] using hall)
  unfold gstep
  rw [if_pos hall, hvals]
  refine ⟨fun hbld => ?_, fun hst => ?_⟩
  · obtain ⟨x, hx⟩ := hbld key g ((hinv.good 0 key g m0).1 rfl)
    rw [hx]
    exact ⟨_, rfl⟩
  cases hb : build key (N.names g) ((N.names g).map fin) with
  | error e => rw [hb] at hst; cases hst
  | ok r =>
    rw [hb] at hst
    cases hst
    have hfree : m (pre.length + 2) key = none := by
      cases hx : m (pre.length + 2) key with
      | none => rfl
      | some v =>
        have := hinv.uniq 0 (pre.length + 2) key g v (by simp [groupContract, gline]) m0 hx
        omega
    -- the two maps
    let keep : Nat → κ → Bool := fun i k =>
      if i = 0 then decide (k ≠ key)
      else if i = pre.length + 1 then N.isNameInValues (s.groups.erase key) k else true
    have hR1 := hrel.add (o := pre.length + 2) r hfree
    have hR2 := hR1.restrict (q' := lift3 (pre.length + 1) q
      { groups := s.groups.erase key,
        arrays := s.arrays.filter (fun kv => N.isNameInValues (s.groups.erase key) kv.1),
        out := s.out.set key r }) keep (by
        intro i
        by_cases h0 : i = 0
        · subst h0
          rw [lift3_groups _ (by omega)]
          unfold upd
          rw [if_neg (by omega), lift3_groups _ (by omega), Dict.erase_eq_filter _ _ hgu]
          rfl
        · by_cases h1 : i = pre.length + 1
          · subst h1
            rw [lift3_arrays]
            unfold upd
            rw [if_neg (by omega), lift3_arrays]
            apply List.filter_congr
            intro x _
            simp [keep]
          · have hk : ∀ k, keep i k = true := by
              intro k; simp only [keep]; rw [if_neg h0, if_neg h1]
            by_cases h2 : i = pre.length + 1 + 1
            · subst h2
              rw [lift3_out]
              unfold upd
              rw [if_pos rfl, lift3_out]
              symm
              rw [List.filter_eq_self]
              intro x _; exact hk _
            · rw [lift3_other _ _ _ _ h0 h1 h2]
              unfold upd
              rw [if_neg (by omega), lift3_other _ _ _ _ h0 h1 h2]
              symm
              rw [List.filter_eq_self]
              intro x _; exact hk _) (by
        intro t _ i hi
        have := group_inpOf hi
        simp only [keep]
        rw [if_neg (by omega), if_neg (by omega)])
    have hI1 := hinv.transfer (i := 0) (out := some (pre.length + 2)) (r := r) (evs := []) m0
      (by rintro o ho; cases ho; simp [groupContract, gline])
      (by rintro o ho; cases ho; exact ⟨fun h0 => by omega, fun _ h5 => by omega⟩)
      (by simp)
      (by
        simp only [groupContract, Contract.dueOut, if_true, List.nil_append]
        rw [hb, if_neg (by omega), if_neg (by omega)]
        simp)
    rw [List.append_nil] at hI1
    have hI2 := hI1.restrict keep (by
      intro i k v hv hk
      simp only [keep] at hk
      by_cases h0 : i = 0
      · subst h0
        exfalso
        rw [if_pos rfl] at hk
        have hkk : k = key := by simpa using hk
        simp [mput, madd, mdel, hkk] at hv
      · rw [if_neg h0] at hk
        by_cases h1 : i = pre.length + 1
        · subst h1
          simp only [groupContract]
          rw [if_neg (by omega), if_pos (by omega), Nat.add_sub_cancel, List.drop_length]
          rfl
        · rw [if_neg h1] at hk; cases hk)
    have heq : (fun i k => if keep i k then madd m (pre.length + 2) key r i k else none) =
        (fun i k => if keep i k then mput (mdel m 0 key) (some (pre.length + 2)) key r i k else none) := by
      funext i k
      by_cases hk : keep i k = true
      · rw [if_pos hk, if_pos hk]
        simp only [mput, madd, mdel]
        split
        · rfl
        · rw [if_neg]
          rintro ⟨rfl, rfl⟩
          simp [keep] at hk
      · rw [if_neg hk, if_neg hk]
    rw [← heq] at hI2
    refine ⟨_, hR2, hI2, ?_⟩
    -- the new map
    have e0 : ∀ k, (if keep 0 k then madd m (pre.length + 2) key r 0 k else none) =
        (s.groups.erase key).get? k := by
      intro k
      rw [Dict.get?_erase _ _ _ hgu]
      simp only [keep, madd, if_true]
      by_cases hk : k = key
      · simp [hk]
      · simp [hk, hm0]
    have e1 : ∀ i n, 1 ≤ i → i ≤ pre.length →
        (if keep i n then madd m (pre.length + 2) key r i n else none) = m i n := by
      intro i n h1 h2
      have hk : keep i n = true := by simp only [keep]; rw [if_neg (by omega), if_neg (by omega)]
      rw [if_pos hk]
      unfold madd
      rw [if_neg (by rintro ⟨e, _⟩; omega)]
    have e2 : ∀ n, (if keep (pre.length + 1) n then madd m (pre.length + 2) key r (pre.length + 1) n else none) =
        if N.isNameInValues (s.groups.erase key) n then m (pre.length + 1) n else none := by
      intro n
      have hk : keep (pre.length + 1) n = N.isNameInValues (s.groups.erase key) n := by
        simp only [keep]; rw [if_neg (by omega), if_pos trivial]
      have hma : madd m (pre.length + 2) key r (pre.length + 1) n = m (pre.length + 1) n := by
        unfold madd
        rw [if_neg (by rintro ⟨e, _⟩; omega)]
      rw [hk, hma]
    refine ⟨?_, ?_, ?_⟩
    · intro k v hv
      rw [e0] at hv
      have hv' : m 0 k = some v ∧ k ≠ key := by
        rw [Dict.get?_erase _ _ _ hgu] at hv
        split at hv
        · cases hv
        · rw [hm0]; exact ⟨hv, ‹_›⟩
      obtain ⟨h1, h2⟩ := hJ.groups k v hv'.1
      refine ⟨h1, fun n hn => ?_⟩
      obtain ⟨i, h3, h4, x, h5⟩ := h2 n hn
      refine ⟨i, h3, h4, x, ?_⟩
      by_cases hi : i = pre.length + 1
      · subst hi
        rw [e2, if_pos ?_]
        · exact h5
        · exact (isNameInValues_iff _ _ _).2 ⟨k, v, Dict.get?_mem _ _ _ hv, hn⟩
      · rw [e1 i n h3 (by omega)]; exact h5
    · intro i n x h1 h2 h3
      by_cases hi : i = pre.length + 1
      · subst hi
        rw [e2] at h3
        split at h3
        · rename_i h4
          obtain ⟨k, v, h5, h6⟩ := (isNameInValues_iff _ _ _).1 h4
          exact ⟨k, v, by rw [e0]; exact Dict.mem_get? _ (Dict.keysUnique_erase _ _ hgu) _ _ h5, h6⟩
        · cases h3
      · rw [e1 i n h1 (by omega)] at h3
        obtain ⟨k, v, h4, h5⟩ := hJ.used i n x h1 h2 h3
        refine ⟨k, v, ?_, h5⟩
        rw [e0, Dict.get?_erase _ _ _ hgu, if_neg, ← hm0]
        · exact h4
        · rintro rfl
          -- the names of the group are all loaded
          have hg : v = g := by rw [m0] at h4; exact (Option.some.inj h4).symm
          subst hg
          rw [List.all_eq_true] at hall
          obtain ⟨y, hy⟩ := Option.isSome_iff_exists.1 (hall n h5)
          rw [← harr] at hy
          exact hi (hinv.uniq i (pre.length + 1) n x y (by
            simp only [groupContract, gline]; rw [if_pos ⟨h1, h2⟩, if_pos (by omega)]) h3 hy)
    · intro i k v hv
      split at hv
      · unfold madd at hv
        split at hv
        · omega
        · exact hJ.bound i k v hv
      · cases hv

theorem gloop_holds {fl : List (Task κ α)} {tot log} (todo : Dict κ (Except ε α)) :
    ∀ (s s' : GroupQueues κ α ε) (q : Queues κ α ε) (m : Map κ α ε),
    Rel (groupTopology pre post make) (lift3 (pre.length + 1) q s) fl m →
    (groupContract pre post make N build fin goodG).Inv tot m log →
    GroupJ pre.length post.length N okNames m → todo.KeysUnique → (∀ kv ∈ todo, kv ∈ s.groups) → 0 < post.length →
    ((∀ k r, goodG k r → ∃ x, build k (N.names r) ((N.names r).map fin) = .ok x) →
      ∃ s1, gloop N build todo s = .ok s1) ∧
    (gloop N build todo s = .ok s' →
    ∃ m', Rel (groupTopology pre post make) (lift3 (pre.length + 1) q s') fl m' ∧
      (groupContract pre post make N build fin goodG).Inv tot m' log ∧
      GroupJ pre.length post.length N okNames m') := by
  induction todo with
  | nil =>
    intro s s' q m h1 h2 h3 _ _ _
    refine ⟨fun _ => ⟨s, rfl⟩, fun hs => ?_⟩
    simp only [gloop] at hs
    cases hs
    exact ⟨m, h1, h2, h3⟩
  | cons kv todo ih =>
    obtain ⟨key, g⟩ := kv
    intro s s' q m hrel hinv hJ hu hsub hpost
    unfold gloop
    have hkey := hsub _ List.mem_cons_self
    have hgu : s.groups.KeysUnique := by
      have := hrel.keysUnique 0
      rwa [lift3_groups _ (by omega)] at this
    have hu' := hu
    unfold Dict.KeysUnique at hu'
    rw [Dict.keys_cons, List.nodup_cons] at hu'
    have hsub1 : ∀ s1, gstep N build key g s = .ok s1 → ∀ kv ∈ todo, kv ∈ s1.groups := by
      intro s1 hst kv hkv
      refine gstep_mem hgu hst (hsub kv (List.mem_cons_of_mem _ hkv)) ?_
      intro he
      exact hu'.1 ((Dict.mem_keys_iff _ _).2 ⟨kv.2, he ▸ hkv⟩)
    cases hst : gstep N build key g s with
    | error e =>
      refine ⟨fun hb => ?_, fun h => by cases h⟩
      obtain ⟨s1, hs1⟩ := (gstep_holds (s1 := s) hrel hinv hJ hkey hpost).1 hb
      rw [hst] at hs1; cases hs1
    | ok s1 =>
      obtain ⟨m1, e1, e2, e3⟩ := (gstep_holds (s1 := s1) hrel hinv hJ hkey hpost).2 hst
      exact ih s1 s' q m1 e1 e2 e3 hu'.2 (hsub1 s1 hst) hpost

/-- The global function is a loop of `gstep` in the states which satisfy the invariant, over some groups among which
are all those whose names are loaded. -/
def IsGroupLoop (make : GroupQueues κ α ε → Except ε (GroupQueues κ α ε)) (N : NameTuples κ α)
    (build : κ → List κ → List (Except ε α) → Except ε (Except ε α)) (okNames : List κ → Prop)
    (goodG : κ → Except ε α → Prop) : Prop :=
  ∀ s, MakePre N okNames s → (∀ kv ∈ s.groups, goodG kv.1 kv.2) →
    ∃ todo : Dict κ (Except ε α), todo.KeysUnique ∧ (∀ kv ∈ todo, kv ∈ s.groups) ∧
      (∀ kv ∈ s.groups, kv ∉ todo → ¬ ((N.names kv.2).all (fun n => (s.arrays.get? n).isSome) = true)) ∧
      make s = gloop N build todo s

theorem IsGroupLoop.all (h : ∀ s, MakePre N okNames s → make s = gloop N build s.groups s) :
    IsGroupLoop make N build okNames goodG :=
  fun s hs _ => ⟨s.groups, hs.groups, fun _ h => h, fun _ h1 h2 => absurd h1 h2, h s hs⟩

theorem group_good {q : Queues κ α ε} {fl : List (Task κ α)} {m : Map κ α ε} {tot log}
    (hrel : Rel (groupTopology pre post make) q fl m)
    (hinv : (groupContract pre post make N build fin goodG).Inv tot m log) : ∀ kv ∈ q 0, goodG kv.1 kv.2 :=
  fun kv h => (hinv.good 0 kv.1 kv.2 ((hrel.at_iff 0 kv.1 kv.2).2 (Or.inl h))).1 rfl

theorem group_globLaws (hmake : IsGroupLoop make N build okNames goodG) (hpost : 0 < post.length) :
    GlobLaws (groupContract pre post make N build fin goodG)
      (fun m _ => GroupJ pre.length post.length N okNames m) where
  call := by intro w inp out io f h m k v _ _ _ hm hk; exact groupJ_move h hm hk _
  forward := by intro w inp out io f h m k e _ _ _ hm hk; exact groupJ_move h hm hk _
  glob := by
    intro w ready outLen run h nio q a fl m tot log q' a' evs hrel hinv hJ hrun
    obtain ⟨_, hw⟩ := group_glob h
    unfold groupWork at hw
    injection hw with _ _ hr
    subst hr
    simp only at hrun
    have hpre := makePre_of hrel hJ
    obtain ⟨todo, hu, hsub, _, he⟩ := hmake _ hpre (group_good hrel hinv)
    rw [he] at hrun
    split at hrun
    · cases hrun
    · rename_i s hs
      cases hrun
      rw [List.append_nil]
      have hself : Rel (groupTopology pre post make) (lift3 (pre.length + 1) q
          { groups := q 0, arrays := q (pre.length + 1), out := q (pre.length + 2) }) fl m := by
        rw [lift3_self _ (by omega)]; exact hrel
      exact (gloop_holds todo _ s q m hself hinv hJ hu hsub hpost).2 hs

end
end Verif.Exec
