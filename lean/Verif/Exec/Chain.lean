import Verif.Exec.Live
import Verif.Spec.Chain

/-!
# Chains of works satisfy the laws
-/

namespace Verif.Exec
open Verif Verif.Spec
set_option linter.unusedSectionVars false

variable {κ α ε : Type} [DecidableEq κ]

theorem chainWorks_get (i : Nat) (ws : List (ChainWork κ α ε)) (n : Nat) :
    (chainWorks i ws)[n]? = (ws[n]?).map (fun c =>
      Work.item (i + n) (if n + 1 < ws.length then some (i + n + 1) else none) c.io c.f) := by
  induction ws generalizing i n with
  | nil => simp [chainWorks]
  | cons w ws ih =>
    cases ws with
    | nil =>
      cases n with
      | zero => simp [chainWorks]
      | succ n => simp [chainWorks]
    | cons w' ws =>
      cases n with
      | zero => simp [chainWorks]
      | succ n =>
        simp only [chainWorks, List.getElem?_cons_succ]
        rw [ih (i + 1) n]
        simp only [List.length_cons, Nat.add_lt_add_iff_right]
        rw [show i + 1 + n = i + (n + 1) by omega]

theorem chain_get {ws : List (ChainWork κ α ε)} {w inp : Nat} {out io f}
    (h : (chain ws).works[w]? = some (Work.item inp out io f)) :
    inp = w ∧ w < ws.length ∧ out = (if w + 1 < ws.length then some (w + 1) else none) ∧
    ∃ c, ws[w]? = some c ∧ c.io = io ∧ c.f = f := by
  simp only [chain] at h
  rw [chainWorks_get] at h
  cases hc : ws[w]? with
  | none => rw [hc] at h; simp at h
  | some c =>
    rw [hc] at h
    simp only [Option.map_some, Option.some.injEq, Work.item.injEq] at h
    obtain ⟨h1, h2, h3, h4⟩ := h
    obtain ⟨hlt, _⟩ := List.getElem?_eq_some_iff.1 hc
    refine ⟨by omega, hlt, ?_, c, rfl, h3, h4⟩
    rw [← h2]; simp

theorem chain_not_glob {ws : List (ChainWork κ α ε)} {w : Nat} {ready outLen run}
    (h : (chain ws).works[w]? = some (Work.glob ready outLen run)) : False := by
  simp only [chain] at h
  rw [chainWorks_get] at h
  cases hc : ws[w]? with
  | none => rw [hc] at h; simp at h
  | some c => rw [hc] at h; simp at h

theorem chain_item {ws : List (ChainWork κ α ε)} {w : Nat} (h : w < ws.length) :
    (chain ws).works[w]? = some (Work.item w (if w + 1 < ws.length then some (w + 1) else none) ws[w].io ws[w].f) := by
  simp only [chain]
  rw [chainWorks_get, List.getElem?_eq_getElem h]
  simp

def chainContract (ws : List (ChainWork κ α ε)) : Contract (chain ws) where
  line := fun _ => 0
  wline := fun _ => 0
  due := fun q k r => itemEvents k q (ws.drop q) r
  good := fun _ _ _ => True

theorem drop_eq_cons {β : Type} {l : List β} {n : Nat} {x : β} (h : l[n]? = some x) :
    l.drop n = x :: l.drop (n + 1) := by
  obtain ⟨hlt, hget⟩ := List.getElem?_eq_some_iff.1 h
  rw [← hget, List.getElem_cons_drop]

theorem chain_lawful (ws : List (ChainWork κ α ε)) : (chainContract ws).Lawful where
  out_ne := by
    intro w inp out io f h
    obtain ⟨rfl, _, rfl, _⟩ := chain_get h
    split
    · intro e; simp at e
    · simp
  line_eq := by intros; rfl
  wline_eq := by intros; rfl
  due_ok := by
    intro w inp out io f h k v _
    obtain ⟨rfl, hlt, rfl, c, hc, rfl, rfl⟩ := chain_get h
    simp only [chainContract]
    rw [drop_eq_cons hc]
    by_cases hlast : inp + 1 < ws.length
    · simp only [hlast, if_true, Contract.dueOut]
      cases hr : c.f k v <;> simp [itemEvents, hr, callEvents]
    · have hnil : ws.drop (inp + 1) = [] := List.drop_eq_nil_iff.2 (by omega)
      rw [hnil]
      simp only [hlast, if_false, Contract.dueOut]
      cases hr : c.f k v <;> simp [itemEvents, hr, callEvents]
  due_error := by
    intro w inp out io f h k e _
    obtain ⟨rfl, hlt, rfl, c, hc, rfl, rfl⟩ := chain_get h
    simp only [chainContract]
    rw [drop_eq_cons hc]
    by_cases hlast : inp + 1 < ws.length
    · have hne : ws.drop (inp + 1) ≠ [] := fun e => by have := List.drop_eq_nil_iff.1 e; omega
      simp only [hlast, if_true, Contract.dueOut, itemEvents, hne, if_false, forwardEvents, List.nil_append]
    · have hnil : ws.drop (inp + 1) = [] := List.drop_eq_nil_iff.2 (by omega)
      rw [hnil]
      simp [hlast, Contract.dueOut, itemEvents, forwardEvents]
  good_ok := by intros; trivial
  good_error := by intros; trivial

/-- The items are in the queues of the chain. -/
def chainJ (ws : List (ChainWork κ α ε)) (m : Map κ α ε) : Prop := ∀ i k v, m i k = some v → i < ws.length

theorem chainJ_move {ws : List (ChainWork κ α ε)} {w inp : Nat} {out io f}
    (h : (chain ws).works[w]? = some (Work.item inp out io f)) {m : Map κ α ε} (hm : chainJ ws m) (k : κ)
    (r : Except ε α) : chainJ ws (mput (mdel m inp k) out k r) := by
  obtain ⟨rfl, hlt, rfl, _⟩ := chain_get h
  intro i k' v' hi
  have hdel : ∀ i k' v', mdel m inp k i k' = some v' → i < ws.length := by
    intro i k' v' h1
    unfold mdel at h1
    split at h1
    · cases h1
    · exact hm i k' v' h1
  split at hi
  · simp only [mput, madd] at hi
    split at hi
    · rename_i h2 h3; rw [h3.1]; exact h2
    · exact hdel i k' v' hi
  · exact hdel i k' v' hi

theorem chain_globLaws (ws : List (ChainWork κ α ε)) : GlobLaws (chainContract ws) (fun m _ => chainJ ws m) where
  call := by intro w inp out io f h m k v _ _ _ hm _; exact chainJ_move h hm k _
  forward := by intro w inp out io f h m k e _ _ _ hm _; exact chainJ_move h hm k _
  glob := by intro w ready outLen run h; exact (chain_not_glob h).elim

/-- What has to happen to each key. -/
def chainTot (ws : List (ChainWork κ α ε)) (items : Dict κ (Except ε α)) (l : Nat) (k : κ) : List (Event κ α ε) :=
  if l = 0 then
    match items.get? k with
    | some v => itemEvents k 0 ws v
    | none => []
  else []

theorem chain_init {ws : List (ChainWork κ α ε)} (hws : ws ≠ []) {items : Dict κ (Except ε α)}
    (hk : items.KeysUnique) :
    Holds (chain ws) (chainContract ws) (fun m _ => chainJ ws m) (chainTot ws items) (startQueues items) [] [] := by
  have hu : ∀ i, (startQueues items i).KeysUnique := by
    intro i; unfold startQueues; split
    · exact hk
    · exact List.nodup_nil
  have hpos : 0 < ws.length := List.length_pos_iff.2 hws
  have hat : ∀ i k v, (startQueues items i).get? k = some v → i = 0 ∧ items.get? k = some v := by
    intro i k v h
    unfold startQueues at h
    split at h
    · exact ⟨‹_›, h⟩
    · cases h
  refine ⟨_, Rel.ofQueues _ _ hu, ?_, ?_⟩
  · refine Contract.Inv.init _ _ _ ?_ ?_ ?_ ?_
    · intro i j k v v' _ h1 h2
      rw [(hat i k v h1).1, (hat j k v' h2).1]
    · intros; trivial
    · intro i k v h
      obtain ⟨rfl, h1⟩ := hat i k v h
      simp [chainContract, chainTot, h1]
    · intro l k h
      by_cases hl : l = 0
      · subst hl
        have := h 0 rfl
        simp only [startQueues, if_true] at this
        simp [chainTot, this]
      · simp [chainTot, hl]
  · intro i k v h
    rw [(hat i k v h).1]; exact hpos

theorem chain_rank (ws : List (ChainWork κ α ε)) : RankLaws (chain ws) (fun i => ws.length - i) where
  inp_lt := by
    intro w inp out io f h
    obtain ⟨rfl, hlt, _⟩ := chain_get h
    exact hlt
  pos := by
    intro w inp out io f h
    obtain ⟨rfl, hlt, _⟩ := chain_get h
    show 0 < ws.length - inp
    omega
  lt := by
    intro w inp o io f h
    obtain ⟨rfl, hlt, hout, _⟩ := chain_get h
    split at hout
    · cases hout
      show ws.length - (inp + 1) < ws.length - inp
      omega
    · cases hout

theorem exists_last (p : Nat → Prop) (n : Nat) (h : ∃ i < n, p i) : ∃ i < n, p i ∧ ∀ j, i < j → j < n → ¬ p j := by
  induction n with
  | zero => obtain ⟨i, hi, _⟩ := h; omega
  | succ n ih =>
    by_cases hn : p n
    · exact ⟨n, by omega, hn, fun j h1 h2 => by omega⟩
    · obtain ⟨i, hi, hpi⟩ := h
      have : i ≠ n := by rintro rfl; exact hn hpi
      obtain ⟨j, h1, h2, h3⟩ := ih ⟨i, by omega, hpi⟩
      refine ⟨j, by omega, h2, fun j' h4 h5 => ?_⟩
      by_cases e : j' = n
      · rw [e]; exact hn
      · exact h3 j' h4 (by omega)

theorem chain_progress {ws : List (ChainWork κ α ε)} {q : Queues κ α ε} {a : Unit}
    (hne : allEmpty (chain ws) q a = false) :
    ∃ (w inp : Nat) (out : Option Nat) (io : Bool) (f : κ → α → Except ε α),
      (chain ws).works[w]? = some (Work.item inp out io f) ∧ q inp ≠ [] ∧ ∀ o, out = some o → q o = [] := by
  have hex : ∃ i < ws.length, q i ≠ [] := by
    by_contra hcon
    have : allEmpty (chain ws) q a = true := by
      rw [allEmpty_iff]
      refine ⟨fun i hi => ?_, rfl⟩
      by_contra h
      exact hcon ⟨i, hi, h⟩
    rw [this] at hne; cases hne
  obtain ⟨i, hi, h1, h2⟩ := exists_last (fun i => q i ≠ []) _ hex
  refine ⟨i, i, _, _, _, chain_item hi, h1, ?_⟩
  intro o ho
  split at ho
  · cases ho
    have := h2 (i + 1) (by omega) ‹_›
    simpa using this
  · cases ho

theorem chain_aprogress (ws : List (ChainWork κ α ε)) (c : Cfg) (hq : 0 < c.queueMax)
    (P : Queues κ α ε → List (Task κ α) → Unit → Prop) : AProgress (chain ws) c P := by
  intro q a _ hne
  obtain ⟨w, inp, out, io, f, h1, h2, h3⟩ := chain_progress hne
  refine Or.inl ⟨w, inp, out, io, f, h1, h2, ?_⟩
  cases out with
  | none => rfl
  | some o => simp [outFull, h3 o rfl]; omega

theorem chain_sprogress (ws : List (ChainWork κ α ε)) (c : Cfg)
    (P : Queues κ α ε → List (Task κ α) → Unit → Prop) : SProgress (chain ws) c P := by
  intro q a _ hne
  obtain ⟨w, inp, out, io, f, h1, h2, _⟩ := chain_progress hne
  exact Or.inl ⟨w, inp, out, io, f, h1, h2⟩

theorem chain_globPot (ws : List (ChainWork κ α ε)) (rank : Nat → Nat) (auxPot : Unit → Nat)
    (P : Queues κ α ε → List (Task κ α) → Unit → Prop) : GlobPot (chain ws) rank auxPot P := by
  intro w ready outLen run h
  exact (chain_not_glob h).elim

theorem keyOf_eq (e : Event κ α ε) : keyOf e = e.key := by cases e <;> rfl

/-- When everything is empty, the history of each key is the one of the specification. -/
theorem chain_done {ws : List (ChainWork κ α ε)} {items : Dict κ (Except ε α)} {q : Queues κ α ε}
    {log : List (Event κ α ε)} {a : Unit}
    (h : Holds (chain ws) (chainContract ws) (fun m _ => chainJ ws m) (chainTot ws items) q [] log)
    (he : allEmpty (chain ws) q a = true) (k : κ) :
    historyOf k log = (match items.get? k with | some v => itemEvents k 0 ws v | none => []) := by
  have hq : ∀ i, q i = [] := by
    intro i
    by_cases hi : i < ws.length
    · exact (allEmpty_iff.1 he).1 i hi
    · obtain ⟨m, h1, _, h3⟩ := h
      cases hqi : q i with
      | nil => rfl
      | cons kv rest =>
        obtain ⟨k, v⟩ := kv
        exact absurd (h3 i k v (h1.head_at hqi)) hi
  have := h.done hq rfl 0 k
  simp only [chainTot, if_true] at this
  rw [← this]
  unfold historyOf Contract.hist
  simp [keyOf_eq, chainContract]

/-- A log whose histories are those of the items is a permutation of the events of the items. -/
theorem perm_of_histories (log : List (Event κ α ε)) (items : Dict κ (Except ε α)) (hk : items.KeysUnique)
    (F : κ → Except ε α → List (Event κ α ε)) (hF : ∀ k v, ∀ e ∈ F k v, keyOf e = k)
    (h : ∀ k, historyOf k log = (match items.get? k with | some v => F k v | none => [])) :
    log.Perm (items.flatMap (fun kv => F kv.1 kv.2)) := by
  induction items generalizing log with
  | nil =>
    have : log = [] := by
      cases log with
      | nil => rfl
      | cons e log =>
        have := h (keyOf e)
        simp [historyOf, Dict.get?] at this
    rw [this]; exact List.Perm.refl _
  | cons kv items ih =>
    obtain ⟨k, v⟩ := kv
    have hk' := hk
    unfold Dict.KeysUnique at hk'
    rw [Dict.keys_cons, List.nodup_cons] at hk'
    have h1 := h k
    simp only [Dict.get?, if_true] at h1
    have hperm : log.Perm (historyOf k log ++ log.filter (fun e => ! decide (keyOf e = k))) :=
      (List.filter_append_perm _ _).symm
    refine hperm.trans ?_
    rw [h1, List.flatMap_cons]
    refine List.Perm.append_left _ (ih _ hk'.2 ?_)
    intro k'
    by_cases he : k' = k
    · subst he
      rw [(Dict.get?_eq_none_iff items k').2 hk'.1]
      simp [historyOf, List.filter_filter]
    · have h2 := h k'
      simp only [Dict.get?, if_neg (fun e : k = k' => he e.symm)] at h2
      rw [← h2]
      unfold historyOf
      rw [List.filter_filter]
      congr 1
      funext e
      by_cases h3 : keyOf e = k'
      · simp [h3, he]
      · simp [h3]

theorem itemEvents_key (k : κ) (w : Nat) (ws : List (ChainWork κ α ε)) (r : Except ε α) :
    ∀ e ∈ itemEvents k w ws r, keyOf e = k := by
  induction ws generalizing w r with
  | nil => intro e he; simp [itemEvents] at he
  | cons c ws ih =>
    cases r with
    | ok v =>
      simp only [itemEvents]
      split
      · intro e he
        rcases List.mem_cons.1 he with rfl | he
        · rfl
        · exact ih _ _ e he
      · intro e he
        rcases List.mem_cons.1 he with rfl | he
        · rfl
        · rcases List.mem_cons.1 he with rfl | he
          · rfl
          · exact ih _ _ e he
    | error er =>
      simp only [itemEvents]
      split
      · intro e he
        rw [List.mem_singleton] at he; subst he; rfl
      · exact ih _ _

end Verif.Exec
