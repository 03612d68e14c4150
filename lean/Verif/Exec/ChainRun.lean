import Verif.Exec.Chain
import Verif.Exec.StopIfError
import Verif.Exec.Bounds

/-!
# Executions of chains of works
-/

namespace Verif.Exec
open Verif Verif.Spec
set_option linter.unusedSectionVars false

variable {κ α ε : Type} [DecidableEq κ]

theorem chain_wellFormed (ws : List (ChainWork κ α ε)) : WellFormed (chain ws) where
  inp_lt := by intro w inp out io f h; obtain ⟨rfl, h1, _⟩ := chain_get h; exact h1
  ready := by intro w ready outLen run h; exact (chain_not_glob h).elim

theorem chain_quiet (ws : List (ChainWork κ α ε)) : GlobsQuiet (chain ws) := by
  intro w ready outLen run h; exact (chain_not_glob h).elim

theorem chain_onlyWriter {ws : List (ChainWork κ α ε)} {w : Nat} : OnlyWriter (chain ws) w (w + 1) where
  other := by
    intro w' inp out io f h hne
    obtain ⟨_, _, rfl, _⟩ := chain_get h
    split
    · intro e; simp only [Option.some.injEq] at e; omega
    · simp
  shrink := by intro w ready outLen run h; exact (chain_not_glob h).elim

theorem seqWork_noCrash {σ : Type} {c : Cfg} (hst : c.stopIfError = false) {w inp : Nat} {out io f}
    {s : SState κ α ε σ} (hs : s.crashed = none) : (seqWork c w (Work.item inp out io f) s).crashed = none := by
  unfold seqWork
  rw [hs]
  dsimp only
  split
  · exact hs
  · split
    · rfl
    · split
      · rfl
      · split
        · rename_i h; rw [hst] at h; cases h
        · rfl

theorem seqWorks_noCrash {ws : List (ChainWork κ α ε)} {c : Cfg} (hst : c.stopIfError = false) {w : Nat}
    {works : List (Work κ α ε Unit)} (hw : (chain ws).works.drop w = works)
    {s : SState κ α ε Unit} (hs : s.crashed = none) : (seqWorks c w works s).crashed = none := by
  induction works generalizing w s with
  | nil => exact hs
  | cons work works ih =>
    have h1 : (chain ws).works[w]? = some work := by
      have : ((chain ws).works.drop w)[0]? = some work := by rw [hw]; rfl
      rwa [List.getElem?_drop, Nat.add_zero] at this
    have h2 : (chain ws).works.drop (w + 1) = works := by rw [← List.drop_drop, hw]; rfl
    refine ih h2 ?_
    cases work with
    | item => exact seqWork_noCrash hst hs
    | glob => exact (chain_not_glob h1).elim

theorem seqLoop_noCrash {ws : List (ChainWork κ α ε)} {c : Cfg} (hst : c.stopIfError = false) {n : Nat}
    {s s' : SState κ α ε Unit} (hl : seqLoop (chain ws) c n s = some s') (hs : s.crashed = none) :
    s'.crashed = none := by
  induction n generalizing s with
  | zero =>
    rw [seqLoop_zero] at hl
    split at hl
    · cases hl; exact hs
    · split at hl
      · cases hl; exact hs
      · cases hl
  | succ n ih =>
    rw [seqLoop_succ] at hl
    split at hl
    · cases hl; exact hs
    · split at hl
      · cases hl; exact hs
      · exact ih hl (seqWorks_noCrash (ws := ws) hst (by simp) hs)

theorem astep_noCrash {ws : List (ChainWork κ α ε)} {c : Cfg} (hst : c.stopIfError = false) {l : Label}
    {s s' : AState κ α ε Unit} (h : astep (chain ws) c l s = some s') : s'.crashed = none := by
  obtain ⟨h1, h2⟩ := astep_cases h
  cases h2 with
  | launch => exact h1
  | beginEmpty => exact h1
  | beginError => exact h1
  | beginOk => rw [incr_crashed]; exact h1
  | finish => rw [decr_crashed]; exact h1
  | finishCrash _ _ hst' => rw [hst] at hst'; cases hst'
  | glob hw => exact (chain_not_glob hw).elim
  | globCrash hw => exact (chain_not_glob hw).elim
  | checkStop => exact h1
  | check => exact h1

/-- The result of an execution which stops without a crash. -/
theorem chain_seq_history {ws : List (ChainWork κ α ε)} (hws : ws ≠ []) {items : Dict κ (Except ε α)}
    (hk : items.KeysUnique) {c : Cfg} {n : Nat} {s : SState κ α ε Unit}
    (h : seqLoop (chain ws) c n (SState.init (startQueues items) ()) = some s) (hc : s.crashed = none) (k : κ) :
    historyOf k s.log = (match items.get? k with | some v => itemEvents k 0 ws v | none => []) := by
  obtain ⟨h1, h2⟩ := Holds.seqLoop (chain_lawful ws) (chain_globLaws ws) h (chain_init hws hk) hc
  exact chain_done h1 h2 k

theorem chain_async_history {ws : List (ChainWork κ α ε)} (hws : ws ≠ []) {items : Dict κ (Except ε α)}
    (hk : items.KeysUnique) {c : Cfg} {ls} {s : AState κ α ε Unit}
    (h : ARun (chain ws) c (AState.init (startQueues items) ()) ls s) (hstop : s.stop = true) (k : κ) :
    historyOf k s.log = (match items.get? k with | some v => itemEvents k 0 ws v | none => []) := by
  obtain ⟨h1, h2⟩ := stopped_of_run (chain_wellFormed ws) h (CInv.init _ _) rfl hstop
  have h3 := Holds.run (chain_lawful ws) (chain_globLaws ws) h (chain_init hws hk) (h2 rfl)
  rw [h1.idle] at h3
  exact chain_done h3 h1.empty k

theorem chain_perm {ws : List (ChainWork κ α ε)} {items : Dict κ (Except ε α)}
    (hk : items.KeysUnique) {log : List (Event κ α ε)}
    (h : ∀ k, historyOf k log = (match items.get? k with | some v => itemEvents k 0 ws v | none => [])) :
    log.Perm (allEvents ws items) :=
  perm_of_histories log items hk (fun k v => itemEvents k 0 ws v) (fun k v => itemEvents_key k 0 ws v) h

/-! ## Shape of the history of an item -/

theorem itemEvents_error (k : κ) (w : Nat) (ws : List (ChainWork κ α ε)) (e : ε) :
    itemEvents k w ws (.error e) = if ws = [] then [] else [.dropped (w + ws.length - 1) k e] := by
  induction ws generalizing w with
  | nil => rfl
  | cons c ws ih =>
    simp only [itemEvents]
    split
    · rename_i h; subst h; simp
    · rename_i h
      rw [ih, if_neg h]
      simp only [List.length_cons]
      rw [if_neg (by simp)]
      congr 2
      omega

theorem itemEvents_failed {k : κ} {w : Nat} {ws : List (ChainWork κ α ε)} {r : Except ε α} {w' : Nat} {k' : κ} {e : ε}
    (h : Event.failed w' k' e ∈ itemEvents k w ws r) :
    k' = k ∧ w ≤ w' ∧ w' < w + ws.length ∧ ∃ vals : List α, vals.length = w' - w + 1 ∧
      itemEvents k w ws r = vals.mapIdx (fun i v => Event.call (w + i) k v) ++ [Event.failed w' k e] ++
        (if w' + 1 = w + ws.length then [] else [Event.dropped (w + ws.length - 1) k e]) := by
  induction ws generalizing w r with
  | nil => simp [itemEvents] at h
  | cons c ws ih =>
    cases r with
    | error er =>
      rw [itemEvents_error] at h
      simp at h
    | ok v =>
      simp only [itemEvents] at h ⊢
      split at h
      · rename_i r hr
        rw [List.mem_cons] at h
        rcases h with h | h
        · cases h
        · obtain ⟨h1, h2, h3, vals, h4, h5⟩ := ih h
          refine ⟨h1, by omega, by simp only [List.length_cons]; omega, v :: vals, by simp only [List.length_cons]; omega, ?_⟩
          rw [h5]
          simp only [List.mapIdx_cons, List.length_cons, List.cons_append, Nat.add_zero]
          congr 1
          rw [show w + (ws.length + 1) = w + 1 + ws.length by omega]
          congr 3
          · funext i v; congr 1; omega
      · rename_i er hr
        rw [List.mem_cons, List.mem_cons] at h
        rcases h with h | h | h
        · cases h
        · cases h
          refine ⟨rfl, Nat.le_refl _, by simp, [v], by simp, ?_⟩
          rw [itemEvents_error]
          simp only [List.mapIdx_cons, List.mapIdx_nil, Nat.add_zero, List.length_cons, List.cons_append, List.nil_append]
          congr 2
          cases ws with
          | nil => simp
          | cons c' ws =>
            simp only [List.length_cons]
            rw [if_neg (by simp), if_neg (by omega)]
            congr 2
            omega
        · rw [itemEvents_error] at h
          split at h <;> simp at h

theorem itemEvents_ok {k : κ} {w : Nat} {ws : List (ChainWork κ α ε)} {v : α}
    (h : ∀ w' e, Event.failed w' k e ∉ itemEvents k w ws (.ok v)) :
    ∃ vals : List α, vals.length = ws.length ∧
      itemEvents k w ws (.ok v) = vals.mapIdx (fun i v => Event.call (w + i) k v) := by
  induction ws generalizing w v with
  | nil => exact ⟨[], rfl, rfl⟩
  | cons c ws ih =>
    simp only [itemEvents] at h ⊢
    split at h
    · rename_i r hr
      obtain ⟨vals, h1, h2⟩ := ih (w := w + 1) (v := r) (fun w' e he => h w' e (List.mem_cons_of_mem _ he))
      refine ⟨v :: vals, by simp [h1], ?_⟩
      rw [h2]
      simp only [List.mapIdx_cons, Nat.add_zero]
      congr 2
      · funext i v; congr 1; omega
    · rename_i e hr
      exact absurd (by simp) (h w e)

theorem itemEvents_congr {k : κ} {w : Nat} {ws ws' : List (ChainWork κ α ε)} {r : Except ε α}
    (hlen : ws.length = ws'.length)
    (h : ∀ (i : Nat) (c c' : ChainWork κ α ε), ws[i]? = some c → ws'[i]? = some c' → c.f k = c'.f k) :
    itemEvents k w ws r = itemEvents k w ws' r := by
  induction ws generalizing ws' w r with
  | nil =>
    cases ws' with
    | nil => rfl
    | cons c' ws' => simp at hlen
  | cons c ws ih =>
    cases ws' with
    | nil => simp at hlen
    | cons c' ws' =>
      have hlen' : ws.length = ws'.length := by simpa using hlen
      have h0 : c.f k = c'.f k := h 0 c c' rfl rfl
      have ih' : ∀ w r, itemEvents k w ws r = itemEvents k w ws' r := fun w r =>
        ih hlen' (fun i a b ha hb => h (i + 1) a b (by simpa using ha) (by simpa using hb))
      cases r with
      | ok v => simp only [itemEvents, h0, ih']
      | error e =>
        rw [itemEvents_error, itemEvents_error]
        simp [hlen']

end Verif.Exec
