import Verif.Exec.TrackStep

/-!
# Surface tracking: executions
-/

namespace Verif.Exec
open Verif Verif.Spec
set_option linter.unusedSectionVars false

variable {κ α ε : Type} [DecidableEq κ]

section
variable {O : TrackOps κ α ε} {ups downs : List (ChainWork κ α ε)} {correct : κ → α → Except ε α}
  {names : List κ} {frame prev : κ → Except ε α} {ckey : Nat → κ} {tot : Nat → κ → List (Event κ α ε)}

theorem trackJ_flush (hd : 0 < downs.length) {m : Map κ α ε} {j : Nat} (hjN : j = names.length)
    {done : List κ} (hJ : TrackJ ups.length downs.length O.tup ckey names j m done) (n : κ) (x : Except ε α) :
    TrackJ ups.length downs.length O.tup ckey names j
      (mput (mdel m (ups.length + 3) n) (some (ups.length + 4)) n x) done := by
  have hsame : ∀ l k, l ≠ ups.length + 3 → l ≠ ups.length + 4 →
      mput (mdel m (ups.length + 3) n) (some (ups.length + 4)) n x l k = m l k := by
    intro l k h1 h2
    simp [mput, madd, mdel, h1, h2]
  refine ⟨hJ.le, ?_, ?_, ?_, ?_, ?_, ?_, ?_⟩
  · intro k v
    rw [hsame 0 k (by omega) (by omega)]
    exact hJ.pairs k v
  · intro i b hi hb
    obtain ⟨h, _⟩ := List.getElem?_eq_some_iff.1 hb
    omega
  · intro l b v h1 h2 h3
    rw [hsame l b (by omega) (by omega)] at h3
    exact hJ.upIdx l b v h1 h2 h3
  · intro l b v h1 h3
    rcases (mput_mdel_iff ..).1 h3 with ⟨h, _⟩ | ⟨_, _, h⟩
    · simp only [Option.some.injEq] at h; omega
    · exact hJ.mid l b v h1 h
  · intro i a hi hlt; omega
  · intro l b v h3
    rcases (mput_mdel_iff ..).1 h3 with ⟨h, _⟩ | ⟨_, _, h⟩
    · simp only [Option.some.injEq] at h; omega
    · exact hJ.bound l b v h
  · rcases hJ.order with ⟨i, b, v, h1, h2, h3, h4⟩ | ⟨h1, h2⟩
    · exact Or.inl ⟨i, b, v, h1, h2, by rw [hsame _ _ (by omega) (by omega)]; exact h3, h4⟩
    · exact Or.inr ⟨fun k => by rw [hsame _ _ (by omega) (by omega)]; exact h1 k, h2⟩

theorem flushMod_holds (hd : 0 < downs.length) {fl : List (Task κ α)} {log} {j : Nat} (hjN : j = names.length)
    {done : List κ} (ks : List κ) : ∀ (q : Queues κ α ε) (m : Map κ α ε), Rel (trackTopology O ups correct downs) q fl m →
    (trackContract O ups downs correct names frame prev).Inv tot m log →
    TrackJ ups.length downs.length O.tup ckey names j m done →
    (flushMod (ups.length + 1) ks q) 0 = q 0 ∧
    ((flushMod (ups.length + 1) ks q = q ∧ ∀ k ∈ ks, k ∉ (q (ups.length + 3)).keys) ∨
     ((∃ m', Rel (trackTopology O ups correct downs) (flushMod (ups.length + 1) ks q) fl m' ∧
        (trackContract O ups downs correct names frame prev).Inv tot m' log ∧
        TrackJ ups.length downs.length O.tup ckey names j m' done) ∧
      potQ (trank (ups.length + 4 + downs.length)) (ups.length + 4 + downs.length)
        (flushMod (ups.length + 1) ks q) <
      potQ (trank (ups.length + 4 + downs.length)) (ups.length + 4 + downs.length) q)) := by
  induction ks with
  | nil => intro q m _ _ _; exact ⟨rfl, Or.inl ⟨rfl, fun _ h => by cases h⟩⟩
  | cons k ks ih =>
    intro q m hrel hinv hJ
    unfold flushMod
    rw [show ups.length + 1 + 2 = ups.length + 3 by omega, show ups.length + 1 + 3 = ups.length + 4 by omega]
    cases hx : (q (ups.length + 3)).get? k with
    | none =>
      dsimp only
      obtain ⟨h0, h⟩ := ih q m hrel hinv hJ
      refine ⟨h0, h.imp (fun h => ⟨h.1, ?_⟩) id⟩
      intro k' hk'
      rcases List.mem_cons.1 hk' with rfl | hk'
      · exact (Dict.get?_eq_none_iff _ _).1 hx
      · exact h.2 k' hk'
    | some x =>
      dsimp only
      have hx' : m (ups.length + 3) k = some x := by rw [track_at0 hrel (by omega), hx]
      obtain ⟨h1, h2, h3⟩ := track_flush hd hrel hinv hx'
      have e := moves2 (a := ups.length + 1) q (by omega) k x
      rw [show ups.length + 1 + 2 = ups.length + 3 by omega, show ups.length + 1 + 3 = ups.length + 4 by omega,
        upd_ne q (show ups.length + 3 ≠ ups.length + 4 by omega)] at e
      rw [e]
      have hJ' := trackJ_flush hd hjN hJ k x
      obtain ⟨h4, h5⟩ := ih _ _ h1 h2 hJ'
      refine ⟨?_, Or.inr ?_⟩
      · rw [h4]; unfold moveQ; rw [upd_ne _ (by omega), upd_ne _ (by omega)]
      · rcases h5 with ⟨h5, _⟩ | ⟨h5, h6⟩
        · rw [h5]; exact ⟨⟨_, h1, h2, hJ'⟩, h3⟩
        · exact ⟨h5, Nat.lt_trans h6 h3⟩

theorem track_loop (hd : 0 < downs.length) (hnd : names.Nodup) (hck : Function.Injective ckey)
    (hprev : IsPrev O correct names frame prev) {fl : List (Task κ α)} {log} {done : List κ}
    (todo : Dict κ (Except ε α)) :
    ∀ (q : Queues κ α ε) (m : Map κ α ε) (j : Nat), Rel (trackTopology O ups correct downs) q fl m →
    (trackContract O ups downs correct names frame prev).Inv tot m log →
    TrackJ ups.length downs.length O.tup ckey names j m done → todo.KeysUnique → (∀ kv ∈ todo, kv ∈ q 0) →
    ∃ q', O.loop (ups.length + 1) todo q = .ok q' ∧
      ((q' = q ∧ ∀ kv ∈ todo, ¬ Ready O ups.length q kv.2) ∨
       ((∃ j' m', Rel (trackTopology O ups correct downs) q' fl m' ∧
          (trackContract O ups downs correct names frame prev).Inv tot m' log ∧
          TrackJ ups.length downs.length O.tup ckey names j' m' done) ∧
        potQ (trank (ups.length + 4 + downs.length)) (ups.length + 4 + downs.length) q' <
          potQ (trank (ups.length + 4 + downs.length)) (ups.length + 4 + downs.length) q)) := by
  induction todo with
  | nil => intro q m j _ _ _ _ _; exact ⟨q, rfl, Or.inl ⟨rfl, fun _ h => by cases h⟩⟩
  | cons kv todo ih =>
    obtain ⟨key, couple⟩ := kv
    intro q m j hrel hinv hJ hu hsub
    have hu' := hu
    unfold Dict.KeysUnique at hu'
    rw [Dict.keys_cons, List.nodup_cons] at hu'
    obtain ⟨q1, h1, h2⟩ := track_step hd hnd hck hprev hrel hinv hJ (hsub _ List.mem_cons_self)
    unfold TrackOps.loop
    rw [h1]
    dsimp only
    rcases h2 with ⟨rfl, h2⟩ | ⟨⟨m', h3, h4, h5⟩, h6, h7⟩
    · obtain ⟨q', h3, h4⟩ := ih q1 m j hrel hinv hJ hu'.2 (fun kv hkv => hsub kv (List.mem_cons_of_mem _ hkv))
      refine ⟨q', h3, h4.imp (fun h => ⟨h.1, ?_⟩) id⟩
      intro kv hkv
      rcases List.mem_cons.1 hkv with rfl | hkv
      · exact h2
      · exact h.2 kv hkv
    · obtain ⟨q', h8, h9⟩ := ih q1 m' (j + 1) h3 h4 h5 hu'.2 (fun kv hkv => by
        refine h7 kv (hsub kv (List.mem_cons_of_mem _ hkv)) ?_
        intro he
        exact hu'.1 ((Dict.mem_keys_iff _ _).2 ⟨kv.2, he ▸ hkv⟩))
      refine ⟨q', h8, Or.inr ?_⟩
      rcases h9 with ⟨rfl, _⟩ | ⟨h9, h10⟩
      · exact ⟨⟨_, _, h3, h4, h5⟩, h6⟩
      · exact ⟨h9, Nat.lt_trans h10 h6⟩

/-- A call of the global work. -/
theorem track_make (hd : 0 < downs.length) (hnd : names.Nodup) (hck : Function.Injective ckey)
    (hprev : IsPrev O correct names frame prev) {fl : List (Task κ α)} {log} {q : Queues κ α ε} {m : Map κ α ε}
    {j : Nat} (hrel : Rel (trackTopology O ups correct downs) q fl m)
    (hinv : (trackContract O ups downs correct names frame prev).Inv tot m log)
    {done : List κ} (hJ : TrackJ ups.length downs.length O.tup ckey names j m done) :
    ∃ q', O.makeCouples (ups.length + 1) q = .ok q' ∧
      ((q' = q ∧ (∀ kv ∈ q 0, ¬ Ready O ups.length q kv.2) ∧ (q 0 = [] → q (ups.length + 3) = [])) ∨
       ((∃ j' m', Rel (trackTopology O ups correct downs) q' fl m' ∧
          (trackContract O ups downs correct names frame prev).Inv tot m' log ∧
          TrackJ ups.length downs.length O.tup ckey names j' m' done) ∧
        potQ (trank (ups.length + 4 + downs.length)) (ups.length + 4 + downs.length) q' <
          potQ (trank (ups.length + 4 + downs.length)) (ups.length + 4 + downs.length) q)) := by
  unfold TrackOps.makeCouples
  rw [show ups.length + 1 + 2 = ups.length + 3 by omega]
  by_cases h0 : q 0 = []
  · have hjN : j = names.length := by
      have := hJ.le
      by_contra hne
      have hlt : j < names.length := by omega
      have : m 0 (ckey j) = some (.ok (O.tup [names[j - 1], names[j]])) :=
        (hJ.pairs _ _).2 ⟨j, _, _, Nat.le_refl _, List.getElem?_eq_getElem (by omega), List.getElem?_eq_getElem hlt,
          rfl, rfl⟩
      rw [track_at0 hrel (Or.inl rfl), h0] at this
      cases this
    obtain ⟨e, h⟩ := flushMod_holds hd hjN (q (ups.length + 3)).keys q m hrel hinv hJ
    rw [h0] at e
    simp only [h0, List.isEmpty_nil, if_true, e, TrackOps.loop, ite_self]
    refine ⟨_, rfl, ?_⟩
    rcases h with ⟨h1, h2⟩ | ⟨⟨m', h1⟩, h2⟩
    · refine Or.inl ⟨h1, ⟨fun _ h => absurd h List.not_mem_nil, fun _ => ?_⟩⟩
      cases hq : q (ups.length + 3) with
      | nil => rfl
      | cons kv d =>
        have : kv.1 ∈ (q (ups.length + 3)).keys := by rw [hq]; simp [Dict.keys]
        exact absurd this (h2 _ this)
    · exact Or.inr ⟨⟨j, m', h1⟩, h2⟩
  · have h0' : (q 0).isEmpty = false := by simp [h0]
    simp only [h0', Bool.false_eq_true, if_false]
    by_cases ha : q (ups.length + 1) = []
    · rw [if_pos (by simp [ha])]
      refine ⟨q, rfl, Or.inl ⟨rfl, ?_, fun h => absurd h h0⟩⟩
      rintro kv _ ⟨a, b, _, h1, _⟩
      rw [ha] at h1; cases h1
    · rw [if_neg (by simp [ha])]
      obtain ⟨q', h1, h2⟩ := track_loop hd hnd hck hprev (q 0) q m j hrel hinv hJ (hrel.keysUnique 0) (fun _ h => h)
      exact ⟨q', h1, h2.imp (fun h => ⟨h.1, h.2, fun h => absurd h h0⟩) id⟩

/-! ## Laws -/

/-- The invariant, without the number of couples which have been made. -/
def TJ (p nd : Nat) (tup : List κ → α) (ckey : Nat → κ) (names : List κ) (m : Map κ α ε)
    (log : List (Event κ α ε)) : Prop :=
  ∃ j, TrackJ p nd tup ckey names j m (callOrder (p + 1) log)

theorem callOrder_append (w : Nat) (a b : List (Event κ α ε)) :
    callOrder w (a ++ b) = callOrder w a ++ callOrder w b := by
  simp [callOrder]

theorem callOrder_call (w w' : Nat) (k : κ) (v : α) (r : Except ε α) :
    callOrder w' (callEvents w k v r) = if w = w' then [k] else [] := by
  cases r <;> by_cases h : w = w' <;> simp [callOrder, callEvents, h]

theorem callOrder_forward (w w' : Nat) (k : κ) (e : ε) (out : Option Nat) :
    callOrder w' (forwardEvents w k e out : List (Event κ α ε)) = [] := by
  cases out <;> simp [callOrder, forwardEvents]

theorem track_run {w : Nat} {ready outLen run}
    (h : (trackTopology O ups correct downs).works[w]? = some (Work.glob ready outLen run)) (nio : Option Nat)
    (q : Queues κ α ε) (a : Unit) : run nio q a =
      match O.makeCouples (ups.length + 1) q with
      | .error e => .error e
      | .ok q => .ok (q, a, []) := by
  obtain ⟨_, hw⟩ := track_glob h
  unfold TrackOps.work at hw
  injection hw with _ _ hr
  subst hr
  rfl

theorem track_globLaws (hd : 0 < downs.length) (hnd : names.Nodup) (hck : Function.Injective ckey)
    (hprev : IsPrev O correct names frame prev) :
    GlobLaws (trackContract O ups downs correct names frame prev)
      (TJ ups.length downs.length O.tup ckey names) where
  call := by
    rintro w inp out io f h m k v tot log _ ⟨j, hm⟩ hk
    refine ⟨j, trackJ_move h hm hk _ ?_⟩
    rw [callOrder_append, callOrder_call]
    split <;> simp
  forward := by
    rintro w inp out io f h m k e tot log hinv ⟨j, hm⟩ hk
    refine ⟨j, trackJ_move h hm hk _ ?_⟩
    rw [callOrder_append, callOrder_forward, List.append_nil, if_neg]
    intro hw
    rcases track_item h with ⟨h1, _⟩ | ⟨_, rfl, _⟩ | ⟨h1, _⟩
    · omega
    · have := (hinv.good _ _ _ hk).2.2.1 rfl
      cases this
    · omega
  glob := by
    rintro w ready outLen run h nio q a fl m tot log q' a' evs hrel hinv ⟨j, hJ⟩ hrun
    rw [track_run h] at hrun
    obtain ⟨q1, h1, h2⟩ := track_make hd hnd hck hprev hrel hinv hJ
    rw [h1] at hrun
    cases hrun
    rw [List.append_nil]
    rcases h2 with ⟨rfl, _⟩ | ⟨⟨j', m', h3, h4, h5⟩, _⟩
    · exact ⟨m, hrel, hinv, j, hJ⟩
    · exact ⟨m', h3, h4, j', h5⟩

abbrev THolds (O : TrackOps κ α ε) (ups downs : List (ChainWork κ α ε)) (correct : κ → α → Except ε α)
    (names : List κ) (frame prev : κ → Except ε α) (ckey : Nat → κ) (tot : Nat → κ → List (Event κ α ε))
    (q : Queues κ α ε) (fl : List (Task κ α)) (log : List (Event κ α ε)) : Prop :=
  Holds (trackTopology O ups correct downs) (trackContract O ups downs correct names frame prev)
    (TJ ups.length downs.length O.tup ckey names) tot q fl log

theorem track_safe (hd : 0 < downs.length) (hnd : names.Nodup) (hck : Function.Injective ckey)
    (hprev : IsPrev O correct names frame prev) :
    GlobSafe (trackTopology O ups correct downs) (trackContract O ups downs correct names frame prev)
      (TJ ups.length downs.length O.tup ckey names) tot := by
  rintro w ready outLen run h nio q a fl log ⟨m, hrel, hinv, j, hJ⟩
  obtain ⟨q1, h1, _⟩ := track_make hd hnd hck hprev hrel hinv hJ
  refine ⟨(q1, a, []), ?_⟩
  rw [track_run h, h1]

theorem track_wellFormed : WellFormed (trackTopology O ups correct downs) where
  inp_lt := by
    intro w inp out io f h
    show inp < ups.length + 4 + downs.length
    rcases track_item h with ⟨_, rfl, _⟩ | ⟨_, rfl, _⟩ | ⟨_, _, rfl, _⟩ <;> omega
  ready := by
    intro w ready outLen run h q a he
    obtain ⟨_, hw⟩ := track_glob h
    unfold TrackOps.work at hw
    injection hw with h1 _ _
    subst h1
    have := (allEmpty_iff.1 he).1
    have e0 := this 0 (show 0 < ups.length + 4 + downs.length by omega)
    have e1 := this (ups.length + 1) (show ups.length + 1 < ups.length + 4 + downs.length by omega)
    have e2 := this (ups.length + 3) (show ups.length + 3 < ups.length + 4 + downs.length by omega)
    simp [e0, e1, e2]

theorem track_rank : RankLaws (trackTopology O ups correct downs) (trank (ups.length + 4 + downs.length)) where
  inp_lt := track_wellFormed.inp_lt
  pos := by
    intro w inp out io f h
    unfold trank
    rcases track_item h with ⟨_, rfl, _⟩ | ⟨_, rfl, _⟩ | ⟨_, _, rfl, _⟩ <;> rw [if_neg (by omega)] <;> omega
  lt := by
    intro w inp o io f h
    unfold trank
    rcases track_item h with ⟨_, rfl, h1, _⟩ | ⟨_, rfl, h1, _⟩ | ⟨_, _, rfl, h1, _⟩
    · cases h1; rw [if_neg (by omega), if_neg (by omega)]; omega
    · cases h1; rw [if_neg (by omega), if_neg (by omega)]; omega
    · split at h1
      · cases h1; rw [if_neg (by omega), if_neg (by omega)]; omega
      · cases h1

theorem track_globPot (hd : 0 < downs.length) (hnd : names.Nodup) (hck : Function.Injective ckey)
    (hprev : IsPrev O correct names frame prev) :
    GlobPot (trackTopology O ups correct downs) (trank (ups.length + 4 + downs.length)) (fun _ => 0)
      (fun q fl _ => ∃ log, THolds O ups downs correct names frame prev ckey tot q fl log) := by
  rintro w ready outLen run h nio q a fl q' a' evs ⟨log, m, hrel, hinv, j, hJ⟩ hrun
  rw [track_run h] at hrun
  obtain ⟨q1, h1, h2⟩ := track_make hd hnd hck hprev hrel hinv hJ
  rw [h1] at hrun
  cases hrun
  rcases h2 with ⟨rfl, _⟩ | ⟨_, h3⟩
  · exact Or.inr ⟨rfl, rfl⟩
  · left
    simp only [pot, Nat.add_zero]
    exact h3

/-! ## Progress -/

/-- In a state where nothing runs and something remains: an item can be processed without meeting a queue which is
not empty, or the global work changes something, or the angles are the only obstacle. -/
theorem track_stuck (hups : 0 < ups.length) (hd : 0 < downs.length) (hnd : names.Nodup)
    (hck : Function.Injective ckey) (hprev : IsPrev O correct names frame prev) {q : Queues κ α ε} {a : Unit} {log}
    (h : THolds O ups downs correct names frame prev ckey tot q [] log)
    (hne : allEmpty (trackTopology O ups correct downs) q a = false) :
    (∃ (w inp : Nat) (out : Option Nat) (io : Bool) (f : κ → α → Except ε α),
      (trackTopology O ups correct downs).works[w]? = some (Work.item inp out io f) ∧ q inp ≠ [] ∧
      ∀ o, out = some o → q o = []) ∨
    ((q 0 ≠ [] ∨ q (ups.length + 3) ≠ []) ∧ ∃ q', O.makeCouples (ups.length + 1) q = .ok q' ∧ q' ≠ q) ∨
    ((∃ (io : Bool) (f : κ → α → Except ε α), (trackTopology O ups correct downs).works[ups.length - 1]? =
        some (Work.item ups.length (some (ups.length + 1)) io f)) ∧ q ups.length ≠ []) := by
  obtain ⟨m, hrel, hinv, j, hJ⟩ := h
  have hchange : ∀ (hc : (∃ kv ∈ q 0, Ready O ups.length q kv.2) ∨ (q 0 = [] ∧ q (ups.length + 3) ≠ [])),
      ∃ q', O.makeCouples (ups.length + 1) q = .ok q' ∧ q' ≠ q := by
    intro hc
    obtain ⟨q', h1, h2⟩ := track_make hd hnd hck hprev hrel hinv hJ
    refine ⟨q', h1, ?_⟩
    rcases h2 with ⟨rfl, h3, h4⟩ | ⟨_, h3⟩
    · rcases hc with ⟨kv, hkv, hr⟩ | ⟨h5, h6⟩
      · exact absurd hr (h3 kv hkv)
      · exact absurd (h4 h5) h6
    · rintro rfl
      exact Nat.lt_irrefl _ h3
  by_cases hdn : ∃ i < downs.length, q (ups.length + 4 + i) ≠ []
  · left
    obtain ⟨i, hi, h1, h2⟩ := exists_last (fun j => q (ups.length + 4 + j) ≠ []) _ hdn
    refine ⟨_, _, _, _, _, track_downs_item hi, h1, ?_⟩
    intro o ho
    split at ho
    · cases ho
      have := h2 (i + 1) (by omega) ‹_›
      simpa using this
    · cases ho
  · push_neg at hdn
    by_cases hc : q (ups.length + 2) = []
    · by_cases hj : j = names.length
      · -- every couple has been made
        have h0 : q 0 = [] := by
          cases hq : q 0 with
          | nil => rfl
          | cons kv rest =>
            obtain ⟨i, _, b, hi, _, hb, _⟩ := (hJ.pairs kv.1 kv.2).1 (hrel.head_at hq)
            obtain ⟨h, _⟩ := List.getElem?_eq_some_iff.1 hb
            omega
        by_cases h3 : q (ups.length + 3) = []
        · exfalso
          have : allEmpty (trackTopology O ups correct downs) q a = true := by
            rw [allEmpty_iff]
            refine ⟨fun i hi => ?_, rfl⟩
            have hi' : i < ups.length + 4 + downs.length := hi
            by_cases hi0 : i = 0
            · rw [hi0]; exact h0
            · by_cases hi1 : i ≤ ups.length + 1
              · cases hq : q i with
                | nil => rfl
                | cons kv rest =>
                  obtain ⟨i', hi', hb⟩ := hJ.upIdx i kv.1 kv.2 (by omega) hi1 (hrel.head_at hq)
                  obtain ⟨h, _⟩ := List.getElem?_eq_some_iff.1 hb
                  omega
              · by_cases hi2 : i = ups.length + 2
                · rw [hi2]; exact hc
                · by_cases hi3 : i = ups.length + 3
                  · rw [hi3]; exact h3
                  · have := hdn (i - (ups.length + 4)) (by omega)
                    rwa [show ups.length + 4 + (i - (ups.length + 4)) = i by omega] at this
          rw [this] at hne; cases hne
        · right; left
          exact ⟨Or.inr h3, hchange (Or.inr ⟨h0, h3⟩)⟩
      · have hjlt : j < names.length := by have := hJ.le; omega
        by_cases hup : ∃ i < ups.length, q (i + 1) ≠ []
        · obtain ⟨i, hi, h1, h2⟩ := exists_last (fun i => q (i + 1) ≠ []) _ hup
          by_cases hlast : i + 1 < ups.length
          · left
            refine ⟨_, _, _, _, _, track_ups_item hi, h1, ?_⟩
            intro o ho
            cases ho
            have := h2 (i + 1) (by omega) hlast
            simpa using this
          · right; right
            have hil : i + 1 = ups.length := by omega
            refine ⟨⟨ups[i].io, ups[i].f, ?_⟩, ?_⟩
            · have := track_ups_item (O := O) (correct := correct) (downs := downs) hi
              rw [show i + 2 = ups.length + 1 by omega] at this
              rw [← hil, Nat.add_sub_cancel, this, hil]
            · rw [← hil]; exact h1
        · push_neg at hup
          right; left
          -- the couple `j` is ready
          have hkey : m 0 (ckey j) = some (.ok (O.tup [names[j - 1], names[j]])) :=
            (hJ.pairs _ _).2 ⟨j, _, _, Nat.le_refl _, List.getElem?_eq_getElem (by omega),
              List.getElem?_eq_getElem hjlt, rfl, rfl⟩
          have hmem : (ckey j, Except.ok (O.tup [names[j - 1], names[j]])) ∈ q 0 := by
            rw [track_at0 hrel (Or.inl rfl)] at hkey
            exact Dict.get?_mem _ _ _ hkey
          refine ⟨Or.inl (fun e => by rw [e] at hmem; cases hmem), hchange (Or.inl ⟨_, hmem, _, _, rfl, ?_, ?_⟩)⟩
          · obtain ⟨l, h1, h2, v, h3⟩ := hJ.up j _ (Nat.le_refl _) (List.getElem?_eq_getElem hjlt)
            rw [hrel.get?] at h3
            by_cases hl : l = ups.length + 1
            · subst hl; rw [h3]; rfl
            · have := hup (l - 1) (by omega)
              rw [show l - 1 + 1 = l by omega] at this
              rw [this] at h3; cases h3
          · by_cases hj0 : j = 0
            · left; subst hj0; rfl
            · right
              obtain ⟨l, h1, v, h3⟩ := hJ.ref (j - 1) names[j - 1] (by omega) hjlt (List.getElem?_eq_getElem (by omega))
              rw [hrel.get?] at h3
              rcases h1 with rfl | rfl
              · rw [hc] at h3; cases h3
              · rw [h3]; rfl
    · -- a couple is ready to be corrected
      left
      refine ⟨_, _, _, _, _, track_correct_item, hc, ?_⟩
      intro o ho
      cases ho
      cases hq2 : q (ups.length + 2) with
      | nil => exact absurd hq2 hc
      | cons kv rest =>
        cases hq3 : q (ups.length + 3) with
        | nil => rfl
        | cons kv' rest' =>
          exfalso
          have e1 := hrel.head_at hq2
          have e2 := hrel.head_at hq3
          obtain ⟨i1, h1, h2⟩ := hJ.mid _ _ _ (Or.inl rfl) e1
          obtain ⟨i2, h3, h4⟩ := hJ.mid _ _ _ (Or.inr rfl) e2
          have : kv.1 = kv'.1 := by
            rw [show i2 = i1 by omega, h2] at h4
            exact Option.some.inj h4
          rw [← this] at e2
          have := hinv.uniq _ _ _ _ _ (by simp [trackContract]) e1 e2
          omega

/-- At most one angle per frame. -/
theorem track_width {q : Queues κ α ε} {log} (hups : 0 < ups.length)
    (h : THolds O ups downs correct names frame prev ckey tot q [] log) (hne : q ups.length ≠ []) :
    (q (ups.length + 1)).length < names.length := by
  obtain ⟨m, hrel, hinv, j, hJ⟩ := h
  cases hq : q ups.length with
  | nil => exact absurd hq hne
  | cons kv rest =>
    have h0 := hrel.head_at hq
    have hname : ∀ i, 1 ≤ i → ∀ k v, m i k = some v → k ∈ names := fun i hi k v hk => (hinv.good i k v hk).1 hi
    have hndk : (kv.1 :: (q (ups.length + 1)).keys).Nodup := by
      rw [List.nodup_cons]
      refine ⟨fun h1 => ?_, hrel.keysUnique _⟩
      obtain ⟨v, hv⟩ := (Dict.mem_keys_iff _ _).1 h1
      have := hinv.uniq _ _ _ _ _ (by simp [trackContract, Nat.ne_of_gt hups]) h0
        ((hrel.at_iff (ups.length + 1) _ v).2 (Or.inl hv))
      omega
    have := nodup_subset_length (l' := names) hndk (by
      intro x hx
      rcases List.mem_cons.1 hx with rfl | hx
      · exact hname _ hups _ _ h0
      · obtain ⟨v, hv⟩ := (Dict.mem_keys_iff _ _).1 hx
        exact hname (ups.length + 1) (by omega) _ _ ((hrel.at_iff _ _ _).2 (Or.inl hv)))
    simp only [List.length_cons, keys_length] at this
    omega

theorem track_aprogress (hups : 0 < ups.length) (hd : 0 < downs.length) (hnd : names.Nodup)
    (hck : Function.Injective ckey) (hprev : IsPrev O correct names frame prev) {c : Cfg} (hq : 0 < c.queueMax)
    (hN : names.length ≤ c.queueMax) :
    AProgress (trackTopology O ups correct downs) c
      (fun q fl _ => ∃ log, THolds O ups downs correct names frame prev ckey tot q fl log) := by
  rintro q a ⟨log, h⟩ hne
  rcases track_stuck hups hd hnd hck hprev h hne with ⟨w, inp, out, io, f, h1, h2, h3⟩ | ⟨h1, q', h2, h3⟩ |
    ⟨⟨io, f, h1⟩, h2⟩
  · refine Or.inl ⟨w, inp, out, io, f, h1, h2, ?_⟩
    cases out with
    | none => rfl
    | some o => simp [outFull, h3 o rfl]; omega
  · right
    refine ⟨_, _, _, _, q', a, [], track_glob_item, ?_, ?_, fun e => h3 e.1⟩
    · rw [show ups.length + 1 + 2 = ups.length + 3 by omega]
      rcases h1 with h1 | h1 <;> simp [h1]
    · rw [h2]
  · refine Or.inl ⟨_, _, _, _, _, h1, h2, ?_⟩
    have := track_width hups h h2
    simp only [outFull, decide_eq_false_iff_not]
    omega

theorem track_sprogress (hups : 0 < ups.length) (hd : 0 < downs.length) (hnd : names.Nodup)
    (hck : Function.Injective ckey) (hprev : IsPrev O correct names frame prev) {c : Cfg} (hq : 2 ≤ c.queueMax) :
    SProgress (trackTopology O ups correct downs) c
      (fun q fl _ => ∃ log, THolds O ups downs correct names frame prev ckey tot q fl log) := by
  rintro q a ⟨log, h⟩ hne
  rcases track_stuck hups hd hnd hck hprev h hne with ⟨w, inp, out, io, f, h1, h2, h3⟩ | ⟨h1, q', h2, h3⟩ |
    ⟨⟨io, f, h1⟩, h2⟩
  · exact Or.inl ⟨w, inp, out, io, f, h1, h2⟩
  · right
    refine ⟨_, _, _, _, track_glob_item, ?_, ?_⟩
    · simp only [seqFull, decide_eq_false_iff_not]; omega
    · intro q'' a' evs hrun
      rw [h2] at hrun
      cases hrun
      exact fun e => h3 e.1
  · exact Or.inl ⟨_, _, _, _, _, h1, h2⟩

end
end Verif.Exec
