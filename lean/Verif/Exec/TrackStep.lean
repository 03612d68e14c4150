import Verif.Exec.Tracking

/-!
# Surface tracking: a call of the global work
-/

namespace Verif.Exec
open Verif Verif.Spec
set_option linter.unusedSectionVars false

variable {κ α ε : Type} [DecidableEq κ]

theorem moves1 (q : Queues κ α ε) {a : Nat} (ha : 0 < a) (key n : κ) (r : Except ε α) :
    upd (upd (upd q (a + 1) ((q (a + 1)).set n r)) a
      ((upd q (a + 1) ((q (a + 1)).set n r) a).erase n)) 0
      ((upd (upd q (a + 1) ((q (a + 1)).set n r)) a
      ((upd q (a + 1) ((q (a + 1)).set n r) a).erase n) 0).erase key) =
    moveQ (upd q 0 ((q 0).erase key)) a (a + 1) n r := by
  unfold moveQ
  rw [upd_ne q (show a ≠ a + 1 by omega), upd_ne _ (show 0 ≠ a by omega), upd_ne q (show 0 ≠ a + 1 by omega),
    upd_ne q (show a ≠ 0 by omega), upd_ne q (show a + 1 ≠ 0 by omega),
    upd_comm q (show a + 1 ≠ a by omega), upd_comm _ (show a + 1 ≠ 0 by omega), upd_comm q (show a ≠ 0 by omega)]

theorem moves2 (q : Queues κ α ε) {a : Nat} (ha : 0 < a) (n : κ) (r : Except ε α) :
    upd (upd q (a + 3) ((q (a + 3)).set n r)) (a + 2)
      ((upd q (a + 3) ((q (a + 3)).set n r) (a + 2)).erase n) = moveQ q (a + 2) (a + 3) n r := by
  unfold moveQ
  rw [upd_ne q (show a + 2 ≠ a + 3 by omega), upd_comm q (show a + 3 ≠ a + 2 by omega)]

section
variable {O : TrackOps κ α ε} {ups downs : List (ChainWork κ α ε)} {correct : κ → α → Except ε α}
  {names : List κ} {frame prev : κ → Except ε α} {ckey : Nat → κ}

/-- What the code computes as reference of each frame. -/
structure IsPrev (O : TrackOps κ α ε) (correct : κ → α → Except ε α) (names : List κ) (frame prev : κ → Except ε α) :
    Prop where
  first : ∀ b, names[0]? = some b → prev b = frame b
  next : ∀ i a b, names[i]? = some a → names[i + 1]? = some b → prev b = correct a (O.pair (prev a) (frame a))

/-- Ranks of the queues. -/
def trank (n : Nat) (i : Nat) : Nat := if i = 0 then 0 else n - i

/-- The couple can be made. -/
def Ready (O : TrackOps κ α ε) (p : Nat) (q : Queues κ α ε) (couple : Except ε α) : Prop :=
  ∃ a b, couple = .ok (O.tup [a, b]) ∧ ((q (p + 1)).get? b).isSome ∧ (a = b ∨ ((q (p + 3)).get? a).isSome)

variable {tot : Nat → κ → List (Event κ α ε)}

theorem track_at0 {q : Queues κ α ε} {fl} {m : Map κ α ε} (h : Rel (trackTopology O ups correct downs) q fl m) {i : Nat}
    (hi : i = 0 ∨ i = ups.length + 1 ∨ i = ups.length + 3) (k : κ) : m i k = (q i).get? k := by
  cases hm : m i k with
  | some v =>
    rcases (h.at_iff i k v).1 hm with h1 | ⟨t, ht, h2, _⟩
    · rw [Dict.mem_get? _ (h.keysUnique i) _ _ h1]
    · have := track_inpOf h2
      omega
  | none =>
    cases hg : (q i).get? k with
    | none => rfl
    | some v =>
      have := (h.at_iff i k v).2 (Or.inl (Dict.get?_mem _ _ _ hg))
      rw [hm] at this; cases this

theorem track_noTask {fl : List (Task κ α)} {i : Nat}
    (hi : i = 0 ∨ i = ups.length + 1 ∨ i = ups.length + 3) :
    ∀ t ∈ fl, inpOf (trackTopology O ups correct downs) t.w ≠ some i := by
  intro t _ h
  have := track_inpOf h
  omega

/-- Corrected angles go from the queue "corrected angles copy" to the queue "corrected angles". -/
theorem track_flush {q : Queues κ α ε} {fl} {m : Map κ α ε} {log} (hd : 0 < downs.length)
    (hrel : Rel (trackTopology O ups correct downs) q fl m)
    (hinv : (trackContract O ups downs correct names frame prev).Inv tot m log) {n : κ} {x : Except ε α}
    (hx : m (ups.length + 3) n = some x) :
    Rel (trackTopology O ups correct downs) (moveQ q (ups.length + 3) (ups.length + 4) n x) fl
      (mput (mdel m (ups.length + 3) n) (some (ups.length + 4)) n x) ∧
    (trackContract O ups downs correct names frame prev).Inv tot
      (mput (mdel m (ups.length + 3) n) (some (ups.length + 4)) n x) log ∧
    potQ (trank (ups.length + 4 + downs.length)) (ups.length + 4 + downs.length)
      (moveQ q (ups.length + 3) (ups.length + 4) n x) <
      potQ (trank (ups.length + 4 + downs.length)) (ups.length + 4 + downs.length) q := by
  have hnone : m (ups.length + 4) n = none := by
    cases h : m (ups.length + 4) n with
    | none => rfl
    | some v =>
      have := hinv.uniq (ups.length + 3) (ups.length + 4) n x v (by simp [trackContract]) hx h
      omega
  refine ⟨hrel.move x (track_noTask (by omega)) (by omega) hnone, ?_, ?_⟩
  · have := hinv.transfer (evs := []) (out := some (ups.length + 4)) (r := x) hx ?_ ?_ (by simp) ?_
    · simpa using this
    · rintro o ⟨⟩; simp [trackContract]
    · rintro o ⟨⟩
      have := hinv.good _ _ _ hx
      exact ⟨fun _ => this.1 (by omega), fun _ h => by omega, fun h => by omega, fun h => by omega⟩
    · simp only [trackContract, Contract.dueOut]
      simp
  · refine potQ_move _ _ (by omega) (by omega) (by omega) ?_ ?_ x
    · unfold trank
      rw [if_neg (by omega), if_neg (by omega)]; omega
    · rw [track_at0 hrel (by omega)] at hx
      exact (Dict.mem_keys_iff _ _).2 ⟨x, Dict.get?_mem _ _ _ hx⟩

/-- The angles of the frame `b` are used to make a couple. -/
theorem track_couple {q : Queues κ α ε} {fl} {m : Map κ α ε} {log}
    (hrel : Rel (trackTopology O ups correct downs) q fl m)
    (hinv : (trackContract O ups downs correct names frame prev).Inv tot m log) {key b : κ} {x y : Except ε α}
    (hy : m (ups.length + 1) b = some y) (hx : x = prev b) {g : Except ε α} (hkey : m 0 key = some g) :
    Rel (trackTopology O ups correct downs)
      (moveQ (upd q 0 ((q 0).erase key)) (ups.length + 1) (ups.length + 2) b (.ok (O.pair x y))) fl
      (mput (mdel (mdel m 0 key) (ups.length + 1) b) (some (ups.length + 2)) b (.ok (O.pair x y))) ∧
    (trackContract O ups downs correct names frame prev).Inv tot
      (mput (mdel (mdel m 0 key) (ups.length + 1) b) (some (ups.length + 2)) b (.ok (O.pair x y))) log ∧
    potQ (trank (ups.length + 4 + downs.length)) (ups.length + 4 + downs.length)
      (moveQ (upd q 0 ((q 0).erase key)) (ups.length + 1) (ups.length + 2) b (.ok (O.pair x y))) <
      potQ (trank (ups.length + 4 + downs.length)) (ups.length + 4 + downs.length) q := by
  have hrel1 := hrel.erase 0 key (track_noTask (Or.inl rfl))
  have hinv1 : (trackContract O ups downs correct names frame prev).Inv tot (mdel m 0 key) log := by
    have := hinv.transfer (evs := []) (out := none) (r := g) hkey (by simp) (by simp) (by simp)
      (by simp [trackContract, Contract.dueOut])
    simpa [mput] using this
  have hy1 : mdel m 0 key (ups.length + 1) b = some y := by simp [mdel, hy]
  have hnone : mdel m 0 key (ups.length + 2) b = none := by
    cases h : mdel m 0 key (ups.length + 2) b with
    | none => rfl
    | some v =>
      have := hinv1.uniq (ups.length + 1) (ups.length + 2) b y v (by simp [trackContract]) hy1 h
      omega
  have hyf : y = frame b := by
    have := (hinv1.good _ _ _ hy1).2.1 (by omega) (by omega)
    simpa [imageOf] using this
  refine ⟨hrel1.move _ (track_noTask (by omega)) (by omega) hnone, ?_, ?_⟩
  · have := hinv1.transfer (evs := []) (out := some (ups.length + 2)) (r := .ok (O.pair x y)) hy1 ?_ ?_ (by simp) ?_
    · simpa using this
    · rintro o ⟨⟩; simp [trackContract]
    · rintro o ⟨⟩
      have := hinv1.good _ _ _ hy1
      exact ⟨fun _ => this.1 (by omega), fun _ h => by omega, fun _ => by rw [hx, hyf], fun h => by omega⟩
    · simp only [trackContract, Contract.dueOut]
      simp [imageEvents, imageOf, hx]
  · refine Nat.lt_of_lt_of_eq (potQ_move _ _ (by omega) (by omega) (by omega) ?_ ?_ _) ?_
    · unfold trank
      rw [if_neg (by omega), if_neg (by omega)]; omega
    · rw [upd_ne _ (by omega)]
      rw [track_at0 hrel (by omega)] at hy
      exact (Dict.mem_keys_iff _ _).2 ⟨y, Dict.get?_mem _ _ _ hy⟩
    · have := potQ_upd (trank (ups.length + 4 + downs.length)) (ups.length + 4 + downs.length) 0 (by omega) q
        ((q 0).erase key)
      have r0 : trank (ups.length + 4 + downs.length) 0 = 0 := by simp [trank]
      rw [r0] at this
      omega

/-- One iteration of the loop. -/
theorem track_step (hd : 0 < downs.length) (hnd : names.Nodup) (hck : Function.Injective ckey)
    (hprev : IsPrev O correct names frame prev) {q : Queues κ α ε} {fl} {m : Map κ α ε} {log} {j : Nat}
    (hrel : Rel (trackTopology O ups correct downs) q fl m)
    (hinv : (trackContract O ups downs correct names frame prev).Inv tot m log)
    {done : List κ} (hJ : TrackJ ups.length downs.length O.tup ckey names j m done) {key : κ} {couple : Except ε α}
    (hkey : (key, couple) ∈ q 0) :
    ∃ q', O.step (ups.length + 1) key couple q = .ok q' ∧
      ((q' = q ∧ ¬ Ready O ups.length q couple) ∨
       ((∃ m', Rel (trackTopology O ups correct downs) q' fl m' ∧
          (trackContract O ups downs correct names frame prev).Inv tot m' log ∧
          TrackJ ups.length downs.length O.tup ckey names (j + 1) m' done) ∧
        potQ (trank (ups.length + 4 + downs.length)) (ups.length + 4 + downs.length) q' <
          potQ (trank (ups.length + 4 + downs.length)) (ups.length + 4 + downs.length) q ∧
        (∀ kv ∈ q 0, kv.1 ≠ key → kv ∈ q' 0))) := by
  have hm0 : m 0 key = some couple := (hrel.at_iff _ _ _).2 (Or.inl hkey)
  obtain ⟨i, a, b, hi, ha, hb, rfl, rfl⟩ := (hJ.pairs _ _).1 hm0
  obtain ⟨hilt, hib⟩ := List.getElem?_eq_some_iff.1 hb
  obtain ⟨hilt', hia⟩ := List.getElem?_eq_some_iff.1 ha
  have hmem : ∀ (d : Dict κ (Except ε α)), d = q 0 → ∀ kv ∈ d, kv.1 ≠ ckey i → kv ∈ d.erase (ckey i) := by
    rintro d rfl kv hkv hne
    rw [Dict.erase_eq_filter _ _ (hrel.keysUnique 0), List.mem_filter]
    exact ⟨hkv, by simpa using hne⟩
  unfold TrackOps.step
  rw [show O.names (Except.ok (O.tup [a, b]) : Except ε α) = [a, b] from O.namesOf_tup _]
  dsimp only
  by_cases hab : a = b
  · -- first frame
    have hi0 : i = 0 := by
      subst hab
      have := (List.Nodup.getElem_inj_iff hnd).1 (hia.trans hib.symm)
      omega
    subst hi0
    have hj : j = 0 := by omega
    subst hj
    subst hab
    rw [if_pos rfl]
    cases hy : (q (ups.length + 1)).get? a with
    | none =>
      refine ⟨q, rfl, Or.inl ⟨rfl, ?_⟩⟩
      rintro ⟨a', b', he, h1, _⟩
      simp only [Except.ok.injEq] at he
      have he' : [a, a] = [a', b'] := by rw [← O.namesOf_tup [a, a], he, O.namesOf_tup]
      cases he'
      rw [hy] at h1; cases h1
    | some y =>
      refine ⟨_, rfl, Or.inr ?_⟩
      rw [moves1 q (by omega)]
      have hy' : m (ups.length + 1) a = some y := by rw [track_at0 hrel (by omega), hy]
      have hyp : y = prev a := by
        rw [hprev.first a hb]
        simpa [imageOf] using (hinv.good _ _ _ hy').2.1 (by omega) (by omega)
      obtain ⟨h1, h2, h3⟩ := track_couple hrel hinv hy' hyp hm0
      refine ⟨⟨_, h1, h2, ?_⟩, h3, ?_⟩
      · refine hJ.advance hnd hck hb ?_ ?_ ?_ ?_ ?_ ?_
        · intro k
          cases hk : m (ups.length + 2) k with
          | none => rfl
          | some v =>
            obtain ⟨i, hi, _⟩ := hJ.mid _ _ _ (Or.inl rfl) hk
            omega
        · intro k
          simp only [mput, madd, mdel]
          simp
        · intro l k hl1 hl2
          simp only [mput, madd, mdel]
          by_cases hk : k = a
          · subst hk
            rw [if_neg (by omega)]
            simp only [and_true, if_true]
            split
            · rfl
            · rw [if_neg (by omega)]
              cases hml : m l k with
              | none => rfl
              | some v =>
                have := hinv.uniq l (ups.length + 1) k v y (by simp [trackContract]; omega) hml hy'
                contradiction
          · simp only [hk, and_false, if_false]
            rw [if_neg (by omega)]
        · intro l k v hl hk
          rcases (mput_mdel_iff ..).1 hk with ⟨_, h, _⟩ | ⟨_, _, h⟩
          · exact h
          · unfold mdel at h
            rw [if_neg (by omega)] at h
            obtain ⟨i, hi, _⟩ := hJ.mid l k v hl h
            omega
        · exact ⟨_, (mput_mdel_iff ..).2 (Or.inl ⟨rfl, rfl, rfl⟩)⟩
        · intro l k v hk
          rcases (mput_mdel_iff ..).1 hk with ⟨h, _⟩ | ⟨_, _, h⟩
          · simp only [Option.some.injEq] at h; omega
          · unfold mdel at h
            split at h
            · cases h
            · exact hJ.bound l k v h
      · intro kv hkv hne
        unfold moveQ
        rw [upd_ne _ (by omega), upd_ne _ (by omega), upd_eq]
        exact hmem _ rfl kv hkv hne
  · -- other frames
    rw [if_neg hab]
    have hi1 : 1 ≤ i := by
      by_contra h
      have : i = 0 := by omega
      subst this
      rw [ha] at hb; cases hb; exact hab rfl
    cases hx : (q (ups.length + 3)).get? a with
    | none =>
      refine ⟨q, by simp [hx], Or.inl ⟨rfl, ?_⟩⟩
      rintro ⟨a', b', he, _, h1⟩
      simp only [Except.ok.injEq] at he
      have he' : [a, b] = [a', b'] := by rw [← O.namesOf_tup [a, b], he, O.namesOf_tup]
      cases he'
      rw [hx] at h1
      rcases h1 with h1 | h1
      · exact hab h1
      · cases h1
    | some x =>
      cases hy : (q (ups.length + 1)).get? b with
      | none =>
        refine ⟨q, by simp [hx], Or.inl ⟨rfl, ?_⟩⟩
        rintro ⟨a', b', he, h1, _⟩
        simp only [Except.ok.injEq] at he
        have he' : [a, b] = [a', b'] := by rw [← O.namesOf_tup [a, b], he, O.namesOf_tup]
        cases he'
        rw [hy] at h1; cases h1
      | some y =>
        have hx' : m (ups.length + 3) a = some x := by rw [track_at0 hrel (by omega), hx]
        have hy' : m (ups.length + 1) b = some y := by rw [track_at0 hrel (by omega), hy]
        -- the frame is the next one
        obtain ⟨i', hi', hai'⟩ := hJ.mid _ a x (Or.inr rfl) hx'
        have hij : i = j := by
          obtain ⟨h1, h2⟩ := List.getElem?_eq_some_iff.1 hai'
          have := (List.Nodup.getElem_inj_iff hnd).1 (hia.trans h2.symm)
          omega
        subst hij
        have hxp : x = prev b := by
          rw [hprev.next (i - 1) a b ha (by rw [show i - 1 + 1 = i by omega]; exact hb)]
          exact (hinv.good _ _ _ hx').2.2.2 rfl
        obtain ⟨h1, h2, h3⟩ := track_couple hrel hinv hy' hxp hm0
        have hx2 : mput (mdel (mdel m 0 (ckey i)) (ups.length + 1) b) (some (ups.length + 2)) b (.ok (O.pair x y))
            (ups.length + 3) a = some x := by
          refine (mput_mdel_iff ..).2 (Or.inr ⟨by simp, by omega, ?_⟩)
          simp [mdel, hx']
        obtain ⟨h4, h5, h6⟩ := track_flush hd h1 h2 hx2
        refine ⟨moveQ (moveQ (upd q 0 ((q 0).erase (ckey i))) (ups.length + 1) (ups.length + 2) b (.ok (O.pair x y)))
          (ups.length + 3) (ups.length + 4) a x, ?_, Or.inr ⟨⟨_, h4, h5, ?_⟩, Nat.lt_trans h6 h3, ?_⟩⟩
        · simp only [hx]
          rw [moves1 q (by omega)]
          rw [moves2 _ (by omega)]
        · refine hJ.advance hnd hck hb ?_ ?_ ?_ ?_ ?_ ?_
          · intro k
            cases hk : m (ups.length + 2) k with
            | none => rfl
            | some v =>
              obtain ⟨i2, hi2, hk2⟩ := hJ.mid _ _ _ (Or.inl rfl) hk
              have : k = a := by
                rw [show i2 = i - 1 by omega, ha] at hk2
                exact (Option.some.inj hk2).symm
              subst this
              have := hinv.uniq _ (ups.length + 3) k v x (by simp [trackContract]) hk hx'
              omega
          · intro k
            simp only [mput, madd, mdel]
            simp
          · intro l k hl1 hl2
            simp only [mput, madd, mdel]
            rw [if_neg (by omega), if_neg (by omega), if_neg (by omega)]
            by_cases hk : k = b
            · subst hk
              simp only [and_true, if_true]
              split
              · rfl
              · rw [if_neg (by omega)]
                cases hml : m l k with
                | none => rfl
                | some v =>
                  have := hinv.uniq l (ups.length + 1) k v y (by simp [trackContract]; omega) hml hy'
                  contradiction
            · simp only [hk, and_false, if_false]
              rw [if_neg (by omega)]
          · intro l k v hl hk
            rcases (mput_mdel_iff ..).1 hk with ⟨h, _⟩ | ⟨_, hn, h⟩
            · simp only [Option.some.injEq] at h; omega
            · rcases (mput_mdel_iff ..).1 h with ⟨_, h, _⟩ | ⟨_, _, h⟩
              · exact h
              · exfalso
                unfold mdel at h
                rw [if_neg (by omega)] at h
                obtain ⟨i2, hi2, hk2⟩ := hJ.mid l k v hl h
                have : k = a := by
                  rw [show i2 = i - 1 by omega, ha] at hk2
                  exact (Option.some.inj hk2).symm
                subst this
                have := hinv.uniq l (ups.length + 3) k v x (by simp [trackContract]; omega) h hx'
                exact hn ⟨this, rfl⟩
          · refine ⟨_, (mput_mdel_iff ..).2 (Or.inr ⟨?_, by omega, (mput_mdel_iff ..).2 (Or.inl ⟨rfl, rfl, rfl⟩)⟩)⟩
            simp
          · intro l k v hk
            rcases (mput_mdel_iff ..).1 hk with ⟨h, _⟩ | ⟨_, _, h⟩
            · simp only [Option.some.injEq] at h; omega
            · rcases (mput_mdel_iff ..).1 h with ⟨h, _⟩ | ⟨_, _, h⟩
              · simp only [Option.some.injEq] at h; omega
              · unfold mdel at h
                split at h
                · cases h
                · exact hJ.bound l k v h
        · intro kv hkv hne
          unfold moveQ
          rw [upd_ne _ (by omega), upd_ne _ (by omega), upd_ne _ (by omega), upd_ne _ (by omega), upd_eq]
          exact hmem _ rfl kv hkv hne

end
end Verif.Exec
