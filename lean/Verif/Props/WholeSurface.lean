import Verif.Model.WholeSurface
import Verif.Props.SurfaceTracking
import Verif.Props.StopSignal
import Verif.Exec.StopIfError

/-!
# The files of a surface tracking do not depend on how it is executed (C123)
-/

namespace Verif
open Verif.Exec Verif.Spec Verif.ResultsFiles Verif.Complete Verif.WholeRun Verif.TryWork Verif.WholeSurface

namespace WholeSurface
variable {α φ η β : Type}

/-! ## Specification -/

/-- The phase of one frame: the image is read, changed by the function "image to image" if there is one, and processed. -/
def frame (K : Computation α φ η β) (n : Txt) : Except PyErr φ :=
  match K.imread (K.dir ++ ['/'] ++ n) with
  | .error e => .error e
  | .ok a => match K.f with
    | none => K.process a
    | some f => match f n a with
      | .error e => .error e
      | .ok b => K.process b

/-- `Corrected K i n c`: the image number `i` of the serie, named `n`, has the corrected phase `c`: the first one is corrected with
respect to itself, each other one with respect to the corrected phase of the previous one. -/
inductive Corrected (K : Computation α φ η β) : Nat → Txt → φ → Prop where
  | first (n : Txt) (p c : φ) (hn : K.names[0]? = some n) (hp : frame K n = .ok p) (hc : K.correct p p = .ok c) : Corrected K 0 n c
  | next (i : Nat) (n0 n : Txt) (c0 p c : φ) (h0 : Corrected K i n0 c0) (hn : K.names[i + 1]? = some n) (hp : frame K n = .ok p)
      (hc : K.correct c0 p = .ok c) : Corrected K (i + 1) n c

/-- The heights saved for the image `n`. -/
def HasResult (K : Computation α φ η β) (n : Txt) (b : β) : Prop :=
  (∃ i c h, Corrected K i n c ∧ K.height c = .ok h ∧ K.borders h = .ok b) ∧ K.imsave n b = .ok ()

/-- The directory `d'` is the directory `d` with the heights of the images. -/
structure HasResults (K : Computation α φ η β) (d d' : Files Txt β) : Prop where
  results : ∀ n b, HasResult K n b → d' n = some b
  others : ∀ n, (∀ b, ¬ HasResult K n b) → d' n = d n

/-- The images are different files of one directory, and there is not exactly one image. -/
structure Usable (K : Computation α φ η β) : Prop where
  nodup : K.names.Nodup
  plain : ∀ n ∈ K.names, pathName n = n
  several : K.names.length ≠ 1

/-- All the frames have to be computed: mode "recompute", or no result is present. -/
def AllFrames (K : Computation α φ η β) (m : Mode) (d : Files Txt β) : Prop := m = .recompute ∨ ∀ n ∈ K.names, d n = none

/-! ## The references -/

abbrev ups (K : Computation α φ η β) : List (ChainWork Key (Val α φ η β) PyErr) :=
  frameWorks (readWork K) (K.f.map im2imWork) (processWork K)

abbrev downs (K : Computation α φ η β) : List (ChainWork Key (Val α φ η β) PyErr) :=
  heightWorks (heightWork K) (bordersWork K) (saveWork K)

abbrev keys (K : Computation α φ η β) : List Key := K.names.map .name

theorem keys_nodup {K : Computation α φ η β} (hu : Usable K) : (keys K).Nodup :=
  hu.nodup.map (fun a b h => by cases h; rfl)

theorem key_injective : Function.Injective coupleKey := by
  intro a b h
  simp only [coupleKey, Key.idx.injEq] at h
  exact_mod_cast h

theorem setup {K : Computation α φ η β} (hu : Usable K) : TrackSetup (ups K) (downs K) (keys K) coupleKey :=
  surface_setup _ _ _ _ _ _ coupleKey (keys K) (keys_nodup hu) key_injective (by simpa using hu.several)

/-- The item of the queue of phases of an image. -/
theorem frame_item (K : Computation α φ η β) (n : Txt) :
    imageOf (.name n) (ups K) (.ok (pathOf K.dir (.name n))) = (frame K n).map .phase := by
  unfold frame
  cases hf : K.f with
  | none =>
    cases h1 : K.imread (K.dir ++ ['/'] ++ n) with
    | error e => simp [-List.append_assoc, frameWorks, loadWorks, hf, imageOf, pathOf, readWork, h1] <;> rfl
    | ok a =>
      cases h2 : K.process a <;>
        simp [-List.append_assoc, frameWorks, loadWorks, hf, imageOf, pathOf, readWork, h1, processWork, h2] <;> rfl
  | some f =>
    cases h1 : K.imread (K.dir ++ ['/'] ++ n) with
    | error e => simp [-List.append_assoc, frameWorks, loadWorks, hf, imageOf, pathOf, readWork, h1] <;> rfl
    | ok a =>
      cases h3 : f n a with
      | error e => simp [-List.append_assoc, frameWorks, loadWorks, hf, imageOf, pathOf, readWork, h1, im2imWork, h3] <;> rfl
      | ok b =>
        cases h2 : K.process b <;>
          simp [-List.append_assoc, frameWorks, loadWorks, hf, imageOf, pathOf, readWork, h1, im2imWork, h3, processWork, h2] <;> rfl

theorem phaseOf_map (r : Except PyErr φ) : phaseOf (r.map (Val.phase (α := α) (η := η) (β := β))) = r := by
  cases r <;> rfl

/-- What `correctcouple` returns for an image. -/
def corr (K : Computation α φ η β) (k : Key) : Except PyErr (Val α φ η β) :=
  correctWork K k (trackOps.pair (prevOf trackOps (ups K) (correctWork K) (pathOf K.dir) (keys K) k)
    (imageOf k (ups K) (.ok (pathOf K.dir k))))

theorem correctWork_iff (K : Computation α φ η β) (k : Key) (x y : Except PyErr φ) (v : Val α φ η β) :
    correctWork K k (.couple x y) = .ok v ↔ ∃ a b c, x = .ok a ∧ y = .ok b ∧ K.correct a b = .ok c ∧ v = .phase c := by
  cases x with
  | error e => simp [correctWork]
  | ok a =>
    cases y with
    | error e => simp [correctWork]
    | ok b =>
      simp only [correctWork]
      cases h : K.correct a b with
      | error e => simp [h]
      | ok c => simp [h, eq_comm]

theorem Corrected.name {K : Computation α φ η β} {i : Nat} {n : Txt} {c : φ} (h : Corrected K i n c) : K.names[i]? = some n := by
  cases h with
  | first _ _ _ hn _ _ => exact hn
  | next _ _ _ _ _ _ _ hn _ _ => exact hn

theorem corr_iff {K : Computation α φ η β} (hu : Usable K) (i : Nat) (n : Txt) (hn : K.names[i]? = some n) (v : Val α φ η β) :
    corr K (.name n) = .ok v ↔ ∃ c, v = .phase c ∧ Corrected K i n c := by
  have hp : IsPrev trackOps (correctWork K) (keys K) (frameOf (ups K) (pathOf K.dir))
      (prevOf trackOps (ups K) (correctWork K) (pathOf K.dir) (keys K)) := refOf_isPrev trackOps _ (keys_nodup hu)
  have hkey : ∀ (i : Nat) (n : Txt), K.names[i]? = some n → (keys K)[i]? = some (Key.name n) := by
    intro i n h
    simp [keys, h]
  induction i generalizing n v with
  | zero =>
    have h1 := hp.first (.name n) (hkey 0 n hn)
    have hfr : frameOf (ups K) (pathOf K.dir) (.name n) = (frame K n).map .phase := frame_item K n
    unfold corr
    rw [h1, hfr, frame_item]
    simp only [trackOps, phaseOf_map]
    rw [correctWork_iff]
    constructor
    · rintro ⟨a, b, c, h2, h3, h4, rfl⟩
      rw [h2] at h3
      cases h3
      exact ⟨c, rfl, .first n a c hn h2 h4⟩
    · rintro ⟨c, rfl, h⟩
      cases h with
      | first _ p _ _ hp hc => exact ⟨p, p, c, hp, hp, hc, rfl⟩
  | succ i ih =>
    have hlt : i < K.names.length := by
      have := (List.getElem?_eq_some_iff.1 hn).1
      omega
    have hn0 : K.names[i]? = some K.names[i] := List.getElem?_eq_getElem hlt
    have h1 := hp.next i (.name K.names[i]) (.name n) (hkey i _ hn0) (hkey (i + 1) n hn)
    have h2 := ih K.names[i] hn0
    have h3 : prevOf trackOps (ups K) (correctWork K) (pathOf K.dir) (keys K) (.name n) = corr K (.name K.names[i]) := h1
    unfold corr
    rw [h3, frame_item]
    simp only [trackOps, phaseOf_map]
    rw [correctWork_iff]
    constructor
    · rintro ⟨a, b, c, h4, h5, h6, rfl⟩
      cases hr : corr K (.name K.names[i]) with
      | error e => rw [hr] at h4; cases h4
      | ok w =>
        obtain ⟨c0, rfl, h7⟩ := (h2 w).1 hr
        rw [hr] at h4
        cases h4
        exact ⟨c, rfl, .next i _ n a b c h7 hn h5 h6⟩
    · rintro ⟨c, rfl, h⟩
      cases h with
      | next _ n0 _ c0 p _ h0 _ hp hc =>
        have e := h0.name
        rw [hn0] at e
        cases e
        rw [(h2 _).2 ⟨c0, rfl, h0⟩]
        exact ⟨c0, p, c, rfl, hp, hc, rfl⟩

/-! ## What is done -/

/-- What has to be done for an image. -/
def due (K : Computation α φ η β) (k : Key) : List (Event Key (Val α φ η β) PyErr) :=
  trackEvents (ups K) trackOps.pair (correctWork K) (downs K) (pathOf K.dir k) k
    (prevOf trackOps (ups K) (correctWork K) (pathOf K.dir) (keys K) k)

/-- What is done at any time is the beginning of what has to be done. -/
structure Begun (K : Computation α φ η β) (log : List (Event Key (Val α φ η β) PyErr)) : Prop where
  images : ∀ k ∈ keys K, historyOf k log <+: due K k
  noOther : ∀ k, k ∉ keys K → historyOf k log = []

structure Done (K : Computation α φ η β) (log : List (Event Key (Val α φ η β) PyErr)) : Prop where
  images : ∀ k ∈ keys K, historyOf k log = due K k
  noOther : ∀ k, k ∉ keys K → historyOf k log = []

theorem Done.begun {K : Computation α φ η β} {log : List (Event Key (Val α φ η β) PyErr)} (h : Done K log) : Begun K log :=
  ⟨fun k hk => by rw [h.images k hk], h.noOther⟩

theorem Begun.prefix {K : Computation α φ η β} {log log' : List (Event Key (Val α φ η β) PyErr)} (h : Begun K log)
    (hp : log' <+: log) : Begun K log' where
  images := fun k hk => (hp.filter _).trans (h.images k hk)
  noOther := fun k hk => by
    have h2 : historyOf k log' <+: historyOf k log := hp.filter _
    rw [h.noOther k hk] at h2
    exact List.prefix_nil.1 h2

abbrev KHolds (K : Computation α φ η β) (q : Queues Key (Val α φ η β) PyErr) (fl : List (Task Key (Val α φ η β)))
    (log : List (Event Key (Val α φ η β) PyErr)) : Prop :=
  TSHolds trackOps (ups K) (downs K) (correctWork K) (keys K) coupleKey (pathOf K.dir) q fl log

theorem holds_begun {K : Computation α φ η β} {q : Queues Key (Val α φ η β) PyErr} {fl : List (Task Key (Val α φ η β))}
    {log : List (Event Key (Val α φ η β) PyErr)} (h : KHolds K q fl log) : Begun K log := by
  have e : ∀ k, (trackContract trackOps (ups K) (downs K) (correctWork K) (keys K) (frameOf (ups K) (pathOf K.dir))
      (prevOf trackOps (ups K) (correctWork K) (pathOf K.dir) (keys K))).hist 1 k log = historyOf k log := by
    intro k
    unfold Contract.hist historyOf
    apply List.filter_congr
    intro ev _
    cases ev <;> simp [trackContract, Event.key, keyOf] <;> rfl
  have h1 := fun k => (holds_prefix h 1 k).1
  simp only [e] at h1
  constructor
  · intro k hk
    have := h1 k
    rw [trackTot, if_pos ⟨rfl, hk⟩] at this
    exact this
  · intro k hk
    have := h1 k
    rw [trackTot, if_neg (fun h => hk h.2)] at this
    exact List.prefix_nil.1 this

theorem trackDone_done {K : Computation α φ η β} (hu : Usable K) {log : List (Event Key (Val α φ η β) PyErr)}
    (h : TrackDone trackOps (ups K) (correctWork K) (downs K) (pathOf K.dir) (keys K) log) : Done K log := by
  refine ⟨?_, h.others⟩
  intro k hk
  obtain ⟨i, hi⟩ := List.getElem?_of_mem hk
  exact h.frames k _ (List.mem_of_getElem? (refOf_at (keys_nodup hu) hi))

/-! ## Executions -/

theorem queues_all {K : Computation α φ η β} {m : Mode} {d : Files Txt β} (h : AllFrames K m d) :
    K.queues m d = trackStart trackOps coupleKey (pathOf K.dir) (fun _ => false) (keys K) := by
  have hp : ∀ k ∈ keys K, present m d k = false := by
    intro k hk
    obtain ⟨n, hn, rfl⟩ := List.mem_map.1 hk
    rcases h with rfl | h
    · rfl
    · cases m with
      | recompute => rfl
      | complete => simp [present, h n hn]
  funext i
  unfold Computation.queues trackStart
  by_cases h0 : i = 0
  · simp [h0]
  · by_cases h1 : i = 1
    · subst h1
      simp only [Nat.one_ne_zero, if_false, if_true]
      congr 1
      refine List.filter_congr ?_
      intro k hk
      rw [hp k hk]
    · simp [h0, h1]

theorem rounds_none {K : Computation α φ η β} (hu : Usable K) (c : Cfg) (hst : c.stopIfError = false) (n : Nat)
    (s : SState Key (Val α φ η β) PyErr Unit) (h : KHolds K s.q [] s.log) (hc : s.crashed = none) :
    KHolds K (rounds K.topology c n s).q [] (rounds K.topology c n s).log := by
  have hs := setup hu
  have hp : IsPrev trackOps (correctWork K) (keys K) (frameOf (ups K) (pathOf K.dir))
      (prevOf trackOps (ups K) (correctWork K) (pathOf K.dir) (keys K)) := refOf_isPrev trackOps _ (keys_nodup hu)
  induction n generalizing s with
  | zero => exact h
  | succ n ih =>
    obtain ⟨h1, h2⟩ := noCrash_seqWorks (c := c) track_lawful (track_globLaws hs.down hs.nodup hs.keys hp) hst
      (track_safe hs.down hs.nodup hs.keys hp) (w := 0) (works := K.topology.works) rfl h hc
    exact ih _ h2 h1

theorem rounds_log (T : Topology Key (Val α φ η β) PyErr Unit) (c : Cfg) (n : Nat) (s : SState Key (Val α φ η β) PyErr Unit) :
    s.log <+: (rounds T c n s).log := by
  induction n generalizing s with
  | zero => exact List.prefix_refl _
  | succ n ih => exact (seqWorks_log_prefix _ _ _).trans (ih _)

theorem rounds_crashed (T : Topology Key (Val α φ η β) PyErr Unit) (c : Cfg) (n : Nat) (s : SState Key (Val α φ η β) PyErr Unit)
    (h : s.crashed.isSome) : rounds T c n s = s := by
  induction n with
  | zero => rfl
  | succ n ih => rw [rounds, seqWorks_of_crashed h, ih]

theorem rounds_compare (T : Topology Key (Val α φ η β) PyErr Unit) (c : Cfg) (n : Nat) (s : SState Key (Val α φ η β) PyErr Unit) :
    (rounds T c n s).log <+: (rounds T c.noStop n s).log := by
  induction n generalizing s with
  | zero => exact List.prefix_refl _
  | succ n ih =>
    simp only [rounds]
    rcases seqWorks_compare (c := c) 0 T.works s with h | ⟨h1, h2⟩
    · rw [h]; exact ih _
    · rw [rounds_crashed T c n _ h1]
      exact h2.trans (rounds_log _ _ _ _)

theorem init_holds {K : Computation α φ η β} (hu : Usable K) {m : Mode} {d : Files Txt β} (ha : AllFrames K m d) :
    KHolds K (K.queues m d) [] [] := by
  have hs := setup hu
  rw [queues_all ha]
  exact track_init hs.up hs.nodup hs.keys hs.several

theorem killed_begun {K : Computation α φ η β} (hu : Usable K) {m : Mode} {d : Files Txt β} (ha : AllFrames K m d) {x : Executor}
    {log : List (Event Key (Val α φ η β) PyErr)} (h : K.Killed m d log x) : Begun K log := by
  cases x with
  | sequential =>
    obtain ⟨c, n, h1⟩ := h
    refine (holds_begun (rounds_none hu c.noStop rfl n (SState.init (K.queues m d) ()) (init_holds hu ha) rfl)).prefix ?_
    exact h1.trans (rounds_compare _ _ _ _)
  | async =>
    obtain ⟨c, xls, s, h1, rfl⟩ := h
    obtain ⟨-, xls', s', h2, h3, h4⟩ := xrun_noCrash h1 rfl
    rw [← h4]
    obtain ⟨ls, h5⟩ := h2.init_proj
    rw [queues_all ha] at h5
    exact holds_begun ((setup hu).holds (s := unstop s'.a) h5 h3)
  | multiAsync n => exact h.elim
  | multiSubproc n => exact h.elim

theorem seqLoop_noStop {T : Topology Key (Val α φ η β) PyErr Unit} {c : Cfg} {n : Nat} {s s' : SState Key (Val α φ η β) PyErr Unit}
    (h : seqLoop T c n s = some s') (hc : s'.crashed = none) : seqLoop T c.noStop n s = some s' := by
  induction n generalizing s with
  | zero =>
    rw [seqLoop_zero] at h ⊢
    exact h
  | succ n ih =>
    rw [seqLoop_succ] at h ⊢
    split at h
    · rename_i h1; rw [if_pos h1]; exact h
    · rename_i h1
      rw [if_neg h1]
      split at h
      · rename_i h2; rw [if_pos h2]; exact h
      · rename_i h2
        rw [if_neg h2]
        rcases seqWorks_compare (c := c) 0 T.works s with h3 | ⟨h3, -⟩
        · rw [← h3]; exact ih h
        · exfalso
          have : s' = seqWorks c 0 T.works s := by
            cases n with
            | zero => rw [seqLoop_zero, if_pos h3] at h; exact (Option.some.inj h).symm
            | succ n => rw [seqLoop_succ, if_pos h3] at h; exact (Option.some.inj h).symm
          rw [← this, hc] at h3
          cases h3

theorem ended_done {K : Computation α φ η β} (hu : Usable K) {m : Mode} {d : Files Txt β} (ha : AllFrames K m d) {x : Executor}
    {log : List (Event Key (Val α φ η β) PyErr)} (h : K.Ended m d log x) : Done K log := by
  have hs := setup hu
  have hp : IsPrev trackOps (correctWork K) (keys K) (frameOf (ups K) (pathOf K.dir))
      (prevOf trackOps (ups K) (correctWork K) (pathOf K.dir) (keys K)) := refOf_isPrev trackOps _ (keys_nodup hu)
  cases x with
  | sequential =>
    obtain ⟨c, n, s, h1, h2, rfl⟩ := h
    obtain ⟨h3, h4⟩ := Holds.seqLoop track_lawful (track_globLaws hs.down hs.nodup hs.keys hp) h1 (init_holds hu ha) h2
    exact trackDone_done hu (track_done hs.nodup h3 h4)
  | async =>
    obtain ⟨c, ls, s, h1, h2, rfl⟩ := h
    rw [queues_all ha] at h1
    exact trackDone_done hu (hs.async h1 h2).1
  | multiAsync n =>
    obtain ⟨h1, rfl⟩ := h
    have h2 : K.names = [] := by
      have := hu.several
      exact List.length_eq_zero_iff.1 (by omega)
    exact ⟨fun k hk => by simp [keys, h2] at hk, fun _ _ => rfl⟩
  | multiSubproc n => exact h.elim

/-! ## What is saved -/

theorem mem_saves (K : Computation α φ η β) (log : List (Event Key (Val α φ η β) PyErr)) (n : Txt) (b : β) :
    (n, b) ∈ K.saves log ↔ (∃ w, Event.call w (.name n) (.final b) ∈ historyOf (.name n) log) ∧ K.imsave n b = .ok () := by
  unfold Computation.saves historyOf
  rw [List.mem_filterMap]
  simp only [List.mem_filter]
  constructor
  · rintro ⟨e, he, h⟩
    split at h
    · rename_i w n' b'
      cases hs : K.imsave n' b' with
      | error e => rw [hs] at h; cases h
      | ok u => rw [hs] at h; cases h; exact ⟨⟨w, he, by simp [keyOf]⟩, hs⟩
    · cases h
  · rintro ⟨⟨w, he, -⟩, hs⟩
    exact ⟨_, he, by simp only [hs]⟩

theorem ups_no_final (K : Computation α φ η β) (n : Txt) (w : Nat) (b : β) :
    Event.call w (.name n) (.final b) ∉ imageEvents (.name n) 0 (ups K) (.ok (pathOf K.dir (.name n))) := by
  cases hf : K.f with
  | none =>
    cases h1 : K.imread (K.dir ++ ['/'] ++ n) with
    | error e => simp [-List.append_assoc, frameWorks, loadWorks, hf, imageEvents, pathOf, readWork, h1]
    | ok a =>
      simp [-List.append_assoc, frameWorks, loadWorks, hf, imageEvents, pathOf, readWork, h1]
      split <;> simp
  | some f =>
    cases h1 : K.imread (K.dir ++ ['/'] ++ n) with
    | error e => simp [-List.append_assoc, frameWorks, loadWorks, hf, imageEvents, pathOf, readWork, h1]
    | ok a =>
      cases h3 : f n a with
      | error e => simp [-List.append_assoc, frameWorks, loadWorks, hf, imageEvents, pathOf, readWork, h1, im2imWork, h3]
      | ok b =>
        simp [-List.append_assoc, frameWorks, loadWorks, hf, imageEvents, pathOf, readWork, h1, im2imWork, h3]
        split <;> simp

theorem due_final {K : Computation α φ η β} (hu : Usable K) (n : Txt) (hn : n ∈ K.names) (b : β) :
    (∃ w, Event.call w (.name n) (.final b) ∈ due K (.name n)) ↔
      ∃ i c h, Corrected K i n c ∧ K.height c = .ok h ∧ K.borders h = .ok b := by
  obtain ⟨i, hi⟩ := List.getElem?_of_mem hn
  have hci := corr_iff hu i n hi
  have hidx : ∀ j c, Corrected K j n c → Corrected K i n c := by
    intro j c h
    have e : j = i := by
      have h1 := h.name
      obtain ⟨hj, h2⟩ := List.getElem?_eq_some_iff.1 h1
      obtain ⟨hi', h3⟩ := List.getElem?_eq_some_iff.1 hi
      exact (List.Nodup.getElem_inj_iff hu.nodup).1 (h2.trans h3.symm)
    rwa [e] at h
  unfold due trackEvents
  have hc : correctWork K (.name n) (trackOps.pair (prevOf trackOps (ups K) (correctWork K) (pathOf K.dir) (keys K) (.name n))
      (imageOf (.name n) (ups K) (.ok (pathOf K.dir (.name n))))) = corr K (.name n) := rfl
  have hpair : ∀ x y : Except PyErr (Val α φ η β), trackOps.pair x y ≠ Val.final b := by
    intro x y h; cases h
  simp only [List.mem_append, ups_no_final, false_or]
  cases hr : corr K (.name n) with
  | error e =>
    rw [hc, hr]
    constructor
    · rintro ⟨w, h⟩
      simp only [List.mem_cons, Event.call.injEq, reduceCtorEq, false_or] at h
      rcases h with ⟨-, -, h⟩ | h
      · exact absurd h.symm (hpair _ _)
      · simp [heightWorks, itemEvents] at h
    · rintro ⟨j, c, hh, h1, -⟩
      rw [(hci _).2 ⟨c, rfl, hidx j c h1⟩] at hr
      cases hr
  | ok v =>
    rw [hc, hr]
    obtain ⟨c, rfl, h1⟩ := (hci v).1 hr
    have uniq : ∀ j c', Corrected K j n c' → c' = c := by
      intro j c' h
      have := (hci (.phase c')).2 ⟨c', rfl, hidx j c' h⟩
      rw [hr] at this
      cases this
      rfl
    constructor
    · rintro ⟨w, h⟩
      simp only [List.mem_cons, Event.call.injEq] at h
      rcases h with ⟨-, -, h⟩ | h
      · exact absurd h.symm (hpair _ _)
      · refine ⟨i, c, ?_⟩
        simp only [heightWorks, itemEvents, heightWork] at h
        cases hh : K.height c with
        | error e => simp [hh, itemEvents] at h
        | ok hgt =>
          simp only [hh, bordersWork, itemEvents] at h
          cases hb : K.borders hgt with
          | error e => simp [hb, itemEvents] at h
          | ok b' =>
            simp only [hb, itemEvents] at h
            have e : b = b' := by
              split at h <;> simp at h <;> exact h.2
            exact ⟨hgt, h1, rfl, by rw [hb, e]⟩
    · rintro ⟨j, c', hgt, h2, h3, h4⟩
      cases uniq j c' h2
      refine ⟨(ups K).length + 2 + 1 + 1, ?_⟩
      refine List.mem_cons_of_mem _ ?_
      simp only [heightWorks, itemEvents, heightWork, h3, bordersWork, h4]
      cases saveWork K (.name n) (.final b) <;> simp

theorem begun_sound {K : Computation α φ η β} (hu : Usable K) {log : List (Event Key (Val α φ η β) PyErr)} (h : Begun K log)
    (n : Txt) (b : β) (hm : (n, b) ∈ K.saves log) : HasResult K n b := by
  obtain ⟨⟨w, he⟩, hs⟩ := (mem_saves K log n b).1 hm
  by_cases hn : n ∈ K.names
  · have h1 := (h.images (.name n) (List.mem_map.2 ⟨n, hn, rfl⟩)).subset he
    exact ⟨(due_final hu n hn b).1 ⟨w, h1⟩, hs⟩
  · rw [h.noOther (.name n) (fun hk => by
      obtain ⟨n', hn', e⟩ := List.mem_map.1 hk
      cases e
      exact hn hn')] at he
    cases he

theorem HasResult.mem {K : Computation α φ η β} {n : Txt} {b : β} (h : HasResult K n b) : n ∈ K.names := by
  obtain ⟨⟨i, c, hh, h1, -⟩, -⟩ := h
  exact List.mem_of_getElem? h1.name

theorem done_complete {K : Computation α φ η β} (hu : Usable K) {log : List (Event Key (Val α φ η β) PyErr)} (h : Done K log)
    (n : Txt) (b : β) (hr : HasResult K n b) : (n, b) ∈ K.saves log := by
  have hn := hr.mem
  rw [mem_saves, h.images (.name n) (List.mem_map.2 ⟨n, hn, rfl⟩)]
  exact ⟨(due_final hu n hn b).2 hr.1, hr.2⟩

theorem Corrected.same {K : Computation α φ η β} (hu : Usable K) {i j : Nat} {n : Txt} {c c' : φ} (h : Corrected K i n c)
    (h' : Corrected K j n c') : c = c' := by
  have e : i = j := by
    obtain ⟨hi, h2⟩ := List.getElem?_eq_some_iff.1 h.name
    obtain ⟨hj, h3⟩ := List.getElem?_eq_some_iff.1 h'.name
    exact (List.Nodup.getElem_inj_iff hu.nodup).1 (h2.trans h3.symm)
  subst e
  have h1 := (corr_iff hu i n h.name (.phase c)).2 ⟨c, rfl, h⟩
  rw [(corr_iff hu i n h.name (.phase c')).2 ⟨c', rfl, h'⟩] at h1
  cases h1
  rfl

theorem HasResult.same {K : Computation α φ η β} (hu : Usable K) {n : Txt} {b b' : β} (h : HasResult K n b)
    (h' : HasResult K n b') : b = b' := by
  obtain ⟨⟨i, c, hh, h1, h2, h3⟩, -⟩ := h
  obtain ⟨⟨i', c', hh', h1', h2', h3'⟩, -⟩ := h'
  cases h1.same hu h1'
  rw [h2] at h2'
  cases h2'
  rw [h3] at h3'
  cases h3'
  rfl

theorem write_results {K : Computation α φ η β} (hu : Usable K) (l : List (Txt × β)) (hl : ∀ x ∈ l, HasResult K x.1 x.2)
    (d : Files Txt β) :
    (∀ n b, (n, b) ∈ l → write d l n = some b) ∧ (∀ n, (∀ b, (n, b) ∉ l) → write d l n = d n) := by
  induction l generalizing d with
  | nil => exact ⟨fun _ _ h => absurd h List.not_mem_nil, fun _ _ => rfl⟩
  | cons x l ih =>
    obtain ⟨n0, b0⟩ := x
    have h0 := hl _ List.mem_cons_self
    obtain ⟨a, b⟩ := ih (fun y hy => hl y (List.mem_cons_of_mem _ hy)) (Complete.save d (pathName n0) b0)
    have hfn : pathName n0 = n0 := hu.plain n0 (HasResult.mem h0)
    have hst : write d ((n0, b0) :: l) = write (Complete.save d (pathName n0) b0) l := rfl
    rw [hst]
    constructor
    · intro n v hv
      by_cases hin : ∃ v', (n, v') ∈ l
      · obtain ⟨v', hv'⟩ := hin
        have e : v' = v := HasResult.same hu (hl (n, v') (List.mem_cons_of_mem _ hv')) (hl (n, v) hv)
        rw [a n v' hv', e]
      · rcases List.mem_cons.1 hv with h | h
        · cases h
          rw [b n0 (fun v' h' => hin ⟨v', h'⟩)]
          simp [Complete.save, hfn]
        · exact absurd ⟨v, h⟩ hin
    · intro n hn
      rw [b n (fun v h => hn v (List.mem_cons_of_mem _ h))]
      have : n ≠ n0 := by
        rintro rfl
        exact hn b0 List.mem_cons_self
      unfold Complete.save
      rw [if_neg (by rw [hfn]; exact this)]

/-- The index of an image whose phase cannot be corrected: no phase of a later image can. -/
theorem Corrected.before {K : Computation α φ η β} (hu : Usable K) {j : Nat} {n : Txt} {c : φ} (h : Corrected K j n c) :
    ∀ i ≤ j, ∃ n' c', Corrected K i n' c' := by
  induction h with
  | first n p c hn hp hc => intro i hi; cases Nat.le_zero.1 hi; exact ⟨n, c, .first n p c hn hp hc⟩
  | next j n0 n c0 p c h0 hn hp hc ih =>
    intro i hi
    rcases Nat.lt_or_ge j i with h | h
    · cases Nat.le_antisymm hi h
      exact ⟨n, c, .next j n0 n c0 p c h0 hn hp hc⟩
    · exact ih i h

end WholeSurface

open WholeSurface (Usable AllFrames HasResult HasResults Corrected)
variable {α φ η β : Type}

/-! ## Theorems -/

/-- C123: whatever the executor (sequential or asynchronous), its limits and the schedule, when a computation in mode "recompute" (or
without any result at the beginning) reaches its end, the directory contains the heights of the images, computed one after the other,
and nothing else has been changed. -/
theorem C123_any_execution_partial (K : WholeSurface.Computation α φ η β) (hu : Usable K) (x : Executor) (m : Mode) (d d' : Files Txt β)
    (ha : AllFrames K m d) (h : K.Complete x m d d') : HasResults K d d' := by
  obtain ⟨log, h1, rfl⟩ := h
  have hd := WholeSurface.ended_done hu ha h1
  obtain ⟨a, b⟩ := WholeSurface.write_results hu (K.saves log) (fun y hy => WholeSurface.begun_sound hu hd.begun y.1 y.2 hy) d
  exact ⟨fun n v hv => a n v (WholeSurface.done_complete hu hd n v hv),
    fun n hn => b n (fun v hv => hn v (WholeSurface.begun_sound hu hd.begun n v hv))⟩

/-- C123: the files do not depend on the executor, the limits and the schedule. -/
theorem C123_same_files_partial (K : WholeSurface.Computation α φ η β) (hu : Usable K) (x1 x2 : Executor) (m1 m2 : Mode)
    (d d1 d2 : Files Txt β) (ha1 : AllFrames K m1 d) (ha2 : AllFrames K m2 d) (h1 : K.Complete x1 m1 d d1)
    (h2 : K.Complete x2 m2 d d2) : d1 = d2 := by
  have a := C123_any_execution_partial K hu x1 m1 d d1 ha1 h1
  have b := C123_any_execution_partial K hu x2 m2 d d2 ha2 h2
  funext n
  by_cases hn : ∃ v, HasResult K n v
  · obtain ⟨v, hv⟩ := hn
    rw [a.results n v hv, b.results n v hv]
  · have hn' : ∀ v, ¬ HasResult K n v := fun v hv => hn ⟨v, hv⟩
    rw [a.others n hn', b.others n hn']

/-- C123: when the computation is killed at any time, stopped by an exception or by a signal, each file is either unchanged or the right
result. -/
theorem C123_never_wrong_partial (K : WholeSurface.Computation α φ η β) (hu : Usable K) (x : Executor) (m : Mode) (d d' : Files Txt β)
    (ha : AllFrames K m d) (h : K.Interrupted x m d d') (n : Txt) : d' n = d n ∨ ∃ b, HasResult K n b ∧ d' n = some b := by
  obtain ⟨log, h1, rfl⟩ := h
  have hd := WholeSurface.killed_begun hu ha h1
  obtain ⟨a, b⟩ := WholeSurface.write_results hu (K.saves log) (fun y hy => WholeSurface.begun_sound hu hd y.1 y.2 hy) d
  by_cases hn : ∃ v, (n, v) ∈ K.saves log
  · obtain ⟨v, hv⟩ := hn
    exact Or.inr ⟨v, WholeSurface.begun_sound hu hd n v hv, a n v hv⟩
  · exact Or.inl (b n (fun v hv => hn ⟨v, hv⟩))

/-- C123: a computation can then be restarted in mode "recompute", and gives the same files as if it had not been interrupted. -/
theorem C123_restart_partial (K : WholeSurface.Computation α φ η β) (hu : Usable K) (x1 x2 x3 : Executor) (d d1 d2 d3 : Files Txt β)
    (hi : K.Interrupted x1 .recompute d d1) (h2 : K.Complete x2 .recompute d1 d2) (h3 : K.Complete x3 .recompute d d3) : d2 = d3 := by
  have a := C123_any_execution_partial K hu x2 .recompute d1 d2 (Or.inl rfl) h2
  have b := C123_any_execution_partial K hu x3 .recompute d d3 (Or.inl rfl) h3
  funext n
  by_cases hn : ∃ v, HasResult K n v
  · obtain ⟨v, hv⟩ := hn
    rw [a.results n v hv, b.results n v hv]
  · have hn' : ∀ v, ¬ HasResult K n v := fun v hv => hn ⟨v, hv⟩
    rw [a.others n hn', b.others n hn']
    rcases C123_never_wrong_partial K hu x1 .recompute d d1 (Or.inl rfl) hi n with h | ⟨v, hv, -⟩
    · exact h
    · exact absurd hv (hn' v)

/-- C123: with the sequential and the asynchronous executors, there are computations which reach their ends. -/
theorem C123_ends_partial (K : WholeSurface.Computation α φ η β) (hu : Usable K) (m : Mode) (d : Files Txt β) (ha : AllFrames K m d) :
    (∃ d', K.Complete .sequential m d d') ∧ ∃ d', K.Complete .async m d d' := by
  have hs := WholeSurface.setup hu
  constructor
  · obtain ⟨n, s, h1, h2, -⟩ := hs.seq (O := WholeSurface.trackOps) (correct := WholeSurface.correctWork K)
      (pathOf := WholeSurface.pathOf K.dir) (c := ⟨1, 2, false⟩) rfl (le_refl _)
    rw [← WholeSurface.queues_all ha] at h1
    exact ⟨_, s.log, ⟨_, n, s, h1, h2, rfl⟩, rfl⟩
  · obtain ⟨ls, s, h1, h2⟩ := hs.canFinish (O := WholeSurface.trackOps) (correct := WholeSurface.correctWork K)
      (pathOf := WholeSurface.pathOf K.dir) (c := ⟨1, (WholeSurface.keys K).length + 1, false⟩) rfl Nat.one_pos (Nat.succ_pos _)
      (Nat.le_succ _) (ARun.nil _)
    unfold Exec.trackAInit at h1
    rw [← WholeSurface.queues_all ha] at h1
    exact ⟨_, s.log, ⟨_, ls, s, h1, h2, rfl⟩, rfl⟩

/-- C123 fails: when the phase of one image cannot be corrected (for example because its file cannot be read), no height is saved for
this image and for all the following ones. -/
theorem C123_error_spreads_fails (K : WholeSurface.Computation α φ η β) (hu : Usable K) (x : Executor) (m : Mode) (d d' : Files Txt β)
    (ha : AllFrames K m d) (h : K.Complete x m d d') (i : Nat) (n : Txt) (hi : K.names[i]? = some n) (e : PyErr)
    (he : WholeSurface.frame K n = .error e) (j : Nat) (hj : i ≤ j) (n' : Txt) (hn' : K.names[j]? = some n') : d' n' = d n' := by
  refine (C123_any_execution_partial K hu x m d d' ha h).others n' ?_
  rintro b ⟨⟨j', c, hh, h1, -⟩, -⟩
  have ej : j' = j := by
    obtain ⟨hj1, h2⟩ := List.getElem?_eq_some_iff.1 h1.name
    obtain ⟨hj2, h3⟩ := List.getElem?_eq_some_iff.1 hn'
    exact (List.Nodup.getElem_inj_iff hu.nodup).1 (h2.trans h3.symm)
  subst ej
  obtain ⟨n2, c2, h2⟩ := h1.before hu i hj
  have hn2 := h2.name
  rw [hi] at hn2
  cases hn2
  cases h2 with
  | first _ p _ _ hp _ => rw [he] at hp; cases hp
  | next _ _ _ _ p _ _ _ hp _ => rw [he] at hp; cases hp

/-- C123 fails: in mode "complete", as soon as one result is present, no computation of at least two images reaches its end. -/
theorem C123_complete_mode_fails (K : WholeSurface.Computation α φ η β) (d : Files Txt β) (hN : 2 ≤ K.names.length) (n : Txt)
    (hn : n ∈ K.names) (hd : (d n).isSome) (x : Executor) (d' : Files Txt β) : ¬ K.Complete x .complete d d' := by
  rintro ⟨log, h, -⟩
  have hk : Key.name n ∈ K.names.map .name := List.mem_map.2 ⟨n, hn, rfl⟩
  have hex : WholeSurface.present .complete d (.name n) = true := hd
  cases x with
  | sequential =>
    obtain ⟨c, k, s, h1, h2, -⟩ := h
    have h3 := WholeSurface.seqLoop_noStop h1 h2
    unfold WholeSurface.Computation.queues WholeSurface.Computation.topology at h3
    rw [C29_complete_sequential_fails (ckey := WholeSurface.coupleKey) (exists_ := WholeSurface.present .complete d)
      (names := K.names.map .name) (hck := WholeSurface.key_injective) (hN := by simpa using hN) (b := .name n) (hb := hk)
      (hex := hex) (hst := rfl)] at h3
    cases h3
  | async =>
    obtain ⟨c, ls, s, h1, h2, -⟩ := h
    unfold WholeSurface.Computation.queues WholeSurface.Computation.topology at h1
    rw [C29_complete_never_ends_fails (ckey := WholeSurface.coupleKey) (exists_ := WholeSurface.present .complete d)
      (names := K.names.map .name) (hck := WholeSurface.key_injective) (hN := by simpa using hN) (b := .name n) (hb := hk)
      (hex := hex) (hrun := h1)] at h2
    cases h2
  | multiAsync _ => exact absurd hN (by have := h.1; omega)
  | multiSubproc _ => exact h

/-- C123 fails: for at least two images, `topology.compute()` (with the default executor) and `topology.compute("multi_exec_async")` or
`topology.compute("multi_exec_subproc")` compute nothing: `ValueError`. -/
theorem C123_default_executor_fails (K : WholeSurface.Computation α φ η β) (hN : 2 ≤ K.names.length) (n : Nat) (m : Mode) (d : Files Txt β)
    (x : Option Executor) (hx : x = none ∨ ∃ n', x = some (.multiAsync n') ∨ x = some (.multiSubproc n'))
    (r : Except PyErr (Files Txt β)) : K.Computes n x m d r ↔ r = .error .valueError := by
  have h1 : K.names.length - 1 ≠ 0 := by omega
  rcases hx with rfl | ⟨n', rfl | rfl⟩ <;> cases r <;>
    simp [WholeSurface.Computation.Computes, WholeSurface.chosen, WholeSurface.Computation.begins, h1, eq_comm]

/-- C123 fails for a single image: no computation with the sequential or the asynchronous executor reaches its end, and the default
executor ends without any result. -/
theorem C123_single_image_fails (K : WholeSurface.Computation α φ η β) (a : Txt) (ha : K.names = [a]) (m : Mode) (d : Files Txt β)
    (hd : AllFrames K m d) (n : Nat) (x : Option Executor) (d' : Files Txt β) :
    K.Computes n x m d (.ok d') ↔ d' = d ∧ (x = none ∨ ∃ n', x = some (.multiAsync n')) := by
  have hq := WholeSurface.queues_all hd
  have hk : WholeSurface.keys K = [.name a] := by simp [WholeSurface.keys, ha]
  have no : ∀ x, x = .sequential ∨ x = .async → ¬ K.Complete x m d d' := by
    rintro x hx ⟨log, h, -⟩
    rcases hx with rfl | rfl
    · obtain ⟨c, k, s, h1, h2, -⟩ := h
      have h3 := WholeSurface.seqLoop_noStop h1 h2
      rw [hq, hk] at h3
      unfold WholeSurface.Computation.topology at h3
      rw [C29_single_image_sequential_fails (ckey := WholeSurface.coupleKey) (hst := rfl)] at h3
      cases h3
    · obtain ⟨c, ls, s, h1, h2, -⟩ := h
      rw [hq, hk] at h1
      unfold WholeSurface.Computation.topology at h1
      rw [C29_single_image_never_ends_fails (ckey := WholeSurface.coupleKey) (hrun := h1)] at h2
      cases h2
  have yes : ∀ n', K.Computes n (some (.multiAsync n')) m d (.ok d') ↔ d' = d := by
    intro n'
    simp only [WholeSurface.Computation.Computes, WholeSurface.chosen, WholeSurface.Computation.begins, ha,
      WholeSurface.Computation.Complete, WholeSurface.Computation.Ended]
    constructor
    · rintro ⟨-, log, ⟨-, rfl⟩, rfl⟩
      rfl
    · rintro rfl
      exact ⟨by simp, [], ⟨by simp, rfl⟩, rfl⟩
  cases x with
  | none =>
    have := yes n
    simpa [WholeSurface.Computation.Computes, WholeSurface.chosen] using this
  | some x =>
    cases x with
    | multiAsync n' => rw [yes n']; simp
    | multiSubproc n' => simp [WholeSurface.Computation.Computes, WholeSurface.chosen, WholeSurface.Computation.begins]
    | sequential =>
      have := no .sequential (Or.inl rfl)
      simp [WholeSurface.Computation.Computes, WholeSurface.chosen, this]
    | async =>
      have := no .async (Or.inr rfl)
      simp [WholeSurface.Computation.Computes, WholeSurface.chosen, this]

/-- With the sequential or the asynchronous executor, the results of `topology.compute` are those of the complete computations. -/
theorem C123_computes_partial (K : WholeSurface.Computation α φ η β) (hu : Usable K) (n : Nat) (m : Mode) (d : Files Txt β)
    (ha : AllFrames K m d) (x : Executor) (hx : x = .sequential ∨ x = .async) :
    (∃ d', K.Computes n (some x) m d (.ok d')) ∧ ∀ r, K.Computes n (some x) m d r → ∃ d', r = .ok d' ∧ HasResults K d d' := by
  have he := C123_ends_partial K hu m d ha
  constructor
  · rcases hx with rfl | rfl
    · obtain ⟨d', h⟩ := he.1; exact ⟨d', rfl, h⟩
    · obtain ⟨d', h⟩ := he.2; exact ⟨d', rfl, h⟩
  · intro r hr
    cases r with
    | error e => rcases hx with rfl | rfl <;> cases hr
    | ok d' => exact ⟨d', rfl, C123_any_execution_partial K hu x m d d' ha hr.2⟩

/-! ## Example -/

namespace WholeSurfaceExample

/-- Three images; the phase of the second one follows the one of the first one. -/
def K (bad : Txt → Bool) : WholeSurface.Computation Nat Nat Nat Nat where
  imread p := if bad p then .error .osError else .ok p.length
  dir := "dir".toList
  f := none
  process a := .ok (a + 1)
  correct a b := .ok (a + 10 * b)
  height p := .ok (2 * p)
  borders h := .ok (h + 1)
  imsave _ _ := .ok ()
  names := ["a".toList, "bb".toList, "ccc".toList]

theorem usable (bad : Txt → Bool) : Usable (K bad) := 
  ⟨show ["a".toList, "bb".toList, "ccc".toList].Nodup by decide,
    show ∀ n ∈ ["a".toList, "bb".toList, "ccc".toList], pathName n = n by decide, by simp [K]⟩

/-- The heights of the three images: the phases of the frames are 6, 7 and 8, and are corrected in 66, 136 and 216. -/
theorem results : HasResult (K fun _ => false) "a".toList 133 ∧ HasResult (K fun _ => false) "bb".toList 273 ∧
    HasResult (K fun _ => false) "ccc".toList 433 := by
  have h0 : Corrected (K fun _ => false) 0 "a".toList 66 := .first _ 6 66 rfl rfl rfl
  have h1 : Corrected (K fun _ => false) 1 "bb".toList 136 := .next 0 _ _ 66 7 136 h0 rfl rfl rfl
  have h2 : Corrected (K fun _ => false) 2 "ccc".toList 216 := .next 1 _ _ 136 8 216 h1 rfl rfl rfl
  exact ⟨⟨⟨0, 66, 132, h0, rfl, rfl⟩, rfl⟩, ⟨⟨1, 136, 272, h1, rfl, rfl⟩, rfl⟩, ⟨⟨2, 216, 432, h2, rfl, rfl⟩, rfl⟩⟩

/-- A computation which reaches its end, with both executors: the three files. -/
example : ∃ d, (K fun _ => false).Complete .sequential .recompute (fun _ => none) d ∧
    (K fun _ => false).Complete .async .recompute (fun _ => none) d ∧ d "a".toList = some 133 ∧ d "bb".toList = some 273 ∧
    d "ccc".toList = some 433 ∧ d "d".toList = none := by
  obtain ⟨⟨d1, h1⟩, d2, h2⟩ := C123_ends_partial (K fun _ => false) (usable _) .recompute (fun _ => none) (Or.inl rfl)
  cases C123_same_files_partial _ (usable _) _ _ _ _ _ _ _ (Or.inl rfl) (Or.inl rfl) h1 h2
  have h := C123_any_execution_partial _ (usable _) _ _ _ _ (Or.inl rfl) h1
  refine ⟨d1, h1, h2, h.results _ _ results.1, h.results _ _ results.2.1, h.results _ _ results.2.2, ?_⟩
  exact h.others _ (fun b hb => absurd hb.mem (by decide))

/-- The second image cannot be read: the heights of the third one are lost. -/
example (x : Executor) (d : Files Txt Nat) (h : (K fun p => p = "dir/bb".toList).Complete x .recompute (fun _ => none) d) :
    d "a".toList = some 133 ∧ d "bb".toList = none ∧ d "ccc".toList = none := by
  have h0 : Corrected (K fun p => p = "dir/bb".toList) 0 "a".toList 66 := .first _ 6 66 rfl rfl rfl
  refine ⟨(C123_any_execution_partial _ (usable _) _ _ _ _ (Or.inl rfl) h).results _ _ ⟨⟨0, 66, 132, h0, rfl, rfl⟩, rfl⟩, ?_, ?_⟩
  · exact C123_error_spreads_fails _ (usable _) x .recompute _ d (Or.inl rfl) h 1 "bb".toList rfl .osError rfl 1 (le_refl _) _ rfl
  · exact C123_error_spreads_fails _ (usable _) x .recompute _ d (Or.inl rfl) h 1 "bb".toList rfl .osError rfl 2 (by decide) _ rfl

/-- The default executor computes nothing for these images. -/
example (d : Files Txt Nat) : (K fun _ => false).Computes 4 none .recompute d (.error .valueError) :=
  (C123_default_executor_fails _ (by decide) 4 .recompute d none (Or.inl rfl) _).2 rfl

/-- One result is present: nothing ends in mode "complete". -/
example (x : Executor) (d' : Files Txt Nat) :
    ¬ (K fun _ => false).Complete x .complete (fun n => if n = "a".toList then some 133 else none) d' :=
  C123_complete_mode_fails _ _ (by decide) "a".toList (by decide) rfl x d'

/-- A computation killed after some rounds of the sequential executor. -/
example : (K fun _ => false).Interrupted .sequential .recompute (fun _ => none) (fun _ => none) :=
  ⟨[], ⟨⟨1, 2, false⟩, 0, List.nil_prefix⟩, rfl⟩

end WholeSurfaceExample
end Verif
