import Verif.Model.WholeRun
import Verif.Props.TryWork
import Verif.Props.StopSignal
import Verif.Props.Distribution
import Verif.Props.Complete
import Verif.Props.GroupsLive
import Verif.Exec.StopIfError

/-!
# The files of a computation of PIV do not depend on how it is executed (C117)
-/

namespace Verif
open Verif.Exec Verif.Spec Verif.TryWork Verif.PivGrid Verif.Mask Verif.ResultsFiles Verif.Distribution Verif.Complete Verif.WholeRun

namespace WholeRun
variable {F : Type}

/-! ## Specification -/

/-- The result of the couple `i`: its two images are loaded and masked, and the velocity is computed. -/
def resultOf (K : Computation F) (i : Int) : Except PyErr (Result F) :=
  match loaded K.E K.f K.dir (K.images i).1 with
  | .error e => .error e
  | .ok a0 => match loaded K.E K.f K.dir (K.images i).2 with
    | .error e => .error e
    | .ok a1 => match maskArray (some K.mask) a0 with
      | .error e => .error e
      | .ok m0 => match maskArray (some K.mask) a1 with
        | .error e => .error e
        | .ok m1 => match K.E.velo m0 m1 with
          | .error e => .error e
          | .ok v => .ok ⟨theCouple K.E K.dir K.mask (i, K.images i) a0 m0 m1 (some (serieOf K.dir (i, K.images i))), v⟩

/-- The couple `i` has the result `r`, which can be written. -/
def HasResult (K : Computation F) (i : Int) (r : Result F) : Prop := resultOf K i = .ok r ∧ K.save r = .ok ()

/-- The computation of the couples `all` is well defined: the series of the couples is the one of the files, the mask can be applied,
and each couple has its own file. -/
structure Usable (K : Computation F) (all : List Int) : Prop where
  setup : Setup K.E K.S K.dir (K.couples all)
  mask : MaskAccepted K.mask
  fileName : ∀ i ∈ all, ∀ r, resultOf K i = .ok r → K.fileName r = K.nameOf i
  differ : ∀ i ∈ all, ∀ j ∈ all, K.nameOf i = K.nameOf j → i = j

/-- The directory `d'` is the directory `d` with the results of the couples `all`. -/
structure HasResults (K : Computation F) (all : List Int) (d d' : Files Txt (Result F)) : Prop where
  results : ∀ i ∈ all, ∀ r, HasResult K i r → d' (K.nameOf i) = some r
  others : ∀ n, (∀ i ∈ all, ∀ r, HasResult K i r → K.nameOf i ≠ n) → d' n = d n

/-- The files which are already there for the couples `all` are their results. -/
def Clean (K : Computation F) (all : List Int) (d : Files Txt (Result F)) : Prop :=
  ∀ i ∈ all, ∀ r, d (K.nameOf i) = some r → HasResult K i r

/-- The number of processes of a multi executor is at least one. -/
def _root_.Verif.WholeRun.Executor.HasProcess : Executor → Prop
  | .sequential => True
  | .async => True
  | .multiAsync n => 1 ≤ n
  | .multiSubproc n => 1 ≤ n

/-! ## One process -/

theorem couples_fst (K : Computation F) (is : List Int) : (K.couples is).map (fun c => c.1) = is := by
  unfold Computation.couples
  rw [List.map_map]
  exact List.map_id is

theorem Usable.sub {K : Computation F} {all : List Int} (h : Usable K all) (is : List Int) (hs : ∀ i ∈ is, i ∈ all)
    (hn : is.Nodup) : Usable K is where
  setup := by
    have hc : ∀ c ∈ K.couples is, c ∈ K.couples all := by
      intro c hc
      obtain ⟨i, hi, rfl⟩ := List.mem_map.1 hc
      exact List.mem_map.2 ⟨i, hs i hi, rfl⟩
    refine ⟨?_, fun c h' => h.setup.differ c (hc c h'), fun c h' => h.setup.serie c (hc c h'), h.setup.absolute, h.setup.exists_⟩
    have : (K.couples is).map (fun c => c.1) = is := couples_fst K is
    rw [this]; exact hn
  mask := h.mask
  fileName := fun i hi => h.fileName i (hs i hi)
  differ := fun i hi j hj => h.differ i (hs i hi) j (hs j hj)

theorem Usable.nodup {K : Computation F} {all : List Int} (h : Usable K all) : all.Nodup := by
  have := h.setup.keys
  have e : (K.couples all).map (fun c => c.1) = all := couples_fst K all
  rwa [e] at this

/-- What is done at any time of a process is the beginning of what it has to do. -/
structure Begun (K : Computation F) (is : List Int) (log : List (Event Key (TryWork.Val F) PyErr)) : Prop where
  couples : ∀ k n0 n1, (k, n0, n1) ∈ TryWork.keys (K.couples is) →
    eventsOf (fun w => decide ((loadWorks (readWork K.E) (K.f.map im2imWork)).length ≤ w)) k log <+:
      itemEvents k ((loadWorks (readWork K.E) (K.f.map im2imWork)).length + 1)
        [⟨false, computeWork K.E K.mask⟩, ⟨true, saveWork K.save⟩]
        (coupleOf ((coupleOps K.E K.S K.mask).make k (n0, n1))
          (imageOf n0 (loadWorks (readWork K.E) (K.f.map im2imWork)) (.ok (pathOf K.dir n0)))
          (imageOf n1 (loadWorks (readWork K.E) (K.f.map im2imWork)) (.ok (pathOf K.dir n1))))
  images : ∀ n, eventsOf (fun w => decide (w < (loadWorks (readWork K.E) (K.f.map im2imWork)).length)) n log <+:
      imageEvents n 0 (loadWorks (readWork K.E) (K.f.map im2imWork)) (.ok (pathOf K.dir n))
  noOther : ∀ k, (∀ n0 n1, (k, n0, n1) ∉ TryWork.keys (K.couples is)) →
      eventsOf (fun w => decide ((loadWorks (readWork K.E) (K.f.map im2imWork)).length ≤ w)) k log = []

abbrev Done (K : Computation F) (is : List Int) (log : List (Event Key (TryWork.Val F) PyErr)) : Prop :=
  PivDone (readWork K.E) (K.f.map im2imWork) (coupleOps K.E K.S K.mask) (computeWork K.E K.mask) (saveWork K.save)
    (pathOf K.dir) (TryWork.keys (K.couples is)) log

theorem Done.begun {K : Computation F} {is : List Int} {log : List (Event Key (TryWork.Val F) PyErr)} (h : Done K is log) :
    Begun K is log where
  couples := fun k n0 n1 hk => by rw [h.couples k n0 n1 hk]
  images := by
    intro n
    by_cases hn : ∃ c ∈ TryWork.keys (K.couples is), n = c.2.1 ∨ n = c.2.2
    · rw [h.images n hn]
    · rw [h.noOtherImage n (by
        intro c hc
        by_contra hcon
        exact hn ⟨c, hc, by tauto⟩)]
      exact List.nil_prefix
  noOther := h.noOtherCouple

theorem Begun.prefix {K : Computation F} {is : List Int} {log log' : List (Event Key (TryWork.Val F) PyErr)}
    (h : Begun K is log) (hp : log' <+: log) : Begun K is log' where
  couples := fun k n0 n1 hk => (hp.filter _).trans (h.couples k n0 n1 hk)
  images := fun n => (hp.filter _).trans (h.images n)
  noOther := by
    intro k hk
    have h1 := h.noOther k hk
    have h2 : eventsOf (fun w => decide ((loadWorks (readWork K.E) (K.f.map im2imWork)).length ≤ w)) k log' <+:
        eventsOf (fun w => decide ((loadWorks (readWork K.E) (K.f.map im2imWork)).length ≤ w)) k log := hp.filter _
    rw [h1] at h2
    exact List.prefix_nil.1 h2

theorem series_eq (K : Computation F) (is : List Int) :
    K.queues is = groupStart (coupleOps K.E K.S K.mask).toNameTuples (pathOf K.dir)
      (coupleSeries (TryWork.keys (K.couples is))) := rfl

theorem ended_done {K : Computation F} {is : List Int} (hu : Usable K is) {log : List (Event Key (TryWork.Val F) PyErr)}
    (h : K.Ended is log) : Done K is log := by
  obtain ⟨c, ls, s, h1, h2, rfl⟩ := h
  exact (C23_async (readWork K.E) (K.f.map im2imWork) (coupleOps K.E K.S K.mask) (computeWork K.E K.mask) (saveWork K.save)
    (pathOf K.dir) (TryWork.keys (K.couples is)) (keys_nodup hu.setup) (keys_differ hu.setup)
    (accepted hu.setup hu.mask K.f) c ls s h1 h2).1

theorem seq_done {K : Computation F} {is : List Int} (hu : Usable K is) (c : Cfg) (n : Nat)
    (s : SState Key (TryWork.Val F) PyErr Unit)
    (h : seqLoop K.topology c n (SState.init (K.queues is) ()) = some s) :
    ∃ all, Done K is all ∧ (s.log = all ∨ (s.crashed.isSome = true ∧ s.log <+: all)) := by
  obtain ⟨n', s', h1, h2, h3, -⟩ := C23_sequential (readWork K.E) (K.f.map im2imWork) (coupleOps K.E K.S K.mask)
    (computeWork K.E K.mask) (saveWork K.save)
    (pathOf K.dir) (TryWork.keys (K.couples is)) (keys_nodup hu.setup) (keys_differ hu.setup)
    (accepted hu.setup hu.mask K.f) c.noStop rfl
  refine ⟨s'.log, h3, ?_⟩
  rcases seqLoop_compare h h1 with h4 | h4
  · exact Or.inl (by rw [h4])
  · exact Or.inr h4

theorem endedSeq_done {K : Computation F} {is : List Int} (hu : Usable K is) {log : List (Event Key (TryWork.Val F) PyErr)}
    (h : K.EndedSeq is log) : Done K is log := by
  obtain ⟨c, n, s, h1, h2, rfl⟩ := h
  obtain ⟨all, h3, h4⟩ := seq_done hu c n s h1
  rcases h4 with rfl | h4
  · exact h3
  · rw [h2] at h4; cases h4.1

theorem killedSeq_begun {K : Computation F} {is : List Int} (hu : Usable K is)
    {log : List (Event Key (TryWork.Val F) PyErr)} (h : K.KilledSeq is log) : Begun K is log := by
  obtain ⟨c, n, s, h1, h2⟩ := h
  obtain ⟨all, h3, h4⟩ := seq_done hu c n s h1
  rcases h4 with rfl | h4
  · exact h3.begun.prefix h2
  · exact h3.begun.prefix (h2.trans h4.2)

theorem killed_begun {K : Computation F} {is : List Int} (hu : Usable K is)
    {log : List (Event Key (TryWork.Val F) PyErr)} (h : K.Killed is log) : Begun K is log := by
  obtain ⟨c, xls, s, h1, rfl⟩ := h
  obtain ⟨a, b, d⟩ := C104_right_piv (readWork K.E) (K.f.map im2imWork) (pathOf K.dir) (coupleOps K.E K.S K.mask)
    (computeWork K.E K.mask) (saveWork K.save)
    (TryWork.keys (K.couples is)) (keys_nodup hu.setup) (keys_differ hu.setup)
    (accepted hu.setup hu.mask K.f) c xls s h1
  exact ⟨a, b, d⟩

/-! ## What is saved -/

theorem mem_saves (K : Computation F) (log : List (Event Key (TryWork.Val F) PyErr)) (i : Int) (r : Result F) :
    (i, r) ∈ K.saves log ↔ (∃ w, Event.call w (.idx i) (.results r) ∈ log) ∧ K.save r = .ok () := by
  unfold Computation.saves
  rw [List.mem_filterMap]
  constructor
  · rintro ⟨e, he, h⟩
    split at h
    · rename_i w j r'
      cases hs : K.save r' with
      | error e => rw [hs] at h; cases h
      | ok u => rw [hs] at h; cases h; exact ⟨⟨w, he⟩, hs⟩
    · cases h
  · rintro ⟨⟨w, he⟩, hs⟩
    exact ⟨_, he, by simp only [hs]⟩

theorem mem_savedFor (log : List (Event Key (TryWork.Val F) PyErr)) (i : Int) (r : Result F) :
    r ∈ savedFor log i ↔ ∃ w, Event.call w (.idx i) (.results r) ∈ log := by
  unfold savedFor
  rw [List.mem_filterMap]
  constructor
  · rintro ⟨e, he, h⟩
    split at h
    · rename_i w j r'
      by_cases hj : j = i
      · rw [if_pos hj] at h; cases h; exact ⟨w, hj ▸ he⟩
      · rw [if_neg hj] at h; cases h
    · cases h
  · rintro ⟨w, he⟩
    exact ⟨_, he, by simp⟩

/-- The events of a couple, from its images. -/
theorem saved_item {K : Computation F} {is : List Int} (hu : Usable K is) (i : Int) (hi : i ∈ is) (w : Nat) :
    savedFor (itemEvents (.idx i) w [⟨false, computeWork K.E K.mask⟩, ⟨true, saveWork K.save⟩]
      (coupleOf ((coupleOps K.E K.S K.mask).make (.idx i) (.name (K.images i).1, .name (K.images i).2))
          (imageOf (.name (K.images i).1) (loadWorks (readWork K.E) (K.f.map im2imWork)) (.ok (pathOf K.dir (.name (K.images i).1))))
          (imageOf (.name (K.images i).2) (loadWorks (readWork K.E) (K.f.map im2imWork))
            (.ok (pathOf K.dir (.name (K.images i).2)))))) i = expected (resultOf K i) := by
  have hc : (i, K.images i) ∈ K.couples is := List.mem_map.2 ⟨i, hi, rfl⟩
  rw [imageOf_loaded, imageOf_loaded]
  unfold resultOf
  cases h0 : loaded K.E K.f K.dir (K.images i).1 with
  | error e => exact (events_error K.E K.mask K.save i w e).1
  | ok a0 =>
    cases h1 : loaded K.E K.f K.dir (K.images i).2 with
    | error e => exact (events_error K.E K.mask K.save i w e).1
    | ok a1 =>
      obtain ⟨b0, hb0⟩ := loaded_exists _ _ _ _ _ h0
      obtain ⟨b1, hb1⟩ := loaded_exists _ _ _ _ _ h1
      obtain ⟨m0, hm0⟩ := hu.mask a0
      obtain ⟨m1, hm1⟩ := hu.mask a1
      have hmk := make_ok hu.setup K.mask _ hc a0 a1 m0 m1 b0 b1 hb0 hb1 hm0 hm1
      simp only at hmk
      simp only [coupleOf, coupleOps, hmk, hm0, hm1]
      rw [(events_couple K.E K.mask K.save i w _).1, calcul_couple]
      cases K.E.velo m0 m1 <;> rfl

/-- The works on the images save nothing. -/
theorem image_no_results (K : Computation F) (k : Key) (w : Nat) (r : Result F) :
    Event.call w k (.results r) ∉ imageEvents k 0 (loadWorks (readWork K.E) (K.f.map im2imWork)) (.ok (pathOf K.dir k)) := by
  have hp : ∀ k, ∃ p, (pathOf K.dir k : TryWork.Val F) = .path p := by
    intro k; cases k <;> exact ⟨_, rfl⟩
  obtain ⟨p, hp⟩ := hp k
  rw [hp]
  cases hf : K.f with
  | none =>
    cases h : readWork K.E k (.path p) <;> simp [loadWorks, imageEvents, h]
  | some g =>
    cases h : readWork K.E k (.path p) with
    | error e => simp [loadWorks, imageEvents, h]
    | ok v =>
      have : ∃ a, v = .image a := by
        simp only [readWork] at h
        split at h
        · cases h
        · cases h; exact ⟨_, rfl⟩
      obtain ⟨a, rfl⟩ := this
      cases h2 : im2imWork g k (.image a : TryWork.Val F) <;> simp [loadWorks, imageEvents, h, h2]

theorem begun_sound {K : Computation F} {is : List Int} (hu : Usable K is) {log : List (Event Key (TryWork.Val F) PyErr)}
    (h : Begun K is log) (i : Int) (r : Result F) (hm : (i, r) ∈ K.saves log) : i ∈ is ∧ HasResult K i r := by
  obtain ⟨⟨w, he⟩, hs⟩ := (mem_saves K log i r).1 hm
  by_cases hw : (loadWorks (readWork K.E) (K.f.map im2imWork)).length ≤ w
  · have hin : Event.call w (.idx i) (.results r) ∈
        eventsOf (fun w => decide ((loadWorks (readWork K.E) (K.f.map im2imWork)).length ≤ w)) (.idx i) log :=
      List.mem_filter.2 ⟨he, by simp [hw]⟩
    by_cases hi : i ∈ is
    · have hk : (Key.idx i, Key.name (K.images i).1, Key.name (K.images i).2) ∈ TryWork.keys (K.couples is) :=
        List.mem_map.2 ⟨(i, K.images i), List.mem_map.2 ⟨i, hi, rfl⟩, rfl⟩
      have := (h.couples _ _ _ hk).subset hin
      have hr := (mem_savedFor _ i r).2 ⟨w, this⟩
      rw [saved_item hu i hi] at hr
      refine ⟨hi, ?_, hs⟩
      cases hc : resultOf K i with
      | error e => rw [hc] at hr; simp [expected] at hr
      | ok r' => rw [hc] at hr; simp [expected] at hr; rw [hr]
    · have := h.noOther (.idx i) (by
        intro n0 n1 hk
        obtain ⟨c, hc, e⟩ := List.mem_map.1 hk
        obtain ⟨j, hj, rfl⟩ := List.mem_map.1 hc
        cases e
        exact hi hj)
      rw [this] at hin
      cases hin
  · have hin : Event.call w (.idx i) (.results r) ∈
        eventsOf (fun w => decide (w < (loadWorks (readWork K.E) (K.f.map im2imWork)).length)) (.idx i) log :=
      List.mem_filter.2 ⟨he, by simp; omega⟩
    exact absurd ((h.images _).subset hin) (image_no_results K _ w r)

theorem done_complete {K : Computation F} {is : List Int} (hu : Usable K is) {log : List (Event Key (TryWork.Val F) PyErr)}
    (h : Done K is log) (i : Int) (hi : i ∈ is) (r : Result F) (hr : HasResult K i r) : (i, r) ∈ K.saves log := by
  rw [mem_saves]
  refine ⟨(mem_savedFor log i r).1 ?_, hr.2⟩
  have hk : (Key.idx i, Key.name (K.images i).1, Key.name (K.images i).2) ∈ TryWork.keys (K.couples is) :=
    List.mem_map.2 ⟨(i, K.images i), List.mem_map.2 ⟨i, hi, rfl⟩, rfl⟩
  rw [(saved_of_events h i).1, h.couples _ _ _ hk, saved_item hu i hi, hr.1]
  simp [expected]

/-! ## Several processes -/

theorem Interleaving.mem {α : Type} {ls : List (List α)} {l : List α} (h : Interleaving ls l) (x : α) :
    x ∈ l ↔ ∃ p ∈ ls, x ∈ p := by
  induction h with
  | done ls h =>
    constructor
    · intro hx; cases hx
    · rintro ⟨p, hp, hx⟩; rw [h p hp] at hx; cases hx
  | next b a y l rest h ih =>
    rw [List.mem_cons, ih]
    simp only [List.mem_append, List.mem_cons]
    constructor
    · rintro (rfl | ⟨p, hp | rfl | hp, hx⟩)
      · exact ⟨_, Or.inr (Or.inl rfl), List.mem_cons_self⟩
      · exact ⟨p, Or.inl hp, hx⟩
      · exact ⟨_, Or.inr (Or.inl rfl), List.mem_cons_of_mem _ hx⟩
      · exact ⟨p, Or.inr (Or.inr hp), hx⟩
    · rintro ⟨p, hp | rfl | hp, hx⟩
      · exact Or.inr ⟨p, Or.inl hp, hx⟩
      · rcases List.mem_cons.1 hx with rfl | hx
        · exact Or.inl rfl
        · exact Or.inr ⟨l, Or.inr (Or.inl rfl), hx⟩
      · exact Or.inr ⟨p, Or.inr (Or.inr hp), hx⟩

/-- There is always an order: one process after the other. -/
theorem Interleaving.concat {α : Type} (ls : List (List α)) : Interleaving ls ls.flatten := by
  have key : ∀ (n : Nat) (ls : List (List α)), ls.flatten.length = n → Interleaving ls ls.flatten := by
    intro n
    induction n with
    | zero =>
      intro ls h
      rw [List.length_eq_zero_iff.1 h]
      exact Interleaving.done ls (fun l hl => List.flatten_eq_nil_iff.1 (List.length_eq_zero_iff.1 h) l hl)
    | succ n ih =>
      intro ls
      have sub : ∀ (b rest : List (List α)), (∀ l ∈ b, l = []) → (b ++ rest).flatten.length = n + 1 →
          Interleaving (b ++ rest) (b ++ rest).flatten := by
        intro b rest
        induction rest generalizing b with
        | nil =>
          intro hb h
          rw [List.append_nil, List.flatten_eq_nil_iff.2 hb] at h; cases h
        | cons l rest ihr =>
          intro hb h
          cases l with
          | nil =>
            have := ihr (b ++ [[]]) (by
              intro l hl
              rcases List.mem_append.1 hl with hl | hl
              · exact hb l hl
              · simpa using hl) (by simpa using h)
            simpa using this
          | cons a l =>
            have e : (b ++ (a :: l) :: rest).flatten = a :: (b ++ l :: rest).flatten := by
              simp [List.flatten_eq_nil_iff.2 hb]
            rw [e]
            rw [e, List.length_cons] at h
            exact Interleaving.next b rest a l _ (ih _ (by omega))
      intro h
      exact sub [] ls (by simp) h
  exact key _ ls rfl

theorem write_results {K : Computation F} {all : List Int} (hu : Usable K all) (l : List (Int × Result F))
    (hl : ∀ x ∈ l, x.1 ∈ all ∧ HasResult K x.1 x.2) (d : Files Txt (Result F)) :
    (∀ i r, (i, r) ∈ l → K.write d l (K.nameOf i) = some r) ∧
    (∀ n, (∀ i r, (i, r) ∈ l → K.nameOf i ≠ n) → K.write d l n = d n) := by
  induction l generalizing d with
  | nil => exact ⟨fun _ _ h => absurd h (List.not_mem_nil), fun _ _ => rfl⟩
  | cons x l ih =>
    obtain ⟨j, q⟩ := x
    obtain ⟨hj, hq⟩ := hl _ List.mem_cons_self
    obtain ⟨a, b⟩ := ih (fun y hy => hl y (List.mem_cons_of_mem _ hy)) (Complete.save d (K.fileName q) q)
    have hfn := hu.fileName j hj q hq.1
    have hst : K.write d ((j, q) :: l) = K.write (Complete.save d (K.fileName q) q) l := rfl
    rw [hst]
    constructor
    · intro i r hir
      by_cases hin : (i, r) ∈ l
      · exact a i r hin
      · rcases List.mem_cons.1 hir with h | h
        · cases h
          rw [b (K.nameOf j)]
          · simp [Complete.save, hfn]
          · intro i' r' h' hne
            obtain ⟨hi', hr'⟩ := hl _ (List.mem_cons_of_mem _ h')
            have := hu.differ i' hi' j hj hne
            subst this
            have h1 := hr'.1
            have h2 := hq.1
            simp only at h1 h2
            rw [h1] at h2
            cases h2
            exact hin h'
        · exact absurd h hin
    · intro n hn
      rw [b n (fun i r h => hn i r (List.mem_cons_of_mem _ h))]
      have := hn j q List.mem_cons_self
      unfold Complete.save
      rw [if_neg (by rw [hfn]; exact fun h => this h.symm)]

theorem parts_flatten {x : Executor} {sel : Selection} {ps : List (List Int)} (hp : x.HasProcess)
    (hsel : ∀ start stop step, sel = .range start stop step → step ≠ 0) (h : parts x sel = .ok ps) :
    ps.flatten = sel.indices := by
  cases x with
  | sequential => cases sel <;> (cases h; simp)
  | async => cases sel <;> (cases h; simp)
  | multiAsync n =>
    cases sel with
    | range start stop step =>
      obtain ⟨procs, h1, h2⟩ := C04_async_series start stop step n (hsel _ _ _ rfl) hp
      simp only [parts, h1] at h
      cases h
      exact h2.glue
    | list is =>
      obtain ⟨procs, h1, h2⟩ := C04_async_complete is n hp
      simp only [parts, h1] at h
      cases h
      exact h2.glue
  | multiSubproc n =>
    cases sel with
    | range start stop step =>
      obtain ⟨procs, h1, h2⟩ := C04_subproc_series start stop step n (hsel _ _ _ rfl) hp
      simp only [parts, h1] at h
      cases h
      exact h2.glue
    | list is =>
      obtain ⟨procs, h1, h2⟩ := C04_subproc_complete is n hp
      simp only [parts, h1] at h
      cases h
      exact h2.glue

theorem parts_ok (x : Executor) (sel : Selection) (hp : x.HasProcess)
    (hsel : ∀ start stop step, sel = .range start stop step → step ≠ 0) : ∃ ps, parts x sel = .ok ps := by
  cases x with
  | sequential => cases sel <;> exact ⟨_, rfl⟩
  | async => cases sel <;> exact ⟨_, rfl⟩
  | multiAsync n =>
    cases sel with
    | range start stop step =>
      obtain ⟨procs, h1, h2⟩ := C04_async_series start stop step n (hsel _ _ _ rfl) hp
      exact ⟨procs.map Prod.fst, by simp only [parts, h1]⟩
    | list is =>
      obtain ⟨procs, h1, h2⟩ := C04_async_complete is n hp
      exact ⟨procs.map Prod.fst, by simp only [parts, h1]⟩
  | multiSubproc n =>
    cases sel with
    | range start stop step =>
      obtain ⟨procs, h1, h2⟩ := C04_subproc_series start stop step n (hsel _ _ _ rfl) hp
      exact ⟨procs.map Prod.fst, by simp only [parts, h1]⟩
    | list is =>
      obtain ⟨procs, h1, h2⟩ := C04_subproc_complete is n hp
      exact ⟨procs.map Prod.fst, by simp only [parts, h1]⟩

theorem part_sub {ps : List (List Int)} {all : List Int} (h : ps.flatten = all) (hn : all.Nodup) (p : List Int) (hp : p ∈ ps) :
    (∀ i ∈ p, i ∈ all) ∧ p.Nodup := by
  subst h
  exact ⟨fun i hi => List.mem_flatten.2 ⟨p, hp, hi⟩, (List.nodup_flatten.1 hn).1 p hp⟩

/-! ## The selection -/

theorem selection_indices (K : Computation F) (start stop step : Int) (d : Files Txt (Result F)) (m : Mode) (i : Int) :
    i ∈ (K.selection start stop step d m).indices ↔
      i ∈ pyRange start stop step ∧ (m = .complete → d (K.nameOf i) = none) := by
  cases m with
  | recompute => simp [Computation.selection, Selection.indices]
  | complete =>
    simp only [Computation.selection, Selection.indices]
    rw [(C07_exactly_the_missing K.nameOf _ d).1]
    simp

theorem selection_nodup (K : Computation F) (start stop step : Int) (d : Files Txt (Result F)) (m : Mode)
    (h : (pyRange start stop step).Nodup) : (K.selection start stop step d m).indices.Nodup := by
  cases m with
  | recompute => exact h
  | complete => exact (C07_exactly_the_missing K.nameOf _ d).2.2 h

theorem selection_step (K : Computation F) (start stop step : Int) (d : Files Txt (Result F)) (m : Mode) (hs : step ≠ 0) :
    ∀ a b c, K.selection start stop step d m = .range a b c → c ≠ 0 := by
  intro a b c h
  cases m with
  | recompute => cases h; exact hs
  | complete => cases h

theorem computed_sub (K : Computation F) (x : Executor) (m : Mode) (part : List Int) (d : Files Txt (Result F)) :
    (K.computed x m part d).Sublist part := by
  unfold Computation.computed
  split
  · exact (C07_exactly_the_missing K.nameOf part d).2.1
  · exact List.Sublist.refl _

theorem computed_all (K : Computation F) (x : Executor) (m : Mode) (part : List Int) (d : Files Txt (Result F)) (i : Int)
    (hi : i ∈ part) : i ∈ K.computed x m part d ∨ (m = .complete ∧ d (K.nameOf i) ≠ none) := by
  unfold Computation.computed
  split
  · by_cases h : d (K.nameOf i) = none
    · exact Or.inl (((C07_exactly_the_missing K.nameOf part d).1 i).2 ⟨hi, h⟩)
    · exact Or.inr ⟨rfl, h⟩
  · exact Or.inl hi

theorem computed_same (K : Computation F) (x : Executor) (m : Mode) (part : List Int) (d : Files Txt (Result F))
    (h : m = .complete → ∀ i ∈ part, d (K.nameOf i) = none) : K.computed x m part d = part := by
  unfold Computation.computed
  split
  · unfold indicesToBeComputed
    rw [complete_loop_eq, List.nil_append, List.filter_eq_self]
    intro i hi
    simp [h rfl i hi]
  · rfl

/-- What a computation writes: only results of the couples, and all of them if its processes reach their ends. -/
theorem runs_writes {K : Computation F} {start stop step : Int} (hs : step ≠ 0) (hu : Usable K (pyRange start stop step))
    {x : Executor} (hx : x.HasProcess) {m : Mode}
    {p : List Int → List (Event Key (TryWork.Val F) PyErr) → Prop} (hp : ∀ is, Usable K is → ∀ log, p is log → Begun K is log)
    {d d' : Files Txt (Result F)} (h : K.Runs p x m start stop step d d') :
    ∃ l : List (Int × Result F),
      (∀ y ∈ l, y.1 ∈ (K.selection start stop step d m).indices ∧ HasResult K y.1 y.2) ∧ d' = K.write d l ∧
      ((∀ is, Usable K is → ∀ log, p is log → Done K is log) →
        ∀ i ∈ (K.selection start stop step d m).indices, ∀ r, HasResult K i r → (i, r) ∈ l) := by
  obtain ⟨ps, h1, logs, l, h3, rfl, h2⟩ := h
  have hfl := parts_flatten hx (selection_step K _ _ _ d m hs) h1
  have hnd := selection_nodup K start stop step d m hu.nodup
  have hus : Usable K (K.selection start stop step d m).indices :=
    hu.sub _ (fun i hi => ((selection_indices K _ _ _ d m i).1 hi).1) hnd
  have hpart : ∀ q ∈ ps, ∀ e, Usable K (K.computed x m q e) := fun q hq e => by
    obtain ⟨a, b⟩ := part_sub hfl hnd q hq
    exact hus.sub _ (fun i hi => a i ((computed_sub K x m q e).subset hi)) (b.sublist (computed_sub K x m q e))
  have sound : ∀ y ∈ l, y.1 ∈ (K.selection start stop step d m).indices ∧ HasResult K y.1 y.2 := by
    rintro ⟨i, r⟩ hy
    obtain ⟨q, hq, hr⟩ := (h3.mem _).1 hy
    obtain ⟨log, hlog, rfl⟩ := List.mem_map.1 hq
    have : ∃ is ∈ ps, ∃ t, p (K.computed x m is (K.write d (l.take t))) log := by
      clear h3 h1 hfl hpart
      induction h2 with
      | nil => cases hlog
      | cons ha _ ih =>
        rcases List.mem_cons.1 hlog with rfl | hlog
        · exact ⟨_, List.mem_cons_self, ha⟩
        · obtain ⟨is, h4, h5⟩ := ih hlog (List.mem_map.2 ⟨log, hlog, rfl⟩)
          exact ⟨is, List.mem_cons_of_mem _ h4, h5⟩
    obtain ⟨is, his, t, hpl⟩ := this
    obtain ⟨h4, h5⟩ := begun_sound (hpart is his _) (hp _ (hpart is his _) log hpl) i r hr
    exact ⟨(part_sub hfl hnd is his).1 i ((computed_sub K x m is _).subset h4), h5⟩
  refine ⟨l, sound, rfl, ?_⟩
  intro hd i hi r hr
  have hi' := (selection_indices K start stop step d m i).1 hi
  rw [← hfl, List.mem_flatten] at hi
  obtain ⟨is, his, hi⟩ := hi
  have : ∃ log ∈ logs, ∃ t, p (K.computed x m is (K.write d (l.take t))) log := by
    clear h3 h1 hfl hpart sound
    induction h2 with
    | nil => cases his
    | cons ha _ ih =>
      rcases List.mem_cons.1 his with rfl | his
      · exact ⟨_, List.mem_cons_self, ha⟩
      · obtain ⟨log, h4, h5⟩ := ih his
        exact ⟨log, List.mem_cons_of_mem _ h4, h5⟩
  obtain ⟨log, hlog, t, hpl⟩ := this
  rcases computed_all K x m is (K.write d (l.take t)) i hi with hc | ⟨hm, hc⟩
  · rw [h3.mem]
    exact ⟨_, List.mem_map.2 ⟨log, hlog, rfl⟩, done_complete (hpart is his _) (hd _ (hpart is his _) log hpl) i hc r hr⟩
  · -- the file has been written since the beginning of the computation: by the same couple
    have hsub : ∀ y ∈ l.take t, y.1 ∈ pyRange start stop step ∧ HasResult K y.1 y.2 := fun y hy => by
      obtain ⟨a, b⟩ := sound y (List.mem_of_mem_take hy)
      exact ⟨((selection_indices K start stop step d m _).1 a).1, b⟩
    obtain ⟨-, w2⟩ := write_results hu (l.take t) hsub d
    by_cases hex : ∃ j q, (j, q) ∈ l.take t ∧ K.nameOf j = K.nameOf i
    · obtain ⟨j, q, hjq, hn⟩ := hex
      obtain ⟨a, b⟩ := hsub _ hjq
      have := hu.differ j a i hi'.1 hn
      subst this
      have h5 := b.1
      have h6 := hr.1
      simp only at h5 h6
      rw [h5] at h6
      cases h6
      exact List.mem_of_mem_take hjq
    · rw [w2 _ (fun j q hjq hn => hex ⟨j, q, hjq, hn⟩)] at hc
      exact absurd (hi'.2 hm) hc

theorem process_done {K : Computation F} {x : Executor} (is : List Int) (hu : Usable K is)
    (log : List (Event Key (TryWork.Val F) PyErr)) (h : K.process x is log) : Done K is log := by
  cases x with
  | sequential => exact endedSeq_done hu h
  | async => exact ended_done hu h
  | multiAsync n => exact ended_done hu h
  | multiSubproc n => exact ended_done hu h

theorem processKilled_begun {K : Computation F} {x : Executor} (is : List Int) (hu : Usable K is)
    (log : List (Event Key (TryWork.Val F) PyErr)) (h : K.processKilled x is log) : Begun K is log := by
  have key : (K.Killed is log ∨ K.Ended is log) → Begun K is log := by
    rintro (h | h)
    · exact killed_begun hu h
    · exact (ended_done hu h).begun
  cases x with
  | sequential => exact killedSeq_begun hu h
  | async => exact key h
  | multiAsync n => exact key h
  | multiSubproc n => exact key h

/-- What a computation of the series changes in the directory. -/
theorem run_effect {K : Computation F} {start stop step : Int} (hs : step ≠ 0) (hu : Usable K (pyRange start stop step))
    {x : Executor} (hx : x.HasProcess) {m : Mode}
    {p : List Int → List (Event Key (TryWork.Val F) PyErr) → Prop} (hp : ∀ is, Usable K is → ∀ log, p is log → Begun K is log)
    {d d' : Files Txt (Result F)} (h : K.Runs p x m start stop step d d') (n : Txt) :
    (d' n = d n ∨ ∃ i ∈ pyRange start stop step, ∃ r, HasResult K i r ∧ K.nameOf i = n ∧ d' n = some r ∧
      (m = .complete → d n = none)) ∧
    ((∀ is, Usable K is → ∀ log, p is log → Done K is log) → ∀ i ∈ pyRange start stop step, ∀ r, HasResult K i r → K.nameOf i = n →
      (m = .complete → d n = none) → d' n = some r) := by
  obtain ⟨l, h1, rfl, h2⟩ := runs_writes hs hu hx hp h
  obtain ⟨w1, w2⟩ := write_results hu l (fun y hy => ⟨((selection_indices K _ _ _ d m _).1 (h1 y hy).1).1, (h1 y hy).2⟩) d
  constructor
  · by_cases hex : ∃ i r, (i, r) ∈ l ∧ K.nameOf i = n
    · obtain ⟨i, r, hir, hn⟩ := hex
      obtain ⟨a, b⟩ := h1 _ hir
      obtain ⟨a1, a2⟩ := (selection_indices K _ _ _ d m i).1 a
      right
      exact ⟨i, a1, r, b, hn, hn ▸ w1 i r hir, hn ▸ a2⟩
    · left
      exact w2 n (fun i r hir hn => hex ⟨i, r, hir, hn⟩)
  · intro hd i hi r hr hn hm
    rw [← hn]
    exact w1 i r (h2 hd i ((selection_indices K _ _ _ d m i).2 ⟨hi, hn ▸ hm⟩) r hr)

theorem interrupted_clean {K : Computation F} {start stop step : Int} (hs : step ≠ 0) (hu : Usable K (pyRange start stop step))
    {d d' : Files Txt (Result F)} (hc : Clean K (pyRange start stop step) d)
    (h : K.Interrupted start stop step Executor.HasProcess d d') :
    Clean K (pyRange start stop step) d' ∧
    (∀ n, (∀ i ∈ pyRange start stop step, ∀ r, HasResult K i r → K.nameOf i ≠ n) → d' n = d n) := by
  induction h with
  | none => exact ⟨hc, fun _ _ => rfl⟩
  | more d1 d2 _ x m hx hr ih =>
    obtain ⟨i1, i2⟩ := ih
    have key := fun n => (run_effect hs hu hx processKilled_begun hr n).1
    constructor
    · intro i hi r hd
      rcases key (K.nameOf i) with h | ⟨j, hj, r', h1, h2, h3, -⟩
      · rw [h] at hd; exact i1 i hi r hd
      · rw [h3] at hd
        cases hd
        exact hu.differ j hj i hi h2 ▸ h1
    · intro n hn
      rcases key n with h | ⟨j, hj, r', h1, h2, -⟩
      · rw [h, i2 n hn]
      · exact absurd h2 (hn j hj r' h1)

/-! ## Computations which reach their ends -/

theorem ended_exists {K : Computation F} {is : List Int} (hu : Usable K is) : ∃ log, K.Ended is log := by
  obtain ⟨ls, s, h1, h2⟩ := C12_no_deadlock_piv_partial (readWork K.E) (K.f.map im2imWork) (pathOf K.dir)
    (coupleOps K.E K.S K.mask) (computeWork K.E K.mask) (saveWork K.save)
    (TryWork.keys (K.couples is)) (keys_nodup hu.setup) (keys_differ hu.setup)
    (accepted hu.setup hu.mask K.f) ⟨1, (loadOrder (coupleSeries (TryWork.keys (K.couples is)))).length + 1, false⟩ rfl
    (by simp) (by simp) (Or.inl (by simp)) [] _ (ARun.nil _)
  exact ⟨s.log, _, ls, s, h1, h2, rfl⟩

theorem endedSeq_exists {K : Computation F} {is : List Int} (hu : Usable K is) : ∃ log, K.EndedSeq is log := by
  obtain ⟨n, s, h1, h2, -, -⟩ := C23_sequential (readWork K.E) (K.f.map im2imWork) (coupleOps K.E K.S K.mask)
    (computeWork K.E K.mask) (saveWork K.save)
    (pathOf K.dir) (TryWork.keys (K.couples is)) (keys_nodup hu.setup) (keys_differ hu.setup)
    (accepted hu.setup hu.mask K.f) ⟨1, 1, false⟩ rfl
  exact ⟨s.log, _, n, s, h1, h2, rfl⟩

theorem process_exists {K : Computation F} {is : List Int} (x : Executor) (hu : Usable K is) : ∃ log, K.process x is log := by
  cases x with
  | sequential => exact endedSeq_exists hu
  | async => exact ended_exists hu
  | multiAsync n => exact ended_exists hu
  | multiSubproc n => exact ended_exists hu

/-- The last file written under a name is the one which stays. -/
theorem write_same {K : Computation F} (r : Result F) (l : List (Int × Result F)) (hl : ∀ y ∈ l, y.2 = r) (hne : l ≠ [])
    (d : Files Txt (Result F)) : K.write d l (K.fileName r) = some r := by
  have key : ∀ (l : List (Int × Result F)) (d : Files Txt (Result F)), (∀ y ∈ l, y.2 = r) → d (K.fileName r) = some r →
      K.write d l (K.fileName r) = some r := by
    intro l
    induction l with
    | nil => intro d _ h; exact h
    | cons y l ih =>
      intro d hl h
      refine ih (Complete.save d (K.fileName y.2) y.2) (fun z hz => hl z (List.mem_cons_of_mem _ hz)) ?_
      rw [hl y List.mem_cons_self]
      simp [Complete.save]
  cases l with
  | nil => exact absurd rfl hne
  | cons y l =>
    refine key l (Complete.save d (K.fileName y.2) y.2) (fun z hz => hl z (List.mem_cons_of_mem _ hz)) ?_
    rw [hl y List.mem_cons_self]
    simp [Complete.save]

theorem write_append (K : Computation F) (d : Files Txt (Result F)) (l l' : List (Int × Result F)) :
    K.write d (l ++ l') = K.write (K.write d l) l' := by
  simp [Computation.write, List.foldl_append]

theorem Interleaving.second_first {α : Type} (l l' : List α) : Interleaving [l, l'] (l' ++ l) := by
  induction l' with
  | nil =>
    have := Interleaving.concat [l, []]
    simpa using this
  | cons a l' ih => exact Interleaving.next [l] [] a l' _ ih

end WholeRun

section
variable {F : Type}

/-- C117.  For a series whose couples have their own files: after any number of interrupted computations in the directory, with any
executors, numbers of processes, schedules and modes, a computation which reaches its end, with any executor, number of processes,
schedule and mode, leaves in the directory exactly the results of the couples (the ones which exist and can be written), and
nothing else has changed. -/
theorem C117_any_execution (K : Computation F) (start stop step : Int) (hs : step ≠ 0) (hu : Usable K (pyRange start stop step))
    (d d1 d' : Files Txt (Result F)) (hc : Clean K (pyRange start stop step) d)
    (hi : K.Interrupted start stop step Executor.HasProcess d d1) (x : Executor) (hx : x.HasProcess) (m : Mode)
    (h : K.Complete x m start stop step d1 d') : HasResults K (pyRange start stop step) d d' := by
  obtain ⟨c1, o1⟩ := interrupted_clean hs hu hc hi
  have key := fun n => run_effect hs hu hx (fun is hu log hp => (process_done is hu log hp).begun) h n
  constructor
  · intro i hi r hr
    obtain ⟨k1, k2⟩ := key (K.nameOf i)
    by_cases hm : m = .complete → d1 (K.nameOf i) = none
    · exact k2 process_done i hi r hr rfl hm
    · have hm1 : m = .complete := by by_contra h; exact hm (fun h' => absurd h' h)
      have hm2 : d1 (K.nameOf i) ≠ none := fun h => hm (fun _ => h)
      rcases k1 with h1 | ⟨_, _, _, _, _, _, h1⟩
      · rw [h1]
        cases hd : d1 (K.nameOf i) with
        | none => exact absurd hd hm2
        | some r' =>
          have := (c1 i hi r' hd).1
          rw [hr.1] at this
          cases this
          rfl
      · exact absurd (h1 hm1) hm2
  · intro n hn
    rw [← o1 n hn]
    rcases (key n).1 with h1 | ⟨i, hi, r, hr, h1, -⟩
    · exact h1
    · exact absurd h1 (hn i hi r hr)

/-- C117, in mode "recompute" nothing is assumed on the files which are already in the directory: those of the couples which have
a result are replaced. -/
theorem C117_recompute (K : Computation F) (start stop step : Int) (hs : step ≠ 0) (hu : Usable K (pyRange start stop step))
    (d d' : Files Txt (Result F)) (x : Executor) (hx : x.HasProcess) (h : K.Complete x .recompute start stop step d d') :
    HasResults K (pyRange start stop step) d d' := by
  have key := fun n => run_effect hs hu hx (fun is hu log hp => (process_done is hu log hp).begun) h n
  constructor
  · intro i hi r hr
    exact (key (K.nameOf i)).2 process_done i hi r hr rfl (fun h => by cases h)
  · intro n hn
    rcases (key n).1 with h1 | ⟨i, hi, r, hr, h1, -⟩
    · exact h1
    · exact absurd h1 (hn i hi r hr)

/-- C117: two histories of computations of the same series in the same directory give the same directory. -/
theorem C117_same_files (K : Computation F) (start stop step : Int) (hs : step ≠ 0) (hu : Usable K (pyRange start stop step))
    (d d1 d2 d1' d2' : Files Txt (Result F)) (hc : Clean K (pyRange start stop step) d)
    (h1 : K.Interrupted start stop step Executor.HasProcess d d1) (h2 : K.Interrupted start stop step Executor.HasProcess d d2)
    (x1 x2 : Executor) (hx1 : x1.HasProcess) (hx2 : x2.HasProcess) (m1 m2 : Mode)
    (h1' : K.Complete x1 m1 start stop step d1 d1') (h2' : K.Complete x2 m2 start stop step d2 d2') : d1' = d2' := by
  have a := C117_any_execution K start stop step hs hu d d1 d1' hc h1 x1 hx1 m1 h1'
  have b := C117_any_execution K start stop step hs hu d d2 d2' hc h2 x2 hx2 m2 h2'
  funext n
  by_cases hn : ∃ i ∈ pyRange start stop step, ∃ r, HasResult K i r ∧ K.nameOf i = n
  · obtain ⟨i, hi, r, hr, rfl⟩ := hn
    rw [a.results i hi r hr, b.results i hi r hr]
  · have : ∀ i ∈ pyRange start stop step, ∀ r, HasResult K i r → K.nameOf i ≠ n :=
      fun i hi r hr h => hn ⟨i, hi, r, hr, h⟩
    rw [a.others n this, b.others n this]

/-- C117: in mode "complete", no file which is already there is changed, at any time. -/
theorem C117_complete_keeps (K : Computation F) (start stop step : Int) (hs : step ≠ 0) (hu : Usable K (pyRange start stop step))
    (d d' : Files Txt (Result F)) (x : Executor) (hx : x.HasProcess)
    (h : K.Runs (K.processKilled x) x .complete start stop step d d') (n : Txt) (r : Result F)
    (hn : d n = some r) : d' n = some r := by
  rcases (run_effect hs hu hx processKilled_begun h n).1 with h1 | ⟨_, _, _, _, _, _, h1⟩
  · rw [h1, hn]
  · rw [h1 rfl] at hn; cases hn

/-- C117: at any time, a file which is written is the result of its couple. -/
theorem C117_never_wrong (K : Computation F) (start stop step : Int) (hs : step ≠ 0) (hu : Usable K (pyRange start stop step))
    (d d' : Files Txt (Result F)) (hc : Clean K (pyRange start stop step) d)
    (h : K.Interrupted start stop step Executor.HasProcess d d') :
    (∀ i ∈ pyRange start stop step, ∀ r, d' (K.nameOf i) = some r → HasResult K i r) ∧
    (∀ n, (∀ i ∈ pyRange start stop step, ∀ r, HasResult K i r → K.nameOf i ≠ n) → d' n = d n) :=
  interrupted_clean hs hu hc h

/-- C117: a computation in mode "complete" after a computation which has reached its end changes nothing. -/
theorem C117_complete_again (K : Computation F) (start stop step : Int) (hs : step ≠ 0) (hu : Usable K (pyRange start stop step))
    (d d' d'' : Files Txt (Result F)) (x : Executor) (hx : x.HasProcess) (hd : HasResults K (pyRange start stop step) d d')
    (h : K.Runs (K.processKilled x) x .complete start stop step d' d'') : d'' = d' := by
  funext n
  rcases (run_effect hs hu hx processKilled_begun h n).1 with h1 | ⟨i, hi, r, hr, hn, _, h1⟩
  · exact h1
  · have := hd.results i hi r hr
    rw [hn, h1 rfl] at this
    cases this

/-- C117: with every executor, number of processes and mode, there are computations which reach their ends (the theorems are not
about nothing).  The sequential executor always does it; see C12 for the asynchronous executors. -/
theorem C117_ends (K : Computation F) (start stop step : Int) (hs : step ≠ 0) (hu : Usable K (pyRange start stop step))
    (d : Files Txt (Result F)) (x : Executor) (hx : x.HasProcess) (m : Mode) : ∃ d', K.Complete x m start stop step d d' := by
  have hnd := selection_nodup K start stop step d m hu.nodup
  obtain ⟨ps, hps⟩ := parts_ok x (K.selection start stop step d m) hx (selection_step K _ _ _ d m hs)
  have hfl := parts_flatten hx (selection_step K _ _ _ d m hs) hps
  have hpart : ∀ q ∈ ps, Usable K q := fun q hq => by
    obtain ⟨a, b⟩ := part_sub hfl hnd q hq
    exact hu.sub q (fun i hi => ((selection_indices K _ _ _ d m i).1 (a i hi)).1) b
  have : ∃ logs, List.Forall₂ (K.process x) ps logs := by
    clear hps hfl
    induction ps with
    | nil => exact ⟨[], List.Forall₂.nil⟩
    | cons q ps ih =>
      obtain ⟨logs, h⟩ := ih (fun q hq => hpart q (List.mem_cons_of_mem _ hq))
      obtain ⟨log, hl⟩ := process_exists x (hpart q List.mem_cons_self)
      exact ⟨log :: logs, List.Forall₂.cons hl h⟩
  obtain ⟨logs, hl⟩ := this
  refine ⟨_, ps, hps, logs, _, Interleaving.concat _, rfl, ?_⟩
  have hmiss : m = .complete → ∀ q ∈ ps, ∀ i ∈ q, d (K.nameOf i) = none := fun hm q hq i hi =>
    ((selection_indices K start stop step d m i).1 ((part_sub hfl hnd q hq).1 i hi)).2 hm
  have key : ∀ (e : Files Txt (Result F)), (∀ q ∈ ps, K.computed x m q e = q) →
      ∀ l : List (Int × Result F), K.write d (l.take 0) = e →
      List.Forall₂ (fun part log => ∃ t, K.process x (K.computed x m part (K.write d (l.take t))) log) ps logs := by
    intro e he l hle
    clear hps hfl hpart hmiss
    induction hl with
    | nil => exact List.Forall₂.nil
    | cons ha _ ih =>
      refine List.Forall₂.cons ⟨0, ?_⟩ (ih (fun q hq => he q (List.mem_cons_of_mem _ hq)))
      rw [hle, he _ List.mem_cons_self]
      exact ha
  exact key d (fun q hq => computed_same K x m q d (fun hm i hi => hmiss hm q hq i hi)) _ rfl

/-- C117 is false when two couples have the same file (see C46 for series for which this happens): with two processes, the file which
stays depends on the schedule. -/
theorem C117_same_name_fails (K : Computation F) (h0 : Usable K [0]) (h1 : Usable K [1]) (r0 r1 : Result F)
    (hr0 : HasResult K 0 r0) (hr1 : HasResult K 1 r1) (hn : K.fileName r0 = K.fileName r1) (hne : r0 ≠ r1)
    (d : Files Txt (Result F)) :
    ∃ d' d'', K.Complete (.multiAsync 2) .recompute 0 2 1 d d' ∧ K.Complete (.multiAsync 2) .recompute 0 2 1 d d'' ∧ d' ≠ d'' := by
  obtain ⟨l0, e0⟩ := ended_exists h0
  obtain ⟨l1, e1⟩ := ended_exists h1
  have d0 := ended_done h0 e0
  have d1 := ended_done h1 e1
  have s0 : (∀ y ∈ K.saves l0, y.2 = r0) ∧ K.saves l0 ≠ [] := by
    constructor
    · rintro ⟨i, r⟩ hy
      obtain ⟨a, b⟩ := begun_sound h0 d0.begun i r hy
      have : i = 0 := by simpa using a
      subst this
      have := b.1
      rw [hr0.1] at this
      cases this
      rfl
    · intro h
      have := done_complete h0 d0 0 (by simp) r0 hr0
      rw [h] at this
      cases this
  have s1 : (∀ y ∈ K.saves l1, y.2 = r1) ∧ K.saves l1 ≠ [] := by
    constructor
    · rintro ⟨i, r⟩ hy
      obtain ⟨a, b⟩ := begun_sound h1 d1.begun i r hy
      have : i = 1 := by simpa using a
      subst this
      have := b.1
      rw [hr1.1] at this
      cases this
      rfl
    · intro h
      have := done_complete h1 d1 1 (by simp) r1 hr1
      rw [h] at this
      cases this
  have hp : parts (.multiAsync 2) (.range 0 2 1) = .ok [[0], [1]] := by decide
  refine ⟨K.write d (K.saves l0 ++ K.saves l1), K.write d (K.saves l1 ++ K.saves l0), ?_, ?_, ?_⟩
  · exact ⟨_, hp, [l0, l1], _, by simpa using Interleaving.concat [K.saves l0, K.saves l1], rfl,
      .cons ⟨0, e0⟩ (.cons ⟨0, e1⟩ .nil)⟩
  · exact ⟨_, hp, [l0, l1], _, Interleaving.second_first _ _, rfl, .cons ⟨0, e0⟩ (.cons ⟨0, e1⟩ .nil)⟩
  · intro h
    have := congrFun h (K.fileName r0)
    rw [write_append, write_append, write_same r0 _ s0.1 s0.2, hn, write_same r1 _ s1.1 s1.2] at this
    cases this
    exact hne rfl
end

/-! ## Example: four couples, the last image can not be read -/

namespace WholeRun

def imageName (i : Int) : Txt := (toString i).toList

def demoExt : TryWork.Ext (Int × Int) where
  exist := fun _ => true
  imread := fun p => match p.getLast? with
    | some '0' => .ok (pixel 0)
    | some '1' => .ok (pixel 1)
    | some '2' => .ok (pixel 2)
    | some '3' => .ok (pixel 3)
    | _ => .error .valueError
  abspath := id
  velo := fun a b => .ok (a.get 0 0, b.get 0 0)

def demoSeries : TryWork.Series where
  indStart := 0
  serie := fun i => .ok ⟨[imageName i, imageName (i + 1)], ["d".toList ++ ['/'] ++ imageName i, "d".toList ++ ['/'] ++ imageName (i + 1)]⟩

def demo : Computation (Int × Int) where
  E := demoExt
  S := demoSeries
  dir := "d".toList
  mask := none
  f := none
  save := fun _ => .ok ()
  images := fun i => (imageName i, imageName (i + 1))
  fileName := fun r => "piv_".toList ++ (r.couple.names.headD [])
  nameOf := fun i => "piv_".toList ++ imageName i

theorem demo_usable : Usable demo (pyRange 0 4 1) where
  setup := {
    keys := by decide
    differ := by decide
    serie := by decide
    absolute := fun _ => rfl
    exists_ := fun _ _ _ => rfl }
  mask := no_mask
  fileName := by
    intro i hi r h
    have : i = 0 ∨ i = 1 ∨ i = 2 ∨ i = 3 := by
      have e : pyRange 0 4 1 = [0, 1, 2, 3] := by decide
      rw [e] at hi
      simpa using hi
    rcases this with rfl | rfl | rfl | rfl
    · cases h; rfl
    · cases h; rfl
    · cases h; rfl
    · cases h
  differ := by decide

/-- With three processes and an empty directory. -/
example : ∃ d', demo.Complete (.multiAsync 3) .complete 0 4 1 (fun _ => none) d' ∧
    (d' "piv_0".toList).map (fun r => r.fields) = some (0, 1) ∧ (d' "piv_2".toList).map (fun r => r.fields) = some (2, 3) ∧
    d' "piv_3".toList = none := by
  obtain ⟨d', h⟩ := C117_ends demo 0 4 1 (by decide) demo_usable (fun _ => none) (.multiAsync 3) (show 1 ≤ 3 by decide) .complete
  have hr := C117_any_execution demo 0 4 1 (by decide) demo_usable (fun _ => none) (fun _ => none) d' (fun _ _ _ h => by cases h)
    .none (.multiAsync 3) (show 1 ≤ 3 by decide) .complete h
  refine ⟨d', h, ?_, ?_, ?_⟩
  · rw [show "piv_0".toList = demo.nameOf 0 by decide, hr.results 0 (by decide) _ ⟨rfl, rfl⟩]; rfl
  · rw [show "piv_2".toList = demo.nameOf 2 by decide, hr.results 2 (by decide) _ ⟨rfl, rfl⟩]; rfl
  · rw [hr.others]
    intro i hi r h
    have : i = 0 ∨ i = 1 ∨ i = 2 ∨ i = 3 := by
      have e : pyRange 0 4 1 = [0, 1, 2, 3] := by decide
      rw [e] at hi
      simpa using hi
    rcases this with rfl | rfl | rfl | rfl
    · decide
    · decide
    · decide
    · have := h.1
      cases this

/-- A file name which does not depend on the couple. -/
example : ∃ d' d'', ({ demo with fileName := fun _ => [], nameOf := fun _ => [] } : Computation _).Complete (.multiAsync 2) .recompute
      0 2 1 (fun _ => none) d' ∧
    ({ demo with fileName := fun _ => [], nameOf := fun _ => [] } : Computation _).Complete (.multiAsync 2) .recompute 0 2 1
      (fun _ => none) d'' ∧ d' ≠ d'' := by
  have hu : ∀ i, i = 0 ∨ i = 1 → Usable ({ demo with fileName := fun _ => [], nameOf := fun _ => [] } : Computation _) [i] := by
    intro i hi
    have hs := (demo_usable.sub [i] (by rcases hi with rfl | rfl <;> decide) (by simp)).setup
    exact ⟨hs, no_mask, fun _ _ _ _ => rfl, by simp⟩
  refine C117_same_name_fails _ (hu 0 (Or.inl rfl)) (hu 1 (Or.inr rfl)) _ _ ⟨rfl, rfl⟩ ⟨rfl, rfl⟩ rfl ?_ _
  intro h
  have := congrArg Result.fields h
  revert this
  decide

end WholeRun
end Verif
