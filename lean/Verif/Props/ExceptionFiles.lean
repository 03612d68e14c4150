import Verif.Model.ExceptionFiles
import Verif.Props.Executors

/-!
# C139: every error of a computation is recorded in its own file
-/

namespace Verif
open Verif.ExceptionFiles Verif.Exec Verif.Spec Verif.ResultsFiles

/-! ## Specification -/

/-- No name of work followed by "_" is the beginning of another name (spaces being replaced), and the names are distinct: the name of a work can be
found in "name_key". -/
def Unambiguous (names : List Txt) : Prop :=
  ∀ i j : Nat, ∀ a b : Txt, names[i]? = some a → names[j]? = some b → i ≠ j → noSpace a ≠ noSpace b ∧ ¬ (noSpace a ++ ['_']) <+: noSpace b

/-- The same, as a computation on the list. -/
def unambiguousCheck (names : List Txt) : Bool :=
  (names.map noSpace).Nodup && (names.map noSpace).all fun a => (names.map noSpace).all fun b => !(a ++ ['_']).isPrefixOf b

theorem unambiguous_of_check {names : List Txt} (h : unambiguousCheck names = true) : Unambiguous names := by
  intro i j a b hi hj hij
  unfold unambiguousCheck at h
  simp only [Bool.and_eq_true, decide_eq_true_eq, List.all_eq_true] at h
  obtain ⟨h1, h2⟩ := h
  obtain ⟨li, hi'⟩ := List.getElem?_eq_some_iff.1 hi
  obtain ⟨lj, hj'⟩ := List.getElem?_eq_some_iff.1 hj
  constructor
  · intro he
    apply hij
    refine (List.Nodup.getElem_inj_iff h1 (hi := by simpa using li) (hj := by simpa using lj)).1 ?_
    simp [hi', hj', he]
  · intro hp
    have := h2 (noSpace a) (List.mem_map.2 ⟨a, hi' ▸ List.getElem_mem li, rfl⟩) (noSpace b)
      (List.mem_map.2 ⟨b, hj' ▸ List.getElem_mem lj, rfl⟩)
    rw [List.isPrefixOf_iff_prefix.2 hp] at this
    cases this

/-- The names of files which can be written. -/
def Writable (limit : Nat) (work key : Txt) : Prop := '/' ∉ work ∧ '/' ∉ key ∧ work.length + key.length + 15 ≤ limit

/-- The name of the file of an error and what is written in it. -/
def reportName (work key : Txt) : Txt := ["exception_".toList, work, "_".toList, key, ".txt".toList].flatten
def reportText (work key trace : Txt) : Txt :=
  ["Exception for work ".toList, work, ", key ".toList, key, ":\n".toList, trace].flatten

theorem report_eq (work key trace : Txt) : fileName work key = reportName work key ∧ fileText work key trace = reportText work key trace := by
  have h5 : ∀ a b c d e : Txt, a ++ b ++ c ++ d ++ e = [a, b, c, d, e].flatten := by intro a b c d e; simp
  have h6 : ∀ a b c d e f : Txt, a ++ b ++ c ++ d ++ e ++ f = [a, b, c, d, e, f].flatten := by intro a b c d e f; simp
  exact ⟨h5 _ _ _ _ _, h6 _ _ _ _ _ _⟩

/-- In the events, an error is reported at most once for a work and a key. -/
def ReportedOnce {α ε : Type} (log : List (Event Txt α ε)) : Prop :=
  ∀ w k e e', Event.failed w k e ∈ log → Event.failed w k e' ∈ log → e = e'

/-! ## Lemmas -/

theorem ef_name_inj {a b k k' : Txt} (hne : a ≠ b → ¬ (a ++ ['_']) <+: b ∧ ¬ (b ++ ['_']) <+: a) (h : fileName a k = fileName b k') :
    a = b ∧ k = k' := by
  have h1 : a ++ '_' :: k = b ++ '_' :: k' := by
    unfold fileName at h
    have h := List.append_cancel_right h
    simp only [List.append_assoc] at h
    exact List.append_cancel_left h
  by_cases he : a = b
  · subst he
    have := List.append_cancel_left h1
    exact ⟨rfl, by simpa using this⟩
  · exfalso
    obtain ⟨n1, n2⟩ := hne he
    rcases List.append_eq_append_iff.1 h1 with ⟨c, hc, hd⟩ | ⟨c, hc, hd⟩
    · cases c with
      | nil => exact he (by simpa using hc.symm)
      | cons x c =>
        simp only [List.cons_append, List.cons.injEq] at hd
        obtain ⟨hx, _⟩ := hd
        subst hx
        exact n1 ⟨c, by rw [hc]; simp⟩
    · cases c with
      | nil => exact he (by simpa using hc)
      | cons x c =>
        simp only [List.cons_append, List.cons.injEq] at hd
        obtain ⟨hx, _⟩ := hd
        subst hx
        exact n2 ⟨c, by rw [hc]; simp⟩

theorem ef_open {limit : Nat} {a k : Txt} (h : Writable limit a k) : openError limit (fileName a k) = none := by
  obtain ⟨h1, h2, h3⟩ := h
  unfold openError
  have hs : '/' ∉ fileName a k := by
    unfold fileName
    simp [h1, h2]
  have hl : ¬ limit < (fileName a k).length := by
    unfold fileName
    simp only [List.length_append]
    have e1 : "exception_".toList.length = 10 := by decide
    have e2 : "_".toList.length = 1 := by decide
    have e3 : ".txt".toList.length = 4 := by decide
    omega
  simp only [hs, hl, if_false]

section
variable {α ε : Type} (limit : Nat) (names : List Txt) (format : ε → Txt)

/-- The name of the `w`-th work in the names of files. -/
def workName (names : List Txt) (w : Nat) : Txt := noSpace (names.getD w [])

theorem ef_record : ∀ (log : List (Event Txt α ε)) (d : Errors),
    (∀ w k e, Event.failed w k e ∈ log → Writable limit (workName names w) k) →
    ∃ d', record limit names format log d = (d', none) ∧ (d'.dir = true ↔ d.dir = true ∨ ∃ w k e, Event.failed w k e ∈ log) ∧
      (∀ n t, d'.files.get? n = some t →
        d.files.get? n = some t ∨ ∃ w k e, Event.failed w k e ∈ log ∧ n = fileName (workName names w) k ∧ t = fileText (workName names w) k (format e)) ∧
      (∀ n, (∃ t, d'.files.get? n = some t) ↔
        (∃ t, d.files.get? n = some t) ∨ ∃ w k e, Event.failed w k e ∈ log ∧ n = fileName (workName names w) k) := by
  intro log
  induction log with
  | nil => intro d _; exact ⟨d, rfl, by simp, fun n t h => .inl h, fun n => by simp⟩
  | cons ev log ih =>
    intro d hw
    have hw' : ∀ w k e, Event.failed w k e ∈ log → Writable limit (workName names w) k := fun w k e h => hw w k e (List.mem_cons_of_mem _ h)
    have skip : (∀ w k e, ev ≠ Event.failed w k e) → record limit names format (ev :: log) d = record limit names format log d := by
      intro h
      cases ev with
      | failed w k e => exact absurd rfl (h w k e)
      | call w k v => rfl
      | dropped w k e => rfl
      | note w k v => rfl
    by_cases hev : ∃ w k e, ev = Event.failed w k e
    · obtain ⟨w, k, e, rfl⟩ := hev
      have ho := ef_open (hw w k e (by simp))
      have hl : logException limit d (noSpace (names.getD w [])) k (format e) =
          (⟨true, d.files.set (fileName (workName names w) k) (fileText (workName names w) k (format e))⟩, none) := by
        unfold workName at ho
        simp only [logException, ho]
        rfl
      obtain ⟨d', h1, h2, h3, h4⟩ := ih ⟨true, d.files.set (fileName (workName names w) k) (fileText (workName names w) k (format e))⟩ hw'
      refine ⟨d', by simp only [record, hl, h1], ?_, ?_, ?_⟩
      · constructor
        · intro _; exact .inr ⟨w, k, e, by simp⟩
        · intro _; exact h2.2 (.inl rfl)
      · intro n t hn
        rcases h3 n t hn with h | ⟨w', k', e', h, hn', ht⟩
        · rw [Dict.get?_set] at h
          by_cases hc : n = fileName (workName names w) k
          · simp only [hc, if_true, Option.some.injEq] at h
            exact .inr ⟨w, k, e, by simp, hc, h.symm⟩
          · have hc' : ¬ fileName (workName names w) k = n := fun h => hc h.symm
            simp only [hc, hc', if_false] at h
            exact .inl h
        · exact .inr ⟨w', k', e', List.mem_cons_of_mem _ h, hn', ht⟩
      · intro n
        rw [h4 n]
        have hg : (∃ t, (d.files.set (fileName (workName names w) k) (fileText (workName names w) k (format e))).get? n = some t) ↔
            n = fileName (workName names w) k ∨ ∃ t, d.files.get? n = some t := by
          rw [Dict.get?_set]
          by_cases hc : n = fileName (workName names w) k
          · simp [hc]
          · have hc' : ¬ fileName (workName names w) k = n := fun h => hc h.symm
            simp only [hc, hc', if_false, false_or]
        show (∃ t, (d.files.set (fileName (workName names w) k) (fileText (workName names w) k (format e))).get? n = some t) ∨ _ ↔ _
        rw [hg]
        constructor
        · rintro ((h | h) | ⟨w', k', e', h, hn⟩)
          · exact .inr ⟨w, k, e, by simp, h⟩
          · exact .inl h
          · exact .inr ⟨w', k', e', List.mem_cons_of_mem _ h, hn⟩
        · rintro (h | ⟨w', k', e', h, hn⟩)
          · exact .inl (.inr h)
          · rcases List.mem_cons.1 h with h | h
            · cases h; exact .inl (.inl hn)
            · exact .inr ⟨w', k', e', h, hn⟩
    · have hev' : ∀ w k e, ev ≠ Event.failed w k e := fun w k e h => hev ⟨w, k, e, h⟩
      obtain ⟨d', h1, h2, h3, h4⟩ := ih d hw'
      have hm : ∀ w k e, Event.failed w k e ∈ ev :: log ↔ Event.failed w k e ∈ log := by
        intro w k e
        rw [List.mem_cons]
        constructor
        · rintro (h | h)
          · exact absurd h.symm (hev' w k e)
          · exact h
        · exact .inr
      simp only [hm]
      exact ⟨d', by rw [skip hev', h1], h2, h3, h4⟩

end

/-! ## The property -/

/-- C139.  When the names of the works are unambiguous and the names of the files can be written, recording the errors never fails.  The files of the
directory are exactly those of the errors: the one of the work `w` and the key `k` names them and has the traceback of the error.  The directory
exists only if there has been an error. -/
theorem C139_one_file_each_partial {α ε : Type} (limit : Nat) (names : List Txt) (format : ε → Txt) (log : List (Event Txt α ε))
    (hn : Unambiguous names) (hlen : ∀ w k e, Event.failed w k e ∈ log → w < names.length) (honce : ReportedOnce log)
    (hw : ∀ w k e, Event.failed w k e ∈ log → Writable limit (workName names w) k) :
    ∃ d, record limit names format log Errors.start = (d, none) ∧ (d.dir = true ↔ ∃ w k e, Event.failed w k e ∈ log) ∧
      (∀ n t, d.files.get? n = some t ↔
        ∃ w k e, Event.failed w k e ∈ log ∧ n = reportName (workName names w) k ∧ t = reportText (workName names w) k (format e)) ∧
      (∀ w k e w' k' e', Event.failed w k e ∈ log → Event.failed w' k' e' ∈ log →
        reportName (workName names w) k = reportName (workName names w') k' → w = w' ∧ k = k') := by
  simp only [← (report_eq _ _ []).1, ← (report_eq _ _ _).2]
  have inj : ∀ w k e w' k' e', Event.failed w k e ∈ log → Event.failed w' k' e' ∈ log →
      fileName (workName names w) k = fileName (workName names w') k' → w = w' ∧ k = k' := by
    intro w k e w' k' e' h h' he
    have l1 := hlen _ _ _ h
    have l2 := hlen _ _ _ h'
    have g1 : names[w]? = some (names.getD w []) := by simp [l1]
    have g2 : names[w']? = some (names.getD w' []) := by simp [l2]
    have hne : workName names w ≠ workName names w' →
        ¬ (workName names w ++ ['_']) <+: workName names w' ∧ ¬ (workName names w' ++ ['_']) <+: workName names w := by
      intro hd
      have hww : w ≠ w' := fun e => hd (by rw [e])
      exact ⟨(hn _ _ _ _ g1 g2 hww).2, (hn _ _ _ _ g2 g1 (Ne.symm hww)).2⟩
    obtain ⟨e1, e2⟩ := ef_name_inj hne he
    refine ⟨?_, e2⟩
    by_contra hww
    exact (hn _ _ _ _ g1 g2 hww).1 e1
  obtain ⟨d, h1, h2, h3, h4⟩ := ef_record limit names format log Errors.start hw
  refine ⟨d, h1, ?_, ?_, inj⟩
  · rw [h2]; simp [Errors.start]
  · intro n t
    constructor
    · intro h
      rcases h3 n t h with h | h
      · cases h
      · exact h
    · rintro ⟨w, k, e, h, rfl, rfl⟩
      obtain ⟨t, ht⟩ := (h4 (fileName (workName names w) k)).2 (.inr ⟨w, k, e, h, rfl⟩)
      rcases h3 _ t ht with hb | ⟨w', k', e', h', hn', ht'⟩
      · cases hb
      · obtain ⟨rfl, rfl⟩ := inj _ _ _ _ _ _ h h' hn'
        have := honce _ _ _ _ h h'
        subst this
        rw [ht, ht']

/-- The names of the works of the topologies of fluidimage are unambiguous. -/
theorem C139_shipped (names : List Txt) (h : names ∈ shipped) : Unambiguous names := by
  apply unambiguous_of_check
  revert names
  decide +kernel

/-- C139.  A finished execution of a chain of works, whatever the executor, the schedule and the functions which raise: the items which have failed
have one file each, and there is no other file. -/
theorem C139_finished_partial {α ε : Type} (limit : Nat) (names : List Txt) (format : ε → Txt) (ws : List (ChainWork Txt α ε)) (hws : ws ≠ [])
    (items : Dict Txt (Except ε α)) (hk : items.KeysUnique) (log : List (Event Txt α ε)) (hrun : FinishedLog ws items log)
    (hlen : ws.length = names.length) (hn : Unambiguous names)
    (hw : ∀ w k, w < names.length → k ∈ items.keys → Writable limit (workName names w) k) :
    ∃ d, record limit names format log Errors.start = (d, none) ∧ (d.dir = true ↔ ∃ w k e, Event.failed w k e ∈ log) ∧
      (∀ n t, d.files.get? n = some t ↔
        ∃ w k e, Event.failed w k e ∈ log ∧ n = reportName (workName names w) k ∧ t = reportText (workName names w) k (format e)) ∧
      (∀ w k e w' k' e', Event.failed w k e ∈ log → Event.failed w' k' e' ∈ log →
        reportName (workName names w) k = reportName (workName names w') k' → w = w' ∧ k = k') := by
  have hw' : ∀ w k e, Event.failed w k e ∈ log → w < names.length := by
    intro w k e h
    have := (C14_failing_item ws hws items hk log hrun w k e h).1
    omega
  refine C139_one_file_each_partial limit names format log hn hw' ?_ ?_
  · intro w k e e' h h'
    obtain ⟨_, vals, _, h1⟩ := C14_failing_item ws hws items hk log hrun w k e h
    have hm : Event.failed w k e' ∈ historyOf k log := by simp [historyOf, List.mem_filter, h', keyOf]
    rw [h1] at hm
    simp only [List.mem_append, List.mem_mapIdx, List.mem_singleton] at hm
    rcases hm with (⟨i, hi, hm⟩ | hm) | hm
    · cases hm
    · cases hm; rfl
    · split at hm
      · cases hm
      · simp at hm
  · intro w k e h
    apply hw w k (hw' w k e h)
    have hm : Event.failed w k e ∈ historyOf k log := by simp [historyOf, List.mem_filter, h, keyOf]
    rw [hrun.history hws hk k] at hm
    cases hg : items.get? k with
    | none => rw [hg] at hm; cases hm
    | some v => exact (Dict.mem_keys_iff _ _).2 ⟨v, Dict.get?_mem _ _ _ hg⟩

/-- The hypotheses for an execution in which two items fail. -/
def errorsNames : List Txt := ["read_array", "im2im", "save"].map String.toList
def errorsWorks : List (ChainWork Txt Nat String) :=
  [⟨true, fun _ v => if v = 3 then .error "no such file" else .ok v⟩, ⟨false, fun _ v => .ok (v + 1)⟩,
   ⟨true, fun _ v => if v = 6 then .error "disk full" else .ok v⟩]
def errorsItems : Dict Txt (Except String Nat) := [("a.png".toList, .ok 1), ("b.png".toList, .ok 3), ("c.png".toList, .ok 5)]

example : (∃ log, FinishedLog errorsWorks errorsItems log ∧ Event.failed 0 "b.png".toList "no such file" ∈ log ∧
      Event.failed 2 "c.png".toList "disk full" ∈ log ∧
      (record 255 errorsNames String.toList log Errors.start).1.files =
        [("exception_read_array_b.png.txt".toList, "Exception for work read_array, key b.png:\nno such file".toList),
         ("exception_save_c.png.txt".toList, "Exception for work save, key c.png:\ndisk full".toList)]) ∧
    Unambiguous errorsNames ∧ errorsItems.KeysUnique ∧
    ∀ w k, w < errorsNames.length → k ∈ errorsItems.keys → Writable 255 (workName errorsNames w) k := by
  refine ⟨?_, unambiguous_of_check (by decide +kernel), by unfold Dict.KeysUnique; decide +kernel, ?_⟩
  · cases h : seqLoop (chain errorsWorks) ⟨2, 8, false⟩ 20 (SState.init (startQueues errorsItems) ()) with
    | none =>
      have : (seqLoop (chain errorsWorks) ⟨2, 8, false⟩ 20 (SState.init (startQueues errorsItems) ())).isSome = true := by decide +kernel
      rw [h] at this
      cases this
    | some s =>
      have h1 : (seqLoop (chain errorsWorks) ⟨2, 8, false⟩ 20 (SState.init (startQueues errorsItems) ())).map (·.log) =
          some [.call 0 "a.png".toList 1, .call 1 "a.png".toList 1, .call 2 "a.png".toList 2, .call 0 "b.png".toList 3,
            .failed 0 "b.png".toList "no such file", .dropped 2 "b.png".toList "no such file", .call 0 "c.png".toList 5,
            .call 1 "c.png".toList 5, .call 2 "c.png".toList 6, .failed 2 "c.png".toList "disk full"] := by decide +kernel
      rw [h] at h1
      simp only [Option.map_some, Option.some.injEq] at h1
      refine ⟨s.log, .seq _ _ _ rfl h rfl, ?_, ?_, ?_⟩
      · rw [h1]; simp
      · rw [h1]; simp
      · rw [h1]; decide +kernel
  · intro w k hw hk
    have hk' : k = "a.png".toList ∨ k = "b.png".toList ∨ k = "c.png".toList := by
      simpa [errorsItems, Dict.keys] using hk
    have hw' : w = 0 ∨ w = 1 ∨ w = 2 := by
      have : errorsNames.length = 3 := rfl
      omega
    unfold Writable
    rcases hw' with rfl | rfl | rfl <;> rcases hk' with rfl | rfl | rfl <;> decide +kernel

/-- C139.  The processes of a computation share the directory: whatever the order in which they write (`log` is any interleaving of their events; an
image which is needed by two processes can fail twice), there is a file for each work and key which has failed, whose text is the one of an error
of this work for this key, and no other file. -/
theorem C139_several_processes {α ε : Type} (limit : Nat) (names : List Txt) (format : ε → Txt) (log : List (Event Txt α ε))
    (hn : Unambiguous names) (hlen : ∀ w k e, Event.failed w k e ∈ log → w < names.length)
    (hw : ∀ w k e, Event.failed w k e ∈ log → Writable limit (workName names w) k) :
    ∃ d, record limit names format log Errors.start = (d, none) ∧
      (∀ w k e, Event.failed w k e ∈ log → ∃ e', Event.failed w k e' ∈ log ∧
        d.files.get? (reportName (workName names w) k) = some (reportText (workName names w) k (format e'))) ∧
      (∀ n t, d.files.get? n = some t → ∃ w k e, Event.failed w k e ∈ log ∧ n = reportName (workName names w) k) := by
  simp only [← (report_eq _ _ []).1, ← (report_eq _ _ _).2]
  obtain ⟨d, h1, h2, h3, h4⟩ := ef_record limit names format log Errors.start hw
  refine ⟨d, h1, ?_, ?_⟩
  · intro w k e h
    obtain ⟨t, ht⟩ := (h4 (fileName (workName names w) k)).2 (.inr ⟨w, k, e, h, rfl⟩)
    rcases h3 _ t ht with hb | ⟨w', k', e', h', hn', ht'⟩
    · cases hb
    · have l1 := hlen _ _ _ h
      have l2 := hlen _ _ _ h'
      have g1 : names[w]? = some (names.getD w []) := by simp [l1]
      have g2 : names[w']? = some (names.getD w' []) := by simp [l2]
      by_cases hww : w = w'
      · subst hww
        obtain ⟨_, rfl⟩ := ef_name_inj (fun h => absurd rfl h) hn'
        exact ⟨e', h', by rw [ht, ht']⟩
      · obtain ⟨e1, _⟩ := ef_name_inj (fun _ => ⟨(hn _ _ _ _ g1 g2 hww).2, (hn _ _ _ _ g2 g1 (Ne.symm hww)).2⟩) hn'
        exact absurd e1 (hn _ _ _ _ g1 g2 hww).1
  · intro n t h
    rcases h3 n t h with h | ⟨w, k, e, h, hn', _⟩
    · cases h
    · exact ⟨w, k, e, h, hn'⟩

/-! ## What fails -/

/-- Two errors whose files have the same name: one file, with the second error. -/
theorem ef_same_file {α ε : Type} (limit : Nat) (names : List Txt) (format : ε → Txt) (w w' : Nat) (k k' : Txt) (e e' : ε)
    (hw : Writable limit (workName names w) k) (h : fileName (workName names w) k = fileName (workName names w') k') :
    record limit names format ([.failed w k e, .failed w' k' e'] : List (Event Txt α ε)) Errors.start =
      (⟨true, [(fileName (workName names w') k', fileText (workName names w') k' (format e'))]⟩, none) := by
  have h1 := ef_open hw
  have h2 := h1
  rw [h] at h2
  unfold workName at h1 h2 h
  simp only [record, logException, h1, h2, h, Errors.start, Dict.set, if_true]
  rfl

theorem ef_noSpace_slash {a : Txt} (h : '/' ∉ a) : '/' ∉ noSpace a := by
  unfold noSpace
  intro hm
  obtain ⟨c, hc, he⟩ := List.mem_map.1 hm
  split at he
  · exact absurd he (by decide)
  · exact h (he ▸ hc)

/-- C139 fails for topologies which are accepted (the names of their works are distinct): when the name of a work is the one of another work followed by
"_" and a text `x`, the errors of two items whose names differ by `x` and "_" are written in the same file, and the first error is lost. -/
theorem C139_names_fails {α ε : Type} (limit : Nat) (format : ε → Txt) (a x k : Txt) (e e' : ε)
    (hs : '/' ∉ a ∧ '/' ∉ x ∧ '/' ∉ k) (hl : a.length + x.length + k.length + 16 ≤ limit) :
    a ≠ a ++ '_' :: x ∧
      record limit [a, a ++ '_' :: x] format ([.failed 0 (noSpace x ++ '_' :: k) e, .failed 1 k e'] : List (Event Txt α ε)) Errors.start =
        (⟨true, [(reportName (noSpace (a ++ '_' :: x)) k, reportText (noSpace (a ++ '_' :: x)) k (format e'))]⟩, none) := by
  simp only [← (report_eq _ _ []).1, ← (report_eq _ _ _).2]
  refine ⟨by simp, ?_⟩
  refine ef_same_file limit [a, a ++ '_' :: x] format 0 1 (noSpace x ++ '_' :: k) k e e' ?_ ?_
  · refine ⟨ef_noSpace_slash hs.1, ?_, ?_⟩
    · have := ef_noSpace_slash hs.2.1
      simp [this, hs.2.2]
    · show (noSpace a).length + (noSpace x ++ '_' :: k).length + 15 ≤ limit
      unfold noSpace
      simp only [List.length_append, List.length_map, List.length_cons]
      omega
  · show fileName (noSpace a) _ = fileName (noSpace (a ++ '_' :: x)) k
    unfold fileName noSpace
    simp

/-- The works "read" and "read array", the images "array_1.png" and "1.png". -/
example : (record 255 ["read".toList, "read array".toList] (fun e : String => e.toList)
    ([.failed 0 "array_1.png".toList "e0", .failed 1 "1.png".toList "e1"] : List (Event Txt Nat String)) Errors.start).1.files =
    [("exception_read_array_1.png.txt".toList, "Exception for work read_array, key 1.png:\ne1".toList)] := by decide +kernel

/-- C139 fails when the names of two works differ only by spaces and "_" (they are distinct, and accepted): the errors of the two works for the same
item are written in the same file. -/
theorem C139_spaces_fails {α ε : Type} (limit : Nat) (format : ε → Txt) (a b k : Txt) (hab : noSpace a = noSpace b) (e e' : ε)
    (hs : '/' ∉ a ∧ '/' ∉ k) (hl : a.length + k.length + 15 ≤ limit) :
    record limit [a, b] format ([.failed 0 k e, .failed 1 k e'] : List (Event Txt α ε)) Errors.start =
      (⟨true, [(reportName (noSpace b) k, reportText (noSpace b) k (format e'))]⟩, none) := by
  simp only [← (report_eq _ _ []).1, ← (report_eq _ _ _).2]
  refine ef_same_file limit [a, b] format 0 1 k k e e' ⟨ef_noSpace_slash hs.1, hs.2, ?_⟩ ?_
  · show (noSpace a).length + k.length + 15 ≤ limit
    unfold noSpace
    simpa using hl
  · show fileName (noSpace a) k = fileName (noSpace b) k
    rw [hab]

example : "save a".toList ≠ "save_a".toList ∧ noSpace "save a".toList = noSpace "save_a".toList := by decide +kernel

/-- C139 fails for items whose name is a correct name of file: with the prefix and the name of the work, the name of the file of the error can be
too long; the error of `open` then escapes from the computation, and the error of the work is recorded nowhere. -/
theorem C139_long_fails {α ε : Type} (limit : Nat) (names : List Txt) (format : ε → Txt) (w : Nat) (k : Txt) (e : ε)
    (hs : '/' ∉ workName names w ∧ '/' ∉ k) (hl : limit < (workName names w).length + k.length + 15) (log : List (Event Txt α ε)) :
    record limit names format (.failed w k e :: log) Errors.start = (⟨true, []⟩, some .osError) := by
  have ho : openError limit (fileName (noSpace (names.getD w [])) k) = some .osError := by
    unfold openError
    have h1 : '/' ∉ fileName (noSpace (names.getD w [])) k := by
      have h0 := hs.1
      unfold workName at h0
      unfold fileName
      simp only [List.mem_append, not_or]
      exact ⟨⟨⟨⟨by decide, h0⟩, by decide⟩, hs.2⟩, by decide⟩
    have h2 : limit < (fileName (noSpace (names.getD w [])) k).length := by
      unfold fileName
      unfold workName at hl
      simp only [List.length_append]
      have e1 : "exception_".toList.length = 10 := by decide
      have e2 : "_".toList.length = 1 := by decide
      have e3 : ".txt".toList.length = 4 := by decide
      omega
    simp only [h1, h2, if_false, if_true]
  simp only [record, logException, ho]
  rfl

/-- C139 fails for a work whose name has a "/" (the names are not checked): the computation is stopped by the first error of this work. -/
theorem C139_slash_fails {α ε : Type} (limit : Nat) (names : List Txt) (format : ε → Txt) (w : Nat) (k : Txt) (e : ε)
    (hs : '/' ∈ workName names w ∨ '/' ∈ k) (log : List (Event Txt α ε)) :
    record limit names format (.failed w k e :: log) Errors.start = (⟨true, []⟩, some .fileNotFoundError) := by
  have ho : openError limit (fileName (noSpace (names.getD w [])) k) = some .fileNotFoundError := by
    unfold openError
    have h1 : '/' ∈ fileName (noSpace (names.getD w [])) k := by
      unfold workName at hs
      unfold fileName
      simp only [List.mem_append]
      rcases hs with h | h
      · exact .inl (.inl (.inl (.inr h)))
      · exact .inl (.inr h)
    simp only [h1, if_true]
  simp only [record, logException, ho]
  rfl

/-- An image whose name has 250 characters, with the limit of Linux. -/
example : (List.replicate 250 'a').length ≤ 255 ∧ 255 < (workName ["read array".toList] 0).length + (List.replicate 250 'a').length + 15 ∧
    '/' ∉ workName ["read array".toList] 0 ∧ '/' ∉ List.replicate 250 'a' := by decide +kernel

end Verif
