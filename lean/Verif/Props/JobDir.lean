import Verif.Model.JobDir
import Verif.Props.ResultDir

/-!
# Job directories and lock files (C19)
-/

namespace Verif
open Verif.JobDir Verif.ResultDir Verif.Text

/-! ## What is false -/

/-- C19 (full statement): creating an executor and then starting it never fails, whatever happened before in the result
directory (which contained nothing at the beginning). -/
def C19_statement : Prop :=
  ∀ (s s' s'' : State) (multi : Bool) (x : Path) (r r' : Option PyErr), Reach [] s →
    step s (.build multi x) = some (s', r) → step s' (.start s.exes.length) = some (s'', r') → r = none ∧ r' = none

/-- The states reached by a list of operations, with what each of them raises. -/
def jobHistory (s : State) : List Op → Option (State × List (Option PyErr))
  | [] => some (s, [])
  | op :: ops =>
    match step s op with
    | none => none
    | some (s', r) =>
      match jobHistory s' ops with
      | none => none
      | some (s'', rs) => some (s'', r :: rs)

theorem jobHistory_reach {tree : FS} {s s' : State} {ops : List Op} {rs : List (Option PyErr)} (h : Reach tree s)
    (hh : jobHistory s ops = some (s', rs)) : Reach tree s' := by
  induction ops generalizing s s' rs with
  | nil => simp only [jobHistory, Option.some.injEq, Prod.mk.injEq] at hh; obtain ⟨rfl, rfl⟩ := hh; exact h
  | cons op ops ih =>
    simp only [jobHistory] at hh
    split at hh
    · cases hh
    · rename_i s1 r h1
      split at hh
      · cases hh
      · rename_i s2 rs2 h2
        cases hh
        exact ih (h.step h1) h2

/-- An executor which runs to its end, then another one created during the same second by the same process. -/
theorem C19_second_run :
    jobHistory ⟨⟨[], [], []⟩, []⟩ [.build false ['x'], .start 0, .release 0, .build false ['x'], .start 1] =
      some (⟨⟨[(jobDir ['x'], true), (jobDir ['x', '1'], true)], [], [jobDir ['x']]⟩,
        [⟨['x'], jobDir ['x'], .ended⟩, ⟨['x', '1'], logDir ['x', '1'], .failed⟩]⟩,
        [none, none, none, none, some .fileNotFoundError]) := by
  have h1 : natStr 1 = ['1'] := by rw [natStr]; rfl
  simp [jobHistory, step, build, initLogPath, start, saveLock, releaseLock, jobDir, logDir, FS.exists, FS.isDir,
    searchFree, h1]

/-- Two executors created during the same second before any of them is started. -/
theorem C19_two_built :
    jobHistory ⟨⟨[], [], []⟩, []⟩ [.build false ['x'], .build false ['x'], .start 0, .start 1] =
      some (⟨⟨[(jobDir ['x'], true)], [jobDir ['x']], []⟩,
        [⟨['x'], jobDir ['x'], .running⟩, ⟨['x'], jobDir ['x'], .failed⟩]⟩,
        [none, none, none, some .fileExistsError]) := by
  simp [jobHistory, step, build, initLogPath, start, saveLock, jobDir, FS.exists, FS.isDir]

/-- C19 is false. -/
theorem C19_start_can_fail : ¬ C19_statement := by
  intro h
  have h1 : natStr 1 = ['1'] := by rw [natStr]; rfl
  have e : jobHistory ⟨⟨[], [], []⟩, []⟩ [.build false ['x'], .start 0, .release 0] =
      some (⟨⟨[(jobDir ['x'], true)], [], [jobDir ['x']]⟩, [⟨['x'], jobDir ['x'], .ended⟩]⟩, [none, none, none]) := by
    simp [jobHistory, step, build, initLogPath, start, saveLock, releaseLock, jobDir, FS.exists, FS.isDir]
  have hr := jobHistory_reach (tree := []) .init e
  have := h _ (⟨⟨[(jobDir ['x'], true)], [], [jobDir ['x']]⟩,
      [⟨['x'], jobDir ['x'], .ended⟩, ⟨['x', '1'], logDir ['x', '1'], .built⟩]⟩)
    (⟨⟨[(jobDir ['x'], true), (jobDir ['x', '1'], true)], [], [jobDir ['x']]⟩,
      [⟨['x'], jobDir ['x'], .ended⟩, ⟨['x', '1'], logDir ['x', '1'], .failed⟩]⟩)
    false ['x'] none (some .fileNotFoundError) hr
    (by simp [step, build, initLogPath, jobDir, logDir, FS.exists, searchFree, h1])
    (by simp [step, start, saveLock, jobDir, logDir, FS.exists, FS.isDir])
  exact absurd this.2 (by simp)

/-- Two multi-process executors, one after the other in the same second: the second one works, but its lock file is not
in its job directory `job_x1`, where the monitoring application looks for it (`gui/monitor.py:132`). -/
theorem C19_lock_not_in_job_dir :
    (jobHistory ⟨⟨[], [], []⟩, []⟩ [.build true ['x'], .start 0, .release 0, .build true ['x'], .start 1]).map
      (fun r => (r.1.fs.locks, r.1.exes.map (·.pfx), r.2)) =
    some ([logDir ['x', '1']], [['x'], ['x', '1']], [none, none, none, none, none]) := by
  have h1 : natStr 1 = ['1'] := by rw [natStr]; rfl
  simp [jobHistory, step, build, initLogPath, start, saveLock, releaseLock, jobDir, logDir, FS.exists, FS.isDir,
    searchFree, h1, mkdirExistOk]

/-- C19 fails when a file (and not a directory) has the name of the directory of the logs: creating an executor which needs this directory raises
`FileExistsError`, and nothing is changed. -/
theorem C19_log_is_file_fails (s : JobDir.State) (x : Path) (hj : s.fs.tree.exists (jobDir x) = false) (hf : s.fs.tree.exists (logDir x) = true)
    (hd : s.fs.tree.isDir (logDir x) = false) : JobDir.step s (.build true x) = some (s, some .fileExistsError) := by
  simp [JobDir.step, build, initLogPath, hj, mkdirExistOk, hf, hd]

example : FS.exists [(logDir ['x'], false)] (jobDir ['x']) = false ∧ FS.exists [(logDir ['x'], false)] (logDir ['x']) = true ∧
    FS.isDir [(logDir ['x'], false)] (logDir ['x']) = false := by decide +kernel

/-! ## What holds -/

theorem job_ne_log (p q : Path) : jobDir p ≠ logDir q := by
  intro h; simp [jobDir, logDir] at h

theorem jobDir_inj {p q : Path} (h : jobDir p = jobDir q) : p = q := List.append_cancel_left h
theorem logDir_inj {p q : Path} (h : logDir p = logDir q) : p = q := List.append_cancel_left h

theorem searchFree_isSome (fs : FS) (base : Path) (i : Nat) : ∃ j, searchFree fs base (fs.length + 1) i = some j := by
  cases h : searchFree fs base (fs.length + 1) i with
  | some j => exact ⟨j, rfl⟩
  | none =>
    exfalso
    have hs := searchFree_none fs base _ _ h
    have hsub : ((List.range (fs.length + 1)).map (fun k => base ++ natStr (i + k))) ⊆ fs.map Prod.fst := by
      intro p hp
      obtain ⟨k, hk, rfl⟩ := List.mem_map.1 hp
      obtain ⟨d, hd⟩ := (FS_exists_iff fs _).1 (hs (i + k) (by omega) (by have := List.mem_range.1 hk; omega))
      exact List.mem_map.2 ⟨_, hd, rfl⟩
    have hnd : ((List.range (fs.length + 1)).map (fun k => base ++ natStr (i + k))).Nodup := by
      apply List.Nodup.map _ (List.nodup_range)
      intro a b hab
      have := natStr_injective _ _ (List.append_cancel_left hab)
      omega
    have := (List.Nodup.subperm hnd hsub).length_le
    simp only [List.length_map, List.length_range] at this
    omega

/-- C19: the search of a postfix always ends. -/
theorem C19_search_terminates (fs : Fs) (x : Path) : ∃ r, initLogPath fs x = .ok r := by
  unfold initLogPath
  split
  · obtain ⟨j, hj⟩ := searchFree_isSome fs.tree (logDir x) 1
    rw [hj]; exact ⟨_, rfl⟩
  · exact ⟨_, rfl⟩

theorem initLogPath_dir {fs : Fs} {x p l : Path} (h : initLogPath fs x = .ok (p, l)) : l = jobDir p ∨ l = logDir p := by
  unfold initLogPath at h
  split at h
  · split at h
    · cases h; right; simp [logDir]
    · cases h
  · cases h; exact Or.inl rfl

theorem exists_append {fs : FS} {e : Path × Bool} {p : Path} :
    FS.exists (fs ++ [e]) p = (fs.exists p || decide (e.1 = p)) := by simp [FS.exists]

theorem isDir_append {fs : FS} {e : Path × Bool} {p : Path} :
    FS.isDir (fs ++ [e]) p = (fs.isDir p || (decide (e.1 = p) && e.2)) := by simp [FS.isDir]

def Exe.started (e : Exe) : Prop := e.phase = .running ∨ e.phase = .ended

structure JobInv (s : JobDir.State) : Prop where
  dir : ∀ e ∈ s.exes, e.lockDir = jobDir e.pfx ∨ e.lockDir = logDir e.pfx
  job : ∀ e ∈ s.exes, Exe.started e → s.fs.tree.exists (jobDir e.pfx) = true
  diff : ∀ (i j : Nat) (e e' : Exe), s.exes[i]? = some e → s.exes[j]? = some e' → Exe.started e → Exe.started e' →
    i ≠ j → e.pfx ≠ e'.pfx
  run : ∀ e ∈ s.exes, e.phase = .running → e.lockDir ∈ s.fs.locks
  ends : ∀ e ∈ s.exes, e.phase = .ended → e.lockDir ∉ s.fs.locks ∧ e.lockDir ∈ s.fs.ends
  locks : ∀ d ∈ s.fs.locks, ∃ e ∈ s.exes, e.phase = .running ∧ e.lockDir = d

theorem lockDir_pfx {s : JobDir.State} (h : JobInv s) {e e' : Exe} (he : e ∈ s.exes) (he' : e' ∈ s.exes)
    (hd : e.lockDir = e'.lockDir) : e.pfx = e'.pfx := by
  rcases h.dir e he with h1 | h1 <;> rcases h.dir e' he' with h2 | h2
  · exact jobDir_inj (h1 ▸ h2 ▸ hd)
  · exact absurd (h1 ▸ h2 ▸ hd) (job_ne_log _ _)
  · exact absurd (h1 ▸ h2 ▸ hd).symm (job_ne_log _ _)
  · exact logDir_inj (h1 ▸ h2 ▸ hd)

theorem getElem?_set_cases {β : Type} {l : List β} {i j : Nat} {x y : β} (h : (l.set i x)[j]? = some y) :
    (i = j ∧ y = x) ∨ (i ≠ j ∧ l[j]? = some y) := by
  by_cases e : i = j
  · subst e
    rw [List.getElem?_set_self'] at h
    cases hl : l[i]? with
    | none => rw [hl] at h; cases h
    | some z => rw [hl] at h; simp at h; exact Or.inl ⟨rfl, h.symm⟩
  · rw [List.getElem?_set_ne e] at h
    exact Or.inr ⟨e, h⟩

theorem mem_set_idx {β : Type} {l : List β} {i : Nat} {x y : β} (h : y ∈ l.set i x) :
    y = x ∨ ∃ j, j ≠ i ∧ l[j]? = some y := by
  obtain ⟨j, hj⟩ := List.mem_iff_getElem?.1 h
  rcases getElem?_set_cases hj with ⟨_, h1⟩ | ⟨h1, h2⟩
  · exact Or.inl h1
  · exact Or.inr ⟨j, fun e => h1 e.symm, h2⟩

/-- `start` either raises, adding at most the job directory, or succeeds. -/
theorem start_cases (fs : Fs) (e : Exe) :
    (∃ err fs', JobDir.start fs e = (fs', some err) ∧ fs'.locks = fs.locks ∧ fs'.ends = fs.ends ∧
      (∀ p, fs.tree.exists p = true → fs'.tree.exists p = true)) ∨
    (∃ fs', JobDir.start fs e = (fs', none) ∧ fs.tree.exists (jobDir e.pfx) = false ∧ e.lockDir ∉ fs.locks ∧
      fs'.locks = fs.locks ++ [e.lockDir] ∧ fs'.ends = fs.ends ∧ fs'.tree = fs.tree ++ [(jobDir e.pfx, true)] ∧
      fs'.tree.isDir e.lockDir = true) := by
  unfold JobDir.start
  split
  · exact Or.inl ⟨_, _, rfl, rfl, rfl, fun p hp => hp⟩
  · rename_i hex
    simp only
    unfold saveLock
    split
    · rename_i err hh
      refine Or.inl ⟨_, _, rfl, rfl, rfl, fun p hp => ?_⟩
      rw [exists_append, hp]; rfl
    · rename_i fs' hh
      split at hh
      · cases hh
      · rename_i hl
        split at hh
        · rename_i hd
          cases hh
          exact Or.inr ⟨_, rfl, by simpa using hex, hl, rfl, rfl, rfl, hd⟩
        · cases hh

theorem mkdir_tree {tree tree' : FS} {p : Path} (h : mkdirExistOk (fun _ => true) tree p = .ok tree') :
    (tree' = tree ∧ tree.isDir p = true) ∨ (tree' = tree ++ [(p, true)]) := by
  unfold mkdirExistOk at h
  split at h
  · split at h
    · rename_i hd; cases h; exact Or.inl ⟨rfl, hd⟩
    · cases h
  · cases h; exact Or.inr rfl

theorem build_cases {fs fs' : Fs} {multi : Bool} {x : Path} {e : Exe} (h : JobDir.build fs multi x = .ok (fs', e)) :
    fs'.locks = fs.locks ∧ fs'.ends = fs.ends ∧ (∀ p, fs.tree.exists p = true → fs'.tree.exists p = true) ∧
    e.phase = .built ∧ initLogPath fs x = .ok (e.pfx, e.lockDir) := by
  unfold JobDir.build at h
  split at h
  · cases h
  · rename_i p l hi
    split at h
    · split at h
      · cases h
      · rename_i tree' ht
        cases h
        refine ⟨rfl, rfl, ?_, rfl, hi⟩
        intro q hq
        show FS.exists tree' q = true
        rcases mkdir_tree ht with h1 | h1
        · rw [h1.1]; exact hq
        · rw [h1, exists_append, hq]; rfl
    · cases h
      exact ⟨rfl, rfl, fun _ hq => hq, rfl, hi⟩

theorem JobInv.step {s s' : JobDir.State} {op : Op} {r : Option PyErr} (h : JobInv s)
    (hs : JobDir.step s op = some (s', r)) : JobInv s' := by
  cases op with
  | build multi x =>
    simp only [JobDir.step] at hs
    split at hs
    · cases hs; exact h
    · rename_i fs e hb
      cases hs
      obtain ⟨b1, b2, b3, b4, b5⟩ := build_cases hb
      have hns : ¬ Exe.started e := by
        rintro (h1 | h1) <;> rw [b4] at h1 <;> cases h1
      have hm : ∀ {e' : Exe}, e' ∈ s.exes ++ [e] → e' ≠ e → e' ∈ s.exes := by
        intro e' h1 h2
        rcases List.mem_append.1 h1 with h1 | h1
        · exact h1
        · exact absurd (List.mem_singleton.1 h1) h2
      refine ⟨?_, ?_, ?_, ?_, ?_, ?_⟩
      · intro e' he'
        by_cases hee : e' = e
        · subst hee; exact initLogPath_dir b5
        · exact h.dir e' (hm he' hee)
      · intro e' he' hst
        by_cases hee : e' = e
        · subst hee; exact absurd hst hns
        · exact b3 _ (h.job e' (hm he' hee) hst)
      · intro i j e1 e2 h1 h2 hs1 hs2 hij
        have key : ∀ {i : Nat} {e1 : Exe}, (s.exes ++ [e])[i]? = some e1 → Exe.started e1 → s.exes[i]? = some e1 := by
          intro i e1 h1 hs1
          by_cases hlt : i < s.exes.length
          · rw [List.getElem?_append_left hlt] at h1; exact h1
          · rw [List.getElem?_append_right (by omega)] at h1
            have : e1 = e := by
              have := List.mem_of_getElem? h1
              simpa using this
            subst this; exact absurd hs1 hns
        exact h.diff i j e1 e2 (key h1 hs1) (key h2 hs2) hs1 hs2 hij
      · intro e' he' hr
        show e'.lockDir ∈ fs.locks
        rw [b1]
        exact h.run e' (hm he' (fun hee => hns (hee ▸ Or.inl hr))) hr
      · intro e' he' hr
        show e'.lockDir ∉ fs.locks ∧ e'.lockDir ∈ fs.ends
        rw [b1, b2]
        exact h.ends e' (hm he' (fun hee => hns (hee ▸ Or.inr hr))) hr
      · intro d hd
        obtain ⟨e', h1, h2, h3⟩ := h.locks d (by rw [← b1]; exact hd)
        exact ⟨e', List.mem_append_left _ h1, h2, h3⟩
  | start i =>
    simp only [JobDir.step] at hs
    split at hs
    · cases hs
    · rename_i e he
      split at hs
      · rename_i hph
        have hem := List.mem_of_getElem? he
        rcases start_cases s.fs e with ⟨err, fs', c1, c2, c3, c4⟩ | ⟨fs', c1, c2, c3, c4, c5, c6, c7⟩
        · rw [c1] at hs
          cases hs
          have hns : ¬ Exe.started { e with phase := .failed } := by
            rintro (h1 | h1) <;> cases h1
          have hm : ∀ {e' : Exe}, e' ∈ s.exes.set i { e with phase := .failed } → e' ≠ { e with phase := .failed } →
              e' ∈ s.exes := by
            intro e' h1 h2
            rcases mem_set_idx h1 with h1 | ⟨j, _, hj⟩
            · exact absurd h1 h2
            · exact List.mem_of_getElem? hj
          refine ⟨?_, ?_, ?_, ?_, ?_, ?_⟩
          · intro e' he'
            by_cases hee : e' = { e with phase := .failed }
            · subst hee; exact h.dir e hem
            · exact h.dir e' (hm he' hee)
          · intro e' he' hst
            exact c4 _ (h.job e' (hm he' (fun hee => hns (hee ▸ hst))) hst)
          · intro i1 j1 e1 e2 h1 h2 hs1 hs2 hij
            have key : ∀ {k : Nat} {e1 : Exe}, (s.exes.set i { e with phase := .failed })[k]? = some e1 →
                Exe.started e1 → s.exes[k]? = some e1 := by
              intro k e1 h1 hs1
              rcases getElem?_set_cases h1 with ⟨_, h1⟩ | ⟨_, h1⟩
              · exact absurd (h1 ▸ hs1) hns
              · exact h1
            exact h.diff i1 j1 e1 e2 (key h1 hs1) (key h2 hs2) hs1 hs2 hij
          · intro e' he' hr
            show e'.lockDir ∈ fs'.locks
            rw [c2]
            exact h.run e' (hm he' (fun hee => hns (hee ▸ Or.inl hr))) hr
          · intro e' he' hr
            show e'.lockDir ∉ fs'.locks ∧ e'.lockDir ∈ fs'.ends
            rw [c2, c3]
            exact h.ends e' (hm he' (fun hee => hns (hee ▸ Or.inr hr))) hr
          · intro d hd
            obtain ⟨e', h1, h2, h3⟩ := h.locks d (by rw [← c2]; exact hd)
            obtain ⟨j, hj⟩ := List.mem_iff_getElem?.1 h1
            have hij : i ≠ j := by
              intro hij
              subst hij
              rw [he] at hj
              cases hj
              rw [hph] at h2; cases h2
            exact ⟨e', List.mem_iff_getElem?.2 ⟨j, by rw [List.getElem?_set_ne hij]; exact hj⟩, h2, h3⟩
        · rw [c1] at hs
          cases hs
          have hold : ∀ {e' : Exe}, e' ∈ s.exes → Exe.started e' → e'.pfx ≠ e.pfx := by
            intro e' h1 h2 h3
            have := h.job e' h1 h2
            rw [h3, c2] at this
            cases this
          have hex : ∀ p, s.fs.tree.exists p = true → fs'.tree.exists p = true := by
            intro p hp; rw [c6, exists_append, hp]; rfl
          refine ⟨?_, ?_, ?_, ?_, ?_, ?_⟩
          · intro e' he'
            rcases mem_set_idx he' with h1 | ⟨j, _, hj⟩
            · subst h1; exact h.dir e hem
            · exact h.dir e' (List.mem_of_getElem? hj)
          · intro e' he' hst
            rcases mem_set_idx he' with h1 | ⟨j, _, hj⟩
            · subst h1
              show fs'.tree.exists (jobDir e.pfx) = true
              rw [c6, exists_append]; simp
            · exact hex _ (h.job e' (List.mem_of_getElem? hj) hst)
          · intro i1 j1 e1 e2 h1 h2 hs1 hs2 hij
            rcases getElem?_set_cases h1 with ⟨a1, a2⟩ | ⟨a1, a2⟩ <;>
              rcases getElem?_set_cases h2 with ⟨b1, b2⟩ | ⟨b1, b2⟩
            · exact absurd (a1.symm.trans b1) hij
            · subst a2
              exact fun hh => hold (List.mem_of_getElem? b2) hs2 hh.symm
            · subst b2
              exact hold (List.mem_of_getElem? a2) hs1
            · exact h.diff i1 j1 e1 e2 a2 b2 hs1 hs2 hij
          · intro e' he' hr
            show e'.lockDir ∈ fs'.locks
            rw [c4]
            rcases mem_set_idx he' with h1 | ⟨j, _, hj⟩
            · subst h1; simp
            · exact List.mem_append_left _ (h.run e' (List.mem_of_getElem? hj) hr)
          · intro e' he' hr
            show e'.lockDir ∉ fs'.locks ∧ e'.lockDir ∈ fs'.ends
            rcases mem_set_idx he' with h1 | ⟨j, _, hj⟩
            · subst h1; cases hr
            · have hm := List.mem_of_getElem? hj
              obtain ⟨d1, d2⟩ := h.ends e' hm hr
              rw [c4, c5]
              refine ⟨?_, d2⟩
              intro hh
              rcases List.mem_append.1 hh with hh | hh
              · exact d1 hh
              · exact hold hm (Or.inr hr) (lockDir_pfx h hm hem (List.mem_singleton.1 hh))
          · intro d hd
            have hd' : d ∈ s.fs.locks ++ [e.lockDir] := by rw [← c4]; exact hd
            rcases List.mem_append.1 hd' with hd' | hd'
            · obtain ⟨e', h1, h2, h3⟩ := h.locks d hd'
              obtain ⟨j, hj⟩ := List.mem_iff_getElem?.1 h1
              have hij : i ≠ j := by
                intro hij
                subst hij
                rw [he] at hj
                cases hj
                rw [hph] at h2; cases h2
              exact ⟨e', List.mem_iff_getElem?.2 ⟨j, by rw [List.getElem?_set_ne hij]; exact hj⟩, h2, h3⟩
            · have hlt : i < s.exes.length := (List.getElem?_eq_some_iff.1 he).1
              exact ⟨_, List.mem_iff_getElem?.2 ⟨i, List.getElem?_set_self hlt⟩, rfl, (List.mem_singleton.1 hd').symm⟩
      · cases hs
  | release i =>
    simp only [JobDir.step] at hs
    split at hs
    · cases hs
    · rename_i e he
      split at hs
      · rename_i hph
        have hem := List.mem_of_getElem? he
        cases hs
        have hlt : i < s.exes.length := (List.getElem?_eq_some_iff.1 he).1
        have hst : Exe.started e := hph
        have hother : ∀ {j : Nat} {e' : Exe}, j ≠ i → s.exes[j]? = some e' → Exe.started e' → e'.lockDir ≠ e.lockDir := by
          intro j e' hj h1 h2 h3
          exact h.diff j i e' e h1 he h2 hst hj (lockDir_pfx h (List.mem_of_getElem? h1) hem h3)
        have htree : (releaseLock s.fs e.lockDir).tree = s.fs.tree := by
          unfold releaseLock; split <;> rfl
        have hlocks : ∀ d, d ∈ (releaseLock s.fs e.lockDir).locks ↔ d ∈ s.fs.locks ∧ d ≠ e.lockDir := by
          intro d
          unfold releaseLock
          split
          · simp
          · rename_i hn
            constructor
            · intro hd; exact ⟨hd, fun hh => hn (hh ▸ hd)⟩
            · exact fun hd => hd.1
        have hends : ∀ d, d ∈ s.fs.ends → d ∈ (releaseLock s.fs e.lockDir).ends := by
          intro d hd
          unfold releaseLock
          split
          · exact List.mem_append_left _ hd
          · exact hd
        refine ⟨?_, ?_, ?_, ?_, ?_, ?_⟩
        · intro e' he'
          rcases mem_set_idx he' with h1 | ⟨j, _, hj⟩
          · subst h1; exact h.dir e hem
          · exact h.dir e' (List.mem_of_getElem? hj)
        · intro e' he' hst'
          show (releaseLock s.fs e.lockDir).tree.exists _ = true
          rw [htree]
          rcases mem_set_idx he' with h1 | ⟨j, _, hj⟩
          · subst h1; exact h.job e hem hst
          · exact h.job e' (List.mem_of_getElem? hj) hst'
        · intro i1 j1 e1 e2 h1 h2 hs1 hs2 hij
          have key : ∀ {k : Nat} {e1 : Exe}, (s.exes.set i { e with phase := .ended })[k]? = some e1 → Exe.started e1 →
              ∃ e1', s.exes[k]? = some e1' ∧ Exe.started e1' ∧ e1'.pfx = e1.pfx := by
            intro k e1 h1 hs1
            rcases getElem?_set_cases h1 with ⟨a1, a2⟩ | ⟨_, a2⟩
            · subst a1; subst a2; exact ⟨e, he, hst, rfl⟩
            · exact ⟨e1, a2, hs1, rfl⟩
          obtain ⟨x1, p1, p2, p3⟩ := key h1 hs1
          obtain ⟨x2, q1, q2, q3⟩ := key h2 hs2
          rw [← p3, ← q3]
          exact h.diff i1 j1 x1 x2 p1 q1 p2 q2 hij
        · intro e' he' hr
          show e'.lockDir ∈ (releaseLock s.fs e.lockDir).locks
          rcases mem_set_idx he' with h1 | ⟨j, hji, hj⟩
          · subst h1; cases hr
          · exact (hlocks _).2 ⟨h.run e' (List.mem_of_getElem? hj) hr, hother hji hj (Or.inl hr)⟩
        · intro e' he' hr
          show e'.lockDir ∉ (releaseLock s.fs e.lockDir).locks ∧ e'.lockDir ∈ (releaseLock s.fs e.lockDir).ends
          rcases mem_set_idx he' with h1 | ⟨j, hji, hj⟩
          · subst h1
            refine ⟨fun hh => ((hlocks _).1 hh).2 rfl, ?_⟩
            show e.lockDir ∈ _
            rcases hph with h2 | h2
            · unfold releaseLock
              rw [if_pos (h.run e hem h2)]
              simp
            · exact hends _ (h.ends e hem h2).2
          · obtain ⟨d1, d2⟩ := h.ends e' (List.mem_of_getElem? hj) hr
            exact ⟨fun hh => d1 ((hlocks _).1 hh).1, hends _ d2⟩
        · intro d hd
          obtain ⟨d1, d2⟩ := (hlocks d).1 hd
          obtain ⟨e', h1, h2, h3⟩ := h.locks d d1
          obtain ⟨j, hj⟩ := List.mem_iff_getElem?.1 h1
          have hij : i ≠ j := by
            intro hij
            subst hij
            rw [he] at hj
            cases hj
            exact d2 h3.symm
          exact ⟨e', List.mem_iff_getElem?.2 ⟨j, by rw [List.getElem?_set_ne hij]; exact hj⟩, h2, h3⟩
      · cases hs

theorem JobInv.init (tree : FS) : JobInv ⟨⟨tree, [], []⟩, []⟩ :=
  ⟨by simp, by simp, by simp, by simp, by simp, by simp⟩

theorem JobInv.reach {tree : FS} {s : JobDir.State} (h : Reach tree s) : JobInv s := by
  induction h with
  | init => exact JobInv.init tree
  | step _ hs ih => exact ih.step hs

/-- C19: in every history (executors created, started and ended in any order, some of them failing to start), while an
executor which has been started without error runs, its lock file exists; after its end the lock file does not exist
and the end time has been recorded. -/
theorem C19_lock_iff_running (tree : FS) (s : JobDir.State) (h : Reach tree s) (e : Exe) (he : e ∈ s.exes) :
    (e.phase = .running → e.lockDir ∈ s.fs.locks) ∧
    (e.phase = .ended → e.lockDir ∉ s.fs.locks ∧ e.lockDir ∈ s.fs.ends) :=
  ⟨(JobInv.reach h).run e he, (JobInv.reach h).ends e he⟩

/-- C19: two executors started without error have different job directories and different lock files. -/
theorem C19_not_shared (tree : FS) (s : JobDir.State) (h : Reach tree s) (i j : Nat) (e e' : Exe)
    (he : s.exes[i]? = some e) (he' : s.exes[j]? = some e') (hs : e.phase = .running ∨ e.phase = .ended)
    (hs' : e'.phase = .running ∨ e'.phase = .ended) (hij : i ≠ j) :
    jobDir e.pfx ≠ jobDir e'.pfx ∧ e.lockDir ≠ e'.lockDir := by
  have hi := JobInv.reach h
  have hd := hi.diff i j e e' he he' hs hs' hij
  exact ⟨fun hh => hd (jobDir_inj hh),
    fun hh => hd (lockDir_pfx hi (List.mem_of_getElem? he) (List.mem_of_getElem? he') hh)⟩

/-- C19: every lock file is the one of an executor which is running. -/
theorem C19_no_stale_lock (tree : FS) (s : JobDir.State) (h : Reach tree s) (d : Path) (hd : d ∈ s.fs.locks) :
    ∃ e ∈ s.exes, e.phase = .running ∧ e.lockDir = d := (JobInv.reach h).locks d hd

/-- C19: releasing the lock a second time (when the interpreter exits) changes nothing. -/
theorem C19_release_twice (tree : FS) (s s' : JobDir.State) (h : Reach tree s) (i : Nat) (e : Exe) (r : Option PyErr)
    (he : s.exes[i]? = some e) (hp : e.phase = .ended) (hs : JobDir.step s (.release i) = some (s', r)) : s' = s := by
  have hn := ((JobInv.reach h).ends e (List.mem_of_getElem? he) hp).1
  simp only [JobDir.step, he, hp, or_true, if_true, releaseLock, hn, if_false] at hs
  cases hs
  have : { e with phase := Phase.ended } = e := by cases e; cases hp; rfl
  have hlt := (List.getElem?_eq_some_iff.1 he).1
  have hg := (List.getElem?_eq_some_iff.1 he).2
  have h2 : s.exes.set i { e with phase := Phase.ended } = s.exes := by
    rw [this, ← hg, List.set_getElem_self]
  cases s
  simp only at h2
  simp only [h2]

/-- C19, what holds for the starts: an executor created and started when no executor has used the same second and
process (no directory `job_x`) starts without error, with a job directory which did not exist and a lock file which did
not exist.  Missing: executors created by the same process within the same second (`C19_second_run`,
`C19_two_built`). -/
theorem C19_fresh_start_partial (tree : FS) (s : JobDir.State) (h : Reach tree s) (x : Path)
    (hx : s.fs.tree.exists (jobDir x) = false) :
    ∃ s' s'', JobDir.step s (.build false x) = some (s', none) ∧
      JobDir.step s' (.start s.exes.length) = some (s'', none) ∧
      s''.exes = s.exes ++ [⟨x, jobDir x, .running⟩] ∧ s''.fs.locks = s.fs.locks ++ [jobDir x] ∧
      jobDir x ∉ s.fs.locks ∧ s''.fs.tree = s.fs.tree ++ [(jobDir x, true)] := by
  have hi := JobInv.reach h
  have hl : jobDir x ∉ s.fs.locks := by
    intro hh
    obtain ⟨e, h1, h2, h3⟩ := hi.locks _ hh
    have hj := hi.job e h1 (Or.inl h2)
    rcases hi.dir e h1 with h4 | h4
    · rw [← h4, h3, hx] at hj; cases hj
    · exact job_ne_log x e.pfx (h3.symm.trans h4)
  have hb : JobDir.step s (.build false x) = some (⟨s.fs, s.exes ++ [⟨x, jobDir x, .built⟩]⟩, none) := by
    simp [JobDir.step, JobDir.build, initLogPath, hx]
  refine ⟨_, ⟨⟨s.fs.tree ++ [(jobDir x, true)], s.fs.locks ++ [jobDir x], s.fs.ends⟩,
      s.exes ++ [⟨x, jobDir x, .running⟩]⟩, hb, ?_, rfl, rfl, hl, rfl⟩
  · simp [JobDir.step, JobDir.start, saveLock, hx, hl, FS.isDir]

/-- A tree in which each job directory has the corresponding log directory. -/
def LogsPresent (tree : FS) : Prop :=
  (∀ p, tree.exists (jobDir p) = true → tree.exists (logDir p) = true) ∧
  (∀ p, tree.exists (logDir p) = true → tree.isDir (logDir p) = true)

/-- Histories in which only executors creating their log directory are used, each of them being started just after its
creation. -/
inductive MultiReach (tree : FS) : JobDir.State → Prop
  | init : MultiReach tree ⟨⟨tree, [], []⟩, []⟩
  | launch {s s' s'' : JobDir.State} {x : Path} {r r' : Option PyErr} : MultiReach tree s →
      JobDir.step s (.build true x) = some (s', r) → JobDir.step s' (.start s.exes.length) = some (s'', r') →
      MultiReach tree s''
  | release {s s' : JobDir.State} {i : Nat} {r : Option PyErr} : MultiReach tree s →
      JobDir.step s (.release i) = some (s', r) → MultiReach tree s'

theorem MultiReach.reach {tree : FS} {s : JobDir.State} (h : MultiReach tree s) : Reach tree s := by
  induction h with
  | init => exact .init
  | launch _ h1 h2 ih => exact (ih.step h1).step h2
  | release _ h1 ih => exact ih.step h1

theorem exists_of_isDir {tree : FS} {p : Path} (h : tree.isDir p = true) : tree.exists p = true := by
  unfold FS.isDir at h
  unfold FS.exists
  rw [List.any_eq_true] at h ⊢
  obtain ⟨e, h1, h2⟩ := h
  simp only [Bool.and_eq_true] at h2
  exact ⟨e, h1, h2.1⟩

/-- Launching one executor which creates its log directory. -/
theorem launch_multi {tree : FS} {s : JobDir.State} (h : Reach tree s) (hp : LogsPresent s.fs.tree) (x : Path) :
    ∃ s' s'' p, JobDir.step s (.build true x) = some (s', none) ∧
      JobDir.step s' (.start s.exes.length) = some (s'', none) ∧
      s.fs.tree.exists (jobDir p) = false ∧ LogsPresent s''.fs.tree ∧
      (∃ l, s''.exes = s.exes ++ [⟨p, l, .running⟩] ∧ l ∉ s.fs.locks ∧ s''.fs.locks = s.fs.locks ++ [l]) := by
  have hi := JobInv.reach h
  obtain ⟨⟨p, l⟩, hpl⟩ := C19_search_terminates s.fs x
  have hdir := initLogPath_dir hpl
  -- the job directory does not exist
  have hjob : s.fs.tree.exists (jobDir p) = false := by
    unfold initLogPath at hpl
    split at hpl
    · split at hpl
      · rename_i i hsf
        cases hpl
        have h2 := (searchFree_spec _ _ _ _ _ hsf).2.1
        cases hc : s.fs.tree.exists (jobDir (x ++ natStr i)) with
        | false => rfl
        | true =>
          have h3 := hp.1 _ hc
          have e : logDir (x ++ natStr i) = logDir x ++ natStr i := by simp [logDir]
          rw [e, h2] at h3
          cases h3
      · cases hpl
    · rename_i hex
      cases hpl
      simpa using hex
  have hl : l ∉ s.fs.locks := by
    intro hh
    obtain ⟨e, h1, h2, h3⟩ := hi.locks _ hh
    have hj := hi.job e h1 (Or.inl h2)
    have hpe : e.pfx = p := by
      rcases hi.dir e h1 with h4 | h4 <;> rcases hdir with h5 | h5
      · exact jobDir_inj (h4 ▸ h5 ▸ h3)
      · exact absurd (h4 ▸ h5 ▸ h3) (job_ne_log _ _)
      · exact absurd (h4 ▸ h5 ▸ h3).symm (job_ne_log _ _)
      · exact logDir_inj (h4 ▸ h5 ▸ h3)
    rw [hpe, hjob] at hj
    cases hj
  have hmk : ∃ tree', mkdirExistOk (fun _ => true) s.fs.tree (logDir p) = .ok tree' ∧
      tree'.isDir (logDir p) = true ∧ (tree' = s.fs.tree ∨ tree' = s.fs.tree ++ [(logDir p, true)]) := by
    unfold mkdirExistOk
    by_cases hex : s.fs.tree.exists (logDir p) = true
    · rw [if_pos hex, if_pos (hp.2 _ hex)]
      exact ⟨_, rfl, hp.2 _ hex, Or.inl rfl⟩
    · rw [if_neg hex, if_pos rfl]
      exact ⟨_, rfl, by rw [isDir_append]; simp, Or.inr rfl⟩
  obtain ⟨tree', hmk1, hmk2, hmk3⟩ := hmk
  have hjob' : FS.exists tree' (jobDir p) = false := by
    rcases hmk3 with h1 | h1 <;> rw [h1]
    · exact hjob
    · rw [exists_append, hjob]; simpa using (job_ne_log p p).symm
  have hb : JobDir.step s (.build true x) =
      some (⟨{ s.fs with tree := tree' }, s.exes ++ [⟨p, l, .built⟩]⟩, none) := by
    simp only [JobDir.step, JobDir.build, hpl, if_true, hmk1]
  have hld : FS.isDir (tree' ++ [(jobDir p, true)]) l = true := by
    rcases hdir with h1 | h1 <;> rw [h1, isDir_append]
    · simp
    · rw [hmk2]; rfl
  refine ⟨_, ⟨⟨tree' ++ [(jobDir p, true)], s.fs.locks ++ [l], s.fs.ends⟩, s.exes ++ [⟨p, l, .running⟩]⟩, p, hb, ?_,
    hjob, ?_, l, rfl, hl, rfl⟩
  · simp [JobDir.step, JobDir.start, saveLock, hjob', hl, hld]
  · have hex' : ∀ q, FS.exists tree' q = true ↔ (s.fs.tree.exists q = true ∨ q = logDir p) := by
      intro q
      rcases hmk3 with h1 | h1
      · rw [h1]
        constructor
        · exact Or.inl
        · rintro (hq | hq)
          · exact hq
          · rw [hq]; rw [h1] at hmk2; exact exists_of_isDir hmk2
      · rw [h1, exists_append, Bool.or_eq_true, decide_eq_true_eq]
        exact or_congr Iff.rfl eq_comm
    have hdir' : ∀ q, s.fs.tree.isDir q = true → FS.isDir tree' q = true := by
      intro q hq
      rcases hmk3 with h1 | h1
      · rw [h1]; exact hq
      · rw [h1, isDir_append, hq]; rfl
    refine ⟨fun q hq => ?_, fun q hq => ?_⟩
    · show FS.exists (tree' ++ [(jobDir p, true)]) (logDir q) = true
      have hq' : FS.exists (tree' ++ [(jobDir p, true)]) (jobDir q) = true := hq
      rw [exists_append, Bool.or_eq_true, decide_eq_true_eq] at hq'
      rw [exists_append, Bool.or_eq_true]
      left
      rcases hq' with h1 | h1
      · rcases (hex' _).1 h1 with h2 | h2
        · exact (hex' _).2 (Or.inl (hp.1 _ h2))
        · exact absurd h2 (job_ne_log _ _)
      · rw [← jobDir_inj h1]; exact (hex' _).2 (Or.inr rfl)
    · show FS.isDir (tree' ++ [(jobDir p, true)]) (logDir q) = true
      have hq' : FS.exists (tree' ++ [(jobDir p, true)]) (logDir q) = true := hq
      rw [exists_append, Bool.or_eq_true, decide_eq_true_eq] at hq'
      rw [isDir_append, Bool.or_eq_true]
      left
      rcases hq' with h1 | h1
      · rcases (hex' _).1 h1 with h2 | h2
        · exact hdir' _ (hp.2 _ h2)
        · rw [h2]; exact hmk2
      · exact absurd h1 (job_ne_log _ _)

theorem MultiReach.logs {tree : FS} {s : JobDir.State} (hp : LogsPresent tree) (h : MultiReach tree s) :
    LogsPresent s.fs.tree := by
  induction h with
  | init => exact hp
  | launch h0 h1 h2 ih =>
    rename_i x _ _
    obtain ⟨s1, s2, p, e1, e2, _, e4, _⟩ := launch_multi h0.reach ih x
    rw [e1] at h1; cases h1
    rw [e2] at h2; cases h2
    exact e4
  | release h0 h1 ih =>
    simp only [JobDir.step] at h1
    split at h1
    · cases h1
    · split at h1
      · cases h1
        show LogsPresent (releaseLock _ _).tree
        unfold releaseLock
        split <;> exact ih
      · cases h1

/-- C19, what holds for the multi-process executors (and those based on servers): if only such executors are used, each
started just after its creation, then starting one never fails, even in the same second and process, and gives it a
fresh job directory and its own lock file. -/
theorem C19_multi_start_partial (tree : FS) (hp : LogsPresent tree) (s : JobDir.State) (h : MultiReach tree s)
    (x : Path) : ∃ s' s'' p l, JobDir.step s (.build true x) = some (s', none) ∧
      JobDir.step s' (.start s.exes.length) = some (s'', none) ∧ s''.exes = s.exes ++ [⟨p, l, .running⟩] ∧
      s.fs.tree.exists (jobDir p) = false ∧ l ∉ s.fs.locks ∧ s''.fs.locks = s.fs.locks ++ [l] := by
  obtain ⟨s', s'', p, e1, e2, e3, _, l, e4, e5, e6⟩ := launch_multi h.reach (h.logs hp) x
  exact ⟨s', s'', p, l, e1, e2, e4, e3, e5, e6⟩

/-- A history which meets the hypothesis: two executions of which the first one has ended before the second one. -/
example : ∃ s : JobDir.State, MultiReach [] s ∧ s.exes.map (·.phase) = [.ended, .running] := by
  have h0 : LogsPresent [] := ⟨fun _ h => by simp [FS.exists] at h, fun _ h => by simp [FS.exists] at h⟩
  obtain ⟨s1, s2, p, l, e1, e2, e3, _, _, e4⟩ := C19_multi_start_partial [] h0 _ .init ['x']
  have hm2 : MultiReach [] s2 := .launch .init e1 e2
  have hx : s2.exes = [⟨p, l, .running⟩] := by rw [e3]; rfl
  have hr : ∃ s3 r, JobDir.step s2 (.release 0) = some (s3, r) ∧ s3.exes = [⟨p, l, .ended⟩] := by
    have hl : s2.fs.locks = [l] := by rw [e4]; rfl
    refine ⟨⟨releaseLock s2.fs l, [⟨p, l, .ended⟩]⟩, none, ?_, rfl⟩
    simp [JobDir.step, hx]
  obtain ⟨s3, r, h3, h4⟩ := hr
  obtain ⟨s4, s5, p', l', f1, f2, f3, _⟩ := C19_multi_start_partial [] h0 s3 (.release hm2 h3) ['x']
  exact ⟨s5, .launch (.release hm2 h3) f1 f2, by rw [f3, h4]; rfl⟩

/-- An empty result directory satisfies the hypothesis. -/
example : LogsPresent [] := ⟨fun _ h => by simp [FS.exists] at h, fun _ h => by simp [FS.exists] at h⟩

/-- A reachable state with one executor running and one ended (hypotheses of the theorems above). -/
example : ∃ s, Reach [] s ∧ s.exes.map (·.phase) = [.ended, .running] := by
  have e : jobHistory ⟨⟨[], [], []⟩, []⟩ [.build false ['x'], .start 0, .build false ['y'], .release 0, .start 1] =
      some (⟨⟨[(jobDir ['x'], true), (jobDir ['y'], true)], [jobDir ['y']], [jobDir ['x']]⟩,
        [⟨['x'], jobDir ['x'], .ended⟩, ⟨['y'], jobDir ['y'], .running⟩]⟩, [none, none, none, none, none]) := by
    simp [jobHistory, step, build, initLogPath, start, saveLock, releaseLock, jobDir, FS.exists, FS.isDir]
  exact ⟨_, jobHistory_reach .init e, rfl⟩

end Verif
