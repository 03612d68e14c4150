import Verif.Model.LauncherWindow
import Mathlib.Tactic.SplitIfs

/-!
# C152: the window which launches the topologies
-/

namespace Verif
open LauncherWindow

variable {P : Type}

/-- The two topologies which are offered, in the order of the menu. -/
def launcherEntries : List LauncherWindow.Name := ["TopologyPreprocLauncher".toList, "TopologyPIVLauncher".toList]

/-- Specification: the topology chosen last, with its default parameters and the modifications done since it has been
chosen (the window has one page: its place is 0). -/
def lastChosen (defaults : LauncherWindow.Name → P) (cur : Option (LauncherWindow.Name × P)) :
    List (Action P) → Option (LauncherWindow.Name × P)
  | [] => cur
  | .choose i :: as =>
    lastChosen defaults (match launcherEntries[i]? with | some n => some (n, defaults n) | none => cur) as
  | .edit k f :: as => lastChosen defaults (if k = 0 then cur.map (fun q => (q.1, f q.2)) else cur) as
  | .openFile _ :: as => lastChosen defaults cur as

/-- The invariant of the window. -/
structure WinOk (w : Win P) (cur : Option (LauncherWindow.Name × P)) : Prop where
  menu : w.menu = launcherEntries.map (fun n => (n, n))
  same : w.children = w.layout
  one : (w.layout = [] ∧ w.qtParams = none ∧ cur = none) ∨
    (∃ x, w.layout = [x] ∧ x < w.next ∧ w.qtParams = some x ∧ w.pages x = cur ∧ cur ≠ none)

theorem winOk_init : WinOk (init : Win P) none := ⟨rfl, rfl, .inl ⟨rfl, rfl, rfl⟩⟩

theorem topologies_contains : ∀ n ∈ launcherEntries, topologies.contains n = true := by decide +kernel

theorem initTopo_ok (defaults : LauncherWindow.Name → P) (n : LauncherWindow.Name) (hn : n ∈ launcherEntries)
    (w : Win P) (cur : Option (LauncherWindow.Name × P)) (h : WinOk w cur) :
    ∃ w2, initTopo defaults n w = .ok w2 ∧ WinOk w2 (some (n, defaults n)) := by
  unfold initTopo
  rw [topologies_contains n hn]
  rcases h.one with ⟨h1, h2, h3⟩ | ⟨x, h1, h2, h3, h4, h5⟩
  · simp only [h1, List.length_nil, List.range_zero, List.reverse_nil, removeLoop, if_true]
    refine ⟨_, rfl, h.menu, ?_, .inr ⟨w.next, ?_, ?_, rfl, ?_, by simp⟩⟩
    · simp [addWidget, newPage, h.same]
    · simp [addWidget, newPage, h1]
    · simp [addWidget, newPage]
    · simp [addWidget, newPage]
  · have e : (List.range w.layout.length).reverse = [0] := by rw [h1]; rfl
    have e2 : (newPage n (defaults n) w).layout[0]? = some x := by simp [newPage, h1]
    simp only [e, removeLoop, e2, if_true]
    refine ⟨_, rfl, h.menu, ?_, .inr ⟨w.next, ?_, ?_, rfl, ?_, by simp⟩⟩
    · simp [addWidget, removeWidget, newPage, h.same]
    · simp [addWidget, removeWidget, newPage, h1]
    · simp [addWidget, removeWidget, newPage]
    · simp [addWidget, removeWidget, newPage]

theorem step_winOk (defaults : LauncherWindow.Name → P) (read : LauncherWindow.Name × LauncherWindow.Name → Except PyErr P)
    (a : Action P) (w : Win P) (cur : Option (LauncherWindow.Name × P)) (h : WinOk w cur) :
    ∃ w2, step defaults read w a = .ok w2 ∧ WinOk w2 (lastChosen defaults cur [a]) := by
  cases a with
  | choose i =>
    simp only [step, lastChosen, h.menu, List.getElem?_map]
    cases hi : launcherEntries[i]? with
    | none => exact ⟨w, rfl, h⟩
    | some n => exact initTopo_ok defaults n (List.mem_of_getElem? hi) w cur h
  | edit k f =>
    simp only [step, lastChosen]
    rcases h.one with ⟨h1, h2, h3⟩ | ⟨x, h1, h2, h3, h4, h5⟩
    · simp only [h.same, h1, List.getElem?_nil]
      refine ⟨w, rfl, ?_⟩
      subst h3
      simpa using h
    · simp only [h.same, h1]
      cases k with
      | zero =>
        refine ⟨_, rfl, h.menu, ?_, .inr ⟨x, rfl, h2, h3, ?_, ?_⟩⟩
        · rfl
        · simp [h4]
        · cases cur with
          | none => exact absurd rfl h5
          | some q => simp
      | succ k => exact ⟨w, rfl, by simpa using h⟩
  | openFile answer =>
    simp only [step, lastChosen]
    cases openFile read answer <;> exact ⟨w, rfl, h⟩

theorem lastChosen_cons (defaults : LauncherWindow.Name → P) (cur : Option (LauncherWindow.Name × P)) (a : Action P)
    (as : List (Action P)) : lastChosen defaults cur (a :: as) = lastChosen defaults (lastChosen defaults cur [a]) as := by
  cases a <;> rfl

theorem run_winOk (defaults : LauncherWindow.Name → P) (read : LauncherWindow.Name × LauncherWindow.Name → Except PyErr P)
    (as : List (Action P)) : ∀ (w : Win P) (cur : Option (LauncherWindow.Name × P)), WinOk w cur →
    ∃ w2, run defaults read w as = .ok w2 ∧ WinOk w2 (lastChosen defaults cur as) := by
  induction as with
  | nil => exact fun w cur h => ⟨w, rfl, h⟩
  | cons a as ih =>
    intro w cur h
    obtain ⟨w2, e, h2⟩ := step_winOk defaults read a w cur h
    obtain ⟨w3, e3, h3⟩ := ih w2 _ h2
    exact ⟨w3, by simp only [run, e, e3], by rw [lastChosen_cons]; exact h3⟩

/-- **C152**: after any sequence of choices, modifications and openings of files, no choice has failed, the window shows
one page (none before the first choice), which is that of the topology chosen last, with its default parameters and the
modifications done by the user since this choice; and these are the topology and the parameters which are run. -/
theorem C152_last_chosen_partial (defaults : LauncherWindow.Name → P)
    (read : LauncherWindow.Name × LauncherWindow.Name → Except PyErr P) (as : List (Action P)) :
    ∃ w, run defaults read init as = .ok w ∧ shown w = (lastChosen defaults none as).toList ∧
      toRun w = lastChosen defaults none as := by
  obtain ⟨w, e, h⟩ := run_winOk defaults read as init none winOk_init
  refine ⟨w, e, ?_, ?_⟩
  · rcases h.one with ⟨h1, -, h3⟩ | ⟨x, h1, -, -, h4, h5⟩
    · simp [shown, h.same, h1, h3]
    · unfold shown
      rw [h.same, h1]
      cases hc : lastChosen defaults none as with
      | none => exact absurd hc h5
      | some q => simp [h4, hc]
  · rcases h.one with ⟨-, h2, h3⟩ | ⟨x, -, -, h3, h4, -⟩
    · simp [toRun, h2, h3]
    · simp [toRun, h3, h4]

/-- **C152**: each entry of the menu shows the topology whose name it has. -/
theorem C152_entries (defaults : LauncherWindow.Name → P)
    (read : LauncherWindow.Name × LauncherWindow.Name → Except PyErr P) (as : List (Action P)) (i : Nat)
    (text : LauncherWindow.Name) (w w2 : Win P) (hw : run defaults read init as = .ok w)
    (hi : (w.menu.map (·.1))[i]? = some text) (h2 : run defaults read init (as ++ [.choose i]) = .ok w2) :
    shown w2 = [(text, defaults text)] := by
  obtain ⟨w', e, h⟩ := run_winOk defaults read as init none winOk_init
  rw [hw] at e
  cases e
  rw [h.menu, List.map_map] at hi
  have hid : (launcherEntries.map ((fun x : LauncherWindow.Name × LauncherWindow.Name => x.1) ∘ fun n => (n, n))) =
    launcherEntries := List.map_id'' (fun _ => rfl) _
  rw [hid] at hi
  obtain ⟨w3, e3, hs, -⟩ := C152_last_chosen_partial defaults read (as ++ [.choose i])
  rw [h2] at e3
  cases e3
  have happ : ∀ (l : List (Action P)) (cur : Option (LauncherWindow.Name × P)),
      lastChosen defaults cur (l ++ [.choose i]) = some (text, defaults text) := by
    intro l
    induction l with
    | nil => intro cur; simp [lastChosen, hi]
    | cons a l ih => intro cur; rw [List.cons_append, lastChosen_cons]; exact ih _
  rw [hs, happ]
  rfl

/-- **C152**, what is false: "File > Open" never shows the parameters of the file which is chosen; it fails for every file,
whether it can be read or not, and does nothing when the dialog is cancelled. -/
theorem C152_open_fails (read : LauncherWindow.Name × LauncherWindow.Name → Except PyErr P)
    (answer : LauncherWindow.Name × LauncherWindow.Name) :
    (answer ≠ ([], []) → ∃ e, openFile read answer = .error e) ∧
    (answer = ([], []) → openFile read answer = .ok ()) ∧
    ((∃ p, read answer = .ok p) → answer ≠ ([], []) → openFile read answer = .error .notImplementedError) ∧
    ∀ (defaults : LauncherWindow.Name → P) (w : Win P), step defaults read w (.openFile answer) = .ok w := by
  refine ⟨fun h => ?_, fun h => by simp [openFile, h], fun ⟨p, hp⟩ h => by simp [openFile, h, hp], fun d w => ?_⟩
  · simp only [openFile, if_neg h]
    cases read answer <;> exact ⟨_, rfl⟩
  · simp only [step]
    cases openFile read answer <;> rfl

/-- Two choices with modifications: the page of the first choice is no longer there, and its modifications are lost. -/
example : ∃ w, run (fun n => n.length) (fun _ => .ok 0) init
      [.edit 0 (· + 1), .choose 0, .edit 0 (· + 5), .choose 1, .openFile (['a'], []), .edit 0 (· * 2), .edit 1 (· + 7)] = .ok w ∧
    shown w = [("TopologyPIVLauncher".toList, 38)] ∧ w.next = 2 := by
  refine ⟨_, rfl, ?_, rfl⟩
  decide +kernel

/-- The hypotheses of `C152_entries` hold for both entries. -/
example : ∃ w : Win Nat, run (fun n => n.length) (fun _ => .ok 0) init [.choose 0] = .ok w ∧
    (w.menu.map (·.1))[1]? = some "TopologyPIVLauncher".toList ∧
    ∃ w2, run (fun n => n.length) (fun _ => .ok 0) init ([.choose 0] ++ [.choose 1]) = .ok w2 := by
  refine ⟨_, rfl, ?_, _, rfl⟩
  decide +kernel

end Verif
