import Verif.Model.Plugins
import Mathlib.Tactic.SplitIfs

/-!
# C116: the executors of the installed packages are found by their names

Specification: `Declares` (what a package declares) and `NoInstall` / `NoReload` (histories).  The packages installed after a
history are given by `installedAfter`, which only looks at the events `install`.
-/

namespace Verif

open Plugins Session

namespace Plugins

/-- Exactly one of the installed packages declares the name `n`; it is for the module `m`. -/
def Declares (installed : List EntryPoint) (n m : List Char) : Prop :=
  ∃ a b, installed = a ++ ⟨n, m⟩ :: b ∧ (∀ e ∈ a, e.name ≠ n) ∧ (∀ e ∈ b, e.name ≠ n)

/-- The packages installed after a history. -/
def installedAfter (l : List EntryPoint) : List Event → List EntryPoint
  | [] => l
  | .install l' :: es => installedAfter l' es
  | _ :: es => installedAfter l es

/-- No package is installed or removed during this history. -/
def NoInstall (es : List Event) : Prop := ∀ l, Event.install l ∉ es

/-- `get_entry_points(reload=True)` is not called during this history. -/
def NoReload (es : List Event) : Prop := Event.entryPoints true ∉ es

end Plugins

/-! ## Lemmas -/

theorem getEntryPoints_installed (r : Bool) (s : State) : (getEntryPoints r s).1.installed = s.installed := by
  obtain ⟨i, c⟩ := s
  unfold getEntryPoints
  by_cases h : c = none ∨ r = true
  · simp only [h, if_true]
    split <;> rfl
  · simp only [h, if_false]
    cases c with
    | none => rfl
    | some l => dsimp only; split <;> rfl

theorem getEntryPoints_reload (s : State) : (getEntryPoints true s).1.cache = some s.installed := by
  obtain ⟨i, c⟩ := s
  simp only [getEntryPoints, or_true, if_true]
  split <;> rfl

theorem getEntryPoints_none (r : Bool) (i : List EntryPoint) :
    getEntryPoints r ⟨i, none⟩ = (⟨i, some i⟩, if i = [] then .error .runtimeError else .ok i) := by
  simp only [getEntryPoints, true_or, if_true]
  split <;> rfl

theorem getEntryPoints_some (i l : List EntryPoint) :
    getEntryPoints false ⟨i, some l⟩ = (⟨i, some l⟩, if l = [] then .error .runtimeError else .ok l) := by
  simp only [getEntryPoints, reduceCtorEq, Bool.false_eq_true, or_self, if_false]
  split <;> rfl

/-- The state after the first use of the functions without reload. -/
def Plugins.State.used (s : State) : State := ⟨s.installed, some (s.cache.getD s.installed)⟩

theorem getEntryPoints_false (s : State) :
    getEntryPoints false s = (s.used, if s.used.cache = some [] then .error .runtimeError
      else .ok (s.cache.getD s.installed)) := by
  obtain ⟨i, c⟩ := s
  cases c with
  | none => rw [getEntryPoints_none]; simp [State.used]
  | some l => rw [getEntryPoints_some]; simp [State.used]

theorem used_used (s : State) : s.used.used = s.used := rfl

theorem executorNames_eq (s : State) :
    executorNames s = (s.used, if s.used.cache = some [] then .error .runtimeError
      else .ok ((s.cache.getD s.installed).map EntryPoint.name)) := by
  unfold executorNames
  rw [getEntryPoints_false]
  split_ifs <;> rfl

theorem moduleFullname_state (n : List Char) (s : State) : (moduleFullname n s).1 = s.used := by
  unfold moduleFullname
  rw [getEntryPoints_false]
  split_ifs
  · rfl
  · dsimp only
    split <;> rfl

theorem importClass_state (x : Ext) (n : Name) (s : State) : (importClass x n s).1 = s ∨ (importClass x n s).1 = s.used := by
  cases n with
  | entryPoint e => exact .inl rfl
  | str n =>
    right
    have := moduleFullname_state n s
    unfold importClass
    dsimp only
    split <;> rename_i h <;> rw [h] at this <;> exact this

theorem computeClass_state (x : Ext) (linux : Bool) (a : ExecArg) (q : Bool) (p : Option Nat) (s : State) :
    (computeClass x linux a q p s).1 = s ∨ (computeClass x linux a q p s).1 = s.used := by
  unfold computeClass
  by_cases hq : q = true ∧ a ≠ .none ∧ a ≠ .name seqName
  · rw [if_pos hq]; exact .inl rfl
  · rw [if_neg hq]
    dsimp only
    generalize (if (if q then ExecArg.name seqName else a) = .none then
      .name ((supportedMulti linux).headD []) else if q then .name seqName else a) = b
    cases b with
    | none => exact .inl rfl
    | object e => cases p <;> exact .inl rfl
    | name n =>
      right
      dsimp only
      rw [executorNames_eq]
      by_cases h : s.used.cache = some []
      · simp only [h, if_true]
      · simp only [h, if_false]
        split_ifs
        · have := importClass_state x (.str n) s.used
          rw [used_used, or_self] at this
          rcases hi : importClass x (.str n) s.used with ⟨s', r⟩
          rw [hi] at this
          cases r <;> exact this
        · rfl

/-- What one event does: packages change, or the packages are read (again with a reload). -/
theorem step_cases (x : Ext) (linux : Bool) (s : State) (e : Event) :
    (∃ l, e = .install l ∧ step x linux s e = ⟨l, s.cache⟩) ∨
    (e = .entryPoints true ∧ step x linux s e = ⟨s.installed, some s.installed⟩) ∨
    ((∀ l, e ≠ .install l) ∧ e ≠ .entryPoints true ∧ (step x linux s e = s ∨ step x linux s e = s.used)) := by
  cases e with
  | install l => exact .inl ⟨l, rfl, rfl⟩
  | entryPoints r =>
    cases r with
    | true =>
      refine .inr (.inl ⟨rfl, ?_⟩)
      have h1 := getEntryPoints_installed true s
      have h2 := getEntryPoints_reload s
      simp only [step]
      generalize (getEntryPoints true s).1 = t at h1 h2
      obtain ⟨i, c⟩ := t
      dsimp only at h1 h2
      rw [h1, h2]
    | false =>
      refine .inr (.inr ⟨by simp, by simp, .inr ?_⟩)
      simp only [step, getEntryPoints_false]
  | names => exact .inr (.inr ⟨by simp, by simp, .inr (by simp only [step, executorNames_eq])⟩)
  | «import» n => exact .inr (.inr ⟨by simp, by simp, importClass_state x n s⟩)
  | compute a q p => exact .inr (.inr ⟨by simp, by simp, computeClass_state x linux a q p s⟩)

theorem run_append (x : Ext) (linux : Bool) (s : State) (a b : List Event) :
    Plugins.run x linux s (a ++ b) = Plugins.run x linux (Plugins.run x linux s a) b := by
  induction a generalizing s with
  | nil => rfl
  | cons e es ih => exact ih _

theorem run_installed (x : Ext) (linux : Bool) (s : State) (es : List Event) :
    (Plugins.run x linux s es).installed = installedAfter s.installed es := by
  induction es generalizing s with
  | nil => rfl
  | cons e es ih =>
    simp only [Plugins.run, ih]
    rcases step_cases x linux s e with ⟨l, rfl, h⟩ | ⟨rfl, h⟩ | ⟨hi, hr, h | h⟩
    · rw [h]; rfl
    · rw [h]; rfl
    · rw [h]; cases e <;> first | rfl | exact absurd rfl (hi _)
    · rw [h]; cases e <;> first | rfl | exact absurd rfl (hi _)

/-- What the functions see is what is installed. -/
def Plugins.State.Fresh (s : State) : Prop := s.cache.getD s.installed = s.installed

theorem run_fresh (x : Ext) (linux : Bool) (s : State) (es : List Event) (hs : s.Fresh) (h : NoInstall es) :
    (Plugins.run x linux s es).Fresh := by
  induction es generalizing s with
  | nil => exact hs
  | cons e es ih =>
    have h' : NoInstall es := fun l hl => h l (List.mem_cons_of_mem _ hl)
    refine ih _ ?_ h'
    rcases step_cases x linux s e with ⟨l, rfl, _⟩ | ⟨rfl, he⟩ | ⟨_, _, he | he⟩
    · exact absurd (List.mem_cons_self ..) (h l)
    · rw [he]; rfl
    · rw [he]; exact hs
    · rw [he]; exact hs

theorem run_cached (x : Ext) (linux : Bool) (s : State) (es : List Event) (l : List EntryPoint) (hs : s.cache = some l)
    (h : NoReload es) : (Plugins.run x linux s es).cache = some l := by
  induction es generalizing s with
  | nil => exact hs
  | cons e es ih =>
    have h' : NoReload es := fun hl => h (List.mem_cons_of_mem _ hl)
    refine ih _ ?_ h'
    rcases step_cases x linux s e with ⟨l', rfl, he⟩ | ⟨rfl, he⟩ | ⟨_, _, he | he⟩
    · rw [he]; exact hs
    · exact absurd (List.mem_cons_self ..) h
    · rw [he]; exact hs
    · rw [he]; simp only [State.used, hs, Option.getD_some]

theorem select_declares {l : List EntryPoint} {n m : List Char} (h : Declares l n m) : select n l = [⟨n, m⟩] := by
  obtain ⟨a, b, rfl, ha, hb⟩ := h
  have ha' : a.filter (fun e => e.name = n) = [] := by
    rw [List.filter_eq_nil_iff]; intro e he; simpa using ha e he
  have hb' : b.filter (fun e => e.name = n) = [] := by
    rw [List.filter_eq_nil_iff]; intro e he; simpa using hb e he
  simp [select, List.filter_append, ha', hb']

theorem declares_mem {l : List EntryPoint} {n m : List Char} (h : Declares l n m) : n ∈ l.map EntryPoint.name := by
  obtain ⟨a, b, rfl, _, _⟩ := h
  simp

theorem declares_ne_nil {l : List EntryPoint} {n m : List Char} (h : Declares l n m) : l ≠ [] := by
  obtain ⟨a, b, rfl, _, _⟩ := h
  simp

theorem fresh_start (i : List EntryPoint) : (start i).Fresh := rfl

/-- The histories after which the functions see what is installed: nothing was installed or removed after the start of the process
or after the last reload. -/
inductive Plugins.UpToDate : List Event → Prop where
  | start (es : List Event) (h : NoInstall es) : UpToDate es
  | reload (es es' : List Event) (h : NoInstall es') : UpToDate (es ++ .entryPoints true :: es')

theorem upToDate_fresh (x : Ext) (linux : Bool) (i : List EntryPoint) (es : List Event) (h : UpToDate es) :
    (Plugins.run x linux (start i) es).Fresh := by
  cases h with
  | start es h => exact run_fresh x linux _ es (fresh_start i) h
  | reload es es' h =>
    rw [run_append]
    refine run_fresh x linux _ es' ?_ h
    rcases step_cases x linux (Plugins.run x linux (start i) es) (.entryPoints true) with ⟨l, h, _⟩ | ⟨_, he⟩ | ⟨_, h, _⟩
    · cases h
    · rw [he]; rfl
    · exact absurd rfl h

theorem importClass_of_declares (x : Ext) (s : State) (hs : s.Fresh) (n m : List Char) (hd : Declares s.installed n m) :
    importClass x (.str n) s = (s.used, importExecutor x m) := by
  have hs' : s.cache.getD s.installed = s.installed := hs
  have hne : ¬ s.used.cache = some [] := by
    simp only [State.used, hs', Option.some.injEq]; exact declares_ne_nil hd
  simp only [importClass, moduleFullname, getEntryPoints_false, hne, if_false, hs', select_declares hd]

/-! ## C116 -/

/-- **C116** (use).  After any history at the end of which the list of packages is up to date, an executor declared by exactly one
installed package can be used by its name: the class `Executor` of the declared module is used, by `compute` and by
`import_executor_class`. -/
theorem C116_use_partial (x : Ext) (linux : Bool) (i : List EntryPoint) (es : List Event) (h : UpToDate es)
    (n m c : List Char) (hd : Declares (installedAfter i es) n m) (hm : x.importModule m = .ok ⟨some c⟩) (p : Option Nat) :
    (computeClass x linux (.name n) false p (Plugins.run x linux (start i) es)).2 = .ok (.class c) ∧
    (importClass x (.str n) (Plugins.run x linux (start i) es)).2 = .ok c := by
  have hf := upToDate_fresh x linux i es h
  have hi := run_installed x linux (start i) es
  change _ = installedAfter i es at hi
  generalize Plugins.run x linux (start i) es = s at hf hi
  rw [← hi] at hd
  have him := importClass_of_declares x s hf n m hd
  have hs' : s.cache.getD s.installed = s.installed := hf
  have hne : ¬ s.used.cache = some [] := by
    simp only [State.used, hs', Option.some.injEq]; exact declares_ne_nil hd
  have hfu : s.used.Fresh := by simp only [State.Fresh, State.used, Option.getD_some, hs']
  have him' := importClass_of_declares x s.used hfu n m hd
  constructor
  · simp only [computeClass, Bool.false_eq_true, false_and, if_false, reduceCtorEq, executorNames_eq, hne, hs',
      declares_mem hd, not_true_eq_false, him', importExecutor, hm]
  · rw [him]
    simp only [importExecutor, hm]

/-- **C116** (entry point).  `import_executor_class` also accepts an entry point: the module it declares is used, whatever is
installed. -/
theorem C116_entry_point (x : Ext) (s : State) (n m c : List Char) (hm : x.importModule m = .ok ⟨some c⟩) :
    importClass x (.entryPoint ⟨n, m⟩) s = (s, .ok c) := by
  simp only [importClass, importExecutor, hm]

/-- **C116** (errors).  A module which cannot be imported gives the exception of the import to the user; a module without
`Executor` gives an `AttributeError`; `sequential=True` with another executor is a `ValueError`. -/
theorem C116_errors (x : Ext) (linux : Bool) (i : List EntryPoint) (es : List Event) (h : UpToDate es)
    (n m : List Char) (hd : Declares (installedAfter i es) n m) (p : Option Nat) :
    (∀ e, x.importModule m = .error e →
      (computeClass x linux (.name n) false p (Plugins.run x linux (start i) es)).2 = .error e) ∧
    (x.importModule m = .ok ⟨none⟩ →
      (computeClass x linux (.name n) false p (Plugins.run x linux (start i) es)).2 = .error .attributeError) ∧
    (n ≠ "exec_sequential".toList →
      (computeClass x linux (.name n) true p (Plugins.run x linux (start i) es)).2 = .error .valueError) := by
  have hf := upToDate_fresh x linux i es h
  have hi := run_installed x linux (start i) es
  change _ = installedAfter i es at hi
  generalize Plugins.run x linux (start i) es = s at hf hi
  rw [← hi] at hd
  have hs' : s.cache.getD s.installed = s.installed := hf
  have hne : ¬ s.used.cache = some [] := by
    simp only [State.used, hs', Option.some.injEq]; exact declares_ne_nil hd
  have hfu : s.used.Fresh := by simp only [State.Fresh, State.used, Option.getD_some, hs']
  have him' := importClass_of_declares x s.used hfu n m hd
  refine ⟨?_, ?_, ?_⟩
  · intro e he
    simp only [computeClass, Bool.false_eq_true, false_and, if_false, reduceCtorEq, executorNames_eq, hne, hs',
      declares_mem hd, not_true_eq_false, him', importExecutor, he]
  · intro he
    simp only [computeClass, Bool.false_eq_true, false_and, if_false, reduceCtorEq, executorNames_eq, hne, hs',
      declares_mem hd, not_true_eq_false, him', importExecutor, he]
  · intro hn
    have : n ≠ seqName := hn
    simp only [computeClass, ne_eq, reduceCtorEq, not_false_eq_true, ExecArg.name.injEq, this, and_self, if_true]

/-- **C116** (default).  Without argument, the executor is `multi_exec_async` on Linux and `multi_exec_subproc` elsewhere; with
`sequential=True` it is `exec_sequential`: the same as giving the name. -/
theorem C116_default (x : Ext) (linux : Bool) (s : State) (p : Option Nat) :
    computeClass x linux .none false p s =
      computeClass x linux (.name (if linux then "multi_exec_async".toList else "multi_exec_subproc".toList)) false p s ∧
    computeClass x linux .none true p s = computeClass x linux (.name "exec_sequential".toList) false p s ∧
    computeClass x linux (.name "exec_sequential".toList) true p s =
      computeClass x linux (.name "exec_sequential".toList) false p s := by
  refine ⟨?_, ?_, ?_⟩
  · cases linux <;> rfl
  · rfl
  · have : seqName = "exec_sequential".toList := rfl
    simp only [computeClass, this, ne_eq, reduceCtorEq, not_false_eq_true, not_true_eq_false, and_false, if_false,
      Bool.false_eq_true, if_true]

/-- **C116** (names).  After any history at the end of which the list is up to date, the advertised names are the declared ones, and a
name which is not declared is refused: `NotImplementedError` by `compute`, `ValueError` by `import_executor_class`. -/
theorem C116_names (x : Ext) (linux : Bool) (i : List EntryPoint) (es : List Event) (h : UpToDate es)
    (hi : installedAfter i es ≠ []) :
    (∃ l, (executorNames (Plugins.run x linux (start i) es)).2 = .ok l ∧
      ∀ n, n ∈ l ↔ ∃ m, ⟨n, m⟩ ∈ installedAfter i es) ∧
    (∀ n, (∀ m, ⟨n, m⟩ ∉ installedAfter i es) → ∀ p,
      (computeClass x linux (.name n) false p (Plugins.run x linux (start i) es)).2 = .error .notImplementedError ∧
      (importClass x (.str n) (Plugins.run x linux (start i) es)).2 = .error .valueError) := by
  have hf := upToDate_fresh x linux i es h
  have hr := run_installed x linux (start i) es
  change _ = installedAfter i es at hr
  generalize Plugins.run x linux (start i) es = s at hf hr
  rw [← hr] at hi ⊢
  have hs' : s.cache.getD s.installed = s.installed := hf
  have hne : ¬ s.used.cache = some [] := by
    simp only [State.used, hs', Option.some.injEq]; exact hi
  have hmem : ∀ n, n ∈ s.installed.map EntryPoint.name ↔ ∃ m, ⟨n, m⟩ ∈ s.installed := by
    intro n
    rw [List.mem_map]
    constructor
    · rintro ⟨⟨n', m⟩, hm, rfl⟩; exact ⟨m, hm⟩
    · rintro ⟨m, hm⟩; exact ⟨_, hm, rfl⟩
  constructor
  · refine ⟨s.installed.map EntryPoint.name, ?_, hmem⟩
    rw [executorNames_eq]
    simp only [hne, if_false, hs']
  · intro n hn p
    have hnot : n ∉ s.installed.map EntryPoint.name := by
      rw [hmem]; rintro ⟨m, hm⟩; exact hn m hm
    have hsel : select n s.installed = [] := by
      rw [select, List.filter_eq_nil_iff]
      intro e he
      simp only [decide_eq_true_eq]
      rintro rfl
      exact hn e.value he
    constructor
    · simp only [computeClass, Bool.false_eq_true, false_and, if_false, reduceCtorEq, executorNames_eq, hne, hs', hnot,
        not_false_eq_true, if_true]
    · simp only [importClass, moduleFullname, getEntryPoints_false, hne, if_false, hs', hsel]

/-- **C116** (nothing installed).  When no package declares an executor, all the functions raise `RuntimeError`. -/
theorem C116_nothing (x : Ext) (linux : Bool) (i : List EntryPoint) (es : List Event) (h : UpToDate es)
    (hi : installedAfter i es = []) (n : List Char) (p : Option Nat) :
    (executorNames (Plugins.run x linux (start i) es)).2 = .error .runtimeError ∧
    (importClass x (.str n) (Plugins.run x linux (start i) es)).2 = .error .runtimeError ∧
    (computeClass x linux (.name n) false p (Plugins.run x linux (start i) es)).2 = .error .runtimeError := by
  have hf := upToDate_fresh x linux i es h
  have hr := run_installed x linux (start i) es
  change _ = installedAfter i es at hr
  generalize Plugins.run x linux (start i) es = s at hf hr
  have hs' : s.cache.getD s.installed = s.installed := hf
  have hne : s.used.cache = some [] := by
    simp only [State.used, hs', Option.some.injEq]
    rw [hr, hi]
  refine ⟨?_, ?_, ?_⟩
  · simp only [executorNames_eq, hne, if_true]
  · simp only [importClass, moduleFullname, getEntryPoints_false, hne, if_true]
  · simp only [computeClass, Bool.false_eq_true, false_and, if_false, reduceCtorEq, executorNames_eq, hne, if_true]

/-- **C116** fails for a name declared by two packages (a plugin which replaces an executor): instead of the warning which is
written in the code, there is a `NameError`, with `compute` also, whatever the modules are. -/
theorem C116_two_packages_fails (x : Ext) (linux : Bool) (a b c : List EntryPoint) (n m m' : List Char) (p : Option Nat) :
    (computeClass x linux (.name n) false p (start (a ++ ⟨n, m⟩ :: b ++ ⟨n, m'⟩ :: c))).2 = .error .nameError ∧
    (importClass x (.str n) (start (a ++ ⟨n, m⟩ :: b ++ ⟨n, m'⟩ :: c))).2 = .error .nameError := by
  generalize hl : a ++ ⟨n, m⟩ :: b ++ ⟨n, m'⟩ :: c = l
  have hne : ¬ (start l).used.cache = some [] := by
    subst hl; simp [State.used, start]
  have hne' : ¬ (start l).used.used.cache = some [] := hne
  have hmem : n ∈ l.map EntryPoint.name := by subst hl; simp
  have hsel : ∃ e e' r, select n l = e :: e' :: r := by
    have h2 : 2 ≤ (select n l).length := by
      subst hl
      simp only [select, List.filter_append, List.length_append, List.filter_cons, decide_true, if_true,
        List.length_cons, List.cons_append]
      omega
    match hh : select n l, h2 with
    | e :: e' :: r, _ => exact ⟨e, e', r, rfl⟩
  obtain ⟨e, e', r, hsel⟩ := hsel
  have hg : (start l).cache.getD (start l).installed = l := rfl
  have hg' : (start l).used.cache.getD (start l).used.installed = l := rfl
  constructor
  · simp only [computeClass, Bool.false_eq_true, false_and, if_false, reduceCtorEq, executorNames_eq, hne, hg, hmem,
      not_true_eq_false, importClass, moduleFullname, getEntryPoints_false, hne', hg', hsel]
  · simp only [importClass, moduleFullname, getEntryPoints_false, hne, if_false, hg, hsel]

/-- **C116** fails for a package installed after the first use: as long as `reload=True` is not given (`compute` never gives it), the
answer is the one for the packages at the first use. -/
theorem C116_stale_fails (x : Ext) (linux : Bool) (i : List EntryPoint) (es : List Event) (h : NoReload es) (n : List Char)
    (hi : i ≠ []) (hn : ∀ m, ⟨n, m⟩ ∉ i) (p : Option Nat) :
    (computeClass x linux (.name n) false p (Plugins.run x linux (start i) (.names :: es))).2 =
      .error .notImplementedError := by
  have hc : (Plugins.run x linux (start i) (.names :: es)).cache = some i := by
    refine run_cached x linux _ es i ?_ h
    simp only [step, executorNames_eq]
    rfl
  generalize Plugins.run x linux (start i) (.names :: es) = s at hc
  have hne : ¬ s.used.cache = some [] := by
    simp only [State.used, hc, Option.getD_some, Option.some.injEq]; exact hi
  have hnot : n ∉ (s.cache.getD s.installed).map EntryPoint.name := by
    rw [hc, Option.getD_some, List.mem_map]
    rintro ⟨⟨n', m⟩, hm, rfl⟩
    exact hn m hm
  simp only [computeClass, Bool.false_eq_true, false_and, if_false, reduceCtorEq, executorNames_eq, hne, hnot,
    not_false_eq_true, if_true]

/-- The classes which the names of fluidimage stand for: the documentation of `executors/__init__.py` 17-29, with the name
`exec_async_multi` for `exec_async_multiproc`. -/
def Plugins.documented : List (String × String) :=
  [("exec_sequential", "ExecutorSequential"), ("exec_async", "ExecutorAsync"),
   ("exec_async_sequential", "ExecutorAsyncSequential"), ("multi_exec_async", "MultiExecutorAsync"),
   ("multi_exec_sync", "MultiExecutorSync"), ("multi_exec_subproc", "MultiExecutorSubproc"),
   ("multi_exec_subproc_sync", "MultiExecutorSubprocSync"), ("exec_async_seq_for_multi", "ExecutorAsyncSeqForMulti"),
   ("exec_seq_for_multi", "ExecutorSeqForMulti"), ("exec_async_multi", "ExecutorAsyncMultiproc"),
   ("exec_async_servers", "ExecutorAsyncServers"), ("exec_async_servers_threading", "ExecutorAsyncServersThreading")]

/-- `importlib.import_module` when the modules of fluidimage can be imported. -/
def Plugins.Importable (x : Ext) : Prop := ∀ p ∈ modules, x.importModule p.1 = .ok ⟨some p.2⟩

/-- Decidable form of `Declares`. -/
theorem declares_of_filter {l : List EntryPoint} {n m : List Char} (h : l.filter (fun e => e.name = n) = [⟨n, m⟩]) :
    Declares l n m := by
  induction l with
  | nil => cases h
  | cons e l ih =>
    by_cases he : e.name = n
    · rw [List.filter_cons_of_pos (by simpa using he)] at h
      injection h with h1 h2
      subst h1
      refine ⟨[], l, rfl, by simp, ?_⟩
      rw [List.filter_eq_nil_iff] at h2
      intro e' he' hn
      exact h2 e' he' (by simpa using hn)
    · rw [List.filter_cons_of_neg (by simpa using he)] at h
      obtain ⟨a, b, rfl, ha, hb⟩ := ih h
      refine ⟨e :: a, b, rfl, ?_, hb⟩
      intro e' he'
      rcases List.mem_cons.mp he' with rfl | he'
      · exact he
      · exact ha e' he'

theorem builtin_documented : ∀ d ∈ documented, ∃ m, (m, d.2.toList) ∈ modules ∧
    builtin.filter (fun e => e.name = d.1.toList) = [⟨d.1.toList, m⟩] := by
  have key : ∀ d ∈ documented, ∃ p ∈ modules, p.2 = d.2.toList ∧
      builtin.filter (fun e => e.name = d.1.toList) = [⟨d.1.toList, p.1⟩] := by decide +kernel
  intro d hd
  obtain ⟨p, hp, h2, hb⟩ := key d hd
  exact ⟨p.1, by rw [← h2]; exact hp, hb⟩

/-- **C116** (fluidimage alone or with other packages).  Whatever the other packages are, if they do not declare again a name of
fluidimage, each documented name gives its documented class; so do the defaults on every system. -/
theorem C116_builtin (x : Ext) (hx : Importable x) (linux : Bool) (a b : List EntryPoint) (es : List Event)
    (h : UpToDate es) (p : Option Nat) (i : List EntryPoint) (hl : installedAfter i es = a ++ builtin ++ b)
    (ha : ∀ d ∈ documented, ∀ e ∈ a ++ b, e.name ≠ d.1.toList) :
    (∀ d ∈ documented, (computeClass x linux (.name d.1.toList) false p (Plugins.run x linux (start i) es)).2 =
      .ok (.class d.2.toList)) ∧
    (computeClass x linux .none false p (Plugins.run x linux (start i) es)).2 =
      .ok (.class (if linux then "MultiExecutorAsync".toList else "MultiExecutorSubproc".toList)) ∧
    (computeClass x linux .none true p (Plugins.run x linux (start i) es)).2 = .ok (.class "ExecutorSequential".toList) := by
  have main : ∀ d ∈ documented, (computeClass x linux (.name d.1.toList) false p (Plugins.run x linux (start i) es)).2 =
      .ok (.class d.2.toList) := by
    intro d hd
    obtain ⟨m, hm, hb⟩ := builtin_documented d hd
    have hdec : Declares (installedAfter i es) d.1.toList m := by
      rw [hl]
      apply declares_of_filter
      have h1 : a.filter (fun e => e.name = d.1.toList) = [] := by
        rw [List.filter_eq_nil_iff]; intro e he; simpa using ha d hd e (List.mem_append_left _ he)
      have h2 : b.filter (fun e => e.name = d.1.toList) = [] := by
        rw [List.filter_eq_nil_iff]; intro e he; simpa using ha d hd e (List.mem_append_right _ he)
      rw [List.filter_append, List.filter_append, h1, h2, hb]
      rfl
    exact (C116_use_partial x linux i es h d.1.toList m d.2.toList hdec (hx _ hm) p).1
  refine ⟨main, ?_, ?_⟩
  · rw [(C116_default x linux _ p).1]
    cases linux
    · exact main ("multi_exec_subproc", "MultiExecutorSubproc") (by decide +kernel)
    · exact main ("multi_exec_async", "MultiExecutorAsync") (by decide +kernel)
  · rw [(C116_default x linux _ p).2.1]
    exact main ("exec_sequential", "ExecutorSequential") (by decide +kernel)

/-! ## Cases -/

/-- A package which adds the executor `gpu`. -/
def Plugins.demoPlugin : EntryPoint := ⟨"gpu".toList, "mypackage.gpu".toList⟩

/-- The modules of fluidimage and of the package. -/
def Plugins.demoExt : Ext where
  importModule m :=
    if m = "mypackage.gpu".toList then .ok ⟨some "ExecutorGpu".toList⟩
    else match modules.find? (fun p => p.1 = m) with
      | some p => .ok ⟨some p.2⟩
      | none => .error .osError

theorem demoExt_importable : Importable demoExt := by
  unfold Importable; decide +kernel

/-- The hypotheses of `C116_use_partial` for a plugin installed during the session, with a reload. -/
example : (computeClass demoExt true (.name "gpu".toList) false none
    (Plugins.run demoExt true (start builtin)
      ([.names, .install (builtin ++ [demoPlugin])] ++ .entryPoints true :: [.compute .none false none]))).2 =
    .ok (.class "ExecutorGpu".toList) :=
  (C116_use_partial demoExt true builtin _ (.reload _ _ (by intro l; simp)) "gpu".toList "mypackage.gpu".toList
    "ExecutorGpu".toList (declares_of_filter (by decide +kernel)) (by decide +kernel) none).1

/-- The same without the reload: refused. -/
example : (computeClass demoExt true (.name "gpu".toList) false none
    (Plugins.run demoExt true (start builtin) (.names :: [.install (builtin ++ [demoPlugin])]))).2 =
    .error .notImplementedError :=
  C116_stale_fails demoExt true builtin _ (by simp [NoReload]) "gpu".toList (by decide +kernel)
    (by
      intro m hm
      have : "gpu".toList ∈ builtin.map EntryPoint.name := List.mem_map.mpr ⟨_, hm, rfl⟩
      exact absurd this (by decide +kernel)) none

/-- The hypotheses of `C116_builtin` with the plugin. -/
example : (computeClass demoExt false .none false none
    (Plugins.run demoExt false (start (builtin ++ [demoPlugin])) [.names])).2 =
    .ok (.class "MultiExecutorSubproc".toList) :=
  (C116_builtin demoExt demoExt_importable false [] [demoPlugin] [.names] (.start _ (by intro l; simp)) none
    (builtin ++ [demoPlugin]) rfl (by decide +kernel)).2.1

/-- The hypotheses of `C116_names` and `C116_nothing`. -/
example : (importClass demoExt (.str "unknown".toList) (start builtin)).2 = .error .valueError ∧
    (executorNames (start [])).2 = .error .runtimeError :=
  ⟨((C116_names demoExt true builtin [] (.start _ (by intro l; simp)) (by decide +kernel)).2 "unknown".toList
    (by
      intro m hm
      have : "unknown".toList ∈ builtin.map EntryPoint.name := List.mem_map.mpr ⟨_, hm, rfl⟩
      exact absurd this (by decide +kernel)) none).2,
   (C116_nothing demoExt true [] [] (.start _ (by intro l; simp)) rfl [] none).1⟩

/-- A plugin which replaces `exec_async`. -/
example : (computeClass demoExt true (.name "exec_async".toList) false none
    (start (builtin ++ [⟨"exec_async".toList, "mypackage.gpu".toList⟩]))).2 = .error .nameError := by
  decide +kernel

end Verif
