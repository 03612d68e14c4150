import Verif.Model.Launch

/-!
# Launchers of topologies (C97) and execution of a parameter file (C98)
-/

namespace Verif
open Verif.Launch

variable {α : Type}

/-! ## Specification -/

/-- Keyword parameters with their default values. -/
def keyed (l : Kw α) : Sig α := l.map (fun p => (p.1, some p.2))

/-- A constructor `(self, params, k1=d1, …, kn=dn)`. -/
def initSig (l : Kw α) : Sig α := ("self".toList, none) :: ("params".toList, none) :: keyed l

/-- A method `(self, k1=d1, …, kn=dn)`. -/
def methodSig (l : Kw α) : Sig α := ("self".toList, none) :: keyed l

/-- Changes made by the user, one after the other. -/
def setAttrs (kw : Kw α) : List (Name × α) → Except PyErr (Kw α)
  | [] => .ok kw
  | (k, v) :: rest =>
    match setAttr kw k v with
    | .error e => .error e
    | .ok kw' => setAttrs kw' rest

/-! ## Lemmas -/

theorem keyed_names (l : Kw α) : argNames (keyed l) = l.map (·.1) := by
  simp [keyed, argNames, Function.comp_def]

theorem keyed_defaults (l : Kw α) : (keyed l).filterMap (·.2) = l.map (·.2) := by
  unfold keyed
  induction l with
  | nil => rfl
  | cons p l ih => simp [ih]

theorem launch_get_zip (keys : List Name) (values : List α) (hn : keys.Nodup) (i : Nat) (k : Name) (hk : keys[i]? = some k) :
    kwGet (keys.zip values) k = values[i]? := by
  induction keys generalizing values i with
  | nil => simp at hk
  | cons a keys ih =>
    obtain ⟨ha, hn⟩ := List.nodup_cons.1 hn
    cases values with
    | nil => simp [kwGet]
    | cons v values =>
      cases i with
      | zero =>
        simp only [List.getElem?_cons_zero, Option.some.injEq] at hk
        subst hk
        simp [kwGet]
      | succ i =>
        simp only [List.getElem?_cons_succ] at hk
        have hne : a ≠ k := fun e => ha (by rw [e]; exact List.mem_of_getElem? hk)
        have := ih values hn i hk
        unfold kwGet at this ⊢
        simp [hne, this]

theorem launch_get_self (kw : Kw α) (hn : (kw.map (·.1)).Nodup) (p : Name × α) (hp : p ∈ kw) : kwGet kw p.1 = some p.2 := by
  induction kw with
  | nil => cases hp
  | cons q kw ih =>
    obtain ⟨hq, hn⟩ := List.nodup_cons.1 hn
    rcases List.mem_cons.1 hp with rfl | hp
    · simp [kwGet]
    · have hne : q.1 ≠ p.1 := fun e => hq (by show q.1 ∈ _; rw [e]; exact List.mem_map_of_mem (f := (·.1)) hp)
      have := ih hn hp
      unfold kwGet at this ⊢
      simp [hne, this]

theorem bindAll_keyed (kw l : Kw α) :
    bindAll kw (keyed l) = .ok (l.map (fun p => (p.1, (kwGet kw p.1).getD p.2))) := by
  unfold keyed
  induction l with
  | nil => rfl
  | cons p l ih =>
    simp only [List.map_cons, bindAll, ih]
    cases h : kwGet kw p.1 <;> simp

theorem bind_keyed (kw l : Kw α) (h : ∀ p ∈ kw, p.1 ∈ l.map (·.1)) :
    bindCall (keyed l) kw = .ok (l.map (fun p => (p.1, (kwGet kw p.1).getD p.2))) := by
  unfold bindCall
  have h1 : (kw.all (fun p => (argNames (keyed l)).contains p.1)) = true := by
    rw [List.all_eq_true]
    intro p hp
    rw [keyed_names, List.contains_iff_mem]
    exact h p hp
  rw [if_pos h1, bindAll_keyed]

/-! ## Launchers -/

/-- C97: the parameters of a launcher can be changed one by one: only the given parameter changes, and a parameter which
does not exist is refused. -/
theorem C97_set (kw : Kw α) (hn : (kw.map (·.1)).Nodup) (k : Name) (v : α) :
    (k ∉ kw.map (·.1) → setAttr kw k v = .error .attributeError) ∧
    (k ∈ kw.map (·.1) → ∃ kw', setAttr kw k v = .ok kw' ∧ kw'.map (·.1) = kw.map (·.1) ∧ kwGet kw' k = some v ∧
      ∀ k', k' ≠ k → kwGet kw' k' = kwGet kw k') := by
  constructor
  · intro h
    unfold setAttr
    rw [if_neg (by simpa using h)]
  · intro h
    unfold setAttr
    rw [if_pos (by simpa using h)]
    refine ⟨_, rfl, ?_, ?_, ?_⟩
    · rw [List.map_map]
      refine List.map_congr_left fun p _ => ?_
      simp only [Function.comp]
      split <;> rfl
    · obtain ⟨p, hp, rfl⟩ := List.mem_map.1 h
      have hk : ((kw.map (fun q => if q.1 = p.1 then (q.1, v) else q)).map (·.1)).Nodup := by
        rw [List.map_map]
        have : ((fun x : Name × α => x.1) ∘ fun q => if q.1 = p.1 then (q.1, v) else q) = (·.1) := by
          funext q; simp only [Function.comp]; split <;> rfl
        rw [this]; exact hn
      exact launch_get_self _ hk (p.1, v) (List.mem_map.2 ⟨p, hp, by simp⟩)
    · intro k' hne
      clear h hn
      induction kw with
      | nil => rfl
      | cons q kw ih =>
        unfold kwGet at ih ⊢
        by_cases hq : q.1 = k
        · have h2 : k ≠ k' := fun e => hne e.symm
          simp only [List.map_cons, hq, if_true, List.find?_cons, h2, decide_false]
          exact ih
        · by_cases hq' : q.1 = k'
          · simp only [List.map_cons, hq', hne, if_false, List.find?_cons, decide_true]
          · simp only [List.map_cons, hq, if_false, List.find?_cons, hq', decide_false]
            exact ih

theorem setAttrs_keys (kw kw' : Kw α) (hn : (kw.map (·.1)).Nodup) (changes : List (Name × α))
    (h : setAttrs kw changes = .ok kw') : kw'.map (·.1) = kw.map (·.1) := by
  induction changes generalizing kw with
  | nil => cases h; rfl
  | cons c changes ih =>
    obtain ⟨k, v⟩ := c
    unfold setAttrs at h
    by_cases hk : k ∈ kw.map (·.1)
    · obtain ⟨kw1, h1, h2, _, _⟩ := (C97_set kw hn k v).2 hk
      rw [h1] at h
      rw [ih kw1 (by rw [h2]; exact hn) h, h2]
    · rw [(C97_set kw hn k v).1 hk] at h
      cases h

theorem offered_method (a : Name × α) (l : Kw α) : offered (methodSig (a :: l)) = .ok l := by
  unfold offered getArgs argDefaults
  have h1 : (methodSig (a :: l)).filterMap (·.2) = a.2 :: l.map (·.2) := by
    unfold methodSig
    rw [List.filterMap_cons_none rfl, keyed_defaults, List.map_cons]
  have h2 : argNames (methodSig (a :: l)) = "self".toList :: a.1 :: l.map (·.1) := by
    unfold methodSig
    show _ :: argNames (keyed (a :: l)) = _
    rw [keyed_names, List.map_cons]
  rw [h1, h2]
  simp only [List.drop_succ_cons, List.drop_zero]
  congr 1
  clear h1 h2
  induction l with
  | nil => rfl
  | cons p l ih => simp [ih]

/-- C97 (part): for a method `compute(self, k1=d1, k2=d2, …)`, the launcher offers `k2, …` with their default values, and
whatever the changes of the user, the method receives the values of the parameters.  Missing: the first parameter is
not offered (`C97_executor_fails`), and the parameters of the constructor (`C97_init_fails`). -/
theorem C97_compute_partial (a : Name × α) (l : Kw α) (hn : ((a :: l).map (·.1)).Nodup) :
    offered (methodSig (a :: l)) = .ok l ∧
    ∀ changes kw, setAttrs l changes = .ok kw → bindCall ((methodSig (a :: l)).drop 1) kw = .ok (a :: kw) := by
  refine ⟨offered_method a l, fun changes kw h => ?_⟩
  rw [List.map_cons, List.nodup_cons] at hn
  have hk := setAttrs_keys l kw hn.2 changes h
  have hd : (methodSig (a :: l)).drop 1 = keyed (a :: l) := rfl
  rw [hd, bind_keyed kw (a :: l)]
  · have hnk : (kw.map (·.1)).Nodup := by rw [hk]; exact hn.2
    have hka : kwGet kw a.1 = none := by
      unfold kwGet
      rw [Option.map_eq_none_iff, List.find?_eq_none]
      intro p hp e
      exact hn.1 (by rw [← hk]; exact List.mem_map.2 ⟨p, hp, by simpa using e⟩)
    rw [List.map_cons, hka]
    simp only [Option.getD_none]
    congr 1
    congr 1
    have key : ∀ (l kw' : Kw α), (∀ p ∈ kw', p ∈ kw) → kw'.map (·.1) = l.map (·.1) →
        l.map (fun p => (p.1, (kwGet kw p.1).getD p.2)) = kw' := by
      intro l
      induction l with
      | nil => intro kw' _ h; simp at h; simp [h]
      | cons p l ih =>
        intro kw' hsub h
        cases kw' with
        | nil => simp at h
        | cons q kw' =>
          simp only [List.map_cons, List.cons.injEq] at h ⊢
          refine ⟨?_, ih kw' (fun r hr => hsub r (by simp [hr])) h.2⟩
          rw [← h.1, launch_get_self kw hnk q (hsub q (by simp))]
          rfl
    exact key l kw (fun _ h => h) hk
  · intro p hp
    rw [List.map_cons]
    refine List.mem_cons_of_mem _ ?_
    rw [← hk]
    exact List.mem_map_of_mem (f := (·.1)) hp

/-- C97 is false for the first parameter of `compute`: it cannot be chosen with the parameters of the launcher, whatever
the user does. -/
theorem C97_first_fails (a : Name × α) (l : Kw α) (hn : ((a :: l).map (·.1)).Nodup) (changes : List (Name × α))
    (v : α) (kw : Kw α) (h : setAttrs l changes = .ok kw) :
    setAttr kw a.1 v = .error .attributeError ∧
    ∃ bound, bindCall ((methodSig (a :: l)).drop 1) kw = .ok bound ∧ kwGet bound a.1 = some a.2 := by
  have hk := setAttrs_keys l kw (List.nodup_cons.1 (by simpa using hn)).2 changes h
  refine ⟨(C97_set kw ?_ a.1 v).1 ?_, a :: kw, (C97_compute_partial a l hn).2 changes kw h, by simp [kwGet]⟩
  · rw [hk]; exact (List.nodup_cons.1 (by simpa using hn)).2
  · rw [hk]
    rw [List.map_cons, List.nodup_cons] at hn
    exact hn.1

/-- C97 is false for a method without default values: the launcher cannot be created (`TypeError`). -/
theorem C97_no_default_fails (s : Sig α) (h : ∀ p ∈ s, p.2 = none) : offered s = .error .typeError := by
  have e : s.filterMap (·.2) = [] := by
    rw [List.filterMap_eq_nil_iff]
    exact h
  unfold offered getArgs argDefaults
  rw [e]

/-- C97: what the constructor `(self, params, k1=d1, …, kn=dn)` of the topology receives from the launcher with its default
parameters: `k1` receives the default value of `k2`, `k2` the one of `k3`, …; only `kn`, which is not offered, receives its
own default value. -/
theorem C97_init (l : Kw α) (hne : l ≠ []) (hn : (l.map (·.1)).Nodup) :
    ∃ topo bound, offered (initSig l) = .ok topo ∧ bindCall ((initSig l).drop 2) topo = .ok bound ∧
      bound.map (·.1) = l.map (·.1) ∧
      ∀ (i : Nat) k d, l[i]? = some (k, d) →
        bound[i]? = some (k, ((l[i + 1]?).map (·.2)).getD d) ∧ (k ∈ topo.map (·.1) ↔ i + 1 < l.length) := by
  have h1 : (initSig l).filterMap (·.2) = l.map (·.2) := by
    unfold initSig
    rw [List.filterMap_cons_none rfl, List.filterMap_cons_none rfl, keyed_defaults]
  have h2 : argNames (initSig l) = "self".toList :: "params".toList :: l.map (·.1) := by
    unfold initSig
    show _ :: _ :: argNames (keyed l) = _
    rw [keyed_names]
  have hoff : offered (initSig l) = .ok ((l.map (·.1)).zip ((l.map (·.2)).drop 1)) := by
    unfold offered getArgs argDefaults
    rw [h1, h2]
    cases l with
    | nil => exact absurd rfl hne
    | cons p l => rfl
  have hd : (initSig l).drop 2 = keyed l := rfl
  have hkeys : ((l.map (·.1)).zip ((l.map (·.2)).drop 1)).map (·.1) = (l.map (·.1)).take (l.length - 1) := by
    have key : ∀ (a : List Name) (b : List α), b.length ≤ a.length → (a.zip b).map (·.1) = a.take b.length := by
      intro a
      induction a with
      | nil => intro b _; simp
      | cons x a ih =>
        intro b hb
        cases b with
        | nil => simp
        | cons y b => simp [ih b (by simpa using hb)]
    rw [key _ _ (by simp)]
    simp
  refine ⟨_, l.map (fun p => (p.1, (kwGet ((l.map (·.1)).zip ((l.map (·.2)).drop 1)) p.1).getD p.2)), hoff, ?_, ?_, ?_⟩
  · rw [hd, bind_keyed]
    intro p hp
    have : p.1 ∈ ((l.map (·.1)).zip ((l.map (·.2)).drop 1)).map (·.1) := List.mem_map_of_mem (f := (·.1)) hp
    rw [hkeys] at this
    exact List.mem_of_mem_take this
  · simp [Function.comp_def]
  · intro i k d hi
    have hki : (l.map (·.1))[i]? = some k := by rw [List.getElem?_map, hi]; rfl
    constructor
    · rw [List.getElem?_map, hi, Option.map_some]
      simp only
      rw [launch_get_zip _ _ hn i k hki, List.getElem?_drop, List.getElem?_map, Nat.add_comm 1 i]
    · rw [hkeys]
      constructor
      · intro hm
        obtain ⟨j, hj⟩ := List.getElem?_of_mem hm
        rw [List.getElem?_take] at hj
        split at hj
        · rename_i hlt
          have hji : j = i := by
            have e : (l.map (·.1))[j]? = (l.map (·.1))[i]? := by rw [hj, hki]
            have hjl : j < (l.map (·.1)).length := by
              rcases Nat.lt_or_ge j (l.map (·.1)).length with hc | hc
              · exact hc
              · rw [List.getElem?_eq_none hc] at hj
                cases hj
            exact (List.getElem?_inj hjl hn).1 e
          omega
        · cases hj
      · intro hlt
        refine List.mem_of_getElem? (i := i) ?_
        rw [List.getElem?_take, if_pos (by omega)]
        exact hki

/-- Values used in the signatures of the topologies. -/
inductive PyVal where
  | none
  | str (s : Name)
  | num (n : Nat)
  | bool (b : Bool)
deriving DecidableEq, Repr

/-- topologies/piv.py:80 and topologies/preproc.py:170-172 -/
def topologyInit : Kw PyVal := [("logging_level".toList, .str "info".toList), ("nb_max_workers".toList, .none)]

/-- topologies/base.py:336-344 (`sleep_time` in hundredths of a second) -/
def topologyCompute : Kw PyVal := [("executor".toList, .none), ("nb_max_workers".toList, .none), ("sleep_time".toList, .num 1),
  ("sequential".toList, .bool false), ("stop_if_error".toList, .bool false), ("kwargs_executor".toList, .none)]

/-- C97 is false for the constructors of the topologies PIV and preproc: with the default parameters of their launchers,
they are created with `logging_level=None`, although they use `"info"` without the launcher, and `nb_max_workers` is not
offered. -/
theorem C97_init_fails : ∃ topo comp bound, createDefaultParams (initSig topologyInit) (methodSig topologyCompute) =
      .ok (topo, comp) ∧
    launch (initSig topologyInit) (methodSig topologyCompute) topo comp = .ok bound ∧
    kwGet bound.1 "logging_level".toList = some .none ∧
    (bindCall (keyed topologyInit) []).toOption.bind (fun b => kwGet b "logging_level".toList) = some (.str "info".toList) ∧
    "nb_max_workers".toList ∉ topo.map (·.1) := by
  refine ⟨[("logging_level".toList, .none)], topologyCompute.tail, (topologyInit.map (fun p => (p.1, .none)), topologyCompute),
    ?_, ?_, ?_, ?_, ?_⟩ <;> decide

/-- C97: the executor cannot be chosen with a launcher. -/
theorem C97_executor_fails (changes : List (Name × PyVal)) (kw : Kw PyVal)
    (h : setAttrs topologyCompute.tail changes = .ok kw) (v : PyVal) :
    setAttr kw "executor".toList v = .error .attributeError ∧
    ∃ bound, bindCall ((methodSig topologyCompute).drop 1) kw = .ok bound ∧ kwGet bound "executor".toList = some .none :=
  C97_first_fails ("executor".toList, PyVal.none) topologyCompute.tail (by decide) changes v kw h

example : ∃ kw, setAttrs topologyCompute.tail [("sequential".toList, .bool true), ("nb_max_workers".toList, .num 3)] = .ok kw ∧
    (bindCall ((methodSig topologyCompute).drop 1) kw).toOption.bind (fun b => kwGet b "nb_max_workers".toList) =
      some (.num 3) := ⟨_, rfl, by decide⟩

/-! ## Parameter files -/

/-- C98: with the parameters of a class of fluidimage, exactly this class is used, with these parameters (where only
`saving.how` is replaced by the value of `--mode`, if it is given), and `compute` is called with `compute_kwargs`. -/
theorem C98_fluidimage (classes : Name → Name → Except PyErr (Sig α)) (actions : List Name)
    (uvmat : Except PyErr (Option α)) (mode : Option α) (module cls : Name) (how : α) (kwargs : Option (Kw α)) (d : Kw Name)
    (hp : kwGet d "program".toList = some "fluidimage".toList) (hm : kwGet d "module".toList = some module)
    (hc : kwGet d "class".toList = some cls) (l : Kw α) (hs : classes module cls = .ok (keyed l))
    (hk : ∀ p ∈ kwargs.getD [], p.1 ∈ l.map (·.1)) :
    ∃ bound, main classes actions uvmat mode ⟨none, .dict d, some how, kwargs⟩ =
        .ok ⟨module, cls, some (mode.getD how), bound⟩ ∧
      bound.map (·.1) = l.map (·.1) ∧
      ∀ (i : Nat) k v, l[i]? = some (k, v) → bound[i]? = some (k, (kwGet (kwargs.getD []) k).getD v) := by
  refine ⟨l.map (fun p => (p.1, (kwGet (kwargs.getD []) p.1).getD p.2)), ?_, by simp [Function.comp_def], ?_⟩
  · have h1 : ("fluidimage".toList = "uvmat".toList) = False := by simp
    simp only [main, program, valueTextGet, hp, hm, hc, hs, h1, if_false, if_true, runAction, bind_keyed _ _ hk]
    cases mode <;> rfl
  · intro i k v hi
    rw [List.getElem?_map, hi]
    rfl

/-- C98: an unknown argument for `compute` is an error. -/
theorem C98_unknown_argument (classes : Name → Name → Except PyErr (Sig α)) (actions : List Name)
    (uvmat : Except PyErr (Option α)) (mode : Option α) (module cls : Name) (how : Option α) (kwargs : Kw α) (d : Kw Name)
    (hp : kwGet d "program".toList = some "fluidimage".toList) (hm : kwGet d "module".toList = some module)
    (hc : kwGet d "class".toList = some cls) (s : Sig α) (hs : classes module cls = .ok s) (p : Name × α) (hk : p ∈ kwargs)
    (hu : p.1 ∉ s.map (·.1)) :
    main classes actions uvmat mode ⟨none, .dict d, how, some kwargs⟩ = .error .typeError := by
  have h1 : ("fluidimage".toList = "uvmat".toList) = False := by simp
  have h2 : bindCall s kwargs = .error .typeError := by
    unfold bindCall
    rw [if_neg]
    intro hall
    rw [List.all_eq_true] at hall
    have := hall p hk
    rw [List.contains_iff_mem] at this
    exact hu this
  simp only [main, program, valueTextGet, hp, hm, hc, hs, h1, if_false, if_true, runAction, Option.getD_some, h2]

/-- C98 is false for the launchers (the classes used by the graphical interface to write the files): their method
`compute` has no parameter, so that any `compute_kwargs` is an error. -/
theorem C98_launcher_fails (classes : Name → Name → Except PyErr (Sig α)) (actions : List Name)
    (uvmat : Except PyErr (Option α)) (mode : Option α) (module cls : Name) (how : Option α) (kwargs : Kw α) (d : Kw Name)
    (hp : kwGet d "program".toList = some "fluidimage".toList) (hm : kwGet d "module".toList = some module)
    (hc : kwGet d "class".toList = some cls) (hs : classes module cls = .ok []) (hne : kwargs ≠ []) :
    main classes actions uvmat mode ⟨none, .dict d, how, some kwargs⟩ = .error .typeError := by
  obtain ⟨p, hp'⟩ := List.exists_mem_of_ne_nil kwargs hne
  exact C98_unknown_argument classes actions uvmat mode module cls how kwargs d hp hm hc [] hs p hp' (by simp)

/-- C98: a file written by uvmat is recognised whatever its text, its action is executed if it is known, with the mode of
saving "recompute" (`how`) unless `--mode` is given, and an unknown action is an error. -/
theorem C98_uvmat (classes : Name → Name → Except PyErr (Sig α)) (actions : List Name) (how : α) (mode : Option α)
    (p : Params α) (action : Name) (ha : p.action = some action) :
    (action ∈ actions → main classes actions (.ok (some how)) mode p =
      .ok ⟨"fluidimage.uvmat".toList, action, some (mode.getD how), []⟩) ∧
    (action ∉ actions → main classes actions (.ok (some how)) mode p = .error .notImplementedError) := by
  have hp : program p = .ok (some "uvmat".toList) := by unfold program; rw [ha]
  unfold main
  rw [hp, ha]
  constructor
  · intro h
    have h' : actions.contains action = true := by rw [List.contains_iff_mem]; exact h
    show (if _ then _ else _) = _
    rw [if_pos rfl]
    show (if _ then _ else _) = _
    rw [if_pos h']
    cases mode <;> rfl
  · intro h
    have h' : ¬ actions.contains action = true := by rw [List.contains_iff_mem]; exact h
    show (if _ then _ else _) = _
    rw [if_pos rfl]
    show (if _ then _ else _) = _
    rw [if_neg h']

/-- C98: `--mode` changes the mode of saving of the parameters of the file; it is ignored if they have none. -/
theorem C98_mode (classes : Name → Name → Except PyErr (Sig α)) (actions : List Name) (uvmat : Except PyErr (Option α))
    (mode : Option α) (p : Params α) (hp : p.action = none) (r : Run α)
    (hr : main classes actions uvmat mode p = .ok r) :
    (p.how = none → r.how = none) ∧ (∀ m h, mode = some m → p.how = some h → r.how = some m) ∧
    (mode = none → r.how = p.how) := by
  have key : r.how = setMode mode p.how := by
    unfold main runAction at hr
    rw [hp] at hr
    repeat' (first | contradiction | split at hr)
    all_goals first | (cases hr; done) | (cases hr; rfl)
  rw [key]
  refine ⟨fun h => ?_, fun m h h1 h2 => ?_, fun h => ?_⟩
  · rw [h]; cases mode <;> rfl
  · rw [h1, h2]; rfl
  · rw [h]; rfl

/-- C98: nothing is executed if the program is not known; the error is a `ValueError`, except if the root of the file has
no text or a text which is not a dictionary (`C98_no_text_fails`). -/
theorem C98_unknown (classes : Name → Name → Except PyErr (Sig α)) (actions : List Name) (uvmat : Except PyErr (Option α))
    (mode : Option α) (p : Params α) (ha : p.action = none)
    (hv : p.valueText = .absent ∨ ∃ d, p.valueText = .dict d ∧
      ∀ t, kwGet d "program".toList = some t → t ≠ "uvmat".toList ∧ t ≠ "fluidimage".toList) :
    main classes actions uvmat mode p = .error .valueError := by
  rcases hv with hv | ⟨d, hv, ht⟩
  · simp only [main, program, ha, hv, valueTextGet]
  · cases hd : kwGet d "program".toList with
    | none => simp only [main, program, ha, hv, valueTextGet, hd]
    | some t =>
      obtain ⟨h1, h2⟩ := ht t hd
      simp only [main, program, ha, hv, valueTextGet, hd, h1, h2, if_false]

/-- C98 is false for such a file: the error is a `TypeError` which does not say what is wrong. -/
theorem C98_no_text_fails (classes : Name → Name → Except PyErr (Sig α)) (actions : List Name)
    (uvmat : Except PyErr (Option α)) (mode : Option α) (p : Params α) (ha : p.action = none)
    (hv : p.valueText = .none ∨ p.valueText = .text) : main classes actions uvmat mode p = .error .typeError := by
  rcases hv with hv | hv <;> simp only [main, program, ha, hv, valueTextGet]

/-- The parameters of a PIV topology saved in a file, executed with two workers and `--mode recompute`. -/
def runExample : Params PyVal :=
  ⟨none, .dict [("program".toList, "fluidimage".toList), ("module".toList, "fluidimage.topologies.piv".toList),
    ("class".toList, "TopologyPIV".toList)], some (.str "ask".toList), some [("nb_max_workers".toList, .num 2)]⟩

example : main (fun _ _ => .ok (keyed topologyCompute)) ["civ_series".toList] (.error .attributeError)
      (some (.str "recompute".toList)) runExample =
    .ok ⟨"fluidimage.topologies.piv".toList, "TopologyPIV".toList, some (.str "recompute".toList),
      ("executor".toList, .none) :: ("nb_max_workers".toList, .num 2) :: topologyCompute.drop 2⟩ := by decide

end Verif
