import Verif.Model.Im2Im
import Verif.Props.Executors

/-!
# User-defined image-to-image functions (C95)
-/

namespace Verif
open Verif.Im2Im Verif.Exec Verif.Spec Verif.ResultsFiles

/-! ## Specification -/

/-- A function written for the documented argument: it unpacks `path, image` and uses a text and an image; it raises for
any other argument (here `TypeError`). -/
def documented {α : Type} (g : List Char → α → Except PyErr α) : Fun α
  | .pair (.text path) (.image a) =>
    match g path a with
    | .error e => .error e
    | .ok r => .ok (.image r)
  | _ => .error .typeError

/-- The images saved during a run, with the names of the files: one for each call of the last work. -/
def im2imSaved {α : Type} (log : List (Event (List Char) (Obj α) PyErr)) : List (List Char × Obj α) :=
  log.filterMap (fun e => match e with
    | .call 2 k v => some (pathName k, v)
    | _ => none)

/-- What has to be saved: for each image which can be read and processed, the file of the same name with the output of
the function for this name and this image. -/
def im2imExpected {α : Type} (imread : List Char → Except PyErr α) (f : Fun α) (dir : List Char)
    (names : List (List Char)) : List (List Char × Obj α) :=
  names.filterMap (fun n =>
    match imread (dir ++ ['/'] ++ n) with
    | .error _ => none
    | .ok a =>
      match f (.pair (.text n) (.image a)) with
      | .error _ => none
      | .ok r => some (n, r))

/-! ## The function -/

theorem takeWhile_dot (s rest : List Char) (h : '.' ∉ s) :
    (s ++ '.' :: rest).takeWhile (fun c => decide (c ≠ '.')) = s ∧
    (s ++ '.' :: rest).dropWhile (fun c => decide (c ≠ '.')) = '.' :: rest := by
  induction s with
  | nil => simp
  | cons c s ih =>
    simp only [List.mem_cons, not_or] at h
    obtain ⟨h1, h2⟩ := ih h.2
    have hc : c ≠ '.' := fun e => h.1 e.symm
    rw [List.cons_append, List.takeWhile_cons, List.dropWhile_cons]
    simp only [hc, ne_eq, not_false_eq_true, decide_true, if_true]
    exact ⟨by rw [h1], h2⟩

/-- C95: a string is cut at its last dot: what is before is the module, what is after the name. -/
theorem C95_string (package name : List Char) (h : '.' ∉ name) :
    rsplitDot (package ++ ['.'] ++ name) = .ok (package, name) := by
  have hr : (package ++ ['.'] ++ name).reverse = name.reverse ++ '.' :: package.reverse := by simp
  obtain ⟨h1, h2⟩ := takeWhile_dot name.reverse package.reverse (by simpa using h)
  unfold rsplitDot
  rw [hr, h2, h1]
  simp

/-- C95: a string without dot is an error. -/
theorem C95_string_no_dot (s : List Char) (h : '.' ∉ s) : rsplitDot s = .error .valueError := by
  have : s.reverse.dropWhile (fun c => decide (c ≠ '.')) = [] := by
    have key : ∀ l : List Char, '.' ∉ l → l.dropWhile (fun c => decide (c ≠ '.')) = [] := by
      intro l hl
      induction l with
      | nil => rfl
      | cons c l ih =>
        simp only [List.mem_cons, not_or] at hl
        have hc : c ≠ '.' := fun e => hl.1 e.symm
        rw [List.dropWhile_cons]
        simp only [hc, ne_eq, not_false_eq_true, decide_true, if_true]
        exact ih hl.2
    exact key _ (by simpa using h)
  unfold rsplitDot
  rw [this]

/-- C95: the function used is the function given, or the method `calcul` of the object created with the class and the
arguments given; it is the same if the function or the class is given by its name. -/
theorem C95_function {α : Type} (importClass : List Char → List Char → Except PyErr (Val α)) (args : List (Obj α))
    (f : Fun α) (new : List (Obj α) → Except PyErr (Option (Fun α))) (hnew : new args = .ok (some f))
    (package name : List Char) (h : '.' ∉ name) (v : Val α) (hv : importClass package name = .ok v) :
    initFunction importClass args (.val (.func f)) = .ok f ∧
    initFunction importClass args (.val (.cls new)) = .ok f ∧
    initFunction importClass args (.str (package ++ ['.'] ++ name)) = initFunction importClass args (.val v) := by
  refine ⟨rfl, by simp [initFunction, functionOf, hnew], ?_⟩
  simp only [initFunction, C95_string package name h, hv]

/-- C95 is false for callable objects which are neither functions nor classes (built-in functions, bound methods,
`functools.partial`, instances with `__call__`), given directly or by name: `UnboundLocalError`. -/
theorem C95_callable_fails {α : Type} (importClass : List Char → List Char → Except PyErr (Val α)) (args : List (Obj α))
    (package name : List Char) (h : '.' ∉ name) (hv : importClass package name = .ok .other) :
    initFunction importClass args (.val .other) = .error .unboundLocalError ∧
    initFunction importClass args (.str (package ++ ['.'] ++ name)) = .error .unboundLocalError := by
  refine ⟨rfl, ?_⟩
  simp only [initFunction, C95_string package name h, hv, functionOf]

/-! ## `apply_im2im_filter` -/

theorem applyLoop_ok {α : Type} (f : Fun α) (serie : List (List Char × α)) (acc : Filtered α) (g : List Char × α → Obj α)
    (h : ∀ p ∈ serie, f (.pair (.text p.1) (.image p.2)) = .ok (g p)) :
    applyLoop f serie acc = .ok ⟨acc.names ++ serie.map (fun p => pathName p.1), acc.arrays ++ serie.map g,
      acc.paths ++ serie.map (·.1)⟩ := by
  induction serie generalizing acc with
  | nil => simp [applyLoop]
  | cons p serie ih =>
    obtain ⟨path, arr⟩ := p
    simp only [applyLoop, h (path, arr) (by simp)]
    rw [ih _ (fun q hq => h q (by simp [hq]))]
    simp

/-- C95: for every serie, the k-th array returned by `apply_im2im_filter` is the output of the function for the k-th path
and the k-th image, and comes with this path and the name of this file. -/
theorem C95_apply {α : Type} (importClass : List Char → List Char → Except PyErr (Val α)) (args : List (Obj α))
    (serie : List (List Char × α)) (p : Param α) (f : Fun α) (hf : initFunction importClass args p = .ok f)
    (g : List Char × α → Obj α) (h : ∀ q ∈ serie, f (.pair (.text q.1) (.image q.2)) = .ok (g q)) :
    ∃ r, applyFilter importClass args serie (some p) = .ok (some r) ∧
      r.arrays.length = serie.length ∧ r.names.length = serie.length ∧ r.paths.length = serie.length ∧
      ∀ (k : Nat) path arr, serie[k]? = some (path, arr) →
        r.arrays[k]? = some (g (path, arr)) ∧ r.names[k]? = some (pathName path) ∧ r.paths[k]? = some path := by
  refine ⟨(⟨serie.map (fun p => pathName p.1), serie.map g, serie.map (·.1)⟩ : Filtered α),
    by simp only [applyFilter, hf, applyLoop_ok f serie ⟨[], [], []⟩ g h, List.nil_append], by simp, by simp, by simp, ?_⟩
  intro k path arr hk
  simp [hk]

/-- C95: an error of the function is the error of `apply_im2im_filter`, and it is the one of the first image for which
the function raises. -/
theorem C95_apply_error {α : Type} (importClass : List Char → List Char → Except PyErr (Val α)) (args : List (Obj α))
    (before after : List (List Char × α)) (path : List Char) (arr : α) (p : Param α) (f : Fun α)
    (hf : initFunction importClass args p = .ok f)
    (g : List Char × α → Obj α) (h : ∀ q ∈ before, f (.pair (.text q.1) (.image q.2)) = .ok (g q)) (e : PyErr)
    (he : f (.pair (.text path) (.image arr)) = .error e) :
    applyFilter importClass args (before ++ (path, arr) :: after) (some p) = .error e := by
  have key : ∀ acc, applyLoop f (before ++ (path, arr) :: after) acc = .error e := by
    intro acc
    induction before generalizing acc with
    | nil => simp [applyLoop, he]
    | cons q before ih =>
      obtain ⟨qp, qa⟩ := q
      simp only [List.cons_append, applyLoop, h (qp, qa) (by simp)]
      exact ih (fun q hq => h q (by simp [hq])) _
  simp only [applyFilter, hf, key]

/-- C95: without function, the serie is returned unchanged. -/
theorem C95_apply_none {α : Type} (importClass : List Char → List Char → Except PyErr (Val α)) (args : List (Obj α))
    (serie : List (List Char × α)) : applyFilter importClass args serie none = .ok none := rfl

/-! ## The methods of the work -/

/-- C95: `display` gives to the function the name and the image. -/
theorem C95_display {α : Type} (f : Fun α) (serie : List (List Char × α)) (i : Nat) (name : List Char) (arr : α)
    (h : serie[i]? = some (name, arr)) : displayOutput f serie i = f (.pair (.text name) (.image arr)) := by
  simp [displayOutput, tupleImageName, h]

/-- C95 is false for `process_1_image`: the function is called with the image first and the name second, so every
function written for the documented argument raises, for every image. -/
theorem C95_process_1_image_fails {α : Type} (g : List Char → α → Except PyErr α) (serie : List (List Char × α)) (i : Nat)
    (name : List Char) (arr : α) (h : serie[i]? = some (name, arr)) :
    (∀ f : Fun α, processOne f serie i = f (.pair (.image arr) (.text name))) ∧
    processOne (documented g) serie i = .error .typeError := by
  constructor
  · intro f; simp [processOne, tupleImageName, h]
  · simp [processOne, tupleImageName, h, documented]

/-- C95 is false in the topology for BOS: the function receives the name and the couple (image, name), so every function
written for the documented argument raises. -/
theorem C95_bos_argument_fails {α : Type} (g : List Char → α → Except PyErr α) (imread : List Char → Except PyErr α)
    (name path : List Char) (v : Obj α) (h : readWorkBos imread name (.text path) = .ok v) :
    im2imWork (documented g) name v = .error .typeError := by
  unfold readWorkBos at h
  simp only at h
  split at h
  · cases h
  · cases h; rfl

/-! ## The topology -/

theorem queuePaths_get {α : Type} (dir : List Char) (names : List (List Char)) (hn : names.Nodup) :
    Dict.KeysUnique (queuePaths (α := α) dir names) := by
  unfold Dict.KeysUnique queuePaths Dict.keys
  simpa [Function.comp_def] using hn

theorem im2imSaved_item {α : Type} (imread : List Char → Except PyErr α) (f : Fun α)
    (imsave : List Char → Obj α → Except PyErr Unit) (dir n : List Char) (hn : pathName n = n) :
    im2imSaved (itemEvents n 0 (works imread f imsave) (.ok (.text (dir ++ ['/'] ++ n)))) =
      im2imExpected imread f dir [n] := by
  unfold works im2imExpected
  simp only [List.filterMap_cons, List.filterMap_nil]
  cases h1 : imread (dir ++ ['/'] ++ n) with
  | error e =>
    have h1' : readWork imread n (.text (dir ++ ['/'] ++ n)) = .error e := by simp only [readWork, h1]
    simp only [itemEvents, h1', List.cons_ne_nil, if_true, if_false]
    simp [im2imSaved]
  | ok a =>
    have h1' : readWork imread n (.text (dir ++ ['/'] ++ n)) = .ok (.image a) := by simp only [readWork, h1]
    cases h2 : f (.pair (.text n) (.image a)) with
    | error e =>
      have h2' : im2imWork f n (.image a) = .error e := h2
      simp only [itemEvents, h1', h2', if_true]
      simp [im2imSaved, h2]
    | ok r =>
      have h2' : im2imWork f n (.image a) = .ok r := h2
      simp only [itemEvents, h1', h2']
      cases h3 : imsave (pathName n) r <;> simp [im2imSaved, hn, h2]

theorem im2imSaved_all {α : Type} (imread : List Char → Except PyErr α) (f : Fun α)
    (imsave : List Char → Obj α → Except PyErr Unit) (dir : List Char) (names : List (List Char))
    (hn : ∀ n ∈ names, pathName n = n) :
    im2imSaved (allEvents (works imread f imsave) (queuePaths dir names)) = im2imExpected imread f dir names := by
  induction names with
  | nil => rfl
  | cons n names ih =>
    have h1 := im2imSaved_item imread f imsave dir n (hn n (by simp))
    have h2 := ih (fun m hm => hn m (by simp [hm]))
    unfold allEvents queuePaths at h2 ⊢
    rw [List.map_cons, List.flatMap_cons]
    have h3 : ∀ a b : List (Event (List Char) (Obj α) PyErr), im2imSaved (a ++ b) = im2imSaved a ++ im2imSaved b :=
      fun a b => List.filterMap_append
    rw [h3, h2]
    have h4 : im2imExpected imread f dir (n :: names) =
        im2imExpected imread f dir [n] ++ im2imExpected imread f dir names := by
      unfold im2imExpected
      rw [← List.filterMap_append]
      rfl
    rw [h4]
    congr 1

/-- C95: with the asynchronous executor, whatever the schedule and the limits, when the execution of the topology
`TopologyImage2Image` stops, what has been saved is, for each image which can be read and processed, exactly one file,
with the name of this image and the output of the function for this name and this image. -/
theorem C95_topology_async {α : Type} (imread : List Char → Except PyErr α) (f : Fun α)
    (imsave : List Char → Obj α → Except PyErr Unit) (dir : List Char) (names : List (List Char)) (hnd : names.Nodup)
    (hn : ∀ n ∈ names, pathName n = n) (c : Cfg) (ls : List Label) (s : AState (List Char) (Obj α) PyErr Unit)
    (hrun : ARun (chain (works imread f imsave)) c (AState.init (startQueues (queuePaths dir names)) ()) ls s)
    (hstop : s.stop = true) : (im2imSaved s.log).Perm (im2imExpected imread f dir names) := by
  obtain ⟨_, _, hp⟩ := C10_async_schedule _ (by simp [works]) _ (queuePaths_get dir names hnd) c ls s hrun hstop
  have := hp.filterMap (fun e => match e with
    | Event.call 2 k v => some (pathName k, v)
    | _ => none)
  rw [← im2imSaved_all imread f imsave dir names hn]
  exact this

/-- C95: the same with the sequential executor, which always ends. -/
theorem C95_topology_sequential {α : Type} (imread : List Char → Except PyErr α) (f : Fun α)
    (imsave : List Char → Obj α → Except PyErr Unit) (dir : List Char) (names : List (List Char)) (hnd : names.Nodup)
    (hn : ∀ n ∈ names, pathName n = n) (c : Cfg) (hc : c.stopIfError = false) :
    ∃ m s, seqLoop (chain (works imread f imsave)) c m (SState.init (startQueues (queuePaths dir names)) ()) = some s ∧
      (im2imSaved s.log).Perm (im2imExpected imread f dir names) := by
  obtain ⟨m, s, h1, _, _, _, _, hp⟩ := C09_sequential_chain (works imread f imsave) (by simp [works])
    (queuePaths dir names) (queuePaths_get dir names hnd) c hc
  refine ⟨m, s, h1, ?_⟩
  have := hp.filterMap (fun e => match e with
    | Event.call 2 k v => some (pathName k, v)
    | _ => none)
  rw [← im2imSaved_all imread f imsave dir names hn]
  exact this

/-! ### The errors -/

/-- What has been reported. -/
def im2imReported {α : Type} (log : List (Event (List Char) (Obj α) PyErr)) : List (List Char × PyErr) :=
  log.filterMap (fun e => match e with
    | .failed _ k e => some (k, e)
    | _ => none)

/-- What has to be reported: for each image which cannot be read, processed or saved, the first of these errors. -/
def im2imErrors {α : Type} (imread : List Char → Except PyErr α) (f : Fun α)
    (imsave : List Char → Obj α → Except PyErr Unit) (dir : List Char) (names : List (List Char)) :
    List (List Char × PyErr) :=
  names.filterMap (fun n =>
    match imread (dir ++ ['/'] ++ n) with
    | .error e => some (n, e)
    | .ok a =>
      match f (.pair (.text n) (.image a)) with
      | .error e => some (n, e)
      | .ok r =>
        match imsave n r with
        | .error e => some (n, e)
        | .ok _ => none)

theorem im2imReported_item {α : Type} (imread : List Char → Except PyErr α) (f : Fun α)
    (imsave : List Char → Obj α → Except PyErr Unit) (dir n : List Char) (hn : pathName n = n) :
    im2imReported (itemEvents n 0 (works imread f imsave) (.ok (.text (dir ++ ['/'] ++ n)))) =
      im2imErrors imread f imsave dir [n] := by
  unfold works im2imErrors
  simp only [List.filterMap_cons, List.filterMap_nil]
  cases h1 : imread (dir ++ ['/'] ++ n) with
  | error e =>
    have h1' : readWork imread n (.text (dir ++ ['/'] ++ n)) = .error e := by simp only [readWork, h1]
    simp only [itemEvents, h1', List.cons_ne_nil, if_true, if_false]
    simp [im2imReported]
  | ok a =>
    have h1' : readWork imread n (.text (dir ++ ['/'] ++ n)) = .ok (.image a) := by simp only [readWork, h1]
    cases h2 : f (.pair (.text n) (.image a)) with
    | error e =>
      have h2' : im2imWork f n (.image a) = .error e := h2
      simp only [itemEvents, h1', h2', if_true]
      simp [im2imReported, h2]
    | ok r =>
      have h2' : im2imWork f n (.image a) = .ok r := h2
      simp only [itemEvents, h1', h2', hn]
      cases h3 : imsave n r <;> simp [im2imReported, h2, h3]

/-- C95: with the asynchronous executor, whatever the schedule, exactly one error is reported for each image which
cannot be read, processed or saved, with the name of this image, and none for the others. -/
theorem C95_topology_errors {α : Type} (imread : List Char → Except PyErr α) (f : Fun α)
    (imsave : List Char → Obj α → Except PyErr Unit) (dir : List Char) (names : List (List Char)) (hnd : names.Nodup)
    (hn : ∀ n ∈ names, pathName n = n) (c : Cfg) (ls : List Label) (s : AState (List Char) (Obj α) PyErr Unit)
    (hrun : ARun (chain (works imread f imsave)) c (AState.init (startQueues (queuePaths dir names)) ()) ls s)
    (hstop : s.stop = true) : (im2imReported s.log).Perm (im2imErrors imread f imsave dir names) := by
  have hp := (C10_async_schedule _ (by simp [works]) _ (queuePaths_get dir names hnd) c ls s hrun hstop).2.2
  have hall : im2imReported (allEvents (works imread f imsave) (queuePaths dir names)) =
      im2imErrors imread f imsave dir names := by
    clear hp hrun hnd
    induction names with
    | nil => rfl
    | cons n names ih =>
      have h1 := im2imReported_item imread f imsave dir n (hn n (by simp))
      have h2 := ih (fun m hm => hn m (by simp [hm]))
      unfold allEvents queuePaths at h2 ⊢
      rw [List.map_cons, List.flatMap_cons]
      have h3 : ∀ a b : List (Event (List Char) (Obj α) PyErr),
          im2imReported (a ++ b) = im2imReported a ++ im2imReported b := fun a b => List.filterMap_append
      rw [h3, h2]
      have h4 : im2imErrors imread f imsave dir (n :: names) =
          im2imErrors imread f imsave dir [n] ++ im2imErrors imread f imsave dir names := by
        unfold im2imErrors
        rw [← List.filterMap_append]
        rfl
      rw [h4]
      congr 1
  have := hp.filterMap (fun e => match e with
    | Event.failed _ k e => some (k, e)
    | _ => none)
  rw [← hall]
  exact this

/-! ## Non-vacuity -/

/-- A function which adds 1 to images which are numbers. -/
def addOne : Fun Nat := documented (fun _ a => if a = 13 then .error .valueError else .ok (a + 1))

/-- Three images; the function raises for the second one. -/
def im2imRead : List Char → Except PyErr Nat
  | ['d', '/', 'a'] => .ok 5
  | ['d', '/', 'b'] => .ok 13
  | ['d', '/', 'c'] => .ok 7
  | _ => .error .fileNotFoundError

example : im2imExpected im2imRead addOne ['d'] [['a'], ['b'], ['c']] = [(['a'], .image 6), (['c'], .image 8)] ∧
    (∀ n ∈ [['a'], ['b'], ['c']], pathName n = n) := by
  constructor <;> decide

example : applyFilter (fun _ _ => .ok (.func addOne)) [] [(['d', '/', 'a'], 5), (['d', '/', 'c'], 7)]
      (some (.str ['m', '.', 'n', '.', 'f'])) =
    .ok (some ⟨[['a'], ['c']], [.image 6, .image 8], [['d', '/', 'a'], ['d', '/', 'c']]⟩) := by rfl

example : displayOutput addOne [(['a'], 5)] 0 = .ok (.image 6) ∧
    processOne addOne [(['a'], 5)] 0 = .error .typeError := by constructor <;> rfl

/-- The second image cannot be processed and the third one cannot be saved. -/
example : im2imErrors im2imRead addOne (fun n _ => if n = ['c'] then .error .osError else .ok ()) ['d'] [['a'], ['b'], ['c']] =
    [(['b'], .valueError), (['c'], .osError)] := by decide

end Verif
