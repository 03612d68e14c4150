import Verif.Model.MonitorParams
import Mathlib.Data.List.Induction

/-!
# C159: the parameters and the documentation shown by `fluidimage-monitor`
-/

namespace Verif
open Verif.MonitorParams
namespace MonitorParams

/-! ## Specification -/

/-- The children of a container. -/
def Forest.toList : Forest → List (Txt × Node)
  | .nil => []
  | .cons tag n rest => (tag, n) :: rest.toList

def Node.children : Node → List (Txt × Node)
  | .mk _ _ cs => cs.toList

def Node.attrs : Node → List (Txt × Txt)
  | .mk _ attrs _ => attrs

/-- The container `m` is reached from `n` with the tags of the path (as `params.piv0.grid`). -/
inductive At : Node → List Txt → Node → Prop
  | here (n : Node) : At n [] n
  | child {n c m : Node} {tag : Txt} {path : List Txt} (hc : (tag, c) ∈ n.children) (h : At c path m) : At n (tag :: path) m

/-- The access `n[tag1][tag2]…`: the first child with the tag, again and again. -/
def Node.get : Node → List Txt → Option Node
  | n, [] => some n
  | n, tag :: path => match n.children.lookup tag with
    | none => none
    | some c => c.get path

def Items.toList : Items → List Item
  | .nil => []
  | .cons i rest => i :: rest.toList

/-- The branch reached by opening the branches with these labels, from the items of the root: its object and its items. -/
inductive ShownAt : Node → Items → List Txt → Node → Items → Prop
  | here (data : Node) (items : Items) : ShownAt data items [] data items
  | child {data data' data'' : Node} {items items' items'' : Items} {label : Txt} {path : List Txt}
      (hc : Item.branch label data' items' ∈ items.toList) (h : ShownAt data' items' path data'' items'') :
      ShownAt data items (label :: path) data'' items''

/-- The labels of the leaves of a branch. -/
def leafLabels (items : Items) : List Txt := items.toList.filterMap fun i => match i with
  | .leaf label => some label
  | .branch _ _ _ => none

/-- The labels of the branches of a branch. -/
def branchLabels (items : Items) : List Txt := items.toList.filterMap fun i => match i with
  | .leaf _ => none
  | .branch label _ _ => some label

/-- What has to be shown for a container: its attributes with their values, its children, and the documentation. -/
def ShowsNode (n : Node) (doc : Txt) (data : Node) (items : Items) : Prop :=
  leafLabels items = n.attrs.map (fun a => a.1 ++ " = ".toList ++ a.2) ∧ branchLabels items = n.children.map Prod.fst ∧ data.doc = doc

/-! ## Lemmas -/

theorem mp_find (tag : Txt) : ∀ cs : Forest, cs.toList.lookup tag = cs.find tag
  | .nil => rfl
  | .cons t m rest => by
    unfold Forest.find Forest.toList
    rw [List.lookup_cons]
    by_cases h : t = tag
    · subst h
      simp
    · rw [if_neg h, ← mp_find tag rest]
      have : (tag == t) = false := by simpa using fun e => h e.symm
      simp [this]

theorem mp_get (doc : Txt) (attrs : List (Txt × Txt)) (cs : Forest) (tag : Txt) (path : List Txt) :
    Node.get (.mk doc attrs cs) (tag :: path) = match cs.find tag with
    | none => none
    | some c => c.get path := by
  have e : Node.get (.mk doc attrs cs) (tag :: path) = match (Node.mk doc attrs cs).children.lookup tag with
      | none => none
      | some c => c.get path := rfl
  rw [e, show (Node.mk doc attrs cs).children = cs.toList from rfl, mp_find]

mutual
  theorem mp_copy_ok (n d : Node) (h : ∀ path m, At n path m → ∃ e, d.get path = some e) : ∃ n', copyDoc n d = .ok n' := by
    match n, d, h with
    | .mk doc attrs cs, .mk doc' attrs' ds, h =>
      obtain ⟨cs', hcs⟩ := mp_copys_ok cs ds (by
        intro tag c hc
        have h1 : ∀ path m, At c path m → ∃ e, Node.get (.mk doc' attrs' ds) (tag :: path) = some e :=
          fun path m hm => h (tag :: path) m (.child hc hm)
        obtain ⟨e, he⟩ := h1 [] c (.here c)
        cases hf : ds.find tag with
        | none => simp [mp_get, hf] at he
        | some d =>
          refine ⟨d, rfl, fun path m hm => ?_⟩
          obtain ⟨e, he⟩ := h1 path m hm
          exact ⟨e, by simpa [mp_get, hf] using he⟩)
      exact ⟨.mk doc' attrs cs', by simp only [copyDoc, hcs]⟩
  theorem mp_copys_ok (cs ds : Forest) (h : ∀ tag c, (tag, c) ∈ cs.toList → ∃ d, ds.find tag = some d ∧
      ∀ path m, At c path m → ∃ e, d.get path = some e) : ∃ cs', copyDocs cs ds = .ok cs' := by
    match cs, h with
    | .nil, h => exact ⟨.nil, rfl⟩
    | .cons tag n rest, h =>
      obtain ⟨d, hd, hn⟩ := h tag n List.mem_cons_self
      obtain ⟨n', hn'⟩ := mp_copy_ok n d hn
      obtain ⟨rest', hr⟩ := mp_copys_ok rest ds fun tag c hc => h tag c (List.mem_cons_of_mem _ hc)
      exact ⟨.cons tag n' rest', by simp only [copyDocs, hd, hn', hr]⟩
end

/-- The children after the copy are those before, copied. -/
theorem mp_copys {cs ds cs' : Forest} (h : copyDocs cs ds = .ok cs') :
    cs'.toList.map Prod.fst = cs.toList.map Prod.fst ∧
    (∀ tag c, (tag, c) ∈ cs.toList → ∃ d c', ds.find tag = some d ∧ copyDoc c d = .ok c' ∧ (tag, c') ∈ cs'.toList) ∧
    (∀ tag c', (tag, c') ∈ cs'.toList → ∃ d c, ds.find tag = some d ∧ copyDoc c d = .ok c' ∧ (tag, c) ∈ cs.toList) := by
  match cs, h with
  | .nil, h =>
    cases h
    exact ⟨rfl, fun _ _ h => (by cases h), fun _ _ h => (by cases h)⟩
  | .cons t n rest, h =>
    unfold copyDocs at h
    cases hf : ds.find t with
    | none => simp [hf] at h
    | some d =>
      simp only [hf] at h
      cases hn : copyDoc n d with
      | error e => simp [hn] at h
      | ok n' =>
        simp only [hn] at h
        cases hr : copyDocs rest ds with
        | error e => simp [hr] at h
        | ok rest' =>
          simp only [hr] at h
          cases h
          obtain ⟨h1, h2, h3⟩ := mp_copys hr
          refine ⟨by simp only [Forest.toList, List.map_cons, h1], ?_, ?_⟩
          · intro tag c hc
            rcases List.mem_cons.1 hc with he | hc
            · cases he
              exact ⟨d, n', hf, hn, List.mem_cons_self⟩
            · obtain ⟨d, c', a, b, e⟩ := h2 tag c hc
              exact ⟨d, c', a, b, List.mem_cons_of_mem _ e⟩
          · intro tag c' hc
            rcases List.mem_cons.1 hc with he | hc
            · cases he
              exact ⟨d, n, hf, hn, List.mem_cons_self⟩
            · obtain ⟨d, c, a, b, e⟩ := h3 tag c' hc
              exact ⟨d, c, a, b, List.mem_cons_of_mem _ e⟩

theorem mp_copy {n d n' : Node} (h : copyDoc n d = .ok n') :
    n'.doc = d.doc ∧ n'.attrs = n.attrs ∧ n'.children.map Prod.fst = n.children.map Prod.fst ∧
    (∀ tag c, (tag, c) ∈ n.children → ∃ e c', (∀ path, d.get (tag :: path) = e.get path) ∧ copyDoc c e = .ok c' ∧ (tag, c') ∈ n'.children) ∧
    (∀ tag c', (tag, c') ∈ n'.children → ∃ e c, (∀ path, d.get (tag :: path) = e.get path) ∧ copyDoc c e = .ok c' ∧
      (tag, c) ∈ n.children) := by
  obtain ⟨doc, attrs, cs⟩ := n
  obtain ⟨doc', attrs', ds⟩ := d
  unfold copyDoc at h
  cases hc : copyDocs cs ds with
  | error e => simp [hc] at h
  | ok cs' =>
    simp only [hc] at h
    cases h
    obtain ⟨h1, h2, h3⟩ := mp_copys hc
    refine ⟨rfl, rfl, h1, ?_, ?_⟩
    · intro tag c hm
      obtain ⟨e, c', hf, hcp, hm'⟩ := h2 tag c hm
      exact ⟨e, c', fun path => by simp [mp_get, hf], hcp, hm'⟩
    · intro tag c' hm
      obtain ⟨e, c, hf, hcp, hm'⟩ := h3 tag c' hm
      exact ⟨e, c, fun path => by simp [mp_get, hf], hcp, hm'⟩

mutual
  theorem mp_error (n d : Node) (e : PyErr) (h : copyDoc n d = .error e) : e = .attributeError := by
    match n, d, h with
    | .mk doc attrs cs, .mk doc' attrs' ds, h =>
      unfold copyDoc at h
      cases hc : copyDocs cs ds with
      | error e' =>
        simp only [hc] at h
        cases h
        exact mp_errors cs ds e hc
      | ok cs' => simp [hc] at h
  theorem mp_errors (cs ds : Forest) (e : PyErr) (h : copyDocs cs ds = .error e) : e = .attributeError := by
    match cs, h with
    | .nil, h => cases h
    | .cons t n rest, h =>
      unfold copyDocs at h
      cases hf : ds.find t with
      | none =>
        simp only [hf] at h
        cases h
        rfl
      | some d =>
        simp only [hf] at h
        cases hn : copyDoc n d with
        | error e' =>
          simp only [hn] at h
          cases h
          exact mp_error n d e hn
        | ok n' =>
          simp only [hn] at h
          cases hr : copyDocs rest ds with
          | error e' =>
            simp only [hr] at h
            cases h
            exact mp_errors rest ds e hr
          | ok rest' => simp [hr] at h
end

theorem mp_leaves (attrs : List (Txt × Txt)) (items : Items) :
    (addLeaves attrs items).toList = attrs.map (fun a => Item.leaf (a.1 ++ " = ".toList ++ a.2)) ++ items.toList := by
  induction attrs with
  | nil => rfl
  | cons a attrs ih =>
    obtain ⟨k, v⟩ := a
    simp only [addLeaves, Items.toList, ih, List.map_cons, List.cons_append]
    rfl

theorem mp_branches : ∀ cs : Forest, (buildBranches cs).toList = cs.toList.map fun c => Item.branch c.1 c.2 (buildBranch c.2)
  | .nil => rfl
  | .cons tag n rest => by
    unfold buildBranches Items.toList Forest.toList
    rw [List.map_cons, mp_branches rest]

theorem mp_build (n : Node) : (buildBranch n).toList = n.attrs.map (fun a => Item.leaf (a.1 ++ " = ".toList ++ a.2)) ++
    n.children.map fun c => Item.branch c.1 c.2 (buildBranch c.2) := by
  obtain ⟨doc, attrs, cs⟩ := n
  have e : buildBranch (.mk doc attrs cs) = addLeaves attrs (buildBranches cs) := by simp only [buildBranch]
  rw [e, mp_leaves, mp_branches]
  rfl

theorem mp_mem_branch (n : Node) (label : Txt) (data : Node) (items : Items) :
    Item.branch label data items ∈ (buildBranch n).toList ↔ (label, data) ∈ n.children ∧ items = buildBranch data := by
  rw [mp_build, List.mem_append]
  constructor
  · rintro (h | h)
    · obtain ⟨a, _, ha⟩ := List.mem_map.1 h
      cases ha
    · obtain ⟨c, hc, he⟩ := List.mem_map.1 h
      cases he
      exact ⟨hc, rfl⟩
  · rintro ⟨h, rfl⟩
    exact .inr (List.mem_map.2 ⟨(label, data), h, rfl⟩)

theorem mp_shows {n d n' : Node} (h : copyDoc n d = .ok n') : ShowsNode n d.doc n' (buildBranch n') := by
  obtain ⟨h1, h2, h3, -⟩ := mp_copy h
  refine ⟨?_, ?_, h1⟩
  · unfold leafLabels
    rw [mp_build, List.filterMap_append, List.filterMap_map, List.filterMap_map, h2]
    have e1 : n'.children.filterMap ((fun i => match i with
        | Item.leaf label => some label
        | .branch _ _ _ => none) ∘ fun c => Item.branch c.1 c.2 (buildBranch c.2)) = [] :=
      List.filterMap_eq_nil_iff.2 fun _ _ => rfl
    rw [e1, List.append_nil]
    induction n.attrs with
    | nil => rfl
    | cons a l ih => rw [List.map_cons, ← ih]; rfl
  · unfold branchLabels
    rw [mp_build, List.filterMap_append, List.filterMap_map, List.filterMap_map, ← h3]
    have e1 : n'.attrs.filterMap ((fun i => match i with
        | Item.leaf _ => none
        | .branch label _ _ => some label) ∘ fun a => Item.leaf (a.1 ++ " = ".toList ++ a.2)) = [] :=
      List.filterMap_eq_nil_iff.2 fun _ _ => rfl
    rw [e1, List.nil_append]
    induction n'.children with
    | nil => rfl
    | cons a l ih => rw [List.map_cons, ← ih]; rfl

theorem mp_at {n m : Node} {path : List Txt} (hat : At n path m) : ∀ {d n' : Node}, copyDoc n d = .ok n' →
    ∃ data items e, ShownAt n' (buildBranch n') path data items ∧ d.get path = some e ∧ ShowsNode m e.doc data items := by
  induction hat with
  | here n =>
    intro d n' h
    exact ⟨n', buildBranch n', d, .here _ _, by cases d; rfl, mp_shows h⟩
  | child hc _ ih =>
    intro d n' h
    obtain ⟨-, -, -, h4, -⟩ := mp_copy h
    obtain ⟨e, c', hg, hcp, hm⟩ := h4 _ _ hc
    obtain ⟨data, items, e', h5, h6, h7⟩ := ih hcp
    exact ⟨data, items, e', .child ((mp_mem_branch _ _ _ _).2 ⟨hm, rfl⟩) h5, by rw [hg]; exact h6, h7⟩

theorem mp_shown {n' data : Node} {items0 items : Items} {path : List Txt} (hs : ShownAt n' items0 path data items) :
    items0 = buildBranch n' → ∀ {n d : Node}, copyDoc n d = .ok n' →
    ∃ m e, At n path m ∧ d.get path = some e ∧ ShowsNode m e.doc data items := by
  induction hs with
  | here data items =>
    rintro rfl n d h
    exact ⟨n, d, .here _, by cases d; rfl, mp_shows h⟩
  | child hc _ ih =>
    rintro rfl n d h
    obtain ⟨hm, hi⟩ := (mp_mem_branch _ _ _ _).1 hc
    obtain ⟨-, -, -, -, h5⟩ := mp_copy h
    obtain ⟨e, c, hg, hcp, hm'⟩ := h5 _ _ hm
    obtain ⟨m, e', h6, h7, h8⟩ := ih hi hcp
    exact ⟨m, e', .child hm' h6, by rw [hg]; exact h7, h8⟩

end MonitorParams

open MonitorParams

/-! ## Theorems -/

/-- **C159**: if all the containers of the parameters of the job exist in the default parameters of its topology, the panel is opened;
every container of the parameters of the job is shown at its place, with the values of the job, its children, and the documentation of
the default parameters; and nothing else is shown.  The documentation shown first is the one of the root.  Missing: jobs with other
containers (`C159_other_container_fails`). -/
theorem C159_shown_partial (params default : Node) (h : ∀ path n, At params path n → ∃ d, default.get path = some d) :
    ∃ p, openPanel params default = .ok p ∧ p.doc = default.doc ∧
      (∀ path n, At params path n → ∃ data items d, ShownAt p.root p.items path data items ∧ default.get path = some d ∧
        ShowsNode n d.doc data items) ∧
      (∀ path data items, ShownAt p.root p.items path data items → ∃ n d, At params path n ∧ default.get path = some d ∧
        ShowsNode n d.doc data items) := by
  obtain ⟨n', hn⟩ := mp_copy_ok params default h
  refine ⟨⟨n', buildBranch n', n'.doc⟩, by simp only [openPanel, hn], (mp_copy hn).1, ?_, ?_⟩
  · intro path n hat
    exact mp_at hat hn
  · intro path data items hs
    exact mp_shown hs rfl hn

/-- **C159** is false of a job whose parameters have a container which is not in the default parameters (for example a job of another
version): the monitor does not start. -/
theorem C159_other_container_fails (params default : Node) (path : List Txt) (n : Node) (hat : At params path n)
    (h : default.get path = none) : openPanel params default = .error .attributeError := by
  unfold openPanel
  cases hc : copyDoc params default with
  | error e => simp only [mp_error _ _ _ hc]
  | ok n' =>
    obtain ⟨_, _, e, -, h6, -⟩ := mp_at hat hc
    rw [h] at h6
    cases h6

/-- **C159**: after any sequence of selections in the tree, the documentation which is shown is the one of the container selected last
(the selection of a value, which is a leaf, changes nothing). -/
theorem C159_selected (p : Panel) (l : List (Option Node)) :
    ((l.foldl select p).doc = match (l.filterMap id).getLast? with
      | none => p.doc
      | some n => n.doc) ∧ (l.foldl select p).items = p.items ∧ (l.foldl select p).root = p.root := by
  induction l using List.reverseRecOn with
  | nil => exact ⟨rfl, rfl, rfl⟩
  | append_singleton l a ih =>
    rw [List.foldl_append, List.filterMap_append]
    obtain ⟨h1, h2, h3⟩ := ih
    cases a with
    | none =>
      have e : List.filterMap id [(none : Option Node)] = [] := rfl
      rw [e, List.append_nil]
      exact ⟨h1, h2, h3⟩
    | some n => simp [select, h2, h3]

/-! ## Examples -/

/-- Default parameters with one container "a" and its attribute "x". -/
def shownDefault : Node := .mk ['D'] [] (.cons ['a'] (.mk ['A'] [(['x'], ['1'])] .nil) .nil)

/-- Parameters of a job, without documentation. -/
def shownJob : Node := .mk [] [] (.cons ['a'] (.mk [] [(['x'], ['2'])] .nil) .nil)

/-- Non-vacuity of `C159_shown_partial`. -/
example : ∀ path n, At shownJob path n → ∃ d, shownDefault.get path = some d := by
  intro path n h
  cases h with
  | here => exact ⟨_, rfl⟩
  | child hc h =>
    simp only [shownJob, Node.children, Forest.toList, List.mem_singleton, Prod.mk.injEq] at hc
    obtain ⟨rfl, rfl⟩ := hc
    cases h with
    | here => exact ⟨_, rfl⟩
    | child hc _ => cases hc

example : (match openPanel shownJob shownDefault with
    | .ok ⟨_, .cons (.branch l d i) .nil, doc⟩ => (l, d.doc, leafLabels i, doc)
    | _ => ([], [], [], [])) = (['a'], ['A'], [['x', ' ', '=', ' ', '2']], ['D']) := rfl

/-- Non-vacuity of `C159_other_container_fails`. -/
example : openPanel shownJob (.mk ['D'] [] .nil) = .error .attributeError :=
  C159_other_container_fails _ _ [['a']] _ (.child List.mem_cons_self (.here _)) rfl

end Verif
