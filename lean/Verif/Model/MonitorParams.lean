import Verif.Py.Basic

/-!
# Model of the panel "Parameters" of `fluidimage-monitor`

`/repo/src/fluidimage/gui/monitor.py` 39-46 (`build_branch`), 49-54 (`copy_doc`), 147-153 (end of `__init__`), 206-214 (`compose`) and
313-318 (`on_tree_node_selected`).

A container of parameters is a tree: documentation, attributes (with the text of their values) and children with their tags.  The class
`ParamContainer` is in fluiddyn, not in the repository: the access to a child which does not exist raises `AttributeError`.  Not modelled:
the widgets of Textual (a tree shows what has been added, with the object given as data).
-/

namespace Verif.MonitorParams
open Verif

abbrev Txt := List Char

mutual
  /-- A `ParamContainer` -/
  inductive Node where
    | mk (doc : Txt) (attrs : List (Txt × Txt)) (children : Forest)
  /-- Its children, with their tags -/
  inductive Forest where
    | nil
    | cons (tag : Txt) (node : Node) (rest : Forest)
end

/-- `params_node._doc` -/
def Node.doc : Node → Txt
  | .mk doc _ _ => doc

/-- `params_node[tag]` -/
def Forest.find : Forest → Txt → Option Node
  | .nil, _ => none
  | .cons t n rest, tag => if t = tag then some n else rest.find tag

mutual
  /-- 49-54 `copy_doc`; the container with the documentations is the second one. -/
  def copyDoc : Node → Node → Except PyErr Node
    | .mk _ attrs cs, .mk doc _ ds => match copyDocs cs ds with
      | .error e => .error e
      | .ok cs' => .ok (.mk doc attrs cs')
  /-- 53-54: the loop. -/
  def copyDocs : Forest → Forest → Except PyErr Forest
    | .nil, _ => .ok .nil
    | .cons tag n rest, ds => match ds.find tag with
      | none => .error .attributeError
      | some d => match copyDoc n d with
        | .error e => .error e
        | .ok n' => match copyDocs rest ds with
          | .error e => .error e
          | .ok rest' => .ok (.cons tag n' rest')
end

mutual
  /-- What is in the tree of the panel. -/
  inductive Item where
    | leaf (label : Txt)
    | branch (label : Txt) (data : Node) (items : Items)
  inductive Items where
    | nil
    | cons (item : Item) (rest : Items)
end

/-- 41-42: the leaves, before the other items. -/
def addLeaves : List (Txt × Txt) → Items → Items
  | [], items => items
  | (key, value) :: l, items => .cons (.leaf (key ++ [' ', '=', ' '] ++ value)) (addLeaves l items)

mutual
  /-- 39-46 `build_branch` -/
  def buildBranch : Node → Items
    | .mk _ attrs cs => addLeaves attrs (buildBranches cs)
  /-- 44-46: the loop. -/
  def buildBranches : Forest → Items
    | .nil => .nil
    | .cons tag n rest => .cons (.branch tag n (buildBranch n)) (buildBranches rest)
end

/-- The panel: the object of the root, the items, and the documentation which is shown. -/
structure Panel where
  root : Node
  items : Items
  doc : Txt

/-- 147-153 and 206-214: `params` are those of the job, `default` those given by `create_default_params` of its topology. -/
def openPanel (params default : Node) : Except PyErr Panel :=
  match copyDoc params default with
  | .error e => .error e
  | .ok p => .ok ⟨p, buildBranch p, p.doc⟩

/-- 313-318 `on_tree_node_selected`; `data` is `None` for a leaf. -/
def select (p : Panel) (data : Option Node) : Panel :=
  match data with
  | none => p
  | some n => { p with doc := n.doc }

end Verif.MonitorParams
