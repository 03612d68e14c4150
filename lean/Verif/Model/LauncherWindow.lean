import Verif.Py.Basic

/-!
# Model of the window which launches the topologies

`/repo/src/fluidimage/gui/launcher/main.py` 30-97 (class `Program`) and `/repo/src/fluidimage/gui/launcher/mainwindow.py`
57-94 (`setupUi`: the layout is empty and the menu "Topologies" has no entry).

Qt and the class `QtParamContainer` of fluiddyn are represented by what is used: a page is a widget which holds the
parameters of a topology; a layout is a list of widgets; a widget is seen when its parent is the central widget of the
window (`addWidget` sets the parent, `removeWidget` does not change it).  The parameters are of any type `P`;
`defaults name` are those given by `create_default_params` of the launcher of this name (C97).  The messages printed in the
terminal are not modelled.
-/

namespace Verif.LauncherWindow
open Verif

abbrev Name := List Char

variable {P : Type}

/-- The window: `next` numbers the widgets which are created; `pages` are the contents of the widgets. -/
structure Win (P : Type) where
  next : Nat
  pages : Nat → Option (Name × P)
  /-- `self.verticalLayout_2` -/
  layout : List Nat
  /-- the widgets whose parent is the central widget -/
  children : List Nat
  /-- `self.qt_params`: the object which runs the topology with the parameters of its page -/
  qtParams : Option Nat
  /-- the entries of the menu "Topologies": the text of the entry, and the argument of the function which is called -/
  menu : List (Name × Name)

/-- main.py 32-33: the keys of the dictionary `self.topologies`. -/
def topologies : List Name := ["TopologyPreprocLauncher".toList, "TopologyPIVLauncher".toList]

/-- main.py 38. -/
def topoNames : List Name := ["TopologyPreprocLauncher".toList, "TopologyPIVLauncher".toList]

/-- main.py 41-51: the loop over the names; the name is the default value of an argument of `func`: it is evaluated at the
definition of the function. -/
def addEntries : List Name → List (Name × Name) → List (Name × Name)
  | [], menu => menu
  | n :: ns, menu => addEntries ns (menu ++ [(n, n)])

/-- main.py 32-53: `Program()`. -/
def init : Win P := ⟨0, fun _ => none, [], [], none, addEntries topoNames []⟩

/-- `layout.removeWidget(widget)`, then `widget.setParent(None)` (main.py 79-83). -/
def removeWidget (x : Nat) (w : Win P) : Win P :=
  { w with layout := w.layout.filter (fun y => decide (y ≠ x)),
           children := w.children.filter (fun y => decide (y ≠ x)) }

/-- main.py 78-83: the loop over the indices of the layout; `itemAt` gives `None` out of the layout. -/
def removeLoop : List Nat → Win P → Except PyErr (Win P)
  | [], w => .ok w
  | i :: is, w =>
    match w.layout[i]? with
    | none => .error .attributeError
    | some x => removeLoop is (removeWidget x w)

/-- main.py 72-74: the page of the parameters (a new widget, without parent). -/
def newPage (n : Name) (p : P) (w : Win P) : Win P :=
  { w with next := w.next + 1,
           pages := fun i => if i = w.next then some (n, p) else w.pages i,
           qtParams := some w.next }

/-- main.py 85: `self.verticalLayout_2.addWidget(page)`. -/
def addWidget (x : Nat) (w : Win P) : Win P :=
  { w with layout := w.layout ++ [x], children := w.children ++ [x] }

/-- main.py 68-85 `init_topo`. -/
def initTopo (defaults : Name → P) (n : Name) (w : Win P) : Except PyErr (Win P) :=
  if topologies.contains n then
    match removeLoop (List.range w.layout.length).reverse (newPage n (defaults n) w) with
    | .error e => .error e
    | .ok w2 => .ok (addWidget w.next w2)
  else .error .keyError

/-- main.py 58-66 `open_file`: `answer` is what the dialog gives (a path and a filter), `read` is
`ParamContainer(path_file=...)`. -/
def openFile (read : Name × Name → Except PyErr P) (answer : Name × Name) : Except PyErr Unit :=
  if answer = ([], []) then .ok ()
  else
    match read answer with
    | .error e => .error e
    | .ok _ => .error .notImplementedError

/-- What the user does: chooses the entry `i` of the menu "Topologies", modifies the parameters in the widget which is at
the place `k` in the window, opens a file. -/
inductive Action (P : Type) where
  | choose (i : Nat)
  | edit (k : Nat) (f : P → P)
  | openFile (answer : Name × Name)

/-- The effect of an action; an exception raised in a function called by Qt is shown in the terminal, and the window
stays as the function has left it (for `openFile`: as it was). -/
def step (defaults : Name → P) (read : Name × Name → Except PyErr P) (w : Win P) : Action P → Except PyErr (Win P)
  | .choose i =>
    match w.menu[i]? with
    | none => .ok w
    | some (_, n) => initTopo defaults n w
  | .edit k f =>
    match w.children[k]? with
    | none => .ok w
    | some x => .ok { w with pages := fun j => if j = x then (w.pages x).map (fun q => (q.1, f q.2)) else w.pages j }
  | .openFile answer =>
    match openFile read answer with
    | .error _ => .ok w
    | .ok () => .ok w

/-- A sequence of actions. -/
def run (defaults : Name → P) (read : Name × Name → Except PyErr P) (w : Win P) : List (Action P) → Except PyErr (Win P)
  | [] => .ok w
  | a :: as =>
    match step defaults read w a with
    | .error e => .error e
    | .ok w2 => run defaults read w2 as

/-- What is seen in the window. -/
def shown (w : Win P) : List (Name × P) := w.children.filterMap w.pages

/-- The topology and the parameters which are run. -/
def toRun (w : Win P) : Option (Name × P) := w.qtParams.bind w.pages

end Verif.LauncherWindow
