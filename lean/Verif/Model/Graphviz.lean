import Verif.Py.Text

/-!
# Model of the graph of a topology

`/repo/src/fluidimage/topologies/base.py:421-535` (`TopologyBase.make_code_graphviz`): the text of the file ".dot" given to graphviz.
Strings are lists of characters.
-/

namespace Verif.Graphviz
open Verif

abbrev Txt := List Char

/-- base.py:180-217 `Queue` and `QueueList`: the name, whether it is a `QueueList` (which is not a `Queue`), and the number of items in it. -/
structure QueueObj where
  name : Txt
  isList : Bool
  items : Nat
deriving DecidableEq

/-- base.py:127: the argument `kind` of a work. -/
inductive Kind where
  | none
  | text (s : Txt)
  | seq (l : List Txt)
deriving DecidableEq

/-- The arguments `input_queue` and `output_queue` of a work: one queue or a tuple of queues. -/
inductive QueueArg where
  | one (q : QueueObj)
  | many (l : List QueueObj)
deriving DecidableEq

/-- base.py:107-147 `Work`: what is used to draw the graph. -/
structure WorkObj where
  name : Txt
  kind : Kind
  input : Option QueueArg
  output : Option QueueArg
deriving DecidableEq

/-- base.py:287-290: the attributes `queues` and `works` of a topology. -/
structure Topo where
  queues : List QueueObj
  works : List WorkObj

/-- `x in s` for two strings: `x` is a substring of `s`. -/
def substring (x : Txt) : Txt → Bool
  | [] => x.isEmpty
  | c :: s => x.isPrefixOf (c :: s) || substring x s

/-- base.py:456-457, 470-475: `work.kind is not None` and `x in work.kind`; for a string, `in` searches a substring. -/
def Kind.has (k : Kind) (x : Txt) : Bool :=
  match k with
  | .none => false
  | .text s => substring x s
  | .seq l => decide (x ∈ l)

/-- `'{:40s}'.format(s)` -/
def pad40 (s : Txt) : Txt := s ++ List.replicate (40 - s.length) ' '

/-- `'"' + name + '"'` -/
def quote (name : Txt) : Txt := '"' :: name ++ ['"']

/-- base.py:439-447: the line of a queue. -/
def queueLine (q : QueueObj) : Txt :=
  pad40 (quote q.name) ++ " [label=\"<f0> ".toList ++ q.name ++ "|<f1>|<f2>|<f3>|<f4>\"]\n".toList

/-- base.py:455-458, 469-475: the colour of a work. -/
def colorOf (w : WorkObj) : Txt := if w.kind.has "io".toList then "Green".toList else "Black".toList

/-- base.py:452-459: the line of a work. -/
def workLine (w : WorkObj) : Txt :=
  pad40 (quote w.name) ++ " [label=\"".toList ++ w.name ++ "\",color = \"".toList ++ colorOf w ++ "\"]\n".toList

/-- base.py:463-465: the line of a link. -/
def linkLine (src dst arrow style color : Txt) : Txt :=
  pad40 (quote src) ++ " -> \"".toList ++ dst ++ "\" [arrowhead = \"".toList ++ arrow ++ "\", style = \"".toList ++ style ++
    "\", color = \"".toList ++ color ++ "\"]\n".toList

/-- base.py:468, 474-475 -/
def arrowOf (w : WorkObj) : Txt := if w.kind.has "global".toList then "odiamond".toList else "normal".toList

/-- base.py:469, 472-473 -/
def styleOf (w : WorkObj) : Txt := if w.kind.has "one shot".toList then "filled".toList else "dashed".toList

/-- base.py:478-482, 487-491: the objects over which the loops on the queues of a work iterate, `queue.name` being read for each of
them.  A `Queue` is put in a tuple; a `QueueList` alone is iterated: its items are not queues and have no name. -/
def drawnQueues (a : Option QueueArg) : Except PyErr (List QueueObj) :=
  match a with
  | none => .ok []
  | some (.many l) => .ok l
  | some (.one q) => if q.isList = false then .ok [q] else if q.items = 0 then .ok [] else .error .attributeError

/-- base.py:467-495: the lines of the links of a work. -/
def workLinks (w : WorkObj) : Except PyErr Txt :=
  match drawnQueues w.input with
  | .error e => .error e
  | .ok ins =>
    match drawnQueues w.output with
    | .error e => .error e
    | .ok outs => .ok ((ins.flatMap fun q => linkLine q.name w.name (arrowOf w) (styleOf w) (colorOf w)) ++
        outs.flatMap fun q => linkLine w.name q.name (arrowOf w) (styleOf w) (colorOf w))

/-- base.py:467: `for work in self.works` -/
def allLinks : List WorkObj → Except PyErr Txt
  | [] => .ok []
  | w :: ws =>
    match workLinks w with
    | .error e => .error e
    | .ok a =>
      match allLinks ws with
      | .error e => .error e
      | .ok b => .ok (a ++ b)

/-- base.py:435-437 -/
def header : Txt := "digraph {\nrankdir = LR\ncompound=true\n\nnode [shape=\"record\"]\n".toList

/-- base.py:450 -/
def header2 : Txt := "\nnode [shape=\"ellipse\"]\n".toList

/-- base.py:497-520: the lines of the legend. -/
def legendLines : List String :=
  ["",
   " subgraph cluster_01 {",
   " node [height=\"0px\", width=\"0px\",shape=none,];",
   " edge [ minlen = 1,];",
   " label = \"Legend\";",
   " key [label=<<table border=\"0\" cellpadding=\"2\" cellspacing=\"0\" cellborder=\"0\">",
   " <tr><td align=\"right\" port=\"i1\">Global</td></tr>",
   " <tr><td align=\"right\" port=\"i2\">One Shot</td></tr>",
   " <tr><td align=\"right\" port=\"i3\">Multiple Shot</td></tr>",
   " <tr><td align=\"right\" port=\"i4\">I/O</td></tr>",
   " </table>>]",
   " key2 [label=<<table border=\"0\" cellpadding=\"2\" cellspacing=\"0\" cellborder=\"0\">",
   "<tr><td port=\"i1\">&nbsp;</td></tr>",
   "<tr><td port=\"i2\">&nbsp;</td></tr>",
   "<tr><td port=\"i3\">&nbsp;</td></tr>",
   "<tr><td port=\"i4\">&nbsp;</td></tr>",
   " </table>>]",
   "  key:i1:e -> key2:i1:w [arrowhead = \"odiamond\"]",
   "  key:i2:e -> key2:i2:w [arrowhead = \"none\"]",
   "  key:i3:e -> key2:i3:w [style = \"dashed\", arrowhead = \"none\"]",
   "  key:i4:e -> key2:i4:w [arrowhead = \"none\", color=\"Green\"]",
   " } ",
   "}"]

/-- base.py:497-520: the legend. -/
def legend : Txt := legendLines.flatMap fun l => l.toList ++ ['\n']

/-- base.py:435-522: the text of the file. -/
def code (t : Topo) : Except PyErr Txt :=
  match allLinks t.works with
  | .error e => .error e
  | .ok links => .ok (header ++ t.queues.flatMap queueLine ++ header2 ++ t.works.flatMap workLine ++ "\n".toList ++ links ++ legend)

/-- base.py:430-433, 524: the name of the file which is written. -/
def fileName (name : Txt) : Txt :=
  (if ".dot".toList.isSuffixOf name then name.take (name.length - 4) else name) ++ ".dot".toList

/-- base.py:421-525 `make_code_graphviz`: the files after the call (`none`: no such file), and the exception.  The file is opened after the
text has been made. -/
def makeCode (t : Topo) (files : Txt → Option Txt) (name : Txt) : (Txt → Option Txt) × Option PyErr :=
  match code t with
  | .error e => (files, some e)
  | .ok c => ((fun p => if p = fileName name then some c else files p), none)

end Verif.Graphviz
