import Verif.Py.Text

/-!
# Index files: `SplitterCompleteAware.save_indices_files` and their readers
-/

namespace Verif.IndicesFiles
open Verif Verif.Text

/-- `/repo/src/fluidimage/topologies/splitters.py:104`:
`path.write_text("\n".join(str(index) for index in indices) + "\n")`, given `str(index)` of every index.
(The files of empty lists are not written: lines 101-102.) -/
def indicesText (strs : List (List Char)) : List Char := join ['\n'] strs ++ ['\n']

/-- File written for a series topology (indices are integers), splitters.py:96-104. -/
def writeSeriesIndices (indices : List Int) : List Char := indicesText (indices.map intStr)

/-- File written for an images topology (indices are tuples of integers), splitters.py:96-104. -/
def writeImagesIndices (indices : List (List Int)) : List Char := indicesText (indices.map tupleStr)

/-- `/repo/src/fluidimage/topologies/base.py:565-567`:
`[int(line) for line in open(path_indices)]`. -/
def readSeriesIndices (text : List Char) : Except PyErr (List Int) :=
  (fileLines text).mapM pyInt

/-- `/repo/src/fluidimage/topologies/base.py:586-587` `_tuple_ints_from_str`:
`tuple(int(c.strip()) for c in line.strip()[1:-1].split(",") if c)`. -/
def tupleIntsFromStr (line : List Char) : Except PyErr (List Int) :=
  ((splitChar ',' (slice1m1 (strip line))).filter (fun c => !c.isEmpty)).mapM (fun c => pyInt (strip c))

/-- `/repo/src/fluidimage/topologies/base.py:630-633`. -/
def readImagesIndices (text : List Char) : Except PyErr (List (List Int)) :=
  (fileLines text).mapM tupleIntsFromStr

end Verif.IndicesFiles
