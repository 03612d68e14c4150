import Verif.Py.Basic

/-!
# Insertion-ordered dictionaries (Python `dict` / `collections.OrderedDict`)
-/

namespace Verif

/-- An insertion-ordered dictionary: list of key/value pairs, oldest first. -/
abbrev Dict (κ α : Type) := List (κ × α)

namespace Dict
variable {κ α : Type} [DecidableEq κ]

/-- `list(d.keys())` -/
def keys (d : Dict κ α) : List κ := d.map Prod.fst

/-- `d.get(k)` -/
def get? (d : Dict κ α) (k : κ) : Option α :=
  match d with
  | [] => none
  | (k', v) :: d => if k' = k then some v else get? d k

/-- `d[k] = v`: an existing key keeps its position, a new key goes to the end. -/
def set (d : Dict κ α) (k : κ) (v : α) : Dict κ α :=
  match d with
  | [] => [(k, v)]
  | (k', v') :: d => if k' = k then (k, v) :: d else (k', v') :: set d k v

/-- `del d[k]` (the entry of key `k`, if any, is removed). -/
def erase (d : Dict κ α) (k : κ) : Dict κ α :=
  match d with
  | [] => []
  | (k', v') :: d => if k' = k then d else (k', v') :: erase d k

/-- `d.popitem(last=False)`: `KeyError` on an empty dictionary. -/
def popFirst (d : Dict κ α) : Except PyErr ((κ × α) × Dict κ α) :=
  match d with
  | [] => .error .keyError
  | kv :: d => .ok (kv, d)

/-- No key is present twice. -/
def KeysUnique (d : Dict κ α) : Prop := (keys d).Nodup

end Dict
end Verif
