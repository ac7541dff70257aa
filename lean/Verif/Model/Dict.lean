/-!
# python dictionaries

A python `dict` as used in `/repo/hrosailing/core/data.py` lines 32-35 (`self._data = {}`,
`self._types = {}`) and in all functions taking dictionaries: an association list in insertion order.
Assigning to an existing key keeps its position, assigning to a new key appends it.
-/

namespace Verif

/-- A python dictionary (`/repo/hrosailing/core/data.py:34-35`): key/value pairs in insertion order. -/
abbrev Dict (κ α : Type) := List (κ × α)

namespace Dict

variable {κ α β : Type} [DecidableEq κ]

/-- `d.get(k)`; used for `self._data[key]` (`/repo/hrosailing/core/data.py:538-540`), where the result
`none` is turned into a `KeyError` by the caller. -/
def get? : Dict κ α → κ → Option α
  | [], _ => none
  | (k', v) :: d, k => if k' = k then some v else get? d k

/-- `d[k] = v` (`/repo/hrosailing/core/data.py:171-177`). -/
def set : Dict κ α → κ → α → Dict κ α
  | [], k, v => [(k, v)]
  | (k', v') :: d, k, v => if k' = k then (k', v) :: d else (k', v') :: set d k v

/-- `del d[k]` for an existing key (`/repo/hrosailing/core/data.py:311-313`); the `KeyError` for a
missing key is raised by the caller. -/
def del : Dict κ α → κ → Dict κ α
  | [], _ => []
  | (k', v') :: d, k => if k' = k then d else (k', v') :: del d k

/-- `list(d.keys())` (`/repo/hrosailing/core/data.py:37-44`). -/
def keys (d : Dict κ α) : List κ := d.map Prod.fst

/-- `{key: f(value) for key, value in d.items()}`
(e.g. `/repo/hrosailing/core/data.py:322-325`, `526-529`). -/
def mapVals (f : α → β) (d : Dict κ α) : Dict κ β := d.map fun p => (p.1, f p.2)

/-- `{key: value for key, value in d.items() if keep(key, value)}`
(e.g. `/repo/hrosailing/core/data.py:342-346`, `507-511`). -/
def filterItems (keep : κ → α → Bool) (d : Dict κ α) : Dict κ α := d.filter fun p => keep p.1 p.2

end Dict
end Verif
