import Verif.Model.Data
import Verif.Model.Val

/-!
# `Data.hrosailing_standard_format`

Model of `/repo/hrosailing/core/data.py:370-427`, `:580-590` and of the tables in
`/repo/hrosailing/core/constants.py`. Strings are lists of characters. Simplification: `str.lower` and
`str.strip` are modelled for ASCII characters (other characters are left as they are).
-/

namespace Verif

/-- `KEYSYNONYMS` (`/repo/hrosailing/core/constants.py:18-89`). -/
def keySynonyms : Dict (List Char) (List Char) :=
  [(['w', 'i', 'n', 'd'], ['T', 'W', 'S']),
   (['w', 'i', 'n', 'd', ' ', 's', 'p', 'e', 'e', 'd'], ['T', 'W', 'S']),
   (['t', 'r', 'u', 'e'], ['T', 'W', 'S']),
   (['t', 'r', 'u', 'e', ' ', 'w', 'i', 'n', 'd'], ['T', 'W', 'S']),
   (['t', 'r', 'u', 'e', ' ', 'w', 'i', 'n', 'd', ' ', 's', 'p', 'e', 'e', 'd'], ['T', 'W', 'S']),
   (['w', 's'], ['T', 'W', 'S']),
   (['t', 'w', 's'], ['T', 'W', 'S']),
   (['w', 's', 'p', 'd'], ['T', 'W', 'S']),
   (['a', 'p', 'p', 'a', 'r', 'e', 'n', 't', ' ', 'w', 'i', 'n', 'd', ' ', 's', 'p', 'e', 'e', 'd'], ['A', 'W', 'S']),
   (['a', 'p', 'p', 'a', 'r', 'e', 'n', 't', ' ', 'w', 'i', 'n', 'd'], ['A', 'W', 'S']),
   (['a', 'p', 'p', 'a', 'r', 'e', 'n', 't'], ['A', 'W', 'S']),
   (['a', 'w', 's'], ['A', 'W', 'S']),
   (['a', 'n', 'g', 'l', 'e'], ['T', 'W', 'A']),
   (['w', 'i', 'n', 'd', ' ', 'a', 'n', 'g', 'l', 'e'], ['T', 'W', 'A']),
   (['t', 'r', 'u', 'e', ' ', 'a', 'n', 'g', 'l', 'e'], ['T', 'W', 'A']),
   (['t', 'r', 'u', 'e', ' ', 'w', 'i', 'n', 'd', ' ', 'a', 'n', 'g', 'l', 'e'], ['T', 'W', 'A']),
   (['w', 'a'], ['T', 'W', 'A']),
   (['t', 'w', 'a'], ['T', 'W', 'A']),
   (['a', 'p', 'p', 'a', 'r', 'e', 'n', 't', ' ', 'w', 'i', 'n', 'd', ' ', 'a', 'n', 'g', 'l', 'e'], ['A', 'W', 'A']),
   (['a', 'p', 'p', 'a', 'r', 'e', 'n', 't', ' ', 'a', 'n', 'g', 'l', 'e'], ['A', 'W', 'A']),
   (['a', 'w', 'a'], ['A', 'W', 'A']),
   (['s', 'p', 'e', 'e', 'd'], ['B', 'S', 'P']),
   (['b', 'o', 'a', 't', ' ', 's', 'p', 'e', 'e', 'd'], ['B', 'S', 'P']),
   (['b', 'o', 'a', 't', ' ', 's', 'p', 'e', 'e', 'd', ' ', 'k', 'n', 'o', 't', 's'], ['B', 'S', 'P']),
   (['v', 'e', 's', 's', 'e', 'l', ' ', 's', 'p', 'e', 'e', 'd'], ['B', 'S', 'P']),
   (['v', 'e', 's', 's', 'e', 'l', ' ', 's', 'p', 'e', 'e', 'd', ' ', 'k', 'n', 'o', 't', 's'], ['B', 'S', 'P']),
   (['s', 'p'], ['B', 'S', 'P']),
   (['b', 's', 'p'], ['B', 'S', 'P']),
   (['b', 's', 'p', 's'], ['B', 'S', 'P']),
   (['w', 'a', 't', 'e', 'r', ' ', 's', 'p', 'e', 'e', 'd'], ['B', 'S', 'P']),
   (['w', 'a', 't', 'e', 'r', ' ', 's', 'p', 'e', 'e', 'd', ' ', 'k', 'n', 'o', 't', 's'], ['B', 'S', 'P']),
   (['w', 's', 'p'], ['B', 'S', 'P']),
   (['s', 'p', 'e', 'e', 'd', ' ', 'o', 'v', 'e', 'r', ' ', 'g', 'r', 'o', 'u', 'n', 'd'], ['S', 'O', 'G']),
   (['s', 'p', 'e', 'e', 'd', ' ', 'o', 'v', 'e', 'r', ' ', 'g', 'r', 'o', 'u', 'n', 'd', ' ', 'k', 'n', 'o', 't', 's'], ['S', 'O', 'G']),
   (['o', 'g'], ['S', 'O', 'G']),
   (['s', 'o', 'g'], ['S', 'O', 'G']),
   (['s', 'p', 'd', ' ', 'o', 'v', 'e', 'r', ' ', 'g', 'r', 'n', 'd'], ['S', 'O', 'G']),
   (['d', 'a', 't', 'e'], ['d', 'a', 't', 'e']),
   (['d', 'a', 't', 'e', 's', 't', 'a', 'm', 'p'], ['d', 'a', 't', 'e']),
   (['d', 'a', 't', 'e', ' ', 's', 't', 'a', 'm', 'p'], ['d', 'a', 't', 'e']),
   (['t', 'i', 'm', 'e'], ['t', 'i', 'm', 'e']),
   (['t', 'i', 'm', 'e', 's', 't', 'a', 'm', 'p'], ['t', 'i', 'm', 'e']),
   (['t', 'i', 'm', 'e', ' ', 's', 't', 'a', 'm', 'p'], ['t', 'i', 'm', 'e']),
   (['d', 'a', 't', 'e', 't', 'i', 'm', 'e'], ['d', 'a', 't', 'e', 't', 'i', 'm', 'e']),
   (['d', 'a', 't', 'e', ' ', 't', 'i', 'm', 'e'], ['d', 'a', 't', 'e', 't', 'i', 'm', 'e']),
   (['l', 'a', 't'], ['l', 'a', 't']),
   (['l', 'a', 't', 'i', 't', 'u', 'd', 'e'], ['l', 'a', 't']),
   (['l', 'o', 'n'], ['l', 'o', 'n']),
   (['l', 'o', 'n', 'g'], ['l', 'o', 'n']),
   (['l', 'o', 'n', 'g', 'i', 't', 'u', 'd', 'e'], ['l', 'o', 'n']),
   (['t', 'e', 'm', 'p'], ['t', 'e', 'm', 'p']),
   (['t', 'e', 'm', 'p', 'e', 'r', 'a', 't', 'u', 'r', 'e'], ['t', 'e', 'm', 'p']),
   (['d', 'e', 'w', 'p', 'o', 'i', 'n', 't'], ['d', 'e', 'w', 'p', 'o', 'i', 'n', 't']),
   (['d', 'e', 'w', 'p', 't'], ['d', 'e', 'w', 'p', 'o', 'i', 'n', 't']),
   (['d', 'w', 'p', 't'], ['d', 'e', 'w', 'p', 'o', 'i', 'n', 't']),
   (['d', 'w', 'p', 'o', 'i', 'n', 't'], ['d', 'e', 'w', 'p', 'o', 'i', 'n', 't']),
   (['r', 'e', 'l', ' ', 'h', 'u', 'm', 'i', 'd', 'i', 't', 'y'], ['h', 'u', 'm', 'i', 'd', 'i', 't', 'y']),
   (['r', 'e', 'l', 'a', 't', 'i', 'v', 'e', ' ', 'h', 'u', 'm', 'i', 'd', 'i', 't', 'y'], ['h', 'u', 'm', 'i', 'd', 'i', 't', 'y']),
   (['r', 'e', 'l', ' ', 'h', 'u', 'm'], ['h', 'u', 'm', 'i', 'd', 'i', 't', 'y']),
   (['r', 'e', 'l', 'a', 't', 'i', 'v', 'e', ' ', 'h', 'u', 'm'], ['h', 'u', 'm', 'i', 'd', 'i', 't', 'y']),
   (['r', 'h', 'u', 'm'], ['h', 'u', 'm', 'i', 'd', 'i', 't', 'y']),
   (['r', 'e', 'l', 'h', 'u', 'm'], ['h', 'u', 'm', 'i', 'd', 'i', 't', 'y']),
   (['h', 'u', 'm'], ['h', 'u', 'm', 'i', 'd', 'i', 't', 'y']),
   (['h', 'u', 'm', 'i', 'd', 'i', 't', 'y'], ['h', 'u', 'm', 'i', 'd', 'i', 't', 'y']),
   (['w', 'd'], ['W', 'D']),
   (['w', 'd', 'i', 'r'], ['W', 'D']),
   (['w', 'i', 'n', 'd', 'd', 'i', 'r'], ['W', 'D']),
   (['w', 'p', 'g', 't'], ['g', 'u', 's', 't']),
   (['p', 'r', 'e', 's'], ['a', 'i', 'r', ' ', 'p', 'r', 'e', 's', 's', 'u', 'r', 'e']),
   (['t', 's', 'u', 'n'], ['t', 'o', 't', 'a', 'l', ' ', 's', 'u', 'n', 's', 'h', 'i', 'n', 'e'])]

/-- `SEPARATORS` (`/repo/hrosailing/core/constants.py:104`). -/
def separators : List Char := [',', ';', '_', '-', '+', '&', '\n', '\t']

/-- The characters removed by `str.strip()` (`/repo/hrosailing/core/data.py:384`), ASCII part. -/
def isPySpace (c : Char) : Bool :=
  c = ' ' || c = '\t' || c = '\n' || c = '\r' || c = '\x0b' || c = '\x0c' ||
  c = '\x1c' || c = '\x1d' || c = '\x1e' || c = '\x1f'

/-- `str.strip()` (`/repo/hrosailing/core/data.py:384`). -/
def pyStrip (s : List Char) : List Char :=
  ((s.dropWhile isPySpace).reverse.dropWhile isPySpace).reverse

/-- The normal form `lkey` of a key (`/repo/hrosailing/core/data.py:381-384`). -/
def normKey (key : List Char) : List Char :=
  pyStrip (separators.foldl (fun l sep => l.map fun c => if c = sep then ' ' else c) (key.map Char.toLower))

/-- `get_standard_key` (`/repo/hrosailing/core/data.py:380-392`); `lkey[-1]` raises `IndexError` if the
normal form is empty. -/
def standardKey (key : List Char) : Except PyErr (List Char) :=
  let lkey := normKey key
  match lkey.getLast? with
  | none => .error .indexError
  | some last =>
    let stripped := if last ≠ 's' then lkey else lkey.dropLast
    match keySynonyms.get? lkey with
    | some s => .ok s
    | none =>
      match keySynonyms.get? stripped with
      | some s => .ok s
      | none => .ok key

/-- `f"{standard_key}(Control value {i})"` (`/repo/hrosailing/core/data.py:403`). -/
def controlName (std : List Char) (i : Nat) : List Char :=
  std ++ ['(', 'C', 'o', 'n', 't', 'r', 'o', 'l', ' ', 'v', 'a', 'l', 'u', 'e', ' '] ++ Nat.toDigits 10 i ++ [')']

/-- The loop `while new_key in self.keys()` (`/repo/hrosailing/core/data.py:400-403`), run for at most
`fuel` iterations. -/
def freshLoop (std : List Char) (keys : List (List Char)) : Nat → Nat → List Char → Option (List Char)
  | 0, _, _ => none
  | fuel + 1, i, newKey =>
    if newKey ∈ keys then freshLoop std keys fuel (i + 1) (controlName std (i + 1)) else some newKey

namespace Data

variable {V τ : Type} [DecidableEq τ] [HasType V τ]

/-- Body of the renaming loop (`/repo/hrosailing/core/data.py:395-403`). The inner loop gets as much fuel as
there are keys plus two; `none` (never reached, see `freshLoop_terminates`) is mapped to `otherError`. -/
def standardiseKey (D : Data (List Char) V τ) (key : List Char) : Res (Data (List Char) V τ) :=
  match standardKey key with
  | .error e => (D, some e)
  | .ok std =>
    if key = std then (D, none)
    else
      match freshLoop std D.keys (D.keys.length + 2) 0 std with
      | none => (D, some .otherError)
      | some newKey => rename D key newKey

/-- The renaming loop over a snapshot of the keys (`/repo/hrosailing/core/data.py:394-403`). -/
def standardiseKeys (D : Data (List Char) V τ) : Res (Data (List Char) V τ) :=
  Res.forEach standardiseKey D.keys D

end Data

namespace Data

/-- `combine` (`/repo/hrosailing/core/data.py:407-410`); `datetime.combine` raises `TypeError` for arguments
that are not a date and a time. -/
def combine : Option Val → Option Val → Except PyErr (Option Val)
  | none, _ => .ok none
  | _, none => .ok none
  | some (.date d), some (.time t) => .ok (some (.datetime d t))
  | some _, some _ => .error .typeError

/-- `[combine(date, time) for date, time in zip(...)]` (`/repo/hrosailing/core/data.py:415-418`). -/
def combineAll : List (Option Val) → List (Option Val) → Except PyErr (List (Option Val))
  | d :: ds, t :: ts =>
    match combine d t with
    | .error e => .error e
    | .ok x =>
      match combineAll ds ts with
      | .error e => .error e
      | .ok xs => .ok (x :: xs)
  | _, _ => .ok []

/-- The key `"date"` (`/repo/hrosailing/core/data.py:405`). -/
def kDate : List Char := ['d', 'a', 't', 'e']
/-- The key `"time"` (`/repo/hrosailing/core/data.py:405`). -/
def kTime : List Char := ['t', 'i', 'm', 'e']
/-- The key `"datetime"` (`/repo/hrosailing/core/data.py:414`). -/
def kDatetime : List Char := ['d', 'a', 't', 'e', 't', 'i', 'm', 'e']

/-- Aggregation of date and time (`/repo/hrosailing/core/data.py:405-420`). -/
def aggregateDatetime (D : Data (List Char) Val Ty) : Res (Data (List Char) Val Ty) :=
  match D.cols.get? kTime, D.cols.get? kDate with
  | some ts, some ds =>
    match combineAll ds ts with
    | .error e => (D, some e)
    | .ok l => ((extend D kDatetime l).andThen fun D => deleteCol D kDate).andThen fun D => deleteCol D kTime
  | _, _ => (D, none)

/-- `float(value)` (`/repo/hrosailing/core/data.py:587`); `none` stands for `TypeError`/`ValueError`. The
conversion of strings is the parameter `parse`. -/
def toFloat (parse : List Char → Option Rat) : Val → Option Val
  | .int z => some (.float z)
  | .float q => some (.float q)
  | .decimal q => some (.float q)
  | .str s => (parse s).map .float
  | _ => none

/-- `_try_call_to_float` (`/repo/hrosailing/core/data.py:580-590`): the list of floats, or `none` if one of the
conversions fails (python then returns the original list). -/
def tryFloats (parse : List Char → Option Rat) : List (Option Val) → Option (List (Option Val))
  | [] => some []
  | none :: l => (tryFloats parse l).map (none :: ·)
  | some v :: l =>
    match toFloat parse v with
    | none => none
    | some f => (tryFloats parse l).map (some f :: ·)

/-- Body of the casting loop (`/repo/hrosailing/core/data.py:423-427`). `np.float_` is identified with `float`. -/
def castKey (parse : List Char → Option Rat) (D : Data (List Char) Val Ty) (k : List Char) :
    Res (Data (List Char) Val Ty) :=
  match D.types.get? k, D.cols.get? k with
  | some t, some c =>
    if t = some .int ∨ t = some .str ∨ t = some .decimal then
      match tryFloats parse c with
      | some l => ({ D with cols := D.cols.set k l, types := D.types.set k (some .float) }, none)
      | none => (D, none)
    else (D, none)
  | _, _ => (D, some .keyError)

/-- `hrosailing_standard_format` (`/repo/hrosailing/core/data.py:370-427`). -/
def standardFormat (parse : List Char → Option Rat) (D : Data (List Char) Val Ty) :
    Res (Data (List Char) Val Ty) :=
  ((standardiseKeys D).andThen aggregateDatetime).andThen fun D =>
    Res.forEach (castKey parse) D.keys D

end Data
end Verif
