import Verif.Model.Data

/-!
# Looking at `Data`: `in`, `n_cols`, `type` and `str`

Texts are lists of characters, as in `Verif.Model.StdFormat`. The texts python produces for a single entry (`str(item)`
and `repr(item)`) and for a type (`str(type_)`) are parameters.
-/

namespace Verif.Data

variable {κ V τ : Type} [DecidableEq κ]

/-- `key in data`, `__contains__` (`/repo/hrosailing/core/data.py:556-557`). -/
def contains (D : Data κ V τ) (key : κ) : Bool := (D.cols.get? key).isSome

/-- `data.n_cols` (`/repo/hrosailing/core/data.py:67-72`). -/
def nCols (D : Data κ V τ) : Nat := D.cols.length

/-- `data.type(key)` (`/repo/hrosailing/core/data.py:137-148`): the recorded type, `KeyError` for unknown names. -/
def typeOfKey (D : Data κ V τ) (key : κ) : Except PyErr (Option τ) :=
  match D.types.get? key with
  | some t => .ok t
  | none => .error .keyError

/-- `data[key]` for a column name (`/repo/hrosailing/core/data.py:538-540`). -/
def getCol (D : Data κ V τ) (key : κ) : Except PyErr (List (Option V)) :=
  match D.cols.get? key with
  | some c => .ok c
  | none => .error .keyError

/-- `sep.join(texts)` (used in `/repo/hrosailing/core/data.py:571`, `:573` and by `str` of a list in `:568`). -/
def joinText (sep : List Char) : List (List Char) → List Char
  | [] => []
  | [t] => t
  | t :: ts => t ++ sep ++ joinText sep ts

/-- `str(list)` (python; used in `/repo/hrosailing/core/data.py:568`): the representations of the entries, separated
by `", "`, in brackets. -/
def listText (reprV : Option V → List Char) (c : List (Option V)) : List Char :=
  "[".toList ++ joinText ", ".toList (c.map reprV) ++ "]".toList

/-- The text of the entries of a column (`/repo/hrosailing/core/data.py:567-574`): all of them if there are less than ten,
the first five and the last five otherwise. -/
def colText (strV reprV : Option V → List Char) (c : List (Option V)) : List Char :=
  if c.length < 10 then listText reprV c
  else "[".toList ++ joinText ",".toList ((c.take 5).map strV) ++ ", ... ,".toList ++
    joinText ",".toList ((c.drop (c.length - 5)).map strV) ++ "]".toList

/-- The text before the name of a column (`/repo/hrosailing/core/data.py:566`). -/
def textHead : List Char := "Data field '".toList

/-- The text between the closing quote after the name of a column and its type (`/repo/hrosailing/core/data.py:566`). -/
def textType : List Char := " of type ".toList

/-- One pass of the loop of `__str__` (`/repo/hrosailing/core/data.py:566-575`) for a column with the given name, type and
entries. -/
def fieldText (showT : Option τ → List Char) (strV reprV : Option V → List Char)
    (k : List Char) (t : Option τ) (c : List (Option V)) : List Char :=
  textHead ++ k ++ '\'' :: (textType ++ showT t ++ ':' :: '\n' :: '\t' :: (colText strV reprV c ++ ['\n']))

/-- The loop of `__str__` (`/repo/hrosailing/core/data.py:565-575`): `self._types[key]` raises `KeyError` if no type is
recorded. -/
def textLoop (showT : Option τ → List Char) (strV reprV : Option V → List Char) (types : Dict (List Char) (Option τ)) :
    Dict (List Char) (List (Option V)) → Except PyErr (List Char)
  | [] => .ok []
  | (k, c) :: d =>
    match types.get? k with
    | none => .error .keyError
    | some t =>
      match textLoop showT strV reprV types d with
      | .error e => .error e
      | .ok r => .ok (fieldText showT strV reprV k t c ++ r)

/-- `str(data)` (`/repo/hrosailing/core/data.py:563-577`). -/
def text (showT : Option τ → List Char) (strV reprV : Option V → List Char) (D : Data (List Char) V τ) :
    Except PyErr (List Char) := textLoop showT strV reprV D.types D.cols

end Verif.Data
