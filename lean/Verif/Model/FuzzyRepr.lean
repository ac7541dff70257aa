import Verif.Model.Weigher

/-!
# Fuzzy statements as expressions

Model of `FuzzyBool` and `FuzzyVariable` (`/repo/hrosailing/processing/weigher.py:583-857`) by expressions: how a statement
was built, its representation `str(statement)`, and its truth function, for single inputs and for arrays.
-/

namespace Verif.Fuzzy

open Verif.Weigher (sigmoid FuzzyBool)

/-- A text (`/repo/hrosailing/processing/weigher.py:644-645`). -/
abbrev Str := List Char

/-- An input (`/repo/hrosailing/processing/weigher.py:636-638`) which can be subscribed arbitrarily often: the number it
is after the given subscripts. -/
abbrev Input := List Str → ℝ

/-- `x[item]` (`/repo/hrosailing/processing/weigher.py:638`). -/
def Input.item (x : Input) (item : Str) : Input := fun path => x (item :: path)

/-- The comparisons `<`, `>` and `==` (`/repo/hrosailing/processing/weigher.py:821-840`); `<=` and `>=` are the same as
`<` and `>` (lines 828-833). -/
inductive Cmp
  | lt
  | gt
  | eq
  deriving DecidableEq, Repr

/-- How a statement was built (`/repo/hrosailing/processing/weigher.py:621-642`, `:706-737`, `:814-840`). Numbers are given
by their texts, apart from the sharpness of comparisons, which is not part of the representation. -/
inductive Expr
  | compare (key : Option Str) (op : Cmp) (number : Str) (sharpness : ℝ)
  | sigmoid (center sharpness sigma : Str)
  | and (e f : Expr)
  | or (e f : Expr)
  | not (e : Expr)
  | item (e : Expr) (item : Str)

/-- `FuzzyVariable.__str__` (`/repo/hrosailing/processing/weigher.py:849-852`). -/
def variableText : Option Str → Str
  | none => ['x']
  | some key => ['x', '['] ++ key ++ [']']

/-- The sign of a comparison in its representation (`/repo/hrosailing/processing/weigher.py:823`, `:828`, `:839`). -/
def Cmp.text : Cmp → Str
  | .lt => ['<']
  | .gt => ['>']
  | .eq => ['=', '=']

/-- `f"({origin})" if " " in f"{origin}" else f"{origin}"` (`/repo/hrosailing/processing/weigher.py:751-752`). -/
def bracket (s : Str) : Str := if ' ' ∈ s then '(' :: s ++ [')'] else s

/-- `sigmoid(center=` (`/repo/hrosailing/processing/weigher.py:735`). -/
def centerText : Str := ['s', 'i', 'g', 'm', 'o', 'i', 'd', '(', 'c', 'e', 'n', 't', 'e', 'r', '=']

/-- `,sharpness=` (`/repo/hrosailing/processing/weigher.py:735`). -/
def sharpnessText : Str := [',', 's', 'h', 'a', 'r', 'p', 'n', 'e', 's', 's', '=']

/-- `,sigma=` (`/repo/hrosailing/processing/weigher.py:735`). -/
def sigmaText : Str := [',', 's', 'i', 'g', 'm', 'a', '=']

/-- `__str__` (`/repo/hrosailing/processing/weigher.py:621-645`, `:734-736`, `:739-753`, `:821-840`). -/
def Expr.text : Expr → Str
  | .compare key op number _ => variableText key ++ ' ' :: (op.text ++ ' ' :: number)
  | .sigmoid center sharpness sigma =>
    centerText ++ center ++ (sharpnessText ++ sharpness) ++ (sigmaText ++ sigma) ++ [')']
  | .and e f => bracket e.text ++ ' ' :: '&' :: ' ' :: bracket f.text
  | .or e f => bracket e.text ++ ' ' :: '|' :: ' ' :: bracket f.text
  | .not e => '~' :: '(' :: e.text ++ [')']
  | .item e k => e.text ++ '[' :: k ++ [']']

/-- The truth function (`/repo/hrosailing/processing/weigher.py:618-619`, `:636-642`, `:663-737`, `:814-840`); `val` gives the
values of the texts of numbers. -/
noncomputable def Expr.truth (val : Str → ℝ) : Expr → Input → ℝ
  | .compare key op number sharpness => fun x =>
    let v := match key with
      | none => x []
      | some k => x.item k []
    match op with
    | .lt => Weigher.sigmoid (val number) sharpness 1 v
    | .gt => Weigher.sigmoid (val number) sharpness (-1) v
    | .eq => min (Weigher.sigmoid (val number) sharpness 1 v) (Weigher.sigmoid (val number) sharpness (-1) v)
  | .sigmoid center sharpness sigma => fun x => Weigher.sigmoid (val center) (val sharpness) (val sigma) (x [])
  | .and e f => fun x => min (e.truth val x) (f.truth val x)
  | .or e f => fun x => max (e.truth val x) (f.truth val x)
  | .not e => fun x => 1 - e.truth val x
  | .item e k => fun x => e.truth val (x.item k)

/-! ### Evaluation on arrays -/

/-- What a truth function gets and returns (`/repo/hrosailing/processing/weigher.py:618-619`): a number or a
one-dimensional array. -/
inductive Arr
  | scalar (r : ℝ)
  | vector (l : List ℝ)

/-- Functions like `np.exp` act on each entry (`/repo/hrosailing/processing/weigher.py:704`, `:731`). -/
def Arr.map (f : ℝ → ℝ) : Arr → Arr
  | .scalar r => .scalar (f r)
  | .vector l => .vector (l.map f)

/-- A row of `np.row_stack` (`/repo/hrosailing/processing/weigher.py:664`, `:686`): a number becomes a row of one entry. -/
def Arr.row : Arr → List ℝ
  | .scalar r => [r]
  | .vector l => l

/-- `np.min(np.row_stack([a, b]), axis=0)[0]`, resp. with `np.max` (`/repo/hrosailing/processing/weigher.py:663-665`,
`:685-687`). -/
def combine (op : ℝ → ℝ → ℝ) (a b : Arr) : Except PyErr Arr :=
  if a.row.length ≠ b.row.length then .error .valueError
  else
    match (List.zipWith op a.row b.row)[0]? with
    | none => .error .indexError
    | some r => .ok (.scalar r)

/-- The truth function for numbers and arrays (`/repo/hrosailing/processing/weigher.py:663-737`, `:814-840`), for a variable
without key. -/
noncomputable def Expr.array (val : Str → ℝ) : Expr → Arr → Except PyErr Arr
  | .compare _ op number sharpness, x =>
    match op with
    | .lt => .ok (x.map (Weigher.sigmoid (val number) sharpness 1))
    | .gt => .ok (x.map (Weigher.sigmoid (val number) sharpness (-1)))
    | .eq => combine min (x.map (Weigher.sigmoid (val number) sharpness 1)) (x.map (Weigher.sigmoid (val number) sharpness (-1)))
  | .sigmoid center sharpness sigma, x => .ok (x.map (Weigher.sigmoid (val center) (val sharpness) (val sigma)))
  | .and e f, x => do
    let a ← e.array val x
    let b ← f.array val x
    combine min a b
  | .or e f, x => do
    let a ← e.array val x
    let b ← f.array val x
    combine max a b
  | .not e, x => do
    let a ← e.array val x
    return a.map fun r => 1 - r
  | .item _ _, _ => .error .typeError

/-- The argument of `FuzzyWeigher.weigh` (`/repo/hrosailing/processing/weigher.py:885-896`): the rows of a table, an array,
or something else. -/
inductive Points (R : Type)
  | table (rows : List R)
  | array (rows : List R)
  | other

/-- The weights `FuzzyWeigher.weigh` computes (`/repo/hrosailing/processing/weigher.py:879-896`). -/
def weigh {R : Type} (fuzzy : R → Except PyErr ℝ) : Points R → Except PyErr (List ℝ)
  | .table rows => rows.mapM fuzzy
  | .array rows => rows.mapM fuzzy
  | .other => .error .typeError

end Verif.Fuzzy
