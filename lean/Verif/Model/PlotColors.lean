import Verif.Model.Plot

/-!
# Colours and legends of plots

Model of how `/repo/hrosailing/plotting/projections.py` chooses the colours of the slices and the entries of the legend.

External: `matplotlib.colors.is_color_like` for names (a parameter); for numbers it is false, for tuples of numbers it is
true if there are three or four of them, all between 0 and 1, and for pairs of a wind speed and a colour it is false.
`set_prop_cycle` and `Line2D` raise `ValueError` for something which is not a colour (components which are `nan` are not
rejected). Drawing is not modelled.
-/

namespace Verif.Plot

variable {K : Type} [Field K] [LinearOrder K]

/-- An element of the argument `colors` (`/repo/hrosailing/plotting/projections.py:86-97`): a name of a colour (or another
string), a number of type `int` or `float`, a tuple of numbers, or a pair of a wind speed and the name of a colour. -/
inductive Item (K : Type)
  | name (s : List Char)
  | int (x : K)
  | float (x : K)
  | rgb (l : List K)
  | pair (label : K) (color : List Char)
  deriving DecidableEq

/-- The argument `colors` (`/repo/hrosailing/plotting/projections.py:86-97`): a string, a tuple or a list. -/
inductive Colors (K : Type)
  | text (s : List Char)
  | tuple (l : List (Item K))
  | list (l : List (Item K))

/-- The elements of `colors` (`/repo/hrosailing/plotting/projections.py:700`, `:718`); those of a string are its
characters. -/
def Colors.items : Colors K → List (Item K)
  | .text s => s.map fun c => .name [c]
  | .tuple l => l
  | .list l => l

/-- The value of a number in a tuple (`/repo/hrosailing/plotting/projections.py:693-694`). -/
def Item.number? : Item K → Option K
  | .int x => some x
  | .float x => some x
  | _ => none

/-- `is_color_like` for a tuple of numbers (`/repo/hrosailing/plotting/projections.py:694`, `:700`). -/
def rgbLike (l : List K) : Bool := (l.length = 3 || l.length = 4) && l.all fun x => decide (0 ≤ x ∧ x ≤ 1)

/-- `is_color_like` for an element (`/repo/hrosailing/plotting/projections.py:700`, `:761`). -/
def Item.colorLike (isColor : List Char → Bool) : Item K → Bool
  | .name s => isColor s
  | .int _ => false
  | .float _ => false
  | .rgb l => rgbLike l
  | .pair _ _ => false

/-- `is_color_like(colors)` for a tuple (`/repo/hrosailing/plotting/projections.py:694`). -/
def tupleLike (l : List (Item K)) : Bool := l.all (fun x => x.number?.isSome) && rgbLike (l.filterMap Item.number?)

/-- `_only_one_color` (`/repo/hrosailing/plotting/projections.py:688-696`). -/
def onlyOneColor (isColor : List Char → Bool) : Colors K → Bool
  | .text s => isColor s
  | .tuple l =>
    if l.length = 3 ∨ l.length = 4 then
      match l with
      | .int _ :: _ => tupleLike l
      | _ => false
    else false
  | .list _ => false

/-- `_no_color_gradient` (`/repo/hrosailing/plotting/projections.py:699-701`). -/
def noGradient (isColor : List Char → Bool) (colors : Colors K) : Bool :=
  decide (colors.items.length ≠ 2) || !colors.items.all (Item.colorLike isColor)

/-- The colour a slice is drawn in: the argument `colors` itself, the colour `"blue"`, an element of `colors`, the colour
of a pair, or a mixture of the two given colours (`none` for `nan`)
(`/repo/hrosailing/plotting/projections.py:679`, `:705`, `:720`, `:715`, `:751-753`). -/
inductive Paint (K : Type)
  | whole
  | blue
  | item (x : Item K)
  | named (s : List Char)
  | mix (c : Option K)
  deriving DecidableEq

/-- Whether `set_prop_cycle` accepts a colour (`/repo/hrosailing/plotting/projections.py:708`). -/
def Paint.valid (isColor : List Char → Bool) : Paint K → Bool
  | .whole => true
  | .blue => true
  | .item x => x.colorLike isColor
  | .named s => isColor s
  | .mix _ => true

/-- The loop over pairs of a wind speed and a colour (`/repo/hrosailing/plotting/projections.py:713-715`); unpacking
something else raises, as does `index` for an unknown wind speed. -/
def pairCycle (labels : List K) : List (Item K) → List (Paint K) → Except PyErr (List (Paint K))
  | [], cycle => .ok cycle
  | .pair label color :: l, cycle =>
    if label ∈ labels then pairCycle labels l (cycle.set (labels.idxOf label) (.named color))
    else .error .valueError
  | .int _ :: _, _ => .error .typeError
  | .float _ :: _, _ => .error .typeError
  | .name _ :: _, _ => .error .valueError
  | .rgb _ :: _, _ => .error .valueError

/-- The loop over colours (`/repo/hrosailing/plotting/projections.py:718-720`). -/
def turnCycle : List (Item K) → List (Paint K) → List (Paint K)
  | _, [] => []
  | [], cycle => cycle
  | x :: l, _ :: cycle => .item x :: turnCycle l cycle

/-- `_configure_color_cycle` (`/repo/hrosailing/plotting/projections.py:711-720`). A tuple of two numbers is treated as a
pair, whose second entry is not a colour. -/
def colorCycle (labels : List K) (colors : Colors K) : Except PyErr (List (Paint K)) :=
  match colors.items with
  | [] => .error .indexError
  | .pair w c :: l => pairCycle labels (.pair w c :: l) (List.replicate labels.length .blue)
  | .rgb x :: l =>
    if x.length = 2 then .error .valueError else .ok (turnCycle (.rgb x :: l) (List.replicate labels.length .blue))
  | x :: l => .ok (turnCycle (x :: l) (List.replicate labels.length .blue))

/-- `_configure_colors` (`/repo/hrosailing/plotting/projections.py:677-685`): the colours of the slices, in order. For a
single colour the cycle is repeated. -/
def sliceColors (isColor : List Char → Bool) (labels : List K) (colors : Colors K) : Except PyErr (List (Paint K)) :=
  if onlyOneColor isColor colors then .ok (List.replicate labels.length .whole)
  else
    match
      (if labels.length ≤ colors.items.length ∨ noGradient isColor colors = true then colorCycle labels colors
       else .ok ((coefficients labels).map .mix)) with
    | .error e => .error e
    | .ok cycle => if cycle.all (Paint.valid isColor) then .ok cycle else .error .valueError

/-- The legend: a colour bar between two wind speeds, or entries consisting of a wind speed and a colour
(`/repo/hrosailing/plotting/projections.py:756-808`). -/
inductive Legend (K : Type)
  | bar (lo hi : K)
  | entries (l : List (K × Paint K))
  deriving DecidableEq

/-- `_set_legend_without_wind_speeds` (`/repo/hrosailing/plotting/projections.py:789-796`); an element which cannot be
unpacked raises. -/
def pairEntries : List (Item K) → Except PyErr (List (K × Paint K))
  | [] => .ok []
  | .pair label color :: l => (pairEntries l).map fun r => (label, .named color) :: r
  | .int _ :: _ => .error .typeError
  | .float _ :: _ => .error .typeError
  | .name _ :: _ => .error .valueError
  | .rgb _ :: _ => .error .valueError

/-- `_configure_legend` (`/repo/hrosailing/plotting/projections.py:756-808`) for the wind speeds of the slices. -/
def legend (isColor : List Char → Bool) (labels : List K) (colors : Colors K) : Except PyErr (Legend K) :=
  if noGradient isColor colors = false ∧ colors.items.length < labels.length ∧ colors.items.length = 2 then
    match labels with
    | [] => .error .valueError
    | w :: l => .ok (.bar (l.foldl min w) (l.foldl max w))
  else
    match
      (match colors.items with
       | [] => .error .indexError
       | .pair w c :: l => pairEntries (.pair w c :: l)
       | .rgb x :: l =>
         if rgbLike x then .ok (labels.zip ((Item.rgb x :: l).map .item)) else .error .valueError
       | x :: l => .ok (labels.zip ((x :: l).map .item)) : Except PyErr (List (K × Paint K))) with
    | .error e => .error e
    | .ok entries =>
      if entries.all fun p => p.2.valid isColor then .ok (.entries entries) else .error .valueError

end Verif.Plot
