import Verif.Model.Dict
import Verif.Model.Py

/-!
# Keyword arguments of plots

Model of the way of keyword arguments through the projections (`/repo/hrosailing/plotting/projections.py`) to matplotlib. The
parameters named by the methods (`ws`, `n_steps`, `colors`, `show_legend`, `legend_kw`, `use_convex_hull`, `wind`) are taken out of
the keyword arguments by python and given separately. Matplotlib is the parameter `accepts`: the keywords known by a method, others
raise `AttributeError`. What is drawn is modelled in `Verif.Model.PlotCalls`, the colours in `Verif.Model.PlotColors`.
-/

namespace Verif.PlotKw

/-- The methods of matplotlib (`/repo/hrosailing/plotting/projections.py:409-411`, `:429`, `:469`, `:471`, `:776-782`, `:790-796`, `:802-808`).
-/
inductive Fn
  | plot | scatter | scatter3d | trisurf | colorbar | legend
  deriving DecidableEq, Repr

/-- A call of a method of matplotlib with the keyword arguments forwarded to it
(`/repo/hrosailing/plotting/projections.py:468-471`). -/
structure Call (V : Type) where
  fn : Fn
  keywords : Dict String V
  deriving DecidableEq, Repr

variable {V : Type}

/-- A call `f(a, b, …, **kwargs)` (`/repo/hrosailing/plotting/projections.py:131-134`), where `names` are the parameters for the
positional arguments: `TypeError` (multiple values for an argument) if one of them is in `kwargs`. -/
def bind (names : List String) (kw : Dict String V) : Except PyErr (Dict String V) :=
  if kw.any (fun p => decide (p.1 ∈ names)) = true then .error .typeError else .ok kw

/-- A call of matplotlib with the keywords `given` by the library and those forwarded
(`/repo/hrosailing/plotting/projections.py:409-411`, `:429`, `:776-782`). -/
def mpl (accepts : Fn → String → Bool) (fn : Fn) (given : List String) (kw : Dict String V) : Except PyErr (Call V) :=
  match bind given kw with
  | .error e => .error e
  | .ok kw => if kw.all (fun p => accepts fn p.1) = true then .ok ⟨fn, kw⟩ else .error .attributeError

/-- `_check_plot_kw` (`/repo/hrosailing/plotting/projections.py:665-673`); `truthy` is python's truth value of the objects, `none` is
python's `None`, `solid`, `noLine`, `circle` are `"-"`, `""` and `"o"`. -/
def checkPlotKw (truthy : V → Bool) (none : V) [DecidableEq V] (solid noLine circle : V) (lines : Bool) (kw : Dict String V) :
    Dict String V :=
  let linestyle := (kw.get? "linestyle").getD none
  let kw := kw.del "linestyle"
  let ls := if truthy linestyle = true then linestyle else (kw.get? "ls").getD none
  let kw := if truthy linestyle = true then kw else kw.del "ls"
  let kw := kw.set "ls" (if ls = none then (if lines = true then solid else noLine) else ls)
  if (kw.get? "marker").getD none = none ∧ lines = false then kw.set "marker" circle else kw

/-- `_configure_legend` (`/repo/hrosailing/plotting/projections.py:756-808`): the call of matplotlib, where `gradient` is
`_plot_with_color_gradient(ws, colors)`. -/
def configureLegend (accepts : Fn → String → Bool) (gradient : Bool) (legendKw : Dict String V) : Except PyErr (Call V) :=
  match bind ["ax", "ws", "colors", "label"] legendKw with
  | .error e => .error e
  | .ok kw => if gradient = true then mpl accepts .colorbar ["mappable", "ax"] kw else mpl accepts .legend ["handles"] kw

/-- `_configure_axes` (`/repo/hrosailing/plotting/projections.py:651-657`): the calls for the legend. The result of `_check_plot_kw` is
dropped: `kwargs` is a new dictionary. -/
def configureAxes (accepts : Fn → String → Bool) (showLegend gradient : Bool) (legendKw : Option (Dict String V))
    (kw : Dict String V) : Except PyErr (List (Call V)) :=
  match bind ["ax", "labels", "colors", "show_legend", "legend_kw"] kw with
  | .error e => .error e
  | .ok _ => if showLegend = true then (configureLegend accepts gradient (legendKw.getD [])).map fun c => [c] else .ok []

/-- The loop of `_plot` (`/repo/hrosailing/plotting/projections.py:458-471`) for `n` slices: what was drawn before an exception stays.
-/
def drawLoop (accepts : Fn → String → Bool) (fn : Fn) (kw : Dict String V) : Nat → Res (List (Call V))
  | 0 => ([], none)
  | n + 1 =>
    match mpl accepts fn [] kw with
    | .error e => ([], some e)
    | .ok c => (c :: (drawLoop accepts fn kw n).1, (drawLoop accepts fn kw n).2)

/-- `_plot` (`/repo/hrosailing/plotting/projections.py:438-471`): `scatter = true` if `use_scatter` is given as positional argument, else
it is taken from the keyword arguments. -/
def plot (accepts : Fn → String → Bool) (truthy : V → Bool) (scatter : Bool) (n : Nat) (kw : Dict String V) : Res (List (Call V)) :=
  match bind (["ax", "slices", "info", "use_radians", "use_convex_hull"] ++ if scatter = true then ["use_scatter"] else []) kw with
  | .error e => ([], some e)
  | .ok kw =>
    let useScatter := scatter || ((kw.get? "use_scatter").map truthy).getD false
    let kw := kw.del "use_scatter"
    if n = 0 then drawLoop accepts .plot kw 1 else drawLoop accepts (if useScatter = true then .scatter else .plot) kw n

/-- The methods `plot` and `scatter` of `HROPolar` (`/repo/hrosailing/plotting/projections.py:57-171`, `polar = true`) and `HROFlat`
(`/repo/hrosailing/plotting/projections.py:181-236`) for a diagram with `n` slices. -/
def projectionPlot (accepts : Fn → String → Bool) (truthy : V → Bool) (polar scatter showLegend gradient : Bool)
    (legendKw : Option (Dict String V)) (n : Nat) (kw : Dict String V) : Res (List (Call V)) :=
  match bind (["self"] ++ if polar = true then ["args"] else []) kw with
  | .error e => ([], some e)
  | .ok kw =>
    match configureAxes accepts showLegend gradient legendKw kw with
    | .error e => ([], some e)
    | .ok legends => (legends ++ (plot accepts truthy scatter n kw).1, (plot accepts truthy scatter n kw).2)

/-- `HROColorGradient.scatter` (`/repo/hrosailing/plotting/projections.py:257-311`); `plot` is the same (`:247-255`). The call in the
last line names `c`. -/
def gradientPlot (accepts : Fn → String → Bool) (showLegend gradient : Bool) (legendKw : Option (Dict String V))
    (kw : Dict String V) : Res (List (Call V)) :=
  match bind ["self"] kw with
  | .error e => ([], some e)
  | .ok kw =>
    match if showLegend = true then (configureLegend accepts gradient (legendKw.getD [])).map fun c => [c] else .ok [] with
    | .error e => ([], some e)
    | .ok legends =>
      match mpl accepts .scatter ["c"] kw with
      | .error e => (legends, some e)
      | .ok c => (legends ++ [c], none)

/-- `Axes3D.scatter` (`/repo/hrosailing/plotting/projections.py:322-343`, `:423-429`) and `Axes3D.plot`
(`/repo/hrosailing/plotting/projections.py:345-411`): every other keyword than `wind` and `colors` is forwarded. -/
def plot3d (accepts : Fn → String → Bool) (scatter : Bool) (kw : Dict String V) : Except PyErr (Call V) :=
  match bind ["self"] kw with
  | .error e => .error e
  | .ok kw =>
    if scatter = true then
      match bind ["x", "y", "z", "colors"] kw with
      | .error e => .error e
      | .ok kw => mpl accepts .scatter3d ["c", "cmap"] kw
    else mpl accepts .trisurf ["triangles", "cmap"] kw

/-- The classes of projections (`/repo/hrosailing/plotting/projections.py:50,174,239,314`). -/
inductive Projection
  | polar | flat | colorGradient | threeD
  deriving DecidableEq, Repr

/-- The registered projections (`/repo/hrosailing/plotting/projections.py:55,179,245,320,432-435`). -/
def registry : Dict String Projection :=
  [("hro polar", .polar), ("hro flat", .flat), ("hro color gradient", .colorGradient), ("hro 3d", .threeD)]

/-- The plotting functions (`/repo/hrosailing/plotting/projections.py:560-648`): the projection asked for and whether `scatter` is
called. -/
def functions : Dict String (String × Bool) :=
  [("plot_polar", "hro polar", false), ("scatter_polar", "hro polar", true), ("plot_flat", "hro flat", false),
    ("scatter_flat", "hro flat", true), ("plot_color_gradient", "hro color gradient", false), ("plot_3d", "hro 3d", false),
    ("scatter_3d", "hro 3d", true)]

/-- The projection and the method used by a plotting function (`/repo/hrosailing/plotting/projections.py:569-570`). -/
def functionTarget (name : String) : Option (Projection × Bool) :=
  match functions.get? name with
  | none => none
  | some (p, scatter) => (registry.get? p).map fun q => (q, scatter)

end Verif.PlotKw
