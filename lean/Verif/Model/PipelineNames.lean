import Verif.Model.Py
import Verif.Model.Dict

/-!
# Names of components and flags of a pipeline

Model of `PolarPipeline.__init__`, of the beginning of `execute`, and of `_set_with_default`
(`/repo/hrosailing/pipeline/pipeline.py:166-209`, `:297-319`, `:485-493`). The attributes of a pipeline are a dictionary.
-/

namespace Verif.Names

variable {V : Type}

/-- The first loop of `_set_with_default` (`/repo/hrosailing/pipeline/pipeline.py:486-488`) over the given keys. -/
def addAliases (aliases : Dict String String) : List String → Dict String V → Dict String V
  | [], d => d
  | k :: ks, d =>
    match aliases.get? k, d.get? k with
    | some name, some v => addAliases aliases ks (d.set name v)
    | _, _ => addAliases aliases ks d

/-- `_switch_default` (`/repo/hrosailing/pipeline/pipeline.py:492-493`). -/
def switchDefault (d : Dict String V) (key : String) (default : V) : V :=
  match d.get? key with
  | some v => v
  | none => default

/-- The second loop of `_set_with_default` (`/repo/hrosailing/pipeline/pipeline.py:489-490`). -/
def setAttrs (d : Dict String V) : List (String × V) → Dict String V → Dict String V
  | [], obj => obj
  | (key, default) :: rest, obj => setAttrs d rest (obj.set key (switchDefault d key default))

/-- `_set_with_default` (`/repo/hrosailing/pipeline/pipeline.py:485-490`) for an object with the attributes `obj`. -/
def setWithDefault (d : Dict String V) (keys : List String) (defaults : List V) (aliases : Dict String String)
    (obj : Dict String V) : Dict String V :=
  setAttrs (addAliases aliases (Dict.keys d) d) (keys.zip defaults) obj

/-- `keys` in `__init__` (`/repo/hrosailing/pipeline/pipeline.py:184-199`). -/
def componentKeys : List String :=
  ["data_handler", "imputator", "smoother", "pre_expander_weigher", "pre_expander_filter", "expander",
    "pre_influence_weigher", "pre_influence_filter", "influence_model", "post_weigher", "post_filter", "injector",
    "extension", "quality_assurance"]

/-- `aliases` in `__init__` (`/repo/hrosailing/pipeline/pipeline.py:201-206`). -/
def componentAliases : Dict String String :=
  [("filter", "post_filter"), ("weigher", "post_weigher"), ("pre_filter", "pre_influence_filter"),
    ("pre_weigher", "pre_influence_weigher")]

/-- `__init__` (`/repo/hrosailing/pipeline/pipeline.py:166-209`) for the default components `defaults` (in the order of
`componentKeys`); `no` is `False`. -/
def init (no : V) (custom : Dict String V) (defaults : List V) : Dict String V :=
  (setWithDefault custom componentKeys defaults componentAliases []).set "testing" no

/-- `keys` in `execute` (`/repo/hrosailing/pipeline/pipeline.py:297-307`). -/
def flagKeys : List String :=
  ["smoothing", "pre_expander_weighing", "pre_expander_filtering", "pre_influence_weighing", "pre_influence_filtering",
    "post_weighing", "post_filtering", "injecting", "testing"]

/-- `aliases` in `execute` (`/repo/hrosailing/pipeline/pipeline.py:308-313`). -/
def flagAliases : Dict String String :=
  [("pre_weighing", "pre_influence_weighing"), ("pre_filtering", "pre_influence_filtering"),
    ("weighing", "post_weighing"), ("filtering", "post_filtering")]

/-- The flags set by `execute` (`/repo/hrosailing/pipeline/pipeline.py:297-319`). -/
def setFlags (no yes : V) (enabling : Dict String V) (hasTest : Bool) (obj : Dict String V) : Dict String V :=
  let obj := setWithDefault enabling flagKeys (List.replicate flagKeys.length yes) flagAliases obj
  if hasTest then obj else obj.set "testing" no

end Verif.Names
