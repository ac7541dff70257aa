import Verif.Model.Py

/-!
# `PolarPipeline`

Model of `/repo/hrosailing/pipeline/pipeline.py`. The components of the pipeline are arbitrary: they may raise
exceptions and read and change a common state (their own attributes, files, random numbers, ...). Data, weights, masks,
diagrams and statistics are values of arbitrary types.

Simplification: the execution time in the statistics of the quality assurance (lines 359-361) is left out.
-/

namespace Verif.Pipeline

/-- Computations which read and change a state and may raise (all method calls in
`/repo/hrosailing/pipeline/pipeline.py:510-523`). -/
abbrev M (S : Type) := StateT S (Except PyErr)

/-- A method of a component together with its method `get_latest_statistics`
(`/repo/hrosailing/pipeline/pipeline.py:522-525`). -/
structure Comp (S α β σ : Type) where
  run : α → M S β
  latest : M S σ

/-- `_collect` (`/repo/hrosailing/pipeline/pipeline.py:522-525`). -/
def collect {S α β σ : Type} (c : Comp S α β σ) (x : α) : M S (β × σ) := do
  let out ← c.run x
  let stats ← c.latest
  return (out, stats)

/-- The dictionaries in `Statistics` (`/repo/hrosailing/pipeline/pipeline.py:20-43`): those of a component, or
`dict(enumerate(...))` of several of them (`:515-517`). -/
inductive Stat (σ : Type)
  | one (s : σ)
  | fields (l : List σ)

/-- `Statistics` (`/repo/hrosailing/pipeline/pipeline.py:20-43`). -/
structure Statistics (σ : Type) where
  dataHandler : Stat σ
  imputator : Stat σ
  smoother : Stat σ
  preExpandingWeigher : Stat σ
  preExpandingFilter : Stat σ
  expander : Stat σ
  preInfluenceWeigher : Stat σ
  preInfluenceFilter : Stat σ
  influenceModel : Stat σ
  postWeigher : Stat σ
  postFilter : Stat σ
  injector : Stat σ
  extension : Stat σ
  qualityAssurance : Stat σ

/-- The attribute `data_handler` (`/repo/hrosailing/pipeline/pipeline.py:80-85`): one handler, or a list of them. -/
inductive Handlers (S I D σ : Type)
  | single (h : Comp S I D σ)
  | list (hs : List (Comp S I D σ))

/-- The components (`/repo/hrosailing/pipeline/pipeline.py:157-209`). `S` state, `I` inputs, `D` data, `W` weights,
`K` masks, `G` diagrams, `σ` dictionaries of statistics. -/
structure Components (S I D W K G σ : Type) where
  dataHandler : Handlers S I D σ
  imputator : Comp S D D σ
  smoother : Comp S D D σ
  preExpanderWeigher : Comp S D W σ
  preExpanderFilter : Comp S W K σ
  expander : Comp S D D σ
  preInfluenceWeigher : Comp S D W σ
  preInfluenceFilter : Comp S W K σ
  fit : D → M S Unit
  removeInfluence : Comp S D D σ
  postWeigher : Comp S D W σ
  postFilter : Comp S W K σ
  injector : Comp S (D × W) (D × W) σ
  extension : Comp S (D × W) G σ
  check : G → D → M S σ

/-- The operations on data used by the pipeline itself: `_is_empty_data`
(`/repo/hrosailing/pipeline/pipeline.py:532-539`), `WeightedPoints(data, weights)` (`:553`), `weighted_points[mask]`
(`:568`), `Data.concatenate` (`:436`), `WeightedPoints.extend` (`:341`), `WeightedPoints(np.empty((0, 3)), np.empty(0))`
(`:337`), `[]` as weights (`:544`), `AllOneWeigher` (`:548-551`), `{}` and `dict.update` (`:452`). -/
structure Ops (D W K σ : Type) where
  isEmpty : D → Bool
  weighted : D → W → Except PyErr (D × W)
  select : D × W → K → Except PyErr (D × W)
  concat : List D → Except PyErr D
  extend : D × W → D × W → Except PyErr (D × W)
  noPoints : D × W
  noWeights : W
  allOne : D → W × σ
  empty : σ
  update : σ → σ → σ

/-- The flags set by `execute` (`/repo/hrosailing/pipeline/pipeline.py:297-319`). -/
structure Flags where
  smoothing : Bool
  preExpanderWeighing : Bool
  preExpanderFiltering : Bool
  preInfluenceWeighing : Bool
  preInfluenceFiltering : Bool
  postWeighing : Bool
  postFiltering : Bool
  injecting : Bool
  testing : Bool

/-- `PipelineOutput` (`/repo/hrosailing/pipeline/pipeline.py:52-71`). -/
structure Output (G σ : Type) where
  diagram : G
  training : Statistics σ
  test : Statistics σ

variable {S I D W K G σ : Type}

/-- `_list_statistics` (`/repo/hrosailing/pipeline/pipeline.py:513-519`) for one kind of statistics; unpacking the empty
tuple raises `ValueError`. -/
def listStats {α : Type} (out : List (α × σ)) : M S (List α × Stat σ) :=
  if out.isEmpty then throw .valueError else return (out.map (·.1), .fields (out.map (·.2)))

/-- `_list_statistics` (`/repo/hrosailing/pipeline/pipeline.py:513-519`) for two kinds of statistics. -/
def listStats₂ {α : Type} (out : List (α × σ × σ)) : M S (List α × Stat σ × Stat σ) :=
  if out.isEmpty then throw .valueError
  else return (out.map (·.1), .fields (out.map (·.2.1)), .fields (out.map (·.2.2)))

/-- `_handle_data` (`/repo/hrosailing/pipeline/pipeline.py:495-507`). `next` of a list raises `TypeError`. -/
def handleData (h : Handlers S I D σ) (data : List I) : M S (List D × Stat σ) :=
  match h with
  | .single c => do listStats (← data.mapM (collect c))
  | .list _ => if data.isEmpty then throw .valueError else throw .typeError

/-- `_filter_data` (`/repo/hrosailing/pipeline/pipeline.py:564-568`). -/
def filterData (ops : Ops D W K σ) (f : Comp S W K σ) (wp : D × W) : M S ((D × W) × σ) := do
  let (mask, stats) ← collect f wp.2
  return (← ops.select wp mask, stats)

/-- The weights in `_weigh_and_filter` (`/repo/hrosailing/pipeline/pipeline.py:545-551`). -/
def weighStep (ops : Ops D W K σ) (w : Comp S D W σ) (weighing : Bool) (data : D) : M S (W × σ) :=
  if weighing then collect w data else pure (ops.allOne data)

/-- The filter in `_weigh_and_filter` (`/repo/hrosailing/pipeline/pipeline.py:555-559`). -/
def filterStep (ops : Ops D W K σ) (f : Comp S W K σ) (filtering : Bool) (wp : D × W) : M S ((D × W) × σ) :=
  if filtering then filterData ops f wp else pure (wp, ops.empty)

/-- `_weigh_and_filter` (`/repo/hrosailing/pipeline/pipeline.py:542-561`). -/
def weighAndFilter (ops : Ops D W K σ) (w : Comp S D W σ) (f : Comp S W K σ) (weighing filtering : Bool) (data : D) :
    M S ((D × W) × σ × σ) :=
  if ops.isEmpty data then pure ((data, ops.noWeights), ops.empty, ops.empty)
  else do
    let (weights, weigherStats) ← weighStep ops w weighing data
    let wp ← ops.weighted data weights
    let (filtered, filterStats) ← filterStep ops f filtering wp
    return (filtered, weigherStats, filterStats)

/-- Smoothing in `_preprocess` (`/repo/hrosailing/pipeline/pipeline.py:391-397`). -/
def smoothStep (c : Components S I D W K G σ) (smoothing : Bool) (data : List D) : M S (List D × Stat σ) :=
  if smoothing then do listStats (← data.mapM (collect c.smoother)) else pure (data, .fields [])

/-- Fitting the influence model in `_preprocess` (`/repo/hrosailing/pipeline/pipeline.py:438-444`). -/
def fitStep (ops : Ops D W K σ) (c : Components S I D W K G σ) (influenceFitting : Bool) (data : D) : M S σ :=
  if influenceFitting then do
    c.fit data
    c.removeInfluence.latest
  else pure ops.empty

/-- `_preprocess` (`/repo/hrosailing/pipeline/pipeline.py:384-483`). -/
def preprocess (ops : Ops D W K σ) (c : Components S I D W K G σ) (fl : Flags) (data : List I)
    (influenceFitting : Bool) : M S ((D × W) × Statistics σ) := do
  let (data, handlerStats) ← handleData c.dataHandler data
  let (data, imputatorStats) ← listStats (← data.mapM (collect c.imputator))
  let (data, smoothStats) ← smoothStep c fl.smoothing data
  let (data, preExpWeigherStats, preExpFilterStats) ← listStats₂ (← data.mapM
    (weighAndFilter ops c.preExpanderWeigher c.preExpanderFilter fl.preExpanderWeighing fl.preExpanderFiltering))
  let (data, expandedStats) ← listStats (← (data.map (·.1)).mapM (collect c.expander))
  let (data, preWeigherStats, preFilterStats) ← listStats₂ (← data.mapM
    (weighAndFilter ops c.preInfluenceWeigher c.preInfluenceFilter fl.preInfluenceWeighing fl.preInfluenceFiltering))
  let data ← ops.concat (data.map (·.1))
  let fitStats ← fitStep ops c influenceFitting data
  let (data, influenceStats) ← collect c.removeInfluence data
  let influenceStats := ops.update influenceStats fitStats
  let (data, postWeigherStats, postFilterStats) ←
    weighAndFilter ops c.postWeigher c.postFilter fl.postWeighing fl.postFiltering data
  return (data, {
    dataHandler := handlerStats
    imputator := imputatorStats
    smoother := smoothStats
    preExpandingWeigher := preExpWeigherStats
    preExpandingFilter := preExpFilterStats
    expander := expandedStats
    preInfluenceWeigher := preWeigherStats
    preInfluenceFilter := preFilterStats
    influenceModel := .one influenceStats
    postWeigher := .one postWeigherStats
    postFilter := .one postFilterStats
    injector := .one ops.empty
    extension := .one ops.empty
    qualityAssurance := .one ops.empty })

/-- `_EMPTY_STATISTIC` (`/repo/hrosailing/pipeline/pipeline.py:47-49`). -/
def emptyStatistics (ops : Ops D W K σ) : Statistics σ :=
  ⟨.one ops.empty, .one ops.empty, .one ops.empty, .one ops.empty, .one ops.empty, .one ops.empty, .one ops.empty,
    .one ops.empty, .one ops.empty, .one ops.empty, .one ops.empty, .one ops.empty, .one ops.empty, .one ops.empty⟩

/-- Injecting points in `execute` (`/repo/hrosailing/pipeline/pipeline.py:331-339`). -/
def injectStep (ops : Ops D W K σ) (c : Components S I D W K G σ) (injecting : Bool) (data : D × W) :
    M S ((D × W) × σ) :=
  if injecting then collect c.injector data else pure (ops.noPoints, ops.empty)

/-- The part of `execute` before the test data is used (`/repo/hrosailing/pipeline/pipeline.py:321-345`). -/
def train (ops : Ops D W K σ) (c : Components S I D W K G σ) (fl : Flags) (training : List I) :
    M S (G × Statistics σ × σ × σ) := do
  let (data, stats) ← preprocess ops c fl training true
  if ops.isEmpty data.1 then throw .runtimeError
  else do
    let (points, injectorStats) ← injectStep ops c fl.injecting data
    let data ← ops.extend data points
    let (diagram, extensionStats) ← collect c.extension data
    return (diagram, stats, injectorStats, extensionStats)

/-- The use of the test data in `execute` (`/repo/hrosailing/pipeline/pipeline.py:318-319`, `:347-357`). -/
def testStep (ops : Ops D W K σ) (c : Components S I D W K G σ) (fl : Flags) (diagram : G) :
    Option (List I) → M S (Statistics σ × σ)
  | none => pure (emptyStatistics ops, ops.empty)
  | some test =>
    if fl.testing then do
      let (data, testStats) ← preprocess ops c fl test false
      let qaStats ← c.check diagram data.1
      return (testStats, qaStats)
    else pure (emptyStatistics ops, ops.empty)

/-- `execute` (`/repo/hrosailing/pipeline/pipeline.py:214-382`). -/
def execute (ops : Ops D W K σ) (c : Components S I D W K G σ) (fl : Flags) (training : List I)
    (test : Option (List I)) : M S (Output G σ) := do
  let (diagram, pp, injectorStats, extensionStats) ← train ops c fl training
  let (testStats, qaStats) ← testStep ops c fl diagram test
  return {
    diagram := diagram
    training := {
      dataHandler := pp.dataHandler
      imputator := pp.imputator
      smoother := pp.smoother
      preExpandingWeigher := pp.preExpandingWeigher
      preExpandingFilter := pp.preInfluenceFilter
      expander := pp.expander
      preInfluenceWeigher := pp.preInfluenceWeigher
      preInfluenceFilter := pp.preInfluenceFilter
      influenceModel := pp.influenceModel
      postWeigher := pp.postWeigher
      postFilter := pp.postFilter
      injector := .one injectorStats
      extension := .one extensionStats
      qualityAssurance := .one qaStats }
    test := testStats }

end Verif.Pipeline
