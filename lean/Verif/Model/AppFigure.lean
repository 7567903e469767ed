import Verif.Model.App
import Verif.Model.Plot

/-!
# Model of the figure of the web app

`create_mapper_figure`: the tables side by side are the colours, and the graph is drawn by
`MapperPlot(...).plot_plotly(...)`, modelled in `Verif.Model.Plot`.
-/

set_option autoImplicit false

namespace Verif
variable {K : Type}

/-- A value of an array: a number, a text, or NaN. -/
inductive Cell (K : Type) where
  | num (x : K)
  | text (s : String)
  | nan
  deriving DecidableEq

/-- The value in row `i` of a column. -/
def Cells.at : Cells K → ℕ → Cell K
  | .number l, i =>
    match l[i]? with
    | some (some x) => .num x
    | _ => .nan
  | .other l, i =>
    match l[i]? with
    | some (some s) => .text s
    | _ => .nan

/-- A column with missing values added, up to the given number of rows. -/
def Cells.pad (rows : ℕ) : Cells K → Cells K
  | .number l => .number (l ++ List.replicate (rows - l.length) none)
  | .other l => .other (l ++ List.replicate (rows - l.length) none)

/-- app.py:325 `pd.concat(frames, axis=1)`: the columns of all the tables in order; the
rows are those of the longest one, and shorter columns get missing values. -/
def concatFrames (fs : List (Frame K)) : Frame K :=
  let rows := (fs.map Frame.rows).foldl max 0
  ⟨rows, fs.flatMap fun f => f.columns.map fun c => ⟨c.name, c.cells.pad rows⟩⟩

/-- app.py:336 `df_colors.to_numpy()`, by rows. -/
def Frame.toColors (f : Frame K) : Colors (Cell K) :=
  ⟨(List.range f.rows).map fun i => f.columns.map fun c => c.cells.at i, f.columns.length⟩

/-- The value of a cell as a number, `none` for NaN. -/
def Cell.toNumber : Cell K → Option K
  | .num x => some x
  | _ => none

/-- Whether the cell holds a text. -/
def Cell.isText : Cell K → Bool
  | .text _ => true
  | _ => false

/-- plot_plotly.py:151 `np.nanmean`. Texts raise `TypeError`. The mean of no values is NaN,
with a warning; there is no such colour in the model, and `valueError` stands for it. -/
def nanMean [Field K] (l : List (Cell K)) : Py K :=
  if l.any Cell.isText then .error .typeError
  else
    match mean (l.map Cell.toNumber) with
    | some m => .ok m
    | none => .error .valueError

/-- app.py:346 `[i * 0.125 * PLOT_NODE_SIZE for i in range(17)]`, with `PLOT_NODE_SIZE = 1.0`
(app.py:89). -/
def appNodeSizes [Field K] : List K := (List.range 17).map fun i : ℕ => (i : K) * (1 / 8) * 1

/-- app.py:338-344. -/
def appCmaps : List String := ["Viridis", "Cividis", "Jet", "Plasma", "RdBu"]

/-- app.py:306-357 `create_mapper_figure`. Of the last `update_layout` only width and
height are recorded. -/
def createMapperFigure [Field K] [LinearOrder K] (E : Engines K) (P : Palette K)
    (d : Drawing K NxGraph) : Py (Fig K) := do
  let dfColors := concatFrames [d.labels, d.dfY, d.df]
  let p ← newPlot E d.graph d.config.plotDimensions.toNat d.config.plotIterations
    (some d.config.plotSeed) "igraph"
  let f ← plotPlotly P p (.two dfColors.toColors) (some (.many appNodeSizes))
    (some (.many (dfColors.columns.map Column.name))) nanMean (some (.many appCmaps)) none (some 800)
  return { f with width := none, height := none }

end Verif
