import Mathlib.Algebra.Order.Field.Basic
import Verif.Model.PlotBackends

/-!
# Model of the colours of nodes when values are missing

`core.py:aggregate_graph` with the default aggregation `np.nanmean`, and the parts of the three
plot backends that compute the range of the colours and the colour of a node. A number is an
element of an ordered field or NaN, which is `none`. The rest of the backends is in
`Verif.Model.Plot` and `Verif.Model.PlotBackends`, for colours that are numbers.
-/

set_option autoImplicit false

namespace Verif

variable {K : Type}

section
variable [Field K] [LinearOrder K]

/-- `a < b` for floating-point numbers: false if one of them is NaN. -/
def nanLt (a b : Option K) : Bool :=
  match a, b with
  | some x, some y => decide (x < y)
  | _, _ => false

/-- numpy `nanmean` of a list: the mean of the entries that are not NaN, NaN (with a warning) if
there are none. Rounding is left out. -/
def nanmean (l : List (Option K)) : Py (Option K) :=
  let v := l.filterMap id
  if v.length = 0 then .ok none else .ok (some (v.sum / v.length))

/-- Python `min(values, default=None)`: the first value, replaced by a later one that is less. -/
def pyMinNan : List (Option K) → Option (Option K)
  | [] => none
  | a :: rest => some (rest.foldl (fun best x => if nanLt x best then x else best) a)

/-- Python `max(values, default=None)`. -/
def pyMaxNan : List (Option K) → Option (Option K)
  | [] => none
  | a :: rest => some (rest.foldl (fun best x => if nanLt best x then x else best) a)

/-- The colours of the nodes in order, and the range of the colours. -/
structure NanColors (K : Type) where
  color : List (Option K)
  cmin : Option (Option K)
  cmax : Option (Option K)
  deriving DecidableEq

/-- plot_plotly.py:398-415 `_set_colors`, for the nodes (the range of the lines, 416-427, and that
of the menu, 820-850, are computed in the same way). -/
def plotlyNan (g : NxGraph) (colors : List (Option K)) : Py (NanColors K) := do
  let d ← aggregateGraph colors g nanmean
  let arr := d.items.map Prod.snd
  return ⟨arr, pyMinNan arr, pyMaxNan arr⟩

/-- plot_matplotlib.py:79-95: the colours of the scatter plot. -/
def matplotlibNan (g : NxGraph) (colors : List (Option K)) : Py (NanColors K) := do
  let d ← aggregateGraph colors g nanmean
  let c ← mapPy d.getItem g.nodes.keys
  return ⟨c, pyMinNan c, pyMaxNan c⟩

/-- plot_pyvis.py:218-225: the least and the greatest colour; `none` stands for the initial
infinities, which a NaN does not replace. -/
def scanNan : List (Option K) → Option K × Option K → Option K × Option K
  | [], r => r
  | none :: rest, r => scanNan rest r
  | some v :: rest, (lo, hi) =>
    let hi' := match hi with
      | none => some v
      | some m => if v > m then some v else some m
    let lo' := match lo with
      | none => some v
      | some m => if v < m then some v else some m
    scanNan rest (lo', hi')

/-- plot_pyvis.py:237-241: the colour of a node, scaled. If no node has a number for colour, the
least colour is infinity and the greatest minus infinity: the result is NaN. -/
def pvShadeNan (c : Option K) (range : Option K × Option K) : Option K :=
  match range with
  | (some lo, some hi) => if hi = lo then some (1 / 2) else c.map fun c => (c - lo) / (hi - lo)
  | _ => none

/-- plot_pyvis.py:242 `max(0.0, min(1.0, node_color))`. -/
def pyClampNan (x : Option K) : Option K :=
  let m := if nanLt x (some 1) then x else some 1
  if nanLt (some 0) m then m else some 0

/-- A vertex of the network: node, colour, position of the colour on the colour scale. -/
structure PvNan (K : Type) where
  node : ℤ
  color : Option K
  position : Option K
  deriving DecidableEq

/-- plot_pyvis.py:216-262: the colours of the vertices, and the range of the colour bar. -/
def pyvisNan (g : NxGraph) (colors : List (Option K)) :
    Py (List (PvNan K) × Option K × Option K) := do
  let d ← aggregateGraph colors g nanmean
  let cs ← mapPy d.getItem g.nodes.keys
  let range := scanNan cs (none, none)
  let vs ← mapPy (fun n => do
    let c ← d.getItem n
    return ⟨n, c, pyClampNan (pvShadeNan c range)⟩) g.nodes.keys
  return (vs, range.1, range.2)

end

end Verif
