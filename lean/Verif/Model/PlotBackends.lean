import Mathlib.Algebra.Order.Round
import Verif.Model.Plot

/-!
# Model of the PyVis and matplotlib backends

`plot_backends/plot_pyvis.py` and `plot_backends/plot_matplotlib.py`. A page or figure is
the data that the code puts into it; fixed styling and the formatting of numbers are left
out. Numbers are elements of an ordered field with integer parts; `sqrt` is `math.sqrt`,
an arbitrary function here.
-/

set_option autoImplicit false

namespace Verif

variable {K V : Type}

/-! ### plot_pyvis.py -/

/-- A vertex of the network: `net.add_node(id, label, size, color, title, x, y)`. -/
structure PvNode (K : Type) where
  id : ℤ
  label : ℤ
  size : ℤ
  color : String
  /-- `color: …`, `node: …`, `size: …` in the hover text. -/
  title : K × ℤ × ℤ
  x : K
  y : K
  deriving DecidableEq

/-- A pyvis network: vertices, and edges `from`, `to`. -/
structure PvNet (K : Type) where
  nodes : List (PvNode K) := []
  edges : List (ℤ × ℤ) := []
  deriving DecidableEq

/-- pyvis `Network.add_node`: a vertex whose id is present is not added again. -/
def PvNet.addNode (net : PvNet K) (n : PvNode K) : PvNet K :=
  if n.id ∈ net.nodes.map (·.id) then net else { net with nodes := net.nodes ++ [n] }

/-- pyvis `Network.add_edge` of an undirected network: the ends must be present, and an
edge that is present in either direction is not added again. -/
def PvNet.addEdge (net : PvNet K) (source target : ℤ) : Py (PvNet K) :=
  if source ∉ net.nodes.map (·.id) then .error .assertionError
  else if target ∉ net.nodes.map (·.id) then .error .assertionError
  else if (target, source) ∈ net.edges ∨ (source, target) ∈ net.edges then .ok net
  else .ok { net with edges := net.edges ++ [(source, target)] }

/-- plot_pyvis.py:207-214, 218-225: the least and the greatest value so far; `none` stands
for the initial infinities. -/
def scanRange {α : Type} [LinearOrder α] : List α → Option α × Option α → Option α × Option α
  | [], r => r
  | v :: rest, (lo, hi) =>
    let hi' := match hi with
      | none => some v
      | some m => if v > m then some v else some m
    let lo' := match lo with
      | none => some v
      | some m => if v < m then some v else some m
    scanRange rest (lo', hi')

/-- Python's `round`: to the nearest integer, ties to the even one. -/
def pyRound [Field K] [LinearOrder K] [FloorRing K] (x : K) : ℤ :=
  let f := ⌊x⌋
  let d := 2 * (x - f)
  if d < 1 then f else if d > 1 then f + 1 else if f % 2 = 0 then f else f + 1

/-- `nodes[node]["size"]`. -/
def nodeSizeOf (g : NxGraph) (n : ℤ) : Py ℕ := do
  let a ← g.nodes.getItem n
  match a.size with
  | some s => return s
  | none => .error .keyError

section
variable [Field K] [LinearOrder K] [FloorRing K]

/-- plot_pyvis.py:228-234 `_size`. -/
def pvSize (sqrt : K → K) (g : NxGraph) (range : Option ℕ × Option ℕ) (nodeSize : K) (n : ℤ) :
    Py ℤ :=
  if range.2 = range.1 then .ok (pyRound (25 : K))
  else do
    let s ← nodeSizeOf g n
    let m := range.2.getD 0
    if m = 0 then .error .zeroDivisionError
    else return pyRound (nodeSize * 25 * sqrt ((s : K) / (m : K)))

/-- plot_pyvis.py:237-241: the colour of a node, scaled. -/
def pvShade (colors : PyDict ℤ K) (range : Option K × Option K) (n : ℤ) : Py K :=
  if range.2 = range.1 then .ok (1 / 2)
  else do
    let c ← colors.getItem n
    return (c - range.1.getD 0) / (range.2.getD 0 - range.1.getD 0)

/-- plot_pyvis.py:236-244 `_color`: the position of the colour of a node on the colour
scale. -/
def pvColor (colors : PyDict ℤ K) (range : Option K × Option K) (n : ℤ) : Py K := do
  let c ← pvShade colors range n
  return max 0 (min 1 c)

/-- plot_pyvis.py:246-262: one round of the loop over the nodes. `sample` is
`sample_colorscale` of the chosen colour scale. -/
def pvNode (sqrt : K → K) (sample : K → String) (p : MapperPlot K) (sizes : Option ℕ × Option ℕ)
    (colors : PyDict ℤ K) (range : Option K × Option K) (nodeSize width height : K) (n : ℤ) :
    Py (PvNode K) := do
  let s ← pvSize sqrt p.graph sizes nodeSize n
  let t ← pvColor colors range n
  let c ← colors.getItem n
  let pos ← p.positions.getItem n
  let x ← getItem pos 0
  let y ← getItem pos 1
  return { id := n, label := n, size := s, color := sample t, title := (c, n, s), x := x * width,
           y := -y * height }

/-- plot_pyvis.py:246-262: the loop over the nodes. -/
def pvNodes (mk : ℤ → Py (PvNode K)) : List ℤ → PvNet K → Py (PvNet K)
  | [], net => .ok net
  | n :: rest, net => do
    let v ← mk n
    pvNodes mk rest (net.addNode v)

/-- plot_pyvis.py:264-270: the loop over the edges. -/
def pvEdges : List (ℤ × ℤ) → PvNet K → Py (PvNet K)
  | [], net => .ok net
  | (u, v) :: rest, net => do
    let net ← net.addEdge u v
    pvEdges rest net

/-- plot_pyvis.py:184-272 `_compute_net`. `scale` is `pc.get_colorscale` followed by
`sample_colorscale`. -/
def computeNet (sqrt : K → K) (scale : String → Py (K → String)) (p : MapperPlot K)
    (colors : List V) (nodeSize : K) (agg : List V → Py K) (width height : K) (cmap : String) :
    Py (PvNet K × Option K × Option K) := do
  let sample ← scale cmap
  let ns := p.graph.nodes.keys
  let sizes ← mapPy (nodeSizeOf p.graph) ns
  let sizeRange := scanRange sizes (none, none)
  let nodeColors ← aggregateGraph colors p.graph agg
  let cs ← mapPy nodeColors.getItem ns
  let range := scanRange cs (none, none)
  let net ← pvNodes (pvNode sqrt sample p sizeRange nodeColors range nodeSize width height) ns {}
  let net ← pvEdges p.graph.edges net
  return (net, range.1, range.2)

/-- The page: the network and the colour bar. -/
structure PvPage (K : Type) where
  net : PvNet K
  cmap : String
  cmin : Option K
  cmax : Option K
  title : Option String
  deriving DecidableEq

/-- plot_pyvis.py:141-181 `plot_pyvis`. The files are pages by path; `writable` says
whether a path can be opened for writing. -/
def plotPyvis (sqrt : K → K) (scale : String → Py (K → String)) (writable : String → Bool)
    (p : MapperPlot K) (outputFile : String) (colors : List V) (nodeSize : K)
    (agg : List V → Py K) (title : Option String) (width height : K) (cmap : String)
    (files : PyDict String (PvPage K)) : Py Unit × PyDict String (PvPage K) :=
  match computeNet sqrt scale p colors nodeSize agg width height cmap with
  | .error e => (.error e, files)
  | .ok (net, cmin, cmax) =>
    if writable outputFile then (.ok (), files.set outputFile ⟨net, cmap, cmin, cmax, title⟩)
    else (.error .osError, files)

end

/-! ### plot_matplotlib.py -/

/-- What is drawn: the scatter plot of the nodes, the segments of the edges and the label
of the colour bar. -/
structure MplFig (K : Type) where
  x : List K
  y : List K
  c : List K
  s : List K
  vmin : Option K
  vmax : Option K
  cmap : String
  label : Option String
  segments : List (List K × List K)
  width : K
  height : K
  deriving DecidableEq

section
variable [Field K] [LinearOrder K]

/-- A segment of a `LineCollection`: matplotlib refuses points that do not have two
coordinates. -/
def mplSegment (p : MapperPlot K) (e : ℤ × ℤ) : Py (List K × List K) := do
  let a ← p.positions.getItem e.1
  let b ← p.positions.getItem e.2
  if a.length = 2 ∧ b.length = 2 then return (a, b) else .error .valueError

/-- plot_matplotlib.py:118-131 `_plot_edges`. -/
def mplEdges (p : MapperPlot K) : Py (List (List K × List K)) :=
  mapPy (mplSegment p) p.graph.edges

/-- plot_matplotlib.py:80-83: the marker sizes. -/
def mplSizes (sqrt : K → K) (p : MapperPlot K) (nodeSize : K) : Py (List K) :=
  let sizes := attrSize p.graph
  let m := maxSize (sizes.items.map Prod.snd)
  mapPy (fun n => do
    let s ← sizes.getItem n
    if m = 0 then .error .zeroDivisionError
    else return nodeSize * 200 * sqrt ((s : K) / (m : K))) p.graph.nodes.keys

/-- plot_matplotlib.py:29-131 `plot_matplotlib`: the edges, then the nodes. `known` says
whether matplotlib knows a colour map. `_node_pos_array` (134-137) is that of the Plotly
backend. -/
def plotMatplotlib (sqrt : K → K) (known : String → Bool) (p : MapperPlot K) (width height : K)
    (title : Option String) (colors : List V) (nodeSize : K) (agg : List V → Py K) (cmap : String) :
    Py (MplFig K) := do
  let segments ← mplEdges p
  let arr ← nodePosArray p
  let d ← aggregateGraph colors p.graph agg
  let c ← mapPy d.getItem p.graph.nodes.keys
  let s ← mplSizes sqrt p nodeSize
  let x ← getItem arr 0
  let y ← getItem arr 1
  if known cmap then
    return { x, y, c, s, vmin := minColor c, vmax := maxColor c, cmap, label := title, segments,
             width, height }
  else .error .valueError

end

end Verif
