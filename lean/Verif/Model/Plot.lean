import Mathlib.Algebra.Order.Field.Basic
import Verif.Model.Core

/-!
# Model of `MapperPlot` and of the Plotly backend

`plot.py` and `plot_backends/plot_plotly.py`. A figure is the data that the code puts
into it: the two traces, the size of the layout, the menus and the slider. Fixed
styling (fonts, widths, opacities, anchors) and the formatting of numbers in hover texts
are left out. Numbers are elements of an ordered field; NaN colours are not modelled.
igraph, networkx layouts and Plotly's tables of colour scales are arbitrary functions.
-/

set_option autoImplicit false

namespace Verif

/-- A list comprehension whose elements may raise. -/
def mapPy {α β : Type} (f : α → Py β) : List α → Py (List β)
  | [] => .ok []
  | a :: l => do
    let b ← f a
    let bs ← mapPy f l
    return b :: bs

/-- networkx `graph.edges()`: for each node the neighbours that are not nodes already
seen. -/
def edgesFrom : List (ℤ × List ℤ) → List ℤ → List (ℤ × ℤ)
  | [], _ => []
  | (n, nbrs) :: rest, seen =>
    (nbrs.filter fun m => decide (m ∉ seen)).map (fun m => (n, m)) ++ edgesFrom rest (n :: seen)

/-- `graph.edges()`. -/
def NxGraph.edges (g : NxGraph) : List (ℤ × ℤ) := edgesFrom g.adj.items []

variable {K V : Type}

/-! ### plot.py -/

/-- The layout engines: igraph's Fruchterman–Reingold layouts in two and three
dimensions, a list of coordinates per vertex, and networkx' `spring_layout`. They are
given the graph, the number of iterations and the seed, and may raise. The seed of igraph's
layouts is that of the random positions they start from. -/
structure Engines (K : Type) where
  fr2 : NxGraph → ℤ → Option ℤ → Py (List (List K))
  fr3 : NxGraph → ℤ → Option ℤ → Py (List (List K))
  spring : NxGraph → ℕ → ℤ → Option ℤ → Py (PyDict ℤ (List K))

/-- plot.py:20-51 `MapperPlot`. -/
structure MapperPlot (K : Type) where
  graph : NxGraph
  dim : ℕ
  positions : PyDict ℤ (List K)

/-- `{node: (layout[i][0], …) for i, node in enumerate(nodes)}`: the first `dim`
coordinates of each vertex. -/
def layoutDict (dim : ℕ) (layout : List (List K)) :
    (i : ℕ) → List ℤ → PyDict ℤ (List K) → Py (PyDict ℤ (List K))
  | _, [], pos => .ok pos
  | i, node :: rest, pos => do
    let row ← getItem layout i
    let p ← mapPy (getItem row) (List.range dim)
    layoutDict dim layout (i + 1) rest (pos.set node p)

/-- plot.py:73 `np.random.default_rng(seed)`: seeds must not be negative. -/
def defaultRng (seed : Option ℤ) : Py Unit :=
  match seed with
  | some s => if s < 0 then .error .valueError else .ok ()
  | none => .ok ()

/-- plot.py:71-96 `_compute_pos_ig`. The vertices of the igraph graph are the nodes in
order. -/
def computePosIg (E : Engines K) (g : NxGraph) (dim : ℕ) (iterations : ℤ) (seed : Option ℤ) :
    Py (PyDict ℤ (List K)) :=
  if g.nodes.len = 0 then .ok PyDict.empty
  else do
    defaultRng seed
    if dim = 2 then
      let layout ← E.fr2 g iterations seed
      layoutDict 2 layout 0 g.nodes.keys PyDict.empty
    else if dim = 3 then
      let layout ← E.fr3 g iterations seed
      layoutDict 3 layout 0 g.nodes.keys PyDict.empty
    else .ok PyDict.empty

/-- plot.py:38-69 `MapperPlot(graph, dim, iterations, seed, layout_engine)`. -/
def newPlot (E : Engines K) (g : NxGraph) (dim : ℕ) (iterations : ℤ) (seed : Option ℤ)
    (engine : String) :
    Py (MapperPlot K) := do
  let positions ←
    if engine = "igraph" then computePosIg E g dim iterations seed
    else if engine = "networkx" then E.spring g dim iterations seed
    else .error .valueError
  return ⟨g, dim, positions⟩

/-! ### Figures -/

/-- The hover text of a node: `color: …<br>node: …<br>size: …`. -/
structure NodeText (K : Type) where
  color : K
  node : ℤ
  size : ℕ
  deriving DecidableEq

/-- A colour scale, as positions and colours. -/
abbrev Scale (K : Type) := List (K × String)

/-- The trace of the nodes. -/
structure NodesTrace (K : Type) where
  x : List K
  y : List K
  z : Option (List K)
  size : List K
  text : Option (List (NodeText K))
  color : Option (List K)
  cmin : Option K
  cmax : Option K
  sizeref : K
  title : String
  scale : Scale K
  deriving DecidableEq

/-- The trace of the edges; `color`, `cmin`, `cmax` and `scale` are those of the lines,
which are coloured by value in three dimensions only. The settings of the markers of this
trace, which are not shown, are left out. -/
structure EdgesTrace (K : Type) where
  x : List (Option K)
  y : List (Option K)
  z : Option (List (Option K))
  color : Option (List K)
  cmin : Option K
  cmax : Option K
  scale : Option (Scale K)
  deriving DecidableEq

/-- A `restyle` command: for each attribute a list of values, one for each target trace,
`none` standing for `null`. An attribute that is not mentioned has an empty list. -/
structure Restyle (K : Type) where
  targets : List ℕ
  text : List (Option (List (NodeText K))) := []
  title : List (Option String) := []
  color : List (Option (List K)) := []
  cmin : List (Option K) := []
  cmax : List (Option K) := []
  sizeref : List (Option K) := []
  scale : List (Option (Scale K)) := []
  lineColor : List (Option (List K)) := []
  lineCmin : List (Option K) := []
  lineCmax : List (Option K) := []
  lineScale : List (Option (Scale K)) := []
  deriving DecidableEq

/-- The menus and the slider: labels and commands, and the active step of the slider. The
active entries of the menus are the first ones. -/
structure Ui (K : Type) where
  darkMode : Bool := false
  cmaps : Option (List (String × Restyle K)) := none
  colors : Option (List (String × Restyle K)) := none
  sizes : Option (List (K × Restyle K) × ℕ) := none
  deriving DecidableEq

/-- A figure. -/
structure Fig (K : Type) where
  nodes : NodesTrace K
  edges : EdgesTrace K
  ui : Ui K := {}
  width : Option ℤ := none
  height : Option ℤ := none
  deriving DecidableEq

/-- plot_plotly.py:482 `go.Figure(data=[_edges_tr, _nodes_tr])`: the numbers of the
traces. -/
def edgesIndex : ℕ := 0
/-- See `edgesIndex`. -/
def nodesIndex : ℕ := 1

/-- The new value of an attribute of trace `t`, given the old one: Plotly assigns the
`k`-th value to the `k`-th target. -/
def assigned {α : Type} (targets : List ℕ) (values : List (Option α)) (t : ℕ) (old : Option α) :
    Option α :=
  match values[targets.findIdx (fun i => i == t)]? with
  | some v => if t ∈ targets then v else old
  | none => old

/-- What Plotly does when a button with this command is pressed. -/
def Restyle.press (r : Restyle K) (f : Fig K) : Fig K :=
  { f with
    nodes := { f.nodes with
      text := assigned r.targets r.text nodesIndex f.nodes.text
      title := (assigned r.targets r.title nodesIndex (some f.nodes.title)).getD ""
      color := assigned r.targets r.color nodesIndex f.nodes.color
      cmin := assigned r.targets r.cmin nodesIndex f.nodes.cmin
      cmax := assigned r.targets r.cmax nodesIndex f.nodes.cmax
      sizeref := (assigned r.targets r.sizeref nodesIndex (some f.nodes.sizeref)).getD f.nodes.sizeref
      scale := (assigned r.targets r.scale nodesIndex (some f.nodes.scale)).getD f.nodes.scale }
    edges := { f.edges with
      color := assigned r.targets r.lineColor edgesIndex f.edges.color
      cmin := assigned r.targets r.lineCmin edgesIndex f.edges.cmin
      cmax := assigned r.targets r.lineCmax edgesIndex f.edges.cmax
      scale := assigned r.targets r.lineScale edgesIndex f.edges.scale } }

/-- Plotly's colour scales: `pc.get_colorscale`, and the names in `PLOTLY_CMAPS` by
lower case. -/
structure Palette (K : Type) where
  scale : String → Py (Scale K)
  known : String → Option String

/-- An array of colours with rows and columns. Its values need not be numbers of the
figure: they may be missing (NaN), for an aggregation that ignores these. -/
structure Colors (V : Type) where
  rows : List (List V)
  cols : ℕ

/-- `colors[:, i]`. -/
def Colors.column (c : Colors V) (i : ℕ) : Py (List V) :=
  if i < c.cols then mapPy (fun row => getItem row i) c.rows else .error .indexError

/-! ### Arguments -/

/-- An argument `colors`: one- or two-dimensional, or something else. -/
inductive ColorsArg (V : Type) where
  | one (l : List V)
  | two (c : Colors V)
  | other

/-- An argument that is a value, a list, or something else. -/
inductive OneOrMany (α : Type) where
  | one (a : α)
  | many (l : List α)
  | other

/-- plot_plotly.py:84-93 `_to_cmaps`. -/
def toCmaps : Option (OneOrMany String) → Py (List String)
  | none => .ok ["Jet"]
  | some (.one c) => .ok [c]
  | some (.many l) => .ok l
  | some .other => .error .valueError

/-- plot_plotly.py:96-106 `_to_colors`. -/
def toColors : ColorsArg V → Py (Colors V)
  | .one l => .ok ⟨l.map fun x => [x], 1⟩
  | .two c => .ok c
  | .other => .error .valueError

/-- plot_plotly.py:109-122 `_to_titles`. -/
def toTitles (title : Option (OneOrMany String)) (n : ℕ) : Py (List String) :=
  match title with
  | none => .ok ((List.range n).map fun i => toString i)
  | some (.one t) =>
    if n = 1 then .ok [t] else .ok ((List.range n).map fun i => t ++ " [" ++ toString i ++ "]")
  | some (.many l) => if l.length = n then .ok l else .error .valueError
  | some .other => .error .valueError

/-- plot_plotly.py:125-136 `_to_node_sizes`. -/
def toNodeSizes : Option (OneOrMany K) → Py (List K)
  | some (.one s) => .ok [s]
  | some (.many l) => .ok l
  | _ => .error .valueError

/-! ### `PlotlyPlot` -/

section
variable [Field K] [LinearOrder K]

/-- `self.positions[n][i]`. -/
def coordinate (p : MapperPlot K) (i : ℕ) (n : ℤ) : Py K := do
  let pos ← p.positions.getItem n
  getItem pos i

/-- plot_plotly.py:336-339 `_node_pos_array`. -/
def nodePosArray (p : MapperPlot K) : Py (List (List K)) :=
  mapPy (fun i => mapPy (coordinate p i) p.graph.nodes.keys) (List.range p.dim)

/-- plot_plotly.py:347-350: the body of the loop over the dimensions. -/
def appendEdge (pos0 pos1 : List K) : (i : ℕ) → List (List (Option K)) → Py (List (List (Option K)))
  | _, [] => .ok []
  | i, a :: arr => do
    let a0 ← getItem pos0 i
    let a1 ← getItem pos1 i
    let arr ← appendEdge pos0 pos1 (i + 1) arr
    return (a ++ [some a0, some a1, none]) :: arr

/-- plot_plotly.py:345-350: the loop over the edges. -/
def edgePosLoop (p : MapperPlot K) : List (ℤ × ℤ) → List (List (Option K)) →
    Py (List (List (Option K)))
  | [], arr => .ok arr
  | (u, v) :: rest, arr => do
    let pos0 ← p.positions.getItem u
    let pos1 ← p.positions.getItem v
    let arr ← appendEdge pos0 pos1 0 arr
    edgePosLoop p rest arr

/-- plot_plotly.py:341-351 `_edge_pos_array`. -/
def edgePosArray (p : MapperPlot K) : Py (List (List (Option K))) :=
  edgePosLoop p p.graph.edges ((List.range p.dim).map fun _ => [])

/-- `nx.get_node_attributes(graph, "size")`. -/
def attrSize (g : NxGraph) : PyDict ℤ ℕ :=
  ⟨g.nodes.items.filterMap fun p => p.2.size.map fun s => (p.1, s)⟩

/-- `max(values, default=1.0)`. -/
def maxSize (sizes : List ℕ) : ℕ :=
  match sizes with
  | [] => 1
  | s :: rest => rest.foldl max s

/-- plot_plotly.py:353-358 `_marker_size`. -/
def markerSize (p : MapperPlot K) : Py (List K) :=
  let sizes := attrSize p.graph
  let m := maxSize (sizes.items.map Prod.snd)
  let factor : K := if p.dim = 3 then 600 else 400
  mapPy (fun n => do
    let s ← sizes.getItem n
    if m = 0 then .error .zeroDivisionError else return factor * s / m) p.graph.nodes.keys

/-- plot_plotly.py:386-396 `_edge_colors_from_node_colors`. -/
def edgeColors (colors : PyDict ℤ K) : List (ℤ × ℤ) → Py (List K)
  | [] => .ok []
  | (u, v) :: rest => do
    let c0 ← colors.getItem u
    let c1 ← colors.getItem v
    let out ← edgeColors colors rest
    return c0 :: c1 :: c1 :: out

/-- plot_plotly.py:614-622 `_text`. -/
def nodeTexts (g : NxGraph) (colors : PyDict ℤ K) : Py (List (NodeText K)) :=
  mapPy (fun n => do
    let c ← colors.getItem n
    let s ← (attrSize g).getItem n
    return ⟨c, n, s⟩) g.nodes.keys

/-- `min(values, default=None)`. -/
def minColor (l : List K) : Option K :=
  match l with
  | [] => none
  | a :: rest => some (rest.foldl min a)

/-- `max(values, default=None)`. -/
def maxColor (l : List K) : Option K :=
  match l with
  | [] => none
  | a :: rest => some (rest.foldl max a)

/-- plot_plotly.py:444-446, 883-885: `marker.sizeref` for a node size. -/
def sizerefOf (s : K) : K := if s = 0 then 1000000000 else (1 / s) ^ 2

/-- plot_plotly.py:555-556, 573-576: the third coordinates, in three dimensions. -/
def thirdAxis {α : Type} (p : MapperPlot K) (arr : List α) : Py (Option α) :=
  if p.dim = 3 then (getItem arr 2).map some else .ok none

/-- plot_plotly.py:533-559 `_nodes_trace`, with `jet` the default colour scale. -/
def nodesTrace (jet : Scale K) (p : MapperPlot K) (arr : List (List K)) : Py (NodesTrace K) := do
  let x ← getItem arr 0
  let y ← getItem arr 1
  let size ← markerSize p
  let z ← thirdAxis p arr
  return { x, y, z, size, text := none, color := none, cmin := none, cmax := none, sizeref := 1,
           title := "", scale := jet }

/-- plot_plotly.py:561-592 `_edges_trace`. -/
def edgesTrace (jet : Scale K) (p : MapperPlot K) (arr : List (List (Option K))) :
    Py (EdgesTrace K) := do
  let x ← getItem arr 0
  let y ← getItem arr 1
  let z ← thirdAxis p arr
  return { x, y, z, color := none, cmin := none, cmax := none,
           scale := if p.dim = 3 then some jet else none }

/-- Setters change the figure in place, and may raise. -/
abbrev Setter (K : Type) := Fig K → Py (Fig K)

/-- plot_plotly.py:453-465 `_set_width`, `_set_height`. -/
def setWidth (w : ℤ) : Setter K := fun f => .ok { f with width := some w }
/-- See `setWidth`. -/
def setHeight (h : ℤ) : Setter K := fun f => .ok { f with height := some h }

/-- plot_plotly.py:429-437 `_set_title(titles[0])`. -/
def setTitle (titles : List String) : Setter K := fun f => do
  let t ← getItem titles 0
  return { f with nodes := { f.nodes with title := t } }

/-- plot_plotly.py:439-451 `_set_node_size(node_sizes[len(node_sizes) // 2])`. -/
def setNodeSize (sizes : List K) : Setter K := fun f => do
  let s ← getItem sizes (sizes.length / 2)
  return { f with nodes := { f.nodes with sizeref := sizerefOf s } }

/-- plot_plotly.py:360-384 `_set_cmap(cmaps[0])`. -/
def setCmap (P : Palette K) (p : MapperPlot K) (cmaps : List String) : Setter K := fun f => do
  let c ← getItem cmaps 0
  let s ← P.scale c
  let f := { f with nodes := { f.nodes with scale := s } }
  if p.dim = 3 then return { f with edges := { f.edges with scale := some s } }
  else return f

/-- plot_plotly.py:398-415: the part of `_set_colors(colors[:, 0], agg)` for the nodes. -/
def setNodeColors (p : MapperPlot K) (colors : Colors V) (agg : List V → Py K) : Setter K := fun f => do
  let col ← colors.column 0
  let d ← aggregateGraph col p.graph agg
  let arr := d.items.map Prod.snd
  let text ← nodeTexts p.graph d
  return { f with nodes := { f.nodes with text := some text, color := some arr,
                                          cmin := minColor arr, cmax := maxColor arr } }

/-- plot_plotly.py:416-427: the part for the edges. -/
def setEdgeColors (p : MapperPlot K) (colors : Colors V) (agg : List V → Py K) : Setter K := fun f =>
  if p.dim = 3 then do
    let col ← colors.column 0
    let d ← aggregateGraph col p.graph agg
    let arr := d.items.map Prod.snd
    let e ← edgeColors d p.graph.edges
    return { f with edges := { f.edges with color := some e, cmin := minColor arr, cmax := maxColor arr } }
  else .ok f

/-- One setter after what has been done: a figure, and an exception if one was raised. -/
def andThen (r : Py Unit × Fig K) (s : Setter K) : Py Unit × Fig K :=
  match r with
  | (.error e, f) => (.error e, f)
  | (.ok _, f) =>
    match s f with
    | .ok f' => (.ok (), f')
    | .error e => (.error e, f)

/-- The setter if the argument is given. -/
def ifGiven {α : Type} (a : Option α) (s : α → Setter K) : Setter K := fun f =>
  match a with
  | some a => s a f
  | none => .ok f

/-- The setter if both arguments are given. -/
def ifBoth {α β : Type} (a : Option α) (b : Option β) (s : α → β → Setter K) : Setter K := fun f =>
  match a, b with
  | some a, some b => s a b f
  | _, _ => .ok f

/-- plot_plotly.py:494-531 `update_figure`. -/
def updateFigure (P : Palette K) (p : MapperPlot K) (titles : Option (List String))
    (sizes : Option (List K)) (colors : Option (Colors V)) (agg : Option (List V → Py K))
    (cmaps : Option (List String)) (width height : Option ℤ) (r : Py Unit × Fig K) :
    Py Unit × Fig K :=
  let r := andThen r (ifGiven width setWidth)
  let r := andThen r (ifGiven height setHeight)
  let r := andThen r (ifGiven titles setTitle)
  let r := andThen r (ifGiven sizes setNodeSize)
  let r := andThen r (ifBoth colors agg (setNodeColors p))
  let r := andThen r (ifBoth colors agg (setEdgeColors p))
  andThen r (ifGiven cmaps (setCmap P p))

/-- plot_plotly.py:852, 766 `target_traces`. -/
def targetTraces (p : MapperPlot K) : List ℕ := if p.dim = 3 then [0, 1] else [1]

/-- plot_plotly.py:817-850 `_update_colors(i)`. -/
def updateColors (p : MapperPlot K) (colors : Colors V) (titles : List String) (agg : List V → Py K)
    (i : ℕ) : Py (Restyle K) := do
  let col ← colors.column i
  let d ← aggregateGraph col p.graph agg
  let arr := d.items.map Prod.snd
  let text ← nodeTexts p.graph d
  let title ← getItem titles i
  if p.dim = 3 then do
    let e ← edgeColors d p.graph.edges
    return { targets := targetTraces p
             text := [none, some text]
             title := [none, some title]
             color := [none, some arr]
             cmax := [none, maxColor arr]
             cmin := [none, minColor arr]
             lineColor := [some e, none]
             lineCmax := [maxColor arr, none]
             lineCmin := [minColor arr, none] }
  else if p.dim = 2 then
    return { targets := targetTraces p
             text := [some text]
             title := [some title]
             color := [some arr]
             cmax := [maxColor arr]
             cmin := [minColor arr] }
  else return { targets := targetTraces p }

/-- plot_plotly.py:804-874 `_ui_menu_color`: no buttons for a single column. -/
def menuColor (p : MapperPlot K) (colors : Colors V) (titles : List String) (agg : List V → Py K) :
    Py (List (String × Restyle K)) :=
  if 1 < colors.cols then
    mapPy (fun i => do
      let t ← getItem titles i
      let args ← updateColors p colors titles agg i
      return (t, args)) (List.range colors.cols)
  else .ok []

/-- plot_plotly.py:768-781 `_update_cmap`. -/
def updateCmap (P : Palette K) (p : MapperPlot K) (cmap : String) : Py (Restyle K) := do
  let s ← P.scale cmap
  if p.dim = 3 then
    return { targets := targetTraces p, scale := [none, some s], lineScale := [some s, none] }
  else if p.dim = 2 then return { targets := targetTraces p, scale := [some s] }
  else return { targets := targetTraces p }

/-- plot_plotly.py:708-710, 765-802 `_ui_menu_cmap` of the known colour scales: no
buttons for a single one. -/
def menuCmap (P : Palette K) (p : MapperPlot K) (cmaps : List String) :
    Py (List (String × Restyle K)) :=
  let ok := cmaps.filterMap P.known
  if 1 < ok.length then
    mapPy (fun c => do
      let args ← updateCmap P p c
      return (c, args)) ok
  else .ok []

/-- plot_plotly.py:876-912 `_ui_slider_node_size`: steps and active step. -/
def sliderSize (sizes : List K) : List (K × Restyle K) × ℕ :=
  let steps := sizes.map fun s => (s, { targets := [1], sizeref := [some (sizerefOf s)] })
  (steps, steps.length / 2)

/-- `ui_menu_cmap` at plot_plotly.py:707-710: the new menu if colour scales are given. -/
def newMenuCmap (P : Palette K) (p : MapperPlot K) (cmaps : Option (List String))
    (old : Option (List (String × Restyle K))) : Py (Option (List (String × Restyle K))) :=
  match cmaps with
  | some c => do
    let m ← menuCmap P p c
    return some m
  | none => .ok old

/-- `ui_menu_color` at plot_plotly.py:712-713: the new menu if colours, aggregation and
titles are given. -/
def newMenuColor (p : MapperPlot K) (colors : Option (Colors V)) (titles : Option (List String))
    (agg : Option (List V → Py K)) (old : Option (List (String × Restyle K))) :
    Py (Option (List (String × Restyle K))) :=
  match colors, agg, titles with
  | some c, some a, some t => do
    let m ← menuColor p c t a
    return some m
  | _, _, _ => .ok old

/-- plot_plotly.py:666-727 `set_ui`: menus and slider that are not renewed are kept. -/
def setUi (P : Palette K) (p : MapperPlot K) (cmaps : Option (List String))
    (colors : Option (Colors V)) (titles : Option (List String)) (agg : Option (List V → Py K))
    (sizes : Option (List K)) : Setter K := fun f => do
  let mc ← newMenuCmap P p cmaps f.ui.cmaps
  let mo ← newMenuColor p colors titles agg f.ui.colors
  let sl := match sizes with
    | some s => some (sliderSize s)
    | none => f.ui.sizes
  return { f with ui := ⟨true, mc, mo, sl⟩ }

/-- The outcome as a value: the figure, or the exception. -/
def outcome (r : Py Unit × Fig K) : Py (Fig K) :=
  match r with
  | (.ok _, f) => .ok f
  | (.error e, _) => .error e

/-- plot_plotly.py:146-194, 290-334, 467-492 `plot_plotly`. The default colour scale
("Jet") of new traces is looked up first. -/
def plotPlotly (P : Palette K) (p : MapperPlot K) (colors : ColorsArg V)
    (nodeSize : Option (OneOrMany K)) (title : Option (OneOrMany String)) (agg : List V → Py K)
    (cmap : Option (OneOrMany String)) (width height : Option ℤ) : Py (Fig K) := do
  let cmaps ← toCmaps cmap
  let colors ← toColors colors
  let titles ← toTitles title colors.cols
  let sizes ← toNodeSizes nodeSize
  let nodePos ← nodePosArray p
  let edgePos ← edgePosArray p
  let jet ← P.scale "Jet"
  let edges ← edgesTrace jet p edgePos
  let nodes ← nodesTrace jet p nodePos
  let f ← outcome (updateFigure P p (some titles) (some sizes) (some colors) (some agg) (some cmaps)
    width height (.ok (), { nodes, edges }))
  setUi P p (some cmaps) (some colors) (some titles) (some agg) (some sizes) f

/-- `f(a)` if the argument is given, else `None`. -/
def convert {α β : Type} (f : α → Py β) : Option α → Py (Option β)
  | some a => do
    let b ← f a
    return some b
  | none => .ok none

/-- plot_plotly.py:197-267 `plot_plotly_update`: the figure afterwards, with the
exception if one is raised. -/
def plotPlotlyUpdate (P : Palette K) (p : MapperPlot K) (f : Fig K) (width height : Option ℤ)
    (nodeSize : Option (OneOrMany K)) (colors : Option (ColorsArg V))
    (title : Option (OneOrMany String)) (agg : Option (List V → Py K))
    (cmap : Option (OneOrMany String)) : Py Unit × Fig K :=
  let args : Py (Option (List String) × Option (Colors V) × Option (List String) ×
      Option (List K)) := do
    let cmaps ← convert (fun c => toCmaps (some c)) cmap
    let cols ← convert toColors colors
    let titles ← convert (fun t => toTitles (some t) ((cols.map Colors.cols).getD 0)) title
    let sizes ← convert (fun s => toNodeSizes (some s)) nodeSize
    return (cmaps, cols, titles, sizes)
  match args with
  | .error e => (.error e, f)
  | .ok (cmaps, cols, titles, sizes) =>
    updateFigure P p titles sizes cols agg cmaps width height
      (andThen (.ok (), f) (setUi P p cmaps cols titles agg sizes))

end

end Verif
