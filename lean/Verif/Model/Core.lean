import Verif.PyDict
import Verif.Model.UnionFind
import Mathlib.Data.List.Dedup

/-!
# Model of `src/tdamapper/core.py`

* A cover is its `apply` method: a function from a list of lens values to the list
  of charts it yields, each a list of indices (protocols.py `Cover`). The real
  method is a generator; its charts are collected here before the clustering
  starts, while `joblib` pulls them one by one. Only which exception wins, when
  both the cover and a clustering fail, can depend on this.
* A clustering is its `fit` method followed by reading `labels_` (protocols.py
  `Clustering`). It receives the number of the job as an extra argument, so that
  a clustering that gives different answers to equal inputs (random state, shared
  state) is covered as well.
* `n_jobs` is not an argument: `joblib.Parallel` returns the results in
  submission order. Interleavings of jobs that share state are modelled in
  `Verif.Model.Jobs`.
-/

set_option autoImplicit false

namespace Verif

/-- protocols.py:94-100 `Cover.apply`. -/
abbrev CoverFn (T : Type) := List T → Py (List (List Nat))

/-- protocols.py:103-124 `Clustering`: `clust.fit(X_local).labels_` in job number `c`. -/
abbrev ClustFn (S : Type) := Nat → List S → Py (List Int)

section labels
variable {S T : Type}

/-- core.py:102 `[X[j] for j in local_ids]`. -/
def gather (X : List S) : List Nat → Py (List S)
  | [] => .ok []
  | j :: js => do
    let x ← getItem X j
    let xs ← gather X js
    return x :: xs

/-- core.py:94-105: job number `c` and the following ones; each job clusters the
points of its chart (`_run_clustering`) and returns the chart with the labels. -/
def runJobs (X : List S) (clust : ClustFn S) :
    (c : Nat) → List (List Nat) → Py (List (List Nat × List Int))
  | _, [] => .ok []
  | c, ids :: charts => do
    let xLocal ← gather X ids
    let lbls ← clust c xLocal
    let rest ← runJobs X clust (c + 1) charts
    return (ids, lbls) :: rest

/-- core.py:111-112: `if local_lbl >= 0: itm_lbls[local_id].append(max_lbl + local_lbl)`. -/
def appendLabel (maxLbl : Int) (i : Nat) (l : Int) (itm : List (List Int)) :
    Py (List (List Int)) :=
  if l ≥ 0 then do
    let cur ← getItem itm i
    setItem itm i (cur ++ [maxLbl + l])
  else .ok itm

/-- core.py:110-114: the inner loop over `zip(local_ids, local_lbls)`; returns
`max_local_lbl` and `itm_lbls`. -/
def labelChart (maxLbl : Int) :
    List (Nat × Int) → (maxLocal : Int) → List (List Int) → Py (Int × List (List Int))
  | [], maxLocal, itm => .ok (maxLocal, itm)
  | (i, l) :: rest, maxLocal, itm => do
    let itm ← appendLabel maxLbl i l itm
    labelChart maxLbl rest (if l > maxLocal then l else maxLocal) itm

/-- core.py:107-116: the loop over the charts. -/
def labelCharts :
    List (List Nat × List Int) → (maxLbl : Int) → List (List Int) → Py (List (List Int))
  | [], _, itm => .ok itm
  | (ids, lbls) :: rest, maxLbl, itm => do
    let (maxLocal, itm) ← labelChart maxLbl (ids.zip lbls) 0 itm
    labelCharts rest (maxLbl + (maxLocal + 1)) itm

/-- core.py:61-116 `mapper_labels`. -/
def mapperLabels (X : List S) (y : List T) (cover : CoverFn T) (clust : ClustFn S) :
    Py (List (List Int)) := do
  let charts ← cover y
  let runs ← runJobs X clust 0 charts
  labelCharts runs 0 (X.map fun _ => [])

end labels

section components
variable {S T : Type}

/-- core.py:157-158 `for first, second in zip(lbls, lbls[1:]): uf.union(first, second)`. -/
def unionPairs : List (Int × Int) → UnionFind Int → Py (UnionFind Int)
  | [], uf => .ok uf
  | (a, b) :: rest, uf =>
    match uf.union a b with
    | (.error e, _) => .error e
    | (.ok _, uf) => unionPairs rest uf

/-- core.py:155-158: the loop over the points. -/
def unionAll : List (List Int) → UnionFind Int → Py (UnionFind Int)
  | [], uf => .ok uf
  | lbls :: rest, uf => do
    let uf ← if lbls.length > 1 then unionPairs (lbls.zip lbls.tail) uf else .ok uf
    unionAll rest uf

/-- core.py:160-163: `labels[i]` for each point; `find` updates the union-find. -/
def findAll : List (List Int) → UnionFind Int → Py (List Int)
  | [], _ => .ok []
  | [] :: rest, uf => do
    let out ← findAll rest uf
    return -1 :: out
  | (l :: _) :: rest, uf =>
    match uf.find l with
    | (.error e, _) => .error e
    | (.ok root, uf) => do
      let out ← findAll rest uf
      return root :: out

/-- core.py:119-164 `mapper_connected_components`. `setOrder` is the iteration
order of the Python set `label_values`, given its elements. Lines 159-163
write `labels[i]` for `i` in the range of `itm_lbls`, which has the length of `X`;
the list is built directly here. -/
def mapperConnectedComponents (setOrder : List Int → List Int) (X : List S) (y : List T)
    (cover : CoverFn T) (clust : ClustFn S) : Py (List Int) := do
  let itm ← mapperLabels X y cover clust
  let uf := UnionFind.init (setOrder itm.flatten.dedup)
  let uf ← unionAll itm uf
  findAll itm uf

end components

/-- The attributes of a node: `none` is a missing key (networkx keeps a dict). -/
structure NodeAttr where
  size : Option Nat
  ids : Option (List Nat)
  deriving Repr, DecidableEq

/-- `networkx.Graph`: node attributes and adjacency, in insertion order. The
adjacency of a node is a dict whose keys are the neighbours; edge attributes are
not modelled (`core.py` sets none). -/
structure NxGraph where
  nodes : PyDict Int NodeAttr
  adj : PyDict Int (List Int)

namespace NxGraph

/-- `nx.Graph()`. -/
def empty : NxGraph := ⟨PyDict.empty, PyDict.empty⟩

/-- `graph.has_node(n)`. -/
def hasNode (g : NxGraph) (n : Int) : Bool := g.nodes.contains n

/-- `graph.add_node(n, **attr)` for a node that is not in the graph, as at
core.py:201-202. -/
def addNode (g : NxGraph) (n : Int) (a : NodeAttr) : NxGraph :=
  ⟨g.nodes.set n a, g.adj.set n []⟩

/-- The part of `graph.add_edge(u, v)` that creates a missing end node. -/
def ensureNode (g : NxGraph) (n : Int) : NxGraph :=
  if g.hasNode n then g else g.addNode n ⟨none, none⟩

/-- `adj[u][v] = {}`: `v` becomes a key of the neighbour dict of `u`. -/
def addNbr (adj : PyDict Int (List Int)) (u v : Int) : Py (PyDict Int (List Int)) := do
  let nb ← adj.getItem u
  return adj.set u (if v ∈ nb then nb else nb ++ [v])

/-- `graph.add_edge(u, v)`. -/
def addEdge (g : NxGraph) (u v : Int) : Py NxGraph := do
  let g := (g.ensureNode u).ensureNode v
  let adj ← addNbr g.adj u v
  let adj ← addNbr adj v u
  return { g with adj }

end NxGraph

section graph
variable {S T : Type}

/-- core.py:203 `graph.nodes[lbl][ATTR_SIZE] += 1`, `KeyError` if absent. -/
def incrSize (g : NxGraph) (lbl : Int) : Py NxGraph := do
  let a ← g.nodes.getItem lbl
  match a.size with
  | some s => return { g with nodes := g.nodes.set lbl { a with size := some (s + 1) } }
  | none => .error .keyError

/-- core.py:204 `graph.nodes[lbl][ATTR_IDS].append(n)`, `KeyError` if absent. -/
def appendId (g : NxGraph) (lbl : Int) (n : Nat) : Py NxGraph := do
  let a ← g.nodes.getItem lbl
  match a.ids with
  | some l => return { g with nodes := g.nodes.set lbl { a with ids := some (l ++ [n]) } }
  | none => .error .keyError

/-- core.py:200-204: the loop over the labels of point `n`. -/
def addPoint (n : Nat) : List Int → NxGraph → Py NxGraph
  | [], g => .ok g
  | lbl :: rest, g => do
    let g := if g.hasNode lbl then g else g.addNode lbl ⟨some 0, some []⟩
    let g ← incrSize g lbl
    let g ← appendId g lbl n
    addPoint n rest g

/-- core.py:199-204: the loop over `enumerate(itm_lbls)`, from point `n` on. -/
def addPoints : (n : Nat) → List (List Int) → NxGraph → Py NxGraph
  | _, [], g => .ok g
  | n, lbls :: rest, g => do
    let g ← addPoint n lbls g
    addPoints (n + 1) rest g

/-- core.py:209-212: the loop over `j`, for a fixed source label. -/
def addEdgesFrom (source : Int) : List Int → NxGraph → Py NxGraph
  | [], g => .ok g
  | target :: rest, g => do
    let nb ← g.adj.getItem source
    let g ← if target ∈ nb then .ok g else g.addEdge source target
    addEdgesFrom source rest g

/-- core.py:206-212: the loop over `i`; the labels at positions `j > i` are the
tail of the list from `i` on. -/
def addEdgesOf : List Int → NxGraph → Py NxGraph
  | [], g => .ok g
  | source :: rest, g => do
    let g ← addEdgesFrom source rest g
    addEdgesOf rest g

/-- core.py:205-212: the loop over the points. -/
def addEdges : List (List Int) → NxGraph → Py NxGraph
  | [], g => .ok g
  | lbls :: rest, g => do
    let g ← addEdgesOf lbls g
    addEdges rest g

/-- core.py:167-213 `mapper_graph`. -/
def mapperGraph (X : List S) (y : List T) (cover : CoverFn T) (clust : ClustFn S) :
    Py NxGraph := do
  let itm ← mapperLabels X y cover clust
  let g ← addPoints 0 itm NxGraph.empty
  addEdges itm g

/-- core.py:238-241: the loop of `aggregate_graph` over the nodes. -/
def aggregateLoop {A : Type} (X : List S) (g : NxGraph) (agg : List S → Py A) :
    List Int → PyDict Int A → Py (PyDict Int A)
  | [], out => .ok out
  | n :: rest, out => do
    let a ← g.nodes.getItem n
    match a.ids with
    | none => .error .keyError
    | some ids => do
      let vals ← gather X ids
      let v ← agg vals
      aggregateLoop X g agg rest (out.set n v)

/-- core.py:216-242 `aggregate_graph`. -/
def aggregateGraph {A : Type} (X : List S) (g : NxGraph) (agg : List S → Py A) :
    Py (PyDict Int A) :=
  aggregateLoop X g agg g.nodes.keys PyDict.empty

end graph

section net
variable {S F : Type}

/-- core.py:265-270: the loop of `proximity_net` from index `i` on. `fitted` is
the fitted search object; the set `covered_ids` is a list. -/
def proximityLoop (search : F → S → Py (List Nat)) (fitted : F) :
    (i : Nat) → List S → (covered : List Nat) → Py (List (List Nat))
  | _, [], _ => .ok []
  | i, x :: rest, covered =>
    if i ∈ covered then proximityLoop search fitted (i + 1) rest covered
    else do
      let neigh ← search fitted x
      let out ← proximityLoop search fitted (i + 1) rest (covered ++ neigh)
      return if neigh = [] then out else neigh :: out

/-- core.py:245-270 `proximity_net`, for a search object given by its methods
`fit` and `search` (protocols.py `SpatialSearch`); the yielded lists are collected. -/
def proximityNet (fit : List S → Py F) (search : F → S → Py (List Nat)) (X : List S) :
    Py (List (List Nat)) := do
  let fitted ← fit X
  proximityLoop search fitted 0 X []

/-- core.py:291-299 `TrivialCover.apply`. -/
def trivialCover : CoverFn S := fun X =>
  if X.length > 0 then .ok [List.range X.length] else .ok []

end net

section clustering
variable {S : Type}

/-- core.py:368-379 `TrivialClustering.fit`, then `labels_`. -/
def trivialClustering (X : List S) : Py (List Int) := .ok (X.map fun _ => 0)

/-- core.py:325-350 `FailSafeClustering.fit`, then `labels_`, for a wrapped
clustering given by its `fit` (`none`: the parameter is `None`). Logging
(`verbose`) is modelled in `Model/Logging`. -/
def failSafe (inner : Option (List S → Py (List Int))) (X : List S) : Py (List Int) :=
  let clustering := inner.getD trivialClustering
  match clustering X with
  | .ok lbls => .ok lbls
  | .error .valueError => .ok (X.map fun _ => 0)
  | .error e => .error e

end clustering

end Verif
