import Verif.Model.Objects
import Verif.Model.Validate

/-!
# Model of `src/tdamapper/learn.py` and of the clustering objects of `core.py`

`MapperAlgorithm`, `MapperClustering`, `FailSafeClustering` and
`TrivialClustering` are objects on the heap of `Verif.Model.Objects`, so that it is
visible which objects are shared and modified. An operation returns a result or an
exception together with the heap it leaves behind.

The objects of all other classes (the covers of cover.py, the clusterings of other
libraries) are given by a `World`: their `fit` and `apply` methods read and write
the attributes of the object itself only.

The jobs of `mapper_labels` run one after the other here, as for `n_jobs=1`, when
`joblib` pulls one chart at a time from the cover; interleavings are in
`Verif.Model.Jobs`. The generator returned by `cover.apply` is run to its end
first (see `Verif.Model.Core`).
-/

set_option autoImplicit false

namespace Verif

/-- The behaviour of classes outside this model. -/
structure World where
  /-- Those classes. -/
  others : Classes
  /-- `fit(X)` of an object of that class with those attributes: the attributes
  afterwards, and whether it raised an exception. -/
  fit : String → PyDict String Val → List RealArray → PyDict String Val × Py Unit
  /-- `apply(y)` of a cover. -/
  apply : String → PyDict String Val → List RealArray → PyDict String Val × Py (List (List ℕ))
  /-- The iteration order of a Python set of integers. -/
  setOrder : List ℤ → List ℤ

/-- The methods every estimator of the library has. -/
def commonMembers : List String := ["fit", "get_params", "set_params"]

/-- The classes: core.py:273-300 and 365-366 (no parameters), core.py:320-324,
learn.py:55-63 and 133-145, and those of the world. -/
def World.classes (W : World) : Classes := fun cls =>
  if cls = "TrivialCover" then some ⟨"apply" :: commonMembers, PyDict.empty⟩
  else if cls = "TrivialClustering" then some ⟨commonMembers, PyDict.empty⟩
  else if cls = "FailSafeClustering" then
    some ⟨commonMembers, ⟨[("clustering", .none), ("verbose", .bool true)]⟩⟩
  else if cls = "MapperClustering" then
    some ⟨commonMembers, ⟨[("cover", .none), ("clustering", .none), ("n_jobs", .int 1)]⟩⟩
  else if cls = "MapperAlgorithm" then
    some ⟨"fit_transform" :: commonMembers, ⟨[("cover", .none), ("clustering", .none),
      ("failsafe", .bool true), ("verbose", .bool true), ("n_jobs", .int 1)]⟩⟩
  else W.others cls

/-- A computation that reads and writes the heap and may raise an exception. -/
def Eff (α : Type) := Heap → Py α × Heap

namespace Eff

instance : Monad Eff where
  pure a := fun h => (.ok a, h)
  bind x f := fun h =>
    match x h with
    | (.ok a, h') => f a h'
    | (.error e, h') => (.error e, h')

/-- Raise or return. -/
def lift {α : Type} (x : Py α) : Eff α := fun h => (x, h)

end Eff

/-- The object at an address. -/
def readObj (r : ℕ) : Eff Obj := fun h => (deref h r, h)

/-- `o.k`, for a name that is not a method. -/
def readAttr (r : ℕ) (k : String) : Eff Val := do
  let o ← readObj r
  match o.attrs.get? k with
  | some v => pure v
  | none => Eff.lift (.error .attributeError)

/-- Replace the object at an address. -/
def storeObj (r : ℕ) (o : Obj) : Eff Unit := fun h => (.ok (), h.set r o)

/-- Replace the attributes of an object. -/
def writeAttrs (r : ℕ) (attrs : PyDict String Val) : Eff Unit := do
  let o ← readObj r
  storeObj r { o with attrs }

/-- `o.k = v`. -/
def writeAttr (r : ℕ) (k : String) (v : Val) : Eff Unit := do
  let o ← readObj r
  writeAttrs r (o.attrs.set k v)

/-- `cls(...)`: a new object with these attributes. -/
def alloc (cls : String) (attrs : PyDict String Val) : Eff ℕ :=
  fun h => (.ok h.length, h ++ [⟨cls, attrs⟩])

/-- `clone(o)`, _common.py:192-203, which changes no existing object unless it
raises; the heap after an exception is not modelled. -/
def cloneE (W : World) (fuel r : ℕ) : Eff ℕ := fun h =>
  match clone W.classes fuel h r with
  | .ok (h', new) => (.ok new, h')
  | .error e => (.error e, h)

/-- The value as an address: only objects have the methods called on it. -/
def asObj : Val → Eff ℕ
  | .obj r => pure r
  | _ => Eff.lift (.error .attributeError)

/-- The value as labels. -/
def asLabels : Val → Eff (List ℤ)
  | .labels l => pure l
  | _ => Eff.lift (.error .typeError)

/-- `try: body except ValueError: handler`. -/
def tryValueError (body handler : Eff Unit) : Eff Unit := fun h =>
  match body h with
  | (.error .valueError, h') => handler h'
  | res => res

/-- core.py:377-378 `TrivialClustering.fit`. -/
def trivialFit (r : ℕ) (X : List RealArray) : Eff Unit :=
  writeAttr r "labels_" (.labels (X.map fun _ => 0))

/-- core.py:343-344: the body of the `try` statement of `FailSafeClustering.fit`;
`fitInner` is the `fit` method of the wrapped object. -/
def failSafeTry (fitInner : ℕ → List RealArray → Eff Unit) (r : ℕ) (X : List RealArray) :
    Eff Unit := do
  let c ← readAttr r "_clustering"
  let t ← asObj c
  fitInner t X
  let lbls ← readAttr t "labels_"
  writeAttr r "labels_" lbls

/-- The argument of `clustering=None` is replaced by a new `TrivialClustering()`,
core.py:338-340, learn.py:78. -/
def orTrivial (cls : String) : Val → Eff Val
  | .none => do
    let t ← alloc cls PyDict.empty
    pure (.obj t)
  | v => pure v

/-- core.py:337-350 `FailSafeClustering.fit`. Logging is not modelled. -/
def failSafeFit (fitInner : ℕ → List RealArray → Eff Unit) (r : ℕ) (X : List RealArray) :
    Eff Unit := do
  let c ← readAttr r "clustering"
  let inner ← orTrivial "TrivialClustering" c
  writeAttr r "_clustering" inner
  let verbose ← readAttr r "verbose"
  writeAttr r "_verbose" verbose
  tryValueError (failSafeTry fitInner r X)
    (writeAttr r "labels_" (.labels (X.map fun _ => 0)))

/-- `fit` of an object of a class outside this model. -/
def worldFit (W : World) (r : ℕ) (X : List RealArray) : Eff Unit := do
  let o ← readObj r
  let (attrs, res) := W.fit o.cls o.attrs X
  writeAttrs r attrs
  Eff.lift res

/-- `cover.apply(y)`: core.py:291-299 for `TrivialCover`, otherwise the world's. -/
def applyCover (W : World) (r : ℕ) (y : List RealArray) : Eff (List (List ℕ)) := do
  let o ← readObj r
  if o.cls = "TrivialCover" then Eff.lift (trivialCover y)
  else do
    let (attrs, res) := W.apply o.cls o.attrs y
    writeAttrs r attrs
    Eff.lift res

/-- core.py:94-105: the jobs, one after the other, each on a clone of the
clustering; `fit` is the `fit` method of clusterings. -/
def runJobsE (W : World) (fuel : ℕ) (fit : ℕ → List RealArray → Eff Unit) (X : List RealArray)
    (clust : ℕ) : List (List ℕ) → Eff (List (List ℕ × List ℤ))
  | [] => pure []
  | ids :: charts => do
    let xLocal ← Eff.lift (gather X ids)
    let c ← cloneE W fuel clust
    fit c xLocal
    let v ← readAttr c "labels_"
    let lbls ← asLabels v
    let rest ← runJobsE W fuel fit X clust charts
    return (ids, lbls) :: rest

/-- core.py:61-116 `mapper_labels`, on objects. -/
def mapperLabelsE (W : World) (fuel : ℕ) (fit : ℕ → List RealArray → Eff Unit)
    (X y : List RealArray) (cover clust : ℕ) : Eff (List (List ℤ)) := do
  let charts ← applyCover W cover y
  let runs ← runJobsE W fuel fit X clust charts
  Eff.lift (labelCharts runs 0 (X.map fun _ => []))

/-- core.py:197-213: what `mapper_graph` does with the labels. -/
def graphOfLabels (itm : List (List ℤ)) : Py NxGraph := do
  let g ← addPoints 0 itm NxGraph.empty
  addEdges itm g

/-- core.py:151-164: what `mapper_connected_components` does with the labels. -/
def componentsOfLabels (setOrder : List ℤ → List ℤ) (itm : List (List ℤ)) : Py (List ℤ) := do
  let uf ← unionAll itm (UnionFind.init (setOrder itm.flatten.dedup))
  findAll itm uf

/-- `clone(v)` of a parameter that is not `None`, learn.py:77,79,164,167. -/
def cloneVal (W : World) (fuel : ℕ) (v : Val) : Eff ℕ := do
  let r ← asObj v
  cloneE W fuel r

/-- learn.py:65-91 `MapperClustering.fit`. `y` is `none` for `None`; `fit` is the `fit`
method of the clusterings of the charts. -/
def mapperClusteringFitWith (W : World) (fuel : ℕ) (fit : ℕ → List RealArray → Eff Unit) (r : ℕ)
    (X : Input) (y : Option Input) : Eff Unit := do
  let (aX, ay) ← Eff.lift (validateXy X (y.getD X))
  let cover ← readAttr r "cover"
  let cover ← orTrivial "TrivialCover" cover
  let cover ← cloneVal W fuel cover
  let clust ← readAttr r "clustering"
  let clust ← orTrivial "TrivialClustering" clust
  let clust ← cloneVal W fuel clust
  let _nJobs ← readAttr r "n_jobs"
  let X ← Eff.lift (rowsOf aX)
  let y ← Eff.lift (rowsOf ay)
  let itm ← mapperLabelsE W fuel fit X y cover clust
  let comps ← Eff.lift (componentsOfLabels W.setOrder itm)
  let lbls ← Eff.lift (gather comps (List.range X.length))
  writeAttr r "labels_" (.labels lbls)
  let n ← Eff.lift (nFeatures aX)
  writeAttr r "n_features_in_" (.int n)

/-- `np.asarray` of a list of arrays: they are stacked along a new first axis, which
fails if their shapes differ. -/
def stackRows (l : List RealArray) : Input :=
  ⟨false, match l with
    | [] => .ok ⟨[0], .real []⟩
    | a :: rest =>
      if rest.all fun b => b.shape == a.shape then
        .ok ⟨(rest.length + 1) :: a.shape, .real ((a :: rest).flatMap fun b => b.vals)⟩
      else .error .valueError⟩

/-- `obj.fit(X)` of a clustering, by class; `X` is a list of rows. `depth` bounds the nesting
of `FailSafeClustering` and `MapperClustering`; `fuel` is for cloning. `MapperAlgorithm`
and the covers are no clusterings: they have no `labels_`. -/
def fitObj (W : World) (fuel : ℕ) (depth : ℕ) (r : ℕ) (X : List RealArray) : Eff Unit := do
  let o ← readObj r
  if o.cls = "FailSafeClustering" then
    match depth with
    | 0 => Eff.lift (.error .diverge)
    | depth + 1 => failSafeFit (fitObj W fuel depth) r X
  else if o.cls = "MapperClustering" then
    match depth with
    | 0 => Eff.lift (.error .diverge)
    | depth + 1 => mapperClusteringFitWith W fuel (fitObj W fuel depth) r (stackRows X) none
  else if o.cls = "TrivialClustering" then trivialFit r X
  else worldFit W r X

/-- learn.py:65-91 `MapperClustering.fit`. -/
def mapperClusteringFit (W : World) (fuel : ℕ) (r : ℕ) (X : Input) (y : Option Input) :
    Eff Unit :=
  mapperClusteringFitWith W fuel (fitObj W fuel fuel) r X y

/-- `bool(v)`. -/
def truthy : Val → Bool
  | .none => false
  | .bool b => b
  | .int i => i ≠ 0
  | .str s => s ≠ ""
  | .labels l => l ≠ []
  | _ => true

/-- learn.py:163-164 and 166-167: `self._x = clone(v)` unless `v` is `None`. -/
def cloneInto (W : World) (fuel : ℕ) (r : ℕ) (priv : String) : Val → Eff Unit
  | .none => pure ()
  | v => do
    let c ← cloneVal W fuel v
    writeAttr r priv (.obj c)

/-- learn.py:162-164 and 165-167: the private attribute gets a new object of the
trivial class, then a clone of the parameter unless that is `None`. -/
def setParamClone (W : World) (fuel : ℕ) (r : ℕ) (cls priv param : String) : Eff Unit := do
  let t ← alloc cls PyDict.empty
  writeAttr r priv (.obj t)
  let v ← readAttr r param
  cloneInto W fuel r priv v

/-- learn.py:171-174: `self._clustering = FailSafeClustering(...)`. -/
def wrapFailSafe (r : ℕ) : Eff Unit := do
  let c ← readAttr r "_clustering"
  let v ← readAttr r "_verbose"
  let f ← alloc "FailSafeClustering" ⟨[("clustering", c), ("verbose", v)]⟩
  writeAttr r "_clustering" (.obj f)

/-- learn.py:170-174: the clustering is wrapped if `failsafe` is set. -/
def wrapIf (failsafe : Val) (r : ℕ) : Eff Unit :=
  if truthy failsafe then wrapFailSafe r else pure ()

/-- learn.py:162-176: the assignments of `MapperAlgorithm.fit` before the graph is
computed. -/
def mapperSetup (W : World) (fuel : ℕ) (r : ℕ) : Eff Unit := do
  setParamClone W fuel r "TrivialCover" "_cover" "cover"
  setParamClone W fuel r "TrivialClustering" "_clustering" "clustering"
  let verbose ← readAttr r "verbose"
  writeAttr r "_verbose" verbose
  let failsafe ← readAttr r "failsafe"
  writeAttr r "_failsafe" failsafe
  let failsafe ← readAttr r "_failsafe"
  wrapIf failsafe r
  let nJobs ← readAttr r "n_jobs"
  writeAttr r "_n_jobs" nJobs

/-- learn.py:177-183: the graph is computed and stored. -/
def mapperRun (W : World) (fuel : ℕ) (r : ℕ) (aX : RealArray) (X y : List RealArray) :
    Eff Unit := do
  let cover ← readAttr r "_cover"
  let cover ← asObj cover
  let clust ← readAttr r "_clustering"
  let clust ← asObj clust
  let itm ← mapperLabelsE W fuel (fitObj W fuel fuel) X y cover clust
  let g ← Eff.lift (graphOfLabels itm)
  writeAttr r "graph_" (.graph g)
  let n ← Eff.lift (nFeatures aX)
  writeAttr r "n_features_in_" (.int n)

/-- learn.py:147-184 `MapperAlgorithm.fit`. An `X` or `y` that is a scalar fails in
`mapper_graph`, with an exception that depends on the cover; here with `TypeError`,
before it. -/
def mapperAlgorithmFit (W : World) (fuel : ℕ) (r : ℕ) (X : Input) (y : Option Input) :
    Eff Unit := do
  let (aX, ay) ← Eff.lift (validateXy X (y.getD X))
  mapperSetup W fuel r
  let X ← Eff.lift (rowsOf aX)
  let y ← Eff.lift (rowsOf ay)
  mapperRun W fuel r aX X y

/-- learn.py:186-198 `fit_transform`. -/
def mapperFitTransform (W : World) (fuel : ℕ) (r : ℕ) (X : Input) (y : Option Input) :
    Eff Val := do
  mapperAlgorithmFit W fuel r X y
  readAttr r "graph_"

end Verif
