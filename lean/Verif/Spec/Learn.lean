import Verif.Model.Learn
import Verif.Spec.Objects
import Verif.Spec.Validate

/-!
# Specification: estimators as functions

The contract that scikit-learn asks of estimators, and what an estimator then
computes, as a function of its parameters and the data only.
-/

set_option autoImplicit false

namespace Verif

/-- The two dictionaries have the same public attributes. -/
def SamePublic (a a' : PyDict String Val) : Prop := ∀ k, IsPublic k → a.get? k = a'.get? k

/-- The contract of estimators outside the library: `fit` and `apply` set no public
attribute, and the labels that `fit` computes, or the exception it raises, are
determined by the public attributes and the data. -/
structure Contract (W : World) : Prop where
  fit_public : ∀ cls a X, SamePublic a (W.fit cls a X).1
  fit_nodup : ∀ cls a X, a.keys.Nodup → (W.fit cls a X).1.keys.Nodup
  apply_public : ∀ cls a y, SamePublic a (W.apply cls a y).1
  apply_nodup : ∀ cls a y, a.keys.Nodup → (W.apply cls a y).1.keys.Nodup
  fit_result : ∀ cls a a' X, SamePublic a a' → (W.fit cls a X).2 = (W.fit cls a' X).2
  fit_labels : ∀ cls a a' X, SamePublic a a' → (W.fit cls a X).2 = .ok () →
    (W.fit cls a X).1.get? "labels_" = (W.fit cls a' X).1.get? "labels_"

/-- The labels found in the attribute `labels_`. -/
def labelsAttr (a : PyDict String Val) : Py (List ℤ) :=
  match a.get? "labels_" with
  | some (.labels l) => .ok l
  | some _ => .error .typeError
  | none => .error .attributeError

/-- The attributes of a new object of the class with the public attributes of `a`. -/
def freshAttrs (c : ClassInfo) (a : PyDict String Val) : PyDict String Val :=
  ⟨c.init.items.map fun e => (e.1, if isParamPublic e.1 then (a.get? e.1).getD e.2 else e.2)⟩

/-- The charts that an unfitted copy of the cover at address `r` yields on `y`. -/
def chartsOf (W : World) (h : Heap) (r : ℕ) (y : List RealArray) : Py (List (List ℕ)) := do
  let o ← deref h r
  if o.cls = "TrivialCover" then trivialCover y
  else
    match W.classes o.cls with
    | some c => (W.apply o.cls (freshAttrs c o.attrs) y).2
    | none => .error .typeError

/-- The cover given by the parameter `cover`; `None` is the trivial cover. -/
def coverParam (W : World) (h : Heap) : Val → List RealArray → Py (List (List ℕ))
  | .obj r => chartsOf W h r
  | _ => trivialCover

/-- What `MapperClustering.fit` should compute, for a given cover and clustering: the labels and
the number of features. -/
def mapperClusteringResult (setOrder : List ℤ → List ℤ)
    (cover : List RealArray → Py (List (List ℕ))) (clust : List RealArray → Py (List ℤ))
    (X : Input) (y : Option Input) : Py (List ℤ × ℕ) := do
  let (aX, ay) ← validateXy X (y.getD X)
  let rX ← rowsOf aX
  let ry ← rowsOf ay
  let l ← mapperConnectedComponents setOrder rX ry cover (fun _ => clust)
  let n ← nFeatures aX
  return (l, n)

/-- The clustering that a parameter stands for; `None` is the trivial one. -/
def clustOr (f : ℕ → List RealArray → Py (List ℤ)) : Val → List RealArray → Py (List ℤ)
  | .obj r => f r
  | _ => trivialClustering

/-- The labels that the clustering at address `r` computes on the rows `X`: those of
`failSafe` around the wrapped clustering, the connected components of a Mapper, one
cluster, or what the world says. -/
def labelsOf (W : World) (h : Heap) (fuel : ℕ) (r : ℕ) (X : List RealArray) : Py (List ℤ) := do
  let o ← deref h r
  if o.cls = "FailSafeClustering" then
    match fuel with
    | 0 => .error .diverge
    | fuel + 1 =>
      match o.attrs.get? "clustering", o.attrs.get? "verbose" with
      | some .none, some _ => failSafe none X
      | some (.obj r'), some _ => failSafe (some (labelsOf W h fuel r')) X
      | _, _ => .error .attributeError
  else if o.cls = "MapperClustering" then
    match fuel with
    | 0 => .error .diverge
    | fuel + 1 =>
      match o.attrs.get? "cover", o.attrs.get? "clustering" with
      | some vc, some vk => do
        let p ← mapperClusteringResult W.setOrder (coverParam W h vc) (clustOr (labelsOf W h fuel) vk)
          (stackRows X) none
        return p.1
      | _, _ => .error .attributeError
  else if o.cls = "TrivialClustering" then trivialClustering X
  else
    match W.fit o.cls o.attrs X with
    | (_, .error e) => .error e
    | (a, .ok _) => labelsAttr a

/-- The clustering given by the parameter `clustering`; `None` is the trivial one. -/
def clustParam (W : World) (h : Heap) (fuel : ℕ) : Val → List RealArray → Py (List ℤ) :=
  clustOr (labelsOf W h fuel)

/-- A parameter that is meant to be `True` or `False` is on unless it is `False`, `None`, zero or
empty. -/
def isOn : Val → Bool
  | .bool false | .none | .int 0 | .str "" | .labels [] => false
  | _ => true

/-- The clustering a `MapperAlgorithm` uses. -/
def failSafeParam (W : World) (h : Heap) (fuel : ℕ) (failsafe clust : Val) :
    List RealArray → Py (List ℤ) :=
  if isOn failsafe then failSafe (some (clustParam W h fuel clust)) else clustParam W h fuel clust

/-- What `MapperAlgorithm.fit` should compute: the graph and the number of features. -/
def expectedGraph (W : World) (h : Heap) (fuel : ℕ) (cover clust failsafe : Val) (X : Input)
    (y : Option Input) : Py (NxGraph × ℕ) := do
  let (aX, ay) ← validateXy X (y.getD X)
  let rX ← rowsOf aX
  let ry ← rowsOf ay
  let g ← mapperGraph rX ry (coverParam W h cover) (fun _ => failSafeParam W h fuel failsafe clust)
  let n ← nFeatures aX
  return (g, n)

/-- What `MapperClustering.fit` should compute: the labels and the number of features. -/
def expectedLabels (W : World) (h : Heap) (fuel : ℕ) (cover clust : Val) (X : Input)
    (y : Option Input) : Py (List ℤ × ℕ) :=
  mapperClusteringResult W.setOrder (coverParam W h cover) (clustParam W h fuel clust) X y

/-- The parameter is `None`, or an object that can be cloned. -/
def Cloneable (W : World) (h : Heap) (v : Val) : Prop :=
  v = .none ∨ ∃ r o c, v = .obj r ∧ h[r]? = some o ∧ ParamsByInit W.classes o c

/-- Every `MapperClustering` nested in the object at `r`, or the object itself, has its parameters,
and its cover and clustering can be cloned. -/
def MapperReady (W : World) (h : Heap) (r : ℕ) : Prop :=
  ∀ ks a o, Reaches h r ks a → h[a]? = some o → o.cls = "MapperClustering" →
    ∃ vc vk vj, o.attrs.get? "cover" = some vc ∧ o.attrs.get? "clustering" = some vk ∧
      o.attrs.get? "n_jobs" = some vj ∧ Cloneable W h vc ∧ Cloneable W h vk

/-- The parameter can be cloned and used as a clustering. -/
def CloneableClust (W : World) (h : Heap) (v : Val) : Prop :=
  Cloneable W h v ∧ ∀ r, v = .obj r → MapperReady W h r

/-- Names on the heap are in order, public attributes refer to existing objects, and
nesting is less than `n` levels deep. -/
def GoodHeap (h : Heap) (n : ℕ) : Prop :=
  WellNamed h ∧ (∀ r k b, PublicAttr h r k (.obj b) → b < h.length) ∧
    ∀ r ks b, Reaches h r ks b → ks.length < n

/-- The clustering at `r` shares the object at `a` with its clones, which fit it: it is the object
inside a `FailSafeClustering`, or one that this object shares with its clones, or one that the
clustering of a `MapperClustering` shares with its clones. -/
inductive Shared (h : Heap) : ℕ → ℕ → Prop
  | wrapped {r a : ℕ} {o : Obj} : h[r]? = some o → o.cls = "FailSafeClustering" →
      o.attrs.get? "clustering" = some (.obj a) → Shared h r a
  | inWrapped {r b a : ℕ} {o : Obj} : h[r]? = some o → o.cls = "FailSafeClustering" →
      o.attrs.get? "clustering" = some (.obj b) → Shared h b a → Shared h r a
  | inMapper {r b a : ℕ} {o : Obj} : h[r]? = some o → o.cls = "MapperClustering" →
      o.attrs.get? "clustering" = some (.obj b) → Shared h b a → Shared h r a

/-- The same for the clustering that `v` refers to. -/
def SharedIn (h : Heap) (v : Val) (a : ℕ) : Prop := ∃ r, v = .obj r ∧ Shared h r a

/-- The clustering at `r` shares no fitted object with its clones: it is no
`FailSafeClustering` around another object, and if it is a `MapperClustering`, the same holds
of the clustering of that. -/
inductive SharesNothing (h : Heap) : ℕ → Prop
  | failSafe {r : ℕ} {o : Obj} : h[r]? = some o → o.cls = "FailSafeClustering" →
      o.attrs.get? "clustering" = some .none → SharesNothing h r
  | mapper {r : ℕ} {o : Obj} : h[r]? = some o → o.cls = "MapperClustering" →
      (∀ rk, o.attrs.get? "clustering" = some (.obj rk) → SharesNothing h rk) → SharesNothing h r
  | other {r : ℕ} {o : Obj} : h[r]? = some o → o.cls ≠ "FailSafeClustering" →
      o.cls ≠ "MapperClustering" → SharesNothing h r

/-- The attribute `k` of the object at `r`, if it has one. -/
def attrAt (h : Heap) (r : ℕ) (k : String) : Option Val := (h[r]?).bind fun o => o.attrs.get? k

/-- The object at `r` is a `MapperAlgorithm` with these parameters, whose cover and
clustering can be cloned. -/
def IsAlgorithm (W : World) (h : Heap) (r : ℕ) (cover clust failsafe : Val) : Prop :=
  ∃ o verbose nJobs, h[r]? = some o ∧ o.cls = "MapperAlgorithm" ∧
    o.attrs.get? "cover" = some cover ∧ o.attrs.get? "clustering" = some clust ∧
    o.attrs.get? "failsafe" = some failsafe ∧ o.attrs.get? "verbose" = some verbose ∧
    o.attrs.get? "n_jobs" = some nJobs ∧ IsPlain verbose ∧ Cloneable W h cover ∧
    CloneableClust W h clust

/-- The object at `r` is a `MapperClustering` with these parameters, whose cover and
clustering can be cloned. -/
def IsMapperClustering (W : World) (h : Heap) (r : ℕ) (cover clust : Val) : Prop :=
  ∃ o nJobs, h[r]? = some o ∧ o.cls = "MapperClustering" ∧
    o.attrs.get? "cover" = some cover ∧ o.attrs.get? "clustering" = some clust ∧
    o.attrs.get? "n_jobs" = some nJobs ∧ Cloneable W h cover ∧ CloneableClust W h clust

/-- A call of `fit` by the user, on a `MapperAlgorithm` or a `MapperClustering`. -/
structure FitCall where
  algorithm : Bool
  target : ℕ
  X : Input
  y : Option Input

/-- Making the call. -/
def FitCall.run (W : World) (fuel : ℕ) (c : FitCall) : Eff Unit :=
  if c.algorithm then mapperAlgorithmFit W fuel c.target c.X c.y
  else mapperClusteringFit W fuel c.target c.X c.y

/-- The heap after a history of calls; exceptions are caught by the caller. -/
def runCalls (W : World) (fuel : ℕ) : List FitCall → Heap → Heap
  | [], h => h
  | c :: cs, h => runCalls W fuel cs (c.run W fuel h).2

/-- The call is made on an object of the right class, with some parameters of which
`clust` is the clustering. -/
def FitCall.Valid (W : World) (h : Heap) (c : FitCall) (clust : Val) : Prop :=
  if c.algorithm then ∃ cover failsafe, IsAlgorithm W h c.target cover clust failsafe
  else ∃ cover, IsMapperClustering W h c.target cover clust

/-- The last result in a history: that of the last call on `r` which succeeds, or
the one before the history. -/
def lastResult {α : Type} (r : ℕ) (expected : Input → Option Input → Py α) :
    List FitCall → Option α → Option α
  | [], old => old
  | c :: cs, old =>
    if c.target = r then
      match expected c.X c.y with
      | .ok v => lastResult r expected cs (some v)
      | .error _ => lastResult r expected cs old
    else lastResult r expected cs old

/-- Two worlds with the same classes, which behave alike on finite data. -/
structure AgreeOnFinite (W W' : World) : Prop where
  others : W.others = W'.others
  setOrder : W.setOrder = W'.setOrder
  fit : ∀ cls a X, (∀ x ∈ X, AllFinite x) → W.fit cls a X = W'.fit cls a X
  apply : ∀ cls a y, (∀ x ∈ y, AllFinite x) → W.apply cls a y = W'.apply cls a y

end Verif
