import Verif.Model.Cover

/-!
# Model of cover objects as mutable objects, and of the generators of `apply`

In `Verif.Model.Cover` a cover is a value, `fit` returns the fitted one, and `apply`
returns the list of all charts. Here `fit` changes the attributes of the object one after the
other, so that the state left by a `fit` that raises is visible, and `apply` returns a
generator: nothing happens before the first `next`, and every `next` runs to the next
`yield`, using the object as it is then.

The simplifications are those of `Verif.Model.Cover`.
-/

set_option autoImplicit false

namespace Verif

/-- The methods of an object that can be fitted and searched (protocols.py `SpatialSearch`).
`fit` gives the outcome and the state after it, also when it raises. -/
structure Searchable (O T : Type) where
  fit : O → (ℕ → ℕ) → List T → Py Unit × O
  search : O → T → Py (List ℕ)

section Ball
variable {T R : Type} [LE R] [LT R] [DecidableLE R] [DecidableLT R] [DecidableEq R] [Zero R] [Neg R]
  [Sub R]

/-- cover.py:84-127: a `BallCover` object: its parameters, and the attributes `_radius` and
`_vptree`, which do not exist before `fit` assigns them. (`_data` is only used by `fit`.) -/
structure BallObj (T R : Type) where
  params : BallParams T R
  radius : Option R
  vptree : Option (VPTree (ℤ × T) R)

/-- cover.py:129-151 `BallCover.fit`: the radius is assigned before the tree is built. -/
def BallObj.fit (o : BallObj T R) (ρ : ℕ → ℕ) (X : List T) : Py Unit × BallObj T R :=
  let o := { o with radius := some o.params.radius }
  match VPTree.build (enumerate X) (pullback snd o.params.metric) o.params.kind
      ⟨o.params.leafCapacity, numOr o.params.leafRadius o.params.radius, o.params.pivoting⟩ ρ with
  | .error e => (.error e, o)
  | .ok t => (.ok (), { o with vptree := some t })

/-- cover.py:153-169 `BallCover.search`. -/
def BallObj.search (o : BallObj T R) (x : T) : Py (List ℕ) :=
  match o.vptree with
  | none => .error .attributeError
  | some t =>
    match o.radius with
    | none => .error .attributeError
    | some r => do
      let neighs ← t.ballSearch (-1, x) r false
      return firsts neighs

/-- `BallCover` as an object that can be searched. -/
def ballSearchable : Searchable (BallObj T R) T := ⟨BallObj.fit, BallObj.search⟩

/-- cover.py:185-230: a `KNNCover` object. -/
structure KnnObj (T R : Type) where
  params : KnnParams T R
  neighbors : Option ℕ
  vptree : Option (VPTree (ℤ × T) R)

/-- cover.py:232-254 `KNNCover.fit`: the number of neighbours is assigned before the tree is
built. -/
def KnnObj.fit (o : KnnObj T R) (ρ : ℕ → ℕ) (X : List T) : Py Unit × KnnObj T R :=
  let o := { o with neighbors := some o.params.neighbors }
  match VPTree.build (enumerate X) (pullback snd o.params.metric) o.params.kind
      ⟨numOr o.params.leafCapacity o.params.neighbors, o.params.leafRadius, o.params.pivoting⟩ ρ with
  | .error e => (.error e, o)
  | .ok t => (.ok (), { o with vptree := some t })

/-- cover.py:256-268 `KNNCover.search`. -/
def KnnObj.search (o : KnnObj T R) (x : T) : Py (List ℕ) :=
  match o.vptree with
  | none => .error .attributeError
  | some t =>
    match o.neighbors with
    | none => .error .attributeError
    | some k => do
      let neighs ← t.knnSearch (-1, x) k
      return firsts neighs

/-- `KNNCover` as an object that can be searched. -/
def knnSearchable : Searchable (KnnObj T R) T := ⟨KnnObj.fit, KnnObj.search⟩

/-- A tree whose metric is replaced. -/
def VPTree.withMetric (d : T → T → R) : VPTree T R → VPTree T R
  | .flat _ a => .flat d a
  | .hier _ t a => .hier d t a

end Ball

section Cubical
variable {R : Type} [Field R] [LinearOrder R] {m : ℕ}

/-- cover.py:283-330: a `BaseCubicalCover` object: its parameters and the attributes assigned
by `fit`. The attribute `_cover` is a `BallCover`, of which the radius and the tree
are kept: its tree is missing if its own `fit` raised. The metric of the tree is
`_Pullback(self._gamma_n, chebyshev())` (cover.py:394), where `self._gamma_n` is a bound method: it
reads the attributes when it is called. -/
structure CubObj (m : ℕ) (R : Type) where
  params : CubParams R
  overlapFrac : Option R
  nIntervals : Option ℕ
  bounds : Option ((Fin m → R) × (Fin m → R) × (Fin m → R))
  cover : Option (R × Option (VPTree (ℤ × (Fin m → R)) R))

/-- The attributes read by `_gamma_n`, `_gamma_n_inv` and `_offset`
(cover.py:344-355); `none` if one of them does not exist. -/
def CubObj.grid (o : CubObj m R) : Option (Grid m R) := do
  let p ← o.overlapFrac
  let n ← o.nIntervals
  let (lo, hi, delta) ← o.bounds
  return ⟨p, n, lo, hi, delta⟩

/-- cover.py:370-404 `BaseCubicalCover.fit`, attribute by attribute. `dflt` as in
`CubCover.fit`. -/
def CubObj.fit [FloorRing R] (dflt : ℕ → R) (o : CubObj m R) (ρ : ℕ → ℕ) (X : List (Fin m → R)) :
    Py Unit × CubObj m R :=
  if X.length = 0 then (.ok (), o)
  else
    let p := o.params.overlapFrac.getD (dflt m)
    let n := o.params.nIntervals
    let o := { o with overlapFrac := some p, nIntervals := some n }
    if p ≤ 0 then (.error .valueError, o)
    else
      match getBounds n X with
      | .error e => (.error e, o)
      | .ok b =>
        let o := { o with bounds := some b }
        match boxRadius p with
        | .error e => (.error e, o)
        | .ok radius =>
          let o := { o with cover := some (radius, none) }
          match VPTree.build (enumerate X)
              (pullback snd (pullback (Grid.mk p n b.1 b.2.1 b.2.2).gamma chebyshevDist)) o.params.kind
              ⟨o.params.leafCapacity, numOr o.params.leafRadius radius, o.params.pivoting⟩ ρ with
          | .error e => (.error e, o)
          | .ok t => (.ok (), { o with cover := some (radius, some t) })

/-- cover.py:406-417 `BaseCubicalCover.search`. -/
def CubObj.search [FloorRing R] (o : CubObj m R) (x : Fin m → R) : Py (List ℕ) :=
  match o.grid with
  | none => .error .attributeError
  | some g =>
    match o.cover with
    | some (radius, some t) => do
      let neighs ← (t.withMetric (pullback snd (pullback g.gamma chebyshevDist))).ballSearch
        (-1, g.phi x) radius false
      return firsts neighs
    | _ => .error .attributeError

/-- `BaseCubicalCover` as an object that can be searched. -/
def cubSearchable [FloorRing R] (dflt : ℕ → R) : Searchable (CubObj m R) (Fin m → R) :=
  ⟨CubObj.fit dflt, CubObj.search⟩

end Cubical

/-! ### Generators -/

section Generators
variable {O T : Type}

/-- core.py:245-270: a generator of `proximity_net`: not started, or stopped after a `yield`
with the enumeration at index `i` with the rows `rest`, or finished. `ρ` supplies the
random draws of its `fit`. -/
inductive NetGen (T : Type) where
  | fresh (ρ : ℕ → ℕ) (X : List T)
  | running (i : ℕ) (rest : List T) (covered : List ℕ)
  | finished

/-- core.py:265-270: from the head of the loop to the next `yield`. An exception finishes
the generator. -/
def netLoop (A : Searchable O T) (o : O) : ℕ → List T → List ℕ → Py (Option (List ℕ)) × NetGen T
  | _, [], _ => (.ok none, .finished)
  | i, x :: rest, covered =>
    if i ∈ covered then netLoop A o (i + 1) rest covered
    else
      match A.search o x with
      | .error e => (.error e, .finished)
      | .ok neigh =>
        if neigh = [] then netLoop A o (i + 1) rest (covered ++ neigh)
        else (.ok (some neigh), .running (i + 1) rest (covered ++ neigh))

/-- `next(g)` for a generator of `proximity_net(o, X)`: a chart, or `none` for
`StopIteration`; the generator and the object after it. -/
def NetGen.next (A : Searchable O T) (o : O) : NetGen T → Py (Option (List ℕ)) × NetGen T × O
  | .fresh ρ X =>
    match A.fit o ρ X with
    | (.error e, o) => (.error e, .finished, o)
    | (.ok _, o) =>
      let r := netLoop A o 0 X []
      (r.1, r.2, o)
  | .running i rest covered =>
    let r := netLoop A o i rest covered
    (r.1, r.2, o)
  | .finished => (.ok none, .finished, o)

/-- What can be done with a cover and the generators got from it. -/
inductive CoverOp (O T : Type) where
  | fit (ρ : ℕ → ℕ) (X : List T)
  | search (x : T)
  /-- `set_params`, or any change of parameters -/
  | update (f : O → O)
  | apply (ρ : ℕ → ℕ) (X : List T)
  | next (g : ℕ)

/-- A cover and the generators that were got from it, in order. -/
structure CoverWorld (O T : Type) where
  obj : O
  gens : List (NetGen T)

/-- The answers to the operations; with a chart, the number of the generator. -/
inductive CoverReply where
  | done (r : Py Unit)
  | found (r : Py (List ℕ))
  | chart (g : ℕ) (r : Py (Option (List ℕ)))
  deriving DecidableEq

/-- One operation. `apply` (cover.py:171-182, 269-280, 467-478) calls the generator function
`proximity_net`: this makes a generator and runs nothing. -/
def CoverWorld.step (A : Searchable O T) (w : CoverWorld O T) : CoverOp O T → CoverReply × CoverWorld O T
  | .fit ρ X =>
    let r := A.fit w.obj ρ X
    (.done r.1, { w with obj := r.2 })
  | .search x => (.found (A.search w.obj x), w)
  | .update f => (.done (.ok ()), { w with obj := f w.obj })
  | .apply ρ X => (.done (.ok ()), { w with gens := w.gens ++ [.fresh ρ X] })
  | .next g =>
    match w.gens[g]? with
    | none => (.done (.error .indexError), w)
    | some gen =>
      let r := gen.next A w.obj
      (.chart g r.1, ⟨r.2.2, w.gens.set g r.2.1⟩)

/-- A history of operations, with the answers. -/
def CoverWorld.run (A : Searchable O T) : CoverWorld O T → List (CoverOp O T) → List CoverReply × CoverWorld O T
  | w, [] => ([], w)
  | w, op :: ops =>
    let r := w.step A op
    let rs := CoverWorld.run A r.2 ops
    (r.1 :: rs.1, rs.2)

end Generators

/-! ### `CubicalCover` and its delegates -/

section Delegates
variable {R : Type} [Field R] [LinearOrder R] {m : ℕ}

/-- cover.py:525-533 `_landmarks` for an object. -/
def CubObj.landmarks [FloorRing R] (o : CubObj m R) :
    List (Fin m → R) → PyDict (List ℤ) (Fin m → R) → Py (PyDict (List ℤ) (Fin m → R))
  | [], lm => .ok lm
  | x :: xs, lm =>
    match o.grid with
    | none => .error .attributeError
    | some g =>
      let key := (g.getCenter x).1
      if lm.contains key then o.landmarks xs lm else o.landmarks xs (lm.set key x)

/-- A generator of a delegate: of `proximity_net`, or of `StandardCubicalCover.apply`, which
is not started or has landmarks left. -/
inductive CubGen (m : ℕ) (R : Type) where
  | net (g : NetGen (Fin m → R))
  | fresh (ρ : ℕ → ℕ) (X : List (Fin m → R))
  | running (lm : PyDict (List ℤ) (Fin m → R))
  | finished

/-- cover.py:549-554: from the head of the loop to the next `yield`, with `steps` bounding
the iterations. -/
def stdLoop [FloorRing R] (o : CubObj m R) :
    ℕ → PyDict (List ℤ) (Fin m → R) → Py (Option (List ℕ)) × CubGen m R
  | 0, _ => (.error .diverge, .finished)
  | steps + 1, lm =>
    if lm.items.isEmpty then (.ok none, .finished)
    else
      match lm.popitem with
      | .error e => (.error e, .finished)
      | .ok ((_, x), lm) =>
        match o.search x with
        | .error e => (.error e, .finished)
        | .ok ids => if ids.isEmpty then stdLoop o steps lm else (.ok (some ids), .running lm)

/-- `next(g)` for a generator of a delegate. -/
def CubGen.next [FloorRing R] (dflt : ℕ → R) (o : CubObj m R) :
    CubGen m R → Py (Option (List ℕ)) × CubGen m R × CubObj m R
  | .net g =>
    let r := g.next (cubSearchable dflt) o
    (r.1, .net r.2.1, r.2.2)
  | .fresh ρ X =>
    match o.fit dflt ρ X with
    | (.error e, o) => (.error e, .finished, o)
    | (.ok _, o) =>
      match o.landmarks X PyDict.empty with
      | .error e => (.error e, .finished, o)
      | .ok lm =>
        let r := stdLoop o (lm.items.length + 1) lm
        (r.1, r.2, o)
  | .running lm =>
    let r := stdLoop o (lm.items.length + 1) lm
    (r.1, r.2, o)
  | .finished => (.ok none, .finished, o)

/-- cover.py:557-608: a `CubicalCover` object, all the delegates that were made, and the
generators got from it, each with the number of its delegate. `current` is the attribute
`_cubical_cover`. -/
structure CubicalWorld (m : ℕ) (R : Type) where
  params : CubParams R
  algorithm : String
  delegates : List (CubObj m R)
  current : Option ℕ
  gens : List (ℕ × CubGen m R)

/-- What can be done with a `CubicalCover` and its generators. -/
inductive CubicalOp (m : ℕ) (R : Type) where
  | fit (ρ : ℕ → ℕ) (X : List (Fin m → R))
  | search (x : Fin m → R)
  | setParams (P : CubParams R) (algorithm : String)
  | apply (ρ : ℕ → ℕ) (X : List (Fin m → R))
  | next (g : ℕ)

/-- cover.py:610-625 `_get_cubical_cover`, with the generator its `apply` makes. -/
def CubicalWorld.newDelegate (w : CubicalWorld m R) (ρ : ℕ → ℕ) (X : List (Fin m → R)) :
    Py (CubObj m R × CubGen m R) :=
  if w.algorithm = "proximity" then .ok (⟨w.params, none, none, none, none⟩, .net (.fresh ρ X))
  else if w.algorithm = "standard" then .ok (⟨w.params, none, none, none, none⟩, .fresh ρ X)
  else .error .valueError

/-- One operation: cover.py:627-638 `fit`, 640-649 `search`, 651-661 `apply`. -/
def CubicalWorld.step [FloorRing R] (dflt : ℕ → R) (w : CubicalWorld m R) :
    CubicalOp m R → CoverReply × CubicalWorld m R
  | .fit ρ X =>
    match w.newDelegate ρ X with
    | .error e => (.done (.error e), w)
    | .ok (d, _) =>
      let r := d.fit dflt ρ X
      (.done r.1, { w with delegates := w.delegates ++ [r.2], current := some w.delegates.length })
  | .search x =>
    match w.current.bind fun k => w.delegates[k]? with
    | none => (.found (.error .attributeError), w)
    | some d => (.found (d.search x), w)
  | .setParams P a => (.done (.ok ()), { w with params := P, algorithm := a })
  | .apply ρ X =>
    match w.newDelegate ρ X with
    | .error e => (.done (.error e), w)
    | .ok (d, g) =>
      (.done (.ok ()), { w with
        delegates := w.delegates ++ [d]
        current := some w.delegates.length
        gens := w.gens ++ [(w.delegates.length, g)] })
  | .next g =>
    match w.gens[g]? with
    | none => (.done (.error .indexError), w)
    | some (k, gen) =>
      match w.delegates[k]? with
      | none => (.done (.error .indexError), w)
      | some d =>
        let r := gen.next dflt d
        (.chart g r.1, { w with
          delegates := w.delegates.set k r.2.2
          gens := w.gens.set g (k, r.2.1) })

/-- A history of operations, with the answers. -/
def CubicalWorld.run [FloorRing R] (dflt : ℕ → R) :
    CubicalWorld m R → List (CubicalOp m R) → List CoverReply × CubicalWorld m R
  | w, [] => ([], w)
  | w, op :: ops =>
    let r := w.step dflt op
    let rs := CubicalWorld.run dflt r.2 ops
    (r.1 :: rs.1, rs.2)

end Delegates

end Verif
