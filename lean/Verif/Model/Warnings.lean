import Verif.Model.CoverState

/-!
# Model of the warning issued by cubical covers

cover.py:391-392 and _common.py:39-43: `fit` of a cubical cover calls `warn_user`, that is
`warnings.warn(msg, UserWarning, stacklevel=2)`, between the check of the overlap fraction and
the computation of the bounds. What happens then is decided by Python's `warnings` module, from the
filters in force and from what was issued before. The covers of a process share this state.
-/

set_option autoImplicit false

namespace Verif

/-- What the filters in force say about a `UserWarning` issued in the module
`tdamapper.cover`. -/
inductive WarnAction where
  | default
  | always
  | once
  | module
  | ignore
  | error
  deriving DecidableEq

/-- The state of the `warnings` module as far as the warning of `cover.py:392` is concerned. Text,
category and line of the warning never change, so that a registry either has its entry or not. -/
structure WarnState where
  /-- the action selected by the filters -/
  action : WarnAction
  /-- `_filters_version`: counts the changes of the filters -/
  version : ℕ
  /-- the version for which `__warningregistry__` of `tdamapper.cover` was written -/
  regVersion : ℕ
  /-- that registry has the entry with the line of the warning -/
  line : Bool
  /-- that registry has the entry with line 0 -/
  whole : Bool
  /-- `onceregistry` has the entry -/
  once : Bool
  /-- how often the warning was shown -/
  shown : ℕ
  deriving DecidableEq

/-- The state when the library was just imported. -/
def WarnState.start (a : WarnAction) : WarnState := ⟨a, 0, 0, false, false, false, 0⟩

/-- `warnings.simplefilter`, `filterwarnings`, `resetwarnings`, and entering or leaving
`catch_warnings`: the action becomes `a`, and the registries are out of date. -/
def WarnState.filters (w : WarnState) (a : WarnAction) : WarnState :=
  { w with action := a, version := w.version + 1 }

/-- _common.py:39-43 `warn_user`, with `warn_explicit` of Python's `warnings`: a registry that is out
of date is emptied; a warning with an entry in it is dropped; otherwise the action decides. -/
def WarnState.warnUser (w : WarnState) : Py Unit × WarnState :=
  let w := if w.regVersion = w.version then w
    else { w with regVersion := w.version, line := false, whole := false }
  if w.line then (.ok (), w)
  else
    match w.action with
    | .ignore => (.ok (), w)
    | .error => (.error .userWarning, w)
    | .once =>
      let w := { w with line := true }
      if w.once then (.ok (), w) else (.ok (), { w with once := true, shown := w.shown + 1 })
    | .always => (.ok (), { w with shown := w.shown + 1 })
    | .module =>
      let w := { w with line := true }
      if w.whole then (.ok (), w) else (.ok (), { w with whole := true, shown := w.shown + 1 })
    | .default => (.ok (), { w with line := true, shown := w.shown + 1 })

section
variable {R : Type} [Field R] [LinearOrder R] [FloorRing R] {m : ℕ}

/-- cover.py:370-404 `BaseCubicalCover.fit` as in `CubObj.fit`, with the warning. -/
def CubObj.fitW (dflt : ℕ → R) (o : CubObj m R) (ρ : ℕ → ℕ) (X : List (Fin m → R)) (w : WarnState) :
    Py Unit × CubObj m R × WarnState :=
  if X.length = 0 then (.ok (), o, w)
  else
    let p := o.params.overlapFrac.getD (dflt m)
    let n := o.params.nIntervals
    let o := { o with overlapFrac := some p, nIntervals := some n }
    if p ≤ 0 then (.error .valueError, o, w)
    else
      match (if 1 / 2 < p then w.warnUser else (.ok (), w)) with
      | (.error e, w) => (.error e, o, w)
      | (.ok _, w) =>
        match getBounds n X with
        | .error e => (.error e, o, w)
        | .ok b =>
          let o := { o with bounds := some b }
          match boxRadius p with
          | .error e => (.error e, o, w)
          | .ok radius =>
            let o := { o with cover := some (radius, none) }
            match VPTree.build (enumerate X)
                (pullback snd (pullback (Grid.mk p n b.1 b.2.1 b.2.2).gamma chebyshevDist)) o.params.kind
                ⟨o.params.leafCapacity, numOr o.params.leafRadius radius, o.params.pivoting⟩ ρ with
            | .error e => (.error e, o, w)
            | .ok t => (.ok (), { o with cover := some (radius, some t) }, w)

/-- `next(g)` for a generator of a `ProximityCubicalCover` (core.py:245-270) or a
`StandardCubicalCover` (cover.py:535-554), as in `CubGen.next`, with the warning. -/
def CubGen.nextW (dflt : ℕ → R) (o : CubObj m R) (w : WarnState) :
    CubGen m R → Py (Option (List ℕ)) × CubGen m R × CubObj m R × WarnState
  | .net (.fresh ρ X) =>
    match o.fitW dflt ρ X w with
    | (.error e, o, w) => (.error e, .net .finished, o, w)
    | (.ok _, o, w) =>
      let r := netLoop (cubSearchable dflt) o 0 X []
      (r.1, .net r.2, o, w)
  | .fresh ρ X =>
    match o.fitW dflt ρ X w with
    | (.error e, o, w) => (.error e, .finished, o, w)
    | (.ok _, o, w) =>
      match o.landmarks X PyDict.empty with
      | .error e => (.error e, .finished, o, w)
      | .ok lm =>
        let r := stdLoop o (lm.items.length + 1) lm
        (r.1, r.2, o, w)
  | g =>
    let r := g.next dflt o
    (r.1, r.2.1, r.2.2, w)

/-- The cubical covers of a process and the generators got from them, each with the number of its
cover. (All lenses have the same number of columns. A `CubicalCover` makes a new delegate
for each `fit` and `apply`: it appears as these.) -/
structure WarnWorld (m : ℕ) (R : Type) where
  objs : List (CubObj m R)
  gens : List (ℕ × CubGen m R)
  warn : WarnState

/-- What can be done. -/
inductive WarnOp (m : ℕ) (R : Type) where
  /-- the filters of the `warnings` module are changed -/
  | filters (a : WarnAction)
  /-- a new cover -/
  | new (P : CubParams R)
  | setParams (i : ℕ) (P : CubParams R)
  | fit (i : ℕ) (ρ : ℕ → ℕ) (X : List (Fin m → R))
  | search (i : ℕ) (x : Fin m → R)
  /-- `apply` of cover `i`; `standard` if it is a `StandardCubicalCover` -/
  | apply (i : ℕ) (standard : Bool) (ρ : ℕ → ℕ) (X : List (Fin m → R))
  | next (g : ℕ)

/-- One operation. -/
def WarnWorld.step (dflt : ℕ → R) (w : WarnWorld m R) : WarnOp m R → CoverReply × WarnWorld m R
  | .filters a => (.done (.ok ()), { w with warn := w.warn.filters a })
  | .new P => (.done (.ok ()), { w with objs := w.objs ++ [⟨P, none, none, none, none⟩] })
  | .setParams i P => (.done (.ok ()), { w with objs := w.objs.modify i fun o => { o with params := P } })
  | .fit i ρ X =>
    match w.objs[i]? with
    | none => (.done (.error .indexError), w)
    | some o =>
      let r := o.fitW dflt ρ X w.warn
      (.done r.1, { w with objs := w.objs.set i r.2.1, warn := r.2.2 })
  | .search i x =>
    match w.objs[i]? with
    | none => (.done (.error .indexError), w)
    | some o => (.found (o.search x), w)
  | .apply i std ρ X =>
    (.done (.ok ()), { w with gens := w.gens ++ [(i, if std then .fresh ρ X else .net (.fresh ρ X))] })
  | .next g =>
    match w.gens[g]? with
    | none => (.done (.error .indexError), w)
    | some (i, gen) =>
      match w.objs[i]? with
      | none => (.done (.error .indexError), w)
      | some o =>
        let r := gen.nextW dflt o w.warn
        (.chart g r.1, ⟨w.objs.set i r.2.2.1, w.gens.set g (i, r.2.1), r.2.2.2⟩)

/-- A history, with the answers. -/
def WarnWorld.run (dflt : ℕ → R) : WarnWorld m R → List (WarnOp m R) → List CoverReply × WarnWorld m R
  | w, [] => ([], w)
  | w, op :: ops =>
    let r := w.step dflt op
    let rs := WarnWorld.run dflt r.2 ops
    (r.1 :: rs.1, rs.2)

end

end Verif
