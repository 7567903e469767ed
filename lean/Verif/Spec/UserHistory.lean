import Verif.Spec.Learn

/-!
# Specification: histories of `fit` and `set_params`
-/

set_option autoImplicit false

namespace Verif

/-- What a user does with estimators: a call of `fit`, or `obj.set_params(name=value)` on the object
at address `r`. -/
inductive UserCall where
  | fit (c : FitCall)
  | set (r : ℕ) (name : String) (v : Val)

/-- Making the call, exceptions being caught by the caller. The heap after a failing call of
`set_params` is not modelled; the histories of `ParamsAfter` have none. -/
def UserCall.run (W : World) (fuel : ℕ) : UserCall → Heap → Heap
  | .fit c, h => (c.run W fuel h).2
  | .set r name v, h =>
    match setParams W.classes fuel h r [(name, v)] with
    | .ok h' => h'
    | .error _ => h

/-- The heap after a history of calls. -/
def runUser (W : World) (fuel : ℕ) : List UserCall → Heap → Heap
  | [], h => h
  | c :: cs, h => runUser W fuel cs (c.run W fuel h)

/-- The heap with attribute `k` of the object at `r` replaced by `v`, and nothing else changed. -/
def withParam (h : Heap) (r : ℕ) (k : String) (v : Val) : Heap :=
  match h[r]? with
  | some o => h.set r { o with attrs := o.attrs.set k v }
  | none => h

/-- `h'` is `h` with the parameters as last set by the calls, those of `fit` being ignored. Each
parameter set has to exist, and be the parameter `k` of the object that the path before it leads
to; no object may be put into itself, directly or not, or be nested more than `n` deep; and
`fit` has to be called on estimators with parameters that can be used. -/
inductive ParamsAfter (W : World) (n : ℕ) : List UserCall → Heap → Heap → Prop
  | nil (h : Heap) : ParamsAfter W n [] h h
  | fit {c : FitCall} {cs : List UserCall} {h h' : Heap} {clust : Val} :
      c.Valid W h clust → ParamsAfter W n cs h h' → ParamsAfter W n (.fit c :: cs) h h'
  | set {r : ℕ} {ks : List String} {r' : ℕ} {k : String} {old v : Val} {cs : List UserCall}
      {h h' : Heap} :
      Reaches h r ks r' → PublicAttr h r' k old → GoodHeap (withParam h r' k v) n →
      ParamsAfter W n cs (withParam h r' k v) h' →
      ParamsAfter W n (.set r (pathName (ks ++ [k])) v :: cs) h h'

/-- How often a parameter is set to an object, and not to a plain value. -/
def objectSets : List UserCall → ℕ
  | [] => 0
  | .set _ _ (.obj _) :: cs => objectSets cs + 1
  | _ :: cs => objectSets cs

end Verif
