/-!
# Python basics used by the model

Errors are values: a Python function that may raise is a function into `Py`.
`diverge` is not a Python exception: a modelled loop returns it when its fuel
runs out, and the theorems show that this never happens.
-/

namespace Verif

/-- Exceptions raised by the modelled code, plus `diverge` (out of fuel). -/
inductive PyErr where
  | indexError
  | keyError
  | valueError
  | typeError
  | attributeError
  | zeroDivisionError
  | assertionError
  | osError
  | userWarning
  | diverge
  deriving DecidableEq, Repr

/-- A computation that may raise. -/
abbrev Py (α : Type) := Except PyErr α

/-- Python `l[i]` for a non-negative index. -/
def getItem {α : Type} (l : List α) (i : Nat) : Py α :=
  match l[i]? with
  | some x => .ok x
  | none => .error .indexError

/-- Python `l[i] = v` for a non-negative index. -/
def setItem {α : Type} (l : List α) (i : Nat) (v : α) : Py (List α) :=
  if i < l.length then .ok (l.set i v) else .error .indexError

/-- Python `l[s:e]` for `0 <= s`, `0 <= e`. -/
def slice {α : Type} (l : List α) (s e : Nat) : List α :=
  (l.take e).drop s

section lemmas
variable {α β : Type}

theorem getItem_ok {l : List α} {i : Nat} {x : α} (h : l[i]? = some x) :
    getItem l i = .ok x := by simp [getItem, h]

theorem getItem_lt {l : List α} {i : Nat} (h : i < l.length) :
    getItem l i = .ok l[i] := by simp [getItem, h]

theorem getItem_eq_ok {l : List α} {i : Nat} {x : α} :
    getItem l i = .ok x ↔ l[i]? = some x := by
  unfold getItem; split <;> simp_all

theorem getItem_ge {l : List α} {i : Nat} (h : l.length ≤ i) :
    getItem l i = .error .indexError := by simp [getItem, h]

theorem setItem_lt {l : List α} {i : Nat} {v : α} (h : i < l.length) :
    setItem l i v = .ok (l.set i v) := by simp [setItem, h]

theorem setItem_ge {l : List α} {i : Nat} {v : α} (h : l.length ≤ i) :
    setItem l i v = .error .indexError := by simp [setItem, Nat.not_lt.mpr h]

@[simp] theorem ok_bind (x : α) (f : α → Py β) :
    (Except.ok x >>= f : Py β) = f x := rfl

@[simp] theorem error_bind (x : PyErr) (f : α → Py β) :
    (Except.error x >>= f : Py β) = Except.error x := rfl

@[simp] theorem pure_eq_ok (x : α) : (pure x : Py α) = Except.ok x := rfl

theorem bind_eq_ok {x : Py α} {f : α → Py β} {b : β} :
    (x >>= f) = .ok b ↔ ∃ a, x = .ok a ∧ f a = .ok b := by
  cases x <;> simp

end lemmas

end Verif
