import Verif.Py
import Mathlib.Data.List.Nodup

/-!
# Python dictionaries

A dict is an association list in insertion order. Assigning to an existing key
keeps its position; a new key goes to the end; `popitem` removes the last entry.
-/

namespace Verif

/-- A Python `dict`: entries in insertion order. -/
structure PyDict (κ ν : Type) where
  items : List (κ × ν)
  deriving Repr, DecidableEq

namespace PyDict

variable {κ ν : Type}

/-- `{}`. -/
def empty : PyDict κ ν := ⟨[]⟩

/-- `len(d)`. -/
def len (d : PyDict κ ν) : Nat := d.items.length

/-- `d.keys()`. -/
def keys (d : PyDict κ ν) : List κ := d.items.map Prod.fst

variable [DecidableEq κ]

/-- Lookup in an association list. -/
def lookupList : List (κ × ν) → κ → Option ν
  | [], _ => none
  | (k, v) :: t, x => if k = x then some v else lookupList t x

/-- Assignment in an association list. -/
def setList : List (κ × ν) → κ → ν → List (κ × ν)
  | [], x, w => [(x, w)]
  | (k, v) :: t, x, w => if k = x then (k, w) :: t else (k, v) :: setList t x w

/-- `d.get(k)`. -/
def get? (d : PyDict κ ν) (k : κ) : Option ν := lookupList d.items k

/-- `d[k]`. -/
def getItem (d : PyDict κ ν) (k : κ) : Py ν :=
  match d.get? k with
  | some v => .ok v
  | none => .error .keyError

/-- `k in d`. -/
def contains (d : PyDict κ ν) (k : κ) : Bool := (d.get? k).isSome

/-- `d[k] = v`. -/
def set (d : PyDict κ ν) (k : κ) (v : ν) : PyDict κ ν := ⟨setList d.items k v⟩

/-- `{f(x): g(x) for x in l}` given the list of pairs. -/
def ofList (l : List (κ × ν)) : PyDict κ ν :=
  l.foldl (fun d p => d.set p.1 p.2) empty

omit [DecidableEq κ] in
/-- `d.popitem()`: last entry and the rest; `KeyError` when empty. -/
def popitem (d : PyDict κ ν) : Py ((κ × ν) × PyDict κ ν) :=
  match d.items.getLast? with
  | some x => .ok (x, ⟨d.items.dropLast⟩)
  | none => .error .keyError

/-- `d.pop(k, None)` as a statement: remove the entry for `k` if present. -/
def erase (d : PyDict κ ν) (k : κ) : PyDict κ ν :=
  ⟨d.items.filter (fun p => p.1 ≠ k)⟩

theorem lookupList_setList (l : List (κ × ν)) (k k' : κ) (v : ν) :
    lookupList (setList l k v) k' = if k' = k then some v else lookupList l k' := by
  induction l with
  | nil =>
    simp only [setList, lookupList]
    by_cases h : k = k'
    · simp [h]
    · simp [h, Ne.symm h]
  | cons p t ih =>
    obtain ⟨a, b⟩ := p
    simp only [setList]
    by_cases h : a = k
    · subst h
      simp only [if_true, lookupList]
      by_cases h' : a = k'
      · simp [h']
      · simp [h', Ne.symm h']
    · simp only [h, if_false, lookupList, ih]
      by_cases h' : a = k'
      · subst h'; simp [h]
      · simp [h']

@[simp] theorem get?_set (d : PyDict κ ν) (k k' : κ) (v : ν) :
    (d.set k v).get? k' = if k' = k then some v else d.get? k' :=
  lookupList_setList _ _ _ _

@[simp] theorem get?_empty (k : κ) : (empty : PyDict κ ν).get? k = none := rfl

theorem keys_setList (l : List (κ × ν)) (k : κ) (v : ν) :
    (setList l k v).map Prod.fst =
      if k ∈ l.map Prod.fst then l.map Prod.fst else l.map Prod.fst ++ [k] := by
  induction l with
  | nil => simp [setList]
  | cons p t ih =>
    obtain ⟨a, b⟩ := p
    simp only [setList]
    by_cases h : a = k
    · simp [h]
    · simp only [h, if_false, List.map_cons, ih, List.mem_cons, Ne.symm h, false_or]
      split <;> simp

theorem keys_set (d : PyDict κ ν) (k : κ) (v : ν) :
    (d.set k v).keys = if k ∈ d.keys then d.keys else d.keys ++ [k] :=
  keys_setList _ _ _

theorem lookupList_isSome (l : List (κ × ν)) (k : κ) :
    (lookupList l k).isSome ↔ k ∈ l.map Prod.fst := by
  induction l with
  | nil => simp [lookupList]
  | cons p t ih =>
    obtain ⟨a, b⟩ := p
    simp only [lookupList]
    by_cases h : a = k
    · simp [h]
    · simp only [h, if_false, ih]
      simp [Ne.symm h]

theorem isSome_get? (d : PyDict κ ν) (k : κ) : (d.get? k).isSome ↔ k ∈ d.keys :=
  lookupList_isSome _ _

theorem get?_eq_none (d : PyDict κ ν) (k : κ) : d.get? k = none ↔ k ∉ d.keys := by
  rw [← isSome_get?]; cases d.get? k <;> simp

theorem contains_iff (d : PyDict κ ν) (k : κ) : d.contains k = true ↔ k ∈ d.keys := by
  unfold contains; exact isSome_get? d k

theorem nodup_keys_set {d : PyDict κ ν} (h : d.keys.Nodup) (k : κ) (v : ν) :
    (d.set k v).keys.Nodup := by
  rw [keys_set]
  split
  · exact h
  · rename_i hk
    rw [List.nodup_append]
    refine ⟨h, by simp, ?_⟩
    intro a ha b hb
    simp at hb; subst hb
    rintro rfl; exact hk ha

theorem get?_eq_some_of_mem {d : PyDict κ ν} (h : d.keys.Nodup) {k : κ} {v : ν}
    (hm : (k, v) ∈ d.items) : d.get? k = some v := by
  obtain ⟨l⟩ := d
  unfold get?
  simp only [keys] at h
  dsimp only at *
  induction l with
  | nil => simp at hm
  | cons p t ih =>
    obtain ⟨a, b⟩ := p
    simp only [lookupList]
    rcases List.mem_cons.mp hm with hm | hm
    · cases hm; simp
    · have : a ≠ k := by
        rintro rfl
        simp only [List.map_cons, List.nodup_cons] at h
        exact h.1 (List.mem_map_of_mem hm)
      simp only [this, if_false]
      exact ih (by simp only [List.map_cons, List.nodup_cons] at h; exact h.2) hm

theorem mem_of_get?_eq_some {d : PyDict κ ν} {k : κ} {v : ν} (h : d.get? k = some v) :
    (k, v) ∈ d.items := by
  obtain ⟨l⟩ := d
  unfold get? at h
  dsimp only at *
  induction l with
  | nil => simp [lookupList] at h
  | cons p t ih =>
    obtain ⟨a, b⟩ := p
    simp only [lookupList] at h
    by_cases hk : a = k
    · simp only [hk, if_true, Option.some.injEq] at h; subst hk; subst h; simp
    · simp only [hk, if_false] at h; exact List.mem_cons_of_mem _ (ih h)

theorem foldl_set_get? (l : List (κ × ν)) : ∀ (d : PyDict κ ν) (k : κ),
    (l.foldl (fun d p => d.set p.1 p.2) d).get? k =
      match (l.filter (fun p => p.1 = k)).getLast? with
      | some p => some p.2
      | none => d.get? k := by
  induction l with
  | nil => intro d k; rfl
  | cons p t ih =>
    intro d k
    simp only [List.foldl_cons, ih, get?_set]
    by_cases h : p.1 = k
    · simp only [h, decide_true, List.filter_cons_of_pos, List.getLast?_cons]
      cases (t.filter (fun p => decide (p.1 = k))).getLast? <;> simp
    · simp only [h, decide_false, Bool.false_eq_true, not_false_eq_true, List.filter_cons_of_neg,
        Ne.symm h, if_false]

theorem foldl_set_nodup (l : List (κ × ν)) : ∀ (d : PyDict κ ν), d.keys.Nodup →
    (l.foldl (fun d p => d.set p.1 p.2) d).keys.Nodup := by
  induction l with
  | nil => intro d h; exact h
  | cons p t ih => intro d h; exact ih _ (nodup_keys_set h _ _)

theorem ofList_nodup (l : List (κ × ν)) : (ofList l).keys.Nodup :=
  foldl_set_nodup l _ List.nodup_nil

theorem mem_keys_foldl_set (l : List (κ × ν)) : ∀ (d : PyDict κ ν) (k : κ),
    k ∈ (l.foldl (fun d p => d.set p.1 p.2) d).keys ↔ k ∈ d.keys ∨ k ∈ l.map Prod.fst := by
  induction l with
  | nil => intro d k; simp
  | cons p t ih =>
    intro d k
    simp only [List.foldl_cons, ih, keys_set, List.map_cons, List.mem_cons]
    split
    · constructor
      · rintro (h | h)
        · exact Or.inl h
        · exact Or.inr (Or.inr h)
      · rintro (h | h | h)
        · exact Or.inl h
        · subst h; left; assumption
        · exact Or.inr h
    · simp only [List.mem_append, List.mem_singleton]
      tauto

theorem mem_keys_ofList (l : List (κ × ν)) (k : κ) :
    k ∈ (ofList l).keys ↔ k ∈ l.map Prod.fst := by
  unfold ofList
  rw [mem_keys_foldl_set]
  simp [empty, keys]

end PyDict

end Verif
