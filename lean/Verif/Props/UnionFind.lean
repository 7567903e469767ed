import Verif.Proof.UnionFind
import Mathlib.Logic.Function.Iterate

/-!
# C05–C08, C61: UnionFind
-/

namespace Verif

variable {α : Type} [DecidableEq α]

/-- Calls a client can make. -/
inductive UFOp (α : Type) where
  | find (x : α)
  | union (x y : α)

/-- One call: answer or exception, and the object afterwards. -/
def ufCall (u : UnionFind α) : UFOp α → Py α × UnionFind α
  | .find x => u.find x
  | .union x y => u.union x y

/-- A history of calls; exceptions are caught by the client and the history goes
on with the object as it is. -/
def ufCalls (u : UnionFind α) : List (UFOp α) → List (Py α) × UnionFind α
  | [] => ([], u)
  | op :: ops =>
    let (o, u) := ufCall u op
    let (os, u) := ufCalls u ops
    (o :: os, u)

/-- The pairs united by a history: the `union` calls on known elements. -/
def unitedPairs (items : List α) : List (UFOp α) → List (α × α)
  | [] => []
  | .find _ :: ops => unitedPairs items ops
  | .union x y :: ops =>
    if x ∈ items ∧ y ∈ items then (x, y) :: unitedPairs items ops else unitedPairs items ops

namespace UnionFind

theorem Inv.pairs_congr {S : Finset α} {p q : List (α × α)} {rt : α → α} {u : UnionFind α}
    (h : Inv S p rt u) (hpq : ∀ a, a ∈ p ↔ a ∈ q) : Inv S q rt u :=
  ⟨h.keys, h.nodup, h.path, h.size, fun x hx y hy => (h.eqv x hx y hy).trans
    ⟨Connected.congr fun a => (hpq a).mp, Connected.congr fun a => (hpq a).mpr⟩,
    fun a ha => h.pairs_mem a ((hpq a).mpr ha)⟩

/-- Two objects with the same invariant data answer any history alike, and keep
the same invariant data. -/
theorem ufCalls_inv (items : List α) (ops : List (UFOp α)) :
    ∀ (p : List (α × α)) (rt : α → α), ∃ outs rt' q,
      (∀ a, a ∈ q ↔ a ∈ p ∨ a ∈ unitedPairs items ops) ∧
      ∀ u, Inv items.toFinset p rt u → (ufCalls u ops).1 = outs ∧
        Inv items.toFinset q rt' (ufCalls u ops).2 := by
  induction ops with
  | nil =>
    intro p rt
    exact ⟨[], rt, p, by simp [unitedPairs], fun u h => ⟨rfl, h⟩⟩
  | cons op ops ih =>
    intro p rt
    cases op with
    | find x =>
      obtain ⟨outs, rt', q, hq, h⟩ := ih p rt
      by_cases hx : x ∈ items
      · refine ⟨.ok (rt x) :: outs, rt', q, by simpa [unitedPairs] using hq, ?_⟩
        intro u hu
        obtain ⟨u', e, i⟩ := hu.find_ok (x := x) (by simpa using hx)
        obtain ⟨h1, h2⟩ := h u' i
        simp [ufCalls, ufCall, e, h1, h2]
      · refine ⟨.error .keyError :: outs, rt', q, by simpa [unitedPairs] using hq, ?_⟩
        intro u hu
        have e := hu.find_unknown (x := x) (by simpa using hx)
        obtain ⟨h1, h2⟩ := h u hu
        simp [ufCalls, ufCall, e, h1, h2]
    | union x y =>
      by_cases hxy : x ∈ items ∧ y ∈ items
      · obtain ⟨outs, rt', q, hq, h⟩ := ih ((x, y) :: p) (linkRep items.toFinset rt x y)
        refine ⟨.ok (keepRep items.toFinset rt x y) :: outs, rt', q, ?_, ?_⟩
        · intro a; simp only [unitedPairs, hxy, and_self, if_true, hq, List.mem_cons]; tauto
        · intro u hu
          obtain ⟨u', e, i⟩ := hu.union_ok (x := x) (y := y) (by simpa using hxy.1)
            (by simpa using hxy.2)
          obtain ⟨h1, h2⟩ := h u' i
          simp [ufCalls, ufCall, e, h1, h2]
      · obtain ⟨outs, rt', q, hq, h⟩ := ih p rt
        refine ⟨.error .keyError :: outs, rt', q, by simpa [unitedPairs, hxy] using hq, ?_⟩
        intro u hu
        obtain ⟨u', e, i⟩ := hu.union_unknown (x := x) (y := y) (by
          rw [List.mem_toFinset, List.mem_toFinset]; tauto)
        obtain ⟨h1, h2⟩ := h u' i
        simp [ufCalls, ufCall, e, h1, h2]

/-- Every reachable object satisfies the invariant for the pairs united so far. -/
theorem reachable_inv (items : List α) (ops : List (UFOp α)) :
    ∃ rt, Inv items.toFinset (unitedPairs items ops) rt (ufCalls (init items) ops).2 := by
  obtain ⟨_, rt', q, hq, h⟩ := ufCalls_inv items ops [] id
  exact ⟨rt', (h _ (init_inv items)).2.pairs_congr (by simpa using hq)⟩

theorem ufCalls_append (u : UnionFind α) (a b : List (UFOp α)) :
    ufCalls u (a ++ b) =
      ((ufCalls u a).1 ++ (ufCalls (ufCalls u a).2 b).1, (ufCalls (ufCalls u a).2 b).2) := by
  induction a generalizing u with
  | nil => rfl
  | cons op a ih => simp [ufCalls, ih]

end UnionFind

open UnionFind

/-- **C05.** After any history of `find` and `union` calls (failed ones
included), `find(x) == find(y)` exactly when `x` and `y` are connected by the
pairs united so far. -/
theorem C05_unionfind_connected (items : List α) (ops : List (UFOp α)) (x y : α)
    (hx : x ∈ items) (hy : y ∈ items) :
    ∃ r s u, (ufCalls (init items) ops).2.find x = (.ok r, u) ∧ (u.find y).1 = .ok s ∧
      (r = s ↔ Connected (unitedPairs items ops) x y) := by
  obtain ⟨rt, h⟩ := reachable_inv items ops
  obtain ⟨u1, e1, i1⟩ := h.find_ok (x := x) (by simpa using hx)
  obtain ⟨u2, e2, i2⟩ := i1.find_ok (x := y) (by simpa using hy)
  exact ⟨_, _, u1, e1, by rw [e2], h.eqv x (by simpa using hx) y (by simpa using hy)⟩

/-- Non-vacuity: 1 and 3 are connected through 2, 4 is not. -/
example : (ufCalls (init [1, 2, 3, 4]) [.union 1 2, .union 3 2, .find 1, .find 3, .find 4]).1
    = [.ok 1, .ok 1, .ok 1, .ok 1, .ok 4] := by rfl

/-- **C06.** In every reachable state `find(x)` terminates with a representative
`r` that is connected to `x` and is its own representative; and a `find(x)`
inserted anywhere in a history changes no answer of any later call. -/
theorem C06_find_pure (items : List α) (before after : List (UFOp α)) (x : α)
    (hx : x ∈ items) :
    ∃ r u, (ufCalls (init items) before).2.find x = (.ok r, u) ∧
      r ∈ items ∧ Connected (unitedPairs items before) x r ∧ (u.find r).1 = .ok r ∧
      (ufCalls u after).1 = (ufCalls (ufCalls (init items) before).2 after).1 := by
  obtain ⟨rt, h⟩ := reachable_inv items before
  have hxS : x ∈ items.toFinset := by simpa using hx
  obtain ⟨u1, e1, i1⟩ := h.find_ok hxS
  obtain ⟨u2, e2, i2⟩ := i1.find_ok (i1.rt_mem hxS)
  refine ⟨rt x, u1, e1, by simpa using h.rt_mem hxS, ?_, ?_, ?_⟩
  · exact (h.eqv x hxS _ (h.rt_mem hxS)).mp (h.rt_rt hxS).symm
  · rw [e2]; simp [h.rt_rt hxS]
  · obtain ⟨outs, _, _, _, hh⟩ := ufCalls_inv items after (unitedPairs items before) rt
    rw [(hh _ i1).1, (hh _ h).1]

/-- Non-vacuity: a find in the middle of a longer history, with real compression. -/
example : ∃ r u, (ufCalls (init [1, 2, 3, 4]) [.union 1 2, .union 3 4, .union 1 3]).2.find 4
    = (.ok r, u) ∧ r = 1 ∧
    (ufCalls u [.union 4 2, .find 3]).1 = [.ok 1, .ok 1] := ⟨1, _, rfl, rfl, rfl⟩

/-- **C07.** `union(x, y)` on known elements returns the representative that
`find` gives afterwards for both, and which one of them had before; a call involving an unknown element raises
`KeyError` and changes no answer of any later call. -/
theorem C07_union_result (items : List α) (before after : List (UFOp α)) (x y : α) :
    (x ∈ items → y ∈ items → ∃ r u, (ufCalls (init items) before).2.union x y = (.ok r, u) ∧
      (u.find x).1 = .ok r ∧ (u.find y).1 = .ok r ∧
      (((ufCalls (init items) before).2.find x).1 = .ok r ∨
        ((ufCalls (init items) before).2.find y).1 = .ok r)) ∧
    (x ∉ items → ∃ u, (ufCalls (init items) before).2.find x = (.error .keyError, u) ∧
      (ufCalls u after).1 = (ufCalls (ufCalls (init items) before).2 after).1) ∧
    (x ∉ items ∨ y ∉ items →
      ∃ u, (ufCalls (init items) before).2.union x y = (.error .keyError, u) ∧
      (ufCalls u after).1 = (ufCalls (ufCalls (init items) before).2 after).1) := by
  obtain ⟨rt, h⟩ := reachable_inv items before
  refine ⟨fun hx hy => ?_, fun hx => ?_, fun hxy => ?_⟩
  · have hxS : x ∈ items.toFinset := by simpa using hx
    have hyS : y ∈ items.toFinset := by simpa using hy
    obtain ⟨u', e, i⟩ := h.union_ok hxS hyS
    obtain ⟨ux, ex, _⟩ := i.find_ok hxS
    obtain ⟨uy, ey, _⟩ := i.find_ok hyS
    refine ⟨_, u', e, ?_, ?_, ?_⟩
    · rw [ex]; simp [linkRep]
    · rw [ey]; simp [linkRep]
    · rcases keepRep_cases items.toFinset rt x y with hk | hk <;> rw [hk]
      · left; obtain ⟨_, e', _⟩ := h.find_ok hxS; rw [e']
      · right; obtain ⟨_, e', _⟩ := h.find_ok hyS; rw [e']
  · exact ⟨_, h.find_unknown (by simpa using hx), rfl⟩
  · obtain ⟨u', e, i⟩ := h.union_unknown (x := x) (y := y) (by
      rw [List.mem_toFinset, List.mem_toFinset]; exact hxy)
    refine ⟨u', e, ?_⟩
    obtain ⟨outs, _, _, _, hh⟩ := ufCalls_inv items after (unitedPairs items before) rt
    rw [(hh _ i).1, (hh _ h).1]

/-- Non-vacuity: the smaller class joins the larger one; unknown element 9. -/
example : (ufCalls (init [1, 2, 3]) [.union 2 3, .union 1 3, .union 1 9, .find 9, .find 1]).1
    = [.ok 2, .ok 2, .error .keyError, .error .keyError, .ok 2] := by rfl

/-- One parent step in the table of an object. -/
def parentStep (u : UnionFind α) (x : α) : α := (u.parent.get? x).getD x

theorem Path.iterate {u : UnionFind α} {x r : α} {n : ℕ} (h : Path u.parent.get? x n r) :
    (parentStep u)^[n] x = r ∧ parentStep u r = r := by
  induction h with
  | root h => exact ⟨rfl, by simp [parentStep, h]⟩
  | step h1 _ _ ih =>
    refine ⟨?_, ih.2⟩
    rw [Function.iterate_succ_apply, show parentStep u _ = _ by simp only [parentStep, h1]; rfl]
    exact ih.1

/-- **C08.** In every reachable state the chain of parents from `x` reaches the
representative of `x` in `n` steps with `2 ^ n` at most the size of the class of
`x`, i.e. `n ≤ log2 (class size)`. -/
theorem C08_unionfind_depth (items : List α) (ops : List (UFOp α)) (x : α) (hx : x ∈ items) :
    ∃ n r, (parentStep (ufCalls (init items) ops).2)^[n] x = r ∧
      parentStep (ufCalls (init items) ops).2 r = r ∧
      ((ufCalls (init items) ops).2.find x).1 = .ok r ∧
      ∃ cls : Finset α, (∀ y, y ∈ cls ↔ y ∈ items ∧ Connected (unitedPairs items ops) y x) ∧
        2 ^ n ≤ cls.card := by
  obtain ⟨rt, h⟩ := reachable_inv items ops
  have hxS : x ∈ items.toFinset := by simpa using hx
  obtain ⟨n, hp, hn⟩ := h.path x hxS
  obtain ⟨u1, e1, _⟩ := h.find_ok hxS
  refine ⟨n, rt x, (Path.iterate hp).1, (Path.iterate hp).2, by rw [e1],
    items.toFinset.filter (fun y => rt y = rt x), ?_, hn⟩
  intro y
  rw [Finset.mem_filter]
  constructor
  · rintro ⟨h1, h2⟩
    exact ⟨by simpa using h1, (h.eqv y h1 x hxS).mp h2⟩
  · rintro ⟨h1, h2⟩
    have h1 : y ∈ items.toFinset := by simpa using h1
    exact ⟨h1, (h.eqv y h1 x hxS).mpr h2⟩

/-- Non-vacuity: in this reachable state element 4 is two parent steps away from
its representative and its class has four elements. -/
example : (parentStep (ufCalls (init [1, 2, 3, 4])
      [.union 1 2, .union 3 4, .union 1 3]).2)^[2] 4 = 1 ∧
    parentStep (ufCalls (init [1, 2, 3, 4]) [.union 1 2, .union 3 4, .union 1 3]).2 4 = 3 :=
  ⟨rfl, rfl⟩

/-- **C61 (violation).** The constructor accepts any iterable, but reads it
twice. From a one-shot iterator (a generator) the sizes stay empty: `find` works,
and the first `union` of two different elements raises `KeyError` although both
elements were given at construction. -/
theorem C61_iterator_violation (items : List α) (x y : α) (hx : x ∈ items) (hy : y ∈ items)
    (hxy : x ≠ y) :
    ((initFromIterator items).find x).1 = .ok x ∧
    ((initFromIterator items).union x y).1 = .error .keyError := by
  have h := init_inv items
  have hp : ∀ z ∈ items, ∃ u', (initFromIterator items).find z = (.ok z, u') ∧
      u'.size = .empty ∧ u'.parent = (init items).parent := by
    intro z hz
    obtain ⟨n, hpz, hn⟩ := h.path z (by simpa using hz)
    have hroot := h.rt_root (x := z) (by simpa using hz)
    simp only [id] at hpz hroot
    obtain ⟨rfl, _⟩ := (Path.root hroot).unique hpz
    refine ⟨initFromIterator items, ?_, rfl, rfl⟩
    have e1 : rootLoop (initFromIterator items).parent
        ((initFromIterator items).parent.len + 1) z = .ok z :=
      rootLoop_ok (d := (init items).parent) hpz _ (by omega)
    simp [find, e1, compressLoop]
  obtain ⟨u1, e1, s1, p1⟩ := hp x hx
  refine ⟨by rw [e1], ?_⟩
  obtain ⟨u2, e2, s2, p2⟩ := hp y hy
  have hu1 : u1 = initFromIterator items := by
    cases u1; simp at s1 p1; subst s1; subst p1; rfl
  simp [union, e1, hu1, e2, hxy, s2, PyDict.getItem]

/-- Non-vacuity. -/
example : ((initFromIterator [1, 2]).union 1 2).1 = .error .keyError :=
  (C61_iterator_violation [1, 2] 1 2 (by decide) (by decide) (by decide)).2

end Verif
