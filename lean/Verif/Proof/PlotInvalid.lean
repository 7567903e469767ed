import Verif.Spec.PlotInvalid
import Verif.Props.Plot
import Verif.Props.PlotBackends

/-!
# Helper lemmas about plots with wrong arguments
-/

set_option autoImplicit false
set_option linter.unusedSectionVars false

namespace Verif

variable {K V S : Type}

theorem aggregateLoop_error {A : Type} (X : List S) (g : NxGraph) (agg : List S → Py A)
    (ids : ℤ → List ℕ) (ha : ∀ l, ∃ v, agg l = .ok v) : ∀ (ns : List ℤ) (out : PyDict ℤ A),
    (∀ n ∈ ns, ∃ size, g.nodes.get? n = some ⟨size, some (ids n)⟩) →
    (∃ n ∈ ns, ∃ i ∈ ids n, X.length ≤ i) → aggregateLoop X g agg ns out = .error .indexError := by
  intro ns
  induction ns with
  | nil => intro out _ h; simp at h
  | cons n ns ih =>
    intro out hn h
    obtain ⟨size, hs⟩ := hn n (by simp)
    by_cases hi : ∃ i ∈ ids n, X.length ≤ i
    · simp only [aggregateLoop, PyDict.getItem, hs, ok_bind, gather_error X _ hi, error_bind]
    · have hv : ∀ i ∈ ids n, i < X.length := by
        intro i h; by_contra hx; exact hi ⟨i, h, Nat.not_lt.mp hx⟩
      obtain ⟨v, e⟩ := ha (pointsOf X (ids n))
      simp only [aggregateLoop, PyDict.getItem, hs, ok_bind, gather_ok X _ hv, e]
      refine ih _ (fun m hm => hn m (by simp [hm])) ?_
      obtain ⟨m, hm, hx⟩ := h
      rcases List.mem_cons.mp hm with rfl | hm
      · exact absurd hx hi
      · exact ⟨m, hm, hx⟩

theorem pointsOf_append {X E : List S} {ids : List ℕ} (h : ∀ i ∈ ids, i < X.length) :
    pointsOf (X ++ E) ids = pointsOf X ids := by
  unfold pointsOf
  refine List.filterMap_congr fun i hi => ?_
  rw [List.getElem?_append_left (h i hi)]

theorem gather_append {X E : List S} {ids : List ℕ} (h : ∀ i ∈ ids, i < X.length) :
    gather (X ++ E) ids = gather X ids := by
  rw [gather_ok X ids h, gather_ok (X ++ E) ids (fun i hi => by
    rw [List.length_append]; exact Nat.lt_add_right _ (h i hi)), pointsOf_append h]

theorem aggregateGraph_append {A : Type} {X E : List S} {g : NxGraph} {agg : List S → Py A}
    {ids : ℤ → List ℕ} (hn : ∀ n, g.IsNode n → ∃ size, g.nodes.get? n = some ⟨size, some (ids n)⟩)
    (h : ∀ n, g.IsNode n → ∀ i ∈ ids n, i < X.length) :
    aggregateGraph (X ++ E) g agg = aggregateGraph X g agg := by
  have : ∀ (ns : List ℤ) (out : PyDict ℤ A), (∀ n ∈ ns, g.IsNode n) →
      aggregateLoop (X ++ E) g agg ns out = aggregateLoop X g agg ns out := by
    intro ns
    induction ns with
    | nil => intro _ _; rfl
    | cons n ns ih =>
      intro out hns
      obtain ⟨size, hs⟩ := hn n (hns n (by simp))
      simp only [aggregateLoop, PyDict.getItem, hs, ok_bind, gather_append (h n (hns n (by simp)))]
      cases gather X (ids n) with
      | error e => rfl
      | ok vals =>
        simp only [ok_bind]
        cases agg vals with
        | error e => rfl
        | ok v =>
          simp only [ok_bind]
          exact ih _ fun m hm => hns m (by simp [hm])
  exact this _ _ fun n hn => hn

section
variable [Field K] [LinearOrder K] {p : MapperPlot K} {size : ℤ → ℕ} {ids : ℤ → List ℕ}
  {pos : ℤ → List K}

theorem aggregate_error (hp : Plottable p size ids pos) {colors : List V} {agg : List V → Py K}
    (ha : ∀ l, ∃ v, agg l = .ok v) (h : PointWithoutRow p.graph ids colors.length) :
    aggregateGraph colors p.graph agg = .error .indexError :=
  aggregateLoop_error colors p.graph agg ids ha _ _ (fun n hn => ⟨_, hp.attr n hn⟩) h

theorem column_append {c : Colors V} {E : List (List V)} {k : ℕ}
    (hr : ∀ row ∈ c.rows ++ E, row.length = c.cols) (hk : k < c.cols) :
    ∃ col ecol, c.column k = .ok col ∧ col.length = c.rows.length ∧
      (⟨c.rows ++ E, c.cols⟩ : Colors V).column k = .ok (col ++ ecol) := by
  obtain ⟨col, h1, h2, _⟩ := column_ok (c := c) (fun row h => hr row (by simp [h])) hk
  obtain ⟨ecol, h3, _, _⟩ := column_ok (c := ⟨E, c.cols⟩) (fun row h => hr row (by simp [h])) hk
  refine ⟨col, ecol, h1, h2, ?_⟩
  simp only [Colors.column, if_pos hk] at h1 h3 ⊢
  have : ∀ (l : List (List V)) (bs : List V), mapPy (fun row => getItem row k) l = .ok bs →
      mapPy (fun row => getItem row k) (l ++ E) = .ok (bs ++ ecol) := by
    intro l
    induction l with
    | nil => intro bs h; cases h; exact h3
    | cons a l ih =>
      intro bs h
      rw [mapPy] at h
      obtain ⟨b, hb, h⟩ := bind_eq_ok.mp h
      obtain ⟨bs', hbs, h⟩ := bind_eq_ok.mp h
      cases h
      rw [List.cons_append, mapPy, hb, ok_bind, ih _ hbs]
      rfl
  exact this _ _ h1

end

end Verif
