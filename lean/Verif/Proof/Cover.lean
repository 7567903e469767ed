import Verif.Model.Cover
import Verif.Spec.Cover
import Verif.Props.VPTree

/-!
# Lemmas on `BallCover` and `KNNCover`
-/

set_option autoImplicit false

namespace Verif

variable {T S R : Type}

theorem enumFrom_length (X : List T) : ∀ i, (enumFrom i X).length = X.length := by
  induction X with
  | nil => intro i; rfl
  | cons x xs ih => intro i; simp [enumFrom, ih]

theorem enumerate_length (X : List T) : (enumerate X).length = X.length := enumFrom_length X 0

theorem enumerate_ne_nil {X : List T} (h : X ≠ []) : enumerate X ≠ [] := by
  cases X with
  | nil => exact absurd rfl h
  | cons x xs => simp [enumerate, enumFrom]

theorem mem_enumFrom (X : List T) : ∀ i (e : ℤ × T), e ∈ enumFrom i X ↔
    ∃ j : ℕ, e.1 = ((i + j : ℕ) : ℤ) ∧ X[j]? = some e.2 := by
  induction X with
  | nil => intro i e; simp [enumFrom]
  | cons x xs ih =>
    intro i e
    rw [enumFrom, List.mem_cons, ih]
    constructor
    · rintro (rfl | ⟨j, h1, h2⟩)
      · exact ⟨0, by simp, by simp⟩
      · exact ⟨j + 1, by rw [h1]; congr 1; omega, by simpa using h2⟩
    · rintro ⟨j, h1, h2⟩
      cases j with
      | zero =>
        left
        simp only [List.getElem?_cons_zero, Option.some.injEq] at h2
        exact Prod.ext (by simpa using h1) h2.symm
      | succ j =>
        right
        exact ⟨j, by rw [h1]; congr 1; omega, by simpa using h2⟩

theorem mem_enumerate (X : List T) (e : ℤ × T) : e ∈ enumerate X ↔
    ∃ j : ℕ, e.1 = (j : ℤ) ∧ X[j]? = some e.2 := by
  rw [enumerate, mem_enumFrom]; simp

theorem firsts_enumFrom (X : List T) : ∀ i, firsts (enumFrom i X) = List.range' i X.length := by
  induction X with
  | nil => intro i; rfl
  | cons x xs ih =>
    intro i
    have := ih (i + 1)
    simp only [firsts] at this
    simp [enumFrom, firsts, List.range'_succ, this]

theorem firsts_enumerate_nodup (X : List T) : (firsts (enumerate X)).Nodup := by
  rw [enumerate, firsts_enumFrom]; exact List.nodup_range'

/-- The identifiers of the entries satisfying a predicate on points. -/
theorem firsts_filter_exact (X : List T) (P : T → Prop) [DecidablePred P]
    (out : List (ℤ × T)) (h : out.Perm ((enumerate X).filter (fun e => decide (P e.2)))) :
    ListsExactly X P (firsts out) := by
  have hp : (firsts out).Perm (firsts ((enumerate X).filter (fun e => decide (P e.2)))) :=
    h.map _
  constructor
  · rw [hp.nodup_iff]
    exact (firsts_enumerate_nodup X).sublist (List.filter_sublist.map _)
  · intro j
    rw [hp.mem_iff]
    simp only [firsts, List.mem_map, List.mem_filter, decide_eq_true_eq, mem_enumerate]
    constructor
    · rintro ⟨e, ⟨⟨j', h1, h2⟩, h3⟩, h4⟩
      rw [h1] at h4
      have : j' = j := by simpa using h4
      subst this
      exact ⟨e.2, h2, h3⟩
    · rintro ⟨z, h1, h2⟩
      exact ⟨((j : ℤ), z), ⟨⟨j, rfl, h1⟩, h2⟩, by simp⟩

theorem filter_enumFrom_length (X : List T) (P : T → Prop) [DecidablePred P] :
    ∀ i, ((enumFrom i X).filter (fun e => decide (P e.2))).length =
      X.countP (fun z => decide (P z)) := by
  induction X with
  | nil => intro i; rfl
  | cons x xs ih =>
    intro i
    by_cases h : P x <;> simp [enumFrom, h, ih]

theorem length_le_countP (X : List T) (P : T → Prop) [DecidablePred P] (l : List ℕ)
    (hl : l.Nodup) (h : ∀ j ∈ l, ∃ z, X[j]? = some z ∧ P z) :
    l.length ≤ X.countP (fun z => decide (P z)) := by
  have he := firsts_filter_exact X P _ (List.Perm.refl _)
  have hsub : l ⊆ firsts ((enumerate X).filter (fun e => decide (P e.2))) :=
    fun j hj => (he.2 j).mpr (h j hj)
  have := (List.subperm_of_subset hl hsub).length_le
  rwa [firsts, List.length_map, enumerate, filter_enumFrom_length] at this

section
variable [AddCommGroup R] [LinearOrder R] [IsOrderedAddMonoid R]

omit [IsOrderedAddMonoid R] in
theorem PseudoMetric.pullback {d : S → S → R} (hd : PseudoMetric d) (f : T → S) :
    PseudoMetric (pullback f d) :=
  ⟨fun _ => hd.self _, fun _ _ => hd.symm _ _, fun _ _ _ => hd.triangle _ _ _⟩

theorem PseudoMetric.nonneg {d : T → T → R} (hd : PseudoMetric d) (x y : T) : 0 ≤ d x y := by
  have h := hd.triangle x y x
  rw [hd.self, hd.symm y x] at h
  by_contra hn
  have hlt := not_le.mp hn
  exact absurd h (not_le.mpr (add_neg hlt hlt))

theorem vptree_ball {d : T → T → R} (hd : PseudoMetric d) (X : List T) (kind : String)
    (hk : IsKind kind) (p : VPParams R) (hp : 1 ≤ p.leafCapacity) (ρ : ℕ → ℕ) :
    ∃ t, VPTree.build X d kind p ρ = .ok t ∧ (X ≠ [] →
      (∀ q eps b, ∃ out, t.ballSearch q eps b = .ok out ∧ IsBallAnswer d q eps b X out) ∧
      ∀ q k, ∃ out, t.knnSearch q k = .ok out ∧ IsKnnAnswer d q k X out) := by
  rcases hk with rfl | rfl
  · by_cases hX : X = []
    · obtain ⟨a, h, _⟩ := C13_flat_build d X p hp ρ
      exact ⟨_, h, fun h' => absurd hX h'⟩
    · obtain ⟨t, h1, h2⟩ := C09_flat_ball_exact hd X hX p hp ρ
      obtain ⟨t', h1', h2'⟩ := C11_flat_knn_exact hd X hX p hp ρ
      rw [h1] at h1'; cases h1'
      exact ⟨t, h1, fun _ => ⟨h2, h2'⟩⟩
  · obtain ⟨t, h1, h2⟩ := C10_hier_ball_exact hd X p hp ρ
    obtain ⟨t', h1', h2'⟩ := C12_hier_knn_exact hd X p hp ρ
    rw [h1] at h1'; cases h1'
    exact ⟨t, h1, fun _ => ⟨h2, h2'⟩⟩

theorem ballFit_ok (c : BallCover T R) (hd : PseudoMetric c.params.metric)
    (hk : IsKind c.params.kind) (hp : 1 ≤ c.params.leafCapacity) (ρ : ℕ → ℕ) (X : List T) :
    ∃ c', c.fit ρ X = .ok c' ∧ (X ≠ [] → ∀ x, ∃ out, c'.search x = .ok out ∧
      ListsExactly X (fun z => c.params.metric x z < c.params.radius) out) := by
  obtain ⟨t, h1, h2⟩ := vptree_ball (hd.pullback (snd (T := T))) (enumerate X) c.params.kind hk
    ⟨c.params.leafCapacity, numOr c.params.leafRadius c.params.radius, c.params.pivoting⟩ hp ρ
  refine ⟨⟨c.params, some ⟨c.params.radius, t⟩⟩, by simp [BallCover.fit, h1], ?_⟩
  intro hX x
  obtain ⟨out, h3, h4⟩ := (h2 (enumerate_ne_nil hX)).1 (-1, x) c.params.radius false
  refine ⟨firsts out, by simp [BallCover.search, h3], ?_⟩
  apply firsts_filter_exact
  simpa [IsBallAnswer, InBall, Verif.pullback, snd] using h4

theorem numOr_pos (a : Option ℕ) (b : ℕ) (hb : 1 ≤ b) : 1 ≤ numOr a b := by
  cases a with
  | none => exact hb
  | some v =>
    simp only [numOr]
    split <;> omega

theorem knnFit_ok (c : KnnCover T R) (hd : PseudoMetric c.params.metric)
    (hk : IsKind c.params.kind) (hn : 1 ≤ c.params.neighbors) (ρ : ℕ → ℕ) (X : List T) :
    ∃ c', c.fit ρ X = .ok c' ∧ (X ≠ [] → ∀ x, ∃ out, c'.search x = .ok out ∧
      NearestIndices c.params.metric x c.params.neighbors X out) := by
  obtain ⟨t, h1, h2⟩ := vptree_ball (hd.pullback (snd (T := T))) (enumerate X) c.params.kind hk
    ⟨numOr c.params.leafCapacity c.params.neighbors, c.params.leafRadius, c.params.pivoting⟩
    (numOr_pos _ _ hn) ρ
  refine ⟨⟨c.params, some ⟨c.params.neighbors, t⟩⟩, by simp [KnnCover.fit, h1], ?_⟩
  intro hX x
  obtain ⟨out, h3, hlen, left, hperm, hle⟩ :=
    (h2 (enumerate_ne_nil hX)).2 (-1, x) c.params.neighbors
  have hids : (firsts out ++ firsts left).Perm (firsts (enumerate X)) := by
    have := hperm.map (fun e : ℤ × T => e.1.toNat)
    simpa [firsts] using this
  have hnd := hids.nodup_iff.mpr (firsts_enumerate_nodup X)
  refine ⟨firsts out, by simp [KnnCover.search, h3], (List.nodup_append.mp hnd).1, ?_, ?_, ?_⟩
  · simpa [firsts, enumerate_length] using hlen
  · intro i hi
    have : i ∈ firsts (enumerate X) := hids.subset (List.mem_append_left _ hi)
    rw [enumerate, firsts_enumFrom] at this
    simpa [List.mem_range'_1] using this
  · intro i hi j hj xi xj hxi hxj
    obtain ⟨e, he, hei⟩ := List.mem_map.mp hi
    obtain ⟨j', hj1, hj2⟩ := (mem_enumerate X e).mp (hperm.subset (List.mem_append_left _ he))
    have hij : j' = i := by rw [hj1] at hei; simpa using hei
    subst hij
    rw [hj2] at hxi
    cases hxi
    have hmem : ((j : ℤ), xj) ∈ out ++ left :=
      hperm.symm.subset ((mem_enumerate X _).mpr ⟨j, rfl, hxj⟩)
    rcases List.mem_append.mp hmem with hmem | hmem
    · exact absurd (List.mem_map.mpr ⟨_, hmem, by simp⟩) hj
    · exact hle e he _ hmem

end

end Verif
