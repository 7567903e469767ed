import Verif.Proof.KnnInf
import Verif.Proof.Embed
import Verif.Props.Cover
import Verif.Props.Nan

/-!
# C83: nearest neighbours when distances may be infinite or NaN

`inf` is the number from which a search starts (`float("inf")`). Numbers are floating-point
numbers: `<` is irreflexive and transitive, nothing else is assumed of the comparisons, and
subtraction is arbitrary.
-/

set_option autoImplicit false

namespace Verif

section any
variable {T F : Type} [LE F] [LT F] [DecidableLE F] [DecidableLT F] [StrictLT F] [Zero F] [Neg F]
  [Sub F]

/-- **C83 (search).** With any distance function, which may return infinities and NaN and need
not be symmetric: building a tree succeeds, and a nearest neighbour search neither fails nor
loops and returns at most `k` entries, none more often than the dataset contains it. -/
theorem C83_knn_search (inf : F) (d : T → T → F) (X : List T) (hX : X ≠ []) (kind : String)
    (hk : IsKind kind) (p : VPParams F) (hp : 1 ≤ p.leafCapacity) (ρ : ℕ → ℕ) :
    ∃ t, VPTree.build X d kind p ρ = .ok t ∧ ∀ q k, ∃ out,
      t.knnSearchInf inf q k = .ok out ∧ out.Subperm X ∧ out.length ≤ k := by
  rcases hk with rfl | rfl
  · obtain ⟨a, e1, wf, hdata, ht⟩ := flatBuild_ok d ρ p hp X
    refine ⟨.flat d a, by simp [VPTree.build, e1], fun q k => ?_⟩
    have := flatKnnSearchInf_any inf wf (by rw [hdata]; exact ht hX) q k
    rw [hdata] at this
    exact this
  · obtain ⟨t, a, e1, wf, hdata, _, hperm, _, _⟩ := hierBuild_ok d ρ p hp X
    refine ⟨.hier d t a, by simp [VPTree.build, e1], fun q k => ?_⟩
    obtain ⟨h', e2, f2⟩ := hierKnnRecInf_any inf wf q k t (d := d) [] MaxHeap.init (Found.init _ _)
    obtain ⟨out, e3, h3⟩ := knnItems_any (f2.perm (by simpa using hperm))
    exact ⟨out, by simp [VPTree.knnSearchInf, hierKnnSearchInf, e2, e3], h3⟩

/-- **C83 (cover).** With any distance function `KNNCover.apply` succeeds, and its charts are
non-empty, without repetitions, made of valid rows and of at most `neighbors` of them. -/
theorem C83_apply (inf : F) (c : KnnCover T F) (hk : IsKind c.params.kind)
    (hn : 1 ≤ c.params.neighbors) (ρ : ℕ → ℕ) (X : List T) :
    ∃ out, c.applyInf inf ρ X = .ok out ∧ WellFormedCharts X.length out ∧
      ∀ chart ∈ out, chart.length ≤ c.params.neighbors := by
  cases X with
  | nil =>
    obtain ⟨t, h1⟩ : ∃ t, VPTree.build (enumerate ([] : List T)) (pullback snd c.params.metric)
        c.params.kind ⟨numOr c.params.leafCapacity c.params.neighbors, c.params.leafRadius,
          c.params.pivoting⟩ ρ = .ok t := by
      rcases hk with hk | hk <;> rw [hk] <;> exact ⟨_, rfl⟩
    refine ⟨[], ?_, by simp [WellFormedCharts], by simp⟩
    simp [KnnCover.applyInf, proximityNet, KnnCover.fit, h1, proximityLoop]
  | cons x₀ xs =>
    obtain ⟨X, hXe⟩ : ∃ X, X = x₀ :: xs := ⟨_, rfl⟩
    rw [← hXe]
    obtain ⟨t, h1, h2⟩ := C83_knn_search inf (pullback snd c.params.metric) (enumerate X)
      (enumerate_ne_nil (by rw [hXe]; simp)) c.params.kind hk
      ⟨numOr c.params.leafCapacity c.params.neighbors, c.params.leafRadius, c.params.pivoting⟩
      (numOr_pos _ _ hn) ρ
    have hfit : c.fit ρ X = .ok ⟨c.params, some ⟨c.params.neighbors, t⟩⟩ := by
      simp [KnnCover.fit, h1]
    choose f hf hs hl using fun x : T => h2 (-1, x) c.params.neighbors
    let pt : ℕ → T := fun i => (X[i]?).getD x₀
    have hpt : ∀ (i : ℕ) x, X[i]? = some x → pt i = x := by
      intro i x hx; simp only [pt, hx, Option.getD_some]
    obtain ⟨out, cs, e, _, hm, rfl⟩ := C29_proximity_net (c.fit ρ) (KnnCover.searchInf inf) X _ hfit
      (fun i => firsts (f (pt i))) (fun i x hx => by
        rw [hpt i x hx]; simp [KnnCover.searchInf, hf x])
    have hsub : ∀ x, (firsts (f x)).Subperm (firsts (enumerate X)) := by
      intro x
      obtain ⟨l, h5, h6⟩ := hs x
      exact ⟨firsts l, h5.map _, h6.map _⟩
    refine ⟨_, e, ?_, ?_⟩
    · intro chart hc
      obtain ⟨hc, hne⟩ := List.mem_filter.mp hc
      obtain ⟨i, hi, rfl⟩ := List.mem_map.mp hc
      refine ⟨by simpa using hne, ?_, ?_⟩
      · obtain ⟨l, hp, hs⟩ := hsub (pt i)
        exact hp.nodup_iff.mp ((firsts_enumerate_nodup X).sublist hs)
      · intro j hj
        have := (hsub (pt i)).subset hj
        rw [enumerate, firsts_enumFrom] at this
        simpa using this
    · intro chart hc
      obtain ⟨hc, _⟩ := List.mem_filter.mp hc
      obtain ⟨i, hi, rfl⟩ := List.mem_map.mp hc
      simpa [firsts] using hl (pt i)

end any

section finite
variable {T R F : Type} [LE R] [LT R] [DecidableLE R] [DecidableLT R] [Zero R] [Neg R] [Sub R]
  [LE F] [LT F] [DecidableLE F] [DecidableLT F] [Zero F] [Neg F] [Sub F] {ι : R → F} {inf : F}

/-- **C83 (finite distances).** If all distances are finite, the trees and the answers of both
searches are the same as with the numbers that the floating-point numbers stand for: all
theorems about exact or rounded distances apply. -/
theorem C83_finite_tree (H : FiniteIn ι inf) (d : T → T → R) (X : List T) (kind : String)
    (p : VPParams R) (ρ : ℕ → ℕ) (t : VPTree T R) (ht : VPTree.build X d kind p ρ = .ok t) :
    ∃ t', VPTree.build X (fun x y => ι (d x y)) kind ⟨p.leafCapacity, ι p.leafRadius, p.pivoting⟩ ρ
        = .ok t' ∧
      (∀ q k, t'.knnSearchInf inf q k = t.knnSearch q k) ∧
      (∀ q eps inc, t'.ballSearch q (ι eps) inc = t.ballSearch q eps inc) := by
  refine ⟨t.mapNum ι, ?_, VPTree.knnSearch_map H t, VPTree.ballSearch_map H t⟩
  exact (VPTree.build_map H.lt H.le H.zero d kind ρ p X).trans (by rw [ht]; rfl)

/-- **C83 (finite distances, cover).** Likewise for the charts of `KNNCover`. -/
theorem C83_finite_cover (H : FiniteIn ι inf) (P : KnnParams T R) (ρ : ℕ → ℕ) (X : List T) :
    (⟨⟨P.neighbors, fun x y => ι (P.metric x y), P.kind, P.leafCapacity, ι P.leafRadius,
        P.pivoting⟩, none⟩ : KnnCover T F).applyInf inf ρ X =
      (⟨P, none⟩ : KnnCover T R).apply ρ X := by
  have hb : VPTree.build (enumerate X) (pullback snd (fun x y => ι (P.metric x y))) P.kind
      ⟨numOr P.leafCapacity P.neighbors, ι P.leafRadius, P.pivoting⟩ ρ =
      Except.map (VPTree.mapNum ι) (VPTree.build (enumerate X) (pullback snd P.metric) P.kind
        ⟨numOr P.leafCapacity P.neighbors, P.leafRadius, P.pivoting⟩ ρ) :=
    VPTree.build_map H.lt H.le H.zero (pullback snd P.metric) P.kind ρ
      ⟨numOr P.leafCapacity P.neighbors, P.leafRadius, P.pivoting⟩ (enumerate X)
  have hloop : ∀ (t : VPTree (ℤ × T) R) (Q : KnnParams T F) (l : List T) (i : ℕ) (cov : List ℕ),
      proximityLoop (KnnCover.searchInf inf) (⟨Q, some ⟨P.neighbors, t.mapNum ι⟩⟩ : KnnCover T F)
        i l cov = proximityLoop KnnCover.search (⟨P, some ⟨P.neighbors, t⟩⟩ : KnnCover T R) i l
        cov := by
    intro t Q l
    have hs : ∀ x, (⟨Q, some ⟨P.neighbors, t.mapNum ι⟩⟩ : KnnCover T F).searchInf inf x =
        (⟨P, some ⟨P.neighbors, t⟩⟩ : KnnCover T R).search x := by
      intro x
      simp only [KnnCover.searchInf, KnnCover.search, VPTree.knnSearch_map H]
    induction l with
    | nil => intro i cov; rfl
    | cons x l ih =>
      intro i cov
      simp only [proximityLoop, hs, ih]
  simp only [KnnCover.applyInf, KnnCover.apply, proximityNet, KnnCover.fit, hb, map_bind_py]
  cases VPTree.build (enumerate X) (pullback snd P.metric) P.kind
      ⟨numOr P.leafCapacity P.neighbors, P.leafRadius, P.pivoting⟩ ρ with
  | error e => rfl
  | ok t => exact hloop t _ X 0 []

end finite

section exact
variable {T R F : Type} [AddCommGroup R] [LinearOrder R] [IsOrderedAddMonoid R]
  [LE F] [LT F] [DecidableLE F] [DecidableLT F] [Zero F] [Neg F] [Sub F] {ι : R → F} {inf : F}

/-- **C83 (part that holds).** With finite distances satisfying the laws of a pseudometric, a
nearest neighbour search is exact, for both kinds of tree. Missing: infinite distances and NaN,
see `C83_infinite_violation` and `C83_nan_violation`. -/
theorem C83_knn_exact_partial (H : FiniteIn ι inf) {d : T → T → R} (hd : PseudoMetric d)
    (X : List T) (hX : X ≠ []) (kind : String) (hk : IsKind kind) (p : VPParams R)
    (hp : 1 ≤ p.leafCapacity) (ρ : ℕ → ℕ) :
    ∃ t, VPTree.build X (fun x y => ι (d x y)) kind ⟨p.leafCapacity, ι p.leafRadius, p.pivoting⟩ ρ
        = .ok t ∧
      ∀ q k, ∃ out, t.knnSearchInf inf q k = .ok out ∧ IsKnnAnswer d q k X out := by
  obtain ⟨t, h1, h2⟩ : ∃ t, VPTree.build X d kind p ρ = .ok t ∧
      ∀ q k, ∃ out, t.knnSearch q k = .ok out ∧ IsKnnAnswer d q k X out := by
    rcases hk with rfl | rfl
    · exact C11_flat_knn_exact hd X hX p hp ρ
    · exact C12_hier_knn_exact hd X p hp ρ
  obtain ⟨t', h3, h4, _⟩ := C83_finite_tree H d X kind p ρ t h1
  refine ⟨t', h3, fun q k => ?_⟩
  rw [h4]
  exact h2 q k

end exact

/-! ### Non-vacuity and counterexamples: integers with infinities and NaN -/

open Special

theorem Special.finiteIn : FiniteIn fin posInf where
  lt := fun a b => by simp [lt_def, lt]
  le := fun a b => by simp [le_def, le, lt]
  zero := rfl
  neg := fun _ => rfl
  sub := fun _ _ => rfl
  lt_inf := fun _ => rfl
  le_inf := fun _ => rfl
  not_inf_le := fun a => by simp [le_def, le, lt]

/-- Non-vacuity: three neighbours in a dataset with missing values. -/
example : ∃ t, VPTree.build [some 1, none, some 2, some 7, none, some 3] missDist "flat"
      ⟨1, 0, "disabled"⟩ (fun n => n) = .ok t ∧
    ∃ out, t.knnSearchInf posInf (some 2) 3 = .ok out ∧ out.length ≤ 3 := by
  obtain ⟨t, h1, h2⟩ := C83_knn_search posInf missDist
    [some 1, none, some 2, some 7, none, some 3] (by simp) "flat" (.inl rfl) ⟨1, 0, "disabled"⟩
    (le_refl _) (fun n => n)
  obtain ⟨out, h3, _, h4⟩ := h2 (some 2) 3
  exact ⟨t, h1, out, h3, h4⟩

/-- Non-vacuity: finite distances among integers. -/
example : ∃ t, VPTree.build [5, 1, 3, 3, 9, 1] (fun x y => fin (absDist x y)) "hierarchical"
      ⟨1, fin 0, "disabled"⟩ (fun n => n) = .ok t ∧
    ∃ out, t.knnSearchInf posInf 4 3 = .ok out ∧ out.length = 3 := by
  obtain ⟨t, h1, h2⟩ := C83_knn_exact_partial Special.finiteIn absDist_pseudo [5, 1, 3, 3, 9, 1]
    (by simp) "hierarchical" (.inr rfl) ⟨1, 0, "disabled"⟩ (le_refl _) (fun n => n)
  obtain ⟨out, h3, h4⟩ := h2 4 3
  exact ⟨t, h1, out, h3, h4.1⟩

def missKnn (kind : String) (k : ℕ) : KnnCover (Option ℤ) Special :=
  ⟨⟨k, missDist, kind, some 1, fin 0, "disabled"⟩, none⟩

def pieceKnn (kind : String) (k : ℕ) : KnnCover (ℤ × ℤ) Special :=
  ⟨⟨k, pieceDist, kind, some 1, fin 0, "disabled"⟩, none⟩

/-- Non-vacuity: the charts of a dataset with a missing value. -/
example : ∃ out, (missKnn "flat" 2).applyInf posInf (fun n => n) [some 0, none, some 5, some 9] =
    .ok out ∧ WellFormedCharts 4 out := by
  obtain ⟨out, h1, h2, _⟩ := C83_apply posInf (missKnn "flat" 2) (.inl rfl) (by decide)
    (fun n => n) [some 0, none, some 5, some 9]
  exact ⟨out, h1, h2⟩

/-- **C83 (infinite distances).** With a metric that takes infinite values, for both kinds of
tree: a search for two neighbours among two points finds one, and a cover of two triples of
points by pairs of neighbours leaves the second triple out. -/
theorem C83_infinite_violation (kind : String) (hk : IsKind kind) :
    (∃ t, VPTree.build [(0, 0), (1, 0)] pieceDist kind ⟨1, fin 0, "disabled"⟩ (fun n => n) = .ok t ∧
      t.knnSearchInf posInf (0, 0) 2 = .ok [(0, 0)]) ∧
    (pieceKnn kind 2).applyInf posInf (fun n => n)
      [(0, 0), (1, 0), (1, 1), (0, 5), (1, 3), (0, 3)] = .ok [[5, 0], [5, 3]] := by
  rcases hk with rfl | rfl <;> exact ⟨⟨_, rfl, rfl⟩, rfl⟩

/-- **C83 (NaN distances).** One row whose distances are NaN changes the neighbours of the
others. With the flat tree it becomes the nearest neighbour of every row, none of which is then
covered. With the hierarchical tree it hides one of them. -/
theorem C83_nan_violation :
    (missKnn "flat" 1).applyInf posInf (fun n => n) [some 0, some 5, some 9] =
      .ok [[0], [1], [2]] ∧
    (missKnn "flat" 1).applyInf posInf (fun n => n) [some 0, some 5, some 9, none] =
      .ok [[3], [3], [3]] ∧
    (missKnn "hierarchical" 1).applyInf posInf (fun n => n) [some 0, some 5, some 9] =
      .ok [[0], [1], [2]] ∧
    (missKnn "hierarchical" 1).applyInf posInf (fun n => n) [none, some 0, some 5, some 9] =
      .ok [[1], [3]] := ⟨rfl, rfl, rfl, rfl⟩

end Verif
