import Verif.Proof.Isometry
import Verif.Proof.BinaryUnit
import Verif.Props.Units
import Verif.Props.Reproducible

/-!
# C121: trees and covers see the points only through the distances

No law is assumed of the distances: they may be asymmetric, violate the triangle inequality, be
rounded, or not even be ordered linearly (NaN).
-/

set_option autoImplicit false
set_option linter.unusedSectionVars false

namespace Verif

variable {S T T' R R' : Type}

section
variable [LE R] [LT R] [DecidableLE R] [DecidableLT R] [Zero R] [Neg R] [Sub R]
  [LE R'] [LT R'] [DecidableLE R'] [DecidableLT R'] [Zero R'] [Neg R'] [Sub R'] {ψ : R → R'}

/-- **C121 (ball search).** A tree built on the images of the points, with a metric giving the same
distances, in the same or another unit, answers a ball search for the image of a query with the
images of the points found in the original tree, in the same order; or both raise the same
exception. -/
theorem C121_ball_search (hψ : UnitChange ψ) (φ : T → T') (d : T → T → R) (d' : T' → T' → R')
    (hd : ∀ x z, d' (φ x) (φ z) = ψ (d x z)) (X : List T) (kind : String) (p : VPParams R)
    (ρ : ℕ → ℕ) (q : T) (eps : R) (inclusive : Bool) :
    (do
      let t ← VPTree.build (X.map φ) d' kind (p.inUnit ψ) ρ
      t.ballSearch (φ q) (ψ eps) inclusive) =
    (do
      let t ← VPTree.build X d kind p ρ
      let found ← t.ballSearch q eps inclusive
      return found.map φ) := by
  refine (build_image hψ hd X kind p ρ).bind_eq fun t t' h => ?_
  rw [ballSearch_image hψ hd h]
  cases t.ballSearch q eps inclusive <;> rfl

/-- **C121 (nearest-neighbour search).** The same for the search of the `k` nearest points. -/
theorem C121_knn_search (hψ : UnitChange ψ) (φ : T → T') (d : T → T → R) (d' : T' → T' → R')
    (hd : ∀ x z, d' (φ x) (φ z) = ψ (d x z)) (X : List T) (kind : String) (p : VPParams R)
    (ρ : ℕ → ℕ) (q : T) (k : ℕ) :
    (do
      let t ← VPTree.build (X.map φ) d' kind (p.inUnit ψ) ρ
      t.knnSearch (φ q) k) =
    (do
      let t ← VPTree.build X d kind p ρ
      let found ← t.knnSearch q k
      return found.map φ) := by
  refine (build_image hψ hd X kind p ρ).bind_eq fun t t' h => ?_
  rw [knnSearch_image hψ hd h]
  cases t.knnSearch q k <;> rfl

variable [DecidableEq R] [DecidableEq R']

/-- **C121 (balls).** If two datasets have the same distances between corresponding rows, in the
same or another unit, and the radii and leaf radii are in the same units, `BallCover.apply` gives
the very same charts, in the same order and with the indices in the same order, or raises the same
exception, given the same random draws. -/
theorem C121_ball (hψ : UnitChange ψ) (c : BallCover T R) (c' : BallCover T' R')
    (hc : BallTwins ψ c.params c'.params) (ρ : ℕ → ℕ) (y : List T) (y' : List T')
    (hsame : RowsAgree y y' fun x z x' z' => c'.params.metric x' z' = ψ (c.params.metric x z)) :
    c'.apply ρ y' = c.apply ρ y := by
  obtain ⟨hlen, hrows⟩ := hsame
  let c0 : BallCover (Fin y.length) R := ⟨{ c.params with
    metric := fun i j => c.params.metric y[i] y[j] }, none⟩
  have e : y = (List.finRange y.length).map fun i => y[i] := by simp
  have e' : y' = (List.finRange y.length).map fun i => y'[i]'(hlen ▸ i.2) := by
    apply List.ext_getElem <;> simp [hlen]
  have h1 : c.apply ρ y = c0.apply ρ (List.finRange y.length) := by
    conv_lhs => rw [e]
    exact proximityNet_image _ (ball_image unitChange_id c0 c
      ⟨rfl, rfl, rfl, by simp [c0], rfl⟩ (fun _ _ => rfl) ρ _)
  have h2 : c'.apply ρ y' = c0.apply ρ (List.finRange y.length) := by
    conv_lhs => rw [e']
    exact proximityNet_image _ (ball_image hψ c0 c'
      ⟨hc.radius, hc.kind, hc.leafCapacity, hc.leafRadius, hc.pivoting⟩
      (fun i j => hrows i j _ _ _ _ (by simp) (by simp) (by simp) (by simp)) ρ _)
  rw [h1, h2]

/-- **C121 (neighbours).** The same for `KNNCover.apply`, whatever distances are tied. -/
theorem C121_knn (hψ : UnitChange ψ) (c : KnnCover T R) (c' : KnnCover T' R')
    (hc : KnnTwins ψ c.params c'.params) (ρ : ℕ → ℕ) (y : List T) (y' : List T')
    (hsame : RowsAgree y y' fun x z x' z' => c'.params.metric x' z' = ψ (c.params.metric x z)) :
    c'.apply ρ y' = c.apply ρ y := by
  obtain ⟨hlen, hrows⟩ := hsame
  let c0 : KnnCover (Fin y.length) R := ⟨{ c.params with
    metric := fun i j => c.params.metric y[i] y[j] }, none⟩
  have e : y = (List.finRange y.length).map fun i => y[i] := by simp
  have e' : y' = (List.finRange y.length).map fun i => y'[i]'(hlen ▸ i.2) := by
    apply List.ext_getElem <;> simp [hlen]
  have h1 : c.apply ρ y = c0.apply ρ (List.finRange y.length) := by
    conv_lhs => rw [e]
    exact proximityNet_image _ (knn_image unitChange_id c0 c
      ⟨rfl, rfl, rfl, rfl, rfl⟩ (fun _ _ => rfl) ρ _)
  have h2 : c'.apply ρ y' = c0.apply ρ (List.finRange y.length) := by
    conv_lhs => rw [e']
    exact proximityNet_image _ (knn_image hψ c0 c'
      ⟨hc.neighbors, hc.kind, hc.leafCapacity, hc.leafRadius, hc.pivoting⟩
      (fun i j => hrows i j _ _ _ _ (by simp) (by simp) (by simp) (by simp)) ρ _)
  rw [h1, h2]

/-- **C121 (graph).** Hence the labels, the Mapper graph and the connected components are the very
same too, whatever the clustering. -/
theorem C121_graph (hψ : UnitChange ψ) (c : BallCover T R) (c' : BallCover T' R')
    (hc : BallTwins ψ c.params c'.params) (k : KnnCover T R) (k' : KnnCover T' R')
    (hk : KnnTwins ψ k.params k'.params) (ρ : ℕ → ℕ) (y : List T) (y' : List T')
    (hsame : RowsAgree y y' fun x z x' z' => c'.params.metric x' z' = ψ (c.params.metric x z) ∧
      k'.params.metric x' z' = ψ (k.params.metric x z))
    (X : List S) (clust : ClustFn S) (order : List ℤ → List ℤ) :
    (mapperLabels X y' (c'.apply ρ) clust = mapperLabels X y (c.apply ρ) clust ∧
      mapperGraph X y' (c'.apply ρ) clust = mapperGraph X y (c.apply ρ) clust ∧
      mapperConnectedComponents order X y' (c'.apply ρ) clust =
        mapperConnectedComponents order X y (c.apply ρ) clust) ∧
    mapperLabels X y' (k'.apply ρ) clust = mapperLabels X y (k.apply ρ) clust ∧
      mapperGraph X y' (k'.apply ρ) clust = mapperGraph X y (k.apply ρ) clust ∧
      mapperConnectedComponents order X y' (k'.apply ρ) clust =
        mapperConnectedComponents order X y (k.apply ρ) clust := by
  have hb := C121_ball hψ c c' hc ρ y y' ⟨hsame.1, fun i j xi xj xi' xj' h1 h2 h3 h4 =>
    (hsame.2 i j xi xj xi' xj' h1 h2 h3 h4).1⟩
  have hn := C121_knn hψ k k' hk ρ y y' ⟨hsame.1, fun i j xi xj xi' xj' h1 h2 h3 h4 =>
    (hsame.2 i j xi xj xi' xj' h1 h2 h3 h4).2⟩
  have lb : mapperLabels X y' (c'.apply ρ) clust = mapperLabels X y (c.apply ρ) clust := by
    unfold mapperLabels
    rw [hb]
  have ln : mapperLabels X y' (k'.apply ρ) clust = mapperLabels X y (k.apply ρ) clust := by
    unfold mapperLabels
    rw [hn]
  unfold mapperGraph mapperConnectedComponents
  rw [lb, ln]
  exact ⟨⟨rfl, rfl, rfl⟩, rfl, rfl, rfl⟩

/-- **C121 (precomputed distances).** A matrix `D` of distances may be used instead of the data: the
cover of the row numbers `0, …, n - 1` with the metric that looks the distance up in the matrix is
the very same as that of the data. -/
theorem C121_precomputed (c : BallCover T R) (k : KnnCover T R) (D : ℕ → ℕ → R) (y : List T)
    (hD : ∀ (i j : ℕ) x z, y[i]? = some x → y[j]? = some z →
      D i j = c.params.metric x z ∧ D i j = k.params.metric x z) (ρ : ℕ → ℕ) :
    BallCover.apply ⟨{ c.params with metric := D }, none⟩ ρ (List.range y.length) = c.apply ρ y ∧
    KnnCover.apply ⟨{ k.params with metric := D }, none⟩ ρ (List.range y.length) = k.apply ρ y := by
  have hr : ∀ (i x : ℕ), (List.range y.length)[i]? = some x → x = i := by
    intro i x h
    obtain ⟨h1, h2⟩ := List.getElem?_eq_some_iff.mp h
    simpa using h2.symm
  constructor
  · refine C121_ball unitChange_id c ⟨{ c.params with metric := D }, none⟩
      ⟨rfl, rfl, rfl, ?_, rfl⟩ ρ y _ ⟨?_, ?_⟩
    · simp
    · simp
    intro i j xi xj xi' xj' h1 h2 h3 h4
    rw [hr i xi' h3, hr j xj' h4]
    exact (hD i j xi xj h1 h2).1
  · refine C121_knn unitChange_id k ⟨{ k.params with metric := D }, none⟩
      ⟨rfl, rfl, rfl, rfl, rfl⟩ ρ y _ ⟨?_, ?_⟩
    · simp
    intro i j xi xj xi' xj' h1 h2 h3 h4
    rw [hr i xi' h3, hr j xj' h4]
    exact (hD i j xi xj h1 h2).2

end

/-- **C121 (scaling).** If corresponding distances are those of the original data times `s > 0`, and
the radius and the leaf radius are multiplied by `s`, the charts are the very same, with ties or
without. -/
theorem C121_scaled [Ring R] [LinearOrder R] [IsStrictOrderedRing R] (s : R) (hs : 0 < s)
    (φ : T → T') (c : BallCover T R) (c' : BallCover T' R)
    (hc : BallTwins (fun r => s * r) c.params c'.params)
    (hm : ∀ x z, c'.params.metric (φ x) (φ z) = s * c.params.metric x z)
    (k : KnnCover T R) (k' : KnnCover T' R) (hk : KnnTwins (fun r => s * r) k.params k'.params)
    (hm' : ∀ x z, k'.params.metric (φ x) (φ z) = s * k.params.metric x z)
    (ρ : ℕ → ℕ) (y : List T) :
    c'.apply ρ (y.map φ) = c.apply ρ y ∧ k'.apply ρ (y.map φ) = k.apply ρ y := by
  have hr : ∀ (d : T → T → R) (d' : T' → T' → R), (∀ x z, d' (φ x) (φ z) = s * d x z) →
      RowsAgree y (y.map φ) fun x z x' z' => d' x' z' = s * d x z := by
    refine fun d d' h => ⟨by simp, fun i j xi xj xi' xj' h1 h2 h3 h4 => ?_⟩
    rw [List.getElem?_map, h1] at h3
    rw [List.getElem?_map, h2] at h4
    cases h3
    cases h4
    exact h xi xj
  exact ⟨C121_ball (unitChange_mul hs) c c' hc ρ y _ (hr _ _ hm),
    C121_knn (unitChange_mul hs) k k' hk ρ y _ (hr _ _ hm')⟩

/-- **C121 (floating point).** With IEEE 754 numbers of any precision, every operation rounded, and
the Chebyshev distance: multiplying the data, the radius and the leaf radius by a power of two leaves
every chart as it is. -/
theorem C121_float (b : ℕ) {m : ℕ} (e : ℤ) (c c' : BallCover (Fin m → Bin b) (Bin b))
    (hc : BallTwins (Bin.shift e) c.params c'.params) (k k' : KnnCover (Fin m → Bin b) (Bin b))
    (hk : KnnTwins (Bin.shift e) k.params k'.params) (hm : c.params.metric = machChebyshev)
    (hm' : c'.params.metric = machChebyshev) (hn : k.params.metric = machChebyshev)
    (hn' : k'.params.metric = machChebyshev) (ρ : ℕ → ℕ) (y : List (Fin m → Bin b)) :
    c'.apply ρ (y.map fun x i => Bin.shift e (x i)) = c.apply ρ y ∧
      k'.apply ρ (y.map fun x i => Bin.shift e (x i)) = k.apply ρ y := by
  have hr : RowsAgree y (y.map fun x i => Bin.shift e (x i)) fun x z x' z' =>
      machChebyshev x' z' = Bin.shift e (machChebyshev x z) := by
    refine ⟨by simp, fun i j xi xj xi' xj' h1 h2 h3 h4 => ?_⟩
    rw [List.getElem?_map, h1] at h3
    rw [List.getElem?_map, h2] at h4
    cases h3
    cases h4
    exact chebyshev_shift e xi xj
  constructor
  · refine C121_ball (unitChange_shift b e) c c' hc ρ y _ ?_
    rw [hm, hm']
    exact hr
  · refine C121_knn (unitChange_shift b e) k k' hk ρ y _ ?_
    rw [hn, hn']
    exact hr

/-- Balls on the line for the difference of two numbers, which is neither symmetric nor positive. -/
def leftBall (r : ℤ) : BallCover ℤ ℤ :=
  ⟨⟨r, fun x z => x - z, "hierarchical", 1, none, "random"⟩, none⟩

theorem left_double (x z : ℤ) :
    (leftBall 4).params.metric (2 * x) (2 * z) = 2 * (leftBall 2).params.metric x z := by
  simp only [leftBall]
  ring

theorem abs_double (x z : ℤ) :
    randomKnn.params.metric (2 * x) (2 * z) = 2 * randomKnn.params.metric x z := by
  simp only [randomKnn, absDist]
  rw [← mul_sub, abs_mul]
  rfl

/-- Non-vacuity: data doubled, for a difference which is not a metric and for neighbours with ties. The
charts of the neighbours depend on the draws, and agree for the same draws. -/
example :
    ((leftBall 4).apply id ([3, 0, 5, 1].map fun x => 2 * x) = (leftBall 2).apply id [3, 0, 5, 1] ∧
      randomKnn.apply id ([0, 2, -2, 3].map fun x => 2 * x) = randomKnn.apply id [0, 2, -2, 3]) ∧
    (leftBall 2).apply id [3, 0, 5, 1] = .ok [[0, 2], [3, 1, 2]] ∧
    randomKnn.apply (fun _ => 0) [0, 2, -2, 3] ≠ randomKnn.apply (fun _ => 1) [0, 2, -2, 3] :=
  have h := C121_scaled (2 : ℤ) (by norm_num) (fun x : ℤ => 2 * x) (leftBall 2) (leftBall 4)
    ⟨rfl, rfl, rfl, rfl, rfl⟩ left_double randomKnn randomKnn
    ⟨rfl, rfl, rfl, rfl, rfl⟩ abs_double id
  ⟨⟨(h [3, 0, 5, 1]).1, (h [0, 2, -2, 3]).2⟩,
    by decide +kernel, by decide +kernel⟩

/-- Non-vacuity: a matrix of distances instead of the data. -/
example (ρ : ℕ → ℕ) :
    BallCover.apply ⟨{ (demoBall 4).params with
      metric := fun i j => absDist ([0, 3, 9].getD i 0) ([0, 3, 9].getD j 0) }, none⟩ ρ [0, 1, 2] =
        (demoBall 4).apply ρ [0, 3, 9] :=
  (C121_precomputed (demoBall 4) (demoKnn 2) _ [0, 3, 9]
    (fun i j x z hx hz => by simp [demoBall, demoKnn, List.getD_eq_getElem?_getD, hx, hz]) ρ).1

/-- Balls of radius a tenth, rounded, in units of `2 ^ (-e)`. -/
def tenthBall (e : ℤ) : BallCover (Fin 1 → Bin 52) (Bin 52) :=
  ⟨⟨Bin.shift e (Bin.of 52 (1 / 10)), machChebyshev, "flat", 1, none, "random"⟩, none⟩

/-- Non-vacuity: tenths, which are rounded, times a quarter. -/
example (ρ : ℕ → ℕ) (y : List (Fin 1 → Bin 52)) (k : KnnCover (Fin 1 → Bin 52) (Bin 52))
    (hk : k.params.metric = machChebyshev) :
    (tenthBall (-2)).apply ρ (y.map fun x i => Bin.shift (-2) (x i)) =
      BallCover.apply ⟨{ (tenthBall 0).params with radius := Bin.of 52 (1 / 10) }, none⟩ ρ y :=
  (C121_float 52 (-2) ⟨{ (tenthBall 0).params with radius := Bin.of 52 (1 / 10) }, none⟩
    (tenthBall (-2)) ⟨rfl, rfl, rfl, rfl, rfl⟩ k
    ⟨{ k.params with leafRadius := Bin.shift (-2) k.params.leafRadius }, none⟩
    ⟨rfl, rfl, rfl, rfl, rfl⟩ rfl rfl hk hk ρ y).1

end Verif
