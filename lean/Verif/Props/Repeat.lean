import Verif.Proof.Repeat
import Verif.Props.Shuffle

/-!
# C124: rows that are repeated

`Repeats`, `FirstInOrder`, `RepeatInsensitive`, `SameChartsWithCopies`, `GraphWithCopies` and
`ComponentsWithCopies` are in `Verif.Spec.Repeat`.
-/

set_option autoImplicit false
set_option linter.unusedSectionVars false

namespace Verif

variable {S T : Type}

/-- Clusterings that look only at one point at a time do not depend on repetitions: among them the
trivial clustering. -/
theorem repeatInsensitive_map (h : S → ℤ) : RepeatInsensitive (fun _ xs => .ok (xs.map h)) := by
  rintro c xs lbls e
  cases e
  refine ⟨by simp, fun π xs' hS => ⟨_, rfl, by simp, ?_⟩⟩
  intro m m' l k l' k' h1 h2 h3 h4
  rw [List.getElem?_map] at h1 h2 h3 h4
  have key : ∀ (m : ℕ) (l l' : ℤ), (xs[π m]?).map h = some l → (xs'[m]?).map h = some l' →
      l = l' := by
    intro m l l' h1 h3
    obtain ⟨x, hx, _⟩ := Option.map_eq_some_iff.mp h3
    rw [(hS.entry m (getElem?_lt hx)).2, h1] at h3
    exact Option.some_inj.mp h3
  rw [key m l l' h1 h3, key m' k k' h2 h4]
  exact ⟨Iff.rfl, fun _ _ => Iff.rfl⟩

theorem parity_repeat : RepeatInsensitive parity :=
  repeatInsensitive_map fun x => if x < 0 then -1 else x % 2

/-- **C124 (graph).** If a cover of data with repeated rows gives the charts of the data without
repetitions, each with all the copies of its rows, and the clustering finds the same clusters
however often it is given each point, then the Mapper graphs are the same up to the numbers of
the nodes, each node has all the copies of its points, and the connected components are the
same. -/
theorem C124_graph (π : ℕ → ℕ) (X X' : List S) (hX : Repeats π X X') (y y' : List T)
    (cover cover' : CoverFn T) (clust : ClustFn S) (charts charts' : List (List ℕ))
    (hc : cover y = .ok charts) (hc' : cover' y' = .ok charts')
    (hsame : SameChartsWithCopies π X'.length charts charts') (hg : GoodCharts X.length charts)
    (ho : RepeatInsensitive clust) (hs : ClusteringSucceeds X charts clust)
    (order order' : List ℤ → List ℤ) (hord : ∀ l L, L ∈ order l ↔ L ∈ l)
    (hord' : ∀ l L, L ∈ order' l ↔ L ∈ l) :
    ∃ f g g' out out', mapperGraph X y cover clust = .ok g ∧
      mapperGraph X' y' cover' clust = .ok g' ∧ GraphWithCopies π X'.length f g g' ∧
      mapperConnectedComponents order X y cover clust = .ok out ∧
      mapperConnectedComponents order' X' y' cover' clust = .ok out' ∧
      ComponentsWithCopies π X.length X'.length out out' :=
  RunsWithCopies.result ⟨hX, hsame⟩ hc hc' hg ho hs order order' hord hord'

/-- **C124 (trivial cover).** With the trivial cover, repeated rows leave the graph and the components
as they are. -/
theorem C124_trivial (π : ℕ → ℕ) (X X' : List S) (hX : Repeats π X X') (y y' : List T)
    (hlen : X.length = y.length) (hlen' : X'.length = y'.length) (clust : ClustFn S)
    (ho : RepeatInsensitive clust) (hs : ∀ k xs, ∃ lbls, clust k xs = .ok lbls)
    (order order' : List ℤ → List ℤ) (hord : ∀ l L, L ∈ order l ↔ L ∈ l)
    (hord' : ∀ l L, L ∈ order' l ↔ L ∈ l) :
    ∃ f g g' out out', mapperGraph X y trivialCover clust = .ok g ∧
      mapperGraph X' y' trivialCover clust = .ok g' ∧ GraphWithCopies π X'.length f g g' ∧
      mapperConnectedComponents order X y trivialCover clust = .ok out ∧
      mapperConnectedComponents order' X' y' trivialCover clust = .ok out' ∧
      ComponentsWithCopies π X.length X'.length out out' := by
  have hs2 : ∀ charts, ClusteringSucceeds X charts clust := fun charts k ids h => by
    obtain ⟨l, hl⟩ := hs k (pointsOf X ids)
    exact ⟨l, h, hl⟩
  by_cases h0 : 0 < X.length
  · have h0' : 0 < X'.length := by
      obtain ⟨j, hj, _⟩ := hX.every 0 h0
      omega
    refine C124_graph π X X' hX y y' _ _ clust [List.range X.length] [List.range X'.length]
      (by rw [trivialCover, if_pos (by omega), hlen]) (by rw [trivialCover, if_pos (by omega), hlen'])
      (.cons ⟨List.nodup_range, fun j => ?_⟩ .nil) ?_ ho (hs2 _) order order' hord hord'
    · rw [List.mem_range, List.mem_range]
      exact ⟨fun h => ⟨h, (hX.entry j h).1⟩, fun h => h.1⟩
    · intro ids h
      rw [List.mem_singleton] at h
      subst h
      exact ⟨List.nodup_range, fun i hi => List.mem_range.mp hi⟩
  · have h0' : ¬ 0 < X'.length := fun h => by
      have := (hX.entry 0 h).1
      omega
    exact C124_graph π X X' hX y y' _ _ clust [] []
      (by rw [trivialCover, if_neg (by omega)]) (by rw [trivialCover, if_neg (by omega)])
      .nil (by intro ids h; cases h) ho (hs2 _) order order' hord hord'

/-- Five rows made of three: the first one again at the end, the second one twice. -/
def threeToFive : ℕ → ℕ
  | 0 => 0
  | 1 => 1
  | 2 => 1
  | 3 => 2
  | _ => 0

theorem repeats_threeToFive {α : Type} (a b c : α) :
    Repeats threeToFive [a, b, c] [a, b, b, c, a] := by
  refine ⟨?_, ?_⟩
  · intro j hj
    simp only [List.length_cons, List.length_nil] at hj
    interval_cases j <;> exact ⟨by simp [threeToFive], rfl⟩
  · intro i hi
    simp only [List.length_cons, List.length_nil] at hi
    interval_cases i
    · exact ⟨0, by simp, rfl⟩
    · exact ⟨1, by simp, rfl⟩
    · exact ⟨3, by simp, rfl⟩

theorem firstInOrder_threeToFive : FirstInOrder threeToFive 5 := by
  intro j hj i hi
  interval_cases j <;> simp only [threeToFive] at hi
  · omega
  · exact ⟨0, by omega, by simp [threeToFive]; omega⟩
  · exact ⟨0, by omega, by simp [threeToFive]; omega⟩
  · interval_cases i
    · exact ⟨0, by omega, rfl⟩
    · exact ⟨1, by omega, rfl⟩
  · omega

/-- Non-vacuity: five numbers made of three. -/
example : ∃ f g g' out out',
    mapperGraph [5, 6, -7] [(), (), ()] trivialCover parity = .ok g ∧
    mapperGraph [5, 6, 6, -7, 5] [(), (), (), (), ()] trivialCover parity = .ok g' ∧
    GraphWithCopies threeToFive 5 f g g' ∧
    mapperConnectedComponents id [5, 6, -7] [(), (), ()] trivialCover parity = .ok out ∧
    mapperConnectedComponents id [5, 6, 6, -7, 5] [(), (), (), (), ()] trivialCover parity =
      .ok out' ∧ ComponentsWithCopies threeToFive 3 5 out out' :=
  C124_trivial threeToFive [5, 6, -7] _ (repeats_threeToFive _ _ _) _ _ rfl rfl parity
    parity_repeat (fun _ _ => ⟨_, rfl⟩) id id (fun _ _ => Iff.rfl) (fun _ _ => Iff.rfl)

section metric
variable {R : Type} [AddCommGroup R] [LinearOrder R] [IsOrderedAddMonoid R]

/-- **C124 (balls).** Repeating rows, anywhere after the row they repeat, leaves the
charts of `BallCover`, the Mapper graph and the connected components as they are, except that
each copy of a row is wherever the row is; whatever the trees and random draws. Copies that come
before earlier rows change the order of the rows, and can change the graph, see
`C124_order_violation`. -/
theorem C124_ball (c c' : BallCover T R) (H : BallOK c.params) (H' : BallOK c'.params)
    (hm : c.params.metric = c'.params.metric) (hr : c.params.radius = c'.params.radius)
    (h0 : 0 < c.params.radius) (ρ ρ' π : ℕ → ℕ) (X X' : List S) (y y' : List T)
    (hX : Repeats π X X') (hy : Repeats π y y') (hf : FirstInOrder π y'.length)
    (hlen : X.length = y.length) (hlen' : X'.length = y'.length) (clust : ClustFn S)
    (ho : RepeatInsensitive clust) (hs : ∀ k xs, ∃ lbls, clust k xs = .ok lbls)
    (order order' : List ℤ → List ℤ) (hord : ∀ l L, L ∈ order l ↔ L ∈ l)
    (hord' : ∀ l L, L ∈ order' l ↔ L ∈ l) :
    (∃ out out', c.apply ρ y = .ok out ∧ c'.apply ρ' y' = .ok out' ∧
      SameChartsWithCopies π y'.length out out') ∧
    ∃ f g g' out out', mapperGraph X y (c.apply ρ) clust = .ok g ∧
      mapperGraph X' y' (c'.apply ρ') clust = .ok g' ∧ GraphWithCopies π X'.length f g g' ∧
      mapperConnectedComponents order X y (c.apply ρ) clust = .ok out ∧
      mapperConnectedComponents order' X' y' (c'.apply ρ') clust = .ok out' ∧
      ComponentsWithCopies π X.length X'.length out out' := by
  obtain ⟨a, _, ha, hwf, _⟩ := C18_ball_cover c H h0 ρ y
  have key : ∃ out out', c.apply ρ y = .ok out ∧ c'.apply ρ' y' = .ok out' ∧
      SameChartsWithCopies π y'.length out out' := by
    by_cases hy0 : y = []
    · subst hy0
      have hy0' : y' = [] := by
        by_contra h
        obtain ⟨x, hx⟩ := List.exists_mem_of_ne_nil y' h
        cases (hy.mem_iff x).mp hx
      subst hy0'
      obtain ⟨b, _, hb, hwf', _⟩ := C18_ball_cover c' H' (hr ▸ h0) ρ' []
      have nil : ∀ l : List (List ℕ), WellFormedCharts 0 l → l = [] := by
        intro l h
        rcases l with _ | ⟨ids, t⟩
        · rfl
        · obtain ⟨h1, _, h2⟩ := h ids (by simp)
          obtain ⟨i, hi⟩ := List.exists_mem_of_ne_nil ids h1
          exact absurd (h2 i hi) (by omega)
      refine ⟨a, b, ha, hb, ?_⟩
      rw [nil a hwf, nil b hwf']
      exact .nil
    · have hy0' : y' ≠ [] := by
        obtain ⟨x, hx⟩ := List.exists_mem_of_ne_nil y hy0
        exact List.ne_nil_of_mem ((hy.mem_iff x).mpr hx)
      obtain ⟨d, h1, h2⟩ := C17_ball_search c H ρ y hy0
      obtain ⟨d', h1', h2'⟩ := C17_ball_search c' H' ρ' y' hy0'
      refine proximityNet_copies hy hf h1 h1' fun i x hx => ?_
      obtain ⟨o, e, hl⟩ := h2 x
      obtain ⟨o', e', hl'⟩ := h2' x
      rw [← hm, ← hr] at hl'
      exact ⟨o, o', e, e', hy.copiesOf hl hl',
        (hl.2 i).mpr ⟨x, hx, by
          show c.params.metric x x < _
          rw [H.metric.self]; exact h0⟩⟩
  refine ⟨key, ?_⟩
  obtain ⟨a', b, h1, h2, h3⟩ := key
  rw [ha] at h1
  cases h1
  rw [← hlen'] at h3
  refine C124_graph π X X' hX y y' _ _ clust a b ha h2 h3 ?_ ho (fun k ids h => ?_) order order'
    hord hord'
  · intro ids h
    rw [hlen]
    exact (hwf ids h).2
  · obtain ⟨l, hl⟩ := hs k (pointsOf X ids)
    exact ⟨l, h, hl⟩

end metric

/-- Non-vacuity: five numbers made of three, with other trees. -/
example : ∃ f g g' out out',
    mapperGraph [5, 6, -7] [5, 6, -7] ((demoBall 2).apply fun _ => 0) parity = .ok g ∧
    mapperGraph [5, 6, 6, -7, 5] [5, 6, 6, -7, 5] (otherBall.apply fun n => n) parity = .ok g' ∧
    GraphWithCopies threeToFive 5 f g g' ∧
    mapperConnectedComponents id [5, 6, -7] [5, 6, -7] ((demoBall 2).apply fun _ => 0) parity =
      .ok out ∧
    mapperConnectedComponents id [5, 6, 6, -7, 5] [5, 6, 6, -7, 5] (otherBall.apply fun n => n)
      parity = .ok out' ∧ ComponentsWithCopies threeToFive 3 5 out out' :=
  (C124_ball (demoBall 2) otherBall (demoBall_ok 2) otherBall_ok rfl rfl (by decide)
    (fun _ => 0) (fun n => n) threeToFive [5, 6, -7] [5, 6, 6, -7, 5] [5, 6, -7] [5, 6, 6, -7, 5]
    (repeats_threeToFive _ _ _) (repeats_threeToFive _ _ _) firstInOrder_threeToFive rfl rfl
    parity parity_repeat (fun _ _ => ⟨_, rfl⟩) id id (fun _ _ => Iff.rfl) (fun _ _ => Iff.rfl)).2

section cubical
variable {R : Type} [Field R] [LinearOrder R] [IsStrictOrderedRing R] [FloorRing R] {m : ℕ}

/-- **C124 (hypercubes).** Repeating rows, anywhere after the row they repeat, leaves the charts of
`CubicalCover`, the Mapper graph and the connected components as they are, except that each copy
of a row is wherever the row is; for both algorithms, whatever the trees and random draws. -/
theorem C124_cubical (dflt dflt' : ℕ → R) (w w' : CubicalCover m R) (p : R)
    (H : CubOK dflt m w.params p) (H' : CubOK dflt' m w'.params p)
    (hn : w.params.nIntervals = w'.params.nIntervals) (ha : w.algorithm = w'.algorithm)
    (hk : w.algorithm = "proximity" ∨ w.algorithm = "standard") (ρ ρ' π : ℕ → ℕ)
    (X X' : List S) (y y' : List (Fin m → R)) (hX : Repeats π X X') (hy : Repeats π y y')
    (hf : FirstInOrder π y'.length) (hlen : X.length = y.length) (hlen' : X'.length = y'.length)
    (clust : ClustFn S) (ho : RepeatInsensitive clust)
    (hs : ∀ k xs, ∃ lbls, clust k xs = .ok lbls) (order order' : List ℤ → List ℤ)
    (hord : ∀ l L, L ∈ order l ↔ L ∈ l) (hord' : ∀ l L, L ∈ order' l ↔ L ∈ l) :
    (∃ out out', w.apply dflt ρ y = .ok out ∧ w'.apply dflt' ρ' y' = .ok out' ∧
      SameChartsWithCopies π y'.length out out') ∧
    ∃ f g g' out out', mapperGraph X y (w.apply dflt ρ) clust = .ok g ∧
      mapperGraph X' y' (w'.apply dflt' ρ') clust = .ok g' ∧
      GraphWithCopies π X'.length f g g' ∧
      mapperConnectedComponents order X y (w.apply dflt ρ) clust = .ok out ∧
      mapperConnectedComponents order' X' y' (w'.apply dflt' ρ') clust = .ok out' ∧
      ComponentsWithCopies π X.length X'.length out out' := by
  obtain ⟨a, ea, hwf, _⟩ := (C22_cubical_cover dflt ⟨w.params, none⟩ p H ρ y).2.2 _ hk
  have ea' : w.apply dflt ρ y = .ok a := ea
  have key : ∃ out out', w.apply dflt ρ y = .ok out ∧ w'.apply dflt' ρ' y' = .ok out' ∧
      SameChartsWithCopies π y'.length out out' := by
    by_cases hy0 : y = []
    · subst hy0
      have hy0' : y' = [] := by
        by_contra h
        obtain ⟨x, hx⟩ := List.exists_mem_of_ne_nil y' h
        cases (hy.mem_iff x).mp hx
      subst hy0'
      obtain ⟨b, eb, hwf', _⟩ :=
        (C22_cubical_cover dflt' ⟨w'.params, none⟩ p H' ρ' []).2.2 _ (ha ▸ hk)
      have nil : ∀ l : List (List ℕ), WellFormedCharts 0 l → l = [] := by
        intro l h
        rcases l with _ | ⟨ids, t⟩
        · rfl
        · obtain ⟨h1, _, h2⟩ := h ids (by simp)
          obtain ⟨i, hi⟩ := List.exists_mem_of_ne_nil ids h1
          exact absurd (h2 i hi) (by omega)
      refine ⟨a, b, ea', eb, ?_⟩
      rw [nil a hwf, nil b hwf']
      exact .nil
    · rcases hk with hk | hk
      · rw [(C28_delegates dflt w ρ y).1 hk, (C28_delegates dflt' w' ρ' _).1 (ha ▸ hk)]
        exact applyProximity_copies dflt dflt' ⟨w.params, none⟩ ⟨w'.params, none⟩ ρ ρ' hy hf hy0
          p H H' hn
      · rw [(C28_delegates dflt w ρ y).2.1 hk, (C28_delegates dflt' w' ρ' _).2.1 (ha ▸ hk)]
        exact applyStandard_copies dflt dflt' ⟨w.params, none⟩ ⟨w'.params, none⟩ ρ ρ' hy hf hy0
          p H H' hn
  refine ⟨key, ?_⟩
  obtain ⟨a', b, h1, h2, h3⟩ := key
  rw [ea'] at h1
  cases h1
  rw [← hlen'] at h3
  refine C124_graph π X X' hX y y' _ _ clust a b ea' h2 h3 ?_ ho (fun k ids h => ?_) order order'
    hord hord'
  · intro ids h
    rw [hlen]
    exact (hwf ids h).2
  · obtain ⟨l, hl⟩ := hs k (pointsOf X ids)
    exact ⟨l, h, hl⟩

end cubical

/-- Non-vacuity: five rows made of three, the default overlap and the same overlap given
explicitly, other trees. -/
example : ∃ out out',
    defaultCub.apply (fun _ => 1 / 3) (fun _ => 0) [pt2 0 7, pt2 1 7, pt2 4 7] = .ok out ∧
    otherCub.apply (fun _ => 1 / 3) (fun n => n) [pt2 0 7, pt2 1 7, pt2 1 7, pt2 4 7, pt2 0 7] =
      .ok out' ∧ SameChartsWithCopies threeToFive 5 out out' :=
  (C124_cubical (fun _ => 1 / 3) (fun _ => 1 / 3) defaultCub otherCub (1 / 3)
    ⟨rfl, by norm_num, by norm_num, by decide, Or.inl rfl, by decide⟩
    ⟨rfl, by norm_num, by norm_num, by decide, Or.inr rfl, by decide⟩ rfl rfl (Or.inr rfl)
    (fun _ => 0) (fun n => n) threeToFive ([5, 6, -7] : List ℤ) [5, 6, 6, -7, 5]
    [pt2 0 7, pt2 1 7, pt2 4 7] [pt2 0 7, pt2 1 7, pt2 1 7, pt2 4 7, pt2 0 7]
    (repeats_threeToFive _ _ _) (repeats_threeToFive _ _ _) firstInOrder_threeToFive rfl rfl
    parity parity_repeat (fun _ _ => ⟨_, rfl⟩) id id (fun _ _ => Iff.rfl)
    (fun _ _ => Iff.rfl)).1

/-- A graph with copies has as many nodes. -/
theorem GraphWithCopies.length_eq {π : ℕ → ℕ} {n : ℕ} {f : ℤ → ℤ} {g g' : NxGraph}
    (h : GraphWithCopies π n f g g') (hnd : g.nodes.keys.Nodup) (hnd' : g'.nodes.keys.Nodup) :
    g.nodes.keys.length = g'.nodes.keys.length := by
  have hp : g.nodes.keys.Perm (g'.nodes.keys.map f) := by
    rw [List.perm_ext_iff_of_nodup hnd ((List.nodup_map_iff_inj_on hnd').mpr
      fun a ha b hb e => h.inj a b ha hb e)]
    intro L
    rw [List.mem_map]
    exact h.nodes L
  rw [hp.length_eq, List.length_map]

/-- **C124 (violation for nearest neighbours).** Repeating one row changes the graph of a `KNNCover`,
because the copies take the places of other neighbours: with two neighbours the points
`0, 1, 4` give two nodes, the points `0, 0, 1, 4` three. -/
theorem C124_knn_violation :
    ∃ (X X' : List ℤ) (π : ℕ → ℕ) (g g' : NxGraph), Repeats π X X' ∧ FirstInOrder π X'.length ∧
      KnnOK (demoKnn 2).params ∧
      mapperGraph X X ((demoKnn 2).apply fun _ => 0) (fun _ => trivialClustering) = .ok g ∧
      mapperGraph X' X' ((demoKnn 2).apply fun _ => 0) (fun _ => trivialClustering) = .ok g' ∧
      ∀ τ n f, ¬ GraphWithCopies τ n f g g' := by
  obtain ⟨g, e, hk⟩ := map_keys_ok (ks := [0, 1])
    (r := mapperGraph [(0 : ℤ), 1, 4] [(0 : ℤ), 1, 4]
      ((demoKnn 2).apply fun _ => 0) (fun _ => trivialClustering)) (by decide +kernel)
  obtain ⟨g', e', hk'⟩ := map_keys_ok (ks := [0, 1, 2])
    (r := mapperGraph [(0 : ℤ), 0, 1, 4] [(0 : ℤ), 0, 1, 4]
      ((demoKnn 2).apply fun _ => 0) (fun _ => trivialClustering)) (by decide +kernel)
  refine ⟨[0, 1, 4], [0, 0, 1, 4], fun j => j - 1, g, g', ⟨?_, ?_⟩, ?_, demoKnn_ok 2 (by decide),
    e, e', ?_⟩
  · intro j hj
    simp only [List.length_cons, List.length_nil] at hj
    interval_cases j <;> exact ⟨by simp, rfl⟩
  · intro i hi
    exact ⟨i + 1, by simp only [List.length_cons, List.length_nil] at hi ⊢; omega, by simp⟩
  · intro j hj i hi
    simp only at hi
    exact ⟨i + 1, by omega, by simp⟩
  · intro τ n f h
    have := h.length_eq (by rw [hk]; decide) (by rw [hk']; decide)
    rw [hk, hk'] at this
    exact absurd this (by decide)

/-- **C124 (violation for copies that come first).** A copy of a row that comes before earlier rows
can change the graph of a `BallCover`: with radius `2` the points `0, 1, 2` give two nodes, the
points `1, 0, 1, 2` only one. -/
theorem C124_order_violation :
    ∃ (X X' : List ℤ) (π : ℕ → ℕ) (g g' : NxGraph), Repeats π X X' ∧
      BallOK (demoBall 2).params ∧
      mapperGraph X X ((demoBall 2).apply fun _ => 0) (fun _ => trivialClustering) = .ok g ∧
      mapperGraph X' X' ((demoBall 2).apply fun _ => 0) (fun _ => trivialClustering) = .ok g' ∧
      ∀ τ n f, ¬ GraphWithCopies τ n f g g' := by
  obtain ⟨g, e, hk⟩ := map_keys_ok (ks := [0, 1])
    (r := mapperGraph [(0 : ℤ), 1, 2] [(0 : ℤ), 1, 2]
      ((demoBall 2).apply fun _ => 0) (fun _ => trivialClustering)) (by decide +kernel)
  obtain ⟨g', e', hk'⟩ := map_keys_ok (ks := [0])
    (r := mapperGraph [(1 : ℤ), 0, 1, 2] [(1 : ℤ), 0, 1, 2]
      ((demoBall 2).apply fun _ => 0) (fun _ => trivialClustering)) (by decide +kernel)
  refine ⟨[0, 1, 2], [1, 0, 1, 2], fun j => if j = 0 then 1 else j - 1, g, g', ⟨?_, ?_⟩,
    demoBall_ok 2, e, e', ?_⟩
  · intro j hj
    simp only [List.length_cons, List.length_nil] at hj
    interval_cases j <;> exact ⟨by simp, rfl⟩
  · intro i hi
    exact ⟨i + 1, by simp only [List.length_cons, List.length_nil] at hi ⊢; omega, by simp⟩
  · intro τ n f h
    have := h.length_eq (by rw [hk]; decide) (by rw [hk']; decide)
    rw [hk, hk'] at this
    exact absurd this (by decide)

end Verif
