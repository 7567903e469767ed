import Verif.Proof.Relabel
import Verif.Props.Reproducible

/-!
# C125: the numbers that a clustering gives to its clusters

`SameUpToNumbers` is in `Verif.Spec.Relabel`, `RenamedGraph` and `SameComponents` in
`Verif.Spec.Reproducible`.
-/

set_option autoImplicit false

namespace Verif

variable {S T : Type}

/-- **C125 (graph).** Two clusterings that find the same clusters and the same noise, under whatever
numbers, give the same Mapper graph up to the names of the nodes, with the same `size`, `ids`
and edges, and the same connected components; if one raises, so does the other. -/
theorem C125_graph (X : List S) (y : List T) (cover : CoverFn T) (clust clust' : ClustFn S)
    (h : SameUpToNumbers clust clust') (charts : List (List ℕ)) (hc : cover y = .ok charts)
    (hg : GoodCharts X.length charts) (order order' : List ℤ → List ℤ)
    (hord : ∀ l L, L ∈ order l ↔ L ∈ l) (hord' : ∀ l L, L ∈ order' l ↔ L ∈ l) :
    (∃ e, mapperGraph X y cover clust = .error e ∧ mapperGraph X y cover clust' = .error e ∧
      mapperConnectedComponents order X y cover clust = .error e ∧
      mapperConnectedComponents order' X y cover clust' = .error e) ∨
    ∃ f g g' out out', mapperGraph X y cover clust = .ok g ∧
      mapperGraph X y cover clust' = .ok g' ∧ RenamedGraph id f g g' ∧
      (∀ L, g.IsNode L → g'.nodes.get? (f L) = g.nodes.get? L) ∧
      mapperConnectedComponents order X y cover clust = .ok out ∧
      mapperConnectedComponents order' X y cover clust' = .ok out' ∧
      SameComponents id X.length out out' := by
  rcases runJobs_numbers (X := X) h charts 0 (fun ids hi => (hg ids hi).2) with
    ⟨e, h1, h2⟩ | hall
  · left
    have m1 : mapperLabels X y cover clust = .error e := by
      simp only [mapperLabels, hc, ok_bind, h1, error_bind]
    have m2 : mapperLabels X y cover clust' = .error e := by
      simp only [mapperLabels, hc, ok_bind, h2, error_bind]
    exact ⟨e, by simp only [mapperGraph, m1, error_bind], by simp only [mapperGraph, m2, error_bind],
      by simp only [mapperConnectedComponents, m1, error_bind],
      by simp only [mapperConnectedComponents, m2, error_bind]⟩
  · right
    simp only [Nat.zero_add] at hall
    refine Matching.result hc hg (matching_numbers hg hall) ?_ ?_ order order' hord hord'
    · intro j ids hj
      obtain ⟨a, _, h1, _⟩ := hall j ids hj
      exact ⟨a, hj, h1⟩
    · intro j ids hj
      obtain ⟨_, b, _, h2, _⟩ := hall j ids hj
      exact ⟨b, hj, h2⟩

/-- **C125 (failsafe).** The same holds of the clusterings wrapped in `FailSafeClustering`. -/
theorem C125_failsafe (clust clust' : ClustFn S) (h : SameUpToNumbers clust clust') :
    SameUpToNumbers (fun k => failSafe (some (clust k))) (fun k => failSafe (some (clust' k))) := by
  intro k xs
  unfold failSafe
  rcases h k xs with ⟨lbls, lbls', h1, h2, hs⟩ | ⟨e, h1, h2⟩
  · exact .inl ⟨lbls, lbls', by simp only [Option.getD_some, h1],
      by simp only [Option.getD_some, h2], hs⟩
  · simp only [Option.getD_some, h1, h2]
    cases e <;> first
      | exact .inr ⟨_, rfl, rfl⟩
      | (refine .inl ⟨_, _, rfl, rfl, rfl, ?_⟩
         intro m m' l k l' k' a b c d
         rw [id] at a b
         rw [a] at c
         rw [b] at d
         cases c
         cases d
         exact ⟨Iff.rfl, fun _ _ => Iff.rfl⟩)

/-- **C125 (renumbering).** In particular the clusters of each job may be numbered anew: by any function
that is injective on the numbers of clusters and takes noise to noise. -/
theorem C125_renumbered (clust : ClustFn S) (num : ℕ → ℤ → ℤ)
    (hneg : ∀ k l, 0 ≤ num k l ↔ 0 ≤ l)
    (hinj : ∀ k l l', 0 ≤ l → 0 ≤ l' → num k l = num k l' → l = l') :
    SameUpToNumbers clust fun k xs => (clust k xs).map fun lbls => lbls.map (num k) := by
  intro k xs
  cases h : clust k xs with
  | error e => exact .inr ⟨e, rfl, by simp only [h]; rfl⟩
  | ok lbls =>
    refine .inl ⟨lbls, lbls.map (num k), rfl, by simp only [h]; rfl, by simp, ?_⟩
    intro m m' l j l' j' h1 h2 h3 h4
    rw [id] at h1 h2
    rw [List.getElem?_map, h1] at h3
    rw [List.getElem?_map, h2] at h4
    cases h3
    cases h4
    exact ⟨(hneg k l).symm, fun a b => ⟨fun e => by rw [e], hinj k l j a b⟩⟩

/-- Seventeen instead of zero, three instead of one, further numbers with gaps, and `-5` for noise. -/
def oddNumbers (k : ℕ) (l : ℤ) : ℤ :=
  if l < 0 then -5 else if l = 0 then 17 else if l = 1 then 3 else 20 + k + l

/-- Non-vacuity: the clustering of even, odd and negative numbers, under other numbers. -/
example : ∃ f g g' out out',
    mapperGraph [5, 6, -7, 7] [5, 6, -7, 7] ((demoBall 3).apply fun _ => 0) parity = .ok g ∧
    mapperGraph [5, 6, -7, 7] [5, 6, -7, 7] ((demoBall 3).apply fun _ => 0)
      (fun k xs => (parity k xs).map fun lbls => lbls.map (oddNumbers k)) = .ok g' ∧
    RenamedGraph id f g g' ∧ (∀ L, g.IsNode L → g'.nodes.get? (f L) = g.nodes.get? L) ∧
    mapperConnectedComponents id [5, 6, -7, 7] [5, 6, -7, 7] ((demoBall 3).apply fun _ => 0)
      parity = .ok out ∧
    mapperConnectedComponents id [5, 6, -7, 7] [5, 6, -7, 7] ((demoBall 3).apply fun _ => 0)
      (fun k xs => (parity k xs).map fun lbls => lbls.map (oddNumbers k)) = .ok out' ∧
    SameComponents id 4 out out' := by
  obtain ⟨charts, _, e, hwf, _⟩ := C18_ball_cover (demoBall 3) (demoBall_ok 3) (by decide)
    (fun _ => 0) [5, 6, -7, 7]
  have hn : ∀ k l, 0 ≤ oddNumbers k l ↔ 0 ≤ l := by
    intro k l
    unfold oddNumbers
    split_ifs <;> omega
  have hi : ∀ k l l', 0 ≤ l → 0 ≤ l' → oddNumbers k l = oddNumbers k l' → l = l' := by
    intro k l l'
    unfold oddNumbers
    split_ifs <;> omega
  rcases C125_graph [5, 6, -7, 7] [5, 6, -7, 7] ((demoBall 3).apply fun _ => 0) parity _
    (C125_renumbered parity oddNumbers hn hi) charts e (fun ids h => (hwf ids h).2) id id
    (fun _ _ => Iff.rfl) (fun _ _ => Iff.rfl) with ⟨err, h, _⟩ | h
  · obtain ⟨_, _, g, _, _, _, _, _, eg, _⟩ := core_ok [5, 6, -7, 7] [5, 6, -7, 7]
      ((demoBall 3).apply fun _ => 0) parity charts e (fun ids h => (hwf ids h).2)
      (fun k ids h => ⟨_, h, rfl⟩)
    rw [eg] at h
    cases h
  · exact h

end Verif
