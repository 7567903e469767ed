import Verif.Proof.Plot

/-!
# Lemmas about the edges of a graph
-/

set_option autoImplicit false

namespace Verif

theorem edgesFrom_sound : ∀ (L : List (ℤ × List ℤ)) (seen : List ℤ) (u v : ℤ),
    (u, v) ∈ edgesFrom L seen → (∃ nb, (u, nb) ∈ L ∧ v ∈ nb) ∧ v ∉ seen
  | [], _, _, _, h => by cases h
  | (n, nbrs) :: rest, seen, u, v, h => by
    rw [edgesFrom, List.mem_append] at h
    rcases h with h | h
    · simp only [List.mem_map, List.mem_filter, decide_eq_true_eq, Prod.mk.injEq] at h
      obtain ⟨m, ⟨h1, h2⟩, rfl, rfl⟩ := h
      exact ⟨⟨nbrs, List.mem_cons_self .., h1⟩, h2⟩
    · obtain ⟨⟨nb, h1, h2⟩, h3⟩ := edgesFrom_sound rest (n :: seen) u v h
      exact ⟨⟨nb, List.mem_cons_of_mem _ h1, h2⟩, fun h => h3 (List.mem_cons_of_mem _ h)⟩

theorem edgesFrom_complete : ∀ (L : List (ℤ × List ℤ)) (seen : List ℤ) (u v : ℤ) (nb nb' : List ℤ),
    (L.map Prod.fst).Nodup → (∀ k ∈ L.map Prod.fst, k ∉ seen) → (u, nb) ∈ L → v ∈ nb →
    (v, nb') ∈ L → u ∈ nb' → (u, v) ∈ edgesFrom L seen ∨ (v, u) ∈ edgesFrom L seen
  | [], _, _, _, _, _, _, _, h, _, _, _ => by cases h
  | (n, nbrs) :: rest, seen, u, v, nb, nb', hn, hd, h1, h2, h3, h4 => by
    have hu : u ∉ seen := hd u (List.mem_map_of_mem (f := Prod.fst) h1)
    have hv : v ∉ seen := hd v (List.mem_map_of_mem (f := Prod.fst) h3)
    simp only [List.map_cons, List.nodup_cons] at hn
    rw [List.mem_cons] at h1 h3
    rw [edgesFrom, List.mem_append, List.mem_append]
    rcases h1 with h1 | h1
    · cases h1
      left; left
      simp only [List.mem_map, List.mem_filter, decide_eq_true_eq]
      exact ⟨v, ⟨h2, hv⟩, rfl⟩
    · rcases h3 with h3 | h3
      · cases h3
        right; left
        simp only [List.mem_map, List.mem_filter, decide_eq_true_eq]
        exact ⟨u, ⟨h4, hu⟩, rfl⟩
      · rcases edgesFrom_complete rest (n :: seen) u v nb nb' hn.2 (by
          intro k hk hk'
          rcases List.mem_cons.mp hk' with rfl | hk'
          · exact hn.1 hk
          · exact hd k (List.mem_cons_of_mem _ hk) hk') h1 h2 h3 h4 with h | h
        · exact .inl (.inr h)
        · exact .inr (.inr h)

theorem edgesFrom_nodup : ∀ (L : List (ℤ × List ℤ)) (seen : List ℤ),
    (L.map Prod.fst).Nodup → (∀ x ∈ L, x.2.Nodup) → (edgesFrom L seen).Nodup
  | [], _, _, _ => List.nodup_nil
  | (n, nbrs) :: rest, seen, hn, hb => by
    simp only [List.map_cons, List.nodup_cons] at hn
    rw [edgesFrom, List.nodup_append]
    refine ⟨?_, edgesFrom_nodup rest _ hn.2 (fun x hx => hb x (List.mem_cons_of_mem _ hx)), ?_⟩
    · exact ((hb _ (List.mem_cons_self ..)).filter _).map (fun a b h => by cases h; rfl)
    · rintro ⟨a, b⟩ h1 ⟨c, d⟩ h2 e
      cases e
      simp only [List.mem_map, List.mem_filter, Prod.mk.injEq] at h1
      obtain ⟨m, _, rfl, rfl⟩ := h1
      obtain ⟨⟨nb, h3, _⟩, _⟩ := edgesFrom_sound _ _ _ _ h2
      exact hn.1 (List.mem_map_of_mem (f := Prod.fst) h3)

theorem edgesFrom_once : ∀ (L : List (ℤ × List ℤ)) (seen : List ℤ) (u v : ℤ), u ≠ v →
    (u, v) ∈ edgesFrom L seen → (v, u) ∉ edgesFrom L seen
  | [], _, _, _, _, h => by cases h
  | (n, nbrs) :: rest, seen, u, v, hne, h => by
    intro h'
    rw [edgesFrom, List.mem_append] at h h'
    have first : ∀ a b, (a, b) ∈ ((nbrs.filter fun m => decide (m ∉ seen)).map fun m => (n, m)) →
        a = n := by
      intro a b h
      simp only [List.mem_map, List.mem_filter, Prod.mk.injEq] at h
      obtain ⟨m, _, h, _⟩ := h
      exact h.symm
    rcases h with h | h <;> rcases h' with h' | h'
    · exact hne ((first _ _ h).trans (first _ _ h').symm)
    · have := first _ _ h
      exact (edgesFrom_sound _ _ _ _ h').2 (by rw [this]; exact List.mem_cons_self ..)
    · have := first _ _ h'
      exact (edgesFrom_sound _ _ _ _ h).2 (by rw [this]; exact List.mem_cons_self ..)
    · exact edgesFrom_once rest _ u v hne h h'

theorem edges_isEdgeList {g : NxGraph} (h : g.WellFormed) : g.IsEdgeList g.edges := by
  have hk : (g.adj.items.map Prod.fst).Nodup := by
    have := h.nodup; rw [← h.adjKeys] at this; exact this
  have hmem : ∀ u nb, (u, nb) ∈ g.adj.items ↔ g.adj.get? u = some nb := fun u nb =>
    ⟨fun hm => PyDict.get?_eq_some_of_mem hk hm, fun he => PyDict.mem_of_get?_eq_some he⟩
  refine ⟨edgesFrom_nodup _ _ hk (fun x hx => h.nbrs x.1 x.2 ((hmem _ _).mp hx)), ?_, ?_,
    fun u v => edgesFrom_once _ _ u v⟩
  · intro u v huv
    obtain ⟨⟨nb, h1, h2⟩, _⟩ := edgesFrom_sound _ _ _ _ huv
    exact ⟨nb, (hmem _ _).mp h1, h2⟩
  · intro u v huv
    obtain ⟨nb, h1, h2⟩ := huv
    obtain ⟨nb', h3, h4⟩ := h.symm u v ⟨nb, h1, h2⟩
    exact edgesFrom_complete _ _ u v nb nb' hk (fun _ _ h => by cases h) ((hmem _ _).mpr h1) h2
      ((hmem _ _).mpr h3) h4

theorem edges_ends {g : NxGraph} (h : g.WellFormed) {u v : ℤ} (huv : (u, v) ∈ g.edges) :
    g.IsNode u ∧ g.IsNode v := by
  have hn : ∀ a b, g.Adj a b → g.IsNode a := by
    rintro a b ⟨nb, h1, _⟩
    rw [NxGraph.IsNode, ← h.adjKeys]
    exact List.mem_map_of_mem (f := Prod.fst) (PyDict.mem_of_get?_eq_some h1)
  have := (edges_isEdgeList h).sound u v huv
  exact ⟨hn _ _ this, hn _ _ (h.symm _ _ this)⟩

end Verif
