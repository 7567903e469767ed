import Verif.Proof.Labels
import Mathlib.Tactic.Tauto

/-!
# Proofs about `mapper_graph`
-/

set_option autoImplicit false

namespace Verif

/-- The points carrying a label, in order. -/
def idsOf (itm : List (List ℤ)) (L : ℤ) : List ℕ :=
  (List.range itm.length).filter fun n => L ∈ row itm n

theorem row_append_lt {a b : List (List ℤ)} {n : ℕ} (h : n < a.length) :
    row (a ++ b) n = row a n := by
  simp [row, List.getElem?_append_left h]

theorem row_append_self (a : List (List ℤ)) (l : List ℤ) : row (a ++ [l]) a.length = l := by
  simp [row]

theorem idsOf_concat (pre : List (List ℤ)) (l : List ℤ) (L : ℤ) :
    idsOf (pre ++ [l]) L = idsOf pre L ++ if L ∈ l then [pre.length] else [] := by
  unfold idsOf
  rw [List.length_append, List.length_singleton, List.range_succ, List.filter_append]
  congr 1
  · apply List.filter_congr
    intro n hn
    rw [row_append_lt (by simpa using hn)]
  · simp only [List.filter_cons, row_append_self, List.filter_nil]
    by_cases h : L ∈ l <;> simp [h]

theorem mem_idsOf {itm : List (List ℤ)} {L : ℤ} {n : ℕ} :
    n ∈ idsOf itm L ↔ Carries itm n L := by
  rw [carries_iff]
  unfold idsOf
  rw [List.mem_filter]
  simp only [List.mem_range, decide_eq_true_eq]
  constructor
  · exact fun h => h.2
  · intro h
    refine ⟨?_, h⟩
    by_contra hn
    simp [row, List.getElem?_eq_none (Nat.not_lt.mp hn)] at h

theorem idsOf_sorted (itm : List (List ℤ)) (L : ℤ) : (idsOf itm L).Pairwise (· < ·) :=
  List.Pairwise.filter _ List.pairwise_lt_range

/-- State of the graph after the points `itm` have been added. -/
structure NodesInv (itm : List (List ℤ)) (g : NxGraph) : Prop where
  nodup : g.nodes.keys.Nodup
  adjKeys : g.adj.keys = g.nodes.keys
  some_ : ∀ L, idsOf itm L ≠ [] →
    g.nodes.get? L = some ⟨some (idsOf itm L).length, some (idsOf itm L)⟩
  none_ : ∀ L, idsOf itm L = [] → g.nodes.get? L = none
  adj : ∀ L nb, g.adj.get? L = some nb → nb = []

theorem idsOf_nil_concat (pre : List (List ℤ)) (L : ℤ) : idsOf (pre ++ [[]]) L = idsOf pre L := by
  rw [idsOf_concat]; simp

theorem addPoint_ok (pre : List (List ℤ)) : ∀ (rest done : List ℤ) (g : NxGraph),
    (done ++ rest).Nodup → NodesInv (pre ++ [done]) g →
    ∃ g', addPoint pre.length rest g = .ok g' ∧ NodesInv (pre ++ [done ++ rest]) g' := by
  intro rest
  induction rest with
  | nil => intro done g _ h; exact ⟨g, rfl, by simpa using h⟩
  | cons lbl rest ih =>
    intro done g hn h
    have hnew : lbl ∉ done := by
      rw [List.nodup_append] at hn
      intro hd
      exact hn.2.2 lbl hd lbl (by simp) rfl
    have hids : idsOf (pre ++ [done]) lbl = idsOf pre lbl := by
      rw [idsOf_concat]; simp [hnew]
    have hids' : ∀ L, idsOf (pre ++ [done ++ [lbl]]) L =
        if L = lbl then idsOf (pre ++ [done]) L ++ [pre.length] else idsOf (pre ++ [done]) L := by
      intro L
      rw [idsOf_concat, idsOf_concat]
      by_cases hL : L = lbl
      · subst hL; simp [hnew]
      · simp [hL]
    -- the node exists after lines 201-202
    obtain ⟨g1, hg1, hnd, hak, hself, hother, hadj⟩ : ∃ g1,
        g1 = (if g.hasNode lbl then g else g.addNode lbl ⟨some 0, some []⟩) ∧
        g1.nodes.keys.Nodup ∧ g1.adj.keys = g1.nodes.keys ∧
        g1.nodes.get? lbl = some ⟨some (idsOf (pre ++ [done]) lbl).length,
          some (idsOf (pre ++ [done]) lbl)⟩ ∧
        (∀ L, L ≠ lbl → g1.nodes.get? L = g.nodes.get? L) ∧
        (∀ L nb, g1.adj.get? L = some nb → nb = []) := by
      refine ⟨_, rfl, ?_⟩
      by_cases hx : g.hasNode lbl
      · rw [if_pos hx]
        have hne : idsOf (pre ++ [done]) lbl ≠ [] := by
          intro hc
          have := h.none_ lbl hc
          simp [NxGraph.hasNode, PyDict.contains, this] at hx
        exact ⟨h.nodup, h.adjKeys, h.some_ lbl hne, fun _ _ => rfl, h.adj⟩
      · rw [if_neg hx]
        have hnone : g.nodes.get? lbl = none := by
          simpa [NxGraph.hasNode, PyDict.contains] using hx
        have hnil : idsOf (pre ++ [done]) lbl = [] := by
          by_contra hc
          rw [h.some_ lbl hc] at hnone; simp at hnone
        refine ⟨PyDict.nodup_keys_set h.nodup _ _, ?_, ?_, ?_, ?_⟩
        · simp only [NxGraph.addNode, PyDict.keys_set, h.adjKeys]
        · simp [NxGraph.addNode, hnil]
        · intro L hL; simp [NxGraph.addNode, hL]
        · intro L nb hL
          simp only [NxGraph.addNode, PyDict.get?_set] at hL
          split at hL
          · simpa using hL.symm
          · exact h.adj L nb hL
    have e1 : incrSize g1 lbl = .ok ⟨g1.nodes.set lbl
        ⟨some ((idsOf (pre ++ [done]) lbl).length + 1), some (idsOf (pre ++ [done]) lbl)⟩,
        g1.adj⟩ := by
      simp [incrSize, PyDict.getItem, hself]
    obtain ⟨g2, hg2⟩ : ∃ g2 : NxGraph, g2 = ⟨g1.nodes.set lbl
        ⟨some ((idsOf (pre ++ [done]) lbl).length + 1), some (idsOf (pre ++ [done]) lbl)⟩,
        g1.adj⟩ := ⟨_, rfl⟩
    rw [← hg2] at e1
    have hg2self : g2.nodes.get? lbl =
        some ⟨some ((idsOf (pre ++ [done]) lbl).length + 1),
          some (idsOf (pre ++ [done]) lbl)⟩ := by simp [hg2]
    have e2 : appendId g2 lbl pre.length = .ok ⟨g2.nodes.set lbl
        ⟨some ((idsOf (pre ++ [done]) lbl).length + 1),
          some (idsOf (pre ++ [done]) lbl ++ [pre.length])⟩, g2.adj⟩ := by
      simp [appendId, PyDict.getItem, hg2self]
    obtain ⟨g3, hg3⟩ : ∃ g3 : NxGraph, g3 = ⟨g2.nodes.set lbl
        ⟨some ((idsOf (pre ++ [done]) lbl).length + 1),
          some (idsOf (pre ++ [done]) lbl ++ [pre.length])⟩, g2.adj⟩ := ⟨_, rfl⟩
    rw [← hg3] at e2
    have hkey : lbl ∈ g1.nodes.keys := by rw [← PyDict.isSome_get?, hself]; rfl
    have hk3 : g3.nodes.keys = g1.nodes.keys := by
      simp [hg3, hg2, PyDict.keys_set, hkey]
    have inv3 : NodesInv (pre ++ [done ++ [lbl]]) g3 := by
      refine ⟨by rw [hk3]; exact hnd, by rw [hk3, ← hak, hg3, hg2], ?_, ?_, ?_⟩
      · intro L hL
        rw [hids'] at hL ⊢
        by_cases hc : L = lbl
        · subst hc; simp [hg3]
        · simp only [hc, if_false] at hL ⊢
          simp only [hg3, hg2, PyDict.get?_set, hc, if_false, hother L hc]
          exact h.some_ L hL
      · intro L hL
        rw [hids'] at hL
        by_cases hc : L = lbl
        · simp [hc] at hL
        · simp only [hc, if_false] at hL
          simp only [hg3, hg2, PyDict.get?_set, hc, if_false, hother L hc]
          exact h.none_ L hL
      · rw [hg3, hg2]; exact hadj
    obtain ⟨g', e, hinv⟩ := ih (done ++ [lbl]) g3 (by simpa using hn) inv3
    refine ⟨g', ?_, by simpa using hinv⟩
    simp only [addPoint, ← hg1, e1, e2, ok_bind, e]

theorem addPoints_ok : ∀ (rest pre : List (List ℤ)) (g : NxGraph),
    (∀ l ∈ rest, l.Nodup) → NodesInv pre g →
    ∃ g', addPoints pre.length rest g = .ok g' ∧ NodesInv (pre ++ rest) g' := by
  intro rest
  induction rest with
  | nil => intro pre g _ h; exact ⟨g, rfl, by simpa using h⟩
  | cons l rest ih =>
    intro pre g hn h
    have h' : NodesInv (pre ++ [[]]) g :=
      ⟨h.nodup, h.adjKeys, fun L => by rw [idsOf_nil_concat]; exact h.some_ L,
        fun L => by rw [idsOf_nil_concat]; exact h.none_ L, h.adj⟩
    obtain ⟨g1, e1, h1⟩ := addPoint_ok pre l [] g (by simpa using hn l (by simp)) h'
    rw [List.nil_append] at h1
    obtain ⟨g2, e2, h2⟩ := ih (pre ++ [l]) g1 (fun a ha => hn a (by simp [ha])) h1
    refine ⟨g2, ?_, by simpa using h2⟩
    rw [List.length_append, List.length_singleton] at e2
    simp only [addPoints, e1, ok_bind, e2]

theorem nodesInv_empty : NodesInv [] NxGraph.empty := by
  refine ⟨List.nodup_nil, rfl, ?_, ?_, ?_⟩
  · intro L h; exact absurd rfl h
  · intro L _; rfl
  · intro L nb h; simp [NxGraph.empty] at h

/-- Adjacency of a graph whose edges are the given pairs. -/
structure EdgesInv (nodes : PyDict ℤ NodeAttr) (pairs : List (ℤ × ℤ)) (g : NxGraph) : Prop where
  nodes_eq : g.nodes = nodes
  keys : g.adj.keys = nodes.keys
  nbrs : ∀ u ∈ nodes.keys, ∃ nb, g.adj.get? u = some nb ∧ nb.Nodup ∧
    ∀ v, v ∈ nb ↔ (u, v) ∈ pairs ∨ (v, u) ∈ pairs

theorem addNbr_ok {adj : PyDict ℤ (List ℤ)} {u v : ℤ} {nb : List ℤ} (h : adj.get? u = some nb) :
    NxGraph.addNbr adj u v = .ok (adj.set u (if v ∈ nb then nb else nb ++ [v])) := by
  simp [NxGraph.addNbr, PyDict.getItem, h]

theorem addEdge_ok {nodes : PyDict ℤ NodeAttr} {pairs : List (ℤ × ℤ)} {g : NxGraph}
    (h : EdgesInv nodes pairs g) {u v : ℤ} (hu : u ∈ nodes.keys) (hv : v ∈ nodes.keys) :
    ∃ g', g.addEdge u v = .ok g' ∧ EdgesInv nodes ((u, v) :: pairs) g' := by
  have eu : g.ensureNode u = g := by
    rw [NxGraph.ensureNode, if_pos]
    rw [NxGraph.hasNode, PyDict.contains_iff, h.nodes_eq]; exact hu
  have ev : g.ensureNode v = g := by
    rw [NxGraph.ensureNode, if_pos]
    rw [NxGraph.hasNode, PyDict.contains_iff, h.nodes_eq]; exact hv
  obtain ⟨nu, gu, hun, hum⟩ := h.nbrs u hu
  obtain ⟨nv, gv, hvn, hvm⟩ := h.nbrs v hv
  have key : ∀ nb : List ℤ, nb.Nodup → ∀ w, (if w ∈ nb then nb else nb ++ [w]).Nodup := by
    intro nb hnb w
    split
    · exact hnb
    · rename_i hw
      rw [List.nodup_append]
      refine ⟨hnb, by simp, ?_⟩
      intro a ha b hb; simp at hb; subst hb; rintro rfl; exact hw ha
  have memk : ∀ (nb : List ℤ) (w z : ℤ), z ∈ (if w ∈ nb then nb else nb ++ [w]) ↔ z ∈ nb ∨ z = w := by
    intro nb w z
    split
    · rename_i hw
      constructor
      · exact Or.inl
      · rintro (h | rfl) <;> assumption
    · simp
  set a1 := g.adj.set u (if v ∈ nu then nu else nu ++ [v]) with ha1
  obtain ⟨nv', gv', hnv'⟩ : ∃ nv', a1.get? v = some nv' ∧
      (nv' = if v = u then (if v ∈ nu then nu else nu ++ [v]) else nv) := by
    refine ⟨_, ?_, rfl⟩
    simp only [ha1, PyDict.get?_set]
    split
    · rfl
    · exact gv
  refine ⟨{ g with adj := a1.set v (if u ∈ nv' then nv' else nv' ++ [u]) }, ?_, h.nodes_eq, ?_, ?_⟩
  · simp only [NxGraph.addEdge, eu, ev, addNbr_ok gu, ok_bind, ← ha1, addNbr_ok gv', pure_eq_ok]
  · simp only [ha1, PyDict.keys_set, h.keys, hu, hv, if_true]
  · intro w hw
    simp only [PyDict.get?_set, List.mem_cons, Prod.mk.injEq]
    by_cases hwv : w = v
    · subst hwv
      simp only [if_true]
      refine ⟨_, rfl, ?_, ?_⟩
      · apply key; rw [hnv']; split
        · exact key nu hun _
        · exact hvn
      · intro z
        rw [memk, hnv']
        by_cases hwu : w = u
        · subst hwu
          rw [if_pos rfl, memk, hum]; tauto
        · simp only [hwu, if_false, hvm]; tauto
    · simp only [hwv, if_false, ha1, PyDict.get?_set]
      by_cases hwu : w = u
      · subst hwu
        simp only [if_true]
        refine ⟨_, rfl, key nu hun _, ?_⟩
        intro z
        rw [memk, hum]; tauto
      · simp only [hwu, if_false]
        obtain ⟨nw, gw, hwn, hwm⟩ := h.nbrs w hw
        refine ⟨nw, gw, hwn, ?_⟩
        intro z
        rw [hwm]; tauto

theorem EdgesInv.congr {nodes : PyDict ℤ NodeAttr} {p q : List (ℤ × ℤ)} {g : NxGraph}
    (h : EdgesInv nodes p g)
    (hpq : ∀ u v, ((u, v) ∈ p ∨ (v, u) ∈ p) ↔ ((u, v) ∈ q ∨ (v, u) ∈ q)) :
    EdgesInv nodes q g := by
  refine ⟨h.nodes_eq, h.keys, ?_⟩
  intro u hu
  obtain ⟨nb, h1, h2, h3⟩ := h.nbrs u hu
  exact ⟨nb, h1, h2, fun v => (h3 v).trans (hpq u v)⟩

theorem addEdgesFrom_ok {nodes : PyDict ℤ NodeAttr} (s : ℤ) (hs : s ∈ nodes.keys) :
    ∀ (ts : List ℤ) (pairs : List (ℤ × ℤ)) (g : NxGraph), EdgesInv nodes pairs g →
    (∀ t ∈ ts, t ∈ nodes.keys) →
    ∃ g', addEdgesFrom s ts g = .ok g' ∧ EdgesInv nodes (ts.map (fun t => (s, t)) ++ pairs) g' := by
  intro ts
  induction ts with
  | nil => intro pairs g h _; exact ⟨g, rfl, h⟩
  | cons t ts ih =>
    intro pairs g h hm
    obtain ⟨nb, gs, _, hnb⟩ := h.nbrs s hs
    obtain ⟨g1, e1, h1⟩ : ∃ g1, (if t ∈ nb then .ok g else g.addEdge s t) = Except.ok g1 ∧
        EdgesInv nodes ((s, t) :: pairs) g1 := by
      by_cases ht : t ∈ nb
      · refine ⟨g, by simp [ht], h.congr ?_⟩
        have := (hnb t).mp ht
        intro u v
        simp only [List.mem_cons, Prod.mk.injEq]
        constructor
        · tauto
        · rintro ((⟨rfl, rfl⟩ | h) | (⟨rfl, rfl⟩ | h)) <;> tauto
      · obtain ⟨g1, e, h1⟩ := addEdge_ok h hs (hm t (by simp))
        exact ⟨g1, by simp [ht, e], h1⟩
    obtain ⟨g2, e2, h2⟩ := ih _ g1 h1 (fun t ht => hm t (by simp [ht]))
    refine ⟨g2, ?_, h2.congr ?_⟩
    · have : addEdgesFrom s (t :: ts) g =
          ((if t ∈ nb then .ok g else g.addEdge s t) >>= addEdgesFrom s ts : Py NxGraph) := by
        by_cases ht : t ∈ nb <;> simp [addEdgesFrom, PyDict.getItem, gs, ht]
      rw [this, e1, ok_bind, e2]
    · intro u v
      simp only [List.map_cons, List.cons_append, List.mem_append, List.mem_cons]; tauto

/-- Pairs of entries at positions `i < j`. -/
def pairsOf : List ℤ → List (ℤ × ℤ)
  | [] => []
  | a :: t => t.map (fun b => (a, b)) ++ pairsOf t

theorem mem_of_mem_pairsOf : ∀ {l : List ℤ} {u v : ℤ}, (u, v) ∈ pairsOf l → u ∈ l ∧ v ∈ l := by
  intro l
  induction l with
  | nil => intro u v h; simp [pairsOf] at h
  | cons a t ih =>
    intro u v h
    simp only [pairsOf, List.mem_append, List.mem_map, Prod.mk.injEq] at h
    rcases h with ⟨b, hb, rfl, rfl⟩ | h
    · simp [hb]
    · have := ih h; simp [this]

theorem mem_pairsOf {l : List ℤ} (hn : l.Nodup) (u v : ℤ) :
    ((u, v) ∈ pairsOf l ∨ (v, u) ∈ pairsOf l) ↔ u ∈ l ∧ v ∈ l ∧ u ≠ v := by
  induction l with
  | nil => simp [pairsOf]
  | cons a t ih =>
    rw [List.nodup_cons] at hn
    have := ih hn.2
    simp only [pairsOf, List.mem_append, List.mem_map, Prod.mk.injEq, List.mem_cons]
    constructor
    · rintro ((⟨b, hb, rfl, rfl⟩ | h) | (⟨b, hb, rfl, rfl⟩ | h))
      · refine ⟨by simp, by simp [hb], ?_⟩; rintro rfl; exact hn.1 hb
      · have := this.mp (Or.inl h); tauto
      · refine ⟨by simp [hb], by simp, ?_⟩; rintro rfl; exact hn.1 hb
      · have := this.mp (Or.inr h); tauto
    · rintro ⟨hu, hv, hne⟩
      rcases hu with rfl | hu
      · rcases hv with rfl | hv
        · exact absurd rfl hne
        · exact Or.inl (Or.inl ⟨v, hv, rfl, rfl⟩)
      · rcases hv with rfl | hv
        · exact Or.inr (Or.inl ⟨u, hu, rfl, rfl⟩)
        · have := this.mpr ⟨hu, hv, hne⟩; tauto

theorem addEdgesOf_ok {nodes : PyDict ℤ NodeAttr} :
    ∀ (l : List ℤ) (pairs : List (ℤ × ℤ)) (g : NxGraph), EdgesInv nodes pairs g →
    (∀ t ∈ l, t ∈ nodes.keys) →
    ∃ g', addEdgesOf l g = .ok g' ∧ EdgesInv nodes (pairsOf l ++ pairs) g' := by
  intro l
  induction l with
  | nil => intro pairs g h _; exact ⟨g, rfl, h⟩
  | cons s l ih =>
    intro pairs g h hm
    obtain ⟨g1, e1, h1⟩ := addEdgesFrom_ok s (hm s (by simp)) l pairs g h
      (fun t ht => hm t (by simp [ht]))
    obtain ⟨g2, e2, h2⟩ := ih _ g1 h1 (fun t ht => hm t (by simp [ht]))
    refine ⟨g2, by simp only [addEdgesOf, e1, ok_bind, e2], h2.congr ?_⟩
    intro u v
    simp only [pairsOf, List.mem_append]; tauto

theorem addEdges_ok {nodes : PyDict ℤ NodeAttr} :
    ∀ (itm : List (List ℤ)) (pairs : List (ℤ × ℤ)) (g : NxGraph), EdgesInv nodes pairs g →
    (∀ l ∈ itm, ∀ t ∈ l, t ∈ nodes.keys) →
    ∃ g', addEdges itm g = .ok g' ∧ EdgesInv nodes (itm.flatMap pairsOf ++ pairs) g' := by
  intro itm
  induction itm with
  | nil => intro pairs g h _; exact ⟨g, rfl, h⟩
  | cons l itm ih =>
    intro pairs g h hm
    obtain ⟨g1, e1, h1⟩ := addEdgesOf_ok l pairs g h (hm l (by simp))
    obtain ⟨g2, e2, h2⟩ := ih _ g1 h1 (fun t ht => hm t (by simp [ht]))
    refine ⟨g2, by simp only [addEdges, e1, ok_bind, e2], h2.congr ?_⟩
    intro u v
    simp only [List.flatMap_cons, List.mem_append]; tauto

/-- The graph built from a list of repetition-free label lists. -/
structure GraphOK (itm : List (List ℤ)) (g : NxGraph) : Prop where
  nodup : g.nodes.keys.Nodup
  mem_nodes : ∀ L, L ∈ g.nodes.keys ↔ ∃ n, Carries itm n L
  attr : ∀ L ∈ g.nodes.keys,
    g.nodes.get? L = some ⟨some (idsOf itm L).length, some (idsOf itm L)⟩
  adjKeys : g.adj.keys = g.nodes.keys
  adj_nodup : ∀ u nb, g.adj.get? u = some nb → nb.Nodup
  adj_iff : ∀ u v, g.Adj u v ↔ u ≠ v ∧ ∃ n, Carries itm n u ∧ Carries itm n v

theorem mem_itm_iff {itm : List (List ℤ)} {l : List ℤ} : l ∈ itm ↔ ∃ n : ℕ, itm[n]? = some l := by
  rw [List.mem_iff_getElem?]

theorem graph_ok (itm : List (List ℤ)) (hn : ∀ l ∈ itm, l.Nodup) :
    ∃ g0 g, addPoints 0 itm NxGraph.empty = .ok g0 ∧ addEdges itm g0 = .ok g ∧ GraphOK itm g := by
  obtain ⟨g0, e0, h0⟩ := addPoints_ok itm [] NxGraph.empty hn nodesInv_empty
  simp only [List.nil_append] at h0
  have hmem : ∀ L, L ∈ g0.nodes.keys ↔ ∃ n, Carries itm n L := by
    intro L
    rw [← PyDict.isSome_get?]
    by_cases h : idsOf itm L = []
    · rw [h0.none_ L h]
      simp only [Option.isSome_none, Bool.false_eq_true, false_iff]
      rintro ⟨n, hc⟩
      have := mem_idsOf.mpr hc
      rw [h] at this; simp at this
    · rw [h0.some_ L h]
      simp only [Option.isSome_some, true_iff]
      obtain ⟨n, hn⟩ := List.exists_mem_of_ne_nil _ h
      exact ⟨n, mem_idsOf.mp hn⟩
  have hattr : ∀ L ∈ g0.nodes.keys,
      g0.nodes.get? L = some ⟨some (idsOf itm L).length, some (idsOf itm L)⟩ := by
    intro L hL
    apply h0.some_
    intro hc
    rw [← PyDict.isSome_get?, h0.none_ L hc] at hL; simp at hL
  have hE : EdgesInv g0.nodes [] g0 := by
    refine ⟨rfl, h0.adjKeys, ?_⟩
    intro u hu
    rw [← h0.adjKeys, ← PyDict.isSome_get?, Option.isSome_iff_exists] at hu
    obtain ⟨nb, hnb⟩ := hu
    refine ⟨nb, hnb, ?_⟩
    rw [h0.adj u nb hnb]; simp
  obtain ⟨g, e, h⟩ := addEdges_ok itm [] g0 hE (fun l hl t ht => by
    rw [hmem]
    obtain ⟨n, hn⟩ := mem_itm_iff.mp hl
    exact ⟨n, l, hn, ht⟩)
  refine ⟨g0, g, e0, e, ?_⟩
  have hg : g.nodes = g0.nodes := h.nodes_eq
  refine ⟨by rw [hg]; exact h0.nodup, by rw [hg]; exact hmem, by rw [hg]; exact hattr,
    by rw [hg]; exact h.keys, ?_, ?_⟩
  · intro u nb hu
    have : u ∈ g0.nodes.keys := by
      rw [← h.keys, ← PyDict.isSome_get?, hu]; rfl
    obtain ⟨nb', h1, h2, _⟩ := h.nbrs u this
    rw [hu] at h1; simp at h1; rw [h1]; exact h2
  · intro u v
    have hp : ((u, v) ∈ itm.flatMap pairsOf ++ [] ∨ (v, u) ∈ itm.flatMap pairsOf ++ []) ↔
        u ≠ v ∧ ∃ n, Carries itm n u ∧ Carries itm n v := by
      simp only [List.append_nil, List.mem_flatMap]
      constructor
      · rintro (⟨l, hl, h⟩ | ⟨l, hl, h⟩)
        · obtain ⟨n, hln⟩ := mem_itm_iff.mp hl
          have := (mem_pairsOf (hn l hl) u v).mp (Or.inl h)
          exact ⟨this.2.2, n, ⟨l, hln, this.1⟩, ⟨l, hln, this.2.1⟩⟩
        · obtain ⟨n, hln⟩ := mem_itm_iff.mp hl
          have := (mem_pairsOf (hn l hl) u v).mp (Or.inr h)
          exact ⟨this.2.2, n, ⟨l, hln, this.1⟩, ⟨l, hln, this.2.1⟩⟩
      · rintro ⟨hne, n, ⟨l, hl, hu⟩, ⟨l', hl', hv⟩⟩
        rw [hl] at hl'; simp at hl'; subst hl'
        have hm : l ∈ itm := mem_itm_iff.mpr ⟨n, hl⟩
        rcases (mem_pairsOf (hn l hm) u v).mpr ⟨hu, hv, hne⟩ with h | h
        · exact Or.inl ⟨l, hm, h⟩
        · exact Or.inr ⟨l, hm, h⟩
    rw [← hp]
    unfold NxGraph.Adj
    constructor
    · rintro ⟨nb, h1, h2⟩
      have : u ∈ g0.nodes.keys := by
        rw [← h.keys, ← PyDict.isSome_get?, h1]; rfl
      obtain ⟨nb', h1', _, h3⟩ := h.nbrs u this
      rw [h1] at h1'; simp at h1'; subst h1'
      exact (h3 v).mp h2
    · intro hh
      have hu : u ∈ g0.nodes.keys := by
        rw [hmem]; obtain ⟨_, n, hc, _⟩ := hp.mp hh; exact ⟨n, hc⟩
      obtain ⟨nb, h1, _, h3⟩ := h.nbrs u hu
      exact ⟨nb, h1, (h3 v).mpr hh⟩

end Verif
