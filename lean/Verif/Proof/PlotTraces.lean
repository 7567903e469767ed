import Verif.Proof.PlotEdges
import Verif.Proof.Core

/-!
# Lemmas about the traces of a figure
-/

set_option autoImplicit false
set_option linter.unusedSectionVars false

namespace Verif

variable {K V : Type}

theorem items_of_values {V : Type} {d : PyDict ℤ V} {ns : List ℤ} {val : ℤ → V} (hk : d.keys = ns)
    (hn : ns.Nodup) (hv : ∀ n ∈ ns, d.get? n = some (val n)) :
    d.items = ns.map fun n => (n, val n) := by
  subst hk
  rw [PyDict.keys, List.map_map]
  conv_lhs => rw [← List.map_id d.items]
  refine List.map_congr_left ?_
  rintro ⟨k, v⟩ hm
  have h1 := PyDict.get?_eq_some_of_mem hn hm
  have h2 := hv k (List.mem_map_of_mem (f := Prod.fst) hm)
  rw [h1] at h2
  simp only [id, Function.comp]
  cases h2; rfl

theorem get?_of_values {V : Type} {ns : List ℤ} {val : ℤ → V} (hn : ns.Nodup) {n : ℤ} (h : n ∈ ns) :
    (PyDict.mk (ns.map fun n => (n, val n)) : PyDict ℤ V).get? n = some (val n) := by
  refine PyDict.get?_eq_some_of_mem ?_ ?_
  · simpa [PyDict.keys, Function.comp_def] using hn
  · exact List.mem_map_of_mem (f := fun n => (n, val n)) h

theorem getItem_getD {α : Type} {l : List α} {i : ℕ} (d : α) (h : i < l.length) :
    getItem l i = .ok (l.getD i d) := by
  rw [getItem_lt h, List.getD_eq_getElem?_getD, List.getElem?_eq_getElem h]; rfl

theorem dictItem_ok {V : Type} {d : PyDict ℤ V} {n : ℤ} {v : V} (h : d.get? n = some v) :
    d.getItem n = .ok v := by
  simp [PyDict.getItem, h]

section
variable [Field K] [LinearOrder K] {p : MapperPlot K} {size : ℤ → ℕ} {ids : ℤ → List ℕ}
  {pos : ℤ → List K}

theorem nodePosArray_ok (hp : Plottable p size ids pos) : nodePosArray p =
    .ok ((List.range p.dim).map fun i => p.graph.nodes.keys.map fun n => (pos n).getD i 0) := by
  refine mapPy_ok fun i hi => mapPy_ok fun n hn => ?_
  rw [coordinate, dictItem_ok (hp.placed n hn), ok_bind]
  exact getItem_getD 0 (by rw [hp.pos_dim n hn]; exact List.mem_range.mp hi)

theorem appendEdge_ok (pos0 pos1 : List K) (a : ℕ → List (Option K)) : ∀ (k i : ℕ),
    i + k ≤ pos0.length → i + k ≤ pos1.length →
    appendEdge pos0 pos1 i ((List.range' i k).map a) =
      .ok ((List.range' i k).map fun j => a j ++ [some (pos0.getD j 0), some (pos1.getD j 0), none])
  | 0, i, _, _ => rfl
  | k + 1, i, h0, h1 => by
    simp only [List.range'_succ, List.map_cons, appendEdge, getItem_getD (0 : K) (show i < pos0.length by omega),
      getItem_getD (0 : K) (show i < pos1.length by omega), ok_bind,
      appendEdge_ok pos0 pos1 a k (i + 1) (by omega) (by omega), pure_eq_ok]

/-- The coordinates of the ends of the edges, with gaps. -/
def edgeCoords (pos : ℤ → List K) (es : List (ℤ × ℤ)) (j : ℕ) : List (Option K) :=
  es.flatMap fun e => [some ((pos e.1).getD j 0), some ((pos e.2).getD j 0), none]

theorem edgePosLoop_ok (hp : Plottable p size ids pos) : ∀ (es : List (ℤ × ℤ))
    (a : ℕ → List (Option K)), (∀ e ∈ es, p.graph.IsNode e.1 ∧ p.graph.IsNode e.2) →
    edgePosLoop p es ((List.range' 0 p.dim).map a) =
      .ok ((List.range' 0 p.dim).map fun j => a j ++ edgeCoords pos es j)
  | [], a, _ => by simp [edgePosLoop, edgeCoords]
  | (u, v) :: es, a, h => by
    obtain ⟨hu, hv⟩ := h (u, v) (List.mem_cons_self ..)
    simp only [edgePosLoop, dictItem_ok (hp.placed u hu), dictItem_ok (hp.placed v hv), ok_bind,
      appendEdge_ok (pos u) (pos v) a p.dim 0 (by rw [hp.pos_dim u hu]; omega)
        (by rw [hp.pos_dim v hv]; omega)]
    rw [edgePosLoop_ok hp es _ (fun e he => h e (List.mem_cons_of_mem _ he))]
    simp [edgeCoords]

theorem edgePosArray_ok (hp : Plottable p size ids pos) : edgePosArray p =
    .ok ((List.range p.dim).map fun j => edgeCoords pos p.graph.edges j) := by
  rw [edgePosArray, List.range_eq_range', edgePosLoop_ok hp _ _ (fun e he => edges_ends hp.graph he)]
  simp

theorem attrSize_eq (hp : Plottable p size ids pos) :
    attrSize p.graph = ⟨p.graph.nodes.keys.map fun n => (n, size n)⟩ := by
  rw [attrSize, items_of_values (val := fun n => (⟨some (size n), some (ids n)⟩ : NodeAttr)) rfl
    hp.graph.nodup hp.attr]
  simp [List.filterMap_map]

theorem foldl_max_spec : ∀ (l : List ℕ) (a : ℕ),
    a ≤ l.foldl max a ∧ (∀ x ∈ l, x ≤ l.foldl max a) ∧ (l.foldl max a = a ∨ l.foldl max a ∈ l)
  | [], a => ⟨le_refl _, fun _ h => (by cases h), .inl rfl⟩
  | b :: l, a => by
    obtain ⟨h1, h2, h3⟩ := foldl_max_spec l (max a b)
    rw [List.foldl_cons]
    refine ⟨le_trans (le_max_left a b) h1, ?_, ?_⟩
    · intro x hx
      rcases List.mem_cons.mp hx with rfl | hx
      · exact le_trans (le_max_right a x) h1
      · exact h2 x hx
    · rcases h3 with h3 | h3
      · rcases max_choice a b with h | h
        · exact .inl (h3.trans h)
        · exact .inr (by rw [h3, h]; exact List.mem_cons_self ..)
      · exact .inr (List.mem_cons_of_mem _ h3)

theorem maxSize_spec {m : ℕ} (hm : IsMaxSize p.graph size m) :
    maxSize (p.graph.nodes.keys.map size) = m := by
  obtain ⟨h1, n, h2, h3⟩ := hm
  have h2' : n ∈ p.graph.nodes.keys := h2
  rcases hk : p.graph.nodes.keys with _ | ⟨a, l⟩
  · rw [hk] at h2'; cases h2'
  · rw [List.map_cons, maxSize]
    obtain ⟨g1, g2, g3⟩ := foldl_max_spec (l.map size) (size a)
    have key : ∀ x, x ∈ a :: l → size x ≤ (l.map size).foldl max (size a) := by
      intro x hx
      rcases List.mem_cons.mp hx with rfl | hx
      · exact g1
      · exact g2 _ (List.mem_map_of_mem hx)
    have key' : ∃ x ∈ a :: l, (l.map size).foldl max (size a) = size x := by
      rcases g3 with g3 | g3
      · exact ⟨a, List.mem_cons_self .., g3⟩
      · obtain ⟨x, hx, e⟩ := List.mem_map.mp g3
        exact ⟨x, List.mem_cons_of_mem _ hx, e.symm⟩
    obtain ⟨x, hx, e⟩ := key'
    refine le_antisymm ?_ ?_
    · rw [e]; exact h1 x (by rw [NxGraph.IsNode, hk]; exact hx)
    · rw [← h3]; exact key n (by rw [← hk]; exact h2')

theorem maxSize_pos (hp : Plottable p size ids pos) :
    0 < maxSize (p.graph.nodes.keys.map size) := by
  rcases hk : p.graph.nodes.keys with _ | ⟨a, l⟩
  · simp [maxSize]
  · rw [List.map_cons, maxSize]
    exact lt_of_lt_of_le (hp.size_pos a (by rw [NxGraph.IsNode, hk]; exact List.mem_cons_self ..))
      (foldl_max_spec _ _).1

theorem markerSize_ok (hp : Plottable p size ids pos) : markerSize p =
    .ok (p.graph.nodes.keys.map fun n =>
      (if p.dim = 3 then 600 else 400) * (size n : K) / (maxSize (p.graph.nodes.keys.map size) : ℕ)) := by
  unfold markerSize
  simp only [attrSize_eq hp, List.map_map, Function.comp_def]
  refine mapPy_ok fun n hn => ?_
  have hm := maxSize_pos hp
  rw [dictItem_ok (get?_of_values hp.graph.nodup hn), ok_bind, if_neg (Nat.pos_iff_ne_zero.mp hm)]
  rfl

theorem nodeTexts_ok (hp : Plottable p size ids pos) {d : PyDict ℤ K} {val : ℤ → K}
    (hd : ∀ n, p.graph.IsNode n → d.get? n = some (val n)) :
    nodeTexts p.graph d = .ok (p.graph.nodes.keys.map fun n => ⟨val n, n, size n⟩) := by
  unfold nodeTexts
  refine mapPy_ok fun n hn => ?_
  rw [attrSize_eq hp, dictItem_ok (hd n hn), ok_bind,
    dictItem_ok (get?_of_values hp.graph.nodup hn)]
  rfl

theorem edgeColors_ok {d : PyDict ℤ K} {val : ℤ → K} : ∀ (es : List (ℤ × ℤ)),
    (∀ e ∈ es, d.get? e.1 = some (val e.1) ∧ d.get? e.2 = some (val e.2)) →
    edgeColors d es = .ok (es.flatMap fun e => [val e.1, val e.2, val e.2])
  | [], _ => rfl
  | (u, v) :: es, h => by
    obtain ⟨hu, hv⟩ := h (u, v) (List.mem_cons_self ..)
    simp only [edgeColors, dictItem_ok hu, dictItem_ok hv, ok_bind,
      edgeColors_ok es (fun e he => h e (List.mem_cons_of_mem _ he)), pure_eq_ok]
    simp

theorem column_ok {c : Colors V} (hr : ∀ row ∈ c.rows, row.length = c.cols) {k : ℕ}
    (hk : k < c.cols) : ∃ col, c.column k = .ok col ∧ col.length = c.rows.length ∧
      ∀ is, pointsOf col is = c.valuesAt k is := by
  obtain ⟨col, hcol⟩ := mapPy_exists (f := fun row : List V => getItem row k) (l := c.rows)
    fun row hrow => ⟨_, getItem_ok (List.getElem?_eq_getElem (by rw [hr row hrow]; exact hk))⟩
  have h2 := mapPy_eq_ok hcol
  refine ⟨col, by rw [Colors.column, if_pos hk, hcol], h2.length_eq.symm, fun is => ?_⟩
  have hget : ∀ (rows : List (List V)) (bs : List V),
      List.Forall₂ (fun row b => getItem row k = .ok b) rows bs →
      ∀ i : ℕ, bs[i]? = rows[i]?.bind fun row => row[k]? := by
    intro rows bs h
    induction h with
    | nil => simp
    | cons h _ ih =>
      intro i
      cases i with
      | zero => simpa using (getItem_eq_ok.mp h).symm
      | succ i => simpa using ih i
  simp only [Colors.valuesAt, pointsOf, List.filterMap_filterMap, hget _ _ h2]

theorem paintOf_ok (hp : Plottable p size ids pos) {c : Colors V}
    (hr : ∀ row ∈ c.rows, row.length = c.cols) {k : ℕ} (hk : k < c.cols)
    (hids : ∀ n, p.graph.IsNode n → ∀ i ∈ ids n, i < c.rows.length) {agg : List V → Py K}
    {val : ℤ → K} (hv : ∀ n, p.graph.IsNode n → agg (c.valuesAt k (ids n)) = .ok (val n)) :
    paintOf p c agg k = .ok ⟨p.graph.nodes.keys.map fun n => ⟨val n, n, size n⟩,
      p.graph.nodes.keys.map val,
      if p.dim = 3 then some (p.graph.edges.flatMap fun e => [val e.1, val e.2, val e.2]) else none⟩ := by
  obtain ⟨col, hcol, hlen, hpts⟩ := column_ok hr hk
  rw [paintOf, hcol, ok_bind]
  obtain ⟨d, e, hdk, hds, _⟩ := aggregateLoop_ok col p.graph agg val
    p.graph.nodes.keys PyDict.empty hp.graph.nodup (by simp [PyDict.empty, PyDict.keys])
    (fun n h => ⟨_, _, hp.attr n h, rfl, (fun i hi => by
      rw [hlen]; exact hids n h i hi), by
        rw [hpts]; exact hv n h⟩)
  have hdk' : d.keys = p.graph.nodes.keys := by simpa [PyDict.empty, PyDict.keys] using hdk
  have hagg : aggregateGraph col p.graph agg = .ok d := e
  rw [hagg, ok_bind, nodeTexts_ok hp hds, ok_bind, items_of_values hdk' hp.graph.nodup hds]
  unfold edgePaint
  by_cases h3 : p.dim = 3
  · rw [if_pos h3, edgeColors_ok p.graph.edges (val := val) (fun e he =>
      ⟨hds _ (edges_ends hp.graph he).1, hds _ (edges_ends hp.graph he).2⟩)]
    simp [h3, Except.map, ok_bind, pure_eq_ok, Function.comp_def]
  · simp [h3, ok_bind, pure_eq_ok, Function.comp_def]

theorem canvas_ok {P : Palette K} {jet : Scale K} (hj : P.scale "Jet" = .ok jet)
    (hp : Plottable p size ids pos) :
    Canvas P p
      { x := p.graph.nodes.keys.map fun n => (pos n).getD 0 0
        y := p.graph.nodes.keys.map fun n => (pos n).getD 1 0
        z := if p.dim = 3 then some (p.graph.nodes.keys.map fun n => (pos n).getD 2 0) else none
        size := p.graph.nodes.keys.map fun n => (if p.dim = 3 then 600 else 400) * (size n : K) /
          (maxSize (p.graph.nodes.keys.map size) : ℕ)
        text := none, color := none, cmin := none, cmax := none, sizeref := 1, title := "",
        scale := jet }
      { x := edgeCoords pos p.graph.edges 0
        y := edgeCoords pos p.graph.edges 1
        z := if p.dim = 3 then some (edgeCoords pos p.graph.edges 2) else none
        color := none, cmin := none, cmax := none
        scale := if p.dim = 3 then some jet else none } := by
  refine ⟨_, _, jet, nodePosArray_ok hp, edgePosArray_ok hp, hj, ?_, ?_⟩
  · rcases hp.dim with h | h
    · simp [edgesTrace, thirdAxis, h, getItem, List.range_succ, ok_bind, pure_eq_ok]
    · simp [edgesTrace, thirdAxis, h, getItem, List.range_succ, ok_bind, pure_eq_ok, Except.map]
  · rcases hp.dim with h | h
    · simp [nodesTrace, thirdAxis, h, getItem, List.range_succ, ok_bind, pure_eq_ok, markerSize_ok hp]
    · simp [nodesTrace, thirdAxis, h, getItem, List.range_succ, ok_bind, pure_eq_ok, markerSize_ok hp,
        Except.map]

end

end Verif
