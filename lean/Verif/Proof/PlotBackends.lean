import Verif.Proof.PlotTraces
import Verif.Spec.PlotBackends
import Mathlib.Order.Bounds.Basic
import Mathlib.Tactic.Ring
import Mathlib.Tactic.Linarith

/-!
# Lemmas about the PyVis and matplotlib backends
-/

set_option autoImplicit false
set_option linter.unusedSectionVars false

namespace Verif

variable {K V : Type}

/-! ### Least and greatest values -/

section
variable {α : Type} [LinearOrder α]

theorem foldlMin_spec : ∀ (l : List α) (a : α), l.foldl min a ≤ a ∧ (∀ x ∈ l, l.foldl min a ≤ x) ∧
    (l.foldl min a = a ∨ l.foldl min a ∈ l)
  | [], a => ⟨le_refl _, (fun _ h => by cases h), .inl rfl⟩
  | b :: l, a => by
    obtain ⟨h1, h2, h3⟩ := foldlMin_spec l (min a b)
    rw [List.foldl_cons]
    refine ⟨le_trans h1 (min_le_left a b), ?_, ?_⟩
    · intro x hx
      rcases List.mem_cons.mp hx with rfl | hx
      · exact le_trans h1 (min_le_right a x)
      · exact h2 x hx
    · rcases h3 with h3 | h3
      · rcases min_choice a b with h | h
        · exact .inl (h3.trans h)
        · exact .inr (by rw [h3, h]; exact List.mem_cons_self ..)
      · exact .inr (List.mem_cons_of_mem _ h3)

theorem foldlMax_spec : ∀ (l : List α) (a : α), a ≤ l.foldl max a ∧ (∀ x ∈ l, x ≤ l.foldl max a) ∧
    (l.foldl max a = a ∨ l.foldl max a ∈ l)
  | [], a => ⟨le_refl _, (fun _ h => by cases h), .inl rfl⟩
  | b :: l, a => by
    obtain ⟨h1, h2, h3⟩ := foldlMax_spec l (max a b)
    rw [List.foldl_cons]
    refine ⟨le_trans (le_max_left a b) h1, ?_, ?_⟩
    · intro x hx
      rcases List.mem_cons.mp hx with rfl | hx
      · exact le_trans (le_max_right a x) h1
      · exact h2 x hx
    · rcases h3 with h3 | h3
      · rcases max_choice a b with h | h
        · exact .inl (h3.trans h)
        · exact .inr (by rw [h3, h]; exact List.mem_cons_self ..)
      · exact .inr (List.mem_cons_of_mem _ h3)

theorem foldl_min_isLeast (l : List α) (a : α) : IsLeast {x | x ∈ a :: l} (l.foldl min a) := by
  obtain ⟨h1, h2, h3⟩ := foldlMin_spec l a
  refine ⟨?_, ?_⟩
  · rcases h3 with h | h
    · rw [h]; exact List.mem_cons_self ..
    · exact List.mem_cons_of_mem _ h
  · intro x hx
    rcases List.mem_cons.mp hx with rfl | hx
    · exact h1
    · exact h2 x hx

theorem foldl_max_isGreatest (l : List α) (a : α) : IsGreatest {x | x ∈ a :: l} (l.foldl max a) := by
  obtain ⟨h1, h2, h3⟩ := foldlMax_spec l a
  refine ⟨?_, ?_⟩
  · rcases h3 with h | h
    · rw [h]; exact List.mem_cons_self ..
    · exact List.mem_cons_of_mem _ h
  · intro x hx
    rcases List.mem_cons.mp hx with rfl | hx
    · exact h1
    · exact h2 x hx

theorem scanRange_some : ∀ (l : List α) (a b : α),
    scanRange l (some a, some b) = (some (l.foldl min a), some (l.foldl max b))
  | [], _, _ => rfl
  | v :: l, a, b => by
    have h1 : (if v > b then some v else some b) = some (max b v) := by
      split
      · rename_i h; rw [max_eq_right h.le]
      · rename_i h; rw [max_eq_left (not_lt.mp h)]
    have h2 : (if v < a then some v else some a) = some (min a v) := by
      split
      · rename_i h; rw [min_eq_right h.le]
      · rename_i h; rw [min_eq_left (not_lt.mp h)]
    simp only [scanRange]
    rw [h1, h2, scanRange_some l]
    rfl

theorem scanRange_eq {l : List α} {lo hi : α} (hlo : IsLeast {x | x ∈ l} lo)
    (hhi : IsGreatest {x | x ∈ l} hi) : scanRange l (none, none) = (some lo, some hi) := by
  rcases l with _ | ⟨a, l⟩
  · exact absurd hlo.1 (by simp)
  · simp only [scanRange]
    rw [scanRange_some, (foldl_min_isLeast l a).unique hlo, (foldl_max_isGreatest l a).unique hhi]

theorem exists_range {l : List α} (h : l ≠ []) : ∃ lo hi, IsLeast {x | x ∈ l} lo ∧
    IsGreatest {x | x ∈ l} hi := by
  rcases l with _ | ⟨a, l⟩
  · exact absurd rfl h
  · exact ⟨_, _, foldl_min_isLeast l a, foldl_max_isGreatest l a⟩

theorem minColor_eq {β : Type} [Field β] [LinearOrder β] {l : List β} {lo : β}
    (h : IsLeast {x | x ∈ l} lo) : minColor l = some lo := by
  rcases l with _ | ⟨a, l⟩
  · exact absurd h.1 (by simp)
  · rw [minColor, (foldl_min_isLeast l a).unique h]

theorem maxColor_eq {β : Type} [Field β] [LinearOrder β] {l : List β} {hi : β}
    (h : IsGreatest {x | x ∈ l} hi) : maxColor l = some hi := by
  rcases l with _ | ⟨a, l⟩
  · exact absurd h.1 (by simp)
  · rw [maxColor, (foldl_max_isGreatest l a).unique h]

end

theorem nodeValues_eq {α : Type} (g : NxGraph) (val : ℤ → α) :
    {x | x ∈ g.nodes.keys.map val} = nodeValues g val := by
  ext x
  simp only [Set.mem_setOf_eq, List.mem_map, nodeValues, NxGraph.IsNode]

/-! ### Rounding -/

section
variable [Field K] [LinearOrder K] [IsStrictOrderedRing K]

theorem IsRounded.mono {x y : K} {a b : ℤ} (hx : IsRounded x a) (hy : IsRounded y b) (h : x ≤ y) :
    a ≤ b := by
  by_contra hab
  have hab : b + 1 ≤ a := by omega
  have hc : (b : K) + 1 ≤ (a : K) := by exact_mod_cast hab
  obtain ⟨x1, x2⟩ := hx
  obtain ⟨y1, y2⟩ := hy
  have e1 := abs_le.mp x1
  have e2 := abs_le.mp y1
  have h1 : x - a = -(1 / 2) := by linarith
  have h2 : y - b = 1 / 2 := by linarith
  have h3 : (a : K) = b + 1 := by linarith
  have h4 : a = b + 1 := by exact_mod_cast h3
  have ea := x2 (by rw [h1, abs_neg, abs_of_pos (by norm_num)])
  have eb := y2 (by rw [h2, abs_of_pos (by norm_num)])
  rw [h4] at ea
  obtain ⟨i, hi⟩ := ea
  obtain ⟨j, hj⟩ := eb
  omega

theorem IsRounded.unique {x : K} {a b : ℤ} (hx : IsRounded x a) (hy : IsRounded x b) : a = b :=
  le_antisymm (hx.mono hy le_rfl) (hy.mono hx le_rfl)

theorem isRounded_int (k : ℤ) : IsRounded (k : K) k := by
  constructor <;> simp

variable [FloorRing K]

theorem pyRound_spec (x : K) : IsRounded x (pyRound x) := by
  have h0 := Int.floor_le x
  have h1 := Int.lt_floor_add_one x
  unfold pyRound
  dsimp only
  have hf : |x - (⌊x⌋ : K)| = x - ⌊x⌋ := abs_of_nonneg (by linarith)
  have hg : |x - ((⌊x⌋ + 1 : ℤ) : K)| = ⌊x⌋ + 1 - x := by
    push_cast
    rw [abs_of_nonpos (by linarith)]
    ring
  split
  · rename_i h
    refine ⟨by rw [hf]; linarith, fun e => ?_⟩
    rw [hf] at e; linarith
  · split
    · rename_i h
      refine ⟨by rw [hg]; linarith, fun e => ?_⟩
      rw [hg] at e; linarith
    · rename_i a b
      have a' := not_lt.mp a
      have b' := not_lt.mp b
      split
      · rename_i h
        exact ⟨by rw [hf]; linarith, fun _ => Int.even_iff.mpr h⟩
      · rename_i h
        refine ⟨by rw [hg]; linarith, fun _ => Int.even_iff.mpr (by omega)⟩

theorem pyRound_int (k : ℤ) : pyRound (k : K) = k := (pyRound_spec _).unique (isRounded_int k)

end

/-! ### The network -/

theorem pvAddEdge_ok {net : PvNet K} {u v : ℤ} (hu : u ∈ net.nodes.map (·.id))
    (hv : v ∈ net.nodes.map (·.id)) (h1 : (v, u) ∉ net.edges) (h2 : (u, v) ∉ net.edges) :
    net.addEdge u v = .ok { net with edges := net.edges ++ [(u, v)] } := by
  rw [PvNet.addEdge, if_neg (not_not_intro hu), if_neg (not_not_intro hv), if_neg]
  rintro (h | h)
  · exact h1 h
  · exact h2 h

theorem pvEdges_ok : ∀ (es : List (ℤ × ℤ)) (net : PvNet K),
    (∀ e ∈ es, e.1 ∈ net.nodes.map (·.id) ∧ e.2 ∈ net.nodes.map (·.id)) →
    (net.edges ++ es).Nodup → (∀ u v, u ≠ v → (u, v) ∈ net.edges ++ es → (v, u) ∉ net.edges ++ es) →
    pvEdges es net = .ok { net with edges := net.edges ++ es }
  | [], net, _, _, _ => by simp [pvEdges]
  | (u, v) :: es, net, h, hn, ho => by
    obtain ⟨hu, hv⟩ := h (u, v) (List.mem_cons_self ..)
    have h2 : (u, v) ∉ net.edges := by
      intro hm
      exact List.disjoint_of_nodup_append hn hm (List.mem_cons_self ..)
    have h1 : (v, u) ∉ net.edges := by
      intro hm
      by_cases e : u = v
      · subst e; exact h2 hm
      · exact ho u v e (by simp) (by simp [hm])
    have ee : net.edges ++ (u, v) :: es = (net.edges ++ [(u, v)]) ++ es := by simp
    rw [pvEdges, pvAddEdge_ok hu hv h1 h2, ok_bind, pvEdges_ok es]
    · simp
    · intro e he
      exact h e (List.mem_cons_of_mem _ he)
    · rw [ee] at hn; exact hn
    · rw [ee] at ho; exact ho

theorem pvNodes_ok [Field K] [LinearOrder K] [FloorRing K] (mk : ℤ → Py (PvNode K)) (g : ℤ → PvNode K) :
    ∀ (ns : List ℤ) (net : PvNet K), (∀ n ∈ ns, mk n = .ok (g n) ∧ (g n).id = n) →
    (net.nodes.map (·.id) ++ ns).Nodup →
    pvNodes mk ns net = .ok { net with nodes := net.nodes ++ ns.map g }
  | [], net, _, _ => by simp [pvNodes]
  | n :: ns, net, h, hn => by
    obtain ⟨h1, h2⟩ := h n (List.mem_cons_self ..)
    have hni : (g n).id ∉ net.nodes.map (·.id) := by
      rw [h2]
      intro hm
      exact List.disjoint_of_nodup_append hn hm (List.mem_cons_self ..)
    rw [pvNodes, h1, ok_bind, PvNet.addNode, if_neg hni, pvNodes_ok mk g ns]
    · simp
    · exact fun m hm => h m (List.mem_cons_of_mem _ hm)
    · simpa [h2] using hn

section
variable [Field K] [LinearOrder K] {p : MapperPlot K} {size : ℤ → ℕ} {ids : ℤ → List ℕ}
  {pos : ℤ → List K} {colors : List V} {agg : List V → Py K} {val : ℤ → K}

theorem nodeSizeOf_ok (hp : Plottable p size ids pos) {n : ℤ} (hn : p.graph.IsNode n) :
    nodeSizeOf p.graph n = .ok (size n) := by
  rw [nodeSizeOf, dictItem_ok (hp.attr n hn), ok_bind]
  rfl

theorem aggregate_ok (hp : Plottable p size ids pos) (hc : Colorable p ids colors agg val) :
    ∃ d, aggregateGraph colors p.graph agg = .ok d ∧
      ∀ n, p.graph.IsNode n → d.get? n = some (val n) := by
  obtain ⟨d, e, _, hds, _⟩ := aggregateLoop_ok colors p.graph agg val p.graph.nodes.keys PyDict.empty
    hp.graph.nodup (by simp [PyDict.empty, PyDict.keys])
    (fun n h => ⟨_, _, hp.attr n h, rfl, hc.ids_lt n h, hc.agg_eq n h⟩)
  exact ⟨d, e, hds⟩

variable [FloorRing K] [IsStrictOrderedRing K]

/-- The size of a marker, from the least and the greatest size of a node. -/
def markOf (sqrt : K → K) (lo hi : ℕ) (nodeSize : K) (s : ℕ) : ℤ :=
  if hi = lo then 25 else pyRound (nodeSize * 25 * sqrt ((s : K) / (hi : K)))

/-- The position of a colour on the scale. -/
def shadeOf (lo hi v : K) : K :=
  max 0 (min 1 (if hi = lo then 1 / 2 else (v - lo) / (hi - lo)))

/-- The vertex of a node. -/
def vertexOf (sqrt : K → K) (sample : K → String) (size : ℤ → ℕ) (pos : ℤ → List K) (val : ℤ → K)
    (slo shi : ℕ) (clo chi nodeSize width height : K) (n : ℤ) : PvNode K where
  id := n
  label := n
  size := markOf sqrt slo shi nodeSize (size n)
  color := sample (shadeOf clo chi (val n))
  title := (val n, n, markOf sqrt slo shi nodeSize (size n))
  x := (pos n).getD 0 0 * width
  y := -(pos n).getD 1 0 * height

theorem pvNode_ok (sqrt : K → K) (sample : K → String) (hp : Plottable p size ids pos) {d : PyDict ℤ K}
    (hd : ∀ n, p.graph.IsNode n → d.get? n = some (val n)) {slo shi : ℕ} (hs : shi ≠ slo → shi ≠ 0)
    {clo chi : K} (nodeSize width height : K) {n : ℤ} (hn : p.graph.IsNode n) :
    pvNode sqrt sample p (some slo, some shi) d (some clo, some chi) nodeSize width height n =
      .ok (vertexOf sqrt sample size pos val slo shi clo chi nodeSize width height n) := by
  have h25 : pyRound (25 : K) = 25 := by exact_mod_cast pyRound_int (K := K) 25
  have hsz : pvSize sqrt p.graph (some slo, some shi) nodeSize n =
      .ok (markOf sqrt slo shi nodeSize (size n)) := by
    unfold pvSize markOf
    by_cases h : shi = slo
    · simp [h, h25]
    · simp [h, nodeSizeOf_ok hp hn, ok_bind, hs h, pure_eq_ok]
  have hcl : pvColor d (some clo, some chi) n = .ok (shadeOf clo chi (val n)) := by
    unfold pvColor pvShade shadeOf
    by_cases h : chi = clo
    · simp [h, ok_bind, pure_eq_ok]
    · simp [h, dictItem_ok (hd n hn), ok_bind, pure_eq_ok]
  have hl : 2 ≤ (pos n).length := by
    rw [hp.pos_dim n hn]; rcases hp.dim with h | h <;> omega
  rw [pvNode, hsz, ok_bind, hcl, ok_bind, dictItem_ok (hd n hn), ok_bind, dictItem_ok (hp.placed n hn),
    ok_bind, getItem_getD 0 (show 0 < _ by omega), ok_bind, getItem_getD 0 (show 1 < _ by omega)]
  rfl

theorem computeNet_ok (sqrt : K → K) {scale : String → Py (K → String)} {sample : K → String}
    (hp : Plottable p size ids pos) (hc : Colorable p ids colors agg val) (nodeSize width height : K)
    {cmap : String} (hs : scale cmap = .ok sample) {slo shi : ℕ} {clo chi : K}
    (h1 : IsLeast (nodeValues p.graph size) slo) (h2 : IsGreatest (nodeValues p.graph size) shi)
    (h3 : IsLeast (nodeValues p.graph val) clo) (h4 : IsGreatest (nodeValues p.graph val) chi) :
    computeNet sqrt scale p colors nodeSize agg width height cmap =
      .ok (⟨p.graph.nodes.keys.map (vertexOf sqrt sample size pos val slo shi clo chi nodeSize width height),
        p.graph.edges⟩, some clo, some chi) := by
  obtain ⟨d, hd, hdv⟩ := aggregate_ok hp hc
  have e1 : mapPy (nodeSizeOf p.graph) p.graph.nodes.keys = .ok (p.graph.nodes.keys.map size) :=
    mapPy_ok fun n hn => nodeSizeOf_ok hp hn
  have e2 : mapPy d.getItem p.graph.nodes.keys = .ok (p.graph.nodes.keys.map val) :=
    mapPy_ok fun n hn => dictItem_ok (hdv n hn)
  rw [← nodeValues_eq] at h1 h2 h3 h4
  have hpos : shi ≠ slo → shi ≠ 0 := by
    intro h h0
    have := h2.2 h1.1
    omega
  unfold computeNet
  rw [hs, ok_bind]
  dsimp only
  rw [e1, ok_bind, hd, ok_bind, e2, ok_bind, scanRange_eq h1 h2, scanRange_eq h3 h4,
    pvNodes_ok _ (vertexOf sqrt sample size pos val slo shi clo chi nodeSize width height) _ _
      (fun n hn => ⟨pvNode_ok sqrt sample hp hdv hpos nodeSize width height hn, rfl⟩)
      (by simpa using hp.graph.nodup), ok_bind, pvEdges_ok]
  · simp [ok_bind, pure_eq_ok]
  · intro e he
    have hid : ∀ ns : List ℤ, (ns.map (vertexOf sqrt sample size pos val slo shi clo chi nodeSize width
        height)).map (·.id) = ns := by
      intro ns
      rw [List.map_map]
      exact List.map_id ns
    simp only [List.nil_append, hid]
    exact edges_ends hp.graph he
  · exact (edges_isEdgeList hp.graph).nodup
  · exact (edges_isEdgeList hp.graph).once

theorem computeNet_empty (sqrt : K → K) {scale : String → Py (K → String)} {sample : K → String}
    (hp : Plottable p size ids pos) (hc : Colorable p ids colors agg val) (nodeSize width height : K)
    {cmap : String} (hs : scale cmap = .ok sample) (he : p.graph.nodes.keys = []) :
    computeNet sqrt scale p colors nodeSize agg width height cmap = .ok ({}, none, none) := by
  obtain ⟨d, hd, hdv⟩ := aggregate_ok hp hc
  have hee : p.graph.edges = [] := by
    rcases h : p.graph.edges with _ | ⟨e, es⟩
    · rfl
    · have := (edges_ends hp.graph (u := e.1) (v := e.2) (by rw [h]; exact List.mem_cons_self ..)).1
      rw [NxGraph.IsNode, he] at this
      cases this
  unfold computeNet
  rw [hs, ok_bind]
  dsimp only
  rw [he, hee, hd]
  rfl

/-! ### matplotlib -/

omit [FloorRing K] [IsStrictOrderedRing K] in
theorem mplEdges_ok (hp : Plottable p size ids pos) (h2 : p.dim = 2) :
    mplEdges p = .ok (p.graph.edges.map fun e => (pos e.1, pos e.2)) := by
  refine mapPy_ok fun e he => ?_
  obtain ⟨hu, hv⟩ := edges_ends hp.graph he
  rw [mplSegment, dictItem_ok (hp.placed _ hu), ok_bind, dictItem_ok (hp.placed _ hv), ok_bind,
    if_pos ⟨(hp.pos_dim _ hu).trans h2, (hp.pos_dim _ hv).trans h2⟩]
  rfl

omit [FloorRing K] [IsStrictOrderedRing K] in
theorem mplEdges_nil (h : p.graph.edges = []) : mplEdges p = .ok [] := by
  rw [mplEdges, h]; rfl

omit [FloorRing K] [IsStrictOrderedRing K] in
theorem mplEdges_error (hp : Plottable p size ids pos) (h2 : p.dim ≠ 2) (he : p.graph.edges ≠ []) :
    mplEdges p = .error .valueError := by
  obtain ⟨e, es, hes⟩ := List.exists_cons_of_ne_nil he
  obtain ⟨hu, hv⟩ := edges_ends hp.graph (u := e.1) (v := e.2) (by rw [hes]; exact List.mem_cons_self ..)
  rw [mplEdges, hes, mapPy, mplSegment, dictItem_ok (hp.placed _ hu), ok_bind,
    dictItem_ok (hp.placed _ hv), ok_bind, if_neg]
  · rfl
  · rintro ⟨h, _⟩
    exact h2 ((hp.pos_dim _ hu).symm.trans h)

omit [FloorRing K] [IsStrictOrderedRing K] in
theorem mplSizes_ok (sqrt : K → K) (hp : Plottable p size ids pos) (nodeSize : K) :
    mplSizes sqrt p nodeSize = .ok (p.graph.nodes.keys.map fun n =>
      nodeSize * 200 * sqrt ((size n : K) / (maxSize (p.graph.nodes.keys.map size) : ℕ))) := by
  unfold mplSizes
  simp only [attrSize_eq hp, List.map_map, Function.comp_def]
  refine mapPy_ok fun n hn => ?_
  have hm := maxSize_pos hp
  rw [dictItem_ok (get?_of_values hp.graph.nodup hn), ok_bind, if_neg (Nat.pos_iff_ne_zero.mp hm)]
  rfl

omit [FloorRing K] [IsStrictOrderedRing K] in
theorem plotMatplotlib_ok (sqrt : K → K) {known : String → Bool} (hp : Plottable p size ids pos)
    (hc : Colorable p ids colors agg val) (nodeSize width height : K) (title : Option String)
    {cmap : String} (hk : known cmap = true) (h2 : p.dim = 2 ∨ p.graph.edges = []) :
    plotMatplotlib sqrt known p width height title colors nodeSize agg cmap = .ok
      { x := p.graph.nodes.keys.map fun n => (pos n).getD 0 0
        y := p.graph.nodes.keys.map fun n => (pos n).getD 1 0
        c := p.graph.nodes.keys.map val
        s := p.graph.nodes.keys.map fun n =>
          nodeSize * 200 * sqrt ((size n : K) / (maxSize (p.graph.nodes.keys.map size) : ℕ))
        vmin := minColor (p.graph.nodes.keys.map val)
        vmax := maxColor (p.graph.nodes.keys.map val)
        cmap, label := title
        segments := p.graph.edges.map fun e => (pos e.1, pos e.2)
        width, height } := by
  obtain ⟨d, hd, hdv⟩ := aggregate_ok hp hc
  have e1 : mplEdges p = .ok (p.graph.edges.map fun e => (pos e.1, pos e.2)) := by
    rcases h2 with h | h
    · exact mplEdges_ok hp h
    · rw [mplEdges_nil h, h]; rfl
  have e2 : mapPy d.getItem p.graph.nodes.keys = .ok (p.graph.nodes.keys.map val) :=
    mapPy_ok fun n hn => dictItem_ok (hdv n hn)
  have hx : ∀ j, j < p.dim → getItem ((List.range p.dim).map fun i =>
      p.graph.nodes.keys.map fun n => (pos n).getD i 0) j =
        .ok (p.graph.nodes.keys.map fun n => (pos n).getD j 0) := by
    intro j hj
    rw [getItem_lt (by simpa using hj)]
    simp
  have hdim : 2 ≤ p.dim := by rcases hp.dim with h | h <;> omega
  rw [plotMatplotlib, e1, ok_bind, nodePosArray_ok hp, ok_bind, hd, ok_bind, e2, ok_bind,
    mplSizes_ok sqrt hp, ok_bind, hx 0 (by omega), ok_bind, hx 1 (by omega), ok_bind, hk]
  rfl

end

end Verif
