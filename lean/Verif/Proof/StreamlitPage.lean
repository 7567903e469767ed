import Verif.Spec.StreamlitPage
import Verif.Proof.Streamlit
import Verif.Proof.PlotFrame

/-!
# Lemmas: what a page of the Streamlit app is computed from
-/

set_option autoImplicit false
set_option linter.unusedSectionVars false

namespace Verif

/-! ### Graphs with the same nodes and edges -/

theorem sortPair_swap (e : ℤ × ℤ) : sortPair (e.2, e.1) = sortPair e := by
  obtain ⟨a, b⟩ := e
  unfold sortPair
  simp only
  split <;> split <;> simp <;> omega

theorem pairLe_iff (a b : ℤ × ℤ) : pairLe a b = true ↔ a.1 < b.1 ∨ a.1 = b.1 ∧ a.2 ≤ b.2 := by
  unfold pairLe
  simp

theorem insertionSort_pairLe {l l' : List (ℤ × ℤ)} (h : l.Perm l') :
    (l.insertionSort fun a b => pairLe a b = true) =
      l'.insertionSort fun a b => pairLe a b = true := by
  let r : ℤ × ℤ → ℤ × ℤ → Prop := fun a b => pairLe a b = true
  have : Std.Total r := ⟨fun a b => by simp only [r, pairLe_iff]; omega⟩
  have : IsTrans (ℤ × ℤ) r := ⟨fun a b c => by simp only [r, pairLe_iff]; omega⟩
  have hp : (l.insertionSort r).Perm (l'.insertionSort r) :=
    (List.perm_insertionSort r l).trans (h.trans (List.perm_insertionSort r l').symm)
  refine hp.eq_of_pairwise (fun a b _ _ h1 h2 => ?_) (List.pairwise_insertionSort r l)
    (List.pairwise_insertionSort r l')
  simp only [r, pairLe_iff] at h1 h2
  exact Prod.ext (by omega) (by omega)

theorem map_sortPair {l l' : List (ℤ × ℤ)}
    (h : List.Forall₂ (fun e e' => e' = e ∨ e' = (e.2, e.1)) l l') :
    l.map sortPair = l'.map sortPair := by
  induction h with
  | nil => rfl
  | cons hab _ ih =>
    rw [List.map_cons, List.map_cons, ih]
    rcases hab with rfl | rfl
    · rfl
    · rw [sortPair_swap]

theorem encodeGraph_eq {g g' : NxGraph} (h : Relisted g g') : encodeGraph g = encodeGraph g' := by
  obtain ⟨h1, l, h2, h3⟩ := h
  unfold encodeGraph
  refine Prod.ext ?_ (insertionSort_pairLe ?_)
  · have hp : (g.nodes.keys.insertionSort (· ≤ ·)).Perm (g'.nodes.keys.insertionSort (· ≤ ·)) :=
      (List.perm_insertionSort _ _).trans (h1.trans (List.perm_insertionSort _ _).symm)
    exact hp.eq_of_pairwise (fun a b _ _ h1 h2 => le_antisymm h1 h2) (List.pairwise_insertionSort _ _)
      (List.pairwise_insertionSort _ _)
  · rw [map_sortPair h3]
    exact h2.map _

/-! ### The cache of layouts -/

section cache
variable {A V : Type} [DecidableEq A]

/-- What an unbounded cache has found it will always find. -/
theorem cacheData_keeps (k k' : A) (body : Py V) (m : List (A × V)) (e : A × V)
    (h : (m.find? fun e => e.1 = k') = some e) :
    ((cacheData none k body m).2.find? fun e => e.1 = k') = some e := by
  unfold cacheData
  cases hf : m.find? fun e => e.1 = k with
  | some x => exact h
  | none =>
    cases body with
    | error e => exact h
    | ok v =>
      simp only
      rw [List.find?_cons]
      by_cases hk : k = k'
      · subst hk; rw [hf] at h; cases h
      · simp [hk, h]

/-- What it returns it has kept. -/
theorem cacheData_found (k : A) (body : Py V) (m : List (A × V)) (v : V)
    (h : (cacheData none k body m).1 = .ok v) :
    ((cacheData none k body m).2.find? fun e => e.1 = k) = some (k, v) := by
  unfold cacheData at h ⊢
  cases hf : m.find? fun e => e.1 = k with
  | some x =>
    rw [hf] at h
    simp only [Except.ok.injEq] at h
    have := List.find?_some hf
    simp only [decide_eq_true_eq] at this
    simp only [hf]
    rw [← h, ← this]
  | none =>
    rw [hf] at h
    cases body with
    | error e => cases h
    | ok w => cases h; simp

theorem cacheData_uses (k : A) (body : Py V) (m : List (A × V)) (e : A × V)
    (h : (m.find? fun e => e.1 = k) = some e) : cacheData none k body m = (.ok e.2, m) := by
  unfold cacheData
  rw [h]

end cache

variable {K F : Type} [Field K] [LinearOrder K] [DecidableEq F]

/-- The plot kept for a graph and the settings of its layout. -/
def keptPlot (s : StCaches K F) (g : NxGraph) (c : StControls F) : Option (PlotKey × MapperPlot K) :=
  s.plot.find? fun e => e.1 = (encodeGraph g, stDim c.threeD, c.seed, c.iterations)

theorem dataSection_plot (L : StLibs K F) (c : StControls F) (s : StCaches K F) :
    (dataSection L c s).2.plot = s.plot := rfl

theorem graphSection_plot (L : StLibs K F) (c : StControls F) (X : Array2 K) (s : StCaches K F) :
    (graphSection L c X s).2.plot = s.plot := by
  unfold graphSection
  split <;> rfl

theorem figSection_plot (L : StLibs K F) (p : MapperPlot K) (X Y : Frame K) (a : StAgg)
    (s : StCaches K F) : (figSection L p X Y a s).2.plot = s.plot := by
  unfold figSection
  simp only
  split <;> rfl

theorem plotSection_keeps (L : StLibs K F) (c : StControls F) (g : NxGraph) (s : StCaches K F)
    (g' : NxGraph) (c' : StControls F) (e : PlotKey × MapperPlot K) (h : keptPlot s g' c' = some e) :
    keptPlot (plotSection L c g s).2 g' c' = some e :=
  cacheData_keeps _ _ _ _ _ h

theorem stMain_keeps (L : StLibs K F) (c : StControls F) (s : StCaches K F) (g' : NxGraph)
    (c' : StControls F) (e : PlotKey × MapperPlot K) (h : keptPlot s g' c' = some e) :
    keptPlot (stMain L c s).2 g' c' = some e := by
  unfold stMain
  have h1 : keptPlot (dataSection L c s).2 g' c' = some e := h
  rcases hd : dataSection L c s with ⟨r, s1⟩
  rw [hd] at h1
  split
  · rename_i hh; cases hh; exact h1
  · rename_i hh; cases hh; exact h1
  · rename_i dfX dfY s2 hh
    cases hh
    have h2 : keptPlot (graphSection L c dfX.toNumpy s1).2 g' c' = some e := by
      unfold keptPlot; rw [graphSection_plot]; exact h1
    rcases hg : graphSection L c dfX.toNumpy s1 with ⟨r, s2⟩
    rw [hg] at h2
    cases r with
    | error x => exact h2
    | ok g =>
      have h3 := plotSection_keeps L c g s2 g' c' e h2
      simp only
      rcases hp : plotSection L c g s2 with ⟨r, s3⟩
      rw [hp] at h3
      cases r with
      | error x => exact h3
      | ok p =>
        have h4 : keptPlot (figSection L p dfX dfY c.agg s3).2 g' c' = some e := by
          unfold keptPlot; rw [figSection_plot]; exact h3
        simp only
        rcases hf : figSection L p dfX dfY c.agg s3 with ⟨r, s4⟩
        rw [hf] at h4
        cases r <;> exact h4

theorem stAfter_keeps (L : StLibs K F) (g' : NxGraph) (c' : StControls F)
    (e : PlotKey × MapperPlot K) : ∀ (cs : List (StControls F)) (s : StCaches K F),
      keptPlot s g' c' = some e → keptPlot (stAfter L s cs) g' c' = some e
  | [], _, h => h
  | c :: cs, s, h => stAfter_keeps L g' c' e cs _ (stMain_keeps L c s g' c' e h)

theorem stAfter_append (L : StLibs K F) : ∀ (cs cs' : List (StControls F)) (s : StCaches K F),
    stAfter L s (cs ++ cs') = stAfter L (stAfter L s cs) cs'
  | [], _, _ => rfl
  | _ :: cs, cs', _ => stAfter_append L cs cs' _

/-- A page draws the plot that is kept for its graph from then on, or one with the same positions. -/
theorem stMain_draws {L : StLibs K F} (ht : TextFaithful L) {h : List (StControls F)}
    {s : StCaches K F} (H : CachesOK L h s) (c : StControls F) (hc : c ∈ h) (v : StView K)
    (hv : (stMain L c s).1 = .ok (some v)) :
    ∃ p p' f, keptPlot (stMain L c s).2 v.graph c = some
        ((encodeGraph v.graph, stDim c.threeD, c.seed, c.iterations), p) ∧
      (∃ c' ∈ h, pagePlot L c' = .ok p' ∧ p'.positions = p.positions) ∧
      computeMapperFig L p' (concatFrames [v.dfY, v.dfX]) c.agg = .ok f ∧
      v.fig = { f with width := none } := by
  unfold stMain at hv ⊢
  obtain ⟨d1, d2⟩ := dataSection_ok H c
  rcases hds : dataSection L c s with ⟨r, s1⟩
  rw [hds] at d1 d2 hv
  simp only at d1 d2
  subst d1
  cases hl : loadSource L c.source with
  | error e => rw [hl] at hv; cases e <;> cases hv
  | ok d =>
    obtain ⟨dfX, dfY⟩ := d
    rw [hl] at hv
    simp only at hv ⊢
    obtain ⟨g1, g2⟩ := graphSection_ok ht d2 c hl
    rcases hgs : graphSection L c dfX.toNumpy s1 with ⟨r, s2⟩
    rw [hgs] at g1 g2 hv
    simp only at g1 g2
    subst g1
    cases hg : pageGraph L c with
    | error e => rw [hg] at hv; cases hv
    | ok g =>
      rw [hg] at hv
      simp only at hv ⊢
      obtain ⟨p1, p2⟩ := plotSection_ok g2 c hc hg
      have kept : ∀ p, (plotSection L c g s2).1 = .ok p →
          keptPlot (plotSection L c g s2).2 g c =
            some ((encodeGraph g, stDim c.threeD, c.seed, c.iterations), p) :=
        fun p hp => cacheData_found _ _ _ _ hp
      rcases hps : plotSection L c g s2 with ⟨r, s3⟩
      rw [hps] at p1 p2 hv kept
      simp only at p1 p2
      cases r with
      | error e => cases hv
      | ok p =>
        have hp : ∃ c' ∈ h, pagePlot L c' = .ok p := by
          rcases p1 with h1 | ⟨c', hc', g', p', _, h2, _, _, _, _, h7⟩
          · exact ⟨c, hc, h1.symm⟩
          · cases h7; exact ⟨c', hc', h2⟩
        obtain ⟨c₀, hc₀, hp⟩ := hp
        simp only at hv ⊢
        obtain ⟨⟨c'', hc'', p'', f1, f2, f3⟩, f4⟩ := figSection_ok p2 c hc hl hc₀ hp
        have kept' : keptPlot (figSection L p dfX dfY c.agg s3).2 g c =
            some ((encodeGraph g, stDim c.threeD, c.seed, c.iterations), p) := by
          unfold keptPlot; rw [figSection_plot]; exact kept p rfl
        rcases hfs : figSection L p dfX dfY c.agg s3 with ⟨r, s4⟩
        rw [hfs] at f3 hv kept'
        simp only at f3
        subst f3
        cases hf : computeMapperFig L p'' (concatFrames [dfY, dfX]) c.agg with
        | error e => rw [hf] at hv; cases hv
        | ok f =>
          rw [hf] at hv
          simp only [Except.map, Except.ok.injEq, Option.some.injEq] at hv
          subst hv
          exact ⟨p, p'', f, kept', ⟨c'', hc'', f1, f2⟩, hf, rfl⟩

/-- A page whose graph has a plot kept draws it, or one with the same positions. -/
theorem stMain_redraws {L : StLibs K F} (ht : TextFaithful L) {h : List (StControls F)}
    {s : StCaches K F} (H : CachesOK L h s) (c : StControls F) (hc : c ∈ h) (v : StView K)
    (hv : (stMain L c s).1 = .ok (some v)) {k : PlotKey} {p : MapperPlot K}
    (hk : keptPlot s v.graph c = some (k, p)) :
    ∃ p' f, (∃ c' ∈ h, pagePlot L c' = .ok p' ∧ p'.positions = p.positions) ∧
      computeMapperFig L p' (concatFrames [v.dfY, v.dfX]) c.agg = .ok f ∧
      v.fig = { f with width := none } := by
  obtain ⟨q, p', f, h1, h2, h3⟩ := stMain_draws ht H c hc v hv
  rw [stMain_keeps L c s v.graph c _ hk] at h1
  cases h1
  exact ⟨p', f, h2, h3⟩

theorem computeMapper_ok {L : StLibs K F} {a : StCover} {b : StClustering} {X y : Array2 K}
    {sX sy : Bool} {g : NxGraph} (h : computeMapper L a b X y sX sy = .ok g) :
    ∃ X' y', ScaledIf L sX X X' ∧ ScaledIf L sy y y' ∧ L.fitTransform a b X' y' = .ok g := by
  unfold computeMapper at h
  unfold ScaledIf
  cases sX <;> cases sy <;> simp only [Bool.false_eq_true, if_false, if_true, ok_bind] at h ⊢
  · exact ⟨X, y, rfl, rfl, h⟩
  · obtain ⟨y', h1, h⟩ := bind_eq_ok.mp h
    exact ⟨X, y', rfl, h1, h⟩
  · obtain ⟨X', h1, h⟩ := bind_eq_ok.mp h
    exact ⟨X', y, h1, rfl, h⟩
  · obtain ⟨X', h1, h⟩ := bind_eq_ok.mp h
    obtain ⟨y', h2, h⟩ := bind_eq_ok.mp h
    exact ⟨X', y', h1, h2, h⟩

/-! ### Markers -/

theorem layoutDict_keys (dim : ℕ) (layout : List (List K)) : ∀ (ns : List ℤ) (i : ℕ)
    (d d' : PyDict ℤ (List K)), ns.Nodup → (∀ n ∈ ns, n ∉ d.keys) →
    layoutDict dim layout i ns d = .ok d' → d'.keys = d.keys ++ ns
  | [], i, d, d', _, _, h => by cases h; simp
  | n :: ns, i, d, d', hn, hd, h => by
    rw [List.nodup_cons] at hn
    unfold layoutDict at h
    obtain ⟨row, _, h⟩ := bind_eq_ok.mp h
    obtain ⟨p, _, h⟩ := bind_eq_ok.mp h
    have hks : (d.set n p).keys = d.keys ++ [n] := by
      rw [PyDict.keys_set, if_neg (hd n (List.mem_cons_self ..))]
    rw [layoutDict_keys dim layout ns (i + 1) _ d' hn.2 (fun m hm hm' => ?_) h, hks]
    · simp
    · rw [hks, List.mem_append, List.mem_singleton] at hm'
      rcases hm' with hm' | rfl
      · exact hd m (List.mem_cons_of_mem _ hm) hm'
      · exact hn.1 hm

theorem newPlot_keys {E : Engines K} {g : NxGraph} (hn : g.nodes.keys.Nodup) {dim : ℕ}
    (hdim : dim = 2 ∨ dim = 3) {it : ℤ} {seed : Option ℤ} {p : MapperPlot K}
    (h : newPlot E g dim it seed "igraph" = .ok p) :
    p.positions.keys = g.nodes.keys ∧ p.graph = g := by
  unfold newPlot at h
  rw [if_pos rfl] at h
  obtain ⟨pos, h1, h⟩ := bind_eq_ok.mp h
  cases h
  refine ⟨?_, rfl⟩
  unfold computePosIg at h1
  split at h1
  · rename_i h0
    cases h1
    have : g.nodes.keys = [] := by
      apply List.eq_nil_of_length_eq_zero
      simpa [PyDict.len, PyDict.keys] using h0
    rw [this]; rfl
  · obtain ⟨_, _, h1⟩ := bind_eq_ok.mp h1
    rcases hdim with rfl | rfl
    · rw [if_pos rfl] at h1
      obtain ⟨l, _, h1⟩ := bind_eq_ok.mp h1
      simpa [PyDict.empty, PyDict.keys] using layoutDict_keys _ _ _ _ _ _ hn
        (by simp [PyDict.empty, PyDict.keys]) h1
    · rw [if_neg (by omega), if_pos rfl] at h1
      obtain ⟨l, _, h1⟩ := bind_eq_ok.mp h1
      simpa [PyDict.empty, PyDict.keys] using layoutDict_keys _ _ _ _ _ _ hn
        (by simp [PyDict.empty, PyDict.keys]) h1

theorem coordinates_row {p : MapperPlot K} (hn : p.positions.keys.Nodup) {i : ℕ} {row : List K}
    (h : mapPy (coordinate p i) p.positions.keys = .ok row) :
    row.map some = p.positions.items.map fun e => e.2[i]? := by
  have hf := mapPy_eq_ok h
  unfold PyDict.keys at hf
  have hf := List.forall₂_map_left_iff.mp hf
  refine List.ext_getElem? fun j => ?_
  rw [List.getElem?_map, List.getElem?_map]
  have hlen := hf.length_eq
  by_cases hj : j < row.length
  · have hj' : j < p.positions.items.length := by omega
    have h1 := hf.get hj' hj
    rw [List.getElem?_eq_getElem hj, List.getElem?_eq_getElem hj']
    simp only [Option.map_some, Option.some.injEq]
    simp only [List.get_eq_getElem] at h1
    unfold coordinate at h1
    obtain ⟨pos, h2, h1⟩ := bind_eq_ok.mp h1
    have h3 : p.positions.getItem (p.positions.items[j]).1 = .ok (p.positions.items[j]).2 :=
      dictItem_ok (PyDict.get?_eq_some_of_mem hn (List.getElem_mem hj'))
    rw [h3] at h2
    cases h2
    unfold getItem at h1
    cases hg : (p.positions.items[j]).2[i]? with
    | none => rw [hg] at h1; cases h1
    | some x => rw [hg] at h1; cases h1; rfl
  · rw [List.getElem?_eq_none (by omega), List.getElem?_eq_none (by omega)]; rfl

theorem nodeTexts_nodes {g : NxGraph} {d : PyDict ℤ K} {text : List (NodeText K)}
    (h : nodeTexts g d = .ok text) : text.map NodeText.node = g.nodes.keys := by
  have hf := mapPy_eq_ok h
  refine List.ext_getElem? fun j => ?_
  rw [List.getElem?_map]
  have hlen := hf.length_eq
  by_cases hj : j < text.length
  · have hj' : j < g.nodes.keys.length := by omega
    have h1 := hf.get hj' hj
    rw [List.getElem?_eq_getElem hj, List.getElem?_eq_getElem hj']
    simp only [List.get_eq_getElem] at h1
    obtain ⟨c, _, h1⟩ := bind_eq_ok.mp h1
    obtain ⟨s, _, h1⟩ := bind_eq_ok.mp h1
    have := Except.ok.inj h1
    simp [← this]
  · rw [List.getElem?_eq_none (by omega), List.getElem?_eq_none (by omega)]; rfl

theorem getItem_some {α : Type} {l : List α} {i : ℕ} {x : α} (h : getItem l i = .ok x) :
    l[i]? = some x := by
  unfold getItem at h
  cases hg : l[i]? with
  | none => rw [hg] at h; cases h
  | some y => rw [hg] at h; cases h; rfl

theorem mapPy_get {α β : Type} {f : α → Py β} {l : List α} {bs : List β} (h : mapPy f l = .ok bs)
    {i : ℕ} {b : β} (hb : bs[i]? = some b) : ∃ a, l[i]? = some a ∧ f a = .ok b := by
  have hf := mapPy_eq_ok h
  obtain ⟨hi, rfl⟩ := List.getElem?_eq_some_iff.mp hb
  have hi' : i < l.length := by rw [hf.length_eq]; exact hi
  exact ⟨l[i], List.getElem?_eq_getElem hi', hf.get hi' hi⟩

theorem placedAt {L : StLibs K F} {p : MapperPlot K} (hn : p.positions.keys.Nodup)
    (hk : p.positions.keys = p.graph.nodes.keys) {colors : Frame K} {agg : StAgg} {f : Fig K}
    (hf : computeMapperFig L p colors agg = .ok f) : MarkersAt f p.positions := by
  have hA : PlotArgs.plot L.palette p ⟨.two colors.toColors, some (.many stNodeSizes),
    some (.many (colors.columns.map Column.name)), stAgg L agg,
    some (.many ["Jet", "Viridis", "Cividis"]), some 600, some 600⟩ = .ok f := hf
  obtain ⟨cmaps, c', titles, sizes, n0, e0, t, s, pc, sc, mc, mo, a1, a2, a3, a4, ac, ad, rfl⟩ :=
    plot_eq_ok.mp hA
  obtain ⟨np, ep, jet, h1, _, _, _, h5⟩ := ac
  have hpaint := ad.paint
  unfold paintOf at hpaint
  obtain ⟨col, _, hpaint⟩ := bind_eq_ok.mp hpaint
  obtain ⟨d, _, hpaint⟩ := bind_eq_ok.mp hpaint
  obtain ⟨text, htext, hpaint⟩ := bind_eq_ok.mp hpaint
  obtain ⟨ed, _, hpaint⟩ := bind_eq_ok.mp hpaint
  cases hpaint
  unfold nodesTrace at h5
  obtain ⟨x, hx, h5⟩ := bind_eq_ok.mp h5
  obtain ⟨y, hy, h5⟩ := bind_eq_ok.mp h5
  obtain ⟨sz, _, h5⟩ := bind_eq_ok.mp h5
  obtain ⟨z, hz, h5⟩ := bind_eq_ok.mp h5
  cases h5
  have row : ∀ (i : ℕ) r, np[i]? = some r → r.map some = p.positions.items.map fun e => e.2[i]? := by
    intro i r hr
    obtain ⟨a, ha, hr⟩ := mapPy_get h1 hr
    obtain ⟨hi, rfl⟩ := List.getElem?_eq_some_iff.mp ha
    rw [List.getElem_range, ← hk] at hr
    exact coordinates_row hn hr
  refine ⟨text, rfl, by rw [nodeTexts_nodes htext, hk], row 0 _ (getItem_some hx),
    row 1 _ (getItem_some hy), fun w hw => ?_⟩
  change z = some w at hw
  subst hw
  unfold thirdAxis at hz
  split at hz
  · cases hg : getItem np 2 with
    | error e => rw [hg] at hz; cases hz
    | ok r =>
      rw [hg] at hz
      cases hz
      exact row 2 _ (getItem_some hg)
  · cases hz

/-! ### Graphs of Mapper name each node once -/

theorem PyDict.nodup_set {A V : Type} [DecidableEq A] {d : PyDict A V} (h : d.keys.Nodup) (k : A)
    (v : V) : (d.set k v).keys.Nodup := by
  rw [PyDict.keys_set]
  split
  · exact h
  · rename_i hk
    rw [List.nodup_append]
    exact ⟨h, List.nodup_singleton _, fun a ha b hb => by
      rw [List.mem_singleton.mp hb]; rintro rfl; exact hk ha⟩

theorem addPoint_nodup (n : ℕ) : ∀ (l : List ℤ) (g g' : NxGraph), g.nodes.keys.Nodup →
    addPoint n l g = .ok g' → g'.nodes.keys.Nodup
  | [], g, g', h, e => by cases e; exact h
  | lbl :: rest, g, g', h, e => by
    unfold addPoint at e
    obtain ⟨g1, e1, e⟩ := bind_eq_ok.mp e
    obtain ⟨g2, e2, e⟩ := bind_eq_ok.mp e
    refine addPoint_nodup n rest g2 g' ?_ e
    have h0 : (if g.hasNode lbl then g else g.addNode lbl ⟨some 0, some []⟩).nodes.keys.Nodup := by
      split
      · exact h
      · exact PyDict.nodup_set h _ _
    have h1 : g1.nodes.keys.Nodup := by
      unfold incrSize at e1
      obtain ⟨a, _, e1⟩ := bind_eq_ok.mp e1
      split at e1
      · cases e1; exact PyDict.nodup_set h0 _ _
      · cases e1
    unfold appendId at e2
    obtain ⟨a, _, e2⟩ := bind_eq_ok.mp e2
    split at e2
    · cases e2; exact PyDict.nodup_set h1 _ _
    · cases e2

theorem addPoints_nodup : ∀ (itm : List (List ℤ)) (n : ℕ) (g g' : NxGraph), g.nodes.keys.Nodup →
    addPoints n itm g = .ok g' → g'.nodes.keys.Nodup
  | [], _, g, g', h, e => by cases e; exact h
  | l :: itm, n, g, g', h, e => by
    unfold addPoints at e
    obtain ⟨g1, e1, e⟩ := bind_eq_ok.mp e
    exact addPoints_nodup itm (n + 1) g1 g' (addPoint_nodup n l g g1 h e1) e

theorem addEdge_nodup {g g' : NxGraph} {u v : ℤ} (h : g.nodes.keys.Nodup)
    (e : g.addEdge u v = .ok g') : g'.nodes.keys.Nodup := by
  have he : ∀ (g : NxGraph) (n : ℤ), g.nodes.keys.Nodup → (g.ensureNode n).nodes.keys.Nodup := by
    intro g n h
    unfold NxGraph.ensureNode
    split
    · exact h
    · exact PyDict.nodup_set h _ _
  unfold NxGraph.addEdge at e
  obtain ⟨a, _, e⟩ := bind_eq_ok.mp e
  obtain ⟨b, _, e⟩ := bind_eq_ok.mp e
  cases e
  exact he _ v (he _ u h)

theorem addEdgesFrom_nodup (u : ℤ) : ∀ (l : List ℤ) (g g' : NxGraph), g.nodes.keys.Nodup →
    addEdgesFrom u l g = .ok g' → g'.nodes.keys.Nodup
  | [], g, g', h, e => by cases e; exact h
  | v :: l, g, g', h, e => by
    unfold addEdgesFrom at e
    obtain ⟨nb, _, e⟩ := bind_eq_ok.mp e
    split at e
    · exact addEdgesFrom_nodup u l g g' h e
    · obtain ⟨g1, e1, e⟩ := bind_eq_ok.mp e
      exact addEdgesFrom_nodup u l g1 g' (addEdge_nodup h e1) e

theorem addEdgesOf_nodup : ∀ (l : List ℤ) (g g' : NxGraph), g.nodes.keys.Nodup →
    addEdgesOf l g = .ok g' → g'.nodes.keys.Nodup
  | [], g, g', h, e => by cases e; exact h
  | u :: l, g, g', h, e => by
    unfold addEdgesOf at e
    obtain ⟨g1, e1, e⟩ := bind_eq_ok.mp e
    exact addEdgesOf_nodup l g1 g' (addEdgesFrom_nodup u l g g1 h e1) e

theorem addEdges_nodup : ∀ (itm : List (List ℤ)) (g g' : NxGraph), g.nodes.keys.Nodup →
    addEdges itm g = .ok g' → g'.nodes.keys.Nodup
  | [], g, g', h, e => by cases e; exact h
  | l :: itm, g, g', h, e => by
    unfold addEdges at e
    obtain ⟨g1, e1, e⟩ := bind_eq_ok.mp e
    exact addEdges_nodup itm g1 g' (addEdgesOf_nodup l g g1 h e1) e

/-- Whatever the cover and the clustering do, a graph that is returned has distinct nodes. -/
theorem mapperGraph_nodup {S T : Type} {X : List S} {y : List T} {cover : CoverFn T}
    {clust : ClustFn S} {g : NxGraph} (h : mapperGraph X y cover clust = .ok g) :
    g.nodes.keys.Nodup := by
  unfold mapperGraph at h
  obtain ⟨itm, _, h⟩ := bind_eq_ok.mp h
  obtain ⟨g1, h1, h⟩ := bind_eq_ok.mp h
  exact addEdges_nodup itm g1 g (addPoints_nodup itm 0 .empty g1 List.nodup_nil h1) h

end Verif
