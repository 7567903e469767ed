import Verif.Spec.Plot
import Verif.Proof.Graph

/-!
# Lemmas about plots: success of the drawing functions
-/

set_option autoImplicit false
set_option linter.unusedSectionVars false

namespace Verif

variable {K V : Type}

theorem mapPy_ok {α β : Type} {f : α → Py β} {g : α → β} :
    ∀ {l : List α}, (∀ a ∈ l, f a = .ok (g a)) → mapPy f l = .ok (l.map g)
  | [], _ => rfl
  | a :: l, h => by
    simp only [mapPy, h a (List.mem_cons_self ..), ok_bind,
      mapPy_ok (fun b hb => h b (List.mem_cons_of_mem _ hb)), pure_eq_ok, List.map_cons]

theorem mapPy_eq_ok {α β : Type} {f : α → Py β} : ∀ {l : List α} {bs : List β},
    mapPy f l = .ok bs → List.Forall₂ (fun a b => f a = .ok b) l bs
  | [], bs, h => by
    cases h; exact .nil
  | a :: l, bs, h => by
    rw [mapPy] at h
    obtain ⟨b, h1, h⟩ := bind_eq_ok.mp h
    obtain ⟨bs', h2, h⟩ := bind_eq_ok.mp h
    cases h
    exact .cons h1 (mapPy_eq_ok h2)

theorem mapPy_exists {α β : Type} {f : α → Py β} : ∀ {l : List α}, (∀ a ∈ l, ∃ b, f a = .ok b) →
    ∃ bs, mapPy f l = .ok bs
  | [], _ => ⟨[], rfl⟩
  | a :: l, h => by
    obtain ⟨b, hb⟩ := h a (List.mem_cons_self ..)
    obtain ⟨bs, hbs⟩ := mapPy_exists (fun x hx => h x (List.mem_cons_of_mem _ hx))
    exact ⟨b :: bs, by simp only [mapPy, hb, hbs, ok_bind, pure_eq_ok]⟩

section
variable [Field K] [LinearOrder K]

theorem outcome_andThen (r : Py Unit × Fig K) (s : Setter K) :
    outcome (andThen r s) = outcome r >>= s := by
  obtain ⟨e, f⟩ := r
  cases e with
  | error e => rfl
  | ok u =>
    change outcome (match s f with
      | .ok f' => (.ok (), f')
      | .error e => (.error e, f)) = s f
    cases s f <;> rfl

theorem outcome_eq_ok {r : Py Unit × Fig K} {f : Fig K} : outcome r = .ok f ↔ r = (.ok (), f) := by
  obtain ⟨e, f'⟩ := r
  cases e with
  | error e => simp [outcome]
  | ok u => simp [outcome]

/-- Colours as they are shown. -/
structure Paint (K : Type) where
  text : List (NodeText K)
  arr : List K
  edges : Option (List K)

/-- The colours of the edges, in three dimensions. -/
def edgePaint (p : MapperPlot K) (d : PyDict ℤ K) : Py (Option (List K)) :=
  if p.dim = 3 then (edgeColors d p.graph.edges).map some else .ok none

/-- The colours of one column. -/
def paintOf (p : MapperPlot K) (colors : Colors V) (agg : List V → Py K) (i : ℕ) : Py (Paint K) := do
  let col ← colors.column i
  let d ← aggregateGraph col p.graph agg
  let text ← nodeTexts p.graph d
  let e ← edgePaint p d
  return ⟨text, d.items.map Prod.snd, e⟩

/-- The figure with these parts. -/
def mkFig (n0 : NodesTrace K) (e0 : EdgesTrace K) (three : Bool) (w h : Option ℤ) (t : String) (s : K)
    (c : Paint K) (sc : Scale K) (ui : Ui K) : Fig K where
  nodes := { n0 with title := t, sizeref := sizerefOf s, text := some c.text, color := some c.arr,
                     cmin := minColor c.arr, cmax := maxColor c.arr, scale := sc }
  edges := if three then { e0 with color := c.edges, cmin := minColor c.arr, cmax := maxColor c.arr,
                                   scale := some sc } else e0
  ui := ui
  width := w
  height := h

/-- What a successful drawing has computed. -/
structure Drawn (P : Palette K) (p : MapperPlot K) (cmaps : List String) (colors : Colors V)
    (titles : List String) (sizes : List K) (agg : List V → Py K) (t : String) (s : K) (c : Paint K)
    (sc : Scale K) (mc mo : List (String × Restyle K)) : Prop where
  title : getItem titles 0 = .ok t
  size : getItem sizes (sizes.length / 2) = .ok s
  paint : paintOf p colors agg 0 = .ok c
  scale : ∃ name, getItem cmaps 0 = .ok name ∧ P.scale name = .ok sc
  menuC : menuCmap P p cmaps = .ok mc
  menuO : menuColor p colors titles agg = .ok mo

theorem setColors_chain {p : MapperPlot K} {colors : Colors V} {agg : List V → Py K} {f g : Fig K} :
    (setNodeColors p colors agg f >>= setEdgeColors p colors agg) = .ok g ↔
      ∃ c, paintOf p colors agg 0 = .ok c ∧
        g = { f with
          nodes := { f.nodes with text := some c.text, color := some c.arr, cmin := minColor c.arr,
                                  cmax := maxColor c.arr }
          edges := if p.dim = 3 then { f.edges with color := c.edges, cmin := minColor c.arr,
                                                    cmax := maxColor c.arr } else f.edges } := by
  unfold setNodeColors setEdgeColors paintOf edgePaint
  cases h1 : colors.column 0 with
  | error e => simp [error_bind]
  | ok col =>
  simp only [ok_bind]
  cases h2 : aggregateGraph col p.graph agg with
  | error e => simp [error_bind]
  | ok d =>
  simp only [ok_bind]
  cases h3 : nodeTexts p.graph d with
  | error e => simp [error_bind]
  | ok text =>
  simp only [ok_bind, pure_eq_ok]
  by_cases h4 : p.dim = 3
  · simp only [if_pos h4]
    cases h5 : edgeColors d p.graph.edges with
    | error e => simp [error_bind, Except.map]
    | ok ec =>
      simp only [ok_bind, Except.map, Except.ok.injEq]
      constructor
      · intro h; exact ⟨_, rfl, h.symm⟩
      · rintro ⟨c, rfl, h⟩; exact h.symm
  · simp only [if_neg h4, ok_bind, Except.ok.injEq]
    constructor
    · intro h; exact ⟨_, rfl, h.symm⟩
    · rintro ⟨c, rfl, h⟩; exact h.symm

theorem getItem_bind_ok {α β : Type} {l : List α} {i : ℕ} {g : α → β} {b : β} :
    (getItem l i >>= fun a => (pure (g a) : Py β)) = .ok b ↔ ∃ a, getItem l i = .ok a ∧ b = g a := by
  cases h : getItem l i with
  | error e => simp [error_bind]
  | ok a => simp [ok_bind, pure_eq_ok, eq_comm]

theorem setTitle_eq {titles : List String} {f g : Fig K} : setTitle titles f = .ok g ↔
    ∃ t, getItem titles 0 = .ok t ∧ g = { f with nodes := { f.nodes with title := t } } :=
  getItem_bind_ok

theorem setNodeSize_eq {sizes : List K} {f g : Fig K} : setNodeSize sizes f = .ok g ↔
    ∃ s, getItem sizes (sizes.length / 2) = .ok s ∧
      g = { f with nodes := { f.nodes with sizeref := sizerefOf s } } :=
  getItem_bind_ok

theorem setCmap_eq {P : Palette K} {p : MapperPlot K} {cmaps : List String} {f g : Fig K} :
    setCmap P p cmaps f = .ok g ↔
      ∃ sc, (∃ name, getItem cmaps 0 = .ok name ∧ P.scale name = .ok sc) ∧
        g = { f with
          nodes := { f.nodes with scale := sc }
          edges := if p.dim = 3 then { f.edges with scale := some sc } else f.edges } := by
  unfold setCmap
  cases h1 : getItem cmaps 0 with
  | error e => simp [error_bind]
  | ok name =>
    simp only [ok_bind]
    cases h2 : P.scale name with
    | error e => simp [error_bind, h2]
    | ok sc =>
      by_cases h3 : p.dim = 3
      · simp [ok_bind, pure_eq_ok, h2, h3, eq_comm]
      · simp [ok_bind, pure_eq_ok, h2, h3, eq_comm]

/-- All setters together, on a figure with any outcome. -/
theorem updateFigure_outcome (P : Palette K) (p : MapperPlot K) (titles : Option (List String))
    (sizes : Option (List K)) (colors : Option (Colors V)) (agg : Option (List V → Py K))
    (cmaps : Option (List String)) (width height : Option ℤ) (r : Py Unit × Fig K) :
    outcome (updateFigure P p titles sizes colors agg cmaps width height r) =
      outcome r >>= fun f => ifGiven width setWidth f >>= fun f => ifGiven height setHeight f >>=
        fun f => ifGiven titles setTitle f >>= fun f => ifGiven sizes setNodeSize f >>=
        fun f => (ifBoth colors agg (setNodeColors p) f >>= ifBoth colors agg (setEdgeColors p)) >>=
        fun f => ifGiven cmaps (setCmap P p) f := by
  simp only [updateFigure, outcome_andThen, bind_assoc]

/-- The traces of a new figure. -/
def Canvas (P : Palette K) (p : MapperPlot K) (n0 : NodesTrace K) (e0 : EdgesTrace K) : Prop :=
  ∃ np ep jet, nodePosArray p = .ok np ∧ edgePosArray p = .ok ep ∧ P.scale "Jet" = .ok jet ∧
    edgesTrace jet p ep = .ok e0 ∧ nodesTrace jet p np = .ok n0

theorem Canvas.unique {P : Palette K} {p : MapperPlot K} {n0 n0' : NodesTrace K}
    {e0 e0' : EdgesTrace K} (h : Canvas P p n0 e0) (h' : Canvas P p n0' e0') :
    n0 = n0' ∧ e0 = e0' := by
  obtain ⟨np, ep, jet, h1, h2, h3, h4, h5⟩ := h
  obtain ⟨np', ep', jet', h1', h2', h3', h4', h5'⟩ := h'
  rw [h1] at h1'; cases h1'
  rw [h2] at h2'; cases h2'
  rw [h3] at h3'; cases h3'
  rw [h4] at h4'; cases h4'
  rw [h5] at h5'; cases h5'
  exact ⟨rfl, rfl⟩

/-- The figure of `plot_plotly`, from its parts. -/
theorem plot_eq_ok {P : Palette K} {p : MapperPlot K} {A : PlotArgs V K} {f : Fig K} :
    A.plot P p = .ok f ↔ ∃ cmaps c titles sizes n0 e0 t s pc sc mc mo,
      toCmaps A.cmap = .ok cmaps ∧ toColors A.colors = .ok c ∧ toTitles A.title c.cols = .ok titles ∧
      toNodeSizes A.nodeSize = .ok sizes ∧ Canvas P p n0 e0 ∧
      Drawn P p cmaps c titles sizes A.agg t s pc sc mc mo ∧
      f = mkFig n0 e0 (decide (p.dim = 3)) A.width A.height t s pc sc
        ⟨true, some mc, some mo, some (sliderSize sizes)⟩ := by
  obtain ⟨colors, ns, title, agg, cmap, w, h⟩ := A
  simp only [PlotArgs.plot, plotPlotly]
  constructor
  · intro hf
    obtain ⟨cmaps, h1, hf⟩ := bind_eq_ok.mp hf
    obtain ⟨c, h2, hf⟩ := bind_eq_ok.mp hf
    obtain ⟨titles, h3, hf⟩ := bind_eq_ok.mp hf
    obtain ⟨sizes, h4, hf⟩ := bind_eq_ok.mp hf
    obtain ⟨np, h5, hf⟩ := bind_eq_ok.mp hf
    obtain ⟨ep, h6, hf⟩ := bind_eq_ok.mp hf
    obtain ⟨jet, h7, hf⟩ := bind_eq_ok.mp hf
    obtain ⟨e0, h8, hf⟩ := bind_eq_ok.mp hf
    obtain ⟨n0, h9, hf⟩ := bind_eq_ok.mp hf
    obtain ⟨f1, h10, hf⟩ := bind_eq_ok.mp hf
    rw [updateFigure_outcome] at h10
    obtain ⟨g0, e, h10⟩ := bind_eq_ok.mp h10
    cases e
    obtain ⟨g1, k1, h10⟩ := bind_eq_ok.mp h10
    obtain ⟨g2, k2, h10⟩ := bind_eq_ok.mp h10
    obtain ⟨g3, k3, h10⟩ := bind_eq_ok.mp h10
    obtain ⟨g4, k4, h10⟩ := bind_eq_ok.mp h10
    obtain ⟨g5, k5, h10⟩ := bind_eq_ok.mp h10
    obtain ⟨t, k3, e3⟩ := setTitle_eq.mp k3
    obtain ⟨s, k4, e4⟩ := setNodeSize_eq.mp k4
    obtain ⟨pc, k5, e5⟩ := setColors_chain.mp k5
    obtain ⟨sc, k6, e6⟩ := setCmap_eq.mp h10
    simp only [setUi, newMenuCmap, newMenuColor] at hf
    obtain ⟨x, hx, hf⟩ := bind_eq_ok.mp hf
    obtain ⟨mc, hmc, e7⟩ := bind_eq_ok.mp hx
    cases e7
    obtain ⟨x, hx, hf⟩ := bind_eq_ok.mp hf
    obtain ⟨mo, hmo, e8⟩ := bind_eq_ok.mp hx
    cases e8
    cases hf
    refine ⟨cmaps, c, titles, sizes, n0, e0, t, s, pc, sc, mc, mo, h1, h2, h3, h4,
      ⟨np, ep, jet, h5, h6, h7, h8, h9⟩, ⟨k3, k4, k5, k6, hmc, hmo⟩, ?_⟩
    have hw : g1 = { nodes := n0, edges := e0, width := w } := by
      cases w <;> cases k1 <;> rfl
    have hh : g2 = { nodes := n0, edges := e0, width := w, height := h } := by
      subst hw
      cases h <;> cases k2 <;> rfl
    subst hh e3 e4 e5 e6
    by_cases h3 : p.dim = 3
    · simp [mkFig, h3]
    · simp [mkFig, h3]
  · rintro ⟨cmaps, c, titles, sizes, n0, e0, t, s, pc, sc, mc, mo, h1, h2, h3, h4,
      ⟨np, ep, jet, h5, h6, h7, h8, h9⟩, hd, rfl⟩
    simp only [h1, h2, h3, h4, h5, h6, h7, h8, h9, ok_bind]
    refine bind_eq_ok.mpr ⟨{ mkFig n0 e0 (decide (p.dim = 3)) w h t s pc sc {} with ui := {} }, ?_, ?_⟩
    · rw [updateFigure_outcome]
      refine bind_eq_ok.mpr ⟨_, rfl, bind_eq_ok.mpr
        ⟨{ nodes := n0, edges := e0, width := w }, by cases w <;> rfl, bind_eq_ok.mpr
        ⟨{ nodes := n0, edges := e0, width := w, height := h }, by cases h <;> rfl, bind_eq_ok.mpr
        ⟨_, setTitle_eq.mpr ⟨t, hd.title, rfl⟩, bind_eq_ok.mpr
        ⟨_, setNodeSize_eq.mpr ⟨s, hd.size, rfl⟩, bind_eq_ok.mpr
        ⟨_, setColors_chain.mpr ⟨pc, hd.paint, rfl⟩, setCmap_eq.mpr ⟨sc, hd.scale, ?_⟩⟩⟩⟩⟩⟩⟩
      by_cases h3 : p.dim = 3
      · simp [mkFig, h3]
      · simp [mkFig, h3]
    · simp only [setUi, newMenuCmap, newMenuColor, hd.menuC, hd.menuO, ok_bind, pure_eq_ok]
      rfl

end

end Verif
