import Verif.Proof.Plot

/-!
# Lemmas about `plot_plotly_update`
-/

set_option autoImplicit false
set_option linter.unusedSectionVars false

namespace Verif

variable {K V : Type} [Field K] [LinearOrder K]

theorem plotUpdate_outcome {P : Palette K} {p : MapperPlot K} {f : Fig K} {width height : Option ℤ}
    {nodeSize : Option (OneOrMany K)} {colors : Option (ColorsArg V)}
    {title : Option (OneOrMany String)} {agg : Option (List V → Py K)}
    {cmap : Option (OneOrMany String)} {cmaps : Option (List String)} {cols : Option (Colors V)}
    {titles : Option (List String)} {sizes : Option (List K)}
    (h1 : convert (fun c => toCmaps (some c)) cmap = .ok cmaps)
    (h2 : convert toColors colors = .ok cols)
    (h3 : convert (fun t => toTitles (some t) ((cols.map Colors.cols).getD 0)) title = .ok titles)
    (h4 : convert (fun s => toNodeSizes (some s)) nodeSize = .ok sizes) :
    plotPlotlyUpdate P p f width height nodeSize colors title agg cmap =
      updateFigure P p titles sizes cols agg cmaps width height
        (andThen (.ok (), f) (setUi P p cmaps cols titles agg sizes)) := by
  simp only [plotPlotlyUpdate, h1, h2, h3, h4, ok_bind, pure_eq_ok]

theorem update_replot {P : Palette K} {p : MapperPlot K} {A : PlotArgs V K} {B : UpdateArgs V K}
    {f g : Fig K} (hf : A.plot P p = .ok f) (hg : (A.override B).plot P p = .ok g) :
    B.apply P p f = (.ok (), g) := by
  obtain ⟨cmaps, c, titles, sizes, n0, e0, t, s, pc, sc, mc, mo, a1, a2, a3, a4, ac, ad, rfl⟩ :=
    plot_eq_ok.mp hf
  obtain ⟨cmaps', c', titles', sizes', n0', e0', t', s', pc', sc', mc', mo', b1, b2, b3, b4, bc, bd,
    rfl⟩ := plot_eq_ok.mp hg
  obtain ⟨rfl, rfl⟩ := ac.unique bc
  obtain ⟨Bc, Bs, Bm, Bw, Bh⟩ := B
  -- the converted arguments
  have c1 : convert (fun c => toCmaps (some c)) Bm = .ok (Bm.map fun _ => cmaps') := by
    cases Bm with
    | none => rfl
    | some m =>
      have : toCmaps (some m) = .ok cmaps' := b1
      simp [convert, this, ok_bind, pure_eq_ok]
  have c2 : convert toColors (Bc.map fun x => x.1) = .ok (Bc.map fun _ => c') := by
    cases Bc with
    | none => rfl
    | some m =>
      have : toColors m.1 = .ok c' := b2
      simp [convert, this, ok_bind, pure_eq_ok]
  have c3 : convert (fun t => toTitles (some t) (((Bc.map fun _ => c').map Colors.cols).getD 0))
      (Bc.map fun x => x.2.2) = .ok (Bc.map fun _ => titles') := by
    cases Bc with
    | none => rfl
    | some m =>
      have : toTitles (some m.2.2) c'.cols = .ok titles' := b3
      simp [convert, this, ok_bind, pure_eq_ok]
  have c4 : convert (fun s => toNodeSizes (some s)) Bs = .ok (Bs.map fun _ => sizes') := by
    cases Bs with
    | none => rfl
    | some m =>
      have : toNodeSizes (some m) = .ok sizes' := b4
      simp [convert, this, ok_bind, pure_eq_ok]
  -- what is not given stays
  have d1 : Bm = none → mc = mc' ∧ sc = sc' := by
    rintro rfl
    have : toCmaps A.cmap = .ok cmaps' := b1
    rw [a1] at this; cases this
    have e := bd.menuC; rw [ad.menuC] at e; cases e
    obtain ⟨n, h1, h2⟩ := ad.scale
    obtain ⟨n', h1', h2'⟩ := bd.scale
    rw [h1] at h1'; cases h1'
    rw [h2] at h2'; cases h2'
    exact ⟨rfl, rfl⟩
  have d2 : Bc = none → mo = mo' ∧ t = t' ∧ pc = pc' := by
    rintro rfl
    have e1 : toColors A.colors = .ok c' := b2
    rw [a2] at e1; cases e1
    have e2 : toTitles A.title c.cols = .ok titles' := b3
    rw [a3] at e2; cases e2
    have ha : (A.override ⟨none, Bs, Bm, Bw, Bh⟩).agg = A.agg := rfl
    rw [ha] at bd
    have e := bd.menuO; rw [ad.menuO] at e; cases e
    have e := bd.title; rw [ad.title] at e; cases e
    have e := bd.paint; rw [ad.paint] at e; cases e
    exact ⟨rfl, rfl, rfl⟩
  have d3 : Bs = none → sizes = sizes' ∧ s = s' := by
    rintro rfl
    have : toNodeSizes A.nodeSize = .ok sizes' := b4
    rw [a4] at this; cases this
    have e := bd.size; rw [ad.size] at e; cases e
    exact ⟨rfl, rfl⟩
  apply outcome_eq_ok.mp
  rw [UpdateArgs.apply, plotUpdate_outcome c1 c2 c3 c4, updateFigure_outcome, outcome_andThen]
  -- the steps
  have hui : ∀ F : Fig K, F.ui = ⟨true, some mc, some mo, some (sliderSize sizes)⟩ →
      setUi P p (Bm.map fun _ => cmaps') (Bc.map fun _ => c') (Bc.map fun _ => titles')
        (Bc.map fun x => x.2.1) (Bs.map fun _ => sizes') F =
      .ok { F with ui := ⟨true, some mc', some mo', some (sliderSize sizes')⟩ } := by
    intro F hF
    have u1 : newMenuCmap P p (Bm.map fun _ => cmaps') F.ui.cmaps = .ok (some mc') := by
      cases Bm with
      | none => rw [hF, ← (d1 rfl).1]; rfl
      | some m => simp [newMenuCmap, bd.menuC, ok_bind, pure_eq_ok]
    have u2 : newMenuColor p (Bc.map fun _ => c') (Bc.map fun _ => titles') (Bc.map fun x => x.2.1)
        F.ui.colors = .ok (some mo') := by
      cases Bc with
      | none => rw [hF, ← (d2 rfl).1]; rfl
      | some m =>
        have hm : menuColor p c' titles' m.2.1 = .ok mo' := bd.menuO
        simp [newMenuColor, hm, ok_bind, pure_eq_ok]
    simp only [setUi, u1, u2, ok_bind, pure_eq_ok]
    cases Bs with
    | none => simp only [Option.map_none, hF, (d3 rfl).1]
    | some m => rfl
  have hw : ∀ F : Fig K, F.width = A.width → ifGiven Bw setWidth F =
      .ok { F with width := if Bw.isSome then Bw else A.width } := by
    intro F hF
    cases Bw with
    | none => simp [ifGiven, ← hF]
    | some w => rfl
  have hh : ∀ F : Fig K, F.height = A.height → ifGiven Bh setHeight F =
      .ok { F with height := if Bh.isSome then Bh else A.height } := by
    intro F hF
    cases Bh with
    | none => simp [ifGiven, ← hF]
    | some w => rfl
  have ht : ∀ F : Fig K, F.nodes.title = t → ifGiven (Bc.map fun _ => titles') setTitle F =
      .ok { F with nodes := { F.nodes with title := t' } } := by
    intro F hF
    cases Bc with
    | none => simp [ifGiven, ← (d2 rfl).2.1, ← hF]
    | some m => exact setTitle_eq.mpr ⟨_, bd.title, rfl⟩
  have hs : ∀ F : Fig K, F.nodes.sizeref = sizerefOf s → ifGiven (Bs.map fun _ => sizes') setNodeSize F =
      .ok { F with nodes := { F.nodes with sizeref := sizerefOf s' } } := by
    intro F hF
    cases Bs with
    | none => simp [ifGiven, ← (d3 rfl).2, ← hF]
    | some m => exact setNodeSize_eq.mpr ⟨_, bd.size, rfl⟩
  have hc : ∀ F : Fig K, F.nodes.text = some pc.text → F.nodes.color = some pc.arr →
      F.nodes.cmin = minColor pc.arr → F.nodes.cmax = maxColor pc.arr →
      (p.dim = 3 → F.edges.color = pc.edges ∧ F.edges.cmin = minColor pc.arr ∧
        F.edges.cmax = maxColor pc.arr) →
      (ifBoth (Bc.map fun _ => c') (Bc.map fun x => x.2.1) (setNodeColors p) F >>=
        ifBoth (Bc.map fun _ => c') (Bc.map fun x => x.2.1) (setEdgeColors p)) =
      .ok { F with
          nodes := { F.nodes with text := some pc'.text, color := some pc'.arr,
                                  cmin := minColor pc'.arr, cmax := maxColor pc'.arr }
          edges := if p.dim = 3 then { F.edges with color := pc'.edges, cmin := minColor pc'.arr,
                                                    cmax := maxColor pc'.arr } else F.edges } := by
    intro F k1 k2 k3 k4 k5
    cases Bc with
    | none =>
      obtain ⟨_, _, rfl⟩ := d2 rfl
      simp only [ifBoth, Option.map_none, ok_bind]
      by_cases h3 : p.dim = 3
      · obtain ⟨q5, q6, q7⟩ := k5 h3
        obtain ⟨⟨x, y, z, size, text, color, cmin, cmax, sizeref, title, scale⟩,
          ⟨x', y', z', color', cmin', cmax', scale'⟩, ui, w, h⟩ := F
        dsimp only at k1 k2 k3 k4 q5 q6 q7
        clear k5
        subst k1 k2 k3 k4 q5 q6 q7
        simp only [h3, if_true]
      · simp only [h3, if_false, ← k1, ← k2, ← k3, ← k4]
    | some m => exact setColors_chain.mpr ⟨pc', bd.paint, rfl⟩
  have hm : ∀ F : Fig K, F.nodes.scale = sc → (p.dim = 3 → F.edges.scale = some sc) →
      ifGiven (Bm.map fun _ => cmaps') (setCmap P p) F = .ok { F with
          nodes := { F.nodes with scale := sc' }
          edges := if p.dim = 3 then { F.edges with scale := some sc' } else F.edges } := by
    intro F k1 k2
    cases Bm with
    | none =>
      rw [← (d1 rfl).2]
      by_cases h3 : p.dim = 3
      · have k2 := k2 h3
        obtain ⟨⟨x, y, z, size, text, color, cmin, cmax, sizeref, title, scale⟩,
          ⟨x', y', z', color', cmin', cmax', scale'⟩, ui, w, h⟩ := F
        dsimp only at k1 k2
        subst k1 k2
        simp [ifGiven, h3]
      · simp [ifGiven, h3, ← k1]
    | some m => exact setCmap_eq.mpr ⟨sc', bd.scale, rfl⟩
  by_cases h3 : p.dim = 3
  · refine bind_eq_ok.mpr ⟨_, bind_eq_ok.mpr ⟨_, rfl, hui _ rfl⟩, bind_eq_ok.mpr ⟨_, hw _ rfl,
      bind_eq_ok.mpr ⟨_, hh _ rfl, bind_eq_ok.mpr ⟨_, ht _ rfl, bind_eq_ok.mpr ⟨_, hs _ rfl,
      bind_eq_ok.mpr ⟨_, hc _ rfl rfl rfl rfl ?_, (hm _ rfl ?_).trans ?_⟩⟩⟩⟩⟩⟩
    · intro _; simp [mkFig, h3]
    · intro _; simp [mkFig, h3]
    · simp [mkFig, h3, PlotArgs.override]
  · refine bind_eq_ok.mpr ⟨_, bind_eq_ok.mpr ⟨_, rfl, hui _ rfl⟩, bind_eq_ok.mpr ⟨_, hw _ rfl,
      bind_eq_ok.mpr ⟨_, hh _ rfl, bind_eq_ok.mpr ⟨_, ht _ rfl, bind_eq_ok.mpr ⟨_, hs _ rfl,
      bind_eq_ok.mpr ⟨_, hc _ rfl rfl rfl rfl ?_, (hm _ rfl ?_).trans ?_⟩⟩⟩⟩⟩⟩
    · intro h; exact absurd h h3
    · intro h; exact absurd h h3
    · simp [mkFig, h3, PlotArgs.override]

end Verif
