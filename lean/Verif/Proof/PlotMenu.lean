import Verif.Proof.PlotTraces

/-!
# Lemmas about the menus and the slider
-/

set_option autoImplicit false
set_option linter.unusedSectionVars false

namespace Verif

variable {K V : Type}

theorem toTitles_get {title : Option (OneOrMany String)} {n : ℕ} {titles : List String}
    (h : toTitles title n = .ok titles) : titles.length = n ∧ ∀ i : ℕ, titles[i]? = titleOf title n i := by
  unfold toTitles at h
  match title with
  | none =>
    simp only [Except.ok.injEq] at h
    subst h
    refine ⟨by simp, fun i => ?_⟩
    by_cases hi : i < n
    · simp [titleOf, hi]
    · simp [titleOf, hi]
  | some (.one t) =>
    by_cases hn : n = 1
    · subst hn
      simp only [if_pos, Except.ok.injEq] at h
      subst h
      refine ⟨rfl, fun i => ?_⟩
      rcases i with _ | i
      · simp [titleOf]
      · simp [titleOf]
    · simp only [if_neg hn, Except.ok.injEq] at h
      subst h
      refine ⟨by simp, fun i => ?_⟩
      by_cases hi : i < n
      · simp [titleOf, hi, hn]
      · simp [titleOf, hi]
  | some (.many l) =>
    by_cases hn : l.length = n
    · simp only [if_pos hn, Except.ok.injEq] at h
      subst h
      exact ⟨hn, fun i => by simp [titleOf, hn]⟩
    · simp [if_neg hn] at h
  | some .other => cases h

theorem toTitles_ok {title : Option (OneOrMany String)} {n : ℕ} (h : ∃ t, titleOf title n 0 = some t) :
    ∃ titles, toTitles title n = .ok titles := by
  obtain ⟨t, h⟩ := h
  match title with
  | none => exact ⟨_, rfl⟩
  | some (.one t) =>
    by_cases hn : n = 1
    · exact ⟨_, by rw [toTitles, if_pos hn]⟩
    · exact ⟨_, by rw [toTitles, if_neg hn]⟩
  | some (.many l) =>
    by_cases hn : l.length = n
    · exact ⟨_, by rw [toTitles, if_pos hn]⟩
    · simp [titleOf, hn] at h
  | some .other => cases h

theorem toCmaps_names {cmap : Option (OneOrMany String)} {l : List String} (h : toCmaps cmap = .ok l) :
    l = namesOf cmap := by
  match cmap with
  | none => cases h; rfl
  | some (.one t) => cases h; rfl
  | some (.many l) => cases h; rfl
  | some .other => cases h

theorem toCmaps_ok {cmap : Option (OneOrMany String)} (h : namesOf cmap ≠ []) :
    toCmaps cmap = .ok (namesOf cmap) := by
  match cmap with
  | none => rfl
  | some (.one t) => rfl
  | some (.many l) => rfl
  | some .other => exact absurd rfl h

theorem toNodeSizes_sizes {a : Option (OneOrMany K)} {l : List K} (h : toNodeSizes a = .ok l) :
    l = sizesOf a := by
  match a with
  | none => cases h
  | some (.one t) => cases h; rfl
  | some (.many l) => cases h; rfl
  | some .other => cases h

theorem toNodeSizes_ok {a : Option (OneOrMany K)} (h : sizesOf a ≠ []) :
    toNodeSizes a = .ok (sizesOf a) := by
  match a with
  | none => exact absurd rfl h
  | some (.one t) => rfl
  | some (.many l) => rfl
  | some .other => exact absurd rfl h

theorem toColors_array {a : ColorsArg V} {c : Colors V} (h : a.IsArray c) :
    toColors a = .ok c ∧ ∀ row ∈ c.rows, row.length = c.cols := by
  match a with
  | .one l =>
    obtain ⟨h1, h2⟩ := h
    obtain ⟨rows, cols⟩ := c
    dsimp only at h1 h2
    subst h1 h2
    refine ⟨rfl, fun row hrow => ?_⟩
    obtain ⟨x, _, rfl⟩ := List.mem_map.mp hrow
    rfl
  | .two c' =>
    obtain ⟨rfl, h⟩ := h
    exact ⟨rfl, h⟩
  | .other => exact h.elim

section
variable [Field K] [LinearOrder K]

/-- The command showing these colours. -/
def paintStyle (p : MapperPlot K) (c : Paint K) (t : String) : Restyle K :=
  if p.dim = 3 then
    { targets := [0, 1]
      text := [none, some c.text]
      title := [none, some t]
      color := [none, some c.arr]
      cmax := [none, maxColor c.arr]
      cmin := [none, minColor c.arr]
      lineColor := [c.edges, none]
      lineCmax := [maxColor c.arr, none]
      lineCmin := [minColor c.arr, none] }
  else
    { targets := [1]
      text := [some c.text]
      title := [some t]
      color := [some c.arr]
      cmax := [maxColor c.arr]
      cmin := [minColor c.arr] }

theorem updateColors_eq {p : MapperPlot K} (hdim : p.dim = 2 ∨ p.dim = 3) {c : Colors V}
    {titles : List String} {agg : List V → Py K} {i : ℕ} {r : Restyle K}
    (h : updateColors p c titles agg i = .ok r) :
    ∃ pc t, paintOf p c agg i = .ok pc ∧ getItem titles i = .ok t ∧ r = paintStyle p pc t := by
  unfold updateColors at h
  unfold paintOf edgePaint
  obtain ⟨col, h1, h⟩ := bind_eq_ok.mp h
  obtain ⟨d, h2, h⟩ := bind_eq_ok.mp h
  obtain ⟨text, h3, h⟩ := bind_eq_ok.mp h
  obtain ⟨t, h4, h⟩ := bind_eq_ok.mp h
  simp only [h1, h2, h3, h4, ok_bind]
  rcases hdim with hd | hd
  · simp only [hd] at h ⊢
    cases h
    exact ⟨_, t, rfl, rfl, by simp [paintStyle, hd, targetTraces]⟩
  · simp only [hd, if_true] at h ⊢
    obtain ⟨e, h5, h⟩ := bind_eq_ok.mp h
    cases h
    exact ⟨⟨text, d.items.map Prod.snd, some e⟩, t, by simp [h5, Except.map, ok_bind, pure_eq_ok], rfl,
      by simp [paintStyle, hd, targetTraces]⟩

theorem updateColors_ok {p : MapperPlot K} {c : Colors V} {titles : List String}
    {agg : List V → Py K} {i : ℕ} {pc : Paint K} {t : String} (h : paintOf p c agg i = .ok pc)
    (ht : getItem titles i = .ok t) : ∃ r, updateColors p c titles agg i = .ok r := by
  unfold paintOf at h
  obtain ⟨col, h1, h⟩ := bind_eq_ok.mp h
  obtain ⟨d, h2, h⟩ := bind_eq_ok.mp h
  obtain ⟨text, h3, h⟩ := bind_eq_ok.mp h
  obtain ⟨e, h4, h⟩ := bind_eq_ok.mp h
  unfold updateColors
  simp only [h1, h2, h3, ht, ok_bind]
  unfold edgePaint at h4
  split
  · rename_i hd
    rw [if_pos hd] at h4
    cases h5 : edgeColors d p.graph.edges with
    | error e => rw [h5] at h4; cases h4
    | ok ec => exact ⟨_, rfl⟩
  · split <;> exact ⟨_, rfl⟩

theorem updateCmap_ok {P : Palette K} {p : MapperPlot K} {name : String} {sc : Scale K}
    (h : P.scale name = .ok sc) : ∃ r, updateCmap P p name = .ok r := by
  unfold updateCmap
  simp only [h, ok_bind]
  split
  · exact ⟨_, rfl⟩
  · split <;> exact ⟨_, rfl⟩

theorem press_paint {p : MapperPlot K} (hdim : p.dim = 2 ∨ p.dim = 3) {n0 : NodesTrace K}
    {e0 : EdgesTrace K} {w h : Option ℤ} {t t' : String} {s : K} {c c' : Paint K} {sc : Scale K}
    {ui ui' : Ui K} {w' h' : Option ℤ} :
    SameTraces ((paintStyle p c' t').press (mkFig n0 e0 (decide (p.dim = 3)) w h t s c sc ui))
      (mkFig n0 e0 (decide (p.dim = 3)) w' h' t' s c' sc ui') := by
  rcases hdim with hd | hd
  · simp [SameTraces, Restyle.press, mkFig, paintStyle, hd, assigned, nodesIndex, edgesIndex,
      List.findIdx_cons]
  · simp [SameTraces, Restyle.press, mkFig, paintStyle, hd, assigned, nodesIndex, edgesIndex,
      List.findIdx_cons]

theorem updateCmap_eq {P : Palette K} {p : MapperPlot K} {name : String} {r : Restyle K}
    (h : updateCmap P p name = .ok r) (hdim : p.dim = 2 ∨ p.dim = 3) :
    ∃ sc, P.scale name = .ok sc ∧ r =
      if p.dim = 3 then { targets := [0, 1], scale := [none, some sc], lineScale := [some sc, none] }
      else { targets := [1], scale := [some sc] } := by
  unfold updateCmap at h
  obtain ⟨sc, h1, h⟩ := bind_eq_ok.mp h
  refine ⟨sc, h1, ?_⟩
  rcases hdim with hd | hd
  · simp only [hd, targetTraces] at h ⊢
    cases h; rfl
  · simp only [hd, targetTraces] at h ⊢
    cases h; rfl

theorem press_cmap {p : MapperPlot K} (hdim : p.dim = 2 ∨ p.dim = 3) {n0 : NodesTrace K}
    {e0 : EdgesTrace K} {w h : Option ℤ} {t : String} {s : K} {c : Paint K} {sc sc' : Scale K}
    {ui ui' : Ui K} {w' h' : Option ℤ} :
    SameTraces (Restyle.press (if p.dim = 3 then
        { targets := [0, 1], scale := [none, some sc'], lineScale := [some sc', none] }
        else { targets := [1], scale := [some sc'] })
        (mkFig n0 e0 (decide (p.dim = 3)) w h t s c sc ui))
      (mkFig n0 e0 (decide (p.dim = 3)) w' h' t s c sc' ui') := by
  rcases hdim with hd | hd
  · simp [SameTraces, Restyle.press, mkFig, hd, assigned, nodesIndex, edgesIndex, List.findIdx_cons]
  · simp [SameTraces, Restyle.press, mkFig, hd, assigned, nodesIndex, edgesIndex, List.findIdx_cons]

theorem press_size {n0 : NodesTrace K} {e0 : EdgesTrace K} {three : Bool} {w h : Option ℤ} {t : String}
    {s s' : K} {c : Paint K} {sc : Scale K} {ui ui' : Ui K} {w' h' : Option ℤ} :
    SameTraces (Restyle.press { targets := [1], sizeref := [some (sizerefOf s')] }
        (mkFig n0 e0 three w h t s c sc ui))
      (mkFig n0 e0 three w' h' t s' c sc ui') := by
  cases three <;>
  simp [SameTraces, Restyle.press, mkFig, assigned, nodesIndex, edgesIndex, List.findIdx_cons]

theorem column_single {c : Colors V} {i : ℕ} {col : List V} (h : c.column i = .ok col) :
    col = (c.rows.filterMap fun row => row[i]?) ∧
      (⟨col.map fun x => [x], 1⟩ : Colors V).column 0 = .ok col := by
  unfold Colors.column at h ⊢
  refine ⟨?_, ?_⟩
  · by_cases hi : i < c.cols
    · rw [if_pos hi] at h
      have := mapPy_eq_ok h
      clear h
      obtain ⟨rows, cols⟩ := c
      dsimp only at this ⊢
      clear hi
      induction this with
      | nil => rfl
      | cons h1 _ ih => rw [List.filterMap_cons, getItem_eq_ok.mp h1, ← ih]
    · rw [if_neg hi] at h; cases h
  · rw [if_pos Nat.one_pos]
    clear h
    induction col with
    | nil => rfl
    | cons a l ih =>
      dsimp only at ih
      simp only [List.map_cons, mapPy, ih, getItem_ok (l := [a]) (i := 0) rfl, ok_bind, pure_eq_ok]

theorem paintOf_single {p : MapperPlot K} {c : Colors V} {agg : List V → Py K} {i : ℕ} {pc : Paint K}
    (h : paintOf p c agg i = .ok pc) :
    paintOf p ⟨(c.rows.filterMap fun row => row[i]?).map fun x => [x], 1⟩ agg 0 = .ok pc := by
  unfold paintOf at h ⊢
  obtain ⟨col, h1, h⟩ := bind_eq_ok.mp h
  obtain ⟨rfl, h2⟩ := column_single h1
  rw [h2, ok_bind]
  exact h

theorem forall₂_get {α β : Type} {R : α → β → Prop} {l : List α} {l' : List β}
    (h : List.Forall₂ R l l') : l.length = l'.length ∧
      ∀ (i : ℕ) a, l[i]? = some a → ∃ b, l'[i]? = some b ∧ R a b := by
  induction h with
  | nil => exact ⟨rfl, fun i a h => by simp at h⟩
  | cons h1 _ ih =>
    refine ⟨by simp [ih.1], fun i a hi => ?_⟩
    rcases i with _ | i
    · simp only [List.getElem?_cons_zero, Option.some.injEq] at hi
      subst hi
      exact ⟨_, rfl, h1⟩
    · simpa using ih.2 i a (by simpa using hi)

/-- The buttons of the colour menu. -/
theorem menuColor_get {p : MapperPlot K} (hdim : p.dim = 2 ∨ p.dim = 3) {c : Colors V}
    {titles : List String} {agg : List V → Py K} {mo : List (String × Restyle K)}
    (h : menuColor p c titles agg = .ok mo) :
    (c.cols ≤ 1 → mo = []) ∧ (1 < c.cols → mo.length = c.cols ∧ ∀ i : ℕ, i < c.cols →
      ∃ t pc, getItem titles i = .ok t ∧ paintOf p c agg i = .ok pc ∧
        mo[i]? = some (t, paintStyle p pc t)) := by
  unfold menuColor at h
  refine ⟨fun hc => ?_, fun hc => ?_⟩
  · rw [if_neg (by omega)] at h; cases h; rfl
  · rw [if_pos hc] at h
    obtain ⟨h1, h2⟩ := forall₂_get (mapPy_eq_ok h)
    refine ⟨by simpa using h1.symm, fun i hi => ?_⟩
    obtain ⟨b, hb, hr⟩ := h2 i i (by simp [hi])
    obtain ⟨t, ht, hr⟩ := bind_eq_ok.mp hr
    obtain ⟨r, hr', e⟩ := bind_eq_ok.mp hr
    cases e
    obtain ⟨pc, t', k1, k2, rfl⟩ := updateColors_eq hdim hr'
    rw [ht] at k2; cases k2
    exact ⟨t, pc, ht, k1, hb⟩

/-- The buttons of the menu of colour scales. -/
theorem menuCmap_get {P : Palette K} {p : MapperPlot K} (hdim : p.dim = 2 ∨ p.dim = 3)
    {cmaps : List String} {mc : List (String × Restyle K)} (h : menuCmap P p cmaps = .ok mc) :
    ((cmaps.filterMap P.known).length ≤ 1 → mc = []) ∧
    (1 < (cmaps.filterMap P.known).length → mc.length = (cmaps.filterMap P.known).length ∧
      ∀ (i : ℕ) name, (cmaps.filterMap P.known)[i]? = some name →
        ∃ sc, P.scale name = .ok sc ∧ mc[i]? = some (name,
          if p.dim = 3 then { targets := [0, 1], scale := [none, some sc], lineScale := [some sc, none] }
          else { targets := [1], scale := [some sc] })) := by
  unfold menuCmap at h
  dsimp only at h
  refine ⟨fun hc => ?_, fun hc => ?_⟩
  · rw [if_neg (by omega)] at h; cases h; rfl
  · rw [if_pos hc] at h
    obtain ⟨h1, h2⟩ := forall₂_get (mapPy_eq_ok h)
    refine ⟨h1.symm, fun i name hi => ?_⟩
    obtain ⟨b, hb, hr⟩ := h2 i name hi
    obtain ⟨r, hr', e⟩ := bind_eq_ok.mp hr
    cases e
    obtain ⟨sc, k1, rfl⟩ := updateCmap_eq hr' hdim
    exact ⟨sc, k1, hb⟩

end

end Verif
