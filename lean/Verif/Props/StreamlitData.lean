import Verif.Props.Streamlit

/-!
# C97: limits, modes and downloads of the Streamlit app
-/

set_option autoImplicit false
set_option linter.unusedSectionVars false

namespace Verif
variable {K F : Type} [Field K] [LinearOrder K] [DecidableEq F]

theorem argmaxCount_spec (l : List K) : ∀ (d : List K) (x : K), d.Pairwise (· < ·) →
    argmaxCount l d = some x → x ∈ d ∧ (∀ y ∈ d, l.count y ≤ l.count x) ∧
      ∀ y ∈ d, l.count y = l.count x → x ≤ y := by
  intro d
  induction d with
  | nil => intro x _ h; cases h
  | cons a d ih =>
    intro x hd h
    rw [List.pairwise_cons] at hd
    unfold argmaxCount at h
    cases hr : argmaxCount l d with
    | none =>
      have hnil : d = [] := by
        cases d with
        | nil => rfl
        | cons b d =>
          unfold argmaxCount at hr
          split at hr
          · cases hr
          · split at hr <;> cases hr
      rw [hr] at h
      cases h
      subst hnil
      simp
    | some y =>
      rw [hr] at h
      obtain ⟨h1, h2, h3⟩ := ih y hd.2 hr
      simp only at h
      split at h
      · rename_i hlt
        cases h
        refine ⟨List.mem_cons_of_mem _ h1, ?_, ?_⟩
        · intro z hz
          rcases List.mem_cons.mp hz with rfl | hz
          · exact hlt.le
          · exact h2 z hz
        · intro z hz he
          rcases List.mem_cons.mp hz with rfl | hz
          · omega
          · exact h3 z hz he
      · rename_i hlt
        cases h
        refine ⟨List.mem_cons_self, ?_, ?_⟩
        · intro z hz
          rcases List.mem_cons.mp hz with rfl | hz
          · exact le_rfl
          · exact (h2 z hz).trans (not_lt.mp hlt)
        · intro z hz _
          rcases List.mem_cons.mp hz with rfl | hz
          · exact le_rfl
          · exact (hd.1 z hz).le

/-- **C97 (mode).** The aggregation by mode gives the most frequent value, and the least one of
several; it raises only without values. -/
theorem C97_mode (l : List K) :
    (∀ x, modeOf l = .ok x ↔ IsMode l x) ∧ (l ≠ [] → ∃ x, modeOf l = .ok x) ∧
    (l = [] → modeOf l = .error .valueError) := by
  have hperm := List.perm_insertionSort (· ≤ ·) l.dedup
  have hs : (l.dedup.insertionSort (· ≤ ·)).Pairwise (· < ·) := by
    have h1 : (l.dedup.insertionSort (· ≤ ·)).Pairwise (· ≤ ·) := List.pairwise_insertionSort _ _
    have h2 : (l.dedup.insertionSort (· ≤ ·)).Nodup := hperm.nodup_iff.mpr (List.nodup_dedup l)
    exact (h1.and h2).imp fun h => lt_of_le_of_ne h.1 h.2
  have hm : ∀ y, y ∈ l.dedup.insertionSort (· ≤ ·) ↔ y ∈ l := fun y => by
    rw [hperm.mem_iff, List.mem_dedup]
  have hex : l ≠ [] → ∃ x, modeOf l = .ok x := by
    intro hl
    unfold modeOf
    cases hr : argmaxCount l (l.dedup.insertionSort (· ≤ ·)) with
    | some x => exact ⟨x, rfl⟩
    | none =>
      exfalso
      obtain ⟨a, ha⟩ := List.exists_mem_of_ne_nil l hl
      have := (hm a).mpr ha
      cases hd : l.dedup.insertionSort (· ≤ ·) with
      | nil => rw [hd] at this; cases this
      | cons b d =>
        rw [hd] at hr
        unfold argmaxCount at hr
        split at hr
        · cases hr
        · split at hr <;> cases hr
  have hmode : ∀ x, modeOf l = .ok x → IsMode l x := by
    intro x hx
    unfold modeOf at hx
    cases hr : argmaxCount l (l.dedup.insertionSort (· ≤ ·)) with
    | none => rw [hr] at hx; cases hx
    | some z =>
      rw [hr] at hx; cases hx
      obtain ⟨h1, h2, h3⟩ := argmaxCount_spec l _ x hs hr
      exact ⟨(hm x).mp h1, fun y hy => h2 y ((hm y).mpr hy), fun y hy => h3 y ((hm y).mpr hy)⟩
  refine ⟨fun x => ⟨hmode x, fun hx => ?_⟩, hex, fun h => by subst h; rfl⟩
  obtain ⟨z, hz⟩ := hex (List.ne_nil_of_mem hx.1)
  obtain ⟨z1, z2, z3⟩ := hmode z hz
  have hc : l.count x = l.count z := le_antisymm (z2 x hx.1) (hx.2.1 z z1)
  rw [hz, le_antisymm (z3 x hx.1 hc) (hx.2.2 z z1 hc.symm)]

/-- Non-vacuity: two values occur twice. -/
example : modeOf [(5 : ℚ), 7, 3, 7, 3] = .ok 3 := by decide +kernel

/-- **C97 (mode, missing values).** With missing values among the numbers, the mode is that of the
numbers as long as no more values are missing than the mode occurs; texts raise. -/
theorem C97_mode_missing (l : List (Cell K)) (x : K) : modeCells l = .ok x ↔
    (∀ c ∈ l, c.isText = false) ∧ IsMode (l.filterMap Cell.toNumber) x ∧
    l.length ≤ (l.filterMap Cell.toNumber).length + (l.filterMap Cell.toNumber).count x := by
  unfold modeCells
  split
  · rename_i h
    obtain ⟨c, hc, ht⟩ := List.any_eq_true.mp h
    constructor
    · intro h; cases h
    · rintro ⟨h, _⟩; rw [h c hc] at ht; cases ht
  · rename_i h
    have ht : ∀ c ∈ l, c.isText = false := by
      intro c hc
      by_contra hn
      exact h (List.any_eq_true.mpr ⟨c, hc, by simpa using hn⟩)
    constructor
    · intro h
      obtain ⟨m, h1, h⟩ := bind_eq_ok.mp h
      split at h
      · cases h
      · rename_i hl
        cases h
        exact ⟨ht, ((C97_mode _).1 x).mp h1, by omega⟩
    · rintro ⟨_, h1, h2⟩
      simp only
      rw [((C97_mode _).1 x).mpr h1, ok_bind, if_neg (by omega)]

/-- **C97 (limits).** With limits, a page is only shown for data and graphs within them, whatever
pages were shown before. -/
theorem C97_limits (L : StLibs K F) (ht : TextFaithful L) (lim : StLimits) (hlim : L.limits = some lim)
    (h : List (StControls F)) (c : StControls F) (v : StView K)
    (hv : (stMain L c (stAfter L {} h)).1 = .ok (some v)) : WithinLimits lim v := by
  obtain ⟨hl, _, _⟩ := (C96_graph L ht h c).1 v hv
  obtain ⟨c', _, g', p', hg', hp', hs, _⟩ := C96_figure L ht h c v hv
  unfold loadSource at hl
  obtain ⟨⟨X, y⟩, _, hl⟩ := bind_eq_ok.mp hl
  obtain ⟨u, hc, hl⟩ := bind_eq_ok.mp hl
  obtain ⟨hX, hy⟩ := Prod.mk.inj (Except.ok.inj hl)
  rw [hX, hy] at hc
  unfold pagePlot at hp'
  rw [hg', ok_bind] at hp'
  unfold computeMapperPlot at hp'
  obtain ⟨u', hc', _⟩ := bind_eq_ok.mp hp'
  rw [hlim] at hc hc'
  unfold checkLimitsDataset at hc
  unfold checkLimitsGraph at hc'
  simp only at hc hc'
  split at hc
  · cases hc
  split at hc
  · cases hc
  split at hc'
  · cases hc'
  split at hc'
  · cases hc'
  obtain ⟨_, _, h3, h4⟩ := hs
  refine ⟨by omega, by omega, by omega, by omega⟩

/-- **C97 (limits).** Data beyond the limits give the message, and not the page; a graph beyond
them gives `ValueError`. -/
theorem C97_beyond (L : StLibs K F) (ht : TextFaithful L) (lim : StLimits)
    (hlim : L.limits = some lim) (h : List (StControls F)) (c : StControls F) :
    (∀ X y, rawData L c.source = .ok (X, y) → (lim.samples < (fixData X).rows ∨
        lim.features < (fixData X).columns.length + (fixData y).columns.length) →
      (stMain L c (stAfter L {} h)).1 = .ok none) ∧
    ∀ d g, loadSource L c.source = .ok d → pageGraph L c = .ok g →
      (lim.nodes < g.nodes.len ∨ lim.edges < g.edges.length) →
      (stMain L c (stAfter L {} h)).1 = .error .valueError := by
  constructor
  · intro X y hr hb
    apply (C96_graph L ht h c).2.1.mp
    unfold loadSource
    rw [hr, ok_bind]
    simp only
    unfold checkLimitsDataset
    rw [hlim]
    simp only
    split
    · rfl
    · rw [if_pos (by omega)]; rfl
  · intro d g hd hg hb
    have H := (stAfter_ok ht h [] {} (CachesOK.empty L)).mono (h' := h ++ [c]) (by simp_all)
    obtain ⟨_, _, _, m3⟩ := stMain_ok ht H c (by simp)
    obtain ⟨_, m5⟩ := m3 d.1 d.2 hd
    have hplot : ∀ g', lim.nodes < g'.nodes.len ∨ lim.edges < g'.edges.length → ∀ dim s i,
        computeMapperPlot L g' dim s i = .error .valueError := by
      intro g' hb' dim s i
      unfold computeMapperPlot checkLimitsGraph
      rw [hlim]
      simp only
      split
      · rfl
      · rw [if_pos (by omega)]; rfl
    rcases m5 g hg with ⟨e, h1, h2⟩ | ⟨c', _, g', p', a2, a3, a4, _⟩
    · rw [h2]
      have := hplot g hb (if c.threeD then 3 else 2) c.seed c.iterations
      unfold pagePlot at h1
      rw [hg, ok_bind, this] at h1
      cases h1; rfl
    · exfalso
      unfold pagePlot at a3
      rw [a2, ok_bind, hplot g' (by rw [a4.2.2.1, a4.2.2.2]; exact hb)] at a3
      cases a3

/-- **C97 (within the limits).** For data and a graph within the limits a new server shows what it
shows without limits. -/
theorem C97_within (L : StLibs K F) (lim : StLimits) (hlim : L.limits = some lim)
    (c : StControls F) (hd : ∀ X y, rawData L c.source = .ok (X, y) →
      (fixData X).rows ≤ lim.samples ∧
      (fixData X).columns.length + (fixData y).columns.length ≤ lim.features)
    (hg : ∀ g, pageGraph L c = .ok g → g.nodes.len ≤ lim.nodes ∧ g.edges.length ≤ lim.edges) :
    (stMain L c {}).1 = (stMain { L with limits := none } c {}).1 := by
  rw [C96_first, C96_first]
  have hraw : rawData { L with limits := none } c.source = rawData L c.source := by
    cases c.source <;> rfl
  have hload : loadSource { L with limits := none } c.source = loadSource L c.source := by
    unfold loadSource
    rw [hraw]
    cases hr : rawData L c.source with
    | error e => rfl
    | ok d =>
      obtain ⟨X, y⟩ := d
      obtain ⟨h1, h2⟩ := hd X y hr
      simp only [ok_bind]
      unfold checkLimitsDataset
      rw [hlim]
      simp only
      rw [if_neg (by omega), if_neg (by omega)]
  have hgraph : pageGraph { L with limits := none } c = pageGraph L c := by
    unfold pageGraph
    rw [hload]
    cases loadSource L c.source with
    | error e => rfl
    | ok d =>
      simp only [ok_bind]
      have : stLens { L with limits := none } d.1.toNumpy c.lens = stLens L d.1.toNumpy c.lens := by
        cases c.lens <;> rfl
      rw [this]
      rfl
  have hplot : pagePlot { L with limits := none } c = pagePlot L c := by
    unfold pagePlot
    rw [hgraph]
    cases hgr : pageGraph L c with
    | error e => rfl
    | ok g =>
      obtain ⟨h1, h2⟩ := hg g hgr
      simp only [ok_bind]
      generalize (if c.threeD = true then 3 else 2) = dim
      unfold computeMapperPlot checkLimitsGraph
      rw [hlim]
      simp only
      rw [if_neg (by omega), if_neg (by omega)]
  unfold pageView
  rw [hload, hgraph, hplot]
  have hfig : ∀ p cs, computeMapperFig { L with limits := none } p cs c.agg =
      computeMapperFig L p cs c.agg := by
    intro p cs
    unfold computeMapperFig
    have : stAgg { L with limits := none } c.agg = stAgg L c.agg := by cases c.agg <;> rfl
    rw [this]
  simp only [hfig]
  rfl

/-- Non-vacuity: with a limit of two samples, the file of two rows is shown and that of three is
not. -/
example : stColors (stMain { stLibs with limits := some ⟨2, 1, 1, 0⟩ } (stPage false) {}) =
      .ok (some [6]) ∧
    stColors (stMain { stLibs with limits := some ⟨2, 1, 1, 0⟩ } (stPage true) {}) = .ok none ∧
    stColors (stMain { stLibs with limits := some ⟨2, 1, 1, 0⟩ }
      { stPage false with cover := .knn 1 } {}) = .error .valueError := by
  decide +kernel

/-- **C97 (violation).** The table that is downloaded need not have one row for each sample: the
targets are put below the features. -/
theorem C97_download_violation : ∃ dfX dfY : Frame ℚ, dfX.rows = 2 ∧ dfY.rows = 2 ∧
    (downloadData dfX dfY).rows = 4 ∧
    (downloadData dfX dfY).columns.map (fun c => (c.name, (List.range 4).map c.cells.at)) =
      [("a", [.num 5, .num 7, .nan, .nan]), ("y", [.nan, .nan, .num 0, .num 1])] :=
  ⟨⟨2, [⟨"a", .number [some 5, some 7]⟩]⟩, ⟨2, [⟨"y", .number [some 0, some 1]⟩]⟩, rfl, rfl, rfl, by
    decide +kernel⟩

/-- **C97 (download, part that holds).** Without targets the table that is downloaded is the table
of features. Missing: data with targets. -/
theorem C97_download_partial (dfX dfY : Frame K) (h : dfY.rows = 0) (hc : dfY.columns = []) :
    downloadData dfX dfY = dfX := by
  unfold downloadData stackFrames
  rw [h, hc]
  obtain ⟨r, cs⟩ := dfX
  simp only [List.replicate_zero, List.append_nil, List.map_nil, Nat.add_zero]
  congr 1
  rw [List.map_congr_left (g := id) (fun c _ => ?_), List.map_id]
  obtain ⟨n, cells⟩ := c
  cases cells <;> rfl

end Verif
