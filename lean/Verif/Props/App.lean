import Mathlib.Algebra.Order.Field.Rat
import Verif.Proof.AppHistory

/-!
# C54–C57: the web app
-/

set_option autoImplicit false

namespace Verif
variable {K G : Type}

/-! ### C56: `fix_data` -/

open Classical in
/-- **C56.** `fix_data` keeps the columns of numbers with some value, in order, and
replaces each missing value by the mean of its column. -/
theorem C56_fix_data [Field K] [CharZero K] (f : Frame K) (hf : f.WellFormed) :
    (fixData f).rows = f.rows ∧
    List.Forall₂ Column.FilledBy (f.columns.filter fun c => decide c.IsUsable)
      (fixData f).columns := by
  refine ⟨rfl, ?_⟩
  rw [fixData_columns hf.names, usable_filter, List.forall₂_map_right_iff, List.forall₂_same]
  intro c hc
  exact fillOwn_filledBy (by simpa using (List.mem_filter.mp hc).2)

/-- **C56.** No value is missing in the result, which is a table again. -/
theorem C56_complete [Field K] [CharZero K] (f : Frame K) (hf : f.WellFormed) :
    (fixData f).WellFormed ∧
    ∀ c ∈ (fixData f).columns, ∃ l, c.cells = .number l ∧ l ≠ [] ∧ none ∉ l := by
  classical
  have hcol := fixData_columns hf.names
  rw [usable_filter] at hcol
  refine ⟨⟨fun c hc => ?_, ?_⟩, fun c hc => ?_⟩
  · rw [hcol] at hc
    obtain ⟨d, hd, rfl⟩ := List.mem_map.mp hc
    have h1 := hf.lengths d (List.mem_filter.mp hd).1
    have : (fillOwn d).cells.length = d.cells.length := by
      rcases d with ⟨n, l | l⟩ <;> simp [fillOwn, fillCells, Cells.length]
    rw [this, h1]; rfl
  · rw [hcol, List.map_map]
    exact hf.names.sublist (List.Sublist.map _ List.filter_sublist)
  · rw [hcol] at hc
    obtain ⟨d, hd, rfl⟩ := List.mem_map.mp hc
    obtain ⟨_, l, r, m, hl, hr, _, hlen, hval⟩ :=
      fillOwn_filledBy (c := d) (by simpa using (List.mem_filter.mp hd).2)
    refine ⟨r, hr, ?_, ?_⟩
    · rintro rfl
      have hu : d.IsUsable := by simpa using (List.mem_filter.mp hd).2
      obtain ⟨l', hl', x, hx⟩ := hu
      rw [hl] at hl'
      cases hl'
      rw [List.length_nil] at hlen
      rw [List.length_eq_zero_iff.mp hlen.symm] at hx
      cases hx
    · intro hn
      obtain ⟨i, hi⟩ := List.getElem?_of_mem hn
      have : i < l.length := by
        rw [← hlen]
        exact (List.getElem?_eq_some_iff.mp hi).1
      have h2 := hval i l[i] (List.getElem?_eq_getElem this)
      rw [hi] at h2
      simp at h2

/-- **C56.** Fixing twice is fixing once. -/
theorem C56_idempotent [Field K] [CharZero K] (f : Frame K) (hf : f.WellFormed) :
    fixData (fixData f) = fixData f := by
  classical
  obtain ⟨hw, hc⟩ := C56_complete f hf
  have hcol := fixData_columns hw.names
  rw [usable_filter, List.filter_eq_self.mpr, ] at hcol
  · have : (fixData f).columns.map fillOwn = (fixData f).columns := by
      conv_rhs => rw [← List.map_id (fixData f).columns]
      apply List.map_congr_left
      intro c h
      obtain ⟨l, hl, _, hn⟩ := hc c h
      exact fillOwn_complete hl fun x hx e => hn (e ▸ hx)
    rw [this] at hcol
    have hr : (fixData (fixData f)).rows = (fixData f).rows := rfl
    generalize fixData (fixData f) = a at *
    obtain ⟨r, c⟩ := a
    simp only at hr hcol
    rw [hr, hcol]
  · intro c h
    obtain ⟨l, hl, hne, hn⟩ := hc c h
    rw [decide_eq_true_iff]
    refine ⟨l, hl, ?_⟩
    cases l with
    | nil => exact absurd rfl hne
    | cons x l =>
      cases x with
      | none => exact absurd List.mem_cons_self hn
      | some x => exact ⟨x, List.mem_cons_self⟩

/-- A table with text, a column without values, and missing numbers. -/
def exTable : Frame ℚ := ⟨3, [⟨"a", .number [some 1, none, some 3]⟩, ⟨"b", .other [some "x", none, none]⟩,
  ⟨"c", .number [none, none, none]⟩, ⟨"d", .number [some 0, some 5, some 7]⟩]⟩

theorem exTable_wellFormed : exTable.WellFormed :=
  ⟨by simp [exTable, Cells.length], by decide⟩

example : fixData exTable =
    ⟨3, [⟨"a", .number [some 1, some 2, some 3]⟩, ⟨"d", .number [some 0, some 5, some 7]⟩]⟩ := by
  decide +kernel

/-! ### C54: the configuration -/

/-- **C54 (proved part).** The configuration has each setting entered by the user, and
the default where nothing is entered. Missing: zeros and the scaling switches, see
`C54_zero_ignored` and `C54_scaling_ignored`. -/
theorem C54_settings_partial (w : Widgets) (hd : w.plotDimensions ≠ none) :
    ∃ c, getMapperConfig w = .ok c ∧ Honours w c := by
  rw [getMapperConfig]
  cases hp : w.plotDimensions with
  | none => exact absurd hp hd
  | some q =>
    refine ⟨_, rfl, ?_⟩
    refine ⟨?_, strOr_setting _ _, strOr_setting _ _, strOr_setting _ _, intOr_setting _ _,
      intOr_setting _ _, intOr_setting _ _, floatOr_setting _ _, floatOr_setting _ _,
      intOr_setting _ _, intOr_setting _ _, floatOr_setting _ _, intOr_setting _ _,
      intOr_setting _ _, ?_, ?_, intOr_setting _ _, intOr_setting _ _⟩
    · cases w.excludedColumns <;> rfl
    · intro h
      obtain rfl : q = 2 := by rw [hp] at h; simpa using h
      rfl
    · intro h
      obtain rfl : q = 3 := by rw [hp] at h; simpa using h
      rfl

/-- **C54 is false of the code**: the scaling switches have no effect. -/
theorem C54_scaling_ignored (w : Widgets) (a b : Bool) :
    getMapperConfig { w with coverScale := a, clusteringScale := b } = getMapperConfig w ∧
    ∀ c, getMapperConfig w = .ok c → c.coverScaleData = false ∧ c.clusteringScaleData = false := by
  refine ⟨rfl, fun c h => ?_⟩
  rw [getMapperConfig] at h
  split at h
  · cases h
  · cases h; exact ⟨rfl, rfl⟩

/-- **C54 is false of the code**: a zero is replaced by the default, e.g. seed 0 by 42
and radius 0 by 100. -/
theorem C54_zero_ignored : ∃ w c, w.plotSeed = some 0 ∧ w.coverBallRadius = some 0 ∧
    getMapperConfig w = .ok c ∧ c.plotSeed = 42 ∧ c.coverBallRadius = 100 :=
  ⟨{ plotSeed := some 0, coverBallRadius := some 0 }, _, rfl, rfl, rfl, rfl, rfl⟩

/-- A page with some settings changed. -/
def exWidgets : Widgets where
  lensType := some "UMAP"
  lensUmapNComponents := some (7 / 2)
  coverKnnNeighbors := none
  plotDimensions := some 3

/-- The hypothesis is met by a page with settings changed and cleared. -/
example : ∃ c, getMapperConfig exWidgets = .ok c ∧
    c.lensType = "UMAP" ∧ c.lensUmapNComponents = 3 ∧ c.coverKnnNeighbors = 10 ∧
    c.plotDimensions = 3 := by
  refine ⟨_, rfl, ?_⟩
  decide +kernel

/-! ### C57: `run_mapper` -/

/-- **C57.** `run_mapper` returns `None` exactly for missing or empty data and for
unknown covers and clusterings. -/
theorem C57_none_iff (L : Libs K G) (df : Option (Frame K)) (cfg : MapperConfig) :
    runMapper L df cfg = .ok none ↔
      (∀ f, df = some f → f.rows = 0 ∨ f.columns = []) ∨
      cfg.coverType ∉ ["Cubical Cover", "Ball Cover", "KNN Cover"] ∨
      cfg.clusteringType ∉ ["Skip", "KMeans", "DBSCAN", "Agglomerative Clustering"] := by
  cases df with
  | none => simp [runMapper]
  | some f =>
    have hemp : f.empty = true ↔ f.rows = 0 ∨ f.columns = [] := by
      simp [Frame.empty, List.isEmpty_iff]
    have hcov : chooseCover cfg = none ↔
        cfg.coverType ∉ ["Cubical Cover", "Ball Cover", "KNN Cover"] := by
      rw [chooseCover]
      repeat' split
      all_goals simp_all
    have hclu : chooseClustering cfg = none ↔
        cfg.clusteringType ∉ ["Skip", "KMeans", "DBSCAN", "Agglomerative Clustering"] := by
      rw [chooseClustering]
      repeat' split
      all_goals simp_all
    rw [← hcov, ← hclu]
    simp only [Option.some.injEq, forall_eq']
    rw [← hemp]
    cases he : f.empty with
    | true => simp [runMapper, he]
    | false =>
      cases hcv : chooseCover cfg with
      | none => simp [runMapper, he, hcv]
      | some cv =>
        cases hcl : chooseClustering cfg with
        | none => simp [runMapper, he, hcv, hcl]
        | some cl =>
          rw [runMapper_known L he hcv hcl]
          simp only [Bool.false_eq_true, reduceCtorEq, or_self, iff_false]
          intro h
          simp only [bind_eq_ok, pure_eq_ok, Except.ok.injEq, reduceCtorEq, and_false,
            exists_false] at h

/-- **C57.** Otherwise the graph is that of the cover and clustering asked for, on
the columns not excluded (scaled if asked for) and their lens values (scaled if asked
for), and the table returned has the lens values before scaling. -/
theorem C57_result (L : Libs K G) {df : Frame K} (h1 : df.rows ≠ 0) (h2 : df.columns ≠ [])
    {cfg : MapperConfig} {cv : CoverChoice} {cl : ClusteringChoice} (hcv : CoverFor cfg cv)
    (hcl : ClusteringFor cfg cl) (g : G) (dfY : Frame K) :
    runMapper L (some df) cfg = .ok (some (g, dfY)) ↔
      ∃ X y X' y', SelectedColumns df cfg.excludedColumns X ∧ LensFor L cfg X (.ok y) ∧
        NamesLens cfg.lensType y dfY ∧ Scaled L cfg.coverScaleData y y' ∧
        Scaled L cfg.clusteringScaleData X X' ∧ L.fitTransform cv cl X' y' = .ok g := by
  have he : df.empty = false := by
    rw [Frame.empty, Bool.or_eq_false_iff]
    exact ⟨by simpa using h1, by simpa [List.isEmpty_iff] using h2⟩
  rw [runMapper_known L he ((coverFor_iff _ _).mp hcv) ((clusteringFor_iff _ _).mp hcl)]
  simp only [selected_iff, lensFor_iff, namesLens_iff, scaled_iff]
  simp only [bind_eq_ok, pure_eq_ok, Except.ok.injEq, Option.some.injEq, Prod.mk.injEq]
  constructor
  · rintro ⟨y, hy, y', hy', X', hX', g', hg, rfl, rfl⟩
    exact ⟨_, y, X', y', rfl, hy, rfl, hy', hX', hg⟩
  · rintro ⟨X, y, X', y', rfl, hy, rfl, hy', hX', hg⟩
    exact ⟨y, hy, y', hy', X', hX', g, hg, rfl, rfl⟩

/-- **C57.** `run_mapper` raises only if the lens, a scaler or the Mapper algorithm
does. -/
theorem C57_raises (L : Libs K G) (df : Option (Frame K)) (cfg : MapperConfig) {e : PyErr}
    (h : runMapper L df cfg = .error e) :
    (∃ n s X, L.pca n s X = .error e) ∨ (∃ n s X, L.umap n s X = .error e) ∨
    (∃ X, L.scale X = .error e) ∨ ∃ cv cl X y, L.fitTransform cv cl X y = .error e := by
  cases df with
  | none => cases h
  | some f =>
    cases he : f.empty with
    | true => simp [runMapper, he] at h
    | false =>
      cases hcv : chooseCover cfg with
      | none => simp [runMapper, he, hcv] at h
      | some cv =>
        cases hcl : chooseClustering cfg with
        | none => simp [runMapper, he, hcv, hcl] at h
        | some cl =>
          rw [runMapper_known L he hcv hcl] at h
          have hsc : ∀ flag a, scaleIf L flag a = .error e → ∃ X, L.scale X = .error e := by
            intro flag a hs
            cases flag with
            | false => cases hs
            | true => exact ⟨a, hs⟩
          cases hy : lensFn L cfg (mapperInput f cfg) with
          | error e' =>
            rw [hy] at h
            obtain rfl : e' = e := by simpa using h
            rw [lensFn] at hy
            split at hy
            · cases hy
            · split at hy
              · exact Or.inl ⟨_, _, _, hy⟩
              · split at hy
                · exact Or.inr (Or.inl ⟨_, _, _, hy⟩)
                · exact Or.inl ⟨_, _, _, hy⟩
          | ok y =>
            rw [hy, ok_bind] at h
            cases hy' : scaleIf L cfg.coverScaleData y with
            | error e' =>
              rw [hy'] at h
              obtain rfl : e' = e := by simpa using h
              exact Or.inr (Or.inr (Or.inl (hsc _ _ hy')))
            | ok y' =>
              rw [hy', ok_bind] at h
              cases hX' : scaleIf L cfg.clusteringScaleData (mapperInput f cfg) with
              | error e' =>
                rw [hX'] at h
                obtain rfl : e' = e := by simpa using h
                exact Or.inr (Or.inr (Or.inl (hsc _ _ hX')))
              | ok X' =>
                rw [hX', ok_bind] at h
                cases hg : L.fitTransform cv cl X' y' with
                | error e' =>
                  rw [hg] at h
                  obtain rfl : e' = e := by simpa using h
                  exact Or.inr (Or.inr (Or.inr ⟨_, _, _, _, hg⟩))
                | ok g => rw [hg] at h; cases h

/-- **C57.** Excluded columns that do not exist are ignored. -/
theorem C57_excluded_unknown (L : Libs K G) (df : Frame K) (cfg : MapperConfig) (ghosts : List String)
    (hg : ∀ c ∈ df.columns, c.name ∉ ghosts) :
    runMapper L (some df) { cfg with excludedColumns := cfg.excludedColumns ++ ghosts } =
      runMapper L (some df) cfg := by
  have hin : mapperInput df { cfg with excludedColumns := cfg.excludedColumns ++ ghosts } =
      mapperInput df cfg := by
    rw [mapperInput_eq, mapperInput_eq]
    congr 2
    apply List.filter_congr
    intro c hc
    simp [hg c hc]
  cases he : df.empty with
  | true => simp [runMapper, he]
  | false =>
    have hcv' : chooseCover { cfg with excludedColumns := cfg.excludedColumns ++ ghosts } =
        chooseCover cfg := rfl
    have hcl' : chooseClustering { cfg with excludedColumns := cfg.excludedColumns ++ ghosts } =
        chooseClustering cfg := rfl
    cases hcv : chooseCover cfg with
    | none => simp [runMapper, he, hcv, hcv']
    | some cv =>
      cases hcl : chooseClustering cfg with
      | none => simp [runMapper, he, hcv, hcl, hcv', hcl']
      | some cl =>
        rw [runMapper_known L he hcv hcl, runMapper_known L he (hcv'.trans hcv) (hcl'.trans hcl), hin]
        rfl

/-- Libraries: the lens keeps the first columns, and the "graph" is the number of
rows. -/
def exLibs : Libs ℚ ℕ where
  pca := fun n _ X => .ok ⟨X.rows, X.cols.take n.toNat⟩
  umap := fun n _ X => .ok ⟨X.rows, X.cols.take n.toNat⟩
  scale := fun X => .ok X
  fitTransform := fun _ _ X _ => .ok X.rows

/-- The hypotheses are met, with an unknown lens and an excluded column. -/
example : CoverFor { lensType := "tSNE", coverType := "Ball Cover", excludedColumns := ["a", "z"] }
      (.ball 100) ∧
    ClusteringFor { lensType := "tSNE", coverType := "Ball Cover", excludedColumns := ["a", "z"] }
      .trivial ∧
    runMapper exLibs (some exTable)
      { lensType := "tSNE", coverType := "Ball Cover", excludedColumns := ["a", "z"] } =
      .ok (some (3, ⟨3, [⟨"tSNE 0", .other [some "x", none, none]⟩,
        ⟨"tSNE 1", .number [none, none, none]⟩]⟩)) :=
  ⟨.ball rfl, .trivial rfl, by decide +kernel⟩

/-! ### C55: histories -/

/-- **C55.** After every history the stored graph and lens values are the result of
one run of Mapper, on data and settings that the page had at some time. -/
theorem C55_graph [Field K] (O : Outside K G) (es : List (Event K)) :
    ((Page.new.after O es).storage.graph = none ∧ (Page.new.after O es).storage.dfY = none) ∨
    ∃ g y df cfg, (Page.new.after O es).storage.graph = some g ∧
      (Page.new.after O es).storage.dfY = some y ∧ HeldBefore O es df cfg ∧
      runMapper O.libs (some df) cfg = .ok (some (g, y)) := by
  rcases (pageInv (O := O) es).run with h | ⟨g, y, df, cfg, h1, h2, _, h4, h5⟩
  · exact Or.inl h
  · exact Or.inr ⟨g, y, df, cfg, h1, h2, h4, h5⟩

/-- **C55.** After every history data and labels belong together: both come from one
example, or the data from an uploaded file, without labels. -/
theorem C55_labels [Field K] (O : Outside K G) (es : List (Event K)) :
    ((Page.new.after O es).storage.df = none ∧ (Page.new.after O es).storage.labels = none) ∨
    (∃ f, Event.upload (some (.ok f)) ∈ es ∧
      (Page.new.after O es).storage.df = some (fixData f) ∧
      (Page.new.after O es).storage.labels = some .none) ∨
    ∃ e, (e = O.digits ∨ e = O.iris) ∧ (Page.new.after O es).storage.df = some (fixData e.1) ∧
      (Page.new.after O es).storage.labels = some (fixData e.2) :=
  (pageInv (O := O) es).load

/-- **C55.** After every history the figure shown, if any, was drawn from a graph and
non-empty data that were stored together at some time. -/
theorem C55_shown [Field K] (O : Outside K G) (es : List (Event K)) (d : Drawing K G)
    (h : (Page.new.after O es).shown = some d) :
    O.draws d = true ∧ d.df.empty = false ∧ ∃ pre, pre <+: es ∧
      (Page.new.after O pre).storage = ⟨some d.df, some d.labels, some d.dfY, some d.graph⟩ := by
  obtain ⟨h1, h2, h3⟩ := (pageInv (O := O) es).shown d h
  exact ⟨h1, h2, h3⟩

/-- **C55.** What events change: only uploads and loads change the data, only the end
of a successful run changes the graph, and a run that fails changes nothing stored. -/
theorem C55_changes [Field K] (O : Outside K G) (p : Page K G) (e : Event K) :
    (¬ e.changesData → (p.next O e).storage.df = p.storage.df ∧
      (p.next O e).storage.labels = p.storage.labels) ∧
    ((p.next O e).storage.graph ≠ p.storage.graph ∨ (p.next O e).storage.dfY ≠ p.storage.dfY →
      ∃ i df cfg g y, e = .finish i ∧ p.tasks[i]? = some (.run df cfg) ∧
        runMapper O.libs (some df) cfg = .ok (some (g, y)) ∧
        (p.next O e).storage.graph = some g ∧ (p.next O e).storage.dfY = some y) := by
  cases e with
  | upload file =>
    refine ⟨fun h => absurd trivial h, fun h => ?_⟩
    exfalso
    simp only [Page.next, uploadFile] at h
    split at h <;> simp at h
  | load =>
    refine ⟨fun h => absurd trivial h, fun h => ?_⟩
    exfalso
    simp only [Page.next] at h
    rcases loadData_storage O p with h' | ⟨_, _, h'⟩ <;> rw [h'] at h <;> simp at h
  | change w =>
    refine ⟨fun _ => ⟨rfl, rfl⟩, fun h => ?_⟩
    exfalso
    simp only [Page.next] at h
    simp at h
  | clickRun =>
    simp only [Page.next, startRun_storage]
    exact ⟨fun _ => ⟨trivial, trivial⟩, fun h => by simp at h⟩
  | clickRedraw =>
    simp only [Page.next, startDraw_storage]
    exact ⟨fun _ => ⟨trivial, trivial⟩, fun h => by simp at h⟩
  | finish i =>
    simp only [Page.next]
    cases ht : p.tasks[i]? with
    | none => exact ⟨fun _ => ⟨rfl, rfl⟩, fun h => by simp at h⟩
    | some t =>
      cases t with
      | draw d =>
        simp only [finishDraw_storage]
        exact ⟨fun _ => ⟨trivial, trivial⟩, fun h => by simp at h⟩
      | run df cfg =>
        rcases finishRun_storage O df cfg { p with tasks := p.tasks.eraseIdx i } with
          ⟨h', _⟩ | ⟨g, y, hr, h'⟩
        · simp only [h']
          exact ⟨fun _ => ⟨trivial, trivial⟩, fun h => by simp at h⟩
        · simp only [h']
          exact ⟨fun _ => ⟨trivial, trivial⟩, fun _ => ⟨i, df, cfg, g, y, rfl, ht, hr, rfl, rfl⟩⟩

/-- **C55.** Without data Run Mapper changes nothing, and without a graph Redraw
changes nothing. -/
theorem C55_refused [Field K] (O : Outside K G) (p : Page K G) :
    (p.storage.df = none ∨ (∃ f, p.storage.df = some f ∧ f.empty = true) → p.next O .clickRun = p) ∧
    (p.storage.graph = none → p.next O .clickRedraw = p) := by
  constructor
  · rintro (h | ⟨f, h, he⟩)
    · simp [Page.next, startRun, h, Frame.none, Frame.empty]
    · simp [Page.next, startRun, h, he]
  · intro h
    simp only [Page.next, startDraw, h]
    split <;> rfl

/-- **C55 (proved part).** If data is loaded only before the first run, the figure
shown is always a graph of the data it is drawn with. Missing: data loaded later, see
`C55_redraw_violation` and `C55_pending_violation`. -/
theorem C55_fresh_partial [Field K] (O : Outside K G) (loads es : List (Event K))
    (hl : Event.clickRun ∉ loads) (he : ∀ e ∈ es, ¬ e.changesData) (d : Drawing K G)
    (h : (Page.new.after O (loads ++ es)).shown = some d) : ComputedFrom O.libs d.graph d.df := by
  obtain ⟨h1, h2, h3⟩ := idle_after (O := O) loads hl
  have hf : Fresh O (Page.new.after O loads) :=
    ⟨by simp [h1], by simp [h2], by simp [h2], by simp [h3]⟩
  have := fresh_after hf es he
  rw [Page.after, List.foldl_append] at h
  exact this.shown d h

/-- Example data: three rows and two rows. -/
def exOutside : Outside ℚ ℕ where
  libs := exLibs
  digits := (exTable, ⟨3, [⟨"target", .number [some 0, some 1, some 0]⟩]⟩)
  iris := (⟨2, [⟨"w", .number [some 4, some 6]⟩]⟩, ⟨2, [⟨"target", .number [some 0, some 1]⟩]⟩)
  draws := fun _ => true

/-- Load, run, wait for Mapper and for the figure. -/
def exRun : List (Event ℚ) := [.load, .clickRun, .finish 0, .finish 0]
/-- Select the other example. -/
def exOther : Event ℚ := .change { loadExample := "Iris" }

/-- The hypotheses are met by this history, which shows a figure. -/
example : Event.clickRun ∉ ([.load] : List (Event ℚ)) ∧
    (∀ e ∈ ([.clickRun, .finish 0, .finish 0] : List (Event ℚ)), ¬ e.changesData) ∧
    ((Page.new.after exOutside exRun).shown.map fun d => (d.graph, d.df.rows)) = some (3, 3) := by
  refine ⟨by simp, by simp [Event.changesData], by decide +kernel⟩

theorem exLibs_rows {g : ℕ} {df : Frame ℚ} (h : ComputedFrom exLibs g df) : g = df.rows := by
  obtain ⟨cfg, y, h⟩ := h
  cases he : df.empty with
  | true => simp [runMapper, he] at h
  | false =>
    cases hcv : chooseCover cfg with
    | none => simp [runMapper, he, hcv] at h
    | some cv =>
      cases hcl : chooseClustering cfg with
      | none => simp [runMapper, he, hcv, hcl] at h
      | some cl =>
        rw [runMapper_known exLibs he hcv hcl] at h
        simp only [bind_eq_ok, pure_eq_ok, Except.ok.injEq, Option.some.injEq, Prod.mk.injEq] at h
        obtain ⟨y, _, y', _, X', hX, g', hg, rfl, _⟩ := h
        have hg : X'.rows = g' := by simpa [exLibs] using hg
        have hX : mapperInput df cfg = X' := by
          rw [scaleIf] at hX
          split at hX <;> simpa [exLibs] using hX
        rw [← hg, ← hX, mapperInput_eq]

/-- **C55, stronger claim false of the code**: after loading other data, Redraw draws
the old graph with the new data. -/
theorem C55_redraw_violation : ∃ d,
    (Page.new.after exOutside (exRun ++ [exOther, .load, .clickRedraw, .finish 0])).shown = some d ∧
    (Page.new.after exOutside (exRun ++ [exOther, .load, .clickRedraw, .finish 0])).storage.df =
      some d.df ∧
    ¬ ComputedFrom exLibs d.graph d.df := by
  obtain ⟨d, hd⟩ := Option.isSome_iff_exists.mp
    (show (Page.new.after exOutside (exRun ++ [exOther, .load, .clickRedraw, .finish 0])).shown.isSome = true
      by decide +kernel)
  have hdat : (Page.new.after exOutside (exRun ++ [exOther, .load, .clickRedraw, .finish 0])).shown.map
      (fun d => (d.df, d.graph)) = (Page.new.after exOutside (exRun ++ [exOther, .load, .clickRedraw,
        .finish 0])).storage.df.map fun f => (f, 3) := by decide +kernel
  have hrow : (Page.new.after exOutside (exRun ++ [exOther, .load, .clickRedraw, .finish 0])).shown.map
      (fun d => (d.graph, d.df.rows)) = some (3, 2) := by decide +kernel
  refine ⟨d, hd, ?_, fun h => ?_⟩
  · rw [hd, Option.map_some] at hdat
    cases hs : (Page.new.after exOutside (exRun ++ [exOther, .load, .clickRedraw,
        .finish 0])).storage.df with
    | none => rw [hs] at hdat; cases hdat
    | some f =>
      rw [hs] at hdat
      simp only [Option.map_some, Option.some.injEq, Prod.mk.injEq] at hdat
      rw [hdat.1]
  · rw [hd, Option.map_some, Option.some.injEq, Prod.mk.injEq] at hrow
    have := exLibs_rows h
    omega

/-- **C55, stronger claim false of the code**: data loaded while Mapper runs is drawn
with the graph of the data before. -/
theorem C55_pending_violation : ∃ d,
    (Page.new.after exOutside [.load, .clickRun, exOther, .load, .finish 0, .finish 0]).shown = some d ∧
    ¬ ComputedFrom exLibs d.graph d.df := by
  obtain ⟨d, hd⟩ := Option.isSome_iff_exists.mp
    (show (Page.new.after exOutside [.load, .clickRun, exOther, .load, .finish 0,
      .finish 0]).shown.isSome = true by decide +kernel)
  have hrow : (Page.new.after exOutside [.load, .clickRun, exOther, .load, .finish 0,
      .finish 0]).shown.map (fun d => (d.graph, d.df.rows)) = some (3, 2) := by decide +kernel
  refine ⟨d, hd, fun h => ?_⟩
  rw [hd, Option.map_some, Option.some.injEq, Prod.mk.injEq] at hrow
  have := exLibs_rows h
  omega

end Verif
