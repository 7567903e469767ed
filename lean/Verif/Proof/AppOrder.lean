import Verif.Spec.AppOrder
import Verif.Proof.AppHistory

/-!
# Lemmas for C105
-/

set_option autoImplicit false
set_option linter.unusedSectionVars false

namespace Verif
variable {K G : Type} [Field K]

theorem getMapperConfig_ok {w : Widgets} (h : w.plotDimensions ≠ none) :
    ∃ cfg, getMapperConfig w = .ok cfg := by
  unfold getMapperConfig
  cases hd : w.plotDimensions with
  | none => exact absurd hd h
  | some q => exact ⟨_, rfl⟩

theorem getMapperConfig_dim {w : Widgets} {cfg : MapperConfig} (h : getMapperConfig w = .ok cfg) :
    w.plotDimensions ≠ none := by
  intro hd
  simp [getMapperConfig, hd] at h

/-- What `startDraw` does: nothing, or one more drawing of the stored graph. -/
theorem startDraw_cases (p : Page K G) :
    startDraw p = p ∨ ∃ d, p.storage.graph = some d.graph ∧ d.dfY = p.storage.dfY.getD .none ∧
      startDraw p = { p with tasks := p.tasks ++ [.draw d] } := by
  unfold startDraw
  cases h1 : getMapperConfig p.widgets with
  | error e => exact Or.inl rfl
  | ok cfg =>
    cases h2 : p.storage.graph with
    | none => exact Or.inl rfl
    | some g =>
      dsimp only
      split
      · exact Or.inl rfl
      · exact Or.inr ⟨⟨_, _, _, _, _⟩, rfl, rfl, rfl⟩

theorem loadData_rest (O : Outside K G) (p : Page K G) :
    (loadData O p).tasks = p.tasks ∧ (loadData O p).storage.graph = p.storage.graph ∧
    (loadData O p).storage.dfY = p.storage.dfY ∧ (loadData O p).shown = p.shown := by
  unfold loadData
  split
  · split
    · exact ⟨rfl, rfl, rfl, rfl⟩
    · unfold loadColumns; dsimp only; split <;> exact ⟨rfl, rfl, rfl, rfl⟩
  · split
    · split
      · exact ⟨rfl, rfl, rfl, rfl⟩
      · unfold loadColumns; dsimp only; split <;> exact ⟨rfl, rfl, rfl, rfl⟩
    · exact ⟨rfl, rfl, rfl, rfl⟩

theorem uploadFile_graph (f : Option (Py (Frame K))) (s : Storage K G) :
    (uploadFile f s).graph = s.graph ∧ (uploadFile f s).dfY = s.dfY := by
  unfold uploadFile; split <;> exact ⟨rfl, rfl⟩

/-- What `finishRun` does to the tasks: at most one drawing more. -/
theorem finishRun_tasks (O : Outside K G) (df : Frame K) (cfg : MapperConfig) (p : Page K G) :
    ∃ ds : List (Drawing K G), (finishRun O df cfg p).tasks = p.tasks ++ ds.map .draw := by
  unfold finishRun
  split
  · exact ⟨[], by simp⟩
  · exact ⟨[], by simp⟩
  · rcases startDraw_cases { p with storage := { p.storage with graph := some _, dfY := some _ } }
      with h | ⟨d, _, _, h⟩
    · exact ⟨[], by rw [h]; simp⟩
    · exact ⟨[d], by rw [h]; simp⟩

/-- Waiting for the last run, or holding its result. -/
def LastRun (df : Frame K) (cfg : MapperConfig) (g : G) (y : Frame K) (p : Page K G) : Prop :=
  (∃ T ds, p.tasks = T ++ Task.run df cfg :: List.map Task.draw ds) ∨
  (p.storage.graph = some g ∧ p.storage.dfY = some y ∧ ∃ ds, p.tasks = List.map Task.draw ds)

theorem lastRun_next {O : Outside K G} {df : Frame K} {cfg : MapperConfig} {g : G} {y : Frame K}
    (hr : runMapper O.libs (some df) cfg = .ok (some (g, y))) {p : Page K G} {e : Event K}
    (hp : LastRun df cfg g y p) (hne : e ≠ .clickRun) (ho : ∀ i, e = .finish i → i = 0) :
    LastRun df cfg g y (p.next O e) := by
  have draw : ∀ q : Page K G, LastRun df cfg g y q → LastRun df cfg g y (startDraw q) := by
    intro q hq
    rcases startDraw_cases q with h | ⟨d, _, _, h⟩
    · rwa [h]
    · rw [h]
      rcases hq with ⟨T, ds, ht⟩ | ⟨h1, h2, ds, ht⟩
      · exact Or.inl ⟨T, ds ++ [d], by simp [ht]⟩
      · exact Or.inr ⟨h1, h2, ds ++ [d], by simp [ht]⟩
  cases e with
  | upload f =>
    obtain ⟨h1, h2⟩ := uploadFile_graph f p.storage
    rcases hp with ⟨T, ds, ht⟩ | ⟨a, b, ds, ht⟩
    · exact Or.inl ⟨T, ds, ht⟩
    · exact Or.inr ⟨h1.trans a, h2.trans b, ds, ht⟩
  | load =>
    obtain ⟨h0, h1, h2, _⟩ := loadData_rest O p
    rcases hp with ⟨T, ds, ht⟩ | ⟨a, b, ds, ht⟩
    · exact Or.inl ⟨T, ds, h0.trans ht⟩
    · exact Or.inr ⟨h1.trans a, h2.trans b, ds, h0.trans ht⟩
  | change w => exact hp
  | clickRun => exact absurd rfl hne
  | clickRedraw => exact draw p hp
  | finish i =>
    obtain rfl := ho i rfl
    rcases hp with ⟨T, ds, ht⟩ | ⟨a, b, ds, ht⟩
    · cases T with
      | nil =>
        rw [List.nil_append] at ht
        have : p.next O (.finish 0) =
            startDraw { p with tasks := ds.map .draw, storage :=
              { p.storage with graph := some g, dfY := some y } } := by
          simp [Page.next, ht, finishRun, hr]
        rw [this]
        exact draw _ (Or.inr ⟨rfl, rfl, ds, rfl⟩)
      | cons t T =>
        left
        rw [List.cons_append] at ht
        cases t with
        | run df' cfg' =>
          have : p.next O (.finish 0) = finishRun O df' cfg'
              { p with tasks := T ++ Task.run df cfg :: ds.map .draw } := by
            simp [Page.next, ht]
          rw [this]
          obtain ⟨ds', h⟩ := finishRun_tasks O df' cfg'
              { p with tasks := T ++ Task.run df cfg :: ds.map .draw }
          exact ⟨T, ds ++ ds', by rw [h]; simp⟩
        | draw d =>
          refine ⟨T, ds, ?_⟩
          simp only [Page.next, ht, List.getElem?_cons_zero, List.eraseIdx_cons_zero, finishDraw]
          split <;> rfl
    · right
      cases ds with
      | nil =>
        have : p.next O (.finish 0) = p := by simp [Page.next, ht]
        rw [this]
        exact ⟨a, b, [], ht⟩
      | cons d ds =>
        simp only [Page.next, ht, List.map_cons, List.getElem?_cons_zero, List.eraseIdx_cons_zero,
          finishDraw]
        split <;> exact ⟨a, b, ds, rfl⟩

theorem lastRun_after {O : Outside K G} {df : Frame K} {cfg : MapperConfig} {g : G} {y : Frame K}
    (hr : runMapper O.libs (some df) cfg = .ok (some (g, y))) (es : List (Event K)) :
    ∀ p : Page K G, LastRun df cfg g y p → Event.clickRun ∉ es → InOrder es →
      LastRun df cfg g y (p.after O es) := by
  induction es with
  | nil => exact fun p hp _ _ => hp
  | cons e es ih =>
    intro p hp hc ho
    rw [Page.after, List.foldl_cons]
    refine ih _ (lastRun_next hr hp ?_ ?_) (fun h => hc (List.mem_cons_of_mem _ h))
      (fun i hi => ho i (List.mem_cons_of_mem _ hi))
    · rintro rfl; exact hc List.mem_cons_self
    · rintro i rfl; exact ho i List.mem_cons_self

/-- The last drawing requested, waiting or shown, satisfies `P`, and no run waits. -/
def LastDraw (P : Drawing K G → Prop) (p : Page K G) : Prop :=
  (∃ ds d, P d ∧ p.tasks = List.map Task.draw (ds ++ [d])) ∨
  (p.tasks = [] ∧ ∃ d, P d ∧ p.shown = some d)

theorem lastDraw_finish {O : Outside K G} (hd : ∀ d, O.draws d = true) {P : Drawing K G → Prop}
    {p : Page K G} (hp : LastDraw P p) : LastDraw P (p.next O (.finish 0)) := by
  rcases hp with ⟨ds, d, hP, ht⟩ | ⟨ht, d, hP, hs⟩
  · cases ds with
    | nil =>
      right
      simp only [List.nil_append, List.map_cons, List.map_nil] at ht
      refine ⟨?_, d, hP, ?_⟩ <;> simp [Page.next, ht, finishDraw, hd]
    | cons d' ds =>
      left
      simp only [List.cons_append, List.map_cons] at ht
      exact ⟨ds, d, hP, by simp [Page.next, ht, finishDraw, hd]⟩
  · right
    refine ⟨?_, d, hP, ?_⟩ <;> simp [Page.next, ht, hs]

theorem startDraw_ok {p : Page K G} {df : Frame K} {g : G} {cfg : MapperConfig}
    (hdf : p.storage.df = some df) (hne : df.empty = false)
    (hcfg : getMapperConfig p.widgets = .ok cfg) (hg : p.storage.graph = some g) :
    startDraw p = { p with tasks := p.tasks ++
      [.draw ⟨df, p.storage.dfY.getD .none, p.storage.labels.getD .none, g, cfg⟩] } := by
  unfold startDraw
  simp [hcfg, hg, hdf, hne]

theorem lastDraw_add {P : Drawing K G → Prop} {p : Page K G} {d : Drawing K G} (hP : P d)
    (ht : ∃ ds, p.tasks = List.map Task.draw ds) :
    LastDraw P { p with tasks := p.tasks ++ [.draw d] } := by
  obtain ⟨ds, ht⟩ := ht
  exact Or.inl ⟨ds, d, hP, by simp [ht]⟩

theorem LastDraw.draws {P : Drawing K G → Prop} {p : Page K G} (h : LastDraw P p) :
    ∃ ds, p.tasks = List.map Task.draw ds := by
  rcases h with ⟨ds, d, _, h⟩ | ⟨h, _⟩
  · exact ⟨_, h⟩
  · exact ⟨[], by simpa using h⟩

/-- Waiting for the last run, or for a drawing of its result, or showing one. -/
structure LastShown (df : Frame K) (cfg : MapperConfig) (g : G) (y : Frame K) (p : Page K G) :
    Prop where
  data : p.storage.df = some df
  dim : p.widgets.plotDimensions ≠ none
  rest : (∃ T ds, p.tasks = T ++ Task.run df cfg :: List.map Task.draw ds) ∨
    (p.storage.graph = some g ∧ p.storage.dfY = some y ∧
      LastDraw (fun d => d.graph = g ∧ d.dfY = y ∧ d.df = df) p)

theorem finishRun_data (O : Outside K G) (df : Frame K) (cfg : MapperConfig) (p : Page K G) :
    (finishRun O df cfg p).storage.df = p.storage.df ∧
    (finishRun O df cfg p).widgets = p.widgets := by
  unfold finishRun
  split
  · exact ⟨rfl, rfl⟩
  · exact ⟨rfl, rfl⟩
  · rcases startDraw_cases { p with storage := { p.storage with graph := some _, dfY := some _ } }
      with h | ⟨d, _, _, h⟩
    · rw [h]; exact ⟨rfl, rfl⟩
    · rw [h]; exact ⟨rfl, rfl⟩

theorem lastShown_next {O : Outside K G} {df : Frame K} {cfg : MapperConfig} {g : G} {y : Frame K}
    (hr : runMapper O.libs (some df) cfg = .ok (some (g, y))) (hne : df.empty = false)
    (hd : ∀ d, O.draws d = true) {p : Page K G} {e : Event K}
    (hp : LastShown df cfg g y p) (hc : e ≠ .clickRun) (ho : ∀ i, e = .finish i → i = 0)
    (hdata : ¬ e.changesData) (hdim : e.keepsDimension) :
    LastShown df cfg g y (p.next O e) := by
  obtain ⟨h1, h2, h3⟩ := hp
  cases e with
  | upload f => exact absurd trivial hdata
  | load => exact absurd trivial hdata
  | change w => exact ⟨h1, hdim, h3⟩
  | clickRun => exact absurd rfl hc
  | clickRedraw =>
    have hx : p.next O .clickRedraw = startDraw p := rfl
    rw [hx]
    rcases h3 with ⟨T, ds, ht⟩ | ⟨a, b, hl⟩
    · rcases startDraw_cases p with h | ⟨d, _, _, h⟩
      · rw [h]; exact ⟨h1, h2, Or.inl ⟨T, ds, ht⟩⟩
      · rw [h]; exact ⟨h1, h2, Or.inl ⟨T, ds ++ [d], by simp [ht]⟩⟩
    · obtain ⟨cfg', hcfg⟩ := getMapperConfig_ok h2
      rw [startDraw_ok h1 hne hcfg a]
      exact ⟨h1, h2, Or.inr ⟨a, b, lastDraw_add ⟨rfl, by simp [b], rfl⟩ hl.draws⟩⟩
  | finish i =>
    obtain rfl := ho i rfl
    rcases h3 with ⟨T, ds, ht⟩ | ⟨a, b, hl⟩
    · cases T with
      | nil =>
        rw [List.nil_append] at ht
        have hx : p.next O (.finish 0) =
            startDraw { p with tasks := ds.map .draw, storage :=
              { p.storage with graph := some g, dfY := some y } } := by
          simp [Page.next, ht, finishRun, hr]
        rw [hx]
        obtain ⟨cfg', hcfg⟩ := getMapperConfig_ok h2
        rw [startDraw_ok (p := { p with tasks := ds.map .draw, storage :=
          { p.storage with graph := some g, dfY := some y } }) (df := df) (g := g) h1 hne hcfg rfl]
        exact ⟨h1, h2, Or.inr ⟨rfl, rfl, lastDraw_add ⟨rfl, rfl, rfl⟩ ⟨ds, rfl⟩⟩⟩
      | cons t T =>
        rw [List.cons_append] at ht
        cases t with
        | run df' cfg' =>
          have hx : p.next O (.finish 0) = finishRun O df' cfg'
              { p with tasks := T ++ Task.run df cfg :: ds.map .draw } := by
            simp [Page.next, ht]
          rw [hx]
          obtain ⟨ds', h⟩ := finishRun_tasks O df' cfg'
              { p with tasks := T ++ Task.run df cfg :: ds.map .draw }
          obtain ⟨e1, e2⟩ := finishRun_data O df' cfg'
              { p with tasks := T ++ Task.run df cfg :: ds.map .draw }
          exact ⟨e1.trans h1, by rw [e2]; exact h2, Or.inl ⟨T, ds ++ ds', by rw [h]; simp⟩⟩
        | draw d =>
          have hx : p.next O (.finish 0) =
              { p with tasks := T ++ Task.run df cfg :: ds.map .draw, shown := some d } := by
            simp [Page.next, ht, finishDraw, hd]
          rw [hx]
          exact ⟨h1, h2, Or.inl ⟨T, ds, rfl⟩⟩
    · have hl' := lastDraw_finish (O := O) hd hl
      obtain ⟨ds, ht⟩ := hl.draws
      cases ds with
      | nil =>
        have : p.next O (.finish 0) = p := by simp [Page.next, ht]
        rw [this]
        exact ⟨h1, h2, Or.inr ⟨a, b, hl⟩⟩
      | cons d ds =>
        have hx : p.next O (.finish 0) = { p with tasks := ds.map .draw, shown := some d } := by
          simp [Page.next, ht, finishDraw, hd]
        rw [hx] at hl' ⊢
        exact ⟨h1, h2, Or.inr ⟨a, b, hl'⟩⟩

theorem lastShown_after {O : Outside K G} {df : Frame K} {cfg : MapperConfig} {g : G} {y : Frame K}
    (hr : runMapper O.libs (some df) cfg = .ok (some (g, y))) (hne : df.empty = false)
    (hd : ∀ d, O.draws d = true) (es : List (Event K)) :
    ∀ p : Page K G, LastShown df cfg g y p → Event.clickRun ∉ es → InOrder es →
      (∀ e ∈ es, ¬ e.changesData) → (∀ e ∈ es, e.keepsDimension) →
      LastShown df cfg g y (p.after O es) := by
  induction es with
  | nil => exact fun p hp _ _ _ _ => hp
  | cons e es ih =>
    intro p hp hc ho h1 h2
    rw [Page.after, List.foldl_cons]
    refine ih _ (lastShown_next hr hne hd hp ?_ ?_ (h1 e List.mem_cons_self)
      (h2 e List.mem_cons_self)) (fun h => hc (List.mem_cons_of_mem _ h))
      (fun i hi => ho i (List.mem_cons_of_mem _ hi))
      (fun e he => h1 e (List.mem_cons_of_mem _ he)) (fun e he => h2 e (List.mem_cons_of_mem _ he))
    · rintro rfl; exact hc List.mem_cons_self
    · rintro i rfl; exact ho i List.mem_cons_self

theorem lastDraw_next {O : Outside K G} (hd : ∀ d, O.draws d = true) {P : Drawing K G → Prop}
    {p : Page K G} {e : Event K} (hp : LastDraw P p) (hc : e ≠ .clickRun) (hr : e ≠ .clickRedraw)
    (ho : ∀ i, e = .finish i → i = 0) : LastDraw P (p.next O e) := by
  cases e with
  | upload f => exact hp
  | load =>
    obtain ⟨h0, _, _, h3⟩ := loadData_rest O p
    have hx : p.next O .load = loadData O p := rfl
    rw [hx, LastDraw, h0, h3]
    exact hp
  | change w => exact hp
  | clickRun => exact absurd rfl hc
  | clickRedraw => exact absurd rfl hr
  | finish i =>
    obtain rfl := ho i rfl
    exact lastDraw_finish hd hp

theorem lastDraw_after {O : Outside K G} (hd : ∀ d, O.draws d = true) {P : Drawing K G → Prop}
    (es : List (Event K)) : ∀ p : Page K G, LastDraw P p → Event.clickRun ∉ es →
      Event.clickRedraw ∉ es → InOrder es → LastDraw P (p.after O es) := by
  induction es with
  | nil => exact fun p hp _ _ _ => hp
  | cons e es ih =>
    intro p hp hc hr ho
    rw [Page.after, List.foldl_cons]
    refine ih _ (lastDraw_next hd hp ?_ ?_ ?_) (fun h => hc (List.mem_cons_of_mem _ h))
      (fun h => hr (List.mem_cons_of_mem _ h)) (fun i hi => ho i (List.mem_cons_of_mem _ hi))
    · rintro rfl; exact hc List.mem_cons_self
    · rintro rfl; exact hr List.mem_cons_self
    · rintro i rfl; exact ho i List.mem_cons_self

theorem allDraws {T : List (Task K G)} (h : ∀ t ∈ T, ¬ t.isRun) :
    ∃ ds, T = List.map Task.draw ds := by
  induction T with
  | nil => exact ⟨[], rfl⟩
  | cons t T ih =>
    obtain ⟨ds, rfl⟩ := ih fun t ht => h t (List.mem_cons_of_mem _ ht)
    cases t with
    | run df cfg => exact absurd trivial (h _ List.mem_cons_self)
    | draw d => exact ⟨d :: ds, rfl⟩

end Verif
