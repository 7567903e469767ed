import Mathlib.Data.List.Induction
import Verif.Proof.App

/-!
# Invariants over the histories of the page
-/

set_option autoImplicit false

namespace Verif
variable {K G : Type}

theorem after_snoc [Field K] (O : Outside K G) (p : Page K G) (es : List (Event K)) (e : Event K) :
    p.after O (es ++ [e]) = (p.after O es).next O e := by
  rw [Page.after, List.foldl_append]; rfl

/-! ### What each part of a handler changes -/

theorem startDraw_storage (p : Page K G) : (startDraw p).storage = p.storage := by
  unfold startDraw
  dsimp only
  repeat' split
  all_goals rfl

theorem startDraw_shown (p : Page K G) : (startDraw p).shown = p.shown := by
  unfold startDraw
  dsimp only
  repeat' split
  all_goals rfl

theorem startDraw_tasks {p : Page K G} {t : Task K G} (h : t ∈ (startDraw p).tasks) :
    t ∈ p.tasks ∨ ∃ df y l g cfg, t = .draw ⟨df, y, l, g, cfg⟩ ∧ df.empty = false ∧
      p.storage.df = some df ∧ y = p.storage.dfY.getD .none ∧ l = p.storage.labels.getD .none ∧
      p.storage.graph = some g ∧ getMapperConfig p.widgets = .ok cfg := by
  rw [startDraw] at h
  split at h
  · exact Or.inl h
  · simp only at h
    split at h
    · exact Or.inl h
    · split at h
      · exact Or.inl h
      · rename_i _ cfg hc _ g hg he
        rw [List.mem_append, List.mem_singleton] at h
        rcases h with h | h
        · exact Or.inl h
        · right
          refine ⟨_, _, _, _, _, h, by simpa using he, ?_, rfl, rfl, hg, hc⟩
          cases hd : p.storage.df with
          | none => rw [hd] at he; exact absurd rfl he
          | some df => rfl

theorem startRun_storage (p : Page K G) : (startRun p).storage = p.storage := by
  rw [startRun]
  repeat' split
  all_goals rfl

theorem startRun_shown (p : Page K G) : (startRun p).shown = p.shown := by
  rw [startRun]
  repeat' split
  all_goals rfl

theorem startRun_tasks {p : Page K G} {t : Task K G} (h : t ∈ (startRun p).tasks) :
    t ∈ p.tasks ∨ ∃ df cfg, t = .run df cfg ∧ df.empty = false ∧ p.storage.df = some df ∧
      getMapperConfig p.widgets = .ok cfg := by
  rw [startRun] at h
  split at h
  · exact Or.inl h
  · split at h
    · exact Or.inl h
    · rename_i he _ cfg hc
      rw [List.mem_append, List.mem_singleton] at h
      rcases h with h | h
      · exact Or.inl h
      · right
        refine ⟨_, _, h, by simpa using he, ?_, hc⟩
        cases hd : p.storage.df with
        | none => rw [hd] at he; exact absurd rfl he
        | some df => rfl

theorem loadColumns_storage (p : Page K G) : (loadColumns p).storage = p.storage := by
  rw [loadColumns]; simp only; split <;> rfl
theorem loadColumns_tasks (p : Page K G) : (loadColumns p).tasks = p.tasks := by
  rw [loadColumns]; simp only; split <;> rfl
theorem loadColumns_shown (p : Page K G) : (loadColumns p).shown = p.shown := by
  rw [loadColumns]; simp only; split <;> rfl

theorem loadData_tasks [Field K] (O : Outside K G) (p : Page K G) : (loadData O p).tasks = p.tasks := by
  rw [loadData]
  split
  · split
    · rfl
    · rw [loadColumns_tasks]
  · split
    · split
      · rfl
      · rw [loadColumns_tasks]
    · rfl
theorem loadData_shown [Field K] (O : Outside K G) (p : Page K G) : (loadData O p).shown = p.shown := by
  rw [loadData]
  split
  · split
    · rfl
    · rw [loadColumns_shown]
  · split
    · split
      · rfl
      · rw [loadColumns_shown]
    · rfl

theorem loadData_storage [Field K] (O : Outside K G) (p : Page K G) :
    (loadData O p).storage = p.storage ∨ ∃ e, (e = O.digits ∨ e = O.iris) ∧
      (loadData O p).storage = { p.storage with
        df := some (fixData e.1), labels := some (fixData e.2) } := by
  rw [loadData]
  split
  · split
    · exact Or.inl rfl
    · rename_i df labels he
      rw [loadColumns_storage]
      refine Or.inr ⟨(df, labels), ?_, rfl⟩
      rw [exampleData] at he
      split at he
      · exact Or.inl (Option.some.inj he).symm
      · split at he
        · exact Or.inr (Option.some.inj he).symm
        · cases he
  · split
    · split
      · exact Or.inl rfl
      · rw [loadColumns_storage]; exact Or.inl rfl
    · exact Or.inl rfl

theorem finishRun_shown (O : Outside K G) (df : Frame K) (cfg : MapperConfig) (p : Page K G) :
    (finishRun O df cfg p).shown = p.shown := by
  rw [finishRun]
  split
  · rfl
  · rfl
  · rw [startDraw_shown]

theorem finishRun_storage (O : Outside K G) (df : Frame K) (cfg : MapperConfig) (p : Page K G) :
    ((finishRun O df cfg p).storage = p.storage ∧
      ∀ g y, runMapper O.libs (some df) cfg ≠ .ok (some (g, y))) ∨
    ∃ g y, runMapper O.libs (some df) cfg = .ok (some (g, y)) ∧
      (finishRun O df cfg p).storage = { p.storage with graph := some g, dfY := some y } := by
  rw [finishRun]
  split
  · rename_i h; left; simp [h]
  · rename_i h; left; simp [h]
  · rename_i g y h
    right
    exact ⟨g, y, h, by rw [startDraw_storage]⟩

theorem finishDraw_storage (O : Outside K G) (d : Drawing K G) (p : Page K G) :
    (finishDraw O d p).storage = p.storage := by
  rw [finishDraw]; split <;> rfl
theorem finishDraw_tasks (O : Outside K G) (d : Drawing K G) (p : Page K G) :
    (finishDraw O d p).tasks = p.tasks := by
  rw [finishDraw]; split <;> rfl

/-! ### Where things come from -/

/-- The graph and the lens values stored come from one run. -/
def FromRun [Field K] (O : Outside K G) (es : List (Event K)) (s : Storage K G) : Prop :=
  (s.graph = none ∧ s.dfY = none) ∨ ∃ g y df cfg, s.graph = some g ∧ s.dfY = some y ∧
    df.empty = false ∧ HeldBefore O es df cfg ∧
    runMapper O.libs (some df) cfg = .ok (some (g, y))

/-- Data and labels stored come from one upload or one example. -/
def FromLoad [Field K] (O : Outside K G) (es : List (Event K)) (s : Storage K G) : Prop :=
  (s.df = none ∧ s.labels = none) ∨
  (∃ f, Event.upload (some (.ok f)) ∈ es ∧ s.df = some (fixData f) ∧ s.labels = some .none) ∨
  ∃ e, (e = O.digits ∨ e = O.iris) ∧ s.df = some (fixData e.1) ∧ s.labels = some (fixData e.2)

/-- The drawing shows what was stored at some time. -/
def WasStored [Field K] (O : Outside K G) (es : List (Event K)) (d : Drawing K G) : Prop :=
  d.df.empty = false ∧ ∃ pre, pre <+: es ∧
    (Page.new.after O pre).storage = ⟨some d.df, some d.labels, some d.dfY, some d.graph⟩

/-- What is known of a waiting handler. -/
def TaskOk [Field K] (O : Outside K G) (es : List (Event K)) : Task K G → Prop
  | .run df cfg => df.empty = false ∧ HeldBefore O es df cfg
  | .draw d => WasStored O es d

/-- What holds after every history. -/
structure PageInv [Field K] (O : Outside K G) (es : List (Event K)) (p : Page K G) : Prop where
  run : FromRun O es p.storage
  load : FromLoad O es p.storage
  tasks : ∀ t ∈ p.tasks, TaskOk O es t
  shown : ∀ d, p.shown = some d → O.draws d = true ∧ WasStored O es d

section
variable [Field K] {O : Outside K G}

theorem HeldBefore.mono {es : List (Event K)} {df : Frame K} {cfg : MapperConfig}
    (h : HeldBefore O es df cfg) (e : Event K) : HeldBefore O (es ++ [e]) df cfg := by
  obtain ⟨pre, hp, h⟩ := h
  exact ⟨pre, hp.trans (List.prefix_append _ _), h⟩

theorem WasStored.mono {es : List (Event K)} {d : Drawing K G} (h : WasStored O es d) (e : Event K) :
    WasStored O (es ++ [e]) d := by
  obtain ⟨he, pre, hp, h⟩ := h
  exact ⟨he, pre, hp.trans (List.prefix_append _ _), h⟩

theorem TaskOk.mono {es : List (Event K)} {t : Task K G} (h : TaskOk O es t) (e : Event K) :
    TaskOk O (es ++ [e]) t := by
  cases t with
  | run df cfg => exact ⟨h.1, h.2.mono e⟩
  | draw d => exact WasStored.mono h e

theorem FromRun.mono {es : List (Event K)} {s : Storage K G} (h : FromRun O es s) (e : Event K) :
    FromRun O (es ++ [e]) s := by
  rcases h with h | ⟨g, y, df, cfg, h1, h2, h3, h4, h5⟩
  · exact Or.inl h
  · exact Or.inr ⟨g, y, df, cfg, h1, h2, h3, h4.mono e, h5⟩

theorem FromLoad.mono {es : List (Event K)} {s : Storage K G} (h : FromLoad O es s) (e : Event K) :
    FromLoad O (es ++ [e]) s := by
  rcases h with h | ⟨f, h1, h2⟩ | h
  · exact Or.inl h
  · exact Or.inr (Or.inl ⟨f, List.mem_append_left _ h1, h2⟩)
  · exact Or.inr (Or.inr h)

theorem FromRun.congr {es : List (Event K)} {s s' : Storage K G} (h : FromRun O es s)
    (h1 : s'.graph = s.graph) (h2 : s'.dfY = s.dfY) : FromRun O es s' := by
  rw [FromRun, h1, h2]; exact h

theorem FromLoad.congr {es : List (Event K)} {s s' : Storage K G} (h : FromLoad O es s)
    (h1 : s'.df = s.df) (h2 : s'.labels = s.labels) : FromLoad O es s' := by
  rw [FromLoad, h1, h2]; exact h

/-- A drawing that has just been started shows the storage. -/
theorem wasStored_now {es : List (Event K)} {s : Storage K G}
    (hs : (Page.new.after O es).storage = s) (hr : FromRun O es s) (hl : FromLoad O es s)
    {df y l : Frame K} {g : G} {cfg : MapperConfig} (he : df.empty = false) (hdf : s.df = some df)
    (hy : y = s.dfY.getD .none) (hlab : l = s.labels.getD .none) (hg : s.graph = some g) :
    WasStored O es ⟨df, y, l, g, cfg⟩ := by
  refine ⟨he, es, List.prefix_refl _, ?_⟩
  rw [hs]
  obtain ⟨df', l', y', g'⟩ := s
  simp only at hdf hy hlab hg
  subst hdf hg
  rcases hr with ⟨h, _⟩ | ⟨g1, y1, _, _, _, h2, _⟩
  · simp at h
  · simp only at h2
    subst h2
    rcases hl with ⟨h, _⟩ | ⟨_, _, _, h⟩ | ⟨_, _, _, h⟩
    · simp at h
    · simp only at h; subst h; simp [hy, hlab]
    · simp only at h; subst h; simp [hy, hlab]

theorem pageInv_next {es : List (Event K)} {p : Page K G} (hp : Page.new.after O es = p)
    (inv : PageInv O es p) (e : Event K) : PageInv O (es ++ [e]) (p.next O e) := by
  have hnow : Page.new.after O (es ++ [e]) = p.next O e := by rw [after_snoc, hp]
  have hheld : ∀ df cfg, p.storage.df = some df → getMapperConfig p.widgets = .ok cfg →
      HeldBefore O es df cfg := fun df cfg h1 h2 =>
    ⟨es, List.prefix_refl _, by rw [hp]; exact h1, by rw [hp]; exact h2⟩
  cases e with
  | upload file =>
    refine ⟨?_, ?_, fun t ht => (inv.tasks t ht).mono _,
      fun d hd => ⟨(inv.shown d hd).1, (inv.shown d hd).2.mono _⟩⟩
    · simp only [Page.next]
      refine (inv.run.mono _).congr ?_ ?_ <;>
      · unfold uploadFile; split <;> rfl
    · simp only [Page.next, uploadFile]
      split
      · rename_i df
        exact Or.inr (Or.inl ⟨df, by simp, rfl, rfl⟩)
      · exact inv.load.mono _
  | load =>
    refine ⟨?_, ?_, fun t ht => ?_, fun d hd => ?_⟩
    · simp only [Page.next]
      rcases loadData_storage O p with h | ⟨e, _, h⟩
      · rw [h]; exact inv.run.mono _
      · rw [h]; exact (inv.run.mono _).congr rfl rfl
    · simp only [Page.next]
      rcases loadData_storage O p with h | ⟨e, he, h⟩
      · rw [h]; exact inv.load.mono _
      · rw [h]; exact Or.inr (Or.inr ⟨e, he, rfl, rfl⟩)
    · simp only [Page.next, loadData_tasks] at ht
      exact (inv.tasks t ht).mono _
    · simp only [Page.next, loadData_shown] at hd
      exact ⟨(inv.shown d hd).1, (inv.shown d hd).2.mono _⟩
  | change w =>
    exact ⟨inv.run.mono _, inv.load.mono _, fun t ht => (inv.tasks t ht).mono _,
      fun d hd => ⟨(inv.shown d hd).1, (inv.shown d hd).2.mono _⟩⟩
  | clickRun =>
    refine ⟨?_, ?_, fun t ht => ?_, fun d hd => ?_⟩
    · simp only [Page.next, startRun_storage]; exact inv.run.mono _
    · simp only [Page.next, startRun_storage]; exact inv.load.mono _
    · simp only [Page.next] at ht
      rcases startRun_tasks ht with h | ⟨df, cfg, rfl, he, h1, h2⟩
      · exact (inv.tasks t h).mono _
      · exact ⟨he, (hheld df cfg h1 h2).mono _⟩
    · simp only [Page.next, startRun_shown] at hd
      exact ⟨(inv.shown d hd).1, (inv.shown d hd).2.mono _⟩
  | clickRedraw =>
    refine ⟨?_, ?_, fun t ht => ?_, fun d hd => ?_⟩
    · simp only [Page.next, startDraw_storage]; exact inv.run.mono _
    · simp only [Page.next, startDraw_storage]; exact inv.load.mono _
    · simp only [Page.next] at ht
      rcases startDraw_tasks ht with h | ⟨df, y, l, g, cfg, rfl, he, h1, h2, h3, h4, _⟩
      · exact (inv.tasks t h).mono _
      · refine wasStored_now (s := p.storage) ?_ (inv.run.mono _) (inv.load.mono _) he h1 h2 h3 h4
        rw [hnow]; exact startDraw_storage p
    · simp only [Page.next, startDraw_shown] at hd
      exact ⟨(inv.shown d hd).1, (inv.shown d hd).2.mono _⟩
  | finish i =>
    cases ht : p.tasks[i]? with
    | none =>
      have : p.next O (.finish i) = p := by simp only [Page.next, ht]
      rw [this]
      exact ⟨inv.run.mono _, inv.load.mono _, fun t ht => (inv.tasks t ht).mono _,
        fun d hd => ⟨(inv.shown d hd).1, (inv.shown d hd).2.mono _⟩⟩
    | some t =>
      have htm : t ∈ p.tasks := List.mem_of_getElem? ht
      have hsub : ∀ t' ∈ p.tasks.eraseIdx i, TaskOk O (es ++ [.finish i]) t' := fun t' h =>
        (inv.tasks t' (List.mem_of_mem_eraseIdx h)).mono _
      cases t with
      | draw d =>
        have hn : p.next O (.finish i) = finishDraw O d { p with tasks := p.tasks.eraseIdx i } := by
          simp only [Page.next, ht]
        rw [hn]
        refine ⟨?_, ?_, fun t ht => ?_, fun d' hd => ?_⟩
        · rw [finishDraw_storage]; exact inv.run.mono _
        · rw [finishDraw_storage]; exact inv.load.mono _
        · rw [finishDraw_tasks] at ht; exact hsub t ht
        · rw [finishDraw] at hd
          split at hd
          · rename_i hdr
            obtain rfl : d = d' := by simpa using hd
            exact ⟨hdr, WasStored.mono (inv.tasks _ htm) _⟩
          · exact ⟨(inv.shown d' hd).1, (inv.shown d' hd).2.mono _⟩
      | run df cfg =>
        have hn : p.next O (.finish i) = finishRun O df cfg { p with tasks := p.tasks.eraseIdx i } := by
          simp only [Page.next, ht]
        rw [hn] at hnow ⊢
        obtain ⟨he, hh⟩ := inv.tasks _ htm
        have hrun : FromRun O (es ++ [.finish i])
            (finishRun O df cfg { p with tasks := p.tasks.eraseIdx i }).storage := by
          rcases finishRun_storage O df cfg { p with tasks := p.tasks.eraseIdx i } with
            ⟨h, _⟩ | ⟨g, y, hr, h⟩
          · rw [h]; exact inv.run.mono _
          · rw [h]; exact Or.inr ⟨g, y, df, cfg, rfl, rfl, he, hh.mono _, hr⟩
        have hload : FromLoad O (es ++ [.finish i])
            (finishRun O df cfg { p with tasks := p.tasks.eraseIdx i }).storage := by
          rcases finishRun_storage O df cfg { p with tasks := p.tasks.eraseIdx i } with
            ⟨h, _⟩ | ⟨g, y, hr, h⟩
          · rw [h]; exact inv.load.mono _
          · rw [h]; exact (inv.load.mono _).congr rfl rfl
        refine ⟨hrun, hload, fun t ht => ?_, fun d hd => ?_⟩
        · rcases hfr : runMapper O.libs (some df) cfg with err | (_ | ⟨g, y⟩)
          · simp only [finishRun, hfr] at ht; exact hsub t ht
          · simp only [finishRun, hfr] at ht; exact hsub t ht
          · have hst := hnow
            simp only [finishRun, hfr] at ht hrun hload hst
            rcases startDraw_tasks ht with h | ⟨df', y', l, g', cfg', rfl, he', h1, h2, h3, h4, _⟩
            · exact hsub t h
            · rw [startDraw_storage] at hrun hload
              refine wasStored_now ?_ hrun hload he' h1 h2 h3 h4
              rw [hst, startDraw_storage]
        · rw [finishRun_shown] at hd
          exact ⟨(inv.shown d hd).1, (inv.shown d hd).2.mono _⟩

theorem pageInv (es : List (Event K)) : PageInv O es (Page.new.after O es) := by
  induction es using List.reverseRecOn with
  | nil =>
    exact ⟨Or.inl ⟨rfl, rfl⟩, Or.inl ⟨rfl, rfl⟩, (fun t h => by cases h), fun d h => by cases h⟩
  | append_singleton es e ih => rw [after_snoc]; exact pageInv_next rfl ih e

/-! ### Data loaded before the first run -/

/-- The graph, the runs and the drawings belong to the data. -/
structure Fresh (O : Outside K G) (p : Page K G) : Prop where
  graph : ∀ g, p.storage.graph = some g → ∃ df, p.storage.df = some df ∧ ComputedFrom O.libs g df
  runs : ∀ df cfg, Task.run df cfg ∈ p.tasks → p.storage.df = some df
  draws : ∀ d, Task.draw d ∈ p.tasks → ComputedFrom O.libs d.graph d.df
  shown : ∀ d, p.shown = some d → ComputedFrom O.libs d.graph d.df

omit [Field K] in
theorem startDraw_fresh {p : Page K G} (h : Fresh O p) : Fresh O (startDraw p) := by
  refine ⟨?_, ?_, ?_, ?_⟩
  · rw [startDraw_storage]; exact h.graph
  · intro df cfg ht
    rw [startDraw_storage]
    rcases startDraw_tasks ht with h' | ⟨_, _, _, _, _, h', _⟩
    · exact h.runs _ _ h'
    · cases h'
  · intro d ht
    rcases startDraw_tasks ht with h' | ⟨df, y, l, g, cfg, h', _, h1, _, _, h4, _⟩
    · exact h.draws _ h'
    · cases h'
      obtain ⟨df', e, hc⟩ := h.graph g h4
      rw [h1] at e
      cases e
      exact hc
  · rw [startDraw_shown]; exact h.shown

theorem fresh_next {p : Page K G} (h : Fresh O p) {e : Event K} (he : ¬ e.changesData) :
    Fresh O (p.next O e) := by
  cases e with
  | upload file => exact absurd trivial he
  | load => exact absurd trivial he
  | change w => exact ⟨h.graph, h.runs, h.draws, h.shown⟩
  | clickRun =>
    simp only [Page.next]
    refine ⟨?_, ?_, ?_, ?_⟩
    · rw [startRun_storage]; exact h.graph
    · intro df cfg ht
      rw [startRun_storage]
      rcases startRun_tasks ht with h' | ⟨_, _, h', _, h1, _⟩
      · exact h.runs _ _ h'
      · cases h'; exact h1
    · intro d ht
      rcases startRun_tasks ht with h' | ⟨_, _, h', _⟩
      · exact h.draws _ h'
      · cases h'
    · rw [startRun_shown]; exact h.shown
  | clickRedraw => exact startDraw_fresh h
  | finish i =>
    simp only [Page.next]
    split
    · exact h
    · rename_i df cfg ht
      have hdf := h.runs _ _ (List.mem_of_getElem? ht)
      rw [finishRun]
      have hbase : Fresh O { p with tasks := p.tasks.eraseIdx i } :=
        ⟨h.graph, fun df cfg ht => h.runs df cfg (List.mem_of_mem_eraseIdx ht),
          fun d ht => h.draws d (List.mem_of_mem_eraseIdx ht), h.shown⟩
      split
      · exact hbase
      · exact hbase
      · rename_i g y hr
        apply startDraw_fresh
        refine ⟨fun g' hg => ?_, hbase.runs, hbase.draws, hbase.shown⟩
        obtain rfl : g = g' := by simpa using hg
        exact ⟨df, hdf, cfg, y, hr⟩
    · rename_i d ht
      have hd := h.draws _ (List.mem_of_getElem? ht)
      rw [finishDraw]
      have hbase : Fresh O { p with tasks := p.tasks.eraseIdx i } :=
        ⟨h.graph, fun df cfg ht => h.runs df cfg (List.mem_of_mem_eraseIdx ht),
          fun d ht => h.draws d (List.mem_of_mem_eraseIdx ht), h.shown⟩
      split
      · refine ⟨hbase.graph, hbase.runs, hbase.draws, fun d' hd' => ?_⟩
        obtain rfl : d = d' := by simpa using hd'
        exact hd
      · exact hbase

theorem fresh_after {p : Page K G} (h : Fresh O p) :
    ∀ es : List (Event K), (∀ e ∈ es, ¬ e.changesData) → Fresh O (p.after O es) := by
  intro es
  induction es using List.reverseRecOn with
  | nil => intro _; exact h
  | append_singleton es e ih =>
    intro he
    rw [after_snoc]
    exact fresh_next (ih fun e' h' => he e' (by simp [h'])) (he e (by simp))

/-- Without a run there is no graph and no handler waits. -/
theorem idle_after : ∀ es : List (Event K), Event.clickRun ∉ es →
    (Page.new.after O es).storage.graph = none ∧ (Page.new.after O es).tasks = [] ∧
      (Page.new.after O es).shown = none := by
  intro es
  induction es using List.reverseRecOn with
  | nil => intro _; exact ⟨rfl, rfl, rfl⟩
  | append_singleton es e ih =>
    intro he
    obtain ⟨h1, h2, h3⟩ := ih fun h => he (by simp [h])
    rw [after_snoc]
    obtain ⟨p, hp⟩ : ∃ p, p = Page.new.after O es := ⟨_, rfl⟩
    rw [← hp] at h1 h2 h3 ⊢
    cases e with
    | upload file =>
      refine ⟨?_, h2, h3⟩
      simp only [Page.next, uploadFile]
      split <;> exact h1
    | load =>
      simp only [Page.next, loadData_tasks, loadData_shown]
      refine ⟨?_, h2, h3⟩
      rcases loadData_storage O p with h | ⟨_, _, h⟩ <;> rw [h] <;> exact h1
    | change w => exact ⟨h1, h2, h3⟩
    | clickRun => exact absurd (by simp) he
    | clickRedraw =>
      have : p.next O .clickRedraw = p := by
        simp only [Page.next, startDraw, h1]
        split <;> rfl
      rw [this]
      exact ⟨h1, h2, h3⟩
    | finish i =>
      have : p.next O (.finish i) = p := by simp [Page.next, h2]
      rw [this]
      exact ⟨h1, h2, h3⟩

end

end Verif
