import Verif.Proof.AppNotes
import Verif.Props.AppLoad
import Verif.Proof.AppHistory
import Mathlib.Data.List.Nodup

/-!
# C118: every action of the web app reports its outcome
-/

set_option autoImplicit false
set_option linter.unusedSectionVars false

namespace Verif

variable {K G : Type}

open NotePage

/-- **C118.** Notifications only report: the page does what it does without them. -/
theorem C118_page [Field K] (O : Outside K G) (es : List (Event K)) :
    (new.after O es : NotePage K G).page = Page.new.after O es := after_page O new_linked es

/-- **C118.** While a computation runs its own notification says so; no two computations share one. -/
theorem C118_ongoing [Field K] (O : Outside K G) (es : List (Event K)) (k : ℕ) (t : Task K G)
    (ht : (new.after O es : NotePage K G).page.tasks[k]? = some t) :
    ∃ i, (new.after O es).NoteOf k i ∧ (new.after O es).notes[i]? = some (ongoing t) ∧
      ∀ k', (new.after O es).NoteOf k' i → k' = k := by
  have hp : (new.after O es : NotePage K G).Linked := after_linked O new_linked es
  obtain ⟨h, hh⟩ := handler_of_task hp ht
  have hs : (new.after O es : NotePage K G).Shows :=
    after_shows O new_linked (fun k t h h1 _ => by simp [new] at h1) es
  refine ⟨h.note, ⟨h, hh, rfl⟩, hs k t h ht hh, ?_⟩
  rintro k' ⟨h', hh', he⟩
  obtain ⟨hk, e1⟩ := List.getElem?_eq_some_iff.mp hh
  obtain ⟨hk', e2⟩ := List.getElem?_eq_some_iff.mp hh'
  exact (List.Nodup.getElem_inj_iff hp.nodup (hi := by simpa using hk') (hj := by simpa using hk)).mp
    (by simp only [List.getElem_map, e1, e2, he])

/-- **C118.** "Run Mapper" starts a computation with a notification, or gives the reason at once and does
nothing else. -/
theorem C118_click_run [Field K] (O : Outside K G) (es : List (Event K)) (hd : DimensionsSet es) :
    let p : NotePage K G := new.after O es
    let q := p.next O .clickRun
    let df := p.page.storage.df.getD .none
    (df.empty = true → q.page = p.page ∧ q.notes = p.notes ++
      [⟨"Run Mapper failed: no data found, please load data first.", "warning", false⟩]) ∧
    (df.empty = false → ∃ cfg, q.page.tasks = p.page.tasks ++ [.run df cfg] ∧
      q.notes = p.notes ++ [⟨"Running Mapper...", "ongoing", true⟩] ∧
      q.NoteOf p.page.tasks.length p.notes.length) := by
  intro p q df
  have hp : p.Linked := after_linked O new_linked es
  have hdim := after_dimensions O es new new_linked (by simp [new]) hd
  constructor
  · intro he
    have hq : q = (p.start "Running Mapper...").stop p.notes.length
        "Run Mapper failed: no data found, please load data first." "warning" := by
      simp only [q, next, run]
      exact if_pos he
    rw [hq]
    refine ⟨rfl, ?_⟩
    simp [start, stop]
  · intro he
    obtain ⟨n, hn⟩ := Option.ne_none_iff_exists'.mp hdim
    have hw : ∃ cfg, getMapperConfig (p.start "Running Mapper...").page.widgets = .ok cfg := by
      simp only [start, getMapperConfig, p, hn]
      exact ⟨_, rfl⟩
    obtain ⟨cfg, hcfg⟩ := hw
    have hq : q = { p.start "Running Mapper..." with
        page := { p.page with tasks := p.page.tasks ++ [.run df cfg] }
        handlers := p.handlers ++ [⟨p.notes.length, none⟩] } := by
      simp only [q, next, run]
      rw [if_neg (by simpa [df, start] using he), hcfg]
      rfl
    rw [hq]
    refine ⟨cfg, rfl, rfl, ⟨p.notes.length, none⟩, ?_, rfl⟩
    rw [← hp.same]
    simp

/-- **C118.** "Redraw" starts a drawing with a notification, or gives the reason at once and does nothing
else. -/
theorem C118_click_redraw [Field K] (O : Outside K G) (es : List (Event K)) (hd : DimensionsSet es) :
    let p : NotePage K G := new.after O es
    let q := p.next O .clickRedraw
    let df := p.page.storage.df.getD .none
    (df.empty = true ∨ p.page.storage.graph = none → q.page = p.page ∧ q.notes = p.notes ++
      [⟨"Draw Mapper failed: no Mapper graph found, please run Mapper first.", "warning", false⟩]) ∧
    (∀ g, df.empty = false → p.page.storage.graph = some g → ∃ d : Drawing K G,
      d.df = df ∧ d.graph = g ∧ q.page.tasks = p.page.tasks ++ [.draw d] ∧
      q.notes = p.notes ++ [⟨"Drawing Mapper...", "ongoing", true⟩] ∧
      q.NoteOf p.page.tasks.length p.notes.length) := by
  intro p q df
  have hp : p.Linked := after_linked O new_linked es
  have hdim := after_dimensions O es new new_linked (by simp [new]) hd
  obtain ⟨n, hn⟩ := Option.ne_none_iff_exists'.mp hdim
  have hw : ∃ cfg, getMapperConfig (p.start "Drawing Mapper...").page.widgets = .ok cfg := by
    simp only [start, getMapperConfig, p, hn]
    exact ⟨_, rfl⟩
  obtain ⟨cfg, hcfg⟩ := hw
  constructor
  · intro he
    have hq : q = (p.start "Drawing Mapper...").stop p.notes.length
        "Draw Mapper failed: no Mapper graph found, please run Mapper first." "warning" := by
      simp only [q, next, draw, hcfg]
      cases hg : p.page.storage.graph with
      | none => rw [show (p.start "Drawing Mapper...").page.storage.graph = none from hg]
      | some g =>
        rw [show (p.start "Drawing Mapper...").page.storage.graph = some g from hg]
        rcases he with he | he
        · exact if_pos he
        · rw [hg] at he; cases he
    rw [hq]
    refine ⟨rfl, ?_⟩
    simp [start, stop]
  · intro g he hg
    have hq : q = { p.start "Drawing Mapper..." with
        page := { p.page with tasks := p.page.tasks ++ [.draw ⟨df, p.page.storage.dfY.getD .none,
          p.page.storage.labels.getD .none, g, cfg⟩] }
        handlers := p.handlers ++ [⟨p.notes.length, none⟩] } := by
      simp only [q, next, draw, hcfg]
      rw [show (p.start "Drawing Mapper...").page.storage.graph = some g from hg]
      simp only
      rw [if_neg (by simpa [df, start] using he)]
      rfl
    rw [hq]
    refine ⟨_, rfl, rfl, rfl, rfl, ⟨p.notes.length, none⟩, ?_, rfl⟩
    rw [← hp.same]
    simp

/-- **C118.** When Mapper ends, its notification says whether it completed, and the page has the new graph
exactly if it did. No other notification changes. -/
theorem C118_run [Field K] (O : Outside K G) (es : List (Event K)) (hd : DimensionsSet es) (k : ℕ)
    (df : Frame K) (cfg : MapperConfig)
    (ht : (new.after O es : NotePage K G).page.tasks[k]? = some (.run df cfg)) :
    let p : NotePage K G := new.after O es
    let q := p.next O (.finish k)
    ∃ i, p.NoteOf k i ∧
      (∀ g y, runMapper O.libs (some df) cfg = .ok (some (g, y)) →
        q.page.storage.graph = some g ∧ q.page.storage.dfY = some y ∧
        q.Says i "Run Mapper completed." "positive") ∧
      ((∀ r, runMapper O.libs (some df) cfg ≠ .ok (some r)) →
        q.page.storage = p.page.storage ∧ ∃ m, q.Says i m "error") ∧
      ∀ j, j < p.notes.length → j ≠ i → q.notes[j]? = p.notes[j]? := by
  intro p q
  have hp : p.Linked := after_linked O new_linked es
  have hdim := after_dimensions O es new new_linked (by simp [new]) hd
  obtain ⟨h, hh⟩ := handler_of_task hp ht
  have hq : q = (p.drop k).ran O h df cfg := next_finish O ht hh
  have hlt : h.note < p.notes.length := hp.bound h (List.mem_of_getElem? hh)
  refine ⟨h.note, ⟨h, hh, rfl⟩, ?_, ?_, ?_⟩
  · intro g y hr
    rw [hq]
    simp only [ran, hr]
    refine ⟨?_, ?_, ?_⟩
    · rw [draw_page, startDraw_storage]
      rfl
    · rw [draw_page, startDraw_storage]
      rfl
    · rw [Says, draw_keep_caller _ ?_ ?_]
      · exact stop_says _ hlt _ _
      · rw [notes_length_stop]; exact hlt
      · exact hdim
  · intro hr
    rw [hq]
    simp only [ran]
    cases hm : runMapper O.libs (some df) cfg with
    | error e => exact ⟨rfl, _, stop_says _ hlt _ _⟩
    | ok r =>
      cases r with
      | none => exact ⟨rfl, _, stop_says _ hlt _ _⟩
      | some r => exact absurd hm (hr r)
  · intro j hj hne
    rw [hq]
    exact ran_keep O (p.drop k) hj (Ne.symm hne) df cfg

/-- **C118.** When a figure is drawn it is shown and its notification says so. No other notification
changes. -/
theorem C118_draw [Field K] (O : Outside K G) (es : List (Event K)) (k : ℕ) (d : Drawing K G)
    (ht : (new.after O es : NotePage K G).page.tasks[k]? = some (.draw d)) (hd : O.draws d = true) :
    let p : NotePage K G := new.after O es
    let q := p.next O (.finish k)
    ∃ i, p.NoteOf k i ∧ q.page.shown = some d ∧ q.Says i "Draw Mapper completed." "positive" ∧
      ∀ j, j ≠ i → q.notes[j]? = p.notes[j]? := by
  intro p q
  have hp : p.Linked := after_linked O new_linked es
  obtain ⟨h, hh⟩ := handler_of_task hp ht
  have hlt : h.note < p.notes.length := hp.bound h (List.mem_of_getElem? hh)
  have hq : q = ({ p.drop k with page := { (p.drop k).page with shown := some d } }).stop h.note
      "Draw Mapper completed." "positive" := by
    rw [show q = (p.drop k).drawn O h d from next_finish O ht hh, drawn, if_pos hd]
  refine ⟨h.note, ⟨h, hh, rfl⟩, ?_, ?_, ?_⟩
  · rw [hq]; rfl
  · rw [hq]
    exact stop_says _ hlt _ _
  · intro j hj
    rw [hq]
    exact stop_keep _ _ _ (Ne.symm hj)

/-- **C118 (proved part).** As long as no drawing raises, the notifications that say that something is
running are exactly those of computations that have not ended; when all have ended none is left.
Missing: drawings that raise, see `C118_stuck`. -/
theorem C118_spinners_partial [Field K] (O : Outside K G) (es : List (Event K)) (hd : DimensionsSet es)
    (hf : NoDrawingFails O es) :
    (∀ i, (new.after O es : NotePage K G).Spins i ↔ (new.after O es : NotePage K G).Waits i) ∧
    ((new.after O es : NotePage K G).page.tasks = [] →
      ∀ i, ¬ (new.after O es : NotePage K G).Spins i) := by
  have hp : (new.after O es : NotePage K G).Linked := after_linked O new_linked es
  have he := after_exact O es hd hf
  have h1 : ∀ i, (new.after O es : NotePage K G).Spins i ↔ (new.after O es : NotePage K G).Waits i :=
    fun i => by rw [he i, waits_iff hp]
  refine ⟨h1, fun ht i hs => ?_⟩
  obtain ⟨k, hk, _⟩ := (h1 i).mp hs
  rw [ht] at hk
  exact absurd hk (Nat.not_lt_zero _)

/-- **C118 is false of the code**: after a drawing that raises, its notification says that it is still
being drawn, whatever happens later. -/
theorem C118_stuck [Field K] (O : Outside K G) (es : List (Event K)) (k : ℕ) (d : Drawing K G)
    (ht : (new.after O es : NotePage K G).page.tasks[k]? = some (.draw d)) (hd : O.draws d = false) :
    ∃ i, (new.after O es : NotePage K G).NoteOf k i ∧ ∀ es',
      ¬ (new.after O (es ++ .finish k :: es') : NotePage K G).Waits i ∧
      (new.after O (es ++ .finish k :: es') : NotePage K G).notes[i]? =
        some ⟨"Drawing Mapper...", "ongoing", true⟩ := by
  have hp : (new.after O es : NotePage K G).Linked := after_linked O new_linked es
  obtain ⟨h, hh⟩ := handler_of_task hp ht
  obtain ⟨h1, h2, h3⟩ := drop_note hp hh
  have hs : (new.after O es : NotePage K G).Shows :=
    after_shows O new_linked (fun k t h h1 _ => by simp [new] at h1) es
  have hm := List.mem_of_getElem? hh
  have hsub : ((new.after O es : NotePage K G).handlers.eraseIdx k).Sublist _ := List.eraseIdx_sublist _ _
  have hfree : ((new.after O es : NotePage K G).drop k).Free h.note :=
    ⟨h1, h2, fun h' hm' => h3 h' (hsub.subset hm')⟩
  have hq : (new.after O es : NotePage K G).next O (.finish k) =
      ((new.after O es : NotePage K G).drop k).raised h.caller := by
    rw [next_finish O ht hh, finished, drawn, if_neg (by rw [hd]; simp)]
  have hr := raised_free hfree (h3 h hm)
  refine ⟨h.note, ⟨h, hh, rfl⟩, fun es' => ?_⟩
  have hf' : ((new.after O es : NotePage K G).next O (.finish k)).Free h.note := by rw [hq]; exact hr.1
  have e : (new.after O (es ++ .finish k :: es') : NotePage K G) =
      ((new.after O es : NotePage K G).next O (.finish k)).after O es' := after_append O _ _ _
  constructor
  · rw [waits_iff (after_linked O new_linked _), e]
    have : ∀ (l : List (Event K)) (p : NotePage K G), p.Free h.note → (p.after O l).Free h.note := by
      intro l
      induction l with
      | nil => exact fun p hp => hp
      | cons a l ih => exact fun p hp => ih _ (next_free O hp a).1
    exact (this es' _ hf').own
  · rw [e, after_free O hf', hq, hr.2]
    exact hs k (.draw d) h ht hh

/-- **C118.** An upload is reported as what it is; one without a file changes nothing. -/
theorem C118_upload [Field K] (O : Outside K G) (p : NotePage K G) :
    ((p.next O (.upload none)).page = p.page ∧ (p.next O (.upload none)).messages =
      p.messages ++ [("File upload failed: no file provided.", "warning")]) ∧
    (∀ df, (p.next O (.upload (some (.ok df)))).page.storage.df = some (fixData df) ∧
      (p.next O (.upload (some (.ok df)))).messages =
        p.messages ++ [("File upload completed.", "info")]) :=
  ⟨⟨rfl, rfl⟩, fun _ => ⟨rfl, rfl⟩⟩

/-- **C118 is false of the code**: an upload of a file that cannot be read is not reported at all. -/
theorem C118_upload_silent [Field K] (O : Outside K G) (p : NotePage K G) (e : PyErr) :
    p.next O (.upload (some (.error e))) = p := rfl

/-- **C118.** Pressing "Load data" gives one message. It is a warning if the selection is refused, and then
nothing changes. Otherwise it says whether the data that are now loaded are non-empty. -/
theorem C118_load [Field K] (O : Outside K G) (p : NotePage K G) :
    ∃ m t, (p.next O .load).messages = p.messages ++ [(m, t)] ∧
      (LoadRefused p.page → t = "warning" ∧ (p.next O .load).page = p.page) ∧
      (¬ LoadRefused p.page →
        (((p.next O .load).page.storage.df.getD .none).empty = true → t = "warning") ∧
        (((p.next O .load).page.storage.df.getD .none).empty = false → t = "positive")) := by
  have hcol : ∀ r : NotePage K G, ∃ m t, r.columns.messages = r.messages ++ [(m, t)] ∧
      (r.columns.page.storage = r.page.storage) ∧
      ((r.page.storage.df.getD .none).empty = true → t = "warning") ∧
      ((r.page.storage.df.getD .none).empty = false → t = "positive") := by
    intro r
    by_cases he : (r.page.storage.df.getD .none).empty = true
    · simp [columns, he, notify]
    · simp [columns, he, notify]
  simp only [next]
  by_cases h1 : p.page.widgets.loadType = "Example"
  · cases hx : exampleData O p.page.widgets.loadExample with
    | none =>
      have hl : p.load O = p.notify "Load data failed: unknown example dataset selected." "warning" := by
        simp [load, h1, hx]
      rw [hl]
      refine ⟨_, _, rfl, fun _ => ⟨rfl, rfl⟩, fun hn => absurd (Or.inl ⟨h1, ?_⟩) hn⟩
      constructor
      · intro e; simp [exampleData, e] at hx
      · intro e; simp [exampleData, e] at hx
    | some r =>
      obtain ⟨df, labels⟩ := r
      obtain ⟨m, t, e1, e2, e3⟩ := hcol ({ p with page := { p.page with storage :=
        { p.page.storage with df := some (fixData df), labels := some (fixData labels) } } })
      have hl : p.load O = ({ p with page := { p.page with storage :=
          { p.page.storage with df := some (fixData df), labels := some (fixData labels) } } } :
            NotePage K G).columns := by
        simp [load, h1, hx]
      rw [hl]
      refine ⟨m, t, e1, ?_, fun _ => ?_⟩
      · rintro (⟨_, h2, h3⟩ | ⟨h2, _⟩ | ⟨h2, _⟩)
        · simp [exampleData, h2, h3] at hx
        · rw [h1] at h2; simp at h2
        · exact absurd h1 h2
      · rw [e2]; exact e3
  · by_cases h2 : p.page.widgets.loadType = "CSV"
    · by_cases he : (p.page.storage.df.getD .none).empty = true
      · have hl : p.load O =
            p.notify "Load data failed: no data found, please upload a file first." "warning" := by
          simp [load, h2, he]
        rw [hl]
        refine ⟨_, _, rfl, fun _ => ⟨rfl, rfl⟩, fun hn => absurd (Or.inr (Or.inl ⟨h2, ?_⟩)) hn⟩
        intro f hf
        rw [hf] at he
        exact he
      · obtain ⟨m, t, e1, e2, e3⟩ := hcol p
        have hl : p.load O = p.columns := by simp [load, h2, he]
        rw [hl]
        refine ⟨m, t, e1, ?_, fun _ => ?_⟩
        · rintro (⟨h3, _⟩ | ⟨_, h3⟩ | ⟨_, h3⟩)
          · exact absurd h3 h1
          · cases hf : p.page.storage.df with
            | none => rw [hf] at he; exact absurd rfl he
            | some f => rw [hf] at he; exact absurd (h3 f hf) he
          · exact absurd h2 h3
        · rw [e2]; exact e3
    · have hl : p.load O = p.notify "Load data failed: unknown load type selected." "warning" := by
        simp [load, h1, h2]
      rw [hl]
      exact ⟨_, _, rfl, fun _ => ⟨rfl, rfl⟩, fun hn => absurd (Or.inr (Or.inr ⟨h1, h2⟩)) hn⟩

/-! ### Examples -/

/-- Load, run and draw: two notifications, both stopped. -/
example : DimensionsSet exRun ∧ NoDrawingFails exOutside exRun ∧
    (new.after exOutside exRun).page.tasks = [] ∧
    (new.after exOutside exRun).notes = [⟨"Run Mapper completed.", "positive", false⟩,
      ⟨"Draw Mapper completed.", "positive", false⟩] := by
  refine ⟨?_, fun _ _ _ _ _ _ => rfl, ?_, ?_⟩
  · intro w hw
    simp [exRun] at hw
  · decide +kernel
  · decide +kernel

/-- While Mapper runs, and while the figure is drawn. -/
example : (new.after exOutside (exRun.take 2)).notes = [⟨"Running Mapper...", "ongoing", true⟩] ∧
    (new.after exOutside (exRun.take 3)).notes = [⟨"Run Mapper completed.", "positive", false⟩,
      ⟨"Drawing Mapper...", "ongoing", true⟩] ∧
    (new.after exOutside (exRun.take 2)).page.tasks.map ongoing =
      [⟨"Running Mapper...", "ongoing", true⟩] ∧
    (new.after exOutside (exRun.take 3)).page.tasks.map ongoing =
      [⟨"Drawing Mapper...", "ongoing", true⟩] := by
  decide +kernel

/-- A run that gives no result: the cover is none of those in the menu. -/
example : (new.after exOutside ([.change { coverType := "?" }] ++ exRun)).notes =
      [⟨"Run Mapper failed: something went wrong.", "error", false⟩] ∧
    (new.after exOutside ([.change { coverType := "?" }] ++ exRun)).page.storage.graph = none := by
  decide +kernel

/-- Pressing the buttons without data. -/
example : (new.after exOutside [.clickRun, .clickRedraw]).notes =
    [⟨"Run Mapper failed: no data found, please load data first.", "warning", false⟩,
     ⟨"Draw Mapper failed: no Mapper graph found, please run Mapper first.", "warning", false⟩] := by
  decide +kernel

/-- The example libraries, where every figure raises. -/
def exNoFigure : Outside ℚ ℕ := { exOutside with draws := fun _ => false }

/-- **C118 is false of the code**: nothing is running, a notification still says that the figure is being
drawn, and another one says that running Mapper failed, although it completed and its graph is stored. -/
theorem C118_stuck_violation :
    (new.after exNoFigure exRun).page.tasks = [] ∧
    (new.after exNoFigure exRun).Spins 1 ∧
    (new.after exNoFigure exRun).Says 0 "Run Mapper failed" "error" ∧
    (new.after exNoFigure exRun).page.storage.graph = some 3 := by
  refine ⟨by decide +kernel, ⟨⟨"Drawing Mapper...", "ongoing", true⟩, by decide +kernel, rfl⟩, ?_,
    by decide +kernel⟩
  have : (new.after exNoFigure exRun).notes[0]? = some ⟨"Run Mapper failed", "error", false⟩ := by
    decide +kernel
  exact this

end Verif
