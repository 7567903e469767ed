import Verif.Spec.AppNotes
import Mathlib.Data.List.Induction

/-!
# Proofs: notifications of the web app
-/

set_option autoImplicit false
set_option linter.unusedSectionVars false

namespace Verif

variable {K G : Type}

namespace NotePage

/-! ### The state of the page is that of the model without notifications -/

theorem raised_page (p : NotePage K G) (c : Option ℕ) : (p.raised c).page = p.page := by
  cases c <;> rfl

theorem raised_handlers (p : NotePage K G) (c : Option ℕ) : (p.raised c).handlers = p.handlers := by
  cases c <;> rfl

theorem draw_page (p : NotePage K G) (c : Option ℕ) : (p.draw c).page = startDraw p.page := by
  simp only [draw, startDraw, start]
  cases h : getMapperConfig p.page.widgets with
  | error e => exact raised_page _ _
  | ok cfg =>
    simp only
    cases hg : p.page.storage.graph with
    | none => rfl
    | some g => by_cases he : (p.page.storage.df.getD .none).empty = true <;> simp [he, stop]

theorem run_page (p : NotePage K G) : p.run.page = startRun p.page := by
  simp only [run, startRun, start]
  by_cases he : (p.page.storage.df.getD .none).empty = true
  · simp [he, stop]
  · cases h : getMapperConfig p.page.widgets <;> simp [he]

theorem ran_page (O : Outside K G) (h : Handler) (df : Frame K) (cfg : MapperConfig)
    (p : NotePage K G) : (p.ran O h df cfg).page = finishRun O df cfg p.page := by
  simp only [ran, finishRun]
  cases hr : runMapper O.libs (some df) cfg with
  | error e => rfl
  | ok r =>
    cases r with
    | none => rfl
    | some r =>
      obtain ⟨g, dfY⟩ := r
      simp only
      rw [draw_page]
      rfl

theorem drawn_page (O : Outside K G) (h : Handler) (d : Drawing K G) (p : NotePage K G) :
    (p.drawn O h d).page = finishDraw O d p.page := by
  by_cases he : O.draws d = true
  · simp [drawn, finishDraw, he, stop]
  · simp [drawn, finishDraw, he, raised_page]

theorem columns_page (p : NotePage K G) : p.columns.page = loadColumns p.page := by
  by_cases he : (p.page.storage.df.getD .none).empty = true <;>
    simp [columns, loadColumns, he, notify]

theorem load_page [Field K] (O : Outside K G) (p : NotePage K G) :
    (p.load O).page = loadData O p.page := by
  by_cases h1 : p.page.widgets.loadType = "Example"
  · simp only [load, loadData, h1, if_true]
    cases exampleData O p.page.widgets.loadExample with
    | none => rfl
    | some r =>
      obtain ⟨df, labels⟩ := r
      exact columns_page _
  · by_cases h2 : p.page.widgets.loadType = "CSV"
    · by_cases he : (p.page.storage.df.getD .none).empty = true
      · simp [load, loadData, h2, he, notify]
      · simp [load, loadData, h2, he, columns_page]
    · simp [load, loadData, h1, h2, notify]

/-! ### Handlers and notifications -/

/-- Every waiting task has a notification of its own, and that of the handler that waits for a drawing
has stopped waiting itself. -/
structure Linked (p : NotePage K G) : Prop where
  same : p.handlers.length = p.page.tasks.length
  nodup : (p.handlers.map Handler.note).Nodup
  bound : ∀ h ∈ p.handlers, h.note < p.notes.length
  caller : ∀ h ∈ p.handlers, ∀ j, h.caller = some j →
    j < p.notes.length ∧ j ∉ p.handlers.map Handler.note

/-- No waiting handler will change notification `n`. -/
structure Free (p : NotePage K G) (n : ℕ) : Prop where
  lt : n < p.notes.length
  own : n ∉ p.handlers.map Handler.note
  call : ∀ h ∈ p.handlers, h.caller ≠ some n

theorem next_page [Field K] (O : Outside K G) (p : NotePage K G) (hp : p.Linked) (e : Event K) :
    (p.next O e).page = p.page.next O e := by
  cases e with
  | upload file =>
    rcases file with _ | (_ | df) <;> rfl
  | load => exact load_page O p
  | change w => rfl
  | clickRun => exact run_page p
  | clickRedraw => exact draw_page p none
  | finish i =>
    simp only [next, Page.next]
    cases ht : p.page.tasks[i]? with
    | none => rfl
    | some t =>
      have hi : i < p.handlers.length := by
        rw [hp.same]
        rcases Nat.lt_or_ge i p.page.tasks.length with h | h
        · exact h
        · rw [List.getElem?_eq_none h] at ht; cases ht
      rw [List.getElem?_eq_getElem hi]
      cases t with
      | run df cfg => exact ran_page _ _ _ _ _
      | draw d => exact drawn_page _ _ _ _

theorem stop_linked {p : NotePage K G} (hp : p.Linked) (i : ℕ) (m t : String) :
    (p.stop i m t).Linked := by
  refine ⟨hp.same, hp.nodup, ?_, ?_⟩
  · simpa [stop] using hp.bound
  · simpa [stop] using hp.caller

theorem start_linked {p : NotePage K G} (hp : p.Linked) (m : String) : (p.start m).Linked := by
  refine ⟨hp.same, hp.nodup, ?_, ?_⟩
  · intro h hh
    have := hp.bound h hh
    simp only [start, List.length_append, List.length_singleton]
    omega
  · intro h hh j hj
    have := hp.caller h hh j hj
    refine ⟨?_, this.2⟩
    simp only [start, List.length_append, List.length_singleton]
    omega

theorem raised_linked {p : NotePage K G} (hp : p.Linked) (c : Option ℕ) : (p.raised c).Linked := by
  cases c with
  | none => exact hp
  | some j => exact stop_linked hp _ _ _

theorem notes_length_stop (p : NotePage K G) (i : ℕ) (m t : String) :
    (p.stop i m t).notes.length = p.notes.length := by simp [stop]

theorem notes_length_raised (p : NotePage K G) (c : Option ℕ) :
    (p.raised c).notes.length = p.notes.length := by
  cases c with
  | none => rfl
  | some j => exact notes_length_stop _ _ _ _

theorem push_linked {p : NotePage K G} (hp : p.Linked) (m : String) (t : Task K G) (c : Option ℕ)
    (hc : ∀ j, c = some j → j < p.notes.length ∧ j ∉ p.handlers.map Handler.note) :
    ({ p.start m with
        page := { p.page with tasks := p.page.tasks ++ [t] }
        handlers := p.handlers ++ [⟨p.notes.length, c⟩] } : NotePage K G).Linked := by
  have hlen : (p.start m).notes.length = p.notes.length + 1 := by simp [start]
  refine ⟨by simp [hp.same], ?_, ?_, ?_⟩
  · simp only [List.map_append, List.map_cons, List.map_nil]
    rw [List.nodup_append]
    refine ⟨hp.nodup, by simp, ?_⟩
    intro a ha b hb
    obtain ⟨h, hh, rfl⟩ := List.mem_map.mp ha
    have := hp.bound h hh
    simp only [List.mem_singleton] at hb
    omega
  · intro h hh
    simp only [hlen]
    rcases List.mem_append.mp hh with hh | hh
    · have := hp.bound h hh; omega
    · simp only [List.mem_singleton] at hh
      subst hh
      simp
  · intro h hh j hj
    simp only [hlen, List.map_append, List.map_cons, List.map_nil, List.mem_append, List.mem_singleton,
      not_or]
    have : j < p.notes.length ∧ j ∉ p.handlers.map Handler.note := by
      rcases List.mem_append.mp hh with hh | hh
      · exact hp.caller h hh j hj
      · simp only [List.mem_singleton] at hh
        subst hh
        exact hc j hj
    exact ⟨by omega, this.2, by omega⟩

theorem draw_linked {p : NotePage K G} (hp : p.Linked) (c : Option ℕ)
    (hc : ∀ j, c = some j → j < p.notes.length ∧ j ∉ p.handlers.map Handler.note) :
    (p.draw c).Linked := by
  simp only [draw]
  cases getMapperConfig (p.start "Drawing Mapper...").page.widgets with
  | error e => exact raised_linked (start_linked hp _) _
  | ok cfg =>
    simp only
    cases (p.start "Drawing Mapper...").page.storage.graph with
    | none => exact stop_linked (start_linked hp _) _ _ _
    | some g =>
      simp only
      split
      · exact stop_linked (start_linked hp _) _ _ _
      · exact push_linked hp _ _ c hc

theorem run_linked {p : NotePage K G} (hp : p.Linked) : p.run.Linked := by
  simp only [run]
  split
  · exact stop_linked (start_linked hp _) _ _ _
  · cases getMapperConfig (p.start "Running Mapper...").page.widgets with
    | error e => exact start_linked hp _
    | ok cfg => exact push_linked hp _ _ none (by simp)

theorem page_linked {p : NotePage K G} (hp : p.Linked) {q : Page K G} (hq : q.tasks = p.page.tasks)
    (ms : List (String × String)) : ({ p with page := q, messages := ms } : NotePage K G).Linked :=
  ⟨by rw [hq]; exact hp.same, hp.nodup, hp.bound, hp.caller⟩

/-- The page without the `i`-th task. -/
def drop (p : NotePage K G) (i : ℕ) : NotePage K G :=
  { p with page := { p.page with tasks := p.page.tasks.eraseIdx i },
           handlers := p.handlers.eraseIdx i }

theorem drop_linked {p : NotePage K G} (hp : p.Linked) (i : ℕ) : (p.drop i).Linked := by
  have hsub : (p.handlers.eraseIdx i).Sublist p.handlers := List.eraseIdx_sublist _ _
  refine ⟨?_, hp.nodup.sublist (hsub.map _), fun h hh => hp.bound h (hsub.subset hh), ?_⟩
  · simp only [drop, List.length_eraseIdx, hp.same]
  · intro h hh j hj
    have := hp.caller h (hsub.subset hh) j hj
    exact ⟨this.1, fun hm => this.2 ((hsub.map _).subset hm)⟩

theorem drop_note {p : NotePage K G} (hp : p.Linked) {i : ℕ} {h : Handler}
    (hh : p.handlers[i]? = some h) :
    h.note < p.notes.length ∧ h.note ∉ (p.drop i).handlers.map Handler.note ∧
      (∀ h' ∈ p.handlers, h'.caller ≠ some h.note) := by
  have hm : h ∈ p.handlers := List.mem_of_getElem? hh
  refine ⟨hp.bound h hm, ?_, ?_⟩
  · intro hm2
    have hlt : i < p.handlers.length := by
      rcases Nat.lt_or_ge i p.handlers.length with h1 | h1
      · exact h1
      · rw [List.getElem?_eq_none h1] at hh; cases hh
    rw [List.getElem?_eq_getElem hlt] at hh
    have hn := hp.nodup
    have e : p.handlers.map Handler.note =
        ((p.handlers.map Handler.note).take i) ++ h.note :: ((p.handlers.map Handler.note).drop (i + 1)) := by
      have hl : i < (p.handlers.map Handler.note).length := by simpa using hlt
      have e1 : (p.handlers.map Handler.note)[i] = h.note := by
        rw [List.getElem_map, Option.some.inj hh]
      rw [← e1, ← List.drop_eq_getElem_cons hl, List.take_append_drop]
    rw [e] at hn
    simp only [drop, List.eraseIdx_eq_take_drop_succ, List.map_append, List.map_take, List.map_drop,
      List.mem_append] at hm2
    rw [List.nodup_append] at hn
    obtain ⟨_, h2, h3⟩ := hn
    rcases hm2 with h4 | h4
    · exact h3 _ h4 _ List.mem_cons_self rfl
    · exact (List.nodup_cons.mp h2).1 h4
  · intro h' hh' hc
    exact (hp.caller h' hh' _ hc).2 (List.mem_map.mpr ⟨h, hm, rfl⟩)

/-- What happens when a task ends. -/
def finished (O : Outside K G) (p : NotePage K G) (h : Handler) : Task K G → NotePage K G
  | .run df cfg => p.ran O h df cfg
  | .draw d => p.drawn O h d

theorem next_finish [Field K] (O : Outside K G) {p : NotePage K G} {i : ℕ} {t : Task K G}
    {h : Handler} (ht : p.page.tasks[i]? = some t) (hh : p.handlers[i]? = some h) :
    p.next O (.finish i) = (p.drop i).finished O h t := by
  simp only [next, ht, hh]
  cases t <;> rfl

theorem ran_linked {p : NotePage K G} (hp : p.Linked) (O : Outside K G) {h : Handler}
    (hl : h.note < p.notes.length) (hn : h.note ∉ p.handlers.map Handler.note) (df : Frame K)
    (cfg : MapperConfig) : (p.ran O h df cfg).Linked := by
  simp only [ran]
  cases runMapper O.libs (some df) cfg with
  | error e => exact stop_linked hp _ _ _
  | ok r =>
    cases r with
    | none => exact stop_linked hp _ _ _
    | some r =>
      obtain ⟨g, dfY⟩ := r
      refine draw_linked (stop_linked (page_linked hp (by rfl) _) _ _ _) _ ?_
      intro j hj
      cases hj
      rw [notes_length_stop]
      exact ⟨hl, hn⟩

theorem drawn_linked {p : NotePage K G} (hp : p.Linked) (O : Outside K G) (h : Handler)
    (d : Drawing K G) : (p.drawn O h d).Linked := by
  simp only [drawn]
  split
  · exact stop_linked (page_linked hp (by rfl) _) _ _ _
  · exact raised_linked hp _

theorem columns_eq (p : NotePage K G) : ∃ q ms, p.columns = { p with page := q, messages := ms } ∧
    q.tasks = p.page.tasks := by
  simp only [columns]
  split
  · exact ⟨p.page, _, rfl, rfl⟩
  · exact ⟨_, _, rfl, rfl⟩

theorem load_eq [Field K] (O : Outside K G) (p : NotePage K G) : ∃ q ms, p.load O = { p with page := q, messages := ms } ∧
    q.tasks = p.page.tasks := by
  simp only [load]
  split
  · cases exampleData O p.page.widgets.loadExample with
    | none => exact ⟨p.page, _, rfl, rfl⟩
    | some r =>
      obtain ⟨df, labels⟩ := r
      obtain ⟨q, ms, h2, h1⟩ := columns_eq ({ p with page := { p.page with storage :=
        { p.page.storage with df := some (fixData df), labels := some (fixData labels) } } } :
          NotePage K G)
      exact ⟨q, ms, h2, h1⟩
  · split
    · split
      · exact ⟨p.page, _, rfl, rfl⟩
      · exact columns_eq p
    · exact ⟨p.page, _, rfl, rfl⟩

theorem upload_eq [Field K] (file : Option (Py (Frame K))) (p : NotePage K G) :
    ∃ q ms, p.upload file = { p with page := q, messages := ms } ∧ q.tasks = p.page.tasks := by
  rcases file with _ | (_ | df)
  · exact ⟨p.page, _, rfl, rfl⟩
  · exact ⟨p.page, p.messages, rfl, rfl⟩
  · exact ⟨_, _, rfl, rfl⟩

theorem next_linked [Field K] (O : Outside K G) {p : NotePage K G} (hp : p.Linked) (e : Event K) :
    (p.next O e).Linked := by
  cases e with
  | upload file =>
    obtain ⟨q, ms, h2, h1⟩ := upload_eq file p
    simp only [next, h2]
    exact page_linked hp h1 ms
  | load =>
    obtain ⟨q, ms, h2, h1⟩ := load_eq O p
    simp only [next, h2]
    exact page_linked hp h1 ms
  | change w => exact page_linked hp (by rfl) _
  | clickRun => exact run_linked hp
  | clickRedraw => exact draw_linked hp none (by simp)
  | finish i =>
    cases ht : p.page.tasks[i]? with
    | none => simp only [next, ht]; exact hp
    | some t =>
      cases hh : p.handlers[i]? with
      | none => simp only [next, ht, hh]; exact hp
      | some h =>
        rw [next_finish O ht hh]
        obtain ⟨h1, h2, _⟩ := drop_note hp hh
        cases t with
        | run df cfg => exact ran_linked (drop_linked hp i) O h1 h2 df cfg
        | draw d => exact drawn_linked (drop_linked hp i) O h d

theorem new_linked : (new : NotePage K G).Linked :=
  ⟨rfl, List.nodup_nil, by simp [new], by simp [new]⟩

theorem after_append [Field K] (O : Outside K G) (p : NotePage K G) (es es' : List (Event K)) :
    p.after O (es ++ es') = (p.after O es).after O es' := List.foldl_append

theorem after_linked [Field K] (O : Outside K G) {p : NotePage K G} (hp : p.Linked)
    (es : List (Event K)) : (p.after O es).Linked := by
  induction es generalizing p with
  | nil => exact hp
  | cons e es ih => exact ih (next_linked O hp e)

theorem after_page [Field K] (O : Outside K G) {p : NotePage K G} (hp : p.Linked)
    (es : List (Event K)) : (p.after O es).page = p.page.after O es := by
  induction es generalizing p with
  | nil => rfl
  | cons e es ih =>
    have := ih (next_linked O hp e)
    simp only [after, Page.after, List.foldl_cons] at this ⊢
    rw [this, next_page O p hp e]

/-! ### Notifications nobody changes -/

theorem stop_free {p : NotePage K G} {n i : ℕ} (hf : p.Free n) (hi : i ≠ n) (m t : String) :
    (p.stop i m t).Free n ∧ (p.stop i m t).notes[n]? = p.notes[n]? := by
  refine ⟨⟨by rw [notes_length_stop]; exact hf.lt, hf.own, hf.call⟩, ?_⟩
  simp only [stop]
  rw [List.getElem?_set_ne hi]

theorem start_free {p : NotePage K G} {n : ℕ} (hf : p.Free n) (m : String) :
    (p.start m).Free n ∧ (p.start m).notes[n]? = p.notes[n]? := by
  refine ⟨⟨?_, hf.own, hf.call⟩, ?_⟩
  · have := hf.lt
    simp only [start, List.length_append, List.length_singleton]
    omega
  · simp only [start]
    rw [List.getElem?_append_left hf.lt]

theorem raised_free {p : NotePage K G} {n : ℕ} (hf : p.Free n) {c : Option ℕ} (hc : c ≠ some n) :
    (p.raised c).Free n ∧ (p.raised c).notes[n]? = p.notes[n]? := by
  cases c with
  | none => exact ⟨hf, rfl⟩
  | some j => exact stop_free hf (fun e => hc (by rw [e])) _ _

theorem draw_free {p : NotePage K G} {n : ℕ} (hf : p.Free n) {c : Option ℕ} (hc : c ≠ some n) :
    (p.draw c).Free n ∧ (p.draw c).notes[n]? = p.notes[n]? := by
  have hs := start_free hf "Drawing Mapper..."
  have hne : p.notes.length ≠ n := by have := hf.lt; omega
  simp only [draw]
  cases getMapperConfig (p.start "Drawing Mapper...").page.widgets with
  | error e =>
    have := raised_free hs.1 hc
    exact ⟨this.1, this.2.trans hs.2⟩
  | ok cfg =>
    simp only
    cases (p.start "Drawing Mapper...").page.storage.graph with
    | none =>
      have := stop_free hs.1 hne "Draw Mapper failed: no Mapper graph found, please run Mapper first."
        "warning"
      exact ⟨this.1, this.2.trans hs.2⟩
    | some g =>
      simp only
      split
      · have := stop_free hs.1 hne "Draw Mapper failed: no Mapper graph found, please run Mapper first."
          "warning"
        exact ⟨this.1, this.2.trans hs.2⟩
      · refine ⟨⟨hs.1.lt, ?_, ?_⟩, hs.2⟩
        · simp only [List.map_append, List.map_cons, List.map_nil, List.mem_append, List.mem_singleton,
            not_or]
          exact ⟨hf.own, Ne.symm hne⟩
        · intro h hh
          rcases List.mem_append.mp hh with hh | hh
          · exact hf.call h hh
          · simp only [List.mem_singleton] at hh
            subst hh
            exact hc

theorem run_free {p : NotePage K G} {n : ℕ} (hf : p.Free n) :
    p.run.Free n ∧ p.run.notes[n]? = p.notes[n]? := by
  have hs := start_free hf "Running Mapper..."
  have hne : p.notes.length ≠ n := by have := hf.lt; omega
  simp only [run]
  split
  · have := stop_free hs.1 hne "Run Mapper failed: no data found, please load data first." "warning"
    exact ⟨this.1, this.2.trans hs.2⟩
  · cases getMapperConfig (p.start "Running Mapper...").page.widgets with
    | error e => exact hs
    | ok cfg =>
      refine ⟨⟨hs.1.lt, ?_, ?_⟩, hs.2⟩
      · simp only [List.map_append, List.map_cons, List.map_nil, List.mem_append, List.mem_singleton,
          not_or]
        exact ⟨hf.own, Ne.symm hne⟩
      · intro h hh
        rcases List.mem_append.mp hh with hh | hh
        · exact hf.call h hh
        · simp only [List.mem_singleton] at hh
          subst hh
          simp

theorem next_free [Field K] (O : Outside K G) {p : NotePage K G} {n : ℕ} (hf : p.Free n)
    (e : Event K) : (p.next O e).Free n ∧ (p.next O e).notes[n]? = p.notes[n]? := by
  cases e with
  | upload file =>
    obtain ⟨q, ms, h2, h1⟩ := upload_eq file p
    simp only [next, h2]
    exact ⟨⟨hf.lt, hf.own, hf.call⟩, by trivial⟩
  | load =>
    obtain ⟨q, ms, h2, h1⟩ := load_eq O p
    simp only [next, h2]
    exact ⟨⟨hf.lt, hf.own, hf.call⟩, by trivial⟩
  | change w => exact ⟨⟨hf.lt, hf.own, hf.call⟩, by trivial⟩
  | clickRun => exact run_free hf
  | clickRedraw => exact draw_free hf (by simp)
  | finish i =>
    cases ht : p.page.tasks[i]? with
    | none => simp only [next, ht]; exact ⟨hf, by trivial⟩
    | some t =>
      cases hh : p.handlers[i]? with
      | none => simp only [next, ht, hh]; exact ⟨hf, by trivial⟩
      | some h =>
        rw [next_finish O ht hh]
        have hsub : (p.handlers.eraseIdx i).Sublist p.handlers := List.eraseIdx_sublist _ _
        have hd : (p.drop i).Free n := ⟨hf.lt, fun hm => hf.own ((hsub.map _).subset hm),
          fun h' hm => hf.call h' (hsub.subset hm)⟩
        have hm := List.mem_of_getElem? hh
        have hne : h.note ≠ n := fun e => hf.own (List.mem_map.mpr ⟨h, hm, e⟩)
        cases t with
        | run df cfg =>
          simp only [finished, ran]
          cases runMapper O.libs (some df) cfg with
          | error e => exact stop_free hd hne _ _
          | ok r =>
            cases r with
            | none => exact stop_free hd hne _ _
            | some r =>
              obtain ⟨g, dfY⟩ := r
              have h1 : ({ p.drop i with page := { (p.drop i).page with storage :=
                { (p.drop i).page.storage with graph := some g, dfY := some dfY } } } :
                  NotePage K G).Free n := ⟨hd.lt, hd.own, hd.call⟩
              have h2 := stop_free h1 hne "Run Mapper completed." "positive"
              have h3 := draw_free h2.1 (c := some h.note) (by simpa using hne)
              exact ⟨h3.1, h3.2.trans h2.2⟩
        | draw d =>
          simp only [finished, drawn]
          split
          · have h1 : ({ p.drop i with page := { (p.drop i).page with shown := some d } } :
                NotePage K G).Free n := ⟨hd.lt, hd.own, hd.call⟩
            exact stop_free h1 hne _ _
          · exact raised_free hd (hf.call h hm)

theorem after_free [Field K] (O : Outside K G) {p : NotePage K G} {n : ℕ} (hf : p.Free n)
    (es : List (Event K)) : (p.after O es).notes[n]? = p.notes[n]? := by
  induction es generalizing p with
  | nil => rfl
  | cons e es ih =>
    have := next_free O hf e
    exact (ih this.1).trans this.2

/-! ### Which notifications spin -/

theorem spins_start (p : NotePage K G) (m : String) (i : ℕ) :
    (p.start m).Spins i ↔ p.Spins i ∨ i = p.notes.length := by
  simp only [Spins, start]
  rcases Nat.lt_trichotomy i p.notes.length with h | h | h
  · rw [List.getElem?_append_left h]
    exact ⟨Or.inl, fun h' => h'.elim id fun e => absurd e (by omega)⟩
  · subst h
    simp
  · rw [List.getElem?_eq_none (by simp; omega), List.getElem?_eq_none (by omega)]
    simp; omega

theorem spins_stop (p : NotePage K G) (j : ℕ) (m t : String) (i : ℕ) :
    (p.stop j m t).Spins i ↔ p.Spins i ∧ i ≠ j := by
  simp only [Spins, stop]
  by_cases h : i = j
  · subst h
    simp only [ne_eq, not_true_eq_false, and_false, iff_false]
    rintro ⟨n, h1, h2⟩
    rw [List.getElem?_set] at h1
    split at h1
    · split at h1
      · cases h1; cases h2
      · cases h1
    · rename_i h3; exact h3 rfl
  · rw [List.getElem?_set_ne (Ne.symm h)]
    simp [h]

theorem waits_iff {p : NotePage K G} (hp : p.Linked) (i : ℕ) :
    p.Waits i ↔ i ∈ p.handlers.map Handler.note := by
  constructor
  · rintro ⟨k, _, h, hh, rfl⟩
    exact List.mem_map.mpr ⟨h, List.mem_of_getElem? hh, rfl⟩
  · intro hm
    obtain ⟨h, hh, rfl⟩ := List.mem_map.mp hm
    obtain ⟨k, hk, rfl⟩ := List.getElem_of_mem hh
    exact ⟨k, by rw [← hp.same]; exact hk, _, List.getElem?_eq_getElem hk, rfl⟩

/-- The notifications that spin are those of waiting handlers. -/
def Exact (p : NotePage K G) : Prop := ∀ i, p.Spins i ↔ i ∈ p.handlers.map Handler.note

theorem Exact.lt {p : NotePage K G} (hp : p.Linked) {i : ℕ} (h : i ∈ p.handlers.map Handler.note) :
    i < p.notes.length := by
  obtain ⟨h', hh, rfl⟩ := List.mem_map.mp h
  exact hp.bound h' hh

theorem draw_exact {p : NotePage K G} (hp : p.Linked) (he : p.Exact) (c : Option ℕ)
    (hd : p.page.widgets.plotDimensions ≠ none) :
    (p.draw c).Exact := by
  have hnew : p.notes.length ∉ p.handlers.map Handler.note := fun h => absurd (Exact.lt hp h) (by omega)
  have hstop : ∀ m t, ((p.start "Drawing Mapper...").stop p.notes.length m t).Exact := by
    intro m t i
    rw [spins_stop, spins_start, he i]
    change _ ↔ i ∈ p.handlers.map Handler.note
    constructor
    · rintro ⟨h1 | h1, h2⟩
      · exact h1
      · exact absurd h1 h2
    · intro h1
      exact ⟨Or.inl h1, fun e => hnew (e ▸ h1)⟩
  obtain ⟨q, hq⟩ := Option.ne_none_iff_exists'.mp hd
  simp only [draw]
  have hw : ∃ cfg, getMapperConfig (p.start "Drawing Mapper...").page.widgets = .ok cfg := by
    simp only [start, getMapperConfig, hq]
    exact ⟨_, rfl⟩
  obtain ⟨cfg, hcfg⟩ := hw
  rw [hcfg]
  simp only
  cases (p.start "Drawing Mapper...").page.storage.graph with
  | none => exact hstop _ _
  | some g =>
    simp only
    split
    · exact hstop _ _
    · intro i
      change (p.start "Drawing Mapper...").Spins i ↔ _
      rw [spins_start, he i]
      simp only [start, List.map_append, List.map_cons, List.map_nil, List.mem_append,
        List.mem_singleton]

theorem run_exact {p : NotePage K G} (hp : p.Linked) (he : p.Exact)
    (hd : p.page.widgets.plotDimensions ≠ none) : p.run.Exact := by
  have hnew : p.notes.length ∉ p.handlers.map Handler.note := fun h => absurd (Exact.lt hp h) (by omega)
  obtain ⟨q, hq⟩ := Option.ne_none_iff_exists'.mp hd
  simp only [run]
  split
  · intro i
    rw [spins_stop, spins_start, he i]
    change _ ↔ i ∈ p.handlers.map Handler.note
    constructor
    · rintro ⟨h1 | h1, h2⟩
      · exact h1
      · exact absurd h1 h2
    · intro h1
      exact ⟨Or.inl h1, fun e => hnew (e ▸ h1)⟩
  · have hw : ∃ cfg, getMapperConfig (p.start "Running Mapper...").page.widgets = .ok cfg := by
      simp only [start, getMapperConfig, hq]
      exact ⟨_, rfl⟩
    obtain ⟨cfg, hcfg⟩ := hw
    rw [hcfg]
    intro i
    change (p.start "Running Mapper...").Spins i ↔ _
    rw [spins_start, he i]
    simp only [start, List.map_append, List.map_cons, List.map_nil, List.mem_append,
      List.mem_singleton]

theorem mem_drop {p : NotePage K G} (hp : p.Linked) {i : ℕ} {h : Handler}
    (hh : p.handlers[i]? = some h) (n : ℕ) :
    n ∈ (p.drop i).handlers.map Handler.note ↔ n ∈ p.handlers.map Handler.note ∧ n ≠ h.note := by
  obtain ⟨_, h2, _⟩ := drop_note hp hh
  have hsub : (p.handlers.eraseIdx i).Sublist p.handlers := List.eraseIdx_sublist _ _
  constructor
  · intro hm
    exact ⟨(hsub.map _).subset hm, fun e => h2 (e ▸ hm)⟩
  · rintro ⟨hm, hne⟩
    obtain ⟨h', hm', rfl⟩ := List.mem_map.mp hm
    refine List.mem_map.mpr ⟨h', ?_, rfl⟩
    obtain ⟨k, hk, rfl⟩ := List.getElem_of_mem hm'
    have hki : k ≠ i := by
      rintro rfl
      rw [List.getElem?_eq_getElem hk] at hh
      exact hne (by rw [Option.some.inj hh])
    simp only [drop]
    exact List.mem_eraseIdx_iff_getElem.mpr ⟨k, hk, hki, rfl⟩

theorem next_exact [Field K] (O : Outside K G) {p : NotePage K G} (hp : p.Linked) (he : p.Exact)
    (hd : p.page.widgets.plotDimensions ≠ none) (e : Event K)
    (hfail : ∀ i d, e = .finish i → p.page.tasks[i]? = some (.draw d) → O.draws d = true) :
    (p.next O e).Exact := by
  cases e with
  | upload file =>
    obtain ⟨q, ms, h2, h1⟩ := upload_eq file p
    simp only [next, h2]
    exact he
  | load =>
    obtain ⟨q, ms, h2, h1⟩ := load_eq O p
    simp only [next, h2]
    exact he
  | change w => exact he
  | clickRun => exact run_exact hp he hd
  | clickRedraw => exact draw_exact hp he none hd
  | finish i =>
    cases ht : p.page.tasks[i]? with
    | none => simp only [next, ht]; exact he
    | some t =>
      cases hh : p.handlers[i]? with
      | none => simp only [next, ht, hh]; exact he
      | some h =>
        rw [next_finish O ht hh]
        have hstop : ∀ m t, ((p.drop i).stop h.note m t).Exact := by
          intro m t n
          rw [spins_stop]
          change p.Spins n ∧ n ≠ h.note ↔ n ∈ (p.drop i).handlers.map Handler.note
          rw [mem_drop hp hh, he n]
        cases t with
        | run df cfg =>
          simp only [finished, ran]
          cases runMapper O.libs (some df) cfg with
          | error e => exact hstop _ _
          | ok r =>
            cases r with
            | none => exact hstop _ _
            | some r =>
              obtain ⟨g, dfY⟩ := r
              refine draw_exact (stop_linked (page_linked (drop_linked hp i) ?_ _) _ _ _) ?_ _ ?_
              · rfl
              · exact hstop "Run Mapper completed." "positive"
              · exact hd
        | draw d =>
          simp only [finished, drawn, hfail i d rfl ht, if_true]
          exact hstop "Draw Mapper completed." "positive"

theorem after_dimensions [Field K] (O : Outside K G) (es : List (Event K)) (p : NotePage K G)
    (hp : p.Linked) (h0 : p.page.widgets.plotDimensions ≠ none) (h : DimensionsSet es) :
    (p.after O es).page.widgets.plotDimensions ≠ none := by
  induction es generalizing p with
  | nil => exact h0
  | cons e es ih =>
    refine ih (p.next O e) (next_linked O hp e) ?_ fun w hw => h w (List.mem_cons_of_mem _ hw)
    rw [next_page O p hp e]
    cases e with
    | upload file => rcases file with _ | (_ | df) <;> exact h0
    | load =>
      simp only [Page.next, loadData]
      have hcol : ∀ q : Page K G, q.widgets = p.page.widgets →
          (loadColumns q).widgets.plotDimensions ≠ none := by
        intro q hq
        simp only [loadColumns]
        split
        · rw [hq]; exact h0
        · simp only [hq]; exact h0
      split
      · split
        · exact h0
        · exact hcol _ rfl
      · split
        · split
          · exact h0
          · exact hcol _ rfl
        · exact h0
    | change w => exact h w List.mem_cons_self
    | clickRun =>
      simp only [Page.next, startRun]
      split
      · exact h0
      · split <;> exact h0
    | clickRedraw =>
      simp only [Page.next, startDraw]
      split
      · exact h0
      · split
        · exact h0
        · split <;> exact h0
    | finish i =>
      have hsd : ∀ q : Page K G, q.widgets = p.page.widgets →
          (startDraw q).widgets.plotDimensions ≠ none := by
        intro q hq
        simp only [startDraw]
        split
        · rw [hq]; exact h0
        · split
          · rw [hq]; exact h0
          · split <;> (simp only [hq]; exact h0)
      simp only [Page.next]
      split
      · exact h0
      · simp only [finishRun]
        split
        · exact h0
        · exact h0
        · exact hsd _ rfl
      · simp only [finishDraw]
        split <;> exact h0

/-! ### Notifications that do not change -/

theorem start_keep (p : NotePage K G) (m : String) {n : ℕ} (hn : n < p.notes.length) :
    (p.start m).notes[n]? = p.notes[n]? := by
  simp only [start]
  rw [List.getElem?_append_left hn]

theorem stop_keep (p : NotePage K G) {i n : ℕ} (m t : String) (hi : i ≠ n) :
    (p.stop i m t).notes[n]? = p.notes[n]? := by
  simp only [stop]
  rw [List.getElem?_set_ne hi]

theorem raised_keep (p : NotePage K G) {c : Option ℕ} {n : ℕ} (hc : c ≠ some n) :
    (p.raised c).notes[n]? = p.notes[n]? := by
  cases c with
  | none => rfl
  | some j => exact stop_keep _ _ _ fun e => hc (by rw [e])

theorem draw_keep (p : NotePage K G) {c : Option ℕ} {n : ℕ} (hn : n < p.notes.length)
    (hc : c ≠ some n) : (p.draw c).notes[n]? = p.notes[n]? := by
  have hs := start_keep p "Drawing Mapper..." hn
  have hne : p.notes.length ≠ n := by omega
  simp only [draw]
  cases getMapperConfig (p.start "Drawing Mapper...").page.widgets with
  | error e => exact (raised_keep _ hc).trans hs
  | ok cfg =>
    simp only
    cases (p.start "Drawing Mapper...").page.storage.graph with
    | none => exact (stop_keep _ _ _ hne).trans hs
    | some g =>
      simp only
      split
      · exact (stop_keep _ _ _ hne).trans hs
      · exact hs

/-- If a drawing is begun, it does not change what its caller said. -/
theorem draw_keep_caller (p : NotePage K G) {c : Option ℕ} {n : ℕ} (hn : n < p.notes.length)
    (hd : p.page.widgets.plotDimensions ≠ none) : (p.draw c).notes[n]? = p.notes[n]? := by
  have hs := start_keep p "Drawing Mapper..." hn
  have hne : p.notes.length ≠ n := by omega
  obtain ⟨q, hq⟩ := Option.ne_none_iff_exists'.mp hd
  have hw : ∃ cfg, getMapperConfig (p.start "Drawing Mapper...").page.widgets = .ok cfg := by
    simp only [start, getMapperConfig, hq]
    exact ⟨_, rfl⟩
  obtain ⟨cfg, hcfg⟩ := hw
  simp only [draw]
  rw [hcfg]
  simp only
  cases (p.start "Drawing Mapper...").page.storage.graph with
  | none => exact (stop_keep _ _ _ hne).trans hs
  | some g =>
    simp only
    split
    · exact (stop_keep _ _ _ hne).trans hs
    · exact hs

theorem run_keep (p : NotePage K G) {n : ℕ} (hn : n < p.notes.length) :
    p.run.notes[n]? = p.notes[n]? := by
  have hs := start_keep p "Running Mapper..." hn
  have hne : p.notes.length ≠ n := by omega
  simp only [run]
  split
  · exact (stop_keep _ _ _ hne).trans hs
  · cases getMapperConfig (p.start "Running Mapper...").page.widgets <;> exact hs

theorem ran_keep (O : Outside K G) (p : NotePage K G) {h : Handler} {n : ℕ}
    (hn : n < p.notes.length) (hne : h.note ≠ n) (df : Frame K) (cfg : MapperConfig) :
    (p.ran O h df cfg).notes[n]? = p.notes[n]? := by
  simp only [ran]
  cases runMapper O.libs (some df) cfg with
  | error e => exact stop_keep _ _ _ hne
  | ok r =>
    cases r with
    | none => exact stop_keep _ _ _ hne
    | some r =>
      obtain ⟨g, dfY⟩ := r
      simp only
      rw [draw_keep _ (by rw [notes_length_stop]; exact hn) (by simpa using hne), stop_keep _ _ _ hne]

theorem drawn_keep (O : Outside K G) (p : NotePage K G) {h : Handler} {n : ℕ}
    (hne : h.note ≠ n) (hc : h.caller ≠ some n) (d : Drawing K G) :
    (p.drawn O h d).notes[n]? = p.notes[n]? := by
  simp only [drawn]
  split
  · exact stop_keep _ _ _ hne
  · exact raised_keep _ hc

/-! ### What waiting notifications show -/

/-- Waiting notifications show that their task goes on. -/
def Shows (p : NotePage K G) : Prop := ∀ (k : ℕ) (t : Task K G) (h : Handler), p.page.tasks[k]? = some t →
  p.handlers[k]? = some h → p.notes[h.note]? = some (ongoing t)

theorem Shows.of_eq {p q : NotePage K G} (hs : p.Shows) (ht : q.page.tasks = p.page.tasks)
    (hh : q.handlers = p.handlers)
    (hn : ∀ h ∈ p.handlers, q.notes[h.note]? = p.notes[h.note]?) : q.Shows := by
  intro k t h h1 h2
  rw [ht] at h1
  rw [hh] at h2
  rw [hn h (List.mem_of_getElem? h2)]
  exact hs k t h h1 h2

theorem Shows.push {p q : NotePage K G} (hp : p.Linked) (hs : p.Shows) {t : Task K G}
    {c : Option ℕ} (ht : q.page.tasks = p.page.tasks ++ [t])
    (hh : q.handlers = p.handlers ++ [⟨p.notes.length, c⟩])
    (hn : q.notes = p.notes ++ [ongoing t]) : q.Shows := by
  intro k t' h h1 h2
  rw [ht] at h1
  rw [hh] at h2
  rcases Nat.lt_or_ge k p.handlers.length with hk | hk
  · rw [List.getElem?_append_left (by rw [← hp.same]; exact hk)] at h1
    rw [List.getElem?_append_left hk] at h2
    rw [hn, List.getElem?_append_left (hp.bound h (List.mem_of_getElem? h2))]
    exact hs k t' h h1 h2
  · rw [List.getElem?_append_right (by rw [← hp.same]; exact hk), ← hp.same] at h1
    rw [List.getElem?_append_right hk] at h2
    rcases Nat.eq_zero_or_pos (k - p.handlers.length) with h0 | h0
    · rw [h0] at h1 h2
      simp only [List.getElem?_cons_zero, Option.some.injEq] at h1 h2
      subst h1 h2
      rw [hn]
      simp
    · rw [List.getElem?_eq_none (by simp only [List.length_singleton]; omega)] at h1
      cases h1

theorem draw_shows {p : NotePage K G} (hp : p.Linked) (hs : p.Shows) (c : Option ℕ)
    (hc : ∀ j, c = some j → j ∉ p.handlers.map Handler.note) : (p.draw c).Shows := by
  have hk : ∀ h ∈ p.handlers, (p.draw c).notes[h.note]? = p.notes[h.note]? := fun h hh =>
    draw_keep p (hp.bound h hh) fun e => hc _ e (List.mem_map.mpr ⟨h, hh, rfl⟩)
  revert hk
  simp only [draw]
  cases getMapperConfig (p.start "Drawing Mapper...").page.widgets with
  | error e =>
    intro hk
    exact hs.of_eq (by rw [raised_page]; rfl) (by rw [raised_handlers]; rfl) hk
  | ok cfg =>
    simp only
    cases (p.start "Drawing Mapper...").page.storage.graph with
    | none => exact fun hk => hs.of_eq rfl rfl hk
    | some g =>
      simp only
      split
      · exact fun hk => hs.of_eq rfl rfl hk
      · exact fun _ => hs.push hp (c := c) rfl rfl rfl

theorem run_shows {p : NotePage K G} (hp : p.Linked) (hs : p.Shows) : p.run.Shows := by
  have hk : ∀ h ∈ p.handlers, p.run.notes[h.note]? = p.notes[h.note]? := fun h hh =>
    run_keep p (hp.bound h hh)
  revert hk
  simp only [run]
  split
  · exact fun hk => hs.of_eq rfl rfl hk
  · cases getMapperConfig (p.start "Running Mapper...").page.widgets with
    | error e => exact fun hk => hs.of_eq rfl rfl hk
    | ok cfg => exact fun _ => hs.push hp (c := none) rfl rfl rfl

theorem drop_shows {p : NotePage K G} (hs : p.Shows) (i : ℕ) : (p.drop i).Shows := by
  intro k t h h1 h2
  simp only [drop, List.getElem?_eraseIdx] at h1 h2
  split at h1
  · rename_i hk
    rw [if_pos hk] at h2
    exact hs k t h h1 h2
  · rename_i hk
    rw [if_neg hk] at h2
    exact hs (k + 1) t h h1 h2

theorem next_shows [Field K] (O : Outside K G) {p : NotePage K G} (hp : p.Linked) (hs : p.Shows)
    (e : Event K) : (p.next O e).Shows := by
  cases e with
  | upload file =>
    obtain ⟨q, ms, h2, h1⟩ := upload_eq file p
    simp only [next, h2]
    exact hs.of_eq h1 rfl fun _ _ => rfl
  | load =>
    obtain ⟨q, ms, h2, h1⟩ := load_eq O p
    simp only [next, h2]
    exact hs.of_eq h1 rfl fun _ _ => rfl
  | change w => exact hs.of_eq rfl rfl fun _ _ => rfl
  | clickRun => exact run_shows hp hs
  | clickRedraw => exact draw_shows hp hs none (by simp)
  | finish i =>
    cases ht : p.page.tasks[i]? with
    | none => simp only [next, ht]; exact hs
    | some t =>
      cases hh : p.handlers[i]? with
      | none => simp only [next, ht, hh]; exact hs
      | some h =>
        rw [next_finish O ht hh]
        obtain ⟨h1, h2, _⟩ := drop_note hp hh
        have hp' := drop_linked hp i
        have hs' := drop_shows hs i
        have hne : ∀ h' ∈ (p.drop i).handlers, h.note ≠ h'.note := fun h' hm e =>
          h2 (List.mem_map.mpr ⟨h', hm, e.symm⟩)
        cases t with
        | run df cfg =>
          simp only [finished, ran]
          cases runMapper O.libs (some df) cfg with
          | error e => exact hs'.of_eq rfl rfl fun h' hm => stop_keep _ _ _ (hne h' hm)
          | ok r =>
            cases r with
            | none => exact hs'.of_eq rfl rfl fun h' hm => stop_keep _ _ _ (hne h' hm)
            | some r =>
              obtain ⟨g, dfY⟩ := r
              refine draw_shows (stop_linked (page_linked hp' ?_ _) _ _ _) ?_ _ ?_
              · rfl
              · exact hs'.of_eq rfl rfl fun h' hm => stop_keep _ _ _ (hne h' hm)
              · intro j hj
                cases hj
                exact h2
        | draw d =>
          have hk : ∀ h' ∈ (p.drop i).handlers,
              ((p.drop i).drawn O h d).notes[h'.note]? = (p.drop i).notes[h'.note]? := by
            intro h' hm
            refine drawn_keep O _ (hne h' hm) (fun e => ?_) d
            have hsub : (p.handlers.eraseIdx i).Sublist p.handlers := List.eraseIdx_sublist _ _
            exact (hp.caller h (List.mem_of_getElem? hh) _ e).2
              (List.mem_map.mpr ⟨h', hsub.subset hm, rfl⟩)
          refine hs'.of_eq ?_ ?_ hk
          · rw [finished, drawn_page]
            simp only [finishDraw]
            split <;> rfl
          · simp only [finished, drawn]
            split
            · rfl
            · exact raised_handlers _ _

theorem after_shows [Field K] (O : Outside K G) {p : NotePage K G} (hp : p.Linked) (hs : p.Shows)
    (es : List (Event K)) : (p.after O es).Shows := by
  induction es generalizing p with
  | nil => exact hs
  | cons e es ih => exact ih (next_linked O hp e) (next_shows O hp hs e)

theorem handler_of_task {p : NotePage K G} (hp : p.Linked) {k : ℕ} {t : Task K G}
    (ht : p.page.tasks[k]? = some t) : ∃ h, p.handlers[k]? = some h := by
  have hk : k < p.handlers.length := by
    rw [hp.same]
    rcases Nat.lt_or_ge k p.page.tasks.length with h | h
    · exact h
    · rw [List.getElem?_eq_none h] at ht; cases ht
  exact ⟨_, List.getElem?_eq_getElem hk⟩

theorem stop_says (p : NotePage K G) {i : ℕ} (hi : i < p.notes.length) (m t : String) :
    (p.stop i m t).Says i m t := by
  simp only [Says, stop]
  rw [List.getElem?_set_self hi]

/-- From a page where everything agrees, if no drawing fails. -/
theorem after_exact [Field K] (O : Outside K G) (es : List (Event K)) (hd : DimensionsSet es)
    (hf : NoDrawingFails O es) : (new.after O es : NotePage K G).Exact := by
  induction es using List.reverseRecOn with
  | nil => intro i; simp [after, new, Spins]
  | append_singleton es e ih =>
    have hd' : DimensionsSet es := fun w hw => hd w (List.mem_append_left _ hw)
    have := ih hd' fun es₁ k es₂ d he ht => hf es₁ k (es₂ ++ [e]) d (by simp [he]) ht
    rw [after_append]
    refine next_exact O (after_linked O new_linked es) this
      (after_dimensions O es new new_linked (by simp [new]) hd') e ?_
    rintro i d rfl ht
    exact hf es i [] d rfl ht

end NotePage

end Verif
