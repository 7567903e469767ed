import Verif.Spec.AppLoad
import Verif.Props.App

/-!
# C99: loading data in the web app
-/

set_option autoImplicit false
set_option linter.unusedSectionVars false

namespace Verif
variable {K G : Type}

theorem Loads.unique [Field K] {O : Outside K G} {w : Widgets} {e : Event K} {d l d' l' : Frame K}
    (h : Loads O w e d l) (h' : Loads O w e d' l') : d = d' ∧ l = l' := by
  cases h with
  | upload f => cases h'; exact ⟨rfl, rfl⟩
  | digits h1 h2 =>
    cases h' with
    | digits => exact ⟨rfl, rfl⟩
    | iris h3 h4 => rw [h2] at h4; exact absurd h4 (by decide)
  | iris h1 h2 =>
    cases h' with
    | digits h3 h4 => rw [h2] at h4; exact absurd h4 (by decide)
    | iris => exact ⟨rfl, rfl⟩

/-- **C99.** An event that loads data stores it and its labels; all others leave
the stored data and labels as they are. -/
theorem C99_stores [Field K] (O : Outside K G) (p : Page K G) (e : Event K) :
    (∀ df labels, Loads O p.widgets e df labels →
      (p.next O e).storage = { p.storage with df := some df, labels := some labels }) ∧
    ((∀ df labels, ¬ Loads O p.widgets e df labels) →
      (p.next O e).storage.df = p.storage.df ∧ (p.next O e).storage.labels = p.storage.labels) := by
  constructor
  · intro df labels h
    cases h with
    | upload f => rfl
    | digits h1 h2 =>
      simp only [Page.next, loadData, h1, if_true, h2, exampleData]
      rw [loadColumns_storage]
    | iris h1 h2 =>
      simp only [Page.next, loadData, h1, if_true, h2, exampleData, String.reduceEq, if_false]
      rw [loadColumns_storage]
  · intro h
    by_cases hc : e.changesData
    · cases e with
      | upload file =>
        cases file with
        | none => exact ⟨rfl, rfl⟩
        | some f =>
          cases f with
          | ok f => exact absurd (.upload f) (h _ _)
          | error e => exact ⟨rfl, rfl⟩
      | load =>
        simp only [Page.next, loadData]
        split
        · rename_i h1
          split
          · exact ⟨rfl, rfl⟩
          · rename_i df labels he
            rw [exampleData] at he
            split at he
            · rename_i h2
              exact absurd (.digits h1 h2) (h _ _)
            · split at he
              · rename_i h2
                exact absurd (.iris h1 h2) (h _ _)
              · cases he
        · split
          · split
            · exact ⟨rfl, rfl⟩
            · rw [loadColumns_storage]
              exact ⟨rfl, rfl⟩
          · exact ⟨rfl, rfl⟩
      | _ => exact hc.elim
    · exact (C55_changes O p e).1 hc

/-- **C99.** "Load data" is refused, with the page as it was, if nothing known is selected or no
data is there; else the columns of the stored data can be excluded afterwards, and none is, provided
the data is not empty. Graph, lens, running computations and figure stay. -/
theorem C99_load [Field K] (O : Outside K G) (p : Page K G) :
    (LoadRefused p → p.next O .load = p) ∧
    (¬ LoadRefused p → ∀ df, (p.next O .load).storage.df = some df → df.empty = false →
      (p.next O .load).widgets = { p.widgets with
        excludedOptions := df.columns.map Column.name, excludedColumns := some [] }) ∧
    (p.next O .load).storage.graph = p.storage.graph ∧ (p.next O .load).storage.dfY = p.storage.dfY ∧
    (p.next O .load).tasks = p.tasks ∧ (p.next O .load).shown = p.shown := by
  refine ⟨?_, ?_, ?_, ?_, loadData_tasks O p, loadData_shown O p⟩
  · rintro (⟨h1, h2, h3⟩ | ⟨h1, h2⟩ | ⟨h1, h2⟩)
    · simp [Page.next, loadData, h1, exampleData, h2, h3]
    · have : (p.storage.df.getD .none).empty = true := by
        cases hd : p.storage.df with
        | none => rfl
        | some f => exact h2 f hd
      simp [Page.next, loadData, h1, this]
    · simp [Page.next, loadData, h1, h2]
  · intro hr df hdf hne
    have key : ∀ q : Page K G, q.widgets = p.widgets → (loadColumns q).storage.df = some df →
        (loadColumns q).widgets = { p.widgets with
          excludedOptions := df.columns.map Column.name, excludedColumns := some [] } := by
      intro q hq hd
      rw [loadColumns_storage] at hd
      simp [loadColumns, hd, hne, hq]
    simp only [Page.next, loadData] at hdf ⊢
    split
    · rename_i h1
      rw [if_pos h1] at hdf
      split
      · rename_i he
        exfalso
        apply hr
        refine .inl ⟨h1, ?_, ?_⟩ <;> intro h2 <;> simp [exampleData, h2] at he
      · rename_i he
        rw [he] at hdf
        exact key _ rfl hdf
    · rename_i h1
      rw [if_neg h1] at hdf
      split
      · rename_i h2
        rw [if_pos h2] at hdf
        split
        · rename_i h3
          exfalso
          apply hr
          refine .inr (.inl ⟨h2, fun f hf => ?_⟩)
          rw [hf] at h3
          exact h3
        · rename_i h3
          rw [if_neg h3] at hdf
          exact key _ rfl hdf
      · rename_i h2
        exact absurd (.inr (.inr ⟨h1, h2⟩)) hr
  · rcases loadData_storage O p with h | ⟨_, _, h⟩ <;> simp only [Page.next] <;> rw [h]
  · rcases loadData_storage O p with h | ⟨_, _, h⟩ <;> simp only [Page.next] <;> rw [h]

/-- **C99.** After every history the stored data and labels are those of the last event that
loaded any, and there are none if none did. -/
theorem C99_last [Field K] (O : Outside K G) (es : List (Event K)) :
    ((Page.new.after O es).storage.df = none ∧ (Page.new.after O es).storage.labels = none ∧
      ∀ a e b, es = a ++ e :: b → ∀ df labels, ¬ Loads O (Page.new.after O a).widgets e df labels) ∨
    ∃ pre e post df labels, es = pre ++ e :: post ∧ LastLoad O pre e post df labels ∧
      (Page.new.after O es).storage.df = some df ∧
      (Page.new.after O es).storage.labels = some labels := by
  induction es using List.reverseRecOn with
  | nil => exact .inl ⟨rfl, rfl, fun a e b h => by simp at h⟩
  | append_singleton es e ih =>
    have hstep : Page.new.after O (es ++ [e]) = (Page.new.after O es).next O e := by
      simp [Page.after, List.foldl_append]
    obtain ⟨h1, h2⟩ := C99_stores O (Page.new.after O es) e
    by_cases hl : ∃ df labels, Loads O (Page.new.after O es).widgets e df labels
    · obtain ⟨df, labels, hl⟩ := hl
      refine .inr ⟨es, e, [], df, labels, rfl, ⟨hl, fun b e' b' h => by simp at h⟩, ?_, ?_⟩ <;>
        rw [hstep, h1 df labels hl]
    · have hl' : ∀ df labels, ¬ Loads O (Page.new.after O es).widgets e df labels :=
        fun df labels h => hl ⟨df, labels, h⟩
      obtain ⟨q1, q2⟩ := h2 hl'
      have split_snoc : ∀ {a b : List (Event K)} {x : Event K} {l : List (Event K)},
          l ++ [e] = a ++ x :: b → (b = [] ∧ x = e ∧ a = l) ∨ ∃ b', b = b' ++ [e] ∧ l = a ++ x :: b' := by
        intro a b x l h
        rcases List.eq_nil_or_concat b with rfl | ⟨b', z, rfl⟩
        · left
          have := List.append_inj' h (by simp)
          simp at this
          exact ⟨rfl, this.2.symm, this.1.symm⟩
        · right
          simp only [List.concat_eq_append] at h ⊢
          rw [show a ++ x :: (b' ++ [z]) = (a ++ x :: b') ++ [z] by simp] at h
          have := List.append_inj' h (by simp)
          simp at this
          exact ⟨b', by rw [this.2], this.1⟩
      rcases ih with ⟨i1, i2, i3⟩ | ⟨pre, e0, post, df, labels, rfl, i2, i3, i4⟩
      · refine .inl ⟨by rw [hstep, q1, i1], by rw [hstep, q2, i2], ?_⟩
        intro a x b hx
        rcases split_snoc hx with ⟨_, rfl, rfl⟩ | ⟨b', _, h⟩
        · exact hl'
        · exact i3 a x b' h
      · refine .inr ⟨pre, e0, post ++ [e], df, labels, by simp, ⟨i2.1, ?_⟩, by rw [hstep, q1, i3],
          by rw [hstep, q2, i4]⟩
        intro b x b' hx
        rcases split_snoc hx with ⟨_, rfl, rfl⟩ | ⟨b'', _, h⟩
        · exact hl'
        · exact i2.2 b x b'' h

/-- **C99 (proved part).** If no example was loaded since a file was uploaded, and no other file,
"Load data" with "CSV" selected keeps the data of the file and offers its columns. -/
theorem C99_csv_partial [Field K] (O : Outside K G) (pre post : List (Event K)) (f : Frame K)
    (h : LastLoad O pre (.upload (some (.ok f))) post (fixData f) .none)
    (hc : (Page.new.after O (pre ++ .upload (some (.ok f)) :: post)).widgets.loadType = "CSV")
    (hne : (fixData f).empty = false) :
    let p := Page.new.after O (pre ++ .upload (some (.ok f)) :: post ++ [.load])
    p.storage.df = some (fixData f) ∧ p.storage.labels = some .none ∧
      p.widgets.excludedOptions = (fixData f).columns.map Column.name ∧
      p.widgets.excludedColumns = some [] := by
  have hdf : (Page.new.after O (pre ++ .upload (some (.ok f)) :: post)).storage.df = some (fixData f) ∧
      (Page.new.after O (pre ++ .upload (some (.ok f)) :: post)).storage.labels = some .none := by
    have hall : ∀ l, l <+: post →
        (Page.new.after O (pre ++ .upload (some (.ok f)) :: l)).storage.df = some (fixData f) ∧
        (Page.new.after O (pre ++ .upload (some (.ok f)) :: l)).storage.labels = some .none := by
      intro l
      induction l using List.reverseRecOn with
      | nil =>
        intro _
        have hstep : Page.new.after O (pre ++ [.upload (some (.ok f))]) =
            (Page.new.after O pre).next O (.upload (some (.ok f))) := by
          simp [Page.after, List.foldl_append]
        rw [hstep, (C99_stores O _ _).1 _ _ (.upload f)]
        exact ⟨rfl, rfl⟩
      | append_singleton l x ih =>
        intro hp
        obtain ⟨t, ht⟩ := hp
        obtain ⟨i1, i2⟩ := ih ⟨x :: t, by simpa using ht⟩
        have hstep : Page.new.after O (pre ++ .upload (some (.ok f)) :: (l ++ [x])) =
            (Page.new.after O (pre ++ .upload (some (.ok f)) :: l)).next O x := by
          simp [Page.after, List.foldl_append]
        obtain ⟨q1, q2⟩ := (C99_stores O (Page.new.after O (pre ++ .upload (some (.ok f)) :: l)) x).2
          (fun df labels => h.2 l x t (by simpa using ht.symm) df labels)
        rw [hstep, q1, q2]
        exact ⟨i1, i2⟩
    exact hall post (List.prefix_refl _)
  have hstep : Page.new.after O (pre ++ .upload (some (.ok f)) :: post ++ [.load]) =
      (Page.new.after O (pre ++ .upload (some (.ok f)) :: post)).next O .load := by
    simp only [Page.after, List.foldl_append, List.foldl_cons, List.foldl_nil]
  intro p
  have hp : p = (Page.new.after O (pre ++ .upload (some (.ok f)) :: post)).next O .load := hstep
  generalize Page.new.after O (pre ++ .upload (some (.ok f)) :: post) = q at *
  obtain ⟨s1, s2⟩ := (C99_stores O q .load).2 (by
    intro df labels hl
    cases hl with
    | digits h1 => rw [hc] at h1; exact absurd h1 (by decide)
    | iris h1 => rw [hc] at h1; exact absurd h1 (by decide))
  have hnr : ¬ LoadRefused q := by
    rintro (⟨h1, _⟩ | ⟨_, h2⟩ | ⟨_, h2⟩)
    · rw [hc] at h1; exact absurd h1 (by decide)
    · have := h2 _ hdf.1
      rw [hne] at this
      cases this
    · exact h2 hc
  have hw := (C99_load O q).2.1 hnr _ (s1.trans hdf.1) hne
  rw [hp, s1, s2, hw]
  exact ⟨hdf.1, hdf.2, rfl, rfl⟩

/-- A file with two rows and the columns `a`, `b`. -/
def exFile : Frame ℚ := ⟨2, [⟨"a", .number [some 1, some 2]⟩, ⟨"b", .number [some 3, none]⟩]⟩

/-- **C99 (violation).** A file is uploaded, then an example is looked at, then "CSV" is selected again
and "Load data" pressed: the data is that of the example, not that of the file. -/
theorem C99_csv_violation : ∃ es : List (Event ℚ), Event.upload (some (.ok exFile)) ∈ es ∧
    (∀ f, Event.upload (some (.ok f)) ∈ es → f = exFile) ∧ es.getLast? = some .load ∧
    (Page.new.after exOutside es).widgets.loadType = "CSV" ∧
    (Page.new.after exOutside es).storage.df = some (fixData exOutside.digits.1) ∧
    fixData exOutside.digits.1 ≠ fixData exFile := by
  refine ⟨[.upload (some (.ok exFile)), .load, .change { loadType := "CSV" }, .load], ?_, ?_, rfl, ?_, ?_, ?_⟩
  · simp
  · intro f hf
    simpa using hf
  · decide +kernel
  · decide +kernel
  · decide +kernel

/-- The file is the last data loaded, and "CSV" is selected. -/
example : LastLoad exOutside [.load] (.upload (some (.ok exFile))) [.change { loadType := "CSV" }]
      (fixData exFile) .none ∧
    (Page.new.after exOutside ([.load] ++ .upload (some (.ok exFile)) ::
      [.change { loadType := "CSV" }])).widgets.loadType = "CSV" ∧ (fixData exFile).empty = false := by
  refine ⟨⟨.upload _, ?_⟩, by decide +kernel, by decide +kernel⟩
  intro b e' b' h df labels hl
  rcases b with _ | ⟨x, b⟩
  · simp at h
    rw [← h.1] at hl
    cases hl
  · simp at h

/-- The second alternative of `C99_last`, and both sorts of pages for `C99_load`. -/
example : (Page.new.after exOutside [.load]).storage.df = some (fixData exOutside.digits.1) ∧
    LoadRefused ((Page.new (K := ℚ) (G := ℕ)).next exOutside (.change { loadType := "CSV" })) ∧
    ¬ LoadRefused (Page.new (K := ℚ) (G := ℕ)) := by
  refine ⟨by decide +kernel, .inr (.inl ⟨rfl, fun f hf => by cases hf⟩), ?_⟩
  rintro (⟨_, h, _⟩ | ⟨h, _⟩ | ⟨h, _⟩)
  · exact absurd rfl h
  · exact absurd h (by decide)
  · exact absurd rfl h

end Verif
