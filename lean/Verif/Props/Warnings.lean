import Verif.Proof.Warnings
import Verif.Props.Overlap

/-!
# C109: the warning about overlap fractions above one half

The histories are those of `Verif.Model.Warnings`: any number of cubical covers and of generators of their
charts, with parameters and filters changed at any time. `Asks` and `timesAsked` are in
`Verif.Spec.Warnings`.
-/

set_option autoImplicit false
set_option linter.unusedSectionVars false

namespace Verif

section
variable {R : Type} [Field R] [LinearOrder R] [IsStrictOrderedRing R] [FloorRing R] {m : ℕ}

/-- **C109 (part that holds).** Let the filters be changed after any history. From then on, until they
are changed again: with the action `always` every fit with an overlap fraction above one half shows
one warning, and nothing else does; with `default` and `module` only the first such fit
does, whichever cover and data it is; with `once` at most that one; with `ignore` and `error`
none. Missing: that the later fits warn, see `C109_second_violation`. -/
theorem C109_shown_partial (dflt : ℕ → R) (a₀ a : WarnAction) (past ops : List (WarnOp m R))
    (hops : ∀ op ∈ ops, op.KeepsFilters) :
    let w := ((WarnWorld.start a₀ : WarnWorld m R).run dflt (past ++ [.filters a])).2
    let more := (w.run dflt ops).2.warn.shown - w.warn.shown
    w.warn.shown ≤ (w.run dflt ops).2.warn.shown ∧
    (a = .always → more = timesAsked dflt w ops) ∧
    (a = .default ∨ a = .module → more = min 1 (timesAsked dflt w ops)) ∧
    (a = .once → more ≤ min 1 (timesAsked dflt w ops)) ∧
    (a = .ignore ∨ a = .error → more = 0) := by
  intro w more
  have hs : w.warn.Sound ∧ w.warn.Fresh ∧ w.warn.action = a := by
    have h := run_sound dflt past (WarnWorld.start a₀) (start_sound a₀)
    have e : w = ((WarnWorld.start a₀ : WarnWorld m R).run dflt (past ++ [.filters a])).2 := rfl
    rw [run_append] at e
    rw [e]
    exact ⟨(filters_sound h a).1, (filters_sound h a).2, rfl⟩
  obtain ⟨h1, h2, h3⟩ := hs
  have hr := run_warn dflt ops w hops
  have hm : more = (warnTimes (timesAsked dflt w ops) w.warn).shown - w.warn.shown := by
    rw [← hr]
  rw [hm, hr]
  cases a with
  | always => rw [warnTimes_always _ h1 h3]; simp
  | default => rw [warnTimes_default _ h2 (.inl h3)]; simp
  | module => rw [warnTimes_default _ h2 (.inr h3)]; simp
  | once =>
    rw [warnTimes_once _ h2 h3]
    split <;> simp
  | ignore => rw [warnTimes_silent _ h1 (.inl h3)]; simp
  | error => rw [warnTimes_silent _ h1 (.inr h3)]; simp

/-- **C109 (a program that does not touch the filters).** In a process that never changes the filters,
with the action `default` that Python has for such warnings, one warning is shown if there
is any fit with an overlap fraction above one half, and none otherwise. -/
theorem C109_untouched (dflt : ℕ → R) (ops : List (WarnOp m R)) (hops : ∀ op ∈ ops, op.KeepsFilters) :
    ((WarnWorld.start .default : WarnWorld m R).run dflt ops).2.warn.shown =
      min 1 (timesAsked dflt (WarnWorld.start .default) ops) := by
  rw [run_warn dflt ops _ hops, warnTimes_default _ (by simp [WarnWorld.start, WarnState.start, WarnState.Fresh])
    (.inl rfl)]
  simp [WarnWorld.start, WarnState.start]

/-- **C109 (once).** In a process in which the filters always select the action `once`, however often they are
changed to it, one warning is shown if there is any fit with an overlap fraction above one half, and none
otherwise. -/
theorem C109_once (dflt : ℕ → R) (ops : List (WarnOp m R))
    (hops : ∀ op ∈ ops, op.KeepsFilters ∨ op = .filters .once) :
    ((WarnWorld.start .once : WarnWorld m R).run dflt ops).2.warn.shown =
      min 1 (timesAsked dflt (WarnWorld.start .once) ops) := by
  rw [run_once dflt ops _ hops rfl (by simp [WarnWorld.start, WarnState.start])]
  simp [WarnWorld.start, WarnState.start]

/-- **C109 (warnings do not change results).** Two processes with the same covers and generators, in which
warnings are not errors, get the same answers to the same operations, whatever their
filters are and whatever was shown before. -/
theorem C109_same (dflt : ℕ → R) (objs : List (CubObj m R)) (gens : List (ℕ × CubGen m R)) (s t : WarnState)
    (hs : s.action ≠ .error) (ht : t.action ≠ .error) (ops : List (WarnOp m R))
    (hops : WarnOp.filters .error ∉ ops) :
    ((⟨objs, gens, s⟩ : WarnWorld m R).run dflt ops).1 = ((⟨objs, gens, t⟩ : WarnWorld m R).run dflt ops).1 := by
  induction ops generalizing objs gens s t with
  | nil => rfl
  | cons op ops ih =>
    have hops' : WarnOp.filters .error ∉ ops := fun h => hops (List.mem_cons_of_mem _ h)
    have key : ∃ r objs' gens', ∀ u : WarnState, u.action ≠ .error → ∃ u' : WarnState, u'.action ≠ .error ∧
        (⟨objs, gens, u⟩ : WarnWorld m R).step dflt op = (r, ⟨objs', gens', u'⟩) := by
      cases op with
      | filters a =>
        refine ⟨_, objs, gens, fun u hu => ⟨u.filters a, ?_, rfl⟩⟩
        rintro rfl
        exact hops List.mem_cons_self
      | new P => exact ⟨.done (.ok ()), objs ++ [⟨P, none, none, none, none⟩], gens, fun u hu => ⟨u, hu, rfl⟩⟩
      | setParams i P =>
        exact ⟨.done (.ok ()), objs.modify i fun o => { o with params := P }, gens, fun u hu => ⟨u, hu, rfl⟩⟩
      | search i x =>
        cases ho : objs[i]? with
        | none => exact ⟨.done (.error .indexError), objs, gens, fun u hu => ⟨u, hu, by simp only [WarnWorld.step, ho]⟩⟩
        | some o => exact ⟨.found (o.search x), objs, gens, fun u hu => ⟨u, hu, by simp only [WarnWorld.step, ho]⟩⟩
      | apply i st ρ X =>
        exact ⟨.done (.ok ()), objs, gens ++ [(i, if st then .fresh ρ X else .net (.fresh ρ X))], fun u hu => ⟨u, hu, rfl⟩⟩
      | fit i ρ X =>
        cases ho : objs[i]? with
        | none => exact ⟨.done (.error .indexError), objs, gens, fun u hu => ⟨u, hu, by simp only [WarnWorld.step, ho]⟩⟩
        | some o =>
          refine ⟨.done (o.fit dflt ρ X).1, objs.set i (o.fit dflt ρ X).2, gens,
            fun u hu => ⟨(o.fitW dflt ρ X u).2.2, ?_, ?_⟩⟩
          · rw [fitW_warn]
            split
            · rw [warnUser_action]; exact hu
            · exact hu
          · simp only [WarnWorld.step, ho]
            rw [← fitW_same dflt o ρ X hu]
      | next g =>
        cases hg : gens[g]? with
        | none => exact ⟨.done (.error .indexError), objs, gens, fun u hu => ⟨u, hu, by simp only [WarnWorld.step, hg]⟩⟩
        | some e =>
          obtain ⟨i, gen⟩ := e
          cases ho : objs[i]? with
          | none =>
            exact ⟨.done (.error .indexError), objs, gens, fun u hu => ⟨u, hu, by simp only [WarnWorld.step, hg, ho]⟩⟩
          | some o =>
            refine ⟨.chart g (gen.next dflt o).1, objs.set i (gen.next dflt o).2.2,
              gens.set g (i, (gen.next dflt o).2.1), fun u hu => ⟨(gen.nextW dflt o u).2.2.2, ?_, ?_⟩⟩
            · rw [nextW_warn]
              repeat' split
              all_goals first | exact hu | (rw [warnUser_action]; exact hu)
            · simp only [WarnWorld.step, hg, ho]
              rw [← nextW_same dflt o hu gen]
    obtain ⟨r, objs', gens', hk⟩ := key
    obtain ⟨s', hs', es⟩ := hk s hs
    obtain ⟨t', ht', et⟩ := hk t ht
    simp only [WarnWorld.run, es, et]
    rw [ih objs' gens' s' t' hs' ht' hops']

/-- **C109 (and they are those of the model without warnings).** -/
theorem C109_results (dflt : ℕ → R) (o : CubObj m R) (g : CubGen m R) (ρ : ℕ → ℕ) (X : List (Fin m → R))
    (s : WarnState) (hs : s.action ≠ .error) :
    ((o.fitW dflt ρ X s).1, (o.fitW dflt ρ X s).2.1) = o.fit dflt ρ X ∧
      ((g.nextW dflt o s).1, (g.nextW dflt o s).2.1, (g.nextW dflt o s).2.2.1) = g.next dflt o :=
  ⟨fitW_same dflt o ρ X hs, nextW_same dflt o hs g⟩

/-- **C109 (warnings as errors).** With the action `error`, after any history, a fit with an overlap
fraction above one half raises `UserWarning`, and so does the first `next` of a generator, which then
yields nothing. A cover that was never fitted still answers no search. -/
theorem C109_error (dflt : ℕ → R) (a₀ : WarnAction) (past : List (WarnOp m R)) (op : WarnOp m R)
    (w : WarnWorld m R) (hw : w = ((WarnWorld.start a₀).run dflt past).2) (ha : w.warn.action = .error)
    (h : Asks dflt w op) :
    ((w.step dflt op).1 = .done (.error .userWarning) ∨
      ∃ g, op = .next g ∧ (w.step dflt op).1 = .chart g (.error .userWarning) ∧
        ((w.step dflt op).2.step dflt (.next g)).1 = .chart g (.ok none)) ∧
    ∀ i o x, w.objs[i]? = some o → o.cover = none →
      ((w.step dflt op).2.step dflt (.search i x)).1 = .found (.error .attributeError) := by
  have hs : w.warn.Sound := by rw [hw]; exact run_sound dflt past _ (start_sound a₀)
  have hnone : ∀ (o : CubObj m R) x, o.cover = none → o.search x = .error .attributeError := by
    intro o x ho
    unfold CubObj.search
    rw [ho]
    cases o.grid <;> rfl
  have hset : ∀ (o : CubObj m R) (j i : ℕ) (o' o'' : CubObj m R) (x : Fin m → R), w.objs[j]? = some o →
      o'.cover = o.cover → w.objs[i]? = some o'' → o''.cover = none →
      ∃ q, (w.objs.set j o')[i]? = some q ∧ q.search x = .error .attributeError := by
    intro o j i o' o'' x hj hc hi hn
    have hlt := (List.getElem?_eq_some_iff.mp hj).1
    by_cases e : j = i
    · subst e
      rw [hj] at hi
      cases hi
      exact ⟨o', by simp [hlt], hnone _ _ (by rw [hc, hn])⟩
    · exact ⟨o'', by rw [List.getElem?_set_ne e, hi], hnone _ _ hn⟩
  cases h with
  | fit j o ρ X ho h =>
    obtain ⟨h1, h2⟩ := fitW_error dflt o ρ X hs ha h
    have hstep : w.step dflt (.fit j ρ X) = (.done (.error .userWarning),
        { w with objs := w.objs.set j (o.fitW dflt ρ X w.warn).2.1, warn := (o.fitW dflt ρ X w.warn).2.2 }) := by
      simp only [WarnWorld.step, ho, h1]
    refine ⟨.inl (by rw [hstep]), fun i o'' x hi hn => ?_⟩
    obtain ⟨q, hq, hq'⟩ := hset o j i (o.fitW dflt ρ X w.warn).2.1 o'' x ho (by rw [h2]) hi hn
    rw [hstep]
    simp only [WarnWorld.step, hq, hq']
  | proximity g j o ρ X hg ho h =>
    obtain ⟨h1, h2⟩ := fitW_error dflt o ρ X hs ha h
    have hlt := (List.getElem?_eq_some_iff.mp hg).1
    have hlo := (List.getElem?_eq_some_iff.mp ho).1
    have hstep : w.step dflt (.next g) = (.chart g (.error .userWarning),
        ⟨w.objs.set j (o.fitW dflt ρ X w.warn).2.1, w.gens.set g (j, .net .finished),
          (o.fitW dflt ρ X w.warn).2.2⟩) := by
      simp only [WarnWorld.step, hg, ho, CubGen.nextW]
      rcases hf : o.fitW dflt ρ X w.warn with ⟨_ | _, o', s'⟩
      · rw [hf] at h1; cases h1; rfl
      · rw [hf] at h1; cases h1
    refine ⟨.inr ⟨g, rfl, by rw [hstep], ?_⟩, fun i o'' x hi hn => ?_⟩
    · rw [hstep]
      simp [WarnWorld.step, hlt, hlo, CubGen.nextW, CubGen.next, NetGen.next]
    · obtain ⟨q, hq, hq'⟩ := hset o j i (o.fitW dflt ρ X w.warn).2.1 o'' x ho (by rw [h2]) hi hn
      rw [hstep]
      simp only [WarnWorld.step, hq, hq']
  | standard g j o ρ X hg ho h =>
    obtain ⟨h1, h2⟩ := fitW_error dflt o ρ X hs ha h
    have hlt := (List.getElem?_eq_some_iff.mp hg).1
    have hlo := (List.getElem?_eq_some_iff.mp ho).1
    have hstep : w.step dflt (.next g) = (.chart g (.error .userWarning),
        ⟨w.objs.set j (o.fitW dflt ρ X w.warn).2.1, w.gens.set g (j, .finished),
          (o.fitW dflt ρ X w.warn).2.2⟩) := by
      simp only [WarnWorld.step, hg, ho, CubGen.nextW]
      rcases hf : o.fitW dflt ρ X w.warn with ⟨_ | _, o', s'⟩
      · rw [hf] at h1; cases h1; rfl
      · rw [hf] at h1; cases h1
    refine ⟨.inr ⟨g, rfl, by rw [hstep], ?_⟩, fun i o'' x hi hn => ?_⟩
    · rw [hstep]
      simp [WarnWorld.step, hlt, hlo, CubGen.nextW, CubGen.next]
    · obtain ⟨q, hq, hq'⟩ := hset o j i (o.fitW dflt ρ X w.warn).2.1 o'' x ho (by rw [h2]) hi hn
      rw [hstep]
      simp only [WarnWorld.step, hq, hq']

end

/-- **C109 (overlap_frac=None).** The default overlap fraction never warns. -/
theorem C109_default_overlap {m : ℕ} (hm : 1 ≤ m) (o : CubObj m ℝ) (ho : o.params.overlapFrac = none)
    (X : List (Fin m → ℝ)) : ¬ TooWide defaultOverlap o X := by
  rintro ⟨_, h⟩
  rw [ho, Option.getD_none] at h
  have := (C26_default_range hm).2
  linarith

/-- Two covers with overlap fractions above one half, both fitted on data. -/
def wideOps : List (WarnOp 1 ℚ) :=
  [.new ⟨2, some (3 / 5), "flat", 1, none, "disabled"⟩, .new ⟨3, some (4 / 5), "flat", 1, none, "disabled"⟩,
    .fit 0 (fun _ => 0) [fun _ => 0, fun _ => 1]]

/-- **C109 (violation).** With the filters Python has at the start, a cover with overlap fraction 3/5 is
fitted, and then another one with overlap fraction 4/5: the second fit shows no warning. -/
theorem C109_second_violation :
    let w := ((WarnWorld.start .default : WarnWorld 1 ℚ).run (fun _ => 0) wideOps).2
    let op : WarnOp 1 ℚ := .fit 1 (fun _ => 0) [fun _ => 0, fun _ => 2]
    Asks (fun _ => 0) w op ∧ (w.step (fun _ => 0) op).1 = .done (.ok ()) ∧
      (w.step (fun _ => 0) op).2.warn.shown = w.warn.shown := by
  refine ⟨.fit 1 ⟨⟨3, some (4 / 5), "flat", 1, none, "disabled"⟩, none, none, none, none⟩ _ _ rfl
    ⟨by simp, by norm_num⟩, by decide +kernel, by decide +kernel⟩

/-- Non-vacuity: with `always` the two fits show two warnings, and with `default` one. -/
example : ((WarnWorld.start .always : WarnWorld 1 ℚ).run (fun _ => 0)
      (wideOps ++ [.fit 1 (fun _ => 0) [fun _ => 0, fun _ => 2]])).2.warn.shown = 2 ∧
    ((WarnWorld.start .default : WarnWorld 1 ℚ).run (fun _ => 0)
      (wideOps ++ [.fit 1 (fun _ => 0) [fun _ => 0, fun _ => 2]])).2.warn.shown = 1 ∧
    ((WarnWorld.start .default : WarnWorld 1 ℚ).run (fun _ => 0)
      (wideOps ++ [.filters .default, .fit 1 (fun _ => 0) [fun _ => 0, fun _ => 2]])).2.warn.shown = 2 := by
  refine ⟨by decide +kernel, by decide +kernel, by decide +kernel⟩

/-- Non-vacuity of `C109_once`: no second warning although the filters were set again. -/
example : ((WarnWorld.start .once : WarnWorld 1 ℚ).run (fun _ => 0)
    (wideOps ++ [.filters .once, .fit 1 (fun _ => 0) [fun _ => 0, fun _ => 2]])).2.warn.shown = 1 := by
  decide +kernel

/-- Non-vacuity of `C109_error`: the first `next` of a generator of the second cover. -/
example :
    let w := ((WarnWorld.start .default : WarnWorld 1 ℚ).run (fun _ => 0)
      (wideOps ++ [.filters .error, .apply 1 true (fun _ => 0) [fun _ => 0, fun _ => 2]])).2
    w.warn.action = .error ∧ Asks (fun _ => 0) w (.next 0) ∧
      (w.step (fun _ => 0) (.next 0)).1 = .chart 0 (.error .userWarning) := by
  refine ⟨by decide +kernel, .standard 0 1 ⟨⟨3, some (4 / 5), "flat", 1, none, "disabled"⟩, none, none, none, none⟩
    (fun _ => 0) [fun _ => 0, fun _ => 2] rfl rfl ⟨by simp, by norm_num⟩, by decide +kernel⟩

end Verif
