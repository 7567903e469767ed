import Verif.Proof.AppOrder
import Verif.Props.App

/-!
# C105: the order in which the web app's computations end
-/

set_option autoImplicit false
set_option linter.unusedSectionVars false

namespace Verif
variable {K G : Type} [Field K]

/-- **C105 (proved part).** If computations end in the order in which they started, then,
once no handler waits, graph and lens values are the result of the last press of Run
Mapper, whatever else happened after it. Missing: other orders, see
`C105_run_violation`. -/
theorem C105_run_partial (O : Outside K G) (p : Page K G) (es : List (Event K)) (df : Frame K)
    (cfg : MapperConfig) (g : G) (y : Frame K)
    (hdf : p.storage.df = some df) (hne : df.empty = false)
    (hcfg : getMapperConfig p.widgets = .ok cfg)
    (hr : runMapper O.libs (some df) cfg = .ok (some (g, y)))
    (hlast : Event.clickRun ∉ es) (ho : InOrder es)
    (hidle : (p.after O (.clickRun :: es)).tasks = []) :
    (p.after O (.clickRun :: es)).storage.graph = some g ∧
    (p.after O (.clickRun :: es)).storage.dfY = some y := by
  have h0 : LastRun df cfg g y (p.next O .clickRun) :=
    Or.inl ⟨p.tasks, [], by simp [Page.next, startRun, hdf, hne, hcfg]⟩
  rcases lastRun_after hr es _ h0 hlast ho with ⟨T, ds, h⟩ | ⟨h1, h2, _⟩
  · rw [Page.after, List.foldl_cons] at hidle
    rw [Page.after, hidle] at h
    simp at h
  · exact ⟨h1, h2⟩

/-- **C105 (proved part).** If moreover the data stays the same, the settings can be
read and figures can be drawn, the figure shown is one of that result. -/
theorem C105_shown_partial (O : Outside K G) (p : Page K G) (es : List (Event K)) (df : Frame K)
    (cfg : MapperConfig) (g : G) (y : Frame K)
    (hdf : p.storage.df = some df) (hne : df.empty = false)
    (hcfg : getMapperConfig p.widgets = .ok cfg)
    (hr : runMapper O.libs (some df) cfg = .ok (some (g, y)))
    (hlast : Event.clickRun ∉ es) (ho : InOrder es)
    (hdata : ∀ e ∈ es, ¬ e.changesData) (hdim : ∀ e ∈ es, e.keepsDimension)
    (hdraw : ∀ d, O.draws d = true)
    (hidle : (p.after O (.clickRun :: es)).tasks = []) :
    ∃ d, (p.after O (.clickRun :: es)).shown = some d ∧ d.graph = g ∧ d.dfY = y ∧ d.df = df := by
  have h0 : LastShown df cfg g y (p.next O .clickRun) := by
    have hx : p.next O .clickRun = { p with tasks := p.tasks ++ [.run df cfg] } := by
      simp [Page.next, startRun, hdf, hne, hcfg]
    rw [hx]
    exact ⟨hdf, getMapperConfig_dim hcfg, Or.inl ⟨p.tasks, [], rfl⟩⟩
  rw [Page.after, List.foldl_cons] at hidle ⊢
  rcases (lastShown_after hr hne hdraw es _ h0 hlast ho hdata hdim).rest with
    ⟨T, ds, h⟩ | ⟨_, _, ⟨ds, d, _, h⟩ | ⟨_, d, hP, h⟩⟩
  · rw [Page.after, hidle] at h
    simp at h
  · rw [Page.after, hidle] at h
    simp at h
  · exact ⟨d, h, hP.1, hP.2.1, hP.2.2⟩

/-- **C105 (proved part).** If computations end in the order in which they started and
none of them was a run of Mapper, then, once no handler waits, the figure shown is the
one requested by the last press of Redraw: with the settings at that time. Missing:
other orders, see `C105_redraw_violation`. -/
theorem C105_redraw_partial (O : Outside K G) (p : Page K G) (es : List (Event K)) (df : Frame K)
    (cfg : MapperConfig) (g : G)
    (hdf : p.storage.df = some df) (hne : df.empty = false)
    (hcfg : getMapperConfig p.widgets = .ok cfg) (hg : p.storage.graph = some g)
    (hrun : ∀ t ∈ p.tasks, ¬ t.isRun)
    (hlast : Event.clickRun ∉ es ∧ Event.clickRedraw ∉ es) (ho : InOrder es)
    (hdraw : ∀ d, O.draws d = true)
    (hidle : (p.after O (.clickRedraw :: es)).tasks = []) :
    ∃ d, (p.after O (.clickRedraw :: es)).shown = some d ∧
      d.df = df ∧ d.graph = g ∧ d.config = cfg := by
  have h0 : LastDraw (fun d => d.df = df ∧ d.graph = g ∧ d.config = cfg)
      (p.next O .clickRedraw) := by
    have hx : p.next O .clickRedraw = startDraw p := rfl
    rw [hx, startDraw_ok hdf hne hcfg hg]
    exact lastDraw_add ⟨rfl, rfl, rfl⟩ (allDraws hrun)
  rw [Page.after, List.foldl_cons] at hidle ⊢
  rcases lastDraw_after hdraw es _ h0 hlast.1 hlast.2 ho with ⟨ds, d, _, h⟩ | ⟨_, d, hP, h⟩
  · rw [Page.after, hidle] at h
    simp at h
  · exact ⟨d, h, hP⟩

/-! ### Histories -/

/-- Libraries whose "graph" is the number of intervals of the cover. -/
def exOrder : Outside ℚ ℤ where
  libs := {
    pca := fun n _ X => .ok ⟨X.rows, X.cols.take n.toNat⟩
    umap := fun n _ X => .ok ⟨X.rows, X.cols.take n.toNat⟩
    scale := fun X => .ok X
    fitTransform := fun c _ _ _ => match c with
      | .cubical n _ => .ok n
      | _ => .ok 0 }
  digits := exOutside.digits
  iris := exOutside.iris
  draws := fun _ => true

/-- Change the number of intervals. -/
def exIntervals (n : ℚ) : Event ℚ := .change { coverCubicalNIntervals := some n }
/-- Change the iterations of the layout. -/
def exIterations (n : ℚ) : Event ℚ := .change { plotIterations := some n }

/-- A run waits already when Run Mapper is pressed with five intervals; then Redraw is
pressed, and all computations end in order. The hypotheses are met. -/
example :
    let p : Page ℚ ℤ := Page.new.after exOrder [.load, exIntervals 3, .clickRun, exIntervals 5]
    let es : List (Event ℚ) := [exIntervals 7, .finish 0, .clickRedraw, .finish 0, .finish 0,
      .finish 0, .finish 0]
    p.storage.df.isSome = true ∧ (∀ f, p.storage.df = some f → f.empty = false) ∧
    (getMapperConfig p.widgets).toOption.isSome = true ∧ Event.clickRun ∉ es ∧ InOrder es ∧
    (∀ e ∈ es, ¬ e.changesData) ∧ (∀ e ∈ es, e.keepsDimension) ∧
    (p.after exOrder (.clickRun :: es)).tasks = [] ∧
    (p.after exOrder (.clickRun :: es)).storage.graph = some 5 ∧
    ((p.after exOrder (.clickRun :: es)).shown.map fun d => d.graph) = some 5 := by
  refine ⟨by decide +kernel, ?_, by decide +kernel, by simp [exIntervals], ?_, ?_, ?_,
    by decide +kernel, by decide +kernel, by decide +kernel⟩
  · intro f hf
    have : ((Page.new.after exOrder [.load, exIntervals 3, .clickRun, exIntervals 5] :
        Page ℚ ℤ).storage.df.map fun f => f.empty) = some false := by decide +kernel
    rw [hf] at this
    simpa using this
  · intro i hi
    simpa [exIntervals] using hi
  · simp [exIntervals, Event.changesData]
  · simp [exIntervals, Event.keepsDimension]

/-- Redraw after a run has been drawn: the hypotheses of `C105_redraw_partial` are met,
with another drawing waiting. -/
example :
    let p : Page ℚ ℤ := Page.new.after exOrder
      [.load, .clickRun, .finish 0, .finish 0, .clickRedraw, exIterations 50]
    let es : List (Event ℚ) := [exIterations 70, .finish 0, .finish 0]
    p.storage.df.isSome = true ∧ p.storage.graph = some 10 ∧ p.tasks.length = 1 ∧
    (∀ t ∈ p.tasks, ¬ t.isRun) ∧ InOrder es ∧
    (p.after exOrder (.clickRedraw :: es)).tasks = [] ∧
    ((p.after exOrder (.clickRedraw :: es)).shown.map fun d => d.config.plotIterations) =
      some 50 := by
  refine ⟨by decide +kernel, by decide +kernel, by decide +kernel, ?_, ?_,
    by decide +kernel, by decide +kernel⟩
  · intro t ht hr
    cases t with
    | draw d => exact hr
    | run df cfg =>
      have : ((Page.new.after exOrder [.load, .clickRun, .finish 0, .finish 0, .clickRedraw,
        exIterations 50] : Page ℚ ℤ).tasks.all fun t => match t with
          | .run _ _ => false
          | .draw _ => true) = true := by decide +kernel
      have := List.all_eq_true.mp this _ ht
      simp at this
  · intro i hi
    simpa [exIterations] using hi

/-- **C105, full claim false of the code**: Run Mapper is pressed with three intervals
and again with five. The second computation ends first. When nothing waits any more,
the stored graph is that of the first press, and so is the figure. -/
theorem C105_run_violation :
    let p : Page ℚ ℤ := Page.new.after exOrder [.load, exIntervals 3, .clickRun, exIntervals 5,
      .clickRun, .finish 1, .finish 1, .finish 0, .finish 0]
    p.tasks = [] ∧ p.widgets.coverCubicalNIntervals = some 5 ∧ p.storage.graph = some 3 ∧
    (p.shown.map fun d => d.graph) = some 3 := by
  refine ⟨?_, ?_, ?_, ?_⟩ <;> decide +kernel

/-- **C105, full claim false of the code**: both runs end in order, but the drawing of
the second graph ends before that of the first. When nothing waits any more, the figure
is not one of the stored graph. -/
theorem C105_shown_violation :
    let p : Page ℚ ℤ := Page.new.after exOrder [.load, exIntervals 3, .clickRun, exIntervals 5,
      .clickRun, .finish 0, .finish 0, .finish 1, .finish 0]
    p.tasks = [] ∧ p.storage.graph = some 5 ∧ (p.shown.map fun d => d.graph) = some 3 := by
  refine ⟨?_, ?_, ?_⟩ <;> decide +kernel

/-- **C105, full claim false of the code**: Redraw is pressed twice, with 50 and with 70
iterations, and the second drawing ends first: the figure shown at the end has 50. -/
theorem C105_redraw_violation :
    let p : Page ℚ ℤ := Page.new.after exOrder [.load, .clickRun, .finish 0, .finish 0,
      exIterations 50, .clickRedraw, exIterations 70, .clickRedraw, .finish 1, .finish 0]
    p.tasks = [] ∧ p.widgets.plotIterations = some 70 ∧
    (p.shown.map fun d => d.config.plotIterations) = some 50 := by
  refine ⟨?_, ?_, ?_⟩ <;> decide +kernel

end Verif
