import Verif.Model.AppNotes
import Verif.Spec.AppLoad

/-!
# Specification: what the web app tells the user
-/

set_option autoImplicit false

namespace Verif

variable {K G : Type}

namespace NotePage

/-- A new page. -/
def new : NotePage K G := {}

/-- The notification `i` says that something is still running. -/
def Spins (p : NotePage K G) (i : ℕ) : Prop := ∃ n, p.notes[i]? = some n ∧ n.spinner = true

/-- The notification `i` is that of the `k`-th waiting task. -/
def NoteOf (p : NotePage K G) (k i : ℕ) : Prop := ∃ h, p.handlers[k]? = some h ∧ h.note = i

/-- The notification `i` is that of a computation that has not ended. -/
def Waits (p : NotePage K G) (i : ℕ) : Prop := ∃ k, k < p.page.tasks.length ∧ p.NoteOf k i

/-- Notification `i` has stopped, with this message. -/
def Says (p : NotePage K G) (i : ℕ) (message type : String) : Prop :=
  p.notes[i]? = some ⟨message, type, false⟩

/-- What the notification of a waiting task shows. -/
def ongoing : Task K G → Note
  | .run _ _ => ⟨"Running Mapper...", "ongoing", true⟩
  | .draw _ => ⟨"Drawing Mapper...", "ongoing", true⟩

/-- No drawing of the history ends with an exception. -/
def NoDrawingFails [Field K] (O : Outside K G) (es : List (Event K)) : Prop :=
  ∀ es₁ k es₂ d, es = es₁ ++ .finish k :: es₂ →
    (new.after O es₁).page.tasks[k]? = some (.draw d) → O.draws d = true

end NotePage

/-- The widget for the dimension always has a value: it is a menu with two entries. -/
def DimensionsSet {K : Type} (es : List (Event K)) : Prop :=
  ∀ w, Event.change w ∈ es → w.plotDimensions ≠ none

end Verif
