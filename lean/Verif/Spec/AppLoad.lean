import Verif.Spec.App

/-!
# Specification: loading data in the web app
-/

set_option autoImplicit false

namespace Verif
variable {K G : Type}

/-- With the controls `w`, the event stores this data and these labels: an uploaded file comes without
labels, an example with its own; both are repaired (`C56_fix_data`). -/
inductive Loads [Field K] (O : Outside K G) (w : Widgets) : Event K → Frame K → Frame K → Prop
  | upload (f : Frame K) : Loads O w (.upload (some (.ok f))) (fixData f) .none
  | digits : w.loadType = "Example" → w.loadExample = "Digits" →
      Loads O w .load (fixData O.digits.1) (fixData O.digits.2)
  | iris : w.loadType = "Example" → w.loadExample = "Iris" →
      Loads O w .load (fixData O.iris.1) (fixData O.iris.2)

/-- After the history `pre`, event `e` and history `post`: `e` stored the data and the labels, and
nothing in `post` stored any. -/
def LastLoad [Field K] (O : Outside K G) (pre : List (Event K)) (e : Event K) (post : List (Event K))
    (df labels : Frame K) : Prop :=
  Loads O (Page.new.after O pre).widgets e df labels ∧
  ∀ b e' b', post = b ++ e' :: b' → ∀ df' labels',
    ¬ Loads O (Page.new.after O (pre ++ e :: b)).widgets e' df' labels'

/-- Pressing "Load data" is refused: nothing, or nothing known, is selected. -/
def LoadRefused (p : Page K G) : Prop :=
  (p.widgets.loadType = "Example" ∧ p.widgets.loadExample ≠ "Digits" ∧ p.widgets.loadExample ≠ "Iris") ∨
  (p.widgets.loadType = "CSV" ∧ ∀ f, p.storage.df = some f → f.empty = true) ∨
  (p.widgets.loadType ≠ "Example" ∧ p.widgets.loadType ≠ "CSV")

end Verif
