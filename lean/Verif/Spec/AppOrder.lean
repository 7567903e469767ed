import Verif.Spec.App

/-!
# Waiting handlers of the web app that end in the order in which they started
-/

set_option autoImplicit false

namespace Verif
variable {K G : Type}

/-- In this history it is always the handler that waits longest that goes on. -/
def InOrder (es : List (Event K)) : Prop := ∀ i, Event.finish i ∈ es → i = 0

/-- Whether a waiting handler waits for Mapper, not for a figure. -/
def Task.isRun : Task K G → Prop
  | .run _ _ => True
  | .draw _ => False

/-- The widget for the dimension of the plot has a value after the event, so that the
settings can be read. -/
def Event.keepsDimension : Event K → Prop
  | .change w => w.plotDimensions ≠ none
  | _ => True

end Verif
