import Verif.Spec.Streamlit

/-!
# Specification of what a page of the Streamlit app is computed from
-/

set_option autoImplicit false

namespace Verif
variable {K F : Type}

/-- The features and targets that belong to a choice of the source: the two examples, what OpenML has
under the name, or the uploaded file, which has no targets. -/
inductive SourceData (L : StLibs K F) : StSource F → Frame K → Frame K → Prop where
  | digits : SourceData L (.example "Digits") L.digits.1 L.digits.2
  | iris : SourceData L (.example "Iris") L.iris.1 L.iris.2
  | openml (name : String) (X y : Frame K) : L.openml name = .ok (X, y) →
      SourceData L (.openml name) X y
  | csv (f : F) (X : Frame K) : L.readCsv f = .ok X → SourceData L (.csv (some f)) X .none

/-- What the menu of sources can be set to. -/
def OnMenu : StSource F → Prop
  | .example name => name = "Digits" ∨ name = "Iris"
  | _ => True

/-- The lens of the data `X` for a choice of the lens: the data themselves, or a reduction to `n`
columns. Data with fewer columns are not reduced. -/
inductive LensOf (L : StLibs K F) (X : Array2 K) : StLens → Array2 K → Prop where
  | identity : LensOf L X .identity X
  | pca (n seed : ℤ) (y : Array2 K) : n ≤ X.cols.length → L.pca n seed X = .ok y →
      LensOf L X (.pca n seed) y
  | umap (n seed : ℤ) (y : Array2 K) : n ≤ X.cols.length → L.umap n seed X = .ok y →
      LensOf L X (.umap n seed) y
  | fewPca (n seed : ℤ) : (X.cols.length : ℤ) < n → LensOf L X (.pca n seed) X
  | fewUmap (n seed : ℤ) : (X.cols.length : ℤ) < n → LensOf L X (.umap n seed) X

/-- Scaled if the box is ticked. -/
def ScaledIf (L : StLibs K F) (ticked : Bool) (X X' : Array2 K) : Prop :=
  if ticked then L.scale X = .ok X' else X' = X

/-- The second graph lists the nodes of the first and its edges, possibly in another order and with
the ends of edges swapped. -/
def Relisted (g g' : NxGraph) : Prop :=
  g.nodes.keys.Perm g'.nodes.keys ∧
  ∃ l, l.Perm g'.edges ∧ List.Forall₂ (fun e e' => e' = e ∨ e' = (e.2, e.1)) g.edges l

/-- The markers of the figure are those of the nodes in `pos`, in this order, and are at the
coordinates given there. -/
def MarkersAt (f : Fig K) (pos : PyDict ℤ (List K)) : Prop :=
  ∃ text, f.nodes.text = some text ∧ text.map NodeText.node = pos.keys ∧
    f.nodes.x.map some = pos.items.map (fun e => e.2[0]?) ∧
    f.nodes.y.map some = pos.items.map (fun e => e.2[1]?) ∧
    ∀ z, f.nodes.z = some z → z.map some = pos.items.map fun e => e.2[2]?

end Verif
