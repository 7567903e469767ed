import Verif.Model.Download
import Verif.Spec.Plot

/-!
# Specification of the file with the graph
-/

set_option autoImplicit false

namespace Verif

/-- The elements of an array. -/
def JsonList.toList : JsonList → List Json
  | .nil => []
  | .cons a l => a :: l.toList

/-- The value of the last field with this key: what a reader of JSON gets. -/
def JsonFields.get (k : JsonKey) : JsonFields → Option Json
  | .nil => none
  | .cons k' a l => match l.get k with
    | some b => some b
    | none => if k' = k then some a else none

/-- The value of the field of an object. -/
def Json.field (k : JsonKey) : Json → Option Json
  | .obj l => l.get k
  | _ => none

/-- The document is an array of these integers. -/
def Json.IsInts (d : Json) (l : List ℤ) : Prop :=
  ∃ a, d = .arr a ∧ a.toList = l.map .int

/-- The document is the description of an undirected simple graph with the nodes, the attributes and
the neighbours of `g`. -/
structure Describes (d : Json) (g : NxGraph) : Prop where
  undirected : d.field .directed = some (.bool false)
  simple : d.field .multigraph = some (.bool false)
  nodes : ∃ ns, d.field .nodes = some (.arr ns) ∧
    List.Forall₂ (fun (e : ℤ × NodeAttr) j => j.field .id = some (.int e.1) ∧
      j.field .size = e.2.size.map (fun s => .int s) ∧
      (∀ l, e.2.ids = some l → ∃ a, j.field .ids = some a ∧ a.IsInts (l.map fun i : ℕ => (i : ℤ))) ∧
      (e.2.ids = none → j.field .ids = none)) g.nodes.items ns.toList
  adjacency : ∃ as, d.field .adjacency = some (.arr as) ∧
    List.Forall₂ (fun (e : ℤ × List ℤ) j => ∃ l, j = .arr l ∧
      List.Forall₂ (fun m x => x.field .id = some (.int m)) e.2 l.toList) g.adj.items as.toList

end Verif
