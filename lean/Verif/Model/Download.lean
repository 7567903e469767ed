import Verif.Model.Plot

/-!
# Model of the download of the graph in `app/streamlit_app.py`

streamlit_app.py:914-931 `mapper_download_button` with networkx' `adjacency_data` and Python's
`json.dumps`. The compression by gzip and the name of the file are left out.
-/

set_option autoImplicit false

namespace Verif

/-- The keys of the objects that `adjacency_data` returns for a Mapper graph. -/
inductive JsonKey where
  | directed
  | multigraph
  | graph
  | nodes
  | adjacency
  | id
  | size
  | ids
  deriving DecidableEq

/-- The key as text. `ids` and `size` are `ATTR_IDS` and `ATTR_SIZE` at core.py:43-45. -/
def JsonKey.name : JsonKey → String
  | .directed => "directed"
  | .multigraph => "multigraph"
  | .graph => "graph"
  | .nodes => "nodes"
  | .adjacency => "adjacency"
  | .id => "id"
  | .size => "size"
  | .ids => "ids"

mutual
/-- JSON documents, as far as they occur. Texts other than keys, floats and `null` do not. -/
inductive Json where
  | bool (b : Bool)
  | int (i : ℤ)
  | arr (l : JsonList)
  | obj (l : JsonFields)

/-- The elements of an array. -/
inductive JsonList where
  | nil
  | cons (a : Json) (l : JsonList)

/-- The fields of an object, in order. -/
inductive JsonFields where
  | nil
  | cons (k : JsonKey) (a : Json) (l : JsonFields)
end

/-- `str(i)` in Python. NumPy integers are converted by `default=int` (streamlit_app.py:918). -/
def intText : ℤ → List Char
  | .ofNat n => Nat.toDigits 10 n
  | .negSucc n => '-' :: Nat.toDigits 10 (n + 1)

/-- A key in quotes. None of the keys has characters to be escaped. -/
def JsonKey.text (k : JsonKey) : List Char := '"' :: (k.name.toList ++ ['"', ':', ' '])

mutual
/-- `json.dumps`, with its default separators. -/
def Json.text : Json → List Char
  | .bool true => ['t', 'r', 'u', 'e']
  | .bool false => ['f', 'a', 'l', 's', 'e']
  | .int i => intText i
  | .arr l => '[' :: l.text
  | .obj l => '{' :: l.text

/-- The rest of an array after the opening bracket. -/
def JsonList.text : JsonList → List Char
  | .nil => [']']
  | .cons a l => a.text ++ l.rest

/-- The rest of an array after an element. -/
def JsonList.rest : JsonList → List Char
  | .nil => [']']
  | .cons a l => ',' :: ' ' :: (a.text ++ l.rest)

/-- The rest of an object after the opening brace. -/
def JsonFields.text : JsonFields → List Char
  | .nil => ['}']
  | .cons k a l => k.text ++ (a.text ++ l.rest)

/-- The rest of an object after a field. -/
def JsonFields.rest : JsonFields → List Char
  | .nil => ['}']
  | .cons k a l => ',' :: ' ' :: (k.text ++ (a.text ++ l.rest))
end

/-- A Python list. -/
def Json.ofList : List Json → JsonList
  | [] => .nil
  | a :: l => .cons a (ofList l)

/-- `{**G.nodes[n], "id": n}`: the attributes, in the order in which core.py:202 sets them, and
the name of the node. -/
def nodeJson (n : ℤ) (a : NodeAttr) : Json :=
  let tail := JsonFields.cons .id (.int n) .nil
  let tail := match a.ids with
    | some l => JsonFields.cons .ids (.arr (Json.ofList (l.map fun i : ℕ => .int i))) tail
    | none => tail
  match a.size with
  | some s => .obj (.cons .size (.int s) tail)
  | none => .obj tail

/-- The neighbours of a node: `{**d, "id": nbr}` with no attributes `d`. -/
def nbrsJson (nbrs : List ℤ) : Json :=
  .arr (Json.ofList (nbrs.map fun m => .obj (.cons .id (.int m) .nil)))

/-- networkx `adjacency_data`: the loop over `G.adjacency()`. -/
def adjacencyLoop (g : NxGraph) : List (ℤ × List ℤ) → Py (List Json × List Json)
  | [] => .ok ([], [])
  | (n, nbrs) :: rest => do
    let a ← g.nodes.getItem n
    let (ns, as) ← adjacencyLoop g rest
    return (nodeJson n a :: ns, nbrsJson nbrs :: as)

/-- networkx `adjacency_data(G)` for a `Graph` without attributes of its own. -/
def adjacencyData (g : NxGraph) : Py Json := do
  let (ns, as) ← adjacencyLoop g g.adj.items
  return .obj (.cons .directed (.bool false) (.cons .multigraph (.bool false)
    (.cons .graph (.arr .nil) (.cons .nodes (.arr (Json.ofList ns))
      (.cons .adjacency (.arr (Json.ofList as)) .nil)))))

/-- streamlit_app.py:914-931 `mapper_download_button`: the text that is compressed. -/
def graphFile (g : Option NxGraph) : Py (List Char) :=
  match g with
  | none => .ok (Json.obj .nil).text
  | some g => do
    let d ← adjacencyData g
    return d.text

end Verif
