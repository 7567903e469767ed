import Verif.Proof.Download
import Verif.Props.StreamlitPage

/-!
# C116: the file with the graph that the older web app offers
-/

set_option autoImplicit false
set_option linter.unusedSectionVars false

namespace Verif
variable {S T S' T' K F : Type} [Field K] [LinearOrder K] [DecidableEq F]

/-- **C116 (what the file says).** Whatever the data, the cover and the clustering, a graph that
Mapper returned can be downloaded; the file is the text of a document that lists its nodes, with
the size and the members of each, and the neighbours of each node; and it is the text of no other
document. -/
theorem C116_file (X : List S) (y : List T) (cover : CoverFn T) (clust : ClustFn S) (g : NxGraph)
    (h : mapperGraph X y cover clust = .ok g) :
    ∃ d t, graphFile (some g) = .ok t ∧ t = d.text ∧ Describes d g ∧ ∀ d', d'.text = t → d' = d := by
  refine ⟨graphDoc g, _, ?_, rfl, graphDoc_describes g, fun d' hd => Json.text_inj hd⟩
  simp only [graphFile]
  rw [adjacencyData_eq (mapperGraph_aligned h), ok_bind]
  rfl

/-- **C116 (nothing is lost).** Two runs of Mapper, on any data, whose graphs are downloaded to the
same file returned the same graph. -/
theorem C116_lossless (X : List S) (y : List T) (cover : CoverFn T) (clust : ClustFn S)
    (X' : List S') (y' : List T') (cover' : CoverFn T') (clust' : ClustFn S') (g g' : NxGraph)
    (h : mapperGraph X y cover clust = .ok g) (h' : mapperGraph X' y' cover' clust' = .ok g')
    (t : List Char) (ht : graphFile (some g) = .ok t) (ht' : graphFile (some g') = .ok t) :
    g = g' := by
  simp only [graphFile] at ht ht'
  rw [adjacencyData_eq (mapperGraph_aligned h), ok_bind] at ht
  rw [adjacencyData_eq (mapperGraph_aligned h'), ok_bind] at ht'
  cases ht
  exact graphDoc_inj (mapperGraph_aligned h) (mapperGraph_aligned h')
    (Json.text_inj (Except.ok.inj ht').symm)

/-- **C116 (the page).** Whatever pages were shown before, the file offered beside a page is there
and describes the graph that the data and the estimator of its controls give. -/
theorem C116_page (L : StLibs K F) (ht : TextFaithful L)
    (hm : ∀ a b X y g, L.fitTransform a b X y = .ok g →
      ∃ (A B : Type) (X' : List A) (y' : List B) (cover : CoverFn B) (clust : ClustFn A),
        mapperGraph X' y' cover clust = .ok g)
    (h : List (StControls F)) (c : StControls F) (v : StView K)
    (hv : (stMain L c (stAfter L {} h)).1 = .ok (some v)) :
    ∃ g d t, pageGraph L c = .ok g ∧ graphFile (some v.graph) = .ok t ∧ t = d.text ∧
      Describes d g := by
  obtain ⟨_, hg, _⟩ := (C96_graph L ht h c).1 v hv
  have hg' := hg
  unfold pageGraph at hg'
  obtain ⟨⟨dfX, dfY⟩, _, hg'⟩ := bind_eq_ok.mp hg'
  obtain ⟨y, _, hg'⟩ := bind_eq_ok.mp hg'
  obtain ⟨X', y', _, _, hf⟩ := computeMapper_ok hg'
  obtain ⟨_, _, A, B, cover, clust, hr⟩ := hm _ _ _ _ _ hf
  obtain ⟨d, t, h1, h2, h3, _⟩ := C116_file A B cover clust v.graph hr
  exact ⟨v.graph, d, t, hg, h1, h2, h3⟩

/-- Non-vacuity, and what a file looks like: rows 0 and 1 in one node, row 1 alone in another. -/
example : ∃ g, mapperGraph [5, 6] [0, 0] (fun _ => .ok [[0, 1], [1]])
      (fun _ ids => .ok (ids.map fun _ => (0 : ℤ))) = .ok g ∧
    graphFile (some g) = .ok ("{\"directed\": false, \"multigraph\": false, \"graph\": [], " ++
      "\"nodes\": [{\"size\": 2, \"ids\": [0, 1], \"id\": 0}, {\"size\": 1, \"ids\": [1], \"id\": 1}], " ++
      "\"adjacency\": [[{\"id\": 1}], [{\"id\": 0}]]}").toList :=
  ⟨_, rfl, by decide +kernel⟩

/-- Without a graph the file has an empty object. -/
example : graphFile none = .ok "{}".toList := by decide +kernel

/-- Non-vacuity for the page: `stLibs` runs Mapper. -/
example : ∃ v d t, (stMain stLibs (stPage true) (stAfter stLibs {} [stPage false])).1 = .ok (some v) ∧
    graphFile (some v.graph) = .ok t ∧ t = d.text ∧ Describes d v.graph := by
  obtain ⟨v, hv⟩ := stColors_shown (r := stMain stLibs (stPage true) (stAfter stLibs {} [stPage false]))
    (l := [3 / 2]) (by decide +kernel)
  obtain ⟨g, d, t, h1, h2, h3, h4⟩ := C116_page stLibs stLibs_text
    (by intro a b X y g hg; exact ⟨_, _, _, _, _, _, hg⟩) [stPage false] (stPage true) v hv
  have h5 := ((C96_graph stLibs stLibs_text [stPage false] (stPage true)).1 v hv).2.1
  rw [h5] at h1
  cases h1
  exact ⟨v, d, t, hv, h2, h3, h4⟩

end Verif
