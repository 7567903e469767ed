import Verif.Proof.CubicalShift
import Verif.Props.CubicalFloat

/-!
# C122: cubical covers of rounded numbers, in units that differ by powers of two
-/

set_option autoImplicit false
set_option linter.unusedSectionVars false

namespace Verif

variable {S : Type} {b m : ℕ}

/-- **C122 (charts).** Every operation is rounded to `b + 1` bits. If column `i` of the second table
is column `i` of the first times `2 ^ (e i)`, and the entries of every column whose unit changes
differ by more than the machine epsilon before and after, then both cubical covers give exactly the
same charts for the two tables: the same charts in the same order, with the indices in the
same order, or the same exception. -/
theorem C122_charts (e : Fin m → ℤ) (y y' : List (Fin m → Bin b)) (hy : TimesPowers e y y')
    (hs : ∀ i, e i = 0 ∨ SpreadBin y i ∧ SpreadBin y' i) (dflt : ℕ → Bin b)
    (c : CubCover m (Bin b)) (ρ : ℕ → ℕ) :
    c.machProximity dflt ρ y' = c.machProximity dflt ρ y ∧
      c.machStandard dflt ρ y' = c.machStandard dflt ρ y := by
  obtain rfl := (timesPowers_iff e y y').mp hy
  rcases eq_or_ne y [] with rfl | hne
  · exact ⟨rfl, rfl⟩
  have h := fit_rescale e dflt c ρ y hne hs
  refine ⟨proximityNet_image y ?_, ?_⟩
  · obtain ⟨err, h1, h2⟩ | ⟨f, f', h1, h2, h3⟩ := h
    · exact .inl ⟨err, h1, h2⟩
    · exact .inr ⟨f, f', h1, h2, h3.1⟩
  · unfold CubCover.machStandard
    refine h.bind_eq fun f f' hf => ?_
    have hl := landmarks_rescale hf y PyDict.empty
    rw [show (PyDict.empty : PyDict (List ℤ) (Fin m → Bin b)).rescale e = PyDict.empty from rfl] at hl
    rw [hl]
    cases machLandmarks f PyDict.empty y with
    | error err => rfl
    | ok lm =>
      show machStandardLoop f' ((lm.rescale e).items.length + 1) (lm.rescale e) =
        machStandardLoop f (lm.items.length + 1) lm
      rw [standardLoop_rescale hf, show (lm.rescale e).items.length = lm.items.length by
        simp [PyDict.rescale]]

/-- **C122 (search).** A search in a cover fitted to the second table, for a row in the new units,
finds what the search in a cover fitted to the first table finds for the row in the old units. -/
theorem C122_search (e : Fin m → ℤ) (y y' : List (Fin m → Bin b)) (hy : TimesPowers e y y')
    (hne : y ≠ []) (hs : ∀ i, e i = 0 ∨ SpreadBin y i ∧ SpreadBin y' i) (dflt : ℕ → Bin b)
    (c : CubCover m (Bin b)) (ρ : ℕ → ℕ) (x x' : Fin m → Bin b)
    (hx : ∀ i, (x' i).1 = 2 ^ (e i) * (x i).1) :
    (do
      let f ← c.machFit dflt ρ y'
      f.machSearch x') =
    (do
      let f ← c.machFit dflt ρ y
      f.machSearch x) := by
  obtain rfl := (timesPowers_iff e y y').mp hy
  obtain rfl : x' = rescale e x := funext fun i => Subtype.ext (hx i)
  exact (fit_rescale e dflt c ρ y hne hs).bind_eq fun f f' hf => hf.1 x

/-- **C122 (graph).** Hence the labels, the Mapper graph and the connected components are the same,
whatever the clustering. -/
theorem C122_graph (e : Fin m → ℤ) (y y' : List (Fin m → Bin b)) (hy : TimesPowers e y y')
    (hs : ∀ i, e i = 0 ∨ SpreadBin y i ∧ SpreadBin y' i) (dflt : ℕ → Bin b)
    (c : CubCover m (Bin b)) (ρ : ℕ → ℕ) (X : List S) (clust : ClustFn S)
    (order : List ℤ → List ℤ) (cover : CoverFn (Fin m → Bin b))
    (hcover : cover = c.machProximity dflt ρ ∨ cover = c.machStandard dflt ρ) :
    mapperLabels X y' cover clust = mapperLabels X y cover clust ∧
      mapperGraph X y' cover clust = mapperGraph X y cover clust ∧
      mapperConnectedComponents order X y' cover clust =
        mapperConnectedComponents order X y cover clust := by
  have h := C122_charts e y y' hy hs dflt c ρ
  have hc : cover y' = cover y := by
    rcases hcover with rfl | rfl
    · exact h.1
    · exact h.2
  have hl : mapperLabels X y' cover clust = mapperLabels X y cover clust := by
    unfold mapperLabels
    rw [hc]
  unfold mapperGraph mapperConnectedComponents
  rw [hl]
  exact ⟨rfl, rfl, rfl⟩

/-- **C122 (other changes).** Powers of two are needed: adding `2 ^ 53` to the entries `0`, `2`, `4`,
which is exact in double precision, changes the charts of both covers. -/
theorem C122_shift_changes : ∃ (y y' : List (Fin 1 → Bin 52)) (t : ℚ),
    y.length = y'.length ∧ (∀ (r : ℕ) x x', y[r]? = some x → y'[r]? = some x' →
      (x' 0).1 = (x 0).1 + t) ∧
    quarterCover.machProximity (fun _ => Bin.of 52 (1 / 3)) (fun n => n) y ≠
      quarterCover.machProximity (fun _ => Bin.of 52 (1 / 3)) (fun n => n) y' ∧
    quarterCover.machStandard (fun _ => Bin.of 52 (1 / 3)) (fun n => n) y ≠
      quarterCover.machStandard (fun _ => Bin.of 52 (1 / 3)) (fun n => n) y' := by
  refine ⟨doubles [0, 2, 4], doubles [2 ^ 53, 2 ^ 53 + 2, 2 ^ 53 + 4], 2 ^ 53, by simp [doubles], ?_,
    by decide +kernel, by decide +kernel⟩
  intro r x x' hx hx'
  match r, hx, hx' with
  | 0, hx, hx' => cases hx; cases hx'; decide +kernel
  | 1, hx, hx' => cases hx; cases hx'; decide +kernel
  | 2, hx, hx' => cases hx; cases hx'; decide +kernel
  | r + 3, hx, _ => cases hx

/-- Non-vacuity: tenths, which are rounded, and the same times eight. -/
example : TimesPowers (fun _ => 3) (doubles [1 / 10, 1 / 5, 9 / 10])
      ((doubles [1 / 10, 1 / 5, 9 / 10]).map (rescale fun _ => 3)) ∧
    (∀ i, SpreadBin (doubles [1 / 10, 1 / 5, 9 / 10]) i ∧
      SpreadBin ((doubles [1 / 10, 1 / 5, 9 / 10]).map (rescale fun _ => 3)) i) ∧
    quarterCover.machProximity (fun _ => Bin.of 52 (1 / 3)) (fun n => n)
      ((doubles [1 / 10, 1 / 5, 9 / 10]).map (rescale fun _ => 3)) = .ok [[0, 1], [2]] := by
  have h : TimesPowers (fun _ => 3) (doubles [1 / 10, 1 / 5, 9 / 10])
      ((doubles [1 / 10, 1 / 5, 9 / 10]).map (rescale fun _ => 3)) := (timesPowers_iff _ _ _).mpr rfl
  have hs : ∀ i, SpreadBin (doubles [1 / 10, 1 / 5, 9 / 10]) i ∧
      SpreadBin ((doubles [1 / 10, 1 / 5, 9 / 10]).map (rescale fun _ => 3)) i := by
    intro i
    obtain rfl : i = 0 := Subsingleton.elim _ _
    exact ⟨⟨_, List.mem_cons_self, _, List.mem_cons_of_mem _ (List.mem_cons_of_mem _
        List.mem_cons_self), by decide +kernel⟩,
      ⟨_, List.mem_cons_self, _, List.mem_cons_of_mem _ (List.mem_cons_of_mem _
        List.mem_cons_self), by decide +kernel⟩⟩
  refine ⟨h, hs, ?_⟩
  rw [(C122_charts _ _ _ h (fun i => .inr (hs i)) (fun _ => Bin.of 52 (1 / 3)) quarterCover
    fun n => n).1]
  decide +kernel

end Verif
