import Mathlib.Tactic.Linarith
import Mathlib.Algebra.Order.Floor.Ring
import Verif.Spec.App
import Verif.Proof.Frame

/-!
# Lemmas on the web app
-/

set_option autoImplicit false

namespace Verif
variable {K G : Type}

theorem pyInt_truncates (q : ℚ) : TruncatesTo q (pyInt q) := by
  rw [pyInt, TruncatesTo]
  split
  · rename_i h
    have h1 := Int.floor_le q
    have h2 := Int.lt_floor_add_one q
    have h3 : (0 : ℚ) ≤ (⌊q⌋ : ℚ) := by exact_mod_cast Int.floor_nonneg.mpr h
    refine ⟨?_, ?_, mul_nonneg h h3⟩
    · rw [abs_of_nonneg h3, abs_of_nonneg h]; exact h1
    · rw [abs_lt]; constructor <;> linarith
  · rename_i h
    rw [not_le] at h
    have h1 := Int.le_ceil q
    have h2 := Int.ceil_lt_add_one q
    have h3 : (⌈q⌉ : ℚ) ≤ 0 := by exact_mod_cast Int.ceil_le.mpr (by simpa using h.le)
    refine ⟨?_, ?_, mul_nonneg_of_nonpos_of_nonpos h.le h3⟩
    · rw [abs_of_nonpos h3, abs_of_neg h]; linarith
    · rw [abs_lt]; constructor <;> linarith

theorem intOr_setting (v : Option ℚ) (d : ℤ) : IntSetting v d (intOr v d) := by
  refine ⟨?_, ?_⟩
  · rintro rfl; rfl
  · rintro q rfl hq
    rw [intOr]
    simp only [if_neg hq]
    exact pyInt_truncates q

theorem floatOr_setting (v : Option ℚ) (d : ℚ) : NumSetting v d (floatOr v d) := by
  refine ⟨?_, ?_⟩
  · rintro rfl; rfl
  · rintro q rfl hq
    rw [floatOr]
    simp only [if_neg hq]

theorem strOr_setting (v : Option String) (d : String) : TextSetting v d (strOr v d) := by
  refine ⟨?_, ?_⟩
  · rintro rfl; rfl
  · rintro q rfl hq
    rw [strOr]
    simp only [if_neg hq]

theorem coverFor_iff (c : MapperConfig) (cv : CoverChoice) :
    CoverFor c cv ↔ chooseCover c = some cv := by
  rw [chooseCover]
  constructor
  · rintro (h | h | h)
    · rw [if_pos h]
    · rw [if_neg (by rw [h]; decide), if_pos h]
    · rw [if_neg (by rw [h]; decide), if_neg (by rw [h]; decide), if_pos h]
  · intro h
    split at h
    · cases h; exact .cubical ‹_›
    · split at h
      · cases h; exact .ball ‹_›
      · split at h
        · cases h; exact .knn ‹_›
        · cases h

theorem clusteringFor_iff (c : MapperConfig) (cl : ClusteringChoice) :
    ClusteringFor c cl ↔ chooseClustering c = some cl := by
  rw [chooseClustering]
  constructor
  · rintro (h | h | h | h)
    · rw [if_pos h]
    · rw [if_neg (by rw [h]; decide), if_pos h]
    · rw [if_neg (by rw [h]; decide), if_neg (by rw [h]; decide), if_pos h]
    · rw [if_neg (by rw [h]; decide), if_neg (by rw [h]; decide), if_neg (by rw [h]; decide),
        if_pos h]
  · intro h
    split at h
    · cases h; exact .trivial ‹_›
    · split at h
      · cases h; exact .kmeans ‹_›
      · split at h
        · cases h; exact .dbscan ‹_›
        · split at h
          · cases h; exact .agglomerative ‹_›
          · cases h

theorem lensFor_iff (L : Libs K G) (c : MapperConfig) (X : Array2 K) (r : Py (Array2 K)) :
    LensFor L c X r ↔ lensFn L c X = r := by
  rw [lensFn]
  constructor
  · rintro (h | h | h | ⟨h1, h2, h3⟩)
    · rw [if_pos h]
    · rw [if_neg (by rw [h]; decide), if_pos h]
    · rw [if_neg (by rw [h]; decide), if_neg (by rw [h]; decide), if_pos h]
    · rw [if_neg h1, if_neg h2, if_neg h3]
  · intro h
    subst h
    split
    · exact .identity ‹_›
    · split
      · exact .pca ‹_›
      · split
        · exact .umap ‹_›
        · exact .unknown ‹_› ‹_› ‹_›

/-- The data given to the lens. -/
def mapperInput (df : Frame K) (cfg : MapperConfig) : Array2 K :=
  if cfg.excludedColumns.isEmpty then df.toNumpy else (df.drop cfg.excludedColumns).toNumpy

theorem mapperInput_eq (df : Frame K) (cfg : MapperConfig) :
    mapperInput df cfg = ⟨df.rows,
      (df.columns.filter fun c => decide (c.name ∉ cfg.excludedColumns)).map Column.cells⟩ := by
  rw [mapperInput]
  split
  · rename_i h
    rw [List.isEmpty_iff] at h
    simp [h, Frame.toNumpy]
  · simp only [Frame.toNumpy, Frame.drop]
    congr 2
    apply List.filter_congr
    intro c _
    simp

theorem selected_iff (df : Frame K) (cfg : MapperConfig) (X : Array2 K) :
    SelectedColumns df cfg.excludedColumns X ↔ X = mapperInput df cfg := by
  rw [mapperInput_eq]
  obtain ⟨r, c⟩ := X
  simp [SelectedColumns]

theorem scaled_iff (L : Libs K G) (flag : Bool) (a b : Array2 K) :
    Scaled L flag a b ↔ scaleIf L flag a = .ok b := by
  cases flag <;> simp [Scaled, scaleIf, eq_comm]

theorem namesLens_iff (t : String) (y : Array2 K) (f : Frame K) :
    NamesLens t y f ↔ f = lensFrame t y := by
  obtain ⟨r, c⟩ := f
  constructor
  · rintro ⟨h1, h2, h3⟩
    simp only at h1 h2 h3
    subst h1
    rw [lensFrame, Frame.mk.injEq]
    refine ⟨rfl, List.ext_getElem? fun i => ?_⟩
    rw [List.getElem?_mapIdx]
    cases hy : y.cols[i]? with
    | none =>
      rw [List.getElem?_eq_none_iff] at hy
      rw [Option.map_none, List.getElem?_eq_none_iff]
      omega
    | some c => rw [h3 i c hy]; rfl
  · intro h
    rw [h]
    refine ⟨rfl, by simp [lensFrame], fun i c hc => ?_⟩
    rw [lensFrame]
    simp only [List.getElem?_mapIdx, hc]
    rfl

theorem runMapper_known (L : Libs K G) {df : Frame K} (he : df.empty = false) {cfg : MapperConfig}
    {cv : CoverChoice} {cl : ClusteringChoice} (hcv : chooseCover cfg = some cv)
    (hcl : chooseClustering cfg = some cl) :
    runMapper L (some df) cfg = (do
      let y ← lensFn L cfg (mapperInput df cfg)
      let y' ← scaleIf L cfg.coverScaleData y
      let X' ← scaleIf L cfg.clusteringScaleData (mapperInput df cfg)
      let g ← L.fitTransform cv cl X' y'
      return some (g, lensFrame cfg.lensType y)) := by
  simp only [runMapper, he, hcv, hcl, mapperInput]
  rfl

end Verif
