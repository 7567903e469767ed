import Verif.Spec.Library
import Verif.Proof.Validate
import Verif.Proof.LearnTop
import Verif.Props.Nerve
import Verif.Props.Overlap

/-!
# Lemmas on the estimators with the covers of the library
-/

set_option autoImplicit false

namespace Verif

/-! ### Data -/

/-- The row of a matrix, as an array. -/
def rowArr {k : ℕ} (row : Fin k → ℚ) : RealArray := ⟨[k], List.ofFn fun j => .finite (row j)⟩

theorem flatMap_block {k : ℕ} {α β : Type} (f : α → List β) (hf : ∀ a, (f a).length = k) :
    ∀ (A : List α) (i : ℕ) (h : i < A.length), ((A.flatMap f).drop (i * k)).take k = f A[i]
  | [], i, h => absurd h (Nat.not_lt_zero _)
  | a :: A, 0, _ => by
    simp only [List.flatMap_cons, Nat.zero_mul, List.drop_zero, List.getElem_cons_zero]
    rw [← hf a, List.take_left]
  | a :: A, i + 1, h => by
    simp only [List.flatMap_cons, List.getElem_cons_succ]
    rw [Nat.succ_mul, Nat.add_comm, ← List.drop_drop]
    conv_lhs => rw [← hf a, List.drop_left, hf a]
    exact flatMap_block f hf A i (by simpa using h)

theorem rowsOf_matrix {k : ℕ} (A : List (Fin k → ℚ)) :
    rowsOf ⟨[A.length, k], A.flatMap fun row => List.ofFn fun j => .finite (row j)⟩ =
      .ok (A.map rowArr) := by
  simp only [rowsOf, List.prod_cons, List.prod_nil, mul_one]
  congr 1
  apply List.ext_getElem
  · simp
  · intro i h1 h2
    simp only [List.getElem_map, List.getElem_range, rowArr]
    rw [flatMap_block _ (fun _ => List.length_ofFn) A i (by simpa using h2)]

theorem rowsOf_vector (v : List ℚ) : rowsOf ⟨[v.length], v.map .finite⟩ =
    .ok (v.map fun x => ⟨[], [.finite x]⟩) := by
  simp only [rowsOf, List.prod_nil, mul_one]
  congr 1
  apply List.ext_getElem
  · simp
  · intro i h1 h2
    simp only [List.getElem_map, List.getElem_range]
    have h3 : i < (v.map FloatVal.finite).length := by simpa using h2
    rw [List.drop_eq_getElem_cons h3]
    simp [List.take]

/-- The arrays are the rows `B` of a lens. -/
structure LensRows {k : ℕ} (rows : List RealArray) (B : List (Fin k → ℚ)) : Prop where
  vecs : rows.map (rowVec k) = realRows B
  dims : ∀ a ∈ rows, a.shape.length ≤ 1
  width : ∀ a ∈ rows, a.vals.length = k

theorem LensRows.length {k : ℕ} {rows : List RealArray} {B : List (Fin k → ℚ)}
    (h : LensRows rows B) : rows.length = B.length := by
  have := congrArg List.length h.vecs
  simpa [realRows] using this

theorem LensRows.rowWidth {k : ℕ} {rows : List RealArray} {B : List (Fin k → ℚ)}
    (h : LensRows rows B) (hB : B ≠ []) : rowWidth rows = k := by
  cases rows with
  | nil => exact absurd (List.length_eq_zero_iff.mp h.length.symm) hB
  | cons a rows => simpa [Verif.rowWidth] using h.width a (by simp)

theorem lensRows_matrix {k : ℕ} (B : List (Fin k → ℚ)) : LensRows (B.map rowArr) B where
  vecs := by
    simp only [realRows, List.map_map]
    apply List.map_congr_left
    intro row _
    funext j
    simp [rowVec, rowArr, floatReal]
  dims := by
    intro a ha
    obtain ⟨row, _, rfl⟩ := List.mem_map.mp ha
    simp [rowArr]
  width := by
    intro a ha
    obtain ⟨row, _, rfl⟩ := List.mem_map.mp ha
    simp [rowArr]

theorem lensRows_vector (v : List ℚ) :
    LensRows (v.map fun x => ⟨[], [.finite x]⟩) (v.map fun x (_ : Fin 1) => x) where
  vecs := by
    simp only [realRows, List.map_map]
    apply List.map_congr_left
    intro x _
    funext j
    simp [rowVec, floatReal]
  dims := by
    intro a ha
    obtain ⟨row, _, rfl⟩ := List.mem_map.mp ha
    simp
  width := by
    intro a ha
    obtain ⟨row, _, rfl⟩ := List.mem_map.mp ha
    simp

/-- Validation accepts a matrix and a lens, and their rows are what they should be. -/
theorem validate_lens {k' k : ℕ} {A : List (Fin k' → ℚ)} {B : List (Fin k → ℚ)} {L : Input}
    (hL : IsLens L B) (hA : A ≠ []) (hB : B ≠ []) (hk' : 0 < k') (hk : 0 < k) :
    ∃ aX ay ry, validateXy (matrixInput A) L = .ok (aX, ay) ∧ nFeatures aX = .ok k' ∧
      rowsOf aX = .ok (A.map rowArr) ∧ rowsOf ay = .ok ry ∧ LensRows ry B := by
  have hpA : A.length * k' ≠ 0 := by
    have : 0 < A.length := List.length_pos_iff.mpr hA
    positivity
  have hA' : ¬ 0 = A.length := (List.length_pos_iff.mpr hA).ne
  cases hL with
  | matrix B =>
    have hB' : ¬ 0 = B.length := (List.length_pos_iff.mpr hB).ne
    have hpB : B.length * k ≠ 0 := by
      have : 0 < B.length := List.length_pos_iff.mpr hB
      positivity
    refine ⟨⟨[A.length, k'], _⟩, ⟨[B.length, k], _⟩, _, ?_, rfl, rowsOf_matrix A, rowsOf_matrix B,
      lensRows_matrix B⟩
    simp [validateXy, matrixInput, isComplex, convertObject, anyNanOrInf, realEntries,
      pure_eq_ok, isNanOrInf, hk'.ne, hk.ne, hA', hB']
  | vector v =>
    have hv : v ≠ [] := by
      rintro rfl
      exact hB rfl
    have hv' : ¬ 0 = v.length := (List.length_pos_iff.mpr hv).ne
    refine ⟨⟨[A.length, k'], _⟩, ⟨[v.length], _⟩, _, ?_, rfl, rowsOf_matrix A, rowsOf_vector v,
      lensRows_vector v⟩
    simp [validateXy, matrixInput, vectorInput, isComplex, convertObject, anyNanOrInf, realEntries,
      pure_eq_ok, isNanOrInf, hk'.ne, hv', hA']

/-! ### Attributes -/

theorem attrVal_some {a : PyDict String Val} {k : String} {v : Val} (h : a.get? k = some v) :
    attrVal a k = .ok v := by simp [attrVal, h]

theorem numVal_of {I : Interp} {v : Val} {x : ℝ} (h : IsNum I v x) : I.numVal v = .ok x := by
  cases h with
  | int i => rfl
  | float h => simp [Interp.numVal, h]

theorem optNum_of {I : Interp} {v : Val} (h : IsNumOrNone I v) :
    ∃ o, optVal I.numVal v = .ok o := by
  rcases h with rfl | ⟨x, h⟩
  · exact ⟨none, rfl⟩
  · refine ⟨some x, ?_⟩
    have h1 := numVal_of h
    cases h <;> simp [optVal, h1, Except.map]

theorem optNum_some {I : Interp} {v : Val} {x : ℝ} (h : IsNum I v x) :
    optVal I.numVal v = .ok (some x) := by
  have h1 := numVal_of h
  cases h <;> simp [optVal, h1, Except.map]

theorem natVal_cast (n : ℕ) : natVal (.int n) = .ok n := by simp [natVal]

theorem kwargsVal_of {I : Interp} {v : Val} {kw : PyDict String KwVal} (h : IsKwargs I v kw) :
    I.kwargsVal v = .ok kw := by
  cases h with
  | none => rfl
  | dict h => simp [Interp.kwargsVal, h]

theorem metricVal_of {I : Interp} {k : ℕ} {metric params : Val} {d : RVec k → RVec k → ℝ}
    (h : IsMetricParam I metric params d) (rows : List (RVec k)) :
    I.metricVal rows metric params = .ok d := by
  cases h with
  | name h1 h2 h3 =>
    simp only [Interp.metricVal, kwargsVal_of h1, ok_bind, h2]
    rw [if_pos (fun x _ y _ => ⟨_, h3 x y⟩), pure_eq_ok]
    congr 1
    funext x y
    rw [h3]
  | callable h1 h2 =>
    simp only [Interp.metricVal, kwargsVal_of h1, ok_bind, h2]
    rfl

theorem LensRows.gridRows {k : ℕ} {rows : List RealArray} {B : List (Fin k → ℚ)}
    (h : LensRows rows B) : gridRows k rows = .ok (realRows B) := by
  rw [Verif.gridRows, if_pos (by simpa using h.dims), h.vecs]

theorem metricRows_matrix {k : ℕ} (B : List (Fin k → ℚ)) :
    metricRows k (B.map rowArr) = .ok (realRows B) := by
  rw [metricRows, if_pos (by simp [rowArr]), (lensRows_matrix B).vecs]

theorem ballApply_of {I : Interp} {k : ℕ} {a : PyDict String Val} {d : RVec k → RVec k → ℝ} {r : ℝ}
    (h : BallAttrs I a d r) (hd : PseudoMetric d) (ρ : ℕ → ℕ) (B : List (Fin k → ℚ)) :
    ∃ c : BallCover (RVec k) ℝ, BallOK c.params ∧ c.params.radius = r ∧ c.params.metric = d ∧
      ballApply I ρ a k (B.map rowArr) = c.apply ρ (realRows B) := by
  obtain ⟨metric, params, radius, kind, leafRadius, pivoting, capacity, h1, h2, h3, h4, h5, h6, h7,
    h8, h9, h10, h11, h12⟩ := h
  obtain ⟨lr, h13⟩ := optNum_of h11
  refine ⟨⟨⟨r, d, kind, capacity, lr, strVal pivoting⟩, none⟩, ⟨hd, h7, h9⟩, rfl, rfl, ?_⟩
  simp only [ballApply, metricRows_matrix, ok_bind, attrVal_some h1, attrVal_some h2,
    metricVal_of h3, attrVal_some h4, numVal_of h5, attrVal_some h6, attrVal_some h8, natVal_cast,
    attrVal_some h10, h13, attrVal_some h12, strVal]

theorem knnApply_of {I : Interp} {k : ℕ} {a : PyDict String Val} {d : RVec k → RVec k → ℝ} {n : ℕ}
    (h : KnnAttrs I a d n) (hd : PseudoMetric d) (ρ : ℕ → ℕ) (B : List (Fin k → ℚ)) :
    ∃ c : KnnCover (RVec k) ℝ, KnnOK c.params ∧ c.params.neighbors = n ∧ c.params.metric = d ∧
      knnApply I ρ a k (B.map rowArr) = c.apply ρ (realRows B) := by
  obtain ⟨metric, params, kind, capacity, leafRadius, pivoting, h1, h2, h3, h4, h5, h6, h7,
    h8, h9, h10, ⟨x, h11⟩, h12⟩ := h
  obtain ⟨o, h13⟩ : ∃ o, optVal natVal capacity = .ok o := by
    rcases h9 with rfl | ⟨c, rfl⟩
    · exact ⟨none, rfl⟩
    · exact ⟨some c, by simp [optVal, natVal_cast, Except.map]⟩
  refine ⟨⟨⟨n, d, kind, o, x, strVal pivoting⟩, none⟩, ⟨hd, h7, h5⟩, rfl, rfl, ?_⟩
  simp only [knnApply, metricRows_matrix, ok_bind, attrVal_some h1, attrVal_some h2,
    metricVal_of h3, attrVal_some h4, natVal_cast, attrVal_some h6, attrVal_some h8, h13,
    attrVal_some h10, numVal_of h11, attrVal_some h12, strVal]

theorem cubParams_of {I : Interp} {k : ℕ} (hk : 0 < k) {a : PyDict String Val} {n : ℕ} {p : ℝ}
    (h : CubAttrs I k a n p) :
    ∃ P : CubParams ℝ, cubParams I a = .ok P ∧ CubOK defaultOverlap k P p ∧ P.nIntervals = n := by
  obtain ⟨overlap, kind, leafRadius, pivoting, capacity, h1, h2, h3, h4, h5, h6, h7, h8, h9, h10,
    h11⟩ := h
  obtain ⟨lr, h13⟩ := optNum_of h10
  have key : ∀ o, optVal I.numVal overlap = .ok o → cubParams I a =
      .ok ⟨n, o, kind, capacity, lr, strVal pivoting⟩ := by
    intro o ho
    simp only [cubParams, attrVal_some h1, attrVal_some h3, attrVal_some h5, attrVal_some h7,
      attrVal_some h9, attrVal_some h11, ok_bind, natVal_cast, ho, h13, strVal]
    rfl
  rcases h4 with ⟨rfl, rfl⟩ | ⟨h4, h14, h15⟩
  · obtain ⟨q1, q2⟩ := C26_default_range (m := k) hk
    exact ⟨_, key none rfl, ⟨rfl, q1, by linarith, h2, h6, h8⟩, rfl⟩
  · exact ⟨_, key _ (optNum_some h4), ⟨rfl, h14, h15, h2, h6, h8⟩, rfl⟩

/-- A clone has the parameters of the original. -/
theorem fresh_param {c : ClassInfo} {a : PyDict String Val} {k : String} (hk : isParamPublic k = true)
    {v : Val} (hv : a.get? k = some v) (hi : k ∈ c.init.keys) :
    (freshAttrs c a).get? k = some v := by
  have e : (freshAttrs c a).get? k = (c.init.get? k).map fun v =>
      if isParamPublic k then (a.get? k).getD v else v :=
    lookupList_map (fun e => if isParamPublic e.1 then (a.get? e.1).getD e.2 else e.2) _ _
  obtain ⟨w, hw⟩ := Option.isSome_iff_exists.mp ((PyDict.isSome_get? _ _).mpr hi)
  rw [e, hw, Option.map_some, hk, if_pos rfl, hv]
  rfl

theorem BallAttrs.fresh {I : Interp} {k : ℕ} {a : PyDict String Val} {d : RVec k → RVec k → ℝ} {r : ℝ}
    (h : BallAttrs I a d r) : BallAttrs I (freshAttrs ⟨coverMembers, ballInit⟩ a) d r := by
  obtain ⟨metric, params, radius, kind, leafRadius, pivoting, capacity, h1, h2, h3, h4, h5, h6, h7,
    h8, h9, h10, h11, h12⟩ := h
  exact ⟨metric, params, radius, kind, leafRadius, pivoting, capacity,
    fresh_param (by decide +kernel) h1 (by decide +kernel),
    fresh_param (by decide +kernel) h2 (by decide +kernel), h3,
    fresh_param (by decide +kernel) h4 (by decide +kernel), h5,
    fresh_param (by decide +kernel) h6 (by decide +kernel), h7,
    fresh_param (by decide +kernel) h8 (by decide +kernel), h9,
    fresh_param (by decide +kernel) h10 (by decide +kernel), h11,
    fresh_param (by decide +kernel) h12 (by decide +kernel)⟩

theorem KnnAttrs.fresh {I : Interp} {k : ℕ} {a : PyDict String Val} {d : RVec k → RVec k → ℝ} {n : ℕ}
    (h : KnnAttrs I a d n) : KnnAttrs I (freshAttrs ⟨coverMembers, knnInit⟩ a) d n := by
  obtain ⟨metric, params, kind, capacity, leafRadius, pivoting, h1, h2, h3, h4, h5, h6, h7,
    h8, h9, h10, h11, h12⟩ := h
  exact ⟨metric, params, kind, capacity, leafRadius, pivoting,
    fresh_param (by decide +kernel) h1 (by decide +kernel),
    fresh_param (by decide +kernel) h2 (by decide +kernel), h3,
    fresh_param (by decide +kernel) h4 (by decide +kernel), h5,
    fresh_param (by decide +kernel) h6 (by decide +kernel), h7,
    fresh_param (by decide +kernel) h8 (by decide +kernel), h9,
    fresh_param (by decide +kernel) h10 (by decide +kernel), h11,
    fresh_param (by decide +kernel) h12 (by decide +kernel)⟩

theorem CubAttrs.fresh {I : Interp} {k : ℕ} {a : PyDict String Val} {n : ℕ} {p : ℝ}
    (h : CubAttrs I k a n p) {init : PyDict String Val}
    (hi : init = baseCubicalInit ∨ init = cubicalInit) :
    CubAttrs I k (freshAttrs ⟨coverMembers, init⟩ a) n p := by
  obtain ⟨overlap, kind, leafRadius, pivoting, capacity, h1, h2, h3, h4, h5, h6, h7, h8, h9, h10,
    h11⟩ := h
  rcases hi with rfl | rfl
  all_goals
    exact ⟨overlap, kind, leafRadius, pivoting, capacity,
      fresh_param (by decide +kernel) h1 (by decide +kernel), h2,
      fresh_param (by decide +kernel) h3 (by decide +kernel), h4,
      fresh_param (by decide +kernel) h5 (by decide +kernel), h6,
      fresh_param (by decide +kernel) h7 (by decide +kernel), h8,
      fresh_param (by decide +kernel) h9 (by decide +kernel), h10,
      fresh_param (by decide +kernel) h11 (by decide +kernel)⟩

/-! ### The world -/

theorem library_contract {base : World} (hB : Contract base) (I : Interp) (ρ : ℕ → ℕ) :
    Contract (library base I ρ) where
  fit_public := hB.fit_public
  fit_nodup := hB.fit_nodup
  fit_result := hB.fit_result
  fit_labels := hB.fit_labels
  apply_public := by
    intro cls a y
    have hp : ¬ IsPublic "_fitted" := fun h => h.1 (by decide +kernel)
    simp only [library]
    repeat' split
    all_goals first
      | exact samePublic_set a hp _
      | exact hB.apply_public cls a y
  apply_nodup := by
    intro cls a y h
    simp only [library]
    repeat' split
    all_goals first
      | exact PyDict.nodup_keys_set h _ _
      | exact hB.apply_nodup cls a y h

/-! ### Graphs -/

theorem regionGraph_of_nerve {T : Type} {g : NxGraph} {Y : List T} {charts : List (List ℕ)}
    (hn : IsNerve g charts) {regions : List (T → Prop)}
    (h : List.Forall₂ (fun P chart => ListsExactly Y P chart ∧ chart ≠ []) regions charts) :
    IsRegionGraph g Y regions := by
  have hlen := h.length_eq
  have hget : ∀ (c : ℕ) P, regions[c]? = some P → ∃ chart, charts[c]? = some chart ∧
      ListsExactly Y P chart ∧ chart ≠ [] := by
    intro c P hc
    obtain ⟨hk, rfl⟩ := List.getElem?_eq_some_iff.mp hc
    have := h.get hk (hlen ▸ hk)
    exact ⟨_, List.getElem?_eq_getElem (hlen ▸ hk), this⟩
  refine ⟨fun u => by rw [hn.node, hlen], ?_, ?_, hn.ends⟩
  · intro c P hc
    obtain ⟨chart, h1, h2, h3⟩ := hget c P hc
    obtain ⟨l, h4, h5, h6⟩ := hn.attr c chart h1
    refine ⟨l, by rw [h4, h6.length_eq], ?_, h5, h6.nodup_iff.mpr h2.1, fun j => ?_⟩
    · intro hl
      rw [hl] at h6
      exact h3 (List.nil_perm.mp h6)
    · rw [h6.mem_iff, h2.2]
  · intro c c' P P' hc hc'
    obtain ⟨ch, h1, h2, _⟩ := hget c P hc
    obtain ⟨ch', h3, h4, _⟩ := hget c' P' hc'
    rw [hn.adj c c' ch ch' h1 h3]
    refine and_congr_right fun _ => ⟨?_, ?_⟩
    · rintro ⟨j, h5, h6⟩
      obtain ⟨z, hz, hz'⟩ := (h2.2 j).mp h5
      obtain ⟨z', hw, hw'⟩ := (h4.2 j).mp h6
      rw [hz] at hw; cases hw
      exact ⟨z, List.mem_of_getElem? hz, hz', hw'⟩
    · rintro ⟨z, hz, h5, h6⟩
      obtain ⟨j, hj, rfl⟩ := List.mem_iff_getElem.mp hz
      exact ⟨j, (h2.2 j).mpr ⟨_, List.getElem?_eq_getElem hj, h5⟩,
        (h4.2 j).mpr ⟨_, List.getElem?_eq_getElem hj, h6⟩⟩

theorem inOneRegion_iff {T : Type} {Y : List T} {charts : List (List ℕ)} {regions : List (T → Prop)}
    (h : List.Forall₂ (fun P chart => ListsExactly Y P chart ∧ chart ≠ []) regions charts) (i j : ℕ) :
    InOneRegion Y regions i j ↔ InOneChart charts i j := by
  have hlen := h.length_eq
  constructor
  · rintro ⟨P, hP, zi, zj, h1, h2, h3, h4⟩
    obtain ⟨c, hc, rfl⟩ := List.mem_iff_getElem.mp hP
    have := h.get hc (hlen ▸ hc)
    exact ⟨_, List.getElem_mem (hlen ▸ hc), (this.1.2 i).mpr ⟨zi, h1, h3⟩, (this.1.2 j).mpr ⟨zj, h2, h4⟩⟩
  · rintro ⟨chart, hch, h1, h2⟩
    obtain ⟨c, hc, rfl⟩ := List.mem_iff_getElem.mp hch
    have := h.get (hlen ▸ hc) hc
    obtain ⟨zi, h3, h4⟩ := (this.1.2 i).mp h1
    obtain ⟨zj, h5, h6⟩ := (this.1.2 j).mp h2
    exact ⟨_, List.getElem_mem (hlen ▸ hc), zi, zj, h3, h5, h4, h6⟩

theorem regionsCover_of {T : Type} {Y : List T} {charts : List (List ℕ)} {regions : List (T → Prop)}
    (h : List.Forall₂ (fun P chart => ListsExactly Y P chart ∧ chart ≠ []) regions charts)
    (hc : Covers Y.length charts) : RegionsCover Y regions := by
  have hlen := h.length_eq
  intro z hz
  obtain ⟨j, hj, rfl⟩ := List.mem_iff_getElem.mp hz
  obtain ⟨chart, h1, h2⟩ := hc j hj
  obtain ⟨c, hc, rfl⟩ := List.mem_iff_getElem.mp h1
  have := h.get (hlen ▸ hc) hc
  obtain ⟨z, h3, h4⟩ := (this.1.2 j).mp h2
  rw [List.getElem?_eq_getElem hj] at h3
  cases h3
  exact ⟨_, List.getElem_mem (hlen ▸ hc), h4⟩

/-- The charts of a `BallCover` are the open balls around a net. -/
theorem ball_regions {T : Type} (c : BallCover T ℝ) (H : BallOK c.params) (hr : 0 < c.params.radius)
    (ρ : ℕ → ℕ) (Y : List T) :
    ∃ (out : List (List ℕ)) (centres : List T), c.apply ρ Y = .ok out ∧
      WellFormedCharts Y.length out ∧ Covers Y.length out ∧
      IsNet c.params.metric c.params.radius Y centres ∧
      List.Forall₂ (fun P chart => ListsExactly Y P chart ∧ chart ≠ [])
        (centres.map (openBall c.params.metric c.params.radius)) out := by
  obtain ⟨out, cs, h1, h2, h3, h4, h5, h6⟩ := C18_ball_cover c H hr ρ Y
  have hlen := h5.length_eq
  have hcs : ∀ i ∈ cs, ∃ x, Y[i]? = some x := by
    intro i hi
    obtain ⟨k, hk, rfl⟩ := List.mem_iff_getElem.mp hi
    obtain ⟨xi, h7, _⟩ := h5.get hk (hlen ▸ hk)
    exact ⟨xi, h7⟩
  have hex : ∃ centres : List T, List.Forall₂ (fun i x => Y[i]? = some x) cs centres := by
    clear h4 h5 h6 hlen
    induction cs with
    | nil => exact ⟨[], .nil⟩
    | cons i cs ih =>
      obtain ⟨x, hx⟩ := hcs i (by simp)
      obtain ⟨l, hl⟩ := ih (fun j hj => hcs j (List.mem_cons_of_mem _ hj))
      exact ⟨x :: l, .cons hx hl⟩
  obtain ⟨centres, hc⟩ := hex
  have hlen' := hc.length_eq
  have hfor : List.Forall₂ (fun P chart => ListsExactly Y P chart ∧ chart ≠ [])
        (centres.map (openBall c.params.metric c.params.radius)) out := by
    rw [List.forall₂_iff_get]
    refine ⟨by simp [← hlen', hlen], fun k hk1 hk2 => ?_⟩
    have hk : k < cs.length := by omega
    have q1 : Y[cs[k]]? = some (centres[k]'(by omega)) := hc.get hk (by omega)
    obtain ⟨xi, q2, q3⟩ := h5.get hk hk2
    have q2 : Y[cs[k]]? = some xi := q2
    rw [q1] at q2
    cases q2
    refine ⟨?_, (h2 _ (List.getElem_mem hk2)).1⟩
    simp only [List.get_eq_getElem, List.getElem_map]
    exact q3
  refine ⟨out, centres, h1, h2, h3, ⟨?_, ?_, ?_⟩, hfor⟩
  · intro x hx
    obtain ⟨k, hk, rfl⟩ := List.mem_iff_getElem.mp hx
    have q1 : Y[cs[k]'(by omega)]? = some centres[k] := hc.get (by omega) hk
    exact List.mem_of_getElem? q1
  · rw [List.pairwise_iff_getElem]
    intro i j hi hj hij
    have q1 : Y[cs[i]'(by omega)]? = some centres[i] := hc.get (by omega) hi
    have q2 : Y[cs[j]'(by omega)]? = some centres[j] := hc.get (by omega) hj
    have q3 := List.pairwise_iff_getElem.mp h4 i j (by omega) (by omega) hij
    exact h6 _ (List.getElem_mem _) _ (List.getElem_mem _) (Nat.ne_of_lt q3) _ _ q1 q2
  · intro z hz
    obtain ⟨P, hP, hz'⟩ := regionsCover_of hfor h3 z hz
    obtain ⟨x, hx, rfl⟩ := List.mem_map.mp hP
    exact ⟨x, hx, hz'⟩

/-- The charts of a cubical cover are the boxes around the cells. -/
theorem cub_regions {k : ℕ} {Y : List (RVec k)} {lo hi : Fin k → ℝ} {n : ℕ} {p : ℝ}
    {cells : List (Fin k → ℤ)} {out : List (List ℕ)}
    (h : List.Forall₂ (fun cell chart =>
        ListsExactly Y (InHypercube lo hi n p cell) chart ∧ chart ≠ []) cells out) :
    List.Forall₂ (fun P chart => ListsExactly Y P chart ∧ chart ≠ [])
      (cells.map (InHypercube lo hi n p)) out := by
  rw [List.forall₂_map_left_iff]
  exact h

theorem wellFormed_of_regions {T : Type} {Y : List T} {charts : List (List ℕ)}
    {regions : List (T → Prop)}
    (h : List.Forall₂ (fun P chart => ListsExactly Y P chart ∧ chart ≠ []) regions charts) :
    WellFormedCharts Y.length charts := by
  intro chart hch
  obtain ⟨c, hc, rfl⟩ := List.mem_iff_getElem.mp hch
  have := h.get (h.length_eq ▸ hc) hc
  refine ⟨this.2, this.1.1, fun i hi => ?_⟩
  obtain ⟨z, hz, _⟩ := (this.1.2 i).mp hi
  exact (List.getElem?_eq_some_iff.mp hz).1

/-! ### The estimators -/

theorem failSafeParam_none (W : World) (h : Heap) (fuel : ℕ) (failsafe : Val) :
    failSafeParam W h fuel failsafe .none = trivialClustering := by
  unfold failSafeParam
  split
  · funext X
    rfl
  · rfl

/-- The graph of a `MapperAlgorithm` without a clustering is the nerve of the charts. -/
theorem graph_of_charts (W : World) (h : Heap) (fuel : ℕ) (cover failsafe : Val)
    {k' k : ℕ} {A : List (Fin k' → ℚ)} {B : List (Fin k → ℚ)} {y : Option Input}
    (hL : IsLens (y.getD (matrixInput A)) B) (hA : A ≠ []) (hl : B.length = A.length)
    (hk' : 0 < k') (hk : 0 < k) {charts : List (List ℕ)} (hw : WellFormedCharts B.length charts)
    (hc : ∀ ay ry, (∃ aX, validateXy (matrixInput A) (y.getD (matrixInput A)) = .ok (aX, ay)) →
      rowsOf ay = .ok ry → LensRows ry B → coverParam W h cover ry = .ok charts) :
    ∃ g, expectedGraph W h fuel cover .none failsafe (matrixInput A) y = .ok (g, k') ∧
      IsNerve g charts := by
  have hB : B ≠ [] := by
    rintro rfl
    exact hA (List.length_eq_zero_iff.mp hl.symm)
  obtain ⟨aX, ay, ry, h1, h2, h3, h4, h5⟩ := validate_lens hL hA hB hk' hk
  have h6 := hc ay ry ⟨aX, h1⟩ h4 h5
  obtain ⟨g, h7, h8⟩ := C75_nerve (A.map rowArr) ry (coverParam W h cover) charts h6
    (by simpa [← hl] using hw)
  refine ⟨g, ?_, h8⟩
  simp only [expectedGraph, h1, ok_bind, h3, h4, failSafeParam_none, h7, h2]
  rfl

/-- The labels of a `MapperClustering` without a clustering. -/
theorem labels_of_charts (W : World) (h : Heap) (fuel : ℕ) (cover : Val)
    {k' k : ℕ} {A : List (Fin k' → ℚ)} {B : List (Fin k → ℚ)} {y : Option Input}
    (hL : IsLens (y.getD (matrixInput A)) B) (hA : A ≠ []) (hl : B.length = A.length)
    (hk' : 0 < k') (hk : 0 < k) {charts : List (List ℕ)} (hw : WellFormedCharts B.length charts)
    (hcov : Covers B.length charts) (ho : ∀ l L, L ∈ W.setOrder l ↔ L ∈ l)
    (hc : ∀ ay ry, (∃ aX, validateXy (matrixInput A) (y.getD (matrixInput A)) = .ok (aX, ay)) →
      rowsOf ay = .ok ry → LensRows ry B → coverParam W h cover ry = .ok charts) :
    ∃ l, expectedLabels W h fuel cover .none (matrixInput A) y = .ok (l, k') ∧
      l.length = A.length ∧ ∀ i j, i < A.length → j < A.length →
        (l[i]? = l[j]? ↔ Linked (InOneChart charts) i j) := by
  have hB : B ≠ [] := by
    rintro rfl
    exact hA (List.length_eq_zero_iff.mp hl.symm)
  obtain ⟨aX, ay, ry, h1, h2, h3, h4, h5⟩ := validate_lens hL hA hB hk' hk
  have h6 := hc ay ry ⟨aX, h1⟩ h4 h5
  obtain ⟨l, h7, h8, h9⟩ := C76_cover_chains (A.map rowArr) ry (coverParam W h cover) charts h6
    (by simpa [← hl] using hw) (by simpa [← hl] using hcov) W.setOrder ho
  simp only [List.length_map] at h8 h9
  refine ⟨l, ?_, h8, h9⟩
  have h10 : clustParam W h fuel .none = trivialClustering := rfl
  simp only [expectedLabels, mapperClusteringResult, h1, ok_bind, h3, h4, h10, h7, h2]
  rfl

/-- The rows of a lens given as a matrix. -/
theorem rows_matrix {k' k : ℕ} {A : List (Fin k' → ℚ)} {B : List (Fin k → ℚ)} {ay : RealArray}
    {ry : List RealArray} (hA : A ≠ []) (hB : B ≠ []) (hk' : 0 < k') (hk : 0 < k)
    (h1 : ∃ aX, validateXy (matrixInput A) (matrixInput B) = .ok (aX, ay))
    (h2 : rowsOf ay = .ok ry) : ry = B.map rowArr := by
  obtain ⟨aX, h1⟩ := h1
  have hA' : ¬ 0 = A.length := (List.length_pos_iff.mpr hA).ne
  have hB' : ¬ 0 = B.length := (List.length_pos_iff.mpr hB).ne
  simp [validateXy, matrixInput, isComplex, convertObject, anyNanOrInf, realEntries,
      pure_eq_ok, isNanOrInf, hk'.ne, hk.ne, hA', hB'] at h1
  rw [← h1.2, rowsOf_matrix] at h2
  cases h2
  rfl

end Verif
