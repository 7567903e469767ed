import Verif.Spec.Invalid
import Verif.Props.Construct

/-!
# Helper lemmas about calls with illegal values
-/

set_option autoImplicit false
set_option linter.unusedSectionVars false

namespace Verif

theorem build_unknown {T R : Type} [LE R] [LT R] [DecidableLE R] [DecidableLT R] [Zero R] [Neg R] [Sub R]
    (X : List T) (d : T → T → R) {s : String} (hs : ¬ IsKind s) (p : VPParams R) (ρ : ℕ → ℕ) :
    VPTree.build X d s p ρ = .error .valueError := by
  rw [VPTree.build, if_neg (fun h => hs (.inl h)), if_neg (fun h => hs (.inr h))]

section
variable {T R : Type} [LE R] [LT R] [DecidableLE R] [DecidableLT R] [DecidableEq R] [Zero R] [Neg R] [Sub R]

theorem ballFit_unknown (c : BallCover T R) (hs : ¬ IsKind c.params.kind) (ρ : ℕ → ℕ) (X : List T) :
    c.fit ρ X = .error .valueError := by
  rw [BallCover.fit, build_unknown _ _ hs]
  rfl

theorem knnFit_unknown (c : KnnCover T R) (hs : ¬ IsKind c.params.kind) (ρ : ℕ → ℕ) (X : List T) :
    c.fit ρ X = .error .valueError := by
  rw [KnnCover.fit, build_unknown _ _ hs]
  rfl

end

theorem ballApply_typed {I : Interp} {k : ℕ} {a : Args} {d : RVec k → RVec k → ℝ} {r : ℝ} {s : String}
    {c : ℕ} (ha : BallTyped I a d r s c) {attrs : PyDict String Val}
    (h : ∀ key v, ballInit.get? key = some v → attrs.get? key = some (a.value ballInit.keys key v))
    (ρ : ℕ → ℕ) (B : List (Fin k → ℚ)) :
    ∃ lr, ballApply I ρ attrs k (B.map rowArr) = BallCover.apply ⟨⟨r, d, s, c, lr,
      strVal (a.value ballParams "pivoting" (.str "disabled"))⟩, none⟩ ρ (realRows B) := by
  have e : ballInit.keys = ballParams := by decide +kernel
  rw [e] at h
  obtain ⟨lr, h13⟩ := optNum_of ha.leafRadius
  refine ⟨lr, ?_⟩
  simp only [ballApply, metricRows_matrix, ok_bind, attrVal_some (h "metric" _ rfl),
    attrVal_some (h "metric_params" _ rfl), metricVal_of ha.metric, attrVal_some (h "radius" _ rfl),
    numVal_of ha.radius, attrVal_some (h "kind" _ rfl), ha.kind,
    attrVal_some (h "leaf_capacity" _ rfl), ha.capacity, natVal_cast,
    attrVal_some (h "leaf_radius" _ rfl), h13, attrVal_some (h "pivoting" _ rfl), strVal]

theorem knnApply_typed {I : Interp} {k : ℕ} {a : Args} {d : RVec k → RVec k → ℝ} {n : ℕ} {s : String}
    (ha : KnnTyped I a d n s) {attrs : PyDict String Val}
    (h : ∀ key v, knnInit.get? key = some v → attrs.get? key = some (a.value knnInit.keys key v))
    (ρ : ℕ → ℕ) (B : List (Fin k → ℚ)) :
    ∃ c lr, knnApply I ρ attrs k (B.map rowArr) = KnnCover.apply ⟨⟨n, d, s, c, lr,
      strVal (a.value knnParams "pivoting" (.str "disabled"))⟩, none⟩ ρ (realRows B) := by
  have e : knnInit.keys = knnParams := by decide +kernel
  rw [e] at h
  obtain ⟨x, h11⟩ := ha.leafRadius
  obtain ⟨o, h13⟩ : ∃ o, optVal natVal (a.value knnParams "leaf_capacity" .none) = .ok o := by
    rcases ha.capacity with h | ⟨c, h⟩
    · exact ⟨none, by rw [h]; rfl⟩
    · exact ⟨some c, by rw [h]; simp [optVal, natVal_cast, Except.map]⟩
  refine ⟨o, x, ?_⟩
  simp only [knnApply, metricRows_matrix, ok_bind, attrVal_some (h "metric" _ rfl),
    attrVal_some (h "metric_params" _ rfl), metricVal_of ha.metric, attrVal_some (h "neighbors" _ rfl),
    ha.neighbors, attrVal_some (h "kind" _ rfl), ha.kind,
    attrVal_some (h "leaf_capacity" _ rfl), h13, natVal_cast,
    attrVal_some (h "leaf_radius" _ rfl), numVal_of h11, attrVal_some (h "pivoting" _ rfl), strVal]

theorem metricVal_unknown {I : Interp} {k : ℕ} {params : Val} {kw : PyDict String KwVal} {s : String}
    (hkw : IsKwargs I params kw) (hs : s ∉ documentedMetrics) (rows : List (RVec k)) :
    I.metricVal rows (.str s) params = .error .valueError := by
  simp only [documentedMetrics, List.mem_cons, List.not_mem_nil, or_false, not_or] at hs
  obtain ⟨h1, h2, h3, h4, h5⟩ := hs
  simp only [Interp.metricVal, kwargsVal_of hkw, ok_bind, getMetric, if_neg h1, if_neg h2, if_neg h3,
    if_neg h4, if_neg h5, error_bind]

theorem cubParams_typed {I : Interp} {k : ℕ} {init : PyDict String Val} {params : List String}
    (e : init.keys = params)
    (e1 : init.get? "n_intervals" = some (.int 1)) (e2 : init.get? "overlap_frac" = some .none)
    (e3 : init.get? "kind" = some (.str "flat")) (e4 : init.get? "leaf_capacity" = some (.int 1))
    (e5 : init.get? "leaf_radius" = some .none) (e6 : init.get? "pivoting" = some (.str "disabled"))
    {a : Args} {n : ℕ} {p : ℝ} {s : String} {c : ℕ} (ha : CubTyped I k params a n p s c)
    {attrs : PyDict String Val}
    (h : ∀ key v, init.get? key = some v → attrs.get? key = some (a.value init.keys key v)) :
    ∃ o lr piv, cubParams I attrs = .ok ⟨n, o, s, c, lr, piv⟩ ∧ o.getD (defaultOverlap k) = p := by
  rw [e] at h
  obtain ⟨lr, h13⟩ := optNum_of ha.leafRadius
  have key : ∀ o, optVal I.numVal (a.value params "overlap_frac" .none) = .ok o → cubParams I attrs =
      .ok ⟨n, o, s, c, lr, strVal (a.value params "pivoting" (.str "disabled"))⟩ := by
    intro o ho
    simp only [cubParams, attrVal_some (h _ _ e1), attrVal_some (h _ _ e2), attrVal_some (h _ _ e3),
      attrVal_some (h _ _ e4), attrVal_some (h _ _ e5), attrVal_some (h _ _ e6), ok_bind, ha.intervals,
      ha.capacity, natVal_cast, ho, h13, ha.kind, strVal]
    rfl
  rcases ha.overlap with ⟨h1, h2⟩ | h1
  · exact ⟨none, lr, _, key none (by rw [h1]; rfl), h2.symm⟩
  · exact ⟨some p, lr, _, key _ (optNum_some h1), rfl⟩

section
variable {R : Type} [Field R] [LinearOrder R] [FloorRing R] {m : ℕ}

/-- What a `fit` that raises makes of the two kinds of `apply`. -/
theorem cub_fit_error {dflt : ℕ → R} {c : CubCover m R} {ρ : ℕ → ℕ} {X : List (Fin m → R)} {e : PyErr}
    (h : c.fit dflt ρ X = .error e) :
    c.applyProximity dflt ρ X = .error e ∧ c.applyStandard dflt ρ X = .error e := by
  constructor
  · simp only [CubCover.applyProximity, proximityNet, h, error_bind]
  · simp only [CubCover.applyStandard, h, error_bind]

end

/-- What the covers of the library do. -/
theorem library_apply (base : World) (I : Interp) (ρ : ℕ → ℕ) (attrs : PyDict String Val)
    (y : List RealArray) :
    ((library base I ρ).apply "BallCover" attrs y).2 = ballApply I ρ attrs (rowWidth y) y ∧
    ((library base I ρ).apply "KNNCover" attrs y).2 = knnApply I ρ attrs (rowWidth y) y ∧
    ((library base I ρ).apply "CubicalCover" attrs y).2 = cubicalApply I ρ attrs (rowWidth y) y ∧
    ((library base I ρ).apply "ProximityCubicalCover" attrs y).2 =
      proximityApply I ρ attrs (rowWidth y) y ∧
    ((library base I ρ).apply "StandardCubicalCover" attrs y).2 =
      standardApply I ρ attrs (rowWidth y) y := by
  simp [library]

section
variable {base : World} (hB : Contract base) (I : Interp) (ρ : ℕ → ℕ) {h : Heap} {n fuel : ℕ}
  (hn : 2 ≤ n) (hf : n ≤ fuel) (hg : GoodHeap h n)
  {k' k : ℕ} {A : List (Fin k' → ℚ)} {B : List (Fin k → ℚ)} {y : Option Input}

include hB hn hf hg

/-- A program with a cover whose charts are known from its parameters. -/
theorem program_charts {cls : String} {c : ClassInfo} (hc : (library base I ρ).classes cls = some c)
    (hp : PlainClass c) (hpub : ∀ key ∈ c.init.keys, isParamPublic key = true) (hne : cls ≠ "TrivialCover")
    {a : Args} (ha : a.Fit c.init.keys) (hpl : a.Plain) {kw : List (String × Val)} (hkw : AlgKwargs kw)
    (hA : A ≠ []) (hk' : 0 < k') (hk : 0 < k) (hl : B.length = A.length)
    (hy : y.getD (matrixInput A) = matrixInput B) {res : Py (List (List ℕ))}
    (happ : ∀ attrs : PyDict String Val,
      (∀ key d, c.init.get? key = some d → attrs.get? key = some (a.value c.init.keys key d)) →
      ((library base I ρ).apply cls attrs (B.map rowArr)).2 = res) :
    (∀ e, res = .error e →
      (mapperCoverProgram (library base I ρ) fuel cls a kw (matrixInput A) y h).1 = .error e) ∧
    (res = .ok [] → ∃ g,
      (mapperCoverProgram (library base I ρ) fuel cls a kw (matrixInput A) y h).1 = .ok (.graph g) ∧
      ∀ u, ¬ g.IsNode u) := by
  have hB' : B ≠ [] := by
    rintro rfl
    exact hA (List.length_eq_zero_iff.mp hl.symm)
  obtain ⟨h2, r, o, fs, q1, q2, q3, q4, q5, q6⟩ := algorithm_of hn hg hc hp ha hpl hkw
  have hcp : coverParam (library base I ρ) h2 (.obj h.length) (B.map rowArr) = res := by
    simp only [coverParam, chartsOf, deref, q3, ok_bind, q4]
    rw [if_neg hne, hc]
    simp only
    refine happ _ fun key d hd => ?_
    have hm : key ∈ c.init.keys := (PyDict.isSome_get? _ _).mp (by rw [hd]; rfl)
    exact fresh_param (hpub key hm) (q5 key d hd) hm
  have hL : IsLens (y.getD (matrixInput A)) B := by rw [hy]; exact .matrix B
  rw [q1, (C42_fit_transform (library_contract hB I ρ) hn hf q2 q6 (matrixInput A) y).2]
  constructor
  · rintro e rfl
    obtain ⟨aX, ay, ry, w1, w2, w3, w4, w5⟩ := validate_lens hL hA hB' hk' hk
    have e1 := rows_matrix hA hB' hk' hk ⟨aX, by rw [← hy]; exact w1⟩ w4
    subst e1
    simp only [expectedGraph, w1, ok_bind, w3, w4, mapperGraph, mapperLabels, hcp, error_bind]
    rfl
  · rintro rfl
    obtain ⟨g, g1, g2⟩ := graph_of_charts (library base I ρ) h2 fuel (.obj h.length) fs hL hA hl hk' hk
      (charts := []) (by intro c hc; simp at hc) (fun ay ry w1 w2 _ => by
        rw [hy] at w1
        rw [rows_matrix hA hB' hk' hk w1 w2, hcp])
    refine ⟨g, by rw [g1]; rfl, fun u hu => ?_⟩
    obtain ⟨c, hc, _⟩ := (g2.node u).mp hu
    simp at hc

/-- The same for the cubical covers. -/
theorem cub_program {cls : String} {a : Args} {m : ℕ} {p : ℝ} {s : String} {c : ℕ}
    (ha : CubTypedCall I k cls a m p s c) {kw : List (String × Val)} (hkw : AlgKwargs kw)
    (hA : A ≠ []) (hk' : 0 < k') (hk : 0 < k) (hl : B.length = A.length)
    (hy : y.getD (matrixInput A) = matrixInput B) {res : Py (List (List ℕ))}
    (hres : ∀ (o lr : Option ℝ) (piv : String), o.getD (defaultOverlap k) = p →
      CubCover.applyProximity defaultOverlap ⟨⟨m, o, s, c, lr, piv⟩, none⟩ ρ (realRows B) = res ∧
      CubCover.applyStandard defaultOverlap ⟨⟨m, o, s, c, lr, piv⟩, none⟩ ρ (realRows B) = res) :
    (∀ e, res = .error e →
      (mapperCoverProgram (library base I ρ) fuel cls a kw (matrixInput A) y h).1 = .error e) ∧
    (res = .ok [] → ∃ g,
      (mapperCoverProgram (library base I ρ) fuel cls a kw (matrixInput A) y h).1 = .ok (.graph g) ∧
      ∀ u, ¬ g.IsNode u) := by
  have hB' : B ≠ [] := by
    rintro rfl
    exact hA (List.length_eq_zero_iff.mp hl.symm)
  have hw := (lensRows_matrix B).rowWidth hB'
  have hgr := (lensRows_matrix B).gridRows
  have e1 : baseCubicalInit.keys = baseCubicalParams := by decide +kernel
  have e2 : cubicalInit.keys = cubicalParams := by decide +kernel
  cases ha with
  | standard ha =>
    have hc : (library base I ρ).classes "StandardCubicalCover" =
        some ⟨coverMembers, baseCubicalInit⟩ := by simp [World.classes, library]
    refine program_charts hB I ρ hn hf hg hc baseCubicalInit_plain (by decide +kernel) (by decide)
      (by rw [e1]; exact ha.fit) ha.plain hkw hA hk' hk hl hy fun attrs hat => ?_
    obtain ⟨o, lr, piv, h1, h2⟩ := cubParams_typed e1 rfl rfl rfl rfl rfl rfl ha hat
    rw [(library_apply base I ρ _ _).2.2.2.2, hw]
    simp only [standardApply, hgr, ok_bind, h1, (hres o lr piv h2).2]
  | proximity ha =>
    have hc : (library base I ρ).classes "ProximityCubicalCover" =
        some ⟨coverMembers, baseCubicalInit⟩ := by simp [World.classes, library]
    refine program_charts hB I ρ hn hf hg hc baseCubicalInit_plain (by decide +kernel) (by decide)
      (by rw [e1]; exact ha.fit) ha.plain hkw hA hk' hk hl hy fun attrs hat => ?_
    obtain ⟨o, lr, piv, h1, h2⟩ := cubParams_typed e1 rfl rfl rfl rfl rfl rfl ha hat
    rw [(library_apply base I ρ _ _).2.2.2.1, hw]
    simp only [proximityApply, hgr, ok_bind, h1, (hres o lr piv h2).1]
  | @cubical _ _ _ _ _ alg ha halg hk2 =>
    have hc : (library base I ρ).classes "CubicalCover" =
        some ⟨coverMembers, cubicalInit⟩ := by simp [World.classes, library]
    refine program_charts hB I ρ hn hf hg hc cubicalInit_plain (by decide +kernel) (by decide)
      (by rw [e2]; exact ha.fit) ha.plain hkw hA hk' hk hl hy fun attrs hat => ?_
    obtain ⟨o, lr, piv, h1, h2⟩ := cubParams_typed e2 rfl rfl rfl rfl rfl rfl ha hat
    have h7 : attrVal attrs "algorithm" = .ok (.str alg) := by
      refine attrVal_some ?_
      rw [hat "algorithm" _ rfl]
      change some (a.value cubicalInit.keys _ _) = _
      rw [e2, halg]
    rw [(library_apply base I ρ _ _).2.2.1, hw]
    rcases hk2 with rfl | rfl
    · simp [cubicalApply, hgr, h1, h7, strVal, CubicalCover.apply,
        CubicalCover.getDelegate, (hres o lr piv h2).2]
    · simp [cubicalApply, hgr, h1, h7, strVal, CubicalCover.apply,
        CubicalCover.getDelegate, (hres o lr piv h2).1]

end

end Verif
