import Verif.Proof.Invalid

/-!
# C110: illegal parameters are reported

Whole programs such as `MapperAlgorithm(BallCover(kind="foo")).fit_transform(X, y)`. What a constructor
is given is in `Verif.Spec.Invalid`.
-/

set_option autoImplicit false
set_option linter.unusedSectionVars false

namespace Verif

section
variable {base : World} (hB : Contract base) (I : Interp) (ρ : ℕ → ℕ) {h : Heap} {n fuel : ℕ}
  (hn : 2 ≤ n) (hf : n ≤ fuel) (hg : GoodHeap h n)
  {k' k : ℕ} {A : List (Fin k' → ℚ)} {B : List (Fin k → ℚ)} {y : Option Input}

include hB hn hf hg

/-- **C110 (kind of tree).** A `BallCover` or `KNNCover` whose `kind` is neither `"flat"` nor
`"hierarchical"` raises `ValueError`. -/
theorem C110_kind_partial {cls : String} {a : Args} {s : String}
    (ha : (cls = "BallCover" ∧ ∃ (d : RVec k → RVec k → ℝ) (r : ℝ) (c : ℕ), BallTyped I a d r s c) ∨
      (cls = "KNNCover" ∧ ∃ (d : RVec k → RVec k → ℝ) (nb : ℕ), KnnTyped I a d nb s))
    (hs : s ≠ "flat" ∧ s ≠ "hierarchical") {kw : List (String × Val)} (hkw : AlgKwargs kw)
    (hA : A ≠ []) (hk' : 0 < k') (hk : 0 < k) (hl : B.length = A.length)
    (hy : y.getD (matrixInput A) = matrixInput B) :
    (mapperCoverProgram (library base I ρ) fuel cls a kw (matrixInput A) y h).1 = .error .valueError := by
  have hs' : ¬ IsKind s := fun hh => hh.elim hs.1 hs.2
  have hB' : B ≠ [] := by
    rintro rfl
    exact hA (List.length_eq_zero_iff.mp hl.symm)
  have hw := (lensRows_matrix B).rowWidth hB'
  rcases ha with ⟨rfl, d, r, c, ha⟩ | ⟨rfl, d, nb, ha⟩
  · have hc : (library base I ρ).classes "BallCover" = some ⟨coverMembers, ballInit⟩ := by
      simp [World.classes, library]
    have e : ballInit.keys = ballParams := by decide +kernel
    refine (program_charts hB I ρ hn hf hg hc ballInit_plain (by decide +kernel) (by decide)
      (by rw [e]; exact ha.fit) ha.plain hkw hA hk' hk hl hy fun attrs hat => ?_).1 _ rfl
    obtain ⟨lr, h1⟩ := ballApply_typed ha hat ρ B
    rw [(library_apply base I ρ _ _).1, hw]
    rw [h1, BallCover.apply, proximityNet, ballFit_unknown _ (by exact hs')]
    rfl
  · have hc : (library base I ρ).classes "KNNCover" = some ⟨coverMembers, knnInit⟩ := by
      simp [World.classes, library]
    have e : knnInit.keys = knnParams := by decide +kernel
    refine (program_charts hB I ρ hn hf hg hc knnInit_plain (by decide +kernel) (by decide)
      (by rw [e]; exact ha.fit) ha.plain hkw hA hk' hk hl hy fun attrs hat => ?_).1 _ rfl
    obtain ⟨o, lr, h1⟩ := knnApply_typed ha hat ρ B
    rw [(library_apply base I ρ _ _).2.1, hw]
    rw [h1, KnnCover.apply, proximityNet, knnFit_unknown _ (by exact hs')]
    rfl

/-- **C110 (metric).** A `BallCover` or `KNNCover` whose `metric` is a string that names no documented
metric raises `ValueError`, whatever its other parameters are. -/
theorem C110_metric_partial {cls : String} {params : List String} {a : Args} {s : String}
    {kws : PyDict String KwVal}
    (hcls : (cls = "BallCover" ∧ params = ballParams) ∨ (cls = "KNNCover" ∧ params = knnParams))
    (hfit : a.Fit params) (hpl : a.Plain)
    (hm : a.value params "metric" (.str "euclidean") = .str s)
    (hmp : IsKwargs I (a.value params "metric_params" .none) kws)
    (hs : s ∉ documentedMetrics) {kw : List (String × Val)} (hkw : AlgKwargs kw)
    (hA : A ≠ []) (hk' : 0 < k') (hk : 0 < k) (hl : B.length = A.length)
    (hy : y.getD (matrixInput A) = matrixInput B) :
    (mapperCoverProgram (library base I ρ) fuel cls a kw (matrixInput A) y h).1 = .error .valueError := by
  have hB' : B ≠ [] := by
    rintro rfl
    exact hA (List.length_eq_zero_iff.mp hl.symm)
  have hw := (lensRows_matrix B).rowWidth hB'
  have hmv := metricVal_unknown hmp hs (realRows B)
  rcases hcls with ⟨rfl, rfl⟩ | ⟨rfl, rfl⟩
  · have hc : (library base I ρ).classes "BallCover" = some ⟨coverMembers, ballInit⟩ := by
      simp [World.classes, library]
    have e : ballInit.keys = ballParams := by decide +kernel
    refine (program_charts hB I ρ hn hf hg hc ballInit_plain (by decide +kernel) (by decide)
      (by rw [e]; exact hfit) hpl hkw hA hk' hk hl hy fun attrs hat => ?_).1 _ rfl
    have h1 := attrVal_some (hat "metric" _ rfl)
    have h2 := attrVal_some (hat "metric_params" _ rfl)
    simp only [e] at h1 h2
    rw [hm] at h1
    rw [(library_apply base I ρ _ _).1, hw]
    simp [ballApply, metricRows_matrix, h1, h2, hmv]
  · have hc : (library base I ρ).classes "KNNCover" = some ⟨coverMembers, knnInit⟩ := by
      simp [World.classes, library]
    have e : knnInit.keys = knnParams := by decide +kernel
    refine (program_charts hB I ρ hn hf hg hc knnInit_plain (by decide +kernel) (by decide)
      (by rw [e]; exact hfit) hpl hkw hA hk' hk hl hy fun attrs hat => ?_).1 _ rfl
    have h1 := attrVal_some (hat "metric" _ rfl)
    have h2 := attrVal_some (hat "metric_params" _ rfl)
    simp only [e] at h1 h2
    rw [hm] at h1
    rw [(library_apply base I ρ _ _).2.1, hw]
    simp [knnApply, metricRows_matrix, h1, h2, hmv]

/-- **C110 (overlap and kind of cubical covers).** A cubical cover whose overlap fraction is not
positive raises `ValueError`; with an overlap fraction of exactly 1 it raises
`ZeroDivisionError`; with any other one and an unknown `kind` it raises `ValueError`. -/
theorem C110_cubical_partial {cls : String} {a : Args} {m : ℕ} {p : ℝ} {s : String} {c : ℕ}
    (ha : CubTypedCall I k cls a m p s c) {kw : List (String × Val)} (hkw : AlgKwargs kw)
    (hA : A ≠ []) (hk' : 0 < k') (hk : 0 < k) (hl : B.length = A.length)
    (hy : y.getD (matrixInput A) = matrixInput B) :
    (p ≤ 0 → (mapperCoverProgram (library base I ρ) fuel cls a kw (matrixInput A) y h).1 =
      .error .valueError) ∧
    (p = 1 → (mapperCoverProgram (library base I ρ) fuel cls a kw (matrixInput A) y h).1 =
      .error .zeroDivisionError) ∧
    (0 < p → p ≠ 1 → s ≠ "flat" → s ≠ "hierarchical" →
      (mapperCoverProgram (library base I ρ) fuel cls a kw (matrixInput A) y h).1 =
        .error .valueError) := by
  have hlen : (realRows B).length ≠ 0 := by
    intro hh
    rw [realRows, List.length_map] at hh
    exact hA (List.length_eq_zero_iff.mp (hl.symm.trans hh))
  have hne : realRows B ≠ [] := fun hh => hlen (by rw [hh]; rfl)
  refine ⟨fun h0 => ?_, fun h1 => ?_, fun h0 h1 hs1 hs2 => ?_⟩
  · refine (cub_program hB I ρ hn hf hg ha hkw hA hk' hk hl hy fun o lr piv ho =>
      cub_fit_error ?_).1 _ rfl
    simp only [CubCover.fit, hlen, if_false, ho, h0, if_true]
  · refine (cub_program hB I ρ hn hf hg ha hkw hA hk' hk hl hy fun o lr piv ho =>
      cub_fit_error ?_).1 _ rfl
    obtain ⟨lo, hi, delta, hb, _⟩ := getBounds_ok m (realRows B) hne
    have hr : boxRadius p = .error .zeroDivisionError := by
      unfold boxRadius; rw [if_pos]; rw [h1]; ring
    have h0 : ¬ p ≤ 0 := by rw [h1]; norm_num
    simp only [CubCover.fit, hlen, if_false, ho, h0, hb, ok_bind, hr, error_bind]
  · refine (cub_program hB I ρ hn hf hg ha hkw hA hk' hk hl hy fun o lr piv ho =>
      cub_fit_error ?_).1 _ rfl
    obtain ⟨lo, hi, delta, hb, _⟩ := getBounds_ok m (realRows B) hne
    have hr : boxRadius p = .ok (1 / (2 - 2 * p)) := by
      unfold boxRadius; rw [if_neg]
      intro hh
      exact h1 (by linarith)
    have hs' : ¬ IsKind s := fun hh => hh.elim hs1 hs2
    simp only [CubCover.fit, hlen, if_false, ho, not_le.mpr h0, hb, ok_bind, hr]
    rw [ballFit_unknown _ (by exact hs')]
    rfl

/-- **C110 (algorithm).** A `CubicalCover` whose `algorithm` is neither `"proximity"` nor `"standard"` raises
`ValueError`. -/
theorem C110_algorithm_partial {a : Args} {m : ℕ} {p : ℝ} {s : String} {c : ℕ} {alg : String}
    (ha : CubTyped I k cubicalParams a m p s c)
    (halg : a.value cubicalParams "algorithm" (.str "proximity") = .str alg)
    (hs : alg ≠ "proximity" ∧ alg ≠ "standard") {kw : List (String × Val)} (hkw : AlgKwargs kw)
    (hA : A ≠ []) (hk' : 0 < k') (hk : 0 < k) (hl : B.length = A.length)
    (hy : y.getD (matrixInput A) = matrixInput B) :
    (mapperCoverProgram (library base I ρ) fuel "CubicalCover" a kw (matrixInput A) y h).1 =
      .error .valueError := by
  have hB' : B ≠ [] := by
    rintro rfl
    exact hA (List.length_eq_zero_iff.mp hl.symm)
  have hw := (lensRows_matrix B).rowWidth hB'
  have hgr := (lensRows_matrix B).gridRows
  have e2 : cubicalInit.keys = cubicalParams := by decide +kernel
  have hc : (library base I ρ).classes "CubicalCover" =
      some ⟨coverMembers, cubicalInit⟩ := by simp [World.classes, library]
  refine (program_charts hB I ρ hn hf hg hc cubicalInit_plain (by decide +kernel) (by decide)
    (by rw [e2]; exact ha.fit) ha.plain hkw hA hk' hk hl hy fun attrs hat => ?_).1 _ rfl
  obtain ⟨o, lr, piv, h1, h2⟩ := cubParams_typed e2 rfl rfl rfl rfl rfl rfl ha hat
  have h7 : attrVal attrs "algorithm" = .ok (.str alg) := by
    refine attrVal_some ?_
    rw [hat "algorithm" _ rfl]
    change some (a.value cubicalInit.keys _ _) = _
    rw [e2, halg]
  rw [(library_apply base I ρ _ _).2.2.1, hw]
  simp [cubicalApply, hgr, h1, h7, strVal, CubicalCover.apply,
    CubicalCover.getDelegate, hs.1, hs.2]

/-- **C110 (violation).** A `BallCover` with a radius that is not positive raises nothing: the graph has no
nodes, whatever the data. -/
theorem C110_radius_violation {a : Args} {d : RVec k → RVec k → ℝ} {r : ℝ} {s : String} {c : ℕ}
    (ha : BallTyped I a d r s c) (hd : PseudoMetric d) (hr : r ≤ 0) (hs : IsKind s) (hc1 : 1 ≤ c)
    {kw : List (String × Val)} (hkw : AlgKwargs kw)
    (hA : A ≠ []) (hk' : 0 < k') (hk : 0 < k) (hl : B.length = A.length)
    (hy : y.getD (matrixInput A) = matrixInput B) :
    ∃ g, (mapperCoverProgram (library base I ρ) fuel "BallCover" a kw (matrixInput A) y h).1 =
      .ok (.graph g) ∧ ∀ u, ¬ g.IsNode u := by
  have hB' : B ≠ [] := by
    rintro rfl
    exact hA (List.length_eq_zero_iff.mp hl.symm)
  have hw := (lensRows_matrix B).rowWidth hB'
  have hc : (library base I ρ).classes "BallCover" = some ⟨coverMembers, ballInit⟩ := by
    simp [World.classes, library]
  have e : ballInit.keys = ballParams := by decide +kernel
  refine (program_charts hB I ρ hn hf hg hc ballInit_plain (by decide +kernel) (by decide)
    (by rw [e]; exact ha.fit) ha.plain hkw hA hk' hk hl hy fun attrs hat => ?_).2 rfl
  obtain ⟨lr, h1⟩ := ballApply_typed ha hat ρ B
  have hne : realRows B ≠ [] := by simpa [realRows] using hB'
  obtain ⟨c', h2, h3⟩ := ballFit_ok (⟨⟨r, d, s, c, lr, strVal (a.value ballParams "pivoting"
    (.str "disabled"))⟩, none⟩ : BallCover (RVec k) ℝ) hd hs hc1 ρ (realRows B)
  have h4 : ∀ (i : ℕ) (x : RVec k), (realRows B)[i]? = some x → c'.search x = .ok ((fun _ => []) i) := by
    intro i x _
    obtain ⟨out, h5, h6⟩ := h3 hne x
    rw [h5]
    congr 1
    rw [List.eq_nil_iff_forall_not_mem]
    intro j hj
    obtain ⟨z, _, hz⟩ := (h6.2 j).mp hj
    have := hd.nonneg x z
    simp only at hz
    linarith
  obtain ⟨out, cs, h5, _, _, h6⟩ := C29_proximity_net _ BallCover.search _ c' h2 _ h4
  have h7 : out = [] := by rw [h6, List.filter_eq_nil_iff]; simp
  rw [(library_apply base I ρ _ _).1, hw, h1, BallCover.apply, h5, h7]

/-- **C110 (violation).** A cubical cover with an overlap fraction above 1 raises nothing: the graph has no
nodes, whatever the data. -/
theorem C110_overlap_violation {cls : String} {a : Args} {m : ℕ} {p : ℝ} {s : String} {c : ℕ}
    (ha : CubTypedCall I k cls a m p s c) (hp : 1 < p) (hs : IsKind s) (hc1 : 1 ≤ c)
    {kw : List (String × Val)} (hkw : AlgKwargs kw)
    (hA : A ≠ []) (hk' : 0 < k') (hk : 0 < k) (hl : B.length = A.length)
    (hy : y.getD (matrixInput A) = matrixInput B) :
    ∃ g, (mapperCoverProgram (library base I ρ) fuel cls a kw (matrixInput A) y h).1 =
      .ok (.graph g) ∧ ∀ u, ¬ g.IsNode u := by
  have hne : realRows B ≠ [] := by
    intro hh
    rw [realRows, List.map_eq_nil_iff] at hh
    exact hA (List.length_eq_zero_iff.mp (by rw [← hl, hh]; rfl))
  refine (cub_program hB I ρ hn hf hg ha hkw hA hk' hk hl hy fun o lr piv ho => ?_).2 rfl
  have := C27_overlap_above_one defaultOverlap (⟨⟨m, o, s, c, lr, piv⟩, none⟩ : CubCover k ℝ) ρ _ hne p ho hp
    hs hc1
  exact ⟨this.2.2, this.2.1⟩

/-- **C110 (violation).** Any string is accepted for `pivoting`: the graph is the one of `BallCover()`. -/
theorem C110_pivoting_violation (s : String) {kw : List (String × Val)} (hkw : AlgKwargs kw)
    (hA : A ≠ []) (hk' : 0 < k') (hk : 0 < k) (hl : B.length = A.length)
    (hy : y.getD (matrixInput A) = matrixInput B) :
    ∃ g centres,
      (mapperCoverProgram (library base I ρ) fuel "BallCover" ⟨[], [("pivoting", .str s)]⟩ kw (matrixInput A)
        y h).1 = .ok (.graph g) ∧
      IsNet (fun x y => Real.sqrt (∑ i, (x i - y i) ^ 2)) 1 (realRows B) centres ∧
      IsRegionGraph g (realRows B) (centres.map (openBall (fun x y => Real.sqrt (∑ i, (x i - y i) ^ 2)) 1)) := by
  refine C92_ball hB I ρ hn hf hg ⟨⟨by simp, by simp, ?_⟩, ⟨by simp, ?_⟩, euclidean_param _ _,
    by exact_mod_cast IsNum.int 1, ⟨_, rfl, .inl rfl⟩, ⟨1, rfl, le_refl _⟩, .inl rfl⟩
    C47_euclidean.2.pseudo (by norm_num) hkw hA hk' hk hl hy
  · intro e he
    rw [List.mem_singleton] at he
    subst he
    simp [ballParams]
  · simp [IsPlain]

end

/-! ## The hypotheses are met -/

/-- `BallCover(kind="ball")`, `KNNCover(3, kind="ball")`, `BallCover(0)`, `CubicalCover(4, 2)`,
`StandardCubicalCover(overlap_frac=0)` and `CubicalCover(algorithm="ball")`. -/
example (I : Interp) (k : ℕ) :
    BallTyped I (k := k) ⟨[], [("kind", .str "ball")]⟩ (fun x y => Real.sqrt (∑ i, (x i - y i) ^ 2)) 1
      "ball" 1 ∧
    KnnTyped I (k := k) ⟨[.int 3], [("kind", .str "ball")]⟩
      (fun x y => Real.sqrt (∑ i, (x i - y i) ^ 2)) 3 "ball" ∧
    BallTyped I (k := k) ⟨[.int 0], []⟩ (fun x y => Real.sqrt (∑ i, (x i - y i) ^ 2)) 0 "flat" 1 ∧
    CubTypedCall I k "CubicalCover" ⟨[.int 4, .int 2], []⟩ 4 2 "flat" 1 ∧
    CubTypedCall I k "StandardCubicalCover" ⟨[], [("overlap_frac", .int 0)]⟩ 1 0 "flat" 1 ∧
    CubTyped I k cubicalParams ⟨[], [("algorithm", .str "ball")]⟩ 1 (defaultOverlap k) "flat" 1 := by
  refine ⟨⟨⟨by simp, by decide, by decide⟩, ⟨by simp, by simp [IsPlain]⟩, euclidean_param _ _,
      by exact_mod_cast IsNum.int 1, rfl, rfl, .inl rfl⟩,
    ⟨⟨by decide, by decide, by decide⟩, ⟨by simp [IsPlain], by simp [IsPlain]⟩, euclidean_param _ _, rfl,
      rfl, .inl rfl, ⟨0, by exact_mod_cast IsNum.int 0⟩⟩,
    ⟨⟨by decide, by decide, by simp⟩, ⟨by simp [IsPlain], by simp⟩, euclidean_param _ _,
      by exact_mod_cast IsNum.int 0, rfl, rfl, .inl rfl⟩,
    .cubical (alg := "proximity") ⟨⟨by decide, by decide, by simp⟩, ⟨by simp [IsPlain], by simp⟩, rfl,
      .inr (by exact_mod_cast IsNum.int 2), rfl, rfl, .inl rfl⟩ rfl (.inr rfl),
    .standard ⟨⟨by decide, by decide, by decide⟩, ⟨by simp, by simp [IsPlain]⟩, rfl,
      .inr (by exact_mod_cast IsNum.int 0), rfl, rfl, .inl rfl⟩,
    ⟨⟨by simp, by decide, by decide⟩, ⟨by simp, by simp [IsPlain]⟩, rfl, .inl ⟨rfl, rfl⟩, rfl, rfl,
      .inl rfl⟩⟩

/-- A program from an empty heap: `MapperAlgorithm(KNNCover(metric="euclid")).fit_transform(X)`. -/
example : (mapperCoverProgram libWorld 2 "KNNCover" ⟨[], [("metric", .str "euclid")]⟩ []
    (matrixInput libData) none []).1 = .error .valueError :=
  C110_metric_partial exWorld_contract noInterp (fun _ => 0) (le_refl 2) (le_refl 2) goodHeap_nil
    (s := "euclid") (kws := PyDict.empty) (.inr ⟨rfl, rfl⟩) ⟨by decide, by decide, by decide⟩
    ⟨by simp, by simp [IsPlain]⟩ rfl .none (by decide) ⟨by simp, by simp, by simp⟩ (by simp [libData])
    (by decide) (by decide) rfl rfl

/-- A program from an empty heap: `MapperAlgorithm(BallCover(0)).fit_transform(X)`. -/
example : ∃ g, (mapperCoverProgram libWorld 2 "BallCover" ⟨[.int 0], []⟩ [] (matrixInput libData) none
    []).1 = .ok (.graph g) ∧ ∀ u, ¬ g.IsNode u :=
  C110_radius_violation exWorld_contract noInterp (fun _ => 0) (le_refl 2) (le_refl 2) goodHeap_nil
    (k := 2) (r := 0) (s := "flat") (c := 1)
    ⟨⟨by decide, by decide, by simp⟩, ⟨by simp [IsPlain], by simp⟩, euclidean_param _ _,
      by exact_mod_cast IsNum.int 0, rfl, rfl, .inl rfl⟩
    C47_euclidean.2.pseudo (le_refl _) (.inl rfl) (le_refl _) ⟨by simp, by simp, by simp⟩
    (by simp [libData]) (by decide) (by decide) rfl rfl

end Verif
