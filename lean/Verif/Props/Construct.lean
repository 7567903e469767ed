import Verif.Proof.Construct

/-!
# C92: from the constructors to the graph

Whole programs of a user: `MapperAlgorithm(BallCover(radius=2)).fit_transform(X, y)` and the like,
from the calls of the constructors on, with the documented defaults. The programs, the meaning of
the arguments and the defaults are in `Verif.Spec.Construct`.
-/

set_option autoImplicit false
set_option linter.unusedSectionVars false

namespace Verif

/-- **C92.** A constructor accepts exactly the arguments that fit its parameters, and otherwise raises
`TypeError`. It makes one new object and changes no other; each parameter is an attribute
of the new object, with the value given or else the default. -/
theorem C92_construct {W : World} {cls : String} {c : ClassInfo} (hc : W.classes cls = some c)
    (a : Args) (h : Heap) :
    (a.Fit c.init.keys → ∃ attrs, construct W cls a h = (.ok h.length, h ++ [⟨cls, attrs⟩]) ∧
      attrs.keys = c.init.keys ∧
      ∀ k d, c.init.get? k = some d → attrs.get? k = some (a.value c.init.keys k d)) ∧
    (¬ a.Fit c.init.keys → construct W cls a h = (.error .typeError, h)) := by
  refine ⟨fun ha => construct_ok hc ha h, fun ha => ?_⟩
  rw [construct, hc]
  simp only
  have : bindArgs c.init.keys a = .error .typeError := by
    rw [bindArgs]
    split
    · rfl
    · rename_i h1
      simp only
      rw [if_neg]
      rintro ⟨h2, h3⟩
      exact ha ⟨not_lt.mp h1, h2, fun e he => h3 _ (List.mem_map_of_mem he)⟩
  rw [this]
  rfl

/-- The parameters of the classes of the library. -/
theorem C92_parameters (base : World) (I : Interp) (ρ : ℕ → ℕ) :
    (∃ c, (library base I ρ).classes "BallCover" = some c ∧ c.init.keys = ballParams) ∧
    (∃ c, (library base I ρ).classes "KNNCover" = some c ∧ c.init.keys = knnParams) ∧
    (∃ c, (library base I ρ).classes "CubicalCover" = some c ∧ c.init.keys = cubicalParams) ∧
    (∃ c, (library base I ρ).classes "ProximityCubicalCover" = some c ∧
      c.init.keys = baseCubicalParams) ∧
    (∃ c, (library base I ρ).classes "StandardCubicalCover" = some c ∧
      c.init.keys = baseCubicalParams) ∧
    (∃ c, (library base I ρ).classes "MapperAlgorithm" = some c ∧
      c.init.keys = ["cover", "clustering", "failsafe", "verbose", "n_jobs"]) ∧
    (∃ c, (library base I ρ).classes "MapperClustering" = some c ∧
      c.init.keys = ["cover", "clustering", "n_jobs"]) := by
  refine ⟨⟨⟨coverMembers, ballInit⟩, ?_, by decide +kernel⟩, ⟨⟨coverMembers, knnInit⟩, ?_, by decide +kernel⟩,
    ⟨⟨coverMembers, cubicalInit⟩, ?_, by decide +kernel⟩,
    ⟨⟨coverMembers, baseCubicalInit⟩, ?_, by decide +kernel⟩,
    ⟨⟨coverMembers, baseCubicalInit⟩, ?_, by decide +kernel⟩, ⟨algInfo, classes_alg _, by decide +kernel⟩,
    ⟨clusInfo, classes_clus _, by decide +kernel⟩⟩ <;> simp [World.classes, library]

/-- **C92.** Every class of the library can be made without arguments; the object then has exactly
the documented parameters as attributes, with the documented defaults. -/
theorem C92_defaults (base : World) (I : Interp) (ρ : ℕ → ℕ) (h : Heap) :
    ∀ e ∈ documentedDefaults,
      construct (library base I ρ) e.1 ⟨[], []⟩ h = (.ok h.length, h ++ [⟨e.1, ⟨e.2⟩⟩]) := by
  simp only [documentedDefaults, List.forall_mem_cons]
  refine ⟨?_, ?_, ?_, ?_, ?_, ?_, ?_, ?_, ?_, ?_, by simp⟩ <;> rfl

section
variable {base : World} (hB : Contract base) (I : Interp) (ρ : ℕ → ℕ) {h : Heap} {n fuel : ℕ}
  (hn : 2 ≤ n) (hf : n ≤ fuel) (hg : GoodHeap h n)
  {k' k : ℕ} {A : List (Fin k' → ℚ)} {B : List (Fin k → ℚ)} {y : Option Input}

/-- What the object made by `BallCover(...)` is. -/
theorem ballAttrs_of {o : Obj} {a : Args} {d : RVec k → RVec k → ℝ} {rad : ℝ}
    (ha : BallArgs I a d rad)
    (ho : ∀ k d, ballInit.get? k = some d → o.attrs.get? k = some (a.value ballInit.keys k d)) :
    BallAttrs I o.attrs d rad := by
  have e : ballInit.keys = ballParams := by decide +kernel
  rw [e] at ho
  obtain ⟨s, hs, hs'⟩ := ha.kind
  obtain ⟨c, hc, hc'⟩ := ha.capacity
  exact ⟨_, _, _, s, _, _, c, ho _ _ rfl, ho _ _ rfl, ha.metric, ho _ _ rfl, ha.radius,
    by rw [ho "kind" _ rfl, hs], hs', by rw [ho "leaf_capacity" _ rfl, hc], hc', ho _ _ rfl,
    ha.leafRadius, ho _ _ rfl⟩

theorem knnAttrs_of {o : Obj} {a : Args} {d : RVec k → RVec k → ℝ} {nb : ℕ}
    (ha : KnnArgs I a d nb)
    (ho : ∀ k d, knnInit.get? k = some d → o.attrs.get? k = some (a.value knnInit.keys k d)) :
    KnnAttrs I o.attrs d nb := by
  have e : knnInit.keys = knnParams := by decide +kernel
  rw [e] at ho
  obtain ⟨s, hs, hs'⟩ := ha.kind
  exact ⟨_, _, s, _, _, _, ho _ _ rfl, ho _ _ rfl, ha.metric,
    by rw [ho "neighbors" _ rfl, ha.neighbors], ha.pos,
    by rw [ho "kind" _ rfl, hs], hs', ho "leaf_capacity" _ rfl, ha.capacity, ho "leaf_radius" _ rfl,
    ha.leafRadius, ho _ _ rfl⟩

theorem cubAttrs_of {init : PyDict String Val} {params : List String} (e : init.keys = params)
    (e1 : init.get? "n_intervals" = some (.int 1)) (e2 : init.get? "overlap_frac" = some .none)
    (e3 : init.get? "kind" = some (.str "flat")) (e4 : init.get? "leaf_capacity" = some (.int 1))
    (e5 : init.get? "leaf_radius" = some .none) (e6 : init.get? "pivoting" = some (.str "disabled"))
    {o : Obj} {a : Args} {m : ℕ} {p : ℝ} (ha : CubArgs I k params a m p)
    (ho : ∀ k d, init.get? k = some d → o.attrs.get? k = some (a.value init.keys k d)) :
    CubAttrs I k o.attrs m p := by
  rw [e] at ho
  obtain ⟨s, hs, hs'⟩ := ha.kind
  obtain ⟨c, hc, hc'⟩ := ha.capacity
  exact ⟨_, s, _, _, c, by rw [ho _ _ e1, ha.intervals], ha.pos, ho _ _ e2, ha.overlap,
    by rw [ho _ _ e3, hs], hs', by rw [ho _ _ e4, hc], hc', ho _ _ e5, ha.leafRadius, ho _ _ e6⟩

include hB hn hf hg

/-- **C92.** `MapperAlgorithm(BallCover(...), ...).fit_transform(X, y)`. -/
theorem C92_ball {a : Args} {d : RVec k → RVec k → ℝ} {rad : ℝ} (ha : BallArgs I a d rad)
    (hd : PseudoMetric d) (hrad : 0 < rad) {kw : List (String × Val)} (hkw : AlgKwargs kw)
    (hA : A ≠ []) (hk' : 0 < k') (hk : 0 < k) (hl : B.length = A.length)
    (hy : y.getD (matrixInput A) = matrixInput B) :
    ∃ g centres,
      (mapperCoverProgram (library base I ρ) fuel "BallCover" a kw (matrixInput A) y h).1 =
        .ok (.graph g) ∧
      IsNet d rad (realRows B) centres ∧
      IsRegionGraph g (realRows B) (centres.map (openBall d rad)) := by
  have hc : (library base I ρ).classes "BallCover" = some ⟨coverMembers, ballInit⟩ := by
    simp [World.classes, library]
  have e : ballInit.keys = ballParams := by decide +kernel
  obtain ⟨h2, r, o, fs, q1, q2, q3, q4, q5, q6⟩ := algorithm_of hn hg hc ballInit_plain
    (by rw [e]; exact ha.fit) ha.plain hkw
  rw [q1]
  exact C84_ball I ρ hB hn hf q2 q6 q3 q4 (ballAttrs_of I ha q5) hd hrad hA hk' hk hl hy

/-- **C92.** `MapperAlgorithm(CubicalCover(...), ...).fit_transform(X, y)`, and the same for the two
other classes of cubical covers. -/
theorem C92_cubical {cls : String} {a : Args} {std : Bool} {m : ℕ} {p : ℝ}
    (ha : CubCall I k cls a std m p) {kw : List (String × Val)} (hkw : AlgKwargs kw)
    (hA : A ≠ []) (hk' : 0 < k') (hk : 0 < k) (hl : B.length = A.length)
    (hy : IsLens (y.getD (matrixInput A)) B) {lo hi : Fin k → ℝ}
    (hb : IsBounds (realRows B) lo hi) :
    ∃ (g : NxGraph) (cells : List (Fin k → ℤ)),
      (mapperCoverProgram (library base I ρ) fuel cls a kw (matrixInput A) y h).1 =
        .ok (.graph g) ∧
      cells.Nodup ∧ (∀ cell ∈ cells, ∃ x ∈ realRows B, IsCell lo hi m x cell) ∧
      (std = true → ∀ x ∈ realRows B, ∀ cell, IsCell lo hi m x cell → cell ∈ cells) ∧
      RegionsCover (realRows B) (cells.map (InHypercube lo hi m p)) ∧
      IsRegionGraph g (realRows B) (cells.map (InHypercube lo hi m p)) := by
  have e1 : baseCubicalInit.keys = baseCubicalParams := by decide +kernel
  have e2 : cubicalInit.keys = cubicalParams := by decide +kernel
  cases ha with
  | standard ha =>
    have hc : (library base I ρ).classes "StandardCubicalCover" =
        some ⟨coverMembers, baseCubicalInit⟩ := by simp [World.classes, library]
    obtain ⟨h2, r, o, fs, q1, q2, q3, q4, q5, q6⟩ := algorithm_of hn hg hc baseCubicalInit_plain
      (by rw [e1]; exact ha.fit) ha.plain hkw
    rw [q1]
    exact C84_cubical I ρ hB hn hf q2 q6 q3 (std := true) (.inl q4)
      (cubAttrs_of I e1 rfl rfl rfl rfl rfl rfl ha q5) hA hk' hk hl hy hb
  | proximity ha =>
    have hc : (library base I ρ).classes "ProximityCubicalCover" =
        some ⟨coverMembers, baseCubicalInit⟩ := by simp [World.classes, library]
    obtain ⟨h2, r, o, fs, q1, q2, q3, q4, q5, q6⟩ := algorithm_of hn hg hc baseCubicalInit_plain
      (by rw [e1]; exact ha.fit) ha.plain hkw
    rw [q1]
    exact C84_cubical I ρ hB hn hf q2 q6 q3 (std := false) (.inl q4)
      (cubAttrs_of I e1 rfl rfl rfl rfl rfl rfl ha q5) hA hk' hk hl hy hb
  | cubical ha halg =>
    have hc : (library base I ρ).classes "CubicalCover" =
        some ⟨coverMembers, cubicalInit⟩ := by simp [World.classes, library]
    obtain ⟨h2, r, o, fs, q1, q2, q3, q4, q5, q6⟩ := algorithm_of hn hg hc cubicalInit_plain
      (by rw [e2]; exact ha.fit) ha.plain hkw
    rw [q1]
    have h7 : o.attrs.get? "algorithm" = some (.str (if std then "standard" else "proximity")) := by
      rw [q5 "algorithm" _ rfl]
      change some (a.value cubicalInit.keys _ _) = _
      rw [e2, halg]
    refine C84_cubical I ρ hB hn hf q2 q6 q3 (std := std) ?_
      (cubAttrs_of I e2 rfl rfl rfl rfl rfl rfl ha q5) hA hk' hk hl hy hb
    cases std
    · exact .inr ⟨q4, h7⟩
    · exact .inr ⟨q4, h7⟩

/-- **C92.** `MapperAlgorithm(KNNCover(...), ...).fit_transform(X, y)`, if no row coincides with as many
others as there are neighbours. -/
theorem C92_knn {a : Args} {d : RVec k → RVec k → ℝ} {nb : ℕ} (ha : KnnArgs I a d nb)
    (hd : PseudoMetric d) {kw : List (String × Val)} (hkw : AlgKwargs kw)
    (hdup : ∀ x ∈ realRows B, (realRows B).countP (fun z => decide (d x z = 0)) ≤ nb)
    (hA : A ≠ []) (hk' : 0 < k') (hk : 0 < k) (hl : B.length = A.length)
    (hy : y.getD (matrixInput A) = matrixInput B) :
    ∃ g charts,
      (mapperCoverProgram (library base I ρ) fuel "KNNCover" a kw (matrixInput A) y h).1 =
        .ok (.graph g) ∧
      Covers A.length charts ∧
      (∀ chart ∈ charts, ∃ x ∈ realRows B, NearestIndices d x nb (realRows B) chart) ∧
      IsNerve g charts := by
  have hc : (library base I ρ).classes "KNNCover" = some ⟨coverMembers, knnInit⟩ := by
    simp [World.classes, library]
  have e : knnInit.keys = knnParams := by decide +kernel
  obtain ⟨h2, r, o, fs, q1, q2, q3, q4, q5, q6⟩ := algorithm_of hn hg hc knnInit_plain
    (by rw [e]; exact ha.fit) ha.plain hkw
  rw [q1]
  exact C84_knn I ρ hB hn hf q2 q6 q3 q4 (knnAttrs_of I ha q5) hd hdup hA hk' hk hl hy

/-- **C92.** `MapperClustering(BallCover(...)).fit(X, y).labels_`. -/
theorem C92_ball_labels (ho : ∀ l L, L ∈ base.setOrder l ↔ L ∈ l) {a : Args}
    {d : RVec k → RVec k → ℝ} {rad : ℝ} (ha : BallArgs I a d rad)
    (hd : PseudoMetric d) (hrad : 0 < rad)
    (hA : A ≠ []) (hk' : 0 < k') (hk : 0 < k) (hl : B.length = A.length)
    (hy : y.getD (matrixInput A) = matrixInput B) :
    ∃ l centres,
      (clusteringCoverProgram (library base I ρ) fuel "BallCover" a (matrixInput A) y h).1 =
        .ok (.labels l) ∧
      l.length = A.length ∧ IsNet d rad (realRows B) centres ∧
      ∀ i j, i < A.length → j < A.length → (l[i]? = l[j]? ↔
        Linked (InOneRegion (realRows B) (centres.map (openBall d rad))) i j) := by
  have hc : (library base I ρ).classes "BallCover" = some ⟨coverMembers, ballInit⟩ := by
    simp [World.classes, library]
  have e : ballInit.keys = ballParams := by decide +kernel
  obtain ⟨h2, r, o, q1, q2, q3, q4, q5, q6⟩ := clustering_of hn hg hc ballInit_plain
    (by rw [e]; exact ha.fit) ha.plain
  obtain ⟨l, centres, p1, p2, p3, p4, p5⟩ := C84_ball_components I ρ hB hf q2 ho q6 q3 q4
    (ballAttrs_of I ha q5) hd hrad hA hk' hk hl hy
  exact ⟨l, centres, q1 _ _ _ _ p1 p2, p3, p4, p5⟩

/-- **C92.** `MapperClustering(CubicalCover(...)).fit(X, y).labels_`, and the same for the two other
classes of cubical covers. -/
theorem C92_cubical_labels (ho : ∀ l L, L ∈ base.setOrder l ↔ L ∈ l) {cls : String} {a : Args}
    {std : Bool} {m : ℕ} {p : ℝ} (ha : CubCall I k cls a std m p)
    (hA : A ≠ []) (hk' : 0 < k') (hk : 0 < k) (hl : B.length = A.length)
    (hy : IsLens (y.getD (matrixInput A)) B) {lo hi : Fin k → ℝ}
    (hb : IsBounds (realRows B) lo hi) :
    ∃ (l : List ℤ) (cells : List (Fin k → ℤ)),
      (clusteringCoverProgram (library base I ρ) fuel cls a (matrixInput A) y h).1 =
        .ok (.labels l) ∧
      l.length = A.length ∧ (∀ cell ∈ cells, ∃ x ∈ realRows B, IsCell lo hi m x cell) ∧
      (std = true → ∀ x ∈ realRows B, ∀ cell, IsCell lo hi m x cell → cell ∈ cells) ∧
      RegionsCover (realRows B) (cells.map (InHypercube lo hi m p)) ∧
      ∀ i j, i < A.length → j < A.length → (l[i]? = l[j]? ↔
        Linked (InOneRegion (realRows B) (cells.map (InHypercube lo hi m p))) i j) := by
  have e1 : baseCubicalInit.keys = baseCubicalParams := by decide +kernel
  have e2 : cubicalInit.keys = cubicalParams := by decide +kernel
  cases ha with
  | standard ha =>
    have hc : (library base I ρ).classes "StandardCubicalCover" =
        some ⟨coverMembers, baseCubicalInit⟩ := by simp [World.classes, library]
    obtain ⟨h2, r, o, q1, q2, q3, q4, q5, q6⟩ := clustering_of hn hg hc baseCubicalInit_plain
      (by rw [e1]; exact ha.fit) ha.plain
    obtain ⟨l, cells, p1, p2, p3⟩ := C84_cubical_components I ρ hB hf q2 ho q6 q3 (std := true) (.inl q4)
      (cubAttrs_of I e1 rfl rfl rfl rfl rfl rfl ha q5) hA hk' hk hl hy hb
    exact ⟨l, cells, q1 _ _ _ _ p1 p2, p3⟩
  | proximity ha =>
    have hc : (library base I ρ).classes "ProximityCubicalCover" =
        some ⟨coverMembers, baseCubicalInit⟩ := by simp [World.classes, library]
    obtain ⟨h2, r, o, q1, q2, q3, q4, q5, q6⟩ := clustering_of hn hg hc baseCubicalInit_plain
      (by rw [e1]; exact ha.fit) ha.plain
    obtain ⟨l, cells, p1, p2, p3⟩ := C84_cubical_components I ρ hB hf q2 ho q6 q3 (std := false) (.inl q4)
      (cubAttrs_of I e1 rfl rfl rfl rfl rfl rfl ha q5) hA hk' hk hl hy hb
    exact ⟨l, cells, q1 _ _ _ _ p1 p2, p3⟩
  | cubical ha halg =>
    have hc : (library base I ρ).classes "CubicalCover" =
        some ⟨coverMembers, cubicalInit⟩ := by simp [World.classes, library]
    obtain ⟨h2, r, o, q1, q2, q3, q4, q5, q6⟩ := clustering_of hn hg hc cubicalInit_plain
      (by rw [e2]; exact ha.fit) ha.plain
    have h7 : o.attrs.get? "algorithm" = some (.str (if std then "standard" else "proximity")) := by
      rw [q5 "algorithm" _ rfl]
      change some (a.value cubicalInit.keys _ _) = _
      rw [e2, halg]
    have h8 : IsCubObject o std := by
      cases std
      · exact .inr ⟨q4, h7⟩
      · exact .inr ⟨q4, h7⟩
    obtain ⟨l, cells, p1, p2, p3⟩ := C84_cubical_components I ρ hB hf q2 ho q6 q3 (std := std) h8
      (cubAttrs_of I e2 rfl rfl rfl rfl rfl rfl ha q5) hA hk' hk hl hy hb
    exact ⟨l, cells, q1 _ _ _ _ p1 p2, p3⟩

/-- **C92.** `MapperClustering(KNNCover(...)).fit(X, y).labels_`, if no row coincides with as many others
as there are neighbours. -/
theorem C92_knn_labels (ho : ∀ l L, L ∈ base.setOrder l ↔ L ∈ l) {a : Args}
    {d : RVec k → RVec k → ℝ} {nb : ℕ} (ha : KnnArgs I a d nb) (hd : PseudoMetric d)
    (hdup : ∀ x ∈ realRows B, (realRows B).countP (fun z => decide (d x z = 0)) ≤ nb)
    (hA : A ≠ []) (hk' : 0 < k') (hk : 0 < k) (hl : B.length = A.length)
    (hy : y.getD (matrixInput A) = matrixInput B) :
    ∃ l charts,
      (clusteringCoverProgram (library base I ρ) fuel "KNNCover" a (matrixInput A) y h).1 =
        .ok (.labels l) ∧
      l.length = A.length ∧ Covers A.length charts ∧
      (∀ chart ∈ charts, ∃ x ∈ realRows B, NearestIndices d x nb (realRows B) chart) ∧
      ∀ i j, i < A.length → j < A.length → (l[i]? = l[j]? ↔ Linked (InOneChart charts) i j) := by
  have hc : (library base I ρ).classes "KNNCover" = some ⟨coverMembers, knnInit⟩ := by
    simp [World.classes, library]
  have e : knnInit.keys = knnParams := by decide +kernel
  obtain ⟨h2, r, o, q1, q2, q3, q4, q5, q6⟩ := clustering_of hn hg hc knnInit_plain
    (by rw [e]; exact ha.fit) ha.plain
  obtain ⟨l, charts, p1, p2, p3⟩ := C84_knn_components I ρ hB hf q2 ho q6 q3 q4
    (knnAttrs_of I ha q5) hd hdup hA hk' hk hl hy
  exact ⟨l, charts, q1 _ _ _ _ p1 p2, p3⟩

/-- **C92.** With no arguments, `MapperAlgorithm().fit_transform(X, y)` is a single node with all
rows. -/
theorem C92_nothing {kw : List (String × Val)} (hkw : AlgKwargs kw)
    (hA : A ≠ []) (hk' : 0 < k') (hk : 0 < k) (hl : B.length = A.length)
    (hy : IsLens (y.getD (matrixInput A)) B) :
    ∃ g, (mapperProgram (library base I ρ) fuel kw (matrixInput A) y h).1 = .ok (.graph g) ∧
      IsRegionGraph g (realRows B) [fun _ => True] := by
  have hB' : B ≠ [] := by
    rintro rfl
    exact hA (List.length_eq_zero_iff.mp hl.symm)
  have hpos : 0 < B.length := List.length_pos_iff.mpr hB'
  obtain ⟨h2, r, fs, q1, q2, q3⟩ := algorithm_of_none (W := library base I ρ) hg hkw
  obtain ⟨g, h6, h7⟩ := graph_of_charts (library base I ρ) h2 fuel .none fs hy hA hl hk' hk
    (charts := [List.range B.length]) (trivial_wellFormed hpos) (fun ay ry _ _ h12 => by
      have : 0 < ry.length := by rw [h12.length]; exact hpos
      rw [← h12.length]
      change trivialCover ry = _
      rw [trivialCover, if_pos this])
  refine ⟨g, ?_, regionGraph_of_nerve h7 ?_⟩
  · rw [q1, (C42_fit_transform (library_contract hB I ρ) hn hf q2 q3 _ _).2, h6]
    rfl
  · exact .cons ⟨trivial_lists B, by simp; omega⟩ .nil

/-- **C92.** With no arguments, `MapperClustering().fit(X, y).labels_` are the same for all rows. -/
theorem C92_nothing_labels (ho : ∀ l L, L ∈ base.setOrder l ↔ L ∈ l)
    (hA : A ≠ []) (hk' : 0 < k') (hk : 0 < k) (hl : B.length = A.length)
    (hy : IsLens (y.getD (matrixInput A)) B) :
    ∃ l, (clusteringProgram (library base I ρ) fuel (matrixInput A) y h).1 = .ok (.labels l) ∧
      l.length = A.length ∧ ∀ i j, i < A.length → j < A.length → l[i]? = l[j]? := by
  have hB' : B ≠ [] := by
    rintro rfl
    exact hA (List.length_eq_zero_iff.mp hl.symm)
  have hpos : 0 < B.length := List.length_pos_iff.mpr hB'
  obtain ⟨h2, r, q1, q2, q3⟩ := clustering_of_none (W := library base I ρ) hg
  obtain ⟨l, h6, h7, h8⟩ := labels_of_charts (library base I ρ) h2 fuel .none hy hA hl hk' hk
    (charts := [List.range B.length]) (trivial_wellFormed hpos)
    (fun i hi => ⟨List.range B.length, by simp, by simpa using hi⟩) ho (fun ay ry _ _ h12 => by
      have : 0 < ry.length := by rw [h12.length]; exact hpos
      rw [← h12.length]
      change trivialCover ry = _
      rw [trivialCover, if_pos this])
  obtain ⟨p1, p2, _⟩ := (C42_labels (library_contract hB I ρ) hf q2 q3 (matrixInput A) y).1 l k' h6
  refine ⟨l, q1 _ _ _ _ p1 p2, h7, fun i j hi hj => (h8 i j hi hj).mpr ?_⟩
  exact Relation.ReflTransGen.single
    ⟨List.range B.length, by simp, by simpa [hl] using hi, by simpa [hl] using hj⟩

/-- **C92.** With one interval per axis the graph is a single node with all rows. -/
theorem C92_one_interval {cls : String} {a : Args} {std : Bool} {p : ℝ}
    (ha : CubCall I k cls a std 1 p) {kw : List (String × Val)} (hkw : AlgKwargs kw)
    (hA : A ≠ []) (hk' : 0 < k') (hk : 0 < k) (hl : B.length = A.length)
    (hy : IsLens (y.getD (matrixInput A)) B) :
    ∃ g, (mapperCoverProgram (library base I ρ) fuel cls a kw (matrixInput A) y h).1 =
        .ok (.graph g) ∧ IsRegionGraph g (realRows B) [fun _ => True] := by
  have hY : realRows B ≠ [] := by
    intro h0
    have : (realRows B).length = B.length := by simp [realRows]
    rw [h0, hl] at this
    exact hA (List.length_eq_zero_iff.mp this.symm)
  obtain ⟨lo, hi, hb⟩ := exists_bounds (realRows B) hY
  obtain ⟨g, cells, h1, h2, h3, h4, h5, h6⟩ := C92_cubical hB I ρ hn hf hg ha hkw hA hk' hk hl hy hb
  have hall : ∀ c ∈ cells, c = fun _ => 0 := fun c hc => by
    obtain ⟨x, _, hx⟩ := h3 c hc
    exact one_cell hx
  have hcells : cells = [fun _ => 0] := by
    match cells, h2, hall, h5 with
    | [], _, _, h5 =>
      obtain ⟨z, hz⟩ := List.exists_mem_of_ne_nil _ hY
      obtain ⟨P, hP, _⟩ := h5 z hz
      simp at hP
    | [c], _, hall, _ => rw [hall c (by simp)]
    | c :: c' :: t, h2, hall, _ =>
      rw [hall c (by simp), hall c' (by simp)] at h2
      simp at h2
  subst hcells
  refine ⟨g, h1, h6.all fun z hz => ?_⟩
  obtain ⟨P, hP, hz'⟩ := h5 z hz
  rw [List.map_singleton, List.mem_singleton] at hP
  rw [← hP]
  exact hz'

end

/-! ## The hypotheses are met -/

/-- The calls without arguments. -/
example (I : Interp) (k : ℕ) :
    BallArgs I (k := k) ⟨[], []⟩ (fun x y => Real.sqrt (∑ i, (x i - y i) ^ 2)) 1 ∧
    KnnArgs I (k := k) ⟨[], []⟩ (fun x y => Real.sqrt (∑ i, (x i - y i) ^ 2)) 1 ∧
    CubCall I k "CubicalCover" ⟨[], []⟩ false 1 (defaultOverlap k) ∧
    CubCall I k "StandardCubicalCover" ⟨[], []⟩ true 1 (defaultOverlap k) ∧ AlgKwargs [] := by
  refine ⟨⟨⟨by simp, by decide, by simp⟩, ⟨by simp, by simp⟩, euclidean_param _ _,
      by exact_mod_cast IsNum.int 1, ⟨_, rfl, .inl rfl⟩, ⟨1, rfl, le_refl _⟩, .inl rfl⟩,
    ⟨⟨by simp, by decide, by simp⟩, ⟨by simp, by simp⟩, euclidean_param _ _, rfl, le_refl _,
      ⟨_, rfl, .inl rfl⟩, .inl rfl, ⟨0, by exact_mod_cast IsNum.int 0⟩⟩,
    .cubical ⟨⟨by simp, by decide, by simp⟩, ⟨by simp, by simp⟩, rfl, le_refl _, .inl ⟨rfl, rfl⟩,
      ⟨_, rfl, .inl rfl⟩, ⟨1, rfl, le_refl _⟩, .inl rfl⟩ rfl,
    .standard ⟨⟨by simp, by decide, by simp⟩, ⟨by simp, by simp⟩, rfl, le_refl _, .inl ⟨rfl, rfl⟩,
      ⟨_, rfl, .inl rfl⟩, ⟨1, rfl, le_refl _⟩, .inl rfl⟩,
    ⟨by simp, by simp, by simp⟩⟩

/-- `BallCover(2, kind="hierarchical")`, `CubicalCover(n_intervals=3, algorithm="standard")`,
`KNNCover(5)`, `failsafe=False`. -/
example (I : Interp) (k : ℕ) :
    BallArgs I (k := k) ⟨[.int 2], [("kind", .str "hierarchical")]⟩
      (fun x y => Real.sqrt (∑ i, (x i - y i) ^ 2)) 2 ∧
    KnnArgs I (k := k) ⟨[.int 5], []⟩ (fun x y => Real.sqrt (∑ i, (x i - y i) ^ 2)) 5 ∧
    CubCall I k "CubicalCover" ⟨[], [("n_intervals", .int 3), ("algorithm", .str "standard")]⟩ true 3
      (defaultOverlap k) ∧ AlgKwargs [("failsafe", .bool false)] := by
  refine ⟨⟨⟨by decide, by decide, by decide⟩, ⟨by simp [IsPlain], by simp [IsPlain]⟩,
      euclidean_param _ _, by exact_mod_cast IsNum.int 2, ⟨_, rfl, .inr rfl⟩, ⟨1, rfl, le_refl _⟩,
      .inl rfl⟩,
    ⟨⟨by decide, by decide, by simp⟩, ⟨by simp [IsPlain], by simp⟩, euclidean_param _ _, rfl,
      by decide, ⟨_, rfl, .inl rfl⟩, .inl rfl, ⟨0, by exact_mod_cast IsNum.int 0⟩⟩,
    .cubical ⟨⟨by simp, by decide, by decide⟩, ⟨by simp, by simp [IsPlain]⟩, rfl, by decide,
      .inl ⟨rfl, rfl⟩, ⟨_, rfl, .inl rfl⟩, ⟨1, rfl, le_refl _⟩, .inl rfl⟩ rfl,
    ⟨by decide, by simp, by simp [IsPlain]⟩⟩

/-- The empty heap is good. -/
theorem goodHeap_nil : GoodHeap [] 2 := by
  refine ⟨fun r o e => by simp at e, ?_, ?_⟩
  · rintro r k b ⟨o, e, _⟩; simp at e
  · intro r ks b hre
    cases hre with
    | nil => simp
    | cons hp _ => obtain ⟨o, e, _⟩ := hp; simp at e

/-- A program from an empty heap: `MapperAlgorithm(BallCover(2)).fit_transform(X)` for three points of
the plane. -/
example : ∃ g centres,
    (mapperCoverProgram libWorld 2 "BallCover" ⟨[.int 2], []⟩ [] (matrixInput libData) none []).1 =
      .ok (.graph g) ∧
    IsNet (fun x y : RVec 2 => Real.sqrt (∑ i, (x i - y i) ^ 2)) 2 (realRows libData) centres ∧
    IsRegionGraph g (realRows libData)
      (centres.map (openBall (fun x y => Real.sqrt (∑ i, (x i - y i) ^ 2)) 2)) :=
  C92_ball exWorld_contract noInterp (fun _ => 0) (le_refl 2) (le_refl 2) goodHeap_nil
    ⟨⟨by decide, by decide, by simp⟩, ⟨by simp [IsPlain], by simp⟩, euclidean_param _ _,
      by exact_mod_cast IsNum.int 2, ⟨_, rfl, .inl rfl⟩, ⟨1, rfl, le_refl _⟩, .inl rfl⟩
    C47_euclidean.2.pseudo (by norm_num) ⟨by simp, by simp, by simp⟩ (by simp [libData])
    (by decide) (by decide) rfl rfl

/-- The programs `MapperClustering(KNNCover(2)).fit(X).labels_` and
`MapperClustering(CubicalCover(2)).fit(X, y).labels_`, the latter with a one-dimensional lens. -/
example : (∃ l charts,
    (clusteringCoverProgram libWorld 2 "KNNCover" ⟨[.int 2], []⟩ (matrixInput libData) none []).1 =
      .ok (.labels l) ∧ l.length = 3 ∧ Covers 3 charts ∧
      ∀ i j, i < 3 → j < 3 → (l[i]? = l[j]? ↔ Linked (InOneChart charts) i j)) ∧
    ∃ l, (clusteringCoverProgram libWorld 2 "CubicalCover" ⟨[.int 2], []⟩ (matrixInput libData)
      (some (vectorInput libLens)) []).1 = .ok (.labels l) ∧ l.length = 3 := by
  constructor
  · obtain ⟨l, charts, h1, h2, h3, _, h4⟩ := C92_knn_labels exWorld_contract noInterp (fun _ => 0)
      (h := []) (le_refl 2) (le_refl 2) goodHeap_nil (y := none) (A := libData) (fun _ _ => Iff.rfl)
      (a := ⟨[.int 2], []⟩) (nb := 2)
      ⟨⟨by decide, by decide, by simp⟩, ⟨by simp [IsPlain], by simp⟩, euclidean_param _ _, rfl,
        by decide, ⟨_, rfl, .inl rfl⟩, .inl rfl, ⟨_, IsNum.int 0⟩⟩
      C47_euclidean.2.pseudo libData_distinct (by simp [libData]) (by decide) (by decide) rfl rfl
    exact ⟨l, charts, h1, h2, h3, h4⟩
  · obtain ⟨l, _, h1, h2, _⟩ := C92_cubical_labels exWorld_contract noInterp (fun _ => 0)
      (h := []) (le_refl 2) (le_refl 2) goodHeap_nil (y := some (vectorInput libLens)) (A := libData)
      (fun _ _ => Iff.rfl) (a := ⟨[.int 2], []⟩) (cls := "CubicalCover") (std := false) (m := 2)
      (p := defaultOverlap 1) (.cubical
        ⟨⟨by decide, by decide, by simp⟩, ⟨by simp [IsPlain], by simp⟩, rfl, by decide,
          .inl ⟨rfl, rfl⟩, ⟨_, rfl, .inl rfl⟩, ⟨1, rfl, le_refl _⟩, .inl rfl⟩ rfl)
      (by simp [libData]) (by decide) (by decide) rfl (IsLens.vector libLens) libLens_bounds
    exact ⟨l, h1, h2⟩

/-- A misspelt parameter. -/
example : (construct libWorld "BallCover" ⟨[], [("radus", .int 2)]⟩ []).1 = .error .typeError := by
  obtain ⟨c, hc, hk⟩ := (C92_parameters exWorld noInterp (fun _ => 0)).1
  have h := (C92_construct (W := libWorld) hc ⟨[], [("radus", .int 2)]⟩ []).2 (fun h => by
    have := h.known ("radus", .int 2) (by simp)
    rw [hk] at this
    exact absurd this (by decide))
  rw [h]

end Verif
