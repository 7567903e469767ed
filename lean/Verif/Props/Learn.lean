import Verif.Proof.LearnHistory
import Verif.Proof.LearnAgree

/-!
# C42–C44: `MapperAlgorithm` and `MapperClustering`

What the estimators should compute is `expectedGraph` and `expectedLabels` of
`Verif.Spec.Learn`: the functions of `core.py` applied to the validated data, with
the cover and the clustering given by the parameters.
-/

set_option autoImplicit false

namespace Verif

/-! ### A world and a heap for the examples -/

/-- A cover class and a clustering class of another library. The cover yields one
chart with all points; the clustering labels points by the parity of their position. -/
def exWorld : World where
  others := fun cls =>
    if cls = "Cov" then some ⟨["apply", "get_params", "set_params"], ⟨[("radius", .int 1)]⟩⟩
    else if cls = "KM" then some ⟨["fit", "get_params", "set_params"], ⟨[("n_clusters", .int 8)]⟩⟩
    else none
  fit := fun _ a X => (a.set "labels_" (.labels (X.mapIdx fun i _ => (i : ℤ) % 2)), .ok ())
  apply := fun _ a y => (a.set "_n" (.int y.length), .ok [List.range y.length])
  setOrder := id

theorem exWorld_contract : Contract exWorld where
  fit_public := fun _ _ _ => samePublic_set _ private_labels _
  fit_nodup := fun _ _ _ h => PyDict.nodup_keys_set h _ _
  apply_public := fun _ _ _ => samePublic_set _ (by decide +kernel) _
  apply_nodup := fun _ _ _ h => PyDict.nodup_keys_set h _ _
  fit_result := fun _ _ _ _ _ => rfl
  fit_labels := fun _ _ _ _ _ _ => by
    show (PyDict.set _ _ _).get? _ = (PyDict.set _ _ _).get? _
    rw [PyDict.get?_set, PyDict.get?_set, if_pos rfl, if_pos rfl]

/-- `Cov(radius=2)`. -/
def exCov : Obj := ⟨"Cov", ⟨[("radius", .int 2)]⟩⟩
/-- `KM(n_clusters=2)`. -/
def exKM : Obj := ⟨"KM", ⟨[("n_clusters", .int 2)]⟩⟩
/-- `FailSafeClustering(KM(...))`. -/
def exFS : Obj := ⟨"FailSafeClustering", ⟨[("clustering", .obj 1), ("verbose", .bool true)]⟩⟩
/-- `MapperAlgorithm(cover, clustering)` with the clustering at address `k`. -/
def exAlg (k : ℕ) : Obj := ⟨"MapperAlgorithm", ⟨[("cover", .obj 0), ("clustering", .obj k),
  ("failsafe", .bool true), ("verbose", .bool true), ("n_jobs", .int 1)]⟩⟩
/-- `MapperClustering(cover, clustering)`. -/
def exMC : Obj := ⟨"MapperClustering", ⟨[("cover", .obj 0), ("clustering", .obj 1),
  ("n_jobs", .int 1)]⟩⟩

/-- The heap: a cover, a clustering, a wrapped clustering, two `MapperAlgorithm`s and
a `MapperClustering`. -/
def exObjects : Heap := [exCov, exKM, exFS, exAlg 1, exAlg 2, exMC]

theorem exObjects_named : WellNamed exObjects := by
  intro r o e
  match r, e with
  | 0, e => cases e; decide +kernel
  | 1, e => cases e; decide +kernel
  | 2, e => cases e; decide +kernel
  | 3, e => cases e; decide +kernel
  | 4, e => cases e; decide +kernel
  | 5, e => cases e; decide +kernel
  | r + 6, e => simp [exObjects] at e

theorem exObjects_attr {r b : ℕ} {k : String} (hp : PublicAttr exObjects r k (.obj b)) :
    (b = 0 ∨ b = 1 ∨ b = 2) ∧ 2 ≤ r ∧ (r = 2 → b = 1) ∧ r ≤ 5 := by
  obtain ⟨o, e, hk, _⟩ := hp
  match r, e with
  | 0, e => cases e; have := PyDict.mem_of_get?_eq_some hk; simp [exCov] at this
  | 1, e => cases e; have := PyDict.mem_of_get?_eq_some hk; simp [exKM] at this
  | 2, e => cases e; have := PyDict.mem_of_get?_eq_some hk; simp [exFS] at this; omega
  | 3, e => cases e; have := PyDict.mem_of_get?_eq_some hk; simp [exAlg] at this; omega
  | 4, e => cases e; have := PyDict.mem_of_get?_eq_some hk; simp [exAlg] at this; omega
  | 5, e => cases e; have := PyDict.mem_of_get?_eq_some hk; simp [exMC] at this; omega
  | r + 6, e => simp [exObjects] at e

theorem exObjects_good : GoodHeap exObjects 3 := by
  refine ⟨exObjects_named, ?_, ?_⟩
  · intro r k b hp
    have := exObjects_attr hp
    show b < 6
    omega
  · intro r ks b hre
    cases hre with
    | nil => simp
    | cons h1 hre =>
      cases hre with
      | nil => simp
      | cons h2 hre =>
        cases hre with
        | nil => simp
        | cons h3 hre =>
          have := exObjects_attr h1
          have := exObjects_attr h2
          have := exObjects_attr h3
          omega

theorem exObjects_cov : Cloneable exWorld exObjects (.obj 0) :=
  Or.inr ⟨0, exCov, _, rfl, rfl, by rw [World.classes]; rfl, by decide +kernel,
    fun k _ => by simp [exCov, PyDict.keys]⟩

theorem exObjects_km : Cloneable exWorld exObjects (.obj 1) :=
  Or.inr ⟨1, exKM, _, rfl, rfl, by rw [World.classes]; rfl, by decide +kernel,
    fun k _ => by simp [exKM, PyDict.keys]⟩

theorem exObjects_fs : Cloneable exWorld exObjects (.obj 2) :=
  Or.inr ⟨2, exFS, _, rfl, rfl, byInit_failSafe _ _ _⟩

/-- No `MapperClustering` is nested in the first three objects. -/
theorem exObjects_ready {r : ℕ} (hr : r < 3) : MapperReady exWorld exObjects r := by
  intro ks a o hre ea hcl
  have ha : a < 3 := by
    cases hre with
    | nil => exact hr
    | cons hp hre =>
      have key : ∀ {b a : ℕ} {ks : List String}, Reaches exObjects b ks a → b < 3 → a < 3 := by
        intro b a ks hre
        induction hre with
        | nil => exact fun h => h
        | cons hp _ ih =>
          intro _
          have := exObjects_attr hp
          exact ih (by omega)
      have := exObjects_attr hp
      exact key hre (by omega)
  match a, ea with
  | 0, ea => cases ea; exact absurd hcl (by decide)
  | 1, ea => cases ea; exact absurd hcl (by decide)
  | 2, ea => cases ea; exact absurd hcl (by decide)
  | a + 3, _ => omega

theorem exObjects_km' : CloneableClust exWorld exObjects (.obj 1) :=
  ⟨exObjects_km, fun r h => by cases h; exact exObjects_ready (by decide)⟩

theorem exObjects_fs' : CloneableClust exWorld exObjects (.obj 2) :=
  ⟨exObjects_fs, fun r h => by cases h; exact exObjects_ready (by decide)⟩

/-- The `MapperClustering` has its parameters, and they can be cloned. -/
theorem exObjects_ready_mc : MapperReady exWorld exObjects 5 := by
  intro ks a o hre ea hcl
  cases hre with
  | nil =>
    cases ea
    exact ⟨_, _, _, rfl, rfl, rfl, exObjects_cov, exObjects_km⟩
  | cons hp hre => exact exObjects_ready (by have := exObjects_attr hp; omega) _ _ _ hre ea hcl

theorem exObjects_alg : IsAlgorithm exWorld exObjects 3 (.obj 0) (.obj 1) (.bool true) :=
  ⟨exAlg 1, .bool true, .int 1, rfl, rfl, rfl, rfl, rfl, rfl, rfl, (fun _ h => by cases h),
    exObjects_cov, exObjects_km'⟩

theorem exObjects_alg' : IsAlgorithm exWorld exObjects 4 (.obj 0) (.obj 2) (.bool true) :=
  ⟨exAlg 2, .bool true, .int 1, rfl, rfl, rfl, rfl, rfl, rfl, rfl, (fun _ h => by cases h),
    exObjects_cov, exObjects_fs'⟩

theorem exObjects_mc : IsMapperClustering exWorld exObjects 5 (.obj 0) (.obj 1) :=
  ⟨exMC, .int 1, rfl, rfl, rfl, rfl, rfl, exObjects_cov, exObjects_km'⟩

/-- The array `[[1], [2], [3]]`. -/
def exInput : Input := ⟨false, .ok ⟨[3, 1], .real [.finite 1, .finite 2, .finite 3]⟩⟩
/-- The array `[[1], [nan], [3]]`. -/
def exNan : Input := ⟨false, .ok ⟨[3, 1], .real [.finite 1, .nan, .finite 3]⟩⟩

/-! ### C42 -/

/-- **C42.** `MapperAlgorithm.fit(X, y)`: if `mapper_graph`, on the validated data
(`y` is `X` when `None`), with the cover and the clustering of the parameters
(trivial ones when `None`, wrapped failsafe when requested) returns a graph, then
`fit` returns, and `graph_` is that graph and `n_features_in_` the number of columns.
If not, `fit` raises the same exception and the attributes `graph_` and
`n_features_in_` are as before. -/
theorem C42_graph {W : World} (hW : Contract W) {n fuel : ℕ} (hn : 2 ≤ n) (hf : n ≤ fuel)
    {h : Heap} (hg : GoodHeap h n) {r : ℕ} {cover clust failsafe : Val}
    (ha : IsAlgorithm W h r cover clust failsafe) (X : Input) (y : Option Input) :
    let run := mapperAlgorithmFit W fuel r X y h
    (∀ g m, expectedGraph W h fuel cover clust failsafe X y = .ok (g, m) →
      run.1 = .ok () ∧ attrAt run.2 r "graph_" = some (.graph g) ∧
        attrAt run.2 r "n_features_in_" = some (.int m)) ∧
    (∀ e, expectedGraph W h fuel cover clust failsafe X y = .error e →
      run.1 = .error e ∧ attrAt run.2 r "graph_" = attrAt h r "graph_" ∧
        attrAt run.2 r "n_features_in_" = attrAt h r "n_features_in_") := by
  obtain ⟨o, vv, vj, eo, _, h1, h2, h3, h4, h5, h6, h7, h8⟩ := ha
  have hs := (mapperAlgorithmFit_spec hW hf hn hg eo h1 h2 h3 h4 h5 h7 h8 h6 X y).1
  simp only
  constructor
  · intro g m he
    rw [he] at hs
    obtain ⟨q1, a, q2, q3, q4⟩ := hs
    exact ⟨q1, by simp only [attrAt, q2, Option.bind_some]; exact q3,
      by simp only [attrAt, q2, Option.bind_some]; exact q4⟩
  · intro e he
    rw [he] at hs
    obtain ⟨q1, a, q2, q3⟩ := hs
    refine ⟨q1, ?_, ?_⟩
    · simp only [attrAt, q2, eo, Option.bind_some]
      exact q3 _ (by simp [resultNames])
    · simp only [attrAt, q2, eo, Option.bind_some]
      exact q3 _ (by simp [resultNames])

/-- The hypotheses are met: the graph of the example has two nodes, for the labels 0
(positions 0 and 2) and 1. -/
example : ∃ g, attrAt (mapperAlgorithmFit exWorld 3 3 exInput none exObjects).2 3 "graph_" =
    some (.graph g) ∧ g.nodes.keys = [0, 1] := by
  obtain ⟨q1, _⟩ := C42_graph exWorld_contract (by decide) (le_refl 3) exObjects_good exObjects_alg
    exInput none
  cases he : expectedGraph exWorld exObjects 3 (.obj 0) (.obj 1) (.bool true) exInput none with
  | ok p =>
    refine ⟨p.1, (q1 p.1 p.2 he).2.1, ?_⟩
    have h2 : (expectedGraph exWorld exObjects 3 (.obj 0) (.obj 1) (.bool true) exInput none).map
        (fun p => p.1.nodes.keys) = .ok [0, 1] := by with_unfolding_all rfl
    rw [he] at h2
    injection h2
  | error e =>
    have h2 : (expectedGraph exWorld exObjects 3 (.obj 0) (.obj 1) (.bool true) exInput none).map
        (fun p => p.1.nodes.keys) = .ok [0, 1] := by with_unfolding_all rfl
    rw [he] at h2
    cases h2

/-- **C42.** `fit_transform` runs `fit` and returns `graph_`. -/
theorem C42_fit_transform {W : World} (hW : Contract W) {n fuel : ℕ} (hn : 2 ≤ n) (hf : n ≤ fuel)
    {h : Heap} (hg : GoodHeap h n) {r : ℕ} {cover clust failsafe : Val}
    (ha : IsAlgorithm W h r cover clust failsafe) (X : Input) (y : Option Input) :
    (mapperFitTransform W fuel r X y h).2 = (mapperAlgorithmFit W fuel r X y h).2 ∧
    (mapperFitTransform W fuel r X y h).1 =
      (expectedGraph W h fuel cover clust failsafe X y).map fun p => .graph p.1 := by
  obtain ⟨o, vv, vj, eo, _, h1, h2, h3, h4, h5, h6, h7, h8⟩ := ha
  have hs := (mapperAlgorithmFit_spec hW hf hn hg eo h1 h2 h3 h4 h5 h7 h8 h6 X y).1
  rw [mapperFitTransform, run_bind]
  cases hr : mapperAlgorithmFit W fuel r X y h with
  | mk res h' =>
    rw [hr] at hs
    cases he : expectedGraph W h fuel cover clust failsafe X y with
    | ok p =>
      rw [he] at hs
      obtain ⟨q1, a, q2, q3, q4⟩ := hs
      simp only at q1 q2
      subst q1
      simp only
      rw [run_readAttr_some q2 q3]
      exact ⟨rfl, rfl⟩
    | error e =>
      rw [he] at hs
      obtain ⟨q1, a, q2, q3⟩ := hs
      simp only at q1
      subst q1
      exact ⟨rfl, rfl⟩

example : ∃ g, (mapperFitTransform exWorld 3 3 exInput none exObjects).1 = .ok (.graph g) := by
  rw [(C42_fit_transform exWorld_contract (by decide) (le_refl 3) exObjects_good exObjects_alg
    exInput none).2]
  exact ⟨_, by with_unfolding_all rfl⟩

/-- **C42.** `MapperClustering.fit(X, y)`: `labels_` is what
`mapper_connected_components` returns on the validated data, or the same exception is
raised and the previous results are kept. -/
theorem C42_labels {W : World} (hW : Contract W) {n fuel : ℕ} (hf : n ≤ fuel)
    {h : Heap} (hg : GoodHeap h n) {r : ℕ} {cover clust : Val}
    (ha : IsMapperClustering W h r cover clust) (X : Input) (y : Option Input) :
    let run := mapperClusteringFit W fuel r X y h
    (∀ l m, expectedLabels W h fuel cover clust X y = .ok (l, m) →
      run.1 = .ok () ∧ attrAt run.2 r "labels_" = some (.labels l) ∧
        attrAt run.2 r "n_features_in_" = some (.int m)) ∧
    (∀ e, expectedLabels W h fuel cover clust X y = .error e →
      run.1 = .error e ∧ attrAt run.2 r "labels_" = attrAt h r "labels_" ∧
        attrAt run.2 r "n_features_in_" = attrAt h r "n_features_in_") := by
  obtain ⟨o, vj, eo, _, h1, h2, h5, h7, h8⟩ := ha
  have hs := (mapperClusteringFit_spec hW hf hg eo h1 h2 h5 h7 h8 X y).1
  simp only
  constructor
  · intro g m he
    rw [he] at hs
    obtain ⟨q1, a, q2, q3, q4⟩ := hs
    exact ⟨q1, by simp only [attrAt, q2, Option.bind_some]; exact q3,
      by simp only [attrAt, q2, Option.bind_some]; exact q4⟩
  · intro e he
    rw [he] at hs
    obtain ⟨q1, a, q2, q3⟩ := hs
    refine ⟨q1, ?_, ?_⟩
    · simp only [attrAt, q2, eo, Option.bind_some]
      exact q3 _ (by simp [resultNames])
    · simp only [attrAt, q2, eo, Option.bind_some]
      exact q3 _ (by simp [resultNames])

example : attrAt (mapperClusteringFit exWorld 3 5 exInput none exObjects).2 5 "labels_" =
    some (.labels [0, 1, 0]) :=
  ((C42_labels exWorld_contract (le_refl 3) exObjects_good exObjects_mc exInput none).1
    [0, 1, 0] 1 (by with_unfolding_all rfl)).2.1

theorem valid_alg_iff {W : World} {h : Heap} {r : ℕ} {cover clust failsafe : Val}
    (ha : IsAlgorithm W h r cover clust failsafe) {c : FitCall} (ht : c.target = r) {cl : Val}
    (hv : c.Valid W h cl) : c.algorithm = true := by
  by_contra hc
  unfold FitCall.Valid at hv
  rw [if_neg hc] at hv
  obtain ⟨_, o, _, eo, hcls, _⟩ := hv
  obtain ⟨o', _, _, eo', hcls', _⟩ := ha
  rw [ht, eo'] at eo
  cases eo
  rw [hcls'] at hcls
  exact absurd hcls (by decide)

theorem valid_mc_iff {W : World} {h : Heap} {r : ℕ} {cover clust : Val}
    (ha : IsMapperClustering W h r cover clust) {c : FitCall} (ht : c.target = r) {cl : Val}
    (hv : c.Valid W h cl) : ¬ c.algorithm = true := by
  intro hc
  unfold FitCall.Valid at hv
  rw [if_pos hc] at hv
  obtain ⟨_, _, o, _, _, eo, hcls, _⟩ := hv
  obtain ⟨o', _, eo', hcls', _⟩ := ha
  rw [ht, eo'] at eo
  cases eo
  rw [hcls'] at hcls
  exact absurd hcls (by decide)

/-- **C42 (histories).** After any history of `fit` calls on any `MapperAlgorithm`s and
`MapperClustering`s, succeeding or failing, the attribute `graph_` of a
`MapperAlgorithm` is the graph of the last successful call on it (as computed from
its parameters at the start), or the one it had at the start. The object must
not itself be wrapped by the clustering of one of the fitted objects. -/
theorem C42_history {W : World} (hW : Contract W) {n fuel : ℕ} (hn : 2 ≤ n) (hf : n ≤ fuel)
    {r : ℕ} {cover clust failsafe : Val} :
    ∀ (calls : List FitCall) {h : Heap}, GoodHeap h n →
    IsAlgorithm W h r cover clust failsafe →
    (∀ c ∈ calls, ∃ cl, c.Valid W h cl ∧ ¬ SharedIn h cl r) →
    attrAt (runCalls W fuel calls h) r "graph_" =
      lastResult r (fun X y => (expectedGraph W h fuel cover clust failsafe X y).map
        fun p => Val.graph p.1) calls (attrAt h r "graph_") := by
  intro calls
  induction calls with
  | nil => intro h _ _ _; rfl
  | cons c cs ih =>
    intro h hg ha hv
    obtain ⟨cl, hc, hnest⟩ := hv c List.mem_cons_self
    obtain ⟨hg1, hev1⟩ := run_call hW hf hn hg hc
    have hcc := ha
    obtain ⟨_, _, _, _, _, _, _, _, _, _, _, hcov, hclu⟩ := hcc
    have ih1 := ih hg1 (ha.evolve hg hev1) (fun c' hc' => by
      obtain ⟨cl', h1, h2⟩ := hv c' (List.mem_cons_of_mem _ hc')
      exact ⟨cl', h1.evolve hg hev1, fun h3 => h2 (h3.evolve hg hev1 h1.cloneable)⟩)
    rw [runCalls, ih1]
    simp only [expectedGraph_congr hW hg hev1 hcov hclu.1]
    rw [lastResult]
    by_cases ht : c.target = r
    · rw [if_pos ht]
      have halg := valid_alg_iff ha ht hc
      obtain ⟨q1, q2⟩ := C42_graph hW hn hf hg ha c.X c.y
      rw [← ht] at q1 q2
      have hrun : c.run W fuel h = mapperAlgorithmFit W fuel c.target c.X c.y h := by
        rw [FitCall.run, if_pos halg]
      cases he : expectedGraph W h fuel cover clust failsafe c.X c.y with
      | ok p =>
        rw [hrun, ← ht, (q1 p.1 p.2 he).2.1]
        rfl
      | error e =>
        rw [hrun, ← ht, (q2 e he).2.1]
        rfl
    · rw [if_neg ht]
      congr 1
      obtain ⟨o, _, _, eo, _⟩ := ha
      simp only [attrAt]
      rw [hev1.frame r (lt_of_getElem? eo)]
      rintro (h1 | h1)
      · exact ht h1.symm
      · exact hnest h1

/-- **C42 (histories).** The same for `labels_` of a `MapperClustering`. -/
theorem C42_history_labels {W : World} (hW : Contract W) {n fuel : ℕ} (hn : 2 ≤ n) (hf : n ≤ fuel)
    {r : ℕ} {cover clust : Val} :
    ∀ (calls : List FitCall) {h : Heap}, GoodHeap h n →
    IsMapperClustering W h r cover clust →
    (∀ c ∈ calls, ∃ cl, c.Valid W h cl ∧ ¬ SharedIn h cl r) →
    attrAt (runCalls W fuel calls h) r "labels_" =
      lastResult r (fun X y => (expectedLabels W h fuel cover clust X y).map
        fun p => Val.labels p.1) calls (attrAt h r "labels_") := by
  intro calls
  induction calls with
  | nil => intro h _ _ _; rfl
  | cons c cs ih =>
    intro h hg ha hv
    obtain ⟨cl, hc, hnest⟩ := hv c List.mem_cons_self
    obtain ⟨hg1, hev1⟩ := run_call hW hf hn hg hc
    have hcc := ha
    obtain ⟨_, _, _, _, _, _, _, hcov, hclu⟩ := hcc
    have ih1 := ih hg1 (ha.evolve hg hev1) (fun c' hc' => by
      obtain ⟨cl', h1, h2⟩ := hv c' (List.mem_cons_of_mem _ hc')
      exact ⟨cl', h1.evolve hg hev1, fun h3 => h2 (h3.evolve hg hev1 h1.cloneable)⟩)
    rw [runCalls, ih1]
    simp only [expectedLabels_congr hW hg hev1 hcov hclu.1]
    rw [lastResult]
    by_cases ht : c.target = r
    · rw [if_pos ht]
      have halg := valid_mc_iff ha ht hc
      obtain ⟨q1, q2⟩ := C42_labels hW hf hg ha c.X c.y
      rw [← ht] at q1 q2
      have hrun : c.run W fuel h = mapperClusteringFit W fuel c.target c.X c.y h := by
        rw [FitCall.run, if_neg halg]
      cases he : expectedLabels W h fuel cover clust c.X c.y with
      | ok p =>
        rw [hrun, ← ht, (q1 p.1 p.2 he).2.1]
        rfl
      | error e =>
        rw [hrun, ← ht, (q2 e he).2.1]
        rfl
    · rw [if_neg ht]
      congr 1
      obtain ⟨o, _, eo, _⟩ := ha
      simp only [attrAt]
      rw [hev1.frame r (lt_of_getElem? eo)]
      rintro (h1 | h1)
      · exact ht h1.symm
      · exact hnest h1

theorem exObjects_not_nested {v : Val} {b : ℕ} (hb : 3 ≤ b) : ¬ SharedIn exObjects v b := by
  rintro ⟨r, _, hs⟩
  obtain ⟨ks, hne, hre⟩ := hs.reaches
  have key : ∀ {r b : ℕ} {ks : List String}, Reaches exObjects r ks b → ks ≠ [] → b < 3 := by
    intro r b ks hre
    induction hre with
    | nil => intro h; exact absurd rfl h
    | @cons r r' r'' k ks hp hre ih =>
      intro _
      cases hre with
      | nil => have := exObjects_attr hp; omega
      | cons h1 h2 => exact ih (by simp)
  have := key hre hne
  omega

/-- The hypotheses are met by a history with a successful fit, fits of other objects
that share the clustering, and a failing fit. -/
example : ∃ g, attrAt (runCalls exWorld 3 [⟨true, 3, exInput, none⟩, ⟨true, 4, exInput, none⟩,
    ⟨false, 5, exInput, none⟩, ⟨true, 3, exNan, none⟩] exObjects) 3 "graph_" = some (.graph g) := by
  rw [C42_history exWorld_contract (by decide) (le_refl 3) _ exObjects_good exObjects_alg]
  · exact ⟨_, by with_unfolding_all rfl⟩
  · intro c hc
    simp only [List.mem_cons, List.not_mem_nil, or_false] at hc
    rcases hc with rfl | rfl | rfl | rfl
    · exact ⟨_, ⟨_, _, exObjects_alg⟩, exObjects_not_nested (by decide)⟩
    · exact ⟨_, ⟨_, _, exObjects_alg'⟩, exObjects_not_nested (by decide)⟩
    · exact ⟨_, ⟨_, exObjects_mc⟩, exObjects_not_nested (by decide)⟩
    · exact ⟨_, ⟨_, _, exObjects_alg⟩, exObjects_not_nested (by decide)⟩

example : attrAt (runCalls exWorld 3 [⟨true, 4, exInput, none⟩,
    ⟨false, 5, exInput, none⟩, ⟨false, 5, exNan, none⟩] exObjects) 5 "labels_" =
      some (.labels [0, 1, 0]) := by
  rw [C42_history_labels exWorld_contract (by decide) (le_refl 3) _ exObjects_good exObjects_mc]
  · with_unfolding_all rfl
  · intro c hc
    simp only [List.mem_cons, List.not_mem_nil, or_false] at hc
    rcases hc with rfl | rfl | rfl
    · exact ⟨_, ⟨_, _, exObjects_alg'⟩, exObjects_not_nested (by decide)⟩
    · exact ⟨_, ⟨_, exObjects_mc⟩, exObjects_not_nested (by decide)⟩
    · exact ⟨_, ⟨_, exObjects_mc⟩, exObjects_not_nested (by decide)⟩

/-! ### C43 -/

/-- **C43.** For arguments that hold numbers, `fit` raises `ValueError` before doing
anything, in both classes, if the data is rejected (sparse `X`, no entries,
one-dimensional `X`, complex, NaN or infinite entries). -/
theorem C43_rejects {X : Input} {y : Option Input} {aX ay : NdArray} (hX : X.asArray = .ok aX)
    (hy : (y.getD X).asArray = .ok ay) (nX : HoldsNumbers aX.entries)
    (ny : HoldsNumbers ay.entries) (hr : Rejected X aX ay) (W : World) (fuel r : ℕ) (h : Heap) :
    mapperAlgorithmFit W fuel r X y h = (.error .valueError, h) ∧
    mapperClusteringFit W fuel r X y h = (.error .valueError, h) := by
  have hv := (validateXy_numbers hX hy nX ny).1 hr
  rw [mapperAlgorithmFit, mapperClusteringFit, mapperClusteringFitWith, run_bind, run_bind, run_lift, hv]
  exact ⟨rfl, rfl⟩

example (W : World) (h : Heap) : mapperAlgorithmFit W 3 0 exNan none h = (.error .valueError, h) :=
  (C43_rejects (aX := ⟨[3, 1], .real [.finite 1, .nan, .finite 3]⟩)
    (ay := ⟨[3, 1], .real [.finite 1, .nan, .finite 3]⟩) rfl rfl (Or.inr ⟨_, .real _⟩)
    (Or.inr ⟨_, .real _⟩)
    (Or.inr (Or.inr (Or.inr (Or.inr (Or.inr (Or.inr (Or.inl ⟨_, .nan, .real _, by simp,
      by rintro ⟨x, hx⟩; cases hx⟩))))))) W 3 0 h).1

/-- **C43.** For arguments that hold numbers, validation raises `ValueError` exactly for
rejected data, and otherwise passes on the shape and the numbers unchanged. -/
theorem C43_exactly {X y : Input} {aX ay : NdArray} (hX : X.asArray = .ok aX)
    (hy : y.asArray = .ok ay) (nX : HoldsNumbers aX.entries) (ny : HoldsNumbers ay.entries) :
    (validateXy X y = .error .valueError ↔ Rejected X aX ay) ∧
    (¬ Rejected X aX ay → ∃ lx ly, HoldsFloats aX.entries lx ∧ HoldsFloats ay.entries ly ∧
      validateXy X y = .ok (⟨aX.shape, lx⟩, ⟨ay.shape, ly⟩)) := by
  obtain ⟨h1, h2⟩ := validateXy_numbers hX hy nX ny
  refine ⟨⟨fun h => ?_, h1⟩, fun h => ?_⟩
  · by_contra hr
    obtain ⟨_, _, _, _, _, _, h3⟩ := h2 hr
    rw [h] at h3
    cases h3
  · obtain ⟨lx, ly, h3, h4, _, _, h5⟩ := h2 h
    exact ⟨lx, ly, h3, h4, h5⟩

example : ¬ Rejected exInput ⟨[3, 1], .real [.finite 1, .finite 2, .finite 3]⟩
    ⟨[3, 1], .real [.finite 1, .finite 2, .finite 3]⟩ := by
  intro h
  have := (C43_exactly (X := exInput) (y := exInput) rfl rfl (Or.inr ⟨_, .real _⟩)
    (Or.inr ⟨_, .real _⟩)).1.mpr h
  cases this

/-- **C43.** No NaN or infinity reaches the cover or the clustering: if two
implementations of covers and clusterings behave alike on all data without NaN and
infinities, then every `fit` has the same outcome and effect with both, whatever
the input. -/
theorem C43_only_finite {W W' : World} (hA : AgreeOnFinite W W') (c : FitCall) (fuel : ℕ)
    (h : Heap) : c.run W fuel h = c.run W' fuel h := by
  unfold FitCall.run
  rw [mapperAlgorithmFit_agree hA, mapperClusteringFit_agree hA]

open Classical in
/-- An implementation that differs from `exWorld` on other data. -/
noncomputable def exStrict : World where
  others := exWorld.others
  fit := fun cls a X => if ∀ x ∈ X, AllFinite x then exWorld.fit cls a X
    else (a, .error .zeroDivisionError)
  apply := exWorld.apply
  setOrder := exWorld.setOrder

theorem exStrict_agree : AgreeOnFinite exWorld exStrict where
  others := rfl
  setOrder := rfl
  fit := fun cls a X hX => by simp only [exStrict]; rw [if_pos hX]
  apply := fun _ _ _ _ => rfl

example (c : FitCall) (fuel : ℕ) (h : Heap) : c.run exWorld fuel h = c.run exStrict fuel h :=
  C43_only_finite exStrict_agree c fuel h

/-- **C43 (outside its scope).** Arrays of strings are refused with `TypeError`
instead of `ValueError`. -/
theorem C43_text {X y : Input} {aX ay : NdArray} {k : ℕ} (hs : X.hasToarray = false)
    (hX : X.asArray = .ok aX) (hy : y.asArray = .ok ay) (hX1 : aX.entries = .text k)
    (ne : ¬ NoEntries aX) (ne' : ¬ NoEntries ay) (h1 : aX.shape.length ≠ 1)
    (ny : ∃ l, HoldsFloats ay.entries l) : validateXy X y = .error .typeError := by
  obtain ⟨l, hl⟩ := ny
  rw [← noEntries_iff] at ne ne'
  obtain ⟨sX, eX⟩ := aX
  obtain ⟨sy, ey⟩ := ay
  simp only at hX1 hl ne ne' h1
  subst hX1
  cases hl <;> simp [validateXy, hs, hX, hy, ne, ne', h1, isComplex, convertObject, anyNanOrInf,
    floatAll_ok]

example : validateXy ⟨false, .ok ⟨[2, 1], .text 2⟩⟩ exInput = .error .typeError :=
  C43_text rfl rfl rfl rfl (by simp [NoEntries]) (by simp [NoEntries]) (by simp) ⟨_, .real _⟩

/-- **C43 (points).** The points that cover and clustering are given are the rows of the
array: there are as many as its first dimension, each has the remaining dimensions, and
one after the other they are the entries of the array. -/
theorem C43_points {n : ℕ} {s : List ℕ} {vals : List FloatVal}
    (hv : vals.length = (n :: s).prod) :
    ∃ rows, rowsOf ⟨n :: s, vals⟩ = .ok rows ∧ rows.length = n ∧
      (∀ x ∈ rows, x.shape = s ∧ x.vals.length = s.prod) ∧ rows.flatMap RealArray.vals = vals := by
  rw [List.prod_cons] at hv
  refine ⟨_, rfl, by simp, ?_, ?_⟩
  · intro x hx
    obtain ⟨i, hi, rfl⟩ := List.mem_map.mp hx
    refine ⟨rfl, ?_⟩
    have h1 : (i + 1) * s.prod ≤ n * s.prod := Nat.mul_le_mul_right _ (List.mem_range.mp hi)
    rw [Nat.succ_mul] at h1
    simp only [List.length_take, List.length_drop]
    omega
  · rw [List.flatMap_map]
    have key : ∀ m : ℕ, m * s.prod ≤ vals.length →
        (List.range m).flatMap (fun i => (vals.drop (i * s.prod)).take s.prod) =
          vals.take (m * s.prod) := by
      intro m
      induction m with
      | zero => intro _; simp
      | succ m ih =>
        intro hm
        rw [Nat.succ_mul] at hm
        rw [List.range_succ, List.flatMap_append, ih (by omega), Nat.succ_mul, List.take_add]
        simp
    rw [key n (by omega), List.take_of_length_le (by omega)]

example : rowsOf ⟨[2, 3], [.finite 1, .finite 2, .finite 3, .finite 4, .finite 5, .finite 6]⟩ =
    .ok [⟨[3], [.finite 1, .finite 2, .finite 3]⟩, ⟨[3], [.finite 4, .finite 5, .finite 6]⟩] := rfl

/-! ### C44 -/

/-- **C44.** Whatever the history of `fit` calls: no class and no public
parameter of any object changes, and the only objects in which anything changes
are those fitted and those that a clustering parameter shares with its clones: what a
`FailSafeClustering` wraps. In particular the cover and the clustering given as parameters do
not change, nor does the clustering of a `MapperClustering`. -/
theorem C44_objects_partial {W : World} (hW : Contract W) {n fuel : ℕ} (hn : 2 ≤ n) (hf : n ≤ fuel)
    {h : Heap} (hg : GoodHeap h n) (calls : List FitCall)
    (hv : ∀ c ∈ calls, ∃ cl, c.Valid W h cl) :
    (∀ (a : ℕ) (o : Obj), h[a]? = some o → ∃ o', (runCalls W fuel calls h)[a]? = some o' ∧
      o'.cls = o.cls ∧ ∀ k, IsPublic k → o'.attrs.get? k = o.attrs.get? k) ∧
    (∀ (a : ℕ), a < h.length → (∀ c ∈ calls, a ≠ c.target) →
      (∀ c ∈ calls, ∀ cl, c.Valid W h cl → ¬ SharedIn h cl a) →
      (runCalls W fuel calls h)[a]? = h[a]?) := by
  obtain ⟨_, hev⟩ := run_calls hW hf hn calls hg hv
  constructor
  · intro a o e
    obtain ⟨o', e', hcls, hs⟩ := hev.same a o e
    exact ⟨o', e', hcls, fun k hk => (hs k hk).symm⟩
  · intro a ha h1 h2
    refine hev.frame a ha ?_
    rintro ⟨c, hc, cl, hval, h3 | h3⟩
    · exact h1 c hc h3
    · exact h2 c hc cl hval h3

/-- **C44 (proved part).** When the clusterings of the fitted objects share nothing with
their clones, that is, for all but a `FailSafeClustering` of another object, nothing but the
fitted objects changes. Missing: such clusterings, see `C44_violation`. -/
theorem C44_unshared_partial {W : World} (hW : Contract W) {n fuel : ℕ} (hn : 2 ≤ n) (hf : n ≤ fuel)
    {h : Heap} (hg : GoodHeap h n) (calls : List FitCall)
    (hv : ∀ c ∈ calls, ∃ cl, c.Valid W h cl)
    (hun : ∀ c ∈ calls, ∀ rk, c.Valid W h (.obj rk) → SharesNothing h rk)
    (a : ℕ) (ha : a < h.length) (hne : ∀ c ∈ calls, a ≠ c.target) :
    (runCalls W fuel calls h)[a]? = h[a]? := by
  refine (C44_objects_partial hW hn hf hg calls hv).2 a ha hne ?_
  rintro c hc cl hval ⟨rk, rfl, hs⟩
  exact (hun c hc rk hval).not_shared a hs

/-- The hypotheses are met by two objects that use the same clustering. -/
example : (runCalls exWorld 3 [⟨true, 3, exInput, none⟩, ⟨false, 5, exInput, none⟩]
    exObjects)[1]? = some exKM := by
  have hval : ∀ c ∈ [(⟨true, 3, exInput, none⟩ : FitCall), ⟨false, 5, exInput, none⟩],
      c.Valid exWorld exObjects (.obj 1) := by
    intro c hc
    simp only [List.mem_cons, List.not_mem_nil, or_false] at hc
    rcases hc with rfl | rfl
    · exact ⟨_, _, exObjects_alg⟩
    · exact ⟨_, exObjects_mc⟩
  rw [C44_unshared_partial exWorld_contract (by decide) (le_refl 3) exObjects_good _
    (fun c hc => ⟨_, hval c hc⟩) ?_ 1 (by decide)]
  · rfl
  · intro c hc
    simp only [List.mem_cons, List.not_mem_nil, or_false] at hc
    rcases hc with rfl | rfl <;> decide
  · intro c hc rk hrk
    have h1 := hval c hc
    have h2 : rk = 1 := by
      unfold FitCall.Valid at h1 hrk
      split at h1
      · rename_i hb
        rw [if_pos hb] at hrk
        obtain ⟨_, _, o, _, _, eo, _, _, h3, _⟩ := h1
        obtain ⟨_, _, o', _, _, eo', _, _, h4, _⟩ := hrk
        rw [eo] at eo'
        cases eo'
        rw [h3] at h4
        cases h4
        rfl
      · rename_i hb
        rw [if_neg hb] at hrk
        obtain ⟨_, o, _, eo, _, _, h3, _⟩ := h1
        obtain ⟨_, o', _, eo', _, _, h4, _⟩ := hrk
        rw [eo] at eo'
        cases eo'
        rw [h3] at h4
        cases h4
        rfl
    subst h2
    exact .other (o := exKM) rfl (by decide) (by decide)

/-- **C44 is false of the code** for nested clusterings: after
`MapperAlgorithm(cover, FailSafeClustering(km)).fit(X)`, the user's object `km`, which
had no labels, is fitted. -/
theorem C44_violation : attrAt exObjects 1 "labels_" = none ∧
    attrAt (mapperAlgorithmFit exWorld 3 4 exInput none exObjects).2 1 "labels_" =
      some (.labels [0, 1, 0]) := by
  constructor <;> with_unfolding_all rfl

end Verif
