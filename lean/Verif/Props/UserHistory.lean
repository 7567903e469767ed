import Verif.Proof.UserHistory
import Verif.Props.Library

/-!
# C98: Parameters set on an estimator take effect at the next `fit`

Histories in which calls of `fit` and of `set_params` follow one another in any order, on any number of
estimators, which may share covers and clusterings. `ParamsAfter W n calls h h'` says what the
parameters should be: those of `h'`, which only the calls of `set_params` determine.
-/

set_option autoImplicit false
set_option linter.unusedSectionVars false

namespace Verif

section
variable {W : World} (hW : Contract W) {n : ℕ} (hn : 2 ≤ n) {fuel : ℕ} {calls : List UserCall}
  {h h' : Heap} (hg : GoodHeap h n) (hp : ParamsAfter W n calls h h')
  (hf : 2 ^ objectSets calls * n ≤ fuel)
include hW hn hg hp hf

/-- **C98.** After the history, the parameters of all objects the user had are as last set. -/
theorem C98_params {a : ℕ} {o : Obj} (eo : h'[a]? = some o) :
    ∃ o', (runUser W fuel calls h)[a]? = some o' ∧ o'.cls = o.cls ∧
      ∀ k, IsPublic k → o'.attrs.get? k = o.attrs.get? k := by
  obtain ⟨_, _, hev⟩ := runUser_ok hW hn fuel hp hg hg le_rfl hf (Evolves.refl h _)
  obtain ⟨o', e', hc, hs⟩ := hev.same a o eo
  exact ⟨o', e', hc, fun k hk => (hs k hk).symm⟩

/-- **C98.** `fit_transform` of a `MapperAlgorithm` after the history returns, or raises, what it does
with estimators that were never fitted and have the parameters as last set: the graph of
`C42_fit_transform`. -/
theorem C98_graph {r : ℕ} {cover clust failsafe : Val}
    (ha : IsAlgorithm W h' r cover clust failsafe) (X : Input) (y : Option Input) :
    (mapperFitTransform W fuel r X y (runUser W fuel calls h)).1 =
        (mapperFitTransform W fuel r X y h').1 ∧
      (mapperFitTransform W fuel r X y (runUser W fuel calls h)).1 =
        (expectedGraph W h' fuel cover clust failsafe X y).map fun p => .graph p.1 := by
  obtain ⟨hg', hG, hev⟩ := runUser_ok hW hn fuel hp hg hg le_rfl hf (Evolves.refl h _)
  have hpos : n ≤ 2 ^ objectSets calls * n := Nat.le_mul_of_pos_left n (by positivity)
  have e1 := (C42_fit_transform hW (hn.trans hpos) hf hG (ha.evolve hg' hev) X y).2
  have e2 := (C42_fit_transform hW hn (hpos.trans hf) hg' ha X y).2
  obtain ⟨_, _, _, _, _, _, _, _, _, _, _, hc, hk⟩ := ha
  rw [expectedGraph_congr hW hg' hev hc hk.1] at e1
  exact ⟨e1.trans e2.symm, e1⟩

/-- **C98.** The same for `MapperClustering`: `labels_` after `fit` are those of the parameters as last
set, or `fit` raises the exception that goes with them. -/
theorem C98_labels {r : ℕ} {cover clust : Val} (ha : IsMapperClustering W h' r cover clust)
    (X : Input) (y : Option Input) :
    let run := mapperClusteringFit W fuel r X y (runUser W fuel calls h)
    run.1 = (mapperClusteringFit W fuel r X y h').1 ∧
    (∀ l m, expectedLabels W h' fuel cover clust X y = .ok (l, m) →
      run.1 = .ok () ∧ attrAt run.2 r "labels_" = some (.labels l) ∧
        attrAt run.2 r "n_features_in_" = some (.int m)) ∧
    (∀ e, expectedLabels W h' fuel cover clust X y = .error e → run.1 = .error e) := by
  obtain ⟨hg', hG, hev⟩ := runUser_ok hW hn fuel hp hg hg le_rfl hf (Evolves.refl h _)
  have hpos : n ≤ 2 ^ objectSets calls * n := Nat.le_mul_of_pos_left n (by positivity)
  have e1 := C42_labels hW hf hG (ha.evolve hg' hev) X y
  have e2 := C42_labels hW (hpos.trans hf) hg' ha X y
  obtain ⟨_, _, _, _, _, _, _, hc, hk⟩ := ha
  simp only at e1 e2 ⊢
  rw [expectedLabels_congr hW hg' hev hc hk.1] at e1
  refine ⟨?_, fun l m he => e1.1 l m he, fun e he => (e1.2 e he).1⟩
  cases he : expectedLabels W h' fuel cover clust X y with
  | ok p => rw [(e1.1 p.1 p.2 he).1, (e2.1 p.1 p.2 he).1]
  | error e => rw [(e1.2 e he).1, (e2.2 e he).1]

end

/-! ### A ball cover whose radius is changed -/

/-- **C98.** After any calls of `fit`, `set_params(cover__radius=v)` on an estimator, then
`fit_transform` on a `MapperAlgorithm` with the same cover, be it that estimator or
another one: the graph is that of balls of the new radius. -/
theorem C98_radius {base : World} (I : Interp) (ρ : ℕ → ℕ) (hB : Contract base) {n fuel : ℕ}
    (hn : 2 ≤ n) (hf : n ≤ fuel) {h : Heap} (hg : GoodHeap h n) {r s rc : ℕ} {oc : Obj} {failsafe : Val}
    (ha : IsAlgorithm (library base I ρ) h r (.obj rc) .none failsafe)
    (hs : PublicAttr h s "cover" (.obj rc))
    (hc : h[rc]? = some oc) (hcls : oc.cls = "BallCover")
    {k' k : ℕ} {d : RVec k → RVec k → ℝ} {old rad : ℝ} {v : Val} (hat : BallAttrs I oc.attrs d old)
    (hv : IsNum I v rad) (hd : PseudoMetric d) (hrad : 0 < rad)
    {fits : List FitCall} (hfits : ∀ c ∈ fits, ∃ clust, c.Valid (library base I ρ) h clust)
    {A : List (Fin k' → ℚ)} {B : List (Fin k → ℚ)} {y : Option Input}
    (hA : A ≠ []) (hk' : 0 < k') (hk : 0 < k) (hl : B.length = A.length)
    (hy : y.getD (matrixInput A) = matrixInput B) :
    ∃ g centres,
      (mapperFitTransform (library base I ρ) fuel r (matrixInput A) y
        (runUser (library base I ρ) fuel (fits.map .fit ++ [.set s "cover__radius" v]) h)).1 =
          .ok (.graph g) ∧
      IsNet d rad (realRows B) centres ∧
      IsRegionGraph g (realRows B) (centres.map (openBall d rad)) := by
  have hW := library_contract hB I ρ
  obtain ⟨metric, params, radius, kind, leafRadius, pivoting, capacity, a1, a2, a3, a4, a5, a6⟩ := hat
  have hplain : ∀ b, v ≠ .obj b := by intro b hb; subst hb; cases hv
  have hpub : IsPublic "radius" := by decide +kernel
  have hgood : GoodHeap (withParam h rc "radius" v) n := by
    rw [withParam_eq hc]
    exact goodHeap_assign hg hc a4 (fun b hb => absurd hb (hplain b)) (fun b hb => absurd hb (hplain b))
      le_rfl (fun b hb => absurd hb (hplain b))
  have hpar : ∀ fs : List FitCall, (∀ c ∈ fs, ∃ clust, c.Valid (library base I ρ) h clust) →
      ParamsAfter (library base I ρ) n (fs.map .fit ++ [.set s "cover__radius" v]) h
        (withParam h rc "radius" v) := by
    intro fs
    induction fs with
    | nil =>
      intro _
      have hname : "cover__radius" = pathName (["cover"] ++ ["radius"]) := by decide +kernel
      rw [hname]
      exact .set (.cons hs (.nil rc)) ⟨oc, hc, a4, hpub⟩ hgood (.nil _)
    | cons c fs ih =>
      intro hv
      obtain ⟨cl, hcl⟩ := hv c List.mem_cons_self
      exact .fit hcl (ih fun c' h' => hv c' (List.mem_cons_of_mem _ h'))
  have hsets : ∀ fs : List FitCall,
      objectSets (fs.map .fit ++ [.set s "cover__radius" v]) = 0 := by
    intro fs
    induction fs with
    | nil => cases v <;> first | rfl | exact absurd rfl (hplain _)
    | cons c fs ih => exact ih
  have hrc : rc ≠ r := by
    rintro rfl
    obtain ⟨o, _, _, eo, hcl, _⟩ := ha
    rw [hc] at eo
    cases eo
    rw [hcls] at hcl
    exact absurd hcl (by decide)
  have ec' : (withParam h rc "radius" v)[rc]? = some { oc with attrs := oc.attrs.set "radius" v } := by
    rw [withParam_eq hc, List.getElem?_set, if_pos rfl, if_pos (lt_of_getElem? hc)]
  have ha' : IsAlgorithm (library base I ρ) (withParam h rc "radius" v) r (.obj rc) .none failsafe := by
    obtain ⟨o, vv, vj, eo, h0, h1, h2, h3, h4, h5, h6, h7, h8⟩ := ha
    refine ⟨o, vv, vj, ?_, h0, h1, h2, h3, h4, h5, h6, ?_, .inl rfl, fun r hr => by cases hr⟩
    · rw [withParam_eq hc, List.getElem?_set, if_neg hrc]
      exact eo
    · rcases h7 with h7 | ⟨_, o1, c, h7, e1, h8, h9, h10⟩
      · cases h7
      · cases h7
        rw [hc] at e1
        cases e1
        refine .inr ⟨rc, _, c, rfl, ec', h8, h9, fun x hx => ?_⟩
        rw [keys_set_of_mem a4]
        exact h10 x hx
  have hgr := (C98_graph hW hn (fuel := fuel) hg (hpar fits hfits) (by rw [hsets]; omega) ha' (matrixInput A) y).1
  rw [hgr]
  refine C84_ball I ρ hB hn hf hgood ha' ec' hcls ?_ hd hrad hA hk' hk hl hy
  refine ⟨metric, params, v, kind, leafRadius, pivoting, capacity, ?_, ?_, a3, ?_, hv, ?_, a6.2.1, ?_,
    a6.2.2.2.1, ?_, a6.2.2.2.2.2.1, ?_⟩
  all_goals simp only [PyDict.get?_set]
  · simpa using a1
  · simpa using a2
  · simp
  · simpa using a6.1
  · simpa using a6.2.2.1
  · simpa using a6.2.2.2.2.1
  · simpa using a6.2.2.2.2.2.2

/-! ### The hypotheses are met -/

/-- The objects of `exObjects`, with other parameters. -/
def exState (radius clusters : ℤ) (k : ℕ) : Heap :=
  [⟨"Cov", ⟨[("radius", .int radius)]⟩⟩, ⟨"KM", ⟨[("n_clusters", .int clusters)]⟩⟩, exFS, exAlg k,
    exAlg 2, exMC]

theorem exState_attr {i j : ℤ} {c r b : ℕ} {k : String} (hc : c = 1 ∨ c = 2)
    (hp : PublicAttr (exState i j c) r k (.obj b)) :
    (b = 0 ∨ b = 1 ∨ b = 2) ∧ 2 ≤ r ∧ (r = 2 → b = 1) ∧ r ≤ 5 := by
  obtain ⟨o, e, hk, _⟩ := hp
  match r, e with
  | 0, e => cases e; have := PyDict.mem_of_get?_eq_some hk; simp at this
  | 1, e => cases e; have := PyDict.mem_of_get?_eq_some hk; simp at this
  | 2, e => cases e; have := PyDict.mem_of_get?_eq_some hk; simp [exFS] at this; omega
  | 3, e => cases e; have := PyDict.mem_of_get?_eq_some hk; simp [exAlg] at this; omega
  | 4, e => cases e; have := PyDict.mem_of_get?_eq_some hk; simp [exAlg] at this; omega
  | 5, e => cases e; have := PyDict.mem_of_get?_eq_some hk; simp [exMC] at this; omega
  | r + 6, e => simp [exState] at e

theorem exState_good (i j : ℤ) {c : ℕ} (hc : c = 1 ∨ c = 2) : GoodHeap (exState i j c) 3 := by
  refine ⟨?_, ?_, ?_⟩
  · intro r o e
    have h1 : GoodHeap exObjects 3 := exObjects_good
    have key : ∃ o', exObjects[r]? = some o' ∧ o'.attrs.keys = o.attrs.keys := by
      match r, e with
      | 0, e => cases e; exact ⟨_, rfl, rfl⟩
      | 1, e => cases e; exact ⟨_, rfl, rfl⟩
      | 2, e => cases e; exact ⟨_, rfl, rfl⟩
      | 3, e => cases e; exact ⟨_, rfl, rfl⟩
      | 4, e => cases e; exact ⟨_, rfl, rfl⟩
      | 5, e => cases e; exact ⟨_, rfl, rfl⟩
      | r + 6, e => simp [exState] at e
    obtain ⟨o', e', hk⟩ := key
    rw [← hk]
    exact h1.1 r o' e'
  · intro r k b hp
    have := exState_attr hc hp
    show b < 6
    omega
  · intro r ks b hre
    cases hre with
    | nil => simp
    | cons h1 hre =>
      cases hre with
      | nil => simp
      | cons h2 hre =>
        cases hre with
        | nil => simp
        | cons h3 hre =>
          have := exState_attr hc h1
          have := exState_attr hc h2
          have := exState_attr hc h3
          omega

theorem exState_ready {i j : ℤ} {c r : ℕ} (hc : c = 1 ∨ c = 2) (hr : r < 3) :
    MapperReady exWorld (exState i j c) r := by
  intro ks a o hre ea hcl
  have key : ∀ {b a : ℕ} {ks : List String}, Reaches (exState i j c) b ks a → b < 3 → a < 3 := by
    intro b a ks hre
    induction hre with
    | nil => exact fun h => h
    | cons hp _ ih =>
      intro _
      have := exState_attr hc hp
      exact ih (by omega)
  have ha := key hre hr
  match a, ea with
  | 0, ea => cases ea; exact absurd hcl (by simp)
  | 1, ea => cases ea; exact absurd hcl (by simp)
  | 2, ea => cases ea; exact absurd hcl (by simp [exFS])
  | a + 3, _ => omega

theorem exState_cov (i j : ℤ) (c : ℕ) : Cloneable exWorld (exState i j c) (.obj 0) :=
  Or.inr ⟨0, _, _, rfl, rfl, by rw [World.classes]; rfl, by decide +kernel,
    fun k _ => by simp [PyDict.keys]⟩

theorem exState_km (i j : ℤ) (c : ℕ) : Cloneable exWorld (exState i j c) (.obj 1) :=
  Or.inr ⟨1, _, _, rfl, rfl, by rw [World.classes]; rfl, by decide +kernel,
    fun k _ => by simp [PyDict.keys]⟩

theorem exState_fs (i j : ℤ) (c : ℕ) : Cloneable exWorld (exState i j c) (.obj 2) :=
  Or.inr ⟨2, exFS, _, rfl, rfl, byInit_failSafe _ _ _⟩

theorem exState_alg (i j : ℤ) {c : ℕ} (hc : c = 1 ∨ c = 2) :
    IsAlgorithm exWorld (exState i j c) 3 (.obj 0) (.obj c) (.bool true) := by
  refine ⟨exAlg c, .bool true, .int 1, rfl, rfl, rfl, rfl, rfl, rfl, rfl, (fun _ h => by cases h),
    exState_cov i j c, ?_, fun r hr => ?_⟩
  · rcases hc with rfl | rfl
    · exact exState_km i j 1
    · exact exState_fs i j 2
  · cases hr
    exact exState_ready hc (by omega)

theorem exState_mc (i j : ℤ) {c : ℕ} (hc : c = 1 ∨ c = 2) :
    IsMapperClustering exWorld (exState i j c) 5 (.obj 0) (.obj 1) :=
  ⟨exMC, .int 1, rfl, rfl, rfl, rfl, rfl, exState_cov i j c, exState_km i j c,
    fun r hr => by cases hr; exact exState_ready hc (by omega)⟩

/-- Fitting the algorithm at 3; setting the number of clusters of its clustering, which the
`MapperClustering` at 5 has too, to 5; replacing the clustering of the algorithm by the one at 2; fitting
the `MapperClustering`, with a NaN; setting the radius of the cover that both have to 7. -/
def exCalls : List UserCall :=
  [.fit ⟨true, 3, exInput, none⟩, .set 3 "clustering__n_clusters" (.int 5),
   .set 3 "clustering" (.obj 2), .fit ⟨false, 5, exNan, none⟩, .set 3 "cover__radius" (.int 7)]

theorem exCalls_params : ParamsAfter exWorld 3 exCalls exObjects (exState 7 5 2) := by
  have e1 : exObjects = exState 2 2 1 := rfl
  have n1 : "clustering__n_clusters" = pathName (["clustering"] ++ ["n_clusters"]) := by decide +kernel
  have n2 : "clustering" = pathName ([] ++ ["clustering"]) := by decide +kernel
  have n3 : "cover__radius" = pathName (["cover"] ++ ["radius"]) := by decide +kernel
  have p1 : IsPublic "n_clusters" := by decide +kernel
  have p2 : IsPublic "clustering" := by decide +kernel
  have p3 : IsPublic "radius" := by decide +kernel
  have p4 : IsPublic "cover" := by decide +kernel
  have s1 : withParam (exState 2 2 1) 1 "n_clusters" (.int 5) = exState 2 5 1 := rfl
  have s2 : withParam (exState 2 5 1) 3 "clustering" (.obj 2) = exState 2 5 2 := rfl
  have s3 : withParam (exState 2 5 2) 0 "radius" (.int 7) = exState 7 5 2 := rfl
  rw [e1]
  refine .fit (clust := .obj 1) ⟨_, _, exState_alg 2 2 (.inl rfl)⟩ ?_
  rw [n1]
  refine .set (.cons ⟨exAlg 1, rfl, rfl, p2⟩ (.nil 1)) ⟨_, rfl, rfl, p1⟩ ?_ ?_ <;> rw [s1]
  · exact exState_good _ _ (.inl rfl)
  have step : ParamsAfter exWorld 3 (.set 3 (pathName ([] ++ ["clustering"])) (.obj 2) ::
      [.fit ⟨false, 5, exNan, none⟩, .set 3 "cover__radius" (.int 7)]) (exState 2 5 1)
      (exState 7 5 2) := by
    refine .set (.nil 3) ⟨exAlg 1, rfl, rfl, p2⟩ ?_ ?_ <;> rw [s2]
    · exact exState_good _ _ (.inr rfl)
    refine .fit (clust := .obj 1) ⟨_, exState_mc 2 5 (.inr rfl)⟩ ?_
    rw [n3]
    refine .set (.cons ⟨exAlg 2, rfl, rfl, p4⟩ (.nil 0)) ⟨_, rfl, rfl, p3⟩ ?_ ?_ <;> rw [s3]
    · exact exState_good _ _ (.inr rfl)
    exact .nil _
  rw [← n2] at step
  exact step

/-- The parameters after the history, and what both estimators compute then. -/
example (X : Input) (y : Option Input) :
    (∃ o, (runUser exWorld 6 exCalls exObjects)[0]? = some o ∧ o.cls = "Cov" ∧
      o.attrs.get? "radius" = some (.int 7)) ∧
    (mapperFitTransform exWorld 6 3 X y (runUser exWorld 6 exCalls exObjects)).1 =
      (mapperFitTransform exWorld 6 3 X y (exState 7 5 2)).1 ∧
    (mapperClusteringFit exWorld 6 5 X y (runUser exWorld 6 exCalls exObjects)).1 =
      (mapperClusteringFit exWorld 6 5 X y (exState 7 5 2)).1 := by
  refine ⟨?_, (C98_graph exWorld_contract (by decide) exObjects_good exCalls_params (by decide)
    (exState_alg 7 5 (.inr rfl)) X y).1, (C98_labels exWorld_contract (by decide) exObjects_good
    exCalls_params (by decide) (exState_mc 7 5 (.inr rfl)) X y).1⟩
  obtain ⟨o, h1, h2, h3⟩ := C98_params exWorld_contract (by decide) exObjects_good exCalls_params
    (fuel := 6) (by decide) (a := 0) rfl
  exact ⟨o, h1, h2, (h3 "radius" (by decide +kernel)).trans rfl⟩

/-- Three points of the plane: balls of radius 2, changed to 3 after a call of `fit`. -/
example : ∃ g centres,
    (mapperFitTransform libWorld 2 3 (matrixInput libData) none (runUser libWorld 2
      [.fit ⟨true, 3, matrixInput libData, none⟩, .set 3 "cover__radius" (.int 3)] libHeap)).1 =
        .ok (.graph g) ∧
    IsNet (fun x y : RVec 2 => Real.sqrt (∑ i, (x i - y i) ^ 2)) 3 (realRows libData) centres ∧
    IsRegionGraph g (realRows libData)
      (centres.map (openBall (fun x y => Real.sqrt (∑ i, (x i - y i) ^ 2)) 3)) := by
  have ha : IsAlgorithm libWorld libHeap 3 (.obj 0) .none (.bool true) :=
    ⟨_, .bool true, .int 1, rfl, rfl, rfl, rfl, rfl, rfl, rfl, (fun _ h => by cases h),
      libHeap_cloneable 0 (by decide), .inl rfl, fun r h => by cases h⟩
  refine C98_radius noInterp (fun _ => 0) exWorld_contract (le_refl 2) (le_refl 2) libHeap_good ha
    (s := 3) ⟨_, rfl, rfl, by decide +kernel⟩ rfl rfl
    ⟨_, _, _, "flat", _, _, 1, rfl, rfl, euclidean_param _ _, rfl, by exact_mod_cast IsNum.int 2, rfl,
      .inl rfl, rfl, le_refl 1, rfl, .inl rfl, rfl⟩ (by exact_mod_cast IsNum.int 3)
    C47_euclidean.2.pseudo (by norm_num) (fits := [⟨true, 3, matrixInput libData, none⟩]) ?_
    (by simp [libData]) (by decide) (by decide) rfl rfl
  intro c hc
  rw [List.mem_singleton] at hc
  subst hc
  exact ⟨.none, _, _, ha⟩

end Verif
