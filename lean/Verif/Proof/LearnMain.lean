import Verif.Proof.LearnTop
import Verif.Proof.Labels

set_option autoImplicit false

namespace Verif

theorem run_asObj (t : ℕ) (h : Heap) : asObj (.obj t) h = (.ok t, h) := rfl

theorem mapperGraph_eq (X y : List RealArray) (cover : CoverFn RealArray)
    (clust : ClustFn RealArray) :
    mapperGraph X y cover clust = mapperLabels X y cover clust >>= graphOfLabels := rfl

theorem components_eq (setOrder : List ℤ → List ℤ) (X y : List RealArray)
    (cover : CoverFn RealArray) (clust : ClustFn RealArray) :
    mapperConnectedComponents setOrder X y cover clust =
      mapperLabels X y cover clust >>= componentsOfLabels setOrder := rfl

/-- What `fit` leaves behind: the two results on success, and on failure the exception
and the previous results. -/
def FitOutcome (name : String) (r : ℕ) (o : Obj) (p : Py Unit × Heap) : Py (Val × ℕ) → Prop
  | .ok (v, m) => p.1 = .ok () ∧ ∃ a, p.2[r]? = some ⟨o.cls, a⟩ ∧ a.get? name = some v ∧
      a.get? "n_features_in_" = some (.int m)
  | .error e => p.1 = .error e ∧ ∃ a, p.2[r]? = some ⟨o.cls, a⟩ ∧
      ∀ k ∈ resultNames, a.get? k = o.attrs.get? k

/-- Writing the two results. -/
theorem run_writeResults {h : Heap} {n : ℕ} (hg : GoodHeap h n) {r : ℕ} {o : Obj}
    (eo : h[r]? = some o) {name : String} (hp : ¬ IsPublic name) (hne : name ≠ "n_features_in_")
    (v : Val) {aX : RealArray} {m : ℕ} (hm : nFeatures aX = .ok m) :
    ∃ h' a, (do
        writeAttr r name v
        let n ← Eff.lift (nFeatures aX)
        writeAttr r "n_features_in_" (.int n) : Eff Unit) h = (.ok (), h') ∧ GoodHeap h' n ∧
      Evolves h h' (fun b => b = r) ∧ h'[r]? = some ⟨o.cls, a⟩ ∧ a.get? name = some v ∧
      a.get? "n_features_in_" = some (.int m) := by
  obtain ⟨hg1, hev1⟩ := goodHeap_write hg eo hp v
  have e1 := List.getElem?_set_self (a := (⟨o.cls, o.attrs.set name v⟩ : Obj)) (lt_of_getElem? eo)
  obtain ⟨hg2, hev2⟩ := goodHeap_write hg1 e1 private_nFeatures (.int m)
  have e2 := List.getElem?_set_self (a := (⟨o.cls, (o.attrs.set name v).set "n_features_in_"
    (.int m)⟩ : Obj)) (lt_of_getElem? e1)
  refine ⟨_, _, ?_, hg2, hev1.trans hev2 (fun _ _ h => h), e2, ?_, ?_⟩
  · rw [run_bind, run_writeAttr eo]
    simp only
    rw [run_bind, run_lift, hm]
    simp only
    rw [run_writeAttr e1]
  · rw [PyDict.get?_set, if_neg hne, PyDict.get?_set, if_pos rfl]
  · rw [PyDict.get?_set, if_pos rfl]

theorem appendLabel_length {m : ℤ} {i : ℕ} {l : ℤ} {itm itm' : List (List ℤ)}
    (h : appendLabel m i l itm = .ok itm') : itm'.length = itm.length := by
  unfold appendLabel at h
  split at h
  · cases hc : getItem itm i with
    | error e => rw [hc] at h; cases h
    | ok cur =>
      rw [hc] at h
      simp only [ok_bind, setItem] at h
      split at h
      · cases h; simp
      · cases h
  · cases h; rfl

theorem labelChart_length {m : ℤ} : ∀ (pairs : List (ℕ × ℤ)) (k : ℤ) (itm : List (List ℤ))
    {p : ℤ × List (List ℤ)}, labelChart m pairs k itm = .ok p → p.2.length = itm.length := by
  intro pairs
  induction pairs with
  | nil => intro k itm p h; cases h; rfl
  | cons q pairs ih =>
    intro k itm p h
    rw [labelChart] at h
    cases ha : appendLabel m q.1 q.2 itm with
    | error e => rw [ha] at h; cases h
    | ok itm1 =>
      rw [ha] at h
      rw [ih _ _ h, appendLabel_length ha]

theorem labelCharts_length : ∀ (runs : List (List ℕ × List ℤ)) (m : ℤ) (itm : List (List ℤ))
    {itm' : List (List ℤ)}, labelCharts runs m itm = .ok itm' → itm'.length = itm.length := by
  intro runs
  induction runs with
  | nil => intro m itm itm' h; cases h; rfl
  | cons q runs ih =>
    intro m itm itm' h
    rw [labelCharts] at h
    cases ha : labelChart m (q.1.zip q.2) 0 itm with
    | error e => rw [ha] at h; cases h
    | ok p =>
      rw [ha] at h
      rw [ih _ _ h, labelChart_length _ _ _ ha]

theorem mapperLabels_length {X y : List RealArray} {cover : CoverFn RealArray}
    {clust : ClustFn RealArray} {itm : List (List ℤ)} (h : mapperLabels X y cover clust = .ok itm) :
    itm.length = X.length := by
  unfold mapperLabels at h
  cases hc : cover y with
  | error e => rw [hc] at h; cases h
  | ok charts =>
    rw [hc, ok_bind] at h
    cases hr : runJobs X clust 0 charts with
    | error e => rw [hr] at h; cases h
    | ok runs =>
      rw [hr, ok_bind] at h
      rw [labelCharts_length _ _ _ h, List.length_map]

theorem findAll_length : ∀ (itm : List (List ℤ)) (uf : UnionFind ℤ) {out : List ℤ},
    findAll itm uf = .ok out → out.length = itm.length := by
  intro itm
  induction itm with
  | nil => intro uf out h; cases h; rfl
  | cons l itm ih =>
    intro uf out h
    cases l with
    | nil =>
      rw [findAll] at h
      cases hr : findAll itm uf with
      | error e => rw [hr] at h; cases h
      | ok out' =>
        rw [hr] at h
        cases h
        simp [ih _ hr]
    | cons l ls =>
      rw [findAll] at h
      split at h
      · cases h
      · rename_i root uf' _
        cases hr : findAll itm uf' with
        | error e => rw [hr] at h; cases h
        | ok out' =>
          rw [hr] at h
          cases h
          simp [ih _ hr]

theorem componentsOfLabels_length {setOrder : List ℤ → List ℤ} {itm : List (List ℤ)} {out : List ℤ}
    (h : componentsOfLabels setOrder itm = .ok out) : out.length = itm.length := by
  unfold componentsOfLabels at h
  cases hu : unionAll itm (UnionFind.init (setOrder itm.flatten.dedup)) with
  | error e => rw [hu] at h; cases h
  | ok uf =>
    rw [hu] at h
    exact findAll_length _ _ h

theorem gather_range (l : List ℤ) : gather l (List.range l.length) = .ok l := by
  rw [gather_ok _ _ (by simp)]
  congr 1
  rw [pointsOf]
  have : ∀ i ∈ List.range l.length, l[i]? = (some (l.getD i 0)) := by
    intro i hi
    rw [List.mem_range] at hi
    simp [hi]
  rw [List.filterMap_congr this, List.filterMap_eq_map']
  apply List.ext_getElem
  · simp
  · intro i h1 h2
    simp [h2]

/-- `clone(TrivialX() if v is None else v)`. -/
theorem run_orTrivialClone {W : World} {n fuel : ℕ} (hf : n ≤ fuel) {h : Heap} (hg : GoodHeap h n)
    {cls : String} (hcls : cls = "TrivialCover" ∨ cls = "TrivialClustering") {v : Val}
    (hcl : Cloneable W h v) {α : Type} (f : ℕ → Eff α) :
    ∃ h' t ot, (do
        let v ← orTrivial cls v
        let t ← cloneVal W fuel v
        f t : Eff α) h = f t h' ∧ GoodHeap h' n ∧
      Evolves h h' (fun _ => False) ∧ h.length ≤ t ∧ h'[t]? = some ot ∧ CopyOf W h cls v ot := by
  rcases hcl with rfl | ⟨rc, oc, c, rfl, eoc, hC⟩
  · obtain ⟨hg1, hev1⟩ := goodHeap_trivial hg cls
    have e1 : (h ++ [(⟨cls, PyDict.empty⟩ : Obj)])[h.length]? = some ⟨cls, PyDict.empty⟩ := by simp
    obtain ⟨ecl, hg2, hev2⟩ := run_cloneE hg1 hf e1 (W := W)
      (c := ⟨if cls = "TrivialCover" then "apply" :: commonMembers else commonMembers, PyDict.empty⟩)
      ⟨by rcases hcls with rfl | rfl <;> rw [World.classes] <;> rfl,
        by simp [PyDict.keys, PyDict.empty], fun _ _ => Iff.rfl⟩
    refine ⟨_, (h ++ [(⟨cls, PyDict.empty⟩ : Obj)]).length, ⟨cls, PyDict.empty⟩, ?_, hg2, hev1.trans hev2 (fun _ _ h => h), ?_, ?_,
      Or.inl ⟨rfl, rfl⟩⟩
    · show (cloneVal W fuel (.obj h.length) >>= f) (h ++ [⟨cls, PyDict.empty⟩]) = _
      have ecv : cloneVal W fuel (.obj h.length) = cloneE W fuel h.length := rfl
      rw [run_bind, ecv, ecl]
    · simp
    · rw [List.getElem?_append_right (le_refl _)]
      simp [freshAttrs, PyDict.empty]
  · obtain ⟨ecl, hg2, hev2⟩ := run_cloneE hg hf eoc hC
    refine ⟨_, h.length, _, ?_, hg2, hev2, le_refl _, ?_, Or.inr ⟨rc, oc, c, rfl, eoc, hC, rfl⟩⟩
    · show (cloneVal W fuel (.obj rc) >>= f) h = _
      have ecv : cloneVal W fuel (.obj rc) = cloneE W fuel rc := rfl
      rw [run_bind, ecv, ecl]
    · rw [List.getElem?_append_right (le_refl _)]
      simp

theorem mapperClusteringFitWith_spec {W : World} (hW : Contract W) {n fuel depth : ℕ} (hf : n ≤ fuel)
    {fit : ℕ → List RealArray → Eff Unit} (hfit : FitSpec W n depth fit)
    {h : Heap} (hg : GoodHeap h n) {r : ℕ} {o : Obj} (eo : h[r]? = some o) {vc vk vj : Val}
    (hvc : o.attrs.get? "cover" = some vc) (hvk : o.attrs.get? "clustering" = some vk)
    (hvj : o.attrs.get? "n_jobs" = some vj) (hcc : Cloneable W h vc) (hck : CloneableClust W h vk)
    (X : Input) (y : Option Input) :
    FitOutcome "labels_" r o (mapperClusteringFitWith W fuel fit r X y h)
      ((expectedLabels W h depth vc vk X y).map fun p => (.labels p.1, p.2)) ∧
    GoodHeap (mapperClusteringFitWith W fuel fit r X y h).2 n ∧
    Evolves h (mapperClusteringFitWith W fuel fit r X y h).2 (fun b => b = r ∨ SharedIn h vk b) := by
  have hself : ¬ SharedIn h vk r := by
    rintro ⟨rk, rfl, hs⟩
    obtain ⟨ks, _, hre⟩ := hs.reaches
    exact not_reaches_self hg ⟨o, eo, hvk, public_clustering⟩ hre
  have hlt := lt_of_getElem? eo
  rw [mapperClusteringFitWith, expectedLabels, mapperClusteringResult, run_bind, run_lift]
  cases hval : validateXy X (y.getD X) with
  | error e =>
    exact ⟨⟨rfl, o.attrs, eo, fun _ _ => rfl⟩, hg, Evolves.refl _ _⟩
  | ok p =>
    obtain ⟨aX, ay⟩ := p
    simp only [ok_bind]
    rw [run_bind, run_readAttr_some eo hvc]
    simp only
    obtain ⟨h1, tc, oc, run1, hg1, hev1, hle1, etc1, hcopy1⟩ := run_orTrivialClone hf hg (Or.inl rfl)
      hcc (fun cover => do
        let clust ← readAttr r "clustering"
        let clust ← orTrivial "TrivialClustering" clust
        let clust ← cloneVal W fuel clust
        let _nJobs ← readAttr r "n_jobs"
        let X ← Eff.lift (rowsOf aX)
        let y ← Eff.lift (rowsOf ay)
        let itm ← mapperLabelsE W fuel fit X y cover clust
        let comps ← Eff.lift (componentsOfLabels W.setOrder itm)
        let lbls ← Eff.lift (gather comps (List.range X.length))
        writeAttr r "labels_" (.labels lbls)
        let n ← Eff.lift (nFeatures aX)
        writeAttr r "n_features_in_" (.int n))
    rw [run1]
    have e1 : h1[r]? = some o := by rw [hev1.frame r hlt (fun h => h), eo]
    rw [run_bind, run_readAttr_some e1 hvk]
    simp only
    have hsame1 : ∀ rk, vk = .obj rk → h1[rk]? = h[rk]? := by
      rintro rk rfl
      exact hev1.frame rk (hg.valid ⟨o, eo, hvk, public_clustering⟩) (fun h => h)
    obtain ⟨h2, tk, ok, run2, hg2, hev2, hle2, etk2, hcopy2⟩ := run_orTrivialClone hf hg1 (Or.inr rfl)
      (hck.1.transfer hsame1) (fun clust => do
        let _nJobs ← readAttr r "n_jobs"
        let X ← Eff.lift (rowsOf aX)
        let y ← Eff.lift (rowsOf ay)
        let itm ← mapperLabelsE W fuel fit X y tc clust
        let comps ← Eff.lift (componentsOfLabels W.setOrder itm)
        let lbls ← Eff.lift (gather comps (List.range X.length))
        writeAttr r "labels_" (.labels lbls)
        let n ← Eff.lift (nFeatures aX)
        writeAttr r "n_features_in_" (.int n))
    rw [run2]
    replace hcopy2 := hcopy2.transfer hsame1
    obtain ⟨c, hC⟩ := hcopy2.byInit (Or.inr rfl)
    have hltc := lt_of_getElem? etc1
    have etc2 : h2[tc]? = some oc := by rw [hev2.frame tc hltc (fun h => h), etc1]
    have e2 : h2[r]? = some o := by
      rw [hev2.frame r (lt_of_lt_of_le hlt hev1.grow) (fun h => h), e1]
    have hev02 : Evolves h h2 (fun b => b = r ∨ SharedIn h vk b) :=
      (hev1.trans hev2 (fun _ _ h => h)).weaken (fun _ _ h => h.elim)
    rw [run_bind, run_readAttr_some e2 hvj]
    simp only
    rw [run_bind, run_lift]
    cases hrX : rowsOf aX with
    | error e => exact ⟨⟨rfl, _, e2, fun _ _ => rfl⟩, hg2, hev02⟩
    | ok rX =>
      simp only [ok_bind]
      rw [run_bind, run_lift]
      cases hry : rowsOf ay with
      | error e => exact ⟨⟨rfl, _, e2, fun _ _ => rfl⟩, hg2, hev02⟩
      | ok ry =>
        simp only [ok_bind]
        obtain ⟨h3, run3, hg3, hev3⟩ := run_mapperLabelsE hW hf hfit rX ry hg2 etc2 etk2 (by omega)
          hC (hcopy2.ready hg hev02 etk2 hck.2)
        rw [CopyOf.charts hcopy1, CopyOf.labels hW hg hev02 hcopy2 etk2] at run3
        rw [run_bind, run3, components_eq]
        have hnest : ∀ b, b < h.length → SharedIn h2 (.obj tk) b → SharedIn h vk b := by
          rintro b hb ⟨t', ht', hs⟩
          injection ht' with ht'
          subst ht'
          exact hcopy2.shared hg hev02 etk2 hs
        have e3 : h3[r]? = some o := by
          rw [hev3.frame r (lt_of_getElem? e2), e2]
          rintro (h4 | h4)
          · omega
          · exact hself (hnest r hlt h4)
        have hev03 : Evolves h h3 (fun b => b = r ∨ SharedIn h vk b) := by
          refine hev02.trans hev3 ?_
          rintro b hb (h4 | h4)
          · omega
          · exact Or.inr (hnest b hb h4)
        cases hL : mapperLabels rX ry (coverParam W h vc)
            (fun _ => clustParam W h depth vk) with
        | error e => exact ⟨⟨rfl, _, e3, fun _ _ => rfl⟩, hg3, hev03⟩
        | ok itm =>
          simp only [ok_bind]
          rw [run_bind, run_lift]
          cases hG : componentsOfLabels W.setOrder itm with
          | error e => exact ⟨⟨rfl, _, e3, fun _ _ => rfl⟩, hg3, hev03⟩
          | ok l =>
            obtain ⟨m, hm⟩ := nFeatures_ok hval hrX
            obtain ⟨h4, a4, run4, hg4, hev4, e4, h5, h6⟩ := run_writeResults hg3 e3 private_labels
              (by decide) (.labels l) hm
            simp only [ok_bind]
            have hlen : rX.length = l.length := by
              rw [componentsOfLabels_length hG, mapperLabels_length hL]
            rw [run_bind, run_lift, hlen, gather_range]
            simp only
            rw [run4, hm]
            exact ⟨⟨rfl, a4, e4, h5, h6⟩, hg4, hev03.trans hev4 (fun _ _ h => Or.inl h)⟩

/-- `fit` of every clustering. -/
theorem fitObj_spec {W : World} (hW : Contract W) {n fuel : ℕ} (hf : n ≤ fuel) :
    ∀ depth, FitSpec W n depth (fitObj W fuel depth) := by
  intro depth
  induction depth with
  | zero =>
    intro r X h hg hlt _
    obtain ⟨o, eo⟩ : ∃ o, h[r]? = some o := ⟨_, List.getElem?_eq_getElem hlt⟩
    by_cases h1 : o.cls = "FailSafeClustering"
    · rw [fitObj_failSafe_zero W fuel eo h1, labelsOf_failSafe_zero W h eo h1]
      exact ⟨hg, Evolves.refl _ _, Or.inl ⟨_, rfl, rfl⟩⟩
    · by_cases h3 : o.cls = "MapperClustering"
      · rw [fitObj_mapper_zero W fuel eo h3, labelsOf_mapper_zero W h eo h3]
        exact ⟨hg, Evolves.refl _ _, Or.inl ⟨_, rfl, rfl⟩⟩
      · exact fitObj_spec_leaf hW fuel 0 r X hg eo h1 h3
  | succ depth ih =>
    intro r X h hg hlt hm
    obtain ⟨o, eo⟩ : ∃ o, h[r]? = some o := ⟨_, List.getElem?_eq_getElem hlt⟩
    by_cases h1 : o.cls = "FailSafeClustering"
    · rw [fitObj_failSafe W fuel depth eo h1]
      exact failSafeFit_spec hW ih r X hg eo h1 hm
    · by_cases h3 : o.cls = "MapperClustering"
      · obtain ⟨vc, vk, vj, hvc, hvk, hvj, hcc, hck⟩ := hm [] r o (.nil _) eo h3
        obtain ⟨g1, g2, g3⟩ := mapperClusteringFitWith_spec hW hf ih hg eo hvc hvk hvj hcc
          ⟨hck, fun rk hrk => by
            subst hrk
            exact hm.attr ⟨o, eo, hvk, public_clustering⟩⟩ (stackRows X) none
        rw [fitObj_mapper W fuel depth eo h3, labelsOf_mapper W h depth eo h3, hvc, hvk]
        refine ⟨g2, g3.weaken ?_, ?_⟩
        · rintro a _ (rfl | ⟨rk, rfl, hs⟩)
          · exact Or.inl rfl
          · exact Or.inr (.inMapper eo h3 hvk hs)
        · have e1 : nestedLabels W h depth (some vc) (some vk) X =
              (expectedLabels W h depth vc vk (stackRows X) none).map Prod.fst := by
            show (expectedLabels W h depth vc vk (stackRows X) none >>= _) = _
            cases expectedLabels W h depth vc vk (stackRows X) none <;> rfl
          rw [e1]
          cases hx : expectedLabels W h depth vc vk (stackRows X) none with
          | error e =>
            rw [hx] at g1
            exact Or.inl ⟨e, g1.1, rfl⟩
          | ok p =>
            rw [hx] at g1
            obtain ⟨h4, a, h5, h6, _⟩ := g1
            exact Or.inr ⟨h4, _, h5, by simp only [labelsAttr, h6]; rfl⟩
      · exact fitObj_spec_leaf hW fuel _ r X hg eo h1 h3

theorem mapperClusteringFit_spec {W : World} (hW : Contract W) {n fuel : ℕ} (hf : n ≤ fuel)
    {h : Heap} (hg : GoodHeap h n) {r : ℕ} {o : Obj} (eo : h[r]? = some o) {vc vk vj : Val}
    (hvc : o.attrs.get? "cover" = some vc) (hvk : o.attrs.get? "clustering" = some vk)
    (hvj : o.attrs.get? "n_jobs" = some vj) (hcc : Cloneable W h vc) (hck : CloneableClust W h vk)
    (X : Input) (y : Option Input) :
    FitOutcome "labels_" r o (mapperClusteringFit W fuel r X y h)
      ((expectedLabels W h fuel vc vk X y).map fun p => (.labels p.1, p.2)) ∧
    GoodHeap (mapperClusteringFit W fuel r X y h).2 n ∧
    Evolves h (mapperClusteringFit W fuel r X y h).2 (fun b => b = r ∨ SharedIn h vk b) :=
  mapperClusteringFitWith_spec hW hf (fitObj_spec hW hf fuel) hg eo hvc hvk hvj hcc hck X y

theorem mapperAlgorithmFit_spec {W : World} (hW : Contract W) {n fuel : ℕ} (hf : n ≤ fuel)
    (hn2 : 2 ≤ n) {h : Heap}
    (hg : GoodHeap h n) {r : ℕ} {o : Obj} (eo : h[r]? = some o) {vc vk vf vv vj : Val}
    (hvc : o.attrs.get? "cover" = some vc) (hvk : o.attrs.get? "clustering" = some vk)
    (hvf : o.attrs.get? "failsafe" = some vf) (hvv : o.attrs.get? "verbose" = some vv)
    (hvj : o.attrs.get? "n_jobs" = some vj) (hcc : Cloneable W h vc) (hck : CloneableClust W h vk)
    (hplain : IsPlain vv) (X : Input) (y : Option Input) :
    FitOutcome "graph_" r o (mapperAlgorithmFit W fuel r X y h)
      ((expectedGraph W h fuel vc vk vf X y).map fun p => (.graph p.1, p.2)) ∧
    GoodHeap (mapperAlgorithmFit W fuel r X y h).2 n ∧
    Evolves h (mapperAlgorithmFit W fuel r X y h).2 (fun b => b = r ∨ SharedIn h vk b) := by
  have hself : ¬ SharedIn h vk r := by
    rintro ⟨rk, rfl, hs⟩
    obtain ⟨ks, _, hre⟩ := hs.reaches
    exact not_reaches_self hg ⟨o, eo, hvk, public_clustering⟩ hre
  rw [mapperAlgorithmFit, expectedGraph, run_bind, run_lift]
  cases hval : validateXy X (y.getD X) with
  | error e =>
    exact ⟨⟨rfl, o.attrs, eo, fun _ _ => rfl⟩, hg, Evolves.refl _ _⟩
  | ok p =>
    obtain ⟨aX, ay⟩ := p
    simp only [ok_bind]
    obtain ⟨h1, a1, tc, tk, oc, ok, c, run1, hg1, hev1, e1, hc1, hk1, hres1, hle, hle', hne, etc, hcopy,
      etk, hC, hlab, hready, hnest⟩ := run_mapperSetup hW hf hg eo hvc hvk hvf hvv hvj hcc hck hplain hn2
    rw [run_bind, run1]
    simp only
    rw [run_bind, run_lift]
    have hev1' : Evolves h h1 (fun b => b = r ∨ SharedIn h vk b) :=
      hev1.weaken (fun _ _ h => Or.inl h)
    cases hrX : rowsOf aX with
    | error e => exact ⟨⟨rfl, a1, e1, hres1⟩, hg1, hev1'⟩
    | ok rX =>
      simp only [ok_bind]
      rw [run_bind, run_lift]
      cases hry : rowsOf ay with
      | error e => exact ⟨⟨rfl, a1, e1, hres1⟩, hg1, hev1'⟩
      | ok ry =>
        simp only [ok_bind]
        rw [mapperRun, run_bind, run_readAttr_some e1 hc1]
        simp only
        rw [run_bind, run_asObj]
        simp only
        rw [run_bind, run_readAttr_some e1 hk1]
        simp only
        rw [run_bind, run_asObj]
        simp only
        obtain ⟨h2, run2, hg2, hev2⟩ := run_mapperLabelsE hW hf (fitObj_spec hW hf fuel) rX ry
          hg1 etc etk hne hC hready
        rw [CopyOf.charts hcopy, hlab] at run2
        rw [run_bind, run2, mapperGraph_eq]
        have hlt := lt_of_getElem? eo
        have e2 : h2[r]? = some ⟨o.cls, a1⟩ := by
          rw [hev2.frame r (lt_of_getElem? e1), e1]
          rintro (h3 | h3)
          · omega
          · exact hself (hnest r hlt h3)
        have hev02 : Evolves h h2 (fun b => b = r ∨ SharedIn h vk b) := by
          refine hev1'.trans hev2 ?_
          rintro b hb (h3 | h3)
          · omega
          · exact Or.inr (hnest b hb h3)
        cases hL : mapperLabels rX ry (coverParam W h vc)
            (fun _ => failSafeParam W h fuel vf vk) with
        | error e => exact ⟨⟨rfl, a1, e2, hres1⟩, hg2, hev02⟩
        | ok itm =>
          simp only [ok_bind]
          rw [run_bind, run_lift]
          cases hG : graphOfLabels itm with
          | error e => exact ⟨⟨rfl, a1, e2, hres1⟩, hg2, hev02⟩
          | ok g =>
            obtain ⟨m, hm⟩ := nFeatures_ok hval hrX
            obtain ⟨h3, a3, run3, hg3, hev3, e3, h4, h5⟩ := run_writeResults hg2 e2 private_graph
              (by decide) (.graph g) hm
            simp only [ok_bind]
            rw [run3, hm]
            exact ⟨⟨rfl, a3, e3, h4, h5⟩, hg3, hev02.trans hev3 (fun _ _ h => Or.inl h)⟩

end Verif
