import Verif.Proof.Interrupt
import Verif.Proof.LearnHistory

set_option autoImplicit false

namespace Verif

/-! ### The steps in a row -/

theorem run_setParamCloneSteps (W : World) (fuel r : ℕ) (cls priv param : String) (h : Heap) :
    (setParamCloneSteps W fuel r cls priv param).run h = setParamClone W fuel r cls priv param h := by
  have hinto : ∀ v h, (cloneIntoSteps W fuel r priv v).run h = cloneInto W fuel r priv v h := by
    intro v h
    cases v <;> simp only [cloneIntoSteps, cloneInto, Thread.run_bind, run_bind, Thread.run_atom,
      Thread.run_pure, run_pure] <;> rfl
  simp only [setParamCloneSteps, setParamClone, Thread.run_bind, run_bind, Thread.run_atom, hinto]
  rfl

theorem run_wrapIfSteps (v : Val) (r : ℕ) (h : Heap) : (wrapIfSteps v r).run h = wrapIf v r h := by
  unfold wrapIfSteps wrapIf
  split
  · simp only [wrapFailSafeSteps, wrapFailSafe, Thread.run_bind, run_bind, Thread.run_atom]
    rfl
  · rfl

theorem run_mapperSetupSteps (W : World) (fuel r : ℕ) (h : Heap) :
    (mapperSetupSteps W fuel r).run h = mapperSetup W fuel r h := by
  simp only [mapperSetupSteps, mapperSetup, Thread.run_bind, run_bind, Thread.run_atom,
    run_setParamCloneSteps, run_wrapIfSteps]
  rfl

theorem run_mapperRunSteps {W : World} {S : FitSteps} (hS : Implements W S) (fuel r : ℕ) (aX : RealArray)
    (X y : List RealArray) (h : Heap) :
    (mapperRunSteps W S fuel r aX X y).run h = mapperRun W fuel r aX X y h := by
  unfold mapperRunSteps mapperRun
  simp only [mapperLabelsE_bind]
  simp only [Thread.run_bind, run_bind, Thread.run_atom, Thread.run_done, run_lift,
    run_jobsThread W fuel (run_fitThread hS fuel fuel)]
  rfl

theorem run_mapperAlgorithmSteps {W : World} {S : FitSteps} (hS : Implements W S) (fuel r : ℕ)
    (X : Input) (y : Option Input) (h : Heap) :
    (mapperAlgorithmSteps W S fuel r X y).run h = mapperAlgorithmFit W fuel r X y h := by
  simp only [mapperAlgorithmSteps, mapperAlgorithmFit, Thread.run_bind, run_bind, Thread.run_done,
    run_lift, run_mapperSetupSteps, run_mapperRunSteps hS]
  rfl

theorem run_mapperClusteringSteps (W : World) (fuel : ℕ) {f : ℕ → List RealArray → Thread Unit}
    {g : ℕ → List RealArray → Eff Unit} (hfg : ∀ r X h, (f r X).run h = g r X h) (r : ℕ)
    (X : Input) (y : Option Input) (h : Heap) :
    (mapperClusteringSteps W fuel f r X y).run h = mapperClusteringFitWith W fuel g r X y h := by
  unfold mapperClusteringSteps mapperClusteringFitWith
  simp only [mapperLabelsE_bind]
  simp only [Thread.run_bind,
    run_bind, Thread.run_atom, Thread.run_done, run_lift, run_jobsThread W fuel hfg]
  rfl

theorem run_fitCallSteps {W : World} {S : FitSteps} (hS : Implements W S) (fuel : ℕ) (c : FitCall)
    (h : Heap) : (c.steps W S fuel).run h = c.run W fuel h := by
  unfold FitCall.steps FitCall.run
  split
  · exact run_mapperAlgorithmSteps hS fuel _ _ _ h
  · exact run_mapperClusteringSteps W fuel (run_fitThread hS fuel fuel) _ _ _ h

/-! ### The assignments of `MapperAlgorithm.fit` -/

theorem Before.write {h0 h : Heap} {n : ℕ} {T : ℕ → Prop} {r : ℕ} (hb : Before h0 n T r h) (hT : T r)
    {o : Obj} (eo : h[r]? = some o) {k : String} (hk : ¬ IsPublic k) (hk' : k ∉ resultNames) (v : Val) :
    Before h0 n T r (h.set r ⟨o.cls, o.attrs.set k v⟩) := by
  refine ⟨hb.1.write eo (fun _ => hT) hk v, fun k' hm => ?_⟩
  rw [attrAt_some (List.getElem?_set_self (lt_of_getElem? eo)), PyDict.get?_set,
    if_neg (by rintro rfl; exact hk' hm), ← attrAt_some eo, hb.2 k' hm]

theorem Before.append {h0 h : Heap} {n : ℕ} {T : ℕ → Prop} {r : ℕ} (hb : Before h0 n T r h)
    (hlt : r < h.length) {o : Obj} (hg : GoodHeap (h ++ [o]) n)
    (hev : Evolves h (h ++ [o]) (fun _ => False)) : Before h0 n T r (h ++ [o]) :=
  hb.trans ⟨hg, hev⟩ (fun _ _ h => h.elim) hlt (fun h => h)

theorem setParam_along {W : World} {n fuel : ℕ} (hf : n ≤ fuel) {h0 h : Heap} {T : ℕ → Prop} {r : ℕ}
    (hb : Before h0 n T r h) (hT : T r) {o : Obj} (eo : h[r]? = some o) (cls : String)
    {priv param : String} {v : Val} (hv : o.attrs.get? param = some v) (hpriv : ¬ IsPublic priv)
    (hpub : IsPublic param) (hk : priv ∉ resultNames) (hcl : Cloneable W h v) :
    Along (Before h0 n T r) (setParamCloneSteps W fuel r cls priv param) h := by
  have hg := hb.1.1
  have hlt := lt_of_getElem? eo
  have hne : param ≠ priv := by rintro rfl; exact hpriv hpub
  obtain ⟨hg1, hev1⟩ := goodHeap_trivial hg cls
  have e1 : (h ++ [(⟨cls, PyDict.empty⟩ : Obj)])[r]? = some o := by
    rw [List.getElem?_append_left hlt, eo]
  have hb1 := hb.append hlt hg1 hev1
  have hb2 := hb1.write hT e1 hpriv hk (.obj h.length)
  obtain ⟨hg2, hev2⟩ := goodHeap_write hg1 e1 hpriv (.obj h.length)
  have hev02 := (hev1.weaken (T' := fun b => b = r) (fun _ _ h => h.elim)).trans hev2
    (fun a _ h => h)
  have e2 := List.getElem?_set_self (a := (⟨o.cls, o.attrs.set priv (.obj h.length)⟩ : Obj))
    (lt_of_getElem? e1)
  have hv2 : (o.attrs.set priv (.obj h.length)).get? param = some v := by
    rw [PyDict.get?_set, if_neg hne, hv]
  unfold setParamCloneSteps
  refine Along.atom (run_alloc cls PyDict.empty h) hb ?_
  refine Along.atom (run_writeAttr e1 _ _) hb1 ?_
  refine Along.atom (run_readAttr_some e2 hv2) hb2 ?_
  rcases hcl with rfl | ⟨rc, oc, c, rfl, eoc, hC⟩
  · exact hb2
  · have hrc : rc ≠ r := by
      rintro rfl
      exact not_reaches_self hg ⟨o, eo, hv, hpub⟩ (.nil _)
    have ec2 := (hev02.frame rc (lt_of_getElem? eoc) hrc).trans eoc
    obtain ⟨ecl, hg3, hev3⟩ := run_cloneE hg2 hf ec2 hC
    have hb3 := hb2.append (lt_of_getElem? e2) hg3 hev3
    have e3 := (List.getElem?_append_left (l₂ := [(⟨oc.cls, freshAttrs c oc.attrs⟩ : Obj)])
      (lt_of_getElem? e2)).trans e2
    refine Along.atom (x := cloneVal W fuel (.obj rc)) ecl hb2 ?_
    refine Along.lastAtom hb3 ?_
    rw [run_writeAttr e3]
    exact hb3.write hT e3 hpriv hk _

theorem wrap_along {n : ℕ} {h0 h : Heap} {T : ℕ → Prop} {r : ℕ} (hb : Before h0 n T r h) (hT : T r)
    {o : Obj} (eo : h[r]? = some o) {t : ℕ} {v : Val}
    (hc : o.attrs.get? "_clustering" = some (.obj t)) (hv : o.attrs.get? "_verbose" = some v)
    (hplain : IsPlain v) (htl : t < h.length)
    (hdeep : ∀ ks b, Reaches h t ks b → ks.length + 1 < n) (failsafe : Val) :
    Along (Before h0 n T r) (wrapIfSteps failsafe r) h := by
  unfold wrapIfSteps
  split
  · have hget : ∀ k w, (PyDict.mk [("clustering", Val.obj t), ("verbose", v)]).get? k = some w →
        (k = "clustering" ∧ w = .obj t) ∨ (k = "verbose" ∧ w = v) := by
      intro k w hk
      have := PyDict.mem_of_get?_eq_some hk
      simp at this
      exact this
    obtain ⟨hg1, hev1⟩ := goodHeap_append hb.1.1
      (o := ⟨"FailSafeClustering", ⟨[("clustering", .obj t), ("verbose", v)]⟩⟩)
      (by simp [PyDict.keys])
      (by
        intro k hk _
        simp only [PyDict.keys, List.map_cons, List.map_nil, List.mem_cons, List.not_mem_nil,
          or_false] at hk
        rcases hk with rfl | rfl <;> decide +kernel)
      (by
        intro k b hk _
        rcases hget k _ hk with ⟨_, h1⟩ | ⟨_, h1⟩
        · injection h1 with h1
          subst h1
          exact ⟨htl, hdeep⟩
        · exact absurd h1.symm (hplain b))
    have hb1 := hb.append (lt_of_getElem? eo) hg1 hev1
    have e1 := (List.getElem?_append_left
      (l₂ := [(⟨"FailSafeClustering", ⟨[("clustering", .obj t), ("verbose", v)]⟩⟩ : Obj)])
      (lt_of_getElem? eo)).trans eo
    unfold wrapFailSafeSteps
    refine Along.atom (run_readAttr_some eo hc) hb ?_
    refine Along.atom (run_readAttr_some eo hv) hb ?_
    refine Along.atom (run_alloc _ _ h) hb ?_
    refine Along.lastAtom hb1 ?_
    rw [run_writeAttr e1]
    exact hb1.write hT e1 private_clustering (by decide) _
  · exact hb

theorem setup_along {W : World} {n fuel : ℕ} (hf : n ≤ fuel) {h : Heap} {T : ℕ → Prop}
    (hg : GoodHeap h n) {r : ℕ} (hT : T r) {o : Obj} (eo : h[r]? = some o) {vc vk vf vv vj : Val}
    (hvc : o.attrs.get? "cover" = some vc) (hvk : o.attrs.get? "clustering" = some vk)
    (hvf : o.attrs.get? "failsafe" = some vf) (hvv : o.attrs.get? "verbose" = some vv)
    (hvj : o.attrs.get? "n_jobs" = some vj) (hcc : Cloneable W h vc)
    (hck : Cloneable W h vk) (hplain : IsPlain vv) (hn2 : 2 ≤ n) :
    Along (Before h n T r) (mapperSetupSteps W fuel r) h := by
  have hlt := lt_of_getElem? eo
  have hb0 : Before h n T r h := ⟨⟨hg, Evolves.refl _ _⟩, fun _ _ => rfl⟩
  unfold mapperSetupSteps
  have al1 := setParam_along hf hb0 hT eo "TrivialCover" hvc private_cover public_cover
    (by decide) hcc
  refine Along.bind _ al1 ?_
  intro _ h1 e1'
  have hb1 := Along.last _ al1
  rw [e1'] at hb1
  simp only at hb1
  obtain ⟨h1', a1, tc, oc, run1, hg1, hev1, e1, hc1, hother1, hle1, et1, hcopy1⟩ :=
    run_setParamClone hf hg eo "TrivialCover" hvc private_cover public_cover hcc
  rw [run_setParamCloneSteps, run1] at e1'
  injection e1' with _ e1'
  subst e1'
  have hsame1 : ∀ rk, vk = .obj rk → h1'[rk]? = h[rk]? := by
    rintro rk rfl
    have hpa : PublicAttr h r "clustering" (.obj rk) := ⟨o, eo, hvk, public_clustering⟩
    refine hev1.frame rk (hg.valid hpa) ?_
    rintro rfl
    exact not_reaches_self hg hpa (.nil _)
  have hvk1 : a1.get? "clustering" = some vk := by rw [hother1 _ (by decide), hvk]
  have al2 := setParam_along hf hb1 hT e1 "TrivialClustering" (param := "clustering") hvk1
    private_clustering public_clustering (by decide) (hck.transfer hsame1)
  refine Along.bind _ al2 ?_
  intro _ h2 e2'
  have hb2 := Along.last _ al2
  rw [e2'] at hb2
  simp only at hb2
  obtain ⟨h2', a2, tk, ok, run2, hg2, hev2, e2, hc2, hother2, hle2, et2, hcopy2⟩ :=
    run_setParamClone hf hg1 e1 "TrivialClustering" hvk1 private_clustering public_clustering
      (hck.transfer hsame1)
  rw [run_setParamCloneSteps, run2] at e2'
  injection e2' with _ e2'
  subst e2'
  simp only at e2
  replace hcopy2 := hcopy2.transfer hsame1
  have hk2 : ∀ k, k ≠ "_cover" → k ≠ "_clustering" → a2.get? k = o.attrs.get? k := by
    intro k h5 h6
    rw [hother2 k h6]
    exact hother1 k h5
  have hev02 := hev1.trans hev2 (fun _ _ h => h)
  have hlt2 := lt_of_getElem? et2
  have hrtk : tk ≠ r := by have := hev1.grow; omega
  -- verbose
  refine Along.atom (run_readAttr_some e2 (v := vv) (by rw [hk2 _ (by decide) (by decide), hvv]))
    hb2 ?_
  refine Along.atom (run_writeAttr e2 _ _) hb2 ?_
  have hb3 := hb2.write hT e2 private_verbose (by decide) vv
  obtain ⟨_, hev3⟩ := goodHeap_write hg2 e2 private_verbose vv
  have e3 := List.getElem?_set_self (a := (⟨o.cls, a2.set "_verbose" vv⟩ : Obj)) (lt_of_getElem? e2)
  simp only at hb3 hev3 ⊢
  obtain ⟨h3, eh3⟩ : ∃ h3, h3 = h2'.set r ⟨o.cls, a2.set "_verbose" vv⟩ := ⟨_, rfl⟩
  rw [← eh3] at hb3 hev3 e3 ⊢
  -- failsafe
  refine Along.atom (run_readAttr_some e3 (v := vf)
    (by rw [PyDict.get?_set, if_neg (by decide), hk2 _ (by decide) (by decide), hvf])) hb3 ?_
  refine Along.atom (run_writeAttr e3 _ _) hb3 ?_
  have hb4 := hb3.write hT e3 private_failsafe (by decide) vf
  obtain ⟨_, hev4⟩ := goodHeap_write hb3.1.1 e3 private_failsafe vf
  have e4 := List.getElem?_set_self (a := (⟨o.cls, (a2.set "_verbose" vv).set "_failsafe" vf⟩ : Obj))
    (lt_of_getElem? e3)
  simp only at hb4 hev4 ⊢
  obtain ⟨h4, eh4⟩ : ∃ h4, h4 = h3.set r ⟨o.cls, (a2.set "_verbose" vv).set "_failsafe" vf⟩ :=
    ⟨_, rfl⟩
  obtain ⟨a4, ea4⟩ : ∃ a4, a4 = (a2.set "_verbose" vv).set "_failsafe" vf := ⟨_, rfl⟩
  rw [← eh4] at hb4 hev4 e4 ⊢
  rw [← ea4] at e4
  have hother4 : ∀ k, k ≠ "_verbose" → k ≠ "_failsafe" → a4.get? k = a2.get? k := by
    intro k h5 h6
    rw [ea4, PyDict.get?_set, if_neg h6, PyDict.get?_set, if_neg h5]
  have hvb4 : a4.get? "_verbose" = some vv := by
    rw [ea4, PyDict.get?_set, if_neg (by decide), PyDict.get?_set, if_pos rfl]
  have hfs4 : a4.get? "_failsafe" = some vf := by rw [ea4, PyDict.get?_set, if_pos rfl]
  have hcl4 : a4.get? "_clustering" = some (.obj tk) := by
    rw [hother4 _ (by decide) (by decide)]; exact hc2
  refine Along.atom (run_readAttr_some e4 hfs4) hb4 ?_
  -- the wrapper
  have hev24 : Evolves h2' h4 (fun b => b = r) := hev3.trans hev4 (fun _ _ h => h)
  have hev04 := hev02.trans hev24 (fun _ _ h => h)
  have etk4 : h4[tk]? = some ok := by rw [hev24.frame tk hlt2 hrtk, et2]
  have hpath : ∀ ks b, Reaches h4 tk ks b → ks.length + 1 < n := by
    intro ks b hre
    cases ks with
    | nil => exact hn2
    | cons k ks =>
      obtain ⟨rk, hv, hre'⟩ := CopyOf.nested hg hev04 hcopy2 etk4 (by simp) hre
      subst hv
      exact hg.2.2 r ("clustering" :: k :: ks) b (.cons ⟨o, eo, hvk, public_clustering⟩ hre')
  have al5 := wrap_along hb4 hT e4 hcl4 hvb4 hplain (lt_of_getElem? etk4) hpath vf
  refine Along.bind _ al5 ?_
  intro _ h5 e5'
  have hb5 := Along.last _ al5
  rw [e5'] at hb5
  simp only at hb5
  -- n_jobs
  obtain ⟨o5, e5, hs5⟩ : ∃ o5, h5[r]? = some o5 ∧ SamePublic o.attrs o5.attrs := by
    obtain ⟨o5, e5, _, hs⟩ := hb5.1.2.same r o eo
    exact ⟨o5, e5, hs⟩
  have hvj5 : o5.attrs.get? "n_jobs" = some vj := by rw [← hs5 _ public_nJobs, hvj]
  refine Along.atom (run_readAttr_some e5 hvj5) hb5 ?_
  refine Along.lastAtom hb5 ?_
  rw [run_writeAttr e5]
  exact hb5.write hT e5 private_nJobs (by decide) vj

theorem algorithm_along {W : World} (hW : Contract W) {S : FitSteps} (hS : Implements W S) {n fuel : ℕ}
    (hf : n ≤ fuel) (hn2 : 2 ≤ n) {h : Heap}
    (hg : GoodHeap h n) {r : ℕ} {o : Obj} (eo : h[r]? = some o) {vc vk vf vv vj : Val}
    (hvc : o.attrs.get? "cover" = some vc) (hvk : o.attrs.get? "clustering" = some vk)
    (hvf : o.attrs.get? "failsafe" = some vf) (hvv : o.attrs.get? "verbose" = some vv)
    (hvj : o.attrs.get? "n_jobs" = some vj) (hcc : Cloneable W h vc) (hck : CloneableClust W h vk)
    (hplain : IsPlain vv) (X : Input) (y : Option Input) :
    Along (Stage h n (fun b => b = r ∨ SharedIn h vk b) r "graph_"
        ((expectedGraph W h fuel vc vk vf X y).map fun p => (.graph p.1, p.2)))
      (mapperAlgorithmSteps W S fuel r X y) h := by
  have hself : ¬ SharedIn h vk r := by
    rintro ⟨rk, rfl, hs⟩
    obtain ⟨ks, _, hre⟩ := hs.reaches
    exact not_reaches_self hg ⟨o, eo, hvk, public_clustering⟩ hre
  have hlt := lt_of_getElem? eo
  have hb0 : Before h n (fun b => b = r ∨ SharedIn h vk b) r h :=
    ⟨⟨hg, Evolves.refl _ _⟩, fun _ _ => rfl⟩
  obtain ⟨exp, hexp⟩ : ∃ exp, exp = (expectedGraph W h fuel vc vk vf X y).map fun p =>
    ((.graph p.1 : Val), p.2) := ⟨_, rfl⟩
  rw [← hexp]
  rw [expectedGraph] at hexp
  unfold mapperAlgorithmSteps
  refine Along.pure (hb0.stage _ _) ?_
  rintro ⟨aX, ay⟩ hval
  rw [hval] at hexp
  simp only [ok_bind] at hexp
  have al1 := setup_along (T := fun b => b = r ∨ SharedIn h vk b) hf hg (Or.inl rfl) eo hvc hvk hvf hvv
    hvj hcc hck.1 hplain hn2
  refine Along.bind _ (Along.mono (fun _ hb => hb.stage _ _) _ al1) ?_
  intro _ h1 e1'
  have hb1 := Along.last _ al1
  rw [e1'] at hb1
  simp only at hb1
  obtain ⟨h1', a1, tc, tk, oc, ok, c, run1, hg1, hev1, e1, hc1, hk1, hres1, hle, hle', hne, etc, hcopy,
    etk, hC, hlab, hready, hnest⟩ := run_mapperSetup hW hf hg eo hvc hvk hvf hvv hvj hcc hck hplain hn2
  rw [run_mapperSetupSteps, run1] at e1'
  injection e1' with _ e1'
  subst e1'
  refine Along.pure (hb1.stage _ _) fun rX hrX => ?_
  rw [hrX] at hexp
  refine Along.pure (hb1.stage _ _) fun ry hry => ?_
  rw [hry] at hexp
  simp only [ok_bind] at hexp
  unfold mapperRunSteps
  refine Along.atom (run_readAttr_some e1 hc1) (hb1.stage _ _) ?_
  refine Along.atom (run_asObj tc h1') (hb1.stage _ _) ?_
  refine Along.atom (run_readAttr_some e1 hk1) (hb1.stage _ _) ?_
  refine Along.atom (run_asObj tk h1') (hb1.stage _ _) ?_
  refine Along.labels hW hf (run_fitThread hS fuel fuel) (fit_along hW hS hf fuel) hb1
    (lt_of_getElem? e1) rX ry etc etk hne hC hready (by omega)
    (fun h3 => hself (hnest r hlt h3)) ?_ ?_
  · rintro a ha (h4 | h4)
    · omega
    · exact Or.inr (hnest a ha h4)
  intro itm h3 erun hb3 hr3
  obtain ⟨h3', run3, _, _⟩ := run_mapperLabelsE hW hf (fitObj_spec hW hf fuel) rX ry hg1 etc etk hne hC
    hready
  rw [CopyOf.charts hcopy, hlab, erun] at run3
  injection run3 with run3 _
  rw [mapperGraph_eq, ← run3] at hexp
  simp only [ok_bind] at hexp
  refine Along.pure (hb3.stage _ _) fun g hG => ?_
  rw [hG] at hexp
  simp only [ok_bind] at hexp
  obtain ⟨m, hm⟩ := nFeatures_ok hval hrX
  rw [hm] at hexp
  exact along_writeResults hb3 (Or.inl rfl) (hr3.trans e1) private_graph (by decide) hm hexp

/-! ### Calls and histories -/

theorem call_along {W : World} (hW : Contract W) {S : FitSteps} (hS : Implements W S) {n fuel : ℕ}
    (hf : n ≤ fuel) (hn2 : 2 ≤ n) {h : Heap} (hg : GoodHeap h n) {c : FitCall} {clust : Val}
    (hv : c.Valid W h clust) :
    Along (Safe h n (fun b => b = c.target ∨ SharedIn h clust b)) (c.steps W S fuel) h := by
  unfold FitCall.Valid at hv
  unfold FitCall.steps
  split at hv
  · rename_i hc
    rw [if_pos hc]
    obtain ⟨vc, vf, o, vv, vj, eo, _, h1, h2, h3, h4, h5, h6, h7, h8⟩ := hv
    exact Along.mono (fun _ h => h.1) _
      (algorithm_along hW hS hf hn2 hg eo h1 h2 h3 h4 h5 h7 h8 h6 c.X c.y)
  · rename_i hc
    rw [if_neg hc]
    obtain ⟨vc, o, vj, eo, _, h1, h2, h5, h7, h8⟩ := hv
    exact Along.mono (fun _ h => h.1) _
      (clustering_along hW hf (run_fitThread hS fuel fuel) (fit_along hW hS hf fuel)
        (fitObj_spec hW hf fuel) hg eo h1 h2 h5 h7 h8 c.X c.y)

theorem attempt_safe {W : World} (hW : Contract W) {S : FitSteps} (hS : Implements W S) {n fuel : ℕ}
    (hf : n ≤ fuel) (hn2 : 2 ≤ n) {h : Heap} (hg : GoodHeap h n) (a : Attempt) {clust : Val}
    (hv : a.call.Valid W h clust) :
    Safe h n (fun b => b = a.call.target ∨ SharedIn h clust b) (a.run W S fuel h) := by
  unfold Attempt.run
  cases a.stop with
  | none => exact run_call hW hf hn2 hg hv
  | some k => exact (call_along hW hS hf hn2 hg hv).after k

theorem attempts_safe {W : World} (hW : Contract W) {S : FitSteps} (hS : Implements W S) {n fuel : ℕ}
    (hf : n ≤ fuel) (hn2 : 2 ≤ n) : ∀ (as : List Attempt) {h : Heap}, GoodHeap h n →
    (∀ a ∈ as, ∃ clust, a.call.Valid W h clust) →
    Safe h n (fun b => ∃ a ∈ as, ∃ clust, a.call.Valid W h clust ∧
      (b = a.call.target ∨ SharedIn h clust b)) (runAttempts W S fuel as h) := by
  intro as
  induction as with
  | nil => intro h hg _; exact ⟨hg, Evolves.refl _ _⟩
  | cons a as ih =>
    intro h hg hv
    obtain ⟨clust, hc⟩ := hv a List.mem_cons_self
    have s1 := attempt_safe hW hS hf hn2 hg a hc
    have s2 := ih s1.1 (fun a' ha' => by
      obtain ⟨cl, h1⟩ := hv a' (List.mem_cons_of_mem _ ha')
      exact ⟨cl, h1.evolve hg s1.2⟩)
    refine Safe.trans ⟨s1.1, s1.2.weaken ?_⟩ s2 ?_
    · intro b _ h1
      exact ⟨a, List.mem_cons_self, clust, hc, h1⟩
    · rintro b hb ⟨a', ha', cl', hval', h1⟩
      obtain ⟨cl, hcl⟩ := hv a' (List.mem_cons_of_mem _ ha')
      have : cl' = cl := by
        have h2 := hcl.evolve hg s1.2
        unfold FitCall.Valid at h2 hval'
        split at h2
        · rename_i hb
          rw [if_pos hb] at hval'
          obtain ⟨_, _, o, _, _, eo, _, _, h3, _⟩ := h2
          obtain ⟨_, _, o', _, _, eo', _, _, h4, _⟩ := hval'
          rw [eo] at eo'
          cases eo'
          rw [h3] at h4
          cases h4
          rfl
        · rename_i hb
          rw [if_neg hb] at hval'
          obtain ⟨_, o, _, eo, _, _, h3, _⟩ := h2
          obtain ⟨_, o', _, eo', _, _, h4, _⟩ := hval'
          rw [eo] at eo'
          cases eo'
          rw [h3] at h4
          cases h4
          rfl
      subst this
      refine ⟨a', List.mem_cons_of_mem _ ha', cl', hcl, ?_⟩
      rcases h1 with h1 | h1
      · exact Or.inl h1
      · exact Or.inr (h1.evolve hg s1.2 hcl.cloneable)

end Verif
