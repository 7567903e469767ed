import Verif.Proof.LearnFit

set_option autoImplicit false

namespace Verif

theorem isOn_eq (v : Val) : truthy v = isOn v := by
  unfold truthy isOn
  split <;> split <;> simp_all

theorem public_failsafe : IsPublic "failsafe" := by constructor <;> decide +kernel
theorem private_cover : ¬ IsPublic "_cover" := fun h => h.1 (by decide +kernel)
theorem private_failsafe : ¬ IsPublic "_failsafe" := fun h => h.1 (by decide +kernel)
theorem private_nJobs : ¬ IsPublic "_n_jobs" := fun h => h.1 (by decide +kernel)
theorem private_graph : ¬ IsPublic "graph_" := fun h => h.2 (by decide +kernel)
theorem private_nFeatures : ¬ IsPublic "n_features_in_" := fun h => h.2 (by decide +kernel)

/-- `ot` is what the code makes of the parameter value `v`: an object of the trivial
class for `None`, a clone otherwise. -/
def CopyOf (W : World) (h : Heap) (cls : String) (v : Val) (ot : Obj) : Prop :=
  (v = .none ∧ ot = ⟨cls, PyDict.empty⟩) ∨
    ∃ r o c, v = .obj r ∧ h[r]? = some o ∧ ParamsByInit W.classes o c ∧
      ot = ⟨o.cls, freshAttrs c o.attrs⟩

theorem CopyOf.public {W : World} {h : Heap} {cls : String} {v : Val} {ot : Obj}
    (hc : CopyOf W h cls v ot) {k : String} {w : Val} (hk : ot.attrs.get? k = some w)
    (hp : IsPublic k) : ∃ r, v = .obj r ∧ PublicAttr h r k w := by
  rcases hc with ⟨_, rfl⟩ | ⟨r, o, c, hv, eo, hC, rfl⟩
  · simp [PyDict.empty, PyDict.get?, PyDict.lookupList] at hk
  · exact ⟨r, hv, o, eo, by rw [freshAttrs_public hC k hp]; exact hk, hp⟩

theorem CopyOf.byInit {W : World} {h : Heap} {cls : String} {v : Val} {ot : Obj}
    (hc : CopyOf W h cls v ot) (hcls : cls = "TrivialCover" ∨ cls = "TrivialClustering") :
    ∃ c, ParamsByInit W.classes ot c := by
  rcases hc with ⟨_, rfl⟩ | ⟨r, o, c, hv, eo, hC, rfl⟩
  · rcases hcls with rfl | rfl
    · exact ⟨⟨"apply" :: commonMembers, PyDict.empty⟩, by rw [World.classes]; rfl,
        by simp [PyDict.keys, PyDict.empty], fun _ _ => Iff.rfl⟩
    · exact ⟨⟨commonMembers, PyDict.empty⟩, by rw [World.classes]; rfl,
        by simp [PyDict.keys, PyDict.empty], fun _ _ => Iff.rfl⟩
  · exact ⟨c, paramsByInit_fresh hC⟩

/-- What is nested in the copy is nested in the original. -/
theorem CopyOf.nested {W : World} {h h' : Heap} {n : ℕ} (hg : GoodHeap h n) {T : ℕ → Prop}
    (hev : Evolves h h' T) {cls : String} {v : Val} {ot : Obj} (hc : CopyOf W h cls v ot) {t : ℕ}
    (et : h'[t]? = some ot) {ks : List String} (hne : ks ≠ []) {a : ℕ} (hr : Reaches h' t ks a) :
    ∃ r, v = .obj r ∧ Reaches h r ks a := by
  cases hr with
  | nil => exact absurd rfl hne
  | @cons _ b _ k ks hp hr =>
    obtain ⟨oo, eoo, hk, hpub⟩ := hp
    rw [et] at eoo
    cases eoo
    obtain ⟨r, hv, hpa⟩ := hc.public hk hpub
    rw [hev.reaches hg (hg.valid hpa)] at hr
    exact ⟨r, hv, .cons hpa hr⟩

/-- What the copy shares, the original shares. -/
theorem CopyOf.shared {W : World} {h h' : Heap} {n : ℕ} (hg : GoodHeap h n) {T : ℕ → Prop}
    (hev : Evolves h h' T) {v : Val} {ot : Obj} (hc : CopyOf W h "TrivialClustering" v ot) {t : ℕ}
    (et : h'[t]? = some ot) {a : ℕ} (hs : Shared h' t a) : SharedIn h v a := by
  rcases hc with ⟨rfl, rfl⟩ | ⟨r, o, c, rfl, eo, hC, rfl⟩
  · exact absurd hs (not_shared_trivial et (by decide) (by decide))
  · exact ⟨r, rfl, hs.copy hg hev eo et rfl (freshAttrs_public hC)⟩

theorem CopyOf.labels {W : World} (hW : Contract W) {h h' : Heap} {n : ℕ} (hg : GoodHeap h n)
    {T : ℕ → Prop} (hev : Evolves h h' T) {v : Val} {ot : Obj}
    (hc : CopyOf W h "TrivialClustering" v ot) {t : ℕ} (et : h'[t]? = some ot) (fuel : ℕ) :
    labelsOf W h' fuel t = clustParam W h fuel v := by
  funext X
  rcases hc with ⟨rfl, rfl⟩ | ⟨r, o, c, rfl, eo, hC, rfl⟩
  · rw [labelsOf_trivial W h' fuel et rfl]; rfl
  · exact labelsOf_copy hW hg hev eo et rfl (freshAttrs_public hC) fuel X

theorem CopyOf.ready {W : World} {h h' : Heap} {n : ℕ} (hg : GoodHeap h n)
    {T : ℕ → Prop} (hev : Evolves h h' T) {v : Val} {ot : Obj}
    (hc : CopyOf W h "TrivialClustering" v ot) {t : ℕ} (et : h'[t]? = some ot)
    (hm : ∀ r, v = .obj r → MapperReady W h r) : MapperReady W h' t := by
  rcases hc with ⟨rfl, rfl⟩ | ⟨r, o, c, rfl, eo, hC, rfl⟩
  · exact mapperReady_trivial et (by decide)
  · exact (hm r rfl).copy hg hev eo et rfl (freshAttrs_public hC)

theorem CopyOf.charts {W : World} {h : Heap} {v : Val} {ot : Obj}
    (hc : CopyOf W h "TrivialCover" v ot) :
    (fun y => if ot.cls = "TrivialCover" then trivialCover y
      else (W.apply ot.cls ot.attrs y).2) = coverParam W h v := by
  funext y
  rcases hc with ⟨rfl, rfl⟩ | ⟨r, o, c, rfl, eo, hC, rfl⟩
  · simp [coverParam]
  · simp only [coverParam, chartsOf, deref_ok eo, ok_bind]
    split
    · rfl
    · rw [hC.1]

theorem CopyOf.transfer {W : World} {h h' : Heap} {cls : String} {v : Val} {ot : Obj}
    (hc : CopyOf W h' cls v ot) (hsame : ∀ r, v = .obj r → h'[r]? = h[r]?) :
    CopyOf W h cls v ot := by
  rcases hc with ⟨h1, h2⟩ | ⟨r, o, c, hv, eo, hC, h2⟩
  · exact Or.inl ⟨h1, h2⟩
  · exact Or.inr ⟨r, o, c, hv, by rw [← hsame r hv]; exact eo, hC, h2⟩

theorem Cloneable.transfer {W : World} {h h' : Heap} {v : Val} (hc : Cloneable W h v)
    (hsame : ∀ r, v = .obj r → h'[r]? = h[r]?) : Cloneable W h' v := by
  rcases hc with h1 | ⟨r, o, c, hv, eo, hC⟩
  · exact Or.inl h1
  · exact Or.inr ⟨r, o, c, hv, by rw [hsame r hv]; exact eo, hC⟩

/-- `self._x = TrivialX()`, then `self._x = clone(self.x)`. -/
theorem run_setParamClone {W : World} {n fuel : ℕ} (hf : n ≤ fuel) {h : Heap} (hg : GoodHeap h n)
    {r : ℕ} {o : Obj} (eo : h[r]? = some o) (cls : String) {priv param : String} {v : Val}
    (hv : o.attrs.get? param = some v) (hpriv : ¬ IsPublic priv) (hpub : IsPublic param)
    (hcl : Cloneable W h v) :
    ∃ h' a t ot, setParamClone W fuel r cls priv param h = (.ok (), h') ∧ GoodHeap h' n ∧
      Evolves h h' (fun b => b = r) ∧ h'[r]? = some ⟨o.cls, a⟩ ∧ a.get? priv = some (.obj t) ∧
      (∀ k, k ≠ priv → a.get? k = o.attrs.get? k) ∧ h.length ≤ t ∧ h'[t]? = some ot ∧
      CopyOf W h cls v ot := by
  have hlt := lt_of_getElem? eo
  have hne : param ≠ priv := by rintro rfl; exact hpriv hpub
  obtain ⟨hg1, hev1⟩ := goodHeap_trivial hg cls
  have e1 : (h ++ [(⟨cls, PyDict.empty⟩ : Obj)])[r]? = some o := by
    rw [List.getElem?_append_left hlt, eo]
  obtain ⟨hg2, hev2⟩ := goodHeap_write hg1 e1 hpriv (.obj h.length)
  have hev02 := (hev1.weaken (T' := fun b => b = r) (fun _ _ h => h.elim)).trans hev2
    (fun a _ h => h)
  have e2 := List.getElem?_set_self (a := (⟨o.cls, o.attrs.set priv (.obj h.length)⟩ : Obj))
    (lt_of_getElem? e1)
  have hv2 : (o.attrs.set priv (.obj h.length)).get? param = some v := by
    rw [PyDict.get?_set, if_neg hne, hv]
  obtain ⟨h2, eh2⟩ : ∃ h2, h2 = (h ++ [(⟨cls, PyDict.empty⟩ : Obj)]).set r
    ⟨o.cls, o.attrs.set priv (.obj h.length)⟩ := ⟨_, rfl⟩
  rw [← eh2] at hg2 hev2 hev02 e2
  have hrun : setParamClone W fuel r cls priv param h =
      cloneInto W fuel r priv v h2 := by
    rw [setParamClone, run_bind, run_alloc]
    simp only
    rw [run_bind, run_writeAttr e1, ← eh2]
    simp only
    rw [run_bind, run_readAttr_some e2 hv2]
  rcases hcl with rfl | ⟨rc, oc, c, rfl, eoc, hC⟩
  · refine ⟨h2, _, h.length, ⟨cls, PyDict.empty⟩, hrun, hg2, hev02, e2, ?_, ?_, le_refl _, ?_,
      Or.inl ⟨rfl, rfl⟩⟩
    · rw [PyDict.get?_set, if_pos rfl]
    · intro k hk
      rw [PyDict.get?_set, if_neg hk]
    · rw [eh2, List.getElem?_set, if_neg (by omega), List.getElem?_append_right (le_refl _)]
      simp
  · have hpa : PublicAttr h r param (.obj rc) := ⟨o, eo, hv, hpub⟩
    have hrc : rc ≠ r := by
      rintro rfl
      exact not_reaches_self hg hpa (.nil _)
    have ec2 : h2[rc]? = some oc := by
      rw [hev02.frame rc (lt_of_getElem? eoc) hrc, eoc]
    obtain ⟨ecl, hg3, hev3⟩ := run_cloneE hg2 hf ec2 hC
    have e3 : (h2 ++ [(⟨oc.cls, freshAttrs c oc.attrs⟩ : Obj)])[r]? =
        some ⟨o.cls, o.attrs.set priv (.obj h.length)⟩ := by
      rw [List.getElem?_append_left (lt_of_getElem? e2), e2]
    obtain ⟨hg4, hev4⟩ := goodHeap_write hg3 e3 hpriv (.obj h2.length)
    have e4 := List.getElem?_set_self (a := (⟨o.cls, (o.attrs.set priv (.obj h.length)).set priv
      (.obj h2.length)⟩ : Obj)) (lt_of_getElem? e3)
    refine ⟨_, _, h2.length, ⟨oc.cls, freshAttrs c oc.attrs⟩, ?_, hg4, ?_, e4, ?_, ?_,
      hev02.grow, ?_, Or.inr ⟨rc, oc, c, rfl, eoc, hC, rfl⟩⟩
    · rw [hrun]
      show (cloneVal W fuel (.obj rc) >>= fun c => writeAttr r priv (.obj c)) h2 = _
      have ecv : cloneVal W fuel (.obj rc) h2 = cloneE W fuel rc h2 := rfl
      rw [run_bind, ecv, ecl]
      simp only
      rw [run_writeAttr e3]
    · exact (hev02.trans (hev3.weaken (T' := fun b => b = r) (fun _ _ h => h.elim))
        (fun _ _ h => h)).trans hev4 (fun _ _ h => h)
    · rw [PyDict.get?_set, if_pos rfl]
    · intro k hk
      rw [PyDict.get?_set, if_neg hk, PyDict.get?_set, if_neg hk]
    · rw [List.getElem?_set, if_neg (by have := lt_of_getElem? e2; omega),
        List.getElem?_append_right (le_refl _)]
      simp

/-- `self._clustering = FailSafeClustering(clustering=..., verbose=...)`. -/
theorem run_wrapFailSafe {n : ℕ} {h : Heap} (hg : GoodHeap h n)
    {r : ℕ} {o : Obj} (eo : h[r]? = some o) {t : ℕ} {v : Val}
    (hc : o.attrs.get? "_clustering" = some (.obj t)) (hv : o.attrs.get? "_verbose" = some v)
    (hplain : IsPlain v) (htl : t < h.length)
    (hdeep : ∀ ks b, Reaches h t ks b → ks.length + 1 < n) :
    ∃ h' a, wrapFailSafe r h = (.ok (), h') ∧ GoodHeap h' n ∧ Evolves h h' (fun b => b = r) ∧
      h'[r]? = some ⟨o.cls, a⟩ ∧ a.get? "_clustering" = some (.obj h.length) ∧
      (∀ k, k ≠ "_clustering" → a.get? k = o.attrs.get? k) ∧
      h'[h.length]? = some ⟨"FailSafeClustering", ⟨[("clustering", .obj t), ("verbose", v)]⟩⟩ := by
  have hget : ∀ k w, (PyDict.mk [("clustering", Val.obj t), ("verbose", v)]).get? k = some w →
      (k = "clustering" ∧ w = .obj t) ∨ (k = "verbose" ∧ w = v) := by
    intro k w hk
    have := PyDict.mem_of_get?_eq_some hk
    simp at this
    exact this
  obtain ⟨hg1, hev1⟩ := goodHeap_append hg
    (o := ⟨"FailSafeClustering", ⟨[("clustering", .obj t), ("verbose", v)]⟩⟩)
    (by simp [PyDict.keys])
    (by
      intro k hk _
      simp only [PyDict.keys, List.map_cons, List.map_nil, List.mem_cons, List.not_mem_nil,
        or_false] at hk
      rcases hk with rfl | rfl <;> decide +kernel)
    (by
      intro k b hk _
      rcases hget k _ hk with ⟨_, h1⟩ | ⟨_, h1⟩
      · injection h1 with h1
        subst h1
        exact ⟨htl, hdeep⟩
      · exact absurd h1.symm (hplain b))
  have e1 : (h ++ [(⟨"FailSafeClustering", ⟨[("clustering", .obj t), ("verbose", v)]⟩⟩ : Obj)])[r]? =
      some o := by
    rw [List.getElem?_append_left (lt_of_getElem? eo), eo]
  obtain ⟨hg2, hev2⟩ := goodHeap_write hg1 e1 private_clustering (.obj h.length)
  refine ⟨_, _, ?_, hg2, (hev1.weaken (T' := fun b => b = r) (fun _ _ h => h.elim)).trans hev2
    (fun _ _ h => h), List.getElem?_set_self (lt_of_getElem? e1), ?_, ?_, ?_⟩
  · rw [wrapFailSafe, run_bind, run_readAttr_some eo hc]
    simp only
    rw [run_bind, run_readAttr_some eo hv]
    simp only
    rw [run_bind, run_alloc]
    simp only
    rw [run_writeAttr e1]
  · rw [PyDict.get?_set, if_pos rfl]
  · intro k hk
    rw [PyDict.get?_set, if_neg hk]
  · rw [List.getElem?_set, if_neg (by have := lt_of_getElem? eo; omega),
      List.getElem?_append_right (le_refl _)]
    simp

theorem byInit_failSafe (W : World) (a b : Val) : ParamsByInit W.classes
    ⟨"FailSafeClustering", ⟨[("clustering", a), ("verbose", b)]⟩⟩
    ⟨commonMembers, ⟨[("clustering", .none), ("verbose", .bool true)]⟩⟩ := by
  refine ⟨by rw [World.classes]; rfl, by simp [PyDict.keys], fun _ _ => ?_⟩
  simp [PyDict.keys]

theorem nFeatures_ok {X y : Input} {a b : RealArray} (hv : validateXy X y = .ok (a, b))
    {rows : List RealArray} (hr : rowsOf a = .ok rows) : ∃ m, nFeatures a = .ok m := by
  obtain ⟨aX, ay, _, _, _, _, hs, _, hrej⟩ := validateXy_ok hv
  unfold rowsOf at hr
  unfold nFeatures
  have hne : a.shape.length ≠ 1 := by
    rw [hs]
    exact fun h => hrej (Or.inr (Or.inr (Or.inr (Or.inl h))))
  match hsh : a.shape with
  | [] => rw [hsh] at hr; cases hr
  | [n] => rw [hsh] at hne; simp at hne
  | n :: m :: s => exact ⟨m, rfl⟩

/-- The attributes in which `fit` leaves its results. -/
def resultNames : List String := ["graph_", "labels_", "n_features_in_"]

theorem run_mapperSetup {W : World} (hW : Contract W) {n fuel : ℕ} (hf : n ≤ fuel) {h : Heap}
    (hg : GoodHeap h n) {r : ℕ} {o : Obj} (eo : h[r]? = some o) {vc vk vf vv vj : Val}
    (hvc : o.attrs.get? "cover" = some vc) (hvk : o.attrs.get? "clustering" = some vk)
    (hvf : o.attrs.get? "failsafe" = some vf) (hvv : o.attrs.get? "verbose" = some vv)
    (hvj : o.attrs.get? "n_jobs" = some vj) (hcc : Cloneable W h vc)
    (hck : CloneableClust W h vk) (hplain : IsPlain vv) (hn2 : 2 ≤ n) :
    ∃ h' a tc tk oc ok c, mapperSetup W fuel r h = (.ok (), h') ∧ GoodHeap h' n ∧
      Evolves h h' (fun b => b = r) ∧ h'[r]? = some ⟨o.cls, a⟩ ∧
      a.get? "_cover" = some (.obj tc) ∧ a.get? "_clustering" = some (.obj tk) ∧
      (∀ k ∈ resultNames, a.get? k = o.attrs.get? k) ∧ h.length ≤ tc ∧ h.length ≤ tk ∧ tc ≠ tk ∧
      h'[tc]? = some oc ∧ CopyOf W h "TrivialCover" vc oc ∧ h'[tk]? = some ok ∧
      ParamsByInit W.classes ok c ∧ labelsOf W h' fuel tk = failSafeParam W h fuel vf vk ∧
      MapperReady W h' tk ∧ ∀ b, b < h.length → SharedIn h' (.obj tk) b → SharedIn h vk b := by
  have hlt := lt_of_getElem? eo
  -- the cover
  obtain ⟨h1, a1, tc, oc, run1, hg1, hev1, e1, hc1, hother1, hle1, et1, hcopy1⟩ :=
    run_setParamClone hf hg eo "TrivialCover" hvc private_cover public_cover hcc
  -- the clustering
  have hsame1 : ∀ rk, vk = .obj rk → h1[rk]? = h[rk]? := by
    rintro rk rfl
    have hpa : PublicAttr h r "clustering" (.obj rk) := ⟨o, eo, hvk, public_clustering⟩
    refine hev1.frame rk (hg.valid hpa) ?_
    rintro rfl
    exact not_reaches_self hg hpa (.nil _)
  obtain ⟨h2, a2, tk, ok, run2, hg2, hev2, e2, hc2, hother2, hle2, et2, hcopy2⟩ :=
    run_setParamClone hf hg1 e1 "TrivialClustering" (priv := "_clustering") (param := "clustering")
      (v := vk) (by rw [hother1 _ (by decide), hvk]) private_clustering public_clustering
      (hck.1.transfer hsame1)
  replace hcopy2 := hcopy2.transfer hsame1
  simp only at e2
  have hlt1 := lt_of_getElem? et1
  have hlt2 := lt_of_getElem? et2
  have hev02 := hev1.trans hev2 (fun _ _ h => h)
  have hrtc : tc ≠ r := by omega
  have hrtk : tk ≠ r := by have := hev1.grow; omega
  have hcov2 : a2.get? "_cover" = some (.obj tc) := by rw [hother2 _ (by decide)]; exact hc1
  have etc2 : h2[tc]? = some oc := by rw [hev2.frame tc hlt1 hrtc, et1]
  -- verbose and failsafe
  obtain ⟨hg3, hev3⟩ := goodHeap_write hg2 e2 private_verbose vv
  have e3 := List.getElem?_set_self (a := (⟨o.cls, a2.set "_verbose" vv⟩ : Obj)) (lt_of_getElem? e2)
  simp only at hg3 hev3
  obtain ⟨h3, eh3⟩ : ∃ h3, h3 = h2.set r ⟨o.cls, a2.set "_verbose" vv⟩ := ⟨_, rfl⟩
  rw [← eh3] at hg3 hev3 e3
  obtain ⟨hg4, hev4⟩ := goodHeap_write hg3 e3 private_failsafe vf
  have e4 := List.getElem?_set_self (a := (⟨o.cls, (a2.set "_verbose" vv).set "_failsafe" vf⟩ : Obj))
    (lt_of_getElem? e3)
  simp only at hg4 hev4
  obtain ⟨h4, eh4⟩ : ∃ h4, h4 = h3.set r ⟨o.cls, (a2.set "_verbose" vv).set "_failsafe" vf⟩ :=
    ⟨_, rfl⟩
  obtain ⟨a4, ea4⟩ : ∃ a4, a4 = (a2.set "_verbose" vv).set "_failsafe" vf := ⟨_, rfl⟩
  rw [← eh4] at hg4 hev4 e4
  rw [← ea4] at e4
  have hother4 : ∀ k, k ≠ "_verbose" → k ≠ "_failsafe" → a4.get? k = a2.get? k := by
    intro k h5 h6
    rw [ea4, PyDict.get?_set, if_neg h6, PyDict.get?_set, if_neg h5]
  have hvb4 : a4.get? "_verbose" = some vv := by
    rw [ea4, PyDict.get?_set, if_neg (by decide), PyDict.get?_set, if_pos rfl]
  have hfs4 : a4.get? "_failsafe" = some vf := by rw [ea4, PyDict.get?_set, if_pos rfl]
  have hev24 : Evolves h2 h4 (fun b => b = r) := hev3.trans hev4 (fun _ _ h => h)
  have hev04 := hev02.trans hev24 (fun _ _ h => h)
  have etc4 : h4[tc]? = some oc := by rw [hev24.frame tc (lt_of_getElem? etc2) hrtc, etc2]
  have etk4 : h4[tk]? = some ok := by rw [hev24.frame tk hlt2 hrtk, et2]
  have hk2 : ∀ k, k ≠ "_cover" → k ≠ "_clustering" → a2.get? k = o.attrs.get? k := by
    intro k h5 h6
    rw [hother2 k h6]
    exact hother1 k h5
  have hrun4 : (mapperSetup W fuel r h) = ((do
      wrapIf vf r
      let nJobs ← readAttr r "n_jobs"
      writeAttr r "_n_jobs" nJobs : Eff Unit) h4) := by
    rw [mapperSetup, run_bind, run1]
    simp only
    rw [run_bind, run2]
    simp only
    rw [run_bind, run_readAttr_some e2 (v := vv) (by rw [hk2 _ (by decide) (by decide), hvv])]
    simp only
    rw [run_bind, run_writeAttr e2, ← eh3]
    simp only
    rw [run_bind, run_readAttr_some e3 (v := vf)
      (by rw [PyDict.get?_set, if_neg (by decide), hk2 _ (by decide) (by decide), hvf])]
    simp only
    rw [run_bind, run_writeAttr e3, ← eh4]
    simp only
    rw [run_bind, run_readAttr_some e4 hfs4]
  -- paths from the copy of the clustering
  have hpath : ∀ {h' : Heap} {T : ℕ → Prop}, Evolves h h' T → h'[tk]? = some ok →
      ∀ ks b, Reaches h' tk ks b → ks.length + 1 < n := by
    intro h' T hev etk ks b hre
    cases ks with
    | nil => exact hn2
    | cons k ks =>
      obtain ⟨rk, hv, hre'⟩ := CopyOf.nested hg hev hcopy2 etk (by simp) hre
      subst hv
      exact hg.2.2 r ("clustering" :: k :: ks) b (.cons ⟨o, eo, hvk, public_clustering⟩ hre')
  have hnest : ∀ {h' : Heap} {T : ℕ → Prop}, Evolves h h' T → h'[tk]? = some ok →
      ∀ b, b < h.length → b = tk ∨ Shared h' tk b → SharedIn h vk b := by
    intro h' T hev etk b hb hs
    rcases hs with rfl | hs
    · have := hev1.grow
      omega
    · exact hcopy2.shared hg hev etk hs
  -- the wrapper
  obtain ⟨h5, a5, tf, of, c, run5, hg5, hev5, e5, hcl5, hother5, hle5, hne5, ef5, hinit5, hlab5,
      hready5, hnest5⟩ : ∃ h5 a5 tf of c,
      wrapIf vf r h4 = (.ok (), h5) ∧
      GoodHeap h5 n ∧ Evolves h4 h5 (fun b => b = r) ∧ h5[r]? = some ⟨o.cls, a5⟩ ∧
      a5.get? "_clustering" = some (.obj tf) ∧
      (∀ k, k ≠ "_clustering" → a5.get? k = a4.get? k) ∧ h.length ≤ tf ∧ tc ≠ tf ∧
      h5[tf]? = some of ∧ ParamsByInit W.classes of c ∧
      labelsOf W h5 fuel tf = failSafeParam W h fuel vf vk ∧ MapperReady W h5 tf ∧
      ∀ b, b < h.length → SharedIn h5 (.obj tf) b → SharedIn h vk b := by
    have hcl4 : a4.get? "_clustering" = some (.obj tk) := by
      rw [hother4 _ (by decide) (by decide)]; exact hc2
    by_cases hfs : truthy vf = true
    · obtain ⟨h5, a5, run5, hg5, hev5, e5, hcl5, hother5, ef5⟩ := run_wrapFailSafe hg4 e4 hcl4 hvb4
        hplain (lt_of_getElem? etk4) (hpath hev04 etk4)
      have hev05 := hev04.trans hev5 (fun _ _ h => h)
      have etk5 : h5[tk]? = some ok := by rw [hev5.frame tk (lt_of_getElem? etk4) hrtk, etk4]
      refine ⟨h5, a5, h4.length, _, _, ?_, hg5, hev5, e5, hcl5, hother5, hev04.grow, ?_, ef5,
        byInit_failSafe W _ _, ?_, ?_, ?_⟩
      · rw [wrapIf, if_pos hfs]; exact run5
      · have := lt_of_getElem? etc4
        omega
      · funext Y
        obtain ⟨m, rfl⟩ : ∃ m, fuel = m + 1 := ⟨fuel - 1, by omega⟩
        rw [labelsOf_failSafe W h5 m ef5 rfl, failSafeParam, if_pos (isOn_eq vf ▸ hfs)]
        have g1 : (PyDict.mk [("clustering", Val.obj tk), ("verbose", vv)]).get? "clustering" =
            some (.obj tk) := by
          simp [PyDict.get?, PyDict.lookupList]
        have g2 : (PyDict.mk [("clustering", Val.obj tk), ("verbose", vv)]).get? "verbose" =
            some vv := by
          simp [PyDict.get?, PyDict.lookupList]
        have elbl : labelsOf W h5 m tk = clustParam W h (m + 1) vk := by
          rw [hcopy2.labels hW hg hev05 etk5]
          by_cases hex : ∃ rk, vk = .obj rk
          · obtain ⟨rk, rfl⟩ := hex
            obtain ⟨rank, hr, hb⟩ := hg.rank
            have h6 := (hr r _ rk ⟨o, eo, hvk, public_clustering⟩).2
            have h7 := hb r
            funext Z
            exact labelsOf_fuel hr Z m (m + 1) rk (by omega) (by omega)
          · cases vk with
            | obj rk => exact absurd ⟨rk, rfl⟩ hex
            | _ => rfl
        simp only [g1, g2, elbl]
      · intro ks a oa hre ea hcl
        cases hre with
        | nil =>
          rw [ef5] at ea
          cases ea
          exact absurd (show "FailSafeClustering" = "MapperClustering" from hcl) (by decide)
        | @cons _ b' _ k ks hp hre =>
          obtain ⟨oo, eoo, hk, _⟩ := hp
          rw [ef5] at eoo
          cases eoo
          have := PyDict.mem_of_get?_eq_some hk
          simp at this
          rcases this with ⟨_, rfl⟩ | ⟨_, h8⟩
          · exact hcopy2.ready hg hev05 etk5 hck.2 ks a oa hre ea hcl
          · exact absurd h8.symm (hplain b')
      · rintro b hb ⟨t', ht', hs⟩
        injection ht' with ht'
        subst ht'
        have g1 : (PyDict.mk [("clustering", Val.obj tk), ("verbose", vv)]).get? "clustering" =
            some (.obj tk) := by
          simp [PyDict.get?, PyDict.lookupList]
        cases hs with
        | wrapped e _ hk =>
          rw [ef5] at e
          cases e
          rw [g1] at hk
          cases hk
          exact hnest hev05 etk5 _ hb (Or.inl rfl)
        | inWrapped e _ hk hs =>
          rw [ef5] at e
          cases e
          rw [g1] at hk
          cases hk
          exact hnest hev05 etk5 _ hb (Or.inr hs)
        | inMapper e h8 =>
          rw [ef5] at e
          cases e
          exact absurd (show "FailSafeClustering" = "MapperClustering" from h8) (by decide)
    · obtain ⟨c, hc⟩ := hcopy2.byInit (Or.inr rfl)
      refine ⟨h4, a4, tk, ok, c, ?_, hg4, Evolves.refl _ _, e4, hcl4, fun _ _ => rfl, ?_, ?_, etk4,
        hc, ?_, hcopy2.ready hg hev04 etk4 hck.2, ?_⟩
      · rw [wrapIf, if_neg hfs]; rfl
      · have := hev1.grow
        omega
      · omega
      · rw [failSafeParam, if_neg (isOn_eq vf ▸ hfs), hcopy2.labels hW hg hev04 etk4]
      · rintro b hb ⟨t', ht', hs⟩
        injection ht' with ht'
        subst ht'
        exact hnest hev04 etk4 b hb (Or.inr hs)
  -- n_jobs
  have hvj5 : a5.get? "n_jobs" = some vj := by
    rw [hother5 _ (by decide), hother4 _ (by decide) (by decide), hk2 _ (by decide) (by decide), hvj]
  have hrtf : tf ≠ r := by omega
  obtain ⟨hg6, hev6⟩ := goodHeap_write hg5 e5 private_nJobs vj
  have e6 := List.getElem?_set_self (a := (⟨o.cls, a5.set "_n_jobs" vj⟩ : Obj)) (lt_of_getElem? e5)
  simp only at hg6 hev6
  have hev06 := (hev04.trans hev5 (fun _ _ h => h)).trans hev6 (fun _ _ h => h)
  have etc5 : h5[tc]? = some oc := by rw [hev5.frame tc (lt_of_getElem? etc4) hrtc, etc4]
  refine ⟨_, _, tc, tf, oc, of, c, ?_, hg6, hev06, e6, ?_, ?_, ?_, hle1, hle5, hne5, ?_, hcopy1, ?_,
    hinit5, ?_, hready5.evolves hg5 hev6 (lt_of_getElem? ef5), ?_⟩
  · rw [hrun4, run_bind, run5]
    simp only
    rw [run_bind, run_readAttr_some e5 hvj5]
    simp only
    rw [run_writeAttr e5]
  · rw [PyDict.get?_set, if_neg (by decide), hother5 _ (by decide),
      hother4 _ (by decide) (by decide)]
    exact hcov2
  · rw [PyDict.get?_set, if_neg (by decide)]
    exact hcl5
  · intro k hk
    have hd : k ≠ "_n_jobs" ∧ k ≠ "_clustering" ∧ k ≠ "_verbose" ∧ k ≠ "_failsafe" ∧
        k ≠ "_cover" := by
      simp only [resultNames, List.mem_cons, List.not_mem_nil, or_false] at hk
      rcases hk with rfl | rfl | rfl <;> decide
    rw [PyDict.get?_set, if_neg hd.1, hother5 _ hd.2.1, hother4 _ hd.2.2.1 hd.2.2.2.1,
      hk2 _ hd.2.2.2.2 hd.2.1]
  · rw [hev6.frame tc (lt_of_getElem? etc5) hrtc, etc5]
  · rw [hev6.frame tf (lt_of_getElem? ef5) hrtf, ef5]
  · rw [← hlab5]
    funext Y
    exact labelsOf_congr hW hg5 hev6 Y fuel tf (lt_of_getElem? ef5)
  · rintro b hb ⟨t', ht', hs⟩
    injection ht' with ht'
    subst ht'
    exact hnest5 b hb ⟨_, rfl, hs.evolves hg5 hev6 (lt_of_getElem? ef5)⟩

end Verif
