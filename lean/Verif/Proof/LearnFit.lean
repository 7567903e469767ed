import Verif.Proof.Learn

set_option autoImplicit false

namespace Verif

/-! ### Clones -/

theorem lookupList_ext : ∀ {l l' : List (String × Val)}, l.map Prod.fst = l'.map Prod.fst →
    (l.map Prod.fst).Nodup → (∀ k, PyDict.lookupList l k = PyDict.lookupList l' k) → l = l' := by
  intro l
  induction l with
  | nil =>
    intro l' hk _ _
    cases l' with
    | nil => rfl
    | cons a l' => simp at hk
  | cons a l ih =>
    intro l' hk hn hl
    cases l' with
    | nil => simp at hk
    | cons b l' =>
      obtain ⟨k, v⟩ := a
      obtain ⟨k', v'⟩ := b
      simp only [List.map_cons, List.cons.injEq] at hk
      obtain ⟨rfl, hk⟩ := hk
      simp only [List.map_cons, List.nodup_cons] at hn
      have h1 := hl k
      simp only [PyDict.lookupList, if_true, Option.some.injEq] at h1
      subst h1
      rw [ih hk hn.2]
      intro x
      have h2 := hl x
      simp only [PyDict.lookupList] at h2
      by_cases hx : k = x
      · subst hx
        have n1 : (PyDict.mk l).get? k = none := (PyDict.get?_eq_none _ _).mpr hn.1
        have n2 : (PyDict.mk l').get? k = none := (PyDict.get?_eq_none _ _).mpr (by
          show k ∉ l'.map Prod.fst
          rw [← hk]; exact hn.1)
        exact Eq.trans n1 n2.symm
      · rw [if_neg hx, if_neg hx] at h2
        exact h2

theorem lookupList_map (f : String × Val → Val) (l : List (String × Val)) (k : String) :
    PyDict.lookupList (l.map fun e => (e.1, f e)) k =
      (PyDict.lookupList l k).map fun v => f (k, v) := by
  induction l with
  | nil => rfl
  | cons a l ih =>
    obtain ⟨k', v⟩ := a
    simp only [List.map_cons, PyDict.lookupList]
    by_cases h : k' = k
    · subst h; simp
    · simp [h, ih]

theorem freshAttrs_get? {C : Classes} {o : Obj} {c : ClassInfo} (hC : ParamsByInit C o c)
    (k : String) : (freshAttrs c o.attrs).get? k =
      if IsPublic k then o.attrs.get? k else c.init.get? k := by
  have e : (freshAttrs c o.attrs).get? k = (c.init.get? k).map fun v =>
      if isParamPublic k then (o.attrs.get? k).getD v else v :=
    lookupList_map (fun e => if isParamPublic e.1 then (o.attrs.get? e.1).getD e.2 else e.2) _ _
  rw [e]
  by_cases hp : IsPublic k
  · simp only [if_pos hp, (isParamPublic_iff k).mpr hp, if_true]
    by_cases hm : k ∈ o.attrs.keys
    · have hm' := (hC.2.2 k hp).mp hm
      obtain ⟨v, hv⟩ := Option.isSome_iff_exists.mp ((PyDict.isSome_get? _ _).mpr hm)
      obtain ⟨v', hv'⟩ := Option.isSome_iff_exists.mp ((PyDict.isSome_get? _ _).mpr hm')
      simp [hv, hv']
    · have hm' := mt (hC.2.2 k hp).mpr hm
      rw [(PyDict.get?_eq_none _ _).mpr hm, (PyDict.get?_eq_none _ _).mpr hm']
      rfl
  · have : ¬ isParamPublic k = true := fun h => hp ((isParamPublic_iff k).mp h)
    simp only [if_neg hp, this, Bool.false_eq_true, if_false]
    cases c.init.get? k <;> rfl

theorem freshAttrs_keys (c : ClassInfo) (a : PyDict String Val) :
    (freshAttrs c a).keys = c.init.keys := by
  simp [freshAttrs, PyDict.keys, Function.comp_def]

theorem freshAttrs_public {C : Classes} {o : Obj} {c : ClassInfo} (hC : ParamsByInit C o c) :
    SamePublic o.attrs (freshAttrs c o.attrs) := by
  intro k hk
  rw [freshAttrs_get? hC, if_pos hk]

/-- A fresh copy can be cloned as well. -/
theorem paramsByInit_fresh {C : Classes} {o : Obj} {c : ClassInfo} (hC : ParamsByInit C o c) :
    ParamsByInit C ⟨o.cls, freshAttrs c o.attrs⟩ c := by
  refine ⟨hC.1, hC.2.1, fun k _ => ?_⟩
  show k ∈ (freshAttrs c o.attrs).keys ↔ _
  rw [freshAttrs_keys]

theorem freshAttrs_fresh {C : Classes} {o : Obj} {c : ClassInfo} (hC : ParamsByInit C o c) :
    freshAttrs c (freshAttrs c o.attrs) = freshAttrs c o.attrs := by
  have h1 : (freshAttrs c (freshAttrs c o.attrs)).items = (freshAttrs c o.attrs).items := by
    apply lookupList_ext
    · exact (freshAttrs_keys c _).trans (freshAttrs_keys c _).symm
    · show (freshAttrs c _).keys.Nodup
      rw [freshAttrs_keys]
      exact hC.2.1
    · intro k
      show (freshAttrs c (freshAttrs c o.attrs)).get? k = (freshAttrs c o.attrs).get? k
      rw [freshAttrs_get? (paramsByInit_fresh hC), freshAttrs_get? hC]
      by_cases hp : IsPublic k
      · simp only [if_pos hp]
      · simp only [if_neg hp]
  exact congrArg PyDict.mk h1

/-- `clone` on the heap of estimators. -/
theorem run_cloneE {W : World} {h : Heap} {n fuel : ℕ} (hg : GoodHeap h n) (hf : n ≤ fuel) {r : ℕ}
    {o : Obj} (eo : h[r]? = some o) {c : ClassInfo} (hC : ParamsByInit W.classes o c) :
    cloneE W fuel r h = (.ok h.length, h ++ [⟨o.cls, freshAttrs c o.attrs⟩]) ∧
      GoodHeap (h ++ [⟨o.cls, freshAttrs c o.attrs⟩]) n ∧
      Evolves h (h ++ [⟨o.cls, freshAttrs c o.attrs⟩]) (fun _ => False) := by
  have hw := hg.1
  obtain ⟨rank, hr, hb⟩ := hg.rank
  obtain ⟨o', e, hcls, hkeys, hpub, hpriv⟩ := clone_ok hw hr eo hC (lt_of_lt_of_le (hb r) hf)
  have heq : o' = ⟨o.cls, freshAttrs c o.attrs⟩ := by
    obtain ⟨cls', a'⟩ := o'
    simp only at hcls hkeys hpub hpriv
    subst hcls
    have h1 : a'.items = (freshAttrs c o.attrs).items := by
      apply lookupList_ext
      · exact hkeys.trans (freshAttrs_keys c _).symm
      · show a'.keys.Nodup
        rw [hkeys]
        exact hC.2.1
      · intro k
        show a'.get? k = (freshAttrs c o.attrs).get? k
        rw [freshAttrs_get? hC]
        by_cases hp : IsPublic k
        · rw [if_pos hp, hpub k hp]
        · rw [if_neg hp, hpriv k hp]
    cases a'
    simp only at h1
    subst h1
    rfl
  subst heq
  refine ⟨by simp only [cloneE, e], ?_⟩
  refine goodHeap_append hg ?_ ?_ ?_
  · show (freshAttrs c _).keys.Nodup
    rw [freshAttrs_keys]
    exact hC.2.1
  · intro k hk hp
    refine (hw r o eo).2 k ((hC.2.2 k hp).mpr ?_) hp
    rw [← freshAttrs_keys c o.attrs]
    exact hk
  · intro k b hk hp
    have hp' : PublicAttr h r k (.obj b) :=
      ⟨o, eo, by rw [freshAttrs_public hC k hp]; exact hk, hp⟩
    exact ⟨hg.valid hp', fun ks c hre => hg.2.2 r (k :: ks) c (.cons hp' hre)⟩

/-- Objects with the same parameters compute the same labels. -/
theorem labelsOf_copy {W : World} (hW : Contract W) {h h' : Heap} {n : ℕ} (hg : GoodHeap h n)
    {T : ℕ → Prop} (hev : Evolves h h' T) {r r' : ℕ} {o o' : Obj} (eo : h[r]? = some o)
    (eo' : h'[r']? = some o') (hcls : o'.cls = o.cls) (hp : SamePublic o.attrs o'.attrs)
    (fuel : ℕ) (X : List RealArray) : labelsOf W h' fuel r' X = labelsOf W h fuel r X :=
  labelsOf_same hW hg hev eo eo' hcls hp fuel X fun m _ t ht => by
    funext Y
    exact labelsOf_congr hW hg hev Y m t ht

/-- Enough fuel is as good as more fuel. -/
theorem labelsOf_fuel {W : World} {h : Heap} {rank : ℕ → ℕ} (hr : Ranked h rank)
    (X : List RealArray) (fuel fuel' r : ℕ) (h1 : rank r < fuel) (h2 : rank r < fuel') :
      labelsOf W h fuel r X = labelsOf W h fuel' r X := by
  induction fuel generalizing X fuel' r with
  | zero => omega
  | succ fuel ih =>
    obtain ⟨m, rfl⟩ : ∃ m, fuel' = m + 1 := ⟨fuel' - 1, by omega⟩
    cases eo : h[r]? with
    | none =>
      unfold labelsOf
      simp [deref, eo]
    | some o =>
      by_cases hc1 : o.cls = "FailSafeClustering"
      · rw [labelsOf_failSafe W h fuel eo hc1, labelsOf_failSafe W h m eo hc1]
        cases hc : o.attrs.get? "clustering" with
        | none => rfl
        | some c =>
          cases c with
          | obj t =>
            have ht := (hr r _ t ⟨o, eo, hc, public_clustering⟩).2
            have e1 := ih X m t (by omega) (by omega)
            cases o.attrs.get? "verbose" <;> simp only [failSafe, Option.getD, e1]
          | _ => cases o.attrs.get? "verbose" <;> rfl
      · by_cases hc3 : o.cls = "MapperClustering"
        · rw [labelsOf_mapper W h fuel eo hc3, labelsOf_mapper W h m eo hc3]
          cases hc : o.attrs.get? "clustering" with
          | none => cases o.attrs.get? "cover" <;> rfl
          | some vk =>
            have e1 : clustOr (labelsOf W h fuel) vk = clustOr (labelsOf W h m) vk := by
              cases vk with
              | obj t =>
                have ht := (hr r _ t ⟨o, eo, hc, public_clustering⟩).2
                funext Y
                exact ih Y m t (by omega) (by omega)
              | _ => rfl
            cases o.attrs.get? "cover" with
            | none => rfl
            | some vc => simp only [nestedLabels, e1]
        · by_cases hc2 : o.cls = "TrivialClustering"
          · rw [labelsOf_trivial W h _ eo hc2, labelsOf_trivial W h _ eo hc2]
          · rw [labelsOf_plain W h _ eo hc1 hc3 hc2, labelsOf_plain W h _ eo hc1 hc3 hc2]

/-! ### The jobs -/

/-- `fit` and reading the labels. -/
theorem run_fitLabels {W : World} {n depth r : ℕ} {fit : ℕ → List RealArray → Eff Unit}
    (hfit : FitSpec W n depth fit) {X : List RealArray} {h : Heap}
    (hg : GoodHeap h n) (hlt : r < h.length) (hm : MapperReady W h r) :
    ∃ h', (do
        fit r X
        let v ← readAttr r "labels_"
        asLabels v : Eff (List ℤ)) h = (labelsOf W h depth r X, h') ∧ GoodHeap h' n ∧
      Evolves h h' (fun a => a = r ∨ Shared h r a) := by
  obtain ⟨g1, g2, g3⟩ := hfit r X hg hlt hm
  obtain ⟨res, h1, hrun⟩ : ∃ res h1, fit r X h = (res, h1) := ⟨_, _, rfl⟩
  rw [hrun] at g1 g2 g3
  refine ⟨h1, ?_, g1, g2⟩
  rw [run_bind, hrun]
  rcases g3 with ⟨e, h2, h3⟩ | ⟨h2, o, eo, h3⟩
  · simp only at h2
    subst h2
    rw [h3]
  · simp only at h2 eo
    subst h2
    simp only
    rw [run_bind, run_readAttr eo, ← h3]
    unfold labelsAttr
    cases o.attrs.get? "labels_" with
    | none => rfl
    | some v => cases v <;> rfl

theorem run_runJobsE {W : World} (hW : Contract W) {n fuel depth : ℕ} (hf : n ≤ fuel)
    {fit : ℕ → List RealArray → Eff Unit} (hfit : FitSpec W n depth fit)
    (X : List RealArray) (r : ℕ) : ∀ (charts : List (List ℕ)) {h : Heap}, GoodHeap h n →
    ∀ {o : Obj} {c : ClassInfo}, h[r]? = some o → ParamsByInit W.classes o c →
    MapperReady W h r → ∀ (j : ℕ),
    ∃ h', runJobsE W fuel fit X r charts h =
        (runJobs X (fun _ => labelsOf W h depth r) j charts, h') ∧ GoodHeap h' n ∧
      Evolves h h' (fun a => SharedIn h (.obj r) a) := by
  intro charts
  induction charts with
  | nil =>
    intro h hg o c _ _ _ j
    exact ⟨h, rfl, hg, Evolves.refl _ _⟩
  | cons ids charts ih =>
    intro h hg o c eo hC hm j
    rw [runJobsE, run_bind, run_lift, runJobs]
    cases hgat : gather X ids with
    | error e => exact ⟨h, rfl, hg, Evolves.refl _ _⟩
    | ok xl =>
      simp only [ok_bind]
      obtain ⟨e1, hg1, hev1⟩ := run_cloneE hg hf eo hC
      rw [run_bind, e1]
      simp only
      obtain ⟨h1, eh1⟩ : ∃ h1, h1 = h ++ [(⟨o.cls, freshAttrs c o.attrs⟩ : Obj)] := ⟨_, rfl⟩
      rw [← eh1] at hg1 hev1 ⊢
      have en : h1[h.length]? = some ⟨o.cls, freshAttrs c o.attrs⟩ := by rw [eh1]; simp
      obtain ⟨h2, e2, hg2, hev2⟩ := run_fitLabels hfit (X := xl) hg1
        (lt_of_getElem? en) (hm.copy hg hev1 eo en rfl (freshAttrs_public hC))
      have hlab : labelsOf W h1 depth h.length xl = labelsOf W h depth r xl :=
        labelsOf_copy hW hg hev1 eo en rfl (freshAttrs_public hC) depth xl
      have hev02 : Evolves h h2 (fun a => SharedIn h (.obj r) a) := by
        refine (hev1.weaken (fun _ _ h => h.elim)).trans hev2 ?_
        rintro a ha (rfl | hs)
        · exact absurd ha (lt_irrefl _)
        · exact ⟨r, rfl, hs.copy hg hev1 eo en rfl (freshAttrs_public hC)⟩
      have hbind : ∀ (f : List ℤ → Eff (List (List ℕ × List ℤ))),
          (fit h.length xl >>= fun _ => readAttr h.length "labels_" >>= fun v =>
            asLabels v >>= f) h1 =
          ((fit h.length xl >>= fun _ => readAttr h.length "labels_" >>= fun v =>
            asLabels v) >>= f) h1 := by
        intro f
        rw [run_bind, run_bind, run_bind]
        rcases fit h.length xl h1 with ⟨_ | _, ha⟩
        · rfl
        · simp only
          rw [run_bind, run_bind]
          rcases readAttr h.length "labels_" ha with ⟨_ | _, hb⟩ <;> rfl
      rw [hbind, run_bind, e2, hlab]
      cases hl : labelsOf W h depth r xl with
      | error e => exact ⟨h2, rfl, hg2, hev02⟩
      | ok lbls =>
        simp only [ok_bind]
        have er : h2[r]? = some o := by
          rw [hev02.frame r (lt_of_getElem? eo), eo]
          rintro ⟨r', hr', hs⟩
          injection hr' with hr'
          subst hr'
          obtain ⟨ks, hne, hk⟩ := hs.reaches
          cases hk with
          | nil => exact hne rfl
          | cons hp hk => exact not_reaches_self hg hp hk
        obtain ⟨h3, e3, hg3, hev3⟩ := ih hg2 er hC (hm.evolves hg hev02 (lt_of_getElem? eo)) (j + 1)
        have hfun : (fun (_ : ℕ) => labelsOf W h2 depth r) = fun _ => labelsOf W h depth r := by
          funext _ Y
          exact labelsOf_congr hW hg hev02 Y depth r (lt_of_getElem? eo)
        rw [hfun] at e3
        rw [run_bind, e3]
        refine ⟨h3, ?_, hg3, hev02.trans hev3 ?_⟩
        · cases runJobs X (fun _ => labelsOf W h depth r) (j + 1) charts <;> rfl
        · rintro a ha ⟨r', hr', hs⟩
          injection hr' with hr'
          subst hr'
          exact ⟨_, rfl, hs.evolves hg hev02 (lt_of_getElem? eo)⟩

theorem run_applyCover (W : World) {h : Heap} {r : ℕ} {o : Obj} (eo : h[r]? = some o)
    (y : List RealArray) : applyCover W r y h =
      if o.cls = "TrivialCover" then (trivialCover y, h)
      else ((W.apply o.cls o.attrs y).2, h.set r ⟨o.cls, (W.apply o.cls o.attrs y).1⟩) := by
  unfold applyCover
  rw [run_bind, run_readObj eo]
  by_cases h1 : o.cls = "TrivialCover"
  · simp only [if_pos h1]
    rfl
  · simp only [if_neg h1]
    rw [run_bind, run_writeAttrs eo]
    rfl

/-- `mapper_labels` on objects is `mapper_labels` on functions. -/
theorem run_mapperLabelsE {W : World} (hW : Contract W) {n fuel depth : ℕ} (hf : n ≤ fuel)
    {fit : ℕ → List RealArray → Eff Unit} (hfit : FitSpec W n depth fit)
    (X y : List RealArray) {h : Heap} (hg : GoodHeap h n) {rc rk : ℕ} {oc ok : Obj}
    {c : ClassInfo} (ec : h[rc]? = some oc) (ek : h[rk]? = some ok) (hne : rc ≠ rk)
    (hC : ParamsByInit W.classes ok c) (hm : MapperReady W h rk) :
    ∃ h', mapperLabelsE W fuel fit X y rc rk h = (mapperLabels X y
        (fun y => if oc.cls = "TrivialCover" then trivialCover y else (W.apply oc.cls oc.attrs y).2)
        (fun _ => labelsOf W h depth rk), h') ∧ GoodHeap h' n ∧
      Evolves h h' (fun a => a = rc ∨ SharedIn h (.obj rk) a) := by
  obtain ⟨h1, e1, hg1, hev1⟩ : ∃ h1, applyCover W rc y h =
      ((if oc.cls = "TrivialCover" then trivialCover y else (W.apply oc.cls oc.attrs y).2), h1) ∧
      GoodHeap h1 n ∧ Evolves h h1 (fun a => a = rc) := by
    rw [run_applyCover W ec]
    split
    · exact ⟨h, rfl, hg, Evolves.refl _ _⟩
    · obtain ⟨g1, g2⟩ := goodHeap_set hg ec (hW.apply_public oc.cls oc.attrs y)
        (hW.apply_nodup oc.cls oc.attrs y (hg.1 rc oc ec).1)
      exact ⟨_, rfl, g1, g2⟩
  rw [mapperLabelsE, run_bind, e1, mapperLabels]
  cases hch : (if oc.cls = "TrivialCover" then trivialCover y
      else (W.apply oc.cls oc.attrs y).2) with
  | error e => exact ⟨h1, rfl, hg1, hev1.weaken (fun _ _ h => Or.inl h)⟩
  | ok charts =>
    simp only [ok_bind]
    have ek1 : h1[rk]? = some ok := by
      rw [hev1.frame rk (lt_of_getElem? ek) (Ne.symm hne), ek]
    obtain ⟨h2, e2, hg2, hev2⟩ := run_runJobsE hW hf hfit X rk charts hg1 ek1 hC
      (hm.evolves hg hev1 (lt_of_getElem? ek)) 0
    have hfun : (fun (_ : ℕ) => labelsOf W h1 depth rk) = fun _ => labelsOf W h depth rk := by
      funext _ Y
      exact labelsOf_congr hW hg hev1 Y depth rk (lt_of_getElem? ek)
    rw [hfun] at e2
    rw [run_bind, e2]
    refine ⟨h2, ?_, hg2, (hev1.weaken (fun _ _ h => Or.inl h)).trans hev2 ?_⟩
    · cases runJobs X (fun _ => labelsOf W h depth rk) 0 charts <;> rfl
    · rintro a ha ⟨r', hr', hs⟩
      injection hr' with hr'
      subst hr'
      exact Or.inr ⟨_, rfl, hs.evolves hg hev1 (lt_of_getElem? ek)⟩

end Verif
