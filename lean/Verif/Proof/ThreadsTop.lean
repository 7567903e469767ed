import Verif.Proof.ThreadsFit

set_option autoImplicit false

namespace Verif

variable {T : ℕ → Prop}

/-- `self._x = TrivialX()`, then `self._x = clone(self.x)`, in an owned estimator. -/
theorem wp_setParamClone {W : World} {h0 : Heap} {n fuel : ℕ} (hf : n ≤ fuel) {own : Own} {r : ℕ} {o : Obj}
    (ho : own r = some o) {cls priv param : String}
    (hpriv : ¬ IsPublic priv) (hpub : IsPublic param)
    {v : Val} (hv : o.attrs.get? param = some v) (hcl : Cloneable W h0 v) :
    Wp T h0 n (fun res own' => res = .ok () ∧ ∃ t ot a, own t = none ∧ own' t = some ot ∧
        CopyOf W h0 cls v ot ∧ own' r = some ⟨o.cls, a⟩ ∧ a.get? priv = some (.obj t) ∧
        (∀ k, k ≠ priv → a.get? k = o.attrs.get? k) ∧ ∀ b, b ≠ r → own b ≠ none → own' b = own b)
      (setParamCloneSteps W fuel r cls priv param) own := by
  have hne : param ≠ priv := by rintro rfl; exact hpriv hpub
  unfold setParamCloneSteps
  refine Wp.bind _ (Wp.append (v := fun t => t) (o := ⟨cls, PyDict.empty⟩)
    (fun h hg _ _ => ⟨run_alloc _ _ h, (goodHeap_trivial hg cls).1⟩) fun t ht => ?_)
  simp only
  have htr : r ≠ t := by rintro rfl; rw [ho] at ht; cases ht
  refine Wp.bind _ (Wp.writeAttr (by rw [Function.update_of_ne htr, ho]) hpriv ?_)
  simp only
  refine Wp.bind _ (Wp.readAttr (Function.update_self _ _ _) (v := v) ?_ ?_)
  · simp only
    rw [PyDict.get?_set, if_neg hne, hv]
  simp only
  rcases hcl with rfl | ⟨rc, oc, c, rfl, eoc, hC⟩
  · refine ⟨rfl, t, ⟨cls, PyDict.empty⟩, o.attrs.set priv (.obj t), ht, ?_, Or.inl ⟨rfl, rfl⟩,
      Function.update_self _ _ _, ?_, ?_, ?_⟩
    · rw [Function.update_of_ne (Ne.symm htr), Function.update_self]
    · rw [PyDict.get?_set, if_pos rfl]
    · intro k hk
      rw [PyDict.get?_set, if_neg hk]
    · intro b hb hob
      rw [Function.update_of_ne hb, Function.update_of_ne (by rintro rfl; exact hob ht)]
  · show Wp T h0 n _ (Thread.atom (cloneVal W fuel (.obj rc)) >>= fun c =>
      Thread.atom (writeAttr r priv (.obj c))) _
    refine Wp.bind _ ?_
    have ecv : cloneVal W fuel (.obj rc) = cloneE W fuel rc := rfl
    rw [ecv]
    refine Wp.append (v := fun t => t) (fun h hg hb hh => by
      obtain ⟨o', eo', hcls', hp'⟩ := hb.same rc oc eoc
      obtain ⟨h1, h2, _⟩ := run_cloneE hg hf eo' (hC.same hcls' hp')
      rw [hcls', freshAttrs_same c hp'] at h1 h2
      exact ⟨h1, h2⟩) fun t' ht' => ?_
    simp only
    have htr' : r ≠ t' := by rintro rfl; rw [Function.update_self] at ht'; cases ht'
    rw [Function.update_of_ne (Ne.symm htr')] at ht'
    have htt : t' ≠ t := by rintro rfl; rw [Function.update_self] at ht'; cases ht'
    rw [Function.update_of_ne htt] at ht'
    refine Wp.writeAttr (by rw [Function.update_of_ne htr', Function.update_self]) hpriv ?_
    refine ⟨rfl, t', ⟨oc.cls, freshAttrs c oc.attrs⟩, _, ht', ?_, Or.inr ⟨rc, oc, c, rfl, eoc, hC, rfl⟩,
      Function.update_self _ _ _, ?_, ?_, ?_⟩
    · rw [Function.update_of_ne (Ne.symm htr'), Function.update_self]
    · rw [PyDict.get?_set, if_pos rfl]
    · intro k hk
      rw [PyDict.get?_set, if_neg hk, PyDict.get?_set, if_neg hk]
    · intro b hb hob
      rw [Function.update_of_ne hb, Function.update_of_ne (by rintro rfl; exact hob ht'),
        Function.update_of_ne hb, Function.update_of_ne (by rintro rfl; exact hob ht)]

/-- The object at `t` is owned, and jobs that clone it give `labs`; they change no other owned objects
but those of `Sh`. -/
def JobsReady (T : ℕ → Prop) (W : World) (S : FitSteps) (h0 : Heap) (n fuel : ℕ) (t : ℕ)
    (labs : List RealArray → Py (List ℤ)) (Sh : ℕ → Prop) (own : Own) : Prop :=
  ∃ I ot ci, FitWpS T h0 n Sh I (fitThread W S fuel fuel) ot labs ∧ ParamsByInit W.classes ot ci ∧
    own t = some ot ∧ ¬ Sh t ∧ I own ∧
    (∀ own own' : Own, (∀ a, Sh a → own' a = own a) → I own → I own') ∧
    ∀ (own : Own) a, I own → Sh a → own a ≠ none

theorem JobsReady.keep {W : World} {S : FitSteps} {h0 : Heap} {n fuel t : ℕ}
    {labs : List RealArray → Py (List ℤ)} {Sh : ℕ → Prop} {own own' : Own}
    (hj : JobsReady T W S h0 n fuel t labs Sh own) (ht : own' t = own t)
    (hk : ∀ a, Sh a → own' a = own a) : JobsReady T W S h0 n fuel t labs Sh own' := by
  obtain ⟨I, ot, ci, h1, h2, h3, h4, h5, h6, h7⟩ := hj
  exact ⟨I, ot, ci, h1, h2, ht.trans h3, h4, h6 own own' hk h5, h6, h7⟩

theorem JobsReady.jobs {W : World} {S : FitSteps} {h0 : Heap} {n fuel t : ℕ} (hf : n ≤ fuel)
    {labs : List RealArray → Py (List ℤ)} {Sh : ℕ → Prop} {own : Own}
    (hj : JobsReady T W S h0 n fuel t labs Sh own) (X : List RealArray) (charts : List (List ℕ)) :
    Wp T h0 n (fun r own' => (∀ a, ¬ Sh a → own a ≠ none → own' a = own a) ∧
      r = runJobs X (fun _ => labs) 0 charts)
      (jobsThread W fuel (fitThread W S fuel fuel) X t charts) own := by
  obtain ⟨I, ot, ci, h1, h2, h3, h4, h5, h6, h7⟩ := hj
  refine wp_jobsShared hf ?_ ?_ h1 h2 X h4 charts 0 h5 h3
  · intro own t o ht hi
    refine h6 own _ (fun a ha => Function.update_of_ne ?_ _ _) hi
    rintro rfl
    exact h7 own a hi ha ht
  · intro own t hi ht hs
    exact h7 own t hi hs ht

/-- The jobs of a clone of the clustering. -/
theorem fitWp_copy {W : World} (hW : Contract W) {S : FitSteps} (hS : Implements W S) {h0 : Heap} {n fuel : ℕ}
    (hf : n ≤ fuel) {vk : Val} (hck : CloneableClust W h0 vk) (hsh : ∀ rk, vk = .obj rk → SharesNothing h0 rk)
    {ok : Obj} (hcopy : CopyOf W h0 "TrivialClustering" vk ok) (depth : ℕ) :
    FitWp T h0 n (fitThread W S fuel depth) ok (clustOr (labelsOf W h0 depth) vk) := by
  rcases hcopy with ⟨rfl, rfl⟩ | ⟨rk, o', c', rfl, eo', hC', rfl⟩
  · exact FitWp.one rfl
  · intro X own c o ho hcls hp
    exact fitThread_wp hW hS hf depth rk o' eo' (hsh rk rfl) (hck.2 rk rfl) X own c o ho hcls
      ((freshAttrs_public hC').trans hp)

/-- `self._clustering = FailSafeClustering(...)`, or nothing, in an owned estimator. -/
theorem wp_wrapIf {W : World} (hW : Contract W) {S : FitSteps} (hS : Implements W S) {h0 : Heap} {n fuel : ℕ}
    (hf : n ≤ fuel) (hn2 : 2 ≤ n) (hg0 : GoodHeap h0 n) {r : ℕ} {o0 : Obj} (e0 : h0[r]? = some o0) {vk : Val}
    (hvk : o0.attrs.get? "clustering" = some vk)
    (hck : CloneableClust W h0 vk) (hsh : ∀ rk, vk = .obj rk → SharesNothing h0 rk)
    {ok : Obj} (hcopy : CopyOf W h0 "TrivialClustering" vk ok) {own : Own} {o : Obj} (ho : own r = some o)
    {tk : ℕ} (hok : own tk = some ok) (hrtk : tk ≠ r)
    (hcl : o.attrs.get? "_clustering" = some (.obj tk)) {vv : Val}
    (hvv : o.attrs.get? "_verbose" = some vv) (hplain : IsPlain vv) (vf : Val) :
    Wp T h0 n (fun res own' => res = .ok () ∧ ∃ t a Sh, (own t = none ∨ t = tk) ∧
        JobsReady T W S h0 n fuel t (failSafeParam W h0 fuel vf vk) Sh own' ∧ (∀ b, Sh b → b = tk) ∧
        own' r = some ⟨o.cls, a⟩ ∧ a.get? "_clustering" = some (.obj t) ∧
        (∀ k, k ≠ "_clustering" → a.get? k = o.attrs.get? k) ∧
        ∀ b, b ≠ r → own b ≠ none → own' b = own b)
      (wrapIfSteps vf r) own := by
  unfold wrapIfSteps
  by_cases hfs : truthy vf = true
  · rw [if_pos hfs]
    unfold wrapFailSafeSteps
    refine Wp.bind _ (Wp.readAttr ho hcl ?_)
    simp only
    refine Wp.bind _ (Wp.readAttr ho hvv ?_)
    simp only
    have hget : ∀ k w, (PyDict.mk [("clustering", Val.obj tk), ("verbose", vv)]).get? k = some w →
        (k = "clustering" ∧ w = .obj tk) ∨ (k = "verbose" ∧ w = vv) := by
      intro k w hk
      have := PyDict.mem_of_get?_eq_some hk
      simp at this
      exact this
    refine Wp.bind _ (Wp.append (v := fun t => t)
      (o := ⟨"FailSafeClustering", ⟨[("clustering", .obj tk), ("verbose", vv)]⟩⟩) ?_ fun t ht => ?_)
    · intro h hg hb hh
      refine ⟨run_alloc _ _ h, (goodHeap_append hg (by simp [PyDict.keys]) ?_ ?_).1⟩
      · intro k hk _
        simp only [PyDict.keys, List.map_cons, List.map_nil, List.mem_cons, List.not_mem_nil,
          or_false] at hk
        rcases hk with rfl | rfl <;> decide +kernel
      · intro k b hk _
        rcases hget k _ hk with ⟨_, h1⟩ | ⟨_, h1⟩
        · injection h1 with h1
          subst h1
          refine ⟨lt_of_getElem? (hh _ _ hok), ?_⟩
          intro ks a hre
          cases ks with
          | nil => exact hn2
          | cons k ks =>
            obtain ⟨rk, hv, hre'⟩ := CopyOf.nested hg0 hb hcopy (hh _ _ hok) (by simp) hre
            subst hv
            exact hg0.2.2 r ("clustering" :: k :: ks) a (.cons ⟨o0, e0, hvk, public_clustering⟩ hre')
        · exact absurd h1.symm (hplain b)
    simp only
    have htr : r ≠ t := by rintro rfl; rw [ho] at ht; cases ht
    have htk : tk ≠ t := by rintro rfl; rw [hok] at ht; cases ht
    refine Wp.writeAttr (by rw [Function.update_of_ne htr, ho]) private_clustering ?_
    obtain ⟨m, rfl⟩ : ∃ m, fuel = m + 1 := ⟨fuel - 1, by omega⟩
    refine ⟨rfl, t, _, fun b => b = tk, Or.inl ht, ⟨HasLike tk ok, _, _, ?_, byInit_failSafe W (.obj tk) vv, ?_,
      Ne.symm htk, ?_, ?_, ?_⟩, fun _ h => h, Function.update_self _ _ _, ?_, ?_, ?_⟩
    · have hw := fitWp_wrapped (S := S) (depth := m) (fitWp_copy (T := T) hW hS hf hck hsh hcopy m)
        (tk := tk) (vv := vv)
        (o0 := ⟨"FailSafeClustering", ⟨[("clustering", .obj tk), ("verbose", vv)]⟩⟩) rfl
        (by simp [PyDict.get?, PyDict.lookupList]) (by simp [PyDict.get?, PyDict.lookupList])
      have e : failSafeParam W h0 (m + 1) vf vk = failSafe (some (clustOr (labelsOf W h0 m) vk)) := by
        rw [failSafeParam, if_pos (isOn_eq vf ▸ hfs)]
        congr 2
        by_cases hex : ∃ rk, vk = .obj rk
        · obtain ⟨rk, rfl⟩ := hex
          obtain ⟨rank, hr, hb⟩ := hg0.rank
          have h6 := (hr r _ rk ⟨o0, e0, hvk, public_clustering⟩).2
          have h7 := hb r
          funext Z
          exact labelsOf_fuel hr Z (m + 1) m rk (by omega) (by omega)
        · cases vk with
          | obj rk => exact absurd ⟨rk, rfl⟩ hex
          | _ => rfl
      rw [e]
      exact hw
    · rw [Function.update_of_ne (Ne.symm htr), Function.update_self]
    · refine ⟨ok, ?_, rfl, SamePublic.refl _⟩
      rw [Function.update_of_ne hrtk, Function.update_of_ne htk, hok]
    · rintro own own' hk ⟨ot, h1, h2⟩
      exact ⟨ot, by rw [hk tk rfl, h1], h2⟩
    · rintro own a ⟨ot, h1, _⟩ rfl
      rw [h1]
      simp
    · rw [PyDict.get?_set, if_pos rfl]
    · intro k hk
      rw [PyDict.get?_set, if_neg hk]
    · intro b hb hob
      rw [Function.update_of_ne hb, Function.update_of_ne (by rintro rfl; exact hob ht)]
  · rw [if_neg hfs]
    obtain ⟨ci, hC⟩ := hcopy.byInit (Or.inr rfl)
    refine ⟨rfl, tk, o.attrs, fun _ => False, Or.inr rfl, ⟨fun _ => True, ok, ci, ?_, hC, hok, fun h => h, trivial,
      fun _ _ _ _ => trivial, fun _ _ _ h => h.elim⟩, fun _ h => h.elim, ho, hcl, fun _ _ => rfl, fun _ _ _ => rfl⟩
    rw [failSafeParam, if_neg (isOn_eq vf ▸ hfs)]
    exact (fitWp_copy hW hS hf hck hsh hcopy fuel).toS

/-- What the estimator of the thread is like at the end. -/
def CallDone (r : ℕ) (o : Obj) (name : String) (expected : Py (Val × ℕ)) (res : Py Unit) (own : Own) : Prop :=
  ∃ a, own r = some ⟨o.cls, a⟩ ∧ match expected with
    | .ok (v, m) => res = .ok () ∧ a.get? name = some v ∧ a.get? "n_features_in_" = some (.int m)
    | .error e => res = .error e ∧ ∀ k ∈ resultNames, a.get? k = o.attrs.get? k

theorem CallDone.error {r : ℕ} {o : Obj} {name : String} {expected : Py (Val × ℕ)} {e : PyErr} {own : Own}
    {a : PyDict String Val} (ho : own r = some ⟨o.cls, a⟩) (hk : ∀ k ∈ resultNames, a.get? k = o.attrs.get? k)
    (he : expected = .error e) : CallDone r o name expected (.error e) own :=
  ⟨a, ho, by rw [he]; exact ⟨rfl, hk⟩⟩

end Verif
