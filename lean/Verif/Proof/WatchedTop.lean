import Verif.Proof.Watched

set_option autoImplicit false

namespace Verif

variable {T : ℕ → Prop}

/-- The estimator has the expected result called `name`, and the number of features is the expected one or
that of `o`. -/
def Renewed (r : ℕ) (o : Obj) (name : String) (expected : Py (Val × ℕ)) (own : Own) : Prop :=
  ∃ a v m, own r = some ⟨o.cls, a⟩ ∧ expected = .ok (v, m) ∧ a.get? name = some v ∧
    (a.get? "n_features_in_" = o.attrs.get? "n_features_in_" ∨ a.get? "n_features_in_" = some (.int m))

/-- The estimator after learn.py:162-176: the copies of the cover and the clustering are there, and its
results are those of `o`. -/
def SetupDone (T : ℕ → Prop) (W : World) (S : FitSteps) (h0 : Heap) (n fuel r : ℕ) (o : Obj) (vc vk vf : Val)
    (res : Py Unit) (own : Own) : Prop :=
  res = .ok () ∧ ∃ tc oc tf Sh a, tc ≠ r ∧ tf ≠ r ∧ tf ≠ tc ∧ CopyOf W h0 "TrivialCover" vc oc ∧
    own tc = some oc ∧ own r = some ⟨o.cls, a⟩ ∧ a.get? "_cover" = some (.obj tc) ∧
    a.get? "_clustering" = some (.obj tf) ∧
    JobsReady T W S h0 n fuel tf (failSafeParam W h0 fuel vf vk) Sh own ∧ (∀ b, Sh b → b ≠ r ∧ b ≠ tc) ∧
    ∀ k ∈ resultNames, a.get? k = o.attrs.get? k

theorem wp_setup {W : World} (hW : Contract W) {S : FitSteps} (hS : Implements W S) {n fuel : ℕ}
    (hf : n ≤ fuel) (hn2 : 2 ≤ n) {h0 : Heap}
    (hg0 : GoodHeap h0 n) {r : ℕ} {o : Obj} (eo : h0[r]? = some o) {vc vk vf vv vj : Val}
    (hvc : o.attrs.get? "cover" = some vc) (hvk : o.attrs.get? "clustering" = some vk)
    (hvf : o.attrs.get? "failsafe" = some vf) (hvv : o.attrs.get? "verbose" = some vv)
    (hvj : o.attrs.get? "n_jobs" = some vj) (hcc : Cloneable W h0 vc) (hck : CloneableClust W h0 vk)
    (hsh : ∀ rk, vk = .obj rk → SharesNothing h0 rk)
    (hplain : IsPlain vv) {own : Own} (ho : own r = some o) :
    Wp T h0 n (SetupDone T W S h0 n fuel r o vc vk vf) (mapperSetupSteps W fuel r) own := by
  unfold mapperSetupSteps
  -- the cover and the clustering
  refine Wp.bind _ (Wp.mono ?_ _ (wp_setParamClone hf ho private_cover public_cover hvc hcc))
  rintro _ own1 ⟨rfl, tc, oc, a1, htc, hoc, hcopy1, ho1, hc1, hother1, hk1⟩
  simp only
  refine Wp.bind _ (Wp.mono ?_ _ (wp_setParamClone hf ho1 private_clustering public_clustering (v := vk)
    (by simp only; rw [hother1 _ (by decide), hvk]) hck.1))
  rintro _ own2 ⟨rfl, tk, ok, a2, htk, hok, hcopy2, ho2, hc2, hother2, hk2⟩
  simp only at ho2 hother2 ⊢
  have hrtc : tc ≠ r := by rintro rfl; rw [ho] at htc; cases htc
  have hrtk : tk ≠ r := by rintro rfl; rw [ho1] at htk; cases htk
  have htck : tc ≠ tk := by rintro rfl; rw [hoc] at htk; cases htk
  have hoc2 : own2 tc = some oc := by rw [hk2 tc hrtc (by rw [hoc]; simp), hoc]
  have hcov2 : a2.get? "_cover" = some (.obj tc) := by rw [hother2 _ (by decide)]; exact hc1
  have hk02 : ∀ k, k ≠ "_cover" → k ≠ "_clustering" → a2.get? k = o.attrs.get? k := by
    intro k h5 h6
    rw [hother2 k h6]
    exact hother1 k h5
  -- verbose and failsafe
  refine Wp.bind _ (Wp.readAttr ho2 (v := vv) (by simp only; rw [hk02 _ (by decide) (by decide), hvv]) ?_)
  simp only
  refine Wp.bind _ (Wp.writeAttr ho2 private_verbose ?_)
  simp only
  refine Wp.bind _ (Wp.readAttr (Function.update_self _ _ _) (v := vf) ?_ ?_)
  · simp only
    rw [PyDict.get?_set, if_neg (by decide), hk02 _ (by decide) (by decide), hvf]
  simp only
  refine Wp.bind _ (Wp.writeAttr (Function.update_self _ _ _) private_failsafe ?_)
  simp only
  rw [Function.update_idem]
  obtain ⟨a4, ea4⟩ : ∃ a4, a4 = (a2.set "_verbose" vv).set "_failsafe" vf := ⟨_, rfl⟩
  rw [← ea4]
  obtain ⟨own4, eown4⟩ : ∃ own4, own4 = Function.update own2 r (some (⟨o.cls, a4⟩ : Obj)) := ⟨_, rfl⟩
  rw [← eown4]
  have ho4 : own4 r = some ⟨o.cls, a4⟩ := by rw [eown4, Function.update_self]
  have hk4 : ∀ b, b ≠ r → own4 b = own2 b := fun b hb => by rw [eown4, Function.update_of_ne hb]
  have hother4 : ∀ k, k ≠ "_verbose" → k ≠ "_failsafe" → a4.get? k = a2.get? k := by
    intro k h5 h6
    rw [ea4, PyDict.get?_set, if_neg h6, PyDict.get?_set, if_neg h5]
  have hvb4 : a4.get? "_verbose" = some vv := by
    rw [ea4, PyDict.get?_set, if_neg (by decide), PyDict.get?_set, if_pos rfl]
  have hfs4 : a4.get? "_failsafe" = some vf := by rw [ea4, PyDict.get?_set, if_pos rfl]
  have hcl4 : a4.get? "_clustering" = some (.obj tk) := by
    rw [hother4 _ (by decide) (by decide)]; exact hc2
  refine Wp.bind _ (Wp.readAttr ho4 hfs4 ?_)
  simp only
  -- the wrapper
  refine Wp.bind _ (Wp.mono ?_ _ (wp_wrapIf hW hS hf hn2 hg0 eo hvk hck hsh hcopy2 ho4
    (by rw [hk4 tk hrtk, hok]) hrtk hcl4 hvb4 hplain vf))
  rintro _ own5 ⟨rfl, tf, a5, Sh, htf, hready, hSh, ho5, hcl5, hother5, hk5⟩
  simp only at ho5 hother5 ⊢
  have hrtf : tf ≠ r := by
    rcases htf with h1 | rfl
    · rintro rfl; rw [ho4] at h1; cases h1
    · exact hrtk
  have hoc4 : own4 tc = some oc := by rw [hk4 tc hrtc, hoc2]
  have htcf : tf ≠ tc := by
    rcases htf with h1 | rfl
    · rintro rfl; rw [hoc4] at h1; cases h1
    · exact Ne.symm htck
  have hoc5 : own5 tc = some oc := by rw [hk5 tc hrtc (by rw [hoc4]; simp), hoc4]
  -- n_jobs
  refine Wp.bind _ (Wp.readAttr ho5 (v := vj) ?_ ?_)
  · simp only
    rw [hother5 _ (by decide), hother4 _ (by decide) (by decide), hk02 _ (by decide) (by decide), hvj]
  simp only
  refine Wp.writeAttr ho5 private_nJobs ?_
  simp only
  obtain ⟨a6, ea6⟩ : ∃ a6, a6 = a5.set "_n_jobs" vj := ⟨_, rfl⟩
  rw [← ea6]
  obtain ⟨own6, eown6⟩ : ∃ own6, own6 = Function.update own5 r (some (⟨o.cls, a6⟩ : Obj)) := ⟨_, rfl⟩
  rw [← eown6]
  have ho6 : own6 r = some ⟨o.cls, a6⟩ := by rw [eown6, Function.update_self]
  have hk6 : ∀ b, b ≠ r → own6 b = own5 b := fun b hb => by rw [eown6, Function.update_of_ne hb]
  have hready6 := hready.keep (hk6 tf hrtf) (fun a ha => hk6 a (by rw [hSh a ha]; exact hrtk))
  have hoc6 : own6 tc = some oc := by rw [hk6 tc hrtc, hoc5]
  have hres6 : ∀ k ∈ resultNames, a6.get? k = o.attrs.get? k := by
    intro k hk
    have hd : k ≠ "_n_jobs" ∧ k ≠ "_clustering" ∧ k ≠ "_verbose" ∧ k ≠ "_failsafe" ∧
        k ≠ "_cover" := by
      simp only [resultNames, List.mem_cons, List.not_mem_nil, or_false] at hk
      rcases hk with rfl | rfl | rfl <;> decide
    rw [ea6, PyDict.get?_set, if_neg hd.1, hother5 _ hd.2.1, hother4 _ hd.2.2.1 hd.2.2.2.1,
      hk02 _ hd.2.2.2.2 hd.2.1]
  refine ⟨rfl, tc, oc, tf, Sh, a6, hrtc, hrtf, htcf, hcopy1, hoc6, ho6, ?_, ?_, hready6,
    fun b hb => by rw [hSh b hb]; exact ⟨hrtk, Ne.symm htck⟩, hres6⟩
  · rw [ea6, PyDict.get?_set, if_neg (by decide), hother5 _ (by decide),
      hother4 _ (by decide) (by decide), hcov2]
  · rw [ea6, PyDict.get?_set, if_neg (by decide)]
    exact hcl5

theorem wpj_algorithm {W : World} (hW : Contract W) {S : FitSteps} (hS : Implements W S) {n fuel : ℕ}
    (hf : n ≤ fuel) (hn2 : 2 ≤ n) {h0 : Heap}
    (hg0 : GoodHeap h0 n) {r : ℕ} {o : Obj} (eo : h0[r]? = some o) {vc vk vf vv vj : Val}
    (hvc : o.attrs.get? "cover" = some vc) (hvk : o.attrs.get? "clustering" = some vk)
    (hvf : o.attrs.get? "failsafe" = some vf) (hvv : o.attrs.get? "verbose" = some vv)
    (hvj : o.attrs.get? "n_jobs" = some vj) (hcc : Cloneable W h0 vc) (hck : CloneableClust W h0 vk)
    (hsh : ∀ rk, vk = .obj rk → SharesNothing h0 rk)
    (hplain : IsPlain vv) (X : Input) (y : Option Input) {own : Own} (ho : own r = some o) :
    Wpj (KeptResults r o) (Renewed r o "graph_" ((expectedGraph W h0 fuel vc vk vf X y).map fun p => (.graph p.1, p.2))) T h0 n
      (CallDone r o "graph_" ((expectedGraph W h0 fuel vc vk vf X y).map fun p => (.graph p.1, p.2)))
      (mapperAlgorithmSteps W S fuel r X y) own := by
  obtain ⟨ex, hex⟩ : ∃ ex, ex = (expectedGraph W h0 fuel vc vk vf X y).map
      fun p => ((.graph p.1, p.2) : Val × ℕ) := ⟨_, rfl⟩
  rw [← hex]
  rw [expectedGraph] at hex
  rw [mapperAlgorithmSteps]
  have hown : KeptResults r o own := ⟨o.attrs, ho, fun _ _ => rfl⟩
  refine Wpj.bind _ ?_
  cases hval : validateXy X (y.getD X) with
  | error e =>
    rw [hval] at hex
    exact ⟨hown, CallDone.error (name := "graph_") ho (fun _ _ => rfl) hex⟩
  | ok p =>
    obtain ⟨aX, ay⟩ := p
    rw [hval] at hex
    simp only [ok_bind] at hex
    refine ⟨hown, ?_⟩
    refine Wpj.bind _ (Wpi.mono ?_ _ (Wpi.quiet (o := o) (fun _ h => h) _ hown
      (quiet_setup hf eo hvc hvk hcc hck.1)
      (wp_setup hW hS hf hn2 hg0 eo hvc hvk hvf hvv hvj hcc hck hsh hplain ho)))
    rintro _ own6 ⟨rfl, tc, oc, tf, Sh, a6, hrtc, hrtf, htcf, hcopy1, hoc6, ho6, hcov6, hcl6, hready6, hSh, hres6⟩
    simp only
    have hI : ∀ own' : Own, own' r = some ⟨o.cls, a6⟩ → KeptResults r o own' :=
      fun _ h => ⟨a6, h, hres6⟩
    have herr : ∀ {own' : Own} {e : PyErr}, own' r = some ⟨o.cls, a6⟩ → ex = .error e →
        KeptResults r o own' ∧ CallDone r o "graph_" ex (.error e) own' :=
      fun h1 h2 => ⟨hI _ h1, CallDone.error (name := "graph_") h1 hres6 h2⟩
    refine Wpj.bind _ ?_
    cases hrX : rowsOf aX with
    | error e =>
      rw [hrX] at hex
      exact herr ho6 hex
    | ok rX =>
      rw [hrX] at hex
      simp only [ok_bind] at hex
      refine ⟨hI _ ho6, Wpj.bind _ ?_⟩
      cases hry : rowsOf ay with
      | error e =>
        rw [hry] at hex
        exact herr ho6 hex
      | ok ry =>
        rw [hry] at hex
        simp only [ok_bind] at hex
        refine ⟨hI _ ho6, ?_⟩
        unfold mapperRunSteps
        refine Wpj.bind _ (Wpi.atom (hI _ ho6) (Wp.readAttr ho6 hcov6 ⟨hI _ ho6, ?_⟩))
        simp only
        refine Wpj.bind _ (Wpi.atom (hI _ ho6) (Wp.pureAtom (r := .ok tc) (fun _ _ => rfl) ⟨hI _ ho6, ?_⟩))
        simp only
        refine Wpj.bind _ (Wpi.atom (hI _ ho6) (Wp.readAttr ho6 hcl6 ⟨hI _ ho6, ?_⟩))
        simp only
        refine Wpj.bind _ (Wpi.atom (hI _ ho6) (Wp.pureAtom (r := .ok tf) (fun _ _ => rfl) ⟨hI _ ho6, ?_⟩))
        simp only
        refine Wpj.bind _ (Wpi.atom (hI _ ho6) (Wp.applyCover hW hoc6 ry fun own7 hk7 => ?_))
        have hch : (if oc.cls = "TrivialCover" then trivialCover ry
            else (W.apply oc.cls oc.attrs ry).2) = coverParam W h0 vc ry :=
          congrFun hcopy1.charts ry
        rw [mapperGraph_eq, mapperLabels] at hex
        rw [hch]
        have ho7 : own7 r = some ⟨o.cls, a6⟩ := by rw [hk7 r (Ne.symm hrtc), ho6]
        refine ⟨hI _ ho7, ?_⟩
        cases hcov : coverParam W h0 vc ry with
        | error e =>
          rw [hcov] at hex
          exact (herr ho7 hex).2
        | ok charts =>
          rw [hcov] at hex
          simp only [ok_bind] at hex ⊢
          have hready7 := hready6.keep (own' := Function.update own7 r none)
            (by rw [Function.update_of_ne hrtf, hk7 tf htcf])
            (fun a ha => by rw [Function.update_of_ne (hSh a ha).1, hk7 a (hSh a ha).2])
          refine Wpj.bind _ (Wpi.mono ?_ _ (Wpi.away hI _ ho7 (hready7.jobs hf rX charts)))
          rintro _ own8 ⟨ho8, _, rfl⟩
          cases hrun : runJobs rX (fun _ => failSafeParam W h0 fuel vf vk) 0 charts with
          | error e =>
            rw [hrun] at hex
            exact (herr ho8 hex).2
          | ok runs =>
            rw [hrun] at hex
            simp only [ok_bind] at hex ⊢
            refine Wpj.bind _ ?_
            cases hL : labelCharts runs 0 (rX.map fun _ => []) with
            | error e =>
              rw [hL] at hex
              exact herr ho8 hex
            | ok itm =>
              rw [hL] at hex
              simp only [ok_bind] at hex
              refine ⟨hI _ ho8, Wpj.bind _ ?_⟩
              cases hG : graphOfLabels itm with
              | error e =>
                rw [hG] at hex
                exact herr ho8 hex
              | ok g =>
                rw [hG] at hex
                obtain ⟨m, hm⟩ := nFeatures_ok hval hrX
                simp only [ok_bind, hm] at hex
                rw [hm]
                refine ⟨hI _ ho8, ?_⟩
                have hex' : ex = .ok (.graph g, m) := hex
                have hseen : Renewed r o "graph_" ex
                    (Function.update own8 r (some ⟨o.cls, a6.set "graph_" (.graph g)⟩)) :=
                  ⟨_, .graph g, m, Function.update_self _ _ _, hex', by
                    rw [PyDict.get?_set, if_pos rfl], Or.inl (by
                    rw [PyDict.get?_set, if_neg (by decide)]; exact hres6 _ (by simp [resultNames]))⟩
                refine Wpj.turn (hI _ ho8) (Wp.writeAttr ho8 private_graph ⟨(), rfl, ?_⟩)
                simp only
                refine Wpi.bind _ ⟨hseen, ?_⟩
                refine Wpi.atom hseen (Wp.writeAttr (Function.update_self _ _ _) private_nFeatures ?_)
                rw [Function.update_idem]
                have q1 : ((a6.set "graph_" (.graph g)).set "n_features_in_" (.int m)).get? "graph_" =
                    some (.graph g) := by
                  rw [PyDict.get?_set, if_neg (by decide), PyDict.get?_set, if_pos rfl]
                have q2 : ((a6.set "graph_" (.graph g)).set "n_features_in_" (.int m)).get? "n_features_in_" =
                    some (.int m) := by rw [PyDict.get?_set, if_pos rfl]
                exact ⟨⟨_, _, m, Function.update_self _ _ _, hex', q1, Or.inr q2⟩,
                  _, Function.update_self _ _ _, by rw [hex']; exact ⟨rfl, q1, q2⟩⟩

/-- `clone(TrivialX() if v is None else v)`. -/
theorem Wpj.orTrivialClone {I J : Own → Prop} {W : World} {h0 : Heap} {n fuel : ℕ} (hf : n ≤ fuel) {α : Type}
    {Q : Py α → Own → Prop} {f : ℕ → Thread α} {own : Own} {cls : String}
    (hcls : cls = "TrivialCover" ∨ cls = "TrivialClustering") {v : Val} (hcl : Cloneable W h0 v)
    (hI : ∀ own' : Own, (∀ a, own a ≠ none → own' a = own a) → I own')
    (hQ : ∀ own' t ot, (∀ a, own a ≠ none → own' a = own a) → own t = none → own' t = some ot →
      CopyOf W h0 cls v ot → Wpj I J T h0 n Q (f t) own') :
    Wpj I J T h0 n Q (do
      let v ← Thread.atom (orTrivial cls v)
      let t ← Thread.atom (cloneVal W fuel v)
      f t) own := by
  have hI0 := hI own (fun _ _ => rfl)
  refine Wpj.bind _ (Wpi.atom hI0 ?_)
  rcases hcl with rfl | ⟨rc, oc, c, rfl, eoc, hC⟩
  · refine Wp.allocTrivial fun t ht => ?_
    have hk : ∀ a, own a ≠ none →
        Function.update own t (some (⟨cls, PyDict.empty⟩ : Obj)) a = own a := by
      intro a ha
      rw [Function.update_of_ne (by rintro rfl; exact ha ht)]
    refine ⟨hI _ hk, ?_⟩
    simp only
    refine Wpj.bind _ (Wpi.atom (hI _ hk) ?_)
    have ecv : cloneVal W fuel (.obj t) = cloneE W fuel t := rfl
    rw [ecv]
    refine Wp.cloneOwned hf (Function.update_self _ _ _)
      (c := ⟨if cls = "TrivialCover" then "apply" :: commonMembers else commonMembers, PyDict.empty⟩)
      ⟨by rcases hcls with rfl | rfl <;> rw [World.classes] <;> rfl,
        by simp [PyDict.keys, PyDict.empty], fun _ _ => Iff.rfl⟩ fun t' ht' => ?_
    simp only
    have htt : t' ≠ t := by rintro rfl; rw [Function.update_self] at ht'; cases ht'
    rw [Function.update_of_ne htt] at ht'
    refine (fun h => ⟨hI _ h, hQ _ t' _ h ht' (Function.update_self _ _ _) (Or.inl ⟨rfl, rfl⟩)⟩) ?_
    intro a ha
    rw [Function.update_of_ne (by rintro rfl; exact ha ht'), hk a ha]
  · have hor : orTrivial cls (.obj rc) = pure (.obj rc) := rfl
    rw [hor]
    refine Wp.pureAtom (r := .ok (.obj rc)) (fun _ _ => rfl) ⟨hI0, ?_⟩
    simp only
    refine Wpj.bind _ (Wpi.atom hI0 ?_)
    have ecv : cloneVal W fuel (.obj rc) = cloneE W fuel rc := rfl
    rw [ecv]
    refine Wp.append (v := fun t => t) (fun h hg hb hh => by
      obtain ⟨o', eo', hcls', hp'⟩ := hb.same rc oc eoc
      obtain ⟨h1, h2, _⟩ := run_cloneE hg hf eo' (hC.same hcls' hp')
      rw [hcls', freshAttrs_same c hp'] at h1 h2
      exact ⟨h1, h2⟩) fun t ht => ?_
    simp only
    refine (fun h => ⟨hI _ h, hQ _ t _ h ht (Function.update_self _ _ _)
      (Or.inr ⟨rc, oc, c, rfl, eoc, hC, rfl⟩)⟩) ?_
    intro a ha
    rw [Function.update_of_ne (by rintro rfl; exact ha ht)]

theorem wpj_clustering {W : World} (hW : Contract W) {S : FitSteps} (hS : Implements W S) {n fuel : ℕ}
    (hf : n ≤ fuel) {h0 : Heap} {r : ℕ} {o : Obj} {vc vk vj : Val}
    (hvc : o.attrs.get? "cover" = some vc) (hvk : o.attrs.get? "clustering" = some vk)
    (hvj : o.attrs.get? "n_jobs" = some vj) (hcc : Cloneable W h0 vc) (hck : CloneableClust W h0 vk)
    (hsh : ∀ rk, vk = .obj rk → SharesNothing h0 rk)
    (X : Input) (y : Option Input) {own : Own} (ho : own r = some o) :
    Wpj (KeptResults r o) (Renewed r o "labels_" ((expectedLabels W h0 fuel vc vk X y).map fun p => (.labels p.1, p.2))) T h0 n
      (CallDone r o "labels_" ((expectedLabels W h0 fuel vc vk X y).map fun p => (.labels p.1, p.2)))
      (mapperClusteringSteps W fuel (fitThread W S fuel fuel) r X y) own := by
  have hne : own r ≠ none := by rw [ho]; simp
  obtain ⟨ex, hex⟩ : ∃ ex, ex = (expectedLabels W h0 fuel vc vk X y).map
      fun p => ((.labels p.1, p.2) : Val × ℕ) := ⟨_, rfl⟩
  rw [← hex]
  rw [expectedLabels, mapperClusteringResult] at hex
  rw [mapperClusteringSteps]
  have hI : ∀ own' : Own, own' r = some o → KeptResults r o own' :=
    fun _ h => ⟨o.attrs, h, fun _ _ => rfl⟩
  have herr : ∀ {own' : Own} {e : PyErr}, own' r = some o → ex = .error e →
      KeptResults r o own' ∧ CallDone r o "labels_" ex (.error e) own' :=
    fun h1 h2 => ⟨hI _ h1, CallDone.error (name := "labels_") h1 (fun _ _ => rfl) h2⟩
  refine Wpj.bind _ ?_
  cases hval : validateXy X (y.getD X) with
  | error e =>
    rw [hval] at hex
    exact herr ho hex
  | ok p =>
    obtain ⟨aX, ay⟩ := p
    rw [hval] at hex
    simp only [ok_bind] at hex
    refine ⟨hI _ ho, Wpj.bind _ (Wpi.atom (hI _ ho) (Wp.readAttr ho hvc ⟨hI _ ho, ?_⟩))⟩
    simp only
    refine Wpj.orTrivialClone hf (Or.inl rfl) hcc (fun own' hk => hI _ (by rw [hk r hne, ho]))
      fun own1 tc oc hk1 htc hoc hcopy1 => ?_
    have ho1 : own1 r = some o := by rw [hk1 r hne, ho]
    refine Wpj.bind _ (Wpi.atom (hI _ ho1) (Wp.readAttr ho1 hvk ⟨hI _ ho1, ?_⟩))
    simp only
    refine Wpj.orTrivialClone hf (Or.inr rfl) hck.1
      (fun own' hk => hI _ (by rw [hk r (by rw [ho1]; simp), ho1])) fun own2 tk ok hk2 htk hok hcopy2 => ?_
    have htkc : tk ≠ tc := by rintro rfl; rw [hoc] at htk; cases htk
    have hk02 : ∀ a, own a ≠ none → own2 a = own a := by
      intro a ha
      rw [hk2 a (by rw [hk1 a ha]; exact ha), hk1 a ha]
    have ho2 : own2 r = some o := by rw [hk02 r hne, ho]
    have hoc2 : own2 tc = some oc := by rw [hk2 tc (by rw [hoc]; simp), hoc]
    have hrtk : tk ≠ r := by rintro rfl; rw [ho1] at htk; cases htk
    refine Wpj.bind _ (Wpi.atom (hI _ ho2) (Wp.readAttr ho2 hvj ⟨hI _ ho2, ?_⟩))
    simp only
    refine Wpj.bind _ ?_
    cases hrX : rowsOf aX with
    | error e =>
      rw [hrX] at hex
      exact herr ho2 hex
    | ok rX =>
      rw [hrX] at hex
      simp only [ok_bind] at hex
      refine ⟨hI _ ho2, Wpj.bind _ ?_⟩
      cases hry : rowsOf ay with
      | error e =>
        rw [hry] at hex
        exact herr ho2 hex
      | ok ry =>
        rw [hry] at hex
        simp only [ok_bind] at hex
        refine ⟨hI _ ho2, Wpj.bind _ (Wpi.atom (hI _ ho2) (Wp.applyCover hW hoc2 ry fun own3 hk3 => ?_))⟩
        have hch : (if oc.cls = "TrivialCover" then trivialCover ry
            else (W.apply oc.cls oc.attrs ry).2) = coverParam W h0 vc ry :=
          congrFun hcopy1.charts ry
        rw [mapperConnectedComponents, mapperLabels] at hex
        rw [hch]
        have hrtc : r ≠ tc := by rintro rfl; exact hne htc
        have ho3 : own3 r = some o := by rw [hk3 r hrtc, ho2]
        refine ⟨hI _ ho3, ?_⟩
        cases hcov : coverParam W h0 vc ry with
        | error e =>
          rw [hcov] at hex
          exact (herr ho3 hex).2
        | ok charts =>
          rw [hcov] at hex
          simp only [ok_bind] at hex ⊢
          have hok3 : Function.update own3 r none tk = some ok := by
            rw [Function.update_of_ne hrtk, hk3 tk htkc, hok]
          obtain ⟨ci, hC⟩ := hcopy2.byInit (Or.inr rfl)
          have hfitk : FitWp T h0 n (fitThread W S fuel fuel) ok (clustParam W h0 fuel vk) :=
            fitWp_copy hW hS hf hck hsh hcopy2 fuel
          refine Wpj.bind _ (Wpi.mono ?_ _ (Wpi.away hI _ ho3 (Wp.jobsThread hf hfitk hC rX charts 0 hok3)))
          rintro _ own4 ⟨ho4, _, rfl⟩
          cases hrun : runJobs rX (fun _ => clustParam W h0 fuel vk) 0 charts with
          | error e =>
            rw [hrun] at hex
            exact (herr ho4 hex).2
          | ok runs =>
            rw [hrun] at hex
            simp only [ok_bind] at hex ⊢
            refine Wpj.bind _ ?_
            cases hL : labelCharts runs 0 (rX.map fun _ => []) with
            | error e =>
              rw [hL] at hex
              exact herr ho4 hex
            | ok itm =>
              rw [hL] at hex
              simp only [ok_bind] at hex
              refine ⟨hI _ ho4, Wpj.bind _ ?_⟩
              have hcomp : (unionAll itm (UnionFind.init (W.setOrder itm.flatten.dedup)) >>=
                  fun uf => findAll itm uf) = componentsOfLabels W.setOrder itm := rfl
              rw [hcomp] at hex
              cases hG : componentsOfLabels W.setOrder itm with
              | error e =>
                rw [hG] at hex
                exact herr ho4 hex
              | ok l =>
                rw [hG] at hex
                simp only [ok_bind] at hex
                have hlen : rX.length = l.length := by
                  rw [componentsOfLabels_length hG, labelCharts_length _ _ _ hL, List.length_map]
                obtain ⟨m, hm⟩ := nFeatures_ok hval hrX
                refine ⟨hI _ ho4, Wpj.bind _ ?_⟩
                rw [hm] at hex
                rw [hlen, gather_range, hm]
                have hex' : ex = .ok (.labels l, m) := hex
                refine ⟨hI _ ho4, ?_⟩
                have hseen : Renewed r o "labels_" ex
                    (Function.update own4 r (some ⟨o.cls, o.attrs.set "labels_" (.labels l)⟩)) :=
                  ⟨_, .labels l, m, Function.update_self _ _ _, hex', by
                    rw [PyDict.get?_set, if_pos rfl], Or.inl (by
                    rw [PyDict.get?_set, if_neg (by decide)])⟩
                refine Wpj.turn (hI _ ho4) (Wp.writeAttr ho4 private_labels ⟨(), rfl, ?_⟩)
                refine Wpi.bind _ ⟨hseen, ?_⟩
                refine Wpi.atom hseen (Wp.writeAttr (Function.update_self _ _ _) private_nFeatures ?_)
                rw [Function.update_idem]
                have q1 : ((o.attrs.set "labels_" (.labels l)).set "n_features_in_" (.int m)).get? "labels_" =
                    some (.labels l) := by
                  rw [PyDict.get?_set, if_neg (by decide), PyDict.get?_set, if_pos rfl]
                have q2 : ((o.attrs.set "labels_" (.labels l)).set "n_features_in_" (.int m)).get?
                    "n_features_in_" = some (.int m) := by rw [PyDict.get?_set, if_pos rfl]
                exact ⟨⟨_, _, m, Function.update_self _ _ _, hex', q1, Or.inr q2⟩,
                  _, Function.update_self _ _ _, by rw [hex']; exact ⟨rfl, q1, q2⟩⟩

end Verif
