import Verif.Proof.JobsOwn
import Verif.Spec.Threads

set_option autoImplicit false

namespace Verif

variable {T : ℕ → Prop}

/-! ### Clusterings that share objects of their thread -/

/-- `fit`, on an owned object with the class and the parameters of `o0`, computes `labs`, changes
no other owned object but those of `Sh`, and keeps `I`. -/
def FitWpS (T : ℕ → Prop) (h0 : Heap) (n : ℕ) (Sh : ℕ → Prop) (I : Own → Prop)
    (fit : ℕ → List RealArray → Thread Unit) (o0 : Obj) (labs : List RealArray → Py (List ℤ)) : Prop :=
  ∀ X own c o, I own → ¬ Sh c → own c = some o → o.cls = o0.cls → SamePublic o0.attrs o.attrs →
    Wp T h0 n (fun r own' => ((∀ a, a ≠ c → ¬ Sh a → own a ≠ none → own' a = own a) ∧ I own') ∧
      match r with
      | .error e => labs X = .error e
      | .ok _ => ∃ o', own' c = some o' ∧ labelsAttr o'.attrs = labs X) (fit c X) own

theorem FitWp.toS {h0 : Heap} {n : ℕ} {fit : ℕ → List RealArray → Thread Unit} {o0 : Obj}
    {labs : List RealArray → Py (List ℤ)} (hf : FitWp T h0 n fit o0 labs) :
    FitWpS T h0 n (fun _ => False) (fun _ => True) fit o0 labs := by
  intro X own c o _ _ ho hcls hp
  refine Wp.mono ?_ _ (hf X own c o ho hcls hp)
  rintro r own' ⟨h1, h2⟩
  exact ⟨⟨fun a ha _ => h1 a ha, trivial⟩, h2⟩

/-- The object at `t` is owned, and is like `ok`. -/
def HasLike (t : ℕ) (ok : Obj) (own : Own) : Prop :=
  ∃ ot, own t = some ot ∧ ot.cls = ok.cls ∧ SamePublic ok.attrs ot.attrs

/-- A `FailSafeClustering` around an owned clustering. -/
theorem fitWp_wrapped {W : World} {S : FitSteps} {h0 : Heap} {n fuel depth : ℕ} {ok : Obj}
    {labs : List RealArray → Py (List ℤ)} (hf : FitWp T h0 n (fitThread W S fuel depth) ok labs) {tk : ℕ}
    {vv : Val} {o0 : Obj} (hcl0 : o0.cls = "FailSafeClustering")
    (hc0 : o0.attrs.get? "clustering" = some (.obj tk)) (hv0 : o0.attrs.get? "verbose" = some vv) :
    FitWpS T h0 n (fun a => a = tk) (HasLike tk ok) (fitThread W S fuel (depth + 1)) o0
      (Verif.failSafe (some labs)) := by
  rintro X own c o ⟨ot, hot, hotc, hotp⟩ hcs ho hcls hp
  have hct : c ≠ tk := hcs
  unfold fitThread
  refine Wp.bind _ (Wp.readObj ho ?_)
  simp only
  rw [if_pos (by rw [hcls]; exact hcl0)]
  unfold failSafeThread
  refine Wp.bind _ (Wp.readAttr ho (by rw [← hp _ public_clustering, hc0]) ?_)
  simp only
  have hor : orTrivial "TrivialClustering" (.obj tk) = pure (.obj tk) := rfl
  rw [hor]
  refine Wp.bind _ (Wp.pureAtom (r := .ok (.obj tk)) (fun _ _ => rfl) ?_)
  simp only
  refine Wp.bind _ (Wp.writeAttr ho private_clustering ?_)
  simp only
  refine Wp.bind _ (Wp.readAttr (Function.update_self _ _ _) (v := vv) ?_ ?_)
  · simp only
    rw [PyDict.get?_set, if_neg (by decide), ← hp _ public_verbose, hv0]
  simp only
  refine Wp.bind _ (Wp.writeAttr (Function.update_self _ _ _) private_verbose ?_)
  simp only
  rw [Function.update_idem]
  obtain ⟨a3, ha3⟩ : ∃ a3, a3 = (o.attrs.set "_clustering" (.obj tk)).set "_verbose" vv := ⟨_, rfl⟩
  rw [← ha3]
  have hcl3 : a3.get? "_clustering" = some (.obj tk) := by
    rw [ha3, PyDict.get?_set, if_neg (by decide), PyDict.get?_set, if_pos rfl]
  obtain ⟨own3, hown3⟩ : ∃ own3, own3 = Function.update own c (some (⟨o.cls, a3⟩ : Obj)) := ⟨_, rfl⟩
  rw [← hown3]
  have hoc3 : own3 c = some ⟨o.cls, a3⟩ := by rw [hown3, Function.update_self]
  have hoth3 : ∀ a, a ≠ c → own3 a = own a := fun a ha => by rw [hown3, Function.update_of_ne ha]
  have hot3 : own3 tk = some ot := by rw [hoth3 tk (Ne.symm hct), hot]
  refine Wp.tryValueError _ ?_
  refine Wp.bind _ (Wp.readAttr hoc3 hcl3 ?_)
  simp only
  refine Wp.bind _ (Wp.pureAtom (r := .ok tk) (fun _ _ => rfl) ?_)
  simp only
  refine Wp.bind _ (Wp.mono ?_ _ (Wp.keeps _ (hf X own3 tk ot hot3 hotc hotp)))
  rintro r own4 ⟨⟨hfr, hr⟩, hkeep⟩
  have hlike : HasLike tk ok own4 := by
    obtain ⟨ot', e1, e2, e3⟩ := hkeep tk ot hot3
    exact ⟨ot', e1, e2.trans hotc, hotp.trans e3⟩
  have hoc4 : own4 c = some ⟨o.cls, a3⟩ := by
    rw [hfr c hct (by rw [hoc3]; simp), hoc3]
  have hoth4 : ∀ a, a ≠ c → ¬ a = tk → own a ≠ none → own4 a = own a := by
    intro a h1 h2 h3
    rw [hfr a h2 (by rw [hoth3 a h1]; exact h3), hoth3 a h1]
  have hlike' : ∀ ob, HasLike tk ok (Function.update own4 c (some ob)) := by
    intro ob
    obtain ⟨ot', e1, e2, e3⟩ := hlike
    exact ⟨ot', by rw [Function.update_of_ne (Ne.symm hct), e1], e2, e3⟩
  cases r with
  | error e =>
    simp only at hr
    by_cases he : e = .valueError
    · subst he
      simp only
      refine Wp.writeAttr hoc4 private_labels ?_
      refine ⟨⟨fun a h1 h2 h3 => by rw [Function.update_of_ne h1, hoth4 a h1 h2 h3], hlike' _⟩, _,
        Function.update_self _ _ _, ?_⟩
      simp only
      rw [labelsAttr_set, Verif.failSafe]
      simp only [Option.getD, hr]
    · have hexp : Verif.failSafe (some labs) X = .error e := by
        rw [Verif.failSafe]
        simp only [Option.getD, hr]
      have : ∀ (Q : Py Unit → Own → Prop), Q (.error e) own4 → (match (.error e : Py Unit) with
          | .error .valueError => Wp T h0 n Q (Thread.atom (writeAttr c "labels_" (.labels (X.map fun _ => 0)))) own4
          | r => Q r own4) := by
        intro Q hQ
        cases e <;> first | exact hQ | exact absurd rfl he
      exact this _ ⟨⟨hoth4, hlike⟩, hexp⟩
  | ok u =>
    obtain ⟨o', ho', hl⟩ := hr
    simp only
    refine Wp.bind _ ?_
    unfold labelsAttr at hl
    cases hv : o'.attrs.get? "labels_" with
    | none =>
      rw [hv] at hl
      refine Wp.pureAtom (r := .error .attributeError) (fun h hh => ?_) ?_
      · rw [run_readAttr (hh tk o' ho'), hv]
      · refine ⟨⟨hoth4, hlike⟩, ?_⟩
        rw [Verif.failSafe]
        simp only [Option.getD, ← hl]
    | some v =>
      rw [hv] at hl
      refine Wp.readAttr ho' hv ?_
      simp only
      refine Wp.writeAttr hoc4 private_labels ?_
      refine ⟨⟨fun a h1 h2 h3 => by rw [Function.update_of_ne h1, hoth4 a h1 h2 h3], hlike' _⟩, _,
        Function.update_self _ _ _, ?_⟩
      simp only [labelsAttr]
      rw [PyDict.get?_set, if_pos rfl, Verif.failSafe]
      simp only [Option.getD, ← hl]
      cases v <;> rfl

/-- The jobs, one after the other. -/
theorem wp_jobsShared {W : World} {h0 : Heap} {n fuel : ℕ} (hf : n ≤ fuel)
    {fit : ℕ → List RealArray → Thread Unit} {ot : Obj} {labs : List RealArray → Py (List ℤ)}
    {Sh : ℕ → Prop} {I : Own → Prop} (hI : ∀ own t o, own t = none → I own → I (Function.update own t (some o)))
    (hSh : ∀ own t, I own → own t = none → ¬ Sh t)
    (hfit : FitWpS T h0 n Sh I fit ot labs) {ci : ClassInfo} (hC : ParamsByInit W.classes ot ci)
    (X : List RealArray) {t : ℕ} (ht : ¬ Sh t) : ∀ (charts : List (List ℕ)) (k : ℕ) {own : Own},
    I own → own t = some ot → Wp T h0 n (fun r own' => (∀ a, ¬ Sh a → own a ≠ none → own' a = own a) ∧
      r = runJobs X (fun _ => labs) k charts) (Verif.jobsThread W fuel fit X t charts) own := by
  intro charts
  induction charts with
  | nil => intro k own _ ho; exact ⟨fun _ _ _ => rfl, rfl⟩
  | cons ids charts ih =>
    intro k own hi ho
    rw [Verif.jobsThread, runJobs]
    refine Wp.bind _ ?_
    cases hgat : gather X ids with
    | error e => exact ⟨fun _ _ _ => rfl, rfl⟩
    | ok xs =>
      simp only [ok_bind]
      refine Wp.bind _ (Wp.cloneOwned hf ho hC fun c hc => ?_)
      simp only
      have hoth : ∀ a, own a ≠ none → a ≠ c := by
        rintro a ha rfl
        exact ha hc
      refine Wp.bind _ (Wp.mono ?_ _ (hfit xs _ c ⟨ot.cls, freshAttrs ci ot.attrs⟩
        (hI _ _ _ hc hi) (hSh own c hi hc) (Function.update_self _ _ _) rfl (freshAttrs_public hC)))
      rintro r own1 ⟨⟨hfr, hi1⟩, hr⟩
      have hkeep : ∀ a, ¬ Sh a → own a ≠ none → own1 a = own a := by
        intro a hs ha
        rw [hfr a (hoth a ha) hs (by rw [Function.update_of_ne (hoth a ha)]; exact ha),
          Function.update_of_ne (hoth a ha)]
      cases r with
      | error e =>
        refine ⟨hkeep, ?_⟩
        simp only at hr
        rw [hr]
        rfl
      | ok u =>
        obtain ⟨o', ho', hl⟩ := hr
        simp only
        refine Wp.readLabels ho' ?_
        rw [hl]
        cases labs xs with
        | error e => exact ⟨hkeep, rfl⟩
        | ok l =>
          simp only [ok_bind]
          have hot1 : own1 t = some ot := by rw [hkeep t ht (by rw [ho]; simp), ho]
          refine Wp.bind _ (Wp.mono ?_ _ (ih (k + 1) hi1 hot1))
          rintro r own2 ⟨hk2, rfl⟩
          have hkeep2 : ∀ a, ¬ Sh a → own a ≠ none → own2 a = own a := by
            intro a hs ha
            rw [hk2 a hs (by rw [hkeep a hs ha]; exact ha), hkeep a hs ha]
          cases runJobs X (fun _ => labs) (k + 1) charts with
          | error e => exact ⟨hkeep2, rfl⟩
          | ok rest => exact ⟨hkeep2, rfl⟩

end Verif
