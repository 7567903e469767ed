import Verif.Proof.ThreadsTop

set_option autoImplicit false

namespace Verif

variable {T : ℕ → Prop}

/-! ### What holds at every moment -/

/-- As `Wp`, and the owned objects satisfy `I` at every moment. -/
def Wpi {α : Type} (I : Own → Prop) (T : ℕ → Prop) (h0 : Heap) (n : ℕ) (Q : Py α → Own → Prop) :
    Thread α → Own → Prop
  | .done r, own => I own ∧ Q r own
  | .step upd next, own => I own ∧ ∀ h, GoodHeap h n → Evolves h0 h T → Holds own h →
      GoodHeap (upd h) n ∧ Evolves h (upd h) (fun a => own a ≠ none) ∧
      ∃ own', Holds own' (upd h) ∧ (∀ a, own' a ≠ none → own a ≠ none ∨ h.length ≤ a) ∧
        KeepsOwn own own' ∧ Wpi I T h0 n Q (next h) own'

variable {I : Own → Prop}

theorem Wpi.now {α : Type} {h0 : Heap} {n : ℕ} {Q : Py α → Own → Prop} {t : Thread α} {own : Own}
    (h : Wpi I T h0 n Q t own) : I own := by
  cases t with
  | done r => exact h.1
  | step upd next => exact h.1

theorem Wpi.mono {α : Type} {h0 : Heap} {n : ℕ} {Q Q' : Py α → Own → Prop} (hQ : ∀ r own, Q r own → Q' r own)
    (t : Thread α) : ∀ {own : Own}, Wpi I T h0 n Q t own → Wpi I T h0 n Q' t own := by
  induction t with
  | done r => intro own h; exact ⟨h.1, hQ _ _ h.2⟩
  | step upd next ih =>
    rintro own ⟨hI, h⟩
    refine ⟨hI, fun hp hg hb hh => ?_⟩
    obtain ⟨h1, h2, own', h4, h5, hk, h6⟩ := h hp hg hb hh
    exact ⟨h1, h2, own', h4, h5, hk, ih _ h6⟩

theorem Wpi.weaken {α : Type} {I' : Own → Prop} (hI : ∀ own, I own → I' own) {h0 : Heap} {n : ℕ}
    {Q : Py α → Own → Prop} (t : Thread α) : ∀ {own : Own}, Wpi I T h0 n Q t own → Wpi I' T h0 n Q t own := by
  induction t with
  | done r => intro own h; exact ⟨hI _ h.1, h.2⟩
  | step upd next ih =>
    rintro own ⟨h', h⟩
    refine ⟨hI _ h', fun hp hg hb hh => ?_⟩
    obtain ⟨h1, h2, own', h4, h5, hk, h6⟩ := h hp hg hb hh
    exact ⟨h1, h2, own', h4, h5, hk, ih _ h6⟩

theorem Wpi.bind {α β : Type} {h0 : Heap} {n : ℕ} {Q : Py β → Own → Prop} {f : α → Thread β} (t : Thread α) :
    ∀ {own : Own}, Wpi I T h0 n (fun r own => match r with
      | .ok a => Wpi I T h0 n Q (f a) own
      | .error e => Q (.error e) own) t own → Wpi I T h0 n Q (t >>= f) own := by
  show ∀ {own : Own}, _ → Wpi I T h0 n Q (Thread.bind f t) own
  induction t with
  | done r =>
    intro own h
    cases r with
    | ok a => exact h.2
    | error e => exact h
  | step upd next ih =>
    rintro own ⟨hI, h⟩
    refine ⟨hI, fun hp hg hb hh => ?_⟩
    obtain ⟨h1, h2, own', h4, h5, hk, h6⟩ := h hp hg hb hh
    exact ⟨h1, h2, own', h4, h5, hk, ih _ h6⟩

/-- One step has two moments, the one before it and the one after it. -/
theorem Wpi.atom {α : Type} {h0 : Heap} {n : ℕ} {Q : Py α → Own → Prop} {x : Eff α} {own : Own} (hI : I own)
    (h : Wp T h0 n (fun r own' => I own' ∧ Q r own') (Thread.atom x) own) :
    Wpi I T h0 n Q (Thread.atom x) own :=
  ⟨hI, fun hp hg hb hh => h hp hg hb hh⟩

/-- The steps of a thread leave an object alone that it does not own. -/
theorem Wpi.away {α : Type} {h0 : Heap} {n : ℕ} {Q : Py α → Own → Prop} {r : ℕ} {o : Obj}
    (hI : ∀ own : Own, own r = some o → I own) (t : Thread α) : ∀ {own : Own}, own r = some o →
    Wp T h0 n Q t (Function.update own r none) →
    Wpi I T h0 n (fun res own' => own' r = some o ∧ Q res (Function.update own' r none)) t own := by
  induction t with
  | done res => intro own ho h; exact ⟨hI _ ho, ho, h⟩
  | step upd next ih =>
    intro own ho hw
    refine ⟨hI _ ho, fun h hg hb hh => ?_⟩
    have hh' : Holds (Function.update own r none) h := by
      intro a oa ha
      by_cases har : a = r
      · subst har; rw [Function.update_self] at ha; cases ha
      · rw [Function.update_of_ne har] at ha; exact hh a oa ha
    obtain ⟨h1, h2, own', h4, h5, hk, h6⟩ := hw h hg hb hh'
    have hlt : r < h.length := lt_of_getElem? (hh r o ho)
    have hown : ∀ a, Function.update own r none a ≠ none → own a ≠ none := by
      intro a ha
      by_cases har : a = r
      · subst har; rw [Function.update_self] at ha; exact absurd rfl ha
      · rwa [Function.update_of_ne har] at ha
    have hr' : own' r = none := by
      by_contra hne
      rcases h5 r hne with h7 | h7
      · rw [Function.update_self] at h7; exact h7 rfl
      · omega
    have hup : Function.update (Function.update own' r (some o)) r none = own' := by
      funext a
      by_cases har : a = r
      · subst har; rw [Function.update_self, hr']
      · rw [Function.update_of_ne har, Function.update_of_ne har]
    refine ⟨h1, h2.weaken (fun a _ ha => hown a ha), Function.update own' r (some o), ?_, ?_, ?_,
      ih _ (Function.update_self _ _ _) (by rw [hup]; exact h6)⟩
    · intro a oa ha
      by_cases har : a = r
      · subst har
        rw [Function.update_self] at ha
        cases ha
        rw [h2.frame a hlt (fun hne => hne (Function.update_self _ _ _))]
        exact hh a _ ho
      · rw [Function.update_of_ne har] at ha
        exact h4 a oa ha
    · intro a ha
      by_cases har : a = r
      · subst har; exact Or.inl (by rw [ho]; simp)
      · rw [Function.update_of_ne har] at ha
        exact (h5 a ha).imp (hown a) id
    · intro a oa ha
      by_cases har : a = r
      · subst har
        rw [ho] at ha
        cases ha
        exact ⟨o, Function.update_self _ _ _, rfl, SamePublic.refl _⟩
      · obtain ⟨o', e', h7⟩ := hk a oa (by rw [Function.update_of_ne har, ha])
        exact ⟨o', by rw [Function.update_of_ne har, e'], h7⟩

/-- As `Wp`, and the owned objects satisfy `I` up to some moment and `J` from then on. -/
def Wpj {α : Type} (I J : Own → Prop) (T : ℕ → Prop) (h0 : Heap) (n : ℕ) (Q : Py α → Own → Prop) :
    Thread α → Own → Prop
  | .done r, own => Wpi J T h0 n Q (.done r) own ∨ (I own ∧ Q r own)
  | .step upd next, own => Wpi J T h0 n Q (.step upd next) own ∨ (I own ∧
      ∀ h, GoodHeap h n → Evolves h0 h T → Holds own h →
        GoodHeap (upd h) n ∧ Evolves h (upd h) (fun a => own a ≠ none) ∧
        ∃ own', Holds own' (upd h) ∧ (∀ a, own' a ≠ none → own a ≠ none ∨ h.length ≤ a) ∧
          KeepsOwn own own' ∧ Wpj I J T h0 n Q (next h) own')

variable {J : Own → Prop}

theorem Wpi.late {α : Type} {h0 : Heap} {n : ℕ} {Q : Py α → Own → Prop} {t : Thread α} {own : Own}
    (h : Wpi J T h0 n Q t own) : Wpj I J T h0 n Q t own := by
  cases t <;> exact Or.inl h

theorem Wpj.now {α : Type} {h0 : Heap} {n : ℕ} {Q : Py α → Own → Prop} {t : Thread α} {own : Own}
    (h : Wpj I J T h0 n Q t own) : I own ∨ Wpi J T h0 n Q t own := by
  cases t with
  | done r => exact h.elim Or.inr fun h => Or.inl h.1
  | step upd next => exact h.elim Or.inr fun h => Or.inl h.1

theorem Wpj.ended {α : Type} {h0 : Heap} {n : ℕ} {Q : Py α → Own → Prop} {r : Py α} {own : Own}
    (h : Wpj I J T h0 n Q (.done r) own) : Q r own := h.elim (fun h => h.2) fun h => h.2

/-- One step, and what is left after it. -/
theorem Wpj.next {α : Type} {h0 : Heap} {n : ℕ} {Q : Py α → Own → Prop} {upd : Heap → Heap}
    {next : Heap → Thread α} {own : Own} (hw : Wpj I J T h0 n Q (.step upd next) own) {h : Heap}
    (hg : GoodHeap h n) (hb : Evolves h0 h T) (hh : Holds own h) :
    GoodHeap (upd h) n ∧ Evolves h (upd h) (fun a => own a ≠ none) ∧
      ∃ own', Holds own' (upd h) ∧ (∀ a, own' a ≠ none → own a ≠ none ∨ h.length ≤ a) ∧
        KeepsOwn own own' ∧ Wpj I J T h0 n Q (next h) own' := by
  rcases hw with hw | hw
  · obtain ⟨h1, h2, own', h4, h5, hk, h6⟩ := hw.2 h hg hb hh
    exact ⟨h1, h2, own', h4, h5, hk, h6.late⟩
  · exact hw.2 h hg hb hh

theorem Wpj.weaken {α : Type} {I' J' : Own → Prop} (hI : ∀ own, I own → I' own) (hJ : ∀ own, J own → J' own)
    {h0 : Heap} {n : ℕ} {Q Q' : Py α → Own → Prop} (hQ : ∀ r own, Q r own → Q' r own) (t : Thread α) :
    ∀ {own : Own}, Wpj I J T h0 n Q t own → Wpj I' J' T h0 n Q' t own := by
  induction t with
  | done r =>
    intro own h
    exact h.imp (fun h => ⟨hJ _ h.1, hQ _ _ h.2⟩) fun h => ⟨hI _ h.1, hQ _ _ h.2⟩
  | step upd next ih =>
    rintro own (h | ⟨h', h⟩)
    · exact Or.inl (Wpi.weaken hJ _ (Wpi.mono hQ _ h))
    · refine Or.inr ⟨hI _ h', fun hp hg hb hh => ?_⟩
      obtain ⟨h1, h2, own', h4, h5, hk, h6⟩ := h hp hg hb hh
      exact ⟨h1, h2, own', h4, h5, hk, ih _ h6⟩

theorem Wpj.bind {α β : Type} {h0 : Heap} {n : ℕ} {Q : Py β → Own → Prop} {f : α → Thread β} (t : Thread α) :
    ∀ {own : Own}, Wpi I T h0 n (fun r own => match r with
      | .ok a => Wpj I J T h0 n Q (f a) own
      | .error e => Q (.error e) own) t own → Wpj I J T h0 n Q (t >>= f) own := by
  show ∀ {own : Own}, _ → Wpj I J T h0 n Q (Thread.bind f t) own
  induction t with
  | done r =>
    intro own h
    cases r with
    | ok a => exact h.2
    | error e => exact Or.inr h
  | step upd next ih =>
    rintro own ⟨hI, h⟩
    refine Or.inr ⟨hI, fun hp hg hb hh => ?_⟩
    obtain ⟨h1, h2, own', h4, h5, hk, h6⟩ := h hp hg hb hh
    exact ⟨h1, h2, own', h4, h5, hk, ih _ h6⟩

/-- The step after which `J` holds. -/
theorem Wpj.turn {α β : Type} {h0 : Heap} {n : ℕ} {Q : Py β → Own → Prop} {f : α → Thread β} {x : Eff α}
    {own : Own} (hI : I own) (h : Wp T h0 n (fun r own' => ∃ a, r = .ok a ∧ Wpi J T h0 n Q (f a) own')
      (Thread.atom x) own) : Wpj I J T h0 n Q (Thread.atom x >>= f) own := by
  show Wpj I J T h0 n Q (Thread.bind f (Thread.atom x)) own
  refine Or.inr ⟨hI, fun hp hg hb hh => ?_⟩
  obtain ⟨h1, h2, own', h4, h5, hk, a, ha, h6⟩ := h hp hg hb hh
  refine ⟨h1, h2, own', h4, h5, hk, ?_⟩
  simp only [ha]
  exact h6.late

/-! ### Steps that change no result of the estimator -/

/-- The estimator at `r` has the results it has in `o`. -/
def KeptResults (r : ℕ) (o : Obj) (own : Own) : Prop :=
  ∃ a, own r = some ⟨o.cls, a⟩ ∧ ∀ k ∈ resultNames, a.get? k = o.attrs.get? k

/-- No step changes the results of the object at `r`. -/
def Quiet {α : Type} (T : ℕ → Prop) (h0 : Heap) (n : ℕ) (r : ℕ) : Thread α → Prop
  | .done _ => True
  | .step upd next => ∀ h, GoodHeap h n → Evolves h0 h T → (∃ o, h[r]? = some o) →
      (∀ o o', h[r]? = some o → (upd h)[r]? = some o' → ∀ k ∈ resultNames, o'.attrs.get? k = o.attrs.get? k) ∧
      Quiet T h0 n r (next h)

theorem Quiet.bind {α β : Type} {h0 : Heap} {n r : ℕ} {f : α → Thread β} (t : Thread α) (ht : Quiet T h0 n r t)
    (hf : ∀ a, Quiet T h0 n r (f a)) : Quiet T h0 n r (t >>= f) := by
  show Quiet T h0 n r (Thread.bind f t)
  induction t with
  | done res =>
    cases res with
    | ok a => exact hf a
    | error e => trivial
  | step upd next ih =>
    intro h hg hb he
    obtain ⟨h1, h2⟩ := ht h hg hb he
    exact ⟨h1, ih _ h2⟩

theorem Quiet.read {h0 : Heap} {n r : ℕ} (b : ℕ) (k : String) : Quiet T h0 n r (Thread.atom (readAttr b k)) := by
  intro h _ _ he
  refine ⟨fun o o' e e' _ _ => ?_, trivial⟩
  have : (readAttr b k h).2 = h := by
    simp only [readAttr, readObj, Bind.bind]
    split
    · rename_i a _ heq
      injection heq with h1 h2
      subst h2
      cases a.attrs.get? k <;> rfl
    · rename_i heq
      injection heq with h1 h2
      subst h2
      rfl
  simp only [this] at e'
  rw [e] at e'
  cases e'
  rfl

theorem Quiet.alloc {h0 : Heap} {n r : ℕ} (cls : String) (a : PyDict String Val) :
    Quiet T h0 n r (Thread.atom (alloc cls a)) := by
  rintro h _ _ ⟨o0, e0⟩
  refine ⟨fun o o' e e' _ _ => ?_, trivial⟩
  have h1 : (h ++ [(⟨cls, a⟩ : Obj)])[r]? = some o' := e'
  rw [List.getElem?_append_left (lt_of_getElem? e), e] at h1
  cases h1
  rfl

theorem Quiet.write {h0 : Heap} {n r : ℕ} {k : String} (hk : k ∉ resultNames) (v : Val) :
    Quiet T h0 n r (Thread.atom (writeAttr r k v)) := by
  rintro h _ _ ⟨o0, e0⟩
  refine ⟨fun o o' e e' k' hk' => ?_, trivial⟩
  simp only [run_writeAttr e, List.getElem?_set_self (lt_of_getElem? e)] at e'
  cases e'
  simp only
  rw [PyDict.get?_set, if_neg (by rintro rfl; exact hk hk')]

/-- Reading a parameter of the estimator. -/
theorem Quiet.param {β : Type} {h0 : Heap} {n r : ℕ} {o : Obj} (eo : h0[r]? = some o) {k : String} (hp : IsPublic k)
    {v : Val} (hv : o.attrs.get? k = some v) {f : Val → Thread β} (hf : Quiet T h0 n r (f v)) :
    Quiet T h0 n r (Thread.atom (readAttr r k) >>= f) := by
  show Quiet T h0 n r (Thread.bind f (Thread.atom (readAttr r k)))
  intro h hg hb he
  obtain ⟨o1, e1, _, hs⟩ := hb.same r o eo
  have hrun : readAttr r k h = (.ok v, h) := run_readAttr_some e1 (by rw [← hs k hp, hv])
  refine ⟨(Quiet.read (T := T) (h0 := h0) (n := n) r k h hg hb he).1, ?_⟩
  simp only [hrun]
  exact hf

theorem Quiet.clone {W : World} {h0 : Heap} {n fuel r : ℕ} (hf : n ≤ fuel) {rc : ℕ} {oc : Obj} {c : ClassInfo}
    (eoc : h0[rc]? = some oc) (hC : ParamsByInit W.classes oc c) :
    Quiet T h0 n r (Thread.atom (cloneVal W fuel (.obj rc))) := by
  rintro h hg hb ⟨o0, e0⟩
  refine ⟨fun o o' e e' _ _ => ?_, trivial⟩
  obtain ⟨o1, e1, hcls, hp⟩ := hb.same rc oc eoc
  obtain ⟨h1, _⟩ := run_cloneE hg hf e1 (hC.same hcls hp)
  have ecv : cloneVal W fuel (.obj rc) = cloneE W fuel rc := rfl
  simp only [ecv, h1, List.getElem?_append_left (lt_of_getElem? e)] at e'
  rw [e] at e'
  cases e'
  rfl

theorem quiet_setParamClone {W : World} {h0 : Heap} {n fuel : ℕ} (hf : n ≤ fuel) {r : ℕ} {o : Obj}
    (eo : h0[r]? = some o) {cls priv param : String} (hpriv : priv ∉ resultNames) (hpub : IsPublic param) {v : Val}
    (hv : o.attrs.get? param = some v) (hcl : Cloneable W h0 v) :
    Quiet T h0 n r (setParamCloneSteps W fuel r cls priv param) := by
  unfold setParamCloneSteps
  refine Quiet.bind _ (Quiet.alloc _ _) fun t => Quiet.bind _ (Quiet.write hpriv _) fun _ =>
    Quiet.param eo hpub hv ?_
  rcases hcl with rfl | ⟨rc, oc, c, rfl, eoc, hC⟩
  · exact trivial
  · show Quiet T h0 n r (Thread.atom (cloneVal W fuel (.obj rc)) >>= fun c =>
      Thread.atom (writeAttr r priv (.obj c)))
    exact Quiet.bind _ (Quiet.clone hf eoc hC) fun _ => Quiet.write hpriv _

theorem quiet_setup {W : World} {h0 : Heap} {n fuel : ℕ} (hf : n ≤ fuel) {r : ℕ} {o : Obj}
    (eo : h0[r]? = some o) {vc vk : Val}
    (hvc : o.attrs.get? "cover" = some vc) (hvk : o.attrs.get? "clustering" = some vk)
    (hcc : Cloneable W h0 vc) (hck : Cloneable W h0 vk) : Quiet T h0 n r (mapperSetupSteps W fuel r) := by
  unfold mapperSetupSteps
  refine Quiet.bind _ (quiet_setParamClone hf eo (by decide) public_cover hvc hcc) fun _ =>
    Quiet.bind _ (quiet_setParamClone hf eo (by decide) public_clustering hvk hck) fun _ =>
    Quiet.bind _ (Quiet.read _ _) fun _ => Quiet.bind _ (Quiet.write (by decide) _) fun _ =>
    Quiet.bind _ (Quiet.read _ _) fun _ => Quiet.bind _ (Quiet.write (by decide) _) fun _ =>
    Quiet.bind _ (Quiet.read _ _) fun vf => Quiet.bind _ ?_ fun _ =>
    Quiet.bind _ (Quiet.read _ _) fun _ => Quiet.write (by decide) _
  unfold wrapIfSteps wrapFailSafeSteps
  split
  · exact Quiet.bind _ (Quiet.read _ _) fun _ => Quiet.bind _ (Quiet.read _ _) fun _ =>
      Quiet.bind _ (Quiet.alloc _ _) fun _ => Quiet.write (by decide) _
  · exact trivial

/-- A thread that is quiet about an object it owns keeps its results at every moment. -/
theorem Wpi.quiet {α : Type} {h0 : Heap} {n : ℕ} {Q : Py α → Own → Prop} {r : ℕ} {o : Obj}
    (hI : ∀ own : Own, KeptResults r o own → I own) (t : Thread α) : ∀ {own : Own}, KeptResults r o own → Quiet T h0 n r t →
    Wp T h0 n Q t own → Wpi I T h0 n Q t own := by
  induction t with
  | done res => intro own hk _ h; exact ⟨hI _ hk, h⟩
  | step upd next ih =>
    rintro own ⟨a, ho, ha⟩ hq hw
    refine ⟨hI _ ⟨a, ho, ha⟩, fun h hg hb hh => ?_⟩
    obtain ⟨h1, h2, own', h4, h5, hk, h6⟩ := hw h hg hb hh
    obtain ⟨hq1, hq2⟩ := hq h hg hb ⟨_, hh r _ ho⟩
    refine ⟨h1, h2, own', h4, h5, hk, ih _ ?_ hq2 h6⟩
    obtain ⟨⟨cls', a'⟩, e', hc, _⟩ := hk r _ ho
    simp only at hc
    subst hc
    refine ⟨a', e', fun k hk => ?_⟩
    rw [← ha k hk]
    exact hq1 _ _ (hh r _ ho) (h4 r _ e') k hk

end Verif
