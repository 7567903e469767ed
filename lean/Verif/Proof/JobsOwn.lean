import Verif.Proof.Jobs
import Verif.Proof.LearnMain

set_option autoImplicit false

namespace Verif

/-! ### Threads that own the objects they use -/

/-- The objects a thread owns, with their contents. -/
abbrev Own := ℕ → Option Obj

variable {T : ℕ → Prop}

/-- The owned objects are on the heap. -/
def Holds (own : Own) (h : Heap) : Prop := ∀ a o, own a = some o → h[a]? = some o

/-- Owned objects stay owned, and keep class and parameters. -/
def KeepsOwn (own own' : Own) : Prop := ∀ a o, own a = some o →
  ∃ o', own' a = some o' ∧ o'.cls = o.cls ∧ SamePublic o.attrs o'.attrs

theorem KeepsOwn.refl (own : Own) : KeepsOwn own own := fun _ o ho => ⟨o, ho, rfl, SamePublic.refl _⟩

theorem KeepsOwn.trans {own own' own'' : Own} (h : KeepsOwn own own') (h' : KeepsOwn own' own'') :
    KeepsOwn own own'' := by
  intro a o ho
  obtain ⟨o', ho', hc, hp⟩ := h a o ho
  obtain ⟨o'', ho'', hc', hp'⟩ := h' a o' ho'
  exact ⟨o'', ho'', hc'.trans hc, hp.trans hp'⟩

theorem keepsOwn_set {own : Own} {r : ℕ} {o : Obj} (ho : own r = some o) {a : PyDict String Val}
    (hs : SamePublic o.attrs a) : KeepsOwn own (Function.update own r (some ⟨o.cls, a⟩)) := by
  intro b ob hb
  by_cases hbr : b = r
  · subst hbr
    rw [ho] at hb
    cases hb
    exact ⟨_, Function.update_self _ _ _, rfl, hs⟩
  · exact ⟨ob, by rw [Function.update_of_ne hbr, hb], rfl, SamePublic.refl _⟩

theorem keepsOwn_new {own : Own} {t : ℕ} (ht : own t = none) (o : Obj) :
    KeepsOwn own (Function.update own t (some o)) := by
  intro b ob hb
  have hbt : b ≠ t := by rintro rfl; rw [ht] at hb; cases hb
  exact ⟨ob, by rw [Function.update_of_ne hbt, hb], rfl, SamePublic.refl _⟩

/-- Every step of the thread, from every heap that has the objects of `h0`, with other private attributes
in those of `T`, and its owned objects, changes private attributes of owned
objects and new objects only, and the thread ends with a result and owned objects that
satisfy `Q`. -/
def Wp {α : Type} (T : ℕ → Prop) (h0 : Heap) (n : ℕ) (Q : Py α → Own → Prop) : Thread α → Own → Prop
  | .done r, own => Q r own
  | .step upd next, own => ∀ h, GoodHeap h n → Evolves h0 h T → Holds own h →
      GoodHeap (upd h) n ∧ Evolves h (upd h) (fun a => own a ≠ none) ∧
      ∃ own', Holds own' (upd h) ∧ (∀ a, own' a ≠ none → own a ≠ none ∨ h.length ≤ a) ∧
        KeepsOwn own own' ∧ Wp T h0 n Q (next h) own'

theorem Wp.mono {α : Type} {h0 : Heap} {n : ℕ} {Q Q' : Py α → Own → Prop} (hQ : ∀ r own, Q r own → Q' r own)
    (t : Thread α) : ∀ {own : Own}, Wp T h0 n Q t own → Wp T h0 n Q' t own := by
  induction t with
  | done r => intro own h; exact hQ _ _ h
  | step upd next ih =>
    intro own h hp hg hb hh
    obtain ⟨h1, h2, own', h4, h5, hk, h6⟩ := h hp hg hb hh
    exact ⟨h1, h2, own', h4, h5, hk, ih _ h6⟩

/-- The owned objects are kept. -/
theorem Wp.keeps {α : Type} {h0 : Heap} {n : ℕ} {Q : Py α → Own → Prop} (t : Thread α) :
    ∀ {own : Own}, Wp T h0 n Q t own → Wp T h0 n (fun r own' => Q r own' ∧ KeepsOwn own own') t own := by
  induction t with
  | done r => intro own h; exact ⟨h, KeepsOwn.refl _⟩
  | step upd next ih =>
    intro own h hp hg hb hh
    obtain ⟨h1, h2, own', h4, h5, hk, h6⟩ := h hp hg hb hh
    exact ⟨h1, h2, own', h4, h5, hk, Wp.mono (fun _ _ h7 => ⟨h7.1, hk.trans h7.2⟩) _ (ih _ h6)⟩

theorem Wp.bind {α β : Type} {h0 : Heap} {n : ℕ} {Q : Py β → Own → Prop} {f : α → Thread β} (t : Thread α) :
    ∀ {own : Own}, Wp T h0 n (fun r own => match r with
      | .ok a => Wp T h0 n Q (f a) own
      | .error e => Q (.error e) own) t own → Wp T h0 n Q (t >>= f) own := by
  show ∀ {own : Own}, _ → Wp T h0 n Q (Thread.bind f t) own
  induction t with
  | done r =>
    intro own h
    cases r <;> exact h
  | step upd next ih =>
    intro own h hp hg hb hh
    obtain ⟨h1, h2, own', h4, h5, hk, h6⟩ := h hp hg hb hh
    exact ⟨h1, h2, own', h4, h5, hk, ih _ h6⟩

theorem Wp.tryValueError {h0 : Heap} {n : ℕ} {Q : Py Unit → Own → Prop} {handler : Thread Unit}
    (t : Thread Unit) : ∀ {own : Own}, Wp T h0 n (fun r own => match r with
      | .error .valueError => Wp T h0 n Q handler own
      | r => Q r own) t own → Wp T h0 n Q (Thread.tryValueError handler t) own := by
  induction t with
  | done r =>
    intro own h
    cases r with
    | ok a => exact h
    | error e => cases e <;> exact h
  | step upd next ih =>
    intro own h hp hg hb hh
    obtain ⟨h1, h2, own', h4, h5, hk, h6⟩ := h hp hg hb hh
    exact ⟨h1, h2, own', h4, h5, hk, ih _ h6⟩

/-- A step that does not change the heap. -/
theorem Wp.pureAtom {α : Type} {h0 : Heap} {n : ℕ} {Q : Py α → Own → Prop} {x : Eff α} {own : Own} {r : Py α}
    (hx : ∀ h, Holds own h → x h = (r, h)) (hQ : Q r own) : Wp T h0 n Q (Thread.atom x) own := by
  intro h hg hb0 hh
  simp only [hx h hh]
  exact ⟨hg, Evolves.refl _ _, own, hh, fun _ h => Or.inl h, KeepsOwn.refl _, hQ⟩

theorem Wp.readObj {h0 : Heap} {n : ℕ} {Q : Py Obj → Own → Prop} {own : Own} {r : ℕ} {o : Obj}
    (ho : own r = some o) (hQ : Q (.ok o) own) : Wp T h0 n Q (Thread.atom (readObj r)) own :=
  Wp.pureAtom (fun _ hh => run_readObj (hh r o ho)) hQ

theorem Wp.readAttr {h0 : Heap} {n : ℕ} {Q : Py Val → Own → Prop} {own : Own} {r : ℕ} {o : Obj} {k : String}
    {v : Val} (ho : own r = some o) (hv : o.attrs.get? k = some v) (hQ : Q (.ok v) own) :
    Wp T h0 n Q (Thread.atom (readAttr r k)) own :=
  Wp.pureAtom (fun _ hh => run_readAttr_some (hh r o ho) hv) hQ

theorem Wp.setAttrs {n : ℕ} {own : Own} {r : ℕ} {o : Obj} (ho : own r = some o)
    {a : PyDict String Val} (hs : SamePublic o.attrs a) (hn : o.attrs.keys.Nodup → a.keys.Nodup)
    {h : Heap} (hg : GoodHeap h n) (hh : Holds own h) :
    GoodHeap (h.set r ⟨o.cls, a⟩) n ∧ Evolves h (h.set r ⟨o.cls, a⟩) (fun b => own b ≠ none) ∧
      Holds (Function.update own r (some ⟨o.cls, a⟩)) (h.set r ⟨o.cls, a⟩) ∧
      ∀ b, Function.update own r (some (⟨o.cls, a⟩ : Obj)) b ≠ none →
        own b ≠ none ∨ h.length ≤ b := by
  have eo := hh r o ho
  obtain ⟨h1, h2⟩ := goodHeap_set hg eo hs (hn (hg.1 r o eo).1)
  refine ⟨h1, h2.weaken ?_, ?_, ?_⟩
  · rintro b _ rfl
    rw [ho]
    simp
  · intro b ob hb
    by_cases hbr : b = r
    · subst hbr
      rw [Function.update_self] at hb
      cases hb
      exact List.getElem?_set_self (lt_of_getElem? eo)
    · rw [Function.update_of_ne hbr] at hb
      rw [List.getElem?_set_ne (Ne.symm hbr)]
      exact hh b ob hb
  · intro b hb
    by_cases hbr : b = r
    · subst hbr
      exact Or.inl (by rw [ho]; simp)
    · rw [Function.update_of_ne hbr] at hb
      exact Or.inl hb

theorem Wp.writeAttr {h0 : Heap} {n : ℕ} {Q : Py Unit → Own → Prop} {own : Own} {r : ℕ} {o : Obj} {k : String}
    {v : Val} (ho : own r = some o) (hk : ¬ IsPublic k)
    (hQ : Q (.ok ()) (Function.update own r (some ⟨o.cls, o.attrs.set k v⟩))) :
    Wp T h0 n Q (Thread.atom (writeAttr r k v)) own := by
  intro h hg hb0 hh
  simp only [run_writeAttr (hh r o ho)]
  obtain ⟨h1, h2, h4, h5⟩ := Wp.setAttrs ho (samePublic_set o.attrs hk v)
    (fun h => PyDict.nodup_keys_set h k v) hg hh
  exact ⟨h1, h2, _, h4, h5, keepsOwn_set ho (samePublic_set o.attrs hk v), hQ⟩

theorem Wp.allocTrivial {h0 : Heap} {n : ℕ} {Q : Py Val → Own → Prop} {own : Own} {cls : String}
    (hQ : ∀ t, own t = none → Q (.ok (.obj t)) (Function.update own t (some ⟨cls, PyDict.empty⟩))) :
    Wp T h0 n Q (Thread.atom (orTrivial cls .none)) own := by
  intro h hg hb0 hh
  obtain ⟨h1, h2⟩ := goodHeap_trivial hg cls
  have hrun : orTrivial cls .none h = (.ok (.obj h.length), h ++ [⟨cls, PyDict.empty⟩]) := rfl
  simp only [hrun]
  have hnone : own h.length = none := by
    by_contra hne
    obtain ⟨o, ho⟩ := Option.ne_none_iff_exists'.mp hne
    exact absurd (lt_of_getElem? (hh _ _ ho)) (lt_irrefl _)
  refine ⟨h1, h2.weaken (fun _ _ h => h.elim), _, ?_, ?_, keepsOwn_new hnone _, hQ _ hnone⟩
  · intro b ob hb
    by_cases hbr : b = h.length
    · subst hbr
      rw [Function.update_self] at hb
      cases hb
      simp
    · rw [Function.update_of_ne hbr] at hb
      rw [List.getElem?_append_left (lt_of_getElem? (hh b ob hb))]
      exact hh b ob hb
  · intro b hb
    by_cases hbr : b = h.length
    · exact Or.inr hbr.ge
    · rw [Function.update_of_ne hbr] at hb
      exact Or.inl hb

theorem Wp.localOn {h0 : Heap} {n : ℕ} {Q : Py Unit → Own → Prop} {r : ℕ} (l : Local) :
    ∀ {own : Own} {o : Obj}, own r = some o → l.KeepsPublic →
    Q (l.run o.attrs).2 (Function.update own r (some ⟨o.cls, (l.run o.attrs).1⟩)) →
    Wp T h0 n Q (l.on r) own := by
  induction l with
  | done x =>
    intro own o ho _ hQ
    have : Function.update own r (some (⟨o.cls, o.attrs⟩ : Obj)) = own := by
      funext b
      by_cases hb : b = r
      · subst hb; rw [Function.update_self, ho]
      · rw [Function.update_of_ne hb]
    simp only [Local.run] at hQ
    rw [this] at hQ
    exact hQ
  | step upd next ih =>
    intro own o ho hk hQ
    rw [Local.on]
    intro h hg hb0 hh
    have eo := hh r o ho
    obtain ⟨hk1, hk2, hk3⟩ := hk o.attrs
    obtain ⟨h1, h2, h4, h5⟩ := Wp.setAttrs ho hk1 hk2 hg hh
    simp only [modifyObj, eo]
    refine ⟨h1, h2, _, h4, h5, keepsOwn_set ho hk1, ?_⟩
    refine ih o.attrs (o := ⟨o.cls, upd o.attrs⟩) (Function.update_self _ _ _) hk3 ?_
    rw [Function.update_idem]
    exact hQ

/-- Appending a new object. -/
theorem Wp.append {α : Type} {h0 : Heap} {n : ℕ} {Q : Py α → Own → Prop} {x : Eff α} {own : Own}
    {o : Obj} {v : ℕ → α}
    (hx : ∀ h, GoodHeap h n → Evolves h0 h T → Holds own h →
      x h = (.ok (v h.length), h ++ [o]) ∧ GoodHeap (h ++ [o]) n)
    (hQ : ∀ t, own t = none → Q (.ok (v t)) (Function.update own t (some o))) :
    Wp T h0 n Q (Thread.atom x) own := by
  intro h hg hb hh
  obtain ⟨hrun, h1⟩ := hx h hg hb hh
  simp only [hrun]
  have hnone : own h.length = none := by
    by_contra hne
    obtain ⟨o, ho⟩ := Option.ne_none_iff_exists'.mp hne
    exact absurd (lt_of_getElem? (hh _ _ ho)) (lt_irrefl _)
  refine ⟨h1, ⟨by simp, fun a oa ea => ⟨oa, ?_, rfl, SamePublic.refl _⟩,
    fun a ha _ => List.getElem?_append_left ha⟩, _, ?_, ?_, keepsOwn_new hnone _, hQ _ hnone⟩
  · rw [List.getElem?_append_left (lt_of_getElem? ea), ea]
  · intro b ob hb
    by_cases hbr : b = h.length
    · subst hbr
      rw [Function.update_self] at hb
      cases hb
      simp
    · rw [Function.update_of_ne hbr] at hb
      rw [List.getElem?_append_left (lt_of_getElem? (hh b ob hb))]
      exact hh b ob hb
  · intro b hb
    by_cases hbr : b = h.length
    · exact Or.inr hbr.ge
    · rw [Function.update_of_ne hbr] at hb
      exact Or.inl hb

/-- Objects of the base heap are there. -/
theorem Evolves.base {h0 h : Heap} (hb : Evolves h0 h (fun _ => False)) {r : ℕ} {o : Obj}
    (e0 : h0[r]? = some o) : h[r]? = some o := by
  rw [hb.frame r (lt_of_getElem? e0) (fun h => h), e0]

/-- Cloning an owned object. -/
theorem Wp.cloneOwned {W : World} {h0 : Heap} {n fuel : ℕ} (hf : n ≤ fuel) {Q : Py ℕ → Own → Prop}
    {own : Own} {r : ℕ} {o : Obj} (ho : own r = some o) {c : ClassInfo}
    (hC : ParamsByInit W.classes o c)
    (hQ : ∀ t, own t = none →
      Q (.ok t) (Function.update own t (some ⟨o.cls, freshAttrs c o.attrs⟩))) :
    Wp T h0 n Q (Thread.atom (cloneE W fuel r)) own :=
  Wp.append (v := fun t => t) (fun h hg _ hh => by
    obtain ⟨h1, h2, _⟩ := run_cloneE hg hf (hh r o ho) hC
    exact ⟨h1, h2⟩) hQ

/-- `clone(TrivialX() if v is None else v)`. -/
theorem Wp.orTrivialClone {W : World} {h0 : Heap} {n fuel : ℕ} (hf : n ≤ fuel) {α : Type}
    {Q : Py α → Own → Prop} {f : ℕ → Thread α} {own : Own} {cls : String}
    (hcls : cls = "TrivialCover" ∨ cls = "TrivialClustering") {v : Val} (hcl : Cloneable W h0 v)
    (hQ : ∀ own' t ot, (∀ a, own a ≠ none → own' a = own a) → own t = none → own' t = some ot →
      CopyOf W h0 cls v ot → Wp T h0 n Q (f t) own') :
    Wp T h0 n Q (do
      let v ← Thread.atom (orTrivial cls v)
      let t ← Thread.atom (cloneVal W fuel v)
      f t) own := by
  refine Wp.bind _ ?_
  rcases hcl with rfl | ⟨rc, oc, c, rfl, eoc, hC⟩
  · refine Wp.allocTrivial fun t ht => ?_
    simp only
    refine Wp.bind _ ?_
    have ecv : cloneVal W fuel (.obj t) = cloneE W fuel t := rfl
    rw [ecv]
    refine Wp.cloneOwned hf (Function.update_self _ _ _)
      (c := ⟨if cls = "TrivialCover" then "apply" :: commonMembers else commonMembers, PyDict.empty⟩)
      ⟨by rcases hcls with rfl | rfl <;> rw [World.classes] <;> rfl,
        by simp [PyDict.keys, PyDict.empty], fun _ _ => Iff.rfl⟩ fun t' ht' => ?_
    simp only
    refine hQ _ t' _ ?_ ?_ (Function.update_self _ _ _) (Or.inl ⟨rfl, rfl⟩)
    · intro a ha
      by_cases h1 : a = t
      · subst h1; exact absurd ht ha
      · by_cases h2 : a = t'
        · subst h2
          rw [Function.update_of_ne h1] at ht'
          exact absurd ht' ha
        · rw [Function.update_of_ne h2, Function.update_of_ne h1]
    · by_cases h1 : t' = t
      · subst h1; exact ht
      · rw [Function.update_of_ne h1] at ht'; exact ht'
  · have hor : orTrivial cls (.obj rc) = pure (.obj rc) := rfl
    rw [hor]
    refine Wp.pureAtom (r := .ok (.obj rc)) (fun _ _ => rfl) ?_
    simp only
    refine Wp.bind _ ?_
    have ecv : cloneVal W fuel (.obj rc) = cloneE W fuel rc := rfl
    rw [ecv]
    refine Wp.append (v := fun t => t) (fun h hg hb hh => by
      obtain ⟨o', eo', hcls', hp'⟩ := hb.same rc oc eoc
      obtain ⟨h1, h2, _⟩ := run_cloneE hg hf eo' (hC.same hcls' hp')
      rw [hcls', freshAttrs_same c hp'] at h1 h2
      exact ⟨h1, h2⟩) fun t ht => ?_
    simp only
    refine hQ _ t _ ?_ ht (Function.update_self _ _ _) (Or.inr ⟨rc, oc, c, rfl, eoc, hC, rfl⟩)
    intro a ha
    by_cases h1 : a = t
    · subst h1; exact absurd ht ha
    · rw [Function.update_of_ne h1]

/-- `apply` of an owned cover. -/
theorem Wp.applyCover {W : World} (hW : Contract W) {h0 : Heap} {n : ℕ}
    {Q : Py (List (List ℕ)) → Own → Prop} {own : Own} {t : ℕ} {ot : Obj} (ho : own t = some ot)
    (y : List RealArray)
    (hQ : ∀ own', (∀ a, a ≠ t → own' a = own a) → Q (if ot.cls = "TrivialCover" then trivialCover y
      else (W.apply ot.cls ot.attrs y).2) own') :
    Wp T h0 n Q (Thread.atom (applyCover W t y)) own := by
  by_cases h1 : ot.cls = "TrivialCover"
  · refine Wp.pureAtom (r := trivialCover y) (fun h hh => ?_) ?_
    · rw [run_applyCover W (hh t ot ho), if_pos h1]
    · have := hQ own (fun _ _ => rfl)
      rw [if_pos h1] at this
      exact this
  · intro h hg hb0 hh
    obtain ⟨g1, g2, g4, g5⟩ := Wp.setAttrs ho (hW.apply_public ot.cls ot.attrs y)
      (hW.apply_nodup ot.cls ot.attrs y) hg hh
    simp only [run_applyCover W (hh t ot ho), if_neg h1]
    have := hQ _ (fun a ha => Function.update_of_ne (f := own) ha
      (some ⟨ot.cls, (W.apply ot.cls ot.attrs y).1⟩))
    rw [if_neg h1] at this
    exact ⟨g1, g2, _, g4, g5, keepsOwn_set ho (hW.apply_public ot.cls ot.attrs y), this⟩

/-! ### `fit` of one clustering -/

theorem Wp.asLabels {h0 : Heap} {n : ℕ} {own : Own} (v : Val) :
    Wp T h0 n (fun r own' => own' = own ∧ r = match v with
      | .labels l => .ok l
      | _ => .error .typeError) (Thread.atom (asLabels v)) own := by
  cases v <;> exact Wp.pureAtom (fun _ _ => rfl) ⟨rfl, rfl⟩

/-- Reading the labels at the end of a job. -/
theorem Wp.readLabels {β : Type} {h0 : Heap} {n : ℕ} {Q : Py β → Own → Prop} {f : List ℤ → Thread β}
    {own : Own} {c : ℕ} {o : Obj} (ho : own c = some o)
    (hQ : match labelsAttr o.attrs with
      | .ok l => Wp T h0 n Q (f l) own
      | .error e => Q (.error e) own) :
    Wp T h0 n Q (do
      let v ← Thread.atom (Verif.readAttr c "labels_")
      let l ← Thread.atom (Verif.asLabels v)
      f l) own := by
  refine Wp.bind _ ?_
  unfold labelsAttr at hQ
  cases hv : o.attrs.get? "labels_" with
  | none =>
    rw [hv] at hQ
    refine Wp.pureAtom (r := .error .attributeError) (fun h hh => ?_) hQ
    rw [run_readAttr (hh c o ho), hv]
  | some v =>
    rw [hv] at hQ
    refine Wp.readAttr ho hv ?_
    refine Wp.bind _ (Wp.mono ?_ _ (Wp.asLabels v))
    rintro r _ ⟨rfl, hr⟩
    rw [hr]
    cases v <;> exact hQ

/-- After `fit` of the owned object `c`: the other owned objects are as before, and the labels, or
the exception, are the expected ones. -/
def FitDone (own : Own) (c : ℕ) (expected : Py (List ℤ)) (r : Py Unit) (own' : Own) : Prop :=
  (∀ a, a ≠ c → own a ≠ none → own' a = own a) ∧
    match r with
    | .error e => expected = .error e
    | .ok _ => ∃ o', own' c = some o' ∧ labelsAttr o'.attrs = expected

/-- `fit`, on an owned object with the class and the parameters of `o0`, computes `labs`. -/
def FitWp (T : ℕ → Prop) (h0 : Heap) (n : ℕ) (fit : ℕ → List RealArray → Thread Unit) (o0 : Obj)
    (labs : List RealArray → Py (List ℤ)) : Prop :=
  ∀ X own c o, own c = some o → o.cls = o0.cls → SamePublic o0.attrs o.attrs →
    Wp T h0 n (FitDone own c (labs X)) (fit c X) own

theorem FitWp.one {W : World} {S : FitSteps} {h0 : Heap} {n fuel depth : ℕ} {o0 : Obj}
    (htr : o0.cls = "TrivialClustering") :
    FitWp T h0 n (fitThread W S fuel depth) o0 trivialClustering := by
  intro X own c o ho hcls hp
  rw [htr] at hcls
  unfold fitThread
  refine Wp.bind _ (Wp.readObj ho ?_)
  simp only
  rw [if_neg (by rw [hcls]; decide), if_neg (by rw [hcls]; decide), if_pos hcls]
  refine Wp.writeAttr ho private_labels ⟨fun a ha _ => Function.update_of_ne ha _ _, ?_⟩
  refine ⟨_, Function.update_self _ _ _, ?_⟩
  simp only
  rw [labelsAttr_set]
  rfl

theorem FitWp.plain {W : World} (hW : Contract W) {S : FitSteps} (hS : Implements W S) {h0 : Heap}
    {n fuel depth : ℕ} {r0 : ℕ} {o0 : Obj} (e0 : h0[r0]? = some o0)
    (h1 : o0.cls ≠ "FailSafeClustering") (h3 : o0.cls ≠ "MapperClustering") :
    FitWp T h0 n (fitThread W S fuel depth) o0 (labelsOf W h0 depth r0) := by
  by_cases htr : o0.cls = "TrivialClustering"
  · have : labelsOf W h0 depth r0 = trivialClustering := by
      funext X; exact labelsOf_trivial W h0 depth e0 htr X
    rw [this]
    exact FitWp.one htr
  · intro X own c o ho hcls hp
    unfold fitThread
    refine Wp.bind _ (Wp.readObj ho ?_)
    simp only
    rw [if_neg (by rw [hcls]; exact h1), if_neg (by rw [hcls]; exact h3),
      if_neg (by rw [hcls]; exact htr)]
    have hval := labelsOf_plain W h0 depth e0 h1 h3 htr X
    obtain ⟨hkp, hrun⟩ := hS o.cls X
    refine Wp.localOn _ ho hkp ?_
    rw [hrun]
    refine ⟨fun a ha _ => Function.update_of_ne ha _ _, ?_⟩
    have hres := hW.fit_result o0.cls o0.attrs o.attrs X hp
    have hlab := hW.fit_labels o0.cls o0.attrs o.attrs X hp
    rw [hcls]
    cases hw : W.fit o0.cls o0.attrs X with
    | mk a0 res0 =>
      cases hw1 : W.fit o0.cls o.attrs X with
      | mk a1 res1 =>
        rw [hw] at hval
        rw [hw, hw1] at hres hlab
        simp only at hres hlab
        subst hres
        cases res0 with
        | error e => exact hval
        | ok u =>
          refine ⟨_, Function.update_self _ _ _, ?_⟩
          simp only at hval ⊢
          rw [hval, labelsAttr, labelsAttr, hlab rfl]

theorem FitWp.failSafe {W : World} {S : FitSteps} {h0 : Heap} {n fuel depth : ℕ} {r0 : ℕ} {o0 : Obj}
    (e0 : h0[r0]? = some o0) (h1 : o0.cls = "FailSafeClustering")
    (hnone : o0.attrs.get? "clustering" = some .none) :
    FitWp T h0 n (fitThread W S fuel depth) o0 (labelsOf W h0 depth r0) := by
  intro X own c o ho hcls hp
  unfold fitThread
  refine Wp.bind _ (Wp.readObj ho ?_)
  simp only
  rw [if_pos (by rw [hcls]; exact h1)]
  have hoc : o.attrs.get? "clustering" = some .none := by rw [← hp _ public_clustering, hnone]
  cases depth with
  | zero => exact ⟨fun _ _ _ => rfl, labelsOf_failSafe_zero W h0 e0 h1 X⟩
  | succ depth =>
    rw [labelsOf_failSafe W h0 depth e0 h1, hnone, hp _ public_verbose]
    simp only
    unfold failSafeThread
    refine Wp.bind _ (Wp.readAttr ho hoc ?_)
    simp only
    refine Wp.bind _ (Wp.allocTrivial fun t ht => ?_)
    have hct : c ≠ t := by rintro rfl; rw [ho] at ht; cases ht
    have ho1 : Function.update own t (some ⟨"TrivialClustering", PyDict.empty⟩) c = some o := by
      rw [Function.update_of_ne hct, ho]
    have hoth : ∀ a, own a ≠ none → a ≠ t := by
      rintro a ha rfl
      exact ha ht
    simp only
    refine Wp.bind _ (Wp.writeAttr ho1 private_clustering ?_)
    simp only
    cases hvv : o.attrs.get? "verbose" with
    | none =>
      refine Wp.bind _ (Wp.pureAtom (r := .error .attributeError) (fun h hh => ?_) ?_)
      · rw [run_readAttr (hh c _ (Function.update_self _ _ _))]
        simp only
        rw [PyDict.get?_set, if_neg (by decide), hvv]
      · refine ⟨fun a ha hoa => ?_, rfl⟩
        rw [Function.update_of_ne ha, Function.update_of_ne (hoth a hoa)]
    | some vv =>
    refine Wp.bind _ (Wp.readAttr (Function.update_self _ _ _) (v := vv) ?_ ?_)
    · simp only
      rw [PyDict.get?_set, if_neg (by decide), hvv]
    simp only
    refine Wp.bind _ (Wp.writeAttr (Function.update_self _ _ _) private_verbose ?_)
    simp only
    rw [Function.update_idem]
    refine Wp.tryValueError _ ?_
    refine Wp.bind _ (Wp.readAttr (Function.update_self _ _ _) (v := .obj t) ?_ ?_)
    · simp only
      rw [PyDict.get?_set, if_neg (by decide), PyDict.get?_set, if_pos rfl]
    simp only
    refine Wp.bind _ (Wp.pureAtom (r := .ok t) (fun _ _ => rfl) ?_)
    simp only
    refine Wp.bind _ ?_
    have hot : Function.update (Function.update own t (some (⟨"TrivialClustering", PyDict.empty⟩ : Obj)))
        c (some ⟨o.cls, (o.attrs.set "_clustering" (.obj t)).set "_verbose" vv⟩) t =
        some ⟨"TrivialClustering", PyDict.empty⟩ := by
      rw [Function.update_of_ne (Ne.symm hct), Function.update_self]
    unfold fitThread
    refine Wp.bind _ (Wp.readObj hot ?_)
    simp only
    rw [if_neg (by decide), if_neg (by decide), if_pos trivial]
    refine Wp.writeAttr hot private_labels ?_
    simp only
    refine Wp.bind _ (Wp.readAttr (Function.update_self _ _ _)
      (v := .labels (X.map fun _ => 0)) ?_ ?_)
    · simp only
      rw [PyDict.get?_set, if_pos rfl]
    simp only
    refine Wp.writeAttr (o := ⟨o.cls, (o.attrs.set "_clustering" (.obj t)).set "_verbose" vv⟩)
      ?_ private_labels ?_
    · rw [Function.update_of_ne hct, Function.update_self]
    simp only
    refine ⟨fun a ha hoa => ?_, _, Function.update_self _ _ _, ?_⟩
    · rw [Function.update_of_ne ha, Function.update_of_ne (hoth a hoa), Function.update_of_ne ha,
        Function.update_of_ne (hoth a hoa)]
    · simp only
      rw [labelsAttr_set]
      rfl

/-- The jobs of a nested Mapper. -/
theorem Wp.jobsThread {W : World} {h0 : Heap} {n fuel : ℕ} (hf : n ≤ fuel)
    {fit : ℕ → List RealArray → Thread Unit} {ot : Obj} {labs : List RealArray → Py (List ℤ)}
    (hfit : FitWp T h0 n fit ot labs) {ci : ClassInfo} (hC : ParamsByInit W.classes ot ci)
    (X : List RealArray) {t : ℕ} : ∀ (charts : List (List ℕ)) (k : ℕ) {own : Own},
    own t = some ot → Wp T h0 n (fun r own' => (∀ a, own a ≠ none → own' a = own a) ∧
      r = runJobs X (fun _ => labs) k charts) (jobsThread W fuel fit X t charts) own := by
  intro charts
  induction charts with
  | nil => intro k own ho; exact ⟨fun _ _ => rfl, rfl⟩
  | cons ids charts ih =>
    intro k own ho
    rw [Verif.jobsThread, runJobs]
    refine Wp.bind _ ?_
    cases hgat : gather X ids with
    | error e => exact ⟨fun _ _ => rfl, rfl⟩
    | ok xs =>
      simp only [ok_bind]
      refine Wp.bind _ (Wp.cloneOwned hf ho hC fun c hc => ?_)
      simp only
      have hoth : ∀ a, own a ≠ none → a ≠ c := by
        rintro a ha rfl
        exact ha hc
      refine Wp.bind _ (Wp.mono ?_ _ (hfit xs _ c ⟨ot.cls, freshAttrs ci ot.attrs⟩
        (Function.update_self _ _ _) rfl (freshAttrs_public hC)))
      rintro r own1 ⟨hfr, hr⟩
      have hkeep : ∀ a, own a ≠ none → own1 a = own a := by
        intro a ha
        rw [hfr a (hoth a ha) (by rw [Function.update_of_ne (hoth a ha)]; exact ha),
          Function.update_of_ne (hoth a ha)]
      cases r with
      | error e =>
        refine ⟨hkeep, ?_⟩
        simp only at hr
        rw [hr]
        rfl
      | ok u =>
        obtain ⟨o', ho', hl⟩ := hr
        simp only
        refine Wp.readLabels ho' ?_
        rw [hl]
        cases labs xs with
        | error e => exact ⟨hkeep, rfl⟩
        | ok l =>
          simp only [ok_bind]
          have hot1 : own1 t = some ot := by rw [hkeep t (by rw [ho]; simp), ho]
          refine Wp.bind _ (Wp.mono ?_ _ (ih (k + 1) hot1))
          rintro r own2 ⟨hk2, rfl⟩
          have hkeep2 : ∀ a, own a ≠ none → own2 a = own a := by
            intro a ha
            rw [hk2 a (by rw [hkeep a ha]; exact ha), hkeep a ha]
          cases runJobs X (fun _ => labs) (k + 1) charts with
          | error e => exact ⟨hkeep2, rfl⟩
          | ok rest => exact ⟨hkeep2, rfl⟩

theorem FitDone.keep {own own1 : Own} {c : ℕ} {expected : Py (List ℤ)} {e : PyErr}
    (hk : ∀ a, own a ≠ none → own1 a = own a) (he : expected = .error e) :
    FitDone own c expected (.error e) own1 := ⟨fun a _ ha => hk a ha, he⟩

/-- A nested `MapperClustering`. -/
theorem FitWp.nested {W : World} (hW : Contract W) {h0 : Heap} {n fuel depth : ℕ} (hf : n ≤ fuel)
    {fit : ℕ → List RealArray → Thread Unit} {r0 : ℕ} {o0 : Obj} (e0 : h0[r0]? = some o0)
    {vc vk vj : Val} (hvc : o0.attrs.get? "cover" = some vc)
    (hvk : o0.attrs.get? "clustering" = some vk) (hvj : o0.attrs.get? "n_jobs" = some vj)
    (hcc : Cloneable W h0 vc) (hck : Cloneable W h0 vk)
    (hone : FitWp T h0 n fit ⟨"TrivialClustering", PyDict.empty⟩ trivialClustering)
    (hfit : ∀ rk ok, vk = .obj rk → h0[rk]? = some ok → FitWp T h0 n fit ok (labelsOf W h0 depth rk))
    (X : List RealArray) {own : Own} {c : ℕ} {o : Obj} (ho : own c = some o)
    (hp : SamePublic o0.attrs o.attrs) :
    Wp T h0 n (FitDone own c (nestedLabels W h0 depth (some vc) (some vk) X))
      (mapperClusteringThread W fuel fit c (stackRows X)) own := by
  have hne : own c ≠ none := by rw [ho]; simp
  rw [mapperClusteringThread, nestedLabels, mapperClusteringResult]
  refine Wp.bind _ ?_
  simp only [Option.getD]
  cases hval : validateXy (stackRows X) (stackRows X) with
  | error e => exact FitDone.keep (fun _ _ => rfl) rfl
  | ok p =>
    obtain ⟨aX, ay⟩ := p
    simp only [ok_bind]
    refine Wp.bind _ (Wp.readAttr ho (by rw [← hp _ public_cover, hvc]) ?_)
    simp only
    refine Wp.orTrivialClone hf (Or.inl rfl) hcc fun own1 tc oc hk1 htc hoc hcopy1 => ?_
    have ho1 : own1 c = some o := by rw [hk1 c hne, ho]
    refine Wp.bind _ (Wp.readAttr ho1 (by rw [← hp _ public_clustering, hvk]) ?_)
    simp only
    refine Wp.orTrivialClone hf (Or.inr rfl) hck fun own2 tk ok hk2 htk hok hcopy2 => ?_
    have htkc : tk ≠ tc := by rintro rfl; rw [hoc] at htk; cases htk
    have hk02 : ∀ a, own a ≠ none → own2 a = own a := by
      intro a ha
      rw [hk2 a (by rw [hk1 a ha]; exact ha), hk1 a ha]
    have ho2 : own2 c = some o := by rw [hk02 c hne, ho]
    have hoc2 : own2 tc = some oc := by rw [hk2 tc (by rw [hoc]; simp), hoc]
    refine Wp.bind _ (Wp.readAttr ho2 (by rw [← hp _ public_nJobs, hvj]) ?_)
    simp only
    refine Wp.bind _ ?_
    cases hrX : rowsOf aX with
    | error e => exact FitDone.keep hk02 rfl
    | ok rX =>
      simp only [ok_bind]
      refine Wp.bind _ ?_
      cases hry : rowsOf ay with
      | error e => exact FitDone.keep hk02 rfl
      | ok ry =>
        simp only [ok_bind]
        refine Wp.bind _ (Wp.applyCover hW hoc2 ry fun own3 hk3 => ?_)
        have hch : (if oc.cls = "TrivialCover" then trivialCover ry
            else (W.apply oc.cls oc.attrs ry).2) = coverParam W h0 vc ry :=
          congrFun hcopy1.charts ry
        rw [hch, mapperConnectedComponents, mapperLabels]
        have hk03 : ∀ a, own a ≠ none → own3 a = own a := by
          intro a ha
          rw [hk3 a (by rintro rfl; exact ha htc), hk02 a ha]
        cases hcov : coverParam W h0 vc ry with
        | error e => exact FitDone.keep hk03 rfl
        | ok charts =>
          simp only [ok_bind]
          have hok3 : own3 tk = some ok := by rw [hk3 tk htkc, hok]
          obtain ⟨ci, hC⟩ := hcopy2.byInit (Or.inr rfl)
          have hfitk : FitWp T h0 n fit ok (clustOr (labelsOf W h0 depth) vk) := by
            rcases hcopy2 with ⟨rfl, rfl⟩ | ⟨rk, o', c', rfl, eo', hC', rfl⟩
            · exact hone
            · intro X own c o ho hcls hp
              exact hfit rk o' rfl eo' X own c o ho hcls ((freshAttrs_public hC').trans hp)
          refine Wp.bind _ (Wp.mono ?_ _ (Wp.jobsThread hf hfitk hC rX charts 0 hok3))
          rintro r own4 ⟨hk4, rfl⟩
          have hk04 : ∀ a, own a ≠ none → own4 a = own a := by
            intro a ha
            rw [hk4 a (by rw [hk03 a ha]; exact ha), hk03 a ha]
          cases hrun : runJobs rX (fun _ => clustOr (labelsOf W h0 depth) vk) 0 charts with
          | error e => exact FitDone.keep hk04 rfl
          | ok runs =>
            simp only [ok_bind]
            refine Wp.bind _ ?_
            cases hL : labelCharts runs 0 (rX.map fun _ => []) with
            | error e => exact FitDone.keep hk04 rfl
            | ok itm =>
              simp only [ok_bind]
              refine Wp.bind _ ?_
              have hcomp : (unionAll itm (UnionFind.init (W.setOrder itm.flatten.dedup)) >>=
                  fun uf => findAll itm uf) = componentsOfLabels W.setOrder itm := rfl
              rw [hcomp]
              cases hG : componentsOfLabels W.setOrder itm with
              | error e => exact FitDone.keep hk04 rfl
              | ok l =>
                simp only [ok_bind]
                have hlen : rX.length = l.length := by
                  rw [componentsOfLabels_length hG, labelCharts_length _ _ _ hL, List.length_map]
                obtain ⟨m, hm⟩ := nFeatures_ok hval hrX
                refine Wp.bind _ ?_
                rw [hlen, gather_range, hm]
                simp only [ok_bind]
                have ho4 : own4 c = some o := by rw [hk04 c hne, ho]
                refine Wp.bind _ (Wp.writeAttr ho4 private_labels ?_)
                simp only
                refine Wp.bind _ ?_
                refine Wp.writeAttr (Function.update_self _ _ _) private_nFeatures ?_
                rw [Function.update_idem]
                refine ⟨fun a ha hoa => ?_, _, Function.update_self _ _ _, ?_⟩
                · rw [Function.update_of_ne ha, hk04 a hoa]
                · simp only [labelsAttr]
                  rw [PyDict.get?_set, if_neg (by decide), PyDict.get?_set, if_pos rfl]
                  rfl

/-- `fit` of a clustering that shares nothing. -/
theorem fitThread_wp {W : World} (hW : Contract W) {S : FitSteps} (hS : Implements W S) {h0 : Heap}
    {n fuel : ℕ} (hf : n ≤ fuel) : ∀ (depth r0 : ℕ) (o0 : Obj), h0[r0]? = some o0 →
    SharesNothing h0 r0 → MapperReady W h0 r0 →
    FitWp T h0 n (fitThread W S fuel depth) o0 (labelsOf W h0 depth r0) := by
  intro depth
  induction depth with
  | zero =>
    intro r0 o0 e0 hs hm
    cases hs with
    | failSafe e h1 h2 => rw [e0] at e; cases e; exact FitWp.failSafe e0 h1 h2
    | other e h1 h2 => rw [e0] at e; cases e; exact FitWp.plain hW hS e0 h1 h2
    | mapper e h1 h2 =>
      rw [e0] at e
      cases e
      intro X own c o ho hcls hp
      unfold fitThread
      refine Wp.bind _ (Wp.readObj ho ?_)
      simp only
      rw [if_neg (by rw [hcls, h1]; decide), if_pos (by rw [hcls, h1])]
      exact ⟨fun _ _ _ => rfl, labelsOf_mapper_zero W h0 e0 h1 X⟩
  | succ depth ih =>
    intro r0 o0 e0 hs hm
    cases hs with
    | failSafe e h1 h2 => rw [e0] at e; cases e; exact FitWp.failSafe e0 h1 h2
    | other e h1 h2 => rw [e0] at e; cases e; exact FitWp.plain hW hS e0 h1 h2
    | mapper e h1 h2 =>
      rw [e0] at e
      cases e
      obtain ⟨vc, vk, vj, hvc, hvk, hvj, hcc, hck⟩ := hm [] r0 o0 (.nil _) e0 h1
      intro X own c o ho hcls hp
      unfold fitThread
      refine Wp.bind _ (Wp.readObj ho ?_)
      simp only
      rw [if_neg (by rw [hcls, h1]; decide), if_pos (by rw [hcls, h1]),
        labelsOf_mapper W h0 depth e0 h1, hvc, hvk]
      refine FitWp.nested hW hf e0 hvc hvk hvj hcc hck (FitWp.one rfl) ?_ X ho hp
      rintro rk ok rfl ek
      exact ih rk ok ek (h2 rk hvk) (hm.attr ⟨o0, e0, hvk, public_clustering⟩)

/-- One job. -/
theorem Wp.job {W : World} {S : FitSteps} {h0 : Heap} {n fuel : ℕ} {o0 : Obj}
    {labs : List RealArray → Py (List ℤ)} (hfit : FitWp T h0 n (fitThread W S fuel fuel) o0 labs)
    (X : List RealArray) {own : Own} {c : ℕ} {o : Obj} (ho : own c = some o)
    (hcls : o.cls = o0.cls) (hp : SamePublic o0.attrs o.attrs) :
    Wp T h0 n (fun r _ => r = labs X) (jobThread W S fuel c X) own := by
  unfold jobThread
  refine Wp.bind _ (Wp.mono ?_ _ (hfit X own c o ho hcls hp))
  rintro r own1 ⟨_, hr⟩
  cases r with
  | error e => exact hr.symm
  | ok u =>
    obtain ⟨o', ho', hl⟩ := hr
    simp only
    rw [← hl]
    refine Wp.bind _ ?_
    unfold labelsAttr
    cases hv : o'.attrs.get? "labels_" with
    | none =>
      refine Wp.pureAtom (r := .error .attributeError) (fun h hh => ?_) rfl
      rw [run_readAttr (hh c o' ho'), hv]
    | some v =>
      refine Wp.readAttr ho' hv ?_
      refine Wp.mono ?_ _ (Wp.asLabels v)
      rintro r _ ⟨_, hr⟩
      rw [hr]
      cases v <;> rfl

/-! ### All jobs -/

/-- What the job for a chart should return. -/
def jobResult (W : World) (fuel : ℕ) (X : List RealArray) (h0 : Heap) (clust : ℕ) (ids : List ℕ) :
    Py (List ℤ) := do
  let xs ← gather X ids
  labelsOf W h0 fuel clust xs

/-- The jobs own disjoint objects, and will return what they should. -/
structure Separate (W : World) (n fuel : ℕ) (X : List RealArray) (h0 : Heap) (clust : ℕ)
    (charts : List (List ℕ)) (c : Config) (owns : ℕ → Own) : Prop where
  good : GoodHeap c.heap n
  base : Evolves h0 c.heap (fun _ => False)
  chartsEq : charts = c.jobs.map Job.ids ++ c.pending
  holds : ∀ i, Holds (owns i) c.heap
  fresh : ∀ i a, owns i a ≠ none → h0.length ≤ a
  disjoint : ∀ i j a, i ≠ j → owns i a ≠ none → owns j a = none
  wp : ∀ i j, c.jobs[i]? = some j →
    Wp (fun _ => False) h0 n (fun r _ => r = jobResult W fuel X h0 clust j.ids) j.thread (owns i)

theorem holds_lt {own : Own} {h : Heap} (hh : Holds own h) {a : ℕ} (ha : own a ≠ none) :
    a < h.length := by
  obtain ⟨o, ho⟩ := Option.ne_none_iff_exists'.mp ha
  exact lt_of_getElem? (hh a o ho)

/-- A heap that keeps the objects below `h0.length`. -/
theorem Evolves.keepBase {h0 h h' : Heap} (hb : Evolves h0 h (fun _ => False))
    (hgr : h.length ≤ h'.length) (hfr : ∀ a, a < h0.length → h'[a]? = h[a]?) :
    Evolves h0 h' (fun _ => False) := by
  refine ⟨le_trans hb.grow hgr, ?_, ?_⟩
  · intro a o ea
    exact ⟨o, by rw [hfr a (lt_of_getElem? ea), hb.base ea], rfl, SamePublic.refl _⟩
  · intro a ha _
    rw [hfr a ha, hb.frame a ha (fun h => h)]

theorem separate_next {W : World} (hW : Contract W) {S : FitSteps} (hS : Implements W S)
    {n fuel : ℕ} (hf : n ≤ fuel) {X : List RealArray} {h0 : Heap} {clust : ℕ}
    {o : Obj} (e0 : h0[clust]? = some o) {ci : ClassInfo} (hC : ParamsByInit W.classes o ci)
    (hsh : SharesNothing h0 clust) (hm : MapperReady W h0 clust) {charts : List (List ℕ)} {c c' : Config} {owns : ℕ → Own}
    (hs : Separate W n fuel X h0 clust charts c owns) {b : Bool} {ch : Choice}
    (hn : c.next W S fuel X clust b ch = some c') :
    ∃ owns', Separate W n fuel X h0 clust charts c' owns' := by
  obtain ⟨h, pending, jobs⟩ := c
  obtain ⟨hg, hbase, hch, hh, hnc, hdis, hwp⟩ := hs
  simp only at hg hbase hch hh hwp
  have hcl := hbase.base e0
  cases ch with
  | run i =>
    simp only [Config.next] at hn
    split at hn
    · rename_i ids upd next e
      cases hn
      obtain ⟨h1, hev, own', h4, h5, _, h6⟩ := hwp i _ e h hg hbase (hh i)
      have h2 := hev.grow
      have h3 : ∀ a, a < h.length → owns i a = none → (upd h)[a]? = h[a]? :=
        fun a ha hn => hev.frame a ha (fun hne => hne hn)
      have hlt : i < jobs.length := (List.getElem?_eq_some_iff.mp e).1
      have hnew : ∀ a, own' a ≠ none → ∀ j, j ≠ i → owns j a = none := by
        intro a ha j hj
        rcases h5 a ha with h7 | h7
        · exact hdis i j a (Ne.symm hj) h7
        · by_contra hne
          have := holds_lt (hh j) hne
          omega
      refine ⟨Function.update owns i own', ⟨h1, ?_, ?_, ?_, ?_, ?_, ?_⟩⟩
      · refine hbase.keepBase h2 fun a ha => h3 a (lt_of_lt_of_le ha hbase.grow) ?_
        by_contra hne
        have := hnc i a hne
        omega
      · simp only
        rw [hch]
        congr 1
        apply List.ext_getElem?
        intro k
        rw [List.getElem?_map, List.getElem?_map, List.getElem?_set]
        split
        · rename_i hik
          subst hik
          rw [e]
          simp [hlt]
        · rfl
      · intro j a oa hja
        by_cases hji : j = i
        · subst hji
          rw [Function.update_self] at hja
          exact h4 a oa hja
        · rw [Function.update_of_ne hji] at hja
          simp only
          have hne : owns j a ≠ none := by rw [hja]; simp
          rw [h3 a (holds_lt (hh j) hne) (hdis j i a hji hne)]
          exact hh j a oa hja
      · intro j a
        by_cases hji : j = i
        · subst hji
          rw [Function.update_self]
          intro hne
          rcases h5 a hne with h7 | h7
          · exact hnc j a h7
          · exact le_trans hbase.grow h7
        · rw [Function.update_of_ne hji]
          exact hnc j a
      · intro j k a hjk ha
        by_cases hji : j = i
        · subst hji
          rw [Function.update_self] at ha
          rw [Function.update_of_ne (Ne.symm hjk)]
          exact hnew a ha k (Ne.symm hjk)
        · rw [Function.update_of_ne hji] at ha
          by_cases hki : k = i
          · subst hki
            rw [Function.update_self]
            by_contra hne
            exact ha (hnew a hne j hji)
          · rw [Function.update_of_ne hki]
            exact hdis j k a hjk ha
      · intro k j hj
        simp only at hj
        rw [List.getElem?_set] at hj
        split at hj
        · subst_vars
          simp only [hlt, Option.some.injEq] at hj
          subst hj
          rw [Function.update_self]
          exact h6
        · rename_i hik
          rw [Function.update_of_ne (Ne.symm hik)]
          exact hwp k j hj
    · cases hn
  | dispatch =>
    simp only [Config.next] at hn
    cases pending with
    | nil => cases hn
    | cons ids rest =>
      simp only at hn
      split at hn
      · cases hn
      · cases hn
        obtain ⟨job, h', own', hd, hids, hg', hgr, hfr, hh', hnew, hw⟩ : ∃ job h' own',
            dispatchJob W S fuel X clust ids h = (job, h') ∧ job.ids = ids ∧ GoodHeap h' n ∧
            h.length ≤ h'.length ∧ (∀ a, a < h.length → h'[a]? = h[a]?) ∧ Holds own' h' ∧
            (∀ a, own' a ≠ none → h.length ≤ a) ∧
            Wp (fun _ => False) h0 n (fun r _ => r = jobResult W fuel X h0 clust job.ids) job.thread own' := by
          unfold dispatchJob
          cases hgat : gather X ids with
          | error e =>
            refine ⟨_, _, fun _ => none, rfl, rfl, hg, le_refl _, fun _ _ => rfl,
              (fun a o h => by cases h), (fun a h => absurd rfl h), ?_⟩
            simp only [Wp, jobResult, hgat]
            rfl
          | ok xs =>
            obtain ⟨ecl, hg1, hev⟩ := run_cloneE hg hf hcl hC
            simp only [ecl]
            have ec : (h ++ [(⟨o.cls, freshAttrs ci o.attrs⟩ : Obj)])[h.length]? =
                some ⟨o.cls, freshAttrs ci o.attrs⟩ := by simp
            refine ⟨_, _, Function.update (fun _ => none) h.length
              (some ⟨o.cls, freshAttrs ci o.attrs⟩), rfl, rfl, hg1, hev.grow,
              fun a ha => hev.frame a ha (fun h => h), ?_, ?_, ?_⟩
            · intro a oa ha
              by_cases hal : a = h.length
              · subst hal
                rw [Function.update_self] at ha
                cases ha
                exact ec
              · rw [Function.update_of_ne hal] at ha
                cases ha
            · intro a ha
              by_contra hlt
              rw [Function.update_of_ne (by omega)] at ha
              exact ha rfl
            · refine Wp.mono ?_ _ (Wp.job (fitThread_wp hW hS hf fuel clust o e0 hsh hm) xs
                (Function.update_self _ _ _) rfl (freshAttrs_public hC))
              intro r _ hr
              rw [hr, jobResult, hgat, ok_bind]
        rw [hd]
        have hlen : ∀ j a, owns j a ≠ none → own' a = none := by
          intro j a ha
          by_contra hne
          have := holds_lt (hh j) ha
          have := hnew a hne
          omega
        refine ⟨Function.update owns jobs.length own', ⟨hg', ?_, ?_, ?_, ?_, ?_, ?_⟩⟩
        · exact hbase.keepBase hgr fun a ha => hfr a (lt_of_lt_of_le ha hbase.grow)
        · simp [hch, hids]
        · intro j a oa hja
          by_cases hji : j = jobs.length
          · subst hji
            rw [Function.update_self] at hja
            exact hh' a oa hja
          · rw [Function.update_of_ne hji] at hja
            simp only
            have hne : owns j a ≠ none := by rw [hja]; simp
            rw [hfr a (holds_lt (hh j) hne)]
            exact hh j a oa hja
        · intro j a
          by_cases hji : j = jobs.length
          · subst hji
            rw [Function.update_self]
            intro hne
            exact le_trans hbase.grow (hnew a hne)
          · rw [Function.update_of_ne hji]
            exact hnc j a
        · intro j k a hjk ha
          by_cases hji : j = jobs.length
          · subst hji
            rw [Function.update_self] at ha
            rw [Function.update_of_ne (Ne.symm hjk)]
            by_contra hne
            exact ha (hlen k a hne)
          · rw [Function.update_of_ne hji] at ha
            by_cases hki : k = jobs.length
            · subst hki
              rw [Function.update_self]
              exact hlen j a ha
            · rw [Function.update_of_ne hki]
              exact hdis j k a hjk ha
        · intro k j hj
          simp only at hj
          rcases Nat.lt_or_ge k jobs.length with hk | hk
          · rw [List.getElem?_append_left hk] at hj
            rw [Function.update_of_ne (by omega)]
            exact hwp k j hj
          · have hk' := (List.getElem?_eq_some_iff.mp hj).1
            simp at hk'
            have hk2 : k = jobs.length := by omega
            subst hk2
            rw [List.getElem?_append_right (le_refl _)] at hj
            simp at hj
            subst hj
            rw [Function.update_self]
            exact hw

theorem separate_follow {W : World} (hW : Contract W) {S : FitSteps} (hS : Implements W S)
    {n fuel : ℕ} (hf : n ≤ fuel) {X : List RealArray} {h0 : Heap} {clust : ℕ}
    {o : Obj} (e0 : h0[clust]? = some o) {ci : ClassInfo} (hC : ParamsByInit W.classes o ci)
    (hsh : SharesNothing h0 clust) (hm : MapperReady W h0 clust) {charts : List (List ℕ)} {b : Bool} : ∀ (sched : List Choice)
    {c c' : Config} {owns : ℕ → Own}, Separate W n fuel X h0 clust charts c owns →
    c.follow W S fuel X clust b sched = some c' →
    ∃ owns', Separate W n fuel X h0 clust charts c' owns' := by
  intro sched
  induction sched with
  | nil => intro c c' owns hs h; cases h; exact ⟨owns, hs⟩
  | cons ch rest ih =>
    intro c c' owns hs h
    rw [Config.follow, Option.bind_eq_some_iff] at h
    obtain ⟨c1, h1, h2⟩ := h
    obtain ⟨owns1, hs1⟩ := separate_next hW hS hf e0 hC hsh hm hs h1
    exact ih hs1 h2

theorem separate_start {W : World} {n fuel : ℕ} {X : List RealArray} {h0 : Heap}
    (hg0 : GoodHeap h0 n) {clust : ℕ} (charts : List (List ℕ)) :
    Separate W n fuel X h0 clust charts (.start h0 charts) (fun _ _ => none) :=
  ⟨hg0, Evolves.refl _ _, rfl, (fun _ _ _ h => by cases h), (fun _ _ h => absurd rfl h), fun _ _ _ _ _ => rfl,
    (fun i j h => by simp [Config.start] at h)⟩

/-- Results of finished jobs, in order, are what the jobs one after the other give. -/
theorem collectJobs_eq {W : World} {fuel : ℕ} {X : List RealArray} {h0 : Heap} {clust : ℕ} :
    ∀ (jobs : List Job) (pending : List (List ℕ)) (k : ℕ),
    (∀ j ∈ jobs, j.thread = .done (jobResult W fuel X h0 clust j.ids)) →
    (pending = [] ∨ ∃ j ∈ jobs, ∃ e, j.thread = .done (.error e)) →
    collectJobs jobs = runJobs X (fun _ => labelsOf W h0 fuel clust) k
      (jobs.map Job.ids ++ pending) := by
  intro jobs
  induction jobs with
  | nil =>
    intro pending k _ hp
    rcases hp with rfl | ⟨j, hj, _⟩
    · rfl
    · cases hj
  | cons j jobs ih =>
    intro pending k hd hp
    have h1 := hd j List.mem_cons_self
    obtain ⟨ids, t⟩ := j
    simp only at h1
    subst h1
    rw [collectJobs, List.map_cons, List.cons_append, runJobs, jobResult]
    cases hg : gather X ids with
    | error e => rfl
    | ok xs =>
      simp only [ok_bind]
      cases hl : labelsOf W h0 fuel clust xs with
      | error e => rfl
      | ok l =>
        simp only [ok_bind]
        rw [ih pending (k + 1) (fun j hj => hd j (List.mem_cons_of_mem _ hj))]
        rcases hp with rfl | ⟨j, hj, e, he⟩
        · exact Or.inl rfl
        · rcases List.mem_cons.mp hj with rfl | hj
          · simp only [jobResult, hg, ok_bind, hl] at he
            cases he
          · exact Or.inr ⟨j, hj, e, he⟩

theorem separate_stopped {W : World} {n fuel : ℕ} {X : List RealArray} {h0 : Heap} {clust : ℕ}
    {charts : List (List ℕ)} {c : Config} {owns : ℕ → Own}
    (hs : Separate W n fuel X h0 clust charts c owns) (hst : c.Stopped) :
    collectJobs c.jobs = runJobs X (fun _ => labelsOf W h0 fuel clust) 0 charts := by
  rw [hs.chartsEq]
  refine collectJobs_eq _ _ _ ?_ hst.2
  intro j hj
  obtain ⟨i, hi⟩ := List.getElem?_of_mem hj
  obtain ⟨r, hr⟩ := hst.1 j hj
  have := hs.wp i j hi
  rw [hr] at this
  rw [hr]
  exact congrArg _ this

end Verif
