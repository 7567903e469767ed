import Verif.Spec.Interrupt
import Verif.Proof.Jobs
import Verif.Proof.LearnMain

set_option autoImplicit false

namespace Verif

/-! ### All heaps on the way -/

/-- `P` holds of the heap before every step, and of the last one. -/
def Along {α : Type} (P : Heap → Prop) : Thread α → Heap → Prop
  | .done _, h => P h
  | .step upd next, h => P h ∧ Along P (next h) (upd h)

theorem Along.start {α : Type} {P : Heap → Prop} {t : Thread α} {h : Heap} (ha : Along P t h) : P h := by
  cases t with
  | done _ => exact ha
  | step _ _ => exact ha.1

theorem Along.after {α : Type} {P : Heap → Prop} : ∀ (k : ℕ) {t : Thread α} {h : Heap}, Along P t h →
    P (t.after k h) := by
  intro k
  induction k with
  | zero =>
    intro t h ha
    exact ha.start
  | succ k ih =>
    intro t h ha
    cases t with
    | done _ => exact ha
    | step upd next => exact ih ha.2

theorem Along.mono {α : Type} {P P' : Heap → Prop} (hP : ∀ h, P h → P' h) (t : Thread α) :
    ∀ {h : Heap}, Along P t h → Along P' t h := by
  induction t with
  | done _ => exact fun ha => hP _ ha
  | step upd next ih => exact fun ha => ⟨hP _ ha.1, ih _ ha.2⟩

theorem Along.bind {α β : Type} {P : Heap → Prop} {f : α → Thread β} (t : Thread α) :
    ∀ {h : Heap}, Along P t h → (∀ a h', t.run h = (.ok a, h') → Along P (f a) h') →
      Along P (t >>= f) h := by
  show ∀ {h : Heap}, Along P t h → _ → Along P (Thread.bind f t) h
  induction t with
  | done r =>
    intro h ha hf
    cases r with
    | ok a => exact hf a h rfl
    | error e => exact ha
  | step upd next ih => exact fun ha hf => ⟨ha.1, ih _ ha.2 hf⟩

/-- A step that returns. -/
theorem Along.atom {α β : Type} {P : Heap → Prop} {x : Eff α} {f : α → Thread β} {h h' : Heap} {a : α}
    (hx : x h = (.ok a, h')) (hP : P h) (hf : Along P (f a) h') : Along P (Thread.atom x >>= f) h := by
  refine ⟨hP, ?_⟩
  show Along P (Thread.bind f (.done (x h).1)) (x h).2
  rw [hx]
  exact hf

/-- A step that raises. -/
theorem Along.atomError {α β : Type} {P : Heap → Prop} {x : Eff α} {f : α → Thread β} {h h' : Heap}
    {e : PyErr} (hx : x h = (.error e, h')) (hP : P h) (hP' : P h') :
    Along P (Thread.atom x >>= f) h := by
  refine ⟨hP, ?_⟩
  show Along P (Thread.bind f (.done (x h).1)) (x h).2
  rw [hx]
  exact hP'

/-- The last step. -/
theorem Along.lastAtom {α : Type} {P : Heap → Prop} {x : Eff α} {h : Heap} (hP : P h) (hP' : P (x h).2) :
    Along P (Thread.atom x) h := ⟨hP, hP'⟩

theorem Along.tryValueError {P : Heap → Prop} {handler : Thread Unit} (t : Thread Unit) :
    ∀ {h : Heap}, Along P t h → (∀ h', t.run h = (.error .valueError, h') → Along P handler h') →
      Along P (Thread.tryValueError handler t) h := by
  induction t with
  | done r =>
    intro h ha hf
    cases r with
    | ok a => exact ha
    | error e => cases e <;> first | exact ha | exact hf h rfl
  | step upd next ih => exact fun ha hf => ⟨ha.1, ih _ ha.2 hf⟩

theorem Along.last {α : Type} {P : Heap → Prop} (t : Thread α) :
    ∀ {h : Heap}, Along P t h → P (t.run h).2 := by
  induction t with
  | done _ => exact fun ha => ha
  | step upd next ih => exact fun ha => ih _ ha.2

/-- A step that changes nothing. -/
theorem Along.look {α β : Type} {P : Heap → Prop} {x : Eff α} {f : α → Thread β} {h : Heap}
    (hx : (x h).2 = h) (hP : P h) (hf : ∀ a, Along P (f a) h) : Along P (Thread.atom x >>= f) h := by
  obtain ⟨res, h', e⟩ : ∃ res h', x h = (res, h') := ⟨_, _, rfl⟩
  rw [e] at hx
  simp only at hx
  subst hx
  cases res with
  | ok a => exact Along.atom e hP (hf a)
  | error err => exact Along.atomError e hP hP

/-- A computation that does not use the heap. -/
theorem Along.pure {α β : Type} {P : Heap → Prop} {p : Py α} {f : α → Thread β} {h : Heap}
    (hP : P h) (hf : ∀ a, p = .ok a → Along P (f a) h) : Along P (Thread.done p >>= f) h := by
  cases p with
  | ok a => exact hf a rfl
  | error e => exact hP

theorem readAttr_heap (r : ℕ) (k : String) (h : Heap) : (readAttr r k h).2 = h := by
  cases e : h[r]? with
  | none =>
    simp only [readAttr, run_bind, readObj, deref, e]
  | some o =>
    rw [run_readAttr e]

theorem asLabels_heap (v : Val) (h : Heap) : (asLabels v h).2 = h := by
  cases v <;> rfl

/-! ### Heaps that a fit may leave -/

/-- The heap is in order, and no objects but those in `T` have changed, and those not in their
parameters. -/
def Safe (h0 : Heap) (n : ℕ) (T : ℕ → Prop) (h : Heap) : Prop := GoodHeap h n ∧ Evolves h0 h T

theorem Safe.trans {h0 h1 h2 : Heap} {n : ℕ} {T T' : ℕ → Prop} (s1 : Safe h0 n T h1)
    (s2 : Safe h1 n T' h2) (hT : ∀ a, a < h0.length → T' a → T a) : Safe h0 n T h2 :=
  ⟨s2.1, s1.2.trans s2.2 hT⟩

theorem Along.safe {α : Type} {h0 h1 : Heap} {n : ℕ} {T T' : ℕ → Prop} (s1 : Safe h0 n T h1)
    (hT : ∀ a, a < h0.length → T' a → T a) {t : Thread α} {h : Heap}
    (ha : Along (Safe h1 n T') t h) : Along (Safe h0 n T) t h :=
  Along.mono (fun _ s2 => s1.trans s2 hT) t ha

theorem Safe.write {h0 h : Heap} {n : ℕ} {T : ℕ → Prop} (s : Safe h0 n T h) {r : ℕ} {o : Obj}
    (eo : h[r]? = some o) (hT : r < h0.length → T r) {k : String} (hk : ¬ IsPublic k) (v : Val) :
    Safe h0 n T (h.set r ⟨o.cls, o.attrs.set k v⟩) := by
  obtain ⟨g1, g2⟩ := goodHeap_write s.1 eo hk v
  exact ⟨g1, s.2.trans g2 (by rintro a ha rfl; exact hT ha)⟩

/-- The steps of a class outside the library. -/
theorem Along.localOn {h0 : Heap} {n : ℕ} {T : ℕ → Prop} {r : ℕ} (hT : r < h0.length → T r) (l : Local) :
    l.KeepsPublic → ∀ {h : Heap} {o : Obj}, Safe h0 n T h → h[r]? = some o →
      Along (Safe h0 n T) (l.on r) h := by
  induction l with
  | done x => exact fun _ _ _ s _ => s
  | step upd next ih =>
    intro hl h o s eo
    obtain ⟨h1, h2, h3⟩ := hl o.attrs
    obtain ⟨g1, g2⟩ := goodHeap_set s.1 eo h1 (h2 (s.1.1 r o eo).1)
    rw [Local.on]
    refine ⟨s, ?_⟩
    simp only [eo, modifyObj]
    exact ih o.attrs h3 ⟨g1, s.2.trans g2 (by rintro a ha rfl; exact hT ha)⟩
      (List.getElem?_set_self (lt_of_getElem? eo))

/-- Every step of `fit` of a clustering leaves such a heap. -/
def FitAlong (W : World) (n : ℕ) (fit : ℕ → List RealArray → Thread Unit) : Prop :=
  ∀ (r : ℕ) (X : List RealArray) {h : Heap}, GoodHeap h n → r < h.length → MapperReady W h r →
    Along (Safe h n (fun a => a = r ∨ Shared h r a)) (fit r X) h

/-! ### `FailSafeClustering` -/

theorem failSafe_bodyAlong {W : World} {fuel n r t : ℕ} {f : ℕ → List RealArray → Thread Unit}
    {g : ℕ → List RealArray → Eff Unit} (hfg : ∀ r X h, (f r X).run h = g r X h)
    {X : List RealArray} {h : Heap} {o : Obj}
    (hg : GoodHeap h n) (eo : h[r]? = some o) (hc : o.attrs.get? "_clustering" = some (.obj t))
    (hne : r ≠ t) (hne' : ¬ Shared h t r)
    (ih : GoodHeap (g t X h).2 n ∧
      Evolves h (g t X h).2 (fun a => a = t ∨ Shared h t a) ∧
      Outcome (g t X h).2 t (g t X h).1 (labelsOf W h fuel t X))
    (ih' : Along (Safe h n (fun a => a = t ∨ Shared h t a)) (f t X) h) :
    Along (Safe h n (fun a => a = r ∨ a = t ∨ Shared h t a))
      (Thread.tryValueError (Thread.atom (writeAttr r "labels_" (.labels (X.map fun _ => 0)))) (do
        let c ← Thread.atom (readAttr r "_clustering")
        let t ← Thread.atom (asObj c)
        f t X
        let lbls ← Thread.atom (readAttr t "labels_")
        Thread.atom (writeAttr r "labels_" lbls))) h := by
  obtain ⟨hg1, hev1, hout⟩ := ih
  obtain ⟨res, h1, hfit⟩ : ∃ res h1, g t X h = (res, h1) := ⟨_, _, rfl⟩
  rw [hfit] at hg1 hev1 hout
  simp only at hg1 hev1 hout
  have er : h1[r]? = some o := by
    rw [hev1.frame r (lt_of_getElem? eo) (fun hk => hk.elim hne hne'), eo]
  have s0 : Safe h n (fun a => a = r ∨ a = t ∨ Shared h t a) h := ⟨hg, Evolves.refl _ _⟩
  have s1 : Safe h n (fun a => a = r ∨ a = t ∨ Shared h t a) h1 :=
    ⟨hg1, hev1.weaken (fun _ _ h => Or.inr h)⟩
  have sw : ∀ v, Safe h n (fun a => a = r ∨ a = t ∨ Shared h t a) (writeAttr r "labels_" v h1).2 := by
    intro v
    rw [run_writeAttr er]
    exact s1.write er (fun _ => Or.inl rfl) private_labels v
  have hrd : ∀ h', (do
        let c ← Thread.atom (readAttr r "_clustering")
        let t ← Thread.atom (asObj c)
        f t X
        let lbls ← Thread.atom (readAttr t "labels_")
        Thread.atom (writeAttr r "labels_" lbls) : Thread Unit).run h = (.error .valueError, h') →
      h' = h1 := by
    intro h' e
    rw [Thread.run_bind, Thread.run_atom, run_readAttr_some eo hc] at e
    simp only at e
    rw [Thread.run_bind, Thread.run_atom, run_asObj] at e
    simp only at e
    rw [Thread.run_bind, hfg, hfit] at e
    rcases hout with ⟨e', rfl, _⟩ | ⟨rfl, ot, et, _⟩
    · simp only at e
      injection e with _ e
      exact e.symm
    · simp only at e
      rw [Thread.run_bind, Thread.run_atom, run_readAttr et] at e
      cases hl : ot.attrs.get? "labels_" with
      | none => rw [hl] at e; cases e
      | some v =>
        rw [hl] at e
        simp only at e
        rw [Thread.run_atom, run_writeAttr er] at e
        cases e
  refine Along.tryValueError _ ?_ ?_
  · refine Along.atom (run_readAttr_some eo hc) s0 ?_
    refine Along.atom (run_asObj t h) s0 ?_
    refine Along.bind _ (Along.safe s0 (fun _ _ h => Or.inr h) ih') ?_
    intro u h' e
    rw [hfg, hfit] at e
    injection e with e1 e2
    subst e2
    rcases hout with ⟨e', rfl, _⟩ | ⟨rfl, ot, et, _⟩
    · cases e1
    · cases hl : ot.attrs.get? "labels_" with
      | none => exact Along.atomError (by rw [run_readAttr et, hl]) s1 s1
      | some v => exact Along.atom (run_readAttr_some et hl) s1 (Along.lastAtom s1 (sw v))
  · intro h' e
    rw [hrd h' e]
    exact Along.lastAtom s1 (sw _)

theorem failSafe_along {W : World} {n fuel : ℕ} {f : ℕ → List RealArray → Thread Unit}
    {g : ℕ → List RealArray → Eff Unit} (hfg : ∀ r X h, (f r X).run h = g r X h)
    (ih : FitSpec W n fuel g) (ih' : FitAlong W n f) (r : ℕ) (X : List RealArray)
    {h : Heap} {o : Obj} (hg : GoodHeap h n) (eo : h[r]? = some o)
    (h1 : o.cls = "FailSafeClustering") (hm : MapperReady W h r) :
    Along (Safe h n (fun a => a = r ∨ Shared h r a)) (failSafeThread f r X) h := by
  have hlt := lt_of_getElem? eo
  have s0 : Safe h n (fun a => a = r ∨ Shared h r a) h := ⟨hg, Evolves.refl _ _⟩
  have hT : r < h.length → r = r ∨ Shared h r r := fun _ => Or.inl rfl
  unfold failSafeThread
  cases hc : o.attrs.get? "clustering" with
  | none => exact Along.atomError (by rw [run_readAttr eo, hc]) s0 s0
  | some c =>
    refine Along.atom (run_readAttr_some eo hc) s0 ?_
    obtain ⟨inner, h1', hor, hg1, hev1, hinner⟩ : ∃ inner h1',
        orTrivial "TrivialClustering" c h = (.ok inner, h1') ∧ GoodHeap h1' n ∧
        Evolves h h1' (fun _ => False) ∧
        ((c = .none ∧ inner = .obj h.length ∧ h1' = h ++ [⟨"TrivialClustering", PyDict.empty⟩]) ∨
          (c ≠ .none ∧ inner = c ∧ h1' = h)) := by
      cases c with
      | none =>
        obtain ⟨g1, g2⟩ := goodHeap_trivial hg "TrivialClustering"
        exact ⟨_, _, rfl, g1, g2, Or.inl ⟨rfl, rfl, rfl⟩⟩
      | _ => exact ⟨_, _, rfl, hg, Evolves.refl _ _, Or.inr ⟨by simp, rfl, rfl⟩⟩
    refine Along.atom hor s0 ?_
    have s1 : Safe h n (fun a => a = r ∨ Shared h r a) h1' :=
      ⟨hg1, hev1.weaken (fun _ _ h => h.elim)⟩
    have e1 : h1'[r]? = some o := by rw [hev1.frame r hlt (fun h => h), eo]
    have s2 := s1.write e1 hT private_clustering inner
    have e2 := List.getElem?_set_self (a := (⟨o.cls, o.attrs.set "_clustering" inner⟩ : Obj))
      (lt_of_getElem? e1)
    obtain ⟨_, hev2⟩ := goodHeap_write hg1 e1 private_clustering inner
    refine Along.atom (run_writeAttr e1 _ _) s1 ?_
    have hvb : (o.attrs.set "_clustering" inner).get? "verbose" = o.attrs.get? "verbose" := by
      rw [PyDict.get?_set, if_neg (by decide)]
    cases hv : o.attrs.get? "verbose" with
    | none => exact Along.atomError (by rw [run_readAttr e2, hvb, hv]) s2 s2
    | some vb =>
      refine Along.atom (run_readAttr_some e2 (hvb.trans hv)) s2 ?_
      refine Along.atom (run_writeAttr e2 _ _) s2 ?_
      have s3 := s2.write e2 hT private_verbose vb
      obtain ⟨_, hev3⟩ := goodHeap_write s2.1 e2 private_verbose vb
      have e3 := List.getElem?_set_self (a := (⟨o.cls, (o.attrs.set "_clustering" inner).set
        "_verbose" vb⟩ : Obj)) (lt_of_getElem? e2)
      simp only at s3 hev3 e3 ⊢
      obtain ⟨h3, eh3⟩ : ∃ h3, h3 = (h1'.set r ⟨o.cls, o.attrs.set "_clustering" inner⟩).set r
        ⟨o.cls, (o.attrs.set "_clustering" inner).set "_verbose" vb⟩ := ⟨_, rfl⟩
      rw [← eh3] at s3 hev3 e3 ⊢
      have hcl : ((o.attrs.set "_clustering" inner).set "_verbose" vb).get? "_clustering" =
          some inner := by
        rw [PyDict.get?_set, if_neg (by decide), PyDict.get?_set, if_pos rfl]
      by_cases hobj : ∃ t, inner = .obj t
      · obtain ⟨t, rfl⟩ := hobj
        have ht1 : t < h1'.length := by
          rcases hinner with ⟨_, h5, h6⟩ | ⟨_, h5, h6⟩
          · injection h5 with h5
            rw [h6, h5]; simp
          · subst h6
            exact hg.valid ⟨o, eo, by rw [hc, ← h5], public_clustering⟩
        have hle : h1'.length ≤ h3.length := by rw [eh3]; simp
        have hev13 : Evolves h1' h3 (fun a => a = r) := hev2.trans hev3 (fun a _ h => h)
        have hne : ∀ ks, ¬ Reaches h3 t ks r := by
          intro ks hk
          rw [hev13.reaches hg1 ht1] at hk
          rcases hinner with ⟨_, h5, h6⟩ | ⟨_, h5, h6⟩
          · injection h5 with h5
            subst h5
            cases hk with
            | nil => omega
            | cons hp _ =>
              obtain ⟨oo, eoo, hoo, _⟩ := hp
              rw [h6, List.getElem?_append_right (le_refl _)] at eoo
              simp at eoo
              subst eoo
              simp [PyDict.empty, PyDict.get?, PyDict.lookupList] at hoo
          · subst h6
            exact not_reaches_self hg ⟨o, eo, by rw [hc, ← h5], public_clustering⟩ hk
        have hm3 : MapperReady W h3 t := by
          refine MapperReady.evolves hg1 hev13 ht1 ?_
          rcases hinner with ⟨_, h5, h6⟩ | ⟨_, h5, h6⟩
          · injection h5 with h5
            subst h5
            exact mapperReady_trivial (cls := "TrivialClustering") (by rw [h6]; simp) (by decide)
          · subst h6
            exact hm.attr ⟨o, eo, by rw [hc, ← h5], public_clustering⟩
        have ht3 := lt_of_lt_of_le ht1 hle
        refine Along.safe s3 ?_ (failSafe_bodyAlong (fuel := fuel) hfg s3.1 e3 hcl
          (fun h => hne [] (h ▸ .nil _))
          (fun h => by obtain ⟨ks, _, hk⟩ := h.reaches; exact hne ks hk) (ih t X s3.1 ht3 hm3)
          (ih' t X s3.1 ht3 hm3))
        rintro a ha (rfl | hat)
        · exact Or.inl rfl
        · right
          rcases hinner with ⟨_, h5, h6⟩ | ⟨_, h5, h6⟩
          · exfalso
            injection h5 with h5
            subst h5
            have et : h3[h.length]? = some ⟨"TrivialClustering", PyDict.empty⟩ := by
              rw [hev13.frame _ ht1 (by omega), h6]; simp
            rcases hat with rfl | hat
            · omega
            · exact not_shared_trivial et (by decide) (by decide) hat
          · subst h6
            rcases hat with rfl | hat
            · exact .wrapped eo h1 (by rw [hc, ← h5])
            · exact .inWrapped eo h1 (by rw [hc, ← h5]) (hat.evolves hg hev13 ht1)
      · refine Along.tryValueError _ ?_ ?_
        · refine Along.atom (run_readAttr_some e3 hcl) s3 ?_
          refine Along.atomError (e := .attributeError) ?_ s3 s3
          cases inner with
          | obj t => exact absurd ⟨t, rfl⟩ hobj
          | _ => rfl
        · intro h' e
          exfalso
          rw [Thread.run_bind, Thread.run_atom, run_readAttr_some e3 hcl] at e
          simp only at e
          rw [Thread.run_bind, Thread.run_atom] at e
          cases inner with
          | obj t => exact absurd ⟨t, rfl⟩ hobj
          | _ => cases e

/-! ### The jobs -/

theorem not_sharedIn_self {h : Heap} {n : ℕ} (hg : GoodHeap h n) (r : ℕ) : ¬ SharedIn h (.obj r) r := by
  rintro ⟨r', hr', hs⟩
  injection hr' with hr'
  subst hr'
  obtain ⟨ks, hne, hk⟩ := hs.reaches
  cases hk with
  | nil => exact hne rfl
  | cons hp hk => exact not_reaches_self hg hp hk

theorem jobs_along {W : World} {n fuel : ℕ} (hf : n ≤ fuel) {f : ℕ → List RealArray → Thread Unit}
    (hfit : FitAlong W n f) (X : List RealArray) (r : ℕ) : ∀ (charts : List (List ℕ)) {h : Heap},
    GoodHeap h n → ∀ {o : Obj} {c : ClassInfo}, h[r]? = some o → ParamsByInit W.classes o c →
    MapperReady W h r →
    Along (Safe h n (fun a => SharedIn h (.obj r) a)) (jobsThread W fuel f X r charts) h := by
  intro charts
  induction charts with
  | nil =>
    intro h hg o c _ _ _
    exact ⟨hg, Evolves.refl _ _⟩
  | cons ids charts ih =>
    intro h hg o c eo hC hm
    have s0 : Safe h n (fun a => SharedIn h (.obj r) a) h := ⟨hg, Evolves.refl _ _⟩
    rw [jobsThread]
    refine Along.pure s0 fun xl _ => ?_
    obtain ⟨e1, hg1, hev1⟩ := run_cloneE hg hf eo hC
    refine Along.atom e1 s0 ?_
    obtain ⟨h1, eh1⟩ : ∃ h1, h1 = h ++ [(⟨o.cls, freshAttrs c o.attrs⟩ : Obj)] := ⟨_, rfl⟩
    rw [← eh1] at hg1 hev1 ⊢
    have en : h1[h.length]? = some ⟨o.cls, freshAttrs c o.attrs⟩ := by rw [eh1]; simp
    have s1 : Safe h n (fun a => SharedIn h (.obj r) a) h1 :=
      ⟨hg1, hev1.weaken (fun _ _ h => h.elim)⟩
    have a1 : Along (Safe h n (fun a => SharedIn h (.obj r) a)) (f h.length xl) h1 := by
      refine Along.safe s1 ?_ (hfit h.length xl hg1 (lt_of_getElem? en)
        (hm.copy hg hev1 eo en rfl (freshAttrs_public hC)))
      rintro a ha (rfl | hs)
      · exact absurd ha (lt_irrefl _)
      · exact ⟨r, rfl, hs.copy hg hev1 eo en rfl (freshAttrs_public hC)⟩
    refine Along.bind _ a1 ?_
    intro u h2 e
    have s2 := Along.last _ a1
    rw [e] at s2
    refine Along.look (readAttr_heap _ _ _) s2 fun v => ?_
    refine Along.look (asLabels_heap _ _) s2 fun lbls => ?_
    have er : h2[r]? = some o := by
      rw [s2.2.frame r (lt_of_getElem? eo) (not_sharedIn_self hg r), eo]
    have a2 := Along.safe s2 (T' := fun a => SharedIn h2 (.obj r) a) (by
      rintro a ha ⟨r', hr', hs⟩
      injection hr' with hr'
      subst hr'
      exact ⟨_, rfl, hs.evolves hg s2.2 (lt_of_getElem? eo)⟩)
      (ih s2.1 er hC (hm.evolves hg s2.2 (lt_of_getElem? eo)))
    refine Along.bind _ a2 ?_
    intro rest h3 e'
    have s3 := Along.last _ a2
    rw [e'] at s3
    exact s3

/-! ### `MapperClustering` and `MapperAlgorithm` -/

/-- The results in the heap are the previous ones; or the new one is there, and the number of
features is the previous or the new one. -/
def ResultsOk (h0 : Heap) (r : ℕ) (name : String) (expected : Py (Val × ℕ)) (h : Heap) : Prop :=
  (∀ k ∈ resultNames, attrAt h r k = attrAt h0 r k) ∨
    ∃ v m, expected = .ok (v, m) ∧ attrAt h r name = some v ∧
      (attrAt h r "n_features_in_" = attrAt h0 r "n_features_in_" ∨
        attrAt h r "n_features_in_" = some (.int m))

/-- The heap is safe and its results are as they may be. -/
def Stage (h0 : Heap) (n : ℕ) (T : ℕ → Prop) (r : ℕ) (name : String) (expected : Py (Val × ℕ))
    (h : Heap) : Prop := Safe h0 n T h ∧ ResultsOk h0 r name expected h

/-- Nothing has been written yet. -/
def Before (h0 : Heap) (n : ℕ) (T : ℕ → Prop) (r : ℕ) (h : Heap) : Prop :=
  Safe h0 n T h ∧ ∀ k ∈ resultNames, attrAt h r k = attrAt h0 r k

theorem Before.stage {h0 h : Heap} {n : ℕ} {T : ℕ → Prop} {r : ℕ} (hb : Before h0 n T r h)
    (name : String) (expected : Py (Val × ℕ)) : Stage h0 n T r name expected h :=
  ⟨hb.1, Or.inl hb.2⟩

theorem attrAt_some {h : Heap} {r : ℕ} {o : Obj} (e : h[r]? = some o) (k : String) :
    attrAt h r k = o.attrs.get? k := by
  simp [attrAt, e]

/-- The heap goes on, without the estimator. -/
theorem Before.trans {h0 h1 h2 : Heap} {n : ℕ} {T T' : ℕ → Prop} {r : ℕ} (hb : Before h0 n T r h1)
    (s : Safe h1 n T' h2) (hT : ∀ a, a < h0.length → T' a → T a) (hlt : r < h1.length)
    (hr : ¬ T' r) : Before h0 n T r h2 := by
  refine ⟨hb.1.trans s hT, fun k hk => ?_⟩
  rw [← hb.2 k hk, attrAt, attrAt, s.2.frame r hlt hr]

theorem Before.along {α : Type} {h0 h1 h : Heap} {n : ℕ} {T T' : ℕ → Prop} {r : ℕ}
    (hb : Before h0 n T r h1) (hT : ∀ a, a < h0.length → T' a → T a) (hlt : r < h1.length)
    (hr : ¬ T' r) {t : Thread α} (ha : Along (Safe h1 n T') t h) : Along (Before h0 n T r) t h :=
  Along.mono (fun _ s => hb.trans s hT hlt hr) t ha

/-- Writing the two results. -/
theorem along_writeResults {h0 h : Heap} {n : ℕ} {T : ℕ → Prop} {r : ℕ} (hb : Before h0 n T r h)
    (hT : T r) {o : Obj} (eo : h[r]? = some o) {name : String} (hp : ¬ IsPublic name)
    (hne : name ≠ "n_features_in_") {v : Val} {aX : RealArray} {m : ℕ}
    (hm : nFeatures aX = .ok m) {expected : Py (Val × ℕ)} (he : expected = .ok (v, m)) :
    Along (Stage h0 n T r name expected) (do
        Thread.atom (writeAttr r name v)
        let n ← Thread.done (nFeatures aX)
        Thread.atom (writeAttr r "n_features_in_" (.int n)) : Thread Unit) h := by
  have s1 := hb.1.write eo (fun _ => hT) hp v
  have e1 := List.getElem?_set_self (a := (⟨o.cls, o.attrs.set name v⟩ : Obj)) (lt_of_getElem? eo)
  have s2 := s1.write e1 (fun _ => hT) private_nFeatures (.int m)
  have e2 := List.getElem?_set_self (a := (⟨o.cls, (o.attrs.set name v).set "n_features_in_"
    (.int m)⟩ : Obj)) (lt_of_getElem? e1)
  have st1 : Stage h0 n T r name expected (h.set r ⟨o.cls, o.attrs.set name v⟩) := by
    refine ⟨s1, Or.inr ⟨v, m, he, ?_, Or.inl ?_⟩⟩
    · rw [attrAt_some e1, PyDict.get?_set, if_pos rfl]
    · rw [attrAt_some e1, PyDict.get?_set, if_neg (Ne.symm hne), ← attrAt_some eo]
      exact hb.2 _ (by simp [resultNames])
  refine Along.atom (run_writeAttr eo _ _) (hb.stage _ _) ?_
  refine Along.pure st1 fun m' hm' => ?_
  rw [hm] at hm'
  cases hm'
  refine Along.lastAtom st1 ?_
  rw [run_writeAttr e1]
  refine ⟨s2, Or.inr ⟨v, m, he, ?_, Or.inr ?_⟩⟩
  · rw [attrAt_some e2, PyDict.get?_set, if_neg hne, PyDict.get?_set, if_pos rfl]
  · rw [attrAt_some e2, PyDict.get?_set, if_pos rfl]

/-- `mapper_labels`, and what comes after. -/
theorem Along.labels {W : World} (hW : Contract W) {n fuel : ℕ} (hf : n ≤ fuel)
    {f : ℕ → List RealArray → Thread Unit} {g : ℕ → List RealArray → Eff Unit}
    (hfg : ∀ r X h, (f r X).run h = g r X h) (hfit : FitAlong W n f)
    {h0 h : Heap} {T : ℕ → Prop} {r : ℕ} {name : String} {expected : Py (Val × ℕ)}
    (hb : Before h0 n T r h) (hlt : r < h.length) (X y : List RealArray) {tc tk : ℕ} {oc ok : Obj}
    {c : ClassInfo} (ec : h[tc]? = some oc) (ek : h[tk]? = some ok) (hne : tc ≠ tk)
    (hC : ParamsByInit W.classes ok c) (hm : MapperReady W h tk) (hr : r ≠ tc)
    (hr' : ¬ SharedIn h (.obj tk) r)
    (hT : ∀ a, a < h0.length → a = tc ∨ SharedIn h (.obj tk) a → T a)
    {k : List (List ℤ) → Thread Unit}
    (hk : ∀ itm h', mapperLabelsE W fuel g X y tc tk h = (.ok itm, h') → Before h0 n T r h' →
      h'[r]? = h[r]? → Along (Stage h0 n T r name expected) (k itm) h') :
    Along (Stage h0 n T r name expected) (do
      let charts ← Thread.atom (applyCover W tc y)
      let runs ← jobsThread W fuel f X tk charts
      let itm ← Thread.done (labelCharts runs 0 (X.map fun _ => []))
      k itm) h := by
  obtain ⟨h1, e1, s1⟩ : ∃ h1, applyCover W tc y h =
      ((if oc.cls = "TrivialCover" then trivialCover y else (W.apply oc.cls oc.attrs y).2), h1) ∧
      Safe h n (fun a => a = tc) h1 := by
    rw [run_applyCover W ec]
    split
    · exact ⟨h, rfl, hb.1.1, Evolves.refl _ _⟩
    · obtain ⟨g1, g2⟩ := goodHeap_set hb.1.1 ec (hW.apply_public oc.cls oc.attrs y)
        (hW.apply_nodup oc.cls oc.attrs y (hb.1.1.1 tc oc ec).1)
      exact ⟨_, rfl, g1, g2⟩
  have hb1 : Before h0 n T r h1 := hb.trans s1 (fun a ha h => hT a ha (Or.inl h)) hlt hr
  cases hch : (if oc.cls = "TrivialCover" then trivialCover y
      else (W.apply oc.cls oc.attrs y).2) with
  | error e => exact Along.atomError (e1.trans (by rw [hch])) (hb.stage _ _) (hb1.stage _ _)
  | ok charts =>
    rw [hch] at e1
    refine Along.atom e1 (hb.stage _ _) ?_
    have ek1 : h1[tk]? = some ok := by
      rw [s1.2.frame tk (lt_of_getElem? ek) (Ne.symm hne), ek]
    have hlt1 : r < h1.length := lt_of_lt_of_le hlt s1.2.grow
    have back : ∀ a, SharedIn h1 (.obj tk) a → SharedIn h (.obj tk) a := by
      rintro a ⟨r', hr1, hs⟩
      injection hr1 with hr1
      subst hr1
      exact ⟨_, rfl, hs.evolves hb.1.1 s1.2 (lt_of_getElem? ek)⟩
    have a2 := jobs_along hf hfit X tk charts s1.1 ek1 hC (hm.evolves hb.1.1 s1.2 (lt_of_getElem? ek))
    refine Along.bind _ (Along.mono (fun _ h => h.stage name expected) _
      (hb1.along (fun a ha h => hT a ha (Or.inr (back a h))) hlt1 (fun h => hr' (back r h)) a2)) ?_
    intro runs h2 e2
    have s2 := Along.last _ a2
    rw [e2] at s2
    have hb2 := hb1.trans s2 (fun a ha h => hT a ha (Or.inr (back a h))) hlt1
      (fun h => hr' (back r h))
    refine Along.pure (hb2.stage _ _) fun itm hitm => ?_
    refine hk itm h2 ?_ hb2 ?_
    · rw [run_jobsThread W fuel hfg] at e2
      rw [mapperLabelsE, run_bind, e1]
      simp only
      rw [run_bind, e2]
      simp only
      rw [run_lift, hitm]
    · rw [s2.2.frame r hlt1 (fun h => hr' (back r h)), s1.2.frame r hlt hr]

theorem run_orTrivialClone_along {W : World} {n fuel : ℕ} (hf : n ≤ fuel) {h0 h : Heap}
    {T : ℕ → Prop} {r : ℕ} {name : String} {expected : Py (Val × ℕ)} (hb : Before h0 n T r h)
    (hlt : r < h.length) {cls : String} (hcls : cls = "TrivialCover" ∨ cls = "TrivialClustering") {v : Val}
    (hcl : Cloneable W h v) {k : ℕ → Thread Unit}
    (hk : ∀ h' t ot, Before h0 n T r h' → Evolves h h' (fun _ => False) → h.length ≤ t →
      h'[t]? = some ot → CopyOf W h cls v ot → (do
        let v ← orTrivial cls v
        cloneVal W fuel v : Eff ℕ) h = (.ok t, h') →
      Along (Stage h0 n T r name expected) (k t) h') :
    Along (Stage h0 n T r name expected) (do
      let v ← Thread.atom (orTrivial cls v)
      let t ← Thread.atom (cloneVal W fuel v)
      k t) h := by
  rcases hcl with rfl | ⟨rc, oc, c, rfl, eoc, hC⟩
  · obtain ⟨hg1, hev1⟩ := goodHeap_trivial hb.1.1 cls
    have e1 : (h ++ [(⟨cls, PyDict.empty⟩ : Obj)])[h.length]? = some ⟨cls, PyDict.empty⟩ := by simp
    obtain ⟨ecl, hg2, hev2⟩ := run_cloneE hg1 hf e1 (W := W)
      (c := ⟨if cls = "TrivialCover" then "apply" :: commonMembers else commonMembers, PyDict.empty⟩)
      ⟨by rcases hcls with rfl | rfl <;> rw [World.classes] <;> rfl,
        by simp [PyDict.keys, PyDict.empty], fun _ _ => Iff.rfl⟩
    have eor : orTrivial cls .none h = (.ok (.obj h.length), h ++ [⟨cls, PyDict.empty⟩]) := rfl
    have hb1 : Before h0 n T r (h ++ [⟨cls, PyDict.empty⟩]) :=
      hb.trans ⟨hg1, hev1⟩ (fun _ _ h => h.elim) hlt (fun h => h)
    have hb2 := hb1.trans ⟨hg2, hev2⟩ (fun _ _ h => h.elim) (by simp; omega) (fun h => h)
    refine Along.atom eor (hb.stage _ _) (Along.atom ecl (hb1.stage _ _) ?_)
    refine hk _ _ ⟨cls, PyDict.empty⟩ hb2 (hev1.trans hev2 (fun _ _ h => h)) (by simp) ?_
      (Or.inl ⟨rfl, rfl⟩) ?_
    · rw [List.getElem?_append_right (le_refl _)]
      simp [freshAttrs, PyDict.empty]
    · rw [run_bind, eor]
      exact ecl
  · obtain ⟨ecl, hg2, hev2⟩ := run_cloneE hb.1.1 hf eoc hC
    have eor : orTrivial cls (.obj rc) h = (.ok (.obj rc), h) := rfl
    have hb2 := hb.trans ⟨hg2, hev2⟩ (fun _ _ h => h.elim) hlt (fun h => h)
    refine Along.atom eor (hb.stage _ _) (Along.atom ecl (hb.stage _ _) ?_)
    refine hk _ _ _ hb2 hev2 (le_refl _) ?_ (Or.inr ⟨rc, oc, c, rfl, eoc, hC, rfl⟩) ?_
    · rw [List.getElem?_append_right (le_refl _)]
      simp
    · rw [run_bind, eor]
      exact ecl

theorem clustering_along {W : World} (hW : Contract W) {n fuel depth : ℕ} (hf : n ≤ fuel)
    {f : ℕ → List RealArray → Thread Unit} {g : ℕ → List RealArray → Eff Unit}
    (hfg : ∀ r X h, (f r X).run h = g r X h) (hfit : FitAlong W n f) (hspec : FitSpec W n depth g)
    {h : Heap} (hg : GoodHeap h n) {r : ℕ} {o : Obj} (eo : h[r]? = some o) {vc vk vj : Val}
    (hvc : o.attrs.get? "cover" = some vc) (hvk : o.attrs.get? "clustering" = some vk)
    (hvj : o.attrs.get? "n_jobs" = some vj) (hcc : Cloneable W h vc) (hck : CloneableClust W h vk)
    (X : Input) (y : Option Input) :
    Along (Stage h n (fun b => b = r ∨ SharedIn h vk b) r "labels_"
        ((expectedLabels W h depth vc vk X y).map fun p => (.labels p.1, p.2)))
      (mapperClusteringSteps W fuel f r X y) h := by
  have hself : ¬ SharedIn h vk r := by
    rintro ⟨rk, rfl, hs⟩
    obtain ⟨ks, _, hre⟩ := hs.reaches
    exact not_reaches_self hg ⟨o, eo, hvk, public_clustering⟩ hre
  have hlt := lt_of_getElem? eo
  have hb0 : Before h n (fun b => b = r ∨ SharedIn h vk b) r h :=
    ⟨⟨hg, Evolves.refl _ _⟩, fun _ _ => rfl⟩
  obtain ⟨exp, hexp⟩ : ∃ exp, exp = (expectedLabels W h depth vc vk X y).map fun p =>
    ((.labels p.1 : Val), p.2) := ⟨_, rfl⟩
  rw [← hexp]
  rw [expectedLabels, mapperClusteringResult] at hexp
  unfold mapperClusteringSteps
  refine Along.pure (hb0.stage _ _) ?_
  rintro ⟨aX, ay⟩ hval
  rw [hval] at hexp
  simp only [ok_bind] at hexp
  refine Along.atom (run_readAttr_some eo hvc) (hb0.stage _ _) ?_
  refine run_orTrivialClone_along hf hb0 hlt (Or.inl rfl) hcc ?_
  intro h1 tc oc hb1 hev1 hle1 etc1 hcopy1 _
  have e1 : h1[r]? = some o := by rw [hev1.frame r hlt (fun h => h), eo]
  refine Along.atom (run_readAttr_some e1 hvk) (hb1.stage _ _) ?_
  have hsame1 : ∀ rk, vk = .obj rk → h1[rk]? = h[rk]? := by
    rintro rk rfl
    exact hev1.frame rk (hg.valid ⟨o, eo, hvk, public_clustering⟩) (fun h => h)
  have hlt1 := lt_of_getElem? e1
  refine run_orTrivialClone_along hf hb1 hlt1 (Or.inr rfl) (hck.1.transfer hsame1) ?_
  intro h2 tk ok hb2 hev2 hle2 etk2 hcopy2 _
  replace hcopy2 := hcopy2.transfer hsame1
  obtain ⟨c, hC⟩ := hcopy2.byInit (Or.inr rfl)
  have hltc := lt_of_getElem? etc1
  have etc2 : h2[tc]? = some oc := by rw [hev2.frame tc hltc (fun h => h), etc1]
  have e2 : h2[r]? = some o := by rw [hev2.frame r hlt1 (fun h => h), e1]
  have hev02 : Evolves h h2 (fun _ => False) := hev1.trans hev2 (fun _ _ h => h)
  refine Along.atom (run_readAttr_some e2 hvj) (hb2.stage _ _) ?_
  refine Along.pure (hb2.stage _ _) fun rX hrX => ?_
  rw [hrX] at hexp
  refine Along.pure (hb2.stage _ _) fun ry hry => ?_
  rw [hry] at hexp
  simp only [ok_bind] at hexp
  have hnest : ∀ b, SharedIn h2 (.obj tk) b → SharedIn h vk b := by
    rintro b ⟨t', ht', hs⟩
    injection ht' with ht'
    subst ht'
    exact hcopy2.shared hg hev02 etk2 hs
  have hready := hcopy2.ready hg hev02 etk2 hck.2
  refine Along.labels hW hf hfg hfit hb2 (lt_of_getElem? e2) rX ry etc2 etk2 (by omega) hC hready
    (by omega) (fun h => hself (hnest r h)) ?_ ?_
  · rintro a ha (h4 | h4)
    · omega
    · exact Or.inr (hnest a h4)
  intro itm h3 erun hb3 hr3
  obtain ⟨h3', run3, _, _⟩ := run_mapperLabelsE hW hf hspec rX ry hb2.1.1 etc2 etk2 (by omega) hC hready
  rw [CopyOf.charts hcopy1, CopyOf.labels hW hg hev02 hcopy2 etk2, erun] at run3
  injection run3 with run3 _
  rw [components_eq, ← run3] at hexp
  simp only [ok_bind] at hexp
  refine Along.pure (hb3.stage _ _) fun l hG => ?_
  rw [hG] at hexp
  simp only [ok_bind] at hexp
  have hlen : rX.length = l.length := by
    rw [componentsOfLabels_length hG, mapperLabels_length run3.symm]
  refine Along.pure (hb3.stage _ _) fun l' hl' => ?_
  rw [hlen, gather_range] at hl'
  injection hl' with hl'
  subst hl'
  obtain ⟨m, hm⟩ := nFeatures_ok hval hrX
  rw [hm] at hexp
  exact along_writeResults hb3 (Or.inl rfl) (hr3.trans e2) private_labels (by decide) hm hexp

/-- Every step of `fit` of every clustering. -/
theorem fit_along {W : World} (hW : Contract W) {S : FitSteps} (hS : Implements W S) {n fuel : ℕ}
    (hf : n ≤ fuel) : ∀ depth, FitAlong W n (fitThread W S fuel depth) := by
  have leaf : ∀ depth r X h o, GoodHeap h n → h[r]? = some o → o.cls ≠ "FailSafeClustering" →
      o.cls ≠ "MapperClustering" →
      Along (Safe h n (fun a => a = r ∨ Shared h r a)) (fitThread W S fuel depth r X) h := by
    intro depth r X h o hg eo h1 h3
    have s0 : Safe h n (fun a => a = r ∨ Shared h r a) h := ⟨hg, Evolves.refl _ _⟩
    unfold fitThread
    refine Along.atom (run_readObj eo) s0 ?_
    simp only [if_neg h1, if_neg h3]
    split
    · refine Along.lastAtom s0 ?_
      rw [trivialFit, run_writeAttr eo]
      exact s0.write eo (fun _ => Or.inl rfl) private_labels _
    · exact Along.localOn (fun _ => Or.inl rfl) _ (hS o.cls X).1 s0 eo
  intro depth
  induction depth with
  | zero =>
    intro r X h hg hlt _
    obtain ⟨o, eo⟩ : ∃ o, h[r]? = some o := ⟨_, List.getElem?_eq_getElem hlt⟩
    have s0 : Safe h n (fun a => a = r ∨ Shared h r a) h := ⟨hg, Evolves.refl _ _⟩
    by_cases h1 : o.cls = "FailSafeClustering"
    · unfold fitThread
      refine Along.atom (run_readObj eo) s0 ?_
      simp only [if_pos h1]
      exact s0
    · by_cases h3 : o.cls = "MapperClustering"
      · unfold fitThread
        refine Along.atom (run_readObj eo) s0 ?_
        simp only [if_neg h1, if_pos h3]
        exact s0
      · exact leaf 0 r X h o hg eo h1 h3
  | succ depth ih =>
    intro r X h hg hlt hm
    obtain ⟨o, eo⟩ : ∃ o, h[r]? = some o := ⟨_, List.getElem?_eq_getElem hlt⟩
    have s0 : Safe h n (fun a => a = r ∨ Shared h r a) h := ⟨hg, Evolves.refl _ _⟩
    have hfg := run_fitThread hS fuel depth
    have hspec := fitObj_spec hW hf (fuel := fuel) depth
    by_cases h1 : o.cls = "FailSafeClustering"
    · unfold fitThread
      refine Along.atom (run_readObj eo) s0 ?_
      simp only [if_pos h1]
      exact failSafe_along hfg hspec ih r X hg eo h1 hm
    · by_cases h3 : o.cls = "MapperClustering"
      · unfold fitThread
        refine Along.atom (run_readObj eo) s0 ?_
        simp only [if_neg h1, if_pos h3]
        obtain ⟨vc, vk, vj, hvc, hvk, hvj, hcc, hck⟩ := hm [] r o (.nil _) eo h3
        refine Along.safe s0 ?_ (Along.mono (fun _ h => h.1) _
          (clustering_along hW hf hfg ih hspec hg eo hvc hvk hvj hcc ⟨hck, fun rk hrk => by
            subst hrk
            exact hm.attr ⟨o, eo, hvk, public_clustering⟩⟩ (stackRows X) none))
        rintro a _ (rfl | ⟨rk, rfl, hs⟩)
        · exact Or.inl rfl
        · exact Or.inr (.inMapper eo h3 hvk hs)
      · exact leaf _ r X h o hg eo h1 h3

end Verif
