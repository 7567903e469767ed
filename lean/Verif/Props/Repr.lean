import Verif.Proof.Repr
import Verif.Props.Params

/-!
# C69: the text of an estimator

`WellNamed`, `Ranked` and `ParamsByInit` are in `Verif.Spec.Objects`. The fuel is the
recursion limit of the interpreter.
-/

set_option autoImplicit false

namespace Verif

/-- **C69 (no exception).** `repr(obj)` succeeds for every estimator whose public
attributes are those assigned by its constructor, and so on for nested estimators. -/
theorem C69_succeeds (C : Classes) (R : Reprs) {h : Heap} (hw : WellNamed h) {rank : ℕ → ℕ}
    (hr : Ranked h rank) (hc : Constructible C h) : ∀ (fuel r : ℕ), r < h.length → rank r + 1 < fuel →
    ∃ s, reprVal C R h fuel (.obj r) = .ok s
  | 0, r, _, hf => absurd hf (by omega)
  | fuel + 1, r, hlt, hf => by
    have eo : h[r]? = some h[r] := List.getElem?_eq_getElem hlt
    obtain ⟨c, hC, hd⟩ := hc r _ eo
    obtain ⟨n, rfl⟩ : ∃ n, fuel = n + 1 := ⟨fuel - 1, by omega⟩
    obtain ⟨out, ho⟩ := reprArgs_ok (R := R) (rep := reprVal C R h (n + 1)) (cls := h[r].cls) (c := c)
      h[r].attrs.items (by
        intro k v hm hk
        have hget := PyDict.get?_eq_some_of_mem (hw r _ eo).1 hm
        refine ⟨?_, ?_⟩
        · by_cases hv : ∃ r', v = .obj r'
          · obtain ⟨r', rfl⟩ := hv
            obtain ⟨h1, h2⟩ := hr r k r' ⟨_, eo, hget, hk⟩
            exact C69_succeeds C R hw hr hc (n + 1) r' h1 (by omega)
          · exact ⟨_, reprVal_plain (fun r' e => hv ⟨r', e⟩)⟩
        · have hmem : k ∈ c.init.keys :=
            (hC.2.2 k hk).mp (List.mem_map_of_mem (f := Prod.fst) hm)
          obtain ⟨v', hv'⟩ := Option.isSome_iff_exists.mp ((PyDict.isSome_get? _ _).mpr hmem)
          refine ⟨R.atom v', ?_⟩
          rw [reprDefault, hv']
          exact reprVal_plain (hd k v' hv'))
    exact ⟨_, reprVal_obj eo hC.1 ho⟩

/-- **C69 (contents).** The text is a call of the class; its keyword arguments are, in the
order of the attributes and without repetition, exactly the public attributes whose text
differs from the text of the default value, each with its own text. -/
theorem C69_contents (C : Classes) (R : Reprs) {h : Heap} (hw : WellNamed h) {r : ℕ} {o : Obj}
    (eo : h[r]? = some o) {c : ClassInfo} (hC : ParamsByInit C o c) (fuel : ℕ) (s : String)
    (hs : reprVal C R h (fuel + 1) (.obj r) = .ok s) :
    ∃ args : List (String × String), s = callText o.cls args ∧
      (args.map Prod.fst).Sublist o.attrs.keys ∧ (args.map Prod.fst).Nodup ∧
      ∀ k t, (k, t) ∈ args ↔ ∃ v d td, PublicAttr h r k v ∧ c.init.get? k = some d ∧
        reprVal C R h fuel v = .ok t ∧ reprVal C R h fuel d = .ok td ∧ t ≠ td := by
  rw [reprVal, deref_ok eo, ok_bind, hC.1] at hs
  obtain ⟨out, ho, hs⟩ := bind_eq_ok.mp hs
  obtain ⟨args, e1, e2, e3⟩ := reprArgs_eq _ _ ho (hw r o eo).1
  rw [pure_eq_ok, Except.ok.injEq] at hs
  refine ⟨args, by rw [← hs, e1]; rfl, e2, e2.nodup (hw r o eo).1, ?_⟩
  intro k t
  rw [e3]
  constructor
  · rintro ⟨v, td, hm, hk, ht, hd, hne⟩
    have hmem : k ∈ c.init.keys :=
      (hC.2.2 k hk).mp (List.mem_map_of_mem (f := Prod.fst) hm)
    obtain ⟨d, hv'⟩ := Option.isSome_iff_exists.mp ((PyDict.isSome_get? _ _).mpr hmem)
    rw [reprDefault, hv'] at hd
    exact ⟨v, d, td, ⟨o, eo, PyDict.get?_eq_some_of_mem (hw r o eo).1 hm, hk⟩, hv', ht, hd, hne⟩
  · rintro ⟨v, d, td, ⟨o', eo', hget, hk⟩, hd, ht, htd, hne⟩
    rw [eo] at eo'
    cases eo'
    refine ⟨v, td, PyDict.mem_of_get?_eq_some hget, hk, ht, ?_, hne⟩
    rw [reprDefault, hd]
    exact htd

/-- **C69 (defaults).** An estimator built without arguments is shown as `Class()`. -/
theorem C69_default (C : Classes) (R : Reprs) {h : Heap} (hw : WellNamed h) {r : ℕ} {o : Obj}
    (eo : h[r]? = some o) {c : ClassInfo} (hC : ParamsByInit C o c)
    (hnew : ∀ k v, PublicAttr h r k v → c.init.get? k = some v) (fuel : ℕ) (s : String)
    (hs : reprVal C R h fuel (.obj r) = .ok s) : s = o.cls ++ "()" := by
  cases fuel with
  | zero => exact absurd hs (by simp [reprVal])
  | succ fuel =>
    obtain ⟨args, e1, -, -, e2⟩ := C69_contents C R hw eo hC fuel s hs
    have : args = [] := by
      rw [List.eq_nil_iff_forall_not_mem]
      rintro ⟨k, t⟩ hm
      obtain ⟨v, d, td, hv, hd, ht, htd, hne⟩ := (e2 k t).mp hm
      rw [hnew k v hv] at hd
      cases hd
      rw [ht] at htd
      cases htd
      exact hne rfl
    rw [e1, this]
    simp [callText, String.append_assoc]

/-- **C69 (clones).** A clone has the same text as the estimator it was made from, if the
public attributes of that one are in the order in which its constructor assigns them. -/
theorem C69_clone (C : Classes) (R : Reprs) {h : Heap} (hw : WellNamed h) {rank : ℕ → ℕ}
    (hr : Ranked h rank) (hc : Constructible C h) {r : ℕ} {o : Obj} (eo : h[r]? = some o)
    {c : ClassInfo} (hC : ParamsByInit C o c)
    (hord : o.attrs.keys.filter isParamPublic = c.init.keys.filter isParamPublic)
    (fuel : ℕ) (hf : rank r < fuel) :
    ∃ h' new, clone C fuel h r = .ok (h', new) ∧ new ≠ r ∧
      ∀ n, reprVal C R h' n (.obj new) = reprVal C R h n (.obj r) := by
  obtain ⟨o', e, hcls, hkeys, hpub, hpriv⟩ := clone_ok hw hr eo hC hf
  have hlt := lt_of_getElem? eo
  refine ⟨_, _, e, by omega, ?_⟩
  intro n
  cases n with
  | zero => rfl
  | succ n =>
    have eo' : (h ++ [o'])[h.length]? = some o' := by simp
    obtain ⟨c', hC', hd⟩ := hc r o eo
    have : c' = c := Option.some.inj (hC'.1.symm.trans hC.1)
    subst this
    have hpl : ∀ v, IsPlain v → reprVal C R (h ++ [o']) n v = reprVal C R h n v := by
      intro v hv
      cases n with
      | zero => rfl
      | succ n => rw [reprVal_plain hv, reprVal_plain hv]
    rw [reprVal, reprVal, deref_ok eo, deref_ok eo', ok_bind, ok_bind, hcls, hC.1]
    dsimp only
    rw [reprArgs_congr (rep := reprVal C R (h ++ [o']) n) (rep' := reprVal C R h n) o'.attrs.items
      o.attrs.items]
    · refine filter_items_eq (by rw [hkeys]; exact hC.2.1) (hw r o eo).1 (by rw [hkeys, hord]) hpub
    · intro k v hm hk
      by_cases hv : ∃ r', v = .obj r'
      · obtain ⟨r', rfl⟩ := hv
        have hget := PyDict.get?_eq_some_of_mem (d := o'.attrs) (by rw [hkeys]; exact hC.2.1) hm
        rw [hpub k hk] at hget
        exact reprVal_append hr hw hc o' n r' (hr r k r' ⟨_, eo, hget, hk⟩).1
      · exact hpl v (fun r' e => hv ⟨r', e⟩)
    · intro k v hv
      exact hpl v (hd k v hv)

/-- **C69 (violation: other attributes).** An estimator with a public attribute that its
constructor does not assign has no text: `repr` raises `AttributeError`. -/
theorem C69_other_attribute_violation (C : Classes) (R : Reprs) {h : Heap} {r : ℕ} {o : Obj}
    (eo : h[r]? = some o) {c : ClassInfo} (hC : C o.cls = some c) {k : String} {v : Val}
    (hget : o.attrs.get? k = some v) (hk : IsPublic k) (h1 : c.init.get? k = none)
    (h2 : k ∉ c.members) (fuel : ℕ) : ∀ s, reprVal C R h (fuel + 1) (.obj r) ≠ .ok s := by
  intro s hs
  rw [reprVal, deref_ok eo, ok_bind, hC] at hs
  obtain ⟨out, ho, _⟩ := bind_eq_ok.mp hs
  have key : ∀ (items : List (String × Val)) out, (k, v) ∈ items →
      reprArgs R (reprVal C R h fuel) o.cls c items = .ok out → False := by
    intro items
    induction items with
    | nil => intro out hm; cases hm
    | cons p items ih =>
      obtain ⟨k', v'⟩ := p
      intro out hm ho
      unfold reprArgs at ho
      by_cases hp : isParamPublic k' = true
      · simp only [hp, Bool.not_true, Bool.false_eq_true, if_false] at ho
        obtain ⟨d, hd, ho⟩ := bind_eq_ok.mp ho
        obtain ⟨t, ht, ho⟩ := bind_eq_ok.mp ho
        obtain ⟨out', ho', _⟩ := bind_eq_ok.mp ho
        rcases List.mem_cons.mp hm with hm | hm
        · cases hm
          rw [reprDefault, h1] at hd
          simp only [h2, if_false, reduceCtorEq] at hd
        · exact ih out' hm ho'
      · have hp' : isParamPublic k' = false := by simpa using hp
        simp only [hp', Bool.not_false, if_true] at ho
        rcases List.mem_cons.mp hm with hm | hm
        · cases hm
          exact hp ((isParamPublic_iff _).mpr hk)
        · exact ih out hm ho
  exact key _ _ (PyDict.mem_of_get?_eq_some hget) ho

/-- **C69 (violation: the exception).** If the text of every public value and default exists, `repr`
of an estimator with a public attribute that its constructor does not assign raises
`AttributeError`. -/
theorem C69_attribute_error (C : Classes) (R : Reprs) {h : Heap} {r : ℕ} {o : Obj}
    (eo : h[r]? = some o) {c : ClassInfo} (hC : C o.cls = some c) {k : String} {v : Val}
    (hget : o.attrs.get? k = some v) (hk : IsPublic k) (h1 : c.init.get? k = none)
    (h2 : k ∉ c.members) (fuel : ℕ)
    (hv : ∀ k' v', (k', v') ∈ o.attrs.items → IsPublic k' → ∃ s, reprVal C R h fuel v' = .ok s)
    (hd : ∀ k' v', c.init.get? k' = some v' → ∃ s, reprVal C R h fuel v' = .ok s) :
    reprVal C R h (fuel + 1) (.obj r) = .error .attributeError := by
  have key : ∀ items : List (String × Val), (k, v) ∈ items →
      (∀ k' v', (k', v') ∈ items → IsPublic k' → ∃ s, reprVal C R h fuel v' = .ok s) →
      reprArgs R (reprVal C R h fuel) o.cls c items = .error .attributeError := by
    intro items
    induction items with
    | nil => intro hm; cases hm
    | cons p items ih =>
      obtain ⟨k', v'⟩ := p
      intro hm hv
      have ih' := fun h => ih h fun k'' v'' h'' => hv k'' v'' (List.mem_cons_of_mem _ h'')
      unfold reprArgs
      by_cases hp : isParamPublic k' = true
      · simp only [hp, Bool.not_true, Bool.false_eq_true, if_false]
        obtain ⟨s', hs'⟩ := hv k' v' List.mem_cons_self ((isParamPublic_iff _).mp hp)
        have hdef : (∃ t, reprDefault R (reprVal C R h fuel) o.cls c k' = .ok t) ∨
            reprDefault R (reprVal C R h fuel) o.cls c k' = .error .attributeError := by
          unfold reprDefault
          cases hi : c.init.get? k' with
          | some d => exact .inl (hd k' d hi)
          | none =>
            by_cases hm' : k' ∈ c.members
            · exact .inl ⟨R.method o.cls k', by simp only [hm', if_true]⟩
            · exact .inr (by simp only [hm', if_false])
        rcases hdef with ⟨t, ht⟩ | he
        · rw [ht, ok_bind, hs', ok_bind]
          rcases List.mem_cons.mp hm with hm | hm
          · cases hm
            rw [reprDefault, h1] at ht
            simp only [h2, if_false, reduceCtorEq] at ht
          · rw [ih' hm]; rfl
        · rw [he]; rfl
      · have hp' : isParamPublic k' = false := by simpa using hp
        simp only [hp', Bool.not_false, if_true]
        rcases List.mem_cons.mp hm with hm | hm
        · cases hm
          exact absurd ((isParamPublic_iff _).mpr hk) hp
        · exact ih' hm
  rw [reprVal, deref_ok eo, ok_bind, hC]
  simp only
  rw [key _ (PyDict.mem_of_get?_eq_some hget) hv]
  rfl

/-! ### A concrete case -/

/-- Texts of plain values. -/
def exReprs : Reprs where
  atom v := match v with
    | .none => "None"
    | .bool true => "True"
    | .bool false => "False"
    | .int n => toString n
    | _ => "?"
  method _ _ := "<function>"

theorem exHeap_constructible : Constructible exClasses exHeap := by
  intro r o e
  match r, e with
  | 0, e =>
    cases e
    refine ⟨_, ⟨rfl, by decide +kernel, ?_⟩, ?_⟩
    · intro k hk
      simp only [exInner, PyDict.keys, List.map_cons, List.map_nil, List.mem_cons, List.not_mem_nil]
      constructor
      · rintro (rfl | rfl | h)
        · simp
        · exact absurd hk (by decide +kernel)
        · exact h.elim
      · rintro (rfl | h) <;> simp_all
    · intro k v hv r'
      have := PyDict.mem_of_get?_eq_some hv
      simp at this
      rw [this.2]; simp
  | 1, e =>
    cases e
    refine ⟨_, exHeap_init, ?_⟩
    intro k v hv r'
    have := PyDict.mem_of_get?_eq_some hv
    simp at this
    rcases this with ⟨-, rfl⟩ | ⟨-, rfl⟩ <;> simp
  | r + 2, e => simp [exHeap] at e

/-- The text of the nested estimator shows only the changed parameters. -/
example : reprVal exClasses exReprs exHeap 10 (.obj 1) =
    .ok "FailSafeClustering(clustering=KMeans(n_clusters=3), verbose=False)" := by decide +kernel

/-- The hypotheses of C69 are met: the text exists and the clone has the same one. -/
example : (∃ s, reprVal exClasses exReprs exHeap 10 (.obj 1) = .ok s) ∧
    ∃ h' new, clone exClasses 10 exHeap 1 = .ok (h', new) ∧ new ≠ 1 ∧
      ∀ n, reprVal exClasses exReprs h' n (.obj new) = reprVal exClasses exReprs exHeap n (.obj 1) :=
  ⟨C69_succeeds exClasses exReprs exHeap_named exHeap_ranked exHeap_constructible 10 1 (by decide)
    (by decide),
   C69_clone exClasses exReprs exHeap_named exHeap_ranked exHeap_constructible rfl exHeap_init
    (by decide +kernel) 10 (by decide)⟩

/-- A public attribute added by hand, as in `est.note = 1`: no text. -/
example : ∀ s, reprVal exClasses exReprs [⟨"KMeans", ⟨[("n_clusters", .int 8), ("note", .int 1)]⟩⟩] 5
    (.obj 0) ≠ .ok s :=
  C69_other_attribute_violation exClasses exReprs rfl rfl (k := "note") (v := .int 1) rfl
    (by decide +kernel) rfl (by decide +kernel) 4

/-- The same, with the exception. -/
example : reprVal exClasses exReprs [⟨"KMeans", ⟨[("n_clusters", .int 8), ("note", .int 1)]⟩⟩] 5
    (.obj 0) = .error .attributeError := by
  refine C69_attribute_error exClasses exReprs rfl rfl (k := "note") (v := .int 1) rfl
    (by decide +kernel) rfl (by decide +kernel) 4 ?_ ?_
  · intro k' v' hm _
    simp only [List.mem_cons, Prod.mk.injEq, List.not_mem_nil, or_false] at hm
    rcases hm with ⟨_, rfl⟩ | ⟨_, rfl⟩ <;> exact ⟨_, rfl⟩
  · intro k' v' hv
    have := PyDict.mem_of_get?_eq_some hv
    simp at this
    rw [this.2]
    exact ⟨_, rfl⟩

end Verif
