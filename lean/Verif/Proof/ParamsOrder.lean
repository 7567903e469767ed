import Verif.Props.Params
import Verif.Spec.ParamsOrder
import Verif.Proof.UserHistory

/-!
# Proofs: the order of the parameters in a call of `set_params`
-/

set_option autoImplicit false
set_option linter.unusedSectionVars false

namespace Verif

/-! ### Dictionaries and heaps -/

theorem dictList_ext : ∀ {l l' : List (String × Val)}, l.map Prod.fst = l'.map Prod.fst →
    (l.map Prod.fst).Nodup → (∀ k, (⟨l⟩ : PyDict String Val).get? k = (⟨l'⟩ : PyDict String Val).get? k) →
    l = l' := by
  intro l
  induction l with
  | nil => intro l' hk _ _; cases l' with
    | nil => rfl
    | cons e l' => simp at hk
  | cons e l ih =>
    intro l' hk hn hg
    cases l' with
    | nil => simp at hk
    | cons e' l' =>
      obtain ⟨k, v⟩ := e
      obtain ⟨k', v'⟩ := e'
      simp only [List.map_cons, List.cons.injEq] at hk
      obtain ⟨rfl, hk⟩ := hk
      have hn' : ((⟨(k, v) :: l⟩ : PyDict String Val).keys).Nodup := hn
      have hn'' : ((⟨(k, v') :: l'⟩ : PyDict String Val).keys).Nodup := by
        simp only [PyDict.keys, List.map_cons] at hn' ⊢
        rw [← hk]; exact hn'
      have hv : v = v' := by
        have h1 := PyDict.get?_eq_some_of_mem hn' (k := k) (v := v) (by simp)
        have h2 := PyDict.get?_eq_some_of_mem hn'' (k := k) (v := v') (by simp)
        rw [hg k, h2] at h1
        exact (Option.some.inj h1).symm
      subst hv
      simp only [List.map_cons, List.nodup_cons] at hn
      rw [ih hk hn.2]
      intro k2
      by_cases h2 : k2 = k
      · subst h2
        rw [(PyDict.get?_eq_none _ _).mpr hn.1, (PyDict.get?_eq_none _ _).mpr]
        simp only [PyDict.keys]
        rw [← hk]; exact hn.1
      · have := hg k2
        apply Option.ext
        intro u
        have e1 : ∀ {m : List (String × Val)} {w : Val},
            ((⟨(k, w) :: m⟩ : PyDict String Val).keys).Nodup →
            ((⟨(k, w) :: m⟩ : PyDict String Val).get? k2 = some u ↔
              (⟨m⟩ : PyDict String Val).get? k2 = some u) := by
          intro m w hm
          have hm2 : ((⟨m⟩ : PyDict String Val).keys).Nodup := by
            simp only [PyDict.keys, List.map_cons, List.nodup_cons] at hm ⊢
            exact hm.2
          constructor
          · intro h3
            have := PyDict.mem_of_get?_eq_some h3
            simp only [List.mem_cons, Prod.mk.injEq] at this
            rcases this with ⟨rfl, _⟩ | h4
            · exact absurd rfl h2
            · exact PyDict.get?_eq_some_of_mem hm2 h4
          · intro h3
            exact PyDict.get?_eq_some_of_mem hm (List.mem_cons_of_mem _ (PyDict.mem_of_get?_eq_some h3))
        rw [← e1 hn', ← e1 hn'', this]

theorem dict_ext {d d' : PyDict String Val} (hk : d.keys = d'.keys) (hn : d.keys.Nodup)
    (hg : ∀ k, d.get? k = d'.get? k) : d = d' := by
  cases d; cases d'
  exact congrArg _ (dictList_ext hk hn hg)

theorem dict_set_comm {d : PyDict String Val} (hn : d.keys.Nodup) {k k' : String} (hk : k ∈ d.keys)
    (hk' : k' ∈ d.keys) (hne : k ≠ k') (v v' : Val) :
    (d.set k v).set k' v' = (d.set k' v').set k v := by
  have e1 : (d.set k v).keys = d.keys := by rw [PyDict.keys_set, if_pos hk]
  have e2 : (d.set k' v').keys = d.keys := by rw [PyDict.keys_set, if_pos hk']
  have e3 : ((d.set k v).set k' v').keys = d.keys := by
    rw [PyDict.keys_set, if_pos (by rw [e1]; exact hk'), e1]
  have e4 : ((d.set k' v').set k v).keys = d.keys := by
    rw [PyDict.keys_set, if_pos (by rw [e2]; exact hk), e2]
  refine dict_ext (by rw [e3, e4]) (by rw [e3]; exact hn) ?_
  intro x
  simp only [PyDict.get?_set]
  by_cases h1 : x = k' <;> by_cases h2 : x = k <;> simp_all

/-- Assigning the entries of a dict in another order. -/
theorem foldl_set_perm {L L' : List (String × Val)} (hp : L.Perm L') (hn : (L.map Prod.fst).Nodup)
    {d : PyDict String Val} (hd : d.keys.Nodup) (hL : ∀ e ∈ L, e.1 ∈ d.keys) :
    L.foldl (fun d p => d.set p.1 p.2) d = L'.foldl (fun d p => d.set p.1 p.2) d := by
  have hL' : ∀ e ∈ L', e.1 ∈ d.keys := fun e he => hL e (hp.mem_iff.mpr he)
  have hn' : (L'.map Prod.fst).Nodup := (hp.map _).nodup_iff.mp hn
  refine dict_ext (by rw [foldl_set_keys _ _ hL, foldl_set_keys _ _ hL'])
    (by rw [foldl_set_keys _ _ hL]; exact hd) ?_
  intro k
  obtain ⟨a1, a2⟩ := foldl_set_lookup L hn d k
  obtain ⟨b1, b2⟩ := foldl_set_lookup L' hn' d k
  by_cases hk : k ∈ L.map Prod.fst
  · obtain ⟨⟨k', v⟩, he, rfl⟩ := List.mem_map.mp hk
    rw [a1 v he, b1 v (hp.mem_iff.mp he)]
  · rw [a2 hk, b2 (fun h => hk ((hp.map _).mem_iff.mpr h))]

/-! ### One assignment -/

/-- `D` sets plain parameters to plain values, none of them twice. -/
def PlainSets (h : Heap) (r : ℕ) (D : List (String × Val)) : Prop :=
  (∀ e ∈ D, IsPlain e.2 ∧ ∃ r' k, Addresses h r e.1 r' k) ∧
    D.Pairwise (fun e e' => ∀ r' k, Addresses h r e.1 r' k → ¬ Addresses h r e'.1 r' k)

theorem assign_step (C : Classes) {fuel r : ℕ} {rank : ℕ → ℕ} (hf : rank r < fuel) {h : Heap}
    (hw : WellNamed h) (hr : Ranked h rank) {x : String} {w : Val} (hplain : IsPlain w)
    {r' : ℕ} {k : String} (had : Addresses h r x r' k) :
    ∃ o h1, h[r']? = some o ∧ k ∈ o.attrs.keys ∧
      h1 = h.set r' { o with attrs := o.attrs.set k w } ∧
      setParams C fuel h r [(x, w)] = .ok h1 ∧ WellNamed h1 ∧ Ranked h1 rank ∧
      ∀ x2 a b, Addresses h1 r x2 a b ↔ Addresses h r x2 a b := by
  obtain ⟨ks, v, rfl, hre, hpa, hpv⟩ := had
  obtain ⟨o, eo, hget, hpub⟩ := hpa
  have hmem : k ∈ o.attrs.keys := (PyDict.isSome_get? _ _).mp (by rw [hget]; rfl)
  have hlen := hre.rank_le hr
  have step := C46_assign C hw hre eo hpub hmem w fuel (by omega)
  obtain ⟨h1, eh1⟩ : ∃ h1, h1 = h.set r' { o with attrs := o.attrs.set k w } := ⟨_, rfl⟩
  rw [← eh1] at step
  have hobj : ∀ a b c, PublicAttr h1 a b (.obj c) ↔ PublicAttr h a b (.obj c) := by
    rw [eh1]; exact assign_plain eo hget hpv hplain
  have hreach : ∀ a ks b, Reaches h1 a ks b ↔ Reaches h a ks b :=
    fun a ks b => reaches_congr hobj a b ks
  have hattr : ∀ a b u, PublicAttr h1 a b u ↔
      if a = r' ∧ b = k then u = w ∧ IsPublic k else PublicAttr h a b u := by
    intro a b u; rw [eh1]; exact publicAttr_set eo w a b u
  refine ⟨o, h1, eo, hmem, eh1, step, ?_, ?_, ?_⟩
  · intro r2 o2 e2
    rw [eh1, List.getElem?_set] at e2
    split at e2
    · rename_i hr2
      subst hr2
      rw [if_pos (lt_of_getElem? eo)] at e2
      have := Option.some.inj e2
      subst this
      simp only [PyDict.keys_set, if_pos hmem]
      exact hw r' o eo
    · exact hw r2 o2 e2
  · intro a b c hp
    have := hr a b c ((hobj _ _ _).mp hp)
    rw [eh1, List.length_set]
    exact this
  · intro x2 a b
    constructor
    · rintro ⟨ks2, u, ex, hre2, hpa2, hpu⟩
      rw [hattr] at hpa2
      split at hpa2
      · rename_i hab
        obtain ⟨rfl, rfl⟩ := hab
        exact ⟨ks2, v, ex, (hreach _ _ _).mp hre2, ⟨o, eo, hget, hpub⟩, hpv⟩
      · exact ⟨ks2, u, ex, (hreach _ _ _).mp hre2, hpa2, hpu⟩
    · rintro ⟨ks2, u, ex, hre2, hpa2, hpu⟩
      by_cases hab : a = r' ∧ b = k
      · obtain ⟨rfl, rfl⟩ := hab
        exact ⟨ks2, w, ex, (hreach _ _ _).mpr hre2, by rw [hattr]; simp [hpub], hplain⟩
      · refine ⟨ks2, u, ex, (hreach _ _ _).mpr hre2, ?_, hpu⟩
        rw [hattr, if_neg hab]
        exact hpa2

theorem PlainSets.congr {h h1 : Heap} {r : ℕ} {D : List (String × Val)}
    (hc : ∀ x a b, Addresses h1 r x a b ↔ Addresses h r x a b) (hD : PlainSets h r D) :
    PlainSets h1 r D := by
  refine ⟨fun e he => by simpa only [hc] using hD.1 e he, ?_⟩
  simpa only [hc] using hD.2

/-- Two assignments to different attributes can be exchanged. -/
theorem heap_set_comm {h : Heap} (hw : WellNamed h) {a b : ℕ} {k k' : String} {v v' : Val}
    {oa ob oa' ob' : Obj} (ea : h[a]? = some oa) (eb : h[b]? = some ob) (hka : k ∈ oa.attrs.keys)
    (hkb : k' ∈ ob.attrs.keys) (hne : ¬ (a = b ∧ k = k'))
    (eb' : (h.set a { oa with attrs := oa.attrs.set k v })[b]? = some ob')
    (ea' : (h.set b { ob with attrs := ob.attrs.set k' v' })[a]? = some oa') :
    (h.set a { oa with attrs := oa.attrs.set k v }).set b { ob' with attrs := ob'.attrs.set k' v' } =
    (h.set b { ob with attrs := ob.attrs.set k' v' }).set a { oa' with attrs := oa'.attrs.set k v } := by
  have hla := lt_of_getElem? ea
  by_cases hab : a = b
  · subst hab
    rw [ea] at eb
    cases eb
    rw [List.getElem?_set_self hla] at ea' eb'
    cases ea'
    cases eb'
    simp only [List.set_set]
    rw [dict_set_comm (hw a oa ea).1 hka hkb (fun e => hne ⟨rfl, e⟩)]
  · rw [List.getElem?_set_ne hab, eb] at eb'
    rw [List.getElem?_set_ne (Ne.symm hab), ea] at ea'
    cases ea'
    cases eb'
    exact List.set_comm _ _ hab

/-- Successive assignments of plain values can be made in any order. -/
theorem assignAll_perm (C : Classes) {fuel r : ℕ} {rank : ℕ → ℕ} (hf : rank r < fuel)
    {D D' : List (String × Val)} (hp : D.Perm D') : ∀ {h : Heap}, WellNamed h → Ranked h rank →
    PlainSets h r D → assignAll C fuel r D h = assignAll C fuel r D' h := by
  induction hp with
  | nil => intros; rfl
  | cons e _ ih =>
    intro h hw hr hD
    obtain ⟨x, w⟩ := e
    obtain ⟨hpl, r', k, had⟩ := hD.1 (x, w) (by simp)
    obtain ⟨o, h1, _, _, _, step, hw1, hr1, hc⟩ := assign_step C hf hw hr hpl had
    rw [assignAll, assignAll, step]
    exact ih hw1 hr1 (PlainSets.congr hc
      ⟨fun e he => hD.1 e (List.mem_cons_of_mem _ he), (List.pairwise_cons.mp hD.2).2⟩)
  | swap e e' l =>
    intro h hw hr hD
    obtain ⟨x, w⟩ := e
    obtain ⟨x', w'⟩ := e'
    obtain ⟨hpl', b, k', had'⟩ := hD.1 (x', w') (by simp)
    obtain ⟨hpl, a, k, had⟩ := hD.1 (x, w) (by simp)
    have hne : ¬ (a = b ∧ k = k') := by
      rintro ⟨rfl, rfl⟩
      exact (List.pairwise_cons.mp hD.2).1 (x, w) (by simp) a k had' had
    obtain ⟨oa, h1, ea, hka, eh1, s1, hw1, hr1, hc1⟩ := assign_step C hf hw hr hpl had
    obtain ⟨ob, h2, eb, hkb, eh2, s2, hw2, hr2, hc2⟩ := assign_step C hf hw hr hpl' had'
    obtain ⟨ob', h3, eb', _, eh3, s3, _⟩ := assign_step C hf hw1 hr1 hpl' ((hc1 _ _ _).mpr had')
    obtain ⟨oa', h4, ea', _, eh4, s4, _⟩ := assign_step C hf hw2 hr2 hpl ((hc2 _ _ _).mpr had)
    have : h3 = h4 := by
      rw [eh3, eh4]
      subst eh1 eh2
      exact heap_set_comm hw ea eb hka hkb hne eb' ea'
    simp only [assignAll, s1, s2, ok_bind, s3, s4, this]
  | trans hp1 hp2 ih1 ih2 =>
    intro h hw hr hD
    rw [ih1 hw hr hD]
    refine ih2 hw hr ⟨fun e he => hD.1 e (hp1.mem_iff.mpr he), ?_⟩
    refine (hp1.pairwise_iff ?_).mp hD.2
    intro a b hab r' k h1 h2
    exact hab r' k h2 h1

/-! ### Whole calls -/

theorem withParams_eq {r : ℕ} (L : List (String × Val)) : ∀ {h : Heap} {o : Obj}, h[r]? = some o →
    withParams h r L =
      h.set r { o with attrs := L.foldl (fun d p => d.set p.1 p.2) o.attrs } := by
  induction L with
  | nil =>
    intro h o eo
    simp only [withParams, List.foldl_nil]
    rw [heap_set_same eo]
  | cons e L ih =>
    intro h o eo
    have hl := lt_of_getElem? eo
    simp only [withParams, List.foldl_cons]
    rw [withParam_eq eo]
    have := ih (h := h.set r { o with attrs := o.attrs.set e.1 e.2 })
      (o := { o with attrs := o.attrs.set e.1 e.2 }) (by rw [List.getElem?_set_self hl])
    simp only [withParams] at this
    rw [this, List.set_set]

theorem addresses_nested {h : Heap} (hw : WellNamed h) {r r' : ℕ} {x k : String}
    (hx : isNestedName x = true) (had : Addresses h r x r' k) :
    ∃ k0 ks b, PublicAttr h r k0 (.obj b) ∧ Reaches h b ks r' := by
  obtain ⟨ks, v, rfl, hre, hpa, _⟩ := had
  cases hre with
  | nil =>
    exfalso
    have := (hpa.good hw).2.2
    simp only [isNestedName, List.nil_append, pathName, decide_eq_true_eq] at hx
    exact this hx
  | cons hp hre => exact ⟨_, _, _, hp, hre⟩

theorem addresses_public {h : Heap} (hw : WellNamed h) {r r' : ℕ} {x k : String}
    (had : Addresses h r x r' k) : IsPublic x := by
  obtain ⟨ks, v, rfl, hre, hpa, _⟩ := had
  exact (pathName_public (by simp) (ParamAt.good hw ⟨r', hre, hpa⟩)).1

theorem wellNamed_set {h : Heap} (hw : WellNamed h) {r : ℕ} {o : Obj} (eo : h[r]? = some o)
    {d : PyDict String Val} (hd : d.keys = o.attrs.keys) :
    WellNamed (h.set r { o with attrs := d }) := by
  intro r2 o2 e2
  rw [List.getElem?_set] at e2
  split at e2
  · rename_i hr2
    subst hr2
    rw [if_pos (lt_of_getElem? eo)] at e2
    have := Option.some.inj e2
    subst this
    simp only [hd]
    exact hw r o eo
  · exact hw r2 o2 e2

theorem own_names {h : Heap} (hw : WellNamed h) {r : ℕ} {D : List (String × Val)} {o : Obj}
    (eo : h[r]? = some o) (hown : ∀ e ∈ ownParams D, ∃ v, PublicAttr h r e.1 v) :
    ∀ e ∈ ownParams D, GoodName e.1 ∧ e.1 ∈ o.attrs.keys := by
  intro e he
  obtain ⟨v, hv⟩ := hown e he
  refine ⟨hv.good hw, ?_⟩
  obtain ⟨o1, e1, e2, _⟩ := hv
  rw [eo] at e1
  cases e1
  exact (PyDict.isSome_get? _ _).mp (by rw [e2]; rfl)

theorem setParams_unambiguous (C : Classes) {fuel r : ℕ} {h : Heap} {D : List (String × Val)}
    (hw : WellNamed h) (hlt : r < h.length) (hf : 0 < fuel) (hD : Unambiguous h r D) :
    WellNamed (withParams h r (ownParams D)) ∧
    setParams C fuel h r D =
      assignAll C fuel r (nestedParams D) (withParams h r (ownParams D)) := by
  obtain ⟨o, eo⟩ : ∃ o, h[r]? = some o := ⟨h[r], List.getElem?_eq_getElem hlt⟩
  obtain ⟨n, rfl⟩ : ∃ n, fuel = n + 1 := ⟨fuel - 1, by omega⟩
  have hown := own_names hw eo hD.own
  have hw1 : WellNamed (withParams h r (ownParams D)) := by
    rw [withParams_eq _ eo]
    exact wellNamed_set hw eo (foldl_set_keys _ _ fun e he => (hown e he).2)
  refine ⟨hw1, ?_⟩
  rw [C46_sequence]
  · rw [show (D.filter fun e => !isNestedName e.1) = ownParams D from rfl,
      assignAll_flat C n _ eo hown, ← withParams_eq _ eo]
    rfl
  · intro e he
    by_cases hx : isNestedName e.1 = true
    · obtain ⟨_, r', k, had⟩ := hD.nested e (List.mem_filter.mpr ⟨he, hx⟩)
      exact addresses_public hw1 had
    · obtain ⟨v, hv⟩ := hD.own e (List.mem_filter.mpr ⟨he, by simpa using hx⟩)
      exact (hv.good hw).1

theorem withParams_perm {h : Heap} (hw : WellNamed h) {r : ℕ} (hlt : r < h.length)
    {D D' : List (String × Val)} (hp : D.Perm D') (hD : Unambiguous h r D) :
    withParams h r (ownParams D') = withParams h r (ownParams D) := by
  obtain ⟨o, eo⟩ : ∃ o, h[r]? = some o := ⟨h[r], List.getElem?_eq_getElem hlt⟩
  have hown := own_names hw eo hD.own
  have hp' : (ownParams D).Perm (ownParams D') := hp.filter _
  rw [withParams_eq _ eo, withParams_eq _ eo, foldl_set_perm hp'
    (hD.once.sublist (List.filter_sublist.map _)) (hw r o eo).1 fun e he => (hown e he).2]

theorem Unambiguous.perm {h : Heap} (hw : WellNamed h) {r : ℕ} (hlt : r < h.length)
    {D D' : List (String × Val)} (hp : D.Perm D') (hD : Unambiguous h r D) :
    Unambiguous h r D' := by
  have e := withParams_perm hw hlt hp hD
  refine ⟨(hp.map _).nodup_iff.mp hD.once, fun e he => hD.own e ((hp.filter _).mem_iff.mpr he),
    ?_, ?_⟩
  · rw [e]; exact fun e he => hD.nested e ((hp.filter _).mem_iff.mpr he)
  · rw [e]
    refine ((hp.filter _).pairwise_iff ?_).mp hD.apart
    intro a b hab r' k h1 h2
    exact hab r' k h2 h1

theorem publicAttr_withParams {h : Heap} {r : ℕ} {o : Obj} (eo : h[r]? = some o)
    {L : List (String × Val)} (hn : (L.map Prod.fst).Nodup) {e : String × Val} (he : e ∈ L)
    (hk : IsPublic e.1) : PublicAttr (withParams h r L) r e.1 e.2 := by
  rw [withParams_eq _ eo]
  exact ⟨_, List.getElem?_set_self (lt_of_getElem? eo), (foldl_set_lookup L hn _ _).1 _ he, hk⟩

/-! ### Parameters of another object -/

theorem reaches_set_away {h : Heap} {a : ℕ} {oa : Obj} {b c : ℕ} {ks : List String}
    (hre : Reaches h b ks c) : (∀ ks', ¬ Reaches h b ks' a) → Reaches (h.set a oa) b ks c := by
  induction hre with
  | nil r => intro _; exact .nil r
  | @cons r r' r'' k ks hp _ ih =>
    intro hno
    refine .cons ?_ (ih fun ks' h1 => hno (k :: ks') (.cons hp h1))
    obtain ⟨o, eo, hg, hpub⟩ := hp
    refine ⟨o, ?_, hg, hpub⟩
    rw [List.getElem?_set_ne]
    · exact eo
    · rintro rfl
      exact hno [] (.nil _)

theorem reaches_snoc {h : Heap} {b c d : ℕ} {ks : List String} {k : String}
    (hre : Reaches h b ks c) (hp : PublicAttr h c k (.obj d)) : Reaches h b (ks ++ [k]) d := by
  induction hre with
  | nil => exact .cons hp (.nil _)
  | cons h1 _ ih => exact .cons h1 (ih hp)

theorem reaches_of_set_away {h : Heap} {a : ℕ} {oa : Obj} {b c : ℕ} {ks : List String}
    (hre : Reaches (h.set a oa) b ks c) : (∀ ks', ¬ Reaches h b ks' a) → Reaches h b ks c := by
  induction hre with
  | nil r => intro _; exact .nil r
  | @cons r r' r'' k ks hp _ ih =>
    intro hno
    obtain ⟨o, eo, hg, hpub⟩ := hp
    have hra : a ≠ r := by
      rintro rfl
      exact hno [] (.nil _)
    rw [List.getElem?_set_ne hra] at eo
    have hp' : PublicAttr h r k (.obj r') := ⟨o, eo, hg, hpub⟩
    exact .cons hp' (ih fun ks' h1 => hno (k :: ks') (.cons hp' h1))

/-- If objects `a` and `b` have the same public attributes, and `a` is not reached from `b`, then
they have the same parameters. -/
theorem paramAt_of_same {h : Heap} {a b : ℕ} {oa ob : Obj} (ha : a < h.length)
    (eb : h[b]? = some ob) (hno : ∀ ks, ¬ Reaches h b ks a)
    (hs : ∀ k, IsPublic k → oa.attrs.get? k = ob.attrs.get? k) (ks : List String) (k : String)
    (v : Val) : ParamAt (h.set a oa) a ks k v ↔ ParamAt h b ks k v := by
  have ea : (h.set a oa)[a]? = some oa := List.getElem?_set_self ha
  have hpub : ∀ k v, PublicAttr (h.set a oa) a k v ↔ PublicAttr h b k v := by
    intro k v
    constructor
    · rintro ⟨o, e, hg, hp⟩
      rw [ea] at e
      cases e
      exact ⟨ob, eb, by rw [← hs k hp]; exact hg, hp⟩
    · rintro ⟨o, e, hg, hp⟩
      rw [eb] at e
      cases e
      exact ⟨oa, ea, by rw [hs k hp]; exact hg, hp⟩
  cases ks with
  | nil => rw [paramAt_nil, paramAt_nil, hpub]
  | cons k0 ks =>
    rw [paramAt_cons, paramAt_cons]
    constructor
    · rintro ⟨r', hp, r'', hre, o, e, hg, hk⟩
      rw [hpub] at hp
      have hno' : ∀ ks', ¬ Reaches h r' ks' a := fun ks' h1 => hno (k0 :: ks') (.cons hp h1)
      have hre' := reaches_of_set_away hre hno'
      refine ⟨r', hp, r'', hre', o, ?_, hg, hk⟩
      rwa [List.getElem?_set_ne] at e
      rintro rfl
      exact hno' _ hre'
    · rintro ⟨r', hp, r'', hre, o, e, hg, hk⟩
      have hno' : ∀ ks', ¬ Reaches h r' ks' a := fun ks' h1 => hno (k0 :: ks') (.cons hp h1)
      refine ⟨r', (hpub _ _).mpr hp, r'', reaches_set_away hre hno', o, ?_, hg, hk⟩
      rwa [List.getElem?_set_ne]
      rintro rfl
      exact hno' _ hre

end Verif
