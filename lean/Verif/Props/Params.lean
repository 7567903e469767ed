import Verif.Proof.Objects

/-!
# C45, C46: `clone`, `get_params`, `set_params`

`ParamAt`, `Reaches`, `Addresses`, `WellNamed`, `Ranked` and `ParamsByInit` are in
`Verif.Spec.Objects`. The fuel is the recursion limit of the interpreter.
-/

set_option autoImplicit false

namespace Verif

/-- `get_params(deep=True)` lists exactly the parameters of the object and, under
`outer__inner` names, those of nested objects; `deep=False` only its own. -/
theorem C46_get_params {h : Heap} (hw : WellNamed h) {rank : ℕ → ℕ} (hr : Ranked h rank)
    (fuel r : ℕ) (hlt : r < h.length) (hf : rank r < fuel) :
    (∃ q, getParams h fuel r true = .ok q ∧ q.keys.Nodup ∧ ∀ x v, q.get? x = some v ↔
      ∃ ks k, x = pathName (ks ++ [k]) ∧ ParamAt h r ks k v) ∧
    (∃ q, getParams h fuel r false = .ok q ∧ q.keys.Nodup ∧ ∀ x v, q.get? x = some v ↔
      PublicAttr h r x v) := by
  refine ⟨getParams_ok hw hr fuel r hlt hf, ?_⟩
  obtain ⟨n, rfl⟩ : ∃ n, fuel = n + 1 := ⟨fuel - 1, by omega⟩
  exact getParams_shallow hw n r hlt

/-- **C45.** `clone(obj)` allocates one object and changes no other one. The new
object has the class of `obj`, the same `get_params()`, and apart from parameters
only what the constructor sets. -/
theorem C45_clone {C : Classes} {h : Heap} (hw : WellNamed h) {rank : ℕ → ℕ}
    (hr : Ranked h rank) {r : ℕ} {o : Obj} (eo : h[r]? = some o) {c : ClassInfo}
    (hC : ParamsByInit C o c) (fuel : ℕ) (hf : rank r < fuel) :
    ∃ o' q q', clone C fuel h r = .ok (h ++ [o'], h.length) ∧ o'.cls = o.cls ∧
      (∀ k, ¬ IsPublic k → o'.attrs.get? k = c.init.get? k) ∧
      (∀ ks k v, ParamAt (h ++ [o']) h.length ks k v ↔ ParamAt h r ks k v) ∧
      getParams h fuel r true = .ok q ∧
      getParams (h ++ [o']) fuel h.length true = .ok q' ∧ ∀ x, q'.get? x = q.get? x := by
  obtain ⟨o', e, hcls, hkeys, hpub, hpriv⟩ := clone_ok hw hr eo hC hf
  have hpa := clone_paramAt hr eo hpub
  have hw' : WellNamed (h ++ [o']) := by
    refine wellNamed_append hw ⟨by rw [hkeys]; exact hC.2.1, ?_⟩
    intro k hk hp
    rw [hkeys] at hk
    exact (hw r o eo).2 k ((hC.2.2 k hp).mpr hk) hp
  obtain ⟨q, eq, _, hq⟩ := getParams_ok hw hr fuel r (lt_of_getElem? eo) hf
  obtain ⟨q', eq', _, hq'⟩ := getParams_ok hw' (ranked_append hr eo hpub) fuel h.length (by simp)
    (by simpa using hf)
  refine ⟨o', q, q', e, hcls, hpriv, hpa, eq, eq', ?_⟩
  intro x
  apply Option.ext
  intro v
  rw [hq', hq]
  simp only [hpa]

/-- **C46.** `set_params(**params)` amounts to one call for each parameter: first
those of the object itself, then the nested ones, in the order given. -/
theorem C46_sequence (C : Classes) (fuel r : ℕ) (ps : List (String × Val)) (h : Heap)
    (hp : ∀ e ∈ ps, IsPublic e.1) :
    setParams C (fuel + 1) h r ps = (do
      let h ← assignAll C (fuel + 1) r (ps.filter fun e => !isNestedName e.1) h
      assignAll C (fuel + 1) r (ps.filter fun e => isNestedName e.1) h) :=
  setParams_split C fuel r ps h hp

/-- **C46.** Private names are ignored. -/
theorem C46_private (C : Classes) (fuel r : ℕ) (ps : List (String × Val)) (h : Heap) :
    setParams C (fuel + 1) h r ps =
      setParams C (fuel + 1) h r (ps.filter fun e => isParamPublic e.1) ∧
    ((∀ e ∈ ps, ¬ IsPublic e.1) → setParams C (fuel + 1) h r ps = .ok h) := by
  refine ⟨setParams_private_filter C fuel r ps h, ?_⟩
  intro hp
  rw [setParams_private_filter]
  have : (ps.filter fun e => isParamPublic e.1) = [] := by
    rw [List.filter_eq_nil_iff]
    intro e he hpub
    exact hp e he ((isParamPublic_iff _).mp hpub)
  rw [this]
  simp [setParams, setFlat, setNested]

/-- **C46.** A call with the name of a parameter, nested to any depth, assigns that
attribute and changes nothing else. -/
theorem C46_assign (C : Classes) {h : Heap} (hw : WellNamed h) {r r' : ℕ} {ks : List String}
    (hr : Reaches h r ks r') {o : Obj} (eo : h[r']? = some o) {k : String} (hk : IsPublic k)
    (hmem : k ∈ o.attrs.keys) (w : Val) (fuel : ℕ) (hf : ks.length < fuel) :
    setParams C fuel h r [(pathName (ks ++ [k]), w)] =
      .ok (h.set r' { o with attrs := o.attrs.set k w }) := by
  obtain ⟨v, hv⟩ := Option.isSome_iff_exists.mp ((PyDict.isSome_get? _ _).mpr hmem)
  rw [setParams_path C w hr (hr.good hw) ((hw r' o eo).2 k hmem hk) eo fuel hf,
    if_pos (hasAttr_of_get? C hv)]

/-- `set_params` with a nested name is `set_params` of the object the path leads to. -/
theorem setParams_reach (C : Classes) {h : Heap} (w : Val) {r r' : ℕ} {ks : List String}
    (hr : Reaches h r ks r') (hg : ∀ k ∈ ks, GoodName k) {l : List String} (hl : l ≠ [])
    (hgl : ∀ k ∈ l, GoodName k) (fuel : ℕ) :
    setParams C (ks.length + fuel + 1) h r [(pathName (ks ++ l), w)] =
      setParams C (fuel + 1) h r' [(pathName l, w)] := by
  induction hr with
  | nil r => simp
  | @cons a b c k0 rest hp hr ih =>
    obtain ⟨oa, ea, hget, _⟩ := hp
    have hgr : ∀ x ∈ rest ++ l, GoodName x := by
      intro x hx
      rcases List.mem_append.mp hx with hx | hx
      · exact hg x (List.mem_cons_of_mem _ hx)
      · exact hgl x hx
    have hne : rest ++ l ≠ [] := by simp [hl]
    obtain ⟨h1, h2⟩ := pathName_public hne hgr
    rw [List.cons_append, pathName_cons k0 hne, List.length_cons,
      show rest.length + 1 + fuel + 1 = (rest.length + fuel + 1) + 1 by omega,
      setParams_nested C _ ea (hg k0 (by simp)) h1 h2, if_pos (hasAttr_of_get? C hget), hget]
    exact ih (fun x hx => hg x (List.mem_cons_of_mem _ hx))

/-- **C46.** A name that is neither an attribute of the object it addresses nor a
name of its class is ignored, and so are the names nested under it. -/
theorem C46_unknown_partial (C : Classes) {h : Heap} (hw : WellNamed h) {r r' : ℕ} {ks : List String}
    (hr : Reaches h r ks r') {o : Obj} (eo : h[r']? = some o) {k : String} (hk : GoodName k)
    (h1 : k ∉ o.attrs.keys) (h2 : ∀ c, C o.cls = some c → k ∉ c.members)
    (rest : List String) (hrest : ∀ x ∈ rest, GoodName x) (w : Val) (fuel : ℕ)
    (hf : ks.length < fuel) :
    setParams C fuel h r [(pathName (ks ++ k :: rest), w)] = .ok h := by
  obtain ⟨n, rfl⟩ : ∃ n, fuel = ks.length + n + 1 := ⟨fuel - ks.length - 1, by omega⟩
  have hno : ¬ hasAttr C o k = true := by
    have hc : o.attrs.contains k = false := by
      rw [Bool.eq_false_iff]
      intro h3
      exact h1 ((PyDict.contains_iff _ _).mp h3)
    simp only [hasAttr, hc, Bool.false_or]
    cases hC : C o.cls with
    | none => simp
    | some c => simp [h2 c hC]
  rw [setParams_reach C w hr (hr.good hw) (by simp)
    (by intro x hx; rcases List.mem_cons.mp hx with rfl | hx; exacts [hk, hrest x hx])]
  cases rest with
  | nil => exact (setParams_flat C n eo hk w).trans (by rw [if_neg hno])
  | cons a rest =>
    obtain ⟨h3, h4⟩ := pathName_public (by simp) hrest
    rw [pathName_cons k (by simp), setParams_nested C n eo hk h3 h4, if_neg hno]

/-- **C46.** A name nested under a parameter that is not an estimator is not
ignored: the call raises `AttributeError`. -/
theorem C46_nested_in_plain (C : Classes) {h : Heap} (hw : WellNamed h) {r r' : ℕ}
    {ks : List String} (hr : Reaches h r ks r') {o : Obj} (eo : h[r']? = some o) {k : String}
    {v : Val} (hk : o.attrs.get? k = some v) (hv : IsPlain v) (hpub : IsPublic k)
    (rest : List String) (hne : rest ≠ []) (hrest : ∀ x ∈ rest, GoodName x) (w : Val) (fuel : ℕ)
    (hf : ks.length < fuel) :
    setParams C fuel h r [(pathName (ks ++ k :: rest), w)] = .error .attributeError := by
  obtain ⟨n, rfl⟩ : ∃ n, fuel = ks.length + n + 1 := ⟨fuel - ks.length - 1, by omega⟩
  have hgk := (hw r' o eo).2 k ((PyDict.isSome_get? _ _).mp (by rw [hk]; rfl)) hpub
  rw [setParams_reach C w hr (hr.good hw) (by simp)
    (by intro x hx; rcases List.mem_cons.mp hx with rfl | hx; exacts [hgk, hrest x hx])]
  obtain ⟨h3, h4⟩ := pathName_public hne hrest
  rw [pathName_cons k hne, setParams_nested C n eo hgk h3 h4, if_pos (hasAttr_of_get? C hk), hk]
  cases v with
  | obj r => exact absurd rfl (hv r)
  | _ => rfl

theorem assign_plain {h : Heap} {r' : ℕ} {o : Obj} (eo : h[r']? = some o) {k : String} {v w : Val}
    (hv : o.attrs.get? k = some v) (hpv : IsPlain v) (hpw : IsPlain w) (a : ℕ) (b : String)
    (c : ℕ) : PublicAttr (h.set r' { o with attrs := o.attrs.set k w }) a b (.obj c) ↔
      PublicAttr h a b (.obj c) := by
  rw [publicAttr_set eo]
  split
  · rename_i hab
    obtain ⟨rfl, rfl⟩ := hab
    constructor
    · rintro ⟨hw, _⟩
      exact absurd hw.symm (hpw c)
    · rintro ⟨o1, e1, e2, _⟩
      rw [eo] at e1
      cases e1
      rw [hv] at e2
      exact absurd (Option.some.inj e2) (hpv c)
  · rfl

/-- Any sequence of single assignments of plain values to plain parameters that do
not address the same attribute twice. -/
theorem assignAll_plain (C : Classes) (fuel r : ℕ) {rank : ℕ → ℕ} (hf : rank r < fuel) :
    ∀ (D : List (String × Val)) (h : Heap), WellNamed h → Ranked h rank → r < h.length →
    (∀ e ∈ D, IsPlain e.2 ∧ ∃ r' k, Addresses h r e.1 r' k) →
    D.Pairwise (fun e e' => ∀ r' k, Addresses h r e.1 r' k → ¬ Addresses h r e'.1 r' k) →
    ∃ h', assignAll C fuel r D h = .ok h' ∧ WellNamed h' ∧ Ranked h' rank ∧ r < h'.length ∧
      (∀ a ks b, Reaches h' a ks b ↔ Reaches h a ks b) ∧
      (∀ e ∈ D, ∀ r' k, Addresses h r e.1 r' k → PublicAttr h' r' k e.2) ∧
      (∀ r' k, (∀ e ∈ D, ¬ Addresses h r e.1 r' k) →
        ∀ v, PublicAttr h' r' k v ↔ PublicAttr h r' k v) := by
  intro D
  induction D with
  | nil =>
    intro h hw hr hlt _ _
    exact ⟨h, rfl, hw, hr, hlt, by simp, by simp, by simp⟩
  | cons e D ih =>
    obtain ⟨x, w⟩ := e
    intro h hw hr hlt hD hpw
    obtain ⟨hplain, r', k, ks, v, rfl, hre, hpa, hpv⟩ := hD (x, w) (by simp)
    obtain ⟨o, eo, hget, hpub⟩ := hpa
    have hmem : k ∈ o.attrs.keys := (PyDict.isSome_get? _ _).mp (by rw [hget]; rfl)
    have hlen := hre.rank_le hr
    have step := C46_assign C hw hre eo hpub hmem w fuel (by omega)
    obtain ⟨h1, eh1⟩ : ∃ h1, h1 = h.set r' { o with attrs := o.attrs.set k w } := ⟨_, rfl⟩
    rw [← eh1] at step
    have hobj : ∀ a b c, PublicAttr h1 a b (.obj c) ↔ PublicAttr h a b (.obj c) := by
      rw [eh1]; exact assign_plain eo hget hpv hplain
    have hreach : ∀ a ks b, Reaches h1 a ks b ↔ Reaches h a ks b :=
      fun a ks b => reaches_congr hobj a b ks
    have hattr : ∀ a b u, PublicAttr h1 a b u ↔
        if a = r' ∧ b = k then u = w ∧ IsPublic k else PublicAttr h a b u := by
      intro a b u; rw [eh1]; exact publicAttr_set eo w a b u
    have hw1 : WellNamed h1 := by
      intro r2 o2 e2
      rw [eh1, List.getElem?_set] at e2
      split at e2
      · rename_i hr2
        subst hr2
        rw [if_pos (lt_of_getElem? eo)] at e2
        have := Option.some.inj e2
        subst this
        simp only [PyDict.keys_set, if_pos hmem]
        exact hw r' o eo
      · exact hw r2 o2 e2
    have hr1 : Ranked h1 rank := by
      intro a b c hp
      have := hr a b c ((hobj _ _ _).mp hp)
      rw [eh1, List.length_set]
      exact this
    have hlt1 : r < h1.length := by rw [eh1, List.length_set]; exact hlt
    have haddr : ∀ x2 a b, Addresses h1 r x2 a b ↔ Addresses h r x2 a b := by
      intro x2 a b
      constructor
      · rintro ⟨ks2, u, ex, hre2, hpa2, hpu⟩
        rw [hattr] at hpa2
        split at hpa2
        · rename_i hab
          obtain ⟨rfl, rfl⟩ := hab
          exact ⟨ks2, v, ex, (hreach _ _ _).mp hre2, ⟨o, eo, hget, hpub⟩, hpv⟩
        · exact ⟨ks2, u, ex, (hreach _ _ _).mp hre2, hpa2, hpu⟩
      · rintro ⟨ks2, u, ex, hre2, hpa2, hpu⟩
        by_cases hab : a = r' ∧ b = k
        · obtain ⟨rfl, rfl⟩ := hab
          exact ⟨ks2, w, ex, (hreach _ _ _).mpr hre2, by rw [hattr]; simp [hpub], hplain⟩
        · refine ⟨ks2, u, ex, (hreach _ _ _).mpr hre2, ?_, hpu⟩
          rw [hattr, if_neg hab]
          exact hpa2
    rw [List.pairwise_cons] at hpw
    obtain ⟨h', e', hw', hr', hlt', hreach', hset', hother'⟩ := ih h1 hw1 hr1 hlt1
      (fun e he => by simpa only [haddr] using hD e (List.mem_cons_of_mem _ he))
      (by simpa only [haddr] using hpw.2)
    have hself : Addresses h r (pathName (ks ++ [k])) r' k :=
      ⟨ks, v, rfl, hre, ⟨o, eo, hget, hpub⟩, hpv⟩
    have hgoodks : ∀ x ∈ ks ++ [k], GoodName x :=
      ParamAt.good hw ⟨r', hre, ⟨o, eo, hget, hpub⟩⟩
    refine ⟨h', by rw [assignAll, step]; exact e', hw', hr', hlt',
      fun a ks b => (hreach' a ks b).trans (hreach a ks b), ?_, ?_⟩
    · intro e he a b hab
      rcases List.mem_cons.mp he with rfl | he
      · have hnone : ∀ e ∈ D, ¬ Addresses h1 r e.1 r' k := by
          intro e2 he2 h3
          exact hpw.1 e2 he2 r' k hself ((haddr _ _ _).mp h3)
        have hcell : a = r' ∧ b = k := by
          obtain ⟨ks2, u, ex, hre2, hpa2, _⟩ := hab
          have := pathName_inj (by simp) (by simp) hgoodks
            (ParamAt.good hw ⟨a, hre2, hpa2⟩) ex
          have hk2 : ks = ks2 ∧ k = b := by
            have h4 := List.append_inj' this (by simp)
            exact ⟨h4.1, by simpa using h4.2⟩
          obtain ⟨rfl, rfl⟩ := hk2
          exact ⟨(reaches_unique hre hre2).symm, rfl⟩
        obtain ⟨rfl, rfl⟩ := hcell
        rw [hother' a b hnone, hattr]
        simp [hpub]
      · exact hset' e he a b ((haddr _ _ _).mpr hab)
    · intro a b hnone u
      rw [hother' a b (fun e he h3 => hnone e (List.mem_cons_of_mem _ he) ((haddr _ _ _).mp h3)),
        hattr, if_neg]
      rintro ⟨rfl, rfl⟩
      exact hnone (pathName (ks ++ [b]), w) (by simp) hself

theorem pairwise_split {α : Type} {R : α → α → Prop} (hs : ∀ a b, R a b → R b a) (p : α → Bool)
    {l : List α} (h : l.Pairwise R) :
    (l.filter (fun x => !p x) ++ l.filter p).Pairwise R := by
  rw [List.pairwise_append]
  refine ⟨h.filter _, h.filter _, ?_⟩
  intro a ha b hb
  rw [List.mem_filter] at ha hb
  have hne : a ≠ b := by
    rintro rfl
    simp [hb.2] at ha
  obtain ⟨i, hi, rfl⟩ := List.getElem_of_mem ha.1
  obtain ⟨j, hj, rfl⟩ := List.getElem_of_mem hb.1
  rw [List.pairwise_iff_getElem] at h
  rcases Nat.lt_trichotomy i j with hij | rfl | hij
  · exact h i j hi hj hij
  · exact absurd rfl hne
  · exact hs _ _ (h j i hj hi hij)

theorem assignAll_append (C : Classes) (fuel r : ℕ) (A B : List (String × Val)) : ∀ (h : Heap),
    assignAll C fuel r (A ++ B) h = (do
      let h ← assignAll C fuel r A h
      assignAll C fuel r B h) := by
  induction A with
  | nil => intro h; rfl
  | cons e A ih =>
    intro h
    rw [List.cons_append, assignAll, assignAll]
    cases setParams C fuel h r [e] with
    | error e => rfl
    | ok h' => exact ih h'

/-- **C46 (round trip).** After `set_params(**D)` with plain values for existing
plain parameters, at any nesting depth, `get_params()` returns the values set, and
the previous values for every name that addresses none of the attributes set. No
two names in `D` may address the same attribute, which happens only if an object is
reached by two paths. -/
theorem C46_round_trip (C : Classes) (fuel r : ℕ) (D : List (String × Val)) (h : Heap)
    {rank : ℕ → ℕ} (hw : WellNamed h) (hr : Ranked h rank) (hlt : r < h.length)
    (hf : rank r < fuel)
    (hD : ∀ e ∈ D, IsPlain e.2 ∧ ∃ r' k, Addresses h r e.1 r' k)
    (hpair : D.Pairwise
      (fun e e' => ∀ r' k, Addresses h r e.1 r' k → ¬ Addresses h r e'.1 r' k)) :
    ∃ h' q q', setParams C fuel h r D = .ok h' ∧ getParams h fuel r true = .ok q ∧
      getParams h' fuel r true = .ok q' ∧ (∀ e ∈ D, q'.get? e.1 = some e.2) ∧
      (∀ x, (∀ r' k, Addresses h r x r' k → ∀ e ∈ D, ¬ Addresses h r e.1 r' k) →
        q'.get? x = q.get? x) := by
  obtain ⟨n, rfl⟩ : ∃ n, fuel = n + 1 := ⟨fuel - 1, by omega⟩
  have hpub : ∀ e ∈ D, IsPublic e.1 := by
    intro e he
    obtain ⟨_, r', k, ks, v, ex, hre, hpa, _⟩ := hD e he
    rw [ex]
    exact (pathName_public (by simp) (ParamAt.good hw ⟨r', hre, hpa⟩)).1
  have hperm := List.filter_append_perm (fun e : String × Val => !isNestedName e.1) D
  obtain ⟨h', e', hw', hr', hlt', hreach', hset', hother'⟩ := assignAll_plain C (n + 1) r hf
    (D.filter (fun e => !isNestedName e.1) ++ D.filter (fun e => isNestedName e.1)) h hw hr hlt
    (by
      intro e he
      rcases List.mem_append.mp he with he | he
      · exact hD e (List.mem_filter.mp he).1
      · exact hD e (List.mem_filter.mp he).1)
    (pairwise_split (p := fun e : String × Val => isNestedName e.1)
      (fun a b hab r' k h1 h2 => hab r' k h2 h1) hpair)
  obtain ⟨q, eq, _, hq⟩ := getParams_ok hw hr (n + 1) r hlt hf
  obtain ⟨q', eq', _, hq'⟩ := getParams_ok hw' hr' (n + 1) r hlt' hf
  refine ⟨h', q, q', ?_, eq, eq', ?_, ?_⟩
  · rw [C46_sequence C n r D h hpub]
    rw [assignAll_append] at e'
    exact e'
  · intro e he
    obtain ⟨_, r', k, hadd⟩ := hD e he
    have h1 : PublicAttr h' r' k e.2 := by
      refine hset' e ?_ r' k hadd
      by_cases hn : isNestedName e.1 = true
      · exact List.mem_append_right _ (List.mem_filter.mpr ⟨he, hn⟩)
      · exact List.mem_append_left _ (List.mem_filter.mpr ⟨he, by simpa using hn⟩)
    obtain ⟨ks, v, ex, hre, _, _⟩ := hadd
    exact (hq' _ _).mpr ⟨ks, k, ex, r', (hreach' _ _ _).mpr hre, h1⟩
  · intro x hx
    have hsame : ∀ ks k, x = pathName (ks ++ [k]) → ∀ v, ParamAt h' r ks k v ↔
        ParamAt h r ks k v := by
      intro ks k ex v
      have hD' : ∀ r', (∃ v, PublicAttr h r' k v) → Reaches h r ks r' → ∀ e ∈ D,
          ¬ Addresses h r e.1 r' k := by
        rintro r' ⟨u, hu⟩ hre e he hadd
        obtain ⟨_, u', _, _, hpa, hpl⟩ := id hadd
        have := publicAttr_unique hu hpa
        subst this
        exact hx r' k ⟨ks, u, ex, hre, hu, hpl⟩ e he hadd
      have hin : ∀ e ∈ D.filter (fun e => !isNestedName e.1) ++
          D.filter (fun e => isNestedName e.1), e ∈ D := by
        intro e he
        rcases List.mem_append.mp he with he | he
        · exact (List.mem_filter.mp he).1
        · exact (List.mem_filter.mp he).1
      constructor
      · rintro ⟨r', hre, hpa⟩
        have hre' := (hreach' _ _ _).mp hre
        refine ⟨r', hre', ?_⟩
        by_cases hex : ∃ e ∈ D, Addresses h r e.1 r' k
        · obtain ⟨e, he, hadd⟩ := hex
          obtain ⟨_, u', _, _, hpa', _⟩ := id hadd
          exact absurd hadd (hD' r' ⟨u', hpa'⟩ hre' e he)
        · push Not at hex
          exact (hother' r' k (fun e he => hex e (hin e he)) v).mp hpa
      · rintro ⟨r', hre, hpa⟩
        refine ⟨r', (hreach' _ _ _).mpr hre, ?_⟩
        exact (hother' r' k (fun e he => hD' r' ⟨v, hpa⟩ hre e (hin e he)) v).mpr hpa
    apply Option.ext
    intro v
    rw [hq', hq]
    constructor
    · rintro ⟨ks, k, ex, hp⟩
      exact ⟨ks, k, ex, (hsame ks k ex v).mp hp⟩
    · rintro ⟨ks, k, ex, hp⟩
      exact ⟨ks, k, ex, (hsame ks k ex v).mpr hp⟩

/-! ### A concrete case

A fitted `FailSafeClustering` around an estimator with one parameter. -/

/-- `FailSafeClustering` and a clustering with one parameter. -/
def exClasses : Classes
  | "FailSafeClustering" => some ⟨["fit", "get_params", "set_params"],
      ⟨[("clustering", .none), ("verbose", .bool true)]⟩⟩
  | "KMeans" => some ⟨["fit", "get_params", "set_params"], ⟨[("n_clusters", .int 8)]⟩⟩
  | _ => none

/-- The fitted `FailSafeClustering`, at address 1. -/
def exFailSafe : Obj := ⟨"FailSafeClustering", ⟨[("clustering", .obj 0), ("verbose", .bool false),
  ("_clustering", .obj 0), ("_verbose", .bool false), ("labels_", .labels [0, 1])]⟩⟩

/-- The clustering it wraps, at address 0. -/
def exInner : Obj := ⟨"KMeans", ⟨[("n_clusters", .int 3), ("labels_", .labels [0, 1])]⟩⟩

/-- The heap. -/
def exHeap : Heap := [exInner, exFailSafe]

theorem exHeap_named : WellNamed exHeap := by
  intro r o e
  match r, e with
  | 0, e => cases e; decide +kernel
  | 1, e => cases e; decide +kernel
  | r + 2, e => simp [exHeap] at e

theorem exHeap_ranked : Ranked exHeap id := by
  rintro r k r' ⟨o, e, hk, hp⟩
  match r, e with
  | 0, e =>
    cases e
    have := PyDict.mem_of_get?_eq_some hk
    simp [exInner] at this
  | 1, e =>
    cases e
    have := PyDict.mem_of_get?_eq_some hk
    simp [exFailSafe] at this
    rcases this with ⟨-, rfl⟩ | ⟨-, rfl⟩ <;> simp [exHeap]
  | r + 2, e => simp [exHeap] at e

theorem exHeap_init : ParamsByInit exClasses exFailSafe ⟨["fit", "get_params", "set_params"],
    ⟨[("clustering", .none), ("verbose", .bool true)]⟩⟩ := by
  refine ⟨rfl, by decide +kernel, ?_⟩
  intro k hk
  simp only [exFailSafe, PyDict.keys, List.map_cons, List.map_nil, List.mem_cons, List.not_mem_nil]
  constructor
  · rintro (rfl | rfl | rfl | rfl | rfl | h)
    · simp
    · simp
    · exact absurd hk (by decide +kernel)
    · exact absurd hk (by decide +kernel)
    · exact absurd hk (by decide +kernel)
    · exact h.elim
  · rintro (rfl | rfl | h) <;> simp_all

/-- The hypotheses of C45 are met, and the clone shares the wrapped estimator. -/
example : ∃ o', clone exClasses 10 exHeap 1 = .ok (exHeap ++ [o'], 2) ∧
    o'.attrs.items = [("clustering", .obj 0), ("verbose", .bool false)] := by
  obtain ⟨o', q, q', e, _⟩ := C45_clone exHeap_named exHeap_ranked (r := 1) rfl exHeap_init 10
    (by decide)
  refine ⟨o', e, ?_⟩
  have e2 : clone exClasses 10 exHeap 1 = .ok (exHeap ++ [⟨"FailSafeClustering",
    ⟨[("clustering", .obj 0), ("verbose", .bool false)]⟩⟩], 2) := by
    with_unfolding_all rfl
  rw [e2] at e
  simp only [Except.ok.injEq, Prod.mk.injEq, List.append_cancel_left_eq, List.cons.injEq] at e
  rw [← e.1.1]

theorem exHeap_addr_flat : Addresses exHeap 1 "verbose" 1 "verbose" :=
  ⟨[], .bool false, rfl, .nil 1, ⟨exFailSafe, rfl, by with_unfolding_all rfl, by decide +kernel⟩,
    fun _ h => by cases h⟩

theorem exHeap_addr_nested : Addresses exHeap 1 "clustering__n_clusters" 0 "n_clusters" :=
  ⟨["clustering"], .int 3, by decide +kernel,
    .cons ⟨exFailSafe, rfl, by with_unfolding_all rfl, by decide +kernel⟩ (.nil 0),
    ⟨exInner, rfl, by with_unfolding_all rfl, by decide +kernel⟩, fun _ h => by cases h⟩

/-- The hypotheses of the round trip are met by a nested and an un-nested name. -/
example : ∃ h' q', setParams exClasses 10 exHeap 1
      [("clustering__n_clusters", .int 5), ("verbose", .bool true)] = .ok h' ∧
    getParams h' 10 1 true = .ok q' ∧ q'.get? "clustering__n_clusters" = some (.int 5) ∧
    q'.get? "verbose" = some (.bool true) := by
  obtain ⟨h', q, q', e1, _, e2, e3, _⟩ := C46_round_trip exClasses 10 1
    [("clustering__n_clusters", .int 5), ("verbose", .bool true)] exHeap exHeap_named exHeap_ranked
    (by decide) (by decide)
    (by
      intro e he
      simp only [List.mem_cons, List.not_mem_nil, or_false] at he
      rcases he with rfl | rfl
      · exact ⟨(fun _ h => by cases h), 0, "n_clusters", exHeap_addr_nested⟩
      · exact ⟨(fun _ h => by cases h), 1, "verbose", exHeap_addr_flat⟩)
    (by
      refine List.pairwise_cons.mpr ⟨?_, List.pairwise_singleton _ _⟩
      intro e he r' k h1 h2
      simp only [List.mem_cons, List.not_mem_nil, or_false] at he
      subst he
      have hk : ∀ {x r' k r2 k2}, Addresses exHeap 1 x r' k → Addresses exHeap 1 x r2 k2 →
          k = k2 := by
        rintro x r' k r2 k2 ⟨ks, v, rfl, hre, hpa, _⟩ ⟨ks2, v2, ex, hre2, hpa2, _⟩
        have := pathName_inj (by simp) (by simp)
          (ParamAt.good exHeap_named ⟨_, hre, hpa⟩) (ParamAt.good exHeap_named ⟨_, hre2, hpa2⟩) ex
        simpa using (List.append_inj' this (by simp)).2
      have e1 := hk h1 exHeap_addr_nested
      have e2 := hk h2 exHeap_addr_flat
      rw [e1] at e2
      exact absurd e2 (by decide))
  exact ⟨h', q', e1, e2, e3 (_, _) (List.mem_cons_self ..),
    e3 (_, _) (List.mem_cons_of_mem _ (List.mem_cons_self ..))⟩

/-- The hypotheses of C46_unknown_partial are met by `clustering__nonsense`. -/
example : setParams exClasses 10 exHeap 1 [("clustering__nonsense", .int 5)] = .ok exHeap := by
  have := C46_unknown_partial exClasses exHeap_named (r := 1) (ks := ["clustering"])
    (.cons ⟨exFailSafe, rfl, by with_unfolding_all rfl, by decide +kernel⟩ (.nil 0))
    (o := exInner) rfl (k := "nonsense") (by decide +kernel) (by decide +kernel)
    (by intro c hc; cases hc; decide +kernel) [] (by simp) (.int 5) 10 (by decide)
  exact this

/-- The hypotheses of C46_nested_in_plain are met by `verbose__level`. -/
example : setParams exClasses 10 exHeap 1 [("verbose__level", .int 5)] =
    .error .attributeError :=
  C46_nested_in_plain exClasses exHeap_named (r := 1) (ks := []) (.nil 1) (o := exFailSafe) rfl
    (k := "verbose") (v := .bool false) (by with_unfolding_all rfl) (fun _ h => by cases h)
    (by decide +kernel) ["level"] (by simp) (by simp; decide +kernel) (.int 5) 10 (by decide)

/-- **C46 (violation).** `set_params(fit=5)` is not ignored although `fit` is no
parameter: it creates an attribute that hides the method, and is then listed by
`get_params()`. -/
theorem C46_method_name_violation : WellNamed exHeap ∧
    (∀ q, getParams exHeap 10 1 true = .ok q → q.get? "fit" = none) ∧
    ∃ h' q', setParams exClasses 10 exHeap 1 [("fit", .int 5)] = .ok h' ∧
      getParams h' 10 1 true = .ok q' ∧ q'.get? "fit" = some (.int 5) := by
  refine ⟨exHeap_named, ?_, ?_⟩
  · intro q hq
    have : getParams exHeap 10 1 true = .ok ⟨[("clustering", .obj 0),
      ("clustering__n_clusters", .int 3), ("verbose", .bool false)]⟩ := by
      with_unfolding_all rfl
    rw [this] at hq
    cases hq
    with_unfolding_all rfl
  · exact ⟨[exInner, { exFailSafe with attrs := exFailSafe.attrs.set "fit" (.int 5) }],
      ⟨[("clustering", .obj 0), ("clustering__n_clusters", .int 3), ("verbose", .bool false),
        ("fit", .int 5)]⟩, by with_unfolding_all rfl, by with_unfolding_all rfl,
      by with_unfolding_all rfl⟩

end Verif
