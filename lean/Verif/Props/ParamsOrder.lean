import Verif.Proof.ParamsOrder

/-!
# C117: The order of the parameters in a call of `set_params`

`Unambiguous`, `withParams` and `ownParams` are in `Verif.Spec.ParamsOrder`.
-/

set_option autoImplicit false
set_option linter.unusedSectionVars false

namespace Verif

/-- **C117.** `set_params(**D)`, with parameters of the object itself, estimators among them, and with
plain parameters of the nested estimators it has then, does the same for every order of `D`; and
`get_params()` then returns the values set. -/
theorem C117_order_partial (C : Classes) {fuel r : ℕ} {h : Heap} {D D' : List (String × Val)}
    (hw : WellNamed h) (hlt : r < h.length) {rank : ℕ → ℕ}
    (hr : Ranked (withParams h r (ownParams D)) rank) (hf : rank r < fuel)
    (hD : Unambiguous h r D) (hp : D.Perm D') :
    ∃ h' q, setParams C fuel h r D = .ok h' ∧ setParams C fuel h r D' = .ok h' ∧
      getParams h' fuel r true = .ok q ∧ ∀ e ∈ D, q.get? e.1 = some e.2 := by
  obtain ⟨o, eo⟩ : ∃ o, h[r]? = some o := ⟨h[r], List.getElem?_eq_getElem hlt⟩
  obtain ⟨hw1, e1⟩ := setParams_unambiguous C hw hlt (by omega : 0 < fuel) hD
  obtain ⟨_, e2⟩ := setParams_unambiguous C hw hlt (by omega : 0 < fuel) (hD.perm hw hlt hp)
  have hlt1 : r < (withParams h r (ownParams D)).length := by
    rw [withParams_eq _ eo, List.length_set]; exact hlt
  obtain ⟨h', e3, hw', hr', hlt', hreach, hset, hother⟩ := assignAll_plain C fuel r hf
    (nestedParams D) _ hw1 hr hlt1 hD.nested hD.apart
  have hpn : (nestedParams D).Perm (nestedParams D') := hp.filter _
  rw [withParams_perm hw hlt hp hD, ← assignAll_perm C hf hpn hw1 hr ⟨hD.nested, hD.apart⟩] at e2
  obtain ⟨q, eq, _, hq⟩ := getParams_ok hw' hr' fuel r hlt' hf
  refine ⟨h', q, e1.trans e3, e2.trans e3, eq, ?_⟩
  intro e he
  rw [hq]
  by_cases hx : isNestedName e.1 = true
  · have hm : e ∈ nestedParams D := List.mem_filter.mpr ⟨he, hx⟩
    obtain ⟨_, r', k, had⟩ := hD.nested e hm
    have h1 := hset e hm r' k had
    obtain ⟨ks, v, ex, hre, _, _⟩ := had
    exact ⟨ks, k, ex, r', (hreach _ _ _).mpr hre, h1⟩
  · have hm : e ∈ ownParams D := List.mem_filter.mpr ⟨he, by simpa using hx⟩
    obtain ⟨v, hv⟩ := hD.own e hm
    refine ⟨[], e.1, rfl, paramAt_nil.mpr ((hother r e.1 ?_ e.2).mpr ?_)⟩
    · intro e' he' had
      obtain ⟨k0, ks, b, hp0, hre⟩ := addresses_nested hw1 (List.mem_filter.mp he').2 had
      have h2 := (hr _ _ _ hp0).2
      have h3 := hre.rank_le hr
      omega
    · exact publicAttr_withParams eo (hD.once.sublist (List.filter_sublist.map _)) hm (hv.good hw).1

/-- **C117.** `a.set_params(**b.get_params())`, the parameters being in any order, gives `a` the
parameters of `b`, nested ones included, and changes no other object. The two have parameters of the same
names, and `b` does not contain `a`. -/
theorem C117_copy (C : Classes) {fuel a b : ℕ} {h : Heap} (hw : WellNamed h) {rank : ℕ → ℕ}
    (hr : Ranked h rank) (hf : rank b < fuel) {oa ob : Obj} (ea : h[a]? = some oa)
    (eb : h[b]? = some ob) (hsame : ∀ k, IsPublic k → (k ∈ oa.attrs.keys ↔ k ∈ ob.attrs.keys))
    (hno : ∀ ks, ¬ Reaches h b ks a) {q : PyDict String Val}
    (hq : getParams h fuel b true = .ok q) {D : List (String × Val)} (hD : q.items.Perm D) :
    ∃ h', setParams C fuel h a D = .ok h' ∧
      (∀ ks k v, ParamAt h' a ks k v ↔ ParamAt h b ks k v) ∧
      (∀ r, r ≠ a → h'[r]? = h[r]?) ∧
      ∀ o', h'[a]? = some o' → o'.cls = oa.cls ∧
        ∀ k, ¬ IsPublic k → o'.attrs.get? k = oa.attrs.get? k := by
  have ha := lt_of_getElem? ea
  have hb := lt_of_getElem? eb
  obtain ⟨n, rfl⟩ : ∃ n, fuel = n + 1 := ⟨fuel - 1, by omega⟩
  obtain ⟨q', eq', hn, hspec⟩ := getParams_ok hw hr (n + 1) b hb hf
  rw [hq] at eq'
  cases eq'
  have hmem : ∀ e ∈ D, ∃ ks k, e.1 = pathName (ks ++ [k]) ∧ ParamAt h b ks k e.2 := by
    rintro ⟨x, v⟩ he
    exact (hspec x v).mp (PyDict.get?_eq_some_of_mem hn (hD.mem_iff.mpr he))
  have hnD : (D.map Prod.fst).Nodup := (hD.map _).nodup_iff.mp hn
  have hown : ∀ e ∈ ownParams D, PublicAttr h b e.1 e.2 := by
    intro e he
    obtain ⟨he, hx⟩ := List.mem_filter.mp he
    obtain ⟨ks, k, ex, hp⟩ := hmem e he
    cases ks with
    | nil =>
      rw [ex]
      exact paramAt_nil.mp hp
    | cons k0 ks =>
      exfalso
      simp only [isNestedName, Bool.not_eq_true', decide_eq_false_iff_not] at hx
      apply hx
      rw [ex, List.cons_append, pathName_cons _ (by simp)]
      exact ⟨k0.toList, (pathName (ks ++ [k])).toList, by simp⟩
  have hownL : ∀ e ∈ ownParams D, GoodName e.1 ∧ e.1 ∈ oa.attrs.keys := by
    intro e he
    have hp := hown e he
    refine ⟨hp.good hw, ?_⟩
    obtain ⟨o1, e1, e2, hpub⟩ := hp
    rw [eb] at e1
    cases e1
    exact (hsame _ hpub).mpr ((PyDict.isSome_get? _ _).mp (by rw [e2]; rfl))
  obtain ⟨o', ho'⟩ : ∃ o' : Obj, o' = { oa with
    attrs := (ownParams D).foldl (fun d p => d.set p.1 p.2) oa.attrs } := ⟨_, rfl⟩
  have hnO : ((ownParams D).map Prod.fst).Nodup := hnD.sublist (List.filter_sublist.map _)
  have hkeys : o'.attrs.keys = oa.attrs.keys := by
    rw [ho']; exact foldl_set_keys _ _ fun e he => (hownL e he).2
  have hpub : ∀ k, IsPublic k → o'.attrs.get? k = ob.attrs.get? k := by
    intro k hk
    by_cases hm : k ∈ ob.attrs.keys
    · obtain ⟨v, hv⟩ := Option.isSome_iff_exists.mp ((PyDict.isSome_get? _ _).mpr hm)
      rw [hv, ho']
      refine (foldl_set_lookup _ hnO oa.attrs k).1 v (List.mem_filter.mpr ⟨hD.mem_iff.mp
        (PyDict.mem_of_get?_eq_some ((hspec k v).mpr ⟨[], k, rfl, paramAt_nil.mpr ⟨ob, eb, hv, hk⟩⟩)), ?_⟩)
      have := ((hw b ob eb).2 k hm hk).2.2
      simpa [isNestedName] using this
    · rw [(PyDict.get?_eq_none _ _).mpr hm, (PyDict.get?_eq_none _ _).mpr]
      rw [hkeys]
      exact fun h1 => hm ((hsame k hk).mp h1)
  have hpriv : ∀ k, ¬ IsPublic k → o'.attrs.get? k = oa.attrs.get? k := by
    intro k hk
    rw [ho']
    refine (foldl_set_lookup _ hnO oa.attrs k).2 ?_
    intro hm
    obtain ⟨e, he, rfl⟩ := List.mem_map.mp hm
    exact hk (hownL e he).1.1
  have hw' : WellNamed (h.set a o') := by
    rw [ho'] at hkeys ⊢
    exact wellNamed_set hw ea hkeys
  have hpa := paramAt_of_same (oa := o') ha eb hno hpub
  refine ⟨h.set a o', ?_, hpa, ?_, ?_⟩
  · rw [C46_sequence]
    · rw [show (D.filter fun e => !isNestedName e.1) = ownParams D from rfl,
        assignAll_flat C n _ ea hownL, ← ho']
      refine assignAll_noop C (n + 1) _ ?_
      rintro ⟨x, v⟩ he
      obtain ⟨ks, k, ex, hp⟩ := hmem _ (List.mem_filter.mp he).1
      simp only at ex
      subst ex
      refine setParams_noop C hw' ((hpa ks k v).mpr hp) (n + 1) ?_
      obtain ⟨r', hre, _⟩ := hp
      have := hre.rank_le hr
      omega
    · intro e he
      obtain ⟨ks, k, ex, hp⟩ := hmem e he
      rw [ex]
      exact (pathName_public (by simp) (hp.good hw)).1
  · intro r hne
    rw [List.getElem?_set_ne (Ne.symm hne)]
  · intro o2 e2
    rw [List.getElem?_set_self ha] at e2
    cases e2
    exact ⟨by rw [ho'], hpriv⟩

/-! ### Concrete cases -/

/-- Two clusterings, a `FailSafeClustering` around the first one, another around that. -/
def deepHeap : Heap :=
  [⟨"KMeans", ⟨[("n_clusters", .int 3)]⟩⟩,
   ⟨"KMeans", ⟨[("n_clusters", .int 4)]⟩⟩,
   ⟨"FailSafeClustering", ⟨[("clustering", .obj 0), ("verbose", .bool false)]⟩⟩,
   ⟨"FailSafeClustering", ⟨[("clustering", .obj 2), ("verbose", .bool false)]⟩⟩]

theorem deepHeap_named : WellNamed deepHeap := by
  intro r o e
  match r, e with
  | 0, e => cases e; decide +kernel
  | 1, e => cases e; decide +kernel
  | 2, e => cases e; decide +kernel
  | 3, e => cases e; decide +kernel
  | r + 4, e => simp [deepHeap] at e

/-- The call of the example: another clustering and the number of its clusters. -/
def swapParams : List (String × Val) := [("clustering__n_clusters", .int 5), ("clustering", .obj 1)]

theorem swapParams_heap : withParams deepHeap 2 (ownParams swapParams) =
    [⟨"KMeans", ⟨[("n_clusters", .int 3)]⟩⟩, ⟨"KMeans", ⟨[("n_clusters", .int 4)]⟩⟩,
     ⟨"FailSafeClustering", ⟨[("clustering", .obj 1), ("verbose", .bool false)]⟩⟩,
     ⟨"FailSafeClustering", ⟨[("clustering", .obj 2), ("verbose", .bool false)]⟩⟩] := by
  with_unfolding_all rfl

theorem swapParams_own : ownParams swapParams = [("clustering", .obj 1)] := by
  with_unfolding_all rfl

theorem swapParams_nested : nestedParams swapParams = [("clustering__n_clusters", .int 5)] := by
  with_unfolding_all rfl

/-- The hypotheses of C117_order_partial are met by a call that replaces the clustering and sets a
parameter of the new one, the parameter being given first. -/
theorem swapParams_unambiguous : Unambiguous deepHeap 2 swapParams := by
  refine ⟨by decide +kernel, ?_, ?_, ?_⟩
  · rw [swapParams_own]
    intro e he
    obtain rfl : e = ("clustering", .obj 1) := by simpa using he
    exact ⟨.obj 0, _, rfl, by with_unfolding_all rfl, by decide +kernel⟩
  · rw [swapParams_heap, swapParams_nested]
    intro e he
    obtain rfl : e = ("clustering__n_clusters", Val.int 5) := by simpa using he
    refine ⟨(fun _ h => by cases h), 1, "n_clusters", ["clustering"], .int 4, by decide +kernel,
      .cons ⟨_, rfl, by with_unfolding_all rfl, by decide +kernel⟩ (.nil 1),
      ⟨_, rfl, by with_unfolding_all rfl, by decide +kernel⟩, fun _ h => by cases h⟩
  · rw [swapParams_nested]
    exact List.pairwise_singleton _ _

theorem swapParams_ranked : Ranked (withParams deepHeap 2 (ownParams swapParams)) id := by
  rw [swapParams_heap]
  rintro r k r' ⟨o, e, hk, hp⟩
  have hm := PyDict.mem_of_get?_eq_some hk
  match r, e with
  | 0, e => cases e; simp at hm
  | 1, e => cases e; simp at hm
  | 2, e => cases e; simp at hm; rcases hm with ⟨-, rfl⟩; simp
  | 3, e => cases e; simp at hm; rcases hm with ⟨-, rfl⟩; simp
  | r + 4, e => simp at e

/-- In both orders the new clustering gets the number of clusters. -/
example : ∃ h' q, setParams exClasses 10 deepHeap 2 swapParams = .ok h' ∧
    setParams exClasses 10 deepHeap 2 [("clustering", .obj 1), ("clustering__n_clusters", .int 5)] = .ok h' ∧
    getParams h' 10 2 true = .ok q ∧ q.get? "clustering" = some (.obj 1) ∧
    q.get? "clustering__n_clusters" = some (.int 5) := by
  obtain ⟨h', q, e1, e2, e3, e4⟩ := C117_order_partial exClasses (fuel := 10) deepHeap_named
    (by decide) swapParams_ranked (by decide) swapParams_unambiguous (List.Perm.swap _ _ [])
  exact ⟨h', q, e1, e2, e3, e4 ("clustering", .obj 1) (by simp [swapParams]),
    e4 ("clustering__n_clusters", .int 5) (by simp [swapParams])⟩

/-- **C117 (violation).** One level deeper the order matters. For a `FailSafeClustering` around another
one, a call that replaces the innermost clustering and sets its number of clusters does so only if
the clustering is given first. Given last, it has its own number of clusters after the call, and
the clustering that was replaced has been changed instead. -/
theorem C117_order_violation :
    (∃ h' q, setParams exClasses 10 deepHeap 3 [("clustering__clustering", .obj 1),
        ("clustering__clustering__n_clusters", .int 5)] = .ok h' ∧
      getParams h' 10 3 true = .ok q ∧ q.get? "clustering__clustering" = some (.obj 1) ∧
      q.get? "clustering__clustering__n_clusters" = some (.int 5) ∧
      PublicAttr h' 0 "n_clusters" (.int 3)) ∧
    (∃ h' q, setParams exClasses 10 deepHeap 3 [("clustering__clustering__n_clusters", .int 5),
        ("clustering__clustering", .obj 1)] = .ok h' ∧
      getParams h' 10 3 true = .ok q ∧ q.get? "clustering__clustering" = some (.obj 1) ∧
      q.get? "clustering__clustering__n_clusters" = some (.int 4) ∧
      PublicAttr h' 0 "n_clusters" (.int 5)) := by
  refine ⟨?_, ?_⟩
  · exact ⟨[⟨"KMeans", ⟨[("n_clusters", .int 3)]⟩⟩, ⟨"KMeans", ⟨[("n_clusters", .int 5)]⟩⟩,
      ⟨"FailSafeClustering", ⟨[("clustering", .obj 1), ("verbose", .bool false)]⟩⟩,
      ⟨"FailSafeClustering", ⟨[("clustering", .obj 2), ("verbose", .bool false)]⟩⟩],
      ⟨[("clustering", .obj 2), ("clustering__clustering", .obj 1),
        ("clustering__clustering__n_clusters", .int 5), ("clustering__verbose", .bool false),
        ("verbose", .bool false)]⟩, by with_unfolding_all rfl, by with_unfolding_all rfl,
      by with_unfolding_all rfl, by with_unfolding_all rfl,
      ⟨_, rfl, by with_unfolding_all rfl, by decide +kernel⟩⟩
  · exact ⟨[⟨"KMeans", ⟨[("n_clusters", .int 5)]⟩⟩, ⟨"KMeans", ⟨[("n_clusters", .int 4)]⟩⟩,
      ⟨"FailSafeClustering", ⟨[("clustering", .obj 1), ("verbose", .bool false)]⟩⟩,
      ⟨"FailSafeClustering", ⟨[("clustering", .obj 2), ("verbose", .bool false)]⟩⟩],
      ⟨[("clustering", .obj 2), ("clustering__clustering", .obj 1),
        ("clustering__clustering__n_clusters", .int 4), ("clustering__verbose", .bool false),
        ("verbose", .bool false)]⟩, by with_unfolding_all rfl, by with_unfolding_all rfl,
      by with_unfolding_all rfl, by with_unfolding_all rfl,
      ⟨_, rfl, by with_unfolding_all rfl, by decide +kernel⟩⟩

theorem deepHeap_ranked : Ranked deepHeap id := by
  rintro r k r' ⟨o, e, hk, hp⟩
  have hm := PyDict.mem_of_get?_eq_some hk
  match r, e with
  | 0, e => cases e; simp at hm
  | 1, e => cases e; simp at hm
  | 2, e => cases e; simp at hm; rcases hm with ⟨-, rfl⟩; simp [deepHeap]
  | 3, e => cases e; simp at hm; rcases hm with ⟨-, rfl⟩; simp [deepHeap]
  | r + 4, e => simp [deepHeap] at e

/-- The hypotheses of C117_copy are met by the two `FailSafeClustering` objects: the outer one gets the
parameters of the inner one, with nested ones given first. -/
example : ∃ h', setParams exClasses 10 deepHeap 3 [("verbose", .bool false),
      ("clustering__n_clusters", .int 3), ("clustering", .obj 0)] = .ok h' ∧
    PublicAttr h' 3 "clustering" (.obj 0) := by
  obtain ⟨h', e, hp, _⟩ := C117_copy exClasses (fuel := 10) (a := 3) (b := 2) deepHeap_named
    deepHeap_ranked (by decide) rfl rfl (fun k _ => Iff.rfl)
    (fun ks hre => absurd (hre.rank_le deepHeap_ranked) (by simp))
    (q := ⟨[("clustering", .obj 0), ("clustering__n_clusters", .int 3), ("verbose", .bool false)]⟩)
    (by with_unfolding_all rfl)
    (D := [("verbose", .bool false), ("clustering__n_clusters", .int 3), ("clustering", .obj 0)])
    (List.reverse_perm [("verbose", Val.bool false), ("clustering__n_clusters", Val.int 3),
      ("clustering", Val.obj 0)])
  refine ⟨h', e, paramAt_nil.mp ((hp [] "clustering" (.obj 0)).mpr (paramAt_nil.mpr ?_))⟩
  exact ⟨_, rfl, by with_unfolding_all rfl, by decide +kernel⟩

end Verif
