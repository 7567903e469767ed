import Verif.Spec.Construct
import Verif.Props.Library

set_option autoImplicit false
set_option linter.unusedSectionVars false

namespace Verif

/-- Assigning a list of attributes. -/
theorem foldl_attr_get? : ∀ (l : List (String × Val)) (d : PyDict String Val),
    (l.map Prod.fst).Nodup → ∀ k, (l.foldl (fun d e => d.set e.1 e.2) d).get? k =
      match l.lookup k with
      | some v => some v
      | none => d.get? k := by
  intro l
  induction l with
  | nil => intro d _ k; rfl
  | cons e t ih =>
    intro d hn k
    obtain ⟨k', v⟩ := e
    rw [List.map_cons, List.nodup_cons] at hn
    rw [List.foldl_cons, ih _ hn.2 k, List.lookup_cons]
    by_cases h : k = k'
    · subst h
      have h0 : t.lookup k = none := by
        rw [List.lookup_eq_none_iff]
        intro p hp
        have : p.1 ∈ t.map Prod.fst := List.mem_map_of_mem hp
        simpa using fun h => hn.1 (by rw [h]; exact this)
      simp [h0]
    · have h2 : (k == k') = false := by simpa using h
      simp only [h2]
      cases t.lookup k with
      | some w => rfl
      | none => simp [PyDict.get?_set, h]

theorem foldl_attr_keys : ∀ (l : List (String × Val)) (d : PyDict String Val),
    (∀ e ∈ l, e.1 ∈ d.keys) → (l.foldl (fun d e => d.set e.1 e.2) d).keys = d.keys := by
  intro l
  induction l with
  | nil => intro d _; rfl
  | cons e t ih =>
    intro d h
    have h1 : (d.set e.1 e.2).keys = d.keys := by
      rw [PyDict.keys_set, if_pos (h e (by simp))]
    rw [List.foldl_cons, ih _ (fun e' he' => by rw [h1]; exact h e' (by simp [he'])), h1]

theorem bindArgs_ok {a : Args} {params : List String} (h : a.Fit params) :
    bindArgs params a = .ok (params.zip a.pos ++ a.kw) := by
  rw [bindArgs, if_neg (not_lt.mpr h.pos)]
  simp only
  rw [if_pos ⟨h.once, fun k hk => by
    obtain ⟨e, he, rfl⟩ := List.mem_map.mp hk
    exact h.known e he⟩]

/-- What the constructor makes. -/
theorem construct_ok {W : World} {cls : String} {c : ClassInfo} (hc : W.classes cls = some c)
    {a : Args} (ha : a.Fit c.init.keys) (h : Heap) :
    ∃ attrs, construct W cls a h = (.ok h.length, h ++ [⟨cls, attrs⟩]) ∧
      attrs.keys = c.init.keys ∧
      ∀ k d, c.init.get? k = some d → attrs.get? k = some (a.value c.init.keys k d) := by
  refine ⟨(c.init.keys.zip a.pos ++ a.kw).foldl (fun d e => d.set e.1 e.2) c.init, ?_, ?_, ?_⟩
  · rw [construct, hc]
    simp only
    rw [bindArgs_ok ha]
    rfl
  · apply foldl_attr_keys
    intro e he
    rcases List.mem_append.mp he with he | he
    · exact (List.of_mem_zip he).1
    · exact ha.known e he
  · intro k d hd
    rw [foldl_attr_get? _ _ ha.once, hd, Args.value]
    cases (c.init.keys.zip a.pos ++ a.kw).lookup k <;> rfl

/-- The value of a parameter is its default or one of the arguments. -/
theorem value_mem (a : Args) (params : List String) (k : String) (d : Val) :
    a.value params k d = d ∨ a.value params k d ∈ a.pos ∨
      (k, a.value params k d) ∈ a.kw := by
  rw [Args.value]
  cases h : (params.zip a.pos ++ a.kw).lookup k with
  | none => exact .inl rfl
  | some v =>
    have : (k, v) ∈ params.zip a.pos ++ a.kw := by
      obtain ⟨l1, l2, h1, h2⟩ := List.lookup_eq_some_iff.mp h
      rw [h1]; simp
    rcases List.mem_append.mp this with h' | h'
    · exact .inr (.inl (List.of_mem_zip h').2)
    · exact .inr (.inr h')

/-- The class assigns its parameters only, with plain defaults. -/
structure PlainClass (c : ClassInfo) : Prop where
  nodup : c.init.keys.Nodup
  names : ∀ k ∈ c.init.keys, IsPublic k → GoodName k
  plain : ∀ k d, c.init.get? k = some d → IsPlain d

/-- Making an object with plain arguments. -/
theorem construct_plain {W : World} {h : Heap} {n : ℕ} (hg : GoodHeap h n) {cls : String}
    {c : ClassInfo} (hc : W.classes cls = some c) (hp : PlainClass c) {a : Args}
    (ha : a.Fit c.init.keys) (hpl : a.Plain) :
    ∃ attrs, construct W cls a h = (.ok h.length, h ++ [⟨cls, attrs⟩]) ∧
      GoodHeap (h ++ [⟨cls, attrs⟩]) n ∧ attrs.keys = c.init.keys ∧
      (∀ k v, attrs.get? k = some v → IsPlain v) ∧
      ∀ k d, c.init.get? k = some d → attrs.get? k = some (a.value c.init.keys k d) := by
  obtain ⟨attrs, h1, h2, h3⟩ := construct_ok hc ha h
  have hplain : ∀ k v, attrs.get? k = some v → IsPlain v := by
    intro k v hv
    have hk : k ∈ c.init.keys := by rw [← h2, ← PyDict.isSome_get?, hv]; rfl
    rw [← PyDict.isSome_get?] at hk
    obtain ⟨d, hd⟩ := Option.isSome_iff_exists.mp hk
    have := h3 k d hd
    rw [hv] at this
    cases this
    rcases value_mem a c.init.keys k d with h | h | h
    · rw [h]; exact hp.plain k d hd
    · exact hpl.1 _ h
    · exact hpl.2 _ h
  refine ⟨attrs, h1, (goodHeap_append hg (o := ⟨cls, attrs⟩) ?_ ?_ ?_).1, h2, hplain, h3⟩
  · change attrs.keys.Nodup; rw [h2]; exact hp.nodup
  · intro k hk; change k ∈ attrs.keys at hk; rw [h2] at hk; exact hp.names k hk
  · intro k b hb _; exact absurd rfl (hplain k _ hb b)

/-- Making an estimator around the object made last, whose attributes are plain. -/
theorem construct_around {W : World} {h : Heap} {n : ℕ} (hn : 2 ≤ n) {o : Obj}
    (hg : GoodHeap (h ++ [o]) n) (ho : ∀ k v, o.attrs.get? k = some v → IsPlain v) {cls : String}
    {c : ClassInfo} (hc : W.classes cls = some c) (hp : PlainClass c) {kw : List (String × Val)}
    (ha : (⟨[.obj h.length], kw⟩ : Args).Fit c.init.keys) (hpl : ∀ e ∈ kw, IsPlain e.2) :
    ∃ attrs, construct W cls ⟨[.obj h.length], kw⟩ (h ++ [o]) =
        (.ok (h ++ [o]).length, h ++ [o] ++ [⟨cls, attrs⟩]) ∧
      GoodHeap (h ++ [o] ++ [⟨cls, attrs⟩]) n ∧ attrs.keys = c.init.keys ∧
      ∀ k d, c.init.get? k = some d → attrs.get? k =
        some ((⟨[.obj h.length], kw⟩ : Args).value c.init.keys k d) := by
  obtain ⟨attrs, h1, h2, h3⟩ := construct_ok hc ha (h ++ [o])
  refine ⟨attrs, h1, (goodHeap_append hg (o := ⟨cls, attrs⟩) ?_ ?_ ?_).1, h2, h3⟩
  · change attrs.keys.Nodup; rw [h2]; exact hp.nodup
  · intro k hk; change k ∈ attrs.keys at hk; rw [h2] at hk; exact hp.names k hk
  · intro k b hb _
    change attrs.get? k = _ at hb
    have hk : k ∈ c.init.keys := by rw [← h2, ← PyDict.isSome_get?, hb]; rfl
    rw [← PyDict.isSome_get?] at hk
    obtain ⟨d, hd⟩ := Option.isSome_iff_exists.mp hk
    have e := h3 k d hd
    rw [hb] at e
    have hbl : b = h.length := by
      rcases value_mem ⟨[.obj h.length], kw⟩ c.init.keys k d with h' | h' | h'
      · rw [h'] at e
        cases e
        exact absurd rfl (hp.plain k _ hd b)
      · rw [← Option.some.inj e] at h'
        simpa using h'
      · rw [← Option.some.inj e] at h'
        exact absurd rfl (hpl _ h' b)
    subst hbl
    refine ⟨by simp, fun ks d' hre => ?_⟩
    cases hre with
    | nil => simpa using (show 1 < n by omega)
    | cons hp' _ =>
      obtain ⟨oa, ea, hv, _⟩ := hp'
      simp at ea
      subst ea
      exact absurd rfl (ho _ _ hv _)

/-- Python's `MapperAlgorithm`. -/
def algInfo : ClassInfo := ⟨"fit_transform" :: commonMembers, ⟨[("cover", .none), ("clustering", .none),
      ("failsafe", .bool true), ("verbose", .bool true), ("n_jobs", .int 1)]⟩⟩

def clusInfo : ClassInfo :=
  ⟨commonMembers, ⟨[("cover", .none), ("clustering", .none), ("n_jobs", .int 1)]⟩⟩

theorem classes_alg (W : World) : W.classes "MapperAlgorithm" = some algInfo := by
  simp [World.classes, algInfo]

theorem classes_clus (W : World) : W.classes "MapperClustering" = some clusInfo := by
  simp [World.classes, clusInfo]

theorem plain_of_items {c : ClassInfo} (h : ∀ e ∈ c.init.items, ∀ r, e.2 ≠ .obj r) :
    ∀ k d, c.init.get? k = some d → IsPlain d := fun k d hd => h (k, d) (PyDict.mem_of_get?_eq_some hd)

theorem algInfo_plain : PlainClass algInfo where
  nodup := by decide +kernel
  names := by decide +kernel
  plain := plain_of_items (by simp [algInfo])

theorem clusInfo_plain : PlainClass clusInfo where
  nodup := by decide +kernel
  names := by decide +kernel
  plain := plain_of_items (by simp [clusInfo])

theorem ballInit_plain : PlainClass ⟨coverMembers, ballInit⟩ where
  nodup := by decide +kernel
  names := by decide +kernel
  plain := plain_of_items (by simp [ballInit])

theorem knnInit_plain : PlainClass ⟨coverMembers, knnInit⟩ where
  nodup := by decide +kernel
  names := by decide +kernel
  plain := plain_of_items (by simp [knnInit])

theorem cubicalInit_plain : PlainClass ⟨coverMembers, cubicalInit⟩ where
  nodup := by decide +kernel
  names := by decide +kernel
  plain := plain_of_items (by simp [cubicalInit])

theorem baseCubicalInit_plain : PlainClass ⟨coverMembers, baseCubicalInit⟩ where
  nodup := by decide +kernel
  names := by decide +kernel
  plain := plain_of_items (by simp [baseCubicalInit])

theorem AlgKwargs.lookup_none {kw : List (String × Val)} (h : AlgKwargs kw) {k : String}
    (hk : k ≠ "failsafe" ∧ k ≠ "verbose" ∧ k ≠ "n_jobs") : kw.lookup k = none := by
  rw [List.lookup_eq_none_iff]
  intro e he
  have := h.known e he
  suffices k ≠ e.1 by simpa using this
  rintro rfl
  rcases this with h | h | h
  · exact hk.1 h
  · exact hk.2.1 h
  · exact hk.2.2 h

theorem AlgKwargs.fit_cover {kw : List (String × Val)} (h : AlgKwargs kw) (v : Val) :
    (⟨[v], kw⟩ : Args).Fit algInfo.init.keys where
  pos := by simp [algInfo, PyDict.keys]
  once := by
    change ("cover" :: kw.map Prod.fst).Nodup
    rw [List.nodup_cons]
    refine ⟨fun hm => ?_, h.once⟩
    obtain ⟨e, he, h1⟩ := List.mem_map.mp hm
    rcases h.known e he with h2 | h2 | h2 <;> rw [h1] at h2 <;> exact absurd h2 (by decide)
  known e he := by
    rcases h.known e he with h2 | h2 | h2 <;> rw [h2] <;> decide

theorem AlgKwargs.fit_none {kw : List (String × Val)} (h : AlgKwargs kw) :
    (⟨[], kw⟩ : Args).Fit algInfo.init.keys where
  pos := by simp
  once := h.once
  known e he := by
    rcases h.known e he with h2 | h2 | h2 <;> rw [h2] <;> decide

/-- The state in which `MapperAlgorithm(cls(a), **kw)` is fitted. -/
theorem algorithm_of {W : World} {h : Heap} {n : ℕ} (hn : 2 ≤ n) (hg : GoodHeap h n) {cls : String}
    {c : ClassInfo} (hc : W.classes cls = some c) (hp : PlainClass c) {a : Args}
    (ha : a.Fit c.init.keys) (hpl : a.Plain) {kw : List (String × Val)} (hkw : AlgKwargs kw) :
    ∃ h2 r o failsafe,
      (∀ fuel X y, mapperCoverProgram W fuel cls a kw X y h = mapperFitTransform W fuel r X y h2) ∧
      GoodHeap h2 n ∧ h2[h.length]? = some o ∧ o.cls = cls ∧
      (∀ k d, c.init.get? k = some d → o.attrs.get? k = some (a.value c.init.keys k d)) ∧
      IsAlgorithm W h2 r (.obj h.length) .none failsafe := by
  obtain ⟨attrs, h1, h2, h3, h4, h5⟩ := construct_plain hg hc hp ha hpl
  obtain ⟨at2, k1, k2, k3, k4⟩ := construct_around hn h2 h4 (classes_alg W) algInfo_plain
    (hkw.fit_cover (.obj h.length)) hkw.plain
  have hcov : (h ++ [⟨cls, attrs⟩] ++ [⟨"MapperAlgorithm", at2⟩])[h.length]? = some ⟨cls, attrs⟩ := by
    simp
  refine ⟨_, (h ++ [(⟨cls, attrs⟩ : Obj)]).length, ⟨cls, attrs⟩, _, fun fuel X y => ?_, k2, hcov, rfl, h5, ⟨⟨"MapperAlgorithm", at2⟩,
    _, _, ?_, rfl, ?_, ?_, k4 "failsafe" _ rfl, k4 "verbose" _ rfl, k4 "n_jobs" _ rfl, ?_,
    .inr ⟨_, _, c, rfl, hcov, hc, hp.nodup, fun k _ => by rw [h3]⟩, .inl rfl, fun r h => by cases h⟩⟩
  · rw [mapperCoverProgram, run_bind, h1]
    simp only
    rw [run_bind, k1]
  · rw [List.getElem?_append_right (le_refl _)]; simp
  · exact k4 "cover" _ rfl
  · rw [k4 "clustering" _ rfl]
    have : (⟨[.obj h.length], kw⟩ : Args).value algInfo.init.keys "clustering" .none =
      (kw.lookup "clustering").getD .none := rfl
    rw [this, hkw.lookup_none (by decide)]
    rfl
  · have : (⟨[.obj h.length], kw⟩ : Args).value algInfo.init.keys "verbose" (.bool true) =
      (kw.lookup "verbose").getD (.bool true) := rfl
    rw [this]
    cases e : kw.lookup "verbose" with
    | none => intro r h; cases h
    | some v =>
      obtain ⟨l1, l2, e1, _⟩ := List.lookup_eq_some_iff.mp e
      exact hkw.plain ("verbose", v) (by rw [e1]; simp)

/-- The state in which `MapperAlgorithm(**kw)` is fitted. -/
theorem algorithm_of_none {W : World} {h : Heap} {n : ℕ} (hg : GoodHeap h n)
    {kw : List (String × Val)} (hkw : AlgKwargs kw) :
    ∃ h2 r failsafe,
      (∀ fuel X y, mapperProgram W fuel kw X y h = mapperFitTransform W fuel r X y h2) ∧
      GoodHeap h2 n ∧ IsAlgorithm W h2 r .none .none failsafe := by
  obtain ⟨at2, k1, k2, k3, k0, k4⟩ := construct_plain hg (classes_alg W) algInfo_plain
    hkw.fit_none ⟨by simp, hkw.plain⟩
  refine ⟨_, h.length, _, fun fuel X y => ?_, k2, ⟨⟨"MapperAlgorithm", at2⟩,
    _, _, ?_, rfl, ?_, ?_, k4 "failsafe" _ rfl, k4 "verbose" _ rfl, k4 "n_jobs" _ rfl,
    k0 _ _ (k4 "verbose" _ rfl), .inl rfl, .inl rfl, fun r h => by cases h⟩⟩
  · rw [mapperProgram, run_bind, k1]
  · simp
  · rw [k4 "cover" _ rfl]
    have : (⟨[], kw⟩ : Args).value algInfo.init.keys "cover" .none =
      (kw.lookup "cover").getD .none := rfl
    rw [this, hkw.lookup_none (by decide)]
    rfl
  · rw [k4 "clustering" _ rfl]
    have : (⟨[], kw⟩ : Args).value algInfo.init.keys "clustering" .none =
      (kw.lookup "clustering").getD .none := rfl
    rw [this, hkw.lookup_none (by decide)]
    rfl

theorem labels_run {W : World} {fuel r : ℕ} {X : Input} {y : Option Input} {h2 : Heap} {l : List ℤ}
    (q1 : (mapperClusteringFit W fuel r X y h2).1 = .ok ())
    (q2 : attrAt (mapperClusteringFit W fuel r X y h2).2 r "labels_" = some (.labels l)) :
    ((do
      mapperClusteringFit W fuel r X y
      readAttr r "labels_" : Eff Val) h2).1 = .ok (.labels l) := by
  rw [run_bind]
  cases e : mapperClusteringFit W fuel r X y h2 with
  | mk res h3 =>
    rw [e] at q1 q2
    simp only at q1 q2
    subst q1
    simp only
    rw [attrAt] at q2
    cases eo : h3[r]? with
    | none => rw [eo] at q2; cases q2
    | some o =>
      rw [eo] at q2
      rw [run_readAttr_some eo q2]

/-- The state in which `MapperClustering(cls(a))` is fitted. -/
theorem clustering_of {W : World} {h : Heap} {n : ℕ} (hn : 2 ≤ n) (hg : GoodHeap h n) {cls : String}
    {c : ClassInfo} (hc : W.classes cls = some c) (hp : PlainClass c) {a : Args}
    (ha : a.Fit c.init.keys) (hpl : a.Plain) :
    ∃ h2 r o,
      (∀ fuel X y l, (mapperClusteringFit W fuel r X y h2).1 = .ok () →
        attrAt (mapperClusteringFit W fuel r X y h2).2 r "labels_" = some (.labels l) →
        (clusteringCoverProgram W fuel cls a X y h).1 = .ok (.labels l)) ∧
      GoodHeap h2 n ∧ h2[h.length]? = some o ∧ o.cls = cls ∧
      (∀ k d, c.init.get? k = some d → o.attrs.get? k = some (a.value c.init.keys k d)) ∧
      IsMapperClustering W h2 r (.obj h.length) .none := by
  obtain ⟨attrs, h1, h2, h3, h4, h5⟩ := construct_plain hg hc hp ha hpl
  obtain ⟨at2, k1, k2, k3, k4⟩ := construct_around hn h2 h4 (classes_clus W) clusInfo_plain
    (kw := []) ⟨by simp [clusInfo, PyDict.keys], by simp [clusInfo, PyDict.keys], by simp⟩ (by simp)
  have hcov : (h ++ [⟨cls, attrs⟩] ++ [⟨"MapperClustering", at2⟩])[h.length]? = some ⟨cls, attrs⟩ := by
    simp
  refine ⟨_, (h ++ [(⟨cls, attrs⟩ : Obj)]).length, ⟨cls, attrs⟩, fun fuel X y l q1 q2 => ?_, k2, hcov, rfl, h5,
    ⟨⟨"MapperClustering", at2⟩, _, ?_, rfl, k4 "cover" _ rfl, k4 "clustering" _ rfl,
      k4 "n_jobs" _ rfl,
    .inr ⟨_, _, c, rfl, hcov, hc, hp.nodup, fun k _ => by rw [h3]⟩, .inl rfl, fun r h => by cases h⟩⟩
  · rw [clusteringCoverProgram, run_bind, h1]
    simp only
    rw [run_bind, k1]
    exact labels_run q1 q2
  · simp

/-- The state in which `MapperClustering()` is fitted. -/
theorem clustering_of_none {W : World} {h : Heap} {n : ℕ} (hg : GoodHeap h n) :
    ∃ h2 r,
      (∀ fuel X y l, (mapperClusteringFit W fuel r X y h2).1 = .ok () →
        attrAt (mapperClusteringFit W fuel r X y h2).2 r "labels_" = some (.labels l) →
        (clusteringProgram W fuel X y h).1 = .ok (.labels l)) ∧
      GoodHeap h2 n ∧ IsMapperClustering W h2 r .none .none := by
  obtain ⟨at2, k1, k2, k3, k0, k4⟩ := construct_plain hg (classes_clus W) clusInfo_plain
    (a := ⟨[], []⟩) ⟨by simp, by decide, by simp⟩ ⟨by simp, by simp⟩
  refine ⟨_, h.length, fun fuel X y l q1 q2 => ?_, k2, ⟨⟨"MapperClustering", at2⟩, _, ?_, rfl,
    k4 "cover" _ rfl, k4 "clustering" _ rfl, k4 "n_jobs" _ rfl, .inl rfl, .inl rfl,
    fun r h => by cases h⟩⟩
  · rw [clusteringProgram, run_bind, k1]
    exact labels_run q1 q2
  · simp

theorem trivial_wellFormed {n : ℕ} (h : 0 < n) : WellFormedCharts n [List.range n] := by
  intro chart hc
  rw [List.mem_singleton] at hc
  subst hc
  exact ⟨by simp; omega, List.nodup_range, fun i hi => List.mem_range.mp hi⟩

theorem trivial_lists {k : ℕ} (B : List (Fin k → ℚ)) :
    ListsExactly (realRows B) (fun _ => True) (List.range B.length) := by
  have hlen : (realRows B).length = B.length := by simp [realRows]
  refine ⟨List.nodup_range, fun j => ?_⟩
  rw [List.mem_range, ← hlen]
  constructor
  · intro h; exact ⟨_, List.getElem?_eq_getElem h, trivial⟩
  · rintro ⟨z, hz, -⟩; exact (List.getElem?_eq_some_iff.mp hz).1

/-- A region that contains all rows. -/
theorem IsRegionGraph.all {T : Type} {g : NxGraph} {Y : List T} {P : T → Prop}
    (h : IsRegionGraph g Y [P]) (hP : ∀ z ∈ Y, P z) : IsRegionGraph g Y [fun _ => True] where
  node := h.node
  ends := h.ends
  attr c Q hQ := by
    have hc : c = 0 := by
      have := (List.getElem?_eq_some_iff.mp hQ).1
      simpa using this
    subst hc
    cases hQ
    obtain ⟨ids, h1, h2, h3, h4, h5⟩ := h.attr 0 P rfl
    refine ⟨ids, h1, h2, h3, h4, fun j => (h5 j).trans ?_⟩
    constructor
    · rintro ⟨z, hz, -⟩; exact ⟨z, hz, trivial⟩
    · rintro ⟨z, hz, -⟩; exact ⟨z, hz, hP z (List.mem_of_getElem? hz)⟩
  adj c c' Q Q' hQ hQ' := by
    have hc : c = 0 := by
      have := (List.getElem?_eq_some_iff.mp hQ).1
      simpa using this
    have hc' : c' = 0 := by
      have := (List.getElem?_eq_some_iff.mp hQ').1
      simpa using this
    subst hc
    subst hc'
    have := h.adj 0 0 P P rfl rfl
    simp only [ne_eq, not_true_eq_false, false_and, iff_false] at this ⊢
    exact this

/-- With one interval there is one cell. -/
theorem one_cell {k : ℕ} {lo hi x : Fin k → ℝ} {cell : Fin k → ℤ} (h : IsCell lo hi 1 x cell) :
    cell = fun _ => 0 := by
  funext i
  by_cases hs : Spread lo hi i
  · obtain ⟨h1, h2, _⟩ := (h i).1 hs
    have : cell i < 1 := by exact_mod_cast h2
    omega
  · exact (h i).2 hs

end Verif
