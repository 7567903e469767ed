import Verif.Proof.Reproducible
import Verif.Props.Nerve
import Verif.Spec.Append

set_option autoImplicit false
set_option linter.unusedSectionVars false

namespace Verif

variable {S T : Type}

theorem centres_congr (res res' : ℕ → List ℕ) : ∀ (cnt i : ℕ) (cov cov' : List ℕ),
    (∀ j, i ≤ j → j < i + cnt → (j ∈ cov ↔ j ∈ cov')) →
    (∀ k j, i ≤ k → k < i + cnt → j < i + cnt → (j ∈ res k ↔ j ∈ res' k)) →
    centres res i cnt cov = centres res' i cnt cov' := by
  intro cnt
  induction cnt with
  | zero => intro i cov cov' _ _; rfl
  | succ cnt ih =>
    intro i cov cov' hc hr
    have hi := hc i (le_refl _) (by omega)
    simp only [centres]
    by_cases h : i ∈ cov
    · rw [if_pos h, if_pos (hi.mp h)]
      exact ih (i + 1) cov cov' (fun j h1 h2 => hc j (by omega) (by omega))
        (fun k j h1 h2 h3 => hr k j (by omega) (by omega) (by omega))
    · rw [if_neg h, if_neg (fun h' => h (hi.mpr h'))]
      congr 1
      refine ih (i + 1) _ _ (fun j h1 h2 => ?_)
        (fun k j h1 h2 h3 => hr k j (by omega) (by omega) (by omega))
      rw [List.mem_append, List.mem_append, hc j (by omega) (by omega),
        hr i j (le_refl _) (by omega) (by omega)]

theorem centres_append (res : ℕ → List ℕ) (b : ℕ) : ∀ (a i : ℕ) (cov : List ℕ),
    ∃ cov', centres res i (a + b) cov = centres res i a cov ++ centres res (i + a) b cov' := by
  intro a
  induction a with
  | zero => intro i cov; exact ⟨cov, by simp [centres]⟩
  | succ a ih =>
    intro i cov
    rw [show a + 1 + b = (a + b) + 1 by omega]
    simp only [centres]
    split
    · obtain ⟨cov', h⟩ := ih (i + 1) cov
      exact ⟨cov', by rw [h, show i + 1 + a = i + (a + 1) by omega]⟩
    · obtain ⟨cov', h⟩ := ih (i + 1) (cov ++ res i)
      exact ⟨cov', by rw [h, show i + 1 + a = i + (a + 1) by omega, List.cons_append]⟩

/-- The charts of a proximity net keep those of a shorter dataset. -/
theorem proximityNet_append {F F' : Type} {fit : List T → Py F} {search : F → T → Py (List ℕ)}
    {fit' : List T → Py F'} {search' : F' → T → Py (List ℕ)} {X Z : List T} {f : F} {f' : F'}
    (h : fit X = .ok f) (h' : fit' (X ++ Z) = .ok f') (res res' : ℕ → List ℕ)
    (hr : ∀ i x, X[i]? = some x → search f x = .ok (res i))
    (hr' : ∀ i x, (X ++ Z)[i]? = some x → search' f' x = .ok (res' i))
    (hs : ∀ i, i < X.length → i ∈ res i) (hs' : ∀ i, i < (X ++ Z).length → i ∈ res' i)
    (ha : ∀ i j, i < X.length → j < X.length → (j ∈ res i ↔ j ∈ res' i)) :
    ∃ out out', proximityNet fit search X = .ok out ∧
      proximityNet fit' search' (X ++ Z) = .ok out' ∧ ChartsExtend X.length id out out' ∧
      ((∀ j, X.length ≤ j → j < (X ++ Z).length →
        ∃ i, i < X.length ∧ ∀ k, k < (X ++ Z).length → (i ∈ res' k ↔ j ∈ res' k)) →
        out'.length = out.length) := by
  obtain ⟨cov', hap⟩ := centres_append res' Z.length X.length 0 []
  have hcong := centres_congr res res' X.length 0 [] [] (by simp)
    (fun k j _ h2 h3 => ha k j (by omega) (by omega))
  rw [← hcong] at hap
  have hlt : ∀ i ∈ centres res 0 X.length [], i < X.length := fun i hi => by
    have := centres_ge res _ _ _ i hi; omega
  have hlt' : ∀ i ∈ centres res' 0 (X.length + Z.length) [], i < (X ++ Z).length := fun i hi => by
    have := centres_ge res' _ _ _ i hi; rw [List.length_append]; omega
  have hne : ∀ (r : ℕ → List ℕ) (l : List ℕ), (∀ i ∈ l, i ∈ r i) →
      (l.map r).filter (fun l => l ≠ []) = l.map r := by
    intro r l hl
    rw [List.filter_eq_self]
    intro a ha
    obtain ⟨i, hi, rfl⟩ := List.mem_map.mp ha
    have := hl i hi
    simp only [decide_eq_true_eq]
    intro h0; rw [h0] at this; simp at this
  refine ⟨(centres res 0 X.length []).map res,
    (centres res' 0 (X.length + Z.length) []).map res', ?_, ?_, ?_, ?_⟩
  · rw [proximityNet, h, ok_bind, proximityLoop_ok search f res X 0 []
      (fun k x hk => by simpa using hr k x hk),
      hne res _ (fun i hi => hs i (hlt i hi))]
  · rw [proximityNet, h', ok_bind, proximityLoop_ok search' f' res' (X ++ Z) 0 []
      (fun k x hk => by simpa using hr' k x hk), List.length_append,
      hne res' _ (fun i hi => hs' i (hlt' i hi))]
  · constructor
    · intro c ids hc
      rw [List.getElem?_map, Option.map_eq_some_iff] at hc
      obtain ⟨i, hi, rfl⟩ := hc
      refine ⟨res' i, ?_, fun j hj => (ha i j (hlt i (List.mem_of_getElem? hi)) hj).symm⟩
      rw [hap, id, List.getElem?_map, List.getElem?_append_left (getElem?_lt hi), hi]
      rfl
    · intro c c' _ _ h; exact h
  · intro hz
    rw [List.length_map, List.length_map, hap, List.length_append]
    suffices hnil : centres res' (0 + X.length) Z.length cov' = [] by rw [hnil]; simp
    rw [List.eq_nil_iff_forall_not_mem]
    intro j hj
    have hj' : j ∈ centres res' 0 (X.length + Z.length) [] := by
      rw [hap]; exact List.mem_append_right _ hj
    have hge := centres_ge res' _ _ _ j hj
    have hjl := hlt' j hj'
    obtain ⟨i, hi, htwin⟩ := hz j (by omega) hjl
    have hno := (mem_centres res' _ 0 [] j).mp hj'
    have hcovd : ∃ k ∈ centres res' 0 (X.length + Z.length) [], k < j ∧ i ∈ res' k := by
      by_cases hic : i ∈ centres res' 0 (X.length + Z.length) []
      · exact ⟨i, hic, by omega, hs' i (by rw [List.length_append]; omega)⟩
      · have : ¬ (0 ≤ i ∧ i < 0 + (X.length + Z.length) ∧ i ∉ [] ∧
            ∀ k ∈ centres res' 0 (X.length + Z.length) [], k < i → i ∉ res' k) :=
          fun hh => hic ((mem_centres res' _ 0 [] i).mpr hh)
        have : ¬ ∀ k ∈ centres res' 0 (X.length + Z.length) [], k < i → i ∉ res' k :=
          fun hh => this ⟨by omega, by omega, by simp, hh⟩
        simp only [not_forall, not_not] at this
        obtain ⟨k, hk, hki, hm⟩ := this
        exact ⟨k, hk, by omega, hm⟩
    obtain ⟨k, hk, hkj, hm⟩ := hcovd
    exact hno.2.2.2 k hk hkj ((htwin k (hlt' k hk)).mp hm)

/-- The graph and the components of charts that extend other charts, with the trivial
clustering. -/
theorem ChartsExtend.result {n : ℕ} {κ : ℕ → ℕ} {charts charts' : List (List ℕ)}
    (hx : ChartsExtend n κ charts charts') {X X' : List S} {y y' : List T}
    {cover cover' : CoverFn T} (hc : cover y = .ok charts) (hc' : cover' y' = .ok charts')
    (hn : X.length = n) (hnn : n ≤ X'.length) (hw : WellFormedCharts X.length charts)
    (hw' : WellFormedCharts X'.length charts') (hcov : Covers X.length charts)
    (hcov' : Covers X'.length charts') (order order' : List ℤ → List ℤ)
    (ho : ∀ l L, L ∈ order l ↔ L ∈ l) (ho' : ∀ l L, L ∈ order' l ↔ L ∈ l) :
    ∃ g g' out out', mapperGraph X y cover (fun _ => trivialClustering) = .ok g ∧
      mapperGraph X' y' cover' (fun _ => trivialClustering) = .ok g' ∧
      GraphExtends n κ g g' ∧
      mapperConnectedComponents order X y cover (fun _ => trivialClustering) = .ok out ∧
      mapperConnectedComponents order' X' y' cover' (fun _ => trivialClustering) = .ok out' ∧
      ComponentsExtend n out out' ∧
      (∀ u, g.IsNode u ↔ ∃ c : ℕ, c < charts.length ∧ u = c) ∧
      (∀ u, g'.IsNode u ↔ ∃ c : ℕ, c < charts'.length ∧ u = c) ∧
      (∀ (c : ℕ) ids, charts'[c]? = some ids → ∃ l,
        g'.nodes.get? c = some ⟨some l.length, some l⟩ ∧ ∀ i, i ∈ l ↔ i ∈ ids) := by
  subst hn
  obtain ⟨g, e, hg⟩ := C75_nerve X y cover charts hc hw
  obtain ⟨g', e', hg'⟩ := C75_nerve X' y' cover' charts' hc' hw'
  obtain ⟨out, e2, hl, hcc⟩ := C76_cover_chains X y cover charts hc hw hcov order ho
  obtain ⟨out', e2', hl', hcc'⟩ := C76_cover_chains X' y' cover' charts' hc' hw' hcov' order' ho'
  have hnode : ∀ c : ℕ, g.IsNode c ↔ c < charts.length := by
    intro c
    rw [hg.node]
    constructor
    · rintro ⟨c', h, h2⟩; have : c = c' := by exact_mod_cast h2
      omega
    · intro h; exact ⟨c, h, rfl⟩
  refine ⟨g, g', out, out', e, e', ⟨?_, ?_, ?_, ?_⟩, e2, e2', ?_, hg.node, hg'.node, ?_⟩
  · intro c h
    obtain ⟨ids, hids⟩ := lt_getElem? ((hnode c).mp h)
    obtain ⟨ids', h1, _⟩ := hx.chart c ids hids
    rw [hg'.node]
    exact ⟨κ c, getElem?_lt h1, rfl⟩
  · intro c c' h h' heq
    exact hx.inj c c' ((hnode c).mp h) ((hnode c').mp h') heq
  · intro c h
    obtain ⟨ids, hids⟩ := lt_getElem? ((hnode c).mp h)
    obtain ⟨ids', h1, h2⟩ := hx.chart c ids hids
    obtain ⟨l, a1, a2, a3⟩ := hg.attr c ids hids
    obtain ⟨l', b1, b2, b3⟩ := hg'.attr (κ c) ids' h1
    refine ⟨l, l', by rw [a1, a3.length_eq], by rw [b1, b3.length_eq], ?_⟩
    refine sorted_eq a2 (b2.filter _) fun i => ?_
    rw [List.mem_filter, b3.mem_iff, a3.mem_iff]
    constructor
    · intro hi
      have := (hw ids (List.mem_of_getElem? hids)).2.2 i hi
      exact ⟨(h2 i this).mpr hi, by simpa using this⟩
    · rintro ⟨h3, h4⟩
      exact (h2 i (by simpa using h4)).mp h3
  · intro c c' h h' hadj
    obtain ⟨ids, hids⟩ := lt_getElem? ((hnode c).mp h)
    obtain ⟨ids2, hids2⟩ := lt_getElem? ((hnode c').mp h')
    obtain ⟨ids', h1, h2⟩ := hx.chart c ids hids
    obtain ⟨ids2', h3, h4⟩ := hx.chart c' ids2 hids2
    obtain ⟨hne, i, hi, hi2⟩ := (hg.adj c c' ids ids2 hids hids2).mp hadj
    have hin := (hw ids (List.mem_of_getElem? hids)).2.2 i hi
    exact (hg'.adj (κ c) (κ c') ids' ids2' h1 h3).mpr
      ⟨fun heq => hne (hx.inj c c' (getElem?_lt hids) (getElem?_lt hids2) heq), i,
        (h2 i hin).mpr hi, (h4 i hin).mpr hi2⟩
  · intro i j hi hj heq
    rw [hcc' i j (by omega) (by omega)]
    refine Relation.ReflTransGen.mono ?_ _ _ ((hcc i j hi hj).mp heq)
    rintro a b ⟨chart, h1, h2, h3⟩
    obtain ⟨c, hc1⟩ := List.mem_iff_getElem?.mp h1
    obtain ⟨ids', h4, h5⟩ := hx.chart c chart hc1
    exact ⟨ids', List.mem_of_getElem? h4, (h5 a ((hw chart h1).2.2 a h2)).mpr h2,
      (h5 b ((hw chart h1).2.2 b h3)).mpr h3⟩
  · intro c ids h
    obtain ⟨l, b1, _, b3⟩ := hg'.attr c ids h
    exact ⟨l, by rw [b1, b3.length_eq], fun i => b3.mem_iff⟩

theorem ListsExactly.append {X Z : List T} {P : T → Prop} {l l' : List ℕ}
    (h : ListsExactly X P l) (h' : ListsExactly (X ++ Z) P l') (j : ℕ) (hj : j < X.length) :
    j ∈ l ↔ j ∈ l' := by
  rw [h.2, h'.2, List.getElem?_append_left hj]

section ball
variable {R : Type} [AddCommGroup R] [LinearOrder R] [IsOrderedAddMonoid R]

theorem ball_append (c c' : BallCover T R) (H : BallOK c.params) (H' : BallOK c'.params)
    (hm : c.params.metric = c'.params.metric) (hrad : c.params.radius = c'.params.radius)
    (h0 : 0 < c.params.radius) (ρ ρ' : ℕ → ℕ) (X Z : List T) :
    ∃ out out', c.apply ρ X = .ok out ∧ c'.apply ρ' (X ++ Z) = .ok out' ∧
      ChartsExtend X.length id out out' ∧
      ((∀ z ∈ Z, ∃ x ∈ X, c.params.metric x z = 0) → out'.length = out.length) := by
  obtain ⟨d, h1, h2⟩ := ballFit_ok c H.metric H.kind H.capacity ρ X
  obtain ⟨d', h1', h2'⟩ := ballFit_ok c' H'.metric H'.kind H'.capacity ρ' (X ++ Z)
  rw [← hm, ← hrad] at h2'
  -- the search results by index
  have hres : ∀ i : ℕ, ∃ l, ∀ x, X[i]? = some x → d.search x = .ok l ∧
      ListsExactly X (fun z => c.params.metric x z < c.params.radius) l := by
    intro i
    cases hx : X[i]? with
    | none => exact ⟨[], by simp⟩
    | some x =>
      obtain ⟨l, hl⟩ := h2 (List.ne_nil_of_mem (List.mem_of_getElem? hx)) x
      exact ⟨l, fun x' hx' => by cases hx'; exact hl⟩
  have hres' : ∀ i : ℕ, ∃ l, ∀ x, (X ++ Z)[i]? = some x → d'.search x = .ok l ∧
      ListsExactly (X ++ Z) (fun z => c.params.metric x z < c.params.radius) l := by
    intro i
    cases hx : (X ++ Z)[i]? with
    | none => exact ⟨[], by simp⟩
    | some x =>
      obtain ⟨l, hl⟩ := h2' (List.ne_nil_of_mem (List.mem_of_getElem? hx)) x
      exact ⟨l, fun x' hx' => by cases hx'; exact hl⟩
  choose res hres using hres
  choose res' hres' using hres'
  obtain ⟨out, out', e, e', h3, h4⟩ := proximityNet_append h1 h1' res res'
    (fun i x hx => (hres i x hx).1) (fun i x hx => (hres' i x hx).1)
    (fun i hi => by
      obtain ⟨x, hx⟩ := lt_getElem? hi
      rw [((hres i x hx).2).2]
      exact ⟨x, hx, by simpa only [H.metric.self] using h0⟩)
    (fun i hi => by
      obtain ⟨x, hx⟩ := lt_getElem? hi
      rw [((hres' i x hx).2).2]
      exact ⟨x, hx, by simpa only [H.metric.self] using h0⟩)
    (fun i j hi hj => by
      obtain ⟨x, hx⟩ := lt_getElem? hi
      exact ((hres i x hx).2).append (hres' i x (by rw [List.getElem?_append_left hi, hx])).2 j hj)
  refine ⟨out, out', e, e', h3, fun hz => h4 fun j hj hj' => ?_⟩
  obtain ⟨z, hzj⟩ := lt_getElem? hj'
  have hzZ : z ∈ Z := by
    rw [List.getElem?_append_right hj] at hzj
    exact List.mem_of_getElem? hzj
  obtain ⟨x, hxX, hd0⟩ := hz z hzZ
  obtain ⟨i, hi⟩ := List.mem_iff_getElem?.mp hxX
  have hil := getElem?_lt hi
  have hi' : (X ++ Z)[i]? = some x := by rw [List.getElem?_append_left hil, hi]
  refine ⟨i, hil, fun k hk => ?_⟩
  obtain ⟨q, hq⟩ := lt_getElem? hk
  have hq' := (hres' k q hq).2
  rw [hq'.2, hq'.2]
  have hdist : c.params.metric q x = c.params.metric q z := by
    apply le_antisymm
    · have := H.metric.triangle q z x
      rw [H.metric.symm z x, hd0, add_zero] at this
      exact this
    · have := H.metric.triangle q x z
      rw [hd0, add_zero] at this
      exact this
  constructor
  · rintro ⟨a, ha, hlt⟩
    rw [hi'] at ha; cases ha
    exact ⟨z, hzj, lt_of_eq_of_lt hdist.symm hlt⟩
  · rintro ⟨a, ha, hlt⟩
    rw [hzj] at ha; cases ha
    exact ⟨x, hi', lt_of_eq_of_lt hdist hlt⟩

end ball

section cubical
variable {R : Type} [Field R] [LinearOrder R] [FloorRing R] [IsStrictOrderedRing R] {m : ℕ}

omit [FloorRing R] [IsStrictOrderedRing R] in
theorem IsBounds.append {X Z : List (Fin m → R)} {lo hi : Fin m → R} (h : IsBounds X lo hi)
    (hz : ∀ z ∈ Z, ∀ i, lo i ≤ z i ∧ z i ≤ hi i) : IsBounds (X ++ Z) lo hi := by
  intro i
  obtain ⟨⟨a, ha, ha'⟩, ⟨b, hb, hb'⟩, hall⟩ := h i
  refine ⟨⟨a, List.mem_append_left _ ha, ha'⟩, ⟨b, List.mem_append_left _ hb, hb'⟩, fun x hx => ?_⟩
  rcases List.mem_append.mp hx with hx | hx
  · exact hall x hx
  · exact hz x hx i

omit [FloorRing R] [IsStrictOrderedRing R] in
theorem GridOK.eq_of_bounds {g g' : Grid m R} {X X' : List (Fin m → R)} {n : ℕ} {p : R}
    (h : GridOK g X n p) (h' : GridOK g' X' n p) (e1 : g.lo = g'.lo) (e2 : g.hi = g'.hi) :
    g = g' := by
  have h3 : g.delta = g'.delta := by
    funext i
    rw [h.delta_eq, h'.delta_eq, e1, e2]
  have h4 := h.n_eq.trans h'.n_eq.symm
  have h5 := h.p_eq.trans h'.p_eq.symm
  cases g; cases g'
  simp only at e1 e2 h3 h4 h5
  subst e1 e2 h3 h4 h5
  rfl

omit [IsStrictOrderedRing R] in
theorem setList_new {κ ν : Type} [DecidableEq κ] (k : κ) (v : ν) : ∀ (l : List (κ × ν)),
    k ∉ l.map Prod.fst → PyDict.setList l k v = l ++ [(k, v)] := by
  intro l
  induction l with
  | nil => intro _; rfl
  | cons e t ih =>
    intro h
    simp only [List.map_cons, List.mem_cons, not_or] at h
    obtain ⟨k', v'⟩ := e
    simp only [PyDict.setList]
    rw [if_neg (fun hh => h.1 (by simpa using hh.symm)), ih h.2]
    rfl

omit [IsStrictOrderedRing R] in
theorem landmarksLoop_append (c : CubCover m R) (Z : List (Fin m → R)) : ∀ (X : List (Fin m → R)) lm,
    landmarksLoop c lm (X ++ Z) = landmarksLoop c lm X >>= fun lm' => landmarksLoop c lm' Z := by
  intro X
  induction X with
  | nil => intro lm; rfl
  | cons x xs ih =>
    intro lm
    simp only [List.cons_append, landmarksLoop]
    cases c.fitted with
    | none => rfl
    | some f =>
      simp only
      split
      · exact ih _
      · exact ih _

omit [IsStrictOrderedRing R] in
theorem landmarksLoop_prefix (c : CubCover m R) : ∀ (Z : List (Fin m → R)) lm lm',
    landmarksLoop c lm Z = .ok lm' → ∃ extra, lm'.items = lm.items ++ extra ∧
      ∀ e ∈ extra, ∃ f, c.fitted = some f ∧ e.1 ∉ lm.keys ∧ ∃ z ∈ Z, e.1 = (f.grid.getCenter z).1 := by
  intro Z
  induction Z with
  | nil => intro lm lm' h; cases h; exact ⟨[], by simp, by simp⟩
  | cons z zs ih =>
    intro lm lm' h
    simp only [landmarksLoop] at h
    cases hc : c.fitted with
    | none => rw [hc] at h; cases h
    | some f =>
      rw [hc] at h
      simp only at h
      split at h
      · obtain ⟨extra, h1, h2⟩ := ih _ _ h
        refine ⟨extra, h1, fun e he => ?_⟩
        obtain ⟨f', h3, h4, z', h5, h6⟩ := h2 e he
        exact ⟨f', by rw [← hc, h3], h4, z', List.mem_cons_of_mem _ h5, h6⟩
      · rename_i hnot
        obtain ⟨extra, h1, h2⟩ := ih _ _ h
        have hk : (f.grid.getCenter z).1 ∉ lm.keys := fun hh =>
          hnot ((PyDict.contains_iff _ _).mpr hh)
        have hset : (lm.set (f.grid.getCenter z).1 z).items =
            lm.items ++ [((f.grid.getCenter z).1, z)] := setList_new _ _ _ hk
        refine ⟨((f.grid.getCenter z).1, z) :: extra, by rw [h1, hset]; simp, fun e he => ?_⟩
        rcases List.mem_cons.mp he with rfl | he
        · exact ⟨f, rfl, hk, z, by simp, rfl⟩
        · obtain ⟨f', h3, h4, z', h5, h6⟩ := h2 e he
          refine ⟨f', by rw [← hc, h3], fun hh => h4 ?_, z', List.mem_cons_of_mem _ h5, h6⟩
          rw [PyDict.keys, hset, List.map_append]
          exact List.mem_append_left _ hh

/-- Two fits, of a dataset and of a longer one within the same bounds. -/
theorem cubFit_append (dflt dflt' : ℕ → R) (c c' : CubCover m R) (ρ ρ' : ℕ → ℕ)
    (X Z : List (Fin m → R)) (hX : X ≠ []) (p : R) (H : CubOK dflt m c.params p)
    (H' : CubOK dflt' m c'.params p) (hn : c.params.nIntervals = c'.params.nIntervals)
    (lo hi : Fin m → R) (hb : IsBounds X lo hi) (hz : ∀ z ∈ Z, ∀ i, lo i ≤ z i ∧ z i ≤ hi i) :
    ∃ (d d' : CubCover m R) (fd fd' : CubFit m R) (f f' : (Fin m → R) → List ℕ),
      c.fit dflt ρ X = .ok d ∧ c'.fit dflt' ρ' (X ++ Z) = .ok d' ∧ d.fitted = some fd ∧
      d'.fitted = some fd' ∧ fd.grid = fd'.grid ∧ (∀ x, d.search x = .ok (f x)) ∧
      (∀ x, d'.search x = .ok (f' x)) ∧
      (∀ x j, j < X.length → (j ∈ f x ↔ j ∈ f' x)) ∧
      (∀ (i : ℕ) x, X[i]? = some x → i ∈ f x) ∧ (∀ (i : ℕ) x, (X ++ Z)[i]? = some x → i ∈ f' x) ∧
      (∀ (i j : ℕ) z, (X ++ Z)[i]? = some z → (X ++ Z)[j]? = some z → ∀ x, i ∈ f' x ↔ j ∈ f' x) := by
  obtain ⟨d, g, b, f, h1, hd, hg, hf, hl, _, hs⟩ := cubFitted dflt c ρ X hX p H
  obtain ⟨d', g', b', f', h1', hd', hg', hf', hl', _, hs'⟩ :=
    cubFitted dflt' c' ρ' (X ++ Z) (by simp [hX]) p H'
  rw [← hn] at hg' hl'
  obtain ⟨e1, e2⟩ := hg.bounds.unique hb
  obtain ⟨e1', e2'⟩ := hg'.bounds.unique (hb.append hz)
  have := hg.eq_of_bounds hg' (by rw [e1, e1']) (by rw [e2, e2'])
  subst this
  refine ⟨d, d', ⟨g, b, decide (1 / 2 < p)⟩, ⟨g, b', decide (1 / 2 < p)⟩, f, f', h1, h1', by rw [hd],
    by rw [hd'], rfl, hf, hf', fun x j hj => (hl x).append (hl' x) j hj, hs, hs', ?_⟩
  intro i j z hi hj x
  rw [(hl' x).2, (hl' x).2, hi, hj]

theorem applyProximity_append (dflt dflt' : ℕ → R) (c c' : CubCover m R) (ρ ρ' : ℕ → ℕ)
    (X Z : List (Fin m → R)) (hX : X ≠ []) (p : R) (H : CubOK dflt m c.params p)
    (H' : CubOK dflt' m c'.params p) (hn : c.params.nIntervals = c'.params.nIntervals)
    (lo hi : Fin m → R) (hb : IsBounds X lo hi) (hz : ∀ z ∈ Z, ∀ i, lo i ≤ z i ∧ z i ≤ hi i) :
    ∃ out out', c.applyProximity dflt ρ X = .ok out ∧
      c'.applyProximity dflt' ρ' (X ++ Z) = .ok out' ∧ ChartsExtend X.length id out out' ∧
      ((∀ z ∈ Z, z ∈ X) → out'.length = out.length) := by
  obtain ⟨d, d', _, _, f, f', h1, h1', _, _, _, hf, hf', hp, hs, hs', htw⟩ :=
    cubFit_append dflt dflt' c c' ρ ρ' X Z hX p H H' hn lo hi hb hz
  let pt : ℕ → (Fin m → R) := fun i => ((X ++ Z)[i]?).getD lo
  have hpt : ∀ (i : ℕ) x, (X ++ Z)[i]? = some x → pt i = x := by
    intro i x hx; simp only [pt, hx, Option.getD_some]
  have hleft : ∀ (i : ℕ) x, X[i]? = some x → (X ++ Z)[i]? = some x := by
    intro i x hx; rw [List.getElem?_append_left (getElem?_lt hx), hx]
  obtain ⟨out, out', e, e', h3, h4⟩ := proximityNet_append (search := CubCover.search)
    (search' := CubCover.search) h1 h1' (fun i => f (pt i))
    (fun i => f' (pt i))
    (fun i x hx => by rw [hpt i x (hleft i x hx)]; exact hf x)
    (fun i x hx => by rw [hpt i x hx]; exact hf' x)
    (fun i hi => by
      obtain ⟨x, hx⟩ := lt_getElem? hi
      simp only [hpt i x (hleft i x hx)]; exact hs i x hx)
    (fun i hi => by
      obtain ⟨x, hx⟩ := lt_getElem? hi
      simp only [hpt i x hx]; exact hs' i x hx)
    (fun i j _ hj => hp _ j hj)
  refine ⟨out, out', e, e', h3, fun hzz => h4 fun j hj hj' => ?_⟩
  obtain ⟨z, hzj⟩ := lt_getElem? hj'
  have hzZ : z ∈ Z := by
    rw [List.getElem?_append_right hj] at hzj
    exact List.mem_of_getElem? hzj
  obtain ⟨i, hi⟩ := List.mem_iff_getElem?.mp (hzz z hzZ)
  exact ⟨i, getElem?_lt hi, fun k _ => htw i j z (hleft i z hi) hzj _⟩

theorem applyStandard_append (dflt dflt' : ℕ → R) (c c' : CubCover m R) (ρ ρ' : ℕ → ℕ)
    (X Z : List (Fin m → R)) (hX : X ≠ []) (p : R) (H : CubOK dflt m c.params p)
    (H' : CubOK dflt' m c'.params p) (hn : c.params.nIntervals = c'.params.nIntervals)
    (lo hi : Fin m → R) (hb : IsBounds X lo hi) (hz : ∀ z ∈ Z, ∀ i, lo i ≤ z i ∧ z i ≤ hi i) :
    ∃ out out' e, c.applyStandard dflt ρ X = .ok out ∧
      c'.applyStandard dflt' ρ' (X ++ Z) = .ok out' ∧
      out'.length = e + out.length ∧ ChartsExtend X.length (fun k => e + k) out out' ∧
      ((∀ z ∈ Z, z ∈ X) → e = 0) := by
  obtain ⟨d, d', fd, fd', f, f', h1, h1', hd, hd', hg, hf, hf', hp, hs, hs', htw⟩ :=
    cubFit_append dflt dflt' c c' ρ ρ' X Z hX p H H' hn lo hi hb hz
  obtain ⟨lm, e1, hnd, hit, _, hkeys⟩ := landmarksLoop_ok d fd hd X X PyDict.empty (fun _ h => h)
    (by simp [PyDict.keys, PyDict.empty]) (by simp [PyDict.empty])
  obtain ⟨lm', e1', _, hit', _, _⟩ := landmarksLoop_ok d' fd' hd' (X ++ Z) (X ++ Z) PyDict.empty
    (fun _ h => h) (by simp [PyDict.keys, PyDict.empty]) (by simp [PyDict.empty])
  have e3 : landmarksLoop d' PyDict.empty X = .ok lm := by
    rw [← landmarksLoop_congr d d' fd fd' hd hd' hg]; exact e1
  have e4 : landmarksLoop d' lm Z = .ok lm' := by
    have := e1'
    rw [landmarksLoop_append, e3, ok_bind] at this
    exact this
  obtain ⟨extra, h5, h6⟩ := landmarksLoop_prefix d' Z lm lm' e4
  have e2 := standardLoop_ok d f hf lm.items (lm.items.length + 1) (by omega)
  have e2' := standardLoop_ok d' f' hf' lm'.items (lm'.items.length + 1) (by omega)
  have hne : (lm.items.reverse.map (fun e => f e.2)).filter (fun l => l ≠ []) =
      lm.items.reverse.map (fun e => f e.2) := by
    rw [List.filter_eq_self]
    intro l hl'
    obtain ⟨e, he, rfl⟩ := List.mem_map.mp hl'
    obtain ⟨i, hi⟩ := List.mem_iff_getElem?.mp (hit e (List.mem_reverse.mp he)).2
    have := hs i e.2 hi
    simp only [decide_eq_true_eq]
    intro h0; rw [h0] at this; simp at this
  have hne' : (lm'.items.reverse.map (fun e => f' e.2)).filter (fun l => l ≠ []) =
      lm'.items.reverse.map (fun e => f' e.2) := by
    rw [List.filter_eq_self]
    intro l hl'
    obtain ⟨e, he, rfl⟩ := List.mem_map.mp hl'
    obtain ⟨i, hi⟩ := List.mem_iff_getElem?.mp (hit' e (List.mem_reverse.mp he)).2
    have := hs' i e.2 hi
    simp only [decide_eq_true_eq]
    intro h0; rw [h0] at this; simp at this
  refine ⟨lm.items.reverse.map (fun e => f e.2), lm'.items.reverse.map (fun e => f' e.2),
    extra.length, ?_, ?_, ?_, ⟨?_, ?_⟩, ?_⟩
  · unfold CubCover.applyStandard
    simp only [h1, ok_bind, e1]
    rw [← hne]; exact e2
  · unfold CubCover.applyStandard
    simp only [h1', ok_bind, e1']
    rw [← hne']; exact e2'
  · rw [h5]; simp
  · intro k ids hk
    rw [List.getElem?_map, Option.map_eq_some_iff] at hk
    obtain ⟨e, he, rfl⟩ := hk
    refine ⟨f' e.2, ?_, fun j hj => (hp e.2 j hj).symm⟩
    rw [h5, List.reverse_append, List.map_append, List.getElem?_append_right (by simp)]
    simp only [List.length_map, List.length_reverse, Nat.add_sub_cancel_left, List.getElem?_map, he]
    rfl
  · intro k k' _ _ h; simpa using h
  · intro hzz
    rw [List.length_eq_zero_iff, List.eq_nil_iff_forall_not_mem]
    intro e he
    obtain ⟨f1, h7, h8, z, h9, h10⟩ := h6 e he
    rw [hd'] at h7; cases h7
    apply h8
    rw [h10, Grid.getCenter, ← hg]
    exact hkeys z (hzz z h9)

end cubical

end Verif
