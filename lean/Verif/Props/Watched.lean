import Verif.Spec.Watched
import Verif.Props.Threads

/-!
# C126: estimators that are read while they are fitted

Several threads fit estimators, as in C120, and other threads look at them in the meantime. Reading an
attribute changes nothing, so what can be read is what is on the heap after any part of a schedule.
-/

set_option autoImplicit false
set_option linter.unusedSectionVars false

namespace Verif

section
variable {W : World} (hW : Contract W) {S : FitSteps} (hS : Implements W S) {n fuel : ℕ}
  (hn : 2 ≤ n) (hf : n ≤ fuel) {h : Heap} (hg : GoodHeap h n) {calls : List FitCall}
  (hd : (calls.map FitCall.target).Nodup) (hc : ∀ c ∈ calls, c.Separate W h)

include hW hS hn hf hg hd hc

/-- **C126.** At every moment of every schedule, `graph_` of a `MapperAlgorithm` that is being fitted is the one from
before, or the whole graph of its own data. Only part of the property: with the new graph there may still be the number
of features from before, see `C126_features_violation`. -/
theorem C126_graph_partial {sched : List ℕ} {c' : Threads}
    (hr : (Threads.start W S fuel calls h).follow sched = some c') {i r : ℕ} {X : Input} {y : Option Input}
    (hi : calls[i]? = some ⟨true, r, X, y⟩) {cover clust failsafe : Val}
    (ha : IsAlgorithm W h r cover clust failsafe) :
    OldOrNew h c'.heap r "graph_"
      ((expectedGraph W h fuel cover clust failsafe X y).map fun p => (.graph p.1, p.2)) := by
  obtain ⟨owns, hs⟩ := apart_start hW hS hf hn hg hd hc
  obtain ⟨owns', hs'⟩ := apart_follow sched hs hr
  obtain ⟨t, ht⟩ := follow_thread hr hi
  rcases (hs'.wp i t ht).now with hp | hp
  · obtain ⟨o, eo, a, hown, hk⟩ := hp _ hi
    have e' := hs'.holds i r _ hown
    refine Or.inl ⟨?_, ?_⟩ <;> simp only [attrAt, e', Option.bind_some, show h[r]? = some o from eo] <;>
      exact hk _ (by simp [resultNames])
  · obtain ⟨o, eo, hp⟩ := hp.now _ hi
    simp only [if_true] at hp eo
    obtain ⟨a, v, m, hown, hx, h1, h2⟩ := hp _ _ _ ha
    have e' := hs'.holds i r _ hown
    refine Or.inr ⟨v, m, hx, ?_, ?_⟩
    · simpa only [attrAt, e', Option.bind_some] using h1
    · simpa only [attrAt, e', Option.bind_some, show h[r]? = some o from eo] using h2

/-- **C126.** The same for `labels_` of a `MapperClustering`. -/
theorem C126_labels_partial {sched : List ℕ} {c' : Threads}
    (hr : (Threads.start W S fuel calls h).follow sched = some c') {i r : ℕ} {X : Input} {y : Option Input}
    (hi : calls[i]? = some ⟨false, r, X, y⟩) {cover clust : Val}
    (ha : IsMapperClustering W h r cover clust) :
    OldOrNew h c'.heap r "labels_"
      ((expectedLabels W h fuel cover clust X y).map fun p => (.labels p.1, p.2)) := by
  obtain ⟨owns, hs⟩ := apart_start hW hS hf hn hg hd hc
  obtain ⟨owns', hs'⟩ := apart_follow sched hs hr
  obtain ⟨t, ht⟩ := follow_thread hr hi
  rcases (hs'.wp i t ht).now with hp | hp
  · obtain ⟨o, eo, a, hown, hk⟩ := hp _ hi
    have e' := hs'.holds i r _ hown
    refine Or.inl ⟨?_, ?_⟩ <;> simp only [attrAt, e', Option.bind_some, show h[r]? = some o from eo] <;>
      exact hk _ (by simp [resultNames])
  · obtain ⟨o, eo, hp⟩ := hp.now _ hi
    simp only [Bool.false_eq_true, if_false] at hp eo
    obtain ⟨a, v, m, hown, hx, h1, h2⟩ := hp _ _ ha
    have e' := hs'.holds i r _ hown
    refine Or.inr ⟨v, m, hx, ?_, ?_⟩
    · simpa only [attrAt, e', Option.bind_some] using h1
    · simpa only [attrAt, e', Option.bind_some, show h[r]? = some o from eo] using h2

/-- **C126.** The result changes only once: if at some moment it is not the one from before, then it stays as it
is at that moment. -/
theorem C126_once {sched sched' : List ℕ} {c' c'' : Threads}
    (hr : (Threads.start W S fuel calls h).follow sched = some c') (hr' : c'.follow sched' = some c'')
    {i : ℕ} {c : FitCall} (hi : calls[i]? = some c) {name : String}
    (hname : name = if c.algorithm then "graph_" else "labels_")
    (hne : attrAt c'.heap c.target name ≠ attrAt h c.target name) :
    attrAt c''.heap c.target name = attrAt c'.heap c.target name := by
  obtain ⟨owns, hs⟩ := apart_start hW hS hf hn hg hd hc
  obtain ⟨owns', hs'⟩ := apart_follow sched hs hr
  obtain ⟨t, ht⟩ := follow_thread hr hi
  -- the thread is past the change
  have hlate : ∀ t', c'.threads[i]? = some t' → Wpi (fun own => ∀ c, calls[i]? = some c → CallAfter W fuel h c own)
      (Targets calls) h n (fun res own => ∀ c, calls[i]? = some c → CallPost W fuel h c res own) t' (owns' i) := by
    intro t' ht'
    rcases (hs'.wp i t' ht').now with hp | hp
    · obtain ⟨o, eo, a, hown, hk⟩ := hp _ hi
      have e' := hs'.holds i c.target _ hown
      refine absurd ?_ hne
      simp only [attrAt, e', Option.bind_some, eo]
      exact hk _ (by rw [hname]; split <;> simp [resultNames])
    · exact hp
  have hs1 : Apart (Targets calls) h n _ _ (fun j => j = i) _ c' owns' :=
    ⟨hs'.good, hs'.base, hs'.holds, hs'.fresh, hs'.disjoint, hs'.wp, fun j t' hj ht' => by
      subst hj
      exact hlate t' ht'⟩
  obtain ⟨owns'', hs2⟩ := apart_follow sched' hs1 hr'
  have hi2 : i < c''.threads.length := by
    rw [follow_length sched' hr']
    exact (List.getElem?_eq_some_iff.mp ht).1
  obtain ⟨o, eo, q1⟩ := (hlate t ht).now _ hi
  obtain ⟨o', eo', q2⟩ := (hs2.past i _ rfl (List.getElem?_eq_getElem hi2)).now _ hi
  rw [eo] at eo'
  cases eo'
  obtain ⟨cl, hv, _⟩ := hc c (List.mem_of_getElem? hi)
  unfold FitCall.Valid at hv
  split at hv
  · rename_i halg
    rw [if_pos halg] at q1 q2 hname
    obtain ⟨vc, vf, hv⟩ := hv
    obtain ⟨a, v, m, hown, hx, h1, _⟩ := q1 _ _ _ hv
    obtain ⟨a', v', m', hown', hx', h1', _⟩ := q2 _ _ _ hv
    rw [hx] at hx'
    cases hx'
    simp only [attrAt, hs'.holds i _ _ hown, hs2.holds i _ _ hown', Option.bind_some, hname, h1, h1']
  · rename_i halg
    rw [if_neg halg] at q1 q2 hname
    obtain ⟨vc, hv⟩ := hv
    obtain ⟨a, v, m, hown, hx, h1, _⟩ := q1 _ _ hv
    obtain ⟨a', v', m', hown', hx', h1', _⟩ := q2 _ _ hv
    rw [hx] at hx'
    cases hx'
    simp only [attrAt, hs'.holds i _ _ hown, hs2.holds i _ _ hown', Option.bind_some, hname, h1, h1']

end

/-! ### Examples -/

/-- The objects of the example after a first `fit` of the algorithm, on one column and three points. -/
def exFitted : Heap := runAttempts exWorld exSteps 3 [⟨⟨true, 3, exInput, none⟩, none⟩] exObjects

theorem exFitted_safe : GoodHeap exFitted 3 ∧ Evolves exObjects exFitted (fun _ => True) := by
  have s := attempts_safe exWorld_contract exSteps_implements (le_refl 3) (by decide)
    [⟨⟨true, 3, exInput, none⟩, none⟩] exObjects_good (by
      intro a ha
      simp only [List.mem_cons, List.not_mem_nil, or_false] at ha
      subst ha
      exact ⟨.obj 1, _, _, exObjects_alg⟩)
  exact ⟨s.1, s.2.weaken (fun _ _ _ => trivial)⟩

theorem exFitted_alg : IsAlgorithm exWorld exFitted 3 (.obj 0) (.obj 1) (.bool true) :=
  exObjects_alg.evolve exObjects_good exFitted_safe.2

theorem exFitted_mc : IsMapperClustering exWorld exFitted 5 (.obj 0) (.obj 1) :=
  exObjects_mc.evolve exObjects_good exFitted_safe.2

/-- The algorithm is fitted again, on two columns and two points, while another thread fits the
`MapperClustering`. -/
def exRefits : List FitCall := [⟨true, 3, exWide, none⟩, ⟨false, 5, exInput, none⟩]

theorem exRefits_separate : ∀ c ∈ exRefits, c.Separate exWorld exFitted := by
  have hs : ∀ rk, Val.obj 1 = .obj rk → SharesNothing exFitted rk := by
    rintro rk h
    cases h
    obtain ⟨o', e', hcls, _⟩ := exFitted_safe.2.same 1 exKM rfl
    exact .other (o := o') e' (by rw [hcls]; decide) (by rw [hcls]; decide)
  intro c hc
  simp only [exRefits, List.mem_cons, List.not_mem_nil, or_false] at hc
  rcases hc with rfl | rfl
  · exact ⟨.obj 1, ⟨_, _, exFitted_alg⟩, hs⟩
  · exact ⟨.obj 1, ⟨_, exFitted_mc⟩, hs⟩

/-- The hypotheses are met, and at every moment the algorithm has one of the two graphs. -/
example {sched : List ℕ} {c' : Threads}
    (hr : (Threads.start exWorld exSteps 3 exRefits exFitted).follow sched = some c') :
    nodesAt c'.heap 3 = some [(0, some [0, 2]), (1, some [1])] ∨
      nodesAt c'.heap 3 = some [(0, some [0]), (1, some [1])] := by
  have q := C126_graph_partial exWorld_contract exSteps_implements (by decide) (le_refl 3) exFitted_safe.1
    (by decide) exRefits_separate hr (i := 0) rfl exFitted_alg
  have hold : nodesAt exFitted 3 = some [(0, some [0, 2]), (1, some [1])] := by decide +kernel
  have hnew : (expectedGraph exWorld exFitted 3 (.obj 0) (.obj 1) (.bool true) exWide none).map (fun p =>
      p.1.nodes.items.map fun e => (e.1, e.2.ids)) = .ok [(0, some [0]), (1, some [1])] := by
    with_unfolding_all rfl
  rcases q with ⟨q, _⟩ | ⟨v, m, hx, hv, _⟩
  · left
    rw [← hold]
    simp only [nodesAt, q]
  · right
    cases he : expectedGraph exWorld exFitted 3 (.obj 0) (.obj 1) (.bool true) exWide none with
    | error e => rw [he] at hx; cases hx
    | ok p =>
      rw [he] at hx hnew
      cases hx
      simp only [nodesAt, hv]
      injection hnew with hnew
      exact congrArg some hnew

/-- In this schedule both are seen: the first after 30 steps, the second after 53. -/
example :
    let c := fun k => (Threads.start exWorld exSteps 3 exRefits exFitted).follow
      ((List.replicate 10 1 ++ List.replicate 43 0).take k)
    ((c 30).bind fun c => nodesAt c.heap 3) = some [(0, some [0, 2]), (1, some [1])] ∧
      ((c 53).bind fun c => nodesAt c.heap 3) = some [(0, some [0]), (1, some [1])] :=
  ⟨by decide +kernel, by decide +kernel⟩

/-- **C126 does not hold for two attributes.** The algorithm was fitted on three points with one column. While it is
fitted on two points with two columns, there is a moment at which it has the graph of the two points and
says that it was fitted with one column: learn.py:176-182 assigns `graph_`, and learn.py:183 the number of features. -/
theorem C126_features_violation :
    Contract exWorld ∧ Implements exWorld exSteps ∧ GoodHeap exFitted 3 ∧ (exRefits.map FitCall.target).Nodup ∧
    (∀ c ∈ exRefits, c.Separate exWorld exFitted) ∧
    let c := (Threads.start exWorld exSteps 3 exRefits exFitted).follow (List.replicate 10 1 ++ List.replicate 42 0)
    c.map endsOf = some [none, none] ∧
      (c.bind fun c => nodesAt c.heap 3) = some [(0, some [0]), (1, some [1])] ∧
      (c.bind fun c => featuresAt c.heap 3) = some 1 :=
  ⟨exWorld_contract, exSteps_implements, exFitted_safe.1, by decide, exRefits_separate, by decide +kernel,
    by decide +kernel, by decide +kernel⟩

end Verif
