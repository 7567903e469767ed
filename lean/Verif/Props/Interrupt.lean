import Verif.Proof.InterruptTop
import Verif.Props.Learn
import Verif.Props.Jobs

/-!
# C119: An interrupted `fit` leaves the estimator usable

`fit` of `MapperAlgorithm` and `MapperClustering` may stop after any number `k` of steps: the user presses
Ctrl-C. `Thread.after k` is the heap that is
left then.
-/

set_option autoImplicit false
set_option linter.unusedSectionVars false

namespace Verif

section
variable {W : World} (hW : Contract W) {S : FitSteps} (hS : Implements W S) {n fuel : ℕ}
  (hn : 2 ≤ n) (hf : n ≤ fuel) {h : Heap} (hg : GoodHeap h n)

/-- **C119.** The steps, if they are not interrupted, are the call of `fit`: its result and the heap it leaves. -/
theorem C119_whole {W : World} {S : FitSteps} (hS : Implements W S) (fuel : ℕ) (c : FitCall) (h : Heap) :
    (c.steps W S fuel).run h = c.run W fuel h := run_fitCallSteps hS fuel c h

/-- **C119.** An interrupt that comes too late does nothing: from some step on, the heap is the one that the
call leaves. -/
theorem C119_end {W : World} {S : FitSteps} (hS : Implements W S) (fuel : ℕ) (c : FitCall) (h : Heap) :
    ∃ N, ∀ k, N ≤ k → (c.steps W S fuel).after k h = (c.run W fuel h).2 := by
  rw [← C119_whole hS fuel c h]
  generalize c.steps W S fuel = t
  induction t generalizing h with
  | done r => exact ⟨0, fun k _ => by cases k <;> rfl⟩
  | step upd next ih =>
    obtain ⟨N, hN⟩ := ih h (upd h)
    refine ⟨N + 1, fun k hk => ?_⟩
    obtain ⟨k, rfl⟩ : ∃ j, k = j + 1 := ⟨k - 1, by omega⟩
    exact hN k (by omega)

include hW hS hn hf hg

/-- **C119.** After an interrupt at any point, all objects have the parameters they had: the estimator, its
cover and its clustering, and what is nested in them. -/
theorem C119_params {c : FitCall} {clust : Val} (hv : c.Valid W h clust) (k : ℕ) {a : ℕ} {o : Obj}
    (eo : h[a]? = some o) :
    ∃ o', ((c.steps W S fuel).after k h)[a]? = some o' ∧ o'.cls = o.cls ∧
      ∀ p, IsPublic p → o'.attrs.get? p = o.attrs.get? p := by
  obtain ⟨o', e', hc, hs⟩ := ((call_along hW hS hf hn hg hv).after k).2.same a o eo
  exact ⟨o', e', hc, fun p hp => (hs p hp).symm⟩

/-- **C119.** An object other than the estimator, and not shared with the clones of its clustering, is as it
was, attribute by attribute. -/
theorem C119_others {c : FitCall} {clust : Val} (hv : c.Valid W h clust) (k : ℕ) {a : ℕ}
    (ha : a < h.length) (hne : a ≠ c.target) (hs : ¬ SharedIn h clust a) :
    ((c.steps W S fuel).after k h)[a]? = h[a]? :=
  ((call_along hW hS hf hn hg hv).after k).2.frame a ha (fun h => h.elim hne hs)

/-- **C119.** After an interrupt at any point, `graph_` is the one from before, or the whole new one: never
a part of a graph. Only part of the property: if it is the new one, `n_features_in_` may still be
the one from before, see `C119_features_violation`. -/
theorem C119_graph_partial {r : ℕ} {cover clust failsafe : Val}
    (ha : IsAlgorithm W h r cover clust failsafe) (X : Input) (y : Option Input) (k : ℕ) :
    let h' := (mapperAlgorithmSteps W S fuel r X y).after k h
    (attrAt h' r "graph_" = attrAt h r "graph_" ∧
        attrAt h' r "n_features_in_" = attrAt h r "n_features_in_") ∨
      ∃ g m, expectedGraph W h fuel cover clust failsafe X y = .ok (g, m) ∧
        attrAt h' r "graph_" = some (.graph g) ∧
        (attrAt h' r "n_features_in_" = attrAt h r "n_features_in_" ∨
          attrAt h' r "n_features_in_" = some (.int m)) := by
  obtain ⟨o, vv, vj, eo, _, h1, h2, h3, h4, h5, h6, h7, h8⟩ := ha
  rcases ((algorithm_along hW hS hf hn hg eo h1 h2 h3 h4 h5 h7 h8 h6 X y).after k).2 with
    hr | ⟨v, m, he, hv, hm⟩
  · exact Or.inl ⟨hr _ (by simp [resultNames]), hr _ (by simp [resultNames])⟩
  · right
    cases hx : expectedGraph W h fuel cover clust failsafe X y with
    | error e => rw [hx] at he; cases he
    | ok p =>
      rw [hx] at he
      cases he
      exact ⟨p.1, p.2, rfl, hv, hm⟩

/-- **C119.** The same for `labels_` of a `MapperClustering`. -/
theorem C119_labels_partial {r : ℕ} {cover clust : Val} (ha : IsMapperClustering W h r cover clust)
    (X : Input) (y : Option Input) (k : ℕ) :
    let h' := (mapperClusteringSteps W fuel (fitThread W S fuel fuel) r X y).after k h
    (attrAt h' r "labels_" = attrAt h r "labels_" ∧
        attrAt h' r "n_features_in_" = attrAt h r "n_features_in_") ∨
      ∃ l m, expectedLabels W h fuel cover clust X y = .ok (l, m) ∧
        attrAt h' r "labels_" = some (.labels l) ∧
        (attrAt h' r "n_features_in_" = attrAt h r "n_features_in_" ∨
          attrAt h' r "n_features_in_" = some (.int m)) := by
  obtain ⟨o, vj, eo, _, h1, h2, h5, h7, h8⟩ := ha
  rcases ((clustering_along hW hf (run_fitThread hS fuel fuel) (fit_along hW hS hf fuel)
      (fitObj_spec hW hf fuel) hg eo h1 h2 h5 h7 h8 X y).after k).2 with hr | ⟨v, m, he, hv, hm⟩
  · exact Or.inl ⟨hr _ (by simp [resultNames]), hr _ (by simp [resultNames])⟩
  · right
    cases hx : expectedLabels W h fuel cover clust X y with
    | error e => rw [hx] at he; cases he
    | ok p =>
      rw [hx] at he
      cases he
      exact ⟨p.1, p.2, rfl, hv, hm⟩

/-! ### Histories -/

/-- **C119.** After any history of calls of `fit`, of which any may be interrupted at any point, all objects
have the parameters they had. -/
theorem C119_history_params {as : List Attempt} (hv : ∀ a ∈ as, ∃ clust, a.call.Valid W h clust) {b : ℕ}
    {o : Obj} (eo : h[b]? = some o) :
    ∃ o', (runAttempts W S fuel as h)[b]? = some o' ∧ o'.cls = o.cls ∧
      ∀ p, IsPublic p → o'.attrs.get? p = o.attrs.get? p := by
  obtain ⟨o', e', hc, hs⟩ := (attempts_safe hW hS hf hn as hg hv).2.same b o eo
  exact ⟨o', e', hc, fun p hp => (hs p hp).symm⟩

/-- **C119.** After such a history `fit_transform` returns, or raises, what it would have at the start, with
estimators that were never fitted: the graph of `C42_fit_transform`. -/
theorem C119_next_graph {as : List Attempt} (hv : ∀ a ∈ as, ∃ clust, a.call.Valid W h clust) {r : ℕ}
    {cover clust failsafe : Val} (ha : IsAlgorithm W h r cover clust failsafe) (X : Input)
    (y : Option Input) :
    (mapperFitTransform W fuel r X y (runAttempts W S fuel as h)).1 =
        (mapperFitTransform W fuel r X y h).1 ∧
      (mapperFitTransform W fuel r X y (runAttempts W S fuel as h)).1 =
        (expectedGraph W h fuel cover clust failsafe X y).map fun p => .graph p.1 := by
  have s := attempts_safe hW hS hf hn as hg hv
  have e1 := (C42_fit_transform hW hn hf s.1 (ha.evolve hg s.2) X y).2
  have e2 := (C42_fit_transform hW hn hf hg ha X y).2
  obtain ⟨_, _, _, _, _, _, _, _, _, _, _, hc, hk⟩ := ha
  rw [expectedGraph_congr hW hg s.2 hc hk.1] at e1
  exact ⟨e1.trans e2.symm, e1⟩

/-- **C119.** After such a history `fit` of a `MapperClustering` leaves the labels, or raises the exception,
that it would have at the start. -/
theorem C119_next_labels {as : List Attempt} (hv : ∀ a ∈ as, ∃ clust, a.call.Valid W h clust) {r : ℕ}
    {cover clust : Val} (ha : IsMapperClustering W h r cover clust) (X : Input) (y : Option Input) :
    let run := mapperClusteringFit W fuel r X y (runAttempts W S fuel as h)
    (∀ l m, expectedLabels W h fuel cover clust X y = .ok (l, m) →
      run.1 = .ok () ∧ attrAt run.2 r "labels_" = some (.labels l) ∧
        attrAt run.2 r "n_features_in_" = some (.int m)) ∧
    (∀ e, expectedLabels W h fuel cover clust X y = .error e → run.1 = .error e) := by
  have s := attempts_safe hW hS hf hn as hg hv
  have e1 := C42_labels hW hf s.1 (ha.evolve hg s.2) X y
  obtain ⟨_, _, _, _, _, _, _, hc, hk⟩ := ha
  simp only at e1 ⊢
  rw [expectedLabels_congr hW hg s.2 hc hk.1] at e1
  exact ⟨fun l m he => e1.1 l m he, fun e he => (e1.2 e he).1⟩

end

/-- **C119.** After such a history `graph_` of a `MapperAlgorithm` is the graph of the last call on it that
came to its end, or of one that was interrupted after that, or the one from the start if there is none. The object must not itself
be shared with the clones of the clustering of one of the fitted objects. -/
theorem C119_history_graph {W : World} (hW : Contract W) {S : FitSteps} (hS : Implements W S) {n fuel : ℕ}
    (hn : 2 ≤ n) (hf : n ≤ fuel) {r : ℕ} {cover clust failsafe : Val} :
    ∀ (as : List Attempt) {h : Heap}, GoodHeap h n → IsAlgorithm W h r cover clust failsafe →
    (∀ a ∈ as, ∃ cl, a.call.Valid W h cl ∧ ¬ SharedIn h cl r) →
    ResultAfter r (fun X y => (expectedGraph W h fuel cover clust failsafe X y).map
        fun p => Val.graph p.1) as (attrAt h r "graph_")
      (attrAt (runAttempts W S fuel as h) r "graph_") := by
  intro as
  induction as with
  | nil => intro h _ _ _; exact .nil _
  | cons a as ih =>
    intro h hg ha hv
    obtain ⟨cl, hc, hnest⟩ := hv a List.mem_cons_self
    have s1 := attempt_safe hW hS hf hn hg a hc
    have hcc := ha
    obtain ⟨_, _, _, _, _, _, _, _, _, _, _, hcov, hclu⟩ := hcc
    have ih1 := ih s1.1 (ha.evolve hg s1.2) (fun a' ha' => by
      obtain ⟨cl', h1, h2⟩ := hv a' (List.mem_cons_of_mem _ ha')
      exact ⟨cl', h1.evolve hg s1.2, fun h3 => h2 (h3.evolve hg s1.2 h1.cloneable)⟩)
    simp only [expectedGraph_congr hW hg s1.2 hcov hclu.1] at ih1
    rw [runAttempts]
    by_cases ht : a.call.target = r
    · have halg := valid_alg_iff ha ht hc
      cases hstop : a.stop with
      | none =>
        have hrun : a.run W S fuel h = (mapperAlgorithmFit W fuel r a.call.X a.call.y h).2 := by
          rw [Attempt.run, hstop, FitCall.run, if_pos halg, ht]
        obtain ⟨q1, q2⟩ := C42_graph hW hn hf hg ha a.call.X a.call.y
        rw [hrun] at ih1 ⊢
        cases he : expectedGraph W h fuel cover clust failsafe a.call.X a.call.y with
        | ok p =>
          rw [(q1 p.1 p.2 he).2.1] at ih1
          exact .finished ht (x := .graph p.1) (by rw [he]; rfl) ih1
        | error e =>
          rw [(q2 e he).2.1] at ih1
          exact .failed ht (e := e) (by rw [he]; rfl) ih1
      | some k =>
        have hrun : a.run W S fuel h =
            (mapperAlgorithmSteps W S fuel r a.call.X a.call.y).after k h := by
          rw [Attempt.run, hstop, FitCall.steps, if_pos halg, ht]
        rw [hrun] at ih1 ⊢
        rcases C119_graph_partial hW hS hn hf hg ha a.call.X a.call.y k with ⟨h1, _⟩ | ⟨g, m, he, h1, _⟩
        · rw [h1] at ih1
          exact .interrupted ht hstop ih1
        · rw [h1] at ih1
          exact .finished ht (x := .graph g) (by rw [he]; rfl) ih1
    · refine .other ht ?_
      have : attrAt (a.run W S fuel h) r "graph_" = attrAt h r "graph_" := by
        obtain ⟨o, _, _, eo, _⟩ := ha
        simp only [attrAt]
        rw [s1.2.frame r (lt_of_getElem? eo)]
        rintro (h1 | h1)
        · exact ht h1.symm
        · exact hnest h1
      rw [this] at ih1
      exact ih1

/-- **C119.** The same for `labels_` of a `MapperClustering`. -/
theorem C119_history_labels {W : World} (hW : Contract W) {S : FitSteps} (hS : Implements W S) {n fuel : ℕ}
    (hn : 2 ≤ n) (hf : n ≤ fuel) {r : ℕ} {cover clust : Val} :
    ∀ (as : List Attempt) {h : Heap}, GoodHeap h n → IsMapperClustering W h r cover clust →
    (∀ a ∈ as, ∃ cl, a.call.Valid W h cl ∧ ¬ SharedIn h cl r) →
    ResultAfter r (fun X y => (expectedLabels W h fuel cover clust X y).map
        fun p => Val.labels p.1) as (attrAt h r "labels_")
      (attrAt (runAttempts W S fuel as h) r "labels_") := by
  intro as
  induction as with
  | nil => intro h _ _ _; exact .nil _
  | cons a as ih =>
    intro h hg ha hv
    obtain ⟨cl, hc, hnest⟩ := hv a List.mem_cons_self
    have s1 := attempt_safe hW hS hf hn hg a hc
    have hcc := ha
    obtain ⟨_, _, _, _, _, _, _, hcov, hclu⟩ := hcc
    have ih1 := ih s1.1 (ha.evolve hg s1.2) (fun a' ha' => by
      obtain ⟨cl', h1, h2⟩ := hv a' (List.mem_cons_of_mem _ ha')
      exact ⟨cl', h1.evolve hg s1.2, fun h3 => h2 (h3.evolve hg s1.2 h1.cloneable)⟩)
    simp only [expectedLabels_congr hW hg s1.2 hcov hclu.1] at ih1
    rw [runAttempts]
    by_cases ht : a.call.target = r
    · have halg := valid_mc_iff ha ht hc
      cases hstop : a.stop with
      | none =>
        have hrun : a.run W S fuel h = (mapperClusteringFit W fuel r a.call.X a.call.y h).2 := by
          rw [Attempt.run, hstop, FitCall.run, if_neg halg, ht]
        obtain ⟨q1, q2⟩ := C42_labels hW hf hg ha a.call.X a.call.y
        rw [hrun] at ih1 ⊢
        cases he : expectedLabels W h fuel cover clust a.call.X a.call.y with
        | ok p =>
          rw [(q1 p.1 p.2 he).2.1] at ih1
          exact .finished ht (x := .labels p.1) (by rw [he]; rfl) ih1
        | error e =>
          rw [(q2 e he).2.1] at ih1
          exact .failed ht (e := e) (by rw [he]; rfl) ih1
      | some k =>
        have hrun : a.run W S fuel h = (mapperClusteringSteps W fuel (fitThread W S fuel fuel) r
            a.call.X a.call.y).after k h := by
          rw [Attempt.run, hstop, FitCall.steps, if_neg halg, ht]
        rw [hrun] at ih1 ⊢
        rcases C119_labels_partial hW hS hn hf hg ha a.call.X a.call.y k with ⟨h1, _⟩ | ⟨l, m, he, h1, _⟩
        · rw [h1] at ih1
          exact .interrupted ht hstop ih1
        · rw [h1] at ih1
          exact .finished ht (x := .labels l) (by rw [he]; rfl) ih1
    · refine .other ht ?_
      have : attrAt (a.run W S fuel h) r "labels_" = attrAt h r "labels_" := by
        obtain ⟨o, _, eo, _⟩ := ha
        simp only [attrAt]
        rw [s1.2.frame r (lt_of_getElem? eo)]
        rintro (h1 | h1)
        · exact ht h1.symm
        · exact hnest h1
      rw [this] at ih1
      exact ih1

/-! ### Examples -/

/-- The array `[[1, 2], [3, 5]]`. -/
def exWide : Input := ⟨false, .ok ⟨[2, 2], .real [.finite 1, .finite 2, .finite 3, .finite 5]⟩⟩

/-- The number of features that the algorithm of the example says it was fitted with. -/
def featuresAt (h : Heap) (r : ℕ) : Option ℤ :=
  match attrAt h r "n_features_in_" with
  | some (.int i) => some i
  | _ => none

/-- The points of the nodes of its graph. -/
def nodesAt (h : Heap) (r : ℕ) : Option (List (ℤ × Option (List ℕ))) :=
  match attrAt h r "graph_" with
  | some (.graph g) => some (g.nodes.items.map fun e => (e.1, e.2.ids))
  | _ => none

/-- `fit` of the algorithm on one column and three points, and then on two columns and two points, stopped after
`k` steps. -/
def exAttempts (k : ℕ) : List Attempt := [⟨⟨true, 3, exInput, none⟩, none⟩, ⟨⟨true, 3, exWide, none⟩, some k⟩]

theorem exAttempts_valid (k : ℕ) : ∀ a ∈ exAttempts k, ∃ cl, a.call.Valid exWorld exObjects cl ∧
    ¬ SharedIn exObjects cl 3 := by
  intro a ha
  simp only [exAttempts, List.mem_cons, List.not_mem_nil, or_false] at ha
  rcases ha with rfl | rfl <;> exact ⟨.obj 1, ⟨_, _, exObjects_alg⟩, exObjects_not_nested (by decide)⟩

/-- The hypotheses are met: two calls, of which the second is stopped anywhere. -/
example (k : ℕ) : ResultAfter 3 (fun X y => (expectedGraph exWorld exObjects 3 (.obj 0) (.obj 1) (.bool true)
      X y).map fun p => Val.graph p.1) (exAttempts k) none
    (attrAt (runAttempts exWorld exSteps 3 (exAttempts k) exObjects) 3 "graph_") :=
  C119_history_graph exWorld_contract exSteps_implements (by decide) (le_refl 3) _ exObjects_good exObjects_alg
    (exAttempts_valid k)

/-- Stopped after 41 steps, it has the graph of the first call, with the clusters of three points; after 43
steps the second call is complete. -/
example : nodesAt (runAttempts exWorld exSteps 3 (exAttempts 41) exObjects) 3 =
      some [(0, some [0, 2]), (1, some [1])] ∧
    featuresAt (runAttempts exWorld exSteps 3 (exAttempts 41) exObjects) 3 = some 1 ∧
    nodesAt (runAttempts exWorld exSteps 3 (exAttempts 43) exObjects) 3 =
      some [(0, some [0]), (1, some [1])] ∧
    featuresAt (runAttempts exWorld exSteps 3 (exAttempts 43) exObjects) 3 = some 2 := by
  decide +kernel

/-- After the interrupt `fit_transform` gives the graph of the example. -/
example (k : ℕ) : ∃ g, (mapperFitTransform exWorld 3 3 exInput none
    (runAttempts exWorld exSteps 3 (exAttempts k) exObjects)).1 = .ok (.graph g) := by
  rw [(C119_next_graph exWorld_contract exSteps_implements (by decide) (le_refl 3) exObjects_good
    (fun a ha => (exAttempts_valid k a ha).imp fun _ h => h.1) exObjects_alg exInput none).2]
  exact ⟨_, by with_unfolding_all rfl⟩

/-- The `MapperClustering` of the example, stopped in its second call. -/
example (k : ℕ) : ResultAfter 5 (fun X y => (expectedLabels exWorld exObjects 3 (.obj 0) (.obj 1) X y).map
      fun p => Val.labels p.1) [⟨⟨false, 5, exInput, none⟩, none⟩, ⟨⟨false, 5, exWide, none⟩, some k⟩] none
    (attrAt (runAttempts exWorld exSteps 3
      [⟨⟨false, 5, exInput, none⟩, none⟩, ⟨⟨false, 5, exWide, none⟩, some k⟩] exObjects) 5 "labels_") :=
  C119_history_labels exWorld_contract exSteps_implements (by decide) (le_refl 3) _ exObjects_good exObjects_mc
    (by
      intro a ha
      simp only [List.mem_cons, List.not_mem_nil, or_false] at ha
      rcases ha with rfl | rfl <;> exact ⟨.obj 1, ⟨_, exObjects_mc⟩, exObjects_not_nested (by decide)⟩)

/-- And its labels in a third call. -/
example (k : ℕ) : attrAt (mapperClusteringFit exWorld 3 5 exInput none
      (runAttempts exWorld exSteps 3 (exAttempts k) exObjects)).2 5 "labels_" = some (.labels [0, 1, 0]) :=
  ((C119_next_labels exWorld_contract exSteps_implements (by decide) (le_refl 3) exObjects_good
    (fun a ha => (exAttempts_valid k a ha).imp fun _ h => h.1) exObjects_mc exInput none).1
    [0, 1, 0] 1 (by with_unfolding_all rfl)).2.1

/-- **C119 does not hold in full.** `graph_` and `n_features_in_` are written one after the other: an interrupt
between the two leaves an estimator that has the graph of the new data, with two columns, and says
that it was fitted with one. -/
theorem C119_features_violation :
    Contract exWorld ∧ Implements exWorld exSteps ∧ GoodHeap exObjects 3 ∧
    IsAlgorithm exWorld exObjects 3 (.obj 0) (.obj 1) (.bool true) ∧
    nodesAt (runAttempts exWorld exSteps 3 (exAttempts 42) exObjects) 3 =
      some [(0, some [0]), (1, some [1])] ∧
    (expectedGraph exWorld exObjects 3 (.obj 0) (.obj 1) (.bool true) exWide none).map (fun p =>
      (p.1.nodes.items.map fun e => (e.1, e.2.ids), p.2)) =
        .ok ([(0, some [0]), (1, some [1])], 2) ∧
    featuresAt (runAttempts exWorld exSteps 3 (exAttempts 42) exObjects) 3 = some 1 :=
  ⟨exWorld_contract, exSteps_implements, exObjects_good, exObjects_alg, by decide +kernel,
    by with_unfolding_all rfl, by decide +kernel⟩

/-- The same for a `MapperClustering`: labels for the new data, and the number of columns of the old. -/
theorem C119_features_labels_violation :
    IsMapperClustering exWorld exObjects 5 (.obj 0) (.obj 1) ∧
    let h := runAttempts exWorld exSteps 3
      [⟨⟨false, 5, exInput, none⟩, none⟩, ⟨⟨false, 5, exWide, none⟩, some 14⟩] exObjects
    (match attrAt h 5 "labels_" with | some (.labels l) => some l | _ => none) = some [0, 1] ∧
    (expectedLabels exWorld exObjects 3 (.obj 0) (.obj 1) exWide none) = .ok ([0, 1], 2) ∧
    featuresAt h 5 = some 1 :=
  ⟨exObjects_mc, by decide +kernel, by with_unfolding_all rfl, by decide +kernel⟩

end Verif
