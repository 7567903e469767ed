import Verif.Proof.Threads
import Verif.Props.Interrupt

/-!
# C120: Estimators fitted in several threads at the same time

The user calls `fit` of several `MapperAlgorithm`s and `MapperClustering`s, each in a thread of its own. A schedule
chooses which thread takes the next step.
-/

set_option autoImplicit false
set_option linter.unusedSectionVars false

namespace Verif

section
variable {W : World} (hW : Contract W) {S : FitSteps} (hS : Implements W S) {n fuel : ℕ}
  (hn : 2 ≤ n) (hf : n ≤ fuel) {h : Heap} (hg : GoodHeap h n) {calls : List FitCall}
  (hd : (calls.map FitCall.target).Nodup) (hc : ∀ c ∈ calls, c.Separate W h)

/-- **C120.** No schedule goes on forever: whatever threads it chooses, after finitely many steps it chooses one that has
ended. -/
theorem C120_ends {W : World} {S : FitSteps} {fuel : ℕ} {calls : List FitCall} {h : Heap} (choose : ℕ → ℕ) :
    ∃ k, (Threads.start W S fuel calls h).follow ((List.range k).map choose) = none :=
  follow_ends (acc_threads _) h choose

/-- **C120.** No thread ever waits for another one: at every moment, each has ended or can take a step. -/
theorem C120_no_deadlock {W : World} {S : FitSteps} {fuel : ℕ} {calls : List FitCall} {h : Heap} {sched : List ℕ}
    {c' : Threads} (hr : (Threads.start W S fuel calls h).follow sched = some c') {i : ℕ} (hi : i < calls.length) :
    (∃ res, c'.threads[i]? = some (.done res)) ∨ ∃ c'', c'.next i = some c'' := by
  have hi' : i < c'.threads.length := by
    rw [follow_length sched hr]
    simpa [Threads.start] using hi
  have e := List.getElem?_eq_getElem hi'
  cases ht : c'.threads[i] with
  | done res => exact Or.inl ⟨res, by rw [e, ht]⟩
  | step upd next =>
    rw [ht] at e
    exact Or.inr ⟨⟨upd c'.heap, c'.threads.set i (next c'.heap)⟩, by unfold Threads.next; rw [e]⟩

include hW hS hn hf hg hd hc

/-- **C120.** At every moment of every schedule, all objects have the parameters they had at the start. -/
theorem C120_params {sched : List ℕ} {c' : Threads}
    (hr : (Threads.start W S fuel calls h).follow sched = some c') {a : ℕ} {o : Obj} (eo : h[a]? = some o) :
    ∃ o', c'.heap[a]? = some o' ∧ o'.cls = o.cls ∧
      ∀ p, IsPublic p → o'.attrs.get? p = o.attrs.get? p := by
  obtain ⟨owns, hs⟩ := apart_start hW hS hf hn hg hd hc
  obtain ⟨_, hs'⟩ := apart_follow sched hs hr
  obtain ⟨o', e', h1, h2⟩ := hs'.base.same a o eo
  exact ⟨o', e', h1, fun p hp => (h2 p hp).symm⟩

/-- **C120.** At every moment, an object that is not one of those that are fitted is as it was, attribute by
attribute: the covers and the clusterings, which the estimators may share. -/
theorem C120_others {sched : List ℕ} {c' : Threads}
    (hr : (Threads.start W S fuel calls h).follow sched = some c') {a : ℕ} (ha : a < h.length)
    (hne : ∀ c ∈ calls, c.target ≠ a) : c'.heap[a]? = h[a]? := by
  obtain ⟨owns, hs⟩ := apart_start hW hS hf hn hg hd hc
  obtain ⟨_, hs'⟩ := apart_follow sched hs hr
  exact hs'.base.frame a ha (fun ⟨c, h1, h2⟩ => hne c h1 h2)

/-- **C120.** A thread that fits a `MapperAlgorithm` ends with the graph of its own data, or with the exception that
its own data cause, whatever the other threads did so far and will do. Only part of the property: no estimator may be fitted by two
of the threads, and no clustering may be a `FailSafeClustering` around an estimator; see
`C120_same_violation` and `C120_shared_violation`. -/
theorem C120_graph_partial {sched : List ℕ} {c' : Threads}
    (hr : (Threads.start W S fuel calls h).follow sched = some c') {i r : ℕ} {X : Input} {y : Option Input}
    (hi : calls[i]? = some ⟨true, r, X, y⟩) {cover clust failsafe : Val}
    (ha : IsAlgorithm W h r cover clust failsafe) {res : Py Unit}
    (he : c'.threads[i]? = some (.done res)) :
    CallOutcome h c'.heap r "graph_"
      ((expectedGraph W h fuel cover clust failsafe X y).map fun p => (.graph p.1, p.2)) res := by
  obtain ⟨owns, hs⟩ := apart_start hW hS hf hn hg hd hc
  obtain ⟨owns', hs'⟩ := apart_follow sched hs hr
  obtain ⟨o, eo, hp⟩ := (hs'.wp i _ he).ended _ hi
  simp only [if_true] at hp eo
  obtain ⟨a, hown, hp⟩ := hp _ _ _ ha
  have e' := hs'.holds i r _ hown
  have hat : ∀ k, attrAt c'.heap r k = a.get? k := fun k => by simp [attrAt, e']
  have hat0 : ∀ k, attrAt h r k = o.attrs.get? k := fun k => by simp [attrAt, eo]
  unfold CallOutcome
  split
  · rename_i v m hx
    rw [hx] at hp
    exact ⟨hp.1, (hat _).trans hp.2.1, (hat _).trans hp.2.2⟩
  · rename_i e hx
    rw [hx] at hp
    exact ⟨hp.1, by rw [hat, hat0, hp.2 _ (by simp [resultNames])],
      by rw [hat, hat0, hp.2 _ (by simp [resultNames])]⟩

/-- **C120.** The same for `labels_` of a `MapperClustering`. -/
theorem C120_labels_partial {sched : List ℕ} {c' : Threads}
    (hr : (Threads.start W S fuel calls h).follow sched = some c') {i r : ℕ} {X : Input} {y : Option Input}
    (hi : calls[i]? = some ⟨false, r, X, y⟩) {cover clust : Val}
    (ha : IsMapperClustering W h r cover clust) {res : Py Unit}
    (he : c'.threads[i]? = some (.done res)) :
    CallOutcome h c'.heap r "labels_"
      ((expectedLabels W h fuel cover clust X y).map fun p => (.labels p.1, p.2)) res := by
  obtain ⟨owns, hs⟩ := apart_start hW hS hf hn hg hd hc
  obtain ⟨owns', hs'⟩ := apart_follow sched hs hr
  obtain ⟨o, eo, hp⟩ := (hs'.wp i _ he).ended _ hi
  simp only [Bool.false_eq_true, if_false] at hp eo
  obtain ⟨a, hown, hp⟩ := hp _ _ ha
  have e' := hs'.holds i r _ hown
  have hat : ∀ k, attrAt c'.heap r k = a.get? k := fun k => by simp [attrAt, e']
  have hat0 : ∀ k, attrAt h r k = o.attrs.get? k := fun k => by simp [attrAt, eo]
  unfold CallOutcome
  split
  · rename_i v m hx
    rw [hx] at hp
    exact ⟨hp.1, (hat _).trans hp.2.1, (hat _).trans hp.2.2⟩
  · rename_i e hx
    rw [hx] at hp
    exact ⟨hp.1, by rw [hat, hat0, hp.2 _ (by simp [resultNames])],
      by rw [hat, hat0, hp.2 _ (by simp [resultNames])]⟩

/-- **C120.** A thread that has ended leaves what the call would have left if there were no other threads: it returned or
raised the same, and the graph or the labels, and the number of features, are the same. -/
theorem C120_alone_partial {sched : List ℕ} {c' : Threads}
    (hr : (Threads.start W S fuel calls h).follow sched = some c') {i : ℕ} {c : FitCall}
    (hi : calls[i]? = some c) {res : Py Unit} (he : c'.threads[i]? = some (.done res)) :
    res = (c.run W fuel h).1 ∧
      (∀ k ∈ [if c.algorithm then "graph_" else "labels_", "n_features_in_"],
        attrAt c'.heap c.target k = attrAt (c.run W fuel h).2 c.target k) := by
  obtain ⟨clust, hv, hsh⟩ := hc c (List.mem_of_getElem? hi)
  obtain ⟨alg, r, X, y⟩ := c
  cases alg with
  | true =>
    obtain ⟨cover, failsafe, ha⟩ := hv
    have q := C120_graph_partial hW hS hn hf hg hd hc hr hi ha he
    obtain ⟨q1, q2⟩ := C42_graph hW hn hf hg ha X y
    have hrun : FitCall.run W fuel ⟨true, r, X, y⟩ h = mapperAlgorithmFit W fuel r X y h := rfl
    rw [hrun]
    cases hx : expectedGraph W h fuel cover clust failsafe X y with
    | ok p =>
      rw [hx] at q
      obtain ⟨a1, a2, a3⟩ := q
      obtain ⟨b1, b2, b3⟩ := q1 p.1 p.2 hx
      refine ⟨by rw [a1, b1], ?_⟩
      simp only [if_true, List.mem_cons, List.not_mem_nil, or_false]
      rintro k (rfl | rfl)
      · rw [a2, b2]
      · rw [a3, b3]
    | error e =>
      rw [hx] at q
      obtain ⟨a1, a2, a3⟩ := q
      obtain ⟨b1, b2, b3⟩ := q2 e hx
      refine ⟨by rw [a1, b1], ?_⟩
      simp only [if_true, List.mem_cons, List.not_mem_nil, or_false]
      rintro k (rfl | rfl)
      · rw [a2, b2]
      · rw [a3, b3]
  | false =>
    obtain ⟨cover, ha⟩ := hv
    have q := C120_labels_partial hW hS hn hf hg hd hc hr hi ha he
    obtain ⟨q1, q2⟩ := C42_labels hW hf hg ha X y
    have hrun : FitCall.run W fuel ⟨false, r, X, y⟩ h = mapperClusteringFit W fuel r X y h := rfl
    rw [hrun]
    cases hx : expectedLabels W h fuel cover clust X y with
    | ok p =>
      rw [hx] at q
      obtain ⟨a1, a2, a3⟩ := q
      obtain ⟨b1, b2, b3⟩ := q1 p.1 p.2 hx
      refine ⟨by rw [a1, b1], ?_⟩
      simp only [Bool.false_eq_true, if_false, List.mem_cons, List.not_mem_nil, or_false]
      rintro k (rfl | rfl)
      · rw [a2, b2]
      · rw [a3, b3]
    | error e =>
      rw [hx] at q
      obtain ⟨a1, a2, a3⟩ := q
      obtain ⟨b1, b2, b3⟩ := q2 e hx
      refine ⟨by rw [a1, b1], ?_⟩
      simp only [Bool.false_eq_true, if_false, List.mem_cons, List.not_mem_nil, or_false]
      rintro k (rfl | rfl)
      · rw [a2, b2]
      · rw [a3, b3]

end

/-! ### Examples -/

/-- `fit` of the first `MapperAlgorithm` and of the `MapperClustering`, which share their cover and their clustering, on
different data. -/
def exThreadCalls : List FitCall := [⟨true, 3, exInput, none⟩, ⟨false, 5, exWide, none⟩]

theorem exThreadCalls_separate : ∀ c ∈ exThreadCalls, c.Separate exWorld exObjects := by
  have hs : ∀ rk, Val.obj 1 = .obj rk → SharesNothing exObjects rk := by
    rintro rk h
    cases h
    exact .other (o := exKM) rfl (by decide) (by decide)
  intro c hc
  simp only [exThreadCalls, List.mem_cons, List.not_mem_nil, or_false] at hc
  rcases hc with rfl | rfl
  · exact ⟨.obj 1, ⟨_, _, exObjects_alg⟩, hs⟩
  · exact ⟨.obj 1, ⟨_, exObjects_mc⟩, hs⟩

/-- The hypotheses are met: in every schedule, a thread that has ended leaves what it would alone. -/
example {sched : List ℕ} {c' : Threads} (hr : (Threads.start exWorld exSteps 3 exThreadCalls exObjects).follow sched = some c')
    {res : Py Unit} (he : c'.threads[1]? = some (.done res)) :
    attrAt c'.heap 5 "labels_" = some (.labels [0, 1]) ∧ attrAt c'.heap 5 "n_features_in_" = some (.int 2) ∧
      c'.heap[1]? = some exKM := by
  have q := C120_labels_partial exWorld_contract exSteps_implements (by decide) (le_refl 3) exObjects_good
    (by decide) exThreadCalls_separate hr rfl exObjects_mc he
  have hx : expectedLabels exWorld exObjects 3 (.obj 0) (.obj 1) exWide none = .ok ([0, 1], 2) := by
    with_unfolding_all rfl
  rw [hx] at q
  exact ⟨q.2.1, q.2.2, C120_others exWorld_contract exSteps_implements (by decide) (le_refl 3) exObjects_good
    (by decide) exThreadCalls_separate hr (by decide) (by decide)⟩

/-- How the threads have ended: `some true` if `fit` returned, `some false` if it raised an exception. -/
def endsOf (c : Threads) : List (Option Bool) := c.threads.map fun t => match t with
  | .done (.ok _) => some true
  | .done (.error _) => some false
  | _ => none

/-- A schedule in which the two threads alternate, until the second has ended and then the first. -/
example :
    let c := (Threads.start exWorld exSteps 3 exThreadCalls exObjects).follow
      ((List.replicate 15 [0, 1]).flatten ++ List.replicate 28 0)
    c.map endsOf = some [some true, some true] ∧
      (c.bind fun c => nodesAt c.heap 3) = some [(0, some [0, 2]), (1, some [1])] :=
  ⟨by decide +kernel, by decide +kernel⟩

/-- **C120 does not hold for an estimator that two threads fit.** One thread fits it on three points with one column, the
other on two points with two columns. Both calls return, and the estimator has the graph of two points, and says
that it was fitted with one column. -/
theorem C120_same_violation :
    Contract exWorld ∧ Implements exWorld exSteps ∧ GoodHeap exObjects 3 ∧
    IsAlgorithm exWorld exObjects 3 (.obj 0) (.obj 1) (.bool true) ∧ SharesNothing exObjects 1 ∧
    let c := (Threads.start exWorld exSteps 3 [⟨true, 3, exInput, none⟩, ⟨true, 3, exWide, none⟩] exObjects).follow
      (List.replicate 42 0 ++ List.replicate 43 1 ++ [0])
    c.map endsOf = some [some true, some true] ∧
      (c.bind fun c => nodesAt c.heap 3) = some [(0, some [0]), (1, some [1])] ∧
      (c.bind fun c => featuresAt c.heap 3) = some 1 :=
  ⟨exWorld_contract, exSteps_implements, exObjects_good, exObjects_alg,
    .other (o := exKM) rfl (by decide) (by decide), by decide +kernel, by decide +kernel, by decide +kernel⟩

/-- Two `MapperAlgorithm`s that share a `FailSafeClustering` around a `KM`. -/
def exShared : Heap := [exCov, exKM, exFS, exAlg 2, exAlg 2]

theorem exShared_named : WellNamed exShared := by
  intro r o e
  match r, e with
  | 0, e => cases e; decide +kernel
  | 1, e => cases e; decide +kernel
  | 2, e => cases e; decide +kernel
  | 3, e => cases e; decide +kernel
  | 4, e => cases e; decide +kernel
  | r + 5, e => simp [exShared] at e

theorem exShared_attr {r b : ℕ} {k : String} (hp : PublicAttr exShared r k (.obj b)) :
    (b = 0 ∨ b = 1 ∨ b = 2) ∧ 2 ≤ r ∧ (r = 2 → b = 1) ∧ r ≤ 4 := by
  obtain ⟨o, e, hk, _⟩ := hp
  match r, e with
  | 0, e => cases e; have := PyDict.mem_of_get?_eq_some hk; simp [exCov] at this
  | 1, e => cases e; have := PyDict.mem_of_get?_eq_some hk; simp [exKM] at this
  | 2, e => cases e; have := PyDict.mem_of_get?_eq_some hk; simp [exFS] at this; omega
  | 3, e => cases e; have := PyDict.mem_of_get?_eq_some hk; simp [exAlg] at this; omega
  | 4, e => cases e; have := PyDict.mem_of_get?_eq_some hk; simp [exAlg] at this; omega
  | r + 5, e => simp [exShared] at e

theorem exShared_good : GoodHeap exShared 3 := by
  refine ⟨exShared_named, ?_, ?_⟩
  · intro r k b hp
    have := exShared_attr hp
    show b < 5
    omega
  · intro r ks b hre
    cases hre with
    | nil => simp
    | cons h1 hre =>
      cases hre with
      | nil => simp
      | cons h2 hre =>
        cases hre with
        | nil => simp
        | cons h3 hre =>
          have := exShared_attr h1
          have := exShared_attr h2
          have := exShared_attr h3
          omega

theorem exShared_ready : MapperReady exWorld exShared 2 := by
  intro ks a o hre ea hcl
  have key : ∀ {b a : ℕ} {ks : List String}, Reaches exShared b ks a → b < 3 → a < 3 := by
    intro b a ks hre
    induction hre with
    | nil => exact fun h => h
    | cons hp _ ih =>
      intro _
      have := exShared_attr hp
      exact ih (by omega)
  have ha := key hre (by decide)
  match a, ea with
  | 0, ea => cases ea; exact absurd hcl (by decide)
  | 1, ea => cases ea; exact absurd hcl (by decide)
  | 2, ea => cases ea; exact absurd hcl (by decide)
  | a + 3, _ => omega

theorem exShared_alg {r : ℕ} (hr : exShared[r]? = some (exAlg 2)) :
    IsAlgorithm exWorld exShared r (.obj 0) (.obj 2) (.bool true) :=
  ⟨exAlg 2, .bool true, .int 1, hr, rfl, rfl, rfl, rfl, rfl, rfl, (fun _ h => by cases h),
    Or.inr ⟨0, exCov, _, rfl, rfl, by rw [World.classes]; rfl, by decide +kernel,
      fun k _ => by simp [exCov, PyDict.keys]⟩,
    Or.inr ⟨2, exFS, _, rfl, rfl, byInit_failSafe _ _ _⟩, fun r h => by cases h; exact exShared_ready⟩

/-- **C120 does not hold for two estimators that share a `FailSafeClustering` around an estimator.** Each job
makes a copy of the `FailSafeClustering`, but not of the estimator in it, which all the copies fit. Both calls
return; the first one should put the three points into clusters, and has put only two, since between its `fit`
and its reading of the labels the other thread has fitted the same object on two points. -/
theorem C120_shared_violation :
    Contract exWorld ∧ Implements exWorld exSteps ∧ GoodHeap exShared 3 ∧
    IsAlgorithm exWorld exShared 3 (.obj 0) (.obj 2) (.bool true) ∧
    IsAlgorithm exWorld exShared 4 (.obj 0) (.obj 2) (.bool true) ∧
    (expectedGraph exWorld exShared 3 (.obj 0) (.obj 2) (.bool true) exInput none).map (fun p =>
      p.1.nodes.items.map fun e => (e.1, e.2.ids)) = .ok [(0, some [0, 2]), (1, some [1])] ∧
    let c := (Threads.start exWorld exSteps 3 [⟨true, 3, exInput, none⟩, ⟨true, 4, exWide, none⟩] exShared).follow
      (List.replicate 45 0 ++ List.replicate 53 1 ++ List.replicate 8 0)
    c.map endsOf = some [some true, some true] ∧
      (c.bind fun c => nodesAt c.heap 3) = some [(0, some [0]), (1, some [1])] :=
  ⟨exWorld_contract, exSteps_implements, exShared_good, exShared_alg rfl, exShared_alg rfl,
    by with_unfolding_all rfl, by decide +kernel, by decide +kernel⟩

end Verif
