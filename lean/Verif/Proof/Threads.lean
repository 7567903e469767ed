import Verif.Proof.WatchedTop

set_option autoImplicit false

namespace Verif

/-- The threads own disjoint objects, look as they should from now on, and will end as they should. Those of
`late` are past the moment at which their result is renewed. -/
structure Apart (T : ℕ → Prop) (h0 : Heap) (n : ℕ) (inv inv' : ℕ → Own → Prop) (late : ℕ → Prop) (post : ℕ → Py Unit → Own → Prop)
    (c : Threads) (owns : ℕ → Own) : Prop where
  good : GoodHeap c.heap n
  base : Evolves h0 c.heap T
  holds : ∀ i, Holds (owns i) c.heap
  fresh : ∀ i a, owns i a ≠ none → h0.length ≤ a ∨ T a
  disjoint : ∀ i j a, i ≠ j → owns i a ≠ none → owns j a = none
  wp : ∀ i t, c.threads[i]? = some t → Wpj (inv i) (inv' i) T h0 n (post i) t (owns i)
  past : ∀ i t, late i → c.threads[i]? = some t → Wpi (inv' i) T h0 n (post i) t (owns i)

theorem apart_next {T : ℕ → Prop} {h0 : Heap} {n : ℕ} {inv inv' : ℕ → Own → Prop} {late : ℕ → Prop}
    {post : ℕ → Py Unit → Own → Prop} {c c' : Threads}
    {owns : ℕ → Own} (hs : Apart T h0 n inv inv' late post c owns) {i : ℕ} (hn : c.next i = some c') :
    ∃ owns', Apart T h0 n inv inv' late post c' owns' := by
  obtain ⟨h, threads⟩ := c
  obtain ⟨hg, hbase, hh, hnc, hdis, hwp, hpast⟩ := hs
  simp only at hg hbase hh hwp hpast
  simp only [Threads.next] at hn
  split at hn
  · rename_i upd next e
    cases hn
    obtain ⟨h1, hev, own', h4, h5, h6, h6'⟩ : GoodHeap (upd h) n ∧ Evolves h (upd h) (fun a => owns i a ≠ none) ∧
        ∃ own', Holds own' (upd h) ∧ (∀ a, own' a ≠ none → owns i a ≠ none ∨ h.length ≤ a) ∧
          Wpj (inv i) (inv' i) T h0 n (post i) (next h) own' ∧
          (late i → Wpi (inv' i) T h0 n (post i) (next h) own') := by
      by_cases hl : late i
      · obtain ⟨h1, hev, own', h4, h5, _, h6⟩ := (hpast i _ hl e).2 h hg hbase (hh i)
        exact ⟨h1, hev, own', h4, h5, h6.late, fun _ => h6⟩
      · obtain ⟨h1, hev, own', h4, h5, _, h6⟩ := (hwp i _ e).next hg hbase (hh i)
        exact ⟨h1, hev, own', h4, h5, h6, fun h => absurd h hl⟩
    have h3 : ∀ a, a < h.length → owns i a = none → (upd h)[a]? = h[a]? :=
      fun a ha hn => hev.frame a ha (fun hne => hne hn)
    have hlt : i < threads.length := (List.getElem?_eq_some_iff.mp e).1
    have hnew : ∀ a, own' a ≠ none → ∀ j, j ≠ i → owns j a = none := by
      intro a ha j hj
      rcases h5 a ha with h7 | h7
      · exact hdis i j a (Ne.symm hj) h7
      · by_contra hne
        have := holds_lt (hh j) hne
        omega
    refine ⟨Function.update owns i own', ⟨h1, ?_, ?_, ?_, ?_, ?_, ?_⟩⟩
    · have hgr := hbase.grow
      refine ⟨le_trans hgr hev.grow, ?_, ?_⟩
      · intro a o ea
        obtain ⟨o1, e1, hc1, hs1⟩ := hbase.same a o ea
        obtain ⟨o2, e2, hc2, hs2⟩ := hev.same a o1 e1
        exact ⟨o2, e2, hc2.trans hc1, hs1.trans hs2⟩
      · intro a ha hT
        rw [h3 a (by omega) ?_, hbase.frame a ha hT]
        by_contra hne
        rcases hnc i a hne with h7 | h7
        · omega
        · exact hT h7
    · intro j a oa hja
      by_cases hji : j = i
      · subst hji
        rw [Function.update_self] at hja
        exact h4 a oa hja
      · rw [Function.update_of_ne hji] at hja
        simp only
        have hne : owns j a ≠ none := by rw [hja]; simp
        rw [h3 a (holds_lt (hh j) hne) (hdis j i a hji hne)]
        exact hh j a oa hja
    · intro j a
      by_cases hji : j = i
      · subst hji
        rw [Function.update_self]
        intro hne
        rcases h5 a hne with h7 | h7
        · exact hnc j a h7
        · exact Or.inl (le_trans hbase.grow h7)
      · rw [Function.update_of_ne hji]
        exact hnc j a
    · intro j k a hjk ha
      by_cases hji : j = i
      · subst hji
        rw [Function.update_self] at ha
        rw [Function.update_of_ne (Ne.symm hjk)]
        exact hnew a ha k (Ne.symm hjk)
      · rw [Function.update_of_ne hji] at ha
        by_cases hki : k = i
        · subst hki
          rw [Function.update_self]
          by_contra hne
          exact ha (hnew a hne j hji)
        · rw [Function.update_of_ne hki]
          exact hdis j k a hjk ha
    · intro k t ht
      simp only at ht
      rw [List.getElem?_set] at ht
      split at ht
      · subst_vars
        simp only [Option.some.injEq] at ht
        subst ht
        rw [Function.update_self]
        exact h6
      · rename_i hik
        rw [Function.update_of_ne (Ne.symm hik)]
        exact hwp k t ht
    · intro k t hl ht
      simp only at ht
      rw [List.getElem?_set] at ht
      split at ht
      · subst_vars
        simp only [Option.some.injEq] at ht
        subst ht
        rw [Function.update_self]
        exact h6' hl
      · rename_i hik
        rw [Function.update_of_ne (Ne.symm hik)]
        exact hpast k t hl ht
  · cases hn

theorem apart_follow {T : ℕ → Prop} {h0 : Heap} {n : ℕ} {inv inv' : ℕ → Own → Prop} {late : ℕ → Prop}
    {post : ℕ → Py Unit → Own → Prop} :
    ∀ (sched : List ℕ) {c c' : Threads} {owns : ℕ → Own}, Apart T h0 n inv inv' late post c owns →
    c.follow sched = some c' → ∃ owns', Apart T h0 n inv inv' late post c' owns' := by
  intro sched
  induction sched with
  | nil => intro c c' owns hs h; cases h; exact ⟨owns, hs⟩
  | cons i rest ih =>
    intro c c' owns hs h
    rw [Threads.follow, Option.bind_eq_some_iff] at h
    obtain ⟨c1, h1, h2⟩ := h
    obtain ⟨owns1, hs1⟩ := apart_next hs h1
    exact ih hs1 h2

/-- What the thread of a call should come to. -/
def CallPost (W : World) (fuel : ℕ) (h : Heap) (c : FitCall) (res : Py Unit) (own : Own) : Prop :=
  ∃ o, h[c.target]? = some o ∧
    if c.algorithm then ∀ vc vk vf, IsAlgorithm W h c.target vc vk vf →
      CallDone c.target o "graph_" ((expectedGraph W h fuel vc vk vf c.X c.y).map fun p => (.graph p.1, p.2))
        res own
    else ∀ vc vk, IsMapperClustering W h c.target vc vk →
      CallDone c.target o "labels_" ((expectedLabels W h fuel vc vk c.X c.y).map fun p => (.labels p.1, p.2))
        res own

/-- The estimator of a call has the results from before. -/
def CallBefore (h : Heap) (c : FitCall) (own : Own) : Prop := ∃ o, h[c.target]? = some o ∧ KeptResults c.target o own

/-- The estimator of a call has the new result. -/
def CallAfter (W : World) (fuel : ℕ) (h : Heap) (c : FitCall) (own : Own) : Prop :=
  ∃ o, h[c.target]? = some o ∧
    if c.algorithm then ∀ vc vk vf, IsAlgorithm W h c.target vc vk vf →
      Renewed c.target o "graph_" ((expectedGraph W h fuel vc vk vf c.X c.y).map fun p => (.graph p.1, p.2)) own
    else ∀ vc vk, IsMapperClustering W h c.target vc vk →
      Renewed c.target o "labels_" ((expectedLabels W h fuel vc vk c.X c.y).map fun p => (.labels p.1, p.2)) own

theorem wpj_call {T : ℕ → Prop} {W : World} (hW : Contract W) {S : FitSteps} (hS : Implements W S) {n fuel : ℕ}
    (hf : n ≤ fuel) (hn2 : 2 ≤ n) {h : Heap} (hg : GoodHeap h n) {c : FitCall} (hc : c.Separate W h)
    {own : Own} (ho : own c.target = h[c.target]?) :
    Wpj (CallBefore h c) (CallAfter W fuel h c) T h n (CallPost W fuel h c) (c.steps W S fuel) own := by
  obtain ⟨clust, hv, hsh⟩ := hc
  unfold FitCall.Valid at hv
  unfold FitCall.steps
  split at hv
  · rename_i hc
    rw [if_pos hc]
    obtain ⟨vc, vf, o, vv, vj, eo, hcls, h1, h2, h3, h4, h5, h6, h7, h8⟩ := hv
    have key : ∀ {P : Val → Val → Val → Prop}, P vc clust vf →
        ∀ vc' vk' vf', IsAlgorithm W h c.target vc' vk' vf' → P vc' vk' vf' := by
      rintro P hd vc' vk' vf' ⟨o', _, _, eo', _, g1, g2, g3, _⟩
      rw [eo] at eo'
      cases eo'
      rw [h1] at g1
      rw [h2] at g2
      rw [h3] at g3
      cases g1
      cases g2
      cases g3
      exact hd
    refine Wpj.weaken (fun own' hd => ⟨o, eo, hd⟩) (fun own' hd => ⟨o, eo, ?_⟩) (fun res own' hd => ⟨o, eo, ?_⟩) _
      (wpj_algorithm (T := T) hW hS hf hn2 hg eo h1 h2 h3 h4 h5 h7 h8 hsh h6 c.X c.y (ho.trans eo))
    · rw [if_pos hc]
      exact key (P := fun vc vk vf => Renewed c.target o "graph_"
        ((expectedGraph W h fuel vc vk vf c.X c.y).map fun p => (.graph p.1, p.2)) own') hd
    · rw [if_pos hc]
      exact key (P := fun vc vk vf => CallDone c.target o "graph_"
        ((expectedGraph W h fuel vc vk vf c.X c.y).map fun p => (.graph p.1, p.2)) res own') hd
  · rename_i hc
    rw [if_neg hc]
    obtain ⟨vc, o, vj, eo, hcls, h1, h2, h5, h7, h8⟩ := hv
    have key : ∀ {P : Val → Val → Prop}, P vc clust →
        ∀ vc' vk', IsMapperClustering W h c.target vc' vk' → P vc' vk' := by
      rintro P hd vc' vk' ⟨o', _, eo', _, g1, g2, _⟩
      rw [eo] at eo'
      cases eo'
      rw [h1] at g1
      rw [h2] at g2
      cases g1
      cases g2
      exact hd
    refine Wpj.weaken (fun own' hd => ⟨o, eo, hd⟩) (fun own' hd => ⟨o, eo, ?_⟩) (fun res own' hd => ⟨o, eo, ?_⟩) _
      (wpj_clustering (T := T) hW hS hf h1 h2 h5 h7 h8 hsh c.X c.y (ho.trans eo))
    · rw [if_neg hc]
      exact key (P := fun vc vk => Renewed c.target o "labels_"
        ((expectedLabels W h fuel vc vk c.X c.y).map fun p => (.labels p.1, p.2)) own') hd
    · rw [if_neg hc]
      exact key (P := fun vc vk => CallDone c.target o "labels_"
        ((expectedLabels W h fuel vc vk c.X c.y).map fun p => (.labels p.1, p.2)) res own') hd

/-- The estimators that are fitted. -/
def Targets (calls : List FitCall) (a : ℕ) : Prop := ∃ c ∈ calls, c.target = a

open Classical in
theorem apart_start {W : World} (hW : Contract W) {S : FitSteps} (hS : Implements W S) {n fuel : ℕ}
    (hf : n ≤ fuel) (hn2 : 2 ≤ n) {h : Heap} (hg : GoodHeap h n) {calls : List FitCall}
    (hd : (calls.map FitCall.target).Nodup) (hc : ∀ c ∈ calls, c.Separate W h) :
    ∃ owns, Apart (Targets calls) h n
      (fun i own => ∀ c, calls[i]? = some c → CallBefore h c own)
      (fun i own => ∀ c, calls[i]? = some c → CallAfter W fuel h c own) (fun _ => False)
      (fun i res own => ∀ c, calls[i]? = some c → CallPost W fuel h c res own)
      (Threads.start W S fuel calls h) owns := by
  refine ⟨fun i a => if (∃ c, calls[i]? = some c ∧ c.target = a) then h[a]? else none,
    ⟨hg, Evolves.refl _ _, ?_, ?_, ?_, ?_, fun _ _ h => h.elim⟩⟩
  · intro i a o ha
    simp only at ha
    split at ha
    · exact ha
    · cases ha
  · intro i a ha
    split at ha
    · rename_i hx
      obtain ⟨c, h1, h2⟩ := hx
      exact Or.inr ⟨c, List.mem_of_getElem? h1, h2⟩
    · exact absurd rfl ha
  · intro i j a hij ha
    split at ha
    · rename_i hx
      obtain ⟨c, h1, h2⟩ := hx
      rw [if_neg]
      rintro ⟨c', h1', h2'⟩
      refine hij ?_
      have hi : i < (calls.map FitCall.target).length := by
        rw [List.length_map]; exact (List.getElem?_eq_some_iff.mp h1).1
      refine (List.getElem?_inj hi hd).mp ?_
      rw [List.getElem?_map, List.getElem?_map, h1, h1', Option.map_some, Option.map_some, h2, h2']
    · exact absurd rfl ha
  · intro i t ht
    simp only [Threads.start, List.getElem?_map, Option.map_eq_some_iff] at ht
    obtain ⟨c, h1, rfl⟩ := ht
    refine Wpj.weaken ?_ ?_ ?_ _ (wpj_call hW hS hf hn2 hg (hc c (List.mem_of_getElem? h1)) ?_)
    · intro own' hp c' hc'
      rw [h1] at hc'
      cases hc'
      exact hp
    · intro own' hp c' hc'
      rw [h1] at hc'
      cases hc'
      exact hp
    · intro res own' hp c' hc'
      rw [h1] at hc'
      cases hc'
      exact hp
    · rw [if_pos ⟨c, h1, rfl⟩]

theorem follow_length : ∀ (sched : List ℕ) {c c' : Threads}, c.follow sched = some c' →
    c'.threads.length = c.threads.length := by
  intro sched
  induction sched with
  | nil => intro c c' h; cases h; rfl
  | cons j rest ih =>
    intro c c' h
    rw [Threads.follow, Option.bind_eq_some_iff] at h
    obtain ⟨c1, h1, h2⟩ := h
    rw [ih h2]
    unfold Threads.next at h1
    split at h1
    · cases h1
      simp
    · cases h1

theorem follow_thread {W : World} {S : FitSteps} {fuel : ℕ} {calls : List FitCall} {h : Heap} {sched : List ℕ}
    {c' : Threads} (hr : (Threads.start W S fuel calls h).follow sched = some c') {i : ℕ} {c : FitCall}
    (hi : calls[i]? = some c) : ∃ t, c'.threads[i]? = some t := by
  have hi' : i < c'.threads.length := by
    rw [follow_length sched hr]
    simpa [Threads.start] using (List.getElem?_eq_some_iff.mp hi).1
  exact ⟨_, List.getElem?_eq_getElem hi'⟩

/-! ### No schedule goes on forever -/

/-- One of the threads takes a step, on some heap. -/
def FewerSteps (ts' ts : List (Thread Unit)) : Prop :=
  ∃ i upd next h, ts[i]? = some (.step upd next) ∧ ts' = ts.set i (next h)

theorem acc_cons : ∀ (t : Thread Unit) (ts : List (Thread Unit)), Acc FewerSteps ts → Acc FewerSteps (t :: ts) := by
  intro t
  induction t with
  | done r =>
    intro ts ha
    induction ha with
    | intro ts ha ih =>
      refine .intro _ ?_
      rintro _ ⟨i, upd, next, h, e, rfl⟩
      cases i with
      | zero => simp at e
      | succ i => exact ih _ ⟨i, upd, next, h, by simpa using e, rfl⟩
  | step upd0 next0 ih0 =>
    intro ts ha
    induction ha with
    | intro ts ha ih =>
      refine .intro _ ?_
      rintro _ ⟨i, upd, next, h, e, rfl⟩
      cases i with
      | zero =>
        simp only [List.getElem?_cons_zero, Option.some.injEq, Thread.step.injEq] at e
        obtain ⟨rfl, rfl⟩ := e
        exact ih0 h ts (.intro _ ha)
      | succ i => exact ih _ ⟨i, upd, next, h, by simpa using e, rfl⟩

theorem acc_threads : ∀ ts : List (Thread Unit), Acc FewerSteps ts
  | [] => .intro _ (by rintro _ ⟨i, _, _, _, e, _⟩; simp at e)
  | t :: ts => acc_cons t ts (acc_threads ts)

theorem follow_ends {ts : List (Thread Unit)} (ha : Acc FewerSteps ts) : ∀ (h : Heap) (f : ℕ → ℕ),
    ∃ k, Threads.follow ((List.range k).map f) ⟨h, ts⟩ = none := by
  induction ha with
  | intro ts _ ih =>
    intro h f
    cases hn : Threads.next ⟨h, ts⟩ (f 0) with
    | none => exact ⟨1, by simp [Threads.follow, hn]⟩
    | some c =>
      obtain ⟨h', ts'⟩ := c
      have hs : FewerSteps ts' ts := by
        simp only [Threads.next] at hn
        split at hn
        · rename_i upd next e
          cases hn
          exact ⟨f 0, upd, next, h, e, rfl⟩
        · cases hn
      obtain ⟨k, hk⟩ := ih ts' hs h' (fun i => f (i + 1))
      refine ⟨k + 1, ?_⟩
      rw [List.range_succ_eq_map, List.map_cons, List.map_map, Threads.follow, hn]
      exact hk

end Verif
