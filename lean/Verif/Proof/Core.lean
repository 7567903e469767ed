import Verif.Proof.Components

/-!
# Proofs about the rest of `core.py`
-/

set_option autoImplicit false

namespace Verif

variable {S T : Type}

theorem itm_rows {runs : List (List ℕ × List ℤ)} {itm : List (List ℤ)}
    (hrow : ∀ i, row itm i = contrib runs 0 i) {l : List ℤ} (hl : l ∈ itm) :
    ∃ i, l = contrib runs 0 i := by
  obtain ⟨n, hn⟩ := mem_itm_iff.mp hl
  refine ⟨n, ?_⟩
  rw [← hrow]; simp [row, hn]

theorem core_ok (X : List S) (y : List T) (cover : CoverFn T) (clust : ClustFn S)
    (charts : List (List ℕ)) (hc : cover y = .ok charts) (hg : GoodCharts X.length charts)
    (hs : ClusteringSucceeds X charts clust) :
    ∃ runs itm g, RunsOK X charts clust 0 runs ∧ mapperLabels X y cover clust = .ok itm ∧
      itm.length = X.length ∧ (∀ i, row itm i = contrib runs 0 i) ∧
      (∀ l ∈ itm, l.Pairwise (· < ·)) ∧
      mapperGraph X y cover clust = .ok g ∧ GraphOK itm g := by
  obtain ⟨runs, itm, hr, e, hl, hrow⟩ := mapperLabels_ok X y cover clust charts hc
    (fun ids h => (hg ids h).2) hs
  have hp : ∀ l ∈ itm, l.Pairwise (· < ·) := by
    intro l hl
    obtain ⟨i, rfl⟩ := itm_rows hrow hl
    exact contrib_pairwise runs 0 i (hr.nodup fun ids h => (hg ids h).1)
  obtain ⟨g0, g, e0, e1, hG⟩ := graph_ok itm (fun l hl => (hp l hl).imp (fun h => ne_of_lt h))
  refine ⟨runs, itm, g, hr, e, hl, hrow, hp, ?_, hG⟩
  simp only [mapperGraph, e, ok_bind, e0, e1]

theorem label_nonneg {runs : List (List ℕ × List ℤ)} {itm : List (List ℤ)}
    (hrow : ∀ i, row itm i = contrib runs 0 i) {n : ℕ} {L : ℤ} (h : Carries itm n L) : 0 ≤ L := by
  rw [carries_iff, hrow] at h
  exact contrib_ge _ _ _ _ h

theorem runJobs_error (X : List S) (clust : ClustFn S) (hs : ∀ c l, ∃ lbls, clust c l = .ok lbls)
    (charts : List (List ℕ)) : ∀ c, (∃ ids ∈ charts, ∃ i ∈ ids, X.length ≤ i) →
    runJobs X clust c charts = .error .indexError := by
  induction charts with
  | nil => intro c h; simp at h
  | cons ids charts ih =>
    intro c h
    by_cases hi : ∃ i ∈ ids, X.length ≤ i
    · simp only [runJobs, gather_error X ids hi, error_bind]
    · have hv : ∀ i ∈ ids, i < X.length := by
        intro i h; by_contra hx; exact hi ⟨i, h, Nat.not_lt.mp hx⟩
      obtain ⟨lbls, e⟩ := hs c (pointsOf X ids)
      have : ∃ ids ∈ charts, ∃ i ∈ ids, X.length ≤ i := by
        obtain ⟨a, ha, hx⟩ := h
        rcases List.mem_cons.mp ha with rfl | ha
        · exact absurd hx hi
        · exact ⟨a, ha, hx⟩
      simp only [runJobs, gather_ok X ids hv, e, ih (c + 1) this, ok_bind, error_bind]

/-- The loop of `aggregate_graph`. -/
theorem aggregateLoop_ok {A : Type} (X : List S) (g : NxGraph) (agg : List S → Py A)
    (val : ℤ → A) : ∀ (ns : List ℤ) (out : PyDict ℤ A), ns.Nodup → (∀ n ∈ ns, n ∉ out.keys) →
    (∀ n ∈ ns, ∃ a ids, g.nodes.get? n = some a ∧ a.ids = some ids ∧ (∀ i ∈ ids, i < X.length) ∧
      agg (pointsOf X ids) = .ok (val n)) →
    ∃ out', aggregateLoop X g agg ns out = .ok out' ∧ out'.keys = out.keys ++ ns ∧
      (∀ n, n ∈ ns → out'.get? n = some (val n)) ∧ (∀ n, n ∉ ns → out'.get? n = out.get? n) := by
  intro ns
  induction ns with
  | nil => intro out _ _ _; exact ⟨out, rfl, by simp, by simp, by simp⟩
  | cons n ns ih =>
    intro out hn hd h
    rw [List.nodup_cons] at hn
    obtain ⟨a, ids, ga, ha, hv, e⟩ := h n (by simp)
    have hk : (out.set n (val n)).keys = out.keys ++ [n] := by
      rw [PyDict.keys_set, if_neg (hd n (by simp))]
    obtain ⟨out', e', k', s', n'⟩ := ih (out.set n (val n)) hn.2 (by
      intro m hm
      rw [hk, List.mem_append, List.mem_singleton]
      rintro (h | rfl)
      · exact hd m (by simp [hm]) h
      · exact hn.1 hm) (fun m hm => h m (by simp [hm]))
    refine ⟨out', ?_, by rw [k', hk, List.append_assoc]; rfl, ?_, ?_⟩
    · simp only [aggregateLoop, PyDict.getItem, ga, ok_bind, ha, gather_ok X ids hv, e, e']
    · intro m hm
      rcases List.mem_cons.mp hm with rfl | hm
      · rw [n' m hn.1]; simp
      · exact s' m hm
    · intro m hm
      simp only [List.mem_cons, not_or] at hm
      rw [n' m hm.2]; simp [hm.1]

/-- The indices at which `proximity_net` searches, from index `i` on. -/
def centres (res : ℕ → List ℕ) : (i cnt : ℕ) → (covered : List ℕ) → List ℕ
  | _, 0, _ => []
  | i, cnt + 1, covered =>
    if i ∈ covered then centres res (i + 1) cnt covered
    else i :: centres res (i + 1) cnt (covered ++ res i)

theorem proximityLoop_ok {F : Type} (search : F → S → Py (List ℕ)) (f : F) (res : ℕ → List ℕ) :
    ∀ (xs : List S) (i : ℕ) (covered : List ℕ),
    (∀ k x, xs[k]? = some x → search f x = .ok (res (i + k))) →
    proximityLoop search f i xs covered =
      .ok (((centres res i xs.length covered).map res).filter (fun l => l ≠ [])) := by
  intro xs
  induction xs with
  | nil => intro i covered _; rfl
  | cons x xs ih =>
    intro i covered h
    have h' : ∀ k x, xs[k]? = some x → search f x = .ok (res (i + 1 + k)) := by
      intro k x hk
      have := h (k + 1) x (by simpa using hk)
      rwa [show i + (k + 1) = i + 1 + k by omega] at this
    by_cases hi : i ∈ covered
    · simp only [proximityLoop, hi, if_true, List.length_cons, centres]
      exact ih (i + 1) covered h'
    · have h0 := h 0 x (by simp)
      rw [Nat.add_zero] at h0
      simp only [proximityLoop, hi, if_false, h0, ok_bind, ih (i + 1) (covered ++ res i) h',
        pure_eq_ok, List.length_cons, centres, List.map_cons]
      by_cases hr : res i = []
      · simp [hr]
      · simp [hr]

theorem centres_ge (res : ℕ → List ℕ) : ∀ (cnt i : ℕ) (covered : List ℕ),
    ∀ j ∈ centres res i cnt covered, i ≤ j ∧ j < i + cnt := by
  intro cnt
  induction cnt with
  | zero => intro i covered j h; simp [centres] at h
  | succ cnt ih =>
    intro i covered j h
    simp only [centres] at h
    split at h
    · have := ih _ _ j h; omega
    · rcases List.mem_cons.mp h with rfl | h
      · omega
      · have := ih _ _ j h; omega

theorem centres_sorted (res : ℕ → List ℕ) : ∀ (cnt i : ℕ) (covered : List ℕ),
    (centres res i cnt covered).Pairwise (· < ·) := by
  intro cnt
  induction cnt with
  | zero => intro i covered; simp [centres]
  | succ cnt ih =>
    intro i covered
    simp only [centres]
    split
    · exact ih _ _
    · rw [List.pairwise_cons]
      refine ⟨fun j hj => ?_, ih _ _⟩
      have := centres_ge res _ _ _ j hj; omega

theorem mem_centres (res : ℕ → List ℕ) : ∀ (cnt i : ℕ) (covered : List ℕ) (j : ℕ),
    j ∈ centres res i cnt covered ↔ i ≤ j ∧ j < i + cnt ∧ j ∉ covered ∧
      ∀ k ∈ centres res i cnt covered, k < j → j ∉ res k := by
  intro cnt
  induction cnt with
  | zero => intro i covered j; simp [centres]; omega
  | succ cnt ih =>
    intro i covered j
    simp only [centres]
    split
    · rename_i hi
      rw [ih]
      constructor
      · rintro ⟨h1, h2, h3, h4⟩; exact ⟨by omega, by omega, h3, h4⟩
      · rintro ⟨h1, h2, h3, h4⟩
        refine ⟨?_, by omega, h3, h4⟩
        rcases Nat.lt_or_ge i j with h | h
        · exact h
        · exact absurd (by rwa [show j = i by omega]) h3
    · rename_i hi
      rw [List.mem_cons, ih]
      constructor
      · rintro (rfl | ⟨h1, h2, h3, h4⟩)
        · refine ⟨le_refl _, by omega, hi, ?_⟩
          intro k hk hlt
          rcases List.mem_cons.mp hk with rfl | hk
          · omega
          · have := centres_ge res _ _ _ k hk; omega
        · rw [List.mem_append, not_or] at h3
          refine ⟨by omega, by omega, h3.1, ?_⟩
          intro k hk hlt
          rcases List.mem_cons.mp hk with rfl | hk
          · exact h3.2
          · exact h4 k hk hlt
      · rintro ⟨h1, h2, h3, h4⟩
        rcases Nat.lt_or_ge i j with h | h
        · refine Or.inr ⟨h, by omega, ?_, fun k hk => h4 k (by simp [hk])⟩
          rw [List.mem_append, not_or]
          exact ⟨h3, h4 i (by simp) h⟩
        · exact Or.inl (by omega)

end Verif
