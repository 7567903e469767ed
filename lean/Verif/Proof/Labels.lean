import Verif.Spec.Core
import Mathlib.Order.Basic
import Mathlib.Tactic.Linarith

/-!
# Proofs about `mapper_labels`
-/

set_option autoImplicit false

namespace Verif

variable {S T : Type}

theorem gather_ok (X : List S) (ids : List ℕ) (h : ∀ i ∈ ids, i < X.length) :
    gather X ids = .ok (pointsOf X ids) := by
  induction ids with
  | nil => rfl
  | cons j js ih =>
    have hj := h j (by simp)
    have := ih (fun i hi => h i (by simp [hi]))
    simp only [gather, getItem_lt hj, this, ok_bind, pure_eq_ok]
    simp [pointsOf, List.getElem?_eq_getElem hj]

theorem gather_error (X : List S) (ids : List ℕ) (h : ∃ i ∈ ids, X.length ≤ i) :
    gather X ids = .error .indexError := by
  induction ids with
  | nil => obtain ⟨i, hi, _⟩ := h; simp at hi
  | cons j js ih =>
    by_cases hj : j < X.length
    · have : ∃ i ∈ js, X.length ≤ i := by
        obtain ⟨i, hi, hlt⟩ := h
        rcases List.mem_cons.mp hi with rfl | hi
        · omega
        · exact ⟨i, hi, hlt⟩
      simp only [gather, getItem_lt hj, ih this, ok_bind, error_bind]
    · simp only [gather, getItem_ge (Nat.not_lt.mp hj), error_bind]

/-- Relation between the charts and the results of their jobs. -/
def RunsOK (X : List S) (charts : List (List ℕ)) (clust : ClustFn S) (c : ℕ)
    (runs : List (List ℕ × List ℤ)) : Prop :=
  runs.length = charts.length ∧
  ∀ k r, runs[k]? = some r → charts[k]? = some r.1 ∧ clust (c + k) (pointsOf X r.1) = .ok r.2

theorem runJobs_ok (X : List S) (clust : ClustFn S) (charts : List (List ℕ)) :
    ∀ c, (∀ ids ∈ charts, ∀ i ∈ ids, i < X.length) →
    (∀ k ids, charts[k]? = some ids → ∃ lbls, clust (c + k) (pointsOf X ids) = .ok lbls) →
    ∃ runs, runJobs X clust c charts = .ok runs ∧ RunsOK X charts clust c runs := by
  induction charts with
  | nil => intro c _ _; exact ⟨[], rfl, rfl, by simp⟩
  | cons ids charts ih =>
    intro c hv hs
    obtain ⟨lbls, hl⟩ := hs 0 ids (by simp)
    obtain ⟨runs, hr, hlen, hrun⟩ := ih (c + 1) (fun a ha => hv a (by simp [ha])) (fun k a hk => by
      have := hs (k + 1) a (by simpa using hk)
      rwa [show c + (k + 1) = c + 1 + k by omega] at this)
    refine ⟨(ids, lbls) :: runs, ?_, by simp [hlen], ?_⟩
    · rw [Nat.add_zero] at hl
      simp only [runJobs, gather_ok X ids (hv ids (by simp)), hl, hr, ok_bind, pure_eq_ok]
    · intro k r hk
      cases k with
      | zero => simp at hk; subst hk; exact ⟨by simp, hl⟩
      | succ k =>
        have := hrun k r (by simpa using hk)
        refine ⟨by simpa using this.1, ?_⟩
        rw [show c + (k + 1) = c + 1 + k by omega]; exact this.2

/-- The labels of a point, empty beyond the end. -/
def row (itm : List (List ℤ)) (i : ℕ) : List ℤ := (itm[i]?).getD []

theorem appendLabel_ok (m : ℤ) (i : ℕ) (l : ℤ) (itm : List (List ℤ)) (h : i < itm.length) :
    ∃ itm', appendLabel m i l itm = .ok itm' ∧ itm'.length = itm.length ∧
      ∀ j, row itm' j = row itm j ++ if i = j ∧ 0 ≤ l then [m + l] else [] := by
  unfold appendLabel
  by_cases hl : l ≥ 0
  · simp only [hl, if_true, getItem_lt h, ok_bind, setItem_lt h]
    refine ⟨_, rfl, by simp, ?_⟩
    intro j
    unfold row
    rw [List.getElem?_set]
    by_cases hij : i = j
    · subst hij; simp [h]
    · simp [hij]
  · simp only [hl, if_false]
    refine ⟨_, rfl, rfl, ?_⟩
    intro j
    simp

/-- Labels appended to point `i` by one chart. -/
def chunk (m : ℤ) (pairs : List (ℕ × ℤ)) (i : ℕ) : List ℤ :=
  (pairs.filter fun p => p.1 = i ∧ 0 ≤ p.2).map fun p => m + p.2

/-- Largest label of a chart, at least zero. -/
def maxOf (pairs : List (ℕ × ℤ)) (k : ℤ) : ℤ := pairs.foldl (fun a p => max a p.2) k

theorem labelChart_ok (m : ℤ) (pairs : List (ℕ × ℤ)) : ∀ (k : ℤ) (itm : List (List ℤ)),
    (∀ p ∈ pairs, p.1 < itm.length) →
    ∃ itm', labelChart m pairs k itm = .ok (maxOf pairs k, itm') ∧ itm'.length = itm.length ∧
      ∀ j, row itm' j = row itm j ++ chunk m pairs j := by
  induction pairs with
  | nil => intro k itm _; exact ⟨itm, rfl, rfl, by simp [chunk]⟩
  | cons p pairs ih =>
    obtain ⟨i, l⟩ := p
    intro k itm h
    obtain ⟨itm1, e1, hl1, hr1⟩ := appendLabel_ok m i l itm (h (i, l) (by simp))
    have hmax : (if l > k then l else k) = max k l := by
      rcases lt_or_ge k l with h | h
      · simp [h, max_eq_right h.le]
      · simp [not_lt.mpr h, max_eq_left h]
    obtain ⟨itm2, e2, hl2, hr2⟩ := ih (max k l) itm1 (fun p hp => by
      rw [hl1]; exact h p (by simp [hp]))
    refine ⟨itm2, ?_, by rw [hl2, hl1], ?_⟩
    · simp only [labelChart, e1, ok_bind, hmax, e2]
      simp [maxOf]
    · intro j
      rw [hr2, hr1, List.append_assoc]
      congr 1
      unfold chunk
      by_cases hc : i = j ∧ 0 ≤ l
      · simp [hc]
      · rw [if_neg hc, List.filter_cons_of_neg (by simpa using hc)]
        simp

/-- Labels appended to point `i` by all charts, the first of which has offset `m`. -/
def contrib : List (List ℕ × List ℤ) → ℤ → ℕ → List ℤ
  | [], _, _ => []
  | (ids, lbls) :: rest, m, i =>
    chunk m (ids.zip lbls) i ++ contrib rest (m + (maxOf (ids.zip lbls) 0 + 1)) i

theorem labelCharts_ok (runs : List (List ℕ × List ℤ)) : ∀ (m : ℤ) (itm : List (List ℤ)),
    (∀ r ∈ runs, ∀ i ∈ r.1, i < itm.length) →
    ∃ itm', labelCharts runs m itm = .ok itm' ∧ itm'.length = itm.length ∧
      ∀ j, row itm' j = row itm j ++ contrib runs m j := by
  induction runs with
  | nil => intro m itm _; exact ⟨itm, rfl, rfl, by simp [contrib]⟩
  | cons r runs ih =>
    obtain ⟨ids, lbls⟩ := r
    intro m itm h
    obtain ⟨itm1, e1, hl1, hr1⟩ := labelChart_ok m (ids.zip lbls) 0 itm (fun p hp =>
      h (ids, lbls) (by simp) p.1 (List.of_mem_zip (a := p.1) (b := p.2) hp).1)
    obtain ⟨itm2, e2, hl2, hr2⟩ := ih (m + (maxOf (ids.zip lbls) 0 + 1)) itm1 (fun r hr i hi => by
      rw [hl1]; exact h r (by simp [hr]) i hi)
    refine ⟨itm2, ?_, by rw [hl2, hl1], ?_⟩
    · simp only [labelCharts, e1, ok_bind, e2]
    · intro j
      rw [hr2, hr1, List.append_assoc, contrib]

/-- The offset of chart number `c`, when that of the first one is `m`. -/
def offAt : List (List ℕ × List ℤ) → ℤ → ℕ → ℤ
  | _, m, 0 => m
  | [], m, _ + 1 => m
  | r :: rest, m, c + 1 => offAt rest (m + (maxOf (r.1.zip r.2) 0 + 1)) c

theorem le_maxOf (pairs : List (ℕ × ℤ)) : ∀ k, k ≤ maxOf pairs k := by
  induction pairs with
  | nil => intro k; exact le_refl k
  | cons p t ih => intro k; exact le_trans (le_max_left k p.2) (ih _)

theorem mem_le_maxOf (pairs : List (ℕ × ℤ)) : ∀ k, ∀ p ∈ pairs, p.2 ≤ maxOf pairs k := by
  induction pairs with
  | nil => intro k p hp; simp at hp
  | cons q t ih =>
    intro k p hp
    rcases List.mem_cons.mp hp with rfl | hp
    · exact le_trans (le_max_right k p.2) (le_maxOf t _)
    · exact ih _ p hp

theorem offAt_succ : ∀ (runs : List (List ℕ × List ℤ)) (m : ℤ) (c : ℕ) (r : List ℕ × List ℤ),
    runs[c]? = some r → offAt runs m (c + 1) = offAt runs m c + (maxOf (r.1.zip r.2) 0 + 1) := by
  intro runs
  induction runs with
  | nil => intro m c r h; simp at h
  | cons q t ih =>
    intro m c r h
    cases c with
    | zero =>
      simp at h; subst h
      cases t <;> simp [offAt]
    | succ c =>
      simp only [offAt]
      exact ih _ c r (by simpa using h)

theorem offAt_mono (runs : List (List ℕ × List ℤ)) : ∀ (m : ℤ) (c : ℕ), m ≤ offAt runs m c := by
  induction runs with
  | nil => intro m c; cases c <;> simp [offAt]
  | cons q t ih =>
    intro m c
    cases c with
    | zero => simp [offAt]
    | succ c =>
      simp only [offAt]
      have := ih (m + (maxOf (q.1.zip q.2) 0 + 1)) c
      have := le_maxOf (q.1.zip q.2) 0
      omega

theorem mem_chunk {m : ℤ} {ids : List ℕ} {lbls : List ℤ} {i : ℕ} {L : ℤ} :
    L ∈ chunk m (ids.zip lbls) i ↔
      ∃ (k : ℕ) (l : ℤ), ids[k]? = some i ∧ lbls[k]? = some l ∧ 0 ≤ l ∧ L = m + l := by
  unfold chunk
  simp only [List.mem_map, List.mem_filter, decide_eq_true_eq, Prod.exists]
  constructor
  · rintro ⟨a, l, ⟨hm, rfl, hl⟩, rfl⟩
    obtain ⟨k, hk⟩ := List.mem_iff_getElem?.mp hm
    rw [List.getElem?_zip_eq_some] at hk
    exact ⟨k, l, hk.1, hk.2, hl, rfl⟩
  · rintro ⟨k, l, h1, h2, hl, rfl⟩
    refine ⟨i, l, ⟨?_, rfl, hl⟩, rfl⟩
    exact List.mem_iff_getElem?.mpr ⟨k, List.getElem?_zip_eq_some.mpr ⟨h1, h2⟩⟩

theorem mem_contrib : ∀ (runs : List (List ℕ × List ℤ)) (m : ℤ) (i : ℕ) (L : ℤ),
    L ∈ contrib runs m i ↔ ∃ (c : ℕ) (ids : List ℕ) (lbls : List ℤ) (k : ℕ) (l : ℤ), runs[c]? = some (ids, lbls) ∧
      ids[k]? = some i ∧ lbls[k]? = some l ∧ 0 ≤ l ∧ L = offAt runs m c + l := by
  intro runs
  induction runs with
  | nil => intro m i L; simp [contrib]
  | cons r t ih =>
    obtain ⟨ids, lbls⟩ := r
    intro m i L
    rw [contrib, List.mem_append, mem_chunk, ih]
    constructor
    · rintro (⟨k, l, h1, h2, h3, h4⟩ | ⟨c, ids', lbls', k, l, h0, h⟩)
      · exact ⟨0, ids, lbls, k, l, by simp, h1, h2, h3, by simpa [offAt] using h4⟩
      · exact ⟨c + 1, ids', lbls', k, l, by simpa using h0, by simpa [offAt] using h⟩
    · rintro ⟨c, ids', lbls', k, l, h0, h1, h2, h3, h4⟩
      cases c with
      | zero =>
        simp at h0
        obtain ⟨rfl, rfl⟩ := h0
        exact Or.inl ⟨k, l, h1, h2, h3, by simpa [offAt] using h4⟩
      | succ c =>
        exact Or.inr ⟨c, ids', lbls', k, l, by simpa using h0, h1, h2, h3, by simpa [offAt] using h4⟩

theorem contrib_ge (runs : List (List ℕ × List ℤ)) (m : ℤ) (i : ℕ) :
    ∀ L ∈ contrib runs m i, m ≤ L := by
  intro L hL
  obtain ⟨c, ids, lbls, k, l, -, -, -, h3, rfl⟩ := (mem_contrib runs m i L).mp hL
  have := offAt_mono runs m c
  omega

theorem zip_fst_unique : ∀ {ids : List ℕ} {lbls : List ℤ}, ids.Nodup → ∀ i,
    ((ids.zip lbls).filter fun p => p.1 = i ∧ 0 ≤ p.2).length ≤ 1 := by
  intro ids
  induction ids with
  | nil => intro lbls _ i; simp
  | cons a t ih =>
    intro lbls hn i
    cases lbls with
    | nil => simp
    | cons l ls =>
      rw [List.nodup_cons] at hn
      have := ih (lbls := ls) hn.2 i
      simp only [List.zip_cons_cons, List.filter_cons]
      split
      · rename_i hc
        simp at hc
        have hz : ((t.zip ls).filter fun p => p.1 = i ∧ 0 ≤ p.2) = [] := by
          rw [List.filter_eq_nil_iff]
          rintro ⟨b, x⟩ hb
          have hbt := (List.of_mem_zip hb).1
          simp only [decide_eq_true_eq, not_and]
          rintro rfl
          exact absurd (hc.1 ▸ hbt) hn.1
        rw [hz]; simp
      · exact this

theorem pairwise_of_length_le_one {α : Type} {R : α → α → Prop} {l : List α}
    (h : l.length ≤ 1) : l.Pairwise R := by
  match l, h with
  | [], _ => exact List.Pairwise.nil
  | [a], _ => simp

theorem contrib_pairwise : ∀ (runs : List (List ℕ × List ℤ)) (m : ℤ) (i : ℕ),
    (∀ r ∈ runs, r.1.Nodup) → (contrib runs m i).Pairwise (· < ·) := by
  intro runs
  induction runs with
  | nil => intro m i _; simp [contrib]
  | cons r t ih =>
    obtain ⟨ids, lbls⟩ := r
    intro m i h
    rw [contrib, List.pairwise_append]
    refine ⟨pairwise_of_length_le_one ?_, ih _ _ (fun r hr => h r (by simp [hr])), ?_⟩
    · simp only [chunk, List.length_map]
      exact zip_fst_unique (h (ids, lbls) (by simp)) i
    · intro a ha b hb
      obtain ⟨k, l, h1, h2, h3, rfl⟩ := mem_chunk.mp ha
      have hb := contrib_ge _ _ _ b hb
      have : l ≤ maxOf (ids.zip lbls) 0 := mem_le_maxOf _ 0 (i, l)
        (List.mem_iff_getElem?.mpr ⟨k, List.getElem?_zip_eq_some.mpr ⟨h1, h2⟩⟩)
      omega

theorem offAt_lt {runs : List (List ℕ × List ℤ)} {c c' : ℕ} (m : ℤ) {r : List ℕ × List ℤ}
    (h : runs[c]? = some r) (hc : c < c') (hc' : c' ≤ runs.length) :
    offAt runs m c + maxOf (r.1.zip r.2) 0 < offAt runs m c' := by
  induction c', hc using Nat.le_induction with
  | base => rw [offAt_succ runs m c r h]; omega
  | succ c' hcc ih =>
    have hlt : c' < runs.length := by omega
    have h1 := offAt_succ runs m c' runs[c'] (by simp [hlt])
    have h2 := le_maxOf (runs[c'].1.zip runs[c'].2) 0
    have h3 := ih (by omega)
    omega

/-- Labels of two runs agree only if chart and local label do. -/
theorem offAt_inj {runs : List (List ℕ × List ℤ)} {m : ℤ} {c c' k k' : ℕ} {i i' : ℕ}
    {ids ids' : List ℕ} {lbls lbls' : List ℤ} {l l' : ℤ}
    (h : runs[c]? = some (ids, lbls)) (h' : runs[c']? = some (ids', lbls'))
    (hk : ids[k]? = some i) (hk' : ids'[k']? = some i')
    (hl : lbls[k]? = some l) (hl' : lbls'[k']? = some l') (h0 : 0 ≤ l) (h0' : 0 ≤ l') :
    offAt runs m c + l = offAt runs m c' + l' ↔ c = c' ∧ l = l' := by
  have hc : c < runs.length := by
    by_contra hx; rw [List.getElem?_eq_none (by omega)] at h; simp at h
  have hc' : c' < runs.length := by
    by_contra hx; rw [List.getElem?_eq_none (by omega)] at h'; simp at h'
  have b1 : l ≤ maxOf (ids.zip lbls) 0 := mem_le_maxOf _ 0 (i, l)
        (List.mem_iff_getElem?.mpr ⟨k, List.getElem?_zip_eq_some.mpr ⟨hk, hl⟩⟩)
  have b2 : l' ≤ maxOf (ids'.zip lbls') 0 := mem_le_maxOf _ 0 (i', l')
        (List.mem_iff_getElem?.mpr ⟨k', List.getElem?_zip_eq_some.mpr ⟨hk', hl'⟩⟩)
  constructor
  · intro he
    rcases lt_trichotomy c c' with hlt | heq | hgt
    · have := offAt_lt m h hlt hc'.le
      simp only at this; omega
    · subst heq; exact ⟨rfl, by omega⟩
    · have := offAt_lt m h' hgt hc.le
      simp only at this; omega
  · rintro ⟨rfl, rfl⟩; rfl

theorem maxOf_eq (ids : List ℕ) : ∀ (lbls : List ℤ) (k : ℤ),
    maxOf (ids.zip lbls) k = (lbls.take ids.length).foldl max k := by
  induction ids with
  | nil => intro lbls k; simp [maxOf]
  | cons a t ih =>
    intro lbls k
    cases lbls with
    | nil => simp [maxOf]
    | cons l ls =>
      simp only [List.zip_cons_cons, List.length_cons, List.take_succ_cons, List.foldl_cons]
      exact ih ls _

/-- Full description of the result of `mapper_labels`. -/
theorem mapperLabels_ok (X : List S) (y : List T) (cover : CoverFn T) (clust : ClustFn S)
    (charts : List (List ℕ)) (hc : cover y = .ok charts)
    (hv : ∀ ids ∈ charts, ∀ i ∈ ids, i < X.length)
    (hs : ClusteringSucceeds X charts clust) :
    ∃ runs itm, RunsOK X charts clust 0 runs ∧ mapperLabels X y cover clust = .ok itm ∧
      itm.length = X.length ∧ ∀ i, row itm i = contrib runs 0 i := by
  obtain ⟨runs, e1, hr⟩ := runJobs_ok X clust charts 0 hv (fun k ids hk => by
    obtain ⟨lbls, _, h⟩ := hs k ids hk
    exact ⟨lbls, by simpa using h⟩)
  have hmem : ∀ r ∈ runs, r.1 ∈ charts := by
    intro r hmem
    obtain ⟨k, hk⟩ := List.mem_iff_getElem?.mp hmem
    exact List.mem_iff_getElem?.mpr ⟨k, (hr.2 k r hk).1⟩
  obtain ⟨itm, e2, hl, hrow⟩ := labelCharts_ok runs 0 (X.map fun _ => []) (fun r hrr i hi => by
    simpa using hv r.1 (hmem r hrr) i hi)
  refine ⟨runs, itm, hr, ?_, by simpa using hl, ?_⟩
  · simp only [mapperLabels, hc, ok_bind, e1, e2]
  · intro i
    rw [hrow]
    have : row (X.map fun _ => ([] : List ℤ)) i = [] := by
      unfold row
      rw [List.getElem?_map]
      cases X[i]? <;> rfl
    rw [this, List.nil_append]

theorem RunsOK.localLabel {X : List S} {charts : List (List ℕ)} {clust : ClustFn S}
    {runs : List (List ℕ × List ℤ)} (h : RunsOK X charts clust 0 runs) (c i : ℕ) (l : ℤ) :
    LocalLabel X charts clust c i l ↔ ∃ (ids : List ℕ) (lbls : List ℤ) (k : ℕ), runs[c]? = some (ids, lbls) ∧
      ids[k]? = some i ∧ lbls[k]? = some l := by
  constructor
  · rintro ⟨ids, lbls, k, ⟨hc, hl⟩, h1, h2⟩
    have hlt : c < runs.length := by
      rw [h.1]
      by_contra hx; rw [List.getElem?_eq_none (by omega)] at hc; simp at hc
    have hr : runs[c]? = some runs[c] := by simp [hlt]
    obtain ⟨e1, e2⟩ := h.2 c _ hr
    have hid : runs[c].1 = ids := by rw [hc] at e1; simpa using e1.symm
    have hlb : runs[c].2 = lbls := by
      rw [Nat.zero_add, hid, hl] at e2; simpa using e2.symm
    refine ⟨ids, lbls, k, ?_, h1, h2⟩
    rw [hr, ← hid, ← hlb]
  · rintro ⟨ids, lbls, k, hr, h1, h2⟩
    obtain ⟨e1, e2⟩ := h.2 c _ hr
    exact ⟨ids, lbls, k, ⟨e1, by simpa using e2⟩, h1, h2⟩

theorem RunsOK.nodup {X : List S} {charts : List (List ℕ)} {clust : ClustFn S}
    {runs : List (List ℕ × List ℤ)} (h : RunsOK X charts clust 0 runs)
    (hg : ∀ ids ∈ charts, ids.Nodup) : ∀ r ∈ runs, r.1.Nodup := by
  intro r hmem
  obtain ⟨k, hk⟩ := List.mem_iff_getElem?.mp hmem
  exact hg _ (List.mem_iff_getElem?.mpr ⟨k, (h.2 k r hk).1⟩)

theorem row_eq {itm : List (List ℤ)} {i : ℕ} (h : i < itm.length) : itm[i]? = some (row itm i) := by
  simp [row, h]

theorem carries_iff {itm : List (List ℤ)} {i : ℕ} {L : ℤ} : Carries itm i L ↔ L ∈ row itm i := by
  unfold Carries row
  cases itm[i]? <;> simp

end Verif
