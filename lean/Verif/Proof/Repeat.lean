import Verif.Proof.Columns
import Verif.Spec.Repeat

/-!
# Lemmas: runs over rows that are repeated
-/

set_option autoImplicit false
set_option linter.unusedSectionVars false

namespace Verif

variable {S T : Type}

/-! ### The two lists of rows, read side by side -/

/-- `t'`, which begins at position `j` of the list with copies, goes on where `k` rows of the list
without copies have been seen, and `t` are left. -/
inductive Unfolds {α : Type} (π : ℕ → ℕ) (n : ℕ) (y : List α) : ℕ → ℕ → List α → List α → Prop
  | nil (k j : ℕ) : Unfolds π n y k j [] []
  | new {k j : ℕ} {x : α} {t t' : List α} (hn : j < n) (hx : y[k]? = some x) (hj : π j = k)
      (h : Unfolds π n y (k + 1) (j + 1) t t') : Unfolds π n y k j (x :: t) (x :: t')
  | again {k j : ℕ} {x : α} {t t' : List α} (hn : j < n) (hx : y[π j]? = some x) (hj : π j < k)
      (h : Unfolds π n y k (j + 1) t t') : Unfolds π n y k j t (x :: t')

theorem unfolds_of_repeats {α : Type} {π : ℕ → ℕ} {y y' : List α} (h : Repeats π y y')
    (ho : FirstInOrder π y'.length) : Unfolds π y'.length y 0 0 y y' := by
  have key : ∀ (cnt j k : ℕ), j + cnt = y'.length → k ≤ y.length →
      (∀ i, i < k → ∃ j', j' < j ∧ π j' = i) → (∀ j', j' < j → π j' < k) →
      Unfolds π y'.length y k j (y.drop k) (y'.drop j) := by
    intro cnt
    induction cnt with
    | zero =>
      intro j k hj hk h1 h2
      have hkn : k = y.length := by
        by_contra hne
        obtain ⟨j', h3, h4⟩ := h.every k (by omega)
        have := h2 j' (by omega)
        omega
      rw [hkn, List.drop_length, List.drop_eq_nil_of_le (by omega)]
      exact .nil _ _
    | succ cnt ih =>
      intro j k hj hk h1 h2
      have hlt : j < y'.length := by omega
      obtain ⟨h3, h4⟩ := h.entry j hlt
      obtain ⟨x, hx⟩ := lt_getElem? h3
      rw [List.drop_eq_getElem_cons hlt]
      have hxe : y'[j] = x := by
        rw [hx, List.getElem?_eq_getElem hlt] at h4
        exact Option.some.inj h4
      rw [hxe]
      rcases Nat.lt_trichotomy (π j) k with hl | hl | hl
      · refine .again hlt hx hl (ih (j + 1) k (by omega) hk ?_ ?_)
        · intro i hi
          obtain ⟨j', h5, h6⟩ := h1 i hi
          exact ⟨j', by omega, h6⟩
        · intro j' hj'
          rcases Nat.lt_succ_iff_lt_or_eq.mp hj' with h5 | rfl
          · exact h2 j' h5
          · exact hl
      · subst hl
        rw [List.drop_eq_getElem_cons h3]
        have : y[π j] = x := by
          rw [List.getElem?_eq_getElem h3] at hx
          exact Option.some.inj hx
        rw [this]
        refine .new hlt hx rfl (ih (j + 1) (π j + 1) (by omega) (by omega) ?_ ?_)
        · intro i hi
          rcases Nat.lt_succ_iff_lt_or_eq.mp hi with h5 | rfl
          · obtain ⟨j', h6, h7⟩ := h1 i h5
            exact ⟨j', by omega, h7⟩
          · exact ⟨j, by omega, rfl⟩
        · intro j' hj'
          rcases Nat.lt_succ_iff_lt_or_eq.mp hj' with h5 | rfl
          · exact Nat.lt_succ_of_lt (h2 j' h5)
          · omega
      · obtain ⟨j', h5, h6⟩ := ho j hlt k hl
        have := h2 j' h5
        omega
  simpa using key y'.length 0 0 (by omega) (by omega) (fun _ h => absurd h (by omega))
    (fun _ h => absurd h (by omega))

theorem Repeats.mem_iff {α : Type} {π : ℕ → ℕ} {y y' : List α} (h : Repeats π y y') (x : α) :
    x ∈ y' ↔ x ∈ y := by
  constructor
  · intro hx
    obtain ⟨j, hj⟩ := List.getElem?_of_mem hx
    obtain ⟨_, h2⟩ := h.entry j (getElem?_lt hj)
    rw [hj] at h2
    exact List.mem_of_getElem? h2.symm
  · intro hx
    obtain ⟨i, hi⟩ := List.getElem?_of_mem hx
    obtain ⟨j, h1, rfl⟩ := h.every i (getElem?_lt hi)
    obtain ⟨_, h2⟩ := h.entry j h1
    rw [hi] at h2
    exact List.mem_of_getElem? h2

/-- The copies of the rows that satisfy a condition satisfy it. -/
theorem Repeats.copiesOf {π : ℕ → ℕ} {y y' : List T} (h : Repeats π y y') {P : T → Prop}
    {a b : List ℕ} (ha : ListsExactly y P a) (hb : ListsExactly y' P b) :
    CopiesOf π y'.length a b := by
  refine ⟨hb.1, fun j => ?_⟩
  rw [hb.2, ha.2]
  constructor
  · rintro ⟨z, h1, h2⟩
    obtain ⟨_, h3⟩ := h.entry j (getElem?_lt h1)
    exact ⟨getElem?_lt h1, z, by rw [← h3]; exact h1, h2⟩
  · rintro ⟨h0, z, h1, h2⟩
    obtain ⟨_, h3⟩ := h.entry j h0
    exact ⟨z, by rw [h3]; exact h1, h2⟩

theorem proximityLoop_copies {F F' : Type} {π : ℕ → ℕ} {n : ℕ} {y : List T}
    (search : F → T → Py (List ℕ)) (f : F) (search' : F' → T → Py (List ℕ)) (f' : F')
    (hs : ∀ (i : ℕ) x, y[i]? = some x → ∃ a b, search f x = .ok a ∧ search' f' x = .ok b ∧
      CopiesOf π n a b ∧ i ∈ a) {k j : ℕ} {t t' : List T} (h : Unfolds π n y k j t t') :
    ∀ (cov cov' : List ℕ), (∀ m, m < n → (m ∈ cov' ↔ π m ∈ cov)) → (∀ i, i < k → i ∈ cov) →
    ∃ out out', proximityLoop search f k t cov = .ok out ∧
      proximityLoop search' f' j t' cov' = .ok out' ∧ SameChartsWithCopies π n out out' := by
  induction h with
  | nil k j => intro cov cov' _ _; exact ⟨[], [], rfl, rfl, .nil⟩
  | @new k j x t t' hn hx hj _ ih =>
    intro cov cov' hc hseen
    by_cases hi : k ∈ cov
    · obtain ⟨out, out', h1, h2, h3⟩ := ih cov cov' hc (fun i hik => by
        rcases Nat.lt_succ_iff_lt_or_eq.mp hik with h | rfl
        · exact hseen i h
        · exact hi)
      exact ⟨out, out', by rw [proximityLoop, if_pos hi, h1],
        by rw [proximityLoop, if_pos ((hc j hn).mpr (by rw [hj]; exact hi)), h2], h3⟩
    · obtain ⟨a, b, ha, hb, hab, hia⟩ := hs k x hx
      obtain ⟨out, out', h1, h2, h3⟩ := ih (cov ++ a) (cov' ++ b)
        (fun m hm => by
          rw [List.mem_append, List.mem_append, hc m hm, hab.2 m]
          simp [hm])
        (fun i hik => by
          rw [List.mem_append]
          rcases Nat.lt_succ_iff_lt_or_eq.mp hik with h | rfl
          · exact .inl (hseen i h)
          · exact .inr hia)
      have ha0 : a ≠ [] := fun h => by rw [h] at hia; cases hia
      have hb0 : b ≠ [] := fun h => by
        have : j ∈ b := (hab.2 j).mpr ⟨hn, by rw [hj]; exact hia⟩
        rw [h] at this; cases this
      refine ⟨a :: out, b :: out', ?_, ?_, .cons hab h3⟩
      · rw [proximityLoop, if_neg hi]
        simp only [ha, ok_bind, h1, pure_eq_ok, if_neg ha0]
      · rw [proximityLoop, if_neg (fun h => hi (by rw [← hj]; exact (hc j hn).mp h))]
        simp only [hb, ok_bind, h2, pure_eq_ok, if_neg hb0]
  | @again k j x t t' hn hx hj _ ih =>
    intro cov cov' hc hseen
    obtain ⟨out, out', h1, h2, h3⟩ := ih cov cov' hc hseen
    exact ⟨out, out', h1,
      by rw [proximityLoop, if_pos ((hc j hn).mpr (hseen _ hj)), h2], h3⟩

theorem proximityNet_copies {F F' : Type} {π : ℕ → ℕ} {y y' : List T} (h : Repeats π y y')
    (ho : FirstInOrder π y'.length) {fit : List T → Py F} {search : F → T → Py (List ℕ)}
    {fit' : List T → Py F'} {search' : F' → T → Py (List ℕ)} {f : F} {f' : F'}
    (hf : fit y = .ok f) (hf' : fit' y' = .ok f')
    (hs : ∀ (i : ℕ) x, y[i]? = some x → ∃ a b, search f x = .ok a ∧ search' f' x = .ok b ∧
      CopiesOf π y'.length a b ∧ i ∈ a) :
    ∃ out out', proximityNet fit search y = .ok out ∧ proximityNet fit' search' y' = .ok out' ∧
      SameChartsWithCopies π y'.length out out' := by
  obtain ⟨out, out', h1, h2, h3⟩ := proximityLoop_copies search f search' f' hs
    (unfolds_of_repeats h ho) [] [] (by simp) (by simp)
  refine ⟨out, out', ?_, ?_, h3⟩
  · rw [proximityNet, hf]; exact h1
  · rw [proximityNet, hf']; exact h2

/-! ### From the charts to the graph -/

/-- Two runs, the second one with copies. -/
structure RunsWithCopies (π : ℕ → ℕ) (X X' : List S) (charts charts' : List (List ℕ)) : Prop where
  rows : Repeats π X X'
  charts : SameChartsWithCopies π X'.length charts charts'

variable {π : ℕ → ℕ} {X X' : List S} {charts charts' : List (List ℕ)} {clust : ClustFn S}

theorem RunsWithCopies.left (R : RunsWithCopies π X X' charts charts') {c : ℕ} {ids : List ℕ}
    (h : charts[c]? = some ids) :
    ∃ ids', charts'[c]? = some ids' ∧ CopiesOf π X'.length ids ids' := by
  have hc := getElem?_lt h
  have hc' : c < charts'.length := by rw [← R.charts.length_eq]; exact hc
  refine ⟨_, List.getElem?_eq_getElem hc', ?_⟩
  have := R.charts.get hc hc'
  rw [List.get_eq_getElem, List.get_eq_getElem] at this
  rw [List.getElem?_eq_getElem hc] at h
  cases h
  exact this

theorem RunsWithCopies.right (R : RunsWithCopies π X X' charts charts') {c : ℕ} {ids' : List ℕ}
    (h : charts'[c]? = some ids') :
    ∃ ids, charts[c]? = some ids ∧ CopiesOf π X'.length ids ids' := by
  have hc : c < charts.length := by rw [R.charts.length_eq]; exact getElem?_lt h
  obtain ⟨ids2, h1, h2⟩ := R.left (List.getElem?_eq_getElem hc)
  rw [h] at h1
  cases h1
  exact ⟨_, List.getElem?_eq_getElem hc, h2⟩

theorem RunsWithCopies.good (R : RunsWithCopies π X X' charts charts') :
    GoodCharts X'.length charts' := by
  intro ids' h
  obtain ⟨c, hc⟩ := List.getElem?_of_mem h
  obtain ⟨ids, _, h1, h2⟩ := R.right hc
  exact ⟨h1, fun i hi => ((h2 i).mp hi).1⟩

/-- One chart. -/
theorem RunsWithCopies.one (R : RunsWithCopies π X X' charts charts')
    (hg : GoodCharts X.length charts) (ho : RepeatInsensitive clust) {c : ℕ}
    {ids : List ℕ} {lbls : List ℤ} (h : ChartLabels X charts clust c ids lbls) :
    ∃ ids' lbls', ChartLabels X' charts' clust c ids' lbls' ∧
      CopiesOf π X'.length ids ids' ∧ lbls.length = ids.length ∧ lbls'.length = ids'.length ∧
      ∀ (a a' b b' i j : ℕ), ids[a]? = some i → ids[b]? = some j → ∀ i' j', ids'[a']? = some i' →
        ids'[b']? = some j' → π i' = i → π j' = j → ∀ l k l' k', lbls[a]? = some l →
        lbls[b]? = some k → lbls'[a']? = some l' → lbls'[b']? = some k' →
        (0 ≤ l ↔ 0 ≤ l') ∧ (0 ≤ l → 0 ≤ k → (l = k ↔ l' = k')) := by
  obtain ⟨hids, hcl⟩ := h
  obtain ⟨ids', hids', hcop⟩ := R.left hids
  obtain ⟨hnd, hlt⟩ := hg ids (List.mem_of_getElem? hids)
  obtain ⟨hnd', hlt'⟩ := R.good ids' (List.mem_of_getElem? hids')
  let σ : ℕ → ℕ := fun m => ids.idxOf (π (ids'.getD m 0))
  have hσ : ∀ (m i' : ℕ), ids'[m]? = some i' → ∀ a : ℕ, ids[a]? = some (π i') → σ m = a := by
    intro m i' hm a ha
    have h1 : ids'.getD m 0 = i' := by simp [List.getD_eq_getElem?_getD, hm]
    have hal := getElem?_lt ha
    have h2 : ids[a] = π i' := by
      rw [List.getElem?_eq_getElem hal] at ha
      exact Option.some.inj ha
    simp only [σ, h1, ← h2]
    exact hnd.idxOf_getElem a hal
  obtain ⟨hl, hins⟩ := ho c _ _ hcl
  rw [pointsOf_length hlt] at hl
  have hrep : Repeats σ (pointsOf X ids) (pointsOf X' ids') := by
    refine ⟨?_, ?_⟩
    · intro m hm
      rw [pointsOf_length hlt'] at hm
      obtain ⟨i', hi'⟩ := lt_getElem? hm
      obtain ⟨h1, h2⟩ := (hcop.2 i').mp (List.mem_of_getElem? hi')
      obtain ⟨a, ha⟩ := List.getElem?_of_mem h2
      rw [hσ m i' hi' a ha, pointsOf_length hlt, pointsOf_eq hlt', pointsOf_eq hlt, hi', ha]
      exact ⟨getElem?_lt ha, (R.rows.entry i' h1).2⟩
    · intro a ha
      rw [pointsOf_length hlt] at ha
      obtain ⟨i, hi⟩ := lt_getElem? ha
      obtain ⟨i', h1, rfl⟩ := R.rows.every i (hlt i (List.mem_of_getElem? hi))
      obtain ⟨m, hm⟩ := List.getElem?_of_mem ((hcop.2 i').mpr ⟨h1, List.mem_of_getElem? hi⟩)
      exact ⟨m, by rw [pointsOf_length hlt']; exact getElem?_lt hm, hσ m i' hm a hi⟩
  obtain ⟨lbls', e, hlen, hsame⟩ := hins σ _ hrep
  rw [pointsOf_length hlt'] at hlen
  refine ⟨ids', lbls', ⟨hids', e⟩, hcop, hl, hlen, ?_⟩
  intro a a' b b' i j hi hj i' j' hi' hj' ei ej l k l' k' h1 h2 h3 h4
  refine hsame a' b' l k l' k' ?_ ?_ h3 h4
  · rw [hσ a' i' hi' a (by rw [ei]; exact hi)]; exact h1
  · rw [hσ b' j' hj' b (by rw [ej]; exact hj)]; exact h2

theorem RunsWithCopies.succeeds (R : RunsWithCopies π X X' charts charts')
    (hg : GoodCharts X.length charts) (ho : RepeatInsensitive clust)
    (hs : ClusteringSucceeds X charts clust) : ClusteringSucceeds X' charts' clust := by
  intro c ids' h
  obtain ⟨ids, hids, _⟩ := R.right h
  obtain ⟨lbls, hl⟩ := hs c ids hids
  obtain ⟨ids2, lbls', h2, _⟩ := R.one hg ho hl
  have := h2.1
  rw [h] at this
  cases this
  exact ⟨lbls', h2⟩

/-- The local labels of a run with copies and of one without. -/
structure Folding (n : ℕ) (A B : ℕ → ℕ → ℤ → Prop) (τ : ℕ → ℕ) : Prop where
  fwd : ∀ c i l, A c i l → ∃ l', B c (τ i) l' ∧ (0 ≤ l ↔ 0 ≤ l')
  bwd : ∀ c i l', i < n → B c (τ i) l' → ∃ l, A c i l ∧ (0 ≤ l ↔ 0 ≤ l')
  surj : ∀ c i' l', B c i' l' → ∃ i, i < n ∧ τ i = i'
  same : ∀ c i j l k l' k', A c i l → A c j k → B c (τ i) l' → B c (τ j) k' →
    0 ≤ l → 0 ≤ k → (l = k ↔ l' = k')

theorem Folding.renamed {n : ℕ} {A B : ℕ → ℕ → ℤ → Prop} {τ : ℕ → ℕ} (H : Folding n A B τ)
    {itm itm' : List (List ℤ)} {off off' : ℕ → ℤ}
    (h1 : ∀ i L, Carries itm i L ↔ ∃ c l, A c i l ∧ 0 ≤ l ∧ L = off c + l)
    (h2 : ∀ c i l c' i' l', A c i l → A c' i' l' → 0 ≤ l → 0 ≤ l' →
      (off c + l = off c' + l' ↔ c = c' ∧ l = l'))
    (h1' : ∀ i L, Carries itm' i L ↔ ∃ c l, B c i l ∧ 0 ≤ l ∧ L = off' c + l)
    (h2' : ∀ c i l c' i' l', B c i l → B c' i' l' → 0 ≤ l → 0 ≤ l' →
      (off' c + l = off' c' + l' ↔ c = c' ∧ l = l')) : ∃ f, Renamed n τ f itm itm' := by
  classical
  have hex : ∀ L, ∃ L', ∀ c i l, A c i l → 0 ≤ l → L = off c + l →
      ∃ l', B c (τ i) l' ∧ 0 ≤ l' ∧ L' = off' c + l' := by
    intro L
    by_cases hL : ∃ c i l, A c i l ∧ 0 ≤ l ∧ L = off c + l
    · obtain ⟨c, i, l, hA, hl, e⟩ := hL
      obtain ⟨l', hB, hl'⟩ := H.fwd c i l hA
      refine ⟨off' c + l', ?_⟩
      intro c2 i2 l2 hA2 hl2 e2
      obtain ⟨l2', hB2, hl2'⟩ := H.fwd c2 i2 l2 hA2
      obtain ⟨rfl, rfl⟩ := (h2 c i l c2 i2 l2 hA hA2 hl hl2).mp (e.symm.trans e2)
      have := (H.same c i i2 l l l' l2' hA hA2 hB hB2 hl hl).mp rfl
      subst this
      exact ⟨l', hB2, hl'.mp hl, rfl⟩
    · exact ⟨0, fun c i l hA hl e => absurd ⟨c, i, l, hA, hl, e⟩ hL⟩
  choose f hf using hex
  refine ⟨f, ?_, ?_, ?_, ?_⟩
  · intro i L hL
    obtain ⟨c, l, hA, hl, e⟩ := (h1 i L).mp hL
    obtain ⟨l', hB, hl', e'⟩ := hf L c i l hA hl e
    exact (h1' _ _).mpr ⟨_, l', hB, hl', e'⟩
  · intro i j L hi hj hL'
    obtain ⟨c, l, hA, hl, e⟩ := (h1 j L).mp hj
    obtain ⟨l', hB, hl', e'⟩ := hf L c j l hA hl e
    obtain ⟨c2', l2', hB2, hl2', e2'⟩ := (h1' _ _).mp hL'
    obtain ⟨rfl, rfl⟩ := (h2' _ _ _ _ _ _ hB hB2 hl' hl2').mp (e'.symm.trans e2')
    obtain ⟨l3, hA3, hl3⟩ := H.bwd _ i _ hi hB2
    have := (H.same _ j i l l3 l' l' hA hA3 hB hB2 hl (hl3.mpr hl')).mpr rfl
    subst this
    exact (h1 i L).mpr ⟨_, l, hA3, hl, e⟩
  · intro i' L' hL'
    obtain ⟨c, l', hB, hl', e'⟩ := (h1' _ _).mp hL'
    obtain ⟨i, hi, rfl⟩ := H.surj _ _ _ hB
    obtain ⟨l, hA, hl⟩ := H.bwd _ i _ hi hB
    have hl0 := hl.mpr hl'
    obtain ⟨k', hB2, hk', ek⟩ := hf (off c + l) c i l hA hl0 rfl
    have := (H.same c i i l l l' k' hA hA hB hB2 hl0 hl0).mp rfl
    subst this
    exact ⟨i, off c + l, rfl, ek.trans e'.symm, (h1 _ _).mpr ⟨c, l, hA, hl0, rfl⟩⟩
  · intro i j L K hL hK efg
    obtain ⟨c, l, hA, hl, e⟩ := (h1 i L).mp hL
    obtain ⟨c2, k, hA2, hk, e2⟩ := (h1 j K).mp hK
    obtain ⟨l', hB, hl', e'⟩ := hf L c i l hA hl e
    obtain ⟨k', hB2, hk', e2'⟩ := hf K c2 j k hA2 hk e2
    obtain ⟨rfl, rfl⟩ := (h2' _ _ _ _ _ _ hB hB2 hl' hk').mp (e'.symm.trans (efg.trans e2'))
    have := (H.same c i j l k l' l' hA hA2 hB hB2 hl hk).mpr rfl
    rw [e, e2, this]

theorem RunsWithCopies.folding (R : RunsWithCopies π X X' charts charts')
    (hg : GoodCharts X.length charts) (ho : RepeatInsensitive clust)
    (hs : ClusteringSucceeds X charts clust) :
    Folding X'.length (LocalLabel X' charts' clust) (LocalLabel X charts clust) π := by
  refine ⟨?_, ?_, ?_, ?_⟩
  · rintro c i' l' ⟨ids', lbls', k', hC', hi', hl'⟩
    obtain ⟨ids, hids, _⟩ := R.right hC'.1
    obtain ⟨lbls, hC⟩ := hs c ids hids
    obtain ⟨ids2, lbls2, hC2, hcop, e1, e2, hsame⟩ := R.one hg ho hC
    obtain ⟨rfl, rfl⟩ := hC'.unique hC2
    obtain ⟨k, hk⟩ := List.getElem?_of_mem ((hcop.2 i').mp (List.mem_of_getElem? hi')).2
    obtain ⟨l, hl⟩ := lt_getElem? (l := lbls) (k := k) (by rw [e1]; exact getElem?_lt hk)
    exact ⟨l, ⟨ids, lbls, k, hC, hk, hl⟩,
      (hsame k k' k k' _ _ hk hk _ _ hi' hi' rfl rfl l l l' l' hl hl hl' hl').1.symm⟩
  · rintro c i' l hlt ⟨ids, lbls, k, hC, hi, hl⟩
    obtain ⟨ids', lbls', hC', hcop, e1, e2, hsame⟩ := R.one hg ho hC
    obtain ⟨k', hk'⟩ := List.getElem?_of_mem ((hcop.2 i').mpr ⟨hlt, List.mem_of_getElem? hi⟩)
    obtain ⟨l', hl'⟩ := lt_getElem? (l := lbls') (k := k') (by rw [e2]; exact getElem?_lt hk')
    exact ⟨l', ⟨ids', lbls', k', hC', hk', hl'⟩,
      (hsame k k' k k' _ _ hi hi _ _ hk' hk' rfl rfl l l l' l' hl hl hl' hl').1.symm⟩
  · rintro c i l ⟨ids, lbls, k, hC, hi, hl⟩
    exact R.rows.every i ((hg ids (List.mem_of_getElem? hC.1)).2 i (List.mem_of_getElem? hi))
  · rintro c i' j' l' k' l k ⟨ids', lbls', a', hC', hi', hl'⟩ ⟨ids2', lbls2', b', hC2', hj', hk'⟩
      ⟨ids, lbls, a, hC, hi, hl⟩ ⟨ids2, lbls2, b, hC2, hj, hk⟩ h0 h1
    obtain ⟨rfl, rfl⟩ := hC.unique hC2
    obtain ⟨rfl, rfl⟩ := hC'.unique hC2'
    obtain ⟨ids3, lbls3, hC3, hcop, e1, e2, hsame⟩ := R.one hg ho hC
    obtain ⟨rfl, rfl⟩ := hC'.unique hC3
    have s1 := (hsame a a' a a' _ _ hi hi _ _ hi' hi' rfl rfl l l l' l' hl hl hl' hl').1
    have s2 := (hsame b b' b b' _ _ hj hj _ _ hj' hj' rfl rfl k k k' k' hk hk hk' hk').1
    exact ((hsame a a' b b' _ _ hi hj _ _ hi' hj' rfl rfl l k l' k' hl hk hl' hk').2
      (s1.mpr h0) (s2.mpr h1)).symm

theorem Renamed.withCopies {n : ℕ} {f : ℤ → ℤ} {itm itm' : List (List ℤ)}
    (H : Renamed n π f itm' itm) (hn : itm'.length = n) {g g' : NxGraph}
    (hG : GraphOK itm g) (hG' : GraphOK itm' g') : GraphWithCopies π n f g g' := by
  have hlt : ∀ i L, Carries itm' i L → i < n := by
    rintro i L ⟨l, h1, _⟩
    rw [← hn]
    exact getElem?_lt h1
  refine ⟨?_, ?_, ?_, ?_⟩
  · intro L
    constructor
    · intro h
      obtain ⟨i, h⟩ := (hG.mem_nodes L).mp h
      obtain ⟨i', L', _, e2, h3⟩ := H.surj i L h
      exact ⟨L', (hG'.mem_nodes L').mpr ⟨i', h3⟩, e2⟩
    · rintro ⟨L', hL', rfl⟩
      obtain ⟨i, h⟩ := (hG'.mem_nodes L').mp hL'
      exact (hG.mem_nodes _).mpr ⟨_, H.fwd i L' h⟩
  · intro L K hL hK e
    obtain ⟨i, h⟩ := (hG'.mem_nodes L).mp hL
    obtain ⟨j, h'⟩ := (hG'.mem_nodes K).mp hK
    exact H.inj i j L K h h' e
  · intro L' hL'
    obtain ⟨j, hj⟩ := (hG'.mem_nodes L').mp hL'
    have hL : g.IsNode (f L') := (hG.mem_nodes _).mpr ⟨_, H.fwd j L' hj⟩
    refine ⟨_, _, hG.attr _ hL, hG'.attr _ hL', (idsOf_sorted _ _).imp fun h => ne_of_lt h, ?_⟩
    intro i
    rw [mem_idsOf, mem_idsOf]
    exact ⟨fun h => ⟨hlt _ _ h, H.fwd _ _ h⟩, fun h => H.bwd i j L' h.1 hj h.2⟩
  · intro L K hL hK
    obtain ⟨i, hi⟩ := (hG'.mem_nodes L).mp hL
    obtain ⟨j, hj⟩ := (hG'.mem_nodes K).mp hK
    rw [hG'.adj_iff, hG.adj_iff]
    constructor
    · rintro ⟨hne, i', h1, h2⟩
      obtain ⟨a, L2, e1, e2, h3⟩ := H.surj i' _ h1
      have := H.inj a i L2 L h3 hi e2
      subst this
      subst e1
      exact ⟨fun e => hne (by rw [e]), a, h3, H.bwd a j K (hlt _ _ h3) hj h2⟩
    · rintro ⟨hne, a, h1, h2⟩
      exact ⟨fun e => hne (H.inj i j L K hi hj e), π a, H.fwd _ _ h1, H.fwd _ _ h2⟩

theorem GraphWithCopies.reachable {n : ℕ} {f : ℤ → ℤ} {g g' : NxGraph}
    (H : GraphWithCopies π n f g g') (hn : ∀ u v, g.Adj u v → g.IsNode u ∧ g.IsNode v)
    (hn' : ∀ u v, g'.Adj u v → g'.IsNode u ∧ g'.IsNode v) {L K : ℤ} (hL : g'.IsNode L)
    (hK : g'.IsNode K) : g.Reachable (f L) (f K) ↔ g'.Reachable L K := by
  constructor
  · intro h
    have key : ∀ M', g.Reachable (f L) M' → ∃ M, g'.IsNode M ∧ f M = M' ∧ g'.Reachable L M := by
      intro M' h
      induction h with
      | refl => exact ⟨L, hL, rfl, .refl⟩
      | tail h1 h2 ih =>
        obtain ⟨M, hM, rfl, h3⟩ := ih
        obtain ⟨N, hN, rfl⟩ := (H.nodes _).mp (hn _ _ h2).2
        exact ⟨N, hN, rfl, .tail h3 ((H.adj M N hM hN).mp h2)⟩
    obtain ⟨M, hM, e, h3⟩ := key _ h
    rw [← H.inj M K hM hK e]
    exact h3
  · intro h
    have key : ∀ M, g'.Reachable L M → g.Reachable (f L) (f M) := by
      intro M h
      induction h with
      | refl => exact .refl
      | tail h1 h2 ih => exact .tail ih ((H.adj _ _ (hn' _ _ h2).1 (hn' _ _ h2).2).mpr h2)
    exact key _ h

theorem RunsWithCopies.result {y y' : List T} {cover cover' : CoverFn T}
    (R : RunsWithCopies π X X' charts charts') (hcov : cover y = .ok charts)
    (hcov' : cover' y' = .ok charts') (hg : GoodCharts X.length charts)
    (ho : RepeatInsensitive clust)
    (hs : ClusteringSucceeds X charts clust) (order order' : List ℤ → List ℤ)
    (hord : ∀ l L, L ∈ order l ↔ L ∈ l) (hord' : ∀ l L, L ∈ order' l ↔ L ∈ l) :
    ∃ f g g' out out', mapperGraph X y cover clust = .ok g ∧
      mapperGraph X' y' cover' clust = .ok g' ∧ GraphWithCopies π X'.length f g g' ∧
      mapperConnectedComponents order X y cover clust = .ok out ∧
      mapperConnectedComponents order' X' y' cover' clust = .ok out' ∧
      ComponentsWithCopies π X.length X'.length out out' := by
  have hg' := R.good
  have hs' := R.succeeds hg ho hs
  have M := R.folding hg ho hs
  obtain ⟨itm, off, e1, _, _, h1, h2⟩ := C32_labels_faithful X y cover clust charts hcov hg hs
  obtain ⟨itm', off', e1', _, _, h1', h2'⟩ :=
    C32_labels_faithful X' y' cover' clust charts' hcov' hg' hs'
  obtain ⟨f, hf⟩ := M.renamed h1' h2' h1 h2
  obtain ⟨_, itm2, g, _, e2, hlen, _, _, eg, hG⟩ := core_ok X y cover clust charts hcov hg hs
  obtain ⟨_, itm2', g', _, e2', hlen', _, _, eg', hG'⟩ :=
    core_ok X' y' cover' clust charts' hcov' hg' hs'
  rw [e1] at e2; cases e2
  rw [e1'] at e2'; cases e2'
  have hR := hf.withCopies hlen' hG hG'
  obtain ⟨itm3, g3, out, e3, eg3, eo, hol, hneg, hnode, hcomp⟩ :=
    C36_connected_components X y cover clust charts hcov hg hs order hord
  obtain ⟨itm3', g3', out', e3', eg3', eo', hol', hneg', hnode', hcomp'⟩ :=
    C36_connected_components X' y' cover' clust charts' hcov' hg' hs' order' hord'
  rw [e1] at e3; cases e3
  rw [e1'] at e3'; cases e3'
  rw [eg] at eg3; cases eg3
  rw [eg'] at eg3'; cases eg3'
  have hnd : ∀ u v, g.Adj u v → g.IsNode u ∧ g.IsNode v := by
    intro u v h
    obtain ⟨_, i, hu, hv⟩ := (hG.adj_iff u v).mp h
    exact ⟨(hG.mem_nodes u).mpr ⟨i, hu⟩, (hG.mem_nodes v).mpr ⟨i, hv⟩⟩
  have hnd' : ∀ u v, g'.Adj u v → g'.IsNode u ∧ g'.IsNode v := by
    intro u v h
    obtain ⟨_, i, hu, hv⟩ := (hG'.adj_iff u v).mp h
    exact ⟨(hG'.mem_nodes u).mpr ⟨i, hu⟩, (hG'.mem_nodes v).mpr ⟨i, hv⟩⟩
  have hnoise : ∀ i, i < X'.length → ((∀ L, ¬ Carries itm' i L) ↔ ∀ L, ¬ Carries itm (π i) L) := by
    intro i hi
    constructor
    · intro h L hL
      obtain ⟨i2, L', et, el, hL'⟩ := hf.surj _ _ hL
      subst el
      exact h L' (hf.bwd i i2 L' hi hL' hL)
    · intro h L hL
      exact h _ (hf.fwd i L hL)
  refine ⟨f, g, g', out, out', eg, eg', hR, eo, eo', hol, hol', ?_, ?_⟩
  · intro i hi
    rw [hneg' i hi, hneg (π i) (R.rows.entry i hi).1, hnoise i hi]
  · intro i j hi hj
    have hti := (R.rows.entry i hi).1
    have htj := (R.rows.entry j hj).1
    obtain ⟨r, hr⟩ := lt_getElem? (l := out') (k := i) (by rw [hol']; exact hi)
    obtain ⟨s, hs2⟩ := lt_getElem? (l := out') (k := j) (by rw [hol']; exact hj)
    obtain ⟨r', hr'⟩ := lt_getElem? (l := out) (k := π i) (by rw [hol]; exact hti)
    obtain ⟨s', hs2'⟩ := lt_getElem? (l := out) (k := π j) (by rw [hol]; exact htj)
    have nn : ∀ a L q, Carries itm a L → out[a]? = some q → q ≠ -1 := by
      intro a L q hL hq e
      subst e
      have ha : a < X.length := by rw [← hol]; exact getElem?_lt hq
      exact (hneg a ha).mp hq L hL
    have nn' : ∀ a L q, Carries itm' a L → out'[a]? = some q → q ≠ -1 := by
      intro a L q hL hq e
      subst e
      have ha : a < X'.length := by rw [← hol']; exact getElem?_lt hq
      exact (hneg' a ha).mp hq L hL
    by_cases hi0 : ∃ L, Carries itm' i L
    · obtain ⟨L, hL⟩ := hi0
      have hL' := hf.fwd i L hL
      by_cases hj0 : ∃ K, Carries itm' j K
      · obtain ⟨K, hK⟩ := hj0
        have hK' := hf.fwd j K hK
        rw [hr, hs2, hr', hs2', Option.some_inj, Option.some_inj, hcomp' i j L K r s hL hK hr hs2,
          hcomp _ _ _ _ r' s' hL' hK' hr' hs2']
        exact (hR.reachable hnd hnd' ((hG'.mem_nodes L).mpr ⟨i, hL⟩)
          ((hG'.mem_nodes K).mpr ⟨j, hK⟩)).symm
      · have hj1 : ∀ K, ¬ Carries itm' j K := fun K h => hj0 ⟨K, h⟩
        have e1 := (hneg' j hj).mpr hj1
        have e2 := (hneg (π j) htj).mpr ((hnoise j hj).mp hj1)
        rw [hs2] at e1; cases e1
        rw [hs2'] at e2; cases e2
        rw [hr, hs2, hr', hs2', Option.some_inj, Option.some_inj]
        exact ⟨fun h => absurd h (nn' i L r hL hr), fun h => absurd h (nn _ _ r' hL' hr')⟩
    · have hi1 : ∀ K, ¬ Carries itm' i K := fun K h => hi0 ⟨K, h⟩
      have e1 := (hneg' i hi).mpr hi1
      have e2 := (hneg (π i) hti).mpr ((hnoise i hi).mp hi1)
      rw [e1, e2, eq_comm, hneg' j hj, eq_comm, hneg (π j) htj, hnoise j hj]

/-! ### Hypercubes -/

section cubical
variable {R : Type} [Field R] [LinearOrder R] [IsStrictOrderedRing R] [FloorRing R] {m : ℕ}

theorem isBounds_copies {y y' : List (Fin m → R)} (h : Repeats π y y') {lo hi : Fin m → R}
    (hb : IsBounds y lo hi) : IsBounds y' lo hi := by
  intro i
  obtain ⟨⟨x1, h1, e1⟩, ⟨x2, h2, e2⟩, h3⟩ := hb i
  exact ⟨⟨x1, (h.mem_iff _).mpr h1, e1⟩, ⟨x2, (h.mem_iff _).mpr h2, e2⟩,
    fun x hx => h3 x ((h.mem_iff _).mp hx)⟩

/-- Two fits, on a table and on one with copies of its rows. -/
theorem cubFit_copies (dflt dflt' : ℕ → R) (c c' : CubCover m R) (ρ ρ' : ℕ → ℕ)
    {y y' : List (Fin m → R)} (h : Repeats π y y') (hy : y ≠ []) (p : R)
    (H : CubOK dflt m c.params p) (H' : CubOK dflt' m c'.params p)
    (hn : c.params.nIntervals = c'.params.nIntervals) :
    ∃ (d d' : CubCover m R) (fd fd' : CubFit m R) (f f' : (Fin m → R) → List ℕ),
      c.fit dflt ρ y = .ok d ∧ c'.fit dflt' ρ' y' = .ok d' ∧
      d.fitted = some fd ∧ d'.fitted = some fd' ∧
      (∀ x ∈ y, fd'.grid.offset x = fd.grid.offset x) ∧
      (∀ x, d.search x = .ok (f x)) ∧ (∀ x, d'.search x = .ok (f' x)) ∧
      (∀ x ∈ y, CopiesOf π y'.length (f x) (f' x)) ∧
      ∀ (i : ℕ) x, y[i]? = some x → i ∈ f x := by
  have hy' : y' ≠ [] := by
    obtain ⟨x, hx⟩ := List.exists_mem_of_ne_nil y hy
    exact List.ne_nil_of_mem ((h.mem_iff x).mpr hx)
  obtain ⟨d, g, bc, f, h1, hd, hg, hf, _, hl, hself⟩ := cubFitted dflt c ρ y hy p H
  obtain ⟨d', g', bc', f', h1', hd', hg', hf', _, hl', _⟩ := cubFitted dflt' c' ρ' y' hy' p H'
  obtain ⟨e1, e2⟩ := hg'.bounds.unique (isBounds_copies h hg.bounds)
  have hcell : ∀ x ∈ y, g'.offset x = g.offset x := by
    intro x hx
    symm
    rw [← isCell_iff hg' H'.intervals x
      (fun i => (hg'.bounds i).2.2 _ ((h.mem_iff x).mpr hx)), e1, e2, ← hn]
    exact (isCell_iff hg H.intervals x (fun i => (hg.bounds i).2.2 x hx) _).mpr rfl
  refine ⟨d, d', ⟨g, bc, decide (1 / 2 < p)⟩, ⟨g', bc', decide (1 / 2 < p)⟩, f, f', h1, h1',
    by rw [hd], by rw [hd'], hcell, hf, hf', ?_, hself⟩
  intro x hx
  have := hl' x ((h.mem_iff x).mpr hx)
  rw [hcell x hx, e1, e2, ← hn] at this
  exact h.copiesOf (hl x hx) this

theorem applyProximity_copies (dflt dflt' : ℕ → R) (c c' : CubCover m R) (ρ ρ' : ℕ → ℕ)
    {y y' : List (Fin m → R)} (h : Repeats π y y') (ho : FirstInOrder π y'.length) (hy : y ≠ [])
    (p : R) (H : CubOK dflt m c.params p) (H' : CubOK dflt' m c'.params p)
    (hn : c.params.nIntervals = c'.params.nIntervals) :
    ∃ out out', c.applyProximity dflt ρ y = .ok out ∧ c'.applyProximity dflt' ρ' y' = .ok out' ∧
      SameChartsWithCopies π y'.length out out' := by
  obtain ⟨d, d', _, _, f, f', h1, h1', _, _, _, hf, hf', hp, hself⟩ :=
    cubFit_copies dflt dflt' c c' ρ ρ' h hy p H H' hn
  exact proximityNet_copies h ho h1 h1' fun i x hx =>
    ⟨_, _, hf x, hf' x, hp x (List.mem_of_getElem? hx), hself i x hx⟩

theorem landmarksLoop_copies (c c' : CubCover m R) (f f' : CubFit m R) (hf : c.fitted = some f)
    (hf' : c'.fitted = some f') {n : ℕ} {y : List (Fin m → R)}
    (hk : ∀ x ∈ y, f'.grid.offset x = f.grid.offset x) {k j : ℕ} {t t' : List (Fin m → R)}
    (h : Unfolds π n y k j t t') : ∀ (lm : PyDict (List ℤ) (Fin m → R)),
      (∀ i, i < k → ∀ x, y[i]? = some x → List.ofFn (f.grid.offset x) ∈ lm.keys) →
      (∀ e ∈ lm.items, e.2 ∈ y) →
      ∃ out, landmarksLoop c lm t = .ok out ∧ landmarksLoop c' lm t' = .ok out ∧
        ∀ e ∈ out.items, e.2 ∈ y := by
  have old : ∀ (c : CubCover m R) (f : CubFit m R), c.fitted = some f →
      ∀ (lm : PyDict (List ℤ) (Fin m → R)) x t, List.ofFn (f.grid.offset x) ∈ lm.keys →
      landmarksLoop c lm (x :: t) = landmarksLoop c lm t := by
    intro c f hf lm x t hin
    have h0 := (PyDict.contains_iff _ _).mpr hin
    rw [landmarksLoop]
    simp only [hf, Grid.getCenter, h0, if_true]
  have fresh : ∀ (c : CubCover m R) (f : CubFit m R), c.fitted = some f →
      ∀ (lm : PyDict (List ℤ) (Fin m → R)) x t, List.ofFn (f.grid.offset x) ∉ lm.keys →
      landmarksLoop c lm (x :: t) =
        landmarksLoop c (lm.set (List.ofFn (f.grid.offset x)) x) t := by
    intro c f hf lm x t hin
    have h0 : lm.contains (List.ofFn (f.grid.offset x)) = false := by
      rw [Bool.eq_false_iff]; exact fun h0 => hin ((PyDict.contains_iff _ _).mp h0)
    rw [landmarksLoop]
    simp only [hf, Grid.getCenter, h0]
    rfl
  induction h with
  | nil k j => intro lm _ hm; exact ⟨lm, rfl, rfl, hm⟩
  | @new k j x t t' hn hx hj _ ih =>
    intro lm hseen hm
    have hxy := List.mem_of_getElem? hx
    by_cases hin : List.ofFn (f.grid.offset x) ∈ lm.keys
    · rw [old c f hf lm x t hin, old c' f' hf' lm x t' (by rw [hk x hxy]; exact hin)]
      refine ih lm (fun i hi z hz => ?_) hm
      rcases Nat.lt_succ_iff_lt_or_eq.mp hi with h | rfl
      · exact hseen i h z hz
      · rw [hx] at hz; cases hz; exact hin
    · rw [fresh c f hf lm x t hin, fresh c' f' hf' lm x t' (by rw [hk x hxy]; exact hin), hk x hxy]
      have hkeys : ∀ q, q ∈ (lm.set (List.ofFn (f.grid.offset x)) x).keys ↔
          q ∈ lm.keys ∨ q = List.ofFn (f.grid.offset x) := by
        intro q
        simp only [PyDict.keys, PyDict.items_set_new hin, List.map_append, List.mem_append,
          List.map_cons, List.map_nil, List.mem_singleton]
      refine ih _ (fun i hi z hz => ?_) ?_
      · rw [hkeys]
        rcases Nat.lt_succ_iff_lt_or_eq.mp hi with h | rfl
        · exact .inl (hseen i h z hz)
        · rw [hx] at hz; cases hz; exact .inr rfl
      · intro e he
        rw [PyDict.items_set_new hin, List.mem_append, List.mem_singleton] at he
        rcases he with he | rfl
        · exact hm e he
        · exact hxy
  | @again k j x t t' hn hx hj _ ih =>
    intro lm hseen hm
    rw [old c' f' hf' lm x t' (by
      rw [hk x (List.mem_of_getElem? hx)]; exact hseen _ hj x hx)]
    exact ih lm hseen hm

theorem applyStandard_copies (dflt dflt' : ℕ → R) (c c' : CubCover m R) (ρ ρ' : ℕ → ℕ)
    {y y' : List (Fin m → R)} (h : Repeats π y y') (ho : FirstInOrder π y'.length) (hy : y ≠ [])
    (p : R) (H : CubOK dflt m c.params p) (H' : CubOK dflt' m c'.params p)
    (hn : c.params.nIntervals = c'.params.nIntervals) :
    ∃ out out', c.applyStandard dflt ρ y = .ok out ∧ c'.applyStandard dflt' ρ' y' = .ok out' ∧
      SameChartsWithCopies π y'.length out out' := by
  obtain ⟨d, d', fd, fd', f, f', h1, h1', hd, hd', hk, hf, hf', hp, hself⟩ :=
    cubFit_copies dflt dflt' c c' ρ ρ' h hy p H H' hn
  obtain ⟨lm, e1, e1', hlm⟩ := landmarksLoop_copies d d' fd fd' hd hd' hk
    (unfolds_of_repeats h ho) PyDict.empty (fun _ h => absurd h (by omega))
    (fun e he => by cases he)
  have e2 := standardLoop_ok d f hf lm.items (lm.items.length + 1) (by omega)
  have e2' := standardLoop_ok d' f' hf' lm.items (lm.items.length + 1) (by omega)
  refine ⟨(lm.items.reverse.map (fun e => f e.2)).filter (fun l => l ≠ []),
    (lm.items.reverse.map (fun e => f' e.2)).filter (fun l => l ≠ []), ?_, ?_, ?_⟩
  · unfold CubCover.applyStandard
    simp only [h1, ok_bind, e1]
    exact e2
  · unfold CubCover.applyStandard
    simp only [h1', ok_bind, e1']
    exact e2'
  · have hr : ∀ e ∈ lm.items.reverse, e.2 ∈ y := fun e he => hlm e (List.mem_reverse.mp he)
    revert hr
    generalize lm.items.reverse = l
    intro hr
    induction l with
    | nil => exact .nil
    | cons e t ih =>
      have hey := hr e (by simp)
      have hpe := hp _ hey
      obtain ⟨i, hi⟩ := List.getElem?_of_mem hey
      have hmem := hself i _ hi
      obtain ⟨j, hj, rfl⟩ := h.every i (getElem?_lt hi)
      have hmem' := (hpe.2 j).mpr ⟨hj, hmem⟩
      simp only [List.map_cons, List.filter_cons, decide_eq_true_eq]
      rw [if_pos (List.ne_nil_of_mem hmem), if_pos (List.ne_nil_of_mem hmem')]
      exact .cons hpe (ih fun e he => hr e (by simp [he]))

end cubical

end Verif
