import Verif.Spec.PlotNan
import Verif.Proof.PlotBackends
import Verif.Props.Core

set_option autoImplicit false
set_option linter.unusedSectionVars false

namespace Verif

variable {K : Type} [Field K] [LinearOrder K] [IsStrictOrderedRing K]

theorem filterMap_id_eq_nil {l : List (Option K)} : l.filterMap id = [] ↔ ∀ v ∈ l, v = none := by
  rw [List.filterMap_eq_nil_iff]
  rfl

theorem nanmean_ok (l : List (Option K)) : ∃ c, nanmean l = .ok c ∧ IsMeanOfPresent l c := by
  unfold nanmean
  by_cases h : (l.filterMap id).length = 0
  · refine ⟨none, by simp only [h, if_true], Iff.intro (fun _ => ?_) (fun _ => rfl), fun m hm => by cases hm⟩
    exact filterMap_id_eq_nil.mp (List.length_eq_zero_iff.mp h)
  · refine ⟨some ((l.filterMap id).sum / (l.filterMap id).length), by simp only [h, if_false],
      Iff.intro (fun h' => by cases h') (fun h' => ?_), fun m hm => ?_⟩
    · exact absurd (List.length_eq_zero_iff.mpr (filterMap_id_eq_nil.mpr h')) h
    · cases hm
      have : ((l.filterMap id).length : K) ≠ 0 := by exact_mod_cast h
      exact div_mul_cancel₀ _ this

theorem IsMeanOfPresent.unique {l : List (Option K)} {a b : Option K} (ha : IsMeanOfPresent l a)
    (hb : IsMeanOfPresent l b) : a = b := by
  cases a with
  | none => exact (hb.1.mpr (ha.1.mp rfl)).symm
  | some x =>
    cases b with
    | none => exact ha.1.mpr (hb.1.mp rfl)
    | some y =>
      have h0 : ((l.filterMap id).length : K) ≠ 0 := by
        intro h
        have h' : (l.filterMap id).length = 0 := by exact_mod_cast h
        have := ha.1.mpr (filterMap_id_eq_nil.mp (List.length_eq_zero_iff.mp h'))
        cases this
      have := (ha.2 x rfl).trans (hb.2 y rfl).symm
      rw [mul_right_cancel₀ h0 this]

/-- The aggregated colours. -/
theorem aggregate_nan {g : NxGraph} {ids : ℤ → List ℕ} {colors : List (Option K)}
    (hg : Valued g ids colors) : ∃ d val, aggregateGraph colors g nanmean = .ok d ∧
      d.keys = g.nodes.keys ∧ (∀ n, g.IsNode n → d.get? n = some (val n)) ∧
      MeanColors g ids colors val := by
  choose f hf using fun n => nanmean_ok (pointsOf colors (ids n))
  obtain ⟨d, h1, h2, h3⟩ := C39_aggregate_graph colors g nanmean hg.nodup ids f hg.attr hg.ids_lt
    (fun n _ => (hf n).1)
  exact ⟨d, f, h1, h2, h3, fun n _ => (hf n).2⟩

theorem MeanColors.unique {g : NxGraph} {ids : ℤ → List ℕ} {colors : List (Option K)}
    {a b : ℤ → Option K} (ha : MeanColors g ids colors a) (hb : MeanColors g ids colors b) :
    ∀ n, g.IsNode n → a n = b n := fun n hn => (ha n hn).unique (hb n hn)

theorem getItem_of_get? {d : PyDict ℤ (Option K)} {n : ℤ} {c : Option K} (h : d.get? n = some c) :
    d.getItem n = .ok c := by
  rw [PyDict.getItem, h]

theorem mapPy_colors {d : PyDict ℤ (Option K)} {val : ℤ → Option K} : ∀ (l : List ℤ),
    (∀ n ∈ l, d.get? n = some (val n)) → mapPy d.getItem l = .ok (l.map val) := by
  intro l
  induction l with
  | nil => intro _; rfl
  | cons a t ih =>
    intro h
    rw [mapPy, getItem_of_get? (h a (by simp)), ok_bind, ih fun n hn => h n (by simp [hn])]
    rfl

theorem items_colors {g : NxGraph} {d : PyDict ℤ (Option K)} {val : ℤ → Option K}
    (hn : g.nodes.keys.Nodup) (hk : d.keys = g.nodes.keys)
    (h : ∀ n, g.IsNode n → d.get? n = some (val n)) :
    d.items.map Prod.snd = g.nodes.keys.map val := by
  rw [← hk, PyDict.keys, List.map_map]
  apply List.map_congr_left
  intro e he
  have hk' : g.IsNode e.1 := by
    rw [NxGraph.IsNode, ← hk, PyDict.keys]; exact List.mem_map_of_mem he
  have h1 := h e.1 hk'
  have h2 : d.get? e.1 = some e.2 := PyDict.get?_eq_some_of_mem (by rw [hk]; exact hn) he
  rw [h1] at h2
  simpa using h2.symm

/-- `min` if the first value is a number: the least number. -/
theorem foldl_min_nan : ∀ (l : List (Option K)) (a : K), ∃ lo,
    l.foldl (fun best x => if nanLt x best then x else best) (some a) = some lo ∧
      (lo = a ∨ some lo ∈ l) ∧ lo ≤ a ∧ ∀ v, some v ∈ l → lo ≤ v := by
  intro l
  induction l with
  | nil => intro a; exact ⟨a, rfl, Or.inl rfl, le_refl _, by simp⟩
  | cons x t ih =>
    intro a
    cases x with
    | none =>
      obtain ⟨lo, h1, h2, h3, h4⟩ := ih a
      refine ⟨lo, by rw [List.foldl_cons]; simpa [nanLt] using h1, ?_, h3, ?_⟩
      · rcases h2 with h | h
        · exact Or.inl h
        · exact Or.inr (List.mem_cons_of_mem _ h)
      · intro v hv
        rcases List.mem_cons.mp hv with h | h
        · cases h
        · exact h4 v h
    | some x =>
      by_cases hx : x < a
      · obtain ⟨lo, h1, h2, h3, h4⟩ := ih x
        refine ⟨lo, by rw [List.foldl_cons]; simpa [nanLt, hx] using h1, ?_, h3.trans hx.le, ?_⟩
        · rcases h2 with h | h
          · exact Or.inr (by rw [h]; simp)
          · exact Or.inr (List.mem_cons_of_mem _ h)
        · intro v hv
          rcases List.mem_cons.mp hv with h | h
          · cases h; exact h3
          · exact h4 v h
      · obtain ⟨lo, h1, h2, h3, h4⟩ := ih a
        refine ⟨lo, by rw [List.foldl_cons]; simpa [nanLt, hx] using h1, ?_, h3, ?_⟩
        · rcases h2 with h | h
          · exact Or.inl h
          · exact Or.inr (List.mem_cons_of_mem _ h)
        · intro v hv
          rcases List.mem_cons.mp hv with h | h
          · cases h; exact h3.trans (not_lt.mp hx)
          · exact h4 v h

theorem foldl_max_nan : ∀ (l : List (Option K)) (a : K), ∃ hi,
    l.foldl (fun best x => if nanLt best x then x else best) (some a) = some hi ∧
      (hi = a ∨ some hi ∈ l) ∧ a ≤ hi ∧ ∀ v, some v ∈ l → v ≤ hi := by
  intro l
  induction l with
  | nil => intro a; exact ⟨a, rfl, Or.inl rfl, le_refl _, by simp⟩
  | cons x t ih =>
    intro a
    cases x with
    | none =>
      obtain ⟨hi, h1, h2, h3, h4⟩ := ih a
      refine ⟨hi, by rw [List.foldl_cons]; simpa [nanLt] using h1, ?_, h3, ?_⟩
      · rcases h2 with h | h
        · exact Or.inl h
        · exact Or.inr (List.mem_cons_of_mem _ h)
      · intro v hv
        rcases List.mem_cons.mp hv with h | h
        · cases h
        · exact h4 v h
    | some x =>
      by_cases hx : a < x
      · obtain ⟨hi, h1, h2, h3, h4⟩ := ih x
        refine ⟨hi, by rw [List.foldl_cons]; simpa [nanLt, hx] using h1, ?_, hx.le.trans h3, ?_⟩
        · rcases h2 with h | h
          · exact Or.inr (by rw [h]; simp)
          · exact Or.inr (List.mem_cons_of_mem _ h)
        · intro v hv
          rcases List.mem_cons.mp hv with h | h
          · cases h; exact h3
          · exact h4 v h
      · obtain ⟨hi, h1, h2, h3, h4⟩ := ih a
        refine ⟨hi, by rw [List.foldl_cons]; simpa [nanLt, hx] using h1, ?_, h3, ?_⟩
        · rcases h2 with h | h
          · exact Or.inl h
          · exact Or.inr (List.mem_cons_of_mem _ h)
        · intro v hv
          rcases List.mem_cons.mp hv with h | h
          · cases h; exact (not_lt.mp hx).trans h3
          · exact h4 v h

/-- A first value that is not a number stays. -/
theorem foldl_min_none : ∀ (l : List (Option K)),
    l.foldl (fun best x => if nanLt x best then x else best) none = none := by
  intro l
  induction l with
  | nil => rfl
  | cons x t ih =>
    rw [List.foldl_cons]
    have : nanLt x (none : Option K) = false := by cases x <;> rfl
    rw [this]; exact ih

theorem foldl_max_none : ∀ (l : List (Option K)),
    l.foldl (fun best x => if nanLt best x then x else best) none = none := by
  intro l
  induction l with
  | nil => rfl
  | cons x t ih =>
    rw [List.foldl_cons]
    exact ih

/-- The range of a list of colours, by its first entry. -/
theorem range_nan (g : NxGraph) (val : ℤ → Option K) (n : ℤ) (rest : List ℤ)
    (hk : g.nodes.keys = n :: rest) :
    ((∃ v, val n = some v) → ∃ lo hi, pyMinNan (g.nodes.keys.map val) = some (some lo) ∧
      pyMaxNan (g.nodes.keys.map val) = some (some hi) ∧ IsLeast (presentColors g val) lo ∧
      IsGreatest (presentColors g val) hi) ∧
    (val n = none → pyMinNan (g.nodes.keys.map val) = some none ∧
      pyMaxNan (g.nodes.keys.map val) = some none) := by
  have hmem : ∀ v, v ∈ presentColors g val ↔ val n = some v ∨ some v ∈ rest.map val := by
    intro v
    simp only [presentColors, NxGraph.IsNode, hk, Set.mem_ofPred_eq, List.mem_cons, List.mem_map]
    constructor
    · rintro ⟨m, rfl | h, h2⟩
      · exact Or.inl h2
      · exact Or.inr ⟨m, h, h2⟩
    · rintro (h | ⟨m, h, h2⟩)
      · exact ⟨n, Or.inl rfl, h⟩
      · exact ⟨m, Or.inr h, h2⟩
  constructor
  · rintro ⟨v, hv⟩
    obtain ⟨lo, h1, h2, h3, h4⟩ := foldl_min_nan (rest.map val) v
    obtain ⟨hi, k1, k2, k3, k4⟩ := foldl_max_nan (rest.map val) v
    refine ⟨lo, hi, ?_, ?_, ⟨?_, ?_⟩, ⟨?_, ?_⟩⟩
    · rw [hk, List.map_cons, pyMinNan, hv, h1]
    · rw [hk, List.map_cons, pyMaxNan, hv, k1]
    · rw [hmem]
      rcases h2 with rfl | h
      · exact Or.inl hv
      · exact Or.inr h
    · intro w hw
      rcases (hmem w).mp hw with h | h
      · rw [hv] at h; cases h; exact h3
      · exact h4 w h
    · rw [hmem]
      rcases k2 with rfl | h
      · exact Or.inl hv
      · exact Or.inr h
    · intro w hw
      rcases (hmem w).mp hw with h | h
      · rw [hv] at h; cases h; exact k3
      · exact k4 w h
  · intro hv
    rw [hk, List.map_cons, pyMinNan, pyMaxNan, hv, foldl_min_none, foldl_max_none]
    exact ⟨rfl, rfl⟩

/-- Dropping the missing colours. -/
theorem scanNan_eq : ∀ (l : List (Option K)) r, scanNan l r = scanRange (l.filterMap id) r := by
  intro l
  induction l with
  | nil => intro r; rfl
  | cons x t ih =>
    intro r
    cases x with
    | none => rw [scanNan, ih]; rfl
    | some v =>
      obtain ⟨lo, hi⟩ := r
      have : (some v :: t).filterMap id = v :: t.filterMap id := rfl
      rw [this]
      cases lo <;> cases hi <;> exact ih _

/-- The range over the nodes that have a colour. -/
theorem scanNan_range {g : NxGraph} {val : ℤ → Option K} {lo hi : K}
    (hlo : IsLeast (presentColors g val) lo) (hhi : IsGreatest (presentColors g val) hi) :
    scanNan (g.nodes.keys.map val) (none, none) = (some lo, some hi) := by
  have h : {x | x ∈ (g.nodes.keys.map val).filterMap id} = presentColors g val := by
    ext v
    simp only [presentColors, NxGraph.IsNode, Set.mem_ofPred_eq, List.mem_filterMap, List.mem_map]
    constructor
    · rintro ⟨x, ⟨n, hn, rfl⟩, h⟩; exact ⟨n, hn, h⟩
    · rintro ⟨n, hn, h⟩; exact ⟨_, ⟨n, hn, rfl⟩, h⟩
  rw [scanNan_eq]
  exact scanRange_eq (by rw [h]; exact hlo) (by rw [h]; exact hhi)

theorem scanNan_all_none : ∀ (l : List (Option K)) r, (∀ v ∈ l, v = none) → scanNan l r = r := by
  intro l
  induction l with
  | nil => intro r _; rfl
  | cons x t ih =>
    intro r h
    rw [h x (by simp), scanNan, ih r fun v hv => h v (by simp [hv])]

theorem exists_range_present {g : NxGraph} {val : ℤ → Option K} {n : ℤ} {v : K} (hn : g.IsNode n)
    (hv : val n = some v) : ∃ lo hi, IsLeast (presentColors g val) lo ∧
      IsGreatest (presentColors g val) hi := by
  have h : {x | x ∈ (g.nodes.keys.map val).filterMap id} = presentColors g val := by
    ext v
    simp only [presentColors, NxGraph.IsNode, Set.mem_ofPred_eq, List.mem_filterMap, List.mem_map]
    constructor
    · rintro ⟨x, ⟨n, hn, rfl⟩, h⟩; exact ⟨n, hn, h⟩
    · rintro ⟨n, hn, h⟩; exact ⟨_, ⟨n, hn, rfl⟩, h⟩
  rw [← h]
  apply exists_range
  intro h0
  have : v ∈ presentColors g val := ⟨n, hn, hv⟩
  rw [← h, h0] at this
  exact absurd this (by simp)

/-- The results of the three backends. -/
theorem plotlyNan_eq {g : NxGraph} {ids : ℤ → List ℕ} {colors : List (Option K)}
    {val : ℤ → Option K} (hg : Valued g ids colors) (hv : MeanColors g ids colors val) :
    plotlyNan g colors = .ok ⟨g.nodes.keys.map val, pyMinNan (g.nodes.keys.map val),
      pyMaxNan (g.nodes.keys.map val)⟩ := by
  obtain ⟨d, val', h1, h2, h3, h4⟩ := aggregate_nan hg
  have h3' : ∀ n, g.IsNode n → d.get? n = some (val n) := fun n hn => by
    rw [h3 n hn, h4.unique hv n hn]
  rw [plotlyNan, h1, ok_bind, items_colors hg.nodup h2 h3']
  rfl

theorem matplotlibNan_eq {g : NxGraph} {ids : ℤ → List ℕ} {colors : List (Option K)}
    {val : ℤ → Option K} (hg : Valued g ids colors) (hv : MeanColors g ids colors val) :
    matplotlibNan g colors = .ok ⟨g.nodes.keys.map val, pyMinNan (g.nodes.keys.map val),
      pyMaxNan (g.nodes.keys.map val)⟩ := by
  obtain ⟨d, val', h1, h2, h3, h4⟩ := aggregate_nan hg
  have h3' : ∀ n ∈ g.nodes.keys, d.get? n = some (val n) := fun n hn => by
    rw [h3 n hn, h4.unique hv n hn]
  rw [matplotlibNan, h1, ok_bind, mapPy_colors _ h3', ok_bind]
  rfl

theorem pyvisNan_eq {g : NxGraph} {ids : ℤ → List ℕ} {colors : List (Option K)}
    {val : ℤ → Option K} (hg : Valued g ids colors) (hv : MeanColors g ids colors val) :
    pyvisNan g colors = .ok (g.nodes.keys.map fun n => ⟨n, val n,
        pyClampNan (pvShadeNan (val n) (scanNan (g.nodes.keys.map val) (none, none)))⟩,
      scanNan (g.nodes.keys.map val) (none, none)) := by
  obtain ⟨d, val', h1, h2, h3, h4⟩ := aggregate_nan hg
  have h3' : ∀ n ∈ g.nodes.keys, d.get? n = some (val n) := fun n hn => by
    rw [h3 n hn, h4.unique hv n hn]
  rw [pyvisNan, h1, ok_bind, mapPy_colors _ h3', ok_bind]
  simp only
  rw [mapPy_ok (g := fun n => (⟨n, val n,
    pyClampNan (pvShadeNan (val n) (scanNan (g.nodes.keys.map val) (none, none)))⟩ : PvNan K)) ?_]
  · rfl
  · intro n hn
    rw [getItem_of_get? (h3' n hn)]
    rfl

theorem pyClampNan_none : pyClampNan (none : Option K) = some 1 := by
  simp [pyClampNan, nanLt]

theorem pyMinNan_map (l : List K) : pyMinNan (l.map some) = (minColor l).map some := by
  cases l with
  | nil => rfl
  | cons a t =>
    rw [List.map_cons, pyMinNan, minColor, Option.map_some]
    congr 1
    induction t generalizing a with
    | nil => rfl
    | cons x t ih =>
      rw [List.map_cons, List.foldl_cons, List.foldl_cons, ← ih]
      congr 1
      by_cases h : x < a
      · simp [nanLt, h, min_eq_right h.le]
      · simp [nanLt, h, min_eq_left (not_lt.mp h)]

theorem pyMaxNan_map (l : List K) : pyMaxNan (l.map some) = (maxColor l).map some := by
  cases l with
  | nil => rfl
  | cons a t =>
    rw [List.map_cons, pyMaxNan, maxColor, Option.map_some]
    congr 1
    induction t generalizing a with
    | nil => rfl
    | cons x t ih =>
      rw [List.map_cons, List.foldl_cons, List.foldl_cons, ← ih]
      congr 1
      by_cases h : a < x
      · simp [nanLt, h, max_eq_right h.le]
      · simp [nanLt, h, max_eq_left (not_lt.mp h)]

theorem pyClampNan_eq (x : K) : pyClampNan (some x) = some (max 0 (min 1 x)) := by
  unfold pyClampNan
  simp only [nanLt, decide_eq_true_eq]
  by_cases h1 : x < 1
  · rw [if_pos h1, min_eq_right h1.le]
    by_cases h0 : 0 < x
    · simp [h0, max_eq_right h0.le]
    · simp [h0, max_eq_left (not_lt.mp h0)]
  · rw [if_neg h1, min_eq_left (not_lt.mp h1)]
    simp

theorem pyClampNan_some (x : K) (h0 : 0 ≤ x) (h1 : x ≤ 1) : pyClampNan (some x) = some x := by
  unfold pyClampNan
  simp only [nanLt, decide_eq_true_eq]
  rcases h1.lt_or_eq with h1 | rfl
  · rw [if_pos h1]
    rcases h0.lt_or_eq with h0 | rfl
    · rw [if_pos (by simpa [nanLt] using h0)]
    · rw [if_neg (by simp)]
  · simp

end Verif
