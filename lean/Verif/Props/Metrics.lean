import Verif.Proof.Metrics
import Verif.Props.VPTree
import Mathlib.Data.Fin.VecNotation
import Mathlib.Tactic.NormNum
import Mathlib.InformationTheory.Hamming

/-!
# Theorems on `tdamapper.utils.metrics` (C47–C50, C65)
-/

set_option autoImplicit false

namespace Verif

variable {n : ℕ}

/-- **C47.** `euclidean()` returns the root of the sum of squared differences, a
metric in every dimension. -/
theorem C47_euclidean :
    (∀ x y : Fin n → ℝ, euclidean x y = .ok (Real.sqrt (∑ i, (x i - y i) ^ 2))) ∧
      IsMetric (fun x y : Fin n → ℝ => Real.sqrt (∑ i, (x i - y i) ^ 2)) :=
  ⟨fun x y => by rw [euclidean, npNorm2_sub]; rfl, euclideanFormula_isMetric⟩

/-- **C47.** `manhattan()` returns the sum of absolute differences, a metric. -/
theorem C47_manhattan :
    (∀ x y : Fin n → ℝ, manhattan x y = .ok (∑ i, |x i - y i|)) ∧
      IsMetric (fun x y : Fin n → ℝ => ∑ i, |x i - y i|) :=
  ⟨fun x y => by rw [manhattan, npNorm_pos one_pos, ← manhattanFormula_eq]; rfl,
    manhattanFormula_isMetric⟩

/-- **C47.** `chebyshev()` returns the maximum absolute difference, a metric. -/
theorem C47_chebyshev :
    ∃ d : (Fin n → ℝ) → (Fin n → ℝ) → ℝ, IsMetric d ∧
      (∀ x y, IsMaxDiff x y (d x y)) ∧ ∀ x y, chebyshev x y = .ok (d x y) :=
  ⟨chebyshevDist, chebyshevDist_isMetric, chebyshevDist_isMaxDiff, fun _ _ => rfl⟩

/-- The maximum absolute difference is unique, so the previous theorem determines
`chebyshev` completely. -/
theorem C47_max_unique (x y : Fin n → ℝ) (r s : ℝ) (hr : IsMaxDiff x y r)
    (hs : IsMaxDiff x y s) : r = s := by
  rcases hr with ⟨h1, ⟨h0, h2⟩ | ⟨i, h2⟩⟩
  · rcases hs with ⟨_, ⟨_, h4⟩ | ⟨j, h4⟩⟩
    · rw [h2, h4]
    · subst h0; exact j.elim0
  · rcases hs with ⟨h3, ⟨h0, h4⟩ | ⟨j, h4⟩⟩
    · subst h0; exact i.elim0
    · exact le_antisymm (h2 ▸ h3 i) (h4 ▸ h1 j)

/-- The 3-4-5 triangle: three metrics, three values. -/
example : euclidean ![(0 : ℝ), 0] ![3, 4] = .ok 5 ∧ manhattan ![(0 : ℝ), 0] ![3, 4] = .ok 7 ∧
    chebyshev ![(0 : ℝ), 0] ![3, 4] = .ok 4 := by
  refine ⟨?_, ?_, ?_⟩
  · rw [C47_euclidean.1]
    congr 1
    rw [Real.sqrt_eq_iff_mul_self_eq (by positivity) (by norm_num)]
    norm_num [Fin.sum_univ_two]
  · rw [C47_manhattan.1]
    congr 1
    norm_num [Fin.sum_univ_two]
  · obtain ⟨d, _, h, e⟩ := C47_chebyshev (n := 2)
    rw [e]
    congr 1
    refine C47_max_unique ![(0 : ℝ), 0] ![3, 4] _ _ (h _ _) ⟨?_, Or.inr ⟨1, by simp⟩⟩
    intro i
    match i with
    | 0 => norm_num
    | 1 => norm_num

/-- **C48.** The special orders. Both infinities give Chebyshev, also `-inf`. -/
theorem C48_special_orders :
    (minkowski (.real 1) : Dist n) = manhattan ∧ (minkowski (.real 2) : Dist n) = euclidean ∧
      (minkowski .posInf : Dist n) = chebyshev ∧ (minkowski .negInf : Dist n) = chebyshev := by
  refine ⟨by simp [minkowski], by simp [minkowski], rfl, rfl⟩

theorem minkowski_pos {p : ℝ} (hp : 0 < p) (x y : Fin n → ℝ) :
    minkowski (.real p) x y = .ok (minkowskiFormula p x y) := by
  simp only [minkowski]
  split
  · rename_i h; subst h; rw [C47_manhattan.1, ← manhattanFormula_eq]; rfl
  · split
    · rename_i h; subst h; rw [C47_euclidean.1, ← euclideanFormula_eq]; rfl
    · simp only [npNorm_pos hp]

/-- **C48.** For every real `p >= 1`, `minkowski(p)` is the root of the sum of
powers, a metric. -/
theorem C48_metric (p : ℝ) (hp : 1 ≤ p) :
    (∀ x y : Fin n → ℝ,
      minkowski (.real p) x y = .ok ((∑ i, |x i - y i| ^ p) ^ (1 / p))) ∧
      IsMetric (fun x y : Fin n → ℝ => (∑ i, |x i - y i| ^ p) ^ (1 / p)) :=
  ⟨fun x y => minkowski_pos (by linarith) x y, minkowskiFormula_isMetric hp⟩

/-- A non-special order: `p = 3`. -/
example : minkowski (.real 3) ![(0 : ℝ), 0] ![3, 4] = .ok (91 ^ ((1 : ℝ) / 3)) := by
  rw [(C48_metric 3 (by norm_num)).1]
  congr 2
  simp [Fin.sum_univ_two]
  norm_num

/-- **C48 (violation).** Every `0 < p < 1` is accepted, and the triangle inequality
fails already in the plane. -/
theorem C48_below_one_violation (p : ℝ) (h0 : 0 < p) (h1 : p < 1) :
    ∃ (x y z : Fin 2 → ℝ) (a b c : ℝ), minkowski (.real p) x z = .ok a ∧
      minkowski (.real p) x y = .ok b ∧ minkowski (.real p) y z = .ok c ∧ b + c < a := by
  refine ⟨![1, 0], ![0, 0], ![0, 1], _, _, _, minkowski_pos h0 _ _, minkowski_pos h0 _ _,
    minkowski_pos h0 _ _, ?_⟩
  have hp : p ≠ 0 := h0.ne'
  have e1 : minkowskiFormula p ![(1 : ℝ), 0] ![0, 0] = 1 := by
    simp [minkowskiFormula, Fin.sum_univ_two, Real.zero_rpow hp]
  have e2 : minkowskiFormula p ![(0 : ℝ), 0] ![0, 1] = 1 := by
    simp [minkowskiFormula, Fin.sum_univ_two, Real.zero_rpow hp]
  have e3 : minkowskiFormula p ![(1 : ℝ), 0] ![0, 1] = 2 ^ (1 / p) := by
    simp only [minkowskiFormula, Fin.sum_univ_two]
    congr 1
    simp
    norm_num
  rw [e1, e2, e3]
  have : (2 : ℝ) ^ (1 : ℝ) < 2 ^ (1 / p) :=
    Real.rpow_lt_rpow_of_exponent_lt (by norm_num) (by rw [lt_div_iff₀ h0]; linarith)
  rw [Real.rpow_one] at this
  linarith

/-- **C48 (violation).** Every negative order is accepted, and distinct vectors that
agree in a coordinate are at distance zero. -/
theorem C48_negative_violation (p : ℝ) (hp : p < 0) (x y : Fin n → ℝ) (i : Fin n)
    (h : x i = y i) : minkowski (.real p) x y = .ok 0 := by
  simp only [minkowski]
  rw [if_neg (by linarith), if_neg (by linarith)]
  simp only [npNorm]
  rw [if_neg hp.ne, if_pos ⟨hp, i, by simp [h]⟩]

/-- Non-vacuity of the previous theorem: distinct vectors. -/
example : minkowski (.real (-1)) ![(0 : ℝ), 5] ![0, 7] = .ok 0 ∧ ![(0 : ℝ), 5] ≠ ![0, 7] := by
  refine ⟨C48_negative_violation (-1) (by norm_num) _ _ 0 (by simp), ?_⟩
  intro h
  have := congrFun h 1
  norm_num at this

/-- **C48.** Order zero counts the coordinates in which the vectors differ, which is
a metric as well. -/
theorem C48_zero :
    (∀ x y : Fin n → ℝ, minkowski (.real 0) x y
      = .ok ((Finset.univ.filter (fun i => x i ≠ y i)).card : ℝ)) ∧
    IsMetric (fun x y : Fin n → ℝ => ((Finset.univ.filter (fun i => x i ≠ y i)).card : ℝ)) := by
  constructor
  · intro x y
    simp only [minkowski]
    rw [if_neg (by norm_num), if_neg (by norm_num)]
    simp only [npNorm, if_true, Pi.sub_apply, sub_ne_zero]
  · refine ⟨fun x y => ?_, fun x => ?_, fun x y h => ?_, fun x y z => ?_⟩
    · exact congrArg Nat.cast (hammingDist_comm x y)
    · exact_mod_cast hammingDist_self x
    · exact_mod_cast hammingDist_pos.mpr h
    · exact_mod_cast hammingDist_triangle x y z

/-- **C49.** On non-zero vectors `cosine()` returns the distance of the definition:
the square root of twice one minus the cosine of the angle. -/
theorem C49_value (x y : Fin n → ℝ) (hx : x ≠ 0) (hy : y ≠ 0) :
    cosine x y
      = .ok (Real.sqrt (2 * (1 - (∑ i, x i * y i) / (length2 x * length2 y)))) := by
  simp only [cosine, npNorm2_eq]
  rw [if_neg (mul_pos (length2_pos hx) (length2_pos hy)).ne']
  rfl

/-- **C49.** On non-zero vectors cosine distance is a pseudo-metric with values in
`[0, 2]`, zero exactly on vectors of the same direction. -/
theorem C49_pseudometric :
    ∃ d : {x : Fin n → ℝ // x ≠ 0} → {x : Fin n → ℝ // x ≠ 0} → ℝ,
      (∀ x y, cosine x.1 y.1 = .ok (d x y)) ∧ PseudoMetric d ∧
      (∀ x y, 0 ≤ d x y ∧ d x y ≤ 2) ∧ (∀ x y, d x y = 0 ↔ SameDirection x.1 y.1) := by
  have hm := euclideanFormula_isMetric (n := n)
  refine ⟨fun x y => euclideanFormula (unit x.1) (unit y.1),
    fun x y => cosine_eq x.2 y.2, ⟨fun x => hm.self _, fun x y => hm.symm _ _,
      fun x y z => hm.triangle _ _ _⟩, ?_, ?_⟩
  · intro x y
    refine ⟨Real.sqrt_nonneg _, ?_⟩
    have h := hm.triangle (unit x.1) 0 (unit y.1)
    have e1 : euclideanFormula (unit x.1) 0 = 1 := by
      simp [euclideanFormula, sum_unit_sq x.2]
    have e2 : euclideanFormula 0 (unit y.1) = 1 := by
      simp [euclideanFormula, sum_unit_sq y.2]
    rw [e1, e2] at h
    linarith
  · intro x y
    rw [← unit_eq_iff x.2 y.2]
    constructor
    · intro h
      by_contra hne
      exact absurd h (hm.pos _ _ hne).ne'
    · intro h
      simp only [h]
      exact hm.self _

/-- **C49.** Scaling an argument by a positive factor changes nothing. -/
theorem C49_scaling (x y : Fin n → ℝ) (hx : x ≠ 0) (hy : y ≠ 0) (a b : ℝ) (ha : 0 < a)
    (hb : 0 < b) : cosine (fun i => a * x i) (fun i => b * y i) = cosine x y := by
  have nz : ∀ (c : ℝ), 0 < c → ∀ v : Fin n → ℝ, v ≠ 0 → (fun i => c * v i) ≠ 0 := by
    intro c hc v hv h
    apply hv
    funext i
    have := congrFun h i
    simpa [hc.ne'] using this
  rw [cosine_eq (nz a ha x hx) (nz b hb y hy), cosine_eq hx hy,
    ← (unit_eq_iff hx (nz a ha x hx)).mpr ⟨a, ha, fun _ => rfl⟩,
    ← (unit_eq_iff hy (nz b hb y hy)).mpr ⟨b, hb, fun _ => rfl⟩]

/-- **C49.** A zero vector has no direction: the call raises. -/
theorem C49_zero_vector (x y : Fin n → ℝ) (h : x = 0 ∨ y = 0) :
    cosine x y = .error .zeroDivisionError := cosine_error h

/-- Orthogonal vectors are at distance `√2`, opposite ones at distance `2`. -/
example : cosine ![(1 : ℝ), 0] ![0, 5] = .ok (Real.sqrt 2) ∧
    cosine ![(1 : ℝ), 0] ![-1, 0] = .ok 2 := by
  have h1 : ![(1 : ℝ), 0] ≠ 0 := fun h => by simpa using congrFun h 0
  have h2 : ![(0 : ℝ), 5] ≠ 0 := fun h => by simpa using congrFun h 1
  have h3 : ![(-1 : ℝ), 0] ≠ 0 := fun h => by simpa using congrFun h 0
  refine ⟨?_, ?_⟩
  · rw [C49_value _ _ h1 h2]
    simp [Fin.sum_univ_two]
  · rw [C49_value _ _ h1 h3]
    simp [Fin.sum_univ_two, length2]
    rw [show (1 : ℝ) + 1 = 2 by norm_num]
    exact Real.mul_self_sqrt (by norm_num)

/-- **C50.** A callable is returned unchanged, whatever the keyword arguments. -/
theorem C50_callable (f : Dist n) (kwargs : PyDict String KwVal) :
    getMetric (.callable f) kwargs = .ok f := rfl

/-- **C50.** Names other than the supported ones, and objects that are neither
callable nor strings, raise `ValueError`, whatever the keyword arguments; supported
names never do. -/
theorem C50_unknown (m : MetricArg n) (kwargs : PyDict String KwVal) :
    getMetric m kwargs = .error .valueError ↔
      m = .other ∨ ∃ s, m = .name s ∧
        s ∉ ["euclidean", "manhattan", "minkowski", "chebyshev", "cosine"] := by
  have hn : ∀ f : Dist n, callNoArgs f kwargs ≠ .error .valueError := by
    intro f; unfold callNoArgs; split <;> simp
  have hm : (callMinkowski kwargs : Py (Dist n)) ≠ .error .valueError := by
    unfold callMinkowski
    split
    · split
      · split <;> simp
      · simp
    · simp
  cases m with
  | callable f => simp [getMetric]
  | other => simp [getMetric]
  | name s =>
    simp only [getMetric, MetricArg.name.injEq, exists_eq_left', List.mem_cons,
      List.not_mem_nil, or_false, not_or, reduceCtorEq, false_or]
    split
    · simp_all
    · split
      · simp_all
      · split
        · simp_all
        · split
          · simp_all
          · split <;> simp_all

/-- **C50.** Without keyword arguments the parameterless names give their metric. -/
theorem C50_named :
    getMetric (.name "euclidean") ⟨[]⟩ = .ok (euclidean : Dist n) ∧
    getMetric (.name "manhattan") ⟨[]⟩ = .ok (manhattan : Dist n) ∧
    getMetric (.name "chebyshev") ⟨[]⟩ = .ok (chebyshev : Dist n) ∧
    getMetric (.name "cosine") ⟨[]⟩ = .ok (cosine : Dist n) ∧
    ∀ p, getMetric (.name "minkowski") ⟨[("p", .num p)]⟩ = .ok (minkowski p : Dist n) := by
  refine ⟨by simp [getMetric, callNoArgs], by simp [getMetric, callNoArgs],
    by simp [getMetric, callNoArgs], by simp [getMetric, callNoArgs], fun p => ?_⟩
  simp [getMetric, callMinkowski]

/-- **C50.** A supported name raises `TypeError` exactly when the keyword arguments
are not those of the metric: none, or for `minkowski` a single numeric `p`. -/
theorem C50_arguments (s : String) (kwargs : PyDict String KwVal)
    (hs : s ∈ ["euclidean", "manhattan", "minkowski", "chebyshev", "cosine"]) :
    ((getMetric (.name s) kwargs : Py (Dist n)) = .error .typeError ↔
      ¬ (if s = "minkowski" then ∃ p, kwargs.items = [("p", .num p)]
         else kwargs.items = [])) ∧
    ((getMetric (.name s) kwargs : Py (Dist n)) = .error .typeError ∨
      ∃ f : Dist n, getMetric (.name s) kwargs = .ok f) := by
  have hn : ∀ f : Dist n, (callNoArgs f kwargs = .error .typeError ↔ ¬ kwargs.items = []) ∧
      (callNoArgs f kwargs = .error .typeError ∨ ∃ g : Dist n, callNoArgs f kwargs = .ok g) := by
    intro f; unfold callNoArgs; split <;> simp_all
  have hm : ((callMinkowski kwargs : Py (Dist n)) = .error .typeError ↔
      ¬ ∃ p, kwargs.items = [("p", .num p)]) ∧
      ((callMinkowski kwargs : Py (Dist n)) = .error .typeError ∨
        ∃ g : Dist n, callMinkowski kwargs = .ok g) := by
    unfold callMinkowski
    split
    · rename_i k v e
      rw [e]
      split
      · rename_i hk
        subst hk
        split <;> simp
      · simp_all
    · rename_i h
      refine ⟨⟨fun _ => ?_, fun _ => rfl⟩, Or.inl rfl⟩
      rintro ⟨p, hp⟩
      exact h _ _ hp
  simp only [List.mem_cons, List.not_mem_nil, or_false] at hs
  rcases hs with rfl | rfl | rfl | rfl | rfl
  · simpa [getMetric] using hn euclidean
  · simpa [getMetric] using hn manhattan
  · simpa [getMetric] using hm
  · simpa [getMetric] using hn chebyshev
  · simpa [getMetric] using hn cosine

/-- **C50.** `get_supported_metrics` lists exactly the names that `get_metric`
accepts. -/
theorem C50_supported (s : String) :
    s ∈ supportedMetrics ↔ ∃ (kwargs : PyDict String KwVal) (f : Dist n),
      getMetric (.name s) kwargs = .ok f := by
  constructor
  · intro hs
    simp only [supportedMetrics, List.mem_cons, List.not_mem_nil, or_false] at hs
    have h := C50_named (n := n)
    rcases hs with rfl | rfl | rfl | rfl | rfl
    · exact ⟨_, _, h.1⟩
    · exact ⟨_, _, h.2.1⟩
    · exact ⟨_, _, h.2.2.2.2 .posInf⟩
    · exact ⟨_, _, h.2.2.1⟩
    · exact ⟨_, _, h.2.2.2.1⟩
  · rintro ⟨kw, f, e⟩
    by_contra hs
    have := (C50_unknown (n := n) (.name s) kw).mpr (Or.inr ⟨s, rfl, hs⟩)
    rw [e] at this
    cases this

/-- A concrete misuse: `get_metric("euclidean", p=3)` and `get_metric("minkowski")`. -/
example : (getMetric (.name "euclidean") ⟨[("p", .num (.real 3))]⟩ : Py (Dist 2))
      = .error .typeError ∧
    (getMetric (.name "minkowski") ⟨[]⟩ : Py (Dist 2)) = .error .typeError := by
  refine ⟨((C50_arguments _ _ (by simp)).1).mpr (by simp), ((C50_arguments _ _ (by simp)).1).mpr
    (by simp)⟩

/-- What the search theorems say of a distance: trees of both kinds over a dataset
answer ball and nearest-neighbour queries exactly. -/
def ExactSearch {T : Type} (d : T → T → ℝ) : Prop :=
  ∀ (X : List T) (kind : String) (p : VPParams ℝ) (ρ : ℕ → ℕ), X ≠ [] → 1 ≤ p.leafCapacity →
    kind = "flat" ∨ kind = "hierarchical" →
    ∃ t, VPTree.build X d kind p ρ = .ok t ∧
      (∀ (q : T) (eps : ℝ) (inclusive : Bool), ∃ out,
        t.ballSearch q eps inclusive = .ok out ∧ IsBallAnswer d q eps inclusive X out) ∧
      (∀ (q : T) (k : ℕ), ∃ out, t.knnSearch q k = .ok out ∧ IsKnnAnswer d q k X out)

theorem exactSearch_of_pseudo {T : Type} {d : T → T → ℝ} (hd : PseudoMetric d) :
    ExactSearch d := by
  intro X kind p ρ hX hp hk
  rcases hk with rfl | rfl
  · obtain ⟨t, e1, h1⟩ := C09_flat_ball_exact hd X hX p hp ρ
    obtain ⟨t', e2, h2⟩ := C11_flat_knn_exact hd X hX p hp ρ
    rw [e1] at e2
    cases e2
    exact ⟨t, e1, h1, h2⟩
  · obtain ⟨t, e1, h1⟩ := C10_hier_ball_exact hd X p hp ρ
    obtain ⟨t', e2, h2⟩ := C12_hier_knn_exact hd X p hp ρ
    rw [e1] at e2
    cases e2
    exact ⟨t, e1, h1, h2⟩

/-- **C65.** Searches are exact with every metric selected by name: `euclidean`,
`manhattan`, `chebyshev` and `minkowski` of order `p >= 1` or infinite on all
vectors, `cosine` on non-zero vectors. -/
theorem C65_named_search (s : String) (kwargs : PyDict String KwVal)
    (hs : (s ∈ ["euclidean", "manhattan", "chebyshev"] ∧ kwargs.items = []) ∨
      (s = "minkowski" ∧ ∃ p, kwargs.items = [("p", .num p)] ∧ ∀ r, p = .real r → 1 ≤ r)) :
    ∃ (f : Dist n) (d : (Fin n → ℝ) → (Fin n → ℝ) → ℝ), getMetric (.name s) kwargs = .ok f ∧
      (∀ x y, f x y = .ok (d x y)) ∧ ExactSearch d := by
  have h := C50_named (n := n)
  have he : ∃ d : (Fin n → ℝ) → (Fin n → ℝ) → ℝ,
      (∀ x y, chebyshev x y = .ok (d x y)) ∧ ExactSearch d := by
    obtain ⟨d, hd, _, e⟩ := C47_chebyshev (n := n)
    exact ⟨d, e, exactSearch_of_pseudo hd.pseudo⟩
  rcases kwargs with ⟨items⟩
  rcases hs with ⟨hs, hk⟩ | ⟨rfl, p, hk, hp⟩
  · simp only at hk
    subst hk
    simp only [List.mem_cons, List.not_mem_nil, or_false] at hs
    rcases hs with rfl | rfl | rfl
    · exact ⟨_, _, h.1, C47_euclidean.1, exactSearch_of_pseudo C47_euclidean.2.pseudo⟩
    · exact ⟨_, _, h.2.1, C47_manhattan.1, exactSearch_of_pseudo C47_manhattan.2.pseudo⟩
    · obtain ⟨d, hd⟩ := he
      exact ⟨_, d, h.2.2.1, hd⟩
  · simp only at hk
    subst hk
    cases p with
    | real r =>
      have := C48_metric (n := n) r (hp r rfl)
      exact ⟨_, _, h.2.2.2.2 _, this.1, exactSearch_of_pseudo this.2.pseudo⟩
    | posInf => obtain ⟨d, hd⟩ := he; exact ⟨_, d, h.2.2.2.2 _, hd⟩
    | negInf => obtain ⟨d, hd⟩ := he; exact ⟨_, d, h.2.2.2.2 _, hd⟩

/-- **C65.** The same for `cosine`, on datasets and queries of non-zero vectors. -/
theorem C65_cosine_search :
    ∃ (f : Dist n) (d : {x : Fin n → ℝ // x ≠ 0} → {x : Fin n → ℝ // x ≠ 0} → ℝ),
      getMetric (.name "cosine") ⟨[]⟩ = .ok f ∧ (∀ x y, f x.1 y.1 = .ok (d x y)) ∧
        ExactSearch d := by
  obtain ⟨d, e, hd, _⟩ := C49_pseudometric (n := n)
  exact ⟨cosine, d, C50_named.2.2.2.1, e, exactSearch_of_pseudo hd⟩

/-- Non-vacuity: the hypotheses hold for `minkowski` with `p = 3`, and for a tree
over three points of the plane. -/
example : ∃ (f : Dist 2) (d : (Fin 2 → ℝ) → (Fin 2 → ℝ) → ℝ),
    getMetric (.name "minkowski") ⟨[("p", .num (.real 3))]⟩ = .ok f ∧
      (∀ x y, f x y = .ok (d x y)) ∧
      ∃ t, VPTree.build [![0, 0], ![1, 2], ![3, 1]] d "flat" ⟨1, 0, "disabled"⟩ id = .ok t := by
  obtain ⟨f, d, e, h, hx⟩ := C65_named_search (n := 2) "minkowski" ⟨[("p", .num (.real 3))]⟩
    (Or.inr ⟨rfl, .real 3, rfl, fun r hr => by cases hr; norm_num⟩)
  obtain ⟨t, et, _⟩ := hx [![0, 0], ![1, 2], ![3, 1]] "flat" ⟨1, 0, "disabled"⟩ id (by simp)
    (by simp) (Or.inl rfl)
  exact ⟨f, d, e, h, t, et⟩

end Verif
