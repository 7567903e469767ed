import Verif.Spec.Gaps
import Verif.Props.Nerve
import Verif.Props.Cover

/-!
# Proofs about data without gaps
-/

set_option autoImplicit false
set_option linter.unusedSectionVars false

namespace Verif

/-- Charts that share points step by step are joined by a path. -/
theorem nerve_reachable {g : NxGraph} {charts : List (List ℕ)} (hn : IsNerve g charts) {i j : ℕ}
    (h : Linked (InOneChart charts) i j) {c c' : ℕ} {ids ids' : List ℕ} (hc : charts[c]? = some ids)
    (hi : i ∈ ids) (hc' : charts[c']? = some ids') (hj : j ∈ ids') : g.Reachable c c' := by
  have hstep : ∀ {c c' : ℕ} {ids ids' : List ℕ} {i : ℕ}, charts[c]? = some ids → i ∈ ids →
      charts[c']? = some ids' → i ∈ ids' → g.Reachable c c' := by
    intro c c' ids ids' i h1 h2 h3 h4
    by_cases he : c = c'
    · subst he; exact .refl
    · exact .single ((hn.adj c c' ids ids' h1 h3).mpr ⟨he, i, h2, h4⟩)
  induction h generalizing c' ids' with
  | refl => exact hstep hc hi hc' hj
  | tail _ h2 ih =>
    obtain ⟨chart, h3, h4, h5⟩ := h2
    obtain ⟨k, hk⟩ := List.mem_iff_getElem?.mp h3
    exact (ih hk h4).trans (hstep hk h5 hc' hj)

/-- With the trivial clustering, rows that always share a chart are not torn apart. -/
theorem noBreaks {S T : Type} (X : List S) (y : List T) (hlen : X.length = y.length)
    (cover : CoverFn T) (charts : List (List ℕ)) (hc : cover y = .ok charts)
    (hg : WellFormedCharts y.length charts) (hcov : Covers y.length charts) (r : T → T → Prop)
    (hr : ∀ i j, RowsRelated y r i j → InOneChart charts i j)
    (order : List ℤ → List ℤ) (ho : ∀ l L, L ∈ order l ↔ L ∈ l) :
    ∃ g out, mapperGraph X y cover (fun _ => trivialClustering) = .ok g ∧
      mapperConnectedComponents order X y cover (fun _ => trivialClustering) = .ok out ∧
      out.length = X.length ∧ NoBreaks y r g out := by
  rw [← hlen] at hg hcov
  obtain ⟨g, e, hn⟩ := C75_nerve X y cover charts hc hg
  obtain ⟨out, e', hl, hs⟩ := C76_cover_chains X y cover charts hc hg hcov order ho
  have hmono : ∀ i j, Linked (RowsRelated y r) i j → Linked (InOneChart charts) i j :=
    fun i j h => Relation.ReflTransGen.mono hr _ _ h
  refine ⟨g, out, e, e', hl, fun i j h => ?_, fun i j hi hj h => ?_, fun h u v hu hv => ?_⟩
  · obtain ⟨chart, h1, h2, h3⟩ := hr i j h
    obtain ⟨k, hk⟩ := List.mem_iff_getElem?.mp h1
    obtain ⟨l, h4, _, h5⟩ := hn.attr k chart hk
    exact ⟨k, ⟨_, _, h4, h5.mem_iff.mpr h2⟩, ⟨_, _, h4, h5.mem_iff.mpr h3⟩⟩
  · exact (hs i j (hlen ▸ hi) (hlen ▸ hj)).mpr (hmono i j h)
  · obtain ⟨c, hc1, rfl⟩ := (hn.node u).mp hu
    obtain ⟨c', hc2, rfl⟩ := (hn.node v).mp hv
    have h1 := List.getElem?_eq_getElem hc1
    have h2 := List.getElem?_eq_getElem hc2
    obtain ⟨n1, _, b1⟩ := hg _ (List.mem_of_getElem? h1)
    obtain ⟨n2, _, b2⟩ := hg _ (List.mem_of_getElem? h2)
    obtain ⟨i, hi⟩ := List.exists_mem_of_ne_nil _ n1
    obtain ⟨j, hj⟩ := List.exists_mem_of_ne_nil _ n2
    exact nerve_reachable hn (hmono i j (h i j (hlen ▸ b1 i hi) (hlen ▸ b2 j hj))) h1 hi h2 hj

section
variable {R : Type} [Field R] [LinearOrder R] [IsStrictOrderedRing R] {m : ℕ}

/-- The box of the cell of a row contains all rows nearby. -/
theorem inBox_near {lo hi p x z : R} {n : ℕ} {c : ℤ} (hc : InCell lo hi n x c)
    (h : |x - z| < p * boxWidth lo hi n p / 2) : InBox lo hi n p c z := by
  obtain ⟨_, _, h1, h2⟩ := hc
  obtain ⟨h3, h4⟩ := abs_lt.mp h
  have h5 : x ≤ cellRight lo hi n c := by rcases h2 with h2 | ⟨_, h2⟩ <;> linarith
  exact ⟨by linarith, by linarith⟩

theorem inHypercube_near {lo hi x z : Fin m → R} {n : ℕ} {p : R} {c : Fin m → ℤ}
    (hc : IsCell lo hi n x c) (h : HalfOverlapApart lo hi n p x z) : InHypercube lo hi n p c z :=
  fun i hi' => inBox_near ((hc i).1 hi') (h i hi')

/-- Every row has a cell. -/
theorem exists_isCell [FloorRing R] {X : List (Fin m → R)} {lo hi : Fin m → R} (hb : IsBounds X lo hi)
    {x : Fin m → R} (hx : x ∈ X) {n : ℕ} (hn : 1 ≤ n) : ∃ c, IsCell lo hi n x c := by
  obtain ⟨_, g, _, _, _, _, hg, _, _, _, _⟩ := cubFitted (fun _ => 0)
    (⟨⟨n, some (1 / 2), "flat", 1, none, "disabled"⟩, none⟩ : CubCover m R) (fun _ => 0) X
    (List.ne_nil_of_mem hx) (1 / 2)
    ⟨rfl, by norm_num, by norm_num, hn, Or.inl rfl, le_refl 1⟩
  obtain ⟨rfl, rfl⟩ := hg.bounds.unique hb
  exact ⟨_, (isCell_iff hg hn x (fun k => (hg.bounds k).2.2 _ hx) _).mpr rfl⟩

/-- Points of two intervals that are neither both in one nor both in the other are far apart. -/
theorem interval_share {lo v q x z : R} (hv : 0 < v) (hq : 0 < q) (b b' : ℤ)
    (hx : lo + b * v - q / 2 < x ∧ x < lo + (b + 1) * v + q / 2)
    (hz : lo + b' * v - q / 2 < z ∧ z < lo + (b' + 1) * v + q / 2)
    (h1 : |x - z| < q) (h2 : |x - z| ≤ v - q) (hle : b ≤ b') :
    (lo + b * v - q / 2 < z ∧ z < lo + (b + 1) * v + q / 2) ∨
      (lo + b' * v - q / 2 < x ∧ x < lo + (b' + 1) * v + q / 2) := by
  obtain ⟨a1, a2⟩ := abs_lt.mp h1
  obtain ⟨a3, a4⟩ := abs_le.mp h2
  have e1 : ((b : R) + 1) * v = b * v + v := by ring
  have e2 : ((b' : R) + 1) * v = b' * v + v := by ring
  rw [e1] at hx ⊢
  rw [e2] at hz ⊢
  have h0 : (b : R) * v ≤ b' * v := mul_le_mul_of_nonneg_right (by exact_mod_cast hle) hv.le
  rcases hle.eq_or_lt with h | h
  · subst h; exact Or.inl hz
  · by_cases h' : b + 1 = b'
    · have hb : (b' : R) * v = b * v + v := by rw [← h']; push_cast; ring
      by_cases h3 : z < lo + (b * v + v) + q / 2
      · exact Or.inl ⟨by linarith, h3⟩
      · exact Or.inr ⟨by linarith, by linarith⟩
    · have hb : (b : R) * v + 2 * v ≤ b' * v := by
        have : ((b : R) + 2) * v ≤ b' * v :=
          mul_le_mul_of_nonneg_right (by exact_mod_cast (by omega : b + 2 ≤ b')) hv.le
        linarith [add_mul (b : R) 2 v]
      exact Or.inl ⟨by linarith, by linarith⟩

theorem inBox_share {lo hi p x z : R} {n : ℕ} (hn : 1 ≤ n) (hlt : lo < hi) (hp0 : 0 < p) (hp1 : p < 1)
    {b b' : ℤ} (hx : InBox lo hi n p b x) (hz : InBox lo hi n p b' z)
    (h1 : |x - z| < p * boxWidth lo hi n p) (h2 : |x - z| ≤ (1 - 2 * p) * boxWidth lo hi n p) :
    InBox lo hi n p b z ∨ InBox lo hi n p b' x := by
  have hn' : (0 : R) < n := by exact_mod_cast hn
  have hd : 0 < hi - lo := sub_pos.mpr hlt
  have hq : 0 < 1 - p := sub_pos.mpr hp1
  have hw0 : 0 < boxWidth lo hi n p := by unfold boxWidth; positivity
  have hv0 : 0 < (hi - lo) / n := by positivity
  have hv : (1 - 2 * p) * boxWidth lo hi n p = (hi - lo) / n - p * boxWidth lo hi n p := by
    unfold boxWidth; field_simp; ring
  rw [hv] at h2
  rcases le_total b b' with h | h
  · exact interval_share hv0 (mul_pos hp0 hw0) b b' hx hz h1 h2 h
  · rw [abs_sub_comm] at h1 h2
    exact (interval_share hv0 (mul_pos hp0 hw0) b' b hz hx h1 h2 h).symm

end

/-- When the results of the search from the first two rows contain each row exactly once, they are
the charts. -/
theorem two_net {S F : Type} (fit : List S → Py F) (search : F → S → Py (List ℕ))
    (X : List S) (f : F) (hf : fit X = .ok f) (res : ℕ → List ℕ)
    (hr : ∀ i x, X[i]? = some x → search f x = .ok (res i)) (hX : 2 ≤ X.length)
    (h0 : 0 ∈ res 0) (h1 : 1 ∈ res 1) (h10 : 1 ∉ res 0)
    (hall : ∀ i, i < X.length → i ∈ res 0 ∨ i ∈ res 1) :
    proximityNet fit search X = .ok [res 0, res 1] := by
  obtain ⟨out, cs, e, hs, hm, ho⟩ := C29_proximity_net fit search X f hf res hr
  have m0 : 0 ∈ cs := (hm 0).mpr ⟨by omega, fun j _ h => by omega⟩
  have m1 : 1 ∈ cs := (hm 1).mpr ⟨by omega, fun j _ h => by
    have : j = 0 := by omega
    subst this; exact h10⟩
  have hmem : ∀ i, i ∈ cs ↔ i ∈ [0, 1] := by
    intro i
    simp only [List.mem_cons, List.not_mem_nil, or_false]
    refine ⟨fun hi => ?_, fun hi => by rcases hi with rfl | rfl; exacts [m0, m1]⟩
    obtain ⟨h2, h3⟩ := (hm i).mp hi
    by_contra h
    rcases hall i h2 with h4 | h4
    · exact h3 0 m0 (by omega) h4
    · exact h3 1 m1 (by omega) h4
  have hcs : cs = [0, 1] := by
    refine List.Perm.eq_of_pairwise (le := (· < ·)) (fun a b _ _ h h' => by omega) hs (by decide) ?_
    exact (List.perm_ext_iff_of_nodup (hs.imp fun h => h.ne) (by decide)).mpr hmem
  rw [e, ho, hcs, List.filter_eq_self.mpr]
  · rfl
  · intro l hl
    simp only [List.map_cons, List.map_nil, List.mem_cons, List.not_mem_nil, or_false] at hl
    rcases hl with rfl | rfl
    · simpa using List.ne_nil_of_mem h0
    · simpa using List.ne_nil_of_mem h1

/-- Two charts without a common row give two components. -/
theorem two_components {S T : Type} (X : List S) (y : List T) (cover : CoverFn T) (A B : List ℕ)
    (hc : cover y = .ok [A, B]) (hA : A.Nodup ∧ ∀ i ∈ A, i < X.length)
    (hB : B.Nodup ∧ ∀ i ∈ B, i < X.length) (hdis : ∀ i ∈ A, i ∉ B)
    (hall : ∀ i, i < X.length → i ∈ A ∨ i ∈ B) {a b : ℕ} (ha : a ∈ A) (hb : b ∈ B)
    (order : List ℤ → List ℤ) (ho : ∀ l L, L ∈ order l ↔ L ∈ l) :
    ∃ out, mapperConnectedComponents order X y cover (fun _ => trivialClustering) = .ok out ∧
      out[a]? ≠ out[b]? := by
  obtain ⟨out, e, _, h⟩ := C76_cover_chains X y cover [A, B] hc
    (by
      intro chart hch
      simp only [List.mem_cons, List.not_mem_nil, or_false] at hch
      rcases hch with rfl | rfl
      · exact ⟨List.ne_nil_of_mem ha, hA⟩
      · exact ⟨List.ne_nil_of_mem hb, hB⟩)
    (fun i hi => by rcases hall i hi with h | h; exacts [⟨A, by simp, h⟩, ⟨B, by simp, h⟩]) order ho
  refine ⟨out, e, fun heq => ?_⟩
  have hl := (h a b (hA.2 a ha) (hB.2 b hb)).mp heq
  have : b ∈ A := by
    clear heq
    induction hl with
    | refl => exact ha
    | tail h1 h2 ih =>
      rename_i c d
      by_cases hc' : c ∈ B
      · exact absurd hc' (hdis c (by
          obtain ⟨chart, h3, h4, h5⟩ := h2
          exact ih hc'))
      · obtain ⟨chart, h3, h4, h5⟩ := h2
        simp only [List.mem_cons, List.not_mem_nil, or_false] at h3
        rcases h3 with rfl | rfl
        · exact h5
        · exact absurd h4 hc'
  exact hdis b this hb

end Verif
