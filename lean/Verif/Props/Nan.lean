import Verif.Proof.Rounding
import Verif.Props.Core
import Verif.Props.VPTree
import Mathlib.Tactic.FinCases

/-!
# C78: distances that are infinite or not a number

Numbers here are all floating-point numbers: `<` is irreflexive and transitive, nothing else
is assumed of comparisons, and subtraction is arbitrary.
-/

set_option autoImplicit false

namespace Verif

section quickselect
variable {R β γ : Type} [LT R] [DecidableLT R] [StrictLT R]

/-- **C78 (selection).** `quickselect` terminates without error on arrays with NaN, moves
whole rows within the range, and afterwards nothing before position `k` exceeds `data[k]` and
nothing after it is below. -/
theorem C78_quickselect (s : QState R β γ) (start end_ k : ℕ) (hk : start ≤ k ∧ k < end_)
    (hlen : end_ ≤ s.data.length)
    (hx1 : ∀ l, s.extra1 = some l → l.length = s.data.length)
    (hx2 : ∀ l, s.extra2 = some l → l.length = s.data.length) :
    ∃ s' v π, quickselect s start end_ k = .ok s' ∧ s'.data[k]? = some v ∧
      MovesOnly π start end_ ∧ Rearranged π s.data s'.data ∧
      RearrangedOpt π s.extra1 s'.extra1 ∧ RearrangedOpt π s.extra2 s'.extra2 ∧
      (∀ m x, start ≤ m → m < k → s'.data[m]? = some x → ¬ v < x) ∧
      (∀ m x, k ≤ m → m < end_ → s'.data[m]? = some x → ¬ x < v) := by
  obtain ⟨s', π, e, mv, mo, sel⟩ := quickselect_ok s start end_ k
    ⟨hlen, fun l hl => by rw [hx1 l hl]; exact hlen, fun l hl => by rw [hx2 l hl]; exact hlen⟩
  have sel := sel hk.1 hk.2
  have hlt : k < s'.data.length := by rw [mv.1.1]; omega
  have hv : s'.data[k]? = some s'.data[k] := List.getElem?_eq_getElem hlt
  exact ⟨s', _, π, e, hv, mo, mv.1, mv.2.1, mv.2.2, fun m x a b c => sel.1 m x _ a b c hv,
    fun m x a b c => sel.2 m x _ a b c hv⟩

end quickselect

section
variable {T R : Type} [LE R] [LT R] [DecidableLE R] [DecidableLT R] [StrictLT R] [Zero R] [Neg R]
  [Sub R]

/-- **C78 (search).** With any symmetric distance function, which may return infinities and
NaN: building a tree and searching it never fails nor loops, and a ball search returns only
entries whose distance is in the ball, none more often than the dataset contains it. -/
theorem C78_ball_search {d : T → T → R} (hsy : ∀ x y, d x y = d y x) (X : List T) (hX : X ≠ [])
    (kind : String) (hk : IsKind kind) (p : VPParams R) (hp : 1 ≤ p.leafCapacity) (ρ : ℕ → ℕ) :
    ∃ t, VPTree.build X d kind p ρ = .ok t ∧ ∀ q eps inc, ∃ out,
      t.ballSearch q eps inc = .ok out ∧
      out.Subperm (X.filter (fun x => decide (InBall d q eps inc x))) := by
  obtain ⟨t, h1, h2⟩ := vptree_keeps hsy X kind hk p hp ρ
  refine ⟨t, h1, fun q eps inc => ?_⟩
  obtain ⟨out, h3, h4⟩ := h2 hX q eps inc
  exact ⟨out, h3, (h4 _ (keeps_nothing _ _ _ _ _)).2⟩

omit [Neg R] [Sub R] in
/-- **C78 (structure).** The hierarchical tree stores each entry once; no entry of the near
half is beyond the radius of its node and no entry of the far half is below it. -/
theorem C78_hier_build (d : T → T → R) (X : List T) (p : VPParams R) (hp : 1 ≤ p.leafCapacity)
    (ρ : ℕ → ℕ) :
    ∃ t a, VPTree.build X d "hierarchical" p ρ = .ok (.hier d t a) ∧ (entries a t).Perm X ∧
      (∀ r v near far, SubTree t (.node r v near far) →
        (∀ x ∈ entries a near, ¬ r < d v x) ∧ (∀ x ∈ entries a far, ¬ d v x < r)) := by
  obtain ⟨t, a, e1, wf, hdata, hw, hperm, _, hgood⟩ := hierBuild_ok d ρ p hp X
  refine ⟨t, a, by simp [VPTree.build, e1], ?_, ?_⟩
  · rw [entries_eq_pts a wf (s := 0) (by rw [hdata]; exact hw)]
    exact hperm
  · intro r v near far hs
    have w := hs.within hw
    have g := hs.good hgood
    rw [← hdata] at w
    rw [entries_eq_pts a wf w.1, entries_eq_pts a wf w.2]
    exact ⟨g.1, g.2.1⟩

variable [DecidableEq R]

/-- **C78 (cover).** With any symmetric distance function `BallCover.apply` succeeds, and its
charts are non-empty, without repetitions, and consist of rows whose distance from some row
is below the radius. -/
theorem C78_apply (c : BallCover T R) (hsy : ∀ x y, c.params.metric x y = c.params.metric y x)
    (hk : IsKind c.params.kind) (hp : 1 ≤ c.params.leafCapacity) (ρ : ℕ → ℕ) (X : List T) :
    ∃ out, c.apply ρ X = .ok out ∧ WellFormedCharts X.length out ∧
      ∀ chart ∈ out, ∃ xi ∈ X,
        ∀ j ∈ chart, ∃ z, X[j]? = some z ∧ c.params.metric xi z < c.params.radius := by
  classical
  obtain ⟨c', h1, h2⟩ := ballFit_keeps c hsy hk hp ρ X
  cases X with
  | nil =>
    refine ⟨[], ?_, by simp [WellFormedCharts], by simp⟩
    simp [BallCover.apply, proximityNet, h1, proximityLoop]
  | cons x₀ xs =>
    obtain ⟨X, hXe⟩ : ∃ X, X = x₀ :: xs := ⟨_, rfl⟩
    rw [← hXe] at h1 h2 ⊢
    have h2 := h2 (by rw [hXe]; simp)
    choose f hf hn hl hS using h2
    let pt : ℕ → T := fun i => (X[i]?).getD x₀
    have hpt : ∀ (i : ℕ) x, X[i]? = some x → pt i = x := by
      intro i x hx; simp only [pt, hx, Option.getD_some]
    have hpt' : ∀ i, i < X.length → X[i]? = some (pt i) := by
      intro i hi; simp [pt, List.getElem?_eq_getElem hi]
    obtain ⟨out, cs, e, _, hm, rfl⟩ := C29_proximity_net (c.fit ρ) BallCover.search X c' h1
      (fun i => f (pt i)) (fun i x hx => by rw [hpt i x hx]; exact hf x)
    refine ⟨_, e, ?_, ?_⟩
    · intro chart hc
      obtain ⟨hc, hne⟩ := List.mem_filter.mp hc
      obtain ⟨i, hi, rfl⟩ := List.mem_map.mp hc
      refine ⟨by simpa using hne, hn _, ?_⟩
      intro j hj
      obtain ⟨z, hz, _⟩ := hl _ j hj
      exact (List.getElem?_eq_some_iff.mp hz).1
    · intro chart hc
      obtain ⟨hc, _⟩ := List.mem_filter.mp hc
      obtain ⟨i, hi, rfl⟩ := List.mem_map.mp hc
      exact ⟨pt i, List.mem_of_getElem? (hpt' i ((hm i).mp hi).1), hl _⟩

/-- **C78 (finite distances).** If moreover the distances among the rows are finite and each
row is within the radius of itself, every row is covered. -/
theorem C78_cover {Fin : R → Prop} (hF : FiniteNumbers Fin) (c : BallCover T R)
    (hsy : ∀ x y, c.params.metric x y = c.params.metric y x) (hk : IsKind c.params.kind)
    (hp : 1 ≤ c.params.leafCapacity) (h0 : 0 ≤ c.params.radius) (ρ : ℕ → ℕ) (X : List T)
    (hfin : ∀ x ∈ X, ∀ y ∈ X, Fin (c.params.metric x y))
    (hself : ∀ x ∈ X, c.params.metric x x < c.params.radius) :
    ∃ out, c.apply ρ X = .ok out ∧ WellFormedCharts X.length out ∧ Covers X.length out ∧
      ∀ chart ∈ out, ∃ (i : ℕ) (xi : T), X[i]? = some xi ∧ i ∈ chart ∧
        ∀ j ∈ chart, ∃ z, X[j]? = some z ∧ c.params.metric xi z < c.params.radius := by
  classical
  obtain ⟨c', h1, h2⟩ := ballFit_keeps c hsy hk hp ρ X
  cases X with
  | nil =>
    refine ⟨[], ?_, by simp [WellFormedCharts], by simp [Covers], by simp⟩
    simp [BallCover.apply, proximityNet, h1, proximityLoop]
  | cons x₀ xs =>
    obtain ⟨X, hXe⟩ : ∃ X, X = x₀ :: xs := ⟨_, rfl⟩
    rw [← hXe] at h1 h2 hself hfin ⊢
    have h2 := h2 (by rw [hXe]; simp)
    choose f hf hn hl hS using h2
    let pt : ℕ → T := fun i => (X[i]?).getD x₀
    have hpt : ∀ (i : ℕ) x, X[i]? = some x → pt i = x := by
      intro i x hx; simp only [pt, hx, Option.getD_some]
    have hpt' : ∀ i, i < X.length → X[i]? = some (pt i) := by
      intro i hi; simp [pt, List.getElem?_eq_getElem hi]
    have hs : ∀ i, i < X.length → i ∈ f (pt i) := by
      intro i hi
      have hmem : pt i ∈ X := List.mem_of_getElem? (hpt' i hi)
      refine hS (pt i) (fun x => decide (x = pt i)) (keeps_twin hF hfin _ hmem _ h0 _ _ ?_) i
        (pt i) (hpt' i hi) (by simp)
      intro x hx
      have hx : x = pt i := of_decide_eq_true hx
      subst hx
      exact ⟨by simpa [InBall] using hself _ hmem, fun v => hsy _ _⟩
    obtain ⟨out, e, hcov, hch, _⟩ := C29_proximity_net_covers (c.fit ρ) BallCover.search X c' h1
      (fun i => f (pt i)) (fun i x hx => by rw [hpt i x hx]; exact hf x) hs
    refine ⟨out, e, ?_, hcov, ?_⟩
    · intro chart hc
      obtain ⟨i, hi, rfl⟩ := hch chart hc
      refine ⟨List.ne_nil_of_mem (hs i hi), hn _, ?_⟩
      intro j hj
      obtain ⟨z, hz, _⟩ := hl _ j hj
      exact (List.getElem?_eq_some_iff.mp hz).1
    · intro chart hc
      obtain ⟨i, hi, rfl⟩ := hch chart hc
      exact ⟨i, pt i, hpt' i hi, hs i hi, hl _⟩

end

/-! ### Non-vacuity and counterexamples: integers with infinities and NaN -/

/-- Integers with infinities and NaN, compared and subtracted as in IEEE 754. -/
inductive Special where
  | fin (n : ℤ)
  | posInf
  | negInf
  | nan
  deriving DecidableEq

namespace Special

def lt : Special → Special → Bool
  | fin a, fin b => a < b
  | fin _, posInf => true
  | negInf, fin _ => true
  | negInf, posInf => true
  | _, _ => false

def le : Special → Special → Bool
  | nan, _ => false
  | _, nan => false
  | a, b => !lt b a

instance : LT Special := ⟨fun a b => lt a b = true⟩
instance : LE Special := ⟨fun a b => le a b = true⟩
instance : DecidableLT Special := fun a b => inferInstanceAs (Decidable (lt a b = true))
instance : DecidableLE Special := fun a b => inferInstanceAs (Decidable (le a b = true))
instance : Zero Special := ⟨fin 0⟩
instance : Neg Special := ⟨fun
  | fin a => fin (-a)
  | posInf => negInf
  | negInf => posInf
  | nan => nan⟩
instance : Sub Special := ⟨fun
  | fin a, fin b => fin (a - b)
  | posInf, fin _ => posInf
  | posInf, negInf => posInf
  | negInf, fin _ => negInf
  | negInf, posInf => negInf
  | fin _, posInf => negInf
  | fin _, negInf => posInf
  | _, _ => nan⟩

theorem lt_def (a b : Special) : a < b ↔ lt a b = true := Iff.rfl
theorem le_def (a b : Special) : a ≤ b ↔ le a b = true := Iff.rfl

instance : StrictLT Special where
  irrefl := fun a => by cases a <;> simp [lt_def, lt]
  trans := fun a b c => by
    cases a <;> cases b <;> cases c <;> simp [lt_def, lt]
    exact lt_trans

/-- Neither infinite nor NaN. -/
def IsFin (a : Special) : Prop := ∃ n, a = fin n

theorem finiteNumbers : FiniteNumbers IsFin where
  total := by
    rintro _ _ ⟨a, rfl⟩ ⟨b, rfl⟩
    simp [lt_def, le_def, lt, le]
  sub_eq := by
    rintro _ _ ⟨a, rfl⟩ ⟨b, rfl⟩
    simp only [le_def, lt, le, Bool.not_eq_true', decide_eq_false_iff_not, not_lt]
    intro h1 h2
    show fin (a - b) = fin 0
    rw [Special.fin.injEq]
    omega

end Special

open Special

/-- The distance of two numbers that may be missing: NaN if one is. -/
def missDist : Option ℤ → Option ℤ → Special
  | some x, some y => fin |x - y|
  | _, _ => nan

/-- The distance of points in separate pieces is infinite: a metric with infinite values. -/
def pieceDist (x y : ℤ × ℤ) : Special := if x.1 = y.1 then fin |x.2 - y.2| else posInf

theorem missDist_symm (x y : Option ℤ) : missDist x y = missDist y x := by
  cases x <;> cases y <;> simp [missDist, abs_sub_comm]

theorem pieceDist_symm (x y : ℤ × ℤ) : pieceDist x y = pieceDist y x := by
  unfold pieceDist
  by_cases h : x.1 = y.1
  · rw [if_pos h, if_pos h.symm, abs_sub_comm]
  · rw [if_neg h, if_neg (fun h' => h h'.symm)]

/-- Non-vacuity: selection among numbers and NaN. -/
example : ∃ s' v π, quickselect (β := ℕ) (γ := Bool)
      ⟨[fin 4, nan, fin 1, posInf, nan, fin 0], some [0, 1, 2, 3, 4, 5], none⟩ 0 6 3 = .ok s' ∧
      s'.data[3]? = some v ∧ MovesOnly π 0 6 := by
  obtain ⟨s', v, π, h1, h2, h3, _⟩ := C78_quickselect (β := ℕ) (γ := Bool)
    ⟨[fin 4, nan, fin 1, posInf, nan, fin 0], some [0, 1, 2, 3, 4, 5], none⟩ 0 6 3 (by decide)
    (by decide) (by intro l hl; cases hl; rfl) (by intro l hl; cases hl)
  exact ⟨s', v, π, h1, h2, h3⟩

/-- Non-vacuity: a search among rows with missing values. -/
example : ∃ t, VPTree.build [some 1, none, some 2, some 7, none, some 3] missDist "flat"
      ⟨1, 0, "disabled"⟩ (fun n => n) = .ok t ∧
    ∃ out, t.ballSearch (some 2) (fin 3) true = .ok out ∧
      out.Subperm [some 1, some 2, some 3] := by
  obtain ⟨t, h1, h2⟩ := C78_ball_search missDist_symm
    [some 1, none, some 2, some 7, none, some 3] (by simp) "flat" (.inl rfl) ⟨1, 0, "disabled"⟩
    (le_refl _) (fun n => n)
  obtain ⟨out, h3, h4⟩ := h2 (some 2) (fin 3) true
  exact ⟨t, h1, out, h3, h4⟩

def missBall (kind : String) : BallCover (Option ℤ) Special :=
  ⟨⟨fin 2, missDist, kind, 1, none, "disabled"⟩, none⟩

def pieceBall (kind : String) : BallCover (ℤ × ℤ) Special :=
  ⟨⟨fin 2, pieceDist, kind, 1, none, "disabled"⟩, none⟩

/-- Non-vacuity of `C78_cover`: no row is missing. -/
example : ∃ out, (missBall "flat").apply (fun n => n) [some 0, some 1, some 5, some 6, some 9] =
    .ok out ∧ Covers 5 out := by
  obtain ⟨out, h1, _, h2, _⟩ := C78_cover finiteNumbers (missBall "flat") missDist_symm (.inl rfl)
    (le_refl _) rfl (fun n => n) [some 0, some 1, some 5, some 6, some 9]
    (by
      intro x hx y hy
      have hs : ∀ x ∈ [some 0, some 1, some 5, some 6, some (9 : ℤ)], ∃ n, x = some n := by
        intro x hx
        fin_cases hx <;> exact ⟨_, rfl⟩
      obtain ⟨a, rfl⟩ := hs x hx
      obtain ⟨b, rfl⟩ := hs y hy
      exact ⟨_, rfl⟩)
    (by intro x hx; fin_cases hx <;> rfl)
  exact ⟨out, h1, h2⟩

/-- **C78 (infinite distances).** With a metric that takes infinite values `BallCover` leaves
rows out of every chart, for both kinds of tree: five points infinitely far from one another,
of which only the first and the third are covered. -/
theorem C78_infinite_violation :
    (∀ x, pieceDist x x = fin 0) ∧ (∀ x y, pieceDist x y = pieceDist y x) ∧
    (∀ x y z a b, pieceDist x y = fin a → pieceDist y z = fin b →
      ∃ c, pieceDist x z = fin c ∧ c ≤ a + b) ∧
    ∀ kind, IsKind kind → (pieceBall kind).apply (fun n => n)
      [(0, 0), (1, 0), (2, 0), (3, 0), (4, 0)] = .ok [[0], [2]] := by
  refine ⟨fun x => by simp [pieceDist], pieceDist_symm, ?_, ?_⟩
  · intro x y z a b h1 h2
    unfold pieceDist at *
    split at h1
    · split at h2
      · rename_i e1 e2
        rw [if_pos (e1.trans e2)]
        cases h1
        cases h2
        exact ⟨_, rfl, abs_sub_le _ _ _⟩
      · cases h2
    · cases h1
  · rintro kind (rfl | rfl) <;> rfl

/-- **C78 (NaN distances).** With the hierarchical tree one row whose distances are NaN hides
another: the row `5` is at distance 0 of itself, and in no chart. -/
theorem C78_nan_violation :
    missDist (some 5) (some 5) < fin 2 ∧
    (missBall "hierarchical").apply (fun n => n) [none, some 0, some 5, some 9] =
      .ok [[1], [3]] ∧
    (missBall "hierarchical").apply (fun n => n) [some 0, some 5, some 9] =
      .ok [[0], [1], [2]] :=
  ⟨rfl, rfl, rfl⟩

end Verif
