import Verif.Proof.CallsRaise
import Verif.Props.Metrics

/-!
# C88: the calls of the distance function

How often, and with which arguments, the trees and the covers call the distance function of
the user, and what happens if a call raises. No law is assumed of the distance function, and
of the order of its values only what holds of floating-point numbers, NaN included.
-/

set_option autoImplicit false
set_option linter.unusedSectionVars false

namespace Verif

variable {T R E : Type}

open Calls

section
variable [LE R] [LT R] [DecidableLE R] [DecidableLT R] [Zero R] [Neg R] [Sub R]

/-- **C88 (the model).** Run with a distance function that never raises, the computations that
call it return what the other model of the trees and covers returns. -/
theorem C88_result [DecidableEq R] (d : T → T → R) (X : List T) (kind : String) (p : VPParams R)
    (ρ : ℕ → ℕ) (P : BallParams T R) (K : KnnParams T R) :
    (VPTree.build X d kind p ρ =
      (VPTreeC.build X kind p ρ).answer d >>= fun t => .ok (t.withMetric d)) ∧
    (∀ (t : VPTreeC T R) q eps inc,
      (t.ballSearch q eps inc).answer d = (t.withMetric d).ballSearch q eps inc) ∧
    (∀ (t : VPTreeC T R) q k, (t.knnSearch q k).answer d = (t.withMetric d).knnSearch q k) ∧
    (ballApplyC P ρ X).answer P.metric = BallCover.apply ⟨P, none⟩ ρ X ∧
    (knnApplyC K ρ X).answer K.metric = KnnCover.apply ⟨K, none⟩ ρ X :=
  ⟨answer_build d X kind p ρ, answer_ballSearch d, answer_knnSearch d,
    answer_ballApplyC P ρ X none, answer_knnApplyC K ρ X none⟩

/-- **C88 (construction).** Building a tree on `n` entries calls the distance function on pairs
of entries only, at most `n (⌈log₂ n⌉ + 1)` times, and three times as often when the vantage
points are the furthest ones. -/
theorem C88_build (d : T → T → R) (X : List T) (kind : String) (p : VPParams R)
    (hcap : 1 ≤ p.leafCapacity) (ρ : ℕ → ℕ) :
    CallsWithin X ((VPTreeC.build X kind p ρ).trace d) ∧
    ((VPTreeC.build X kind p ρ).trace d).length ≤
      (if p.pivoting = "furthest" then 3 else 1) * (X.length * (Nat.clog 2 X.length + 1)) :=
  (trace_build d X kind p hcap ρ).symm

variable [StrictLT R]

/-- **C88 (searches).** A search calls the distance function with the query point and an entry,
at most once for every entry: never more often than a scan of the data. The search may use
another distance function than the construction did. -/
theorem C88_search (dt d : T → T → R) (X : List T) (kind : String) (p : VPParams R)
    (hcap : 1 ≤ p.leafCapacity) (ρ : ℕ → ℕ) (t : VPTreeC T R)
    (ht : (VPTreeC.build X kind p ρ).answer dt = .ok t) (q : T) :
    (∀ eps inc, QueriesOnce q X ((t.ballSearch q eps inc).trace d) ∧
      ((t.ballSearch q eps inc).trace d).length ≤ X.length) ∧
    ∀ k, QueriesOnce q X ((t.knnSearch q k).trace d) ∧
      ((t.knnSearch q k).trace d).length ≤ X.length :=
  ⟨fun eps inc =>
    have h := trace_ballSearch dt d X kind p hcap ρ ht q eps inc
    ⟨h, h.length_le⟩,
   fun k =>
    have h := trace_knnSearch dt d X kind p hcap ρ ht q k
    ⟨h, h.length_le⟩⟩

variable [DecidableEq R]

/-- **C88 (covers).** `BallCover.apply` and `KNNCover.apply` call the distance function on pairs
of rows of the data only, and at most `n²` times more than the construction of the tree may. -/
theorem C88_cover (d : T → T → R) (P : BallParams T R) (hP : 1 ≤ P.leafCapacity)
    (K : KnnParams T R) (hK : 1 ≤ K.neighbors) (ρ : ℕ → ℕ) (X : List T) :
    (CallsWithin X ((ballApplyC P ρ X).trace d) ∧
      ((ballApplyC P ρ X).trace d).length ≤ buildBudget P.pivoting X.length + X.length ^ 2) ∧
    CallsWithin X ((knnApplyC K ρ X).trace d) ∧
      ((knnApplyC K ρ X).trace d).length ≤ buildBudget K.pivoting X.length + X.length ^ 2 := by
  rw [sq]
  exact ⟨(trace_ballApplyC d P hP ρ X).symm, (trace_knnApplyC d K hK ρ X).symm⟩

/-- What a computation does with a distance function that may raise: it calls it on the same
pairs up to the first that raises, and raises what that call raises. -/
theorem C88_first (d : T → T → R) (dE : T → T → Except E R) (h : Extends d dE) {α : Type}
    (p : Calls T R α) :
    ((∀ c ∈ p.trace d, ∃ r, dE c.1 c.2 = .ok r) → p.run dE = (p.answer d).mapError .inl) ∧
    ∀ c ∈ p.trace d, ∀ e, dE c.1 c.2 = .error e →
      ∃ pre c' post e', p.trace d = pre ++ c' :: post ∧
        (∀ b ∈ pre, ∃ r, dE b.1 b.2 = .ok r) ∧ dE c'.1 c'.2 = .error e' ∧
        p.run dE = .error (.inr e') :=
  ⟨run_ok h p, fun _ hc _ he => run_raises h p hc he⟩

/-- An exception of the distance function is one that it raises on a pair of rows, and there is
none if it raises on no pair of rows. -/
theorem raises_within {d : T → T → R} {dE : T → T → Except E R} (h : Extends d dE) {α : Type}
    (p : Calls T R α) {X : List T} (hw : CallsWithin X (p.trace d)) :
    ((∀ x ∈ X, ∀ y ∈ X, ∃ r, dE x y = .ok r) → p.run dE = (p.answer d).mapError .inl) ∧
    (∀ e, p.run dE = .error (.inr e) → ∃ x ∈ X, ∃ y ∈ X, dE x y = .error e) ∧
    (p.run dE = (p.answer d).mapError .inl ∨ ∃ e, p.run dE = .error (.inr e)) := by
  refine ⟨fun hx => run_ok h p fun c hc => hx _ (hw c hc).1 _ (hw c hc).2, ?_, ?_⟩
  · intro e he
    by_cases hall : ∀ c ∈ p.trace d, ∃ r, dE c.1 c.2 = .ok r
    · rw [run_ok h p hall] at he
      cases ha : p.answer d with
      | ok a => rw [ha] at he; cases he
      | error e1 => rw [ha] at he; cases he
    · push Not at hall
      obtain ⟨c, hc, hn⟩ := hall
      cases hd : dE c.1 c.2 with
      | ok r => exact absurd hd (hn r)
      | error e0 =>
        obtain ⟨pre, c', post, e', h1, _, h3, h4⟩ := run_raises h p hc hd
        rw [h4] at he
        cases he
        have := hw c' (by rw [h1]; simp)
        exact ⟨c'.1, this.1, c'.2, this.2, h3⟩
  · by_cases hall : ∀ c ∈ p.trace d, ∃ r, dE c.1 c.2 = .ok r
    · exact .inl (run_ok h p hall)
    · push Not at hall
      obtain ⟨c, hc, hn⟩ := hall
      cases hd : dE c.1 c.2 with
      | ok r => exact absurd hd (hn r)
      | error e0 =>
        obtain ⟨_, _, _, e', _, _, _, h4⟩ := run_raises h p hc hd
        exact .inr ⟨e', h4⟩

/-- **C88 (exceptions).** With a metric that may raise, `BallCover.apply` does what it does with
a metric that does not, or raises what the metric raises on some pair of rows; and it does the
former if the metric raises on no pair of rows. -/
theorem C88_raises (P : BallParams T R) (hP : 1 ≤ P.leafCapacity) (dE : T → T → Except E R)
    (h : Extends P.metric dE) (ρ : ℕ → ℕ) (X : List T) :
    ((∀ x ∈ X, ∀ y ∈ X, ∃ r, dE x y = .ok r) →
      (ballApplyC P ρ X).run dE = (BallCover.apply ⟨P, none⟩ ρ X).mapError .inl) ∧
    (∀ e, (ballApplyC P ρ X).run dE = .error (.inr e) →
      ∃ x ∈ X, ∃ y ∈ X, dE x y = .error e) ∧
    ((ballApplyC P ρ X).run dE = (BallCover.apply ⟨P, none⟩ ρ X).mapError .inl ∨
      ∃ e, (ballApplyC P ρ X).run dE = .error (.inr e)) := by
  rw [← answer_ballApplyC P ρ X none]
  exact raises_within h _ (trace_ballApplyC P.metric P hP ρ X).2

/-- **C88 (exceptions).** The same for `KNNCover.apply`. -/
theorem C88_knn_raises (K : KnnParams T R) (hK : 1 ≤ K.neighbors) (dE : T → T → Except E R)
    (h : Extends K.metric dE) (ρ : ℕ → ℕ) (X : List T) :
    ((∀ x ∈ X, ∀ y ∈ X, ∃ r, dE x y = .ok r) →
      (knnApplyC K ρ X).run dE = (KnnCover.apply ⟨K, none⟩ ρ X).mapError .inl) ∧
    (∀ e, (knnApplyC K ρ X).run dE = .error (.inr e) →
      ∃ x ∈ X, ∃ y ∈ X, dE x y = .error e) ∧
    ((knnApplyC K ρ X).run dE = (KnnCover.apply ⟨K, none⟩ ρ X).mapError .inl ∨
      ∃ e, (knnApplyC K ρ X).run dE = .error (.inr e)) := by
  rw [← answer_knnApplyC K ρ X none]
  exact raises_within h _ (trace_knnApplyC K.metric K hK ρ X).2

theorem raises_of_touches {d : T → T → R} {dE : T → T → Except E R} (h : Extends d dE) {z : T}
    (hz : RaisesAt dE z) {α : Type} (p : Calls T R α) (ht : Touches z (p.trace d)) :
    ∃ e, p.run dE = .error (.inr e) := by
  obtain ⟨c, hc, hcz⟩ := ht
  have : ∃ e, dE c.1 c.2 = .error e := by
    rcases hcz with hcz | hcz
    · rw [hcz]; exact (hz c.2).2
    · rw [hcz]; exact (hz c.1).1
  obtain ⟨e, he⟩ := this
  obtain ⟨_, _, _, e', _, _, _, h4⟩ := run_raises h p hc he
  exact ⟨e', h4⟩

/-- **C88 (a bad row).** If the metric raises whenever one of its arguments is some row of the
data, `BallCover.apply` raises an exception of the metric, whatever the parameters: no row is
skipped silently. -/
theorem C88_bad_row (P : BallParams T R) (hk : IsKind P.kind) (hP : 1 ≤ P.leafCapacity)
    (dE : T → T → Except E R) (h : Extends P.metric dE) (ρ : ℕ → ℕ) (X : List T) (z : T)
    (hz : z ∈ X) (hr : RaisesAt dE z) : ∃ e, (ballApplyC P ρ X).run dE = .error (.inr e) :=
  raises_of_touches h hr _ (touches_ballApplyC P.metric P hk hP ρ X hz)

end

/-- **C88 (a bad row).** The same for `KNNCover.apply`. -/
theorem C88_knn_bad_row [LinearOrder R] [Zero R] [Neg R] [Sub R] (K : KnnParams T R)
    (hk : IsKind K.kind) (hK : 1 ≤ K.neighbors) (dE : T → T → Except E R)
    (h : Extends K.metric dE) (ρ : ℕ → ℕ) (X : List T) (z : T) (hz : z ∈ X)
    (hr : RaisesAt dE z) : ∃ e, (knnApplyC K ρ X).run dE = .error (.inr e) :=
  raises_of_touches h hr _ (touches_knnApplyC K.metric K hk hK ρ X hz)

/-- The cosine distance, continued to the null vectors by the distance of the directions. -/
noncomputable def cosineTotal {n : ℕ} (x y : Fin n → ℝ) : ℝ := euclideanFormula (unit x) (unit y)

theorem cosine_extends {n : ℕ} : Extends (cosineTotal (n := n)) (cosine : Dist n) := by
  intro x y r h
  by_cases hx : x = 0
  · rw [cosine_error (.inl hx)] at h; cases h
  by_cases hy : y = 0
  · rw [cosine_error (.inr hy)] at h; cases h
  rw [cosine_eq hx hy] at h
  cases h; rfl

/-- **C88 (cosine).** With `cosine`, both covers raise `ZeroDivisionError` if some row is null,
and otherwise do what they do with a metric that never raises. -/
theorem C88_cosine {n : ℕ} (P : BallParams (Fin n → ℝ) ℝ) (hk : IsKind P.kind)
    (hP : 1 ≤ P.leafCapacity) (hm : P.metric = cosineTotal) (K : KnnParams (Fin n → ℝ) ℝ)
    (hkk : IsKind K.kind) (hK : 1 ≤ K.neighbors) (hmk : K.metric = cosineTotal) (ρ : ℕ → ℕ)
    (X : List (Fin n → ℝ)) :
    (0 ∈ X → (ballApplyC P ρ X).run cosine = .error (.inr .zeroDivisionError) ∧
      (knnApplyC K ρ X).run cosine = .error (.inr .zeroDivisionError)) ∧
    (0 ∉ X → (ballApplyC P ρ X).run cosine = (BallCover.apply ⟨P, none⟩ ρ X).mapError .inl ∧
      (knnApplyC K ρ X).run cosine = (KnnCover.apply ⟨K, none⟩ ρ X).mapError .inl) := by
  have hx : Extends P.metric (cosine : Dist n) := by rw [hm]; exact cosine_extends
  have hxk : Extends K.metric (cosine : Dist n) := by rw [hmk]; exact cosine_extends
  have hz : RaisesAt (cosine : Dist n) 0 := fun x =>
    ⟨⟨_, cosine_error (.inr rfl)⟩, ⟨_, cosine_error (.inl rfl)⟩⟩
  have herr : ∀ x y e, (cosine : Dist n) x y = .error e → e = .zeroDivisionError := by
    intro x y e he
    by_cases h0 : x = 0 ∨ y = 0
    · rw [cosine_error h0] at he; cases he; rfl
    · push Not at h0
      rw [cosine_eq h0.1 h0.2] at he; cases he
  constructor
  · intro h0
    obtain ⟨e, he⟩ := C88_bad_row P hk hP cosine hx ρ X 0 h0 hz
    obtain ⟨e', he'⟩ := C88_knn_bad_row K hkk hK cosine hxk ρ X 0 h0 hz
    obtain ⟨x, _, y, _, hxy⟩ := (C88_raises P hP cosine hx ρ X).2.1 e he
    obtain ⟨x', _, y', _, hxy'⟩ := (C88_knn_raises K hK cosine hxk ρ X).2.1 e' he'
    rw [he, he', herr _ _ _ hxy, herr _ _ _ hxy']
    exact ⟨rfl, rfl⟩
  · intro h0
    have hok : ∀ x ∈ X, ∀ y ∈ X, ∃ r, (cosine : Dist n) x y = .ok r := by
      intro x hx y hy
      exact ⟨_, cosine_eq (fun h => h0 (h ▸ hx)) (fun h => h0 (h ▸ hy))⟩
    exact ⟨(C88_raises P hP cosine hx ρ X).1 hok, (C88_knn_raises K hK cosine hxk ρ X).1 hok⟩

/-! ### Concrete cases -/

/-- Eight entries. -/
def eightPoints : List ℤ := [5, 3, 8, 1, 9, 2, 7, 4]

/-- Building a tree on eight entries: 14 calls of the 32 allowed, and 52 of the 96 allowed when
the vantage points are the furthest ones. -/
example :
    ((VPTreeC.build eightPoints "hierarchical" ⟨1, (0 : ℤ), "disabled"⟩ fun n => n).trace
      absDist).length = 14 ∧
    ((VPTreeC.build eightPoints "hierarchical" ⟨1, (0 : ℤ), "furthest"⟩ fun n => n).trace
      absDist).length = 52 ∧
    buildBudget "disabled" 8 = 32 ∧ buildBudget "furthest" 8 = 96 := by
  decide +kernel

/-- The bound on the searches is reached: a large ball has all eight entries. A small one takes
fewer calls. -/
example :
    ((VPTreeC.build eightPoints "flat" ⟨1, (0 : ℤ), "disabled"⟩ fun n => n).answer
      absDist >>= fun t => .ok ((t.ballSearch 5 100 true).trace absDist).length) = .ok 8 ∧
    ((VPTreeC.build eightPoints "flat" ⟨1, (0 : ℤ), "disabled"⟩ fun n => n).answer
      absDist >>= fun t => .ok ((t.ballSearch 9 0 true).trace absDist).length) = .ok 4 := by
  decide +kernel

/-- A metric that raises on one row. -/
def raisesOnSeven (x y : ℤ) : Except String ℤ :=
  if x = 7 ∨ y = 7 then .error "seven" else .ok (absDist x y)

example : RaisesAt raisesOnSeven 7 := fun x =>
  ⟨⟨"seven", by simp [raisesOnSeven]⟩, ⟨"seven", by simp [raisesOnSeven]⟩⟩

example : Extends absDist raisesOnSeven := by
  intro x y r h
  unfold raisesOnSeven at h
  split at h
  · cases h
  · cases h; rfl

/-- With that row the cover raises, without it the cover is returned. -/
example :
    (ballApplyC ⟨2, absDist, "flat", 1, none, "disabled"⟩ (fun n => n) eightPoints).run
      raisesOnSeven = .error (.inr "seven") ∧
    (ballApplyC ⟨2, absDist, "flat", 1, none, "disabled"⟩ (fun n => n) [5, 3, 8, 1]).run
      raisesOnSeven = .ok [[0], [1], [2], [3]] := by
  decide +kernel

end Verif
