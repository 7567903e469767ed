import Verif.Props.VPTree
import Verif.Model.Limit
import Mathlib.Data.Nat.Log

/-!
# C77: depth of the recursion in hierarchical trees
-/

set_option autoImplicit false

namespace Verif

variable {T R : Type}

/-- The number of nested calls that visit the whole tree, besides the outermost one. -/
def VPNode.height : VPNode T R → ℕ
  | .leaf _ _ => 0
  | .node _ _ l r => max l.height r.height + 1

section
variable [LE R] [LT R] [DecidableLE R] [DecidableLT R] [Zero R]

theorem hierBuildRec_height (d : T → T → R) (ρ : ℕ → ℕ) (p : VPParams R) (hp : 1 ≤ p.leafCapacity)
    (fuel start end_ : ℕ) (st : BuildState T R) (t : VPNode T R) (st' : BuildState T R)
    (h : hierBuildRec d ρ p fuel start end_ st = .ok (t, st')) (k : ℕ)
    (hk : end_ - start ≤ 2 ^ k) : t.height ≤ k := by
  induction fuel generalizing start end_ st t st' k with
  | zero => simp [hierBuildRec] at h
  | succ fuel ih =>
    rw [hierBuildRec] at h
    split at h
    · cases h; simp [VPNode.height]
    · rename_i hlt
      cases k with
      | zero => simp at hk; omega
      | succ k =>
        have hpow : 2 ^ (k + 1) = 2 * 2 ^ k := by rw [Nat.pow_succ, Nat.mul_comm]
        obtain ⟨st1, _, h⟩ := bind_eq_ok.mp h
        obtain ⟨v, _, h⟩ := bind_eq_ok.mp h
        obtain ⟨a1, _, h⟩ := bind_eq_ok.mp h
        obtain ⟨r, _, h⟩ := bind_eq_ok.mp h
        obtain ⟨a2, _, h⟩ := bind_eq_ok.mp h
        split at h
        · cases h; simp [VPNode.height]
        · obtain ⟨⟨l, st2⟩, h1, h⟩ := bind_eq_ok.mp h
          obtain ⟨⟨r', st3⟩, h2, h⟩ := bind_eq_ok.mp h
          cases h
          have e1 := ih _ _ _ _ _ h1 k (by unfold vpMid; omega)
          have e2 := ih _ _ _ _ _ h2 k (by unfold vpMid; omega)
          simp only [VPNode.height]
          omega

/-- **C77.** The hierarchical tree of `n` points has height at most `⌈log₂ n⌉`, whatever the
metric, the parameters and the random draws. Construction and search recurse once per level. -/
theorem C77_depth (d : T → T → R) (ρ : ℕ → ℕ) (p : VPParams R) (hp : 1 ≤ p.leafCapacity)
    (X : List T) (t : VPNode T R) (a : VPArray T R) (h : hierBuild d ρ p X = .ok (t, a)) :
    t.height ≤ Nat.clog 2 X.length := by
  simp only [hierBuild] at h
  split at h
  · obtain ⟨⟨t', st⟩, h1, h⟩ := bind_eq_ok.mp h
    cases h
    refine hierBuildRec_height d ρ p hp _ _ _ _ _ _ h1 _ ?_
    simpa [VPArray.size, hierInit] using Nat.le_pow_clog (by decide) X.length
  · cases h; simp [VPNode.height]

/-- With `fuel` nested calls allowed, as by Python's recursion limit, the construction
succeeds if `n ≤ 2 ^ (fuel - 1)`, and gives the same tree. -/
theorem hierBuildRec_fuel (d : T → T → R) (ρ : ℕ → ℕ) (p : VPParams R) (hp : 1 ≤ p.leafCapacity)
    (fuel fuel' start end_ : ℕ) (st : BuildState T R) (x : VPNode T R × BuildState T R)
    (h : hierBuildRec d ρ p fuel start end_ st = .ok x) (k : ℕ)
    (hk : end_ - start ≤ 2 ^ k) (hf : k < fuel') : hierBuildRec d ρ p fuel' start end_ st = .ok x := by
  induction fuel generalizing start end_ st x k fuel' with
  | zero => simp [hierBuildRec] at h
  | succ fuel ih =>
    obtain ⟨f, rfl⟩ : ∃ f, fuel' = f + 1 := ⟨fuel' - 1, by omega⟩
    rw [hierBuildRec] at h ⊢
    split at h
    · rename_i hlt; rw [if_pos hlt]; exact h
    · rename_i hlt
      rw [if_neg hlt]
      cases k with
      | zero => simp at hk; omega
      | succ k =>
        have hpow : 2 ^ (k + 1) = 2 * 2 ^ k := by rw [Nat.pow_succ, Nat.mul_comm]
        obtain ⟨st1, g1, h⟩ := bind_eq_ok.mp h
        obtain ⟨v, g2, h⟩ := bind_eq_ok.mp h
        obtain ⟨a1, g3, h⟩ := bind_eq_ok.mp h
        obtain ⟨r, g4, h⟩ := bind_eq_ok.mp h
        obtain ⟨a2, g5, h⟩ := bind_eq_ok.mp h
        simp only [g1, g2, g3, g4, g5, ok_bind]
        split at h
        · rename_i hr; rw [if_pos hr]; exact h
        · rename_i hr
          rw [if_neg hr]
          obtain ⟨⟨l, st2⟩, h1, h⟩ := bind_eq_ok.mp h
          obtain ⟨⟨r', st3⟩, h2, h⟩ := bind_eq_ok.mp h
          rw [ih f _ _ _ _ h1 k (by unfold vpMid; omega) (by omega), ok_bind,
            ih f _ _ _ _ h2 k (by unfold vpMid; omega) (by omega), ok_bind]
          exact h

end

/-- **C77 (no recursion error).** If the interpreter allows `limit` nested calls of the
recursive builder, every dataset of at most `2 ^ (limit - 1)` points is built: no more calls
are nested than the limit. -/
theorem C77_recursion_limit [LinearOrder R] [Zero R] (d : T → T → R) (ρ : ℕ → ℕ) (p : VPParams R)
    (hp : 1 ≤ p.leafCapacity) (X : List T) (hX : X ≠ []) (limit : ℕ) (hl : 1 ≤ limit)
    (hn : X.length ≤ 2 ^ (limit - 1)) :
    ∃ t st, hierBuildRec d ρ p limit 0 X.length ⟨hierInit X, 0⟩ = .ok (t, st) ∧
      hierBuild d ρ p X = .ok (t, st.arr) := by
  obtain ⟨t, a, e, _⟩ := hierBuild_ok d ρ p hp X
  have hpos : 0 < X.length := List.length_pos_iff.mpr hX
  have h := e
  unfold hierBuild at h
  rw [if_pos (by simpa [VPArray.size, hierInit] using hpos)] at h
  obtain ⟨⟨t', st⟩, h1, h⟩ := bind_eq_ok.mp h
  cases h
  refine ⟨_, st, ?_, e⟩
  exact hierBuildRec_fuel d ρ p hp _ limit _ _ _ _ h1 (limit - 1) (by simpa using hn) (by omega)

section search
variable [LE R] [LT R] [DecidableLE R] [DecidableLT R] [Zero R] [Neg R] [Sub R]

theorem hierBallRecLimit_eq (d : T → T → R) (a : VPArray T R) (q : T) (eps : R) (inc : Bool) :
    ∀ (limit : ℕ) (t : VPNode T R) (res : List T), t.height < limit →
      hierBallRecLimit d a q eps inc limit t res = hierBallRec d a q eps inc t res := by
  intro limit
  induction limit with
  | zero => intro t res h; omega
  | succ limit ih =>
    intro t res h
    cases t with
    | leaf s e => rfl
    | node r v l rt =>
      simp only [VPNode.height] at h
      have hl : ∀ res, hierBallRecLimit d a q eps inc limit l res = hierBallRec d a q eps inc l res :=
        fun res => ih l res (by omega)
      have hr : ∀ res, hierBallRecLimit d a q eps inc limit rt res =
        hierBallRec d a q eps inc rt res := fun res => ih rt res (by omega)
      simp only [hierBallRecLimit, hierBallRec, hl, hr]

theorem hierKnnRecLimit_eq (d : T → T → R) (a : VPArray T R) (q : T) (k : ℕ) :
    ∀ (limit : ℕ) (t : VPNode T R) (h : MaxHeap R T), t.height < limit →
      hierKnnRecLimit d a q k limit t h = hierKnnRec d a q k t h := by
  intro limit
  induction limit with
  | zero => intro t res h; omega
  | succ limit ih =>
    intro t h hh
    cases t with
    | leaf s e => rfl
    | node r v l rt =>
      simp only [VPNode.height] at hh
      have hl : ∀ h, hierKnnRecLimit d a q k limit l h = hierKnnRec d a q k l h :=
        fun res => ih l res (by omega)
      have hr : ∀ h, hierKnnRecLimit d a q k limit rt h = hierKnnRec d a q k rt h :=
        fun res => ih rt res (by omega)
      simp only [hierKnnRecLimit, hierKnnRec, hl, hr]

/-- **C77 (searches).** If the interpreter allows `limit` nested calls of the recursive searches,
then on the tree of at most `2 ^ (limit - 1)` points they return what they would without a limit:
they do not raise `RecursionError`. -/
theorem C77_search (d : T → T → R) (ρ : ℕ → ℕ) (p : VPParams R) (hp : 1 ≤ p.leafCapacity)
    (X : List T) (t : VPNode T R) (a : VPArray T R) (h : hierBuild d ρ p X = .ok (t, a))
    (limit : ℕ) (hl : 1 ≤ limit) (hn : X.length ≤ 2 ^ (limit - 1)) (d' : T → T → R) (q : T) :
    (∀ eps inc, hierBallSearchLimit d' limit t a q eps inc = hierBallSearch d' t a q eps inc) ∧
    ∀ k, hierKnnSearchLimit d' limit t a q k = hierKnnSearch d' t a q k := by
  have hh := C77_depth d ρ p hp X t a h
  have hc : Nat.clog 2 X.length ≤ limit - 1 := Nat.clog_le_of_le_pow hn
  refine ⟨fun eps inc => hierBallRecLimit_eq d' a q eps inc limit t [] (by omega), fun k => ?_⟩
  unfold hierKnnSearchLimit hierKnnSearch
  rw [hierKnnRecLimit_eq d' a q k limit t _ (by omega)]

end search

/-- Non-vacuity: ten points need four levels at most. -/
example : ∃ t a, hierBuild absDist (fun n => n) (⟨1, 0, "disabled"⟩ : VPParams ℤ)
    [5, 1, 3, 3, 9, 10, 0, 2, 8, 7] = .ok (t, a) ∧ t.height ≤ 4 := by
  obtain ⟨t, a, e, _⟩ := hierBuild_ok absDist (fun n => n) (⟨1, 0, "disabled"⟩ : VPParams ℤ)
    (le_refl _) [5, 1, 3, 3, 9, 10, 0, 2, 8, 7]
  exact ⟨t, a, e, C77_depth _ _ _ (le_refl _) _ _ _ e⟩

example : ∃ t st, hierBuildRec absDist (fun n => n) (⟨1, 0, "disabled"⟩ : VPParams ℤ) 5 0 10
    ⟨hierInit [5, 1, 3, 3, 9, 10, 0, 2, 8, 7], 0⟩ = .ok (t, st) := by
  obtain ⟨t, st, h, _⟩ := C77_recursion_limit absDist (fun n => n) (⟨1, 0, "disabled"⟩ : VPParams ℤ)
    (le_refl _) [5, 1, 3, 3, 9, 10, 0, 2, 8, 7] (by simp) 5 (by decide) (by decide)
  exact ⟨t, st, h⟩

/-- Non-vacuity: the searches of the tree of ten points nest at most five calls. -/
example : ∃ t a, hierBuild absDist (fun n => n) (⟨1, 0, "disabled"⟩ : VPParams ℤ)
      [5, 1, 3, 3, 9, 10, 0, 2, 8, 7] = .ok (t, a) ∧
    hierBallSearchLimit absDist 5 t a 4 2 true = hierBallSearch absDist t a 4 2 true ∧
    hierKnnSearchLimit absDist 5 t a 4 3 = hierKnnSearch absDist t a 4 3 := by
  obtain ⟨t, a, e, _⟩ := hierBuild_ok absDist (fun n => n) (⟨1, 0, "disabled"⟩ : VPParams ℤ)
    (le_refl _) [5, 1, 3, 3, 9, 10, 0, 2, 8, 7]
  have h := C77_search absDist (fun n => n) (⟨1, 0, "disabled"⟩ : VPParams ℤ) (le_refl _) _ t a e 5
    (by decide) (by decide) absDist 4
  exact ⟨t, a, e, h.1 2 true, h.2 3⟩

/-- With a limit of two nested calls the same search raises. -/
example : ((hierBuild absDist (fun n => n) (⟨1, 0, "disabled"⟩ : VPParams ℤ)
      [5, 1, 3, 3, 9, 10, 0, 2, 8, 7]) >>= fun o =>
        hierBallSearchLimit absDist 2 o.1 o.2 4 2 true) = .error .diverge := by decide +kernel

end Verif
