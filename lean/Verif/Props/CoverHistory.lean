import Verif.Props.Cover

/-!
# C64: what a cover object remembers of earlier calls
-/

set_option autoImplicit false

namespace Verif

section
variable {T R : Type} [AddGroup R] [LinearOrder R]

theorem BallCover.fit_params {c c' : BallCover T R} {ρ : ℕ → ℕ} {X : List T}
    (h : c.fit ρ X = .ok c') : c'.params = c.params := by
  unfold BallCover.fit at h
  cases hb : VPTree.build (enumerate X) (pullback snd c.params.metric) c.params.kind
    ⟨c.params.leafCapacity, numOr c.params.leafRadius c.params.radius, c.params.pivoting⟩ ρ with
  | error e => rw [hb] at h; cases h
  | ok t => rw [hb] at h; cases h; rfl

theorem KnnCover.fit_params {c c' : KnnCover T R} {ρ : ℕ → ℕ} {X : List T}
    (h : c.fit ρ X = .ok c') : c'.params = c.params := by
  unfold KnnCover.fit at h
  cases hb : VPTree.build (enumerate X) (pullback snd c.params.metric) c.params.kind
    ⟨numOr c.params.leafCapacity c.params.neighbors, c.params.leafRadius, c.params.pivoting⟩ ρ with
  | error e => rw [hb] at h; cases h
  | ok t => rw [hb] at h; cases h; rfl

/-- **C64 (BallCover).** After any sequence of successful fits, fitting on `X`
gives the same as fitting a fresh object on `X`; before any fit, `search` raises
`AttributeError`. -/
theorem C64_ball_history (P : BallParams T R) (hist : List ((ℕ → ℕ) × List T))
    (c : BallCover T R) (hc : hist.foldlM (fun c h => c.fit h.1 h.2) (⟨P, none⟩ : BallCover T R) =
      .ok c) (ρ : ℕ → ℕ) (X : List T) :
    c.fit ρ X = (⟨P, none⟩ : BallCover T R).fit ρ X ∧
      ∀ x, (⟨P, none⟩ : BallCover T R).search x = .error .attributeError := by
  refine ⟨?_, fun _ => rfl⟩
  have key : ∀ (hist : List ((ℕ → ℕ) × List T)) (c₀ c : BallCover T R),
      hist.foldlM (fun c h => c.fit h.1 h.2) c₀ = .ok c → c.params = c₀.params := by
    intro hist
    induction hist with
    | nil => intro c₀ c h; cases h; rfl
    | cons a t ih =>
      intro c₀ c h
      rw [List.foldlM_cons] at h
      cases hf : c₀.fit a.1 a.2 with
      | error e => rw [hf] at h; cases h
      | ok c₁ =>
        rw [hf] at h
        rw [ih c₁ c h, BallCover.fit_params hf]
  have := key hist _ c hc
  unfold BallCover.fit
  rw [this]

/-- **C64 (KNNCover).** -/
theorem C64_knn_history (P : KnnParams T R) (hist : List ((ℕ → ℕ) × List T))
    (c : KnnCover T R) (hc : hist.foldlM (fun c h => c.fit h.1 h.2) (⟨P, none⟩ : KnnCover T R) =
      .ok c) (ρ : ℕ → ℕ) (X : List T) :
    c.fit ρ X = (⟨P, none⟩ : KnnCover T R).fit ρ X ∧
      ∀ x, (⟨P, none⟩ : KnnCover T R).search x = .error .attributeError := by
  refine ⟨?_, fun _ => rfl⟩
  have key : ∀ (hist : List ((ℕ → ℕ) × List T)) (c₀ c : KnnCover T R),
      hist.foldlM (fun c h => c.fit h.1 h.2) c₀ = .ok c → c.params = c₀.params := by
    intro hist
    induction hist with
    | nil => intro c₀ c h; cases h; rfl
    | cons a t ih =>
      intro c₀ c h
      rw [List.foldlM_cons] at h
      cases hf : c₀.fit a.1 a.2 with
      | error e => rw [hf] at h; cases h
      | ok c₁ =>
        rw [hf] at h
        rw [ih c₁ c h, KnnCover.fit_params hf]
  have := key hist _ c hc
  unfold KnnCover.fit
  rw [this]

end

/-- Non-vacuity: a history of two fits that succeed. -/
example : ∃ c, List.foldlM (fun (c : BallCover ℤ ℤ) (h : (ℕ → ℕ) × List ℤ) => c.fit h.1 h.2)
    (demoBall 2) [(fun _ => 0, [5, 1]), (fun _ => 1, [])] = .ok c := ⟨_, rfl⟩

section
variable {R : Type} [Field R] [LinearOrder R] [FloorRing R] {m : ℕ}

omit [FloorRing R] in
theorem CubCover.fit_params {dflt : ℕ → R} {c c' : CubCover m R} {ρ : ℕ → ℕ}
    {X : List (Fin m → R)} (h : c.fit dflt ρ X = .ok c') : c'.params = c.params := by
  unfold CubCover.fit at h
  split at h
  · cases h; rfl
  · simp only at h
    split at h
    · cases h
    · cases hb : getBounds c.params.nIntervals X with
      | error e => rw [hb] at h; cases h
      | ok b =>
        rw [hb] at h
        simp only [ok_bind] at h
        cases hr : boxRadius (c.params.overlapFrac.getD (dflt m)) with
        | error e => rw [hr] at h; cases h
        | ok r =>
          rw [hr] at h
          simp only [ok_bind] at h
          generalize hx : BallCover.fit (T := Fin m → R) (R := R) _ ρ X = res at h
          cases res with
          | error e => cases h
          | ok b => cases h; rfl

/-- **C64 (cubical covers, part that holds).** After any sequence of successful
fits, fitting on non-empty `X` gives the same as fitting a fresh object on `X`;
before any fit, `search` raises `AttributeError`. Missing: empty `X`, see
`C64_cubical_stale_violation`. -/
theorem C64_cubical_history_partial (dflt : ℕ → R) (P : CubParams R)
    (hist : List ((ℕ → ℕ) × List (Fin m → R))) (c : CubCover m R)
    (hc : hist.foldlM (fun c h => c.fit dflt h.1 h.2) (⟨P, none⟩ : CubCover m R) = .ok c)
    (ρ : ℕ → ℕ) (X : List (Fin m → R)) (hX : X ≠ []) :
    c.fit dflt ρ X = (⟨P, none⟩ : CubCover m R).fit dflt ρ X ∧
      ∀ x, (⟨P, none⟩ : CubCover m R).search x = .error .attributeError := by
  refine ⟨?_, fun _ => rfl⟩
  have key : ∀ (hist : List ((ℕ → ℕ) × List (Fin m → R))) (c₀ c : CubCover m R),
      hist.foldlM (fun c h => c.fit dflt h.1 h.2) c₀ = .ok c → c.params = c₀.params := by
    intro hist
    induction hist with
    | nil => intro c₀ c h; cases h; rfl
    | cons a t ih =>
      intro c₀ c h
      rw [List.foldlM_cons] at h
      cases hf : c₀.fit dflt a.1 a.2 with
      | error e => rw [hf] at h; cases h
      | ok c₁ =>
        rw [hf] at h
        rw [ih c₁ c h, CubCover.fit_params hf]
  have := key hist _ c hc
  have hlen : X.length ≠ 0 := by simpa using hX
  unfold CubCover.fit
  rw [this, if_neg hlen, if_neg hlen]

end

/-- **C64 (violation).** Fitting a cubical cover on an empty dataset succeeds and
forgets nothing: `search` goes on answering with indices of the previous dataset,
none of which is valid for the empty one. -/
theorem C64_cubical_stale_violation :
    ∃ c₁ c₂ : CubCover 2 ℚ, demoCub.fit (fun _ => 0) (fun _ => 0) [pt2 0 7, pt2 2 7] = .ok c₁ ∧
      c₁.fit (fun _ => 0) (fun _ => 0) [] = .ok c₂ ∧
      ∃ out, c₂.search (pt2 0 7) = .ok out ∧ 0 ∈ out := by
  obtain ⟨lo, hi, hb⟩ := exists_bounds [pt2 0 7, pt2 2 7] (by simp)
  obtain ⟨c', g, b, f, h1, _, _, hf, _, _, hs⟩ := cubFitted (fun _ => 0) demoCub (fun _ => 0)
    [pt2 0 7, pt2 2 7] (by simp) (1 / 3) demoCub_ok
  exact ⟨c', c', h1, rfl, f (pt2 0 7), hf _, hs 0 _ rfl⟩

end Verif
