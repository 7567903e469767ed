import Verif.Proof.CoverState
import Verif.Props.CoverHistory

/-!
# C80: iterating over the charts of a cover. C81: covers whose `fit` raised
-/

set_option autoImplicit false

namespace Verif

theorem proximityLoop_unit {F S : Type} (search : F → S → Py (List ℕ)) (f : F) :
    ∀ (X : List S) (i : ℕ) (cov : List ℕ),
      proximityLoop (fun (_ : Unit) => search f) () i X cov = proximityLoop search f i X cov := by
  intro X
  induction X with
  | nil => intro i cov; rfl
  | cons x X ih => intro i cov; simp only [proximityLoop, ih]

theorem proximityLoop_congr {S : Type} {s s' : S → Py (List ℕ)} (h : ∀ x, s x = s' x) (X : List S) (i : ℕ)
    (cov : List ℕ) : proximityLoop (fun (_ : Unit) => s) () i X cov =
      proximityLoop (fun (_ : Unit) => s') () i X cov := by
  have : s = s' := funext h
  rw [this]

section
variable {T R : Type} [AddCommGroup R] [LinearOrder R]

/-! ### C80 -/

/-- **C80 (laziness).** `apply` does nothing before the first chart is asked for: it does not
raise, whatever the parameters, and a new cover on which only `apply` was called still is not
fitted. -/
theorem C80_lazy (P : BallParams T R) (ρ : ℕ → ℕ) (X : List T) (x : T) :
    (CoverWorld.run ballSearchable ⟨BallObj.new P, []⟩ [.apply ρ X, .search x]).1 =
      [.done (.ok ()), .found (.error .attributeError)] := rfl

/-- **C80 (BallCover, one iteration at a time).** Let `g` be a generator got from
`apply(X)`. From the first `next(g)` on its answers are the charts of `apply(X)` in order, and
`StopIteration` from then on, as long as the cover is not fitted again, neither by `fit`
nor by the first `next` of another generator. Meanwhile parameters may be changed, the cover
searched, and other generators made. Missing: see `C80_interleaved_violation`. -/
theorem C80_ball_partial (w : CoverWorld (BallObj T R) T) (g : ℕ) (ρ : ℕ → ℕ) (X : List T)
    (hg : w.gens[g]? = some (.fresh ρ X)) (charts : List (List ℕ))
    (hc : (⟨w.obj.params, none⟩ : BallCover T R).apply ρ X = .ok charts)
    (ops : List (CoverOp (BallObj T R) T)) (hops : ∀ op ∈ ops, op.Leaves ballSearchable g) :
    Iterates charts (answersOf g (w.run ballSearchable (.next g :: ops)).1) := by
  obtain ⟨c', hf, hl⟩ := bind_eq_ok.mp hc
  obtain ⟨o', h1, _, h3⟩ := ballObj_fit (o := w.obj) rfl hf
  have hl' : proximityLoop (fun (_ : Unit) => o'.search) () 0 X [] = .ok charts := by
    rw [proximityLoop_congr h3, proximityLoop_unit]; exact hl
  obtain ⟨a, b, c⟩ := fresh_left (A := ballSearchable) (rel := Eq) (by rintro a _ rfl i; rfl) h1
    (fun x _ b hb => ⟨b, hb, rfl⟩) hl'
  apply matchAll_eq
  simp only [CoverWorld.run, answersOf_cons, CoverWorld.step, hg, if_true, List.singleton_append]
  refine ⟨a, run_left (s := o'.search) (X := X) ops _ _ charts.tail ?_ ?_ b hops⟩
  · simp only [c]; exact fun _ => rfl
  · have hlt : g < w.gens.length := (List.getElem?_eq_some_iff.mp hg).1
    simp [hlt]

/-- **C80 (KNNCover, one iteration at a time).** -/
theorem C80_knn_partial (w : CoverWorld (KnnObj T R) T) (g : ℕ) (ρ : ℕ → ℕ) (X : List T)
    (hg : w.gens[g]? = some (.fresh ρ X)) (charts : List (List ℕ))
    (hc : (⟨w.obj.params, none⟩ : KnnCover T R).apply ρ X = .ok charts)
    (ops : List (CoverOp (KnnObj T R) T)) (hops : ∀ op ∈ ops, op.Leaves knnSearchable g) :
    Iterates charts (answersOf g (w.run knnSearchable (.next g :: ops)).1) := by
  obtain ⟨c', hf, hl⟩ := bind_eq_ok.mp hc
  obtain ⟨o', h1, _, h3⟩ := knnObj_fit (o := w.obj) rfl hf
  have hl' : proximityLoop (fun (_ : Unit) => o'.search) () 0 X [] = .ok charts := by
    rw [proximityLoop_congr h3, proximityLoop_unit]; exact hl
  obtain ⟨a, b, c⟩ := fresh_left (A := knnSearchable) (rel := Eq) (by rintro a _ rfl i; rfl) h1
    (fun x _ b hb => ⟨b, hb, rfl⟩) hl'
  apply matchAll_eq
  simp only [CoverWorld.run, answersOf_cons, CoverWorld.step, hg, if_true, List.singleton_append]
  refine ⟨a, run_left (s := o'.search) (X := X) ops _ _ charts.tail ?_ ?_ b hops⟩
  · simp only [c]; exact fun _ => rfl
  · have hlt : g < w.gens.length := (List.getElem?_eq_some_iff.mp hg).1
    simp [hlt]

variable [IsOrderedAddMonoid R]

/-- **C80 (BallCover, the same data).** If all generators got from a cover, and all calls to
`fit`, are for the same data, then any number of iterations may be interleaved: the
answers of each generator are the charts of `apply(X)` in order, each up to the order of
its ids. (The order of the ids may differ, as pivots can be random.) Missing: see
`C80_interleaved_violation`. -/
theorem C80_same_data_partial (w : CoverWorld (BallObj T R) T) (H : BallOK w.obj.params) (g : ℕ)
    (X : List T) (ρ₀ : ℕ → ℕ) (hg : ∃ ρ, w.gens[g]? = some (.fresh ρ X))
    (hX : ∀ ρ Y, NetGen.fresh ρ Y ∈ w.gens → Y = X) (charts : List (List ℕ))
    (hc : (⟨w.obj.params, none⟩ : BallCover T R).apply ρ₀ X = .ok charts)
    (ops : List (CoverOp (BallObj T R) T)) (hops : ∀ op ∈ ops, op.Only X) :
    IteratesSame charts (answersOf g (w.run ballSearchable ops).1) := by
  obtain ⟨ρ, hg⟩ := hg
  obtain ⟨c', hf, hl⟩ := bind_eq_ok.mp hc
  rw [← proximityLoop_unit] at hl
  refine matchAll_perm (run_same (s := c'.search) (C := fun o => o.params = w.obj.params)
    ?_ hl ops w _ charts rfl hg (.inl ⟨⟨ρ, rfl⟩, rfl⟩) hX hops)
  intro o ρ' ho
  obtain ⟨d, k1, k2⟩ := ballFit_ok (⟨w.obj.params, none⟩ : BallCover T R) H.metric H.kind H.capacity ρ' X
  obtain ⟨d₀, k1₀, k2₀⟩ := ballFit_ok (⟨w.obj.params, none⟩ : BallCover T R) H.metric H.kind H.capacity ρ₀ X
  rw [hf] at k1₀
  cases k1₀
  obtain ⟨o', h1, h2, h3⟩ := ballObj_fit (o := o) ho k1
  refine ⟨o', h1, h2.trans ho, fun x hx b hb => ?_⟩
  have hne : X ≠ [] := List.ne_nil_of_mem hx
  obtain ⟨a, ha, hla⟩ := k2 hne x
  obtain ⟨a₀, ha₀, hla₀⟩ := k2₀ hne x
  rw [hb] at ha₀
  cases ha₀
  exact ⟨a, (h3 x).trans ha, hla.perm hla₀⟩

end

section
variable {R : Type} [Field R] [LinearOrder R] [FloorRing R] {m : ℕ}

theorem newDelegate_left (dflt : ℕ → R) (w : CubicalWorld m R) (ρ : ℕ → ℕ) (X : List (Fin m → R))
    (charts : List (List ℕ))
    (hc : CubicalCover.apply dflt (⟨w.params, w.algorithm, none⟩ : CubicalCover m R) ρ X = .ok charts) :
    ∃ d gen, w.newDelegate ρ X = .ok (d, gen) ∧ gen.Left dflt d charts := by
  obtain ⟨⟨k, d⟩, hd, hc⟩ := bind_eq_ok.mp hc
  unfold CubicalCover.getDelegate at hd
  unfold CubicalWorld.newDelegate
  split at hd
  · rename_i ha
    have ha : w.algorithm = "proximity" := ha
    rw [if_pos ha]
    cases hd
    refine ⟨_, _, rfl, ?_⟩
    obtain ⟨c', hf, hl⟩ := bind_eq_ok.mp hc
    by_cases hX : X = []
    · subst hX
      cases hl
      exact ⟨_, rfl, rfl⟩
    · obtain ⟨o', h1, _, h3, _⟩ := cubObj_fit (o := ⟨w.params, none, none, none, none⟩) rfl hX hf
      exact ⟨o', h1, by rw [proximityLoop_congr h3, proximityLoop_unit]; exact hl⟩
  · rename_i ha
    have ha : ¬ w.algorithm = "proximity" := ha
    rw [if_neg ha]
    split at hd
    · rename_i ha'
      have ha' : w.algorithm = "standard" := ha'
      rw [if_pos ha']
      cases hd
      refine ⟨_, _, rfl, ?_⟩
      obtain ⟨c', hf, hl⟩ := bind_eq_ok.mp hc
      obtain ⟨lm, hlm, hs⟩ := bind_eq_ok.mp hl
      by_cases hX : X = []
      · subst hX
        cases hlm
        cases hs
        exact ⟨_, _, rfl, rfl, ⟨w.params, none⟩, fun x => rfl, rfl⟩
      · obtain ⟨o', h1, _, h3, h4⟩ := cubObj_fit (o := ⟨w.params, none, none, none, none⟩) rfl hX hf
        exact ⟨o', lm, h1, by rw [landmarks_agree h4]; exact hlm, c', fun x => (h3 x).symm, hs⟩
    · cases hd

/-- **C80 (CubicalCover).** Iterations over the charts of a `CubicalCover` do not interfere
with each other or with anything else: after any history of a new object, the answers of
a generator got from `apply(X)` are the charts of `apply(X)`, for the parameters at the time
of this call, in order, and `StopIteration` from then on, whatever else is done
in between: other iterations, over the same data or others, `fit`, `search`, changes of
parameters. -/
theorem C80_cubical (dflt : ℕ → R) (P : CubParams R) (algorithm : String)
    (past ops : List (CubicalOp m R)) (w : CubicalWorld m R)
    (hw : w = ((CubicalWorld.new P algorithm).run dflt past).2) (ρ : ℕ → ℕ) (X : List (Fin m → R))
    (charts : List (List ℕ))
    (hc : CubicalCover.apply dflt (⟨w.params, w.algorithm, none⟩ : CubicalCover m R) ρ X = .ok charts) :
    (w.step dflt (.apply ρ X)).1 = .done (.ok ()) ∧
      Iterates charts (answersOf w.gens.length (w.run dflt (.apply ρ X :: ops)).1) := by
  obtain ⟨d, gen, h1, h2⟩ := newDelegate_left dflt w ρ X charts hc
  have hs : w.Sound := by
    rw [hw]
    exact cubicalRun_sound dflt past _ ⟨by simp [CubicalWorld.new], by simp [CubicalWorld.new]⟩
  have hs' := cubicalStep_sound dflt hs (.apply ρ X)
  refine ⟨by simp only [CubicalWorld.step, h1], matchAll_eq ?_⟩
  simp only [CubicalWorld.run, answersOf_cons]
  simp only [CubicalWorld.step, h1, List.nil_append] at hs' ⊢
  exact cubicalRun_left dflt ops _ w.delegates.length gen d charts hs' (by simp) (by simp) h2

end

/-- **C80 (parameters).** Changing parameters of a cover does not change the answers of
its searches before the next `fit`. -/
theorem C80_parameters {T R : Type} [AddCommGroup R] [LinearOrder R] (o : BallObj T R) (k : KnnObj T R)
    (P : BallParams T R) (Q : KnnParams T R) (x : T) :
    { o with params := P }.search x = o.search x ∧ { k with params := Q }.search x = k.search x :=
  ⟨rfl, rfl⟩

/-- **C80 (searching a CubicalCover while iterating).** `apply` with a known algorithm replaces
what was fitted: searches raise `AttributeError` until the first chart is asked for, and
from then on answer as a new cover fitted on the data of this call. Changing
parameters does not change this. -/
theorem C80_cubical_search {R : Type} [Field R] [LinearOrder R] [FloorRing R] {m : ℕ} (dflt : ℕ → R)
    (w : CubicalWorld m R) (ρ : ℕ → ℕ) (X : List (Fin m → R)) (hX : X ≠ [])
    (ha : w.algorithm = "proximity" ∨ w.algorithm = "standard") (c : CubCover m R)
    (hc : (⟨w.params, none⟩ : CubCover m R).fit dflt ρ X = .ok c) (P : CubParams R) (a : String)
    (x : Fin m → R) :
    ((w.run dflt [.apply ρ X, .search x, .next w.gens.length, .search x, .setParams P a, .search x]).1.filterMap
      fun | .found r => some r | _ => none) =
      [.error .attributeError, c.search x, c.search x] := by
  obtain ⟨o', h1, _, h3, _⟩ := cubObj_fit (o := ⟨w.params, none, none, none, none⟩) rfl hX hc
  have h0 : CubObj.search ⟨w.params, none, none, none, none⟩ x = .error .attributeError := rfl
  rcases ha with ha | ha
  · simp [CubicalWorld.run, CubicalWorld.step, CubicalWorld.newDelegate, ha, CubGen.next, NetGen.next,
      cubSearchable, h1, h3, h0]
  · simp [CubicalWorld.run, CubicalWorld.step, CubicalWorld.newDelegate, ha, CubGen.next, h1]
    cases o'.landmarks X PyDict.empty <;> simp [h3, h0]

/-- **C80 (violation).** Two iterations over different data, one step each in turn: the first
one stops without having covered all its rows. Row 1 of `[0, 10]` is in no chart, though the
charts of `apply([0, 10])` are `[0]` and `[1]`. -/
theorem C80_interleaved_violation :
    (demoBall 2).apply (fun _ => 0) [0, 10] = .ok [[0], [1]] ∧
    (CoverWorld.run ballSearchable ⟨BallObj.new (demoBall 2).params, []⟩
      [.apply (fun _ => 0) [0, 10], .apply (fun _ => 0) [0], .next 0, .next 1, .next 0, .next 1]).1 =
      [.done (.ok ()), .done (.ok ()), .chart 0 (.ok (some [0])), .chart 1 (.ok (some [0])),
        .chart 0 (.ok none), .chart 1 (.ok none)] := by
  constructor <;> decide +kernel

/-- Non-vacuity of `C80_ball_partial`: in between, the radius is changed, the cover is searched,
and a generator is made. -/
example : Iterates [[0], [1]] (answersOf 0
    (CoverWorld.run ballSearchable ⟨BallObj.new (demoBall 2).params, [.fresh (fun _ => 0) [0, 10]]⟩
      [.next 0, .update (fun o => { o with params := { o.params with radius := 50 } }), .search 3,
        .apply (fun _ => 0) [7], .next 0, .next 0]).1) :=
  C80_ball_partial ⟨BallObj.new (demoBall 2).params, [.fresh (fun _ => 0) [0, 10]]⟩ 0 (fun _ => 0) [0, 10] rfl [[0], [1]] C80_interleaved_violation.1 _ (by
    intro op hop
    simp only [List.mem_cons, List.not_mem_nil, or_false] at hop
    rcases hop with rfl | rfl | rfl | rfl | rfl
    · exact fun o x => rfl
    all_goals trivial)

/-- Non-vacuity of `C80_cubical_search`. -/
example : (((⟨⟨2, some (1 / 4), "flat", 1, none, "disabled"⟩, none⟩ : CubCover 1 ℚ).fit (fun _ => 1 / 4)
    (fun _ => 0) [fun _ => 0, fun _ => 8]).bind fun c => c.search (fun _ => 7)) = .ok [1] := by decide +kernel

/-- Non-vacuity of `C80_same_data_partial`: two interleaved iterations. -/
example : IteratesSame [[0], [1]] (answersOf 0
    (CoverWorld.run ballSearchable ⟨BallObj.new (demoBall 2).params,
      [.fresh (fun _ => 0) [0, 10], .fresh (fun n => n) [0, 10]]⟩
      [.next 0, .next 1, .fit (fun _ => 1) [0, 10], .next 0, .next 1, .next 0]).1) :=
  C80_same_data_partial ⟨BallObj.new (demoBall 2).params,
      [.fresh (fun _ => 0) [0, 10], .fresh (fun n => n) [0, 10]]⟩ (demoBall_ok 2) 0 [0, 10] (fun _ => 0) ⟨_, rfl⟩ (by
      intro ρ Y h
      simp only [List.mem_cons, List.not_mem_nil, or_false] at h
      rcases h with h | h <;> cases h <;> rfl) [[0], [1]] C80_interleaved_violation.1 _ (by
    intro op hop
    simp only [List.mem_cons, List.not_mem_nil, or_false] at hop
    rcases hop with rfl | rfl | rfl | rfl | rfl | rfl <;> trivial)

/-! ### C81 -/

section
variable {T R : Type} [AddCommGroup R] [LinearOrder R]

/-- **C81 (recovery).** Whatever happened to a `BallCover` before, also if calls to `fit` raised:
a call to `fit` that does not raise makes it answer as a new cover with its parameters
fitted on the same data. -/
theorem C81_ball_recovers (o : BallObj T R) (ρ : ℕ → ℕ) (X : List T) (h : (o.fit ρ X).1 = .ok ()) :
    ∃ c', (⟨o.params, none⟩ : BallCover T R).fit ρ X = .ok c' ∧
      ∀ x, (o.fit ρ X).2.search x = c'.search x := by
  cases hc : (⟨o.params, none⟩ : BallCover T R).fit ρ X with
  | error e => rw [ballObj_fit_error (o := o) rfl hc] at h; cases h
  | ok c' =>
    obtain ⟨o', h1, _, h3⟩ := ballObj_fit (o := o) rfl hc
    exact ⟨c', rfl, by rw [h1]; exact h3⟩

/-- **C81 (recovery, KNNCover).** -/
theorem C81_knn_recovers (o : KnnObj T R) (ρ : ℕ → ℕ) (X : List T) (h : (o.fit ρ X).1 = .ok ()) :
    ∃ c', (⟨o.params, none⟩ : KnnCover T R).fit ρ X = .ok c' ∧
      ∀ x, (o.fit ρ X).2.search x = c'.search x := by
  cases hc : (⟨o.params, none⟩ : KnnCover T R).fit ρ X with
  | error e => rw [knnObj_fit_error (o := o) rfl hc] at h; cases h
  | ok c' =>
    obtain ⟨o', h1, _, h3⟩ := knnObj_fit (o := o) rfl hc
    exact ⟨c', rfl, by rw [h1]; exact h3⟩

/-- **C81 (BallCover, part that holds).** If `fit` raises and the radius is that of the last call to
`fit`, searches answer as before. If there was no call to `fit` that did not raise, they
raise `AttributeError`. Missing: changed radius, see `C81_ball_violation`. -/
theorem C81_ball_partial (o : BallObj T R) (ρ : ℕ → ℕ) (X : List T) (e : PyErr)
    (h : (o.fit ρ X).1 = .error e) :
    (o.radius = some o.params.radius → ∀ x, (o.fit ρ X).2.search x = o.search x) ∧
      (o.vptree = none → ∀ x, (o.fit ρ X).2.search x = .error .attributeError) := by
  cases hc : (⟨o.params, none⟩ : BallCover T R).fit ρ X with
  | error e' =>
    rw [ballObj_fit_error (o := o) rfl hc]
    refine ⟨fun hr x => ?_, fun hv x => ?_⟩
    · unfold BallObj.search; rw [hr]
    · simp [BallObj.search, hv]
  | ok c' =>
    obtain ⟨o', h1, _, h3⟩ := ballObj_fit (o := o) rfl hc
    rw [h1] at h; cases h

/-- **C81 (KNNCover, part that holds).** -/
theorem C81_knn_partial (o : KnnObj T R) (ρ : ℕ → ℕ) (X : List T) (e : PyErr)
    (h : (o.fit ρ X).1 = .error e) :
    (o.neighbors = some o.params.neighbors → ∀ x, (o.fit ρ X).2.search x = o.search x) ∧
      (o.vptree = none → ∀ x, (o.fit ρ X).2.search x = .error .attributeError) := by
  cases hc : (⟨o.params, none⟩ : KnnCover T R).fit ρ X with
  | error e' =>
    rw [knnObj_fit_error (o := o) rfl hc]
    refine ⟨fun hr x => ?_, fun hv x => ?_⟩
    · unfold KnnObj.search; rw [hr]
    · simp [KnnObj.search, hv]
  | ok c' =>
    obtain ⟨o', h1, _, h3⟩ := knnObj_fit (o := o) rfl hc
    rw [h1] at h; cases h

end

section
variable {R : Type} [Field R] [LinearOrder R] [FloorRing R] {m : ℕ}

/-- The ways in which `fit` of a cubical cover raises, with the state left. -/
theorem cubObj_fit_error {dflt : ℕ → R} {o : CubObj m R} {ρ : ℕ → ℕ} {X : List (Fin m → R)} {e : PyErr}
    (h : (o.fit dflt ρ X).1 = .error e) :
    o.params.overlapFrac.getD (dflt m) ≤ 0 ∧ (o.fit dflt ρ X).2 = { o with
        overlapFrac := some (o.params.overlapFrac.getD (dflt m)),
        nIntervals := some o.params.nIntervals } ∨
    2 - 2 * o.params.overlapFrac.getD (dflt m) = 0 ∧ (o.fit dflt ρ X).2.cover = o.cover ∨
    ∃ r, (o.fit dflt ρ X).2.cover = some (r, none) := by
  unfold CubObj.fit at h ⊢
  split at h
  · cases h
  · rename_i hl
    simp only [if_neg hl] at h ⊢
    by_cases hp : o.params.overlapFrac.getD (dflt m) ≤ 0
    · simp only [if_pos hp]
      exact .inl ⟨hp, trivial⟩
    · simp only [if_neg hp] at h ⊢
      right
      cases hb : getBounds o.params.nIntervals X with
      | error e' =>
        exfalso
        cases X with
        | nil => exact hl rfl
        | cons x xs => cases hb
      | ok b =>
        simp only [hb] at h ⊢
        cases hr : boxRadius (o.params.overlapFrac.getD (dflt m)) with
        | error e' =>
          refine .inl ⟨?_, rfl⟩
          unfold boxRadius at hr
          split at hr
          · assumption
          · cases hr
        | ok radius =>
          simp only [hr] at h ⊢
          split at h
          · rename_i hb
            right
            exact ⟨radius, by simp only⟩
          · cases h

omit [FloorRing R] in
theorem cubObj_search_none [FloorRing R] {o : CubObj m R} (h : ∀ r t, o.cover ≠ some (r, some t))
    (x : Fin m → R) : o.search x = .error .attributeError := by
  unfold CubObj.search
  cases o.grid with
  | none => rfl
  | some g =>
    cases hc : o.cover with
    | none => rfl
    | some rt =>
      obtain ⟨r, _ | t⟩ := rt
      · rfl
      · exact absurd hc (h r t)

/-- **C81 (recovery, cubical covers).** -/
theorem C81_cubical_recovers (dflt : ℕ → R) (o : CubObj m R) (ρ : ℕ → ℕ) (X : List (Fin m → R)) (hX : X ≠ [])
    (c' : CubCover m R) (hc : (⟨o.params, none⟩ : CubCover m R).fit dflt ρ X = .ok c') :
    (o.fit dflt ρ X).1 = .ok () ∧ ∀ x, (o.fit dflt ρ X).2.search x = c'.search x := by
  obtain ⟨o', h1, _, h3, _⟩ := cubObj_fit (o := o) rfl hX hc
  rw [h1]
  exact ⟨rfl, h3⟩

/-- **C81 (cubical covers, part that holds).** Let `fit` of a `ProximityCubicalCover` or
`StandardCubicalCover` raise. If no call to `fit` got as far as a tree before, searches
raise `AttributeError`. If `overlap_frac` was at most 0, and `n_intervals` is that of the last call to
`fit`, searches answer as before. If `overlap_frac` was positive and not 1, so that
it was the tree which could not be made, searches raise `AttributeError`.
Missing: changed `n_intervals`, and `overlap_frac` equal to 1, see
`C81_cubical_violation`. -/
theorem C81_cubical_partial [IsStrictOrderedRing R] (dflt : ℕ → R) (o : CubObj m R) (ρ : ℕ → ℕ)
    (X : List (Fin m → R)) (e : PyErr) (h : (o.fit dflt ρ X).1 = .error e) :
    (o.cover = none → ∀ x, (o.fit dflt ρ X).2.search x = .error .attributeError) ∧
      (o.params.overlapFrac.getD (dflt m) ≤ 0 → o.nIntervals = some o.params.nIntervals →
        o.overlapFrac ≠ none → ∀ x, (o.fit dflt ρ X).2.search x = o.search x) ∧
      (0 < o.params.overlapFrac.getD (dflt m) → o.params.overlapFrac.getD (dflt m) ≠ 1 →
        ∀ x, (o.fit dflt ρ X).2.search x = .error .attributeError) := by
  have hchar : ∀ p : R, 2 - 2 * p = 0 → p = 1 := by
    intro p hp
    linarith
  refine ⟨fun hn => cubObj_search_none ?_, fun hp hn ho x => ?_, fun hp h1 => cubObj_search_none ?_⟩
  · rcases cubObj_fit_error h with ⟨_, h'⟩ | ⟨_, h'⟩ | ⟨r, h'⟩ <;> simp [h', hn]
  · have hX : ¬ X.length = 0 := by
      intro hX
      unfold CubObj.fit at h
      rw [if_pos hX] at h
      cases h
    have h' : (o.fit dflt ρ X).2 = { o with
        overlapFrac := some (o.params.overlapFrac.getD (dflt m)),
        nIntervals := some o.params.nIntervals } := by
      unfold CubObj.fit
      rw [if_neg hX, if_pos hp]
    rw [h', ← hn]
    obtain ⟨p, hp'⟩ := Option.ne_none_iff_exists'.mp ho
    obtain ⟨P, of, ni, b, c⟩ := o
    simp only at hp' hn ⊢
    subst hp' hn
    unfold CubObj.search CubObj.grid
    cases b <;> rfl
  · rcases cubObj_fit_error h with ⟨h', _⟩ | ⟨h', _⟩ | ⟨r, h'⟩
    · exact absurd hp (not_lt.mpr h')
    · exact absurd (hchar _ h') h1
    · simp [h']

/-- **C81 (CubicalCover).** Let `fit` of a `CubicalCover` raise. If its algorithm is unknown,
nothing has changed: searches answer as before. Otherwise all searches raise
`AttributeError`, also if it was fitted before. So they never answer from a half-made
state. -/
theorem C81_wrapper (dflt : ℕ → R) (w : CubicalWorld m R) (ρ : ℕ → ℕ) (X : List (Fin m → R)) (e : PyErr)
    (h : (w.step dflt (.fit ρ X)).1 = .done (.error e)) (x : Fin m → R) :
    ((w.step dflt (.fit ρ X)).2.step dflt (.search x)).1 =
      if w.algorithm = "proximity" ∨ w.algorithm = "standard" then .found (.error .attributeError)
      else (w.step dflt (.search x)).1 := by
  have key : ∀ d : CubObj m R, d = ⟨w.params, none, none, none, none⟩ →
      (d.fit dflt ρ X).1 = .error e → (d.fit dflt ρ X).2.search x = .error .attributeError := by
    rintro d rfl hd
    apply cubObj_search_none
    rcases cubObj_fit_error hd with ⟨_, h'⟩ | ⟨_, h'⟩ | ⟨r, h'⟩ <;> simp [h']
  by_cases h1 : w.algorithm = "proximity"
  · simp only [CubicalWorld.step, CubicalWorld.newDelegate, h1, if_true] at h ⊢
    simp only [CoverReply.done.injEq] at h
    simp [key _ rfl h]
  · by_cases h2 : w.algorithm = "standard"
    · simp only [CubicalWorld.step, CubicalWorld.newDelegate, h2, if_true] at h ⊢
      simp at h ⊢
      rw [key _ rfl h]
    · simp [CubicalWorld.step, CubicalWorld.newDelegate, h1, h2]

/-- **C81 (CubicalCover, unknown algorithm).** With an unknown algorithm, `fit` and `apply` raise
`ValueError` whatever the data and parameters, and leave the cover and the generators of earlier
calls to `apply` as they are. -/
theorem C81_wrapper_unknown (dflt : ℕ → R) (w : CubicalWorld m R)
    (h : w.algorithm ≠ "proximity" ∧ w.algorithm ≠ "standard") (ρ : ℕ → ℕ) (X : List (Fin m → R)) :
    w.step dflt (.fit ρ X) = (.done (.error .valueError), w) ∧
      w.step dflt (.apply ρ X) = (.done (.error .valueError), w) := by
  constructor <;> simp [CubicalWorld.step, CubicalWorld.newDelegate, h.1, h.2]

/-- Non-vacuity: a misspelt algorithm. -/
example : (⟨⟨2, some (1 / 4), "flat", 1, none, "disabled"⟩, "Standard", [], none, []⟩ :
    CubicalWorld 1 ℚ).step (fun _ => 1 / 4) (.apply (fun _ => 0) [fun _ => 0, fun _ => 1]) =
      (.done (.error .valueError),
        ⟨⟨2, some (1 / 4), "flat", 1, none, "disabled"⟩, "Standard", [], none, []⟩) :=
  (C81_wrapper_unknown (fun _ => 1 / 4) _ (by decide) _ _).2

end

/-- A `BallCover` with radius 2 fitted on `[0, 5, 10]`. -/
def fittedBall : BallObj ℤ ℤ := ((BallObj.new (demoBall 2).params).fit (fun _ => 0) [0, 5, 10]).2

/-- The same after `set_params(radius=6, kind="x")`. -/
def changedBall : BallObj ℤ ℤ :=
  { fittedBall with params := { fittedBall.params with radius := 6, kind := "x" } }

/-- **C81 (violation, BallCover).** `fit` raises `ValueError` as the kind is unknown, and
from then on searches of the old data use the new radius. -/
theorem C81_ball_violation :
    changedBall.search 0 = .ok [0] ∧ (changedBall.fit (fun _ => 0) [7]).1 = .error .valueError ∧
      (changedBall.fit (fun _ => 0) [7]).2.search 0 = .ok [0, 1] := by
  refine ⟨?_, ?_, ?_⟩ <;> decide +kernel

/-- A `ProximityCubicalCover` with 2 intervals fitted on `0, …, 8`. -/
def fittedCub : CubObj 1 ℚ :=
  ((CubObj.new ⟨2, some (1 / 4), "flat", 1, none, "disabled"⟩).fit (fun _ => 1 / 4) (fun _ => 0)
    ((List.range 9).map fun (k : ℕ) => (fun _ => (k : ℚ)))).2

/-- **C81 (violation, cubical covers).** After `set_params(n_intervals=8, overlap_frac=0)`, `fit`
raises `ValueError`, and searches of the old data use the new number of intervals. After
`set_params(overlap_frac=1)`, `fit` on the rows `0, 100` raises `ZeroDivisionError`, and
searches of the old data use the new bounds. -/
theorem C81_cubical_violation :
    fittedCub.search (fun _ => 1) = .ok [0, 1, 2, 3, 4] ∧
    (let o := { fittedCub with params := { fittedCub.params with nIntervals := 8, overlapFrac := some 0 } }
     (o.fit (fun _ => 1 / 4) (fun _ => 0) [fun _ => 1]).1 = .error .valueError ∧
     (o.fit (fun _ => 1 / 4) (fun _ => 0) [fun _ => 1]).2.search (fun _ => 1) = .ok [1, 2]) ∧
    (let o := { fittedCub with params := { fittedCub.params with overlapFrac := some 1 } }
     (o.fit (fun _ => 1 / 4) (fun _ => 0) [fun _ => 0, fun _ => 100]).1 = .error .zeroDivisionError ∧
     (o.fit (fun _ => 1 / 4) (fun _ => 0) [fun _ => 0, fun _ => 100]).2.search (fun _ => 1) =
       .ok [0, 1, 2, 3, 4, 5, 6, 7, 8]) := by
  refine ⟨?_, ⟨?_, ?_⟩, ?_, ?_⟩ <;> decide +kernel

/-- Non-vacuity of `C81_ball_recovers`: a fit that succeeds after one that raised. -/
example : ({ (changedBall.fit (fun _ => 0) [7]).2 with params := (demoBall 2).params }.fit
    (fun _ => 0) [7, 8]).1 = .ok () := by decide +kernel

/-- Non-vacuity of `C81_ball_partial`: the radius is that of the last `fit`. -/
example : ∀ x, ({ fittedBall with params := { fittedBall.params with kind := "x" } }.fit
    (fun _ => 0) [7]).2.search x = fittedBall.search x :=
  (C81_ball_partial { fittedBall with params := { fittedBall.params with kind := "x" } } (fun _ => 0) [7]
    .valueError (by decide +kernel)).1 (by decide +kernel)

/-- Non-vacuity of `C81_cubical_partial`: the number of intervals is that of the last `fit`. -/
example : ∀ x, ({ fittedCub with params := { fittedCub.params with overlapFrac := some (-1) } }.fit
    (fun _ => 1 / 4) (fun _ => 0) [fun _ => 1]).2.search x = fittedCub.search x :=
  (C81_cubical_partial (fun _ => 1 / 4)
    { fittedCub with params := { fittedCub.params with overlapFrac := some (-1) } } (fun _ => 0)
    [fun _ => 1] .valueError (by decide +kernel)).2.1 (by decide +kernel) (by decide +kernel)
    (by decide +kernel)

/-- Non-vacuity of `C81_wrapper`: a cover that was fitted, then refitted with an unknown kind. -/
example : ((CubicalWorld.new (m := 1) (R := ℚ) ⟨2, some (1 / 4), "flat", 1, none, "disabled"⟩ "standard").run
    (fun _ => 1 / 4)
    [.fit (fun _ => 0) [fun _ => 0, fun _ => 8], .search (fun _ => 0),
      .setParams ⟨2, some (1 / 4), "x", 1, none, "disabled"⟩ "standard",
      .fit (fun _ => 0) [fun _ => 0, fun _ => 8], .search (fun _ => 0)]).1 =
    [.done (.ok ()), .found (.ok [0]), .done (.ok ()), .done (.error .valueError),
      .found (.error .attributeError)] := by decide +kernel

/-- Non-vacuity of `C80_cubical`: two interleaved iterations over different data, with a change
of parameters in between. -/
example : ((CubicalWorld.new (m := 1) (R := ℚ) ⟨2, some (1 / 4), "flat", 1, none, "disabled"⟩ "proximity").run
    (fun _ => 1 / 4)
    [.apply (fun _ => 0) [fun _ => 0, fun _ => 8], .apply (fun _ => 0) [fun _ => 3],
      .next 0, .next 1, .setParams ⟨1, some (1 / 4), "flat", 1, none, "disabled"⟩ "standard",
      .fit (fun _ => 0) [fun _ => 0, fun _ => 8], .next 0, .next 1, .next 0]).1 =
    [.done (.ok ()), .done (.ok ()), .chart 0 (.ok (some [0])), .chart 1 (.ok (some [0])),
      .done (.ok ()), .done (.ok ()), .chart 0 (.ok (some [1])), .chart 1 (.ok none),
      .chart 0 (.ok none)] := by decide +kernel

end Verif
