import Verif.Spec.CoverState
import Verif.Proof.Cover

/-!
# Lemmas on generators of charts and mutable covers
-/

set_option autoImplicit false

namespace Verif
variable {O T : Type}

/-! ### Generators of `proximity_net` -/

/-- What is left of a started generator: the charts `cs`, up to `rel`, as long as the
searches answer as `s`. -/
def NetGen.Left (s : T → Py (List ℕ)) (X : List T) (gen : NetGen T) (cs : List (List ℕ)) : Prop :=
  gen = .finished ∧ cs = [] ∨
    ∃ i rest covered covered', gen = .running i rest covered ∧
      (∀ j, j ∈ covered ↔ j ∈ covered') ∧ (∀ x ∈ rest, x ∈ X) ∧
      proximityLoop (fun (_ : Unit) => s) () i rest covered' = .ok cs

/-- The object answers searches as `s`, up to `rel`. -/
def Searchable.Good (A : Searchable O T) (rel : List ℕ → List ℕ → Prop) (s : T → Py (List ℕ))
    (X : List T) (o : O) : Prop :=
  ∀ x ∈ X, ∀ b, s x = .ok b → ∃ a, A.search o x = .ok a ∧ rel a b

/-- An answer matches the head of a list of charts. -/
def Matches (rel : List ℕ → List ℕ → Prop) (r : Py (Option (List ℕ))) (cs : List (List ℕ)) : Prop :=
  (∃ a c, r = .ok (some a) ∧ cs.head? = some c ∧ rel a c) ∨ r = .ok none ∧ cs.head? = none

theorem netLoop_left {A : Searchable O T} {rel : List ℕ → List ℕ → Prop} {s : T → Py (List ℕ)}
    {X : List T} {o : O} (hrel : ∀ a b, rel a b → ∀ i, i ∈ a ↔ i ∈ b) (ho : A.Good rel s X o) :
    ∀ (rest : List T) (i : ℕ) (covered covered' : List ℕ) (cs : List (List ℕ)),
      (∀ j, j ∈ covered ↔ j ∈ covered') → (∀ x ∈ rest, x ∈ X) →
      proximityLoop (fun (_ : Unit) => s) () i rest covered' = .ok cs →
      Matches rel (netLoop A o i rest covered).1 cs ∧
        (netLoop A o i rest covered).2.Left s X cs.tail := by
  intro rest
  induction rest with
  | nil =>
    intro i covered covered' cs _ _ h
    rw [proximityLoop] at h
    cases h
    exact ⟨.inr ⟨rfl, rfl⟩, .inl ⟨rfl, rfl⟩⟩
  | cons x rest ih =>
    intro i covered covered' cs hc hX h
    rw [proximityLoop] at h
    rw [netLoop]
    have hrest : ∀ x ∈ rest, x ∈ X := fun y hy => hX y (List.mem_cons_of_mem _ hy)
    by_cases hi : i ∈ covered'
    · rw [if_pos hi] at h
      rw [if_pos ((hc i).mpr hi)]
      exact ih _ _ _ _ hc hrest h
    · rw [if_neg hi] at h
      rw [if_neg fun k => hi ((hc i).mp k)]
      obtain ⟨b, hb, h⟩ := bind_eq_ok.mp h
      obtain ⟨out, hout, h⟩ := bind_eq_ok.mp h
      obtain ⟨a, ha, hab⟩ := ho x (hX x List.mem_cons_self) b hb
      have hm := hrel a b hab
      have hcov : ∀ j, j ∈ covered ++ a ↔ j ∈ covered' ++ b := by
        intro j; simp only [List.mem_append, hc j, hm j]
      simp only [ha]
      by_cases hn : b = []
      · have ha0 : a = [] := List.eq_nil_iff_forall_not_mem.mpr fun j hj => by
          have := (hm j).mp hj
          rw [hn] at this
          cases this
        rw [if_pos hn] at h
        cases h
        rw [if_pos ha0]
        exact ih _ _ _ _ hcov hrest hout
      · have ha0 : a ≠ [] := by
          intro ha0
          obtain ⟨j, hj⟩ := List.exists_mem_of_ne_nil _ hn
          have := (hm j).mpr hj
          rw [ha0] at this
          cases this
        rw [if_neg hn] at h
        cases h
        rw [if_neg ha0]
        exact ⟨.inl ⟨a, b, rfl, rfl, hab⟩, .inr ⟨_, _, _, _, rfl, hcov, hrest, hout⟩⟩

theorem next_left {A : Searchable O T} {rel : List ℕ → List ℕ → Prop} {s : T → Py (List ℕ)}
    {X : List T} {o : O} (hrel : ∀ a b, rel a b → ∀ i, i ∈ a ↔ i ∈ b) (ho : A.Good rel s X o)
    {gen : NetGen T} {cs : List (List ℕ)} (h : gen.Left s X cs) :
    Matches rel (gen.next A o).1 cs ∧ (gen.next A o).2.1.Left s X cs.tail ∧ (gen.next A o).2.2 = o := by
  rcases h with ⟨rfl, rfl⟩ | ⟨i, rest, covered, covered', rfl, h1, h2, h3⟩
  · exact ⟨.inr ⟨rfl, rfl⟩, .inl ⟨rfl, rfl⟩, rfl⟩
  · obtain ⟨a, b⟩ := netLoop_left hrel ho rest i covered covered' cs h1 h2 h3
    exact ⟨a, b, rfl⟩

theorem fresh_left {A : Searchable O T} {rel : List ℕ → List ℕ → Prop} {s : T → Py (List ℕ)}
    {X : List T} {o o' : O} (hrel : ∀ a b, rel a b → ∀ i, i ∈ a ↔ i ∈ b) {ρ : ℕ → ℕ}
    (hf : A.fit o ρ X = (.ok (), o')) (ho : A.Good rel s X o') {cs : List (List ℕ)}
    (h : proximityLoop (fun (_ : Unit) => s) () 0 X [] = .ok cs) :
    Matches rel ((NetGen.fresh ρ X).next A o).1 cs ∧
      ((NetGen.fresh ρ X).next A o).2.1.Left s X cs.tail ∧
      ((NetGen.fresh ρ X).next A o).2.2 = o' := by
  rw [NetGen.next, hf]
  obtain ⟨a, b⟩ := netLoop_left hrel ho X 0 [] [] cs (fun _ => Iff.rfl) (fun _ h => h) h
  exact ⟨a, b, rfl⟩

theorem answersOf_cons (g : ℕ) (r : CoverReply) (rs : List CoverReply) :
    answersOf g (r :: rs) = (match r with
      | .chart k a => if k = g then [a] else []
      | _ => []) ++ answersOf g rs := by
  unfold answersOf
  rw [List.filterMap_cons]
  cases r with
  | chart k a => by_cases h : k = g <;> simp [h]
  | _ => simp

/-- The answers match the charts one by one. -/
def MatchAll (rel : List ℕ → List ℕ → Prop) : List (Py (Option (List ℕ))) → List (List ℕ) → Prop
  | [], _ => True
  | a :: as, cs => Matches rel a cs ∧ MatchAll rel as cs.tail

theorem matchAll_get {rel : List ℕ → List ℕ → Prop} :
    ∀ (as : List (Py (Option (List ℕ)))) (cs : List (List ℕ)), MatchAll rel as cs →
      ∀ k, k < as.length → (∃ a c, as[k]? = some (.ok (some a)) ∧ cs[k]? = some c ∧ rel a c) ∨
        as[k]? = some (.ok none) ∧ cs[k]? = none := by
  intro as
  induction as with
  | nil => intro cs _ k hk; cases hk
  | cons a as ih =>
    rintro cs ⟨h1, h2⟩ k hk
    cases k with
    | zero =>
      rcases h1 with ⟨b, c, rfl, h, hr⟩ | ⟨rfl, h⟩
      · exact .inl ⟨b, c, rfl, by rw [← List.head?_eq_getElem?]; exact h, hr⟩
      · exact .inr ⟨rfl, by rw [← List.head?_eq_getElem?]; exact h⟩
    | succ k =>
      have := ih cs.tail h2 k (by simpa using hk)
      simpa [List.getElem?_tail] using this

theorem matchAll_eq {as : List (Py (Option (List ℕ)))} {cs : List (List ℕ)}
    (h : MatchAll Eq as cs) : Iterates cs as := by
  intro k hk
  rcases matchAll_get as cs h k hk with ⟨a, c, h1, h2, rfl⟩ | ⟨h1, h2⟩
  · rw [h1, h2]
  · rw [h1, h2]

theorem matchAll_perm {as : List (Py (Option (List ℕ)))} {cs : List (List ℕ)}
    (h : MatchAll List.Perm as cs) : IteratesSame cs as := matchAll_get as cs h

/-- A started generator while nothing else refits the object. -/
theorem run_left {A : Searchable O T} {s : T → Py (List ℕ)} {X : List T} {g : ℕ} :
    ∀ (ops : List (CoverOp O T)) (w : CoverWorld O T) (gen : NetGen T) (cs : List (List ℕ)),
      (∀ x, A.search w.obj x = s x) → w.gens[g]? = some gen → gen.Left s X cs →
      (∀ op ∈ ops, op.Leaves A g) → MatchAll Eq (answersOf g (w.run A ops).1) cs := by
  intro ops
  induction ops with
  | nil => intro w gen cs _ _ _ _; trivial
  | cons op ops ih =>
    intro w gen cs ho hg hl hops
    have hop := hops op List.mem_cons_self
    have hops' : ∀ op ∈ ops, op.Leaves A g := fun op h => hops op (List.mem_cons_of_mem _ h)
    have hlt : g < w.gens.length := (List.getElem?_eq_some_iff.mp hg).1
    simp only [CoverWorld.run]
    rw [answersOf_cons]
    cases op with
    | fit ρ Y => cases hop
    | search x => exact ih _ gen cs ho hg hl hops'
    | update f =>
      refine ih _ gen cs (fun x => ?_) hg hl hops'
      exact (hop w.obj x).trans (ho x)
    | apply ρ Y =>
      refine ih _ gen cs ho ?_ hl hops'
      simp only [CoverWorld.step]
      rw [List.getElem?_append_left hlt]
      exact hg
    | next k =>
      have e : k = g := hop
      subst e
      obtain ⟨h1, h2, h3⟩ := next_left (A := A) (rel := Eq) (o := w.obj) (by rintro a _ rfl _; rfl)
        (fun x _ b hb => ⟨b, (ho x).trans hb, rfl⟩) hl
      simp only [CoverWorld.step, hg, if_true, List.singleton_append]
      refine ⟨h1, ih _ _ cs.tail ?_ ?_ h2 hops'⟩
      · simpa only [h3] using ho
      · simp [hlt]

/-- All generators over the same data. -/
theorem run_same {A : Searchable O T} {s : T → Py (List ℕ)} {X : List T} {g : ℕ}
    {C : O → Prop} {cs₀ : List (List ℕ)}
    (hfit : ∀ o ρ, C o → ∃ o', A.fit o ρ X = (.ok (), o') ∧ C o' ∧ A.Good List.Perm s X o')
    (hcs : proximityLoop (fun (_ : Unit) => s) () 0 X [] = .ok cs₀) :
    ∀ (ops : List (CoverOp O T)) (w : CoverWorld O T) (gen : NetGen T) (cs : List (List ℕ)),
      C w.obj → w.gens[g]? = some gen →
      ((∃ ρ, gen = .fresh ρ X) ∧ cs = cs₀ ∨ A.Good List.Perm s X w.obj ∧ gen.Left s X cs) →
      (∀ ρ Y, NetGen.fresh ρ Y ∈ w.gens → Y = X) →
      (∀ op ∈ ops, op.Only X) → MatchAll List.Perm (answersOf g (w.run A ops).1) cs := by
  have hperm : ∀ a b : List ℕ, a.Perm b → ∀ i, i ∈ a ↔ i ∈ b := fun a b h i => h.mem_iff
  intro ops
  induction ops with
  | nil => intro w gen cs _ _ _ _ _; trivial
  | cons op ops ih =>
    intro w gen cs hC hg hl hX hops
    have hop := hops op List.mem_cons_self
    have hops' : ∀ op ∈ ops, op.Only X := fun op h => hops op (List.mem_cons_of_mem _ h)
    have hlt : g < w.gens.length := (List.getElem?_eq_some_iff.mp hg).1
    simp only [CoverWorld.run]
    rw [answersOf_cons]
    cases op with
    | fit ρ Y =>
      have e : Y = X := hop
      subst e
      obtain ⟨o', h1, h2, h3⟩ := hfit w.obj ρ hC
      simp only [CoverWorld.step, h1, List.nil_append]
      exact ih _ gen cs h2 hg (hl.imp id fun h => ⟨h3, h.2⟩) hX hops'
    | search x => exact ih _ gen cs hC hg hl hX hops'
    | update f => cases hop
    | apply ρ Y =>
      have e : Y = X := hop
      subst e
      refine ih _ gen cs hC ?_ hl ?_ hops'
      · simp only [CoverWorld.step]
        rw [List.getElem?_append_left hlt]
        exact hg
      · intro ρ' Y' h
        simp only [CoverWorld.step, List.mem_append, List.mem_singleton] at h
        rcases h with h | h
        · exact hX ρ' Y' h
        · cases h; rfl
    | next k =>
      simp only [CoverWorld.step]
      cases hk : w.gens[k]? with
      | none =>
        simp only [List.nil_append]
        exact ih _ gen cs hC hg hl hX hops'
      | some gen' =>
        have hklt : k < w.gens.length := (List.getElem?_eq_some_iff.mp hk).1
        -- after the step: the object is in the class and fit for searches, unless nothing ran
        have key : ∀ gen', w.gens[k]? = some gen' →
            C (gen'.next A w.obj).2.2 ∧
            (A.Good List.Perm s X w.obj → A.Good List.Perm s X (gen'.next A w.obj).2.2) ∧
            ∀ ρ Y, (gen'.next A w.obj).2.1 = .fresh ρ Y → False := by
          intro gen' hk
          have nofresh : ∀ (rest : List T) (i : ℕ) (cov : List ℕ) (o : O) ρ Y,
              (netLoop A o i rest cov).2 = .fresh ρ Y → False := by
            intro rest
            induction rest with
            | nil => intro i cov o ρ Y h; rw [netLoop] at h; cases h
            | cons x rest ih =>
              intro i cov o ρ Y h
              rw [netLoop] at h
              split at h
              · exact ih _ _ _ _ _ h
              · split at h
                · cases h
                · split at h
                  · exact ih _ _ _ _ _ h
                  · cases h
          cases gen' with
          | fresh ρ Y =>
            have : Y = X := hX ρ Y (List.mem_of_getElem? hk)
            subst this
            obtain ⟨o', h1, h2, h3⟩ := hfit w.obj ρ hC
            rw [NetGen.next, h1]
            exact ⟨h2, fun _ => h3, fun ρ Y h => nofresh _ _ _ _ _ _ h⟩
          | running i rest cov => exact ⟨hC, fun h => h, fun ρ Y h => nofresh _ _ _ _ _ _ h⟩
          | finished => exact ⟨hC, fun h => h, fun ρ Y h => by cases h⟩
        obtain ⟨k1, k2, k3⟩ := key gen' hk
        have hX' : ∀ ρ Y, NetGen.fresh ρ Y ∈ w.gens.set k (gen'.next A w.obj).2.1 → Y = X := by
          intro ρ Y h
          rcases List.mem_or_eq_of_mem_set h with h | h
          · exact hX ρ Y h
          · exact (k3 ρ Y h.symm).elim
        by_cases e : k = g
        · subst e
          rw [hg] at hk
          cases hk
          simp only [if_true, List.singleton_append]
          have hnext : Matches List.Perm (gen.next A w.obj).1 cs ∧
              A.Good List.Perm s X (gen.next A w.obj).2.2 ∧ (gen.next A w.obj).2.1.Left s X cs.tail := by
            rcases hl with ⟨⟨ρ, rfl⟩, rfl⟩ | ⟨h1, h2⟩
            · obtain ⟨o', f1, f2, f3⟩ := hfit w.obj ρ hC
              obtain ⟨a, b, c⟩ := fresh_left hperm f1 f3 hcs
              exact ⟨a, by rw [c]; exact f3, b⟩
            · obtain ⟨a, b, c⟩ := next_left (A := A) hperm h1 h2
              exact ⟨a, by rw [c]; exact h1, b⟩
          exact ⟨hnext.1, ih _ _ cs.tail k1 (by simp [hlt]) (.inr hnext.2) hX' hops'⟩
        · simp only [if_neg e, List.nil_append]
          refine ih _ gen cs k1 ?_ (hl.imp id fun h => ⟨k2 h.1, h.2⟩) hX' hops'
          simp only
          rw [List.getElem?_set_ne e]
          exact hg

/-! ### Objects and values -/

section Ball
set_option linter.unusedSectionVars false
variable {R : Type} [LE R] [LT R] [DecidableLE R] [DecidableLT R] [DecidableEq R] [Zero R] [Neg R]
  [Sub R]

theorem ballObj_fit {c c' : BallCover T R} {o : BallObj T R} (hp : o.params = c.params)
    {ρ : ℕ → ℕ} {X : List T} (h : c.fit ρ X = .ok c') :
    ∃ o', o.fit ρ X = (.ok (), o') ∧ o'.params = o.params ∧ ∀ x, o'.search x = c'.search x := by
  unfold BallCover.fit at h
  obtain ⟨t, ht, h⟩ := bind_eq_ok.mp h
  cases h
  unfold BallObj.fit
  simp only [hp, ht]
  exact ⟨_, rfl, hp.symm ▸ rfl, fun x => rfl⟩

theorem ballObj_fit_error {c : BallCover T R} {o : BallObj T R} (hp : o.params = c.params)
    {ρ : ℕ → ℕ} {X : List T} {e : PyErr} (h : c.fit ρ X = .error e) :
    o.fit ρ X = (.error e, { o with radius := some o.params.radius }) := by
  unfold BallCover.fit at h
  unfold BallObj.fit
  simp only [hp]
  cases ht : VPTree.build (enumerate X) (pullback snd c.params.metric) c.params.kind
      ⟨c.params.leafCapacity, numOr c.params.leafRadius c.params.radius, c.params.pivoting⟩ ρ with
  | error e' => rw [ht] at h; cases h; rfl
  | ok t => rw [ht] at h; cases h

theorem knnObj_fit {c c' : KnnCover T R} {o : KnnObj T R} (hp : o.params = c.params)
    {ρ : ℕ → ℕ} {X : List T} (h : c.fit ρ X = .ok c') :
    ∃ o', o.fit ρ X = (.ok (), o') ∧ o'.params = o.params ∧ ∀ x, o'.search x = c'.search x := by
  unfold KnnCover.fit at h
  obtain ⟨t, ht, h⟩ := bind_eq_ok.mp h
  cases h
  unfold KnnObj.fit
  simp only [hp, ht]
  exact ⟨_, rfl, hp.symm ▸ rfl, fun x => rfl⟩

theorem knnObj_fit_error {c : KnnCover T R} {o : KnnObj T R} (hp : o.params = c.params)
    {ρ : ℕ → ℕ} {X : List T} {e : PyErr} (h : c.fit ρ X = .error e) :
    o.fit ρ X = (.error e, { o with neighbors := some o.params.neighbors }) := by
  unfold KnnCover.fit at h
  unfold KnnObj.fit
  simp only [hp]
  cases ht : VPTree.build (enumerate X) (pullback snd c.params.metric) c.params.kind
      ⟨numOr c.params.leafCapacity c.params.neighbors, c.params.leafRadius, c.params.pivoting⟩ ρ with
  | error e' => rw [ht] at h; cases h; rfl
  | ok t => rw [ht] at h; cases h

omit [DecidableEq R] in
theorem build_withMetric {X : List T} {d : T → T → R} {kind : String} {p : VPParams R} {ρ : ℕ → ℕ}
    {t : VPTree T R} (h : VPTree.build X d kind p ρ = .ok t) : t.withMetric d = t := by
  unfold VPTree.build at h
  split at h
  · obtain ⟨a, _, h⟩ := bind_eq_ok.mp h
    cases h; rfl
  · split at h
    · obtain ⟨⟨t, a⟩, _, h⟩ := bind_eq_ok.mp h
      cases h; rfl
    · cases h

end Ball

section Cubical
variable {R : Type} [Field R] [LinearOrder R] [FloorRing R] {m : ℕ}

/-- The object answers as the fitted value `f`. -/
def CubObj.Agrees (o : CubObj m R) (c : CubCover m R) : Prop :=
  (∀ x, o.search x = c.search x) ∧ o.grid = c.fitted.map CubFit.grid

theorem cubObj_fit {dflt : ℕ → R} {c c' : CubCover m R} {o : CubObj m R} (hp : o.params = c.params)
    {ρ : ℕ → ℕ} {X : List (Fin m → R)} (hX : X ≠ []) (h : c.fit dflt ρ X = .ok c') :
    ∃ o', o.fit dflt ρ X = (.ok (), o') ∧ o'.params = o.params ∧ o'.Agrees c' := by
  have hl : X.length ≠ 0 := by simpa using hX
  unfold CubCover.fit at h
  unfold CubObj.fit
  rw [if_neg hl] at h ⊢
  simp only [hp] at h ⊢
  split at h
  · cases h
  · rename_i hpos
    rw [if_neg hpos]
    obtain ⟨⟨mn, mx, delta⟩, hb, h⟩ := bind_eq_ok.mp h
    obtain ⟨radius, hr, h⟩ := bind_eq_ok.mp h
    obtain ⟨b, hbf, h⟩ := bind_eq_ok.mp h
    obtain ⟨t, ht, hbf⟩ := bind_eq_ok.mp hbf
    cases h
    cases hbf
    simp only [hb, hr, ht]
    refine ⟨_, rfl, hp.symm ▸ rfl, fun x => ?_, rfl⟩
    simp only [CubObj.search, CubObj.grid, CubCover.search, BallCover.search]
    exact congrArg (fun t : VPTree _ R => do
      let neighs ← t.ballSearch (-1, (Grid.mk (c.params.overlapFrac.getD (dflt m)) c.params.nIntervals
        mn mx delta).phi x) radius false
      return firsts neighs) (build_withMetric ht)

theorem landmarks_agree {o : CubObj m R} {c : CubCover m R} (h : o.grid = c.fitted.map CubFit.grid) :
    ∀ (X : List (Fin m → R)) (lm : PyDict (List ℤ) (Fin m → R)),
      o.landmarks X lm = landmarksLoop c lm X := by
  intro X
  induction X with
  | nil => intro lm; rfl
  | cons x X ih =>
    intro lm
    unfold CubObj.landmarks landmarksLoop
    rw [h]
    cases c.fitted with
    | none => rfl
    | some f => simp only [Option.map_some, ih]

/-! ### Generators of delegates -/

/-- What is left of a generator of a delegate. -/
def CubGen.Left (dflt : ℕ → R) (o : CubObj m R) (gen : CubGen m R) (cs : List (List ℕ)) : Prop :=
  match gen with
  | .net (.fresh ρ X) => ∃ o', o.fit dflt ρ X = (.ok (), o') ∧
      proximityLoop (fun (_ : Unit) => o'.search) () 0 X [] = .ok cs
  | .net g => ∃ X, g.Left o.search X cs
  | .fresh ρ X => ∃ o' lm, o.fit dflt ρ X = (.ok (), o') ∧ o'.landmarks X PyDict.empty = .ok lm ∧
      ∃ c : CubCover m R, (∀ x, c.search x = o'.search x) ∧
        standardLoop c (lm.items.length + 1) lm = .ok cs
  | .running lm => ∃ c : CubCover m R, (∀ x, c.search x = o.search x) ∧
      standardLoop c (lm.items.length + 1) lm = .ok cs
  | .finished => cs = []

theorem stdLoop_left {dflt : ℕ → R} {o : CubObj m R} {c : CubCover m R} (h : ∀ x, c.search x = o.search x) :
    ∀ (n : ℕ) (lm : PyDict (List ℤ) (Fin m → R)) (cs : List (List ℕ)), lm.items.length + 1 = n →
      standardLoop c n lm = .ok cs →
      Matches Eq (stdLoop o n lm).1 cs ∧ (stdLoop o n lm).2.Left dflt o cs.tail := by
  intro n
  induction n with
  | zero => intro lm cs hn; omega
  | succ n ih =>
    intro lm cs hn hs
    unfold standardLoop at hs
    unfold stdLoop
    split at hs
    · rename_i he
      rw [if_pos he]
      cases hs
      exact ⟨.inr ⟨rfl, rfl⟩, rfl⟩
    · rename_i he
      rw [if_neg he]
      obtain ⟨⟨⟨k, x⟩, lm'⟩, hpop, hs⟩ := bind_eq_ok.mp hs
      obtain ⟨ids, hids, hs⟩ := bind_eq_ok.mp hs
      obtain ⟨rest, hrest, hs⟩ := bind_eq_ok.mp hs
      have hlen : lm'.items.length + 1 = n := by
        unfold PyDict.popitem at hpop
        split at hpop
        · cases hpop
          simp only [List.length_dropLast]
          have : lm.items ≠ [] := by simpa using he
          have := List.length_pos_iff.mpr this
          omega
        · cases hpop
      rw [h] at hids
      simp only [hpop, hids]
      cases hi : ids.isEmpty with
      | true =>
        rw [hi] at hs
        cases hs
        exact ih lm' _ hlen hrest
      | false =>
        rw [hi] at hs
        cases hs
        exact ⟨.inl ⟨ids, ids, rfl, rfl, rfl⟩, c, h, by rw [hlen]; exact hrest⟩

theorem cubGen_next {dflt : ℕ → R} {o : CubObj m R} {gen : CubGen m R} {cs : List (List ℕ)}
    (h : gen.Left dflt o cs) : Matches Eq (gen.next dflt o).1 cs ∧
      (gen.next dflt o).2.1.Left dflt (gen.next dflt o).2.2 cs.tail := by
  have heq : ∀ a b : List ℕ, a = b → ∀ i, i ∈ a ↔ i ∈ b := by rintro a _ rfl i; rfl
  have hnet : ∀ {o : CubObj m R} {g : NetGen (Fin m → R)} {cs : List (List ℕ)} {X}, g.Left o.search X cs →
      (CubGen.net g).Left dflt o cs := by
    intro o g cs X h
    rcases h with ⟨rfl, rfl⟩ | ⟨i, rest, cov, cov', rfl, h⟩
    · exact ⟨X, .inl ⟨rfl, rfl⟩⟩
    · exact ⟨X, .inr ⟨i, rest, cov, cov', rfl, h⟩⟩
  cases gen with
  | net g =>
    cases g with
    | fresh ρ X =>
      obtain ⟨o', h1, h2⟩ := h
      obtain ⟨a, b, c⟩ := fresh_left (A := cubSearchable dflt) (rel := Eq) heq h1
        (fun x _ b hb => ⟨b, hb, rfl⟩) h2
      refine ⟨a, hnet (X := X) ?_⟩
      rw [show ((CubGen.net (NetGen.fresh ρ X)).next dflt o).2.2 = o' from c]
      exact b
    | running i rest cov =>
      obtain ⟨X, h⟩ := h
      obtain ⟨a, b, c⟩ := next_left (A := cubSearchable dflt) (rel := Eq) (o := o) heq
        (fun x _ b hb => ⟨b, hb, rfl⟩) h
      refine ⟨a, hnet (X := X) ?_⟩
      rw [show ((CubGen.net (NetGen.running i rest cov)).next dflt o).2.2 = o from c]
      exact b
    | finished =>
      obtain ⟨X, h⟩ := h
      rcases h with ⟨_, rfl⟩ | ⟨i, rest, cov, cov', h, _⟩
      · exact ⟨.inr ⟨rfl, rfl⟩, X, .inl ⟨rfl, rfl⟩⟩
      · cases h
  | fresh ρ X =>
    obtain ⟨o', lm, h1, h2, c, h3, h4⟩ := h
    rw [CubGen.next, h1]
    simp only [h2]
    exact stdLoop_left h3 _ _ _ rfl h4
  | running lm =>
    obtain ⟨c, h3, h4⟩ := h
    exact stdLoop_left h3 _ _ _ rfl h4
  | finished =>
    have : cs = [] := h
    subst this
    exact ⟨.inr ⟨rfl, rfl⟩, rfl⟩

/-- Every generator has a delegate of its own. -/
def CubicalWorld.Sound (w : CubicalWorld m R) : Prop :=
  (w.gens.map Prod.fst).Nodup ∧ ∀ k ∈ w.gens.map Prod.fst, k < w.delegates.length

theorem cubicalStep_sound (dflt : ℕ → R) {w : CubicalWorld m R} (h : w.Sound) (op : CubicalOp m R) :
    (w.step dflt op).2.Sound := by
  obtain ⟨h1, h2⟩ := h
  have hmono : ∀ k ∈ w.gens.map Prod.fst, k < w.delegates.length + 1 := fun k hk => by
    have := h2 k hk; omega
  cases op with
  | fit ρ X =>
    simp only [CubicalWorld.step]
    split
    · exact ⟨h1, h2⟩
    · exact ⟨h1, by simpa using hmono⟩
  | search x =>
    simp only [CubicalWorld.step]
    split <;> exact ⟨h1, h2⟩
  | setParams P a => exact ⟨h1, h2⟩
  | apply ρ X =>
    simp only [CubicalWorld.step]
    split
    · exact ⟨h1, h2⟩
    · constructor
      · simp only [List.map_append, List.map_cons, List.map_nil]
        rw [List.nodup_append]
        refine ⟨h1, by simp, fun a ha b hb => ?_⟩
        simp only [List.mem_singleton] at hb
        have := h2 a ha
        omega
      · intro k hk
        simp only [List.map_append, List.map_cons, List.map_nil, List.mem_append,
          List.mem_singleton] at hk
        simp only [List.length_append, List.length_cons, List.length_nil]
        rcases hk with hk | hk
        · exact hmono k hk
        · omega
  | next g =>
    simp only [CubicalWorld.step]
    split
    · exact ⟨h1, h2⟩
    · rename_i k gen hg
      split
      · exact ⟨h1, h2⟩
      · have e : (w.gens.set g (k, (gen.next dflt (by assumption)).2.1)).map Prod.fst =
            w.gens.map Prod.fst := by
          apply List.ext_getElem?
          intro i
          rw [List.getElem?_map, List.getElem?_map, List.getElem?_set]
          split
          · rename_i ei
            subst ei
            have hlt := (List.getElem?_eq_some_iff.mp hg).1
            rw [if_pos hlt, hg]; rfl
          · rfl
        constructor
        · simp only [e]; exact h1
        · simp only [e, List.length_set]; exact h2

theorem cubicalRun_sound (dflt : ℕ → R) : ∀ (ops : List (CubicalOp m R)) (w : CubicalWorld m R),
    w.Sound → (w.run dflt ops).2.Sound := by
  intro ops
  induction ops with
  | nil => intro w h; exact h
  | cons op ops ih => intro w h; exact ih _ (cubicalStep_sound dflt h op)

/-- A generator goes on as it would alone, whatever happens. -/
theorem cubicalRun_left (dflt : ℕ → R) {g : ℕ} : ∀ (ops : List (CubicalOp m R)) (w : CubicalWorld m R)
    (k : ℕ) (gen : CubGen m R) (d : CubObj m R) (cs : List (List ℕ)), w.Sound →
    w.gens[g]? = some (k, gen) → w.delegates[k]? = some d → gen.Left dflt d cs →
    MatchAll Eq (answersOf g (w.run dflt ops).1) cs := by
  intro ops
  induction ops with
  | nil => intro w k gen d cs _ _ _ _; trivial
  | cons op ops ih =>
    intro w k gen d cs hs hg hd hl
    have hs' := cubicalStep_sound dflt hs op
    have hlt : g < w.gens.length := (List.getElem?_eq_some_iff.mp hg).1
    have hklt : k < w.delegates.length := (List.getElem?_eq_some_iff.mp hd).1
    simp only [CubicalWorld.run]
    rw [answersOf_cons]
    have keep : (∀ a, (w.step dflt op).1 ≠ .chart g a) →
        (w.step dflt op).2.gens[g]? = some (k, gen) →
        (w.step dflt op).2.delegates[k]? = some d →
        MatchAll Eq ((match (w.step dflt op).1 with
          | .chart k a => if k = g then [a] else []
          | _ => []) ++ answersOf g ((w.step dflt op).2.run dflt ops).1) cs := by
      intro hr h1 h2
      have : (match (w.step dflt op).1 with
          | .chart k a => if k = g then [a] else []
          | _ => ([] : List (Py (Option (List ℕ))))) = [] := by
        generalize (w.step dflt op).1 = r at hr
        cases r with
        | chart k' a => exact if_neg fun e => hr a (by rw [e])
        | _ => rfl
      rw [this, List.nil_append]
      exact ih _ k gen d cs hs' h1 h2 hl
    cases op with
    | fit ρ X =>
      apply keep <;> simp only [CubicalWorld.step] <;> cases w.newDelegate ρ X with
      | error e => first | exact hg | exact hd | (intro a; simp)
      | ok p => first | exact hg | (intro a; simp) | (simp only; rw [List.getElem?_append_left hklt]; exact hd)
    | search x =>
      apply keep <;> simp only [CubicalWorld.step] <;>
        cases (w.current.bind fun k => w.delegates[k]?) <;>
        first | exact hg | exact hd | (intro a; simp)
    | setParams P a => exact keep (by intro a; simp [CubicalWorld.step]) hg hd
    | apply ρ X =>
      apply keep <;> simp only [CubicalWorld.step] <;> cases w.newDelegate ρ X with
      | error e => first | exact hg | exact hd | (intro a; simp)
      | ok p => first | (intro a; simp) | (simp only; rw [List.getElem?_append_left hlt]; exact hg) |
          (simp only; rw [List.getElem?_append_left hklt]; exact hd)
    | next g' =>
      by_cases e : g' = g
      · subst e
        obtain ⟨h1, h2⟩ := cubGen_next hl
        simp only [CubicalWorld.step, hg, hd] at hs' ⊢
        simp only [if_true, List.singleton_append]
        refine ⟨h1, ih _ k _ _ cs.tail hs' ?_ ?_ h2⟩
        · simp [hlt]
        · simp [hklt]
      · cases hg' : w.gens[g']? with
        | none =>
          apply keep <;> simp only [CubicalWorld.step, hg'] <;> first | exact hg | exact hd | (intro a; simp)
        | some p =>
          obtain ⟨k', gen'⟩ := p
          cases hd' : w.delegates[k']? with
          | none =>
            apply keep <;> simp only [CubicalWorld.step, hg', hd'] <;>
              first | exact hg | exact hd | (intro a; simp)
          | some d' =>
            have hk : k' ≠ k := by
              intro ek
              refine e ?_
              have hlt' : g' < w.gens.length := (List.getElem?_eq_some_iff.mp hg').1
              refine (List.Nodup.getElem_inj_iff hs.1 (hi := by simpa using hlt')
                (hj := by simpa using hlt)).mp ?_
              have a1 := (List.getElem?_eq_some_iff.mp hg').2
              have a2 := (List.getElem?_eq_some_iff.mp hg).2
              simp [a1, a2, ek]
            apply keep <;> simp only [CubicalWorld.step, hg', hd']
            · intro a h
              injection h with h
              exact e h
            · rw [List.getElem?_set_ne e]
              exact hg
            · rw [List.getElem?_set_ne hk]
              exact hd

end Cubical

end Verif
