import Verif.Spec.Warnings
import Verif.Py

/-!
# Helper lemmas about warnings
-/

set_option autoImplicit false
set_option linter.unusedSectionVars false

namespace Verif

/-- What holds of the state of the `warnings` module in every process. -/
structure WarnState.Sound (s : WarnState) : Prop where
  version : s.regVersion ≤ s.version
  line : s.regVersion = s.version → s.line = true →
    s.action ≠ .always ∧ s.action ≠ .error ∧ s.action ≠ .ignore
  whole : s.regVersion = s.version → s.whole = true → s.line = true

/-- No warning was issued since the filters were changed. -/
def WarnState.Fresh (s : WarnState) : Prop := s.regVersion = s.version → s.line = false ∧ s.whole = false

theorem start_sound (a : WarnAction) : (WarnState.start a).Sound :=
  ⟨le_refl _, by simp [WarnState.start], by simp [WarnState.start]⟩

theorem filters_sound {s : WarnState} (h : s.Sound) (a : WarnAction) :
    (s.filters a).Sound ∧ (s.filters a).Fresh := by
  have := h.version
  refine ⟨⟨?_, ?_, ?_⟩, ?_⟩ <;> simp only [WarnState.filters, WarnState.Fresh] <;> omega

theorem warnUser_sound {s : WarnState} (h : s.Sound) : s.warnUser.2.Sound := by
  obtain ⟨a, v, r, l, wh, o, n⟩ := s
  obtain ⟨h1, h2, h3⟩ := h
  simp only at h1 h2 h3
  by_cases hr : r = v
  · subst hr
    cases l <;> cases a <;> cases wh <;> cases o <;>
      simp_all [WarnState.warnUser] <;> constructor <;> simp
  · cases a <;> cases o <;> simp [WarnState.warnUser, hr] <;> constructor <;> simp

theorem warnUser_action (s : WarnState) : s.warnUser.2.action = s.action := by
  obtain ⟨a, v, r, l, wh, o, n⟩ := s
  by_cases hr : r = v
  · subst hr
    cases l <;> cases a <;> cases wh <;> cases o <;> simp [WarnState.warnUser]
  · cases a <;> cases o <;> simp [WarnState.warnUser, hr]

theorem warnUser_ok {s : WarnState} (h : s.action ≠ .error) : s.warnUser.1 = .ok () := by
  obtain ⟨a, v, r, l, wh, o, n⟩ := s
  by_cases hr : r = v
  · subst hr
    cases l <;> cases a <;> cases wh <;> cases o <;> simp_all [WarnState.warnUser]
  · cases a <;> cases o <;> simp_all [WarnState.warnUser, hr]

theorem warnUser_error {s : WarnState} (hs : s.Sound) (h : s.action = .error) :
    s.warnUser.1 = .error .userWarning ∧ s.warnUser.2.shown = s.shown := by
  obtain ⟨a, v, r, l, wh, o, n⟩ := s
  obtain ⟨h1, h2, h3⟩ := hs
  simp only at h1 h2 h3 h
  subst h
  by_cases hr : r = v
  · subst hr
    cases l <;> simp_all [WarnState.warnUser]
  · simp [WarnState.warnUser, hr]

/-- `n` warnings in a row. -/
def warnTimes : ℕ → WarnState → WarnState
  | 0, s => s
  | n + 1, s => warnTimes n s.warnUser.2

theorem warnTimes_always : ∀ (n : ℕ) {s : WarnState}, s.Sound → s.action = .always →
    (warnTimes n s).shown = s.shown + n
  | 0, s, _, _ => rfl
  | n + 1, s, hs, ha => by
    rw [warnTimes, warnTimes_always n (warnUser_sound hs) (by rw [warnUser_action, ha])]
    have : s.warnUser.2.shown = s.shown + 1 := by
      obtain ⟨a, v, r, l, wh, o, k⟩ := s
      obtain ⟨h1, h2, h3⟩ := hs
      simp only at h1 h2 h3 ha
      subst ha
      by_cases hr : r = v
      · subst hr
        cases l <;> simp_all [WarnState.warnUser]
      · simp [WarnState.warnUser, hr]
    omega

theorem warnTimes_silent : ∀ (n : ℕ) {s : WarnState}, s.Sound → s.action = .ignore ∨ s.action = .error →
    (warnTimes n s).shown = s.shown
  | 0, s, _, _ => rfl
  | n + 1, s, hs, ha => by
    rw [warnTimes, warnTimes_silent n (warnUser_sound hs) (by rw [warnUser_action]; exact ha)]
    obtain ⟨a, v, r, l, wh, o, k⟩ := s
    obtain ⟨h1, h2, h3⟩ := hs
    simp only at h1 h2 h3 ha
    by_cases hr : r = v
    · subst hr
      rcases ha with rfl | rfl <;> cases l <;> simp_all [WarnState.warnUser]
    · rcases ha with rfl | rfl <;> simp [WarnState.warnUser, hr]

/-- Once the entry is in the registry nothing is shown. -/
theorem warnTimes_seen : ∀ (n : ℕ) {s : WarnState}, s.regVersion = s.version → s.line = true →
    warnTimes n s = s
  | 0, s, _, _ => rfl
  | n + 1, s, hr, hl => by
    have : s.warnUser.2 = s := by simp [WarnState.warnUser, hr, hl]
    rw [warnTimes, this, warnTimes_seen n hr hl]

theorem warnTimes_default : ∀ (n : ℕ) {s : WarnState}, s.Fresh → s.action = .default ∨ s.action = .module →
    (warnTimes n s).shown = s.shown + min 1 n
  | 0, s, _, _ => rfl
  | n + 1, s, hf, ha => by
    have h1 : s.warnUser.2.regVersion = s.warnUser.2.version ∧ s.warnUser.2.line = true ∧
        s.warnUser.2.shown = s.shown + 1 := by
      obtain ⟨a, v, r, l, wh, o, k⟩ := s
      simp only [WarnState.Fresh] at hf ha
      by_cases hr : r = v
      · obtain ⟨rfl, rfl⟩ := hf hr
        subst hr
        rcases ha with rfl | rfl <;> simp [WarnState.warnUser]
      · rcases ha with rfl | rfl <;> simp [WarnState.warnUser, hr]
    rw [warnTimes, warnTimes_seen n h1.1 h1.2.1, h1.2.2]
    omega

theorem warnTimes_once : ∀ (n : ℕ) {s : WarnState}, s.Fresh → s.action = .once →
    (warnTimes n s).shown = s.shown + min (if s.once then 0 else 1) n
  | 0, s, _, _ => by simp [warnTimes]
  | n + 1, s, hf, ha => by
    have h1 : s.warnUser.2.regVersion = s.warnUser.2.version ∧ s.warnUser.2.line = true ∧
        s.warnUser.2.shown = s.shown + (if s.once then 0 else 1) := by
      obtain ⟨a, v, r, l, wh, o, k⟩ := s
      simp only [WarnState.Fresh] at hf ha
      subst ha
      by_cases hr : r = v
      · obtain ⟨rfl, rfl⟩ := hf hr
        subst hr
        cases o <;> simp [WarnState.warnUser]
      · cases o <;> simp [WarnState.warnUser, hr]
    rw [warnTimes, warnTimes_seen n h1.1 h1.2.1, h1.2.2]
    split <;> omega

section
variable {R : Type} [Field R] [LinearOrder R] [IsStrictOrderedRing R] [FloorRing R] {m : ℕ}

open Classical in
/-- The state of the `warnings` module after a `fit`. -/
theorem fitW_warn (dflt : ℕ → R) (o : CubObj m R) (ρ : ℕ → ℕ) (X : List (Fin m → R)) (s : WarnState) :
    (o.fitW dflt ρ X s).2.2 = if TooWide dflt o X then s.warnUser.2 else s := by
  unfold CubObj.fitW TooWide
  by_cases hX : X = []
  · simp [hX]
  · have hl : ¬ X.length = 0 := by simpa using hX
    simp only [if_neg hl]
    by_cases hp : o.params.overlapFrac.getD (dflt m) ≤ 0
    · have : ¬ 1 / 2 < o.params.overlapFrac.getD (dflt m) := by
        intro h
        have : (0 : R) < 1 / 2 := by norm_num
        linarith
      simp only [if_pos hp, this, and_false, if_false]
    · simp only [if_neg hp]
      by_cases hq : 1 / 2 < o.params.overlapFrac.getD (dflt m)
      · simp only [hq, if_true, ne_eq, hX, not_false_eq_true, and_self]
        rcases hw : s.warnUser with ⟨_ | _, s'⟩
        · rfl
        · simp only
          repeat' split
          all_goals rfl
      · simp only [hq, if_false, and_false]
        repeat' split
        all_goals rfl

/-- If warnings are not errors, `fit` does what it does without them. -/
theorem fitW_same (dflt : ℕ → R) (o : CubObj m R) (ρ : ℕ → ℕ) (X : List (Fin m → R)) {s : WarnState}
    (hs : s.action ≠ .error) :
    ((o.fitW dflt ρ X s).1, (o.fitW dflt ρ X s).2.1) = o.fit dflt ρ X := by
  have h1 := warnUser_ok hs
  unfold CubObj.fitW CubObj.fit
  by_cases hl : X.length = 0
  · simp only [if_pos hl]
  · simp only [if_neg hl]
    by_cases hp : o.params.overlapFrac.getD (dflt m) ≤ 0
    · simp only [if_pos hp]
    · simp only [if_neg hp]
      rcases hw : s.warnUser with ⟨_ | _, s'⟩
      · rw [hw] at h1; cases h1
      · have : ∃ s'', (if 1 / 2 < o.params.overlapFrac.getD (dflt m) then ((.ok () : Py Unit), s')
            else (.ok (), s)) = (.ok (), s'') := by
          split
          · exact ⟨_, rfl⟩
          · exact ⟨_, rfl⟩
        obtain ⟨s'', hs''⟩ := this
        rw [hs'']
        simp only
        cases getBounds o.params.nIntervals X with
        | error e => rfl
        | ok b =>
          simp only
          cases boxRadius (o.params.overlapFrac.getD (dflt m)) with
          | error e => rfl
          | ok r =>
            simp only
            cases VPTree.build (enumerate X)
              (pullback snd (pullback (Grid.mk (o.params.overlapFrac.getD (dflt m)) o.params.nIntervals
                b.1 b.2.1 b.2.2).gamma chebyshevDist)) o.params.kind
              ⟨o.params.leafCapacity, numOr o.params.leafRadius r, o.params.pivoting⟩ ρ <;> rfl

/-- With warnings as errors, a `fit` that warns raises. -/
theorem fitW_error (dflt : ℕ → R) (o : CubObj m R) (ρ : ℕ → ℕ) (X : List (Fin m → R)) {s : WarnState}
    (hs : s.Sound) (ha : s.action = .error) (h : TooWide dflt o X) :
    (o.fitW dflt ρ X s).1 = .error .userWarning ∧ (o.fitW dflt ρ X s).2.1 = { o with
      overlapFrac := some (o.params.overlapFrac.getD (dflt m)), nIntervals := some o.params.nIntervals } := by
  obtain ⟨h1, _⟩ := warnUser_error hs ha
  obtain ⟨hX, hq⟩ := h
  have hl : ¬ X.length = 0 := by simpa using hX
  have hp : ¬ o.params.overlapFrac.getD (dflt m) ≤ 0 := by
    intro hp
    have : (0 : R) < 1 / 2 := by norm_num
    linarith
  unfold CubObj.fitW
  simp only [if_neg hl, if_neg hp, hq, if_true]
  rcases hw : s.warnUser with ⟨_ | _, s'⟩
  · rw [hw] at h1
    cases h1
    exact ⟨rfl, rfl⟩
  · rw [hw] at h1; cases h1

open Classical in
theorem nextW_warn (dflt : ℕ → R) (o : CubObj m R) (s : WarnState) (g : CubGen m R) :
    (g.nextW dflt o s).2.2.2 =
      match g with
      | .net (.fresh _ X) => if TooWide dflt o X then s.warnUser.2 else s
      | .fresh _ X => if TooWide dflt o X then s.warnUser.2 else s
      | _ => s := by
  unfold CubGen.nextW
  split
  · rename_i ρ X
    simp only
    rw [← fitW_warn dflt o ρ X s]
    rcases o.fitW dflt ρ X s with ⟨_ | _, o', s'⟩ <;> rfl
  · rename_i ρ X
    simp only
    rw [← fitW_warn dflt o ρ X s]
    rcases o.fitW dflt ρ X s with ⟨_ | _, o', s'⟩
    · rfl
    · simp only
      cases o'.landmarks X PyDict.empty <;> rfl
  · rename_i h1 h2
    rcases g with (_ | _ | _) | _ | _ | _
    · exact absurd rfl (h1 _ _)
    · rfl
    · rfl
    · exact absurd rfl (h2 _ _)
    · rfl
    · rfl

theorem nextW_same (dflt : ℕ → R) (o : CubObj m R) {s : WarnState} (hs : s.action ≠ .error) (g : CubGen m R) :
    ((g.nextW dflt o s).1, (g.nextW dflt o s).2.1, (g.nextW dflt o s).2.2.1) = g.next dflt o := by
  unfold CubGen.nextW
  split
  · rename_i ρ X
    have := fitW_same dflt o ρ X hs
    unfold CubGen.next NetGen.next cubSearchable
    simp only
    rw [← this]
    rcases o.fitW dflt ρ X s with ⟨_ | _, o', s'⟩ <;> rfl
  · rename_i ρ X
    have := fitW_same dflt o ρ X hs
    unfold CubGen.next
    simp only
    rw [← this]
    rcases o.fitW dflt ρ X s with ⟨_ | _, o', s'⟩
    · rfl
    · simp only
      cases o'.landmarks X PyDict.empty <;> rfl
  · rfl

open Classical in
/-- The state of the `warnings` module after an operation. -/
theorem step_warn (dflt : ℕ → R) (w : WarnWorld m R) (op : WarnOp m R) (h : op.KeepsFilters) :
    (w.step dflt op).2.warn = if Asks dflt w op then w.warn.warnUser.2 else w.warn := by
  cases op with
  | filters a => exact h.elim
  | new P => rw [if_neg (by rintro ⟨⟩)]; rfl
  | setParams i P => rw [if_neg (by rintro ⟨⟩)]; rfl
  | search i x =>
    rw [if_neg (by rintro ⟨⟩)]
    simp only [WarnWorld.step]
    cases w.objs[i]? <;> rfl
  | apply i st ρ X => rw [if_neg (by rintro ⟨⟩)]; rfl
  | fit i ρ X =>
    simp only [WarnWorld.step]
    cases ho : w.objs[i]? with
    | none =>
      rw [if_neg]
      rintro ⟨⟩
      simp_all
    | some o =>
      simp only
      rw [fitW_warn]
      have : TooWide dflt o X ↔ Asks dflt w (.fit i ρ X) := by
        constructor
        · exact fun h => .fit i o ρ X ho h
        · intro h
          cases h with
          | fit _ o' _ _ ho' h => rw [ho] at ho'; cases ho'; exact h
      simp only [this]
  | next g =>
    simp only [WarnWorld.step]
    cases hg : w.gens[g]? with
    | none =>
      rw [if_neg]
      rintro ⟨⟩ <;> simp_all
    | some e =>
      obtain ⟨i, gen⟩ := e
      simp only
      cases ho : w.objs[i]? with
      | none =>
        rw [if_neg]
        intro h
        cases h with
        | proximity _ i' o' _ _ hg' ho' => rw [hg] at hg'; cases hg'; rw [ho] at ho'; cases ho'
        | standard _ i' o' _ _ hg' ho' => rw [hg] at hg'; cases hg'; rw [ho] at ho'; cases ho'
      | some o =>
        simp only
        rw [nextW_warn]
        rcases gen with (⟨ρ, X⟩ | _ | _) | ⟨ρ, X⟩ | _ | _
        · simp only
          have : TooWide dflt o X ↔ Asks dflt w (.next g) := by
            constructor
            · exact fun h => .proximity g i o ρ X hg ho h
            · intro h
              cases h with
              | proximity _ _ o' _ _ hg' ho' h => rw [hg] at hg'; cases hg'; rw [ho] at ho'; cases ho'; exact h
              | standard _ _ o' _ _ hg' ho' h => rw [hg] at hg'; cases hg'
          simp only [this]
        · simp only
          rw [if_neg]
          rintro ⟨⟩ <;> simp_all
        · simp only
          rw [if_neg]
          rintro ⟨⟩ <;> simp_all
        · simp only
          have : TooWide dflt o X ↔ Asks dflt w (.next g) := by
            constructor
            · exact fun h => .standard g i o ρ X hg ho h
            · intro h
              cases h with
              | proximity _ _ o' _ _ hg' ho' h => rw [hg] at hg'; cases hg'
              | standard _ _ o' _ _ hg' ho' h => rw [hg] at hg'; cases hg'; rw [ho] at ho'; cases ho'; exact h
          simp only [this]
        · simp only
          rw [if_neg]
          rintro ⟨⟩ <;> simp_all
        · simp only
          rw [if_neg]
          rintro ⟨⟩ <;> simp_all

theorem run_warn (dflt : ℕ → R) : ∀ (ops : List (WarnOp m R)) (w : WarnWorld m R),
    (∀ op ∈ ops, op.KeepsFilters) → (w.run dflt ops).2.warn = warnTimes (timesAsked dflt w ops) w.warn
  | [], w, _ => rfl
  | op :: ops, w, h => by
    simp only [WarnWorld.run, timesAsked]
    rw [run_warn dflt ops _ fun o ho => h o (List.mem_cons_of_mem _ ho),
      step_warn dflt w op (h op List.mem_cons_self)]
    split
    · rw [Nat.add_comm]; rfl
    · rw [Nat.zero_add]

/-- With the action `once`, a warning is shown if none was shown before. -/
theorem warnUser_once {s : WarnState} (hs : s.action = .once) (hl : s.line = true → s.once = true) :
    s.warnUser.2.once = true ∧ s.warnUser.2.shown = s.shown + if s.once then 0 else 1 := by
  obtain ⟨a, v, r, l, wh, o, n⟩ := s
  simp only at hs hl
  subst hs
  by_cases hr : r = v
  · subst hr
    cases l <;> cases wh <;> cases o <;> simp_all [WarnState.warnUser]
  · cases o <;> simp [WarnState.warnUser, hr]

theorem run_once (dflt : ℕ → R) : ∀ (ops : List (WarnOp m R)) (w : WarnWorld m R),
    (∀ op ∈ ops, op.KeepsFilters ∨ op = .filters .once) → w.warn.action = .once →
    (w.warn.line = true → w.warn.once = true) →
    (w.run dflt ops).2.warn.shown =
      w.warn.shown + if w.warn.once then 0 else min 1 (timesAsked dflt w ops)
  | [], w, _, _, _ => by simp [WarnWorld.run, timesAsked]
  | op :: ops, w, h, ha, hl => by
    classical
    simp only [WarnWorld.run, timesAsked]
    have h' : ∀ op ∈ ops, op.KeepsFilters ∨ op = .filters .once := fun o ho =>
      h o (List.mem_cons_of_mem _ ho)
    rcases h op List.mem_cons_self with hk | rfl
    · have hstep := step_warn dflt w op hk
      by_cases hA : Asks dflt w op
      · rw [if_pos hA] at hstep
        obtain ⟨h1, h2⟩ := warnUser_once ha hl
        rw [run_once dflt ops _ h' (by rw [hstep, warnUser_action, ha]) (by rw [hstep, h1]; simp), hstep,
          h1, h2, if_pos hA]
        cases w.warn.once <;> simp
      · rw [if_neg hA] at hstep
        rw [run_once dflt ops _ h' (by rw [hstep, ha]) (by rw [hstep]; exact hl), hstep, if_neg hA,
          Nat.zero_add]
    · have hA : ¬ Asks dflt w (.filters .once) := by rintro ⟨⟩
      rw [run_once dflt ops (w.step dflt (.filters .once)).2 h' rfl hl, if_neg hA, Nat.zero_add]
      rfl

theorem run_sound (dflt : ℕ → R) : ∀ (ops : List (WarnOp m R)) (w : WarnWorld m R), w.warn.Sound →
    (w.run dflt ops).2.warn.Sound
  | [], _, h => h
  | op :: ops, w, h => by
    simp only [WarnWorld.run]
    apply run_sound dflt ops
    by_cases hk : op.KeepsFilters
    · rw [step_warn dflt w op hk]
      split
      · exact warnUser_sound h
      · exact h
    · cases op <;> first | exact absurd trivial hk | exact (filters_sound h _).1

theorem run_append (dflt : ℕ → R) : ∀ (a b : List (WarnOp m R)) (w : WarnWorld m R),
    (w.run dflt (a ++ b)).2 = ((w.run dflt a).2.run dflt b).2
  | [], _, _ => rfl
  | op :: a, b, w => by
    simp only [List.cons_append, WarnWorld.run]
    exact run_append dflt a b _

end

end Verif
