import Verif.Proof.BinaryUnit
import Verif.Proof.Isometry
import Verif.Spec.BinaryUnit

/-!
# Cubical covers of columns multiplied by powers of two
-/

set_option autoImplicit false

namespace Verif

variable {b m : ℕ}

/-- A row with column `i` multiplied by `2 ^ (e i)`. -/
def rescale (e : Fin m → ℤ) (x : Fin m → Bin b) : Fin m → Bin b := fun i => Bin.shift (e i) (x i)

theorem timesPowers_iff (e : Fin m → ℤ) (y y' : List (Fin m → Bin b)) :
    TimesPowers e y y' ↔ y' = y.map (rescale e) := by
  constructor
  · rintro ⟨hl, h⟩
    apply List.ext_getElem (by simp [hl])
    intro r h1 h2
    have h3 : r < y.length := hl ▸ h1
    rw [List.getElem_map]
    funext i
    apply Subtype.ext
    exact h r _ _ (List.getElem?_eq_getElem h3) (List.getElem?_eq_getElem h1) i
  · rintro rfl
    refine ⟨by simp, fun r x x' h1 h2 i => ?_⟩
    rw [List.getElem?_map, h1] at h2
    cases h2
    rfl

theorem shift_add (k : ℤ) (x y : Bin b) : Bin.shift k x + Bin.shift k y = Bin.shift k (x + y) := by
  apply Subtype.ext
  show roundTo b (2 ^ k * x.1 + 2 ^ k * y.1) = 2 ^ k * roundTo b (x.1 + y.1)
  rw [← roundTo_mul_pow, mul_add]

theorem shift_mul (k : ℤ) (x y : Bin b) : x * Bin.shift k y = Bin.shift k (x * y) := by
  apply Subtype.ext
  show roundTo b (x.1 * (2 ^ k * y.1)) = 2 ^ k * roundTo b (x.1 * y.1)
  rw [← roundTo_mul_pow]
  congr 1
  ring

theorem mul_shift (k : ℤ) (x y : Bin b) : Bin.shift k x * y = Bin.shift k (x * y) := by
  apply Subtype.ext
  show roundTo b (2 ^ k * x.1 * y.1) = 2 ^ k * roundTo b (x.1 * y.1)
  rw [← roundTo_mul_pow, mul_assoc]

theorem shift_div (k : ℤ) (x y : Bin b) : Bin.shift k x / y = Bin.shift k (x / y) := by
  apply Subtype.ext
  show roundTo b (2 ^ k * x.1 / y.1) = 2 ^ k * roundTo b (x.1 / y.1)
  rw [← roundTo_mul_pow, mul_div_assoc]

theorem shift_div_shift (k : ℤ) (x y : Bin b) : Bin.shift k x / Bin.shift k y = x / y := by
  have hp : (2 : ℚ) ^ k ≠ 0 := by positivity
  apply Subtype.ext
  show roundTo b (2 ^ k * x.1 / (2 ^ k * y.1)) = roundTo b (x.1 / y.1)
  rw [mul_div_mul_left _ _ hp]

theorem shift_zero_exp (x : Bin b) : Bin.shift 0 x = x := by
  apply Subtype.ext
  simp [Bin.shift]

theorem min_shift (k : ℤ) (x y : Bin b) :
    min (Bin.shift k x) (Bin.shift k y) = Bin.shift k (min x y) := by
  have h := (unitChange_shift b k).le
  rcases le_total x y with hxy | hxy
  · rw [min_eq_left hxy, min_eq_left ((h x y).mpr hxy)]
  · rw [min_eq_right hxy, min_eq_right ((h y x).mpr hxy)]

theorem max_shift (k : ℤ) (x y : Bin b) :
    max (Bin.shift k x) (Bin.shift k y) = Bin.shift k (max x y) := by
  have h := (unitChange_shift b k).le
  rcases le_total x y with hxy | hxy
  · rw [max_eq_right hxy, max_eq_right ((h x y).mpr hxy)]
  · rw [max_eq_left hxy, max_eq_left ((h y x).mpr hxy)]

theorem foldl_min_rescale (e : Fin m → ℤ) (i : Fin m) (xs : List (Fin m → Bin b)) (a : Bin b) :
    (xs.map (rescale e)).foldl (fun a y => min a (y i)) (Bin.shift (e i) a) =
      Bin.shift (e i) (xs.foldl (fun a y => min a (y i)) a) := by
  induction xs generalizing a with
  | nil => rfl
  | cons x xs ih =>
    rw [List.map_cons, List.foldl_cons, List.foldl_cons, ← ih]
    congr 1
    exact min_shift _ _ _

theorem foldl_max_rescale (e : Fin m → ℤ) (i : Fin m) (xs : List (Fin m → Bin b)) (a : Bin b) :
    (xs.map (rescale e)).foldl (fun a y => max a (y i)) (Bin.shift (e i) a) =
      Bin.shift (e i) (xs.foldl (fun a y => max a (y i)) a) := by
  induction xs generalizing a with
  | nil => rfl
  | cons x xs ih =>
    rw [List.map_cons, List.foldl_cons, List.foldl_cons, ← ih]
    congr 1
    exact max_shift _ _ _

theorem foldl_min_le (i : Fin m) (xs : List (Fin m → Bin b)) (a : Bin b) :
    xs.foldl (fun a y => min a (y i)) a ≤ a ∧
      ∀ x ∈ xs, xs.foldl (fun a y => min a (y i)) a ≤ x i := by
  induction xs generalizing a with
  | nil => exact ⟨le_refl _, fun _ h => by cases h⟩
  | cons x xs ih =>
    obtain ⟨h1, h2⟩ := ih (min a (x i))
    refine ⟨h1.trans (min_le_left _ _), fun z hz => ?_⟩
    rcases List.mem_cons.mp hz with rfl | hz
    · exact h1.trans (min_le_right _ _)
    · exact h2 z hz

theorem le_foldl_max (i : Fin m) (xs : List (Fin m → Bin b)) (a : Bin b) :
    a ≤ xs.foldl (fun a y => max a (y i)) a ∧
      ∀ x ∈ xs, x i ≤ xs.foldl (fun a y => max a (y i)) a := by
  induction xs generalizing a with
  | nil => exact ⟨le_refl _, fun _ h => by cases h⟩
  | cons x xs ih =>
    obtain ⟨h1, h2⟩ := ih (max a (x i))
    refine ⟨(le_max_left _ _).trans h1, fun z hz => ?_⟩
    rcases List.mem_cons.mp hz with rfl | hz
    · exact (le_max_right _ _).trans h1
    · exact h2 z hz

theorem delta_of_spread {n : ℕ} {y : List (Fin m → Bin b)} {i : Fin m} (h : SpreadBin y i)
    {lo hi : Bin b} (hlo : ∀ x ∈ y, lo ≤ x i) (hhi : ∀ x ∈ y, x i ≤ hi) :
    machDelta n lo hi = hi - lo := by
  obtain ⟨x, hx, z, hz, h⟩ := h
  unfold machDelta
  rw [if_neg]
  rintro ⟨_, h'⟩
  have h1 : (lo.1 : ℚ) ≤ (x i).1 := hlo x hx
  have h2 : ((z i).1 : ℚ) ≤ hi.1 := hhi z hz
  have h3 : roundTo b ((z i).1 - (x i).1) ≤ roundTo b (hi.1 - lo.1) := roundTo_mono b (by linarith)
  have h4 : roundTo b (hi.1 - lo.1) ≤ roundTo b (1 / 2 ^ 52) := h'
  linarith

/-- The bounds of the rescaled columns. -/
theorem bounds_rescale (e : Fin m → ℤ) (n : ℕ) (y : List (Fin m → Bin b))
    (hs : ∀ i, e i = 0 ∨ SpreadBin y i ∧ SpreadBin (y.map (rescale e)) i) :
    machBounds n (y.map (rescale e)) = do
      let (mn, mx, delta) ← machBounds n y
      return (rescale e mn, rescale e mx, rescale e delta) := by
  cases y with
  | nil => rfl
  | cons x xs =>
    have hmin : ∀ i, (xs.map (rescale e)).foldl (fun a y => min a (y i)) (rescale e x i) =
        Bin.shift (e i) (xs.foldl (fun a y => min a (y i)) (x i)) := fun i =>
      foldl_min_rescale e i xs (x i)
    have hmax : ∀ i, (xs.map (rescale e)).foldl (fun a y => max a (y i)) (rescale e x i) =
        Bin.shift (e i) (xs.foldl (fun a y => max a (y i)) (x i)) := fun i =>
      foldl_max_rescale e i xs (x i)
    simp only [List.map_cons, machBounds, hmin, hmax]
    refine congrArg Except.ok (Prod.ext rfl (Prod.ext rfl (funext fun i => ?_)))
    have lo1 : ∀ z ∈ x :: xs, xs.foldl (fun a y => min a (y i)) (x i) ≤ z i := by
      intro z hz
      rcases List.mem_cons.mp hz with rfl | hz
      · exact (foldl_min_le i xs (z i)).1
      · exact (foldl_min_le i xs (x i)).2 z hz
    have hi1 : ∀ z ∈ x :: xs, z i ≤ xs.foldl (fun a y => max a (y i)) (x i) := by
      intro z hz
      rcases List.mem_cons.mp hz with rfl | hz
      · exact (le_foldl_max i xs (z i)).1
      · exact (le_foldl_max i xs (x i)).2 z hz
    show machDelta n (Bin.shift (e i) _) (Bin.shift (e i) _) = Bin.shift (e i) (machDelta n _ _)
    rcases hs i with h0 | ⟨h1, h2⟩
    · rw [h0, shift_zero_exp, shift_zero_exp, shift_zero_exp]
    · have hle := (unitChange_shift b (e i)).le
      rw [delta_of_spread h1 lo1 hi1, delta_of_spread h2
        (by
          intro z hz
          obtain ⟨w, hw, rfl⟩ := List.mem_map.mp hz
          exact (hle _ _).mpr (lo1 w hw))
        (by
          intro z hz
          obtain ⟨w, hw, rfl⟩ := List.mem_map.mp hz
          exact (hle _ _).mpr (hi1 w hw)), (unitChange_shift b (e i)).sub]

/-- The grid of the rescaled columns. -/
def Grid.rescale (e : Fin m → ℤ) (g : Grid m (Bin b)) : Grid m (Bin b) :=
  ⟨g.overlapFrac, g.nIntervals, Verif.rescale e g.lo, Verif.rescale e g.hi, Verif.rescale e g.delta⟩

theorem gamma_rescale (e : Fin m → ℤ) (g : Grid m (Bin b)) (x : Fin m → Bin b) :
    (g.rescale e).machGamma (rescale e x) = g.machGamma x := by
  funext i
  show Machine.ofInt _ * (Bin.shift (e i) (x i) - Bin.shift (e i) (g.lo i)) /
    Bin.shift (e i) (g.delta i) = _
  rw [← (unitChange_shift b (e i)).sub, shift_mul, shift_div_shift]
  rfl

theorem offset_rescale (e : Fin m → ℤ) (g : Grid m (Bin b)) (x : Fin m → Bin b) :
    (g.rescale e).machOffset (rescale e x) = g.machOffset x := by
  unfold Grid.machOffset
  rw [gamma_rescale]
  rfl

theorem phi_rescale (e : Fin m → ℤ) (g : Grid m (Bin b)) (x : Fin m → Bin b) :
    (g.rescale e).machPhi (rescale e x) = rescale e (g.machPhi x) := by
  unfold Grid.machPhi
  rw [offset_rescale]
  funext i
  show Bin.shift (e i) (g.lo i) + Bin.shift (e i) (g.delta i) * _ / Machine.ofInt g.nIntervals =
    Bin.shift (e i) _
  rw [mul_shift, shift_div, shift_add]
  rfl

/-- A cover fitted to the rescaled columns searches and numbers the rows alike. -/
def SameSearch (e : Fin m → ℤ) (f f' : CubCover m (Bin b)) : Prop :=
  (∀ x, f'.machSearch (rescale e x) = f.machSearch x) ∧
    ((f.fitted = none ∧ f'.fitted = none) ∨ ∃ a a', f.fitted = some a ∧ f'.fitted = some a' ∧
      ∀ x, a'.grid.machOffset (rescale e x) = a.grid.machOffset x)

theorem fit_rescale (e : Fin m → ℤ) (dflt : ℕ → Bin b) (c : CubCover m (Bin b)) (ρ : ℕ → ℕ)
    (y : List (Fin m → Bin b)) (hy : y ≠ [])
    (hs : ∀ i, e i = 0 ∨ SpreadBin y i ∧ SpreadBin (y.map (rescale e)) i) :
    EndAlike (SameSearch e) (c.machFit dflt ρ y) (c.machFit dflt ρ (y.map (rescale e))) := by
  have hl : y.length ≠ 0 := by simpa using hy
  unfold CubCover.machFit
  rw [List.length_map, if_neg hl, if_neg hl]
  simp only []
  rw [bounds_rescale e _ y hs]
  split
  · exact .inl ⟨_, rfl, rfl⟩
  · cases machBounds c.params.nIntervals y with
    | error err => exact .inl ⟨err, rfl, rfl⟩
    | ok w =>
      obtain ⟨mn, mx, delta⟩ := w
      cases machRadius (c.params.overlapFrac.getD (dflt m)) with
      | error err => exact .inl ⟨err, rfl, rfl⟩
      | ok radius =>
        set g : Grid m (Bin b) :=
          ⟨c.params.overlapFrac.getD (dflt m), c.params.nIntervals, mn, mx, delta⟩ with hg
        simp only [ok_bind, pure_bind]
        refine EndAlike.bind (ball_image (φ := rescale e) unitChange_id
          ⟨⟨radius, pullback g.machGamma machChebyshev, c.params.kind, c.params.leafCapacity,
            c.params.leafRadius, c.params.pivoting⟩, none⟩
          ⟨⟨radius, pullback (g.rescale e).machGamma machChebyshev, c.params.kind,
            c.params.leafCapacity, c.params.leafRadius, c.params.pivoting⟩, none⟩
          ⟨rfl, rfl, rfl, by simp, rfl⟩ ?_ ρ y) ?_
        · intro x z
          simp only [pullback, gamma_rescale]
          rfl
        · intro f f' hf
          refine .inr ⟨_, _, rfl, rfl, ?_, .inr ⟨_, _, rfl, rfl, offset_rescale e g⟩⟩
          intro x
          show f'.search ((g.rescale e).machPhi (rescale e x)) = f.search (g.machPhi x)
          rw [phi_rescale, hf]

/-- The landmarks of the rescaled columns. -/
def PyDict.rescale (e : Fin m → ℤ) (lm : PyDict (List ℤ) (Fin m → Bin b)) :
    PyDict (List ℤ) (Fin m → Bin b) :=
  ⟨lm.items.map fun kv => (kv.1, Verif.rescale e kv.2)⟩

theorem lookup_rescale (e : Fin m → ℤ) (l : List (List ℤ × (Fin m → Bin b))) (k : List ℤ) :
    PyDict.lookupList (l.map fun kv => (kv.1, rescale e kv.2)) k =
      (PyDict.lookupList l k).map (rescale e) := by
  induction l with
  | nil => rfl
  | cons kv l ih =>
    obtain ⟨k', v⟩ := kv
    simp only [List.map_cons, PyDict.lookupList]
    split
    · rfl
    · exact ih

theorem setList_rescale (e : Fin m → ℤ) (l : List (List ℤ × (Fin m → Bin b))) (k : List ℤ)
    (x : Fin m → Bin b) :
    PyDict.setList (l.map fun kv => (kv.1, rescale e kv.2)) k (rescale e x) =
      (PyDict.setList l k x).map fun kv => (kv.1, rescale e kv.2) := by
  induction l with
  | nil => rfl
  | cons kv l ih =>
    obtain ⟨k', v⟩ := kv
    simp only [List.map_cons, PyDict.setList]
    split
    · rfl
    · rw [ih]
      rfl

theorem landmarks_rescale {e : Fin m → ℤ} {f f' : CubCover m (Bin b)} (h : SameSearch e f f')
    (y : List (Fin m → Bin b)) (lm : PyDict (List ℤ) (Fin m → Bin b)) :
    machLandmarks f' (lm.rescale e) (y.map (rescale e)) =
      (machLandmarks f lm y).map (PyDict.rescale e) := by
  induction y generalizing lm with
  | nil => rfl
  | cons x y ih =>
    rcases h.2 with ⟨h1, h2⟩ | ⟨a, a', h1, h2, h3⟩
    · simp only [List.map_cons, machLandmarks, h1, h2]
      rfl
    · simp only [List.map_cons, machLandmarks, h1, h2, h3]
      have hc : (lm.rescale e).contains (List.ofFn (a.grid.machOffset x)) =
          lm.contains (List.ofFn (a.grid.machOffset x)) := by
        unfold PyDict.contains PyDict.get? PyDict.rescale
        rw [lookup_rescale, Option.isSome_map]
      have hset : (lm.rescale e).set (List.ofFn (a.grid.machOffset x)) (rescale e x) =
          (lm.set (List.ofFn (a.grid.machOffset x)) x).rescale e := by
        unfold PyDict.set PyDict.rescale
        rw [setList_rescale]
      rw [hc, hset, ih, ih]
      split <;> rfl

theorem standardLoop_rescale {e : Fin m → ℤ} {f f' : CubCover m (Bin b)} (h : SameSearch e f f')
    (steps : ℕ) (lm : PyDict (List ℤ) (Fin m → Bin b)) :
    machStandardLoop f' steps (lm.rescale e) = machStandardLoop f steps lm := by
  induction steps generalizing lm with
  | zero => rfl
  | succ steps ih =>
    obtain ⟨l⟩ := lm
    unfold machStandardLoop
    rcases List.eq_nil_or_concat l with rfl | ⟨l, kv, rfl⟩
    · rfl
    · have he : ((⟨l ++ [kv]⟩ : PyDict (List ℤ) (Fin m → Bin b)).rescale e).items.isEmpty = false := by
        simp [PyDict.rescale]
      have he' : (l ++ [kv]).isEmpty = false := by simp
      have hp : ((⟨l ++ [kv]⟩ : PyDict (List ℤ) (Fin m → Bin b)).rescale e).popitem =
          .ok ((kv.1, rescale e kv.2), (⟨l⟩ : PyDict _ _).rescale e) := by
        simp [PyDict.rescale, PyDict.popitem]
      have hp' : (⟨l ++ [kv]⟩ : PyDict (List ℤ) (Fin m → Bin b)).popitem = .ok (kv, ⟨l⟩) := by
        simp [PyDict.popitem]
      simp only [List.concat_eq_append, he, he', hp, hp', ok_bind, ih, h.1]

end Verif
