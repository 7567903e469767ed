import Verif.Spec.Isometry

/-!
# The trees and the covers see the points only through the metric

Every function of the model commutes with a map of the points that keeps the metric, or changes
the unit of all distances.
-/

set_option autoImplicit false
set_option linter.unusedSectionVars false

namespace Verif

variable {T T' R R' : Type}

theorem except_map_bind {α β γ : Type} (f : α → β) (x : Py α) (g : β → Py γ) :
    (Except.map f x >>= g) = x >>= fun a => g (f a) := by
  cases x <;> rfl

theorem except_bind_map {α β γ : Type} (h : β → γ) (x : Py α) (g : α → Py β) :
    Except.map h (x >>= g) = x >>= fun a => Except.map h (g a) := by
  cases x <;> rfl

theorem except_map_pure {α β : Type} (f : α → β) (x : α) :
    Except.map f (pure x : Py α) = pure (f x) := rfl

theorem except_map_ok {α β : Type} (f : α → β) (x : α) :
    Except.map f (.ok x : Py α) = .ok (f x) := rfl

theorem except_map_error {α β : Type} (f : α → β) (e : PyErr) :
    Except.map f (.error e : Py α) = .error e := rfl

theorem except_map_id {α : Type} (x : Py α) : Except.map (fun a => a) x = x := by
  cases x <;> rfl

theorem getItem_map {α β : Type} (f : α → β) (l : List α) (i : ℕ) :
    getItem (l.map f) i = Except.map f (getItem l i) := by
  unfold getItem
  rw [List.getElem?_map]
  cases l[i]? <;> rfl

theorem setItem_map {α β : Type} (f : α → β) (l : List α) (i : ℕ) (x : α) :
    setItem (l.map f) i (f x) = Except.map (List.map f) (setItem l i x) := by
  unfold setItem
  rw [List.length_map]
  split
  · rw [except_map_ok, List.map_set]
  · rfl

theorem swapList_map {α β : Type} (f : α → β) (l : List α) (i j : ℕ) :
    swapList (l.map f) i j = Except.map (List.map f) (swapList l i j) := by
  unfold swapList
  simp only [getItem_map, except_map_bind, except_bind_map, setItem_map]

theorem mapM_getItem_map {α β : Type} (f : α → β) (l : List α) (is : List ℕ) :
    is.mapM (fun j => getItem (l.map f) j) = Except.map (List.map f) (is.mapM fun j => getItem l j) := by
  induction is with
  | nil => rfl
  | cons i is ih =>
    simp only [List.mapM_cons, getItem_map, except_map_bind, except_bind_map, except_map_pure]
    refine bind_congr fun a => ?_
    rw [show (is.mapM fun j => Except.map f (getItem l j)) = is.mapM fun j => getItem (l.map f) j by
      simp only [getItem_map], ih, except_map_bind]
    rfl

/-! ### The array -/

/-- The array of the images of the points. -/
def VPArray.image (φ : T → T') (ψ : R → R') (a : VPArray T R) : VPArray T' R' :=
  ⟨a.dataset.map φ, a.distances.map ψ, a.indices, a.terminal⟩

def BuildState.image (φ : T → T') (ψ : R → R') (st : BuildState T R) : BuildState T' R' :=
  ⟨st.arr.image φ ψ, st.draws⟩

def VPNode.image (φ : T → T') (ψ : R → R') : VPNode T R → VPNode T' R'
  | .leaf s e => .leaf s e
  | .node r c left right => .node (ψ r) (φ c) (left.image φ ψ) (right.image φ ψ)

section quickselect
variable {β γ : Type}

/-- The arrays of quickselect, with other distances. -/
def QState.image (ψ : R → R') (s : QState R β γ) : QState R' β γ := ⟨s.data.map ψ, s.extra1, s.extra2⟩

theorem image_swapAll (ψ : R → R') (s : QState R β γ) (i j : ℕ) :
    swapAll (s.image ψ) i j = Except.map (·.image ψ) (swapAll s i j) := by
  unfold swapAll
  simp only [QState.image, swapList_map, except_map_bind, except_bind_map]
  rfl

variable [LT R] [DecidableLT R] [LT R'] [DecidableLT R'] {ψ : R → R'}
  (hψ : ∀ x y, ψ x < ψ y ↔ x < y)
include hψ

theorem image_partitionLoop (p : R) (cnt : ℕ) : ∀ (j h : ℕ) (s : QState R β γ),
    partitionLoop (ψ p) cnt j h (s.image ψ) =
      Except.map (fun q => (q.1.image ψ, q.2)) (partitionLoop p cnt j h s) := by
  induction cnt with
  | zero => intros; rfl
  | succ cnt ih =>
    intro j h s
    have e : (s.image ψ).data = s.data.map ψ := rfl
    simp only [partitionLoop, e, getItem_map, except_map_bind, except_bind_map, hψ]
    refine bind_congr fun x => ?_
    split
    · simp only [image_swapAll, except_map_bind, except_bind_map, ih]
    · exact ih _ _ _

theorem image_quickselectLoop (k fuel : ℕ) : ∀ (st e : ℕ) (h : ℤ) (s : QState R β γ),
    quickselectLoop k fuel st e h (s.image ψ) =
      Except.map (·.image ψ) (quickselectLoop k fuel st e h s) := by
  induction fuel with
  | zero => intros; rfl
  | succ fuel ih =>
    intro st e h s
    simp only [quickselectLoop]
    split
    · rfl
    · have e : (s.image ψ).data = s.data.map ψ := rfl
      simp only [e, getItem_map, except_map_bind, except_bind_map, image_swapAll, Verif.partition,
        image_partitionLoop hψ]
      refine bind_congr fun x => bind_congr fun s => bind_congr fun q => bind_congr fun s => ?_
      split
      · exact ih _ _ _ _
      · exact ih _ _ _ _

theorem image_quickselect (s : QState R β γ) (st e k : ℕ) :
    quickselect (s.image ψ) st e k = Except.map (·.image ψ) (quickselect s st e k) := by
  unfold quickselect
  split
  · rfl
  · exact image_quickselectLoop hψ _ _ _ _ _ _

end quickselect

section array
variable (φ : T → T') (ψ : R → R') (a : VPArray T R)

theorem image_size : (a.image φ ψ).size = a.size := by
  simp [VPArray.image, VPArray.size]

theorem image_getPoint (i : ℕ) : (a.image φ ψ).getPoint i = Except.map φ (a.getPoint i) := by
  unfold VPArray.getPoint VPArray.image
  simp only [getItem_map, except_bind_map]

theorem image_getPoints (s e : ℕ) :
    (a.image φ ψ).getPoints s e = Except.map (List.map φ) (a.getPoints s e) :=
  mapM_getItem_map φ a.dataset _

theorem image_getDistance (i : ℕ) : (a.image φ ψ).getDistance i = Except.map ψ (a.getDistance i) :=
  getItem_map ψ a.distances i

theorem image_isTerminal (i : ℕ) : (a.image φ ψ).isTerminal i = a.isTerminal i := rfl

theorem image_setDistance (i : ℕ) (x : R) :
    (a.image φ ψ).setDistance i (ψ x) = Except.map (·.image φ ψ) (a.setDistance i x) := by
  unfold VPArray.setDistance
  simp only [VPArray.image, setItem_map, except_map_bind, except_bind_map]
  rfl

theorem image_setTerminal (i : ℕ) (b : Bool) :
    (a.image φ ψ).setTerminal i b = Except.map (·.image φ ψ) (a.setTerminal i b) := by
  obtain ⟨ds, di, ix, t⟩ := a
  cases t with
  | none => rfl
  | some t =>
    simp only [VPArray.setTerminal, VPArray.image, except_bind_map]
    rfl

theorem image_swap (i j : ℕ) :
    (a.image φ ψ).swap i j = Except.map (·.image φ ψ) (a.swap i j) := by
  unfold VPArray.swap
  rw [show (a.image φ ψ).rows = a.rows.image ψ from rfl]
  simp only [image_swapAll, except_map_bind, except_bind_map]
  rfl

theorem image_partition [LT R] [DecidableLT R] [LT R'] [DecidableLT R']
    (hψ : ∀ x y, ψ x < ψ y ↔ x < y) (s e k : ℕ) :
    (a.image φ ψ).partition s e k = Except.map (·.image φ ψ) (a.partition s e k) := by
  unfold VPArray.partition
  rw [show (a.image φ ψ).rows = a.rows.image ψ from rfl]
  simp only [image_quickselect hψ, except_map_bind, except_bind_map]
  rfl

theorem image_readFlag (i : ℕ) : readFlag (a.image φ ψ) i = readFlag a i := rfl

theorem image_writeFlag (i : ℕ) (f : Option Bool) :
    writeFlag (a.image φ ψ) i f = Except.map (·.image φ ψ) (writeFlag a i f) := by
  cases f with
  | none => rfl
  | some b => exact image_setTerminal φ ψ a i b

end array

/-! ### Building -/

section build
variable [LE R] [LT R] [DecidableLE R] [DecidableLT R] [Zero R] [Neg R] [Sub R]
  [LE R'] [LT R'] [DecidableLE R'] [DecidableLT R'] [Zero R'] [Neg R'] [Sub R'] {ψ : R → R'}
  (hψ : UnitChange ψ) {φ : T → T'} {d : T → T → R} {d' : T' → T' → R'}
  (hd : ∀ x z, d' (φ x) (φ z) = ψ (d x z))
include hψ hd

theorem image_furthestLoop (a : VPArray T R) (x : T) (cnt : ℕ) : ∀ (j f : ℕ) (r : R),
    furthestLoop d' (a.image φ ψ) (φ x) cnt j f (ψ r) = furthestLoop d a x cnt j f r := by
  induction cnt with
  | zero => intros; rfl
  | succ cnt ih =>
    intro j f r
    simp only [furthestLoop, image_getPoint, except_map_bind, hd, hψ.lt, ih]

theorem image_furthest (a : VPArray T R) (s e i : ℕ) :
    furthest d' (a.image φ ψ) s e i = furthest d a s e i := by
  unfold furthest
  simp only [image_getPoint, except_map_bind, ← hψ.zero, image_furthestLoop hψ hd]

theorem image_pivot (ρ : ℕ → ℕ) (p : String) (s e : ℕ) (st : BuildState T R) :
    pivot d' ρ p s e (st.image φ ψ) = Except.map (·.image φ ψ) (pivot d ρ p s e st) := by
  unfold pivot
  split
  · unfold pivotingRandom
    split
    · rfl
    · by_cases h : s + ρ st.draws % (e - s) > s
      · simp only [BuildState.image, if_pos h, image_swap, except_map_bind, except_bind_map]
        rfl
      · have h' : ¬ s + ρ (st.image φ ψ).draws % (e - s) > s := h
        simp only [if_neg h, if_neg h']
        rfl
  · split
    · unfold pivotingFurthest
      split
      · rfl
      · simp only [BuildState.image, image_furthest hψ hd, except_bind_map]
        refine bind_congr fun i => bind_congr fun j => ?_
        by_cases h : j > s
        · simp only [if_pos h, image_swap, except_map_bind, except_bind_map]
          rfl
        · simp only [if_neg h]
          rfl
    · rfl

theorem image_updateLoop (v : T) (flag : Option Bool) (cnt : ℕ) : ∀ (i : ℕ) (a : VPArray T R),
    updateLoop d' (φ v) flag cnt i (a.image φ ψ) =
      Except.map (·.image φ ψ) (updateLoop d v flag cnt i a) := by
  induction cnt with
  | zero => intros; rfl
  | succ cnt ih =>
    intro i a
    simp only [updateLoop, image_getPoint, except_map_bind, except_bind_map, hd, image_setDistance,
      image_writeFlag, ih]

theorem image_update (ρ : ℕ → ℕ) (p : String) (s e : ℕ) (st : BuildState T R) :
    update d' ρ p s e (st.image φ ψ) = Except.map (·.image φ ψ) (update d ρ p s e st) := by
  unfold update
  rw [image_pivot hψ hd]
  simp only [except_map_bind, except_bind_map]
  refine bind_congr fun st => ?_
  simp only [BuildState.image, image_getPoint, except_map_bind, image_readFlag,
    image_updateLoop hψ hd]
  rfl

omit [LE R] [LT R] [DecidableLE R] [DecidableLT R] [Zero R] [Neg R] [Sub R]
  [LE R'] [LT R'] [DecidableLE R'] [DecidableLT R'] [Zero R'] [Neg R'] [Sub R'] hψ hd in
theorem inUnit_leafCapacity (p : VPParams R) : (p.inUnit ψ).leafCapacity = p.leafCapacity := rfl

omit [LE R] [LT R] [DecidableLE R] [DecidableLT R] [Zero R] [Neg R] [Sub R]
  [LE R'] [LT R'] [DecidableLE R'] [DecidableLT R'] [Zero R'] [Neg R'] [Sub R'] hψ hd in
theorem inUnit_leafRadius (p : VPParams R) : (p.inUnit ψ).leafRadius = ψ p.leafRadius := rfl

omit [LE R] [LT R] [DecidableLE R] [DecidableLT R] [Zero R] [Neg R] [Sub R]
  [LE R'] [LT R'] [DecidableLE R'] [DecidableLT R'] [Zero R'] [Neg R'] [Sub R'] hψ hd in
theorem inUnit_pivoting (p : VPParams R) : (p.inUnit ψ).pivoting = p.pivoting := rfl

theorem image_flatBuildLoop (ρ : ℕ → ℕ) (p : VPParams R) (fuel : ℕ) :
    ∀ (stack : List (ℕ × ℕ)) (st : BuildState T R),
    flatBuildLoop d' ρ (p.inUnit ψ) fuel stack (st.image φ ψ) =
      Except.map (·.image φ ψ) (flatBuildLoop d ρ p fuel stack st) := by
  induction fuel with
  | zero => intros; rfl
  | succ fuel ih =>
    intro stack st
    match stack with
    | [] => rfl
    | (s, e) :: stack =>
      have ih' : ∀ stack (a : VPArray T R) n, flatBuildLoop d' ρ (p.inUnit ψ) fuel stack ⟨a.image φ ψ, n⟩ =
          Except.map (·.image φ ψ) (flatBuildLoop d ρ p fuel stack ⟨a, n⟩) := fun stack a n =>
        ih stack ⟨a, n⟩
      simp only [flatBuildLoop, inUnit_leafCapacity, inUnit_leafRadius, inUnit_pivoting,
        image_update hψ hd, except_map_bind, except_bind_map]
      refine bind_congr fun st => ?_
      simp only [BuildState.image, image_partition _ _ _ hψ.lt, except_map_bind, image_getDistance, hψ.lt]
      refine bind_congr fun a => bind_congr fun r => ?_
      split <;>
        simp only [image_setDistance, image_setTerminal, except_map_bind, except_bind_map, ih'] <;> rfl

omit hd in
theorem image_flatInit (φ : T → T') (X : List T) :
    flatInit (R := R') (X.map φ) = (flatInit X).image φ ψ := by
  simp [flatInit, VPArray.image, Function.comp_def, hψ.zero]

omit hd in
theorem image_hierInit (φ : T → T') (X : List T) :
    hierInit (R := R') (X.map φ) = (hierInit X).image φ ψ := by
  simp [hierInit, VPArray.image, Function.comp_def, hψ.zero]

theorem image_flatBuild (ρ : ℕ → ℕ) (p : VPParams R) (X : List T) :
    flatBuild d' ρ (p.inUnit ψ) (X.map φ) = Except.map (·.image φ ψ) (flatBuild d ρ p X) := by
  unfold flatBuild
  simp only [image_flatInit hψ, image_size]
  split
  · have := image_flatBuildLoop hψ hd ρ p (2 * (flatInit (R := R) X).size + 2)
      [(0, (flatInit (R := R) X).size)] ⟨flatInit X, 0⟩
    simp only [BuildState.image] at this
    rw [this]
    simp only [except_map_bind, except_bind_map]
    rfl
  · rfl

theorem image_hierBuildRec (ρ : ℕ → ℕ) (p : VPParams R) (fuel : ℕ) :
    ∀ (s e : ℕ) (st : BuildState T R),
    hierBuildRec d' ρ (p.inUnit ψ) fuel s e (st.image φ ψ) =
      Except.map (fun q => (q.1.image φ ψ, q.2.image φ ψ)) (hierBuildRec d ρ p fuel s e st) := by
  induction fuel with
  | zero => intros; rfl
  | succ fuel ih =>
    intro s e st
    have ih' : ∀ s e (a : VPArray T R) n, hierBuildRec d' ρ (p.inUnit ψ) fuel s e ⟨a.image φ ψ, n⟩ =
        Except.map (fun q => (q.1.image φ ψ, q.2.image φ ψ)) (hierBuildRec d ρ p fuel s e ⟨a, n⟩) :=
      fun s e a n => ih s e ⟨a, n⟩
    simp only [hierBuildRec]
    by_cases h : e - s ≤ p.leafCapacity
    · have h' : e - s ≤ (p.inUnit ψ).leafCapacity := h
      rw [if_pos h, if_pos h']
      rfl
    · have h' : ¬ e - s ≤ (p.inUnit ψ).leafCapacity := h
      rw [if_neg h, if_neg h']
      simp only [inUnit_leafRadius, inUnit_pivoting, image_update hψ hd, except_map_bind, except_bind_map]
      refine bind_congr fun st => ?_
      simp only [BuildState.image, image_partition _ _ _ hψ.lt, except_map_bind, image_getDistance,
        image_getPoint, image_setDistance, hψ.le]
      refine bind_congr fun v => bind_congr fun a => bind_congr fun r => bind_congr fun a => ?_
      split
      · rfl
      · simp only [ih', except_map_bind, except_bind_map]
        refine bind_congr fun q => ?_
        rw [ih, except_map_bind]
        refine bind_congr fun q' => rfl

theorem image_hierBuild (ρ : ℕ → ℕ) (p : VPParams R) (X : List T) :
    hierBuild d' ρ (p.inUnit ψ) (X.map φ) =
      Except.map (fun q => (q.1.image φ ψ, q.2.image φ ψ)) (hierBuild d ρ p X) := by
  unfold hierBuild
  simp only [image_hierInit hψ, image_size]
  split
  · have := image_hierBuildRec hψ hd ρ p ((hierInit (R := R) X).size + 1) 0
      (hierInit (R := R) X).size ⟨hierInit X, 0⟩
    simp only [BuildState.image] at this
    rw [this]
    simp only [except_map_bind, except_bind_map]
    rfl
  · rfl

end build

/-! ### The heap -/

section heap
variable {K K' V V' : Type}

/-- The heap of the images of the values. -/
def MaxHeap.image (f : V → V') (ψ : K → K') (h : MaxHeap K V) : MaxHeap K' V' :=
  ⟨h.heap.map (Prod.map ψ f), h.iter⟩

def KnnState.image (f : T → T') (ψ : R → R') (st : KnnState T R) : KnnState T' R' :=
  ⟨st.radius.map ψ, st.result.image f ψ⟩

variable (f : V → V') (ψ : K → K') (h : MaxHeap K V)

theorem image_len : (h.image f ψ).len = h.len := by simp [MaxHeap.image, MaxHeap.len]

theorem image_top : (h.image f ψ).top = Except.map (Option.map (Prod.map ψ f)) h.top := by
  obtain ⟨l, i⟩ := h
  cases l <;> rfl

theorem image_next : (h.image f ψ).next =
    Except.map (fun q => (q.1.map (Prod.map ψ f), q.2.image f ψ)) h.next := by
  obtain ⟨l, i⟩ := h
  cases i with
  | unset => rfl
  | exhausted => rfl
  | live n =>
    simp only [MaxHeap.next, MaxHeap.image, List.getElem?_map]
    cases l[n]? <;> rfl

theorem image_collectLoop (fuel : ℕ) : ∀ h : MaxHeap K V, (h.image f ψ).collectLoop fuel =
    Except.map (fun q => (q.1.map (Prod.map ψ f), q.2.image f ψ)) (h.collectLoop fuel) := by
  induction fuel with
  | zero => intros; rfl
  | succ fuel ih =>
    intro h
    simp only [MaxHeap.collectLoop, image_next, except_map_bind, except_bind_map]
    refine bind_congr fun q => ?_
    obtain ⟨_ | x, h⟩ := q
    · rfl
    · simp only [Option.map_some, ih, except_map_bind, except_bind_map]
      rfl

theorem image_toList : (h.image f ψ).toList =
    Except.map (fun q => (q.1.map (Prod.map ψ f), q.2.image f ψ)) h.toList := by
  unfold MaxHeap.toList
  have := image_collectLoop f ψ (h.heap.length + 1) h.startIter
  simpa [MaxHeap.image, MaxHeap.startIter] using this

variable [LT K] [DecidableLT K] [LT K'] [DecidableLT K'] {ψ} (hψ : ∀ x y, ψ x < ψ y ↔ x < y)
include hψ

theorem image_getLocalMax (l : List (K × V)) (i : ℕ) :
    getLocalMax (l.map (Prod.map ψ f)) i = getLocalMax l i := by
  unfold getLocalMax
  simp only [getItem_map, except_map_bind, List.length_map, Prod.map_fst, hψ]

theorem image_fixDown (l : List (K × V)) (i : ℕ) :
    fixDown (l.map (Prod.map ψ f)) i =
      Except.map (fun q => (q.1.map (Prod.map ψ f), q.2)) (fixDown l i) := by
  unfold fixDown
  simp only [image_getLocalMax f hψ, except_bind_map]
  refine bind_congr fun j => ?_
  split
  · simp only [swapList_map, except_map_bind, except_bind_map]
    rfl
  · rfl

theorem image_fixUp (l : List (K × V)) (i : ℕ) :
    fixUp (l.map (Prod.map ψ f)) i =
      Except.map (fun q => (q.1.map (Prod.map ψ f), q.2)) (fixUp l i) := by
  unfold fixUp
  simp only [getItem_map, except_map_bind, except_bind_map, Prod.map_fst, hψ]
  refine bind_congr fun x => bind_congr fun y => ?_
  split
  · simp only [swapList_map, except_map_bind, except_bind_map]
    rfl
  · rfl

theorem image_bubbleDownLoop (fuel : ℕ) : ∀ (l : List (K × V)) (i : ℕ),
    bubbleDownLoop fuel (l.map (Prod.map ψ f)) i =
      Except.map (List.map (Prod.map ψ f)) (bubbleDownLoop fuel l i) := by
  induction fuel with
  | zero => intros; rfl
  | succ fuel ih =>
    intro l i
    simp only [bubbleDownLoop, image_fixDown f hψ, except_map_bind, except_bind_map]
    refine bind_congr fun q => ?_
    split
    · rfl
    · exact ih _ _

theorem image_bubbleUpLoop (fuel : ℕ) : ∀ (l : List (K × V)) (i : ℕ),
    bubbleUpLoop fuel (l.map (Prod.map ψ f)) i =
      Except.map (List.map (Prod.map ψ f)) (bubbleUpLoop fuel l i) := by
  induction fuel with
  | zero => intros; rfl
  | succ fuel ih =>
    intro l i
    simp only [bubbleUpLoop, image_fixUp f hψ, except_map_bind, except_bind_map]
    refine bind_congr fun q => ?_
    split
    · rfl
    · exact ih _ _

theorem image_bubbleDown (l : List (K × V)) :
    bubbleDown (l.map (Prod.map ψ f)) = Except.map (List.map (Prod.map ψ f)) (bubbleDown l) := by
  unfold bubbleDown
  rw [List.length_map]
  exact image_bubbleDownLoop f hψ _ _ _

theorem image_bubbleUp (l : List (K × V)) :
    bubbleUp (l.map (Prod.map ψ f)) = Except.map (List.map (Prod.map ψ f)) (bubbleUp l) := by
  unfold bubbleUp
  rw [List.length_map]
  exact image_bubbleUpLoop f hψ _ _ _

theorem image_pop : (h.image f ψ).pop =
    Except.map (fun q => (q.1.map (Prod.map ψ f), q.2.image f ψ)) h.pop := by
  obtain ⟨l, i⟩ := h
  cases l with
  | nil => rfl
  | cons x xs =>
    have e : (MaxHeap.image f ψ ⟨x :: xs, i⟩ : MaxHeap K' V') =
      ⟨Prod.map ψ f x :: xs.map (Prod.map ψ f), i⟩ := rfl
    rw [e]
    simp only [MaxHeap.pop]
    rw [← List.map_cons]
    simp only [getItem_map, except_map_bind, except_bind_map, List.length_map, setItem_map]
    refine bind_congr fun y => bind_congr fun z => bind_congr fun l => ?_
    rw [← List.map_dropLast, image_bubbleDown f hψ, except_map_bind]
    rfl

theorem image_add (k : K) (v : V) :
    (h.image f ψ).add (ψ k) (f v) = Except.map (·.image f ψ) (h.add k v) := by
  unfold MaxHeap.add
  have : (h.image f ψ).heap ++ [(ψ k, f v)] = (h.heap ++ [(k, v)]).map (Prod.map ψ f) := by
    simp [MaxHeap.image]
  rw [this, image_bubbleUp f hψ]
  simp only [except_map_bind, except_bind_map]
  rfl

end heap

/-! ### Searching -/

section search
variable [LE R] [LT R] [DecidableLE R] [DecidableLT R] [Zero R] [Neg R] [Sub R]
  [LE R'] [LT R'] [DecidableLE R'] [DecidableLT R'] [Zero R'] [Neg R'] [Sub R'] {ψ : R → R'}
  (hψ : UnitChange ψ) {φ : T → T'} {d : T → T → R} {d' : T' → T' → R'}
  (hd : ∀ x z, d' (φ x) (φ z) = ψ (d x z))
include hψ hd

omit hd in
theorem pyAbs_unit (x : R) : pyAbs (ψ x) = ψ (pyAbs x) := by
  unfold pyAbs
  rw [← hψ.zero]
  simp only [hψ.lt]
  split
  · rw [hψ.neg]
  · rfl

omit hd in
theorem insideBall_unit (eps : R) (incl : Bool) (x : R) :
    insideBall (ψ eps) incl (ψ x) = insideBall eps incl x := by
  unfold insideBall
  simp only [hψ.lt, hψ.le]

omit hd in
theorem geRadius_unit (x : R) (r : Option R) : geRadius (ψ x) (r.map ψ) = geRadius x r := by
  cases r with
  | none => rfl
  | some r => simp only [Option.map_some, geRadius, hψ.le]

omit hd in
theorem radiusGt_unit (r : Option R) (x : R) : radiusGt (r.map ψ) (ψ x) = radiusGt r x := by
  cases r with
  | none => rfl
  | some r => simp only [Option.map_some, radiusGt, hψ.lt]

omit hd in
theorem leRadius_unit (x : R) (r : Option R) : leRadius (ψ x) (r.map ψ) = leRadius x r := by
  cases r with
  | none => rfl
  | some r => simp only [Option.map_some, leRadius, hψ.le]

theorem image_filter (eps : R) (incl : Bool) (x : T) (l : List T) :
    (l.map φ).filter (fun z => insideBall (ψ eps) incl (d' (φ x) z)) =
      (l.filter fun z => insideBall eps incl (d x z)).map φ := by
  rw [List.filter_map]
  congr 1
  exact List.filter_congr fun z _ => by
    simp only [Function.comp, hd, insideBall_unit hψ]

theorem image_flatBallLoop (a : VPArray T R) (x : T) (eps : R) (incl : Bool) (fuel : ℕ) :
    ∀ (stack : List (ℕ × ℕ)) (res : List T),
    flatBallLoop d' (a.image φ ψ) (φ x) (ψ eps) incl fuel stack (res.map φ) =
      Except.map (List.map φ) (flatBallLoop d a x eps incl fuel stack res) := by
  induction fuel with
  | zero => intros; rfl
  | succ fuel ih =>
    intro stack res
    match stack with
    | [] => rfl
    | (s, e) :: stack =>
      simp only [flatBallLoop, image_getDistance, image_getPoint, image_isTerminal, except_map_bind,
        except_bind_map]
      refine bind_congr fun r => bind_congr fun v => bind_congr fun t => ?_
      cases t with
      | true =>
        simp only [if_true, image_getPoints, except_map_bind, except_bind_map,
          image_filter hψ hd, ← List.map_append, ih]
      | false =>
        simp only [Bool.false_eq_true, if_false, hd, insideBall_unit hψ, ← hψ.sub, pyAbs_unit hψ,
          hψ.le]
        have : (if insideBall eps incl (d x v) = true then res.map φ ++ [φ v] else res.map φ) =
            (if insideBall eps incl (d x v) = true then res ++ [v] else res).map φ := by
          split <;> simp
        rw [this, ih]

theorem image_hierBallRec (a : VPArray T R) (x : T) (eps : R) (incl : Bool) (t : VPNode T R) :
    ∀ res : List T, hierBallRec d' (a.image φ ψ) (φ x) (ψ eps) incl (t.image φ ψ) (res.map φ) =
      Except.map (List.map φ) (hierBallRec d a x eps incl t res) := by
  induction t with
  | leaf s e =>
    intro res
    simp only [VPNode.image, hierBallRec, image_getPoints, except_map_bind, except_bind_map,
      image_filter hψ hd, ← List.map_append]
    rfl
  | node r v left right ihl ihr =>
    intro res
    simp only [VPNode.image, hierBallRec, hd, insideBall_unit hψ, ← hψ.sub, pyAbs_unit hψ, hψ.le]
    have : (if insideBall eps incl (d v x) = true then res.map φ ++ [φ v] else res.map φ) =
        (if insideBall eps incl (d v x) = true then res ++ [v] else res).map φ := by
      split <;> simp
    rw [this]
    split
    · simp only [ihl, except_map_bind, except_bind_map]
      refine bind_congr fun l => ?_
      split
      · exact ihr l
      · rfl
    · simp only [ihr, except_map_bind, except_bind_map]
      refine bind_congr fun l => ?_
      split
      · exact ihl l
      · rfl

omit hd in
theorem image_shrinkHeap (φ : T → T') (k fuel : ℕ) : ∀ h : MaxHeap R T,
    shrinkHeap k fuel (h.image φ ψ) = Except.map (·.image φ ψ) (shrinkHeap k fuel h) := by
  induction fuel with
  | zero => intros; rfl
  | succ fuel ih =>
    intro h
    simp only [shrinkHeap, image_len]
    split
    · simp only [image_pop _ _ hψ.lt, except_map_bind, except_bind_map, ih]
    · rfl

theorem image_knnProcess (x : T) (k : ℕ) (st : KnnState T R) (z : T) :
    knnProcess d' (φ x) k (st.image φ ψ) (φ z) =
      Except.map (fun q => (ψ q.1, q.2.image φ ψ)) (knnProcess d x k st z) := by
  unfold knnProcess
  simp only [hd, KnnState.image, geRadius_unit hψ]
  by_cases h0 : geRadius (d x z) st.radius = true
  · simp only [h0, if_true]
    rfl
  · rw [if_neg h0, if_neg h0]
    simp only [image_add _ _ hψ.lt, except_map_bind, except_bind_map, image_len, image_shrinkHeap hψ]
    refine bind_congr fun h => bind_congr fun h => ?_
    split
    · simp only [image_top, except_map_bind, except_bind_map]
      refine bind_congr fun o => ?_
      obtain _ | ⟨r, v⟩ := o <;> rfl
    · rfl

theorem image_knnProcessAll (x : T) (k : ℕ) (l : List T) : ∀ st : KnnState T R,
    knnProcessAll d' (φ x) k (l.map φ) (st.image φ ψ) =
      Except.map (·.image φ ψ) (knnProcessAll d x k l st) := by
  induction l with
  | nil => intros; rfl
  | cons z l ih =>
    intro st
    simp only [List.map_cons, knnProcessAll, image_knnProcess hψ hd, except_map_bind, except_bind_map,
      ih]

/-- A postponed visit, with its distance in other units. -/
def inUnit (ψ : R → R') (e : ℕ × ℕ × R × KnnAction) : ℕ × ℕ × R' × KnnAction :=
  (e.1, e.2.1, ψ e.2.2.1, e.2.2.2)

theorem image_flatKnnLoop (a : VPArray T R) (x : T) (k : ℕ) (fuel : ℕ) :
    ∀ (stack : List (ℕ × ℕ × R × KnnAction)) (st : KnnState T R),
    flatKnnLoop d' (a.image φ ψ) (φ x) k fuel (stack.map (inUnit ψ)) (st.image φ ψ) =
      Except.map (·.image φ ψ) (flatKnnLoop d a x k fuel stack st) := by
  induction fuel with
  | zero => intros; rfl
  | succ fuel ih =>
    intro stack st
    match stack with
    | [] => rfl
    | (s, e, thr, action) :: stack =>
      have ih0 : ∀ (e : ℕ × ℕ × R × KnnAction) (st : KnnState T R),
          flatKnnLoop d' (a.image φ ψ) (φ x) k fuel (inUnit ψ e :: stack.map (inUnit ψ))
            (st.image φ ψ) = Except.map (·.image φ ψ) (flatKnnLoop d a x k fuel (e :: stack) st) :=
        fun e st => ih (e :: stack) st
      have ih1 : ∀ (e e' : ℕ × ℕ × R × KnnAction) (st : KnnState T R),
          flatKnnLoop d' (a.image φ ψ) (φ x) k fuel
            (inUnit ψ e :: inUnit ψ e' :: stack.map (inUnit ψ)) (st.image φ ψ) =
          Except.map (·.image φ ψ) (flatKnnLoop d a x k fuel (e :: e' :: stack) st) :=
        fun e e' st => ih (e :: e' :: stack) st
      simp only [List.map_cons, inUnit, flatKnnLoop, image_getDistance, image_getPoint,
        image_isTerminal, except_map_bind, except_bind_map]
      refine bind_congr fun r => bind_congr fun v => bind_congr fun t => ?_
      cases t with
      | true =>
        simp only [if_true, image_getPoints, except_map_bind, except_bind_map,
          image_knnProcessAll hψ hd, ih]
      | false =>
        simp only [Bool.false_eq_true, if_false]
        cases action with
        | pre =>
          simp only [image_knnProcess hψ hd, except_map_bind, except_bind_map, hψ.le, ← hψ.sub,
            pyAbs_unit hψ]
          refine bind_congr fun q => ?_
          rw [← ih1]
          simp only [inUnit, hψ.zero]
        | post =>
          dsimp only
          rw [show (st.image φ ψ).radius = st.radius.map ψ from rfl, radiusGt_unit hψ]
          by_cases h : radiusGt st.radius thr = true
          · rw [if_pos h, if_pos h, ← ih0]
            simp only [inUnit, hψ.zero]
          · rw [if_neg h, if_neg h]
            exact ih _ _

omit hd in
theorem image_knnItems (φ : T → T') (k : ℕ) (h : MaxHeap R T) :
    knnItems k (h.image φ ψ) = Except.map (List.map φ) (knnItems k h) := by
  unfold knnItems
  simp only [image_len, image_shrinkHeap hψ, image_toList, except_map_bind, except_bind_map]
  refine bind_congr fun h => bind_congr fun q => ?_
  rw [except_map_pure, List.map_map, List.map_map]
  rfl

omit hd in
theorem image_hierKnnRadius (φ : T → T') (k : ℕ) (h : MaxHeap R T) :
    hierKnnRadius k (h.image φ ψ) = Except.map (Option.map ψ) (hierKnnRadius k h) := by
  unfold hierKnnRadius
  simp only [image_len, image_top, except_map_bind]
  split
  · rfl
  · simp only [except_bind_map]
    refine bind_congr fun o => ?_
    obtain _ | ⟨r, v⟩ := o <;> rfl

omit hd in
theorem image_hierKnnConsider (φ : T → T') (k : ℕ) (h : MaxHeap R T) (r : R) (x : T) :
    hierKnnConsider k (h.image φ ψ) (ψ r) (φ x) = Except.map (·.image φ ψ) (hierKnnConsider k h r x) := by
  unfold hierKnnConsider hierKnnAdd
  simp only [image_hierKnnRadius hψ, except_map_bind, except_bind_map, radiusGt_unit hψ]
  refine bind_congr fun q => ?_
  split
  · simp only [image_add _ _ hψ.lt, except_map_bind, except_bind_map, image_len, image_pop _ _ hψ.lt]
    refine bind_congr fun h => ?_
    split
    · simp only [except_bind_map]
      rfl
    · rfl
  · rfl

theorem image_hierKnnLeaf (x : T) (k : ℕ) (l : List T) : ∀ h : MaxHeap R T,
    hierKnnLeaf d' (φ x) k (l.map φ) (h.image φ ψ) =
      Except.map (·.image φ ψ) (hierKnnLeaf d x k l h) := by
  induction l with
  | nil => intros; rfl
  | cons z l ih =>
    intro h
    simp only [List.map_cons, hierKnnLeaf, hd, image_hierKnnConsider hψ, except_map_bind,
      except_bind_map, ih]

theorem image_hierKnnRec (a : VPArray T R) (x : T) (k : ℕ) (t : VPNode T R) :
    ∀ h : MaxHeap R T, hierKnnRec d' (a.image φ ψ) (φ x) k (t.image φ ψ) (h.image φ ψ) =
      Except.map (·.image φ ψ) (hierKnnRec d a x k t h) := by
  induction t with
  | leaf s e =>
    intro h
    simp only [VPNode.image, hierKnnRec, image_getPoints, except_map_bind, except_bind_map,
      image_hierKnnLeaf hψ hd]
  | node r v left right ihl ihr =>
    intro h
    simp only [VPNode.image, hierKnnRec, hd, ← hψ.sub, pyAbs_unit hψ, hψ.le, image_hierKnnConsider hψ, except_map_bind,
      except_bind_map]
    refine bind_congr fun h => ?_
    split
    · simp only [ihl, except_map_bind, except_bind_map, image_hierKnnRadius hψ, leRadius_unit hψ]
      refine bind_congr fun h => bind_congr fun q => ?_
      split
      · exact ihr h
      · rfl
    · simp only [ihr, except_map_bind, except_bind_map, image_hierKnnRadius hψ, leRadius_unit hψ]
      refine bind_congr fun h => bind_congr fun q => ?_
      split
      · exact ihl h
      · rfl

end search

/-! ### The trees and the covers -/

/-- Two calls end alike: with results related by `Q`, or with the same error. -/
def EndAlike {α β : Type} (Q : α → β → Prop) (x : Py α) (y : Py β) : Prop :=
  (∃ e, x = .error e ∧ y = .error e) ∨ ∃ a b, x = .ok a ∧ y = .ok b ∧ Q a b

theorem EndAlike.bind {α β α' β' : Type} {Q : α → β → Prop} {Q' : α' → β' → Prop} {x : Py α}
    {y : Py β} {f : α → Py α'} {g : β → Py β'} (h : EndAlike Q x y)
    (hf : ∀ a b, Q a b → EndAlike Q' (f a) (g b)) : EndAlike Q' (x >>= f) (y >>= g) := by
  obtain ⟨e, rfl, rfl⟩ | ⟨a, b, rfl, rfl, hq⟩ := h
  · exact .inl ⟨e, rfl, rfl⟩
  · exact hf a b hq

theorem EndAlike.bind_eq {α β γ : Type} {Q : α → β → Prop} {x : Py α} {y : Py β} {f : α → Py γ}
    {g : β → Py γ} (h : EndAlike Q x y) (hf : ∀ a b, Q a b → g b = f a) :
    (y >>= g) = x >>= f := by
  obtain ⟨e, rfl, rfl⟩ | ⟨a, b, rfl, rfl, hq⟩ := h
  · rfl
  · exact hf a b hq

theorem enumFrom_image (φ : T → T') (X : List T) : ∀ i,
    enumFrom i (X.map φ) = (enumFrom i X).map (Prod.map id φ) := by
  induction X with
  | nil => intro; rfl
  | cons x X ih => intro i; simp only [List.map_cons, enumFrom, ih]; rfl

theorem firsts_image (φ : T → T') (l : List (ℤ × T)) :
    firsts (l.map (Prod.map id φ)) = firsts l := by
  simp [firsts, Function.comp_def]

theorem proximityLoop_image {F F' : Type} {φ : T → T'} (search : F → T → Py (List ℕ)) (f : F)
    (search' : F' → T' → Py (List ℕ)) (f' : F') (hs : ∀ x, search' f' (φ x) = search f x)
    (X : List T) : ∀ (i : ℕ) (cov : List ℕ),
    proximityLoop search' f' i (X.map φ) cov = proximityLoop search f i X cov := by
  induction X with
  | nil => intros; rfl
  | cons x X ih =>
    intro i cov
    simp only [List.map_cons, proximityLoop, hs, ih]

theorem proximityNet_image {F F' : Type} {φ : T → T'} {fit : List T → Py F}
    {search : F → T → Py (List ℕ)} {fit' : List T' → Py F'} {search' : F' → T' → Py (List ℕ)}
    (X : List T)
    (h : EndAlike (fun f f' => ∀ x, search' f' (φ x) = search f x) (fit X) (fit' (X.map φ))) :
    proximityNet fit' search' (X.map φ) = proximityNet fit search X :=
  h.bind_eq fun f f' hs => proximityLoop_image search f search' f' hs X 0 []

theorem unitChange_id [LE R] [LT R] [Zero R] [Neg R] [Sub R] : UnitChange (id : R → R) :=
  ⟨fun _ _ h => h, fun _ _ => Iff.rfl, fun _ _ => Iff.rfl, rfl, fun _ => rfl, fun _ _ => rfl⟩

section tree
variable [LE R] [LT R] [DecidableLE R] [DecidableLT R] [Zero R] [Neg R] [Sub R]
  [LE R'] [LT R'] [DecidableLE R'] [DecidableLT R'] [Zero R'] [Neg R'] [Sub R'] {ψ : R → R'}

/-- One tree is the image of another: the same tree for the images of the points. -/
inductive TreeImage (φ : T → T') (ψ : R → R') (d : T → T → R) (d' : T' → T' → R') :
    VPTree T R → VPTree T' R' → Prop where
  | flat (a : VPArray T R) : TreeImage φ ψ d d' (.flat d a) (.flat d' (a.image φ ψ))
  | hier (t : VPNode T R) (a : VPArray T R) :
      TreeImage φ ψ d d' (.hier d t a) (.hier d' (t.image φ ψ) (a.image φ ψ))

variable (hψ : UnitChange ψ) {φ : T → T'}
include hψ

section
variable {d : T → T → R} {d' : T' → T' → R'} (hd : ∀ x z, d' (φ x) (φ z) = ψ (d x z))
include hd

theorem build_image (X : List T) (kind : String) (p : VPParams R) (ρ : ℕ → ℕ) :
    EndAlike (TreeImage φ ψ d d') (VPTree.build X d kind p ρ)
      (VPTree.build (X.map φ) d' kind (p.inUnit ψ) ρ) := by
  unfold VPTree.build
  split
  · rw [image_flatBuild hψ hd]
    cases flatBuild d ρ p X with
    | error e => exact .inl ⟨e, rfl, rfl⟩
    | ok a => exact .inr ⟨_, _, rfl, rfl, .flat a⟩
  · split
    · rw [image_hierBuild hψ hd]
      cases hierBuild d ρ p X with
      | error e => exact .inl ⟨e, rfl, rfl⟩
      | ok a => exact .inr ⟨_, _, rfl, rfl, .hier a.1 a.2⟩
    · exact .inl ⟨_, rfl, rfl⟩

theorem ballSearch_image {t : VPTree T R} {t' : VPTree T' R'} (h : TreeImage φ ψ d d' t t')
    (x : T) (eps : R) (incl : Bool) :
    t'.ballSearch (φ x) (ψ eps) incl = Except.map (List.map φ) (t.ballSearch x eps incl) := by
  cases h with
  | flat a =>
    simp only [VPTree.ballSearch, flatBallSearch, image_size]
    exact image_flatBallLoop hψ hd a x eps incl _ _ []
  | hier t a => exact image_hierBallRec hψ hd a x eps incl t []

theorem knnSearch_image {t : VPTree T R} {t' : VPTree T' R'} (h : TreeImage φ ψ d d' t t')
    (x : T) (k : ℕ) : t'.knnSearch (φ x) k = Except.map (List.map φ) (t.knnSearch x k) := by
  cases h with
  | flat a =>
    simp only [VPTree.knnSearch, flatKnnSearch, image_size]
    have := image_flatKnnLoop hψ hd a x k (3 * a.size + 3) [(0, a.size, 0, .pre)]
      ⟨none, MaxHeap.init⟩
    rw [show KnnState.image φ ψ (⟨none, MaxHeap.init⟩ : KnnState T R) = ⟨none, MaxHeap.init⟩ from
      rfl] at this
    simp only [List.map_cons, List.map_nil, inUnit, hψ.zero] at this
    rw [this]
    simp only [except_map_bind, except_bind_map, KnnState.image, image_knnItems hψ]
  | hier t a =>
    simp only [VPTree.knnSearch, hierKnnSearch]
    have := image_hierKnnRec hψ hd a x k t MaxHeap.init
    rw [show MaxHeap.image φ ψ (MaxHeap.init : MaxHeap R T) = MaxHeap.init from rfl] at this
    rw [this]
    simp only [except_map_bind, except_bind_map, image_knnItems hψ]

end

variable [DecidableEq R] [DecidableEq R']

theorem numOr_unit (a : Option R) (b : R) : numOr (a.map ψ) (ψ b) = ψ (numOr a b) := by
  cases a with
  | none => rfl
  | some v =>
    simp only [Option.map_some, numOr]
    by_cases h : v = 0
    · rw [if_pos h, if_pos (by rw [h, hψ.zero])]
    · rw [if_neg h, if_neg (fun e => h (hψ.inj (by rw [e, hψ.zero])))]

theorem ball_image (c : BallCover T R) (c' : BallCover T' R') (hc : BallTwins ψ c.params c'.params)
    (hd : ∀ x z, c'.params.metric (φ x) (φ z) = ψ (c.params.metric x z)) (ρ : ℕ → ℕ) (X : List T) :
    EndAlike (fun b b' => ∀ x, b'.search (φ x) = b.search x) (c.fit ρ X) (c'.fit ρ (X.map φ)) := by
  unfold BallCover.fit
  rw [hc.radius, hc.kind, hc.leafCapacity, hc.leafRadius, hc.pivoting, numOr_unit hψ, enumerate,
    enumerate, enumFrom_image]
  have hd' : ∀ x z : ℤ × T, pullback snd c'.params.metric (Prod.map id φ x) (Prod.map id φ z) =
      ψ (pullback snd c.params.metric x z) := fun x z => hd x.2 z.2
  refine (build_image hψ hd' (enumFrom 0 X) _ ⟨_, _, _⟩ ρ).bind fun t t' h =>
    .inr ⟨_, _, rfl, rfl, ?_⟩
  intro x
  simp only [BallCover.search]
  have := ballSearch_image hψ hd' h (-1, x) c.params.radius false
  rw [show Prod.map id φ ((-1 : ℤ), x) = (-1, φ x) from rfl] at this
  rw [this]
  simp only [except_map_bind, firsts_image]

theorem knn_image (c : KnnCover T R) (c' : KnnCover T' R') (hc : KnnTwins ψ c.params c'.params)
    (hd : ∀ x z, c'.params.metric (φ x) (φ z) = ψ (c.params.metric x z)) (ρ : ℕ → ℕ) (X : List T) :
    EndAlike (fun b b' => ∀ x, b'.search (φ x) = b.search x) (c.fit ρ X) (c'.fit ρ (X.map φ)) := by
  unfold KnnCover.fit
  rw [hc.neighbors, hc.kind, hc.leafCapacity, hc.leafRadius, hc.pivoting, enumerate, enumerate,
    enumFrom_image]
  have hd' : ∀ x z : ℤ × T, pullback snd c'.params.metric (Prod.map id φ x) (Prod.map id φ z) =
      ψ (pullback snd c.params.metric x z) := fun x z => hd x.2 z.2
  refine (build_image hψ hd' (enumFrom 0 X) _ ⟨_, _, _⟩ ρ).bind fun t t' h =>
    .inr ⟨_, _, rfl, rfl, ?_⟩
  intro x
  simp only [KnnCover.search]
  have := knnSearch_image hψ hd' h (-1, x) c.params.neighbors
  rw [show Prod.map id φ ((-1 : ℤ), x) = (-1, φ x) from rfl] at this
  rw [this]
  simp only [except_map_bind, firsts_image]

end tree

end Verif
