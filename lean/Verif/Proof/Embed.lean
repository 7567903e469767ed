import Verif.Model.KnnInf
import Verif.Spec.KnnInf
import Mathlib.Data.List.Basic

/-!
# Computing with finite floating-point numbers is computing with the numbers they stand for
-/

set_option autoImplicit false
set_option linter.unusedSectionVars false

namespace Verif

section py
variable {α β γ : Type}

theorem map_bind_py (g : α → β) (x : Py α) (f : β → Py γ) :
    ((Except.map g x : Py β) >>= f) = x >>= fun a => f (g a) := by
  cases x <;> rfl

theorem bind_map_py (g : β → γ) (x : Py α) (f : α → Py β) :
    (Except.map g (x >>= f) : Py γ) = x >>= fun a => Except.map g (f a) := by
  cases x <;> rfl

theorem map_ok_py (g : α → β) (x : α) : (Except.map g (.ok x) : Py β) = .ok (g x) := rfl

theorem map_error_py (g : α → β) (e : PyErr) :
    (Except.map g (.error e : Py α) : Py β) = .error e := rfl

theorem map_ite_py (g : α → β) (c : Prop) [Decidable c] (x y : Py α) :
    (Except.map g (if c then x else y) : Py β) = if c then Except.map g x else Except.map g y := by
  split <;> rfl

theorem bind_congr_py {x : Py α} {f g : α → Py β} (h : ∀ a, f a = g a) : (x >>= f) = x >>= g := by
  rw [funext h]

theorem getItem_map (g : α → β) (l : List α) (i : ℕ) :
    getItem (l.map g) i = Except.map g (getItem l i) := by
  unfold getItem
  rw [List.getElem?_map]
  cases l[i]? <;> rfl

theorem setItem_map (g : α → β) (l : List α) (i : ℕ) (v : α) :
    setItem (l.map g) i (g v) = Except.map (List.map g) (setItem l i v) := by
  unfold setItem
  rw [List.length_map]
  split
  · rw [← List.map_set]; rfl
  · rfl

theorem swapList_map (g : α → β) (l : List α) (i j : ℕ) :
    swapList (l.map g) i j = Except.map (List.map g) (swapList l i j) := by
  simp only [swapList, getItem_map, setItem_map, map_bind_py, bind_map_py]

end py

section maps
variable {T R F β γ : Type}

def QState.mapNum (ι : R → F) (s : QState R β γ) : QState F β γ :=
  ⟨s.data.map ι, s.extra1, s.extra2⟩

def VPArray.mapNum (ι : R → F) (a : VPArray T R) : VPArray T F :=
  ⟨a.dataset, a.distances.map ι, a.indices, a.terminal⟩

def BuildState.mapNum (ι : R → F) (s : BuildState T R) : BuildState T F :=
  ⟨s.arr.mapNum ι, s.draws⟩

def VPNode.mapNum (ι : R → F) : VPNode T R → VPNode T F
  | .leaf s e => .leaf s e
  | .node r v l h => .node (ι r) v (l.mapNum ι) (h.mapNum ι)

def MaxHeap.mapNum (ι : R → F) (h : MaxHeap R T) : MaxHeap F T :=
  ⟨h.heap.map (Prod.map ι id), h.iter⟩

def VPParams.mapNum (ι : R → F) (p : VPParams R) : VPParams F :=
  ⟨p.leafCapacity, ι p.leafRadius, p.pivoting⟩

/-- Distances read as floating-point numbers. -/
def inFloat (ι : R → F) (d : T → T → R) : T → T → F := fun x y => ι (d x y)

def VPTree.mapNum (ι : R → F) : VPTree T R → VPTree T F
  | .flat d a => .flat (inFloat ι d) (a.mapNum ι)
  | .hier d t a => .hier (inFloat ι d) (t.mapNum ι) (a.mapNum ι)

end maps

section lt
variable {T R F β γ : Type} [LT R] [DecidableLT R] [LT F] [DecidableLT F] {ι : R → F}

theorem swapAll_map (s : QState R β γ) (i j : ℕ) :
    swapAll (s.mapNum ι) i j = Except.map (QState.mapNum ι) (swapAll s i j) := by
  simp only [swapAll, QState.mapNum, swapList_map, map_bind_py, bind_map_py, pure_eq_ok, map_ok_py]

theorem partitionLoop_map (hlt : ∀ a b, ι a < ι b ↔ a < b) (p : R) : ∀ (cnt j h : ℕ)
    (s : QState R β γ), partitionLoop (ι p) cnt j h (s.mapNum ι) =
      Except.map (Prod.map (QState.mapNum ι) id) (partitionLoop p cnt j h s) := by
  intro cnt
  induction cnt with
  | zero => intro j h s; rfl
  | succ cnt ih =>
    intro j h s
    have e : (s.mapNum ι).data = s.data.map ι := rfl
    simp only [partitionLoop, e, getItem_map, swapAll_map, map_bind_py, bind_map_py, hlt,
      map_ite_py, ih]

theorem quickselectLoop_map (hlt : ∀ a b, ι a < ι b ↔ a < b) (k : ℕ) : ∀ (fuel start end_ : ℕ)
    (h : ℤ) (s : QState R β γ), quickselectLoop k fuel start end_ h (s.mapNum ι) =
      Except.map (QState.mapNum ι) (quickselectLoop k fuel start end_ h s) := by
  intro fuel
  induction fuel with
  | zero => intro _ _ _ _; rfl
  | succ fuel ih =>
    intro start end_ h s
    have e : (s.mapNum ι).data = s.data.map ι := rfl
    simp only [quickselectLoop, partition, e, getItem_map, swapAll_map, map_bind_py, bind_map_py,
      map_ite_py, partitionLoop_map hlt, Prod.map_fst, Prod.map_snd, id_eq, ih, map_ok_py]

theorem quickselect_map (hlt : ∀ a b, ι a < ι b ↔ a < b) (s : QState R β γ) (start end_ k : ℕ) :
    quickselect (s.mapNum ι) start end_ k =
      Except.map (QState.mapNum ι) (quickselect s start end_ k) := by
  simp only [quickselect, map_ite_py, quickselectLoop_map hlt, map_ok_py]

theorem getPoint_map (a : VPArray T R) (i : ℕ) : (a.mapNum ι).getPoint i = a.getPoint i := rfl

theorem getPoints_map (a : VPArray T R) (s e : ℕ) : (a.mapNum ι).getPoints s e = a.getPoints s e :=
  rfl

theorem isTerminal_map (a : VPArray T R) (i : ℕ) :
    (a.mapNum ι).isTerminal i = a.isTerminal i := rfl

theorem size_map (a : VPArray T R) : (a.mapNum ι).size = a.size := rfl

theorem getDistance_map (a : VPArray T R) (i : ℕ) :
    (a.mapNum ι).getDistance i = Except.map ι (a.getDistance i) := getItem_map _ _ _

theorem setDistance_map (a : VPArray T R) (i : ℕ) (x : R) :
    (a.mapNum ι).setDistance i (ι x) = Except.map (VPArray.mapNum ι) (a.setDistance i x) := by
  simp only [VPArray.setDistance, VPArray.mapNum, setItem_map, map_bind_py, bind_map_py,
    pure_eq_ok, map_ok_py]

theorem setTerminal_map (a : VPArray T R) (i : ℕ) (b : Bool) :
    (a.mapNum ι).setTerminal i b = Except.map (VPArray.mapNum ι) (a.setTerminal i b) := by
  unfold VPArray.setTerminal VPArray.mapNum
  cases a.terminal with
  | none => rfl
  | some t => simp only [bind_map_py, pure_eq_ok, map_ok_py]

theorem swap_map (a : VPArray T R) (i j : ℕ) :
    (a.mapNum ι).swap i j = Except.map (VPArray.mapNum ι) (a.swap i j) := by
  have e : (a.mapNum ι).rows = a.rows.mapNum ι := rfl
  simp only [VPArray.swap, e, swapAll_map, map_bind_py, bind_map_py, pure_eq_ok, map_ok_py]
  rfl

theorem arrPartition_map (hlt : ∀ a b, ι a < ι b ↔ a < b) (a : VPArray T R) (s e k : ℕ) :
    (a.mapNum ι).partition s e k = Except.map (VPArray.mapNum ι) (a.partition s e k) := by
  have h : (a.mapNum ι).rows = a.rows.mapNum ι := rfl
  simp only [VPArray.partition, h, quickselect_map hlt, map_bind_py, bind_map_py, pure_eq_ok,
    map_ok_py]
  rfl

theorem furthestLoop_map (hlt : ∀ a b, ι a < ι b ↔ a < b) (d : T → T → R) (arr : VPArray T R)
    (x : T) : ∀ (cnt j f : ℕ) (r : R),
    furthestLoop (inFloat ι d) (arr.mapNum ι) x cnt j f (ι r) = furthestLoop d arr x cnt j f r := by
  intro cnt
  induction cnt with
  | zero => intro _ _ _; rfl
  | succ cnt ih =>
    intro j f r
    simp only [furthestLoop, getPoint_map]
    refine bind_congr_py fun y => ?_
    simp only [inFloat, hlt] at ih ⊢
    simp only [ih]

theorem readFlag_map (a : VPArray T R) (i : ℕ) :
    readFlag (a.mapNum ι) i = readFlag a i := rfl

theorem writeFlag_map (a : VPArray T R) (i : ℕ) (b : Option Bool) :
    writeFlag (a.mapNum ι) i b = Except.map (VPArray.mapNum ι) (writeFlag a i b) := by
  cases b with
  | none => rfl
  | some b => exact setTerminal_map a i b

theorem updateLoop_map (d : T → T → R) (v : T) (flag : Option Bool) : ∀ (cnt i : ℕ)
    (arr : VPArray T R), updateLoop (inFloat ι d) v flag cnt i (arr.mapNum ι) =
      Except.map (VPArray.mapNum ι) (updateLoop d v flag cnt i arr) := by
  intro cnt
  induction cnt with
  | zero => intro _ _; rfl
  | succ cnt ih =>
    intro i arr
    have e : ∀ x y, inFloat ι d x y = ι (d x y) := fun _ _ => rfl
    simp only [updateLoop, getPoint_map, e, setDistance_map, writeFlag_map, map_bind_py,
      bind_map_py, ih]

variable [Zero R] [Zero F]

theorem pivot_map (hlt : ∀ a b, ι a < ι b ↔ a < b) (h0 : ι 0 = 0) (d : T → T → R) (ρ : ℕ → ℕ)
    (pivoting : String) (start end_ : ℕ) (st : BuildState T R) :
    pivot (inFloat ι d) ρ pivoting start end_ (st.mapNum ι) =
      Except.map (BuildState.mapNum ι) (pivot d ρ pivoting start end_ st) := by
  have e : (st.mapNum ι).arr = st.arr.mapNum ι := rfl
  have e' : (st.mapNum ι).draws = st.draws := rfl
  simp only [pivot, pivotingRandom, pivotingFurthest, pivotingDisabled, furthest, map_ite_py, e, e',
    swap_map, map_bind_py, bind_map_py, pure_eq_ok, map_ok_py, getPoint_map, ← h0,
    furthestLoop_map hlt]
  rfl

theorem update_map (hlt : ∀ a b, ι a < ι b ↔ a < b) (h0 : ι 0 = 0) (d : T → T → R) (ρ : ℕ → ℕ)
    (pivoting : String) (start end_ : ℕ) (st : BuildState T R) :
    update (inFloat ι d) ρ pivoting start end_ (st.mapNum ι) =
      Except.map (BuildState.mapNum ι) (update d ρ pivoting start end_ st) := by
  have e : ∀ st : BuildState T R, (st.mapNum ι).arr = st.arr.mapNum ι := fun _ => rfl
  simp only [update, pivot_map hlt h0, map_bind_py, bind_map_py, e, getPoint_map, readFlag_map,
    updateLoop_map, pure_eq_ok, map_ok_py]
  rfl

theorem flatInit_map (h0 : ι 0 = 0) (X : List T) :
    (flatInit X : VPArray T F) = (flatInit X : VPArray T R).mapNum ι := by
  simp [flatInit, VPArray.mapNum, h0]

theorem hierInit_map (h0 : ι 0 = 0) (X : List T) :
    (hierInit X : VPArray T F) = (hierInit X : VPArray T R).mapNum ι := by
  simp [hierInit, VPArray.mapNum, h0]

theorem flatBuildLoop_map (hlt : ∀ a b, ι a < ι b ↔ a < b) (h0 : ι 0 = 0) (d : T → T → R)
    (ρ : ℕ → ℕ) (p : VPParams R) : ∀ (fuel : ℕ) (stack : List (ℕ × ℕ)) (st : BuildState T R),
    flatBuildLoop (inFloat ι d) ρ (p.mapNum ι) fuel stack (st.mapNum ι) =
      Except.map (BuildState.mapNum ι) (flatBuildLoop d ρ p fuel stack st) := by
  intro fuel
  induction fuel with
  | zero => intro _ _; rfl
  | succ fuel ih =>
    intro stack st
    cases stack with
    | nil => rfl
    | cons se stack =>
      obtain ⟨s, e⟩ := se
      have e1 : ∀ st : BuildState T R, (st.mapNum ι).arr = st.arr.mapNum ι := fun _ => rfl
      have e2 : ∀ (st : BuildState T R) (a : VPArray T R),
          ({ st.mapNum ι with arr := a.mapNum ι } : BuildState T F) =
            ({ st with arr := a } : BuildState T R).mapNum ι := fun _ _ => rfl
      have e3 : (p.mapNum ι).leafRadius = ι p.leafRadius := rfl
      have e4 : (p.mapNum ι).leafCapacity = p.leafCapacity := rfl
      have e5 : (p.mapNum ι).pivoting = p.pivoting := rfl
      simp only [flatBuildLoop, update_map hlt h0, map_bind_py, bind_map_py, e1, e3, e4, e5,
        arrPartition_map hlt, getDistance_map, hlt, map_ite_py, setDistance_map, setTerminal_map,
        e2, ih]

theorem flatBuild_map (hlt : ∀ a b, ι a < ι b ↔ a < b) (h0 : ι 0 = 0) (d : T → T → R)
    (ρ : ℕ → ℕ) (p : VPParams R) (X : List T) :
    flatBuild (inFloat ι d) ρ (p.mapNum ι) X =
      Except.map (VPArray.mapNum ι) (flatBuild d ρ p X) := by
  have e : (⟨(flatInit X : VPArray T R).mapNum ι, 0⟩ : BuildState T F) =
    BuildState.mapNum ι ⟨flatInit X, 0⟩ := rfl
  simp only [flatBuild, flatInit_map h0, size_map, e, flatBuildLoop_map hlt h0, map_ite_py,
    map_bind_py, bind_map_py, pure_eq_ok, map_ok_py]
  rfl

end lt

section le
variable {T R F : Type} [LE R] [LT R] [DecidableLE R] [DecidableLT R] [LE F] [LT F] [DecidableLE F]
  [DecidableLT F] [Zero R] [Zero F] {ι : R → F}

theorem hierBuildRec_map (hlt : ∀ a b, ι a < ι b ↔ a < b) (hle : ∀ a b, ι a ≤ ι b ↔ a ≤ b)
    (h0 : ι 0 = 0) (d : T → T → R) (ρ : ℕ → ℕ) (p : VPParams R) : ∀ (fuel s e : ℕ)
    (st : BuildState T R),
    hierBuildRec (inFloat ι d) ρ (p.mapNum ι) fuel s e (st.mapNum ι) =
      Except.map (Prod.map (VPNode.mapNum ι) (BuildState.mapNum ι))
        (hierBuildRec d ρ p fuel s e st) := by
  intro fuel
  induction fuel with
  | zero => intro _ _ _; rfl
  | succ fuel ih =>
    intro s e st
    have e1 : ∀ st : BuildState T R, (st.mapNum ι).arr = st.arr.mapNum ι := fun _ => rfl
    have e2 : ∀ (st : BuildState T R) (a : VPArray T R),
        ({ st.mapNum ι with arr := a.mapNum ι } : BuildState T F) =
          ({ st with arr := a } : BuildState T R).mapNum ι := fun _ _ => rfl
    have e3 : (p.mapNum ι).leafRadius = ι p.leafRadius := rfl
    have e4 : (p.mapNum ι).leafCapacity = p.leafCapacity := rfl
    have e5 : (p.mapNum ι).pivoting = p.pivoting := rfl
    simp only [hierBuildRec, update_map hlt h0, map_bind_py, bind_map_py, e1, e3, e4, e5,
      arrPartition_map hlt, getDistance_map, hle, map_ite_py, setDistance_map, getPoint_map,
      e2, ih, map_ok_py, pure_eq_ok, Prod.map_fst, Prod.map_snd]
    rfl

theorem hierBuild_map (hlt : ∀ a b, ι a < ι b ↔ a < b) (hle : ∀ a b, ι a ≤ ι b ↔ a ≤ b)
    (h0 : ι 0 = 0) (d : T → T → R) (ρ : ℕ → ℕ) (p : VPParams R) (X : List T) :
    hierBuild (inFloat ι d) ρ (p.mapNum ι) X =
      Except.map (Prod.map (VPNode.mapNum ι) (VPArray.mapNum ι)) (hierBuild d ρ p X) := by
  have e : (⟨(hierInit X : VPArray T R).mapNum ι, 0⟩ : BuildState T F) =
    BuildState.mapNum ι ⟨hierInit X, 0⟩ := rfl
  simp only [hierBuild, hierInit_map h0, size_map, e, hierBuildRec_map hlt hle h0, map_ite_py,
    map_bind_py, bind_map_py, pure_eq_ok, map_ok_py]
  rfl

theorem VPTree.build_map (hlt : ∀ a b, ι a < ι b ↔ a < b) (hle : ∀ a b, ι a ≤ ι b ↔ a ≤ b)
    (h0 : ι 0 = 0) (d : T → T → R) (kind : String) (ρ : ℕ → ℕ) (p : VPParams R) (X : List T) :
    VPTree.build X (inFloat ι d) kind (p.mapNum ι) ρ =
      Except.map (VPTree.mapNum ι) (VPTree.build X d kind p ρ) := by
  simp only [VPTree.build, flatBuild_map hlt h0, hierBuild_map hlt hle h0, map_ite_py, map_bind_py,
    bind_map_py, pure_eq_ok, map_ok_py, map_error_py]
  rfl

end le

section heap
variable {V R F : Type} [LT R] [DecidableLT R] [LT F] [DecidableLT F] {ι : R → F}

theorem getLocalMax_map (hlt : ∀ a b, ι a < ι b ↔ a < b) (l : List (R × V)) (i : ℕ) :
    getLocalMax (l.map (Prod.map ι id)) i = getLocalMax l i := by
  simp only [getLocalMax, List.length_map, getItem_map, map_bind_py, Prod.map_fst, hlt]

theorem fixDown_map (hlt : ∀ a b, ι a < ι b ↔ a < b) (l : List (R × V)) (i : ℕ) :
    fixDown (l.map (Prod.map ι id)) i =
      Except.map (Prod.map (List.map (Prod.map ι id)) id) (fixDown l i) := by
  simp only [fixDown, getLocalMax_map hlt, swapList_map, map_bind_py, bind_map_py, map_ite_py,
    pure_eq_ok, map_ok_py]
  rfl

theorem fixUp_map (hlt : ∀ a b, ι a < ι b ↔ a < b) (l : List (R × V)) (i : ℕ) :
    fixUp (l.map (Prod.map ι id)) i =
      Except.map (Prod.map (List.map (Prod.map ι id)) id) (fixUp l i) := by
  simp only [fixUp, getItem_map, swapList_map, map_bind_py, bind_map_py, map_ite_py, Prod.map_fst,
    hlt, pure_eq_ok, map_ok_py]
  rfl

theorem bubbleDownLoop_map (hlt : ∀ a b, ι a < ι b ↔ a < b) : ∀ (fuel : ℕ) (l : List (R × V))
    (i : ℕ), bubbleDownLoop fuel (l.map (Prod.map ι id)) i =
      Except.map (List.map (Prod.map ι id)) (bubbleDownLoop fuel l i) := by
  intro fuel
  induction fuel with
  | zero => intro _ _; rfl
  | succ fuel ih =>
    intro l i
    simp only [bubbleDownLoop, fixDown_map hlt, map_bind_py, bind_map_py, map_ite_py, Prod.map_fst,
      Prod.map_snd, id_eq, pure_eq_ok, map_ok_py, ih]

theorem bubbleUpLoop_map (hlt : ∀ a b, ι a < ι b ↔ a < b) : ∀ (fuel : ℕ) (l : List (R × V))
    (i : ℕ), bubbleUpLoop fuel (l.map (Prod.map ι id)) i =
      Except.map (List.map (Prod.map ι id)) (bubbleUpLoop fuel l i) := by
  intro fuel
  induction fuel with
  | zero => intro _ _; rfl
  | succ fuel ih =>
    intro l i
    simp only [bubbleUpLoop, fixUp_map hlt, map_bind_py, bind_map_py, map_ite_py, Prod.map_fst,
      Prod.map_snd, id_eq, pure_eq_ok, map_ok_py, ih]

theorem MaxHeap.add_map (hlt : ∀ a b, ι a < ι b ↔ a < b) (h : MaxHeap R V) (k : R) (v : V) :
    (h.mapNum ι).add (ι k) v = Except.map (MaxHeap.mapNum ι) (h.add k v) := by
  have e : (h.mapNum ι).heap ++ [(ι k, v)] = (h.heap ++ [(k, v)]).map (Prod.map ι id) := by
    simp [MaxHeap.mapNum]
  simp only [MaxHeap.add, bubbleUp, e, List.length_map, bubbleUpLoop_map hlt, map_bind_py,
    bind_map_py, pure_eq_ok, map_ok_py]
  rfl

theorem MaxHeap.pop_map (hlt : ∀ a b, ι a < ι b ↔ a < b) (h : MaxHeap R V) :
    (h.mapNum ι).pop =
      Except.map (Prod.map (Option.map (Prod.map ι id)) (MaxHeap.mapNum ι)) h.pop := by
  obtain ⟨l, it⟩ := h
  cases l with
  | nil => rfl
  | cons x l =>
    have e : (MaxHeap.mapNum ι ⟨x :: l, it⟩).heap = (x :: l).map (Prod.map ι id) := rfl
    have e' : (MaxHeap.mapNum ι ⟨x :: l, it⟩).iter = it := rfl
    have hl : (MaxHeap.mapNum ι ⟨x :: l, it⟩).pop = (do
        let maxVal ← getItem ((x :: l).map (Prod.map ι id)) 0
        let last ← getItem ((x :: l).map (Prod.map ι id))
          (((x :: l).map (Prod.map ι id)).length - 1)
        let l ← setItem ((x :: l).map (Prod.map ι id)) 0 last
        let l ← bubbleDown l.dropLast
        return (some maxVal, ⟨l, it⟩)) := rfl
    rw [hl]
    simp only [getItem_map, List.length_map, setItem_map, map_bind_py, List.map_dropLast.symm,
      bubbleDown, bubbleDownLoop_map hlt, MaxHeap.pop, bind_map_py, pure_eq_ok, map_ok_py]
    rfl

theorem MaxHeap.top_map (h : MaxHeap R V) :
    (h.mapNum ι).top = Except.map (Option.map (Prod.map ι id)) h.top := by
  obtain ⟨l, it⟩ := h
  cases l <;> rfl

theorem MaxHeap.len_map (h : MaxHeap R V) : (h.mapNum ι).len = h.len := by
  simp [MaxHeap.len, MaxHeap.mapNum]

theorem collectLoop_map (ι : R → F) : ∀ (fuel : ℕ) (h : MaxHeap R V),
    MaxHeap.collectLoop fuel (h.mapNum ι) =
      Except.map (Prod.map (List.map (Prod.map ι id)) (MaxHeap.mapNum ι))
        (MaxHeap.collectLoop fuel h) := by
  intro fuel
  induction fuel with
  | zero => intro _; rfl
  | succ fuel ih =>
    intro h
    obtain ⟨l, it⟩ := h
    cases it with
    | unset => rfl
    | exhausted => rfl
    | live n =>
      have e1 : (MaxHeap.mapNum ι ⟨l, .live n⟩ : MaxHeap F V).next =
          Except.map (Prod.map (Option.map (Prod.map ι id)) (MaxHeap.mapNum ι))
            (MaxHeap.next ⟨l, .live n⟩) := by
        simp only [MaxHeap.next, MaxHeap.mapNum, List.getElem?_map]
        cases l[n]? <;> rfl
      simp only [MaxHeap.collectLoop, e1, map_bind_py, bind_map_py]
      refine bind_congr_py fun r => ?_
      obtain ⟨o, h⟩ := r
      cases o with
      | none => rfl
      | some x =>
        simp only [Prod.map_apply, Option.map_some, ih, map_bind_py, bind_map_py, pure_eq_ok,
          map_ok_py]
        rfl

end heap

section search
variable {T R F : Type} [LE R] [LT R] [DecidableLE R] [DecidableLT R] [LE F] [LT F] [DecidableLE F]
  [DecidableLT F] [Zero R] [Neg R] [Sub R] [Zero F] [Neg F] [Sub F] {ι : R → F} {inf : F}

theorem shrinkHeap_map (hlt : ∀ a b, ι a < ι b ↔ a < b) (k : ℕ) : ∀ (fuel : ℕ) (h : MaxHeap R T),
    shrinkHeap k fuel (h.mapNum ι) = Except.map (MaxHeap.mapNum ι) (shrinkHeap k fuel h) := by
  intro fuel
  induction fuel with
  | zero => intro _; rfl
  | succ fuel ih =>
    intro h
    simp only [shrinkHeap, MaxHeap.len_map, MaxHeap.pop_map hlt, map_ite_py, map_bind_py,
      bind_map_py, Prod.map_snd, ih, map_ok_py]

theorem knnItems_map (hlt : ∀ a b, ι a < ι b ↔ a < b) (k : ℕ) (h : MaxHeap R T) :
    knnItems k (h.mapNum ι) = knnItems k h := by
  have e : ∀ h : MaxHeap R T, (h.mapNum ι).toList =
      Except.map (Prod.map (List.map (Prod.map ι id)) (MaxHeap.mapNum ι)) h.toList := by
    intro h
    have e1 : (h.mapNum ι).startIter = h.startIter.mapNum ι := rfl
    have e2 : (h.mapNum ι).heap.length = h.heap.length := MaxHeap.len_map h
    rw [MaxHeap.toList, e1, e2, collectLoop_map]
    rfl
  have e' : ∀ l : List (R × T), (l.map (Prod.map ι id)).map Prod.snd = l.map Prod.snd := by
    intro l; simp
  simp only [knnItems, MaxHeap.len_map, shrinkHeap_map hlt, e, map_bind_py, Prod.map_fst, e']

theorem pyAbs_map (H : FiniteIn ι inf) (x : R) : pyAbs (ι x) = ι (pyAbs x) := by
  unfold pyAbs
  rw [← H.zero, ← H.neg]
  by_cases h : x < 0
  · rw [if_pos h, if_pos ((H.lt _ _).mpr h)]
  · rw [if_neg h, if_neg (fun h' => h ((H.lt _ _).mp h'))]

/-- The infinite radius is the number `inf`. -/
def KnnState.toInf (ι : R → F) (inf : F) (st : KnnState T R) : KnnInfState T F :=
  ⟨(st.radius.map ι).getD inf, st.result.mapNum ι⟩

theorem ge_map (H : FiniteIn ι inf) (x : R) (r : Option R) :
    (r.map ι).getD inf ≤ ι x ↔ geRadius x r = true := by
  cases r with
  | none => simpa [geRadius] using H.not_inf_le x
  | some r => simp [geRadius, H.le]

theorem gt_map (H : FiniteIn ι inf) (x : R) (r : Option R) :
    ι x < (r.map ι).getD inf ↔ radiusGt r x = true := by
  cases r with
  | none => simpa [radiusGt] using H.lt_inf x
  | some r => simp [radiusGt, H.lt]

theorem le_map (H : FiniteIn ι inf) (x : R) (r : Option R) :
    ι x ≤ (r.map ι).getD inf ↔ leRadius x r = true := by
  cases r with
  | none => simpa [leRadius] using H.le_inf x
  | some r => simp [leRadius, H.le]

theorem knnProcess_map (H : FiniteIn ι inf) (d : T → T → R) (q : T) (k : ℕ) (st : KnnState T R)
    (x : T) : knnProcessInf (inFloat ι d) q k (st.toInf ι inf) x =
      Except.map (Prod.map ι (KnnState.toInf ι inf)) (knnProcess d q k st x) := by
  have e1 : (st.toInf ι inf).radius = (st.radius.map ι).getD inf := rfl
  have e2 : (st.toInf ι inf).result = st.result.mapNum ι := rfl
  simp only [knnProcessInf, knnProcess, inFloat, e1, e2, ge_map H, MaxHeap.add_map H.lt,
    MaxHeap.len_map, shrinkHeap_map H.lt, map_ite_py, map_bind_py, bind_map_py, pure_eq_ok,
    map_ok_py, MaxHeap.top_map]
  congr 1
  refine bind_congr_py fun h => bind_congr_py fun h' => ?_
  split
  · refine bind_congr_py fun o => ?_
    cases o with
    | none => rfl
    | some y => rfl
  · rfl

theorem knnProcessAll_map (H : FiniteIn ι inf) (d : T → T → R) (q : T) (k : ℕ) : ∀ (xs : List T)
    (st : KnnState T R), knnProcessAllInf (inFloat ι d) q k xs (st.toInf ι inf) =
      Except.map (KnnState.toInf ι inf) (knnProcessAll d q k xs st) := by
  intro xs
  induction xs with
  | nil => intro _; rfl
  | cons x xs ih =>
    intro st
    simp only [knnProcessAllInf, knnProcessAll, knnProcess_map H, map_bind_py, bind_map_py,
      Prod.map_snd, ih]

/-- A stack entry with its threshold read as a floating-point number. -/
def entryIn (ι : R → F) (x : ℕ × ℕ × R × KnnAction) : ℕ × ℕ × F × KnnAction :=
  (x.1, x.2.1, ι x.2.2.1, x.2.2.2)

theorem flatKnnLoop_map (H : FiniteIn ι inf) (d : T → T → R) (a : VPArray T R) (q : T) (k : ℕ) :
    ∀ (fuel : ℕ) (stack : List (ℕ × ℕ × R × KnnAction)) (st : KnnState T R),
    flatKnnLoopInf (inFloat ι d) (a.mapNum ι) q k fuel (stack.map (entryIn ι)) (st.toInf ι inf) =
      Except.map (KnnState.toInf ι inf) (flatKnnLoop d a q k fuel stack st) := by
  intro fuel
  induction fuel with
  | zero => intro _ _; rfl
  | succ fuel ih =>
    intro stack st
    cases stack with
    | nil => rfl
    | cons x stack =>
      obtain ⟨s, e, thr, act⟩ := x
      have e1 : ((s, e, thr, act) :: stack).map (entryIn ι) =
        (s, e, ι thr, act) :: stack.map (entryIn ι) := rfl
      rw [e1]
      simp only [flatKnnLoopInf, flatKnnLoop, getDistance_map, getPoint_map, isTerminal_map,
        getPoints_map, map_bind_py, bind_map_py]
      refine bind_congr_py fun r => bind_congr_py fun v => bind_congr_py fun b => ?_
      cases b with
      | true =>
        simp only [if_true, knnProcessAll_map H, map_bind_py, bind_map_py, ih]
      | false =>
        cases act with
        | pre =>
          simp only [knnProcess_map H, map_bind_py, bind_map_py, Bool.false_eq_true, if_false,
            Prod.map_fst, Prod.map_snd, H.le, ← H.sub, pyAbs_map H, ← H.zero]
          refine bind_congr_py fun o => ?_
          rw [← ih]
          split <;> rfl
        | post =>
          have e2 : (st.toInf ι inf).radius = (st.radius.map ι).getD inf := rfl
          simp only [Bool.false_eq_true, if_false, e2, gt_map H, map_ite_py, ← ih, ← H.zero]
          rfl

theorem flatKnnSearch_map (H : FiniteIn ι inf) (d : T → T → R) (a : VPArray T R) (q : T) (k : ℕ) :
    flatKnnSearchInf inf (inFloat ι d) (a.mapNum ι) q k = flatKnnSearch d a q k := by
  have := flatKnnLoop_map H d a q k (3 * a.size + 3) [(0, a.size, 0, .pre)] ⟨none, MaxHeap.init⟩
  have e1 : [((0 : ℕ), a.size, (0 : R), KnnAction.pre)].map (entryIn ι) =
    [(0, a.size, 0, .pre)] := by simp [entryIn, H.zero]
  have e2 : (⟨none, MaxHeap.init⟩ : KnnState T R).toInf ι inf = ⟨inf, MaxHeap.init⟩ := rfl
  rw [e1, e2] at this
  simp only [flatKnnSearchInf, flatKnnSearch, size_map, this, map_bind_py]
  refine bind_congr_py fun st => ?_
  exact knnItems_map H.lt k st.result

theorem hierKnnRadius_map (inf : F) (k : ℕ) (h : MaxHeap R T) :
    hierKnnRadiusInf inf k (h.mapNum ι) =
      Except.map (fun r => (r.map ι).getD inf) (hierKnnRadius k h) := by
  simp only [hierKnnRadiusInf, hierKnnRadius, MaxHeap.len_map, map_ite_py, MaxHeap.top_map,
    map_bind_py, bind_map_py, map_ok_py, Option.map_none, Option.getD_none]
  congr 1
  refine bind_congr_py fun o => ?_
  cases o <;> rfl

theorem hierKnnConsider_map (H : FiniteIn ι inf) (k : ℕ) (h : MaxHeap R T) (r : R) (x : T) :
    hierKnnConsiderInf inf k (h.mapNum ι) (ι r) x =
      Except.map (MaxHeap.mapNum ι) (hierKnnConsider k h r x) := by
  simp only [hierKnnConsiderInf, hierKnnConsider, hierKnnRadius_map, map_bind_py, bind_map_py,
    gt_map H, map_ite_py, hierKnnAdd, MaxHeap.add_map H.lt, MaxHeap.len_map, MaxHeap.pop_map H.lt,
    pure_eq_ok, map_ok_py, Prod.map_snd]

theorem hierKnnLeaf_map (H : FiniteIn ι inf) (d : T → T → R) (q : T) (k : ℕ) : ∀ (xs : List T)
    (h : MaxHeap R T), hierKnnLeafInf inf (inFloat ι d) q k xs (h.mapNum ι) =
      Except.map (MaxHeap.mapNum ι) (hierKnnLeaf d q k xs h) := by
  intro xs
  induction xs with
  | nil => intro _; rfl
  | cons x xs ih =>
    intro h
    have e : inFloat ι d q x = ι (d q x) := rfl
    simp only [hierKnnLeafInf, hierKnnLeaf, e, hierKnnConsider_map H, map_bind_py, bind_map_py, ih]

theorem hierKnnRec_map (H : FiniteIn ι inf) (d : T → T → R) (a : VPArray T R) (q : T) (k : ℕ) :
    ∀ (t : VPNode T R) (h : MaxHeap R T),
    hierKnnRecInf inf (inFloat ι d) (a.mapNum ι) q k (t.mapNum ι) (h.mapNum ι) =
      Except.map (MaxHeap.mapNum ι) (hierKnnRec d a q k t h) := by
  intro t
  induction t with
  | leaf s e =>
    intro h
    simp only [VPNode.mapNum, hierKnnRecInf, hierKnnRec, getPoints_map, bind_map_py,
      hierKnnLeaf_map H]
  | node r v left right ihl ihr =>
    intro h
    have e : inFloat ι d v q = ι (d v q) := rfl
    simp only [VPNode.mapNum, hierKnnRecInf, hierKnnRec, e, hierKnnConsider_map H, map_bind_py,
      bind_map_py, map_ite_py, H.le, ihl, ihr, ← H.sub, pyAbs_map H, hierKnnRadius_map, le_map H,
      pure_eq_ok, map_ok_py]

theorem hierKnnSearch_map (H : FiniteIn ι inf) (d : T → T → R) (t : VPNode T R) (a : VPArray T R)
    (q : T) (k : ℕ) :
    hierKnnSearchInf inf (inFloat ι d) (t.mapNum ι) (a.mapNum ι) q k =
      hierKnnSearch d t a q k := by
  have e : (MaxHeap.init : MaxHeap F T) = (MaxHeap.init : MaxHeap R T).mapNum ι := rfl
  simp only [hierKnnSearchInf, hierKnnSearch, e, hierKnnRec_map H, map_bind_py, knnItems_map H.lt]

theorem VPTree.knnSearch_map (H : FiniteIn ι inf) (t : VPTree T R) (q : T) (k : ℕ) :
    (t.mapNum ι).knnSearchInf inf q k = t.knnSearch q k := by
  cases t with
  | flat d a => exact flatKnnSearch_map H d a q k
  | hier d t a => exact hierKnnSearch_map H d t a q k

theorem insideBall_map (H : FiniteIn ι inf) (eps : R) (inc : Bool) (r : R) :
    insideBall (ι eps) inc (ι r) = insideBall eps inc r := by
  simp only [insideBall, H.le, H.lt]

theorem flatBallLoop_map (H : FiniteIn ι inf) (d : T → T → R) (a : VPArray T R) (q : T) (eps : R)
    (inc : Bool) : ∀ (fuel : ℕ) (stack : List (ℕ × ℕ)) (out : List T),
    flatBallLoop (inFloat ι d) (a.mapNum ι) q (ι eps) inc fuel stack out =
      flatBallLoop d a q eps inc fuel stack out := by
  intro fuel
  induction fuel with
  | zero => intro _ _; rfl
  | succ fuel ih =>
    intro stack out
    cases stack with
    | nil => rfl
    | cons x stack =>
      obtain ⟨s, e⟩ := x
      have e1 : ∀ x y, inFloat ι d x y = ι (d x y) := fun _ _ => rfl
      simp only [flatBallLoop, getDistance_map, getPoint_map, isTerminal_map, getPoints_map,
        map_bind_py, e1, insideBall_map H, H.le, ← H.sub, pyAbs_map H, ih]

theorem hierBallRec_map (H : FiniteIn ι inf) (d : T → T → R) (a : VPArray T R) (q : T) (eps : R)
    (inc : Bool) : ∀ (t : VPNode T R) (out : List T),
    hierBallRec (inFloat ι d) (a.mapNum ι) q (ι eps) inc (t.mapNum ι) out =
      hierBallRec d a q eps inc t out := by
  have e1 : ∀ x y, inFloat ι d x y = ι (d x y) := fun _ _ => rfl
  intro t
  induction t with
  | leaf s e =>
    intro out
    simp only [VPNode.mapNum, hierBallRec, getPoints_map, e1, insideBall_map H]
  | node r v left right ihl ihr =>
    intro out
    simp only [VPNode.mapNum, hierBallRec, e1, insideBall_map H, H.le, ← H.sub, pyAbs_map H, ihl,
      ihr]

theorem VPTree.ballSearch_map (H : FiniteIn ι inf) (t : VPTree T R) (q : T) (eps : R)
    (inc : Bool) : (t.mapNum ι).ballSearch q (ι eps) inc = t.ballSearch q eps inc := by
  cases t with
  | flat d a => exact flatBallLoop_map H d a q eps inc _ _ _
  | hier d t a => exact hierBallRec_map H d a q eps inc t []

end search

end Verif
