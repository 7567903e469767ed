import Verif.Model.KnnInf
import Verif.Spec.Numbers
import Verif.Proof.VPHier
import Verif.Proof.Heap
import Verif.Proof.Cover

/-!
# Nearest neighbours among arbitrary numbers: the searches succeed
-/

set_option autoImplicit false
set_option linter.unusedSectionVars false

namespace Verif

section heap
variable {K V : Type} [LT K] [DecidableLT K] [StrictLT K]

theorem bubbleUpLoop_any : ∀ (fuel : ℕ) (l : List (K × V)) (c : ℕ), c < l.length → c < fuel →
    ∃ l', bubbleUpLoop fuel l c = .ok l' ∧ l'.Perm l := by
  intro fuel
  induction fuel with
  | zero => intro l c _ h; omega
  | succ fuel ih =>
    intro l c hc hf
    have hp : (c - 1) / 2 < l.length := by omega
    simp only [bubbleUpLoop, fixUp, heapParent_eq, getItem_lt hp, getItem_lt hc, ok_bind]
    by_cases hlt : l[(c - 1) / 2].1 < l[c].1
    · have hc0 : 0 < c := by
        rcases Nat.eq_zero_or_pos c with h | h
        · subst h
          exact absurd hlt (StrictLT.irrefl _)
        · exact h
      obtain ⟨l1, e1, pm, len, _⟩ := swapList_perm hc hp
      obtain ⟨l', e2, p2⟩ := ih l1 ((c - 1) / 2) (by omega) (by omega)
      refine ⟨l', ?_, p2.trans pm⟩
      rw [if_pos hlt, e1]
      simp only [ok_bind, pure_eq_ok]
      rw [if_neg (by omega), e2]
    · exact ⟨l, by rw [if_neg hlt]; simp, .refl _⟩

omit [StrictLT K] in
theorem getLocalMax_any (l : List (K × V)) (i : ℕ) :
    getLocalMax l i = .ok i ∨ ∃ m, getLocalMax l i = .ok m ∧ i < m ∧ m < l.length := by
  unfold getLocalMax heapLeft heapRight
  by_cases h1 : 2 * i + 1 ≥ l.length
  · left; simp [h1]
  · have hi : i < l.length := by omega
    have hl : 2 * i + 1 < l.length := by omega
    simp only [if_neg h1]
    by_cases h2 : 2 * i + 2 ≥ l.length
    · simp only [h2, if_true, getItem_lt hi, getItem_lt hl, ok_bind]
      split
      · right; exact ⟨_, rfl, by omega, hl⟩
      · left; rfl
    · have hr : 2 * i + 2 < l.length := by omega
      simp only [if_neg h2, getItem_lt hl, getItem_lt hr, getItem_lt hi, ok_bind]
      split
      · simp only [getItem_lt hr, ok_bind]
        split
        · right; exact ⟨_, rfl, by omega, hr⟩
        · left; rfl
      · simp only [getItem_lt hl, ok_bind]
        split
        · right; exact ⟨_, rfl, by omega, hl⟩
        · left; rfl

omit [StrictLT K] in
theorem bubbleDownLoop_any : ∀ (fuel : ℕ) (l : List (K × V)) (c : ℕ), c ≤ l.length →
    l.length < fuel + c → ∃ l', bubbleDownLoop fuel l c = .ok l' ∧ l'.Perm l := by
  intro fuel
  induction fuel with
  | zero => intro l c h h'; omega
  | succ fuel ih =>
    intro l c hc hf
    rcases getLocalMax_any l c with e | ⟨m, e, hcm, hm⟩
    · exact ⟨l, by simp [bubbleDownLoop, fixDown, e], .refl _⟩
    · obtain ⟨l1, e1, pm, len, _⟩ := swapList_perm (l := l) (i := c) (j := m) (by omega) hm
      obtain ⟨l', e2, p2⟩ := ih l1 m (by omega) (by omega)
      refine ⟨l', ?_, p2.trans pm⟩
      have hne : c ≠ m := by omega
      simp [bubbleDownLoop, fixDown, e, hcm, e1, hne, e2]

theorem MaxHeap.add_any (h : MaxHeap K V) (k : K) (v : V) :
    ∃ h', h.add k v = .ok h' ∧ h'.heap.Perm ((k, v) :: h.heap) := by
  obtain ⟨l, e, p⟩ := bubbleUpLoop_any (h.heap.length + 1 + 1) (h.heap ++ [(k, v)]) h.heap.length
    (by simp) (by omega)
  refine ⟨⟨l, h.iter⟩, ?_, p.trans (List.perm_append_singleton _ _)⟩
  unfold MaxHeap.add bubbleUp
  simp [e]

omit [StrictLT K] in
theorem MaxHeap.pop_any (h : MaxHeap K V) (hne : h.heap ≠ []) :
    ∃ x h', h.pop = .ok (some x, h') ∧ h.heap.Perm (x :: h'.heap) := by
  rcases hl : h.heap with _ | ⟨x, t⟩
  · exact absurd hl hne
  · have hpop : ∃ last rest, (x :: t).getLast? = some last ∧
        ((x :: t).set 0 last).dropLast = rest ∧ (x :: rest).Perm (x :: t) := by
      rcases List.eq_nil_or_concat' t with rfl | ⟨u, z, rfl⟩
      · exact ⟨x, [], by simp, by simp, .refl _⟩
      · refine ⟨z, z :: u, ?_, ?_, ?_⟩
        · rw [← List.cons_append, List.getLast?_append]; simp
        · rw [List.set_cons_zero, ← List.cons_append, List.dropLast_concat]
        · exact ((List.perm_append_singleton z u).symm).cons x
    obtain ⟨last, rest, h1, h2, h3⟩ := hpop
    obtain ⟨l', r1, r2⟩ := bubbleDownLoop_any (rest.length + 1) rest 0 (by omega) (by omega)
    refine ⟨x, ⟨l', h.iter⟩, ?_, h3.symm.trans (r2.symm.cons x)⟩
    have e1 : getItem (x :: t) ((x :: t).length - 1) = .ok last := by
      rw [getItem_eq_ok, ← List.getLast?_eq_getElem?, h1]
    have e2 : setItem (x :: t) 0 last = .ok ((x :: t).set 0 last) := setItem_lt (by simp)
    have e3 : getItem (x :: t) 0 = .ok x := getItem_ok (by simp)
    simp only [MaxHeap.pop, hl]
    rw [e3, e1, ok_bind, ok_bind, e2, ok_bind, h2, bubbleDown, r1]
    rfl

end heap

section search
variable {T R : Type} [LE R] [LT R] [DecidableLE R] [DecidableLT R] [Zero R] [Neg R] [Sub R]

open VPArray

/-- At most `k` entries, all of them seen. -/
def Found (k : ℕ) (seen : List T) (h : MaxHeap R T) : Prop :=
  (h.heap.map Prod.snd).Subperm seen ∧ h.heap.length ≤ k

theorem Found.more {k : ℕ} {seen : List T} {h : MaxHeap R T} (hf : Found k seen h)
    (l : List T) : Found k (seen ++ l) h :=
  ⟨hf.1.trans (List.sublist_append_left _ _).subperm, hf.2⟩

theorem Found.perm {k : ℕ} {seen seen' : List T} {h : MaxHeap R T} (hf : Found k seen h)
    (hp : seen.Perm seen') : Found k seen' h := ⟨hf.1.trans hp.subperm, hf.2⟩

theorem Found.init (k : ℕ) (seen : List T) : Found k seen (MaxHeap.init : MaxHeap R T) :=
  ⟨List.nil_subperm, Nat.zero_le _⟩

theorem shrinkHeap_any (k : ℕ) : ∀ (fuel : ℕ) (h : MaxHeap R T) (seen : List T),
    h.heap.length < fuel → (h.heap.map Prod.snd).Subperm seen →
    ∃ h', shrinkHeap k fuel h = .ok h' ∧ Found k seen h' := by
  intro fuel
  induction fuel with
  | zero => intro h seen hf; omega
  | succ fuel ih =>
    intro h seen hf hs
    unfold shrinkHeap MaxHeap.len
    by_cases hk : h.heap.length > k
    · obtain ⟨x, h1, e1, p1⟩ := MaxHeap.pop_any h (by intro hn; rw [hn] at hk; simp at hk)
      have hlen := p1.length_eq
      simp only [List.length_cons] at hlen
      obtain ⟨h2, e2, f2⟩ := ih h1 seen (by omega)
        (((List.sublist_cons_self _ _).map _).subperm.trans ((p1.map Prod.snd).symm.subperm.trans hs))
      exact ⟨h2, by rw [if_pos hk, e1]; exact e2, f2⟩
    · exact ⟨h, by rw [if_neg hk], hs, by omega⟩

theorem knnItems_any {k : ℕ} {seen : List T} {h : MaxHeap R T} (hf : Found k seen h) :
    ∃ out, knnItems k h = .ok out ∧ out.Subperm seen ∧ out.length ≤ k := by
  obtain ⟨h1, e1, f1⟩ := shrinkHeap_any k (h.len + 1) h seen (by simp [MaxHeap.len]) hf.1
  refine ⟨h1.heap.map Prod.snd, by simp [knnItems, e1, MaxHeap.toList_ok], ?_, ?_⟩
  · exact f1.1
  · simpa using f1.2

variable [StrictLT R]

theorem subperm_concat {l seen : List T} {x : T} (h : l.Subperm seen) :
    (x :: l).Subperm (seen ++ [x]) :=
  ((List.subperm_cons x).mpr h).trans (List.perm_append_singleton _ _).symm.subperm

theorem knnProcessInf_any (d : T → T → R) (q : T) (k : ℕ) (seen : List T)
    (st : KnnInfState T R) (x : T) (hf : Found k seen st.result) :
    ∃ st', knnProcessInf d q k st x = .ok (d q x, st') ∧ Found k (seen ++ [x]) st'.result := by
  unfold knnProcessInf
  by_cases h : st.radius ≤ d q x
  · exact ⟨st, by simp [h], hf.more _⟩
  · obtain ⟨h1, e1, p1⟩ := MaxHeap.add_any st.result (d q x) x
    obtain ⟨h2, e2, f2⟩ := shrinkHeap_any k (h1.len + 1) h1 (seen ++ [x]) (by simp [MaxHeap.len])
      ((p1.map Prod.snd).subperm.trans (subperm_concat hf.1))
    simp only [if_neg h, e1, e2, ok_bind, MaxHeap.top_ok]
    split
    · cases hh : h2.heap[0]? with
      | none => exact ⟨_, rfl, f2⟩
      | some y => exact ⟨_, rfl, f2⟩
    · exact ⟨_, rfl, f2⟩

theorem knnProcessAllInf_any (d : T → T → R) (q : T) (k : ℕ) : ∀ (xs seen : List T)
    (st : KnnInfState T R), Found k seen st.result →
    ∃ st', knnProcessAllInf d q k xs st = .ok st' ∧ Found k (seen ++ xs) st'.result := by
  intro xs
  induction xs with
  | nil => intro seen st hf; exact ⟨st, rfl, by simpa using hf⟩
  | cons x xs ih =>
    intro seen st hf
    obtain ⟨st1, e1, f1⟩ := knnProcessInf_any d q k seen st x hf
    obtain ⟨st2, e2, f2⟩ := ih _ st1 f1
    exact ⟨st2, by simp only [knnProcessAllInf, e1, ok_bind, e2], by simpa using f2⟩

/-- Running the flat loop on a range, whatever the rest of the stack. -/
def RunsAny (d : T → T → R) (a : VPArray T R) (q : T) (k : ℕ) (item : ℕ × ℕ × R × KnnAction)
    (bound : ℕ) (seen : List T) (st : KnnInfState T R) : Prop :=
  ∃ c st', c ≤ bound ∧ Found k seen st'.result ∧
    ∀ fuel rest, flatKnnLoopInf d a q k (c + fuel) (item :: rest) st =
      flatKnnLoopInf d a q k fuel rest st'

theorem knnInf_leaf (d : T → T → R) {a : VPArray T R} (h : a.WF) (q : T) (k : ℕ) {s e : ℕ}
    (hs : s < a.dataset.length) (ht : a.term s = some true) (thr : R) (act : KnnAction)
    (seen : List T) (st : KnnInfState T R) (hf : Found k seen st.result) :
    RunsAny d a q k (s, e, thr, act) 1 (seen ++ a.pts s e) st := by
  obtain ⟨r, hr⟩ := h.getDistance hs
  obtain ⟨v, hv, _⟩ := h.getPoint hs
  obtain ⟨st', e1, i1⟩ := knnProcessAllInf_any d q k (a.pts s e) seen st hf
  refine ⟨1, st', le_refl _, i1, ?_⟩
  intro fuel rest
  rw [show 1 + fuel = fuel + 1 by omega]
  simp only [flatKnnLoopInf, hr, hv, ok_bind, WF.isTerminal ht, if_true, h.getPoints, e1]

theorem knnInf_post {p : VPParams R} (d : T → T → R) {a : VPArray T R} (h : a.WF) (q : T) (k : ℕ)
    {s e : ℕ} (t : FlatTree p d a s e) (thr : R)
    (pre : ∀ seen st, Found k seen st.result →
      RunsAny d a q k (s, e, 0, .pre) (3 * (e - s) + 1) (seen ++ a.pts s e) st)
    (seen : List T) (st : KnnInfState T R) (hf : Found k seen st.result) :
    RunsAny d a q k (s, e, thr, .post) (3 * (e - s) + 2) (seen ++ a.pts s e) st := by
  cases t with
  | leaf hs hse he ht _ =>
    obtain ⟨c, st', h1, h2, h3⟩ := knnInf_leaf d h q k hs ht (e := e) thr .post seen st hf
    exact ⟨c, st', by omega, h2, h3⟩
  | node v r hse he ht hv hr hy hl hh left right =>
    have hrd : a.getDistance s = .ok r := getItem_ok hr
    have hvp := getPoint_of_pt hv
    by_cases hg : thr < st.radius
    · obtain ⟨c, st', h1, h2, h3⟩ := pre seen st hf
      refine ⟨1 + c, st', by omega, h2, ?_⟩
      intro fuel rest
      rw [show 1 + c + fuel = (c + fuel) + 1 by omega]
      simp only [flatKnnLoopInf, hrd, hvp, ok_bind, WF.isTerminal ht, hg, if_true]
      exact h3 fuel rest
    · refine ⟨1, st, by omega, hf.more _, ?_⟩
      intro fuel rest
      rw [show 1 + fuel = fuel + 1 by omega]
      simp only [flatKnnLoopInf, hrd, hvp, ok_bind, WF.isTerminal ht, hg]
      rfl

theorem flatKnnLoopInf_any {p : VPParams R} {d : T → T → R} {a : VPArray T R} (h : a.WF)
    (q : T) (k : ℕ) {s e : ℕ} (t : FlatTree p d a s e) :
    ∀ seen st, Found k seen st.result →
      RunsAny d a q k (s, e, 0, .pre) (3 * (e - s) + 1) (seen ++ a.pts s e) st := by
  induction t with
  | @leaf s e hs hse he ht _ =>
    intro seen st hf
    obtain ⟨c, st', h1, h2, h3⟩ := knnInf_leaf d h q k hs ht (e := e) 0 .pre seen st hf
    exact ⟨c, st', by omega, h2, h3⟩
  | @node s e v r hse he ht hv hr hy hl hh left right ihl ihr =>
    intro seen st hf
    have hm1 : s + 1 ≤ vpMid s e := by unfold vpMid; omega
    have hm2 : vpMid s e < e := by unfold vpMid; omega
    have hpts := FlatTree.pts_node h hse he hv
    have hrd : a.getDistance s = .ok r := getItem_ok hr
    have hvp := getPoint_of_pt hv
    obtain ⟨st1, e1, i1⟩ := knnProcessInf_any d q k seen st v hf
    by_cases h1 : d q v ≤ r
    · obtain ⟨c2, st2, hc2, i2, l2⟩ := ihl _ st1 i1
      obtain ⟨c3, st3, hc3, i3, l3⟩ := knnInf_post d h q k right (pyAbs (r - d q v)) ihr _ st2 i2
      refine ⟨1 + c2 + c3, st3, by omega, i3.perm ?_, ?_⟩
      · rw [hpts]; simp
      · intro fuel rest
        rw [show 1 + c2 + c3 + fuel = (c2 + (c3 + fuel)) + 1 by omega]
        simp only [flatKnnLoopInf, hrd, hvp, ok_bind, WF.isTerminal ht, e1, if_pos h1]
        exact (l2 _ _).trans (l3 _ _)
    · obtain ⟨c2, st2, hc2, i2, l2⟩ := ihr _ st1 i1
      obtain ⟨c3, st3, hc3, i3, l3⟩ := knnInf_post d h q k left (pyAbs (r - d q v)) ihl _ st2 i2
      refine ⟨1 + c2 + c3, st3, by omega, i3.perm ?_, ?_⟩
      · rw [hpts]
        simp only [List.append_assoc, List.singleton_append]
        exact (List.Perm.cons _ List.perm_append_comm).append_left _
      · intro fuel rest
        rw [show 1 + c2 + c3 + fuel = (c2 + (c3 + fuel)) + 1 by omega]
        simp only [flatKnnLoopInf, hrd, hvp, ok_bind, WF.isTerminal ht, e1, if_neg h1]
        exact (l2 _ _).trans (l3 _ _)

theorem flatKnnSearchInf_any (inf : R) {p : VPParams R} {d : T → T → R} {a : VPArray T R}
    (h : a.WF) (t : FlatTree p d a 0 a.dataset.length) (q : T) (k : ℕ) :
    ∃ out, flatKnnSearchInf inf d a q k = .ok out ∧ out.Subperm a.dataset ∧ out.length ≤ k := by
  obtain ⟨c, st, hc, hi, l⟩ := flatKnnLoopInf_any h q k t [] ⟨inf, MaxHeap.init⟩ (Found.init _ _)
  rw [List.nil_append] at hi
  obtain ⟨out, e1, ho⟩ := knnItems_any (hi.perm h.pts_all)
  refine ⟨out, ?_, ho⟩
  unfold flatKnnSearchInf VPArray.size
  have := l (3 * a.dataset.length + 3 - c) []
  rw [show c + (3 * a.dataset.length + 3 - c) = 3 * a.dataset.length + 3 by omega] at this
  rw [this]
  obtain ⟨m, hm⟩ : ∃ m, 3 * a.dataset.length + 3 - c = m + 1 :=
    ⟨3 * a.dataset.length + 2 - c, by omega⟩
  rw [hm]
  exact e1

/-! ## Hierarchical search -/

theorem hierKnnRadiusInf_any (inf : R) (k : ℕ) (h : MaxHeap R T) :
    ∃ r, hierKnnRadiusInf inf k h = .ok r := by
  unfold hierKnnRadiusInf
  split
  · exact ⟨_, rfl⟩
  · rw [MaxHeap.top_ok]
    cases h.heap[0]? <;> exact ⟨_, rfl⟩

theorem hierKnnConsiderInf_any (inf : R) (k : ℕ) (seen : List T) (h : MaxHeap R T) (dist : R)
    (x : T) (hf : Found k seen h) :
    ∃ h', hierKnnConsiderInf inf k h dist x = .ok h' ∧ Found k (seen ++ [x]) h' := by
  obtain ⟨r, hr⟩ := hierKnnRadiusInf_any inf k h
  unfold hierKnnConsiderInf
  rw [hr, ok_bind]
  split
  · obtain ⟨h1, e1, p1⟩ := MaxHeap.add_any h dist x
    have hsub : (h1.heap.map Prod.snd).Subperm (seen ++ [x]) :=
      (p1.map Prod.snd).subperm.trans (subperm_concat hf.1)
    have hlen := p1.length_eq
    simp only [List.length_cons] at hlen
    have hk := hf.2
    unfold hierKnnAdd
    rw [e1, ok_bind]
    by_cases hl : h1.len > k
    · obtain ⟨y, h2, e2, p2⟩ := MaxHeap.pop_any h1 (by
        intro hn; rw [MaxHeap.len, hn] at hl; simp at hl)
      have hlen2 := p2.length_eq
      simp only [List.length_cons] at hlen2
      refine ⟨h2, by rw [if_pos hl, e2]; rfl, ?_, by omega⟩
      exact ((List.sublist_cons_self _ _).map _).subperm.trans
        ((p2.map Prod.snd).symm.subperm.trans hsub)
    · exact ⟨h1, by rw [if_neg hl]; rfl, hsub, by unfold MaxHeap.len at hl; omega⟩
  · exact ⟨h, rfl, hf.more _⟩

theorem hierKnnLeafInf_any (inf : R) (d : T → T → R) (q : T) (k : ℕ) : ∀ (xs seen : List T)
    (h : MaxHeap R T), Found k seen h →
    ∃ h', hierKnnLeafInf inf d q k xs h = .ok h' ∧ Found k (seen ++ xs) h' := by
  intro xs
  induction xs with
  | nil => intro seen h hf; exact ⟨h, rfl, by simpa using hf⟩
  | cons x xs ih =>
    intro seen h hf
    obtain ⟨h1, e1, f1⟩ := hierKnnConsiderInf_any inf k seen h (d q x) x hf
    obtain ⟨h2, e2, f2⟩ := ih _ h1 f1
    exact ⟨h2, by simp only [hierKnnLeafInf, e1, ok_bind, e2], by simpa using f2⟩

theorem hierKnnRecInf_any (inf : R) {d : T → T → R} {a : VPArray T R} (h : a.WF) (q : T) (k : ℕ) :
    ∀ (t : VPNode T R) (seen : List T) (hp : MaxHeap R T), Found k seen hp →
    ∃ hp', hierKnnRecInf inf d a q k t hp = .ok hp' ∧ Found k (seen ++ t.pts a) hp' := by
  intro t
  induction t with
  | leaf s e =>
    intro seen hp hf
    obtain ⟨h', e1, i1⟩ := hierKnnLeafInf_any inf d q k (a.pts s e) seen hp hf
    exact ⟨h', by simp only [hierKnnRecInf, h.getPoints, ok_bind, e1], i1⟩
  | node r v left right ihl ihr =>
    intro seen hp hf
    obtain ⟨h1, e1, f1⟩ := hierKnnConsiderInf_any inf k seen hp (d v q) v hf
    have hperm : (seen ++ [v] ++ right.pts a ++ left.pts a).Perm
        (seen ++ (VPNode.node r v left right).pts a) := by
      simp only [VPNode.pts, List.append_assoc, List.singleton_append]
      exact (List.Perm.cons _ List.perm_append_comm).append_left _
    have hperm' : (seen ++ [v] ++ left.pts a ++ right.pts a).Perm
        (seen ++ (VPNode.node r v left right).pts a) := by simp [VPNode.pts]
    by_cases hc : d v q ≤ r
    · obtain ⟨h2, e2, f2⟩ := ihl _ h1 f1
      obtain ⟨r2, er⟩ := hierKnnRadiusInf_any inf k h2
      simp only [hierKnnRecInf, e1, ok_bind, if_pos hc, e2, er]
      split
      · obtain ⟨h3, e3, f3⟩ := ihr _ h2 f2
        exact ⟨h3, e3, f3.perm hperm'⟩
      · exact ⟨h2, rfl, (f2.more (right.pts a)).perm hperm'⟩
    · obtain ⟨h2, e2, f2⟩ := ihr _ h1 f1
      obtain ⟨r2, er⟩ := hierKnnRadiusInf_any inf k h2
      simp only [hierKnnRecInf, e1, ok_bind, if_neg hc, e2, er]
      split
      · obtain ⟨h3, e3, f3⟩ := ihl _ h2 f2
        exact ⟨h3, e3, f3.perm hperm⟩
      · exact ⟨h2, rfl, (f2.more (left.pts a)).perm hperm⟩

end search

end Verif
