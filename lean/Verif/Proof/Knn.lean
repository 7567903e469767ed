import Verif.Model.VPHier
import Verif.Proof.VPFlat
import Verif.Proof.Heap

set_option linter.unusedSectionVars false

namespace Verif

variable {T R : Type}

section
variable [LinearOrder R]

/-- `L r x`: an entry at distance `r` may be preferred to `x`. This includes the case that
`x` is at least as far, and is inherited by smaller distances. -/
structure Prefers (f : T → R) (L : R → T → Prop) : Prop where
  of_le : ∀ r x, r ≤ f x → L r x
  mono : ∀ r r' x, r' ≤ r → L r x → L r' x

/-- The heap holds `k` of the points seen so far that may be preferred to the others. -/
structure KInv (f : T → R) (L : R → T → Prop) (k : ℕ) (seen : List T) (h : MaxHeap R T) :
    Prop where
  ok : h.Ok
  key : ∀ p ∈ h.heap, p.1 = f p.2
  size : h.heap.length = min k seen.length
  split : ∃ rest, (h.heap.map Prod.snd ++ rest).Perm seen ∧
    ∀ p ∈ h.heap, ∀ x ∈ rest, L p.1 x

/-- The search radius: the largest distance held once `k` points are held. -/
def radiusOf (k : ℕ) (h : MaxHeap R T) : Option R :=
  if h.heap.length < k then none else h.heap[0]?.map Prod.fst

theorem KInv.nil (f : T → R) (L : R → T → Prop) (k : ℕ) : KInv f L k [] (MaxHeap.init : MaxHeap R T) :=
  ⟨MaxHeap.init_ok, by simp [MaxHeap.init], by simp [MaxHeap.init],
    [], by simp [MaxHeap.init], by simp⟩

theorem KInv.perm {f : T → R} {L : R → T → Prop} {k : ℕ} {l l' : List T} {h : MaxHeap R T} (hi : KInv f L k l h)
    (hp : l.Perm l') : KInv f L k l' h := by
  obtain ⟨rest, h1, h2⟩ := hi.split
  exact ⟨hi.ok, hi.key, by rw [hi.size, hp.length_eq], rest, h1.trans hp, h2⟩

theorem KInv.le_radius {f : T → R} {L : R → T → Prop} {k : ℕ} {seen : List T} {h : MaxHeap R T}
    (hi : KInv f L k seen h) {r : R} (hr : radiusOf k h = some r) : ∀ p ∈ h.heap, p.1 ≤ r := by
  unfold radiusOf at hr
  split at hr
  · cases hr
  · cases hh : h.heap with
    | nil => rw [hh] at hr; cases hr
    | cons x l =>
      rw [hh] at hr
      simp at hr
      have := hi.ok
      unfold MaxHeap.Ok at this
      rw [hh] at this
      rw [← hr]
      exact this.root_max

theorem KInv.skip {f : T → R} {L : R → T → Prop} (hL : Prefers f L) {k : ℕ} {seen : List T}
    {h : MaxHeap R T} (hi : KInv f L k seen h) {r : R} (hr : radiusOf k h = some r) {ys : List T}
    (hy : ∀ y ∈ ys, L r y) : KInv f L k (seen ++ ys) h := by
  obtain ⟨rest, h1, h2⟩ := hi.split
  have hk : ¬ h.heap.length < k := by
    intro hlt
    unfold radiusOf at hr
    rw [if_pos hlt] at hr; cases hr
  refine ⟨hi.ok, hi.key, ?_, rest ++ ys, ?_, ?_⟩
  · have := hi.size
    rw [List.length_append]; omega
  · rw [← List.append_assoc]; exact h1.append_right _
  · intro p hp x hx
    rw [List.mem_append] at hx
    rcases hx with hx | hx
    · exact h2 p hp x hx
    · exact hL.mono _ _ _ (hi.le_radius hr p hp) (hy x hx)

/-- Adding a point closer than the radius, and dropping the farthest if there
are too many. -/
theorem KInv.add {f : T → R} {L : R → T → Prop} (hL : Prefers f L) {k : ℕ} {seen : List T}
    {h : MaxHeap R T} (hi : KInv f L k seen h) {x : T} (hx : radiusGt (radiusOf k h) (f x) = true) :
    ∃ h1, h.add (f x) x = .ok h1 ∧ h1.len = h.len + 1 ∧
      ((h1.len ≤ k ∧ KInv f L k (seen ++ [x]) h1) ∨
       (k < h1.len ∧ ∃ y h2, h1.pop = .ok (some y, h2) ∧ h2.len = k ∧
        KInv f L k (seen ++ [x]) h2)) := by
  obtain ⟨h1, e1, ok1, p1⟩ := MaxHeap.add_ok h (f x) x hi.ok
  obtain ⟨rest, hp, hle⟩ := hi.split
  have hlen : h1.heap.length = h.heap.length + 1 := by rw [p1.length_eq]; simp
  have hlp := hp.length_eq
  simp only [List.length_append, List.length_map] at hlp
  have hsz := hi.size
  have key1 : ∀ p ∈ h1.heap, p.1 = f p.2 := by
    intro p hp
    rw [p1.mem_iff, List.mem_cons] at hp
    rcases hp with rfl | hp
    · rfl
    · exact hi.key p hp
  have hmap : (h1.heap.map Prod.snd).Perm (x :: h.heap.map Prod.snd) := by
    simpa using p1.map Prod.snd
  have hperm1 : (h1.heap.map Prod.snd ++ rest).Perm (seen ++ [x]) := by
    refine (hmap.append_right _).trans ?_
    rw [List.cons_append]
    exact (hp.cons x).trans (List.perm_append_singleton x seen).symm
  have hxle : 0 < k → ∀ y ∈ rest, L (f x) y := by
    intro hk y hy
    have : 0 < rest.length := List.length_pos_of_mem hy
    have hfull : h.heap.length = k := by omega
    cases hh : h.heap with
    | nil => rw [hh] at hfull; simp at hfull; omega
    | cons z l =>
      have hr : radiusOf k h = some z.1 := by
        unfold radiusOf; rw [if_neg (by omega), hh]; rfl
      rw [hr] at hx
      simp only [radiusGt, decide_eq_true_eq] at hx
      exact hL.mono _ _ _ (le_of_lt hx) (hle z (by rw [hh]; simp) y hy)
  have hle1 : 0 < k → ∀ p ∈ h1.heap, ∀ y ∈ rest, L p.1 y := by
    intro hk p hp y hy
    rw [p1.mem_iff, List.mem_cons] at hp
    rcases hp with rfl | hp
    · exact hxle hk y hy
    · exact hle p hp y hy
  refine ⟨h1, e1, by simp only [MaxHeap.len]; exact hlen, ?_⟩
  by_cases hc : h1.heap.length ≤ k
  · refine .inl ⟨hc, ok1, key1, ?_, rest, hperm1, hle1 (by omega)⟩
    rw [List.length_append, List.length_singleton]; omega
  · refine .inr ⟨by simp only [MaxHeap.len]; omega, ?_⟩
    rcases MaxHeap.pop_ok h1 ok1 with ⟨hn, _⟩ | ⟨y, h2, e2, ok2, p2, _, hmax⟩
    · rw [hn] at hlen; simp at hlen
    · have hl2 : h2.heap.length + 1 = h1.heap.length := by rw [p2.length_eq]; simp
      have hmem2 : ∀ p ∈ h2.heap, p ∈ h1.heap := fun p hp => p2.mem_iff.mpr (by simp [hp])
      refine ⟨y, h2, e2, by simp only [MaxHeap.len]; omega, ok2,
        fun p hp => key1 p (hmem2 p hp), ?_, y.2 :: rest, ?_, ?_⟩
      · rw [List.length_append, List.length_singleton]; omega
      · refine List.Perm.trans ?_ hperm1
        refine List.Perm.trans ?_ ((p2.map Prod.snd).symm.append_right _)
        simp only [List.map_cons, List.cons_append]
        exact List.perm_middle
      · intro p hp z hz
        have hk : 0 < k := by
          have := List.length_pos_of_mem hp
          omega
        rw [List.mem_cons] at hz
        rcases hz with rfl | hz
        · have hy1 : y ∈ h1.heap := p2.mem_iff.mpr (by simp)
          refine hL.of_le _ _ ?_
          rw [← key1 y hy1]
          exact hmax p (hmem2 p hp)
        · exact hle1 hk p (hmem2 p hp) z hz

end

section
variable [LinearOrder R]

theorem shrinkHeap_le (k fuel : ℕ) (h : MaxHeap R T) (hl : h.len ≤ k) :
    shrinkHeap k (fuel + 1) h = .ok h := by
  rw [shrinkHeap, if_neg (by omega)]

/-- A k-nearest-neighbour answer up to the preference `L`. -/
def KnnUpTo (d : T → T → R) (q : T) (L : R → T → Prop) (k : ℕ) (X out : List T) : Prop :=
  out.length = min k X.length ∧
    ∃ left, (out ++ left).Perm X ∧ ∀ x ∈ out, ∀ y ∈ left, L (d q x) y

theorem knnItems_ok {d : T → T → R} {q : T} {L : R → T → Prop} {k : ℕ} {X : List T}
    {h : MaxHeap R T} (hi : KInv (d q) L k X h) :
    ∃ out, knnItems k h = .ok out ∧ KnnUpTo d q L k X out := by
  have hl : h.len ≤ k := by have := hi.size; simp only [MaxHeap.len]; omega
  refine ⟨h.heap.map Prod.snd, ?_, by simp [hi.size], ?_⟩
  · simp only [knnItems, shrinkHeap_le k _ h hl, ok_bind, MaxHeap.toList_ok]
    rfl
  · obtain ⟨rest, h1, h2⟩ := hi.split
    refine ⟨rest, h1, ?_⟩
    intro x hx y hy
    rw [List.mem_map] at hx
    obtain ⟨p, hp, rfl⟩ := hx
    rw [← hi.key p hp]
    exact h2 p hp y hy

/-! ## Flat search -/

/-- Invariant of the flat search state. -/
def KState (f : T → R) (L : R → T → Prop) (k : ℕ) (seen : List T) (st : KnnState T R) : Prop :=
  KInv f L k seen st.result ∧ st.radius = radiusOf k st.result

theorem knnProcess_ok (d : T → T → R) (q : T) {L : R → T → Prop}
    (hL : Prefers (d q) L) (k : ℕ) (seen : List T) (st : KnnState T R) (x : T)
    (hi : KState (d q) L k seen st) :
    ∃ st', knnProcess d q k st x = .ok (d q x, st') ∧ KState (d q) L k (seen ++ [x]) st' := by
  obtain ⟨hi, hr⟩ := hi
  by_cases hg : geRadius (d q x) st.radius = true
  · refine ⟨st, by simp [knnProcess, hg], ?_, hr⟩
    cases hs : st.radius with
    | none => rw [hs] at hg; cases hg
    | some r =>
      rw [hs] at hg hr
      simp only [geRadius, decide_eq_true_eq] at hg
      exact hi.skip hL hr.symm (by simpa using hL.of_le _ _ hg)
  · have hgt : radiusGt (radiusOf k st.result) (d q x) = true := by
      rw [← hr]
      cases hs : st.radius with
      | none => rfl
      | some r => rw [hs] at hg; simpa [geRadius, radiusGt] using hg
    obtain ⟨h1, e1, l1, hcase⟩ := hi.add hL hgt
    have hsz := hi.size
    -- the heap after shrinking
    have hshrink : ∃ h2, shrinkHeap k (h1.len + 1) h1 = .ok h2 ∧
        KInv (d q) L k (seen ++ [x]) h2 := by
      rcases hcase with ⟨hl, hk⟩ | ⟨hl, y, h2, e2, l2, hk⟩
      · exact ⟨h1, shrinkHeap_le k _ h1 hl, hk⟩
      · refine ⟨h2, ?_, hk⟩
        rw [shrinkHeap, if_pos hl, e2, ok_bind]
        obtain ⟨m, hm⟩ : ∃ m, h1.len = m + 1 := ⟨_, l1⟩
        rw [hm]
        exact shrinkHeap_le k m h2 (by omega)
    obtain ⟨h2, e2, hk2⟩ := hshrink
    have hlen : h2.len = min k (seen.length + 1) := by
      have := hk2.size
      simpa [MaxHeap.len] using this
    have hlen1 : st.result.len = min k seen.length := hsz
    have hg' : geRadius (d q x) st.radius = false := by simpa using hg
    by_cases hf : h2.len = k
    · by_cases hk0 : k = 0
      · subst hk0
        have hnil : h2.heap = [] := List.eq_nil_of_length_eq_zero hf
        refine ⟨⟨st.radius, h2⟩, ?_, hk2, ?_⟩
        · simp [knnProcess, hg', e1, e2, hf, MaxHeap.top_ok, hnil]
        · have hnil0 : st.result.heap = [] := by
            apply List.eq_nil_of_length_eq_zero
            have : st.result.len = st.result.heap.length := rfl
            omega
          rw [hr]
          simp [radiusOf, hnil, hnil0]
      · cases hh : h2.heap with
        | nil =>
          have : h2.len = h2.heap.length := rfl
          rw [hh] at this; simp at this; omega
        | cons z l =>
          refine ⟨⟨some z.1, h2⟩, ?_, hk2, ?_⟩
          · simp [knnProcess, hg', e1, e2, hf, MaxHeap.top_ok, hh]
          · have : h2.len = h2.heap.length := rfl
            simp only [radiusOf]
            rw [if_neg (by omega), hh]; rfl
    · refine ⟨⟨st.radius, h2⟩, ?_, hk2, ?_⟩
      · simp [knnProcess, hg', e1, e2, hf]
      · have a1 : h2.len = h2.heap.length := rfl
        have a2 : st.result.len = st.result.heap.length := rfl
        rw [hr]
        simp only [radiusOf]
        rw [if_pos (by omega), if_pos (by omega)]

theorem knnProcessAll_ok (d : T → T → R) (q : T) {L : R → T → Prop}
    (hL : Prefers (d q) L) (k : ℕ) : ∀ (xs seen : List T)
    (st : KnnState T R), KState (d q) L k seen st →
    ∃ st', knnProcessAll d q k xs st = .ok st' ∧ KState (d q) L k (seen ++ xs) st' := by
  intro xs
  induction xs with
  | nil => intro seen st hi; exact ⟨st, rfl, by simpa using hi⟩
  | cons x xs ih =>
    intro seen st hi
    obtain ⟨st1, e1, i1⟩ := knnProcess_ok d q hL k seen st x hi
    obtain ⟨st2, e2, i2⟩ := ih _ st1 i1
    exact ⟨st2, by simp only [knnProcessAll, e1, ok_bind, e2], by simpa using i2⟩

theorem KState.perm {f : T → R} {L : R → T → Prop} {k : ℕ} {l l' : List T} {st : KnnState T R}
    (h : KState f L k l st) (hp : l.Perm l') : KState f L k l' st := ⟨h.1.perm hp, h.2⟩

end

section
variable [LinearOrder R] [Zero R] [Neg R] [Sub R]

open VPArray

/-- Running the flat loop on a range, whatever the rest of the stack. -/
def RunsTo (d : T → T → R) (a : VPArray T R) (q : T) (L : R → T → Prop) (k : ℕ) (item : ℕ × ℕ × R × KnnAction)
    (bound : ℕ) (seen : List T) (st : KnnState T R) : Prop :=
  ∃ c st', c ≤ bound ∧ KState (d q) L k seen st' ∧
    ∀ fuel rest, flatKnnLoop d a q k (c + fuel) (item :: rest) st =
      flatKnnLoop d a q k fuel rest st'

theorem knn_leaf (d : T → T → R) {a : VPArray T R} (h : a.WF) (q : T) {L : R → T → Prop}
    (hL : Prefers (d q) L) (k : ℕ)
    {s e : ℕ} (hs : s < a.dataset.length) (ht : a.term s = some true) (thr : R) (act : KnnAction)
    (seen : List T) (st : KnnState T R) (hi : KState (d q) L k seen st) :
    RunsTo d a q L k (s, e, thr, act) 1 (seen ++ a.pts s e) st := by
  obtain ⟨r, hr⟩ := h.getDistance hs
  obtain ⟨v, hv, _⟩ := h.getPoint hs
  obtain ⟨st', e1, i1⟩ := knnProcessAll_ok d q hL k (a.pts s e) seen st hi
  refine ⟨1, st', le_refl _, i1, ?_⟩
  intro fuel rest
  rw [show 1 + fuel = fuel + 1 by omega]
  simp only [flatKnnLoop, hr, hv, ok_bind, WF.isTerminal ht, if_true, h.getPoints, e1]

theorem knn_post {p : VPParams R} {dt : T → T → R} (d : T → T → R) {a : VPArray T R} (h : a.WF) (q : T)
    {L : R → T → Prop} (hL : Prefers (d q) L) (k : ℕ)
    {s e : ℕ} (t : FlatTree p dt a s e) (thr : R)
    (pre : ∀ seen st, KState (d q) L k seen st →
      RunsTo d a q L k (s, e, 0, .pre) (3 * (e - s) + 1) (seen ++ a.pts s e) st)
    (hthr : ∀ x ∈ a.pts s e, L thr x)
    (seen : List T) (st : KnnState T R) (hi : KState (d q) L k seen st) :
    RunsTo d a q L k (s, e, thr, .post) (3 * (e - s) + 2) (seen ++ a.pts s e) st := by
  cases t with
  | leaf hs hse he ht _ =>
    obtain ⟨c, st', h1, h2, h3⟩ := knn_leaf d h q hL k hs ht (e := e) thr .post seen st hi
    exact ⟨c, st', by omega, h2, h3⟩
  | node v r hse he ht hv hr hy hl hh left right =>
    have hrd : a.getDistance s = .ok r := getItem_ok hr
    have hvp := getPoint_of_pt hv
    by_cases hg : radiusGt st.radius thr = true
    · obtain ⟨c, st', h1, h2, h3⟩ := pre seen st hi
      refine ⟨1 + c, st', by omega, h2, ?_⟩
      intro fuel rest
      rw [show 1 + c + fuel = (c + fuel) + 1 by omega]
      simp only [flatKnnLoop, hrd, hvp, ok_bind, WF.isTerminal ht, hg, if_true]
      exact h3 fuel rest
    · refine ⟨1, st, by omega, ?_, ?_⟩
      · obtain ⟨hi, hr⟩ := hi
        refine ⟨?_, hr⟩
        cases hs : st.radius with
        | none => rw [hs] at hg; exact absurd rfl hg
        | some r =>
          rw [hs] at hg hr
          simp only [radiusGt, decide_eq_true_eq, not_lt] at hg
          exact hi.skip hL hr.symm (fun y hy => hL.mono _ _ _ hg (hthr y hy))
      · intro fuel rest
        rw [show 1 + fuel = fuel + 1 by omega]
        have hg' : radiusGt st.radius thr = false := by simpa using hg
        simp only [flatKnnLoop, hrd, hvp, ok_bind, WF.isTerminal ht, hg']
        rfl

/-- Skipped entries may be left out. -/
structure SkipsOk (d : T → T → R) (q : T) (L : R → T → Prop) : Prop where
  prefers : Prefers (d q) L
  far : ∀ v x r, d q v ≤ r → r ≤ d v x → L (pyAbs (r - d q v)) x
  near : ∀ v x r, r < d q v → d v x ≤ r → L (pyAbs (r - d q v)) x

/-- The same for entries of `X`, with distances `dt` when the tree is built and `d` when it is
searched. -/
structure SkipsOk2 (X : List T) (dt d : T → T → R) (q : T) (L : R → T → Prop) : Prop where
  prefers : Prefers (d q) L
  far : ∀ v x r, v ∈ X → x ∈ X → d q v ≤ r → r ≤ dt v x → L (pyAbs (r - d q v)) x
  near : ∀ v x r, v ∈ X → x ∈ X → r < d q v → dt v x ≤ r → L (pyAbs (r - d q v)) x

theorem SkipsOk.two {d : T → T → R} {q : T} {L : R → T → Prop} (h : SkipsOk d q L) (X : List T) :
    SkipsOk2 X d d q L :=
  ⟨h.prefers, fun v x r _ _ => h.far v x r, fun v x r _ _ => h.near v x r⟩

theorem flatKnnLoop_ok {p : VPParams R} {dt d : T → T → R} {a : VPArray T R} (h : a.WF)
    (q : T) {L : R → T → Prop} (hS : SkipsOk2 a.dataset dt d q L) (k : ℕ) {s e : ℕ}
    (t : FlatTree p dt a s e) :
    ∀ seen st, KState (d q) L k seen st →
      RunsTo d a q L k (s, e, 0, .pre) (3 * (e - s) + 1) (seen ++ a.pts s e) st := by
  have hL := hS.prefers
  induction t with
  | @leaf s e hs hse he ht _ =>
    intro seen st hi
    obtain ⟨c, st', h1, h2, h3⟩ := knn_leaf d h q hL k hs ht (e := e) 0 .pre seen st hi
    exact ⟨c, st', by omega, h2, h3⟩
  | @node s e v r hse he ht hv hr hy hl hh left right ihl ihr =>
    intro seen st hi
    have hm1 : s + 1 ≤ vpMid s e := by unfold vpMid; omega
    have hm2 : vpMid s e < e := by unfold vpMid; omega
    have hpts := FlatTree.pts_node h hse he hv
    have hrd : a.getDistance s = .ok r := getItem_ok hr
    have hvp := getPoint_of_pt hv
    obtain ⟨st1, e1, i1⟩ := knnProcess_ok d q hL k seen st v hi
    by_cases h1 : d q v ≤ r
    · obtain ⟨c2, st2, hc2, i2, l2⟩ := ihl _ st1 i1
      obtain ⟨c3, st3, hc3, i3, l3⟩ := knn_post d h q hL k right (pyAbs (r - d q v)) ihr (by
        intro x hx
        obtain ⟨m, m1, m2, m3⟩ := mem_pts hx
        exact hS.far v x r (pt_mem hv) (pt_mem m3) h1 (not_lt.mp (hh m x m1 m2 m3))) _ st2 i2
      refine ⟨1 + c2 + c3, st3, by omega, i3.perm ?_, ?_⟩
      · rw [hpts]; simp
      · intro fuel rest
        rw [show 1 + c2 + c3 + fuel = (c2 + (c3 + fuel)) + 1 by omega]
        simp only [flatKnnLoop, hrd, hvp, ok_bind, WF.isTerminal ht, e1, if_pos h1]
        exact (l2 _ _).trans (l3 _ _)
    · obtain ⟨c2, st2, hc2, i2, l2⟩ := ihr _ st1 i1
      obtain ⟨c3, st3, hc3, i3, l3⟩ := knn_post d h q hL k left (pyAbs (r - d q v)) ihl (by
        intro x hx
        obtain ⟨m, m1, m2, m3⟩ := mem_pts hx
        exact hS.near v x r (pt_mem hv) (pt_mem m3) (not_le.mp h1) (not_lt.mp (hl m x m1 m2 m3))) _ st2 i2
      refine ⟨1 + c2 + c3, st3, by omega, i3.perm ?_, ?_⟩
      · rw [hpts]
        simp only [List.append_assoc, List.singleton_append]
        exact (List.Perm.cons _ List.perm_append_comm).append_left _
      · intro fuel rest
        rw [show 1 + c2 + c3 + fuel = (c2 + (c3 + fuel)) + 1 by omega]
        simp only [flatKnnLoop, hrd, hvp, ok_bind, WF.isTerminal ht, e1, if_neg h1]
        exact (l2 _ _).trans (l3 _ _)

theorem flatKnnSearch_upTo {p : VPParams R} {dt d : T → T → R} {a : VPArray T R} (h : a.WF)
    (t : FlatTree p dt a 0 a.dataset.length) (q : T) {L : R → T → Prop}
    (hS : SkipsOk2 a.dataset dt d q L) (k : ℕ) :
    ∃ out, flatKnnSearch d a q k = .ok out ∧ KnnUpTo d q L k a.dataset out := by
  obtain ⟨c, st, hc, hi, l⟩ := flatKnnLoop_ok h q hS k t [] ⟨none, MaxHeap.init⟩
    ⟨KInv.nil _ _ _, by unfold radiusOf MaxHeap.init; simp⟩
  rw [List.nil_append] at hi
  obtain ⟨out, e1, ho⟩ := knnItems_ok (hi.perm h.pts_all).1
  refine ⟨out, ?_, ho⟩
  unfold flatKnnSearch VPArray.size
  have := l (3 * a.dataset.length + 3 - c) []
  rw [show c + (3 * a.dataset.length + 3 - c) = 3 * a.dataset.length + 3 by omega] at this
  rw [this]
  obtain ⟨m, hm⟩ : ∃ m, 3 * a.dataset.length + 3 - c = m + 1 :=
    ⟨3 * a.dataset.length + 2 - c, by omega⟩
  rw [hm]
  exact e1

/-! ## Hierarchical search -/

theorem hierKnnRadius_ok (k : ℕ) (h : MaxHeap R T) :
    hierKnnRadius k h = .ok (radiusOf k h) := by
  unfold hierKnnRadius radiusOf MaxHeap.len
  by_cases hl : h.heap.length < k
  · rw [if_pos hl, if_pos hl]
  · rw [if_neg hl, if_neg hl, MaxHeap.top_ok]
    cases h.heap[0]? <;> rfl

theorem hierKnnConsider_ok (f : T → R) {L : R → T → Prop} (hL : Prefers f L) (k : ℕ) (seen : List T) (h : MaxHeap R T) (x : T)
    (hi : KInv f L k seen h) :
    ∃ h', hierKnnConsider k h (f x) x = .ok h' ∧ KInv f L k (seen ++ [x]) h' := by
  unfold hierKnnConsider
  rw [hierKnnRadius_ok, ok_bind]
  by_cases hg : radiusGt (radiusOf k h) (f x) = true
  · rw [if_pos hg]
    obtain ⟨h1, e1, l1, hcase⟩ := hi.add hL hg
    unfold hierKnnAdd
    rw [e1, ok_bind]
    rcases hcase with ⟨hl, hk⟩ | ⟨hl, y, h2, e2, l2, hk⟩
    · exact ⟨h1, by rw [if_neg (by omega)]; rfl, hk⟩
    · exact ⟨h2, by rw [if_pos hl, e2]; rfl, hk⟩
  · rw [if_neg hg]
    refine ⟨h, rfl, ?_⟩
    cases hr : radiusOf k h with
    | none => rw [hr] at hg; exact absurd rfl hg
    | some r =>
      rw [hr] at hg
      simp only [radiusGt, decide_eq_true_eq, not_lt] at hg
      exact hi.skip hL hr (by simpa using hL.of_le _ _ hg)

theorem hierKnnLeaf_ok (d : T → T → R) (q : T) {L : R → T → Prop}
    (hL : Prefers (d q) L) (k : ℕ) : ∀ (xs seen : List T)
    (h : MaxHeap R T), KInv (d q) L k seen h →
    ∃ h', hierKnnLeaf d q k xs h = .ok h' ∧ KInv (d q) L k (seen ++ xs) h' := by
  intro xs
  induction xs with
  | nil => intro seen h hi; exact ⟨h, rfl, by simpa using hi⟩
  | cons x xs ih =>
    intro seen h hi
    obtain ⟨h1, e1, i1⟩ := hierKnnConsider_ok (d q) hL k seen h x hi
    obtain ⟨h2, e2, i2⟩ := ih _ h1 i1
    exact ⟨h2, by simp only [hierKnnLeaf, e1, ok_bind, e2], by simpa using i2⟩

end

section exact
variable [AddCommGroup R] [LinearOrder R] [IsOrderedAddMonoid R]

theorem prefers_le (f : T → R) : Prefers f (fun r x => r ≤ f x) :=
  ⟨fun _ _ h => h, fun _ _ _ h h' => h.trans h'⟩

theorem PseudoMetric.skips {d : T → T → R} (hd : PseudoMetric d) (q : T) :
    SkipsOk d q (fun r x => r ≤ d q x) where
  prefers := prefers_le _
  far := fun v x r h1 h2 => by
    show _ ≤ _
    rw [pyAbs_eq, abs_sub_comm]
    exact hd.far h1 h2
  near := fun v x r h1 h2 => by
    show _ ≤ _
    rw [pyAbs_eq, abs_sub_comm]
    exact hd.near (le_of_lt h1) h2

theorem flatKnnSearch_ok {p : VPParams R} {d : T → T → R} (hd : PseudoMetric d)
    {a : VPArray T R} (h : a.WF) (t : FlatTree p d a 0 a.dataset.length) (q : T) (k : ℕ) :
    ∃ out, flatKnnSearch d a q k = .ok out ∧ IsKnnAnswer d q k a.dataset out :=
  flatKnnSearch_upTo h t q ((hd.skips q).two _) k

end exact

end Verif
