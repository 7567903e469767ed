import Verif.Model.VPArray
import Verif.Proof.Quickselect
import Verif.Proof.Slice

namespace Verif

set_option linter.unusedSectionVars false

variable {T R : Type}

namespace VPArray

/-- The point at position `i`. -/
def pt (a : VPArray T R) (i : ℕ) : Option T := a.indices[i]?.bind (a.dataset[·]?)

/-- The terminal flag at position `i`. -/
def term (a : VPArray T R) (i : ℕ) : Option Bool := a.terminal.bind (·[i]?)

/-- Well-formed arrays: equal lengths, and the indices are a permutation. -/
structure WF (a : VPArray T R) : Prop where
  dist_len : a.distances.length = a.dataset.length
  perm : a.indices.Perm (List.range a.dataset.length)
  term_len : ∀ t, a.terminal = some t → t.length = a.dataset.length

theorem WF.idx_len {a : VPArray T R} (h : a.WF) : a.indices.length = a.dataset.length := by
  rw [h.perm.length_eq, List.length_range]

theorem WF.idx_lt {a : VPArray T R} (h : a.WF) {i j : ℕ} (hi : a.indices[i]? = some j) :
    j < a.dataset.length := by
  have := h.perm.mem_iff.mp (List.mem_of_getElem? hi)
  simpa using this

theorem WF.getPoint {a : VPArray T R} (h : a.WF) {i : ℕ} (hi : i < a.dataset.length) :
    ∃ x, a.getPoint i = .ok x ∧ a.pt i = some x := by
  have h1 : a.indices[i]? = some (a.indices[i]'(by rw [h.idx_len]; exact hi)) :=
    List.getElem?_eq_getElem _
  have h2 := h.idx_lt h1
  refine ⟨a.dataset[a.indices[i]'(by rw [h.idx_len]; exact hi)]'h2, ?_, ?_⟩
  · simp only [VPArray.getPoint, getItem_ok h1, ok_bind, getItem_lt h2]
  · simp [pt, h1, h2]

theorem pt_mem {a : VPArray T R} {i : ℕ} {x : T} (h : a.pt i = some x) : x ∈ a.dataset := by
  unfold pt at h
  obtain ⟨j, _, hj⟩ := Option.bind_eq_some_iff.mp h
  exact List.mem_of_getElem? hj

theorem getPoint_of_pt {a : VPArray T R} {i : ℕ} {x : T} (h : a.pt i = some x) :
    a.getPoint i = .ok x := by
  unfold pt at h
  cases hi : a.indices[i]? with
  | none => rw [hi] at h; cases h
  | some j =>
    rw [hi] at h
    simp only [getPoint, getItem_ok hi, ok_bind]
    exact getItem_ok h

/-- The points at positions `[s, e)`. -/
def pts (a : VPArray T R) (s e : ℕ) : List T := (slice a.indices s e).filterMap (a.dataset[·]?)

theorem mapM_getItem {l : List T} {js : List ℕ} (h : ∀ j ∈ js, j < l.length) :
    js.mapM (fun j => getItem l j) = .ok (js.filterMap (l[·]?)) := by
  induction js with
  | nil => rfl
  | cons j js ih =>
    have hj : j < l.length := h j (by simp)
    rw [List.mapM_cons, getItem_lt hj, ok_bind, ih (fun k hk => h k (by simp [hk])), ok_bind]
    simp [hj]

theorem WF.getPoints {a : VPArray T R} (h : a.WF) (s e : ℕ) :
    a.getPoints s e = .ok (a.pts s e) := by
  unfold VPArray.getPoints pts
  apply mapM_getItem
  intro j hj
  obtain ⟨m, hm⟩ := List.getElem?_of_mem hj
  rw [getElem?_slice] at hm
  split at hm
  · exact h.idx_lt hm
  · cases hm

theorem WF.pts_all {a : VPArray T R} (h : a.WF) : (a.pts 0 a.dataset.length).Perm a.dataset := by
  unfold pts slice
  rw [List.drop_zero, List.take_of_length_le (by rw [h.idx_len])]
  refine (h.perm.filterMap _).trans ?_
  apply List.Perm.of_eq
  generalize hl : a.dataset = l
  clear h hl
  induction l with
  | nil => rfl
  | cons x t ih =>
    rw [List.length_cons, List.range_succ_eq_map, List.filterMap_cons]
    simp only [List.getElem?_cons_zero, List.filterMap_map]
    conv_rhs => rw [← ih]
    congr 1

theorem pts_eq_nil (a : VPArray T R) {s e : ℕ} (h : e ≤ s) : a.pts s e = [] := by
  have : slice a.indices s e = [] := by
    unfold slice; apply List.drop_eq_nil_of_le; simp; omega
  simp [pts, this]

theorem slice_append {α : Type} (l : List α) {s m e : ℕ} (h1 : s ≤ m) (h2 : m ≤ e)
    (h3 : e ≤ l.length) : slice l s e = slice l s m ++ slice l m e := by
  apply List.ext_getElem?
  intro i
  rw [List.getElem?_append]
  have hl : (slice l s m).length = m - s := by simp [slice]; omega
  rw [hl, getElem?_slice, getElem?_slice, getElem?_slice]
  by_cases hi : i < m - s
  · rw [if_pos hi, if_pos (by omega), if_pos (by omega)]
  · rw [if_neg hi, show m + (i - (m - s)) = s + i by omega]

theorem pts_append (a : VPArray T R) {s m e : ℕ} (h1 : s ≤ m) (h2 : m ≤ e)
    (h3 : e ≤ a.indices.length) : a.pts s e = a.pts s m ++ a.pts m e := by
  unfold pts
  rw [slice_append _ h1 h2 h3, List.filterMap_append]

theorem pts_cons (a : VPArray T R) {s e : ℕ} (h1 : s < e) (h3 : e ≤ a.indices.length) {x : T}
    (hx : a.pt s = some x) : a.pts s e = x :: a.pts (s + 1) e := by
  rw [pts_append a (Nat.le_succ s) h1 h3]
  have h4 : s < a.indices.length := by omega
  have : slice a.indices s (s + 1) = [a.indices[s]] := by
    apply List.ext_getElem?
    intro i
    rw [getElem?_slice]
    cases i with
    | zero => simp [h4]
    | succ i => simp
  have hp : a.dataset[a.indices[s]]? = some x := by
    simpa [pt, h4] using hx
  simp [pts, this, hp]

theorem mem_pts {a : VPArray T R} {s e : ℕ} {x : T} (h : x ∈ a.pts s e) :
    ∃ m, s ≤ m ∧ m < e ∧ a.pt m = some x := by
  unfold pts at h
  rw [List.mem_filterMap] at h
  obtain ⟨j, hj, hx⟩ := h
  obtain ⟨i, hi⟩ := List.getElem?_of_mem hj
  rw [getElem?_slice] at hi
  split at hi
  · exact ⟨s + i, by omega, by omega, by simp [pt, hi, hx]⟩
  · cases hi

/-- `a'` is `a` after work confined to positions `[s, e)`. -/
structure Step (s e : ℕ) (a a' : VPArray T R) : Prop where
  data : a'.dataset = a.dataset
  wf : a'.WF
  kind : a'.terminal.isSome = a.terminal.isSome
  move : ∃ π, MovesOnly π s e ∧ Rearranged π a.indices a'.indices
  dist : ∀ m, m < s ∨ e ≤ m → a'.distances[m]? = a.distances[m]?
  flag : ∀ m, m < s ∨ e ≤ m → a'.term m = a.term m

theorem Step.refl {a : VPArray T R} (h : a.WF) (s e : ℕ) : Step s e a a :=
  ⟨rfl, h, rfl, ⟨1, .one _ _, .refl _⟩, fun _ _ => rfl, fun _ _ => rfl⟩

theorem Step.mono {a a' : VPArray T R} {s e s' e' : ℕ} (h : Step s e a a') (hs : s' ≤ s)
    (he : e ≤ e') : Step s' e' a a' := by
  obtain ⟨π, h1, h2⟩ := h.move
  exact ⟨h.data, h.wf, h.kind, ⟨π, h1.mono hs he, h2⟩, fun m hm => h.dist m (by omega),
    fun m hm => h.flag m (by omega)⟩

theorem Step.trans {a b c : VPArray T R} {s e : ℕ} (h : Step s e a b) (h' : Step s e b c) :
    Step s e a c := by
  obtain ⟨π, h1, h2⟩ := h.move
  obtain ⟨σ, h3, h4⟩ := h'.move
  exact ⟨h'.data.trans h.data, h'.wf, h'.kind.trans h.kind, ⟨π * σ, h1.mul h3, h2.trans h4⟩,
    fun m hm => (h'.dist m hm).trans (h.dist m hm),
    fun m hm => (h'.flag m hm).trans (h.flag m hm)⟩

theorem Step.pt_outside {a a' : VPArray T R} {s e m : ℕ} (h : Step s e a a')
    (hm : m < s ∨ e ≤ m) : a'.pt m = a.pt m := by
  obtain ⟨π, h1, h2⟩ := h.move
  unfold pt
  rw [h2.2, h1 m hm, h.data]

/-- A point at a position of the range was at a position of the range before. -/
theorem Step.pt_inside {a a' : VPArray T R} {s e m : ℕ} (h : Step s e a a')
    (hm : s ≤ m ∧ m < e) : ∃ m', s ≤ m' ∧ m' < e ∧ a'.pt m = a.pt m' := by
  obtain ⟨π, h1, h2⟩ := h.move
  refine ⟨π m, (h1.mem hm).1, (h1.mem hm).2, ?_⟩
  unfold pt
  rw [h2.2, h.data]

theorem Step.size {a a' : VPArray T R} {s e : ℕ} (h : Step s e a a') :
    a'.dataset.length = a.dataset.length := by rw [h.data]

/-- Simultaneous rearrangement of the rows of an array. -/
theorem withRows_moved {a : VPArray T R} (h : a.WF) {π : Equiv.Perm ℕ} {q : QState R ℕ Bool}
    (hq : QMoved π a.rows q) {s e : ℕ} (hπ : MovesOnly π s e) (he : e ≤ a.dataset.length) :
    Step s e a (a.withRows q) ∧ Rearranged π a.indices (a.withRows q).indices ∧
      Rearranged π a.distances (a.withRows q).distances := by
  obtain ⟨h1, h2, h3⟩ := hq
  obtain ⟨data, ex1, ex2⟩ := q
  simp only [rows] at h1 h2 h3
  cases ex1 with
  | none => exact h2.elim
  | some ix =>
    simp only [RearrangedOpt] at h2
    have hterm : ∀ m, m < s ∨ e ≤ m →
        (a.withRows ⟨data, some ix, ex2⟩).term m = a.term m := by
      intro m hm
      unfold term withRows
      cases ht : a.terminal with
      | none =>
        rw [ht] at h3
        cases ex2 with
        | none => rfl
        | some _ => exact h3.elim
      | some t =>
        rw [ht] at h3
        cases ex2 with
        | none => exact h3.elim
        | some t' =>
          simp only [RearrangedOpt] at h3
          simp [h3.2, hπ m hm]
    refine ⟨⟨rfl, ⟨?_, ?_, ?_⟩, ?_, ⟨π, hπ, h2⟩, ?_, hterm⟩, h2, h1⟩
    · show data.length = _
      rw [h1.1, h.dist_len]; rfl
    · show ix.Perm _
      refine (h2.perm (hπ.mono (Nat.zero_le _) (by rw [h.idx_len]; exact he))).trans h.perm
    · intro t' ht'
      simp only [withRows] at ht'
      subst ht'
      cases ht : a.terminal with
      | none => rw [ht] at h3; exact h3.elim
      | some t =>
        rw [ht] at h3
        simp only [RearrangedOpt] at h3
        rw [h3.1]; exact h.term_len t ht
    · simp only [withRows]
      cases ht : a.terminal with
      | none =>
        rw [ht] at h3
        cases ex2 with
        | none => rfl
        | some _ => exact h3.elim
      | some t =>
        rw [ht] at h3
        cases ex2 with
        | none => exact h3.elim
        | some _ => rfl
    · intro m hm
      show data[m]? = _
      rw [h1.2, hπ m hm]

theorem WF.qok {a : VPArray T R} (h : a.WF) {e : ℕ} (he : e ≤ a.dataset.length) :
    QOk e a.rows := by
  refine ⟨by rw [show a.rows.data = a.distances from rfl, h.dist_len]; exact he, ?_, ?_⟩
  · intro l hl
    simp only [rows] at hl
    cases hl
    rw [h.idx_len]; exact he
  · intro l hl
    rw [h.term_len l hl]; exact he

theorem WF.swap {a : VPArray T R} (h : a.WF) {s e i j : ℕ} (he : e ≤ a.dataset.length)
    (hi : s ≤ i ∧ i < e) (hj : s ≤ j ∧ j < e) :
    ∃ a', a.swap i j = .ok a' ∧ Step s e a a' := by
  obtain ⟨q, e1, m1⟩ := swapAll_ok (h.qok he) hi.2 hj.2
  exact ⟨_, by simp [VPArray.swap, e1], (withRows_moved h m1 (.swap hi hj) he).1⟩

theorem WF.setDistance {a : VPArray T R} (h : a.WF) {s e i : ℕ} (hi : s ≤ i ∧ i < e)
    (hn : i < a.dataset.length) (x : R) :
    ∃ a', a.setDistance i x = .ok a' ∧ Step s e a a' ∧ a'.distances = a.distances.set i x ∧
      a'.indices = a.indices ∧ a'.terminal = a.terminal := by
  have hl : i < a.distances.length := by rw [h.dist_len]; exact hn
  refine ⟨{ a with distances := a.distances.set i x }, ?_, ?_, rfl, rfl, rfl⟩
  · simp [VPArray.setDistance, setItem_lt hl]
  · refine ⟨rfl, ⟨by simp [h.dist_len], h.perm, h.term_len⟩, rfl, ⟨1, .one _ _, .refl _⟩, ?_,
      fun _ _ => rfl⟩
    intro m hm
    show (a.distances.set i x)[m]? = _
    rw [List.getElem?_set_ne (by omega)]

theorem WF.setTerminal {a : VPArray T R} (h : a.WF) (hk : a.terminal.isSome) {s e i : ℕ}
    (hi : s ≤ i ∧ i < e) (hn : i < a.dataset.length) (b : Bool) :
    ∃ a', a.setTerminal i b = .ok a' ∧ Step s e a a' ∧ a'.distances = a.distances ∧
      a'.indices = a.indices ∧ a'.term i = some b := by
  cases ht : a.terminal with
  | none => rw [ht] at hk; cases hk
  | some t =>
    have hl : i < t.length := by rw [h.term_len t ht]; exact hn
    refine ⟨{ a with terminal := some (t.set i b) }, ?_, ?_, rfl, rfl, ?_⟩
    · simp [VPArray.setTerminal, ht, setItem_lt hl]
    · refine ⟨rfl, ⟨h.dist_len, h.perm, ?_⟩, by simp [ht], ⟨1, .one _ _, .refl _⟩,
        fun _ _ => rfl, ?_⟩
      · intro t' ht'
        simp at ht'
        rw [← ht']; simp [h.term_len t ht]
      · intro m hm
        simp only [term, ht]
        show (t.set i b)[m]? = t[m]?
        rw [List.getElem?_set_ne (by omega)]
    · simp [term, hl]

end VPArray

section build
variable [LE R] [LT R] [DecidableLE R] [DecidableLT R] [StrictLT R] [Zero R]

open VPArray

theorem VPArray.WF.partition {a : VPArray T R} (h : a.WF) {s e k : ℕ}
    (he : e ≤ a.dataset.length) :
    ∃ a' π, a.partition s e k = .ok a' ∧ Step s e a a' ∧ MovesOnly π s e ∧
      Rearranged π a.indices a'.indices ∧ Rearranged π a.distances a'.distances ∧
      (s ≤ k → k < e → Selected a'.distances s e k) := by
  obtain ⟨q, π, e1, m1, mo, sel⟩ := quickselect_ok a.rows s e k (h.qok he)
  obtain ⟨st, r1, r2⟩ := withRows_moved h m1 mo he
  exact ⟨_, π, by simp [VPArray.partition, e1], st, mo, r1, r2, sel⟩

theorem furthestLoop_ok (d : T → T → R) {a : VPArray T R} (h : a.WF) (x : T) (s e : ℕ)
    (he : e ≤ a.dataset.length) :
    ∀ (cnt j f : ℕ) (fd : R), j + cnt = e → s ≤ j → s ≤ f → f < e →
      ∃ r, furthestLoop d a x cnt j f fd = .ok r ∧ s ≤ r ∧ r < e := by
  intro cnt
  induction cnt with
  | zero => intro j f fd _ _ h1 h2; exact ⟨f, rfl, h1, h2⟩
  | succ cnt ih =>
    intro j f fd h1 h2 h3 h4
    obtain ⟨y, hy, _⟩ := h.getPoint (i := j) (by omega)
    simp only [furthestLoop, hy, ok_bind]
    split
    · exact ih (j + 1) j _ (by omega) (by omega) (by omega) (by omega)
    · exact ih (j + 1) f _ (by omega) (by omega) h3 h4

theorem furthest_ok (d : T → T → R) {a : VPArray T R} (h : a.WF) {s e i : ℕ} (hse : s < e)
    (he : e ≤ a.dataset.length) (hi : i < e) :
    ∃ r, furthest d a s e i = .ok r ∧ s ≤ r ∧ r < e := by
  obtain ⟨y, hy, _⟩ := h.getPoint (i := i) (by omega)
  simp only [furthest, hy, ok_bind]
  exact furthestLoop_ok d h y s e he _ _ _ _ (by omega) (le_refl _) (le_refl _) hse

theorem pivot_ok (d : T → T → R) (ρ : ℕ → ℕ) (pv : String) (st : BuildState T R)
    (h : st.arr.WF) {s e : ℕ} (he : e ≤ st.arr.dataset.length) :
    ∃ st', pivot d ρ pv s e st = .ok st' ∧ Step s e st.arr st'.arr := by
  unfold pivot
  split
  · unfold pivotingRandom
    by_cases hse : e ≤ s
    · rw [if_pos hse]; exact ⟨st, rfl, .refl h _ _⟩
    · rw [if_neg hse]
      have hm : ρ st.draws % (e - s) < e - s := Nat.mod_lt _ (by omega)
      dsimp only
      by_cases hp : s + ρ st.draws % (e - s) > s
      · rw [if_pos hp]
        obtain ⟨a', e1, s1⟩ := h.swap (s := s) (e := e) (i := s)
          (j := s + ρ st.draws % (e - s)) he (by omega) (by omega)
        exact ⟨⟨a', st.draws + 1⟩, by simp [e1], s1⟩
      · rw [if_neg hp]
        exact ⟨_, rfl, .refl h _ _⟩
  · split
    · unfold pivotingFurthest
      by_cases hse : e ≤ s
      · rw [if_pos hse]; exact ⟨st, rfl, .refl h _ _⟩
      · rw [if_neg hse]
        have hm : ρ st.draws % (e - s) < e - s := Nat.mod_lt _ (by omega)
        obtain ⟨f1, e1, b1⟩ := furthest_ok d h (s := s) (e := e)
          (i := s + ρ st.draws % (e - s)) (by omega) he (by omega)
        obtain ⟨f2, e2, b2⟩ := furthest_ok d h (s := s) (e := e) (i := f1) (by omega) he b1.2
        simp only [e1, ok_bind, e2]
        by_cases hp : f2 > s
        · rw [if_pos hp]
          obtain ⟨a', e3, s3⟩ := h.swap (s := s) (e := e) (i := s) (j := f2) he
            (by omega) (by omega)
          exact ⟨⟨a', st.draws + 1⟩, by simp [e3], s3⟩
        · rw [if_neg hp]
          exact ⟨_, rfl, .refl h _ _⟩
    · exact ⟨st, rfl, .refl h _ _⟩

theorem writeFlag_ok {a : VPArray T R} (h : a.WF) {flag : Option Bool}
    (hf : flag.isSome = a.terminal.isSome) {s e i : ℕ}
    (hi : s ≤ i ∧ i < e) (hn : i < a.dataset.length) :
    ∃ a', writeFlag a i flag = .ok a' ∧ Step s e a a' ∧ a'.distances = a.distances ∧
      a'.indices = a.indices := by
  cases flag with
  | none => exact ⟨a, rfl, .refl h _ _, rfl, rfl⟩
  | some b =>
    obtain ⟨a', h1, h2, h3, h4, _⟩ := h.setTerminal (by rw [← hf]; rfl) hi hn b
    exact ⟨a', h1, h2, h3, h4⟩

theorem updateLoop_ok (d : T → T → R) (v : T) (flag : Option Bool) (s e : ℕ) :
    ∀ (cnt i : ℕ) (a : VPArray T R), a.WF → flag.isSome = a.terminal.isSome →
      e ≤ a.dataset.length → i + cnt = e → s ≤ i →
      (∀ m x, s ≤ m → m < i → a.pt m = some x → a.distances[m]? = some (d v x)) →
      ∃ a', updateLoop d v flag cnt i a = .ok a' ∧ Step s e a a' ∧ a'.indices = a.indices ∧
        (∀ m x, s ≤ m → m < e → a'.pt m = some x → a'.distances[m]? = some (d v x)) := by
  intro cnt
  induction cnt with
  | zero =>
    intro i a h _ he hi hs hd
    exact ⟨a, rfl, .refl h _ _, rfl, fun m x h1 h2 h3 => hd m x h1 (by omega) h3⟩
  | succ cnt ih =>
    intro i a h hf he hi hs hd
    obtain ⟨y, hy, hpy⟩ := h.getPoint (i := i) (by omega)
    obtain ⟨a1, e1, s1, d1, i1, t1⟩ := h.setDistance (s := s) (e := e) (i := i) (by omega)
      (by omega) (d v y)
    obtain ⟨a2, e2, s2, d2, i2⟩ := writeFlag_ok s1.wf (flag := flag) (by rw [t1]; exact hf)
      (s := s) (e := e) (i := i) (by omega) (by rw [s1.size]; omega)
    have s12 := s1.trans s2
    have hpt : ∀ m, a2.pt m = a.pt m := by
      intro m; unfold VPArray.pt; rw [i2, i1, s12.data]
    obtain ⟨a', e3, s3, i3, d3⟩ := ih (i + 1) a2 s2.wf (by rw [s12.kind]; exact hf)
      (by rw [s12.size]; exact he) (by omega) (by omega) (by
        intro m x h1 h2 h3
        rw [hpt] at h3
        rw [d2, d1]
        by_cases hm : m = i
        · subst hm
          rw [hpy] at h3; cases h3
          rw [List.getElem?_set_self]
          rw [h.dist_len]; omega
        · rw [List.getElem?_set_ne (by omega)]
          exact hd m x h1 (by omega) h3)
    refine ⟨a', ?_, s12.trans s3, by rw [i3, i2, i1], d3⟩
    simp only [updateLoop, hy, ok_bind, e1, e2, e3]

theorem readFlag_ok {a : VPArray T R} (h : a.WF) {i : ℕ} (hi : i < a.dataset.length) :
    ∃ f, readFlag a i = .ok f ∧ f.isSome = a.terminal.isSome := by
  unfold readFlag
  cases ht : a.terminal with
  | none => exact ⟨none, rfl, rfl⟩
  | some t =>
    have hl : i < t.length := by rw [h.term_len t ht]; exact hi
    exact ⟨some t[i], by simp [getItem_lt hl, Except.map], rfl⟩

theorem update_ok (d : T → T → R) (ρ : ℕ → ℕ) (pv : String) (st : BuildState T R)
    (h : st.arr.WF) {s e : ℕ} (hs : s < st.arr.dataset.length)
    (he : e ≤ st.arr.dataset.length) :
    ∃ st' v, update d ρ pv s e st = .ok st' ∧ Step s e st.arr st'.arr ∧
      st'.arr.pt s = some v ∧
      (∀ m x, s + 1 ≤ m → m < e → st'.arr.pt m = some x →
        st'.arr.distances[m]? = some (d v x)) := by
  obtain ⟨st1, e1, s1⟩ := pivot_ok d ρ pv st h (s := s) he
  obtain ⟨v, e2, p2⟩ := s1.wf.getPoint (i := s) (by rw [s1.size]; exact hs)
  obtain ⟨f, e3, k3⟩ := readFlag_ok s1.wf (i := s) (by rw [s1.size]; exact hs)
  by_cases hse : s + 1 ≤ e
  · obtain ⟨a', e4, s4, i4, d4⟩ := updateLoop_ok d v f (s + 1) e (e - (s + 1)) (s + 1) st1.arr s1.wf
      k3 (by rw [s1.size]; exact he) (by omega) (le_refl _) (fun m x _ _ => by omega)
    refine ⟨⟨a', st1.draws⟩, v, ?_, s1.trans (s4.mono (by omega) (le_refl _)), ?_, d4⟩
    · simp [update, e1, e2, e3, e4]
    · show a'.pt s = _
      rw [s4.pt_outside (by omega), p2]
  · refine ⟨st1, v, ?_, s1, p2, fun m x _ _ => by omega⟩
    have : e - (s + 1) = 0 := by omega
    simp [update, e1, e2, e3, this, updateLoop]

/-- What both builders know after `_update` and `partition` on `[s, e)`. -/
theorem split_ok (d : T → T → R) (ρ : ℕ → ℕ) (pv : String) (st : BuildState T R)
    (h : st.arr.WF) {s e : ℕ} (hs : s < st.arr.dataset.length)
    (he : e ≤ st.arr.dataset.length) :
    ∃ st1 arr v r, update d ρ pv s e st = .ok st1 ∧ st1.arr.pt s = some v ∧
      st1.arr.partition (s + 1) e (vpMid s e) = .ok arr ∧ Step s e st.arr arr ∧
      arr.pt s = some v ∧ arr.getDistance (vpMid s e) = .ok r ∧
      (s + 2 ≤ e →
        (∀ m x, s + 1 ≤ m → m < vpMid s e → arr.pt m = some x → ¬ r < d v x) ∧
        (∀ m x, vpMid s e ≤ m → m < e → arr.pt m = some x → ¬ d v x < r) ∧
        v ∈ arr.dataset ∧ ∃ y ∈ arr.dataset, r = d v y) := by
  obtain ⟨st1, v, e1, s1, p1, d1⟩ := update_ok d ρ pv st h (s := s) hs he
  obtain ⟨arr, π, e2, s2, mo, ri, rd, sel⟩ := s1.wf.partition (s := s + 1) (e := e)
    (k := vpMid s e) (by rw [s1.size]; exact he)
  have s12 := s1.trans (s2.mono (Nat.le_succ s) (le_refl _))
  have hmid : vpMid s e < arr.distances.length := by
    rw [s12.wf.dist_len, s12.size]; unfold vpMid; omega
  refine ⟨st1, arr, v, arr.distances[vpMid s e], e1, p1, e2, s12,
    by rw [s2.pt_outside (by omega), p1], getItem_lt hmid, ?_⟩
  intro h2
  have hk1 : s + 1 ≤ vpMid s e := by unfold vpMid; omega
  have hk2 : vpMid s e < e := by unfold vpMid; omega
  have sel := sel hk1 hk2
  have hg : arr.distances[vpMid s e]? = some arr.distances[vpMid s e] :=
    List.getElem?_eq_getElem hmid
  have hdist : ∀ m x, s + 1 ≤ m → m < e → arr.pt m = some x →
      arr.distances[m]? = some (d v x) := by
    intro m x a b c
    have hin := mo.mem ⟨a, b⟩
    rw [rd.2]
    apply d1 _ _ hin.1 hin.2
    rw [← c]
    unfold VPArray.pt
    rw [ri.2, s2.data]
  refine ⟨?_, ?_, pt_mem (i := s) (by rw [s2.pt_outside (by omega), p1]), ?_⟩
  · intro m x a b c
    exact sel.1 m _ _ a b (hdist m x a (by omega) c) hg
  · intro m x a b c
    exact sel.2 m _ _ a b (hdist m x (by omega) b c) hg
  · obtain ⟨y, _, hy⟩ := s12.wf.getPoint (i := vpMid s e) (by rw [s12.size]; omega)
    refine ⟨y, pt_mem hy, ?_⟩
    have := hdist _ y hk1 hk2 hy
    rw [hg] at this
    exact Option.some.inj this

end build

end Verif
