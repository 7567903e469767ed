import Verif.Spec.UnionFindSteps
import Mathlib.Data.Finset.Card

/-!
# Proofs: calls of a UnionFind, one access at a time
-/

set_option autoImplicit false
set_option linter.unusedSectionVars false

namespace Verif

variable {α : Type} [DecidableEq α]

open UnionFind

/-! ### Running a call to its end -/

namespace UFThread

theorem steps_add (n m : ℕ) (u : UnionFind α) (t : UFThread α) :
    steps (n + m) u t = steps m (steps n u t).1 (steps n u t).2 := by
  induction n generalizing u t with
  | zero => simp [steps]
  | succ n ih => rw [Nat.succ_add]; simp only [steps]; exact ih _ _

theorem steps_succ' (n : ℕ) (u : UnionFind α) (t : UFThread α) :
    steps (n + 1) u t = step (steps n u t).1 (steps n u t).2 := by
  rw [steps_add]; rfl

/-- `s` is reached from `(u, t)` by some number of steps. -/
def Reaches (u : UnionFind α) (t : UFThread α) (s : UnionFind α × UFThread α) : Prop :=
  ∃ n, steps n u t = s

theorem Reaches.refl (u : UnionFind α) (t : UFThread α) : Reaches u t (u, t) := ⟨0, rfl⟩

theorem Reaches.trans {u : UnionFind α} {t : UFThread α} {u' : UnionFind α} {t' : UFThread α}
    {s : UnionFind α × UFThread α} (h : Reaches u t (u', t')) (h' : Reaches u' t' s) :
    Reaches u t s := by
  obtain ⟨n, hn⟩ := h
  obtain ⟨m, hm⟩ := h'
  exact ⟨n + m, by rw [steps_add, hn]; exact hm⟩

theorem Reaches.step {u : UnionFind α} {t : UFThread α} {s : UnionFind α × UFThread α}
    (h : Reaches (step u t).1 (step u t).2 s) : Reaches u t s := by
  obtain ⟨n, hn⟩ := h
  exact ⟨n + 1, hn⟩

theorem reaches_root (u : UnionFind α) (x : α) (k : UFCont α) : ∀ (fuel : ℕ) (root r : α),
    rootLoop u.parent fuel root = .ok r →
    Reaches u (.findTest x root k) (u, compressFrom x r k) := by
  intro fuel
  induction fuel with
  | zero => intro root r h; simp [rootLoop] at h
  | succ fuel ih =>
    intro root r h
    rw [rootLoop] at h
    obtain ⟨p, hp, h⟩ := bind_eq_ok.mp h
    by_cases hne : root ≠ p
    · rw [if_pos hne] at h
      refine .step ?_
      simp only [UFThread.step, hp, if_pos hne]
      refine .step ?_
      simp only [UFThread.step, hp]
      exact ih p r h
    · rw [if_neg hne] at h
      cases h
      refine .step ?_
      simp only [UFThread.step, hp, if_neg hne]
      exact .refl _ _

theorem reaches_compress (k : UFCont α) (r : α) : ∀ (fuel : ℕ) (u : UnionFind α) (tmp : α)
    (d : PyDict α α), compressLoop r fuel u.parent tmp = .ok d →
    Reaches u (compressFrom tmp r k) ({ u with parent := d }, afterFind r k) := by
  intro fuel
  induction fuel with
  | zero => intro u tmp d h; simp [compressLoop] at h
  | succ fuel ih =>
    intro u tmp d h
    rw [compressLoop] at h
    by_cases hne : tmp ≠ r
    · rw [if_pos hne] at h
      obtain ⟨p, hp, h⟩ := bind_eq_ok.mp h
      rw [compressFrom, if_pos hne]
      refine .step ?_
      simp only [UFThread.step, hp]
      refine .step ?_
      exact ih { u with parent := u.parent.set tmp r } p d h
    · rw [if_neg hne] at h
      cases h
      rw [compressFrom, if_neg hne]
      exact .refl _ _

theorem reaches_find {u u' : UnionFind α} {x r : α} (h : u.find x = (.ok r, u')) (k : UFCont α) :
    Reaches u (.findTest x x k) (u', afterFind r k) := by
  unfold UnionFind.find at h
  split at h
  · simp at h
  · rename_i root hr
    split at h
    · simp at h
    · rename_i d hd
      simp only [Prod.mk.injEq, Except.ok.injEq] at h
      obtain ⟨rfl, rfl⟩ := h
      exact (reaches_root u x k _ _ _ hr).trans (reaches_compress k _ _ u x d hd)

end UFThread

open UFThread

/-- In a reachable state, the steps of a call lead to the answer and the object of the call. -/
theorem steps_call (items : List α) (before : List (UFOp α)) (op : UFOp α) :
    Reaches (ufCalls (init items) before).2 (startCall op)
      ((ufCall (ufCalls (init items) before).2 op).2,
        .done (ufCall (ufCalls (init items) before).2 op).1) := by
  obtain ⟨rt, h⟩ := reachable_inv items before
  obtain ⟨u, hu⟩ : ∃ u, u = (ufCalls (init items) before).2 := ⟨_, rfl⟩
  rw [← hu] at h ⊢
  have unknown : ∀ {u : UnionFind α}, Inv items.toFinset (unitedPairs items before) rt u →
      ∀ (x : α) (k : UFCont α), x ∉ items.toFinset →
        Reaches u (.findTest x x k) (u, .done (.error .keyError)) := by
    intro u h x k hx
    have hn : u.parent.get? x = none := by rw [PyDict.get?_eq_none, h.keys]; exact hx
    refine .step ?_
    simp only [UFThread.step, PyDict.getItem, hn]
    exact .refl _ _
  cases op with
  | find x =>
    simp only [ufCall, startCall, startFind]
    by_cases hx : x ∈ items.toFinset
    · obtain ⟨u', e, _⟩ := h.find_ok hx
      rw [e]
      exact reaches_find e .ret
    · rw [h.find_unknown hx]
      exact unknown h x .ret hx
  | union x y =>
    simp only [ufCall, startCall, startUnion]
    by_cases hx : x ∈ items.toFinset
    · obtain ⟨u1, e1, i1⟩ := h.find_ok hx
      refine (reaches_find e1 (.first y)).trans ?_
      simp only [afterFind]
      by_cases hy : y ∈ items.toFinset
      · obtain ⟨u2, e2, i2⟩ := i1.find_ok hy
        refine (reaches_find e2 (.second (rt x))).trans ?_
        simp only [afterFind, UnionFind.union, e1, e2]
        by_cases hxy : rt x ≠ rt y
        · have hsx : u2.size.getItem (rt x) = .ok (classCard items.toFinset rt x) := by
            simp [PyDict.getItem, i2.size x hx]
          have hsy : u2.size.getItem (rt y) = .ok (classCard items.toFinset rt y) := by
            simp [PyDict.getItem, i2.size y hy]
          simp only [if_pos hxy, hsx, hsy]
          refine .step ?_
          simp only [UFThread.step, hsx]
          refine .step ?_
          simp only [UFThread.step, hsy]
          split <;> exact .step (.step (.refl _ _))
        · rw [if_neg hxy, if_neg hxy]
          exact .refl _ _
      · have e2 := i1.find_unknown hy
        simp only [UnionFind.union, e1, e2]
        exact unknown i1 y _ hy
    · have e1 := h.find_unknown hx
      simp only [UnionFind.union, e1]
      exact unknown h x _ hx

/-! ### Interrupted calls: the invariant that does not depend on sizes -/

/-- Invariant of states reached by interrupted calls: the sizes may be wrong. -/
structure Weak (S : Finset α) (pairs : List (α × α)) (rt : α → α) (u : UnionFind α) : Prop where
  keys : ∀ x, x ∈ u.parent.keys ↔ x ∈ S
  path : ∀ x ∈ S, ∃ n, Path u.parent.get? x n (rt x)
  size : ∀ x ∈ S, ∃ s, u.size.get? (rt x) = some s
  eqv : ∀ x ∈ S, ∀ y ∈ S, (rt x = rt y ↔ Connected pairs x y)
  pairs_mem : ∀ p ∈ pairs, p.1 ∈ S ∧ p.2 ∈ S

theorem UnionFind.Inv.weak {S : Finset α} {pairs : List (α × α)} {rt : α → α} {u : UnionFind α}
    (h : Inv S pairs rt u) : Weak S pairs rt u :=
  ⟨h.keys, fun x hx => (h.path x hx).imp fun _ hn => hn.1, fun x hx => ⟨_, h.size x hx⟩, h.eqv,
    h.pairs_mem⟩

namespace Weak

variable {S : Finset α} {pairs : List (α × α)} {rt : α → α} {u : UnionFind α}

theorem rt_root (h : Weak S pairs rt u) {x : α} (hx : x ∈ S) :
    u.parent.get? (rt x) = some (rt x) := by
  obtain ⟨n, hp⟩ := h.path x hx
  exact hp.isRoot

theorem mem_of_get (h : Weak S pairs rt u) {x y : α} (hx : u.parent.get? x = some y) : x ∈ S := by
  rw [← h.keys, ← PyDict.isSome_get?, hx]; rfl

theorem rt_mem (h : Weak S pairs rt u) {x : α} (hx : x ∈ S) : rt x ∈ S :=
  h.mem_of_get (h.rt_root hx)

theorem rt_rt (h : Weak S pairs rt u) {x : α} (hx : x ∈ S) : rt (rt x) = rt x := by
  obtain ⟨n, hp⟩ := h.path _ (h.rt_mem hx)
  exact ((Path.root (h.rt_root hx)).unique hp).2.symm

/-- The parent of a known element is a known element of the same class. -/
theorem parent (h : Weak S pairs rt u) {x : α} (hx : x ∈ S) :
    ∃ p, u.parent.get? x = some p ∧ p ∈ S ∧ rt p = rt x ∧ (x = p → x = rt x) := by
  obtain ⟨n, hp⟩ := h.path x hx
  generalize hr : rt x = r at hp
  cases hp with
  | root h1 => exact ⟨x, h1, hx, hr, fun _ => rfl⟩
  | @step _ y m _ h1 h2 h3 =>
    have hy : y ∈ S := by
      cases h3 with
      | root h4 => exact h.mem_of_get h4
      | step h4 _ _ => exact h.mem_of_get h4
    obtain ⟨m', h5⟩ := h.path y hy
    exact ⟨y, h1, hy, (h5.unique h3).2, fun h6 => absurd h6 h2⟩

/-- The elements of a path are distinct, so it has fewer steps than there are elements. -/
theorem path_lt (h : Weak S pairs rt u) {x r : α} {n : ℕ}
    (hp : Path u.parent.get? x n r) : n < S.card := by
  have key : ∃ F : Finset α, F ⊆ S ∧ F.card = n + 1 ∧
      ∀ z ∈ F, ∃ m, m ≤ n ∧ ∃ s, Path u.parent.get? z m s := by
    induction hp with
    | @root r h1 =>
      exact ⟨{r}, by simpa using h.mem_of_get h1, rfl, fun z hz => by
        rw [Finset.mem_singleton] at hz
        subst hz
        exact ⟨0, le_rfl, z, .root h1⟩⟩
    | @step x y n r h1 h2 h3 ih =>
      obtain ⟨F, hF, hc, hm⟩ := ih
      have hx : x ∉ F := by
        intro hx
        obtain ⟨m, hle, s, hs⟩ := hm x hx
        have := (hs.unique (Path.step h1 h2 h3)).1
        omega
      refine ⟨insert x F, ?_, by rw [Finset.card_insert_of_notMem hx, hc], ?_⟩
      · rw [Finset.insert_subset_iff]
        exact ⟨h.mem_of_get h1, hF⟩
      · intro z hz
        rcases Finset.mem_insert.mp hz with rfl | hz
        · exact ⟨n + 1, le_rfl, r, .step h1 h2 h3⟩
        · obtain ⟨m, hle, s, hs⟩ := hm z hz
          exact ⟨m, by omega, s, hs⟩
  obtain ⟨F, hF, hc, _⟩ := key
  have := Finset.card_le_card hF
  omega

theorem len (h : Weak S pairs rt u) : S.card ≤ u.parent.len := by
  have : u.parent.keys.toFinset = S := by ext x; simp [h.keys]
  rw [← this]
  refine (List.toFinset_card_le _).trans ?_
  simp [PyDict.keys, PyDict.len]

/-- Redirecting an element to its representative. -/
theorem redirect (h : Weak S pairs rt u) {x : α} (hx : x ∈ S) (hne : x ≠ rt x) :
    Weak S pairs rt { u with parent := u.parent.set x (rt x) } := by
  obtain ⟨n, hp⟩ := h.path x hx
  cases n with
  | zero =>
    exfalso
    generalize hr : rt x = r at hp hne
    cases hp
    exact hne rfl
  | succ n =>
    refine ⟨?_, ?_, h.size, h.eqv, h.pairs_mem⟩
    · intro z
      simp only
      rw [PyDict.keys_set, if_pos, h.keys]
      rw [h.keys]; exact hx
    · intro z hz
      obtain ⟨m, hm⟩ := h.path z hz
      obtain ⟨m', _, hm'⟩ := Path.redirect hp hm
      exact ⟨m', hm'⟩

theorem find_ok (h : Weak S pairs rt u) {x : α} (hx : x ∈ S) :
    ∃ u', u.find x = (.ok (rt x), u') ∧ Weak S pairs rt u' := by
  obtain ⟨n, hp⟩ := h.path x hx
  have hlt : n < u.parent.len + 1 := by
    have := h.path_lt hp
    have := h.len
    omega
  obtain ⟨d', e, k, q⟩ := compressLoop_ok _ _ _ _ hp hlt
  refine ⟨{ u with parent := d' }, ?_, ?_⟩
  · simp [UnionFind.find, rootLoop_ok hp _ hlt, e]
  · refine ⟨fun z => by simp only [k]; exact h.keys z, ?_, h.size, h.eqv, h.pairs_mem⟩
    intro z hz
    obtain ⟨m, hm⟩ := h.path z hz
    obtain ⟨m', _, hm'⟩ := q z m _ hm
    exact ⟨m', hm'⟩

/-- Linking the representatives of two classes. -/
theorem link (h : Weak S pairs rt u) {x y keep move : α} (hx : x ∈ S) (hy : y ∈ S)
    (hne : keep ≠ move)
    (hc : (keep = rt x ∧ move = rt y) ∨ (keep = rt y ∧ move = rt x)) :
    Weak S ((x, y) :: pairs) (fun z => if rt z = move then keep else rt z)
      { u with parent := u.parent.set move keep } ∧
      (if rt x = move then keep else rt x) = keep := by
  have hmove : u.parent.get? move = some move := by
    rcases hc with ⟨_, rfl⟩ | ⟨_, rfl⟩
    · exact h.rt_root hy
    · exact h.rt_root hx
  have hkeep : u.parent.get? keep = some keep := by
    rcases hc with ⟨rfl, _⟩ | ⟨rfl, _⟩
    · exact h.rt_root hx
    · exact h.rt_root hy
  have hx' : (if rt x = move then keep else rt x) = keep := by
    rcases hc with ⟨rfl, rfl⟩ | ⟨rfl, rfl⟩
    · rw [if_neg hne]
    · rw [if_pos rfl]
  have hy' : (if rt y = move then keep else rt y) = keep := by
    rcases hc with ⟨rfl, rfl⟩ | ⟨rfl, rfl⟩
    · rw [if_pos rfl]
    · rw [if_neg hne]
  refine ⟨⟨?_, ?_, ?_, ?_, ?_⟩, hx'⟩
  · intro z
    simp only
    rw [PyDict.keys_set, if_pos, h.keys]
    rw [← PyDict.isSome_get?, hmove]; rfl
  · intro z hz
    obtain ⟨n, hp⟩ := h.path z hz
    obtain ⟨h1, h2⟩ := Path.link hne.symm hmove hkeep hp
    by_cases hm : rt z = move
    · simp only [if_pos hm]
      exact ⟨_, h1 hm⟩
    · simp only [if_neg hm]
      exact ⟨_, h2 hm⟩
  · intro z hz
    simp only
    by_cases hm : rt z = move
    · rw [if_pos hm]
      rcases hc with ⟨rfl, _⟩ | ⟨rfl, _⟩
      · exact h.size x hx
      · exact h.size y hy
    · rw [if_neg hm]
      exact h.size z hz
  · have hmono : ∀ {a b}, Connected pairs a b → Connected ((x, y) :: pairs) a b :=
      fun hab => Connected.congr (fun _ => List.mem_cons_of_mem _) hab
    have hxy : Connected ((x, y) :: pairs) x y := connected_of_mem_pairs x y pairs
    have toX : ∀ {a}, a ∈ S → (if rt a = move then keep else rt a) = keep →
        Connected ((x, y) :: pairs) a x := by
      intro a ha hk
      have hor : rt a = rt x ∨ rt a = rt y := by
        by_cases hm : rt a = move
        · rcases hc with ⟨_, h2⟩ | ⟨_, h2⟩
          · exact Or.inr (hm.trans h2)
          · exact Or.inl (hm.trans h2)
        · rw [if_neg hm] at hk
          rcases hc with ⟨h1, _⟩ | ⟨h1, _⟩
          · exact Or.inl (hk.trans h1)
          · exact Or.inr (hk.trans h1)
      rcases hor with h1 | h1
      · exact hmono ((h.eqv a ha x hx).mp h1)
      · exact (hmono ((h.eqv a ha y hy).mp h1)).trans _ _ _ (hxy.symm _ _)
    intro a ha b hb
    constructor
    · intro e
      by_cases hk : (if rt a = move then keep else rt a) = keep
      · exact (toX ha hk).trans _ _ _ ((toX hb (e ▸ hk)).symm _ _)
      · have ha' : rt a ≠ move := fun h1 => hk (if_pos h1)
        have hb' : rt b ≠ move := fun h1 => hk (e.trans (if_pos h1))
        rw [if_neg ha', if_neg hb'] at e
        exact hmono ((h.eqv a ha b hb).mp e)
    · intro hab
      clear ha hb
      induction hab with
      | rel a b hr =>
        rcases List.mem_cons.mp hr with hr | hr
        · cases hr
          rw [hx', hy']
        · obtain ⟨ha, hb⟩ := h.pairs_mem _ hr
          rw [(h.eqv a ha b hb).mpr (.rel _ _ hr)]
      | refl a => rfl
      | symm a b _ ih => exact ih.symm
      | trans a b c _ _ ih1 ih2 => exact ih1.trans ih2
  · intro p hp
    rcases List.mem_cons.mp hp with rfl | hp
    · exact ⟨hx, hy⟩
    · exact h.pairs_mem p hp

/-- A pair of connected elements adds nothing. -/
theorem add (h : Weak S pairs rt u) {x y : α} (hx : x ∈ S) (hy : y ∈ S) (hxy : rt x = rt y) :
    Weak S ((x, y) :: pairs) rt u := by
  refine ⟨h.keys, h.path, h.size, fun a ha b hb => (h.eqv a ha b hb).trans ⟨fun hab => ?_, fun hab => ?_⟩, ?_⟩
  · exact Connected.congr (fun _ => List.mem_cons_of_mem _) hab
  · clear ha hb
    induction hab with
    | rel a b hr =>
      rcases List.mem_cons.mp hr with hr | hr
      · cases hr
        exact (h.eqv _ hx _ hy).mp hxy
      · exact .rel _ _ hr
    | refl a => exact .refl _
    | symm a b _ ih => exact .symm _ _ ih
    | trans a b c _ _ ih1 ih2 => exact .trans _ _ _ ih1 ih2
  · intro p hp
    rcases List.mem_cons.mp hp with rfl | hp
    · exact ⟨hx, hy⟩
    · exact h.pairs_mem p hp

end Weak

/-! ### Where a call can be -/

/-- The continuation `k` of a `find` of `z` belongs to the call `op`. -/
def ContOK (S : Finset α) (rt : α → α) (op : UFOp α) (z : α) : UFCont α → Prop
  | .ret => op = .find z
  | .first y => op = .union z y
  | .second a => ∃ x, op = .union x z ∧ x ∈ S ∧ a = rt x

/-- Where the call `op` can be before it links two classes. -/
def At (S : Finset α) (rt : α → α) (op : UFOp α) : UFThread α → Prop
  | .findTest z root k => ContOK S rt op z k ∧ (z ∈ S → root ∈ S ∧ rt root = rt z) ∧
      (z ∉ S → root = z)
  | .findNext z root k => ContOK S rt op z k ∧ z ∈ S ∧ root ∈ S ∧ rt root = rt z
  | .findRead tmp root k => ∃ z, ContOK S rt op z k ∧ z ∈ S ∧ root = rt z ∧ tmp ∈ S ∧
      rt tmp = root ∧ tmp ≠ root
  | .findWrite tmp root p k => ∃ z, ContOK S rt op z k ∧ z ∈ S ∧ root = rt z ∧ tmp ∈ S ∧
      rt tmp = root ∧ tmp ≠ root ∧ p ∈ S ∧ rt p = root
  | .sizeX a b => ∃ x y, op = .union x y ∧ x ∈ S ∧ y ∈ S ∧ a = rt x ∧ b = rt y ∧ a ≠ b
  | .sizeY a b _ => ∃ x y, op = .union x y ∧ x ∈ S ∧ y ∈ S ∧ a = rt x ∧ b = rt y ∧ a ≠ b
  | .link keep move _ => ∃ x y, op = .union x y ∧ x ∈ S ∧ y ∈ S ∧ keep ≠ move ∧
      ((keep = rt x ∧ move = rt y) ∨ (keep = rt y ∧ move = rt x))
  | .grow _ _ => False
  | .done r => match op with
    | .find x => r = if x ∈ S then .ok (rt x) else .error .keyError
    | .union x y => (x ∈ S ∧ y ∈ S ∧ rt x = rt y ∧ r = .ok (rt x)) ∨
        (¬ (x ∈ S ∧ y ∈ S) ∧ r = .error .keyError)

theorem at_afterFind {S : Finset α} {rt : α → α} {op : UFOp α} {z : α} {k : UFCont α}
    (hk : ContOK S rt op z k) (hz : z ∈ S) : At S rt op (afterFind (rt z) k) := by
  cases k with
  | ret =>
    simp only [ContOK] at hk
    subst hk
    simp [afterFind, At, hz]
  | first y =>
    simp only [ContOK] at hk
    subst hk
    simp only [afterFind, At]
    exact ⟨⟨z, rfl, hz, rfl⟩, fun h => ⟨h, trivial⟩, fun _ => trivial⟩
  | second a =>
    obtain ⟨x, rfl, hx, rfl⟩ := hk
    simp only [afterFind]
    split
    · rename_i hne
      exact ⟨x, z, rfl, hx, hz, rfl, rfl, hne⟩
    · rename_i heq
      exact Or.inl ⟨hx, hz, not_not.mp heq, rfl⟩

theorem at_compressFrom {S : Finset α} {rt : α → α} {op : UFOp α} {z tmp : α} {k : UFCont α}
    (hk : ContOK S rt op z k) (hz : z ∈ S) (ht : tmp ∈ S) (hrt : rt tmp = rt z) :
    At S rt op (compressFrom tmp (rt z) k) := by
  unfold compressFrom
  split
  · rename_i hne
    exact ⟨z, hk, hz, rfl, ht, hrt, hne⟩
  · exact at_afterFind hk hz

/-- One access by a call that has not linked yet: either it still has not, or this was the link. -/
theorem step_at {S : Finset α} {pairs : List (α × α)} {rt : α → α} {u : UnionFind α} {op : UFOp α}
    {t : UFThread α} (h : Weak S pairs rt u) (ht : At S rt op t) :
    (Weak S pairs rt (step u t).1 ∧ At S rt op (step u t).2) ∨
      ∃ x y keep s rt', op = .union x y ∧ x ∈ S ∧ y ∈ S ∧ (step u t).2 = .grow keep s ∧
        Weak S ((x, y) :: pairs) rt' (step u t).1 ∧ rt' x = keep := by
  cases t with
  | findTest z root k =>
    left
    obtain ⟨hk, h1, h2⟩ := ht
    by_cases hz : z ∈ S
    · obtain ⟨hr, hrt⟩ := h1 hz
      obtain ⟨p, hp, hpS, hprt, hroot⟩ := h.parent hr
      simp only [UFThread.step, PyDict.getItem, hp]
      refine ⟨h, ?_⟩
      split
      · exact ⟨hk, hz, hr, hrt⟩
      · rename_i heq
        rw [show root = rt z from (hroot (not_not.mp heq)).trans hrt]
        exact at_compressFrom hk hz hz rfl
    · have hn : u.parent.get? root = none := by
        rw [PyDict.get?_eq_none, h.keys, h2 hz]; exact hz
      simp only [UFThread.step, PyDict.getItem, hn]
      refine ⟨h, ?_⟩
      cases k with
      | ret =>
        simp only [ContOK] at hk
        subst hk
        simp [At, hz]
      | first y =>
        simp only [ContOK] at hk
        subst hk
        exact Or.inr ⟨fun hh => hz hh.1, rfl⟩
      | second a =>
        obtain ⟨x, rfl, hx, rfl⟩ := hk
        exact Or.inr ⟨fun hh => hz hh.2, rfl⟩
  | findNext z root k =>
    left
    obtain ⟨hk, hz, hr, hrt⟩ := ht
    obtain ⟨p, hp, hpS, hprt, _⟩ := h.parent hr
    simp only [UFThread.step, PyDict.getItem, hp]
    exact ⟨h, hk, fun _ => ⟨hpS, hprt.trans hrt⟩, fun hh => absurd hz hh⟩
  | findRead tmp root k =>
    left
    obtain ⟨z, hk, hz, hroot, htS, htrt, hne⟩ := ht
    obtain ⟨p, hp, hpS, hprt, _⟩ := h.parent htS
    simp only [UFThread.step, PyDict.getItem, hp]
    exact ⟨h, z, hk, hz, hroot, htS, htrt, hne, hpS, hprt.trans htrt⟩
  | findWrite tmp root p k =>
    left
    obtain ⟨z, hk, hz, rfl, htS, htrt, hne, hpS, hprt⟩ := ht
    simp only [UFThread.step]
    refine ⟨?_, at_compressFrom hk hz hpS hprt⟩
    have := h.redirect htS (by rw [htrt]; exact hne)
    rwa [htrt] at this
  | sizeX a b =>
    left
    obtain ⟨x, y, hop, hx, hy, rfl, rfl, hne⟩ := ht
    obtain ⟨s, hs⟩ := h.size x hx
    simp only [UFThread.step, PyDict.getItem, hs]
    exact ⟨h, x, y, hop, hx, hy, rfl, rfl, hne⟩
  | sizeY a b s =>
    left
    obtain ⟨x, y, hop, hx, hy, rfl, rfl, hne⟩ := ht
    obtain ⟨s', hs⟩ := h.size y hy
    simp only [UFThread.step, PyDict.getItem, hs]
    refine ⟨h, ?_⟩
    split
    · exact ⟨x, y, hop, hx, hy, hne.symm, Or.inr ⟨rfl, rfl⟩⟩
    · exact ⟨x, y, hop, hx, hy, hne, Or.inl ⟨rfl, rfl⟩⟩
  | link keep move s =>
    right
    obtain ⟨x, y, hop, hx, hy, hne, hc⟩ := ht
    obtain ⟨h1, h2⟩ := h.link hx hy hne hc
    exact ⟨x, y, keep, s, _, hop, hx, hy, rfl, h1, h2⟩
  | grow keep s => exact ht.elim
  | done r => exact Or.inl ⟨h, ht⟩

/-- A call under way, and the object. -/
inductive Phase (S : Finset α) (pairs : List (α × α)) (op : UFOp α) (u : UnionFind α)
    (t : UFThread α) : Prop
  | before (rt : α → α) : Weak S pairs rt u → At S rt op t → Phase S pairs op u t
  | after (rt : α → α) (x y : α) (s : ℕ) : op = .union x y → x ∈ S → y ∈ S →
      Weak S ((x, y) :: pairs) rt u → t = .grow (rt x) s ∨ t = .done (.ok (rt x)) →
      Phase S pairs op u t

theorem phase_step {S : Finset α} {pairs : List (α × α)} {op : UFOp α} {u : UnionFind α}
    {t : UFThread α} (h : Phase S pairs op u t) :
    Phase S pairs op (step u t).1 (step u t).2 := by
  cases h with
  | before rt h1 h2 =>
    rcases step_at h1 h2 with ⟨h3, h4⟩ | ⟨x, y, keep, s, rt', h3, h4, h5, h6, h7, rfl⟩
    · exact .before rt h3 h4
    · exact .after rt' x y s h3 h4 h5 h7 (Or.inl h6)
  | after rt x y s h1 h2 h3 h4 h5 =>
    refine .after rt x y s h1 h2 h3 ?_ (Or.inr ?_)
    · rcases h5 with rfl | rfl
      · refine ⟨h4.keys, h4.path, fun z hz => ?_, h4.eqv, h4.pairs_mem⟩
        simp only [UFThread.step, PyDict.get?_set]
        split
        · exact ⟨_, rfl⟩
        · exact h4.size z hz
      · exact h4
    · rcases h5 with rfl | rfl <;> rfl

theorem phase_steps {S : Finset α} {pairs : List (α × α)} {op : UFOp α} (n : ℕ) :
    ∀ {u : UnionFind α} {t : UFThread α}, Phase S pairs op u t →
      Phase S pairs op (steps n u t).1 (steps n u t).2 := by
  induction n with
  | zero => exact fun h => h
  | succ n ih => exact fun h => ih (phase_step h)

theorem phase_start {S : Finset α} {pairs : List (α × α)} {rt : α → α} {u : UnionFind α}
    (h : Weak S pairs rt u) (op : UFOp α) : Phase S pairs op u (startCall op) := by
  refine .before rt h ?_
  cases op with
  | find x => exact ⟨rfl, fun hx => ⟨hx, rfl⟩, fun _ => rfl⟩
  | union x y => exact ⟨rfl, fun hx => ⟨hx, rfl⟩, fun _ => rfl⟩

/-- What an interrupted call leaves behind. -/
theorem phase_end {items : List α} {pairs : List (α × α)} {op : UFOp α} {u : UnionFind α}
    {t : UFThread α} (h : Phase items.toFinset pairs op u t) :
    ∃ rt q, Weak items.toFinset q rt u ∧ (∀ p ∈ pairs, p ∈ q) ∧
      (∀ p ∈ q, p ∈ pairs ∨ p ∈ unitedPairs items [op]) ∧
      (t.isDone = true → ∀ p ∈ unitedPairs items [op], p ∈ q) := by
  cases h with
  | before rt h1 h2 =>
    by_cases hd : t.isDone = true
    · cases t with
      | done r =>
        cases op with
        | find x => exact ⟨rt, pairs, h1, fun _ h => h, fun _ h => Or.inl h, by simp [unitedPairs]⟩
        | union x y =>
          rcases h2 with ⟨hx, hy, hxy, _⟩ | ⟨hn, _⟩
          · refine ⟨rt, _, h1.add hx hy hxy, fun p hp => List.mem_cons_of_mem _ hp, ?_, ?_⟩
            · intro p hp
              rcases List.mem_cons.mp hp with rfl | hp
              · right
                simp only [List.mem_toFinset] at hx hy
                simp [unitedPairs, hx, hy]
              · exact Or.inl hp
            · intro _ p hp
              simp only [List.mem_toFinset] at hx hy
              simp only [unitedPairs, hx, hy, and_self, if_true, List.mem_singleton] at hp
              rw [hp]
              exact List.mem_cons_self
          · refine ⟨rt, pairs, h1, fun _ h => h, fun _ h => Or.inl h, ?_⟩
            simp only [List.mem_toFinset] at hn
            simp [unitedPairs, hn]
      | _ => simp [UFThread.isDone] at hd
    · exact ⟨rt, pairs, h1, fun _ h => h, fun _ h => Or.inl h, fun h => absurd h hd⟩
  | after rt x y s h1 hx hy h4 _ =>
    subst h1
    have hx' : x ∈ items := by simpa using hx
    have hy' : y ∈ items := by simpa using hy
    have e : unitedPairs items [.union x y] = [(x, y)] := by simp [unitedPairs, hx', hy']
    refine ⟨rt, _, h4, fun p hp => List.mem_cons_of_mem _ hp, ?_, ?_⟩
    · intro p hp
      rw [e, List.mem_singleton]
      rcases List.mem_cons.mp hp with rfl | hp
      · exact Or.inr rfl
      · exact Or.inl hp
    · intro _ p hp
      rw [e, List.mem_singleton] at hp
      rw [hp]
      exact List.mem_cons_self

theorem unitedPairs_cons (items : List α) (op : UFOp α) (ops : List (UFOp α)) (p : α × α) :
    p ∈ unitedPairs items (op :: ops) ↔ p ∈ unitedPairs items [op] ∨ p ∈ unitedPairs items ops := by
  cases op with
  | find x => simp [unitedPairs]
  | union x y =>
    simp only [unitedPairs]
    split <;> simp

/-- Histories of interrupted calls. -/
theorem interrupted_weak (items : List α) (calls : List (UFOp α × ℕ)) :
    ∀ (pairs : List (α × α)) (rt : α → α) (u : UnionFind α), Weak items.toFinset pairs rt u →
      ∃ rt' q, Weak items.toFinset q rt' (interruptedCalls u calls) ∧ (∀ p ∈ pairs, p ∈ q) ∧
        (∀ p ∈ q, p ∈ pairs ∨ p ∈ unitedPairs items (calls.map Prod.fst)) ∧
        ∀ p ∈ unitedPairs items (finishedCalls u calls), p ∈ q := by
  induction calls with
  | nil =>
    intro pairs rt u h
    exact ⟨rt, pairs, h, fun _ h => h, fun _ h => Or.inl h, by simp [finishedCalls, unitedPairs]⟩
  | cons call rest ih =>
    obtain ⟨op, n⟩ := call
    intro pairs rt u h
    obtain ⟨rt1, q1, h1, h2, h3, h4⟩ := phase_end (phase_steps n (phase_start h op))
    obtain ⟨rt2, q2, h5, h6, h7, h8⟩ := ih q1 rt1 _ h1
    refine ⟨rt2, q2, h5, fun p hp => h6 p (h2 p hp), ?_, ?_⟩
    · intro p hp
      rw [List.map_cons, unitedPairs_cons]
      rcases h7 p hp with h9 | h9
      · rcases h3 p h9 with h10 | h10
        · exact Or.inl h10
        · exact Or.inr (Or.inl h10)
      · exact Or.inr (Or.inr h9)
    · intro p hp
      simp only [finishedCalls] at hp
      split at hp
      · rename_i hd
        rcases (unitedPairs_cons items op _ p).mp hp with h9 | h9
        · exact h6 p (h4 hd p h9)
        · exact h8 p h9
      · exact h8 p hp

/-! ### Several threads that only search -/

/-- At most `B` more accesses until the `find` under way is done. -/
def Within (d : PyDict α α) : UFThread α → ℕ → Prop
  | .findTest x root _, B => (∃ a b r s, Path d.get? x a r ∧ Path d.get? root b s ∧
      2 * a + 2 * b + 1 ≤ B) ∨ (d.get? root = none ∧ 1 ≤ B)
  | .findNext x root _, B => ∃ a b r s, Path d.get? x a r ∧ Path d.get? root b s ∧ root ≠ s ∧
      2 * a + 2 * b ≤ B
  | .findRead tmp _ _, B => ∃ a r, Path d.get? tmp a r ∧ 2 * a ≤ B
  | .findWrite _ _ p _, B => ∃ a r, Path d.get? p a r ∧ 2 * a + 1 ≤ B
  | .done _, _ => True
  | _, _ => False

/-- Paths only become shorter, and unknown elements stay so. -/
def Shorter (d d' : PyDict α α) : Prop :=
  (∀ z m s, Path d.get? z m s → ∃ m', m' ≤ m ∧ Path d'.get? z m' s) ∧
    ∀ z, d.get? z = none → d'.get? z = none

theorem Shorter.rfl' (d : PyDict α α) : Shorter d d :=
  ⟨fun _ m _ h => ⟨m, le_rfl, h⟩, fun _ h => h⟩

theorem Within.mono {d d' : PyDict α α} (h : Shorter d d') {t : UFThread α} {B : ℕ}
    (ht : Within d t B) : Within d' t B := by
  cases t with
  | findTest x root k =>
    rcases ht with ⟨a, b, r, s, h1, h2, h3⟩ | ⟨h1, h2⟩
    · obtain ⟨a', h4, h5⟩ := h.1 _ _ _ h1
      obtain ⟨b', h6, h7⟩ := h.1 _ _ _ h2
      exact Or.inl ⟨a', b', r, s, h5, h7, by omega⟩
    · exact Or.inr ⟨h.2 _ h1, h2⟩
  | findNext x root k =>
    obtain ⟨a, b, r, s, h1, h2, hne, h3⟩ := ht
    obtain ⟨a', h4, h5⟩ := h.1 _ _ _ h1
    obtain ⟨b', h6, h7⟩ := h.1 _ _ _ h2
    exact ⟨a', b', r, s, h5, h7, hne, by omega⟩
  | findRead tmp root k =>
    obtain ⟨a, r, h1, h2⟩ := ht
    obtain ⟨a', h4, h5⟩ := h.1 _ _ _ h1
    exact ⟨a', r, h5, by omega⟩
  | findWrite tmp root p k =>
    obtain ⟨a, r, h1, h2⟩ := ht
    obtain ⟨a', h4, h5⟩ := h.1 _ _ _ h1
    exact ⟨a', r, h5, by omega⟩
  | done r => exact trivial
  | sizeX a b => exact ht
  | sizeY a b s => exact ht
  | link a b s => exact ht
  | grow a s => exact ht

theorem path_step {d : PyDict α α} {x p s : α} {n : ℕ} (h : Path d.get? x n s)
    (hp : d.get? x = some p) (hne : x ≠ s) : ∃ m, n = m + 1 ∧ Path d.get? p m s := by
  cases h with
  | root h1 => exact absurd rfl hne
  | @step _ y m _ h1 h2 h3 =>
    rw [hp] at h1
    cases h1
    exact ⟨m, rfl, h3⟩

/-- A step of a thread that searches: paths become shorter, and the thread comes nearer to its end. -/
theorem step_within {S : Finset α} {pairs : List (α × α)} {rt : α → α} {u : UnionFind α} {x : α}
    {t : UFThread α} (h : Inv S pairs rt u) (ht : At S rt (.find x) t) :
    Inv S pairs rt (step u t).1 ∧ At S rt (.find x) (step u t).2 ∧
      Shorter u.parent (step u t).1.parent ∧
      ∀ B, Within u.parent t (B + 1) → Within (step u t).1.parent (step u t).2 B := by
  have hw := h.weak
  have hfirst : At S rt (.find x) (step u t).2 := by
    rcases step_at hw ht with ⟨_, h2⟩ | ⟨_, _, _, _, _, h2, _⟩
    · exact h2
    · cases h2
  cases t with
  | findTest z root k =>
    have hu : (step u (.findTest z root k)).1 = u := by
      simp only [UFThread.step]; split <;> rfl
    refine ⟨by rw [hu]; exact h, hfirst, by rw [hu]; exact Shorter.rfl' _, fun B hB => ?_⟩
    obtain ⟨hk, h1, h2⟩ := ht
    have hz : z = x := by
      cases k with
      | ret => cases hk; rfl
      | first y => cases hk
      | second a => obtain ⟨_, h3, _⟩ := hk; cases h3
    subst hz
    rcases hB with ⟨a, b, r, s, h5, h6, h7⟩ | ⟨hn, _⟩
    swap
    · simp only [UFThread.step, PyDict.getItem, hn]
      exact trivial
    have hx : z ∈ S := by
      cases h5 with
      | root h8 => exact hw.mem_of_get h8
      | step h8 _ _ => exact hw.mem_of_get h8
    obtain ⟨hr, hrt⟩ := h1 hx
    obtain ⟨p, hp, hpS, hprt, hroot⟩ := hw.parent hr
    simp only [UFThread.step, PyDict.getItem, hp]
    split
    · rename_i hne
      refine ⟨a, b, r, s, h5, h6, ?_, by omega⟩
      intro hrs
      subst hrs
      rw [h6.isRoot] at hp
      cases hp
      exact hne rfl
    · cases k with
      | ret =>
        simp only [compressFrom]
        split
        · exact ⟨a, r, h5, by omega⟩
        · exact trivial
      | first y => cases hk
      | second a => obtain ⟨_, h3, _⟩ := hk; cases h3
  | findNext z root k =>
    have hu : (step u (.findNext z root k)).1 = u := by
      simp only [UFThread.step]; split <;> rfl
    refine ⟨by rw [hu]; exact h, hfirst, by rw [hu]; exact Shorter.rfl' _, fun B hB => ?_⟩
    obtain ⟨hk, hz, hr, hrt⟩ := ht
    obtain ⟨p, hp, hpS, hprt, _⟩ := hw.parent hr
    obtain ⟨a, b, r, s, h5, h6, hne, h7⟩ := hB
    obtain ⟨m, rfl, h8⟩ := path_step h6 hp hne
    simp only [UFThread.step, PyDict.getItem, hp]
    exact Or.inl ⟨a, m, r, s, h5, h8, by omega⟩
  | findRead tmp root k =>
    have hu : (step u (.findRead tmp root k)).1 = u := by
      simp only [UFThread.step]; split <;> rfl
    refine ⟨by rw [hu]; exact h, hfirst, by rw [hu]; exact Shorter.rfl' _, fun B hB => ?_⟩
    obtain ⟨z, hk, hz, hroot, htS, htrt, hne⟩ := ht
    obtain ⟨p, hp, hpS, hprt, _⟩ := hw.parent htS
    obtain ⟨a, r, h5, h6⟩ := hB
    obtain ⟨n, h7⟩ := hw.path tmp htS
    obtain ⟨rfl, rfl⟩ := h7.unique h5
    obtain ⟨m, rfl, h8⟩ := path_step h5 hp (by rw [htrt]; exact hne)
    simp only [UFThread.step, PyDict.getItem, hp]
    exact ⟨m, _, h8, by omega⟩
  | findWrite tmp root p k =>
    obtain ⟨z, hk, hz, rfl, htS, htrt, hne, hpS, hprt⟩ := ht
    obtain ⟨n, hpath, hn⟩ := h.path tmp htS
    have hsh : Shorter u.parent (u.parent.set tmp (rt z)) := by
      refine ⟨?_, fun y hy => ?_⟩
      swap
      · rw [PyDict.get?_set, if_neg, hy]
        rintro rfl
        rw [PyDict.get?_eq_none, h.keys] at hy
        exact hy htS
      rw [htrt] at hpath
      cases n with
      | zero =>
        exfalso
        generalize rt z = r at hpath hne
        cases hpath
        exact hne rfl
      | succ n => exact fun z m s => Path.redirect hpath
    refine ⟨?_, hfirst, hsh, fun B hB => ?_⟩
    · refine ⟨fun y => ?_, ?_, fun y hy => ?_, h.size, h.eqv, h.pairs_mem⟩
      · simp only [UFThread.step]
        rw [PyDict.keys_set, if_pos, h.keys]
        rw [h.keys]; exact htS
      · simp only [UFThread.step]
        rw [PyDict.keys_set, if_pos]
        · exact h.nodup
        · rw [h.keys]; exact htS
      · obtain ⟨m, h1, h2⟩ := h.path y hy
        obtain ⟨m', h3, h4⟩ := hsh.1 _ _ _ h1
        exact ⟨m', h4, (Nat.pow_le_pow_right (by decide) h3).trans h2⟩
    · obtain ⟨a, r, h5, h6⟩ := hB
      obtain ⟨a', h7, h8⟩ := hsh.1 _ _ _ h5
      simp only [UFThread.step]
      cases k with
      | ret =>
        simp only [compressFrom]
        split
        · exact ⟨a', r, h8, by omega⟩
        · exact trivial
      | first y => cases hk
      | second a => obtain ⟨_, h3, _⟩ := hk; cases h3
  | sizeX a b => obtain ⟨_, _, h3, _⟩ := ht; cases h3
  | sizeY a b s => obtain ⟨_, _, h3, _⟩ := ht; cases h3
  | link a b s => obtain ⟨_, _, h3, _⟩ := ht; cases h3
  | grow a s => exact ht.elim
  | done r => exact ⟨h, ht, Shorter.rfl' _, fun _ _ => trivial⟩

/-- `B` bounds the accesses of thread `i` after which it is done. -/
theorem schedule_ok {S : Finset α} {pairs : List (α × α)} {rt : α → α} {xs : List α}
    (sched : List ℕ) : ∀ (u : UnionFind α) (ts : List (UFThread α)), Inv S pairs rt u →
      ts.length = xs.length →
      (∀ (i : ℕ) x t, xs[i]? = some x → ts[i]? = some t → At S rt (.find x) t) →
      Inv S pairs rt (runSchedule sched u ts).1 ∧
      (runSchedule sched u ts).2.length = xs.length ∧
      (∀ (i : ℕ) x t, xs[i]? = some x → (runSchedule sched u ts).2[i]? = some t →
        At S rt (.find x) t) ∧
      ∀ (i : ℕ) x t B, xs[i]? = some x → ts[i]? = some t →
        Within u.parent t (B + sched.count i) →
        ∃ t', (runSchedule sched u ts).2[i]? = some t' ∧
          Within (runSchedule sched u ts).1.parent t' B := by
  induction sched with
  | nil =>
    intro u ts h hl hat
    exact ⟨h, hl, hat, fun i x t B _ h2 h3 => ⟨t, h2, by simpa [runSchedule] using h3⟩⟩
  | cons j rest ih =>
    intro u ts h hl hat
    by_cases hj : j < ts.length
    · have hj' : ts[j]? = some ts[j] := List.getElem?_eq_getElem hj
      have hxj : xs[j]? = some (xs[j]'(hl ▸ hj)) := List.getElem?_eq_getElem _
      have e : stepAt u ts j = ((step u ts[j]).1, ts.set j (step u ts[j]).2) := by
        simp [stepAt, hj']
      obtain ⟨h1, h2, h3, h4⟩ := step_within h (hat j _ _ hxj hj')
      have hset : ∀ (i : ℕ) (t : UFThread α), (ts.set j (step u ts[j]).2)[i]? = some t →
          (i = j ∧ t = (step u ts[j]).2) ∨ (i ≠ j ∧ ts[i]? = some t) := by
        intro i t ht
        by_cases hij : i = j
        · subst hij
          rw [List.getElem?_set_self hj] at ht
          exact Or.inl ⟨rfl, (Option.some.inj ht).symm⟩
        · rw [List.getElem?_set_ne (Ne.symm hij)] at ht
          exact Or.inr ⟨hij, ht⟩
      simp only [runSchedule, e]
      obtain ⟨r1, r2, r3, r4⟩ := ih (step u ts[j]).1 (ts.set j (step u ts[j]).2) h1 (by simpa using hl) (by
        intro i x t hx ht
        rcases hset i t ht with ⟨rfl, rfl⟩ | ⟨hij, ht⟩
        · rw [hxj] at hx
          cases hx
          exact h2
        · exact hat i x t hx ht)
      refine ⟨r1, r2, r3, ?_⟩
      intro i x t B hx ht hw
      by_cases hij : i = j
      · subst hij
        rw [hxj] at hx
        cases hx
        rw [hj'] at ht
        cases ht
        rw [List.count_cons_self] at hw
        refine r4 i _ (step u ts[i]).2 B hxj (by rw [List.getElem?_set_self hj]) ?_
        exact h4 (B + rest.count i) hw
      · refine r4 i x t B hx (by rw [List.getElem?_set_ne (Ne.symm hij)]; exact ht) ?_
        rw [List.count_cons_of_ne (Ne.symm hij)] at hw
        exact hw.mono h3
    · have e : stepAt u ts j = (u, ts) := by
        simp [stepAt, List.getElem?_eq_none (not_lt.mp hj)]
      simp only [runSchedule, e]
      obtain ⟨r1, r2, r3, r4⟩ := ih u ts h hl hat
      refine ⟨r1, r2, r3, ?_⟩
      intro i x t B hx ht hw
      refine r4 i x t B hx ht ?_
      have hij : i ≠ j := by
        rintro rfl
        exact hj (List.getElem?_eq_some_iff.mp ht).1
      rwa [List.count_cons_of_ne (Ne.symm hij)] at hw

/-- No more accesses: the thread is done. -/
theorem within_zero {S : Finset α} {pairs : List (α × α)} {rt : α → α} {u : UnionFind α} {x : α}
    {t : UFThread α} (h : Inv S pairs rt u) (ht : At S rt (.find x) t) (hw : Within u.parent t 0) :
    ∃ r, t = .done r := by
  cases t with
  | findTest z root k =>
    rcases hw with ⟨a, b, r, s, _, _, h3⟩ | ⟨_, h3⟩ <;> omega
  | findNext z root k =>
    obtain ⟨a, b, r, s, _, h2, hne, h3⟩ := hw
    obtain rfl : b = 0 := by omega
    cases h2
    exact absurd rfl hne
  | findRead tmp root k =>
    obtain ⟨a, r, h1, h2⟩ := hw
    obtain ⟨z, hk, hz, hroot, htS, htrt, hne⟩ := ht
    obtain ⟨n, h3, _⟩ := h.path tmp htS
    obtain ⟨rfl, rfl⟩ := h3.unique h1
    obtain rfl : n = 0 := by omega
    rw [htrt] at h1
    cases h1
    exact absurd rfl hne
  | findWrite tmp root p k =>
    obtain ⟨a, r, _, h2⟩ := hw
    omega
  | done r => exact ⟨r, rfl⟩
  | sizeX a b => exact hw.elim
  | sizeY a b s => exact hw.elim
  | link a b s => exact hw.elim
  | grow a s => exact hw.elim

end Verif
