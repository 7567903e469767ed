import Verif.Model.UnionFind
import Verif.Spec.Connected
import Mathlib.Data.Finset.Card
import Mathlib.Data.Finset.Dedup
import Mathlib.Tactic.Linarith
import Mathlib.Tactic.Tauto
import Mathlib.Data.Nat.Basic

namespace Verif

variable {α : Type}

theorem Connected.congr {p q : List (α × α)} (h : ∀ a, a ∈ p → a ∈ q) {x y : α} :
    Connected p x y → Connected q x y :=
  Relation.EqvGen.mono (fun a b hab => h (a, b) hab) x y

/-- Following parent pointers from `x`, `n` proper steps lead to the root `r`. -/
inductive Path (p : α → Option α) : α → ℕ → α → Prop
  | root {r} : p r = some r → Path p r 0 r
  | step {x y n r} : p x = some y → x ≠ y → Path p y n r → Path p x (n + 1) r

theorem Path.isRoot {p : α → Option α} {x r : α} {n : ℕ} (h : Path p x n r) :
    p r = some r := by
  induction h with
  | root h => exact h
  | step _ _ _ ih => exact ih

theorem Path.unique {p : α → Option α} {x r : α} {n : ℕ} (h : Path p x n r) :
    ∀ {n' r'}, Path p x n' r' → n = n' ∧ r = r' := by
  induction h with
  | root h =>
    intro n' r' h'
    cases h' with
    | root _ => exact ⟨rfl, rfl⟩
    | step h1 h2 _ => rw [h] at h1; cases h1; exact absurd rfl h2
  | step h1 h2 _ ih =>
    intro n' r' h'
    cases h' with
    | root h3 => rw [h1] at h3; cases h3; exact absurd rfl h2
    | step h3 _ h4 =>
      rw [h1] at h3; cases h3
      obtain ⟨a, b⟩ := ih h4
      exact ⟨by rw [a], b⟩

theorem Path.succ_ne {p : α → Option α} {x r : α} {n : ℕ} (h : Path p x (n + 1) r) :
    x ≠ r := by
  rintro rfl
  have := (Path.root h.isRoot).unique h
  omega

variable [DecidableEq α]

namespace UnionFind

theorem rootLoop_ok {d : PyDict α α} {x r : α} {n : ℕ} (h : Path d.get? x n r) :
    ∀ fuel, n < fuel → rootLoop d fuel x = .ok r := by
  induction h with
  | root h =>
    intro fuel hf
    obtain ⟨f, rfl⟩ : ∃ f, fuel = f + 1 := ⟨fuel - 1, by omega⟩
    simp [rootLoop, PyDict.getItem, h]
  | step h1 h2 _ ih =>
    intro fuel hf
    obtain ⟨f, rfl⟩ : ∃ f, fuel = f + 1 := ⟨fuel - 1, by omega⟩
    simp [rootLoop, PyDict.getItem, h1, h2, ih f (by omega)]

/-- Redirecting one element to its root keeps all roots and lengthens no path. -/
theorem Path.redirect {d : PyDict α α} {x r : α} {n : ℕ} (h : Path d.get? x (n + 1) r) :
    ∀ {z m s}, Path d.get? z m s → ∃ m', m' ≤ m ∧ Path (d.set x r).get? z m' s := by
  have hxr := h.succ_ne
  have hroot : ∀ s, d.get? s = some s → (d.set x r).get? s = some s := by
    intro s hs
    rw [PyDict.get?_set, if_neg, hs]
    rintro rfl
    exact absurd ((Path.root hs).unique h).1 (by omega)
  intro z m s hz
  induction hz with
  | root hs => exact ⟨0, le_refl _, .root (hroot _ hs)⟩
  | @step a b k t h1 h2 h3 ih =>
    by_cases ha : a = x
    · subst ha
      obtain ⟨_, rfl⟩ := h.unique (Path.step h1 h2 h3)
      refine ⟨1, by omega, .step (y := r) ?_ hxr (.root (hroot _ h.isRoot))⟩
      rw [PyDict.get?_set, if_pos rfl]
    · obtain ⟨m', hm, hp⟩ := ih
      refine ⟨m' + 1, by omega, .step ?_ h2 hp⟩
      rw [PyDict.get?_set, if_neg ha, h1]

theorem compressLoop_ok {r : α} : ∀ (fuel : ℕ) (d : PyDict α α) (x : α) (n : ℕ),
    Path d.get? x n r → n < fuel →
    ∃ d', compressLoop r fuel d x = .ok d' ∧ d'.keys = d.keys ∧
      ∀ z m s, Path d.get? z m s → ∃ m', m' ≤ m ∧ Path d'.get? z m' s := by
  intro fuel
  induction fuel with
  | zero => intro d x n _ h; omega
  | succ fuel ih =>
    intro d x n hp hn
    cases n with
    | zero =>
      cases hp
      exact ⟨d, by simp [compressLoop], rfl, fun z m s h => ⟨m, le_refl _, h⟩⟩
    | succ n =>
      have hne := hp.succ_ne
      have hred := @Path.redirect _ _ d x r n hp
      cases hp with
      | @step _ y _ _ h1 h2 h3 =>
        obtain ⟨n1, hn1, hp1⟩ := hred h3
        obtain ⟨d', e, k, q⟩ := ih (d.set x r) y n1 hp1 (by omega)
        refine ⟨d', ?_, ?_, ?_⟩
        · simp [compressLoop, hne, PyDict.getItem, h1, e]
        · rw [k, PyDict.keys_set, if_pos]
          rw [← PyDict.isSome_get?, h1]; rfl
        · intro z m s hz
          obtain ⟨m1, a, b⟩ := hred hz
          obtain ⟨m2, c, e⟩ := q z m1 s b
          exact ⟨m2, by omega, e⟩

/-- Number of elements with the same root as `x`. -/
def classCard (S : Finset α) (rt : α → α) (x : α) : ℕ :=
  (S.filter (fun y => rt y = rt x)).card

/-- Invariant of reachable states: `S` the known elements, `pairs` the united
pairs, `rt` the representative of each element. -/
structure Inv (S : Finset α) (pairs : List (α × α)) (rt : α → α) (u : UnionFind α) :
    Prop where
  keys : ∀ x, x ∈ u.parent.keys ↔ x ∈ S
  nodup : u.parent.keys.Nodup
  path : ∀ x ∈ S, ∃ n, Path u.parent.get? x n (rt x) ∧ 2 ^ n ≤ classCard S rt x
  size : ∀ x ∈ S, u.size.get? (rt x) = some (classCard S rt x)
  eqv : ∀ x ∈ S, ∀ y ∈ S, (rt x = rt y ↔ Connected pairs x y)
  pairs_mem : ∀ p ∈ pairs, p.1 ∈ S ∧ p.2 ∈ S

variable {S : Finset α} {pairs : List (α × α)} {rt : α → α} {u : UnionFind α}

theorem Inv.rt_root (h : Inv S pairs rt u) {x : α} (hx : x ∈ S) :
    u.parent.get? (rt x) = some (rt x) := by
  obtain ⟨n, hp, _⟩ := h.path x hx
  exact hp.isRoot

theorem Inv.rt_mem (h : Inv S pairs rt u) {x : α} (hx : x ∈ S) : rt x ∈ S := by
  rw [← h.keys, ← PyDict.isSome_get?, h.rt_root hx]; rfl

theorem Inv.rt_rt (h : Inv S pairs rt u) {x : α} (hx : x ∈ S) : rt (rt x) = rt x := by
  obtain ⟨n, hp, _⟩ := h.path _ (h.rt_mem hx)
  exact ((Path.root (h.rt_root hx)).unique hp).2.symm

theorem Inv.len (h : Inv S pairs rt u) : u.parent.len = S.card := by
  have : u.parent.keys.toFinset = S := by ext x; simp [h.keys]
  rw [← this, List.toFinset_card_of_nodup h.nodup]
  simp [PyDict.keys, PyDict.len]

theorem Inv.find_ok (h : Inv S pairs rt u) {x : α} (hx : x ∈ S) :
    ∃ u', u.find x = (.ok (rt x), u') ∧ Inv S pairs rt u' := by
  obtain ⟨n, hp, hn⟩ := h.path x hx
  have hlt : n < u.parent.len + 1 := by
    have h1 : n < 2 ^ n := Nat.lt_two_pow_self
    have h2 : classCard S rt x ≤ S.card := Finset.card_filter_le _ _
    rw [h.len]; omega
  obtain ⟨d', e, k, q⟩ := compressLoop_ok _ _ _ _ hp hlt
  refine ⟨{ u with parent := d' }, ?_, ?_⟩
  · simp [find, rootLoop_ok hp _ hlt, e]
  · refine ⟨fun x => by rw [k]; exact h.keys x, by rw [k]; exact h.nodup, ?_, h.size, h.eqv,
      h.pairs_mem⟩
    intro z hz
    obtain ⟨m, hm1, hm2⟩ := h.path z hz
    obtain ⟨m', a, b⟩ := q z m _ hm1
    exact ⟨m', b, le_trans (Nat.pow_le_pow_right (by omega) a) hm2⟩

theorem Inv.find_unknown (h : Inv S pairs rt u) {x : α} (hx : x ∉ S) :
    u.find x = (.error .keyError, u) := by
  have : u.parent.get? x = none := by
    rw [PyDict.get?_eq_none, h.keys]; exact hx
  simp [find, rootLoop, PyDict.getItem, this]

/-- Representative after uniting `x` and `y`. -/
def keepRep (S : Finset α) (rt : α → α) (x y : α) : α :=
  if classCard S rt x < classCard S rt y then rt y else rt x

/-- Representatives after uniting `x` and `y`. -/
def linkRep (S : Finset α) (rt : α → α) (x y z : α) : α :=
  if rt z = rt x ∨ rt z = rt y then keepRep S rt x y else rt z

omit [DecidableEq α] in
theorem connected_of_mem_pairs (x y : α) (pairs : List (α × α)) :
    Connected ((x, y) :: pairs) x y :=
  .rel _ _ (by simp)

theorem keepRep_cases (S : Finset α) (rt : α → α) (x y : α) :
    keepRep S rt x y = rt x ∨ keepRep S rt x y = rt y := by
  unfold keepRep; split <;> simp

/-- The equivalence after a union. -/
theorem Inv.eqv_link (h : Inv S pairs rt u) {x y : α} (hx : x ∈ S) (hy : y ∈ S) :
    ∀ a ∈ S, ∀ b ∈ S, (linkRep S rt x y a = linkRep S rt x y b ↔
      Connected ((x, y) :: pairs) a b) := by
  have hmono : ∀ {a b}, Connected pairs a b → Connected ((x, y) :: pairs) a b :=
    fun hab => Connected.congr (fun _ => List.mem_cons_of_mem _) hab
  have hxy : Connected ((x, y) :: pairs) x y := connected_of_mem_pairs x y pairs
  have key : ∀ {a b}, a ∈ S → b ∈ S → rt a = rt b → Connected ((x, y) :: pairs) a b :=
    fun ha hb hab => hmono ((h.eqv _ ha _ hb).mp hab)
  have toX : ∀ {a}, a ∈ S → (rt a = rt x ∨ rt a = rt y) → Connected ((x, y) :: pairs) a x := by
    intro a ha hr
    rcases hr with hr | hr
    · exact key ha hx hr
    · exact (key ha hy hr).trans _ _ _ (hxy.symm _ _)
  intro a ha b hb
  constructor
  · intro hab
    unfold linkRep at hab
    by_cases h1 : rt a = rt x ∨ rt a = rt y
    · by_cases h2 : rt b = rt x ∨ rt b = rt y
      · exact (toX ha h1).trans _ _ _ ((toX hb h2).symm _ _)
      · rw [if_pos h1, if_neg h2] at hab
        exfalso; apply h2
        rcases keepRep_cases S rt x y with hk | hk <;> rw [hk] at hab <;> simp [hab]
    · by_cases h2 : rt b = rt x ∨ rt b = rt y
      · rw [if_neg h1, if_pos h2] at hab
        exfalso; apply h1
        rcases keepRep_cases S rt x y with hk | hk <;> rw [hk] at hab <;> simp [hab]
      · rw [if_neg h1, if_neg h2] at hab
        exact key ha hb hab
  · intro hab
    have gen : ∀ a b, Connected ((x, y) :: pairs) a b →
        a = b ∨ (a ∈ S ∧ b ∈ S ∧ linkRep S rt x y a = linkRep S rt x y b) := by
      intro a b hab
      induction hab with
      | rel a b hab =>
        rcases List.mem_cons.mp hab with hab | hab
        · cases hab
          right; exact ⟨hx, hy, by simp [linkRep]⟩
        · right
          obtain ⟨h1, h2⟩ := h.pairs_mem _ hab
          refine ⟨h1, h2, ?_⟩
          have : rt a = rt b := (h.eqv a h1 b h2).mpr (.rel _ _ hab)
          simp [linkRep, this]
      | refl a => left; rfl
      | symm a b _ ih =>
        rcases ih with rfl | ⟨h1, h2, h3⟩
        · left; rfl
        · right; exact ⟨h2, h1, h3.symm⟩
      | trans a b c _ _ ih1 ih2 =>
        rcases ih1 with rfl | ⟨h1, h2, h3⟩
        · exact ih2
        · rcases ih2 with rfl | ⟨h4, h5, h6⟩
          · right; exact ⟨h1, h2, h3⟩
          · right; exact ⟨h1, h5, h3.trans h6⟩
    rcases gen a b hab with rfl | ⟨_, _, h3⟩
    · rfl
    · exact h3

theorem classCard_link (S : Finset α) (rt : α → α) (x y : α)
    (hxy : rt x ≠ rt y) (z : α) :
    (linkRep S rt x y z = keepRep S rt x y →
      classCard S (linkRep S rt x y) z = classCard S rt x + classCard S rt y) ∧
    (¬(rt z = rt x ∨ rt z = rt y) → classCard S (linkRep S rt x y) z = classCard S rt z) := by
  have hiff : ∀ w, linkRep S rt x y w = keepRep S rt x y ↔ (rt w = rt x ∨ rt w = rt y) := by
    intro w
    unfold linkRep
    by_cases h : rt w = rt x ∨ rt w = rt y
    · simp [h]
    · simp only [h, if_false, iff_false]
      rcases keepRep_cases S rt x y with hk | hk <;> rw [hk] <;> tauto
  constructor
  · intro hz
    unfold classCard
    rw [hz]
    have : S.filter (fun w => linkRep S rt x y w = keepRep S rt x y) =
        S.filter (fun w => rt w = rt x) ∪ S.filter (fun w => rt w = rt y) := by
      ext w
      simp only [Finset.mem_filter, Finset.mem_union, hiff]
      tauto
    rw [this, Finset.card_union_of_disjoint]
    rw [Finset.disjoint_left]
    intro w h1 h2
    simp only [Finset.mem_filter] at h1 h2
    exact hxy (h1.2.symm.trans h2.2)
  · intro hz
    unfold classCard
    congr 1
    ext w
    simp only [Finset.mem_filter]
    have hlz : linkRep S rt x y z = rt z := by unfold linkRep; rw [if_neg hz]
    rw [hlz]
    by_cases hw : rt w = rt x ∨ rt w = rt y
    · have : linkRep S rt x y w = keepRep S rt x y := (hiff w).mpr hw
      rw [this]
      have h1 : keepRep S rt x y ≠ rt z := by
        rcases keepRep_cases S rt x y with hk | hk <;> rw [hk] <;> tauto
      have h2 : rt w ≠ rt z := by
        intro h; rw [h] at hw; exact hz hw
      simp [h1, h2]
    · have : linkRep S rt x y w = rt w := by unfold linkRep; rw [if_neg hw]
      rw [this]

/-- Hanging one root below another. -/
theorem Path.link {d : PyDict α α} {a b : α} (hab : a ≠ b) (ha : d.get? a = some a)
    (hb : d.get? b = some b) {z : α} {n : ℕ} {s : α} (hz : Path d.get? z n s) :
    (s = a → Path (d.set a b).get? z (n + 1) b) ∧
    (s ≠ a → Path (d.set a b).get? z n s) := by
  induction hz with
  | @root r hr =>
    constructor
    · rintro rfl
      refine .step (y := b) (by simp) hab (.root ?_)
      rw [PyDict.get?_set, if_neg (Ne.symm hab), hb]
    · intro hne
      refine .root ?_
      rw [PyDict.get?_set, if_neg hne, hr]
  | @step x y n r h1 h2 h3 ih =>
    have hx : x ≠ a := by
      rintro rfl
      rw [ha] at h1; cases h1; exact h2 rfl
    have hg : (d.set a b).get? x = some y := by rw [PyDict.get?_set, if_neg hx, h1]
    exact ⟨fun h => .step hg h2 (ih.1 h), fun h => .step hg h2 (ih.2 h)⟩

theorem Inv.union_ok (h : Inv S pairs rt u) {x y : α} (hx : x ∈ S) (hy : y ∈ S) :
    ∃ u', u.union x y = (.ok (keepRep S rt x y), u') ∧
      Inv S ((x, y) :: pairs) (linkRep S rt x y) u' := by
  obtain ⟨u1, e1, i1⟩ := h.find_ok hx
  obtain ⟨u2, e2, i2⟩ := i1.find_ok hy
  have hpm : ∀ p ∈ (x, y) :: pairs, p.1 ∈ S ∧ p.2 ∈ S := by
    intro p hp
    rcases List.mem_cons.mp hp with rfl | hp
    · exact ⟨hx, hy⟩
    · exact h.pairs_mem p hp
  by_cases hxy : rt x = rt y
  · have hk : keepRep S rt x y = rt x := by
      rcases keepRep_cases S rt x y with hk | hk <;> rw [hk]
      exact hxy.symm
    have hl : linkRep S rt x y = rt := by
      funext z
      unfold linkRep
      rw [hk]
      split
      · rename_i hz; rcases hz with hz | hz
        · exact hz.symm
        · rw [hz, hxy]
      · rfl
    refine ⟨u2, by simp [union, e1, e2, hxy, hk], ?_⟩
    refine ⟨i2.keys, i2.nodup, ?_, ?_, i2.eqv_link hx hy, hpm⟩
    · rw [hl]; exact i2.path
    · rw [hl]; exact i2.size
  · have hsx : u2.size.getItem (rt x) = .ok (classCard S rt x) := by
      simp [PyDict.getItem, i2.size x hx]
    have hsy : u2.size.getItem (rt y) = .ok (classCard S rt y) := by
      simp [PyDict.getItem, i2.size y hy]
    -- the two orientations
    have main : ∀ (keep move : α), keepRep S rt x y = keep →
        ((keep = rt y ∧ move = rt x ∧ classCard S rt x ≤ classCard S rt y) ∨
          (keep = rt x ∧ move = rt y ∧ classCard S rt y ≤ classCard S rt x)) →
        Inv S ((x, y) :: pairs) (linkRep S rt x y)
          ⟨u2.parent.set move keep,
            u2.size.set keep (classCard S rt x + classCard S rt y)⟩ := by
      intro keep move hkeep hcase
      have hmk : move ≠ keep := by
        rcases hcase with ⟨rfl, rfl, _⟩ | ⟨rfl, rfl, _⟩
        · exact hxy
        · exact fun h => hxy h.symm
      have hmove : u2.parent.get? move = some move := by
        rcases hcase with ⟨_, rfl, _⟩ | ⟨_, rfl, _⟩
        · exact i2.rt_root hx
        · exact i2.rt_root hy
      have hkroot : u2.parent.get? keep = some keep := by
        rcases hcase with ⟨rfl, _, _⟩ | ⟨rfl, _, _⟩
        · exact i2.rt_root hy
        · exact i2.rt_root hx
      have hset : (u2.parent.set move keep).keys = u2.parent.keys := by
        rw [PyDict.keys_set, if_pos]
        rw [← PyDict.isSome_get?, hmove]; rfl
      have cc := classCard_link S rt x y hxy
      refine ⟨fun z => by rw [hset]; exact i2.keys z, by rw [hset]; exact i2.nodup, ?_, ?_,
        i2.eqv_link hx hy, hpm⟩
      · intro z hz
        obtain ⟨n, hp, hn⟩ := i2.path z hz
        have hlk := Path.link hmk hmove hkroot hp
        by_cases hin : rt z = rt x ∨ rt z = rt y
        · have hl : linkRep S rt x y z = keep := by unfold linkRep; rw [if_pos hin, hkeep]
          have hcard := (cc z).1 (by rw [hl, hkeep])
          rw [hl]
          rw [hcard]
          have hcz : classCard S rt z = classCard S rt x ∨ classCard S rt z = classCard S rt y := by
            rcases hin with h | h <;> simp [classCard, h]
          by_cases hm : rt z = move
          · refine ⟨n + 1, hlk.1 hm, ?_⟩
            have : classCard S rt z ≤ classCard S rt x ∧ classCard S rt z ≤ classCard S rt y := by
              rcases hcase with ⟨_, hmv, hle⟩ | ⟨_, hmv, hle⟩
              · have : classCard S rt z = classCard S rt x := by
                  unfold classCard; rw [hm, hmv]
                omega
              · have : classCard S rt z = classCard S rt y := by
                  unfold classCard; rw [hm, hmv]
                omega
            rw [pow_succ]; omega
          · have hk : rt z = keep := by
              rcases hcase with ⟨h1, h2, _⟩ | ⟨h1, h2, _⟩ <;> rw [h1] <;> rw [h2] at hm <;> tauto
            refine ⟨n, ?_, by omega⟩
            have := hlk.2 hm
            rw [hk] at this
            exact this
        · have hl : linkRep S rt x y z = rt z := by unfold linkRep; rw [if_neg hin]
          rw [hl, (cc z).2 hin]
          refine ⟨n, hlk.2 ?_, hn⟩
          rintro hm
          rcases hcase with ⟨_, h2, _⟩ | ⟨_, h2, _⟩ <;> rw [h2] at hm <;> tauto
      · intro z hz
        by_cases hin : rt z = rt x ∨ rt z = rt y
        · have hl : linkRep S rt x y z = keep := by unfold linkRep; rw [if_pos hin, hkeep]
          rw [hl, (cc z).1 (by rw [hl, hkeep])]
          simp
        · have hl : linkRep S rt x y z = rt z := by unfold linkRep; rw [if_neg hin]
          rw [hl, (cc z).2 hin, PyDict.get?_set, if_neg, i2.size z hz]
          rintro hm
          rcases hcase with ⟨h1, _, _⟩ | ⟨h1, _, _⟩ <;> rw [h1] at hm <;> tauto
    by_cases hlt : classCard S rt x < classCard S rt y
    · have hk : keepRep S rt x y = rt y := by unfold keepRep; rw [if_pos hlt]
      refine ⟨_, ?_, main (rt y) (rt x) hk (Or.inl ⟨rfl, rfl, hlt.le⟩)⟩
      simp [union, e1, e2, hxy, hsx, hsy, hlt, hk]
    · have hk : keepRep S rt x y = rt x := by unfold keepRep; rw [if_neg hlt]
      refine ⟨_, ?_, main (rt x) (rt y) hk (Or.inr ⟨rfl, rfl, not_lt.mp hlt⟩)⟩
      simp [union, e1, e2, hxy, hsx, hsy, hlt, hk]

theorem Inv.union_unknown (h : Inv S pairs rt u) {x y : α} (hxy : x ∉ S ∨ y ∉ S) :
    ∃ u', u.union x y = (.error .keyError, u') ∧ Inv S pairs rt u' := by
  by_cases hx : x ∈ S
  · have hy : y ∉ S := by tauto
    obtain ⟨u1, e1, i1⟩ := h.find_ok hx
    exact ⟨u1, by simp [union, e1, i1.find_unknown hy], i1⟩
  · exact ⟨u, by simp [union, h.find_unknown hx], h⟩

theorem init_inv (items : List α) :
    Inv items.toFinset [] id (init items) := by
  have hkeys : ∀ x, x ∈ (init items).parent.keys ↔ x ∈ items.toFinset := by
    intro x
    simp only [init, PyDict.mem_keys_ofList]
    simp
  have hget : ∀ x ∈ items, (init items).parent.get? x = some x := by
    intro x hx
    simp only [init, PyDict.ofList, PyDict.foldl_set_get?]
    cases hl : ((items.map fun x => (x, x)).filter (fun p => p.1 = x)).getLast? with
    | none =>
      rw [List.getLast?_eq_none_iff] at hl
      rw [List.filter_eq_nil_iff] at hl
      exact absurd (hl (x, x) (List.mem_map.mpr ⟨x, hx, rfl⟩)) (by simp)
    | some p =>
      have := List.mem_of_getLast? hl
      simp only [List.mem_filter, List.mem_map, decide_eq_true_eq] at this
      obtain ⟨⟨a, _, rfl⟩, h2⟩ := this
      simp at h2
      simp [h2]
  have hsz : ∀ x ∈ items, (init items).size.get? x = some 1 := by
    intro x hx
    simp only [init, PyDict.ofList, PyDict.foldl_set_get?]
    cases hl : ((items.map fun x => (x, 1)).filter (fun p => p.1 = x)).getLast? with
    | none =>
      rw [List.getLast?_eq_none_iff] at hl
      rw [List.filter_eq_nil_iff] at hl
      exact absurd (hl (x, 1) (List.mem_map.mpr ⟨x, hx, rfl⟩)) (by simp)
    | some p =>
      have := List.mem_of_getLast? hl
      simp only [List.mem_filter, List.mem_map, decide_eq_true_eq] at this
      obtain ⟨⟨a, _, rfl⟩, h2⟩ := this
      simp
  have hcc : ∀ x ∈ items, classCard items.toFinset id x = 1 := by
    intro x hx
    unfold classCard
    rw [Finset.card_eq_one]
    refine ⟨x, ?_⟩
    ext y
    simp only [id, Finset.mem_filter, List.mem_toFinset, Finset.mem_singleton]
    constructor
    · exact fun h => h.2
    · rintro rfl; exact ⟨hx, rfl⟩
  refine ⟨hkeys, PyDict.ofList_nodup _, ?_, ?_, ?_, by simp⟩
  · intro x hx
    have hx : x ∈ items := by simpa using hx
    exact ⟨0, .root (hget x hx), by rw [hcc x hx]; simp⟩
  · intro x hx
    have hx : x ∈ items := by simpa using hx
    rw [hcc x hx]; exact hsz x hx
  · intro x _ y _
    constructor
    · intro h; simp at h; subst h; exact .refl _
    · intro h
      suffices ∀ a b, Connected ([] : List (α × α)) a b → a = b from this x y h
      intro a b hab
      induction hab with
      | rel a b h => simp at h
      | refl a => rfl
      | symm a b _ ih => exact ih.symm
      | trans a b c _ _ h1 h2 => exact h1.trans h2

end UnionFind

end Verif
