import Verif.Proof.Graph
import Verif.Proof.UnionFind

/-!
# Proofs about `mapper_connected_components`
-/

set_option autoImplicit false

namespace Verif

open UnionFind

/-- The pairs united for one point: consecutive labels. -/
def chain (l : List ℤ) : List (ℤ × ℤ) := l.zip l.tail

theorem chain_mem {l : List ℤ} {p : ℤ × ℤ} (h : p ∈ chain l) : p.1 ∈ l ∧ p.2 ∈ l := by
  obtain ⟨a, b⟩ := p
  have := List.of_mem_zip h
  exact ⟨this.1, List.mem_of_mem_tail this.2⟩

/-- Neighbours of a list are connected through its chain. -/
theorem chain_connected {l : List ℤ} {u v : ℤ} (hu : u ∈ l) (hv : v ∈ l) :
    Connected (chain l) u v := by
  have key : ∀ (l : List ℤ) (a : ℤ), ∀ v ∈ a :: l, Connected (chain (a :: l)) a v := by
    intro l
    induction l with
    | nil => intro a v hv; simp at hv; subst hv; exact .refl _
    | cons b t ih =>
      intro a v hv
      rcases List.mem_cons.mp hv with rfl | hv
      · exact .refl _
      · refine .trans _ b _ (.rel _ _ (by simp [chain])) ?_
        refine Connected.congr ?_ (ih b v hv)
        intro p hp
        simp only [chain, List.tail_cons, List.zip_cons_cons] at hp ⊢
        exact List.mem_cons_of_mem _ hp
  cases l with
  | nil => simp at hu
  | cons a t => exact .trans _ a _ (.symm _ _ (key t a u hu)) (key t a v hv)

theorem unionPairs_ok {S : Finset ℤ} : ∀ (ps : List (ℤ × ℤ)) (pairs : List (ℤ × ℤ)) (rt : ℤ → ℤ)
    (u : UnionFind ℤ), Inv S pairs rt u → (∀ p ∈ ps, p.1 ∈ S ∧ p.2 ∈ S) →
    ∃ u' rt' q, unionPairs ps u = .ok u' ∧ Inv S q rt' u' ∧ ∀ a, a ∈ q ↔ a ∈ ps ∨ a ∈ pairs := by
  intro ps
  induction ps with
  | nil => intro pairs rt u h _; exact ⟨u, rt, pairs, rfl, h, by simp⟩
  | cons p ps ih =>
    obtain ⟨x, y⟩ := p
    intro pairs rt u h hm
    obtain ⟨hx, hy⟩ := hm (x, y) (by simp)
    obtain ⟨u1, e1, h1⟩ := h.union_ok hx hy
    obtain ⟨u2, rt2, q, e2, h2, hq⟩ := ih _ _ u1 h1 (fun p hp => hm p (by simp [hp]))
    refine ⟨u2, rt2, q, by simp only [unionPairs, e1, e2], h2, ?_⟩
    intro a; rw [hq]; simp only [List.mem_cons]; tauto

theorem unionAll_ok {S : Finset ℤ} : ∀ (itm : List (List ℤ)) (pairs : List (ℤ × ℤ)) (rt : ℤ → ℤ)
    (u : UnionFind ℤ), Inv S pairs rt u → (∀ l ∈ itm, ∀ t ∈ l, t ∈ S) →
    ∃ u' rt' q, unionAll itm u = .ok u' ∧ Inv S q rt' u' ∧
      ∀ a, a ∈ q ↔ a ∈ itm.flatMap chain ∨ a ∈ pairs := by
  intro itm
  induction itm with
  | nil => intro pairs rt u h _; exact ⟨u, rt, pairs, rfl, h, by simp⟩
  | cons l itm ih =>
    intro pairs rt u h hm
    obtain ⟨u1, rt1, q1, e1, h1, hq1⟩ : ∃ u1 rt1 q1,
        (if l.length > 1 then unionPairs (l.zip l.tail) u else .ok u) = Except.ok u1 ∧
        Inv S q1 rt1 u1 ∧ ∀ a, a ∈ q1 ↔ a ∈ chain l ∨ a ∈ pairs := by
      by_cases hl : l.length > 1
      · obtain ⟨u1, rt1, q1, e1, h1, hq1⟩ := unionPairs_ok (chain l) pairs rt u h (fun p hp => by
          have := chain_mem hp
          exact ⟨hm l (by simp) _ this.1, hm l (by simp) _ this.2⟩)
        exact ⟨u1, rt1, q1, by rw [if_pos hl]; exact e1, h1, hq1⟩
      · refine ⟨u, rt, pairs, by rw [if_neg hl], h, ?_⟩
        have : chain l = [] := by
          cases l with
          | nil => rfl
          | cons a t =>
            cases t with
            | nil => rfl
            | cons b t => simp at hl
        simp [this]
    obtain ⟨u2, rt2, q2, e2, h2, hq2⟩ := ih q1 rt1 u1 h1 (fun a ha => hm a (by simp [ha]))
    refine ⟨u2, rt2, q2, ?_, h2, ?_⟩
    · have : unionAll (l :: itm) u =
          ((if l.length > 1 then unionPairs (l.zip l.tail) u else .ok u) >>= unionAll itm
            : Py (UnionFind ℤ)) := by
        by_cases hl : l.length > 1 <;> simp [unionAll, hl]
      rw [this, e1, ok_bind, e2]
    · intro a
      rw [hq2, hq1, List.flatMap_cons, List.mem_append]; tauto

/-- The value of a point: the representative of its first label, or -1. -/
def compVal (rt : ℤ → ℤ) : List ℤ → ℤ
  | [] => -1
  | a :: _ => rt a

theorem findAll_ok {S : Finset ℤ} {pairs : List (ℤ × ℤ)} {rt : ℤ → ℤ} :
    ∀ (itm : List (List ℤ)) (u : UnionFind ℤ), Inv S pairs rt u → (∀ l ∈ itm, ∀ t ∈ l, t ∈ S) →
    findAll itm u = .ok (itm.map (compVal rt)) := by
  intro itm
  induction itm with
  | nil => intro u _ _; rfl
  | cons l itm ih =>
    intro u h hm
    cases l with
    | nil =>
      simp only [findAll, ih u h (fun a ha => hm a (by simp [ha])), ok_bind, pure_eq_ok,
        List.map_cons, compVal]
    | cons a t =>
      obtain ⟨u1, e1, h1⟩ := h.find_ok (x := a) (hm (a :: t) (by simp) a (by simp))
      simp only [findAll, e1, ih u1 h1 (fun a ha => hm a (by simp [ha])), ok_bind, pure_eq_ok,
        List.map_cons, compVal]

/-- Reachability in the graph is the connectivity generated by the chains. -/
theorem reachable_iff {itm : List (List ℤ)} {g : NxGraph} (h : GraphOK itm g) (u v : ℤ) :
    g.Reachable u v ↔ Connected (itm.flatMap chain) u v := by
  have hsym : ∀ a b, g.Adj a b → g.Adj b a := by
    intro a b hab
    rw [h.adj_iff] at hab ⊢
    obtain ⟨hne, n, h1, h2⟩ := hab
    exact ⟨hne.symm, n, h2, h1⟩
  have hrsym : ∀ a b, g.Reachable a b → g.Reachable b a := by
    intro a b hab
    induction hab with
    | refl => exact .refl
    | tail _ h2 ih => exact .head (hsym _ _ h2) ih
  constructor
  · intro hr
    induction hr with
    | refl => exact .refl _
    | @tail b c _ h2 ih =>
      refine .trans _ b _ ih ?_
      rw [h.adj_iff] at h2
      obtain ⟨_, n, ⟨l, hl, hb⟩, ⟨l', hl', hc⟩⟩ := h2
      rw [hl] at hl'; simp at hl'; subst hl'
      refine Connected.congr ?_ (chain_connected hb hc)
      intro p hp
      exact List.mem_flatMap.mpr ⟨l, mem_itm_iff.mpr ⟨n, hl⟩, hp⟩
  · intro hc
    induction hc with
    | rel a b hab =>
      obtain ⟨l, hl, hp⟩ := List.mem_flatMap.mp hab
      obtain ⟨n, hn⟩ := mem_itm_iff.mp hl
      have := chain_mem hp
      by_cases hne : a = b
      · subst hne; exact .refl
      · exact .single ((h.adj_iff a b).mpr ⟨hne, n, ⟨l, hn, this.1⟩, ⟨l, hn, this.2⟩⟩)
    | refl => exact .refl
    | symm a b _ ih => exact hrsym _ _ ih
    | trans a b c _ _ ih1 ih2 => exact .trans ih1 ih2

theorem components_ok (order : List ℤ → List ℤ) (ho : ∀ l L, L ∈ order l ↔ L ∈ l)
    (itm : List (List ℤ)) {g : NxGraph} (hg : GraphOK itm g) :
    ∃ (u : UnionFind ℤ) (rt : ℤ → ℤ), unionAll itm (UnionFind.init (order itm.flatten.dedup)) = .ok u ∧
      findAll itm u = .ok (itm.map (compVal rt)) ∧
      (∀ a, (∃ n, Carries itm n a) → (∃ n, Carries itm n (rt a)) ∧ g.Reachable a (rt a) ∧
        ∀ b, (∃ n, Carries itm n b) → (rt a = rt b ↔ g.Reachable a b)) := by
  have hS : ∀ L, L ∈ (order itm.flatten.dedup).toFinset ↔ ∃ n, Carries itm n L := by
    intro L
    rw [List.mem_toFinset, ho, List.mem_dedup, List.mem_flatten]
    constructor
    · rintro ⟨l, hl, hL⟩
      obtain ⟨n, hn⟩ := mem_itm_iff.mp hl
      exact ⟨n, l, hn, hL⟩
    · rintro ⟨n, l, hn, hL⟩
      exact ⟨l, mem_itm_iff.mpr ⟨n, hn⟩, hL⟩
  have hm : ∀ l ∈ itm, ∀ t ∈ l, t ∈ (order itm.flatten.dedup).toFinset := by
    intro l hl t ht
    obtain ⟨n, hn⟩ := mem_itm_iff.mp hl
    exact (hS t).mpr ⟨n, l, hn, ht⟩
  obtain ⟨u, rt, q, e, hi, hq⟩ := unionAll_ok itm [] id _ (init_inv (order itm.flatten.dedup)) hm
  refine ⟨u, rt, e, findAll_ok itm u hi hm, ?_⟩
  have hcon : ∀ x y, Connected q x y ↔ g.Reachable x y := by
    intro x y
    rw [reachable_iff hg]
    exact ⟨Connected.congr fun a ha => by simpa using (hq a).mp ha,
      Connected.congr fun a ha => (hq a).mpr (Or.inl ha)⟩
  intro a ha
  have haS := (hS a).mpr ha
  refine ⟨(hS _).mp (hi.rt_mem haS), ?_, ?_⟩
  · rw [← hcon]
    exact (hi.eqv a haS _ (hi.rt_mem haS)).mp (hi.rt_rt haS).symm
  · intro b hb
    rw [← hcon]
    exact hi.eqv a haS b ((hS b).mpr hb)

end Verif
