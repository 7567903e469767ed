import Verif.Spec.Paths
import Verif.Proof.Levels
import Verif.Props.Nerve
import Mathlib.Data.Fintype.Lattice
import Mathlib.Algebra.Group.Fin.Basic

/-!
# Proofs: graphs made of paths
-/

set_option autoImplicit false
set_option linter.unusedSectionVars false

namespace Verif

variable {S T : Type}

theorem fin_two_steps {n : ℕ} (i : Fin (n + 3)) : i - 1 ≠ i + 1 := by
  intro h
  have h1 : i - 1 + 1 + 1 = i + 1 + 1 + 1 := by rw [h]
  rw [sub_add_cancel] at h1
  have h2 : (0 : Fin (n + 3)) = 1 + 1 := by
    have : i + 1 + 0 = i + 1 + (1 + 1) := by rw [add_zero, ← add_assoc]; exact h1
    exact add_left_cancel this
  have := congrArg Fin.val h2
  simp [Fin.val_add] at this
  rw [Nat.mod_eq_of_lt (by omega)] at this
  omega

theorem paths_no_cycle {g : NxGraph} {level : ℤ → ℤ} (h : IsPaths g level) : NoCycle g := by
  intro n c hc
  by_contra hn
  push Not at hn
  obtain ⟨i, hi⟩ := Finite.exists_max fun i => level (c i)
  have h1 := hn i
  have h2 := hn (i - 1)
  rw [sub_add_cancel] at h2
  have e1 : level (c (i + 1)) + 1 = level (c i) := by
    rcases h.next _ _ h1 with h3 | h3
    · have := hi (i + 1); omega
    · omega
  have e2 : level (c (i - 1)) + 1 = level (c i) := by
    rcases h.next _ _ h2 with h3 | h3
    · omega
    · have := hi (i - 1); omega
  exact fin_two_steps i (hc (h.one _ _ (h.ends _ _ h2).1 (h.ends _ _ h1).2 (by omega)))

theorem paths_climb {g : NxGraph} {level : ℤ → ℤ} (h : IsPaths g level) {u v : ℤ} (hr : g.Reachable u v) :
    ∀ l, level u ≤ l → l < level v →
      ∃ w w', g.Reachable u w ∧ g.Adj w w' ∧ level w = l ∧ level w' = l + 1 := by
  induction hr with
  | refl => intro l h1 h2; omega
  | @tail b c hub hbc ih =>
    intro l h1 h2
    by_cases hb : l < level b
    · exact ih l h1 hb
    · rcases h.next _ _ hbc with h3 | h3
      · exact ⟨b, c, hub, hbc, by omega, by omega⟩
      · omega

/-- The graph of a nerve lies over the charts, node `c` over chart `c`. -/
theorem nerve_over {X : List S} {y : List T} {cover : CoverFn T} {charts : List (List ℕ)} {g : NxGraph}
    (hc : cover y = .ok charts) (hw : WellFormedCharts X.length charts)
    (eg : mapperGraph X y cover (fun _ => trivialClustering) = .ok g) (hn : IsNerve g charts) :
    OverCharts g charts Int.toNat ∧
      ∀ u ids, g.IsNode u → charts[u.toNat]? = some ids → ∀ i, g.HasRow u i ↔ i ∈ ids := by
  have hrow : ∀ u ids, g.IsNode u → charts[u.toNat]? = some ids → ∀ i, g.HasRow u i ↔ i ∈ ids := by
    intro u ids hu h i
    obtain ⟨c, hlt, rfl⟩ := (hn.node u).mp hu
    obtain ⟨l, h1, _, h2⟩ := hn.attr c ids (by simpa using h)
    constructor
    · rintro ⟨size, ids', h3, h4⟩
      rw [h1] at h3
      cases h3
      exact h2.mem_iff.mp h4
    · intro h3
      exact ⟨_, _, h1, h2.mem_iff.mpr h3⟩
  obtain ⟨g1, chart, eg1, ho⟩ := overCharts X y cover _ charts hc (fun ids h => (hw ids h).2)
    (trivial_succeeds X charts)
  rw [eg] at eg1; cases eg1
  refine ⟨⟨fun u hu => ?_, fun u v i huv hu hv he => ?_, fun u v h => ?_⟩, hrow⟩
  · obtain ⟨c, hlt, rfl⟩ := (hn.node u).mp hu
    have h1 : charts[(c : ℤ).toNat]? = some charts[c] := by simp [hlt]
    exact ⟨_, h1, fun i hi => (hrow _ _ hu h1 i).mp hi⟩
  · have node : ∀ u, g.HasRow u i → g.IsNode u := by
      rintro u ⟨_, _, h, _⟩
      exact (PyDict.isSome_get? g.nodes u).mp (by rw [h]; rfl)
    obtain ⟨c, _, rfl⟩ := (hn.node u).mp (node u hu)
    obtain ⟨c', _, rfl⟩ := (hn.node v).mp (node v hv)
    exact huv (by simpa using he)
  · obtain ⟨hu, hv, _, i, h1, h2⟩ := ho.edge u v h
    refine ⟨hu, hv, ?_, i, h1, h2⟩
    obtain ⟨c, hlt, rfl⟩ := (hn.node u).mp hu
    obtain ⟨c', hlt', rfl⟩ := (hn.node v).mp hv
    have := ((hn.adj c c' _ _ (List.getElem?_eq_getElem hlt) (List.getElem?_eq_getElem hlt')).mp h).1
    simpa using this

end Verif
