import Verif.Spec.Permute
import Mathlib.Data.List.Perm.Basic
import Mathlib.Data.List.FinRange
import Mathlib.Data.Fintype.EquivFin
import Mathlib.Tactic.Linarith

namespace Verif

variable {α : Type}

theorem Rearranged.refl (l : List α) : Rearranged 1 l l := ⟨rfl, fun _ => rfl⟩

theorem Rearranged.trans {π σ : Equiv.Perm ℕ} {l l' l'' : List α}
    (h : Rearranged π l l') (h' : Rearranged σ l' l'') : Rearranged (π * σ) l l'' :=
  ⟨h'.1.trans h.1, fun m => by rw [h'.2, h.2]; rfl⟩

theorem RearrangedOpt.refl (l : Option (List α)) : RearrangedOpt 1 l l := by
  cases l
  · trivial
  · exact Rearranged.refl _

theorem RearrangedOpt.trans {π σ : Equiv.Perm ℕ} {l l' l'' : Option (List α)}
    (h : RearrangedOpt π l l') (h' : RearrangedOpt σ l' l'') :
    RearrangedOpt (π * σ) l l'' := by
  cases l <;> cases l' <;> cases l'' <;> simp_all [RearrangedOpt]
  exact h.trans h'

theorem MovesOnly.one (s e : ℕ) : MovesOnly 1 s e := fun _ _ => rfl

theorem MovesOnly.mul {π σ : Equiv.Perm ℕ} {s e : ℕ} (h : MovesOnly π s e)
    (h' : MovesOnly σ s e) : MovesOnly (π * σ) s e := fun m hm => by
  simp [h' m hm, h m hm]

theorem MovesOnly.mono {π : Equiv.Perm ℕ} {s e s' e' : ℕ} (h : MovesOnly π s e)
    (hs : s' ≤ s) (he : e ≤ e') : MovesOnly π s' e' := fun m hm => h m (by omega)

theorem MovesOnly.swap {i j s e : ℕ} (hi : s ≤ i ∧ i < e) (hj : s ≤ j ∧ j < e) :
    MovesOnly (Equiv.swap i j) s e := fun m hm =>
  Equiv.swap_apply_of_ne_of_ne (by omega) (by omega)

theorem MovesOnly.mem {π : Equiv.Perm ℕ} {s e m : ℕ} (h : MovesOnly π s e)
    (hm : s ≤ m ∧ m < e) : s ≤ π m ∧ π m < e := by
  by_contra hc
  have : π (π m) = π m := h _ (by omega)
  have := π.injective this
  omega

theorem Rearranged.perm {π : Equiv.Perm ℕ} {l l' : List α} (h : Rearranged π l l')
    (hπ : MovesOnly π 0 l.length) : l'.Perm l := by
  let σ : Fin l.length → Fin l.length := fun m =>
    ⟨π m.1, (hπ.mem ⟨Nat.zero_le _, m.2⟩).2⟩
  have hσ : Function.Injective σ := fun a b hab => by
    have := congrArg Fin.val hab
    exact Fin.ext (π.injective this)
  let τ : Equiv.Perm (Fin l.length) :=
    Equiv.ofBijective σ (Finite.injective_iff_bijective.mp hσ)
  have key : l' = List.ofFn ((fun m : Fin l.length => l[m.1]) ∘ τ) := by
    apply List.ext_getElem?
    intro m
    rw [h.2]
    by_cases hm : m < l.length
    · have := (hπ.mem (m := m) ⟨Nat.zero_le _, hm⟩).2
      simp [hm, this, τ, σ]
    · have : π m = m := hπ m (by omega)
      rw [this]
      simp [hm]
  rw [key]
  refine (Equiv.Perm.ofFn_comp_perm τ _).trans ?_
  rw [List.ofFn_getElem]

end Verif
