import Verif.Spec.Validate
import Mathlib.Algebra.BigOperators.Group.List.Basic
import Mathlib.Algebra.Order.Ring.Nat

set_option autoImplicit false

namespace Verif

theorem floatAll_ok (l : List FloatVal) : floatAll (l.map .ok) = .ok l := by
  induction l with
  | nil => rfl
  | cons a l ih => simp [floatAll, ih]

theorem floatAll_eq_ok {es : List (Py FloatVal)} {l : List FloatVal} (h : floatAll es = .ok l) :
    es = l.map .ok := by
  induction es generalizing l with
  | nil => simp [floatAll] at h; subst h; rfl
  | cons e es ih =>
    rw [floatAll] at h
    cases e with
    | error e => simp at h
    | ok v =>
      cases hf : floatAll es with
      | error e => simp [hf] at h
      | ok vs =>
        simp [hf] at h
        subst h
        simp [ih hf]

theorem HoldsFloats.unique {e : Entries} {l l' : List FloatVal} (h : HoldsFloats e l)
    (h' : HoldsFloats e l') : l = l' := by
  cases h with
  | real => cases h'; rfl
  | object l =>
    generalize he : Entries.object (l.map .ok) = e at h'
    cases h' with
    | real => cases he
    | object l' =>
      injection he with he
      exact (List.map_injective_iff.mpr (fun a b h => by injection h)) he

theorem convertObject_floats {e : Entries} {l : List FloatVal} (h : HoldsFloats e l) :
    convertObject e = .ok (.real l) := by
  cases h with
  | real => rfl
  | object l => simp [convertObject, floatAll_ok]

theorem convertObject_ok {e e' : Entries} (h : convertObject e = .ok e') :
    (∃ l, HoldsFloats e l ∧ e' = .real l) ∨ (∃ n, e = .complex n ∧ e' = .complex n) ∨
      ∃ n, e = .text n ∧ e' = .text n := by
  cases e with
  | real l => cases h; exact Or.inl ⟨l, .real l, rfl⟩
  | complex n => cases h; exact Or.inr (Or.inl ⟨n, rfl, rfl⟩)
  | text n => cases h; exact Or.inr (Or.inr ⟨n, rfl, rfl⟩)
  | object es =>
    rw [convertObject] at h
    cases hf : floatAll es with
    | error e => simp [hf] at h
    | ok l =>
      simp [hf] at h
      rw [floatAll_eq_ok hf]
      exact Or.inl ⟨l, .object l, h.symm⟩

theorem isNanOrInf_iff (v : FloatVal) : isNanOrInf v = true ↔ ¬ IsFinite v := by
  cases v <;> simp [isNanOrInf, IsFinite]

theorem any_iff (l : List FloatVal) :
    l.any isNanOrInf = true ↔ ∃ v ∈ l, ¬ IsFinite v := by
  simp [List.any_eq_true, isNanOrInf_iff]

theorem isComplex_iff (e : Entries) : isComplex e = true ↔ HoldsComplex e := by
  cases e <;> simp [isComplex, HoldsComplex]

theorem noEntries_iff (a : NdArray) : a.shape.prod = 0 ↔ NoEntries a := by
  rw [NoEntries]
  induction a.shape with
  | nil => simp
  | cons n s ih => simp [ih, eq_comm]

theorem not_complex_of_floats {e : Entries} {l : List FloatVal} (h : HoldsFloats e l) :
    ¬ HoldsComplex e := by
  rintro ⟨n, rfl⟩
  cases h

theorem holdsNonFinite_iff {e : Entries} {l : List FloatVal} (h : HoldsFloats e l) :
    HoldsNonFinite e ↔ ∃ v ∈ l, ¬ IsFinite v := by
  constructor
  · rintro ⟨l', v, h', hv, hf⟩
    rw [h.unique h']
    exact ⟨v, hv, hf⟩
  · rintro ⟨v, hv, hf⟩
    exact ⟨l, v, h, hv, hf⟩

/-- Everything `validateXy` does on arrays of numbers. -/
theorem validateXy_numbers {X y : Input} {aX ay : NdArray} (hX : X.asArray = .ok aX)
    (hy : y.asArray = .ok ay) (nX : HoldsNumbers aX.entries) (ny : HoldsNumbers ay.entries) :
    (Rejected X aX ay → validateXy X y = .error .valueError) ∧
    (¬ Rejected X aX ay → ∃ lx ly, HoldsFloats aX.entries lx ∧ HoldsFloats ay.entries ly ∧
      (∀ v ∈ lx, IsFinite v) ∧ (∀ v ∈ ly, IsFinite v) ∧
      validateXy X y = .ok (⟨aX.shape, lx⟩, ⟨ay.shape, ly⟩)) := by
  unfold validateXy Rejected
  by_cases h1 : X.hasToarray = true
  · simp [h1]
  · simp only [h1, hX, hy, ok_bind, false_or, Bool.false_eq_true, if_false, pure_eq_ok]
    by_cases h2 : NoEntries aX
    · simp [h2, (noEntries_iff _).mpr h2]
    · simp only [h2, mt (noEntries_iff _).mp h2, false_or, if_false]
      by_cases h3 : NoEntries ay
      · simp [h3, (noEntries_iff _).mpr h3]
      · simp only [h3, mt (noEntries_iff _).mp h3, false_or, if_false]
        by_cases h4 : aX.shape.length = 1
        · simp [h4]
        · simp only [h4, false_or, if_false]
          by_cases h5 : HoldsComplex aX.entries
          · simp [h5, (isComplex_iff _).mpr h5]
          · by_cases h6 : HoldsComplex ay.entries
            · simp [h6, (isComplex_iff _).mpr h6]
            · have c1 : isComplex aX.entries = false := by
                rw [Bool.eq_false_iff]; exact fun h => h5 ((isComplex_iff _).mp h)
              have c2 : isComplex ay.entries = false := by
                rw [Bool.eq_false_iff]; exact fun h => h6 ((isComplex_iff _).mp h)
              obtain ⟨lx, hlx⟩ := nX.resolve_left h5
              obtain ⟨ly, hly⟩ := ny.resolve_left h6
              simp only [h5, h6, c1, c2, Bool.or_self, Bool.false_eq_true, if_false, ok_bind,
                false_or, convertObject_floats hlx, convertObject_floats hly, anyNanOrInf,
                holdsNonFinite_iff hlx, holdsNonFinite_iff hly, realEntries]
              by_cases h7 : ∃ v ∈ lx, ¬ IsFinite v
              · simp only [(any_iff lx).mpr h7, if_true]
                exact ⟨fun _ => rfl, fun h => absurd (Or.inl h7) h⟩
              · have a1 : lx.any isNanOrInf = false := by
                  rw [Bool.eq_false_iff]; exact fun h => h7 ((any_iff _).mp h)
                simp only [a1, Bool.false_eq_true, if_false, ok_bind]
                by_cases h8 : ∃ v ∈ ly, ¬ IsFinite v
                · simp only [(any_iff ly).mpr h8, if_true]
                  exact ⟨fun _ => rfl, fun h => absurd (Or.inr h8) h⟩
                · have a2 : ly.any isNanOrInf = false := by
                    rw [Bool.eq_false_iff]; exact fun h => h8 ((any_iff _).mp h)
                  simp only [a2, Bool.false_eq_true, if_false, ok_bind]
                  push Not at h7 h8
                  refine ⟨?_, fun _ => ⟨lx, ly, hlx, hly, h7, h8, rfl⟩⟩
                  rintro (⟨v, hv, hf⟩ | ⟨v, hv, hf⟩)
                  · exact absurd (h7 v hv) hf
                  · exact absurd (h8 v hv) hf

/-- What is known of accepted data, whatever the input. -/
theorem validateXy_ok {X y : Input} {a b : RealArray} (h : validateXy X y = .ok (a, b)) :
    ∃ aX ay, X.asArray = .ok aX ∧ y.asArray = .ok ay ∧ HoldsFloats aX.entries a.vals ∧
      HoldsFloats ay.entries b.vals ∧ a.shape = aX.shape ∧ b.shape = ay.shape ∧
      ¬ Rejected X aX ay := by
  have h0 := h
  unfold validateXy at h
  by_cases h1 : X.hasToarray = true
  · simp [h1] at h
  cases hX : X.asArray with
  | error e => simp [h1, hX] at h
  | ok aX =>
  cases hy : y.asArray with
  | error e => simp [h1, hX, hy] at h
  | ok ay =>
  simp only [h1, hX, hy, ok_bind, Bool.false_eq_true, if_false, pure_eq_ok] at h
  by_cases h2 : aX.shape.prod = 0
  · simp [h2] at h
  by_cases h3 : ay.shape.prod = 0
  · simp [h2, h3] at h
  by_cases h4 : aX.shape.length = 1
  · simp [h2, h3, h4] at h
  by_cases h5 : (isComplex aX.entries || isComplex ay.entries) = true
  · simp only [h2, h3, h4, h5, if_true, if_false, ok_bind] at h
    simp at h
  simp only [h2, h3, h4, h5, if_false, ok_bind, Bool.false_eq_true] at h
  cases hcx : convertObject aX.entries with
  | error e => simp [hcx] at h
  | ok ex =>
  cases hcy : convertObject ay.entries with
  | error e => simp [hcx, hcy] at h
  | ok ey =>
  simp only [hcx, hcy, ok_bind] at h
  have c5 : ¬ HoldsComplex aX.entries ∧ ¬ HoldsComplex ay.entries := by
    simp only [Bool.or_eq_true, not_or, isComplex_iff] at h5
    exact h5
  have nX : HoldsNumbers aX.entries := by
    rcases convertObject_ok hcx with ⟨l, hl, _⟩ | ⟨n, hn, _⟩ | ⟨n, hn, e2⟩
    · exact Or.inr ⟨l, hl⟩
    · exact Or.inl ⟨n, hn⟩
    · subst e2; simp [anyNanOrInf] at h
  have ny : HoldsNumbers ay.entries := by
    rcases convertObject_ok hcy with ⟨l, hl, _⟩ | ⟨n, hn, _⟩ | ⟨n, hn, e2⟩
    · exact Or.inr ⟨l, hl⟩
    · exact Or.inl ⟨n, hn⟩
    · subst e2
      cases hb : anyNanOrInf ex with
      | error e => simp [hb] at h
      | ok bx =>
        rw [hb] at h
        cases bx <;> simp [anyNanOrInf] at h
  have key := validateXy_numbers hX hy nX ny
  by_cases hrej : Rejected X aX ay
  · rw [key.1 hrej] at h0
    cases h0
  · obtain ⟨lx, ly, hlx, hly, _, _, e⟩ := key.2 hrej
    rw [e] at h0
    cases h0
    exact ⟨aX, ay, rfl, rfl, hlx, hly, rfl, rfl, hrej⟩

theorem validateXy_finite {X y : Input} {a b : RealArray} (h : validateXy X y = .ok (a, b)) :
    AllFinite a ∧ AllFinite b := by
  obtain ⟨aX, ay, hX, hy, h1, h2, _, _, hrej⟩ := validateXy_ok h
  constructor
  · intro v hv
    by_contra hf
    exact hrej (Or.inr (Or.inr (Or.inr (Or.inr (Or.inr (Or.inr (Or.inl ⟨_, v, h1, hv, hf⟩)))))))
  · intro v hv
    by_contra hf
    exact hrej (Or.inr (Or.inr (Or.inr (Or.inr (Or.inr (Or.inr (Or.inr ⟨_, v, h2, hv, hf⟩)))))))

theorem rowsOf_finite {a : RealArray} (h : AllFinite a) {rows : List RealArray}
    (hr : rowsOf a = .ok rows) : ∀ x ∈ rows, AllFinite x := by
  unfold rowsOf at hr
  split at hr
  · cases hr
  · cases hr
    intro x hx
    obtain ⟨i, _, rfl⟩ := List.mem_map.mp hx
    intro v hv
    exact h v (List.mem_of_mem_drop (List.mem_of_mem_take hv))

end Verif
