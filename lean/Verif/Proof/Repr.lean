import Verif.Proof.Objects
import Verif.Spec.Repr

/-!
# Lemmas on `__repr__`
-/

set_option autoImplicit false

namespace Verif

theorem reprArgs_eq {R : Reprs} {rep : Val → Py String} {cls : String} {c : ClassInfo} :
    ∀ (items : List (String × Val)) (out : List String), reprArgs R rep cls c items = .ok out →
    (items.map Prod.fst).Nodup →
    ∃ args : List (String × String), out = args.map (fun a => a.1 ++ "=" ++ a.2) ∧
      (args.map Prod.fst).Sublist (items.map Prod.fst) ∧
      ∀ k t, (k, t) ∈ args ↔ ∃ v d, (k, v) ∈ items ∧ IsPublic k ∧ rep v = .ok t ∧
        reprDefault R rep cls c k = .ok d ∧ t ≠ d
  | [], out, h, _ => by
    cases h
    exact ⟨[], rfl, List.Sublist.slnil, by simp⟩
  | (k0, v0) :: rest, out, h, hn => by
    rw [List.map_cons, List.nodup_cons] at hn
    unfold reprArgs at h
    by_cases hp : isParamPublic k0 = true
    · simp only [hp, Bool.not_true, Bool.false_eq_true, if_false] at h
      obtain ⟨d, hd, h⟩ := bind_eq_ok.mp h
      obtain ⟨s, hs, h⟩ := bind_eq_ok.mp h
      obtain ⟨out', ho, h⟩ := bind_eq_ok.mp h
      obtain ⟨args, e1, e2, e3⟩ := reprArgs_eq rest out' ho hn.2
      rw [pure_eq_ok, Except.ok.injEq] at h
      have hnot : ∀ t, (k0, t) ∉ args := by
        intro t ht
        obtain ⟨v, _, hv, _⟩ := (e3 k0 t).mp ht
        exact hn.1 (List.mem_map.mpr ⟨_, hv, rfl⟩)
      by_cases hsd : s = d
      · rw [if_pos hsd] at h
        refine ⟨args, by rw [← h, e1], e2.trans (List.sublist_cons_self ..), ?_⟩
        intro k t
        rw [e3]
        constructor
        · rintro ⟨v, d', hv, hrest⟩
          exact ⟨v, d', List.mem_cons_of_mem _ hv, hrest⟩
        · rintro ⟨v, d', hv, hk, ht, hd', hne⟩
          rcases List.mem_cons.mp hv with hv | hv
          · cases hv
            rw [hs] at ht
            rw [hd] at hd'
            cases ht; cases hd'
            exact absurd hsd hne
          · exact ⟨v, d', hv, hk, ht, hd', hne⟩
      · rw [if_neg hsd] at h
        refine ⟨(k0, s) :: args, by rw [← h, e1]; rfl, ?_, ?_⟩
        · exact List.Sublist.cons_cons _ e2
        · intro k t
          constructor
          · intro hm
            rcases List.mem_cons.mp hm with hm | hm
            · cases hm
              exact ⟨v0, d, List.mem_cons_self .., (isParamPublic_iff _).mp hp, hs, hd, hsd⟩
            · obtain ⟨v, d', hv, hrest⟩ := (e3 k t).mp hm
              exact ⟨v, d', List.mem_cons_of_mem _ hv, hrest⟩
          · rintro ⟨v, d', hv, hk, ht, hd', hne⟩
            rcases List.mem_cons.mp hv with hv | hv
            · cases hv
              rw [hs] at ht
              cases ht
              exact List.mem_cons_self ..
            · exact List.mem_cons_of_mem _ ((e3 k t).mpr ⟨v, d', hv, hk, ht, hd', hne⟩)
    · have hp' : isParamPublic k0 = false := by simpa using hp
      simp only [hp', Bool.not_false, if_true] at h
      obtain ⟨args, e1, e2, e3⟩ := reprArgs_eq rest out h hn.2
      refine ⟨args, e1, e2.trans (List.sublist_cons_self ..), ?_⟩
      intro k t
      rw [e3]
      constructor
      · rintro ⟨v, d', hv, hrest⟩
        exact ⟨v, d', List.mem_cons_of_mem _ hv, hrest⟩
      · rintro ⟨v, d', hv, hk, hrest⟩
        rcases List.mem_cons.mp hv with hv | hv
        · cases hv
          exact absurd ((isParamPublic_iff _).mpr hk) hp
        · exact ⟨v, d', hv, hk, hrest⟩

theorem reprArgs_ok {R : Reprs} {rep : Val → Py String} {cls : String} {c : ClassInfo} :
    ∀ (items : List (String × Val)),
    (∀ k v, (k, v) ∈ items → IsPublic k → (∃ t, rep v = .ok t) ∧ ∃ d, reprDefault R rep cls c k = .ok d) →
    ∃ out, reprArgs R rep cls c items = .ok out
  | [], _ => ⟨[], rfl⟩
  | (k, v) :: rest, h => by
    obtain ⟨out, ho⟩ := reprArgs_ok rest fun k v hm => h k v (List.mem_cons_of_mem _ hm)
    unfold reprArgs
    by_cases hp : isParamPublic k = true
    · obtain ⟨⟨t, ht⟩, d, hd⟩ := h k v (List.mem_cons_self ..) ((isParamPublic_iff _).mp hp)
      simp only [hp, Bool.not_true, Bool.false_eq_true, if_false, hd, ht, ho, ok_bind, pure_eq_ok]
      exact ⟨_, rfl⟩
    · have hp' : isParamPublic k = false := by simpa using hp
      simp only [hp', Bool.not_false, if_true]
      exact ⟨out, ho⟩

theorem reprVal_plain {C : Classes} {R : Reprs} {h : Heap} {fuel : ℕ} {v : Val} (hv : IsPlain v) :
    reprVal C R h (fuel + 1) v = .ok (R.atom v) := by
  cases v with
  | obj r => exact absurd rfl (hv r)
  | _ => rfl

theorem reprVal_obj {C : Classes} {R : Reprs} {h : Heap} {fuel r : ℕ} {o : Obj} {c : ClassInfo}
    (eo : h[r]? = some o) (ec : C o.cls = some c) {args : List String}
    (ha : reprArgs R (reprVal C R h fuel) o.cls c o.attrs.items = .ok args) :
    reprVal C R h (fuel + 1) (.obj r) =
      .ok (o.cls ++ "(" ++ String.intercalate ", " args ++ ")") := by
  rw [reprVal, deref_ok eo, ok_bind, ec]
  simp only [ha, ok_bind, pure_eq_ok]

theorem reprArgs_congr {R : Reprs} {rep rep' : Val → Py String} {cls : String} {c : ClassInfo} :
    ∀ (items items' : List (String × Val)),
    (items.filter fun p => isParamPublic p.1) = (items'.filter fun p => isParamPublic p.1) →
    (∀ k v, (k, v) ∈ items → IsPublic k → rep v = rep' v) →
    (∀ k v, c.init.get? k = some v → rep v = rep' v) →
    reprArgs R rep cls c items = reprArgs R rep' cls c items' := by
  have key : ∀ (rep : Val → Py String) (items : List (String × Val)), reprArgs R rep cls c items =
      reprArgs R rep cls c (items.filter fun p => isParamPublic p.1) := by
    intro rep items
    induction items with
    | nil => rfl
    | cons p items ih =>
      obtain ⟨k, v⟩ := p
      by_cases hp : isParamPublic k = true
      · rw [List.filter_cons_of_pos (p := fun p : String × Val => isParamPublic p.1) (a := (k, v)) hp,
          reprArgs, reprArgs, ih]
      · rw [List.filter_cons_of_neg (p := fun p : String × Val => isParamPublic p.1) (a := (k, v)) hp,
          reprArgs, ih]
        simp [hp]
  intro items items' he h1 h2
  rw [key rep, key rep', ← he]
  have h1' : ∀ k v, (k, v) ∈ items.filter (fun p => isParamPublic p.1) → rep v = rep' v := by
    intro k v hm
    obtain ⟨h3, h4⟩ := List.mem_filter.mp hm
    exact h1 k v h3 ((isParamPublic_iff _).mp h4)
  revert h1'
  generalize items.filter (fun p => isParamPublic p.1) = l
  intro h1'
  induction l with
  | nil => rfl
  | cons p l ih =>
    obtain ⟨k, v⟩ := p
    have hd : reprDefault R rep cls c k = reprDefault R rep' cls c k := by
      unfold reprDefault
      split
      · rename_i v' hv'
        exact h2 k v' hv'
      · rfl
    rw [reprArgs, reprArgs, ih (fun k v hm => h1' k v (List.mem_cons_of_mem _ hm)), hd,
      h1' k v (List.mem_cons_self ..)]

theorem reprVal_append {C : Classes} {R : Reprs} {h : Heap} {rank : ℕ → ℕ} (hr : Ranked h rank)
    (hw : WellNamed h) (hc : Constructible C h) (o' : Obj) : ∀ (fuel r : ℕ), r < h.length →
    reprVal C R (h ++ [o']) fuel (.obj r) = reprVal C R h fuel (.obj r)
  | 0, _, _ => rfl
  | fuel + 1, r, hlt => by
    have eo : h[r]? = some h[r] := List.getElem?_eq_getElem hlt
    have eo' : (h ++ [o'])[r]? = some h[r] := by rw [List.getElem?_append_left hlt, eo]
    obtain ⟨c, hC, hd⟩ := hc r _ eo
    have hpl : ∀ v, IsPlain v → reprVal C R (h ++ [o']) fuel v = reprVal C R h fuel v := by
      intro v hv
      cases fuel with
      | zero => rfl
      | succ n => rw [reprVal_plain hv, reprVal_plain hv]
    rw [reprVal, reprVal, deref_ok eo, deref_ok eo', ok_bind, ok_bind, hC.1]
    dsimp only
    rw [reprArgs_congr (rep := reprVal C R (h ++ [o']) fuel) (rep' := reprVal C R h fuel) _ _ rfl]
    · intro k v hm hk
      by_cases hv : ∃ r', v = .obj r'
      · obtain ⟨r', rfl⟩ := hv
        have hget := PyDict.get?_eq_some_of_mem (hw r _ eo).1 hm
        exact reprVal_append hr hw hc o' fuel r' (hr r k r' ⟨_, eo, hget, hk⟩).1
      · exact hpl v (fun r' e => hv ⟨r', e⟩)
    · intro k v hv
      exact hpl v (hd k v hv)

theorem filter_items_eq {d d' : PyDict String Val} (hn : d.keys.Nodup) (hn' : d'.keys.Nodup)
    (hk : d.keys.filter isParamPublic = d'.keys.filter isParamPublic)
    (hg : ∀ k, IsPublic k → d.get? k = d'.get? k) :
    (d.items.filter fun p => isParamPublic p.1) = (d'.items.filter fun p => isParamPublic p.1) := by
  have key : ∀ (d : PyDict String Val), d.keys.Nodup → (d.items.filter fun p => isParamPublic p.1) =
      (d.keys.filter isParamPublic).filterMap fun k => (d.get? k).map fun v => (k, v) := by
    intro d hn
    have e : d.keys.filter isParamPublic =
        (d.items.filter fun p => isParamPublic p.1).map Prod.fst := by
      rw [PyDict.keys, List.filter_map]; rfl
    rw [e, List.filterMap_map]
    have : ∀ l : List (String × Val), (∀ p ∈ l, d.get? p.1 = some p.2) →
        l = l.filterMap ((fun k => (d.get? k).map fun v => (k, v)) ∘ Prod.fst) := by
      intro l hl
      induction l with
      | nil => rfl
      | cons p l ih =>
        rw [List.filterMap_cons, Function.comp, hl p (List.mem_cons_self ..), Option.map_some,
          ← ih fun q hq => hl q (List.mem_cons_of_mem _ hq)]
    exact this _ fun p hp => PyDict.get?_eq_some_of_mem hn (List.mem_filter.mp hp).1
  rw [key d hn, key d' hn', hk]
  refine List.filterMap_congr ?_
  intro k hk'
  rw [hg k ((isParamPublic_iff _).mp (List.mem_filter.mp hk').2)]

end Verif
