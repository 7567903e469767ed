import Verif.Proof.PlotMenu
import Verif.Proof.PlotUpdate

/-!
# Lemmas: what `plot_plotly_update` leaves alone, positions, and triples
-/

set_option autoImplicit false
set_option linter.unusedSectionVars false

namespace Verif

variable {K V : Type}

theorem triples_get {α β : Type} (a b c : α → β) : ∀ (l : List α) (k : ℕ) (e : α), l[k]? = some e →
    (l.flatMap fun e => [a e, b e, c e])[3 * k]? = some (a e) ∧
    (l.flatMap fun e => [a e, b e, c e])[3 * k + 1]? = some (b e) ∧
    (l.flatMap fun e => [a e, b e, c e])[3 * k + 2]? = some (c e)
  | [], k, e, h => by simp at h
  | x :: l, 0, e, h => by
    simp only [List.getElem?_cons_zero, Option.some.injEq] at h
    subst h
    exact ⟨rfl, rfl, rfl⟩
  | x :: l, k + 1, e, h => by
    have := triples_get a b c l k e (by simpa using h)
    have e1 : 3 * (k + 1) = 3 * k + 1 + 1 + 1 := by omega
    simp only [List.flatMap_cons, e1]
    exact this

theorem triples_length {α β : Type} (a b c : α → β) (l : List α) :
    (l.flatMap fun e => [a e, b e, c e]).length = 3 * l.length := by
  induction l with
  | nil => rfl
  | cons x l ih => simp only [List.flatMap_cons, List.length_append, ih]; simp; omega

section
variable [Field K] [LinearOrder K]

/-- What stays when arguments are not given. -/
structure Kept (w h : Option ℤ) (sizes : Bool) (colors title menu : Bool) (cmap : Bool) (f g : Fig K) :
    Prop where
  nodes : g.nodes.x = f.nodes.x ∧ g.nodes.y = f.nodes.y ∧ g.nodes.z = f.nodes.z ∧
    g.nodes.size = f.nodes.size
  edges : g.edges.x = f.edges.x ∧ g.edges.y = f.edges.y ∧ g.edges.z = f.edges.z
  width : w = none → g.width = f.width
  height : h = none → g.height = f.height
  size : sizes = false → g.nodes.sizeref = f.nodes.sizeref ∧ g.ui.sizes = f.ui.sizes
  paint : colors = false → g.nodes.text = f.nodes.text ∧ g.nodes.color = f.nodes.color ∧
    g.nodes.cmin = f.nodes.cmin ∧ g.nodes.cmax = f.nodes.cmax ∧ g.edges.color = f.edges.color ∧
    g.edges.cmin = f.edges.cmin ∧ g.edges.cmax = f.edges.cmax
  title : title = false → g.nodes.title = f.nodes.title
  menu : menu = false → g.ui.colors = f.ui.colors
  scale : cmap = false → g.nodes.scale = f.nodes.scale ∧ g.edges.scale = f.edges.scale ∧
    g.ui.cmaps = f.ui.cmaps

variable {w h : Option ℤ} {sizes colors title menu cmap : Bool}

theorem Kept.refl (f : Fig K) : Kept w h sizes colors title menu cmap f f where
  nodes := ⟨rfl, rfl, rfl, rfl⟩
  edges := ⟨rfl, rfl, rfl⟩
  width _ := rfl
  height _ := rfl
  size _ := ⟨rfl, rfl⟩
  paint _ := ⟨rfl, rfl, rfl, rfl, rfl, rfl, rfl⟩
  title _ := rfl
  menu _ := rfl
  scale _ := ⟨rfl, rfl, rfl⟩

theorem Kept.trans {f g k : Fig K} (a : Kept w h sizes colors title menu cmap f g)
    (b : Kept w h sizes colors title menu cmap g k) : Kept w h sizes colors title menu cmap f k where
  nodes := ⟨b.nodes.1.trans a.nodes.1, b.nodes.2.1.trans a.nodes.2.1,
    b.nodes.2.2.1.trans a.nodes.2.2.1, b.nodes.2.2.2.trans a.nodes.2.2.2⟩
  edges := ⟨b.edges.1.trans a.edges.1, b.edges.2.1.trans a.edges.2.1,
    b.edges.2.2.trans a.edges.2.2⟩
  width e := (b.width e).trans (a.width e)
  height e := (b.height e).trans (a.height e)
  size e := ⟨(b.size e).1.trans (a.size e).1, (b.size e).2.trans (a.size e).2⟩
  paint e := by
    obtain ⟨a1, a2, a3, a4, a5, a6, a7⟩ := a.paint e
    obtain ⟨b1, b2, b3, b4, b5, b6, b7⟩ := b.paint e
    exact ⟨b1.trans a1, b2.trans a2, b3.trans a3, b4.trans a4, b5.trans a5, b6.trans a6, b7.trans a7⟩
  title e := (b.title e).trans (a.title e)
  menu e := (b.menu e).trans (a.menu e)
  scale e := ⟨(b.scale e).1.trans (a.scale e).1, (b.scale e).2.1.trans (a.scale e).2.1,
    (b.scale e).2.2.trans (a.scale e).2.2⟩

theorem andThen_kept {f : Fig K} {r : Py Unit × Fig K} {s : Setter K}
    (hr : Kept w h sizes colors title menu cmap f r.2)
    (hs : ∀ f g, s f = .ok g → Kept w h sizes colors title menu cmap f g) :
    Kept w h sizes colors title menu cmap f (andThen r s).2 := by
  obtain ⟨e, f'⟩ := r
  cases e with
  | error e => exact hr
  | ok u =>
    change Kept w h sizes colors title menu cmap f (match s f' with
      | .ok f'' => ((.ok () : Py Unit), f'')
      | .error e => (.error e, f')).2
    cases h2 : s f' with
    | error e => exact hr
    | ok g => exact hr.trans (hs _ _ h2)

theorem update_kept (P : Palette K) (p : MapperPlot K) (f : Fig K) (width height : Option ℤ)
    (nodeSize : Option (OneOrMany K)) (colors : Option (ColorsArg V))
    (title : Option (OneOrMany String)) (agg : Option (List V → Py K))
    (cmap : Option (OneOrMany String)) :
    Kept width height nodeSize.isSome (colors.isSome && agg.isSome) title.isSome
      (colors.isSome && agg.isSome && title.isSome) cmap.isSome f
      (plotPlotlyUpdate P p f width height nodeSize colors title agg cmap).2 := by
  rw [plotPlotlyUpdate]
  split
  · exact Kept.refl f
  · rename_i cmaps cols titles sizes hargs
    have conv : ∀ {α β : Type} {F : α → Py β} {a : Option α} {b : Option β}, convert F a = .ok b →
        b.isSome = a.isSome := by
      intro α β F a b hb
      cases a with
      | none => cases hb; rfl
      | some a =>
        obtain ⟨x, _, e⟩ := bind_eq_ok.mp hb
        cases e; rfl
    obtain ⟨x1, k1, hargs⟩ := bind_eq_ok.mp hargs
    obtain ⟨x2, k2, hargs⟩ := bind_eq_ok.mp hargs
    obtain ⟨x3, k3, hargs⟩ := bind_eq_ok.mp hargs
    obtain ⟨x4, k4, hargs⟩ := bind_eq_ok.mp hargs
    cases hargs
    rw [← conv k1, ← conv k2, ← conv k3, ← conv k4]
    have ite_get : ∀ {α : Type} {a : Option α} {s : α → Setter K} {F G : Fig K},
        ifGiven a s F = .ok G → (a = none ∧ G = F) ∨ ∃ x, a = some x ∧ s x F = .ok G := by
      intro α a s F G hG
      cases a with
      | none => cases hG; exact .inl ⟨rfl, rfl⟩
      | some x => exact .inr ⟨x, rfl, hG⟩
    have both_get : ∀ {α β : Type} {a : Option α} {b : Option β} {s : α → β → Setter K} {F G : Fig K},
        ifBoth a b s F = .ok G → G = F ∨ ∃ x y, a = some x ∧ b = some y ∧ s x y F = .ok G := by
      intro α β a b s F G hG
      cases a with
      | none => cases hG; exact .inl rfl
      | some x =>
        cases b with
        | none => cases hG; exact .inl rfl
        | some y => exact .inr ⟨x, y, rfl, rfl, hG⟩
    unfold updateFigure
    dsimp only
    refine andThen_kept (andThen_kept (andThen_kept (andThen_kept (andThen_kept (andThen_kept
      (andThen_kept (andThen_kept (Kept.refl f) ?_) ?_) ?_) ?_) ?_) ?_) ?_) ?_
    · intro F G hG
      unfold setUi at hG
      obtain ⟨mc, m1, hG⟩ := bind_eq_ok.mp hG
      obtain ⟨mo, m2, hG⟩ := bind_eq_ok.mp hG
      cases hG
      refine ⟨⟨rfl, rfl, rfl, rfl⟩, ⟨rfl, rfl, rfl⟩, fun _ => rfl, fun _ => rfl, fun e => ?_,
        fun _ => ⟨rfl, rfl, rfl, rfl, rfl, rfl, rfl⟩, fun _ => rfl, fun e => ?_, fun e => ?_⟩
      · cases sizes with
        | none => exact ⟨rfl, rfl⟩
        | some s => cases e
      · cases cols with
        | none => cases m2; rfl
        | some c =>
          cases agg with
          | none => cases m2; rfl
          | some a =>
            cases titles with
            | none => cases m2; rfl
            | some t => cases e
      · cases cmaps with
        | none => cases m1; exact ⟨rfl, rfl, rfl⟩
        | some c => cases e
    · intro F G hG
      rcases ite_get hG with ⟨_, rfl⟩ | ⟨x, rfl, hG⟩
      · exact Kept.refl _
      · cases hG
        exact ⟨⟨rfl, rfl, rfl, rfl⟩, ⟨rfl, rfl, rfl⟩, (fun e => by cases e), fun _ => rfl,
          fun _ => ⟨rfl, rfl⟩, fun _ => ⟨rfl, rfl, rfl, rfl, rfl, rfl, rfl⟩, fun _ => rfl,
          fun _ => rfl, fun _ => ⟨rfl, rfl, rfl⟩⟩
    · intro F G hG
      rcases ite_get hG with ⟨_, rfl⟩ | ⟨x, rfl, hG⟩
      · exact Kept.refl _
      · cases hG
        exact ⟨⟨rfl, rfl, rfl, rfl⟩, ⟨rfl, rfl, rfl⟩, fun _ => rfl, (fun e => by cases e),
          fun _ => ⟨rfl, rfl⟩, fun _ => ⟨rfl, rfl, rfl, rfl, rfl, rfl, rfl⟩, fun _ => rfl,
          fun _ => rfl, fun _ => ⟨rfl, rfl, rfl⟩⟩
    · intro F G hG
      rcases ite_get hG with ⟨_, rfl⟩ | ⟨x, rfl, hG⟩
      · exact Kept.refl _
      · obtain ⟨t, _, rfl⟩ := setTitle_eq.mp hG
        exact ⟨⟨rfl, rfl, rfl, rfl⟩, ⟨rfl, rfl, rfl⟩, fun _ => rfl, fun _ => rfl,
          fun _ => ⟨rfl, rfl⟩, fun _ => ⟨rfl, rfl, rfl, rfl, rfl, rfl, rfl⟩, (fun e => by cases e),
          fun _ => rfl, fun _ => ⟨rfl, rfl, rfl⟩⟩
    · intro F G hG
      rcases ite_get hG with ⟨_, rfl⟩ | ⟨x, rfl, hG⟩
      · exact Kept.refl _
      · obtain ⟨t, _, rfl⟩ := setNodeSize_eq.mp hG
        exact ⟨⟨rfl, rfl, rfl, rfl⟩, ⟨rfl, rfl, rfl⟩, fun _ => rfl, fun _ => rfl,
          (fun e => by cases e), fun _ => ⟨rfl, rfl, rfl, rfl, rfl, rfl, rfl⟩, fun _ => rfl,
          fun _ => rfl, fun _ => ⟨rfl, rfl, rfl⟩⟩
    · intro F G hG
      rcases both_get hG with rfl | ⟨x, y, rfl, rfl, hG⟩
      · exact Kept.refl _
      · unfold setNodeColors at hG
        obtain ⟨_, _, hG⟩ := bind_eq_ok.mp hG
        obtain ⟨_, _, hG⟩ := bind_eq_ok.mp hG
        obtain ⟨_, _, hG⟩ := bind_eq_ok.mp hG
        cases hG
        exact ⟨⟨rfl, rfl, rfl, rfl⟩, ⟨rfl, rfl, rfl⟩, fun _ => rfl, fun _ => rfl,
          fun _ => ⟨rfl, rfl⟩, (fun e => by cases e), fun _ => rfl,
          fun _ => rfl, fun _ => ⟨rfl, rfl, rfl⟩⟩
    · intro F G hG
      rcases both_get hG with rfl | ⟨x, y, rfl, rfl, hG⟩
      · exact Kept.refl _
      · unfold setEdgeColors at hG
        split at hG
        · obtain ⟨_, _, hG⟩ := bind_eq_ok.mp hG
          obtain ⟨_, _, hG⟩ := bind_eq_ok.mp hG
          obtain ⟨_, _, hG⟩ := bind_eq_ok.mp hG
          cases hG
          exact ⟨⟨rfl, rfl, rfl, rfl⟩, ⟨rfl, rfl, rfl⟩, fun _ => rfl, fun _ => rfl,
            fun _ => ⟨rfl, rfl⟩, (fun e => by cases e), fun _ => rfl,
            fun _ => rfl, fun _ => ⟨rfl, rfl, rfl⟩⟩
        · cases hG; exact Kept.refl _
    · intro F G hG
      rcases ite_get hG with ⟨_, rfl⟩ | ⟨x, rfl, hG⟩
      · exact Kept.refl _
      · obtain ⟨sc, _, rfl⟩ := setCmap_eq.mp hG
        by_cases h3 : p.dim = 3
        · simp only [h3, if_true]
          exact ⟨⟨rfl, rfl, rfl, rfl⟩, ⟨rfl, rfl, rfl⟩, fun _ => rfl, fun _ => rfl,
            fun _ => ⟨rfl, rfl⟩, fun _ => ⟨rfl, rfl, rfl, rfl, rfl, rfl, rfl⟩, fun _ => rfl,
            fun _ => rfl, (fun e => by cases e)⟩
        · simp only [h3, if_false]
          exact ⟨⟨rfl, rfl, rfl, rfl⟩, ⟨rfl, rfl, rfl⟩, fun _ => rfl, fun _ => rfl,
            fun _ => ⟨rfl, rfl⟩, fun _ => ⟨rfl, rfl, rfl, rfl, rfl, rfl, rfl⟩, fun _ => rfl,
            fun _ => rfl, (fun e => by cases e)⟩

end

/-! ### Positions -/

theorem layoutDict_ok (dim : ℕ) (layout : List (List K)) : ∀ (ns : List ℤ) (i : ℕ)
    (d : PyDict ℤ (List K)), ns.Nodup → (∀ n ∈ ns, n ∉ d.keys) → i + ns.length ≤ layout.length →
    (∀ row ∈ layout, dim ≤ row.length) →
    ∃ d', layoutDict dim layout i ns d = .ok d' ∧ d'.keys = d.keys ++ ns ∧
      (∀ (j : ℕ) n, ns[j]? = some n → ∃ row, layout[i + j]? = some row ∧
        d'.get? n = some (row.take dim)) ∧ ∀ n, n ∉ ns → d'.get? n = d.get? n
  | [], i, d, _, _, _, _ => ⟨d, rfl, by simp, (fun j n h => by simp at h), fun _ _ => rfl⟩
  | n :: ns, i, d, hn, hd, hl, hr => by
    rw [List.nodup_cons] at hn
    rw [List.length_cons] at hl
    have hi : i < layout.length := by omega
    have hrow := hr _ (List.getElem_mem hi)
    have hp : mapPy (getItem layout[i]) (List.range dim) = .ok (layout[i].take dim) := by
      have : ∀ (l : List K) (k : ℕ), k ≤ l.length → mapPy (getItem l) (List.range k) = .ok (l.take k) := by
        intro l k hk
        rcases l with _ | ⟨a, l⟩
        · have : k = 0 := by simpa using hk
          subst this; rfl
        · rw [mapPy_ok (g := fun j => (a :: l).getD j a) (fun j hj => getItem_getD a (by
            have := List.mem_range.mp hj; omega))]
          congr 1
          apply List.ext_getElem?
          intro j
          rw [List.getElem?_map, List.getElem?_take]
          by_cases hj : j < k
          · rw [if_pos hj, List.getElem?_range hj]
            simp [List.getD_eq_getElem?_getD, show j < l.length + 1 by
              have : (a :: l).length = l.length + 1 := rfl
              omega]
          · rw [if_neg hj, List.getElem?_eq_none (by simpa using hj)]; rfl
      exact this _ _ hrow
    have hnd : n ∉ d.keys := hd n (List.mem_cons_self ..)
    have hks : (d.set n (layout[i].take dim)).keys = d.keys ++ [n] := by
      rw [PyDict.keys_set, if_neg hnd]
    obtain ⟨d', e, h1, h2, h3⟩ := layoutDict_ok dim layout ns (i + 1) (d.set n (layout[i].take dim))
      hn.2 (by
        intro m hm hm'
        rw [hks, List.mem_append, List.mem_singleton] at hm'
        rcases hm' with hm' | rfl
        · exact hd m (List.mem_cons_of_mem _ hm) hm'
        · exact hn.1 hm) (by omega) hr
    refine ⟨d', ?_, ?_, ?_, ?_⟩
    · rw [layoutDict, getItem_lt hi, ok_bind, hp, ok_bind, e]
    · rw [h1, hks]; simp
    · intro j m hj
      rcases j with _ | j
      · simp only [List.getElem?_cons_zero, Option.some.injEq] at hj
        subst hj
        refine ⟨layout[i], by simp [hi], ?_⟩
        rw [h3 n hn.1, PyDict.get?_set, if_pos rfl]
      · obtain ⟨row, g1, g2⟩ := h2 j m (by simpa using hj)
        exact ⟨row, by rw [← g1]; congr 1; omega, g2⟩
    · intro m hm
      rw [List.mem_cons, not_or] at hm
      rw [h3 m hm.2, PyDict.get?_set, if_neg hm.1]

end Verif
