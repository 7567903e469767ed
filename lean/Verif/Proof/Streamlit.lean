import Verif.Spec.Streamlit
import Verif.Proof.Reproducible

/-!
# Lemmas: the caches of the Streamlit app
-/

set_option autoImplicit false
set_option linter.unusedSectionVars false

namespace Verif

theorem cacheData_cases {A V : Type} [DecidableEq A] (mx : Option ℕ) (k : A) (body : Py V)
    (m : List (A × V)) :
    (∃ v, (k, v) ∈ m ∧ cacheData mx k body m = (.ok v, m)) ∨
    (∃ e, body = .error e ∧ cacheData mx k body m = (.error e, m)) ∨
    ∃ v m', body = .ok v ∧ cacheData mx k body m = (.ok v, m') ∧ ∀ e ∈ m', e = (k, v) ∨ e ∈ m := by
  unfold cacheData
  cases hf : m.find? fun e => e.1 = k with
  | some e =>
    have h1 := List.find?_some hf
    have h2 := List.mem_of_find?_eq_some hf
    simp only [decide_eq_true_eq] at h1
    exact .inl ⟨e.2, by rw [← h1]; exact h2, rfl⟩
  | none =>
    cases body with
    | error e => exact .inr (.inl ⟨e, rfl, rfl⟩)
    | ok v =>
      refine .inr (.inr ⟨v, _, rfl, rfl, fun e he => ?_⟩)
      cases mx with
      | none => simpa using he
      | some n => simpa using List.mem_of_mem_take he

theorem mem_sortPair (l : List (ℤ × ℤ)) (u v : ℤ) :
    sortPair (u, v) ∈ l.map sortPair ↔ (u, v) ∈ l ∨ (v, u) ∈ l := by
  constructor
  · intro h
    obtain ⟨⟨a, b⟩, h1, h2⟩ := List.mem_map.mp h
    unfold sortPair at h2
    simp only at h2
    split at h2 <;> split at h2 <;> simp only [Prod.mk.injEq] at h2 <;> obtain ⟨rfl, rfl⟩ := h2 <;>
      simp [h1]
  · rintro (h | h)
    · exact List.mem_map_of_mem h
    · have : sortPair (u, v) = sortPair (v, u) := by
        unfold sortPair
        simp only
        split <;> split <;> simp <;> omega
      rw [this]
      exact List.mem_map_of_mem h

theorem sameShape_of_encode {g g' : NxGraph} (h : encodeGraph g = encodeGraph g') :
    SameShape g g' := by
  unfold encodeGraph at h
  obtain ⟨h1, h2⟩ := Prod.mk.inj h
  refine ⟨?_, ?_, ?_, ?_⟩
  · intro u
    rw [← (List.perm_insertionSort (· ≤ ·) g.nodes.keys).mem_iff, h1,
      (List.perm_insertionSort (· ≤ ·) g'.nodes.keys).mem_iff]
  · intro u v
    rw [← mem_sortPair, ← mem_sortPair,
      ← (List.perm_insertionSort (fun a b => pairLe a b = true) (g.edges.map sortPair)).mem_iff, h2,
      (List.perm_insertionSort (fun a b => pairLe a b = true) (g'.edges.map sortPair)).mem_iff]
  · have := congrArg List.length h1
    simpa [PyDict.len, PyDict.keys] using this
  · have := congrArg List.length h2
    simpa using this

variable {K F : Type} [Field K] [LinearOrder K] [DecidableEq F]

/-- What the caches hold after pages with the controls `h`. -/
structure CachesOK (L : StLibs K F) (h : List (StControls F)) (s : StCaches K F) : Prop where
  data : ∀ k v, (k, v) ∈ s.data → loadSource L k = .ok v
  mapper : ∀ t X y b b' g, ((t, X, y, b, b'), g) ∈ s.mapper → ∃ cover clustering,
    t = L.text cover clustering ∧ computeMapper L cover clustering X y b b' = .ok g
  plot : ∀ k p, (k, p) ∈ s.plot → ∃ c ∈ h, ∃ g, pageGraph L c = .ok g ∧ pagePlot L c = .ok p ∧
    k = (encodeGraph g, stDim c.threeD, c.seed, c.iterations)
  fig : ∀ pos colors agg f, ((pos, colors, agg), f) ∈ s.fig → ∃ c ∈ h, ∃ p, pagePlot L c = .ok p ∧
    p.positions = pos ∧ computeMapperFig L p colors agg = .ok f ∧
    ∃ c' ∈ h, pageColors L c' = .ok colors ∧ c'.agg = agg

theorem CachesOK.empty (L : StLibs K F) : CachesOK L [] {} :=
  ⟨by simp, by simp, by simp, by simp⟩

theorem CachesOK.mono {L : StLibs K F} {h h' : List (StControls F)} {s : StCaches K F}
    (H : CachesOK L h s) (hh : ∀ c ∈ h, c ∈ h') : CachesOK L h' s where
  data := H.data
  mapper := H.mapper
  plot := fun k p hk => by
    obtain ⟨c, hc, r⟩ := H.plot k p hk
    exact ⟨c, hh c hc, r⟩
  fig := fun pos colors agg f hk => by
    obtain ⟨c, hc, p, r1, r2, r3, c', hc', r4⟩ := H.fig pos colors agg f hk
    exact ⟨c, hh c hc, p, r1, r2, r3, c', hh c' hc', r4⟩

theorem computeMapper_text {L : StLibs K F} (ht : TextFaithful L) {a a' : StCover}
    {b b' : StClustering} (h : L.text a b = L.text a' b') (X y : Array2 K) (f f' : Bool) :
    computeMapper L a b X y f f' = computeMapper L a' b' X y f f' := by
  unfold computeMapper
  rw [ht a b a' b' h]

theorem dataSection_ok {L : StLibs K F} {h : List (StControls F)} {s : StCaches K F}
    (H : CachesOK L h s) (c : StControls F) :
    (dataSection L c s).1 = loadSource L c.source ∧ CachesOK L h (dataSection L c s).2 := by
  unfold dataSection
  rcases cacheData_cases (some 1) c.source (loadSource L c.source) s.data with
    ⟨v, h1, h2⟩ | ⟨e, h1, h2⟩ | ⟨v, m, h1, h2, h3⟩ <;> rw [h2]
  · exact ⟨(H.data _ _ h1).symm, H⟩
  · exact ⟨h1.symm, H⟩
  · refine ⟨h1.symm, ⟨fun k w hk => ?_, H.mapper, H.plot, H.fig⟩⟩
    rcases h3 _ hk with h4 | h4
    · cases h4; exact h1
    · exact H.data k w h4

theorem graphSection_ok {L : StLibs K F} (ht : TextFaithful L) {h : List (StControls F)}
    {s : StCaches K F} (H : CachesOK L h s) (c : StControls F) {dfX dfY : Frame K}
    (hd : loadSource L c.source = .ok (dfX, dfY)) :
    (graphSection L c dfX.toNumpy s).1 = pageGraph L c ∧
      CachesOK L h (graphSection L c dfX.toNumpy s).2 := by
  unfold graphSection pageGraph
  rw [hd, ok_bind]
  simp only
  cases hy : stLens L dfX.toNumpy c.lens with
  | error e => exact ⟨rfl, H⟩
  | ok y =>
    rw [ok_bind]
    simp only
    rcases cacheData_cases none (L.text c.cover c.clustering, dfX.toNumpy, y, c.scaleClustering,
      c.scaleCover) (computeMapper L c.cover c.clustering dfX.toNumpy y c.scaleClustering
      c.scaleCover) s.mapper with ⟨v, h1, h2⟩ | ⟨e, h1, h2⟩ | ⟨v, m, h1, h2, h3⟩ <;> rw [h2]
    · obtain ⟨a, b, h4, h5⟩ := H.mapper _ _ _ _ _ _ h1
      refine ⟨?_, H⟩
      rw [← h5]
      exact (computeMapper_text ht h4 _ _ _ _).symm
    · exact ⟨h1.symm, H⟩
    · refine ⟨h1.symm, ⟨H.data, fun t X y' b b' g hk => ?_, H.plot, H.fig⟩⟩
      rcases h3 _ hk with h4 | h4
      · cases h4; exact ⟨c.cover, c.clustering, rfl, h1⟩
      · exact H.mapper _ _ _ _ _ _ h4

/-- The plot used is that of this page, or of an earlier one whose graph has the same shape. -/
theorem plotSection_ok {L : StLibs K F} {h : List (StControls F)} {s : StCaches K F}
    (H : CachesOK L h s) (c : StControls F) (hc : c ∈ h) {g : NxGraph} (hg : pageGraph L c = .ok g) :
    ((plotSection L c g s).1 = pagePlot L c ∨
      ∃ c' ∈ h, ∃ g' p', pageGraph L c' = .ok g' ∧ pagePlot L c' = .ok p' ∧ SameShape g' g ∧
        c'.threeD = c.threeD ∧ c'.seed = c.seed ∧ c'.iterations = c.iterations ∧
        (plotSection L c g s).1 = .ok p') ∧
      CachesOK L h (plotSection L c g s).2 := by
  have hp : pagePlot L c = computeMapperPlot L g (stDim c.threeD) c.seed c.iterations := by
    unfold pagePlot; rw [hg, ok_bind]; rfl
  unfold plotSection
  rcases cacheData_cases none (encodeGraph g, stDim c.threeD, c.seed, c.iterations)
    (computeMapperPlot L g (stDim c.threeD) c.seed c.iterations) s.plot with
    ⟨v, h1, h2⟩ | ⟨e, h1, h2⟩ | ⟨v, m, h1, h2, h3⟩ <;> rw [h2]
  · obtain ⟨c', hc', g', h4, h5, h6⟩ := H.plot _ _ h1
    simp only [Prod.mk.injEq] at h6
    obtain ⟨h7, h8, h9, h10⟩ := h6
    refine ⟨.inr ⟨c', hc', g', v, h4, h5, sameShape_of_encode h7.symm, ?_, h9.symm, h10.symm, rfl⟩, H⟩
    unfold stDim at h8
    cases hx : c.threeD <;> cases hx' : c'.threeD <;> simp [hx, hx'] at h8 <;> rfl
  · exact ⟨.inl (by rw [hp, h1]), H⟩
  · refine ⟨.inl (by rw [hp, h1]), ⟨H.data, H.mapper, fun k p hk => ?_, H.fig⟩⟩
    rcases h3 _ hk with h4 | h4
    · cases h4
      exact ⟨c, hc, g, hg, by rw [hp, h1], rfl⟩
    · exact H.plot k p h4

/-- The figure is drawn from the plot, or from one of an earlier page with the same positions. -/
theorem figSection_ok {L : StLibs K F} {h : List (StControls F)} {s : StCaches K F}
    (H : CachesOK L h s) (c : StControls F) (hc : c ∈ h) {dfX dfY : Frame K}
    (hd : loadSource L c.source = .ok (dfX, dfY)) {p : MapperPlot K} {c₀ : StControls F}
    (hc₀ : c₀ ∈ h) (hp : pagePlot L c₀ = .ok p) :
    (∃ c' ∈ h, ∃ p', pagePlot L c' = .ok p' ∧ p'.positions = p.positions ∧
      (figSection L p dfX dfY c.agg s).1 =
        (computeMapperFig L p' (concatFrames [dfY, dfX]) c.agg).map fun f =>
          { f with width := none }) ∧
      CachesOK L h (figSection L p dfX dfY c.agg s).2 := by
  unfold figSection
  simp only
  rcases cacheData_cases none (p.positions, concatFrames [dfY, dfX], c.agg)
    (computeMapperFig L p (concatFrames [dfY, dfX]) c.agg) s.fig with
    ⟨v, h1, h2⟩ | ⟨e, h1, h2⟩ | ⟨v, m, h1, h2, h3⟩ <;> rw [h2]
  · obtain ⟨c', hc', p', h4, h5, h6, _⟩ := H.fig _ _ _ _ h1
    exact ⟨⟨c', hc', p', h4, h5, by rw [h6]; rfl⟩, H⟩
  · exact ⟨⟨c₀, hc₀, p, hp, rfl, by rw [h1]; rfl⟩, H⟩
  · refine ⟨⟨c₀, hc₀, p, hp, rfl, by rw [h1]; rfl⟩, ⟨H.data, H.mapper, H.plot, ?_⟩⟩
    intro pos colors agg f hk
    rcases h3 _ hk with h4 | h4
    · cases h4
      exact ⟨c₀, hc₀, p, hp, rfl, h1, c, hc, by unfold pageColors; rw [hd]; rfl, rfl⟩
    · exact H.fig _ _ _ _ h4

/-- What a page shows after the pages `h`, and what it leaves in the caches. -/
theorem stMain_ok {L : StLibs K F} (ht : TextFaithful L) {h : List (StControls F)}
    {s : StCaches K F} (H : CachesOK L h s) (c : StControls F) (hc : c ∈ h) :
    CachesOK L h (stMain L c s).2 ∧
    (loadSource L c.source = .error .valueError → (stMain L c s).1 = .ok none) ∧
    (∀ e, loadSource L c.source = .error e → e ≠ .valueError → (stMain L c s).1 = .error e) ∧
    ∀ dfX dfY, loadSource L c.source = .ok (dfX, dfY) →
      (∀ e, pageGraph L c = .error e → (stMain L c s).1 = .error e) ∧
      ∀ g, pageGraph L c = .ok g →
        (∃ e, pagePlot L c = .error e ∧ (stMain L c s).1 = .error e) ∨
        ∃ c' ∈ h, ∃ g' p', pageGraph L c' = .ok g' ∧ pagePlot L c' = .ok p' ∧ SameShape g' g ∧
          c'.threeD = c.threeD ∧ c'.seed = c.seed ∧ c'.iterations = c.iterations ∧
          ∃ c'' ∈ h, ∃ p'', pagePlot L c'' = .ok p'' ∧ p''.positions = p'.positions ∧
            (stMain L c s).1 = (computeMapperFig L p'' (concatFrames [dfY, dfX]) c.agg).map fun f =>
              some ⟨dfX, dfY, g, { f with width := none }, stStats L dfX dfY g⟩ := by
  unfold stMain
  obtain ⟨d1, d2⟩ := dataSection_ok H c
  rcases hds : dataSection L c s with ⟨r, s1⟩
  rw [hds] at d1 d2
  simp only at d1 d2
  subst d1
  cases hl : loadSource L c.source with
  | error e =>
    cases e <;> simp only <;> refine ⟨d2, ?_, ?_, ?_⟩ <;> intros <;> simp_all
  | ok d =>
    obtain ⟨dfX, dfY⟩ := d
    simp only
    obtain ⟨g1, g2⟩ := graphSection_ok ht d2 c hl
    rcases hgs : graphSection L c dfX.toNumpy s1 with ⟨r, s2⟩
    rw [hgs] at g1 g2
    simp only at g1 g2
    subst g1
    cases hg : pageGraph L c with
    | error e =>
      simp only
      refine ⟨g2, by simp, by simp, fun a b hab => ⟨fun e' h' => by cases h'; rfl, by simp⟩⟩
    | ok g =>
      simp only
      obtain ⟨p1, p2⟩ := plotSection_ok g2 c hc hg
      rcases hps : plotSection L c g s2 with ⟨r, s3⟩
      rw [hps] at p1 p2
      simp only at p1 p2
      have main : ∀ p, r = .ok p → (∃ c' ∈ h, ∃ g', pageGraph L c' = .ok g' ∧ pagePlot L c' = .ok p ∧
          SameShape g' g ∧ c'.threeD = c.threeD ∧ c'.seed = c.seed ∧ c'.iterations = c.iterations) := by
        intro p hr
        rcases p1 with h1 | ⟨c', hc', g', p', h1, h2, h3, h4, h5, h6, h7⟩
        · exact ⟨c, hc, g, hg, by rw [← h1, hr], ⟨fun _ => Iff.rfl, fun _ _ => Iff.rfl, rfl, rfl⟩, rfl, rfl, rfl⟩
        · rw [hr] at h7; cases h7
          exact ⟨c', hc', g', h1, h2, h3, h4, h5, h6⟩
      cases r with
      | error e =>
        simp only
        refine ⟨p2, by simp, by simp, fun a b hab => ⟨by simp, fun g0 hg0 => .inl ⟨e, ?_, rfl⟩⟩⟩
        rcases p1 with h1 | ⟨c', _, g', p', _, _, _, _, _, _, h7⟩
        · exact h1.symm
        · cases h7
      | ok p =>
        simp only
        obtain ⟨c', hc', g', h1, h2, h3, h4, h5, h6⟩ := main p rfl
        obtain ⟨⟨c'', hc'', p'', f1, f2, f3⟩, f4⟩ := figSection_ok p2 c hc hl hc' h2
        rcases hfs : figSection L p dfX dfY c.agg s3 with ⟨r, s4⟩
        rw [hfs] at f3 f4
        simp only at f3 f4
        subst f3
        cases hf : computeMapperFig L p'' (concatFrames [dfY, dfX]) c.agg with
        | error e =>
          simp only [Except.map]
          refine ⟨f4, by simp, by simp, fun a b hab => ⟨by simp, fun g0 hg0 => .inr ?_⟩⟩
          cases hab; cases hg0
          exact ⟨c', hc', g', p, h1, h2, h3, h4, h5, h6, c'', hc'', p'', f1, f2, by rw [hf]⟩
        | ok f =>
          simp only [Except.map]
          refine ⟨f4, by simp, by simp, fun a b hab => ⟨by simp, fun g0 hg0 => .inr ?_⟩⟩
          cases hab; cases hg0
          exact ⟨c', hc', g', p, h1, h2, h3, h4, h5, h6, c'', hc'', p'', f1, f2, by rw [hf]⟩

theorem stAfter_ok {L : StLibs K F} (ht : TextFaithful L) (cs : List (StControls F)) :
    ∀ (h : List (StControls F)) (s : StCaches K F), CachesOK L h s →
      CachesOK L (h ++ cs) (stAfter L s cs) := by
  induction cs with
  | nil => intro h s H; simpa [stAfter] using H
  | cons c cs ih =>
    intro h s H
    have H1 : CachesOK L (h ++ [c]) s := H.mono fun c' hc' => List.mem_append_left _ hc'
    have := ih (h ++ [c]) _ (stMain_ok ht H1 c (by simp)).1
    rw [List.append_assoc] at this
    exact this

end Verif
