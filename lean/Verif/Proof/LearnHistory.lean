import Verif.Proof.LearnMain

set_option autoImplicit false

namespace Verif

/-! ### Parameters survive -/

theorem coverParam_evolve {W : World} {h h' : Heap} {T : ℕ → Prop} (hev : Evolves h h' T) {v : Val}
    (hc : Cloneable W h v) : coverParam W h' v = coverParam W h v :=
  coverParam_congr hev fun r hr => by
    rcases hc with h1 | ⟨r', o, c, h1, eo, _⟩
    · rw [hr] at h1; cases h1
    · rw [hr] at h1
      cases h1
      exact lt_of_getElem? eo

theorem clustParam_congr {W : World} (hW : Contract W) {h h' : Heap} {n : ℕ} (hg : GoodHeap h n)
    {T : ℕ → Prop} (hev : Evolves h h' T) {v : Val}
    (hc : Cloneable W h v) (fuel : ℕ) : clustParam W h' fuel v = clustParam W h fuel v := by
  rcases hc with rfl | ⟨r, o, c, rfl, eo, hC⟩
  · rfl
  · funext X
    exact labelsOf_congr hW hg hev X fuel r (lt_of_getElem? eo)

theorem expectedGraph_congr {W : World} (hW : Contract W) {h h' : Heap} {n : ℕ} (hg : GoodHeap h n)
    {T : ℕ → Prop} (hev : Evolves h h' T) {vc vk : Val}
    (hc : Cloneable W h vc) (hk : Cloneable W h vk) (fuel : ℕ) (vf : Val) (X : Input)
    (y : Option Input) : expectedGraph W h' fuel vc vk vf X y = expectedGraph W h fuel vc vk vf X y := by
  unfold expectedGraph failSafeParam
  rw [coverParam_evolve hev hc, clustParam_congr hW hg hev hk]

theorem expectedLabels_congr {W : World} (hW : Contract W) {h h' : Heap} {n : ℕ} (hg : GoodHeap h n)
    {T : ℕ → Prop} (hev : Evolves h h' T) {vc vk : Val}
    (hc : Cloneable W h vc) (hk : Cloneable W h vk) (fuel : ℕ) (X : Input)
    (y : Option Input) : expectedLabels W h' fuel vc vk X y = expectedLabels W h fuel vc vk X y := by
  unfold expectedLabels
  rw [coverParam_evolve hev hc, clustParam_congr hW hg hev hk]

theorem CloneableClust.evolves {W : World} {h h' : Heap} {n : ℕ} (hg : GoodHeap h n) {T : ℕ → Prop}
    (hev : Evolves h h' T) {v : Val} (hc : CloneableClust W h v) : CloneableClust W h' v := by
  refine ⟨hc.1.evolves hev, ?_⟩
  rintro r rfl
  rcases hc.1 with h1 | ⟨r', o, c, h1, eo, _⟩
  · cases h1
  · cases h1
    exact (hc.2 r rfl).evolves hg hev (lt_of_getElem? eo)

theorem IsAlgorithm.evolve {W : World} {h h' : Heap} {n : ℕ} (hg : GoodHeap h n) {T : ℕ → Prop} (hev : Evolves h h' T) {r : ℕ}
    {vc vk vf : Val} (ha : IsAlgorithm W h r vc vk vf) : IsAlgorithm W h' r vc vk vf := by
  obtain ⟨o, vv, vj, eo, hcls, h1, h2, h3, h4, h5, h6, h7, h8⟩ := ha
  obtain ⟨o', eo', hcls', hs⟩ := hev.same r o eo
  exact ⟨o', vv, vj, eo', hcls'.trans hcls, by rw [← hs _ public_cover, h1],
    by rw [← hs _ public_clustering, h2], by rw [← hs _ public_failsafe, h3],
    by rw [← hs _ public_verbose, h4], by rw [← hs _ public_nJobs, h5], h6, h7.evolves hev,
    h8.evolves hg hev⟩

theorem IsMapperClustering.evolve {W : World} {h h' : Heap} {n : ℕ} (hg : GoodHeap h n)
    {T : ℕ → Prop} (hev : Evolves h h' T) {r : ℕ} {vc vk : Val} (ha : IsMapperClustering W h r vc vk) : IsMapperClustering W h' r vc vk := by
  obtain ⟨o, vj, eo, hcls, h1, h2, h5, h7, h8⟩ := ha
  obtain ⟨o', eo', hcls', hs⟩ := hev.same r o eo
  exact ⟨o', vj, eo', hcls'.trans hcls, by rw [← hs _ public_cover, h1],
    by rw [← hs _ public_clustering, h2], by rw [← hs _ public_nJobs, h5], h7.evolves hev,
    h8.evolves hg hev⟩

theorem FitCall.Valid.evolve {W : World} {h h' : Heap} {n : ℕ} (hg : GoodHeap h n) {T : ℕ → Prop} (hev : Evolves h h' T)
    {c : FitCall} {clust : Val} (hv : c.Valid W h clust) : c.Valid W h' clust := by
  unfold FitCall.Valid at *
  split
  · rename_i hc
    rw [if_pos hc] at hv
    obtain ⟨vc, vf, ha⟩ := hv
    exact ⟨vc, vf, ha.evolve hg hev⟩
  · rename_i hc
    rw [if_neg hc] at hv
    obtain ⟨vc, ha⟩ := hv
    exact ⟨vc, ha.evolve hg hev⟩

theorem SharedIn.evolve {W : World} {h h' : Heap} {n : ℕ} (hg : GoodHeap h n) {T : ℕ → Prop}
    (hev : Evolves h h' T) {v : Val} (hc : Cloneable W h v) {a : ℕ} (hn : SharedIn h' v a) :
    SharedIn h v a := by
  obtain ⟨r, rfl, hs⟩ := hn
  rcases hc with hc | ⟨r', o, c, hr, eo, hC⟩
  · cases hc
  · injection hr with hr
    subst hr
    exact ⟨r, rfl, hs.evolves hg hev (lt_of_getElem? eo)⟩

/-! ### One call -/

theorem FitCall.Valid.cloneable {W : World} {h : Heap} {c : FitCall} {clust : Val}
    (hv : c.Valid W h clust) : Cloneable W h clust := by
  unfold FitCall.Valid at hv
  split at hv
  · obtain ⟨_, _, _, _, _, _, _, _, _, _, _, _, _, _, h⟩ := hv
    exact h.1
  · obtain ⟨_, _, _, _, _, _, _, _, _, h⟩ := hv
    exact h.1

theorem run_call {W : World} (hW : Contract W) {n fuel : ℕ} (hf : n ≤ fuel) (hn2 : 2 ≤ n)
    {h : Heap} (hg : GoodHeap h n) {c : FitCall} {clust : Val} (hv : c.Valid W h clust) :
    GoodHeap (c.run W fuel h).2 n ∧
    Evolves h (c.run W fuel h).2 (fun b => b = c.target ∨ SharedIn h clust b) := by
  unfold FitCall.Valid at hv
  unfold FitCall.run
  split at hv
  · rename_i hc
    rw [if_pos hc]
    obtain ⟨vc, vf, o, vv, vj, eo, _, h1, h2, h3, h4, h5, h6, h7, h8⟩ := hv
    exact (mapperAlgorithmFit_spec hW hf hn2 hg eo h1 h2 h3 h4 h5 h7 h8 h6 c.X c.y).2
  · rename_i hc
    rw [if_neg hc]
    obtain ⟨vc, o, vj, eo, _, h1, h2, h5, h7, h8⟩ := hv
    exact (mapperClusteringFit_spec hW hf hg eo h1 h2 h5 h7 h8 c.X c.y).2

theorem run_calls {W : World} (hW : Contract W) {n fuel : ℕ} (hf : n ≤ fuel) (hn2 : 2 ≤ n) :
    ∀ (cs : List FitCall) {h : Heap}, GoodHeap h n → (∀ c ∈ cs, ∃ clust, c.Valid W h clust) →
    GoodHeap (runCalls W fuel cs h) n ∧ Evolves h (runCalls W fuel cs h)
      (fun b => ∃ c ∈ cs, ∃ clust, c.Valid W h clust ∧ (b = c.target ∨ SharedIn h clust b)) := by
  intro cs
  induction cs with
  | nil => intro h hg _; exact ⟨hg, Evolves.refl _ _⟩
  | cons c cs ih =>
    intro h hg hv
    obtain ⟨clust, hc⟩ := hv c List.mem_cons_self
    obtain ⟨hg1, hev1⟩ := run_call hW hf hn2 hg hc
    obtain ⟨hg2, hev2⟩ := ih hg1 (fun c' hc' => by
      obtain ⟨cl, h1⟩ := hv c' (List.mem_cons_of_mem _ hc')
      exact ⟨cl, h1.evolve hg hev1⟩)
    refine ⟨hg2, (hev1.weaken ?_).trans hev2 ?_⟩
    · intro a _ h1
      exact ⟨c, List.mem_cons_self, clust, hc, h1⟩
    · rintro a ha ⟨c', hc', cl', hval', h1⟩
      obtain ⟨cl, hcl⟩ := hv c' (List.mem_cons_of_mem _ hc')
      have : cl' = cl := by
        have h2 := hcl.evolve hg hev1
        unfold FitCall.Valid at h2 hval'
        split at h2
        · rename_i hb
          rw [if_pos hb] at hval'
          obtain ⟨_, _, o, _, _, eo, _, _, h3, _⟩ := h2
          obtain ⟨_, _, o', _, _, eo', _, _, h4, _⟩ := hval'
          rw [eo] at eo'
          cases eo'
          rw [h3] at h4
          cases h4
          rfl
        · rename_i hb
          rw [if_neg hb] at hval'
          obtain ⟨_, o, _, eo, _, _, h3, _⟩ := h2
          obtain ⟨_, o', _, eo', _, _, h4, _⟩ := hval'
          rw [eo] at eo'
          cases eo'
          rw [h3] at h4
          cases h4
          rfl
      subst this
      refine ⟨c', List.mem_cons_of_mem _ hc', cl', hcl, ?_⟩
      rcases h1 with h1 | h1
      · exact Or.inl h1
      · exact Or.inr (h1.evolve hg hev1 hcl.cloneable)

end Verif
