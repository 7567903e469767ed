import Verif.Proof.LearnMain

set_option autoImplicit false

namespace Verif

theorem AgreeOnFinite.classes {W W' : World} (hA : AgreeOnFinite W W') : W.classes = W'.classes := by
  funext cls
  simp only [World.classes, hA.others]

theorem eff_ext {α : Type} {x y : Eff α} (h : ∀ hp, x hp = y hp) : x = y := funext h

theorem eff_bind_congr {α β : Type} {x : Eff α} {f g : α → Eff β} (h : ∀ a, f a = g a) :
    x >>= f = x >>= g := by
  have : f = g := funext h
  rw [this]

theorem cloneE_agree {W W' : World} (hA : AgreeOnFinite W W') : cloneE W = cloneE W' := by
  funext fuel r h
  simp only [cloneE, hA.classes]

theorem cloneVal_agree {W W' : World} (hA : AgreeOnFinite W W') : cloneVal W = cloneVal W' := by
  funext fuel v
  simp only [cloneVal, cloneE_agree hA]

theorem mapperSetup_agree {W W' : World} (hA : AgreeOnFinite W W') :
    mapperSetup W = mapperSetup W' := by
  have h1 : cloneInto W = cloneInto W' := by
    funext fuel r priv v
    cases v <;> simp only [cloneInto, cloneVal_agree hA]
  funext fuel r
  simp only [mapperSetup, setParamClone, h1]

theorem failSafeFit_agree {f g : ℕ → List RealArray → Eff Unit} {X : List RealArray}
    (h : ∀ r, f r X = g r X) (r : ℕ) : failSafeFit f r X = failSafeFit g r X := by
  simp only [failSafeFit, failSafeTry, h]

theorem gather_mem {X : List RealArray} : ∀ {ids : List ℕ} {xs : List RealArray},
    gather X ids = .ok xs → ∀ x ∈ xs, x ∈ X := by
  intro ids
  induction ids with
  | nil => intro xs h; cases h; simp
  | cons j js ih =>
    intro xs h
    rw [gather] at h
    cases hg : getItem X j with
    | error e => rw [hg] at h; cases h
    | ok x =>
      rw [hg, ok_bind] at h
      cases hr : gather X js with
      | error e => rw [hr] at h; cases h
      | ok xs' =>
        rw [hr] at h
        cases h
        have hx : x ∈ X := by
          unfold getItem at hg
          split at hg
          · rename_i y e
            cases hg
            exact List.mem_of_getElem? e
          · cases hg
        intro z hz
        rcases List.mem_cons.mp hz with rfl | hz
        · exact hx
        · exact ih hr z hz

theorem runJobsE_agree {W W' : World} (hA : AgreeOnFinite W W')
    {fit fit' : ℕ → List RealArray → Eff Unit}
    (hfit : ∀ X, (∀ x ∈ X, AllFinite x) → ∀ r, fit r X = fit' r X) (X : List RealArray)
    (hX : ∀ x ∈ X, AllFinite x) (fuel clust : ℕ) : ∀ charts,
    runJobsE W fuel fit X clust charts = runJobsE W' fuel fit' X clust charts := by
  intro charts
  induction charts with
  | nil => rfl
  | cons ids charts ih =>
    rw [runJobsE, runJobsE, ih, cloneE_agree hA]
    apply eff_ext
    intro h
    rw [run_bind, run_bind, run_lift]
    cases hg : gather X ids with
    | error e => rfl
    | ok xs =>
      simp only
      rw [show (fun c => (do
          fit c xs
          let v ← readAttr c "labels_"
          let lbls ← asLabels v
          let rest ← runJobsE W' fuel fit' X clust charts
          return (ids, lbls) :: rest : Eff _)) = fun c => (do
          fit' c xs
          let v ← readAttr c "labels_"
          let lbls ← asLabels v
          let rest ← runJobsE W' fuel fit' X clust charts
          return (ids, lbls) :: rest : Eff _) from by
        funext c
        rw [hfit xs (fun x hx => hX x (gather_mem hg x hx))]]

theorem mapperLabelsE_agree {W W' : World} (hA : AgreeOnFinite W W')
    {fit fit' : ℕ → List RealArray → Eff Unit}
    (hfit : ∀ X, (∀ x ∈ X, AllFinite x) → ∀ r, fit r X = fit' r X) (X y : List RealArray)
    (hX : ∀ x ∈ X, AllFinite x) (hy : ∀ x ∈ y, AllFinite x) (fuel cover clust : ℕ) :
    mapperLabelsE W fuel fit X y cover clust = mapperLabelsE W' fuel fit' X y cover clust := by
  have h1 : applyCover W cover y = applyCover W' cover y := by
    unfold applyCover
    refine eff_bind_congr fun o => ?_
    simp only [hA.apply _ _ y hy]
  simp only [mapperLabelsE, h1, runJobsE_agree hA hfit X hX]

theorem mapperClusteringFitWith_agree {W W' : World} (hA : AgreeOnFinite W W')
    {fit fit' : ℕ → List RealArray → Eff Unit}
    (hfit : ∀ X, (∀ x ∈ X, AllFinite x) → ∀ r, fit r X = fit' r X) (fuel r : ℕ) (X : Input)
    (y : Option Input) : mapperClusteringFitWith W fuel fit r X y =
      mapperClusteringFitWith W' fuel fit' r X y := by
  apply eff_ext
  intro h
  rw [mapperClusteringFitWith, mapperClusteringFitWith, run_bind, run_bind, run_lift, cloneVal_agree hA,
    hA.setOrder]
  cases hv : validateXy X (y.getD X) with
  | error e => rfl
  | ok p =>
    obtain ⟨aX, ay⟩ := p
    obtain ⟨fX, fy⟩ := validateXy_finite hv
    simp only
    refine congrFun ?_ h
    refine eff_bind_congr fun _ => eff_bind_congr fun _ => eff_bind_congr fun _ =>
      eff_bind_congr fun _ => eff_bind_congr fun _ => eff_bind_congr fun _ =>
      eff_bind_congr fun _ => ?_
    apply eff_ext
    intro h1
    rw [run_bind, run_bind, run_lift]
    cases hrX : rowsOf aX with
    | error e => rfl
    | ok rX =>
      simp only
      rw [run_bind, run_bind, run_lift]
      cases hry : rowsOf ay with
      | error e => rfl
      | ok ry =>
        simp only [mapperLabelsE_agree hA hfit rX ry (rowsOf_finite fX hrX)
          (rowsOf_finite fy hry)]

theorem fitObj_agree {W W' : World} (hA : AgreeOnFinite W W') (fuel : ℕ) :
    ∀ (depth : ℕ) (X : List RealArray), (∀ x ∈ X, AllFinite x) → ∀ r,
      fitObj W fuel depth r X = fitObj W' fuel depth r X := by
  intro depth
  induction depth with
  | zero =>
    intro X hX r
    unfold fitObj worldFit
    refine eff_bind_congr fun o => ?_
    simp only [hA.fit _ _ X hX]
  | succ depth ih =>
    intro X hX r
    unfold fitObj worldFit
    refine eff_bind_congr fun o => ?_
    simp only [hA.fit _ _ X hX, failSafeFit_agree (ih X hX), mapperClusteringFitWith_agree hA ih]

theorem mapperClusteringFit_agree {W W' : World} (hA : AgreeOnFinite W W') (fuel r : ℕ) (X : Input)
    (y : Option Input) : mapperClusteringFit W fuel r X y = mapperClusteringFit W' fuel r X y :=
  mapperClusteringFitWith_agree hA (fitObj_agree hA fuel fuel) fuel r X y

theorem mapperAlgorithmFit_agree {W W' : World} (hA : AgreeOnFinite W W') (fuel r : ℕ) (X : Input)
    (y : Option Input) : mapperAlgorithmFit W fuel r X y = mapperAlgorithmFit W' fuel r X y := by
  apply eff_ext
  intro h
  rw [mapperAlgorithmFit, mapperAlgorithmFit, run_bind, run_bind, run_lift]
  cases hv : validateXy X (y.getD X) with
  | error e => rfl
  | ok p =>
    obtain ⟨aX, ay⟩ := p
    obtain ⟨fX, fy⟩ := validateXy_finite hv
    simp only
    rw [mapperSetup_agree hA, run_bind, run_bind]
    cases hs : mapperSetup W' fuel r h with
    | mk res h1 =>
      cases res with
      | error e => rfl
      | ok _ =>
        simp only
        rw [run_bind, run_bind, run_lift]
        cases hrX : rowsOf aX with
        | error e => rfl
        | ok rX =>
          simp only
          rw [run_bind, run_bind, run_lift]
          cases hry : rowsOf ay with
          | error e => rfl
          | ok ry =>
            simp only [mapperRun, mapperLabelsE_agree hA (fitObj_agree hA fuel fuel) rX ry
              (rowsOf_finite fX hrX) (rowsOf_finite fy hry)]

end Verif
