import Verif.Spec.Learn
import Verif.Proof.Objects
import Verif.Proof.Validate
import Mathlib.Data.Nat.Find

set_option autoImplicit false

namespace Verif

/-! ### Running effects -/

theorem run_bind {α β : Type} (x : Eff α) (f : α → Eff β) (h : Heap) :
    (x >>= f) h = match x h with
      | (.ok a, h') => f a h'
      | (.error e, h') => (.error e, h') := rfl

@[simp] theorem run_pure {α : Type} (a : α) (h : Heap) : (pure a : Eff α) h = (.ok a, h) := rfl

@[simp] theorem run_lift {α : Type} (x : Py α) (h : Heap) : Eff.lift x h = (x, h) := rfl

@[simp] theorem run_alloc (cls : String) (a : PyDict String Val) (h : Heap) :
    alloc cls a h = (.ok h.length, h ++ [⟨cls, a⟩]) := rfl

theorem run_readObj {h : Heap} {r : ℕ} {o : Obj} (e : h[r]? = some o) :
    readObj r h = (.ok o, h) := by
  simp [readObj, deref_ok e]

theorem run_readAttr {h : Heap} {r : ℕ} {o : Obj} (e : h[r]? = some o) (k : String) :
    readAttr r k h = ((match o.attrs.get? k with
      | some v => .ok v
      | none => .error .attributeError), h) := by
  rw [readAttr, run_bind, run_readObj e]
  simp only
  cases o.attrs.get? k <;> rfl

theorem run_readAttr_some {h : Heap} {r : ℕ} {o : Obj} (e : h[r]? = some o) {k : String} {v : Val}
    (hv : o.attrs.get? k = some v) : readAttr r k h = (.ok v, h) := by
  rw [run_readAttr e, hv]

theorem run_writeAttrs {h : Heap} {r : ℕ} {o : Obj} (e : h[r]? = some o)
    (a : PyDict String Val) :
    writeAttrs r a h = (.ok (), h.set r ⟨o.cls, a⟩) := by
  rw [writeAttrs, run_bind, run_readObj e]
  rfl

theorem run_writeAttr {h : Heap} {r : ℕ} {o : Obj} (e : h[r]? = some o) (k : String) (v : Val) :
    writeAttr r k v h = (.ok (), h.set r ⟨o.cls, o.attrs.set k v⟩) := by
  rw [writeAttr, run_bind, run_readObj e]
  exact run_writeAttrs e _

/-! ### Evolution of the heap -/

/-- `h'` results from `h` by adding objects and changing non-public attributes, of
the objects satisfying `T` only. -/
structure Evolves (h h' : Heap) (T : ℕ → Prop) : Prop where
  grow : h.length ≤ h'.length
  same : ∀ (a : ℕ) (o : Obj), h[a]? = some o → ∃ o', h'[a]? = some o' ∧ o'.cls = o.cls ∧
    SamePublic o.attrs o'.attrs
  frame : ∀ (a : ℕ), a < h.length → ¬ T a → h'[a]? = h[a]?

theorem SamePublic.refl (a : PyDict String Val) : SamePublic a a := fun _ _ => rfl

theorem SamePublic.symm {a b : PyDict String Val} (h : SamePublic a b) : SamePublic b a :=
  fun k hk => (h k hk).symm

theorem SamePublic.trans {a b c : PyDict String Val} (h : SamePublic a b) (h' : SamePublic b c) :
    SamePublic a c := fun k hk => (h k hk).trans (h' k hk)

theorem samePublic_set (a : PyDict String Val) {k : String} (hk : ¬ IsPublic k) (v : Val) :
    SamePublic a (a.set k v) := by
  intro k' hk'
  rw [PyDict.get?_set, if_neg]
  rintro rfl
  exact hk hk'

theorem Evolves.refl (h : Heap) (T : ℕ → Prop) : Evolves h h T :=
  ⟨le_refl _, fun _ o e => ⟨o, e, rfl, SamePublic.refl _⟩, fun _ _ _ => rfl⟩

theorem Evolves.trans {h h1 h2 : Heap} {T T' : ℕ → Prop} (e1 : Evolves h h1 T)
    (e2 : Evolves h1 h2 T') (hT : ∀ a, a < h.length → T' a → T a) : Evolves h h2 T := by
  refine ⟨le_trans e1.grow e2.grow, ?_, ?_⟩
  · intro a o e
    obtain ⟨o1, h3, h4, h5⟩ := e1.same a o e
    obtain ⟨o2, h6, h7, h8⟩ := e2.same a o1 h3
    exact ⟨o2, h6, h7.trans h4, h5.trans h8⟩
  · intro a ha hn
    rw [e2.frame a (lt_of_lt_of_le ha e1.grow) (fun h => hn (hT a ha h)), e1.frame a ha hn]

theorem Evolves.weaken {h h' : Heap} {T T' : ℕ → Prop} (e : Evolves h h' T)
    (hT : ∀ a, a < h.length → T a → T' a) : Evolves h h' T' :=
  ⟨e.grow, e.same, fun a ha hn => e.frame a ha (fun h => hn (hT a ha h))⟩

theorem Evolves.publicAttr {h h' : Heap} {T : ℕ → Prop} (e : Evolves h h' T) {a : ℕ}
    (ha : a < h.length) (k : String) (v : Val) : PublicAttr h' a k v ↔ PublicAttr h a k v := by
  obtain ⟨o, eo⟩ : ∃ o, h[a]? = some o := ⟨_, List.getElem?_eq_getElem ha⟩
  obtain ⟨o', eo', _, hp⟩ := e.same a o eo
  constructor
  · rintro ⟨o2, e2, hk, hpub⟩
    rw [eo'] at e2
    cases e2
    exact ⟨o, eo, by rw [hp k hpub]; exact hk, hpub⟩
  · rintro ⟨o2, e2, hk, hpub⟩
    rw [eo] at e2
    cases e2
    exact ⟨o', eo', by rw [← hp k hpub]; exact hk, hpub⟩

theorem GoodHeap.valid {h : Heap} {n : ℕ} (hg : GoodHeap h n) {a : ℕ} {k : String} {b : ℕ}
    (hp : PublicAttr h a k (.obj b)) : b < h.length := hg.2.1 a k b hp

theorem GoodHeap.pos {h : Heap} {n : ℕ} (hg : GoodHeap h n) : 0 < n :=
  hg.2.2 0 [] 0 (.nil 0)

/-- The depth of nesting is a rank. -/
theorem GoodHeap.rank {h : Heap} {n : ℕ} (hg : GoodHeap h n) :
    ∃ rank, Ranked h rank ∧ ∀ r, rank r < n := by
  classical
  let P : ℕ → ℕ → Prop := fun r m => ∃ ks b, Reaches h r ks b ∧ ks.length = m
  have hspec : ∀ r, P r (Nat.findGreatest (P r) n) := fun r =>
    Nat.findGreatest_spec (m := 0) (Nat.zero_le _) ⟨[], r, .nil r, rfl⟩
  refine ⟨fun r => Nat.findGreatest (P r) n, ?_, ?_⟩
  · intro r k b hp
    refine ⟨hg.valid hp, ?_⟩
    obtain ⟨ks, c, hre, hlen⟩ := hspec b
    have hre' : Reaches h r (k :: ks) c := .cons hp hre
    have hlt := hg.2.2 _ _ _ hre'
    simp only [List.length_cons] at hlt
    have : (k :: ks).length ≤ Nat.findGreatest (P r) n :=
      Nat.le_findGreatest (by simp only [List.length_cons]; omega) ⟨_, _, hre', rfl⟩
    simp only [List.length_cons] at this
    simp only
    omega
  · intro r
    obtain ⟨ks, c, hre, hlen⟩ := hspec r
    simp only
    rw [← hlen]
    exact hg.2.2 _ _ _ hre

theorem Evolves.reaches {h h' : Heap} {T : ℕ → Prop} (e : Evolves h h' T) {n : ℕ}
    (hg : GoodHeap h n) {ks : List String} : ∀ {a b : ℕ}, a < h.length →
      (Reaches h' a ks b ↔ Reaches h a ks b) := by
  induction ks with
  | nil =>
    intro a b _
    constructor <;> (intro h; cases h; exact .nil _)
  | cons k ks ih =>
    intro a b ha
    constructor
    · intro hr
      cases hr with
      | cons hp hr =>
        have hp' := (e.publicAttr ha _ _).mp hp
        exact .cons hp' ((ih (hg.valid hp')).mp hr)
    · intro hr
      cases hr with
      | cons hp hr => exact .cons ((e.publicAttr ha _ _).mpr hp) ((ih (hg.valid hp)).mpr hr)

theorem reaches_lt {h : Heap} {n : ℕ} (hg : GoodHeap h n) {a b : ℕ} {ks : List String}
    (hr : Reaches h a ks b) (ha : a < h.length) : b < h.length := by
  induction hr with
  | nil => exact ha
  | cons hp _ ih => exact ih (hg.valid hp)

/-- An object is not nested in itself. -/
theorem not_reaches_self {h : Heap} {n : ℕ} (hg : GoodHeap h n) {a b : ℕ} {k : String}
    (hp : PublicAttr h a k (.obj b)) {ks : List String} : ¬ Reaches h b ks a := by
  obtain ⟨rank, hr, _⟩ := hg.rank
  intro hre
  have h1 := hre.rank_le hr
  have h2 := (hr a k b hp).2
  omega

theorem notPublic_trailing {k : String} (h : k.toList.getLast? = some '_') : ¬ IsPublic k :=
  fun hp => hp.2 h

/-- Changing non-public attributes of one object. -/
theorem goodHeap_set {h : Heap} {n : ℕ} (hg : GoodHeap h n) {r : ℕ} {o : Obj}
    (e : h[r]? = some o) {a : PyDict String Val} (hs : SamePublic o.attrs a)
    (hn : a.keys.Nodup) : GoodHeap (h.set r ⟨o.cls, a⟩) n ∧
      Evolves h (h.set r ⟨o.cls, a⟩) (fun b => b = r) := by
  have hlt := lt_of_getElem? e
  have hev : Evolves h (h.set r ⟨o.cls, a⟩) (fun b => b = r) := by
    refine ⟨by simp, ?_, ?_⟩
    · intro b ob eb
      rw [List.getElem?_set]
      split
      · rename_i hrb
        subst hrb
        rw [e] at eb
        cases eb
        exact ⟨_, rfl, rfl, hs⟩
      · exact ⟨ob, eb, rfl, SamePublic.refl _⟩
    · intro b _ hb
      rw [List.getElem?_set, if_neg (Ne.symm hb)]
  have hpa : ∀ b k v, PublicAttr (h.set r ⟨o.cls, a⟩) b k v ↔ PublicAttr h b k v := by
    intro b k v
    by_cases hbl : b < h.length
    · exact hev.publicAttr hbl k v
    · constructor
      · rintro ⟨ob, eb, _⟩
        exact absurd (by simpa using lt_of_getElem? eb) hbl
      · rintro ⟨ob, eb, _⟩
        exact absurd (lt_of_getElem? eb) hbl
  refine ⟨?_, hev⟩
  obtain ⟨hw, hv, hb⟩ := hg
  refine ⟨?_, ?_, ?_⟩
  · intro b ob eb
    rw [List.getElem?_set] at eb
    split at eb
    · cases eb
      refine ⟨hn, ?_⟩
      intro k hk hp
      refine (hw r o e).2 k ?_ hp
      rw [← PyDict.isSome_get?, hs k hp, PyDict.isSome_get?]
      exact hk
    · exact hw b ob eb
  · intro b k c hp
    rw [List.length_set]
    exact hv b k c ((hpa _ _ _).mp hp)
  · intro b ks c hre
    exact hb b ks c ((reaches_congr (fun a b c => hpa a b (.obj c)) _ _ _).mp hre)

theorem goodHeap_write {h : Heap} {n : ℕ} (hg : GoodHeap h n) {r : ℕ} {o : Obj}
    (e : h[r]? = some o) {k : String} (hk : ¬ IsPublic k) (v : Val) :
    GoodHeap (h.set r ⟨o.cls, o.attrs.set k v⟩) n ∧
      Evolves h (h.set r ⟨o.cls, o.attrs.set k v⟩) (fun b => b = r) :=
  goodHeap_set hg e (samePublic_set _ hk v) (PyDict.nodup_keys_set (hg.1 r o e).1 k v)

/-- Adding an object whose nested objects are valid and not too deep. -/
theorem goodHeap_append {h : Heap} {n : ℕ} (hg : GoodHeap h n) {o : Obj}
    (hn : o.attrs.keys.Nodup) (hk : ∀ k ∈ o.attrs.keys, IsPublic k → GoodName k)
    (hobj : ∀ k b, o.attrs.get? k = some (.obj b) → IsPublic k → b < h.length ∧
      ∀ ks c, Reaches h b ks c → ks.length + 1 < n) :
    GoodHeap (h ++ [o]) n ∧ Evolves h (h ++ [o]) (fun _ => False) := by
  have hev : Evolves h (h ++ [o]) (fun _ => False) := by
    refine ⟨by simp, ?_, ?_⟩
    · intro a oa ea
      rw [List.getElem?_append_left (lt_of_getElem? ea)]
      exact ⟨oa, ea, rfl, SamePublic.refl _⟩
    · intro a ha _
      rw [List.getElem?_append_left ha]
  have hnew : ∀ k v, PublicAttr (h ++ [o]) h.length k v → o.attrs.get? k = some v ∧ IsPublic k := by
    rintro k v ⟨oa, ea, hv, hp⟩
    rw [List.getElem?_append_right (le_refl _)] at ea
    simp at ea
    subst ea
    exact ⟨hv, hp⟩
  have hlen : ∀ a k v, PublicAttr (h ++ [o]) a k v → a < h.length ∨ a = h.length := by
    rintro a k v ⟨oa, ea, _⟩
    have := lt_of_getElem? ea
    rw [List.length_append, List.length_singleton] at this
    omega
  refine ⟨⟨wellNamed_append hg.1 ⟨hn, hk⟩, ?_, ?_⟩, hev⟩
  · intro a k b hp
    rw [List.length_append, List.length_singleton]
    rcases hlen a k _ hp with ha | rfl
    · have := hg.valid ((hev.publicAttr ha k _).mp hp)
      omega
    · obtain ⟨h1, h2⟩ := hnew k _ hp
      have := (hobj k b h1 h2).1
      omega
  · intro a ks c hre
    cases hre with
    | nil => exact hg.pos
    | @cons _ b _ k ks hp hre =>
      rcases hlen a k _ hp with ha | rfl
      · exact hg.2.2 a (k :: ks) c ((hev.reaches hg ha).mp (.cons hp hre))
      · obtain ⟨h1, h2⟩ := hnew k _ hp
        obtain ⟨h3, h4⟩ := hobj k b h1 h2
        exact h4 ks c ((hev.reaches hg h3).mp hre)

theorem goodHeap_trivial {h : Heap} {n : ℕ} (hg : GoodHeap h n) (cls : String) :
    GoodHeap (h ++ [⟨cls, PyDict.empty⟩]) n ∧
      Evolves h (h ++ [⟨cls, PyDict.empty⟩]) (fun _ => False) :=
  goodHeap_append hg (by simp [PyDict.keys, PyDict.empty])
    (by simp [PyDict.keys, PyDict.empty])
    (fun k b h => by simp [PyDict.empty, PyDict.get?, PyDict.lookupList] at h)

/-! ### `fit` of a clustering -/

theorem labelsOf_plain (W : World) (h : Heap) (fuel : ℕ) {r : ℕ} {o : Obj} (e : h[r]? = some o)
    (h1 : o.cls ≠ "FailSafeClustering") (h3 : o.cls ≠ "MapperClustering")
    (h2 : o.cls ≠ "TrivialClustering") (X : List RealArray) :
    labelsOf W h fuel r X = match W.fit o.cls o.attrs X with
      | (_, .error e) => .error e
      | (a, .ok _) => labelsAttr a := by
  unfold labelsOf
  simp only [deref_ok e, ok_bind, if_neg h1, if_neg h2, if_neg h3]
  rfl

theorem labelsOf_trivial (W : World) (h : Heap) (fuel : ℕ) {r : ℕ} {o : Obj} (e : h[r]? = some o)
    (h1 : o.cls = "TrivialClustering") (X : List RealArray) :
    labelsOf W h fuel r X = trivialClustering X := by
  unfold labelsOf
  simp only [deref_ok e, ok_bind, h1]
  rfl

theorem labelsOf_failSafe (W : World) (h : Heap) (fuel : ℕ) {r : ℕ} {o : Obj} (e : h[r]? = some o)
    (h1 : o.cls = "FailSafeClustering") (X : List RealArray) :
    labelsOf W h (fuel + 1) r X =
      match o.attrs.get? "clustering", o.attrs.get? "verbose" with
      | some .none, some _ => failSafe none X
      | some (.obj r'), some _ => failSafe (some (labelsOf W h fuel r')) X
      | _, _ => .error .attributeError := by
  rw [labelsOf]
  simp only [deref_ok e, ok_bind, if_pos h1]
  rfl

theorem labelsOf_failSafe_zero (W : World) (h : Heap) {r : ℕ} {o : Obj} (e : h[r]? = some o)
    (h1 : o.cls = "FailSafeClustering") (X : List RealArray) :
    labelsOf W h 0 r X = .error .diverge := by
  rw [labelsOf]
  simp only [deref_ok e, ok_bind, if_pos h1]

theorem mapper_ne_failSafe {o : Obj} (h1 : o.cls = "MapperClustering") :
    o.cls ≠ "FailSafeClustering" := by
  rw [h1]; decide

/-- The labels of a nested `MapperClustering` with the given parameters. -/
def nestedLabels (W : World) (h : Heap) (fuel : ℕ) (vc vk : Option Val) (X : List RealArray) :
    Py (List ℤ) :=
  match vc, vk with
  | some vc, some vk => do
    let p ← mapperClusteringResult W.setOrder (coverParam W h vc) (clustOr (labelsOf W h fuel) vk)
      (stackRows X) none
    return p.1
  | _, _ => .error .attributeError

theorem labelsOf_mapper (W : World) (h : Heap) (fuel : ℕ) {r : ℕ} {o : Obj} (e : h[r]? = some o)
    (h1 : o.cls = "MapperClustering") (X : List RealArray) :
    labelsOf W h (fuel + 1) r X =
      nestedLabels W h fuel (o.attrs.get? "cover") (o.attrs.get? "clustering") X := by
  rw [labelsOf]
  simp only [deref_ok e, ok_bind, if_neg (mapper_ne_failSafe h1), if_pos h1]
  rfl

theorem labelsOf_mapper_zero (W : World) (h : Heap) {r : ℕ} {o : Obj} (e : h[r]? = some o)
    (h1 : o.cls = "MapperClustering") (X : List RealArray) :
    labelsOf W h 0 r X = .error .diverge := by
  rw [labelsOf]
  simp only [deref_ok e, ok_bind, if_neg (mapper_ne_failSafe h1), if_pos h1]

theorem freshAttrs_same (c : ClassInfo) {a a' : PyDict String Val} (hp : SamePublic a a') :
    freshAttrs c a' = freshAttrs c a := by
  unfold freshAttrs
  congr 1
  refine List.map_congr_left fun e _ => ?_
  by_cases h : isParamPublic e.1 = true
  · rw [if_pos h, if_pos h, hp _ ((isParamPublic_iff _).mp h)]
  · rw [if_neg h, if_neg h]

theorem chartsOf_same {W : World} {h h' : Heap} {r r' : ℕ} {o o' : Obj} (eo : h[r]? = some o)
    (eo' : h'[r']? = some o') (hcls : o'.cls = o.cls) (hp : SamePublic o.attrs o'.attrs) :
    chartsOf W h' r' = chartsOf W h r := by
  funext y
  simp only [chartsOf, deref_ok eo, deref_ok eo', ok_bind, hcls]
  split
  · rfl
  · cases W.classes o.cls with
    | none => rfl
    | some c => simp only [freshAttrs_same c hp]

theorem coverParam_congr {W : World} {h h' : Heap} {T : ℕ → Prop} (hev : Evolves h h' T) {v : Val}
    (hv : ∀ r, v = .obj r → r < h.length) : coverParam W h' v = coverParam W h v := by
  cases v with
  | obj r =>
    obtain ⟨o, eo⟩ : ∃ o, h[r]? = some o := ⟨_, List.getElem?_eq_getElem (hv r rfl)⟩
    obtain ⟨o', eo', hcls, hp⟩ := hev.same r o eo
    exact chartsOf_same eo eo' hcls hp
  | _ => rfl

theorem public_clustering : IsPublic "clustering" := by constructor <;> decide +kernel
theorem public_verbose : IsPublic "verbose" := by constructor <;> decide +kernel
theorem public_cover : IsPublic "cover" := by constructor <;> decide +kernel
theorem private_labels : ¬ IsPublic "labels_" := fun h => h.2 (by decide +kernel)
theorem private_clustering : ¬ IsPublic "_clustering" := fun h => h.1 (by decide +kernel)
theorem private_verbose : ¬ IsPublic "_verbose" := fun h => h.1 (by decide +kernel)

/-- The labels of two objects with the same parameters, if the labels of nested objects agree. -/
theorem labelsOf_same {W : World} (hW : Contract W) {h h' : Heap} {n : ℕ} (hg : GoodHeap h n)
    {T : ℕ → Prop} (hev : Evolves h h' T) {r r' : ℕ} {o o' : Obj} (eo : h[r]? = some o)
    (eo' : h'[r']? = some o') (hcls : o'.cls = o.cls) (hp : SamePublic o.attrs o'.attrs)
    (fuel : ℕ) (X : List RealArray)
    (ih : ∀ m, fuel = m + 1 → ∀ t, t < h.length → labelsOf W h' m t = labelsOf W h m t) :
    labelsOf W h' fuel r' X = labelsOf W h fuel r X := by
  by_cases h1 : o.cls = "FailSafeClustering"
  · cases fuel with
    | zero => rw [labelsOf_failSafe_zero W h eo h1, labelsOf_failSafe_zero W h' eo' (hcls.trans h1)]
    | succ fuel =>
      rw [labelsOf_failSafe W h fuel eo h1, labelsOf_failSafe W h' fuel eo' (hcls.trans h1),
        ← hp _ public_clustering, ← hp _ public_verbose]
      cases hc : o.attrs.get? "clustering" with
      | none => rfl
      | some c =>
        cases c with
        | obj t =>
          have e1 := ih fuel rfl t (hg.valid ⟨o, eo, hc, public_clustering⟩)
          cases o.attrs.get? "verbose" <;> simp only [failSafe, Option.getD, e1]
        | _ => cases o.attrs.get? "verbose" <;> rfl
  · by_cases h3 : o.cls = "MapperClustering"
    · cases fuel with
      | zero => rw [labelsOf_mapper_zero W h eo h3, labelsOf_mapper_zero W h' eo' (hcls.trans h3)]
      | succ fuel =>
        rw [labelsOf_mapper W h fuel eo h3, labelsOf_mapper W h' fuel eo' (hcls.trans h3),
          ← hp _ public_clustering, ← hp _ public_cover]
        cases hc : o.attrs.get? "cover" with
        | none => rfl
        | some vc =>
          cases hk : o.attrs.get? "clustering" with
          | none => rfl
          | some vk =>
            have e1 : coverParam W h' vc = coverParam W h vc := coverParam_congr hev (by
              rintro t rfl
              exact hg.valid ⟨o, eo, hc, public_cover⟩)
            have e2 : clustOr (labelsOf W h' fuel) vk = clustOr (labelsOf W h fuel) vk := by
              cases vk with
              | obj t => exact ih fuel rfl t (hg.valid ⟨o, eo, hk, public_clustering⟩)
              | _ => rfl
            simp only [nestedLabels, e1, e2]
    · by_cases h2 : o.cls = "TrivialClustering"
      · rw [labelsOf_trivial W h _ eo h2, labelsOf_trivial W h' _ eo' (hcls.trans h2)]
      · rw [labelsOf_plain W h _ eo h1 h3 h2, labelsOf_plain W h' _ eo' (hcls ▸ h1) (hcls ▸ h3)
          (hcls ▸ h2), hcls]
        have e1 := hW.fit_result o.cls o.attrs o'.attrs X hp
        have e2 := hW.fit_labels o.cls o.attrs o'.attrs X hp
        revert e1 e2
        generalize W.fit o.cls o.attrs X = p
        generalize W.fit o.cls o'.attrs X = p'
        obtain ⟨a, res⟩ := p
        obtain ⟨a', res'⟩ := p'
        rintro (rfl : res = res') e2
        cases res with
        | error e => rfl
        | ok u => simp only [labelsAttr, e2 rfl]

/-- The labels depend only on the parameters. -/
theorem labelsOf_congr {W : World} (hW : Contract W) {h h' : Heap} {n : ℕ} (hg : GoodHeap h n)
    {T : ℕ → Prop} (hev : Evolves h h' T) (X : List RealArray) (fuel r : ℕ) (hlt : r < h.length) :
    labelsOf W h' fuel r X = labelsOf W h fuel r X := by
  induction fuel generalizing r X with
  | zero =>
    obtain ⟨o, eo⟩ : ∃ o, h[r]? = some o := ⟨_, List.getElem?_eq_getElem hlt⟩
    obtain ⟨o', eo', hcls, hp⟩ := hev.same r o eo
    exact labelsOf_same hW hg hev eo eo' hcls hp 0 X (fun m hm => by omega)
  | succ fuel ih =>
    obtain ⟨o, eo⟩ : ∃ o, h[r]? = some o := ⟨_, List.getElem?_eq_getElem hlt⟩
    obtain ⟨o', eo', hcls, hp⟩ := hev.same r o eo
    refine labelsOf_same hW hg hev eo eo' hcls hp _ X fun m hm t ht => ?_
    obtain rfl : fuel = m := by omega
    funext Y
    exact ih Y t ht

/-! ### Nested Mappers -/

theorem ParamsByInit.same {C : Classes} {o o' : Obj} {c : ClassInfo} (hC : ParamsByInit C o c)
    (hcls : o'.cls = o.cls) (hp : SamePublic o.attrs o'.attrs) : ParamsByInit C o' c := by
  refine ⟨hcls ▸ hC.1, hC.2.1, fun k hk => ?_⟩
  rw [← hC.2.2 k hk, ← PyDict.isSome_get?, ← PyDict.isSome_get?, hp k hk]

theorem Cloneable.evolves {W : World} {h h' : Heap} {T : ℕ → Prop} (hev : Evolves h h' T) {v : Val}
    (hc : Cloneable W h v) : Cloneable W h' v := by
  rcases hc with h1 | ⟨r, o, c, hv, eo, hC⟩
  · exact Or.inl h1
  · obtain ⟨o', eo', hcls, hp⟩ := hev.same r o eo
    exact Or.inr ⟨r, o', c, hv, eo', hC.same hcls hp⟩

theorem public_nJobs : IsPublic "n_jobs" := by constructor <;> decide +kernel

/-- A copy of an object is as ready as the object. -/
theorem MapperReady.copy {W : World} {h h' : Heap} {n : ℕ} (hg : GoodHeap h n) {T : ℕ → Prop}
    (hev : Evolves h h' T) {r r' : ℕ} {o o' : Obj} (eo : h[r]? = some o) (eo' : h'[r']? = some o')
    (hcls : o'.cls = o.cls) (hp : SamePublic o.attrs o'.attrs) (hm : MapperReady W h r) :
    MapperReady W h' r' := by
  have key : ∀ (ks : List String) (a : ℕ) (oa oa' : Obj), Reaches h r ks a → h[a]? = some oa →
      oa'.cls = oa.cls → SamePublic oa.attrs oa'.attrs → oa'.cls = "MapperClustering" →
      ∃ vc vk vj, oa'.attrs.get? "cover" = some vc ∧ oa'.attrs.get? "clustering" = some vk ∧
        oa'.attrs.get? "n_jobs" = some vj ∧ Cloneable W h' vc ∧ Cloneable W h' vk := by
    intro ks a oa oa' hre ea hc hs hcl
    obtain ⟨vc, vk, vj, h1, h2, h3, h4, h5⟩ := hm ks a oa hre ea (hc ▸ hcl)
    exact ⟨vc, vk, vj, by rw [← hs _ public_cover, h1], by rw [← hs _ public_clustering, h2],
      by rw [← hs _ public_nJobs, h3], h4.evolves hev, h5.evolves hev⟩
  intro ks a oa hre ea hcl
  cases hre with
  | nil =>
    rw [eo'] at ea
    cases ea
    exact key [] r o o' (.nil _) eo hcls hp hcl
  | @cons _ b _ k ks hpa hre =>
    obtain ⟨oo, eoo, hk, hpub⟩ := hpa
    rw [eo'] at eoo
    cases eoo
    have hpa : PublicAttr h r k (.obj b) := ⟨o, eo, by rw [hp k hpub]; exact hk, hpub⟩
    rw [hev.reaches hg (hg.valid hpa)] at hre
    have hlt : a < h.length := reaches_lt hg hre (hg.valid hpa)
    obtain ⟨ob, eb⟩ : ∃ ob, h[a]? = some ob := ⟨_, List.getElem?_eq_getElem hlt⟩
    obtain ⟨ob', eb', hc', hs'⟩ := hev.same a ob eb
    rw [ea] at eb'
    cases eb'
    exact key (k :: ks) a ob oa (.cons hpa hre) eb hc' hs' hcl

theorem MapperReady.evolves {W : World} {h h' : Heap} {n : ℕ} (hg : GoodHeap h n) {T : ℕ → Prop}
    (hev : Evolves h h' T) {r : ℕ} (hlt : r < h.length) (hm : MapperReady W h r) :
    MapperReady W h' r := by
  obtain ⟨o, eo⟩ : ∃ o, h[r]? = some o := ⟨_, List.getElem?_eq_getElem hlt⟩
  obtain ⟨o', eo', hcls, hp⟩ := hev.same r o eo
  exact hm.copy hg hev eo eo' hcls hp

theorem MapperReady.attr {W : World} {h : Heap} {r b : ℕ} {k : String} (hm : MapperReady W h r)
    (hp : PublicAttr h r k (.obj b)) : MapperReady W h b :=
  fun ks a o hre => hm (k :: ks) a o (.cons hp hre)

theorem mapperReady_trivial {W : World} {h : Heap} {r : ℕ} {cls : String}
    (e : h[r]? = some ⟨cls, PyDict.empty⟩) (hne : cls ≠ "MapperClustering") : MapperReady W h r := by
  intro ks a o hre ea hcl
  cases hre with
  | nil =>
    rw [e] at ea
    cases ea
    exact absurd hcl hne
  | cons hp _ =>
    obtain ⟨oo, eoo, hoo, _⟩ := hp
    rw [e] at eoo
    cases eoo
    simp [PyDict.empty, PyDict.get?, PyDict.lookupList] at hoo

/-! ### Shared objects -/

theorem Shared.reaches {h : Heap} {r a : ℕ} (hs : Shared h r a) :
    ∃ ks, ks ≠ [] ∧ Reaches h r ks a := by
  induction hs with
  | wrapped eo _ hk => exact ⟨["clustering"], by simp, .cons ⟨_, eo, hk, public_clustering⟩ (.nil _)⟩
  | inWrapped eo _ hk _ ih =>
    obtain ⟨ks, _, hre⟩ := ih
    exact ⟨"clustering" :: ks, by simp, .cons ⟨_, eo, hk, public_clustering⟩ hre⟩
  | inMapper eo _ hk _ ih =>
    obtain ⟨ks, _, hre⟩ := ih
    exact ⟨"clustering" :: ks, by simp, .cons ⟨_, eo, hk, public_clustering⟩ hre⟩

theorem Shared.evolves {h h' : Heap} {n : ℕ} (hg : GoodHeap h n) {T : ℕ → Prop}
    (hev : Evolves h h' T) {r a : ℕ} (hlt : r < h.length) (hs : Shared h' r a) : Shared h r a := by
  have key : ∀ {r : ℕ} {o : Obj} {b : ℕ}, r < h.length → h'[r]? = some o →
      o.attrs.get? "clustering" = some (.obj b) → ∃ o0, h[r]? = some o0 ∧ o0.cls = o.cls ∧
        o0.attrs.get? "clustering" = some (.obj b) ∧ b < h.length := by
    intro r o b hlt eo hk
    obtain ⟨o', eo', hcls, hp⟩ := hev.same r _ (List.getElem?_eq_getElem hlt)
    rw [eo] at eo'
    cases eo'
    have hk0 := (hp _ public_clustering).trans hk
    exact ⟨_, List.getElem?_eq_getElem hlt, hcls.symm, hk0,
      hg.valid ⟨_, List.getElem?_eq_getElem hlt, hk0, public_clustering⟩⟩
  induction hs with
  | wrapped eo h1 hk =>
    obtain ⟨o0, e0, hc, hk0, _⟩ := key hlt eo hk
    exact .wrapped e0 (hc.trans h1) hk0
  | inWrapped eo h1 hk _ ih =>
    obtain ⟨o0, e0, hc, hk0, hb⟩ := key hlt eo hk
    exact .inWrapped e0 (hc.trans h1) hk0 (ih hb)
  | inMapper eo h1 hk _ ih =>
    obtain ⟨o0, e0, hc, hk0, hb⟩ := key hlt eo hk
    exact .inMapper e0 (hc.trans h1) hk0 (ih hb)

/-- What a copy shares, the original shares. -/
theorem Shared.copy {h h' : Heap} {n : ℕ} (hg : GoodHeap h n) {T : ℕ → Prop}
    (hev : Evolves h h' T) {r t : ℕ} {o ot : Obj} (eo : h[r]? = some o) (et : h'[t]? = some ot)
    (hcls : ot.cls = o.cls) (hp : SamePublic o.attrs ot.attrs) {a : ℕ} (hs : Shared h' t a) :
    Shared h r a := by
  cases hs with
  | wrapped e h1 hk =>
    rw [et] at e
    cases e
    exact .wrapped eo (hcls ▸ h1) (by rw [hp _ public_clustering, hk])
  | inWrapped e h1 hk hs =>
    rw [et] at e
    cases e
    have hk0 := (hp _ public_clustering).trans hk
    exact .inWrapped eo (hcls ▸ h1) hk0
      (hs.evolves hg hev (hg.valid ⟨o, eo, hk0, public_clustering⟩))
  | inMapper e h1 hk hs =>
    rw [et] at e
    cases e
    have hk0 := (hp _ public_clustering).trans hk
    exact .inMapper eo (hcls ▸ h1) hk0
      (hs.evolves hg hev (hg.valid ⟨o, eo, hk0, public_clustering⟩))

theorem not_shared_trivial {h : Heap} {r a : ℕ} {o : Obj} (e : h[r]? = some o)
    (h1 : o.cls ≠ "FailSafeClustering") (h2 : o.cls ≠ "MapperClustering") : ¬ Shared h r a := by
  intro hs
  cases hs with
  | wrapped e' h3 => rw [e] at e'; cases e'; exact h1 h3
  | inWrapped e' h3 => rw [e] at e'; cases e'; exact h1 h3
  | inMapper e' h3 => rw [e] at e'; cases e'; exact h2 h3

theorem SharesNothing.not_shared {h : Heap} {r : ℕ} (hn : SharesNothing h r) (a : ℕ) :
    ¬ Shared h r a := by
  induction hn with
  | failSafe e h1 hk =>
    intro hs
    cases hs with
    | wrapped e' _ hk' => rw [e] at e'; cases e'; rw [hk] at hk'; cases hk'
    | inWrapped e' _ hk' => rw [e] at e'; cases e'; rw [hk] at hk'; cases hk'
    | inMapper e' h2 => rw [e] at e'; cases e'; rw [h1] at h2; exact absurd h2 (by decide)
  | mapper e h1 _ ih =>
    intro hs
    cases hs with
    | wrapped e' h2 => rw [e] at e'; cases e'; rw [h1] at h2; exact absurd h2 (by decide)
    | inWrapped e' h2 => rw [e] at e'; cases e'; rw [h1] at h2; exact absurd h2 (by decide)
    | inMapper e' _ hk hs => rw [e] at e'; cases e'; exact ih _ hk hs
  | other e h1 h2 => exact not_shared_trivial e h1 h2

/-- What `fit` returned and left in `labels_`, compared with the labels expected. -/
def Outcome (h' : Heap) (r : ℕ) (res : Py Unit) (expected : Py (List ℤ)) : Prop :=
  (∃ e, res = .error e ∧ expected = .error e) ∨
    (res = .ok () ∧ ∃ o, h'[r]? = some o ∧ labelsAttr o.attrs = expected)

theorem labelsAttr_set (a : PyDict String Val) (v : Val) :
    labelsAttr (a.set "labels_" v) = match v with
      | .labels l => .ok l
      | _ => .error .typeError := by
  unfold labelsAttr
  rw [PyDict.get?_set, if_pos rfl]
  cases v <;> rfl

theorem labelsAttr_ne_valueError (a : PyDict String Val) : labelsAttr a ≠ .error .valueError := by
  unfold labelsAttr
  split <;> simp

/-- `fit` fits the clusterings nested less than `fuel` levels deep: it leaves the labels expected of them, and
writes to the object and the objects shared with its clones only. -/
def FitSpec (W : World) (n fuel : ℕ) (fit : ℕ → List RealArray → Eff Unit) : Prop :=
  ∀ (r : ℕ) (X : List RealArray) {h : Heap}, GoodHeap h n → r < h.length → MapperReady W h r →
    GoodHeap (fit r X h).2 n ∧ Evolves h (fit r X h).2 (fun a => a = r ∨ Shared h r a) ∧
      Outcome (fit r X h).2 r (fit r X h).1 (labelsOf W h fuel r X)

/-- The part of `FailSafeClustering.fit` after its first three assignments. -/
theorem failSafe_body {W : World} {fuel n r t : ℕ} {fit : ℕ → List RealArray → Eff Unit} {X : List RealArray} {h : Heap} {o : Obj}
    (hg : GoodHeap h n) (eo : h[r]? = some o) (hc : o.attrs.get? "_clustering" = some (.obj t))
    (htr : t < h.length) (hne : r ≠ t) (hne' : ¬ Shared h t r)
    (ih : GoodHeap (fit t X h).2 n ∧
      Evolves h (fit t X h).2 (fun a => a = t ∨ Shared h t a) ∧
      Outcome (fit t X h).2 t (fit t X h).1 (labelsOf W h fuel t X)) :
    let p := tryValueError (failSafeTry fit r X)
      (writeAttr r "labels_" (.labels (X.map fun _ => 0))) h
    GoodHeap p.2 n ∧ Evolves h p.2 (fun a => a = r ∨ a = t ∨ Shared h t a) ∧
      Outcome p.2 r p.1 (failSafe (some (labelsOf W h fuel t)) X) := by
  obtain ⟨hg1, hev1, hout⟩ := ih
  obtain ⟨res, h1, hfit⟩ : ∃ res h1, fit t X h = (res, h1) := ⟨_, _, rfl⟩
  rw [hfit] at hg1 hev1 hout
  simp only at hg1 hev1 hout
  have er : h1[r]? = some o := by
    rw [hev1.frame r (lt_of_getElem? eo) (fun hk => hk.elim hne hne'), eo]
  have ewr := fun v => goodHeap_write hg1 er private_labels v
  have hev2 : ∀ v, Evolves h (h1.set r ⟨o.cls, o.attrs.set "labels_" v⟩)
      (fun a => a = r ∨ a = t ∨ Shared h t a) := fun v =>
    (hev1.weaken (fun _ _ h => Or.inr h)).trans (ewr v).2 (fun a _ h => Or.inl h)
  have eset : ∀ v, (h1.set r ⟨o.cls, o.attrs.set "labels_" v⟩)[r]? =
      some ⟨o.cls, o.attrs.set "labels_" v⟩ := fun v =>
    List.getElem?_set_self (lt_of_getElem? er)
  intro p
  have hrun : failSafeTry fit r X h =
      (fit t X >>= fun _ => readAttr t "labels_" >>= writeAttr r "labels_") h := by
    rw [failSafeTry, run_bind, run_readAttr_some eo hc]
    rfl
  have hbody : (∀ e, res = .error e → failSafeTry fit r X h = (.error e, h1)) ∧
      (res = .ok () → failSafeTry fit r X h =
        (readAttr t "labels_" >>= writeAttr r "labels_") h1) := by
    constructor
    · rintro e rfl
      rw [hrun, run_bind, hfit]
    · rintro rfl
      rw [hrun, run_bind, hfit]
  rcases hout with ⟨e, rfl, hexp⟩ | ⟨rfl, ot, et, hlab⟩
  · -- the wrapped fit raised
    have hbody := hbody.1 e rfl
    by_cases hv : e = .valueError
    · subst hv
      have hp : p = (.ok (), h1.set r ⟨o.cls, o.attrs.set "labels_" (.labels (X.map fun _ => 0))⟩) := by
        show tryValueError _ _ h = _
        unfold tryValueError
        rw [hbody]
        exact run_writeAttr er _ _
      rw [hp]
      refine ⟨(ewr _).1, hev2 _, Or.inr ⟨rfl, _, eset _, ?_⟩⟩
      rw [labelsAttr_set]
      simp [failSafe, hexp]
    · have hp : p = (.error e, h1) := by
        show tryValueError _ _ h = _
        unfold tryValueError
        rw [hbody]
        cases e <;> first | rfl | exact absurd rfl hv
      rw [hp]
      refine ⟨hg1, hev1.weaken (fun _ _ h => Or.inr h), Or.inl ⟨e, rfl, ?_⟩⟩
      simp only [failSafe, Option.getD, hexp]
  · -- it returned
    have hbody := hbody.2 rfl
    rw [run_bind, run_readAttr et] at hbody
    cases hl : ot.attrs.get? "labels_" with
    | none =>
      simp only [hl] at hbody
      have hp : p = (.error .attributeError, h1) := by
        show tryValueError _ _ h = _
        unfold tryValueError
        rw [hbody]
      rw [hp]
      refine ⟨hg1, hev1.weaken (fun _ _ h => Or.inr h), Or.inl ⟨_, rfl, ?_⟩⟩
      have : labelsOf W h fuel t X = .error .attributeError := by
        rw [← hlab]; simp only [labelsAttr, hl]
      simp only [failSafe, Option.getD, this]
    | some v =>
      simp only [hl, run_writeAttr er] at hbody
      have hp : p = (.ok (), h1.set r ⟨o.cls, o.attrs.set "labels_" v⟩) := by
        show tryValueError _ _ h = _
        unfold tryValueError
        rw [hbody]
      rw [hp]
      refine ⟨(ewr _).1, hev2 _, Or.inr ⟨rfl, _, eset _, ?_⟩⟩
      rw [labelsAttr_set]
      have : labelsOf W h fuel t X = match v with
          | .labels l => .ok l
          | _ => .error .typeError := by
        rw [← hlab]
        simp only [labelsAttr, hl]
        cases v <;> rfl
      simp only [failSafe, Option.getD, this]
      cases v <;> rfl

theorem fitObj_plain (W : World) (fuel depth : ℕ) {h : Heap} {r : ℕ} {o : Obj} (e : h[r]? = some o)
    (h1 : o.cls ≠ "FailSafeClustering") (h3 : o.cls ≠ "MapperClustering")
    (h2 : o.cls ≠ "TrivialClustering") (X : List RealArray) :
    fitObj W fuel depth r X h = ((W.fit o.cls o.attrs X).2,
      h.set r ⟨o.cls, (W.fit o.cls o.attrs X).1⟩) := by
  unfold fitObj
  rw [run_bind, run_readObj e]
  simp only [if_neg h1, if_neg h2, if_neg h3]
  rw [worldFit, run_bind, run_readObj e]
  simp only
  rw [run_bind, run_writeAttrs e]
  rfl

theorem fitObj_trivial (W : World) (fuel depth : ℕ) {h : Heap} {r : ℕ} {o : Obj} (e : h[r]? = some o)
    (h1 : o.cls = "TrivialClustering") (X : List RealArray) :
    fitObj W fuel depth r X h = (.ok (),
      h.set r ⟨o.cls, o.attrs.set "labels_" (.labels (X.map fun _ => 0))⟩) := by
  unfold fitObj
  rw [run_bind, run_readObj e]
  have h2 : o.cls ≠ "FailSafeClustering" := by rw [h1]; decide
  have h3 : o.cls ≠ "MapperClustering" := by rw [h1]; decide
  simp only [if_neg h2, if_neg h3, if_pos h1]
  exact run_writeAttr e _ _

theorem fitObj_failSafe (W : World) (fuel depth : ℕ) {h : Heap} {r : ℕ} {o : Obj}
    (e : h[r]? = some o) (h1 : o.cls = "FailSafeClustering") (X : List RealArray) :
    fitObj W fuel (depth + 1) r X h = failSafeFit (fitObj W fuel depth) r X h := by
  rw [fitObj, run_bind, run_readObj e]
  simp only [if_pos h1]

theorem fitObj_failSafe_zero (W : World) (fuel : ℕ) {h : Heap} {r : ℕ} {o : Obj}
    (e : h[r]? = some o) (h1 : o.cls = "FailSafeClustering") (X : List RealArray) :
    fitObj W fuel 0 r X h = (.error .diverge, h) := by
  rw [fitObj, run_bind, run_readObj e]
  simp only [if_pos h1]
  rfl

theorem fitObj_mapper (W : World) (fuel depth : ℕ) {h : Heap} {r : ℕ} {o : Obj}
    (e : h[r]? = some o) (h1 : o.cls = "MapperClustering") (X : List RealArray) :
    fitObj W fuel (depth + 1) r X h =
      mapperClusteringFitWith W fuel (fitObj W fuel depth) r (stackRows X) none h := by
  rw [fitObj, run_bind, run_readObj e]
  simp only [if_neg (mapper_ne_failSafe h1), if_pos h1]

theorem fitObj_mapper_zero (W : World) (fuel : ℕ) {h : Heap} {r : ℕ} {o : Obj}
    (e : h[r]? = some o) (h1 : o.cls = "MapperClustering") (X : List RealArray) :
    fitObj W fuel 0 r X h = (.error .diverge, h) := by
  rw [fitObj, run_bind, run_readObj e]
  simp only [if_neg (mapper_ne_failSafe h1), if_pos h1]
  rfl

/-- `fit` of the clusterings that wrap nothing. -/
theorem fitObj_spec_leaf {W : World} (hW : Contract W) {n : ℕ} (fuel depth r : ℕ) (X : List RealArray)
    {h : Heap} {o : Obj} (hg : GoodHeap h n) (eo : h[r]? = some o)
    (h1 : o.cls ≠ "FailSafeClustering") (h3 : o.cls ≠ "MapperClustering") :
    GoodHeap (fitObj W fuel depth r X h).2 n ∧
      Evolves h (fitObj W fuel depth r X h).2 (fun a => a = r ∨ Shared h r a) ∧
      Outcome (fitObj W fuel depth r X h).2 r (fitObj W fuel depth r X h).1 (labelsOf W h depth r X) := by
  have hlt := lt_of_getElem? eo
  by_cases h2 : o.cls = "TrivialClustering"
  · rw [fitObj_trivial W fuel depth eo h2, labelsOf_trivial W h depth eo h2]
    obtain ⟨g1, g2⟩ := goodHeap_write hg eo private_labels (.labels (X.map fun _ => 0))
    refine ⟨g1, g2.weaken ?_, Or.inr ⟨rfl, _, List.getElem?_set_self hlt, ?_⟩⟩
    · rintro a _ rfl; exact Or.inl rfl
    · rw [labelsAttr_set]; rfl
  · rw [fitObj_plain W fuel depth eo h1 h3 h2, labelsOf_plain W h depth eo h1 h3 h2]
    obtain ⟨g1, g2⟩ := goodHeap_set hg eo (hW.fit_public o.cls o.attrs X)
      (hW.fit_nodup o.cls o.attrs X (hg.1 r o eo).1)
    refine ⟨g1, g2.weaken ?_, ?_⟩
    · rintro a _ rfl; exact Or.inl rfl
    · cases hres : (W.fit o.cls o.attrs X).2 with
      | error e =>
        refine Or.inl ⟨e, rfl, ?_⟩
        split
        · rename_i he; rw [he] at hres; injection hres with hres; rw [hres]
        · rename_i he; rw [he] at hres; cases hres
      | ok u =>
        refine Or.inr ⟨rfl, _, List.getElem?_set_self hlt, ?_⟩
        split
        · rename_i he; rw [he] at hres; cases hres
        · rename_i he; rw [he]

/-- `fit` of a clustering that wraps another one. -/
theorem failSafeFit_spec {W : World} (hW : Contract W) {n fuel : ℕ}
    {fit : ℕ → List RealArray → Eff Unit} (ih : FitSpec W n fuel fit) (r : ℕ) (X : List RealArray)
    {h : Heap} {o : Obj} (hg : GoodHeap h n) (eo : h[r]? = some o)
    (h1 : o.cls = "FailSafeClustering") (hm : MapperReady W h r) :
    GoodHeap (failSafeFit fit r X h).2 n ∧
      Evolves h (failSafeFit fit r X h).2 (fun a => a = r ∨ Shared h r a) ∧
      Outcome (failSafeFit fit r X h).2 r (failSafeFit fit r X h).1
        (labelsOf W h (fuel + 1) r X) := by
  have hlt := lt_of_getElem? eo
  rw [labelsOf_failSafe W h fuel eo h1]
  have hself : ∀ a, a < h.length → a = r → a = r ∨ Shared h r a := fun _ _ h => Or.inl h
  cases hc : o.attrs.get? "clustering" with
  | none =>
    have : failSafeFit fit r X h = (.error .attributeError, h) := by
      rw [failSafeFit, run_bind, run_readAttr eo, hc]
    rw [this]
    exact ⟨hg, Evolves.refl _ _, Or.inl ⟨_, rfl, rfl⟩⟩
  | some c =>
    -- the object that gets fitted, and the heap after the first assignment
    obtain ⟨inner, h1', hor, hg1, hev1, hinner⟩ : ∃ inner h1',
        orTrivial "TrivialClustering" c h = (.ok inner, h1') ∧ GoodHeap h1' n ∧
        Evolves h h1' (fun _ => False) ∧
        ((c = .none ∧ inner = .obj h.length ∧ h1' = h ++ [⟨"TrivialClustering", PyDict.empty⟩]) ∨
          (c ≠ .none ∧ inner = c ∧ h1' = h)) := by
      cases c with
      | none =>
        obtain ⟨g1, g2⟩ := goodHeap_trivial hg "TrivialClustering"
        exact ⟨_, _, rfl, g1, g2, Or.inl ⟨rfl, rfl, rfl⟩⟩
      | _ => exact ⟨_, _, rfl, hg, Evolves.refl _ _, Or.inr ⟨by simp, rfl, rfl⟩⟩
    have e1 : h1'[r]? = some o := by rw [hev1.frame r hlt (fun h => h), eo]
    obtain ⟨hg2, hev2⟩ := goodHeap_write hg1 e1 private_clustering inner
    have hlt1 := lt_of_getElem? e1
    have e2 := List.getElem?_set_self (a := (⟨o.cls, o.attrs.set "_clustering" inner⟩ : Obj)) hlt1
    have hev02 := (hev1.weaken (T' := fun a => a = r) (fun _ _ h => h.elim)).trans hev2
      (fun a _ h => h)
    have hvb : (o.attrs.set "_clustering" inner).get? "verbose" = o.attrs.get? "verbose" := by
      rw [PyDict.get?_set, if_neg (by decide)]
    cases hv : o.attrs.get? "verbose" with
    | none =>
      have : failSafeFit fit r X h = (.error .attributeError,
          h1'.set r ⟨o.cls, o.attrs.set "_clustering" inner⟩) := by
        rw [failSafeFit, run_bind, run_readAttr_some eo hc]
        simp only
        rw [run_bind, hor]
        simp only
        rw [run_bind, run_writeAttr e1]
        simp only
        rw [run_bind, run_readAttr e2, hvb, hv]
      rw [this]
      refine ⟨hg2, hev02.weaken hself, Or.inl ⟨_, rfl, ?_⟩⟩
      cases c <;> rfl
    | some vb =>
      obtain ⟨hg3, hev3⟩ := goodHeap_write hg2 e2 private_verbose vb
      have hlt2 := lt_of_getElem? e2
      have e3 := List.getElem?_set_self (a := (⟨o.cls, (o.attrs.set "_clustering" inner).set
        "_verbose" vb⟩ : Obj)) hlt2
      have hev03 := hev02.trans hev3 (fun a _ h => h)
      simp only at hg3 hev3 e3 hev03
      obtain ⟨h3, eh3⟩ : ∃ h3, h3 = (h1'.set r ⟨o.cls, o.attrs.set "_clustering" inner⟩).set r
        ⟨o.cls, (o.attrs.set "_clustering" inner).set "_verbose" vb⟩ := ⟨_, rfl⟩
      rw [← eh3] at hg3 hev3 e3 hev03
      have hrun : failSafeFit fit r X h =
          tryValueError (failSafeTry fit r X)
            (writeAttr r "labels_" (.labels (X.map fun _ => 0))) h3 := by
        rw [failSafeFit, run_bind, run_readAttr_some eo hc]
        simp only
        rw [run_bind, hor]
        simp only
        rw [run_bind, run_writeAttr e1]
        simp only
        rw [run_bind, run_readAttr e2, hvb, hv]
        simp only
        rw [run_bind, run_writeAttr e2, eh3]
      have hcl : ((o.attrs.set "_clustering" inner).set "_verbose" vb).get? "_clustering" =
          some inner := by
        rw [PyDict.get?_set, if_neg (by decide), PyDict.get?_set, if_pos rfl]
      by_cases hobj : ∃ t, inner = .obj t
      · obtain ⟨t, rfl⟩ := hobj
        have ht1 : t < h1'.length := by
          rcases hinner with ⟨_, h5, h6⟩ | ⟨_, h5, h6⟩
          · injection h5 with h5
            rw [h6, h5]; simp
          · subst h6
            exact hg.valid ⟨o, eo, by rw [hc, ← h5], public_clustering⟩
        have hle : h1'.length ≤ h3.length := by rw [eh3]; simp
        have hev13 : Evolves h1' h3 (fun a => a = r) := hev2.trans hev3 (fun a _ h => h)
        have hne : ∀ ks, ¬ Reaches h3 t ks r := by
          intro ks hk
          rw [hev13.reaches hg1 ht1] at hk
          rcases hinner with ⟨_, h5, h6⟩ | ⟨_, h5, h6⟩
          · injection h5 with h5
            subst h5
            cases hk with
            | nil => omega
            | cons hp _ =>
              obtain ⟨oo, eoo, hoo, _⟩ := hp
              rw [h6, List.getElem?_append_right (le_refl _)] at eoo
              simp at eoo
              subst eoo
              simp [PyDict.empty, PyDict.get?, PyDict.lookupList] at hoo
          · subst h6
            exact not_reaches_self hg ⟨o, eo, by rw [hc, ← h5], public_clustering⟩ hk
        have hm3 : MapperReady W h3 t := by
          refine MapperReady.evolves hg1 hev13 ht1 ?_
          rcases hinner with ⟨_, h5, h6⟩ | ⟨_, h5, h6⟩
          · injection h5 with h5
            subst h5
            exact mapperReady_trivial (cls := "TrivialClustering") (by rw [h6]; simp) (by decide)
          · subst h6
            exact hm.attr ⟨o, eo, by rw [hc, ← h5], public_clustering⟩
        obtain ⟨g1, g2, g3⟩ := failSafe_body (W := W) (fuel := fuel) (X := X) hg3 e3 hcl
          (lt_of_lt_of_le ht1 hle) (fun h => hne [] (h ▸ .nil _))
          (fun h => by obtain ⟨ks, _, hk⟩ := h.reaches; exact hne ks hk) (ih t X hg3 (lt_of_lt_of_le ht1 hle) hm3)
        rw [hrun]
        refine ⟨g1, ?_, ?_⟩
        · refine hev03.weaken hself |>.trans g2 ?_
          have hcase : ∀ a, a < h.length → a = t ∨ Shared h3 t a → Shared h r a := by
            intro a ha hat
            rcases hinner with ⟨_, h5, h6⟩ | ⟨_, h5, h6⟩
            · exfalso
              injection h5 with h5
              subst h5
              have et : h3[h.length]? = some ⟨"TrivialClustering", PyDict.empty⟩ := by
                rw [hev13.frame _ ht1 (by omega), h6]; simp
              rcases hat with rfl | hat
              · omega
              · exact not_shared_trivial et (by decide) (by decide) hat
            · subst h6
              rcases hat with rfl | hat
              · exact .wrapped eo h1 (by rw [hc, ← h5])
              · exact .inWrapped eo h1 (by rw [hc, ← h5]) (hat.evolves hg hev13 ht1)
          rintro a ha (rfl | hat)
          · exact Or.inl rfl
          · exact Or.inr (hcase a ha hat)
        · rcases hinner with ⟨h4, h5, h6⟩ | ⟨h4, h5, h6⟩
          · subst h4
            injection h5 with h5
            subst h5
            have et : h1'[h.length]? = some ⟨"TrivialClustering", PyDict.empty⟩ := by
              rw [h6]; simp
            have elbl : labelsOf W h3 fuel h.length = trivialClustering := by
              funext Y
              rw [labelsOf_congr hW hg1 hev13 Y fuel _ ht1, labelsOf_trivial W h1' fuel et rfl]
            rw [elbl] at g3
            exact g3
          · subst h6
            subst h5
            have elbl : labelsOf W h3 fuel t = labelsOf W h1' fuel t := by
              funext Y
              rw [labelsOf_congr hW hg1 hev13 Y fuel _ ht1]
            rw [elbl] at g3
            exact g3
      · have hrun2 : failSafeFit fit r X h = (.error .attributeError, h3) := by
          rw [hrun]
          have : failSafeTry fit r X h3 = (.error .attributeError, h3) := by
            rw [failSafeTry, run_bind, run_readAttr_some e3 hcl]
            simp only
            rw [run_bind]
            cases inner with
            | obj t => exact absurd ⟨t, rfl⟩ hobj
            | _ => rfl
          unfold tryValueError
          rw [this]
        rw [hrun2]
        refine ⟨hg3, hev03.weaken hself, Or.inl ⟨_, rfl, ?_⟩⟩
        rcases hinner with ⟨_, h5, _⟩ | ⟨h4, h5, _⟩
        · exact absurd ⟨_, h5⟩ hobj
        · subst h5
          cases inner with
          | obj t => exact absurd ⟨t, rfl⟩ hobj
          | none => exact absurd rfl h4
          | _ => rfl

end Verif
