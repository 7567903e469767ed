import Verif.Spec.Objects
import Mathlib.Data.List.Infix

/-!
# Lemmas on parameters and `clone`
-/

set_option autoImplicit false

namespace Verif

/-! ### Names -/

theorem isParamPublic_iff (k : String) : isParamPublic k = true ↔ IsPublic k := by
  simp [isParamPublic, IsPublic]

theorem splitUU_ne_nil (l : List Char) : ∀ cur, splitUU l cur ≠ [] := by
  fun_induction splitUU l [] <;> intro cur <;> unfold splitUU <;> simp_all
  split <;> simp_all

theorem joinUU_cons (p : List Char) {l : List (List Char)} (h : l ≠ []) :
    joinUU (p :: l) = p ++ '_' :: '_' :: joinUU l := by
  cases l with
  | nil => exact absurd rfl h
  | cons q r => rfl

theorem joinUU_splitUU (l : List Char) : ∀ cur, joinUU (splitUU l cur) = cur.reverse ++ l := by
  intro cur
  fun_induction splitUU l cur with
  | case1 cur => simp [joinUU]
  | case2 cur c => simp [joinUU]
  | case3 cur c d rest h ih =>
    rw [joinUU_cons _ (splitUU_ne_nil _ _), ih]
    simp [h.1, h.2]
  | case4 cur c d rest h ih => rw [ih]; simp

theorem splitUU_plain (l : List Char) : ∀ cur, ¬ ['_', '_'] <:+: l →
    splitUU l cur = [cur.reverse ++ l] := by
  intro cur hl
  fun_induction splitUU l cur with
  | case1 cur => simp
  | case2 cur c => simp
  | case3 c d rest cur h ih =>
    exact absurd ⟨[], rest, by simp [h.1, h.2]⟩ hl
  | case4 c d rest cur h ih =>
    rw [ih (fun hh => hl (hh.trans (List.suffix_cons _ _).isInfix))]
    simp

theorem splitUU_sep (l s : List Char) : ∀ cur, ¬ ['_', '_'] <:+: l →
    l.getLast? ≠ some '_' →
    splitUU (l ++ '_' :: '_' :: s) cur = (cur.reverse ++ l) :: splitUU s [] := by
  induction l with
  | nil => intro cur _ _; simp [splitUU]
  | cons c t ih =>
    intro cur hl hlast
    cases t with
    | nil =>
      have hc : c ≠ '_' := by simpa using hlast
      simp [splitUU, hc]
    | cons d rest =>
      have hcd : ¬ (c = '_' ∧ d = '_') := by
        rintro ⟨rfl, rfl⟩
        exact hl ⟨[], rest, by simp⟩
      have := ih (c :: cur) (fun hh => hl (hh.trans (List.suffix_cons _ _).isInfix))
        (by simpa using hlast)
      simp only [List.cons_append] at this ⊢
      rw [splitUU, if_neg hcd, this]
      simp

theorem splitParam_good {k : String} (h : GoodName k) : splitParam k = (k, "") := by
  simp [splitParam, splitUU_plain _ _ h.2.2, joinUU]

theorem splitParam_nested {k : String} (h : GoodName k) (s : String) :
    splitParam (k ++ "__" ++ s) = (k, s) := by
  have e : (k ++ "__" ++ s).toList = k.toList ++ '_' :: '_' :: s.toList := by
    simp [String.toList_append]
  simp only [splitParam, e, splitUU_sep _ _ _ h.2.2 h.1.2]
  simp [joinUU_splitUU]

theorem toList_ne_nil {k : String} (h : k ≠ "") : k.toList ≠ [] := by
  intro h0
  apply h
  rw [← String.toList_inj, h0]
  rfl

theorem isPublic_nested {k s : String} (hk : GoodName k) (hs : IsPublic s) (hs' : s ≠ "") :
    IsPublic (k ++ "__" ++ s) := by
  have e : (k ++ "__" ++ s).toList = k.toList ++ '_' :: '_' :: s.toList := by
    simp [String.toList_append]
  have h1 := toList_ne_nil hk.2.1
  have h2 := toList_ne_nil hs'
  unfold IsPublic
  rw [e]
  constructor
  · rw [List.head?_append_of_ne_nil _ h1]; exact hk.1.1
  · rw [List.getLast?_append_of_ne_nil _ (by simp)]
    rw [show '_' :: '_' :: s.toList = ['_', '_'] ++ s.toList from rfl,
      List.getLast?_append_of_ne_nil _ h2]
    exact hs.2

theorem nested_ne_empty (k s : String) : k ++ "__" ++ s ≠ "" := by
  intro h
  have := congrArg String.toList h
  simp [String.toList_append] at this

theorem pathName_cons (k : String) {ks : List String} (h : ks ≠ []) :
    pathName (k :: ks) = k ++ "__" ++ pathName ks := by
  cases ks with
  | nil => exact absurd rfl h
  | cons a b => rfl

theorem pathName_public {ks : List String} (hne : ks ≠ []) (h : ∀ k ∈ ks, GoodName k) :
    IsPublic (pathName ks) ∧ pathName ks ≠ "" := by
  induction ks with
  | nil => exact absurd rfl hne
  | cons k ks ih =>
    cases ks with
    | nil => exact ⟨(h k (by simp)).1, (h k (by simp)).2.1⟩
    | cons a b =>
      obtain ⟨h1, h2⟩ := ih (by simp) (fun x hx => h x (List.mem_cons_of_mem _ hx))
      rw [pathName_cons k (by simp)]
      exact ⟨isPublic_nested (h k (by simp)) h1 h2, nested_ne_empty _ _⟩

theorem pathName_inj {ks ks' : List String} (hne : ks ≠ []) (hne' : ks' ≠ [])
    (h : ∀ k ∈ ks, GoodName k) (h' : ∀ k ∈ ks', GoodName k) (e : pathName ks = pathName ks') :
    ks = ks' := by
  induction ks generalizing ks' with
  | nil => exact absurd rfl hne
  | cons k ks ih =>
    cases ks' with
    | nil => exact absurd rfl hne'
    | cons k' ks' =>
      have hk := h k (by simp)
      have hk' := h' k' (by simp)
      have sp := congrArg splitParam e
      by_cases h1 : ks = []
      · by_cases h2 : ks' = []
        · subst h1; subst h2; simpa [pathName] using e
        · subst h1
          rw [pathName_cons k' h2, splitParam_nested hk'] at sp
          simp only [pathName] at sp
          rw [splitParam_good hk] at sp
          have := congrArg Prod.snd sp
          simp only at this
          exact absurd this.symm
            (pathName_public h2 (fun x hx => h' x (List.mem_cons_of_mem _ hx))).2
      · by_cases h2 : ks' = []
        · subst h2
          rw [pathName_cons k h1, splitParam_nested hk] at sp
          simp only [pathName] at sp
          rw [splitParam_good hk'] at sp
          have := congrArg Prod.snd sp
          simp only at this
          exact absurd this
            (pathName_public h1 (fun x hx => h x (List.mem_cons_of_mem _ hx))).2
        · rw [pathName_cons k h1, pathName_cons k' h2, splitParam_nested hk,
            splitParam_nested hk'] at sp
          have a1 := congrArg Prod.fst sp
          have a2 := congrArg Prod.snd sp
          simp only at a1 a2
          rw [a1, ih h1 h2 (fun x hx => h x (List.mem_cons_of_mem _ hx))
            (fun x hx => h' x (List.mem_cons_of_mem _ hx)) a2]

/-! ### Paths -/

theorem deref_ok {h : Heap} {r : ℕ} {o : Obj} (e : h[r]? = some o) : deref h r = .ok o := by
  simp [deref, e]

theorem deref_eq_ok {h : Heap} {r : ℕ} {o : Obj} : deref h r = .ok o ↔ h[r]? = some o := by
  unfold deref; split <;> simp_all

theorem PublicAttr.good {h : Heap} (hw : WellNamed h) {r : ℕ} {k : String} {v : Val}
    (hp : PublicAttr h r k v) : GoodName k := by
  obtain ⟨o, e, hg, hk⟩ := hp
  exact (hw r o e).2 k ((PyDict.isSome_get? _ _).mp (by rw [hg]; rfl)) hk

theorem Reaches.good {h : Heap} (hw : WellNamed h) {r r' : ℕ} {ks : List String}
    (hr : Reaches h r ks r') : ∀ k ∈ ks, GoodName k := by
  induction hr with
  | nil => simp
  | cons hp _ ih =>
    intro x hx
    rcases List.mem_cons.mp hx with rfl | hx
    · exact hp.good hw
    · exact ih x hx

theorem ParamAt.good {h : Heap} (hw : WellNamed h) {r : ℕ} {ks : List String} {k : String}
    {v : Val} (hp : ParamAt h r ks k v) : ∀ x ∈ ks ++ [k], GoodName x := by
  obtain ⟨r', h1, h2⟩ := hp
  intro x hx
  rcases List.mem_append.mp hx with hx | hx
  · exact h1.good hw x hx
  · rw [List.mem_singleton] at hx
    subst hx
    exact h2.good hw

theorem paramAt_nil {h : Heap} {r : ℕ} {k : String} {v : Val} :
    ParamAt h r [] k v ↔ PublicAttr h r k v := by
  constructor
  · rintro ⟨r', h1, h2⟩
    cases h1
    exact h2
  · intro h1
    exact ⟨r, .nil r, h1⟩

theorem paramAt_cons {h : Heap} {r : ℕ} {k0 : String} {ks : List String} {k : String} {v : Val} :
    ParamAt h r (k0 :: ks) k v ↔ ∃ r', PublicAttr h r k0 (.obj r') ∧ ParamAt h r' ks k v := by
  constructor
  · rintro ⟨r', h1, h2⟩
    cases h1 with
    | cons hp hr => exact ⟨_, hp, _, hr, h2⟩
  · rintro ⟨r', hp, r'', hr, h2⟩
    exact ⟨r'', .cons hp hr, h2⟩

/-! ### `get_params` -/

theorem addNested_get? (k : String) (nested : List (String × Val)) (hn : (nested.map Prod.fst).Nodup)
    (ps : PyDict String Val) (x : String) (v : Val) :
    (addNested k nested ps).get? x = some v ↔
      (∃ s, x = k ++ "__" ++ s ∧ (s, v) ∈ nested) ∨
        ((∀ s, x = k ++ "__" ++ s → s ∉ nested.map Prod.fst) ∧ ps.get? x = some v) := by
  unfold addNested
  induction nested generalizing ps with
  | nil => simp
  | cons e rest ih =>
    obtain ⟨s0, v0⟩ := e
    simp only [List.map_cons, List.nodup_cons] at hn
    rw [List.foldl_cons, ih hn.2]
    simp only [PyDict.get?_set, List.mem_cons, Prod.mk.injEq, List.map_cons, not_or]
    have inj : ∀ s, k ++ "__" ++ s = k ++ "__" ++ s0 → s = s0 := by
      intro s hs
      have := congrArg String.toList hs
      simp only [String.toList_append, List.append_cancel_left_eq] at this
      exact String.toList_inj.mp this
    constructor
    · rintro (⟨s, hx, hm⟩ | ⟨h1, h2⟩)
      · exact Or.inl ⟨s, hx, Or.inr hm⟩
      · split at h2
        · rename_i hx
          simp only [Option.some.injEq] at h2
          exact Or.inl ⟨s0, hx, Or.inl ⟨rfl, h2.symm⟩⟩
        · rename_i hx
          refine Or.inr ⟨fun s hs => ⟨?_, h1 s hs⟩, h2⟩
          rintro rfl
          exact hx hs
    · rintro (⟨s, hx, ⟨rfl, rfl⟩ | hm⟩ | ⟨h1, h2⟩)
      · right
        rw [if_pos hx]
        refine ⟨fun s' hs' => ?_, rfl⟩
        rw [inj s' (hs'.symm.trans hx)]
        exact hn.1
      · exact Or.inl ⟨s, hx, hm⟩
      · right
        refine ⟨fun s hs => (h1 s hs).2, ?_⟩
        rw [if_neg (fun hx => (h1 s0 hx).1 rfl)]
        exact h2

theorem addNested_nodup (k : String) (nested : List (String × Val)) (ps : PyDict String Val)
    (h : ps.keys.Nodup) : (addNested k nested ps).keys.Nodup := by
  unfold addNested
  induction nested generalizing ps with
  | nil => exact h
  | cons e rest ih =>
    rw [List.foldl_cons]
    exact ih _ (PyDict.nodup_keys_set h _ _)

/-- What the entries of the loop mean, for the attributes in `l`. -/
def LoopSpec (h : Heap) (deep : Bool) (l : List (String × Val)) (x : String) (v : Val) : Prop :=
  ∃ k w, (k, w) ∈ l ∧ IsPublic k ∧ ((x = k ∧ v = w) ∨
    (deep = true ∧ ∃ r ks k', w = .obj r ∧ x = k ++ "__" ++ pathName (ks ++ [k']) ∧
      ParamAt h r ks k' v))

theorem splitParam_of_spec {h : Heap} {deep : Bool} {l : List (String × Val)}
    (hg : ∀ k ∈ l.map Prod.fst, IsPublic k → GoodName k) {x : String} {v : Val}
    (hs : LoopSpec h deep l x v) : (splitParam x).1 ∈ l.map Prod.fst := by
  obtain ⟨k, w, hm, hp, ⟨rfl, rfl⟩ | ⟨_, r, ks, k', _, rfl, _⟩⟩ := hs
  · rw [splitParam_good (hg _ (List.mem_map_of_mem hm) hp)]
    exact List.mem_map_of_mem hm
  · rw [splitParam_nested (hg _ (List.mem_map_of_mem hm) hp)]
    exact List.mem_map_of_mem hm

theorem getParamsLoop_ok {h : Heap} (rec : ℕ → Py (PyDict String Val)) (deep : Bool) :
    ∀ (l done : List (String × Val)) (ps : PyDict String Val),
      ((done ++ l).map Prod.fst).Nodup →
      (∀ k ∈ (done ++ l).map Prod.fst, IsPublic k → GoodName k) →
      (deep = true → ∀ k r, (k, Val.obj r) ∈ l → IsPublic k → ∃ q, rec r = .ok q ∧ q.keys.Nodup ∧
        ∀ x v, q.get? x = some v ↔ ∃ ks k', x = pathName (ks ++ [k']) ∧ ParamAt h r ks k' v) →
      ps.keys.Nodup → (∀ x v, ps.get? x = some v ↔ LoopSpec h deep done x v) →
      ∃ q, getParamsLoop rec deep l ps = .ok q ∧ q.keys.Nodup ∧
        ∀ x v, q.get? x = some v ↔ LoopSpec h deep (done ++ l) x v := by
  intro l
  induction l with
  | nil =>
    intro done ps _ _ _ hn hps
    exact ⟨ps, rfl, hn, by simpa using hps⟩
  | cons e rest ih =>
    obtain ⟨k, w⟩ := e
    intro done ps hnd hgood hrec hn hps
    have hsplit : done ++ (k, w) :: rest = (done ++ [(k, w)]) ++ rest := by simp
    have hknew : k ∉ done.map Prod.fst := by
      rw [List.map_append, List.nodup_append] at hnd
      intro hk
      exact hnd.2.2 k hk k (by simp) rfl
    have hdone : ∀ k ∈ done.map Prod.fst, IsPublic k → GoodName k := by
      intro a ha
      exact hgood a (by rw [List.map_append]; exact List.mem_append_left _ ha)
    have hrec' : deep = true → ∀ k r, (k, Val.obj r) ∈ rest → IsPublic k → ∃ q, rec r = .ok q ∧
        q.keys.Nodup ∧
        ∀ x v, q.get? x = some v ↔ ∃ ks k', x = pathName (ks ++ [k']) ∧ ParamAt h r ks k' v :=
      fun hd k r hm => hrec hd k r (List.mem_cons_of_mem _ hm)
    unfold getParamsLoop
    by_cases hpub : isParamPublic k = true
    · rw [if_pos hpub]
      have hp := (isParamPublic_iff k).mp hpub
      have hk := hgood k (by simp) hp
      -- the entry `k` itself is not produced by earlier attributes
      have hfresh : ∀ x v, LoopSpec h deep done x v → (splitParam x).1 ≠ k := by
        intro x v hs hx
        apply hknew
        rw [← hx]
        exact splitParam_of_spec hdone hs
      -- entries for a plain value
      have plain : (∀ r, w = .obj r → deep = true → False) →
          ∀ x v, (ps.set k w).get? x = some v ↔ LoopSpec h deep (done ++ [(k, w)]) x v := by
        intro hw x v
        rw [PyDict.get?_set]
        constructor
        · intro hx
          split at hx
          · rename_i hxk
            simp only [Option.some.injEq] at hx
            exact ⟨k, w, by simp, hp, Or.inl ⟨hxk, hx.symm⟩⟩
          · obtain ⟨k1, w1, hm, h2⟩ := (hps x v).mp hx
            exact ⟨k1, w1, List.mem_append_left _ hm, h2⟩
        · rintro ⟨k1, w1, hm, hp1, h2⟩
          rcases List.mem_append.mp hm with hm | hm
          · have hs : LoopSpec h deep done x v := ⟨k1, w1, hm, hp1, h2⟩
            rw [if_neg]
            · exact (hps x v).mpr hs
            · rintro rfl
              apply hfresh _ _ hs
              rw [splitParam_good hk]
          · simp only [List.mem_singleton, Prod.mk.injEq] at hm
            obtain ⟨rfl, rfl⟩ := hm
            rcases h2 with ⟨rfl, rfl⟩ | ⟨hd, r, _, _, hr, _⟩
            · rw [if_pos rfl]
            · exact absurd hd (fun hd => hw r hr hd)
      rw [hsplit]
      rw [hsplit] at hnd hgood
      by_cases hobj : ∃ r, w = .obj r ∧ deep = true
      · obtain ⟨r, rfl, rfl⟩ := hobj
        obtain ⟨q, eq, hqn, hq⟩ := hrec rfl k r (by simp) hp
        simp only [eq, ok_bind]
        refine ih (done ++ [(k, .obj r)]) _ hnd hgood hrec'
          (addNested_nodup _ _ _ (PyDict.nodup_keys_set hn _ _)) ?_
        intro x v
        rw [addNested_get? k q.items hqn]
        have hmem : ∀ s u, (s, u) ∈ q.items ↔ q.get? s = some u :=
          fun s u => ⟨fun hm => PyDict.get?_eq_some_of_mem hqn hm, PyDict.mem_of_get?_eq_some⟩
        constructor
        · rintro (⟨s, rfl, hm⟩ | ⟨_, hx⟩)
          · obtain ⟨ks, k', rfl, hpa⟩ := (hq s v).mp ((hmem _ _).mp hm)
            exact ⟨k, .obj r, by simp, hp, Or.inr ⟨rfl, r, ks, k', rfl, rfl, hpa⟩⟩
          · rw [PyDict.get?_set] at hx
            split at hx
            · rename_i hxk
              simp only [Option.some.injEq] at hx
              exact ⟨k, .obj r, by simp, hp, Or.inl ⟨hxk, hx.symm⟩⟩
            · obtain ⟨k1, w1, hm, h2⟩ := (hps x v).mp hx
              exact ⟨k1, w1, List.mem_append_left _ hm, h2⟩
        · rintro ⟨k1, w1, hm, hp1, h2⟩
          rcases List.mem_append.mp hm with hm | hm
          · have hs : LoopSpec h true done x v := ⟨k1, w1, hm, hp1, h2⟩
            have hne := hfresh _ _ hs
            right
            refine ⟨?_, ?_⟩
            · rintro s rfl
              rw [splitParam_nested hk] at hne
              exact absurd rfl hne
            · rw [PyDict.get?_set, if_neg]
              · exact (hps x v).mpr hs
              · rintro rfl
                rw [splitParam_good hk] at hne
                exact absurd rfl hne
          · simp only [List.mem_singleton, Prod.mk.injEq] at hm
            obtain ⟨rfl, rfl⟩ := hm
            rcases h2 with ⟨rfl, rfl⟩ | ⟨_, r', ks, k', hr, rfl, hpa⟩
            · right
              refine ⟨?_, by simp⟩
              intro s hs hmem'
              have h3 := congrArg (fun z => (splitParam z).2) hs
              simp only [splitParam_good hk, splitParam_nested hk] at h3
              subst h3
              obtain ⟨⟨s', u⟩, hm', hs'⟩ := List.mem_map.mp hmem'
              simp only at hs'
              subst hs'
              have := congrArg String.toList hs
              simp [String.toList_append] at this
            · cases hr
              left
              exact ⟨_, rfl, (hmem _ _).mpr ((hq _ _).mpr ⟨ks, k', rfl, hpa⟩)⟩
      · have hw : ∀ r, w = .obj r → deep = true → False := fun r h1 h2 => hobj ⟨r, h1, h2⟩
        have key : ∃ q, getParamsLoop rec deep rest (ps.set k w) = .ok q ∧ q.keys.Nodup ∧
            ∀ x v, q.get? x = some v ↔ LoopSpec h deep (done ++ [(k, w)] ++ rest) x v :=
          ih (done ++ [(k, w)]) _ hnd hgood hrec' (PyDict.nodup_keys_set hn _ _) (plain hw)
        cases w with
        | obj r =>
          cases deep with
          | true => exact (hw r rfl rfl).elim
          | false => exact key
        | _ => exact key
    · rw [if_neg hpub]
      have hnp : ¬ IsPublic k := fun hp => hpub ((isParamPublic_iff k).mpr hp)
      rw [hsplit]
      rw [hsplit] at hnd hgood
      refine ih (done ++ [(k, w)]) ps hnd hgood hrec' hn ?_
      intro x v
      rw [hps]
      constructor
      · rintro ⟨k1, w1, hm, h2⟩
        exact ⟨k1, w1, List.mem_append_left _ hm, h2⟩
      · rintro ⟨k1, w1, hm, hp1, h2⟩
        rcases List.mem_append.mp hm with hm | hm
        · exact ⟨k1, w1, hm, hp1, h2⟩
        · simp only [List.mem_singleton, Prod.mk.injEq] at hm
          exact absurd (hm.1 ▸ hp1) hnp

/-- `get_params` on an object of bounded nesting depth. -/
theorem getParams_ok {h : Heap} (hw : WellNamed h) {rank : ℕ → ℕ} (hr : Ranked h rank) :
    ∀ (fuel r : ℕ), r < h.length → rank r < fuel → ∃ q, getParams h fuel r true = .ok q ∧
      q.keys.Nodup ∧
      ∀ x v, q.get? x = some v ↔ ∃ ks k', x = pathName (ks ++ [k']) ∧ ParamAt h r ks k' v := by
  intro fuel
  induction fuel with
  | zero => intro r _ hlt; omega
  | succ fuel ih =>
    intro r hlen hlt
    have eo : h[r]? = some h[r] := List.getElem?_eq_getElem hlen
    obtain ⟨hnd, hgood⟩ := hw r _ eo
    have hmem : ∀ k v, (k, v) ∈ h[r].attrs.items ↔ h[r].attrs.get? k = some v :=
      fun s u => ⟨fun hm => PyDict.get?_eq_some_of_mem hnd hm, PyDict.mem_of_get?_eq_some⟩
    obtain ⟨q, eq, hqn, hq⟩ := getParamsLoop_ok (h := h) (fun r' => getParams h fuel r' true) true
      h[r].attrs.items [] PyDict.empty hnd hgood
      (fun _ k r' hm hp => by
        obtain ⟨h1, h2⟩ := hr r k r' ⟨_, eo, (hmem _ _).mp hm, hp⟩
        exact ih r' h1 (by omega))
      List.nodup_nil (by intro x v; simp [LoopSpec])
    refine ⟨q, by simp only [getParams, deref_ok eo, ok_bind]; exact eq, hqn, ?_⟩
    intro x v
    rw [hq, List.nil_append]
    constructor
    · rintro ⟨k, w, hm, hp, ⟨rfl, rfl⟩ | ⟨_, r', ks, k', rfl, rfl, hpa⟩⟩
      · exact ⟨[], x, rfl, paramAt_nil.mpr ⟨_, eo, (hmem _ _).mp hm, hp⟩⟩
      · refine ⟨k :: ks, k', ?_, paramAt_cons.mpr ⟨r', ⟨_, eo, (hmem _ _).mp hm, hp⟩, hpa⟩⟩
        rw [List.cons_append, pathName_cons _ (by simp)]
    · rintro ⟨ks, k', rfl, hpa⟩
      cases ks with
      | nil =>
        obtain ⟨o, e1, e2, hp⟩ := paramAt_nil.mp hpa
        rw [eo] at e1
        cases e1
        exact ⟨k', v, (hmem _ _).mpr e2, hp, Or.inl ⟨rfl, rfl⟩⟩
      | cons k ks =>
        obtain ⟨r', ⟨o, e1, e2, hp⟩, hpa⟩ := paramAt_cons.mp hpa
        rw [eo] at e1
        cases e1
        refine ⟨k, .obj r', (hmem _ _).mpr e2, hp, Or.inr ⟨rfl, r', ks, k', rfl, ?_, hpa⟩⟩
        rw [List.cons_append, pathName_cons _ (by simp)]

/-- `get_params(deep=False)`. -/
theorem getParams_shallow {h : Heap} (hw : WellNamed h) (fuel r : ℕ) (hlen : r < h.length) :
    ∃ q, getParams h (fuel + 1) r false = .ok q ∧ q.keys.Nodup ∧
      ∀ x v, q.get? x = some v ↔ PublicAttr h r x v := by
  have eo : h[r]? = some h[r] := List.getElem?_eq_getElem hlen
  obtain ⟨hnd, hgood⟩ := hw r _ eo
  have hmem : ∀ k v, (k, v) ∈ h[r].attrs.items ↔ h[r].attrs.get? k = some v :=
    fun s u => ⟨fun hm => PyDict.get?_eq_some_of_mem hnd hm, PyDict.mem_of_get?_eq_some⟩
  obtain ⟨q, eq, hqn, hq⟩ := getParamsLoop_ok (h := h) (fun r' => getParams h fuel r' true) false
    h[r].attrs.items [] PyDict.empty hnd hgood (by simp) List.nodup_nil
    (by intro x v; simp [LoopSpec])
  refine ⟨q, by simp only [getParams, deref_ok eo, ok_bind]; exact eq, hqn, ?_⟩
  intro x v
  rw [hq, List.nil_append]
  constructor
  · rintro ⟨k, w, hm, hp, ⟨rfl, rfl⟩ | ⟨hd, _⟩⟩
    · exact ⟨_, eo, (hmem _ _).mp hm, hp⟩
    · cases hd
  · rintro ⟨o, e1, e2, hp⟩
    rw [eo] at e1
    cases e1
    exact ⟨x, v, (hmem _ _).mpr e2, hp, Or.inl ⟨rfl, rfl⟩⟩

/-! ### `set_params` -/

/-- The entry addresses a parameter of the object itself. -/
def isFlat (e : String × Val) : Bool := (splitParam e.1).2 = ""

/-- What the first loop of `set_params` collects. -/
def collect (ps : List (String × Val)) : List (String × String × Val) :=
  (ps.filter fun e => isParamPublic e.1 && !isFlat e).map
    fun e => ((splitParam e.1).1, (splitParam e.1).2, e.2)

theorem setFlat_nested (C : Classes) (r : ℕ) (ps : List (String × Val)) :
    ∀ (h : Heap) (n : List (String × String × Val)),
    setFlat C r ps h n = (do
      let (h, m) ← setFlat C r ps h []
      return (h, n ++ m)) := by
  induction ps with
  | nil => intro h n; simp [setFlat]
  | cons e rest ih =>
    obtain ⟨k, v⟩ := e
    intro h n
    unfold setFlat
    split
    · split
      · cases hd : deref h r with
        | error e => simp
        | ok o =>
          simp only [ok_bind]
          split
          · exact ih _ _
          · exact ih _ _
      · rw [ih, ih h ([] ++ _)]
        cases setFlat C r rest h [] with
        | error e => simp
        | ok p => simp
    · exact ih _ _

theorem setFlat_eq (C : Classes) (fuel r : ℕ) (ps : List (String × Val)) : ∀ (h : Heap),
    setFlat C r ps h [] = (do
      let h ← assignAll C (fuel + 1) r (ps.filter isFlat) h
      return (h, collect ps)) := by
  induction ps with
  | nil => intro h; simp [setFlat, assignAll, collect]
  | cons e rest ih =>
    obtain ⟨k, v⟩ := e
    intro h
    by_cases hp : isParamPublic k = true
    · by_cases hf : (splitParam k).2 = ""
      · have hflat : isFlat (k, v) = true := by simp [isFlat, hf]
        rw [List.filter_cons_of_pos hflat]
        have hc : collect ((k, v) :: rest) = collect rest := by
          unfold collect
          rw [List.filter_cons_of_neg (by simp [hflat])]
        rw [hc, setFlat, if_pos hp, if_pos hf, assignAll, setParams]
        have e1 : setFlat C r [(k, v)] h [] = (do
            let o ← deref h r
            if hasAttr C o (splitParam k).1 then
              .ok (h.set r { o with attrs := o.attrs.set (splitParam k).1 v }, [])
            else .ok (h, [])) := by
          rw [setFlat, if_pos hp, if_pos hf]
          rfl
        rw [e1]
        cases hd : deref h r with
        | error e => simp
        | ok o =>
          simp only [ok_bind]
          split
          · simp only [ok_bind, setNested]
            exact ih _
          · simp only [ok_bind, setNested]
            exact ih _
      · have hflat : ¬ isFlat (k, v) = true := by simp [isFlat, hf]
        rw [List.filter_cons_of_neg hflat]
        have hc : collect ((k, v) :: rest) =
            ((splitParam k).1, (splitParam k).2, v) :: collect rest := by
          unfold collect
          rw [List.filter_cons_of_pos (by simp [hp, hflat])]
          rfl
        rw [hc]
        unfold setFlat
        simp only [hp, hf, if_true, if_false]
        rw [setFlat_nested, ih]
        cases assignAll C (fuel + 1) r (rest.filter isFlat) h with
        | error e => simp
        | ok h' => simp
    · have hc : collect ((k, v) :: rest) = collect rest := by
        unfold collect
        rw [List.filter_cons_of_neg (by simp [hp])]
      rw [hc]
      have hs : setFlat C r ((k, v) :: rest) h [] = setFlat C r rest h [] := by
        rw [setFlat, if_neg hp]
      rw [hs, ih]
      by_cases hf : isFlat (k, v) = true
      · rw [List.filter_cons_of_pos hf]
        have : setParams C (fuel + 1) h r [(k, v)] = .ok h := by
          simp [setParams, setFlat, hp, setNested]
        rw [assignAll, this]
        simp only [ok_bind]
      · rw [List.filter_cons_of_neg hf]

theorem setNested_eq (C : Classes) (fuel r : ℕ) (ps : List (String × Val)) : ∀ (h : Heap),
    setNested C (setParams C fuel) r (collect ps) h =
      assignAll C (fuel + 1) r (ps.filter fun e => !isFlat e) h := by
  induction ps with
  | nil => intro h; simp [collect, setNested, assignAll]
  | cons e rest ih =>
    obtain ⟨k, v⟩ := e
    intro h
    by_cases hf : isFlat (k, v) = true
    · have hc : collect ((k, v) :: rest) = collect rest := by
        unfold collect
        rw [List.filter_cons_of_neg (by simp [hf])]
      rw [hc, List.filter_cons_of_neg (by simp [hf]), ih]
    · rw [List.filter_cons_of_pos (by simp [hf])]
      have hf' : ¬ (splitParam k).2 = "" := by simpa [isFlat] using hf
      by_cases hp : isParamPublic k = true
      · have hc : collect ((k, v) :: rest) =
            ((splitParam k).1, (splitParam k).2, v) :: collect rest := by
          unfold collect
          rw [List.filter_cons_of_pos (by simp [hp, hf])]
          rfl
        rw [hc, assignAll]
        have e1 : setParams C (fuel + 1) h r [(k, v)] =
            setNested C (setParams C fuel) r [((splitParam k).1, (splitParam k).2, v)] h := by
          simp [setParams, setFlat, hp, hf']
        rw [e1]
        simp only [setNested]
        cases hd : deref h r with
        | error e => simp
        | ok o =>
          simp only [ok_bind]
          split
          · split
            · rename_i r' _
              cases hs : setParams C fuel h r' [((splitParam k).2, v)] with
              | error e => simp
              | ok h' => simp only [ok_bind]; exact ih h'
            · simp
          · simp only [ok_bind]; exact ih h
      · have hc : collect ((k, v) :: rest) = collect rest := by
          unfold collect
          rw [List.filter_cons_of_neg (by simp [hp])]
        have : setParams C (fuel + 1) h r [(k, v)] = .ok h := by
          simp [setParams, setFlat, hp, setNested]
        rw [hc, assignAll, this]
        simp only [ok_bind]
        exact ih h

/-- A call of `set_params` is a sequence of calls with one parameter each: first
the parameters of the object itself, then the nested ones. -/
theorem setParams_eq (C : Classes) (fuel r : ℕ) (ps : List (String × Val)) (h : Heap) :
    setParams C (fuel + 1) h r ps = (do
      let h ← assignAll C (fuel + 1) r (ps.filter isFlat) h
      assignAll C (fuel + 1) r (ps.filter fun e => !isFlat e) h) := by
  unfold setParams
  rw [setFlat_eq C fuel]
  cases assignAll C (fuel + 1) r (ps.filter isFlat) h with
  | error e => simp
  | ok h' =>
    simp only [ok_bind, pure_eq_ok]
    exact setNested_eq C fuel r ps h'

theorem setParams_private (C : Classes) (fuel r : ℕ) (h : Heap) {k : String} (hk : ¬ IsPublic k)
    (v : Val) : setParams C (fuel + 1) h r [(k, v)] = .ok h := by
  have hp : ¬ isParamPublic k = true := fun hp => hk ((isParamPublic_iff k).mp hp)
  simp [setParams, setFlat, hp, setNested]

theorem setParams_flat (C : Classes) (fuel : ℕ) {h : Heap} {r : ℕ} {o : Obj} (eo : h[r]? = some o)
    {k : String} (hk : GoodName k) (v : Val) :
    setParams C (fuel + 1) h r [(k, v)] =
      .ok (if hasAttr C o k then h.set r { o with attrs := o.attrs.set k v } else h) := by
  have hp := (isParamPublic_iff k).mpr hk.1
  simp only [setParams, setFlat, hp, splitParam_good hk, if_true, deref_ok eo, ok_bind]
  split <;> simp [setNested]

theorem setParams_nested (C : Classes) (fuel : ℕ) {h : Heap} {r : ℕ} {o : Obj}
    (eo : h[r]? = some o) {k s : String} (hk : GoodName k) (hs : IsPublic s) (hs' : s ≠ "")
    (v : Val) :
    setParams C (fuel + 1) h r [(k ++ "__" ++ s, v)] =
      if hasAttr C o k then
        match o.attrs.get? k with
        | some (.obj r') => setParams C fuel h r' [(s, v)]
        | _ => .error .attributeError
      else .ok h := by
  have hp := (isParamPublic_iff _).mpr (isPublic_nested hk hs hs')
  simp only [setParams, setFlat, hp, splitParam_nested hk, hs', if_true, if_false, List.nil_append,
    setNested, deref_ok eo, ok_bind]
  split
  · split
    · rename_i r' hg
      rw [hg]
      cases hs : setParams C fuel h r' [(s, v)] <;> simp [hs]
    · rename_i hg
      split
      · rename_i r' hg'
        exact absurd hg' (hg r')
      · rfl
  · rfl

theorem hasAttr_of_get? (C : Classes) {o : Obj} {k : String} {v : Val}
    (hg : o.attrs.get? k = some v) : hasAttr C o k = true := by
  simp [hasAttr, PyDict.contains, hg]

/-- Assigning the parameter at the end of a path changes exactly that attribute. -/
theorem setParams_path (C : Classes) {h : Heap} (w : Val) {r r' : ℕ} {ks : List String}
    (hr : Reaches h r ks r') (hg : ∀ k ∈ ks, GoodName k) {k : String} (hk : GoodName k) {o : Obj}
    (eo : h[r']? = some o) :
    ∀ (fuel : ℕ), ks.length < fuel → setParams C fuel h r [(pathName (ks ++ [k]), w)] =
      .ok (if hasAttr C o k then h.set r' { o with attrs := o.attrs.set k w } else h) := by
  induction hr with
  | nil r =>
    intro fuel hf
    obtain ⟨n, rfl⟩ : ∃ n, fuel = n + 1 := ⟨fuel - 1, by simp at hf; omega⟩
    exact setParams_flat C n eo hk w
  | @cons a b c k0 rest hp hr ih =>
    intro fuel hf
    obtain ⟨n, rfl⟩ : ∃ n, fuel = n + 1 := ⟨fuel - 1, by simp at hf; omega⟩
    obtain ⟨oa, ea, hget, _⟩ := hp
    have hgr : ∀ x ∈ rest ++ [k], GoodName x := by
      intro x hx
      rcases List.mem_append.mp hx with hx | hx
      · exact hg x (List.mem_cons_of_mem _ hx)
      · rw [List.mem_singleton] at hx; subst hx; exact hk
    obtain ⟨h1, h2⟩ := pathName_public (ks := rest ++ [k]) (by simp) hgr
    rw [List.cons_append, pathName_cons _ (by simp),
      setParams_nested C n ea (hg k0 (by simp)) h1 h2, if_pos (hasAttr_of_get? C hget), hget]
    exact ih (fun x hx => hg x (List.mem_cons_of_mem _ hx)) eo n (by simp at hf; omega)

theorem setList_same {l : List (String × Val)} {k : String} {v : Val}
    (hg : PyDict.lookupList l k = some v) : PyDict.setList l k v = l := by
  induction l with
  | nil => simp [PyDict.lookupList] at hg
  | cons e t ih =>
    obtain ⟨a, b⟩ := e
    simp only [PyDict.lookupList] at hg
    simp only [PyDict.setList]
    by_cases h : a = k
    · simp only [h, if_true, Option.some.injEq] at hg ⊢
      rw [hg]
    · simp only [h, if_false] at hg ⊢
      rw [ih hg]

theorem set_same {d : PyDict String Val} {k : String} {v : Val} (hg : d.get? k = some v) :
    d.set k v = d := by
  obtain ⟨l⟩ := d
  exact congrArg PyDict.mk (setList_same hg)

theorem heap_set_same {h : Heap} {r : ℕ} {o : Obj} (eo : h[r]? = some o) : h.set r o = h := by
  apply List.ext_getElem?
  intro i
  rw [List.getElem?_set]
  split
  · rename_i hi
    subst hi
    split
    · exact eo.symm
    · rename_i hlt
      rw [List.getElem?_eq_none (by omega)]
  · rfl

/-- Assigning a parameter the value it has changes nothing. -/
theorem setParams_noop (C : Classes) {h : Heap} (hg : WellNamed h) {r : ℕ} {ks : List String}
    {k : String} {v : Val} (hp : ParamAt h r ks k v) (fuel : ℕ) (hf : ks.length < fuel) :
    setParams C fuel h r [(pathName (ks ++ [k]), v)] = .ok h := by
  have hgood := hp.good hg
  obtain ⟨r', hr, o, eo, hget, _⟩ := hp
  rw [setParams_path C v hr (fun x hx => hgood x (List.mem_append_left _ hx))
    (hgood k (by simp)) eo fuel hf, if_pos (hasAttr_of_get? C hget), set_same hget]
  congr 1
  exact heap_set_same eo

/-! ### `clone` -/

theorem Reaches.rank_le {h : Heap} {rank : ℕ → ℕ} (hr : Ranked h rank) {r r' : ℕ}
    {ks : List String} (hre : Reaches h r ks r') : ks.length + rank r' ≤ rank r := by
  induction hre with
  | nil => simp
  | cons hp _ ih =>
    have := (hr _ _ _ hp).2
    simp only [List.length_cons]
    omega

theorem PublicAttr.mono {h h2 : Heap} (hm : ∀ (r : ℕ) (o : Obj), h[r]? = some o → h2[r]? = some o) {r : ℕ}
    {k : String} {v : Val} (hp : PublicAttr h r k v) : PublicAttr h2 r k v := by
  obtain ⟨o, e, h1⟩ := hp
  exact ⟨o, hm r o e, h1⟩

theorem Reaches.mono {h h2 : Heap} (hm : ∀ (r : ℕ) (o : Obj), h[r]? = some o → h2[r]? = some o) {r r' : ℕ}
    {ks : List String} (hr : Reaches h r ks r') : Reaches h2 r ks r' := by
  induction hr with
  | nil r => exact .nil r
  | cons hp _ ih => exact .cons (hp.mono hm) ih

theorem ParamAt.mono {h h2 : Heap} (hm : ∀ (r : ℕ) (o : Obj), h[r]? = some o → h2[r]? = some o) {r : ℕ}
    {ks : List String} {k : String} {v : Val} (hp : ParamAt h r ks k v) : ParamAt h2 r ks k v := by
  obtain ⟨r', hr, h1⟩ := hp
  exact ⟨r', hr.mono hm, h1.mono hm⟩

/-- Assigning parameters of the object itself, all of them attributes it has. -/
theorem assignAll_flat (C : Classes) (fuel : ℕ) {r : ℕ} (L : List (String × Val)) :
    ∀ {h : Heap} {o : Obj}, h[r]? = some o → (∀ e ∈ L, GoodName e.1 ∧ e.1 ∈ o.attrs.keys) →
      assignAll C (fuel + 1) r L h =
        .ok (h.set r { o with attrs := L.foldl (fun d p => d.set p.1 p.2) o.attrs }) := by
  induction L with
  | nil =>
    intro h o eo _
    simp only [assignAll, List.foldl_nil]
    rw [heap_set_same eo]
  | cons e rest ih =>
    intro h o eo hL
    obtain ⟨k, v⟩ := e
    obtain ⟨hk, hmem⟩ := hL (k, v) (by simp)
    have hlt : r < h.length := by
      rcases Nat.lt_or_ge r h.length with hlt | hge
      · exact hlt
      · rw [List.getElem?_eq_none hge] at eo; cases eo
    obtain ⟨v0, hv0⟩ := Option.isSome_iff_exists.mp ((PyDict.isSome_get? _ _).mpr hmem)
    rw [assignAll, setParams_flat C fuel eo hk, if_pos (hasAttr_of_get? C hv0)]
    simp only [ok_bind]
    rw [ih (o := { o with attrs := o.attrs.set k v })]
    · simp [List.set_set]
    · rw [List.getElem?_set_self hlt]
    · intro e he
      obtain ⟨h1, h2⟩ := hL e (List.mem_cons_of_mem _ he)
      refine ⟨h1, ?_⟩
      simp only [PyDict.keys_set, if_pos hmem]
      exact h2

theorem assignAll_noop (C : Classes) (fuel : ℕ) {r : ℕ} {h : Heap} (L : List (String × Val))
    (hL : ∀ e ∈ L, setParams C fuel h r [e] = .ok h) : assignAll C fuel r L h = .ok h := by
  induction L with
  | nil => rfl
  | cons e rest ih =>
    rw [assignAll, hL e (by simp)]
    simp only [ok_bind]
    exact ih (fun e he => hL e (List.mem_cons_of_mem _ he))

theorem foldl_set_keys (L : List (String × Val)) : ∀ (d : PyDict String Val),
    (∀ e ∈ L, e.1 ∈ d.keys) → (L.foldl (fun d p => d.set p.1 p.2) d).keys = d.keys := by
  induction L with
  | nil => intro d _; rfl
  | cons e rest ih =>
    intro d hL
    rw [List.foldl_cons]
    have hk : (d.set e.1 e.2).keys = d.keys := by
      rw [PyDict.keys_set, if_pos (hL e (by simp))]
    rw [ih _ (fun x hx => by rw [hk]; exact hL x (List.mem_cons_of_mem _ hx)), hk]

/-- Looking up after assigning the entries of a dict. -/
theorem foldl_set_lookup (L : List (String × Val)) (hn : (L.map Prod.fst).Nodup) :
    ∀ (d : PyDict String Val) (k : String),
    (∀ v, (k, v) ∈ L → (L.foldl (fun d p => d.set p.1 p.2) d).get? k = some v) ∧
    (k ∉ L.map Prod.fst → (L.foldl (fun d p => d.set p.1 p.2) d).get? k = d.get? k) := by
  induction L with
  | nil => intro d k; simp
  | cons e rest ih =>
    obtain ⟨k0, v0⟩ := e
    intro d k
    simp only [List.map_cons, List.nodup_cons] at hn
    obtain ⟨i1, i2⟩ := ih hn.2 (d.set k0 v0) k
    simp only [List.foldl_cons, List.mem_cons, Prod.mk.injEq, List.map_cons, not_or]
    constructor
    · rintro v (⟨rfl, rfl⟩ | hm)
      · rw [i2 hn.1]; simp
      · exact i1 v hm
    · rintro ⟨h1, h2⟩
      rw [i2 h2]
      simp [h1]

theorem clone_ok {C : Classes} {h : Heap} (hw : WellNamed h) {rank : ℕ → ℕ} (hr : Ranked h rank)
    {r : ℕ} {o : Obj} (eo : h[r]? = some o) {c : ClassInfo} (hC : ParamsByInit C o c) {fuel : ℕ}
    (hf : rank r < fuel) :
    ∃ o', clone C fuel h r = .ok (h ++ [o'], h.length) ∧ o'.cls = o.cls ∧
      o'.attrs.keys = c.init.keys ∧
      (∀ k, IsPublic k → o'.attrs.get? k = o.attrs.get? k) ∧
      (∀ k, ¬ IsPublic k → o'.attrs.get? k = c.init.get? k) := by
  obtain ⟨hC1, hC2, hC3⟩ := hC
  have hlt : r < h.length := by
    rcases Nat.lt_or_ge r h.length with hlt | hge
    · exact hlt
    · rw [List.getElem?_eq_none hge] at eo; cases eo
  obtain ⟨q, eq, hqn, hq⟩ := getParams_ok hw hr fuel r hlt hf
  have hqmem : ∀ s u, (s, u) ∈ q.items ↔ q.get? s = some u :=
    fun s u => ⟨fun hm => PyDict.get?_eq_some_of_mem hqn hm, PyDict.mem_of_get?_eq_some⟩
  have hgood : ∀ k, k ∈ o.attrs.keys → IsPublic k → GoodName k := (hw r o eo).2
  -- the flat entries
  have hflat : ∀ k v, (k, v) ∈ q.items.filter isFlat ↔ PublicAttr h r k v := by
    intro k v
    rw [List.mem_filter, hqmem, hq]
    constructor
    · rintro ⟨⟨ks, k', rfl, hp⟩, hfl⟩
      cases ks with
      | nil => exact paramAt_nil.mp hp
      | cons k0 ks =>
        exfalso
        have hg := hp.good hw
        rw [List.cons_append, pathName_cons _ (by simp)] at hfl
        simp only [isFlat, splitParam_nested (hg k0 (by simp)), decide_eq_true_eq] at hfl
        exact (pathName_public (ks := ks ++ [k']) (by simp)
          (fun x hx => hg x (by rw [List.cons_append]; exact List.mem_cons_of_mem _ hx))).2 hfl
    · intro hp
      refine ⟨⟨[], k, rfl, paramAt_nil.mpr hp⟩, ?_⟩
      simp [isFlat, splitParam_good (hp.good hw)]
  have hLkeys : ∀ e ∈ q.items.filter isFlat, GoodName e.1 ∧ e.1 ∈ c.init.keys := by
    rintro ⟨k, v⟩ he
    have hp := (hflat k v).mp he
    refine ⟨hp.good hw, ?_⟩
    obtain ⟨o1, e1, e2, hpub⟩ := hp
    rw [eo] at e1
    cases e1
    exact (hC3 k hpub).mp ((PyDict.isSome_get? _ _).mp (by rw [e2]; rfl))
  obtain ⟨o', ho'⟩ : ∃ o' : Obj, o' = ⟨o.cls, (q.items.filter isFlat).foldl
    (fun d p => d.set p.1 p.2) c.init⟩ := ⟨_, rfl⟩
  have enew : (h ++ [(⟨o.cls, c.init⟩ : Obj)])[h.length]? = some (⟨o.cls, c.init⟩ : Obj) := by simp
  have hset : (h ++ [(⟨o.cls, c.init⟩ : Obj)]).set h.length o' = h ++ [o'] := by
    rw [List.set_append_right _ _ (le_refl _)]; simp
  have hLn : ((q.items.filter isFlat).map Prod.fst).Nodup :=
    hqn.sublist (List.filter_sublist.map _)
  have hkeys : o'.attrs.keys = c.init.keys := by
    rw [ho']
    exact foldl_set_keys _ _ (fun e he => (hLkeys e he).2)
  have hpubv : ∀ k, IsPublic k → o'.attrs.get? k = o.attrs.get? k := by
    intro k hk
    by_cases hm : k ∈ o.attrs.keys
    · obtain ⟨v, hv⟩ := Option.isSome_iff_exists.mp ((PyDict.isSome_get? _ _).mpr hm)
      rw [hv, ho']
      exact (foldl_set_lookup _ hLn c.init k).1 v ((hflat k v).mpr ⟨o, eo, hv, hk⟩)
    · have h1 : k ∉ c.init.keys := fun hc => hm ((hC3 k hk).mpr hc)
      rw [(PyDict.get?_eq_none _ _).mpr hm, (PyDict.get?_eq_none _ _).mpr (by rw [hkeys]; exact h1)]
  have hprivv : ∀ k, ¬ IsPublic k → o'.attrs.get? k = c.init.get? k := by
    intro k hk
    rw [ho']
    refine (foldl_set_lookup _ hLn c.init k).2 ?_
    intro hm
    obtain ⟨⟨k1, v1⟩, hm1, rfl⟩ := List.mem_map.mp hm
    obtain ⟨_, _, _, hpub⟩ := (hflat _ _).mp hm1
    exact hk hpub
  have hmono : ∀ (r1 : ℕ) (o1 : Obj), h[r1]? = some o1 → (h ++ [o'])[r1]? = some o1 := by
    intro r1 o1 h1
    have : r1 < h.length := by
      rcases Nat.lt_or_ge r1 h.length with hlt | hge
      · exact hlt
      · rw [List.getElem?_eq_none hge] at h1; cases h1
    rw [List.getElem?_append_left this]
    exact h1
  have hw' : WellNamed (h ++ [o']) := by
    intro r1 o1 h1
    rcases Nat.lt_or_ge r1 h.length with hlt1 | hge
    · rw [List.getElem?_append_left hlt1] at h1
      exact hw r1 o1 h1
    · rw [List.getElem?_append_right hge] at h1
      have : o1 = o' := by
        rcases Nat.eq_zero_or_pos (r1 - h.length) with h0 | h0
        · rw [h0] at h1; simpa using h1.symm
        · rw [List.getElem?_eq_none (by simp; omega)] at h1; cases h1
      subst this
      refine ⟨by rw [hkeys]; exact hC2, ?_⟩
      intro k hk hpub
      rw [hkeys] at hk
      exact hgood k ((hC3 k hpub).mpr hk) hpub
  refine ⟨o', ?_, by rw [ho'], hkeys, hpubv, hprivv⟩
  obtain ⟨n, rfl⟩ : ∃ n, fuel = n + 1 := ⟨fuel - 1, by omega⟩
  simp only [clone, eq, ok_bind, deref_ok eo, newObj, hC1]
  rw [setParams_eq, assignAll_flat C n _ enew hLkeys]
  simp only [ok_bind]
  rw [← ho', hset, assignAll_noop]
  · rfl
  · rintro ⟨s, u⟩ he
    rw [List.mem_filter, hqmem, hq] at he
    obtain ⟨⟨ks, k', rfl, hp⟩, hnf⟩ := he
    cases ks with
    | nil =>
      exfalso
      have hp' := paramAt_nil.mp hp
      simp [isFlat, pathName, splitParam_good (hp'.good hw)] at hnf
    | cons k0 ks =>
      obtain ⟨r', hp0, hp1⟩ := paramAt_cons.mp hp
      have hnew : ParamAt (h ++ [o']) h.length (k0 :: ks) k' u := by
        obtain ⟨o1, e1, e2, hpub⟩ := hp0
        rw [eo] at e1
        cases e1
        exact paramAt_cons.mpr ⟨r', ⟨o', by simp, by rw [hpubv k0 hpub, e2], hpub⟩,
          hp1.mono hmono⟩
      refine setParams_noop C hw' hnew (n + 1) ?_
      obtain ⟨r'', hre, _⟩ := hp
      have := hre.rank_le hr
      simp only [List.length_cons] at this ⊢
      omega

/-! ### Clones have the same parameters -/

theorem lt_of_getElem? {h : Heap} {r : ℕ} {o : Obj} (e : h[r]? = some o) : r < h.length := by
  rcases Nat.lt_or_ge r h.length with hlt | hge
  · exact hlt
  · rw [List.getElem?_eq_none hge] at e; cases e

theorem Reaches.of_append {h : Heap} {rank : ℕ → ℕ} (hr : Ranked h rank) {o' : Obj} {r r' : ℕ}
    {ks : List String} (hre : Reaches (h ++ [o']) r ks r') (hlt : r < h.length) :
    Reaches h r ks r' ∧ r' < h.length := by
  induction hre with
  | nil r => exact ⟨.nil r, hlt⟩
  | cons hp _ ih =>
    obtain ⟨o, e, e2, hpub⟩ := hp
    rw [List.getElem?_append_left hlt] at e
    have hp' : PublicAttr h _ _ _ := ⟨o, e, e2, hpub⟩
    obtain ⟨h1, h2⟩ := ih (hr _ _ _ hp').1
    exact ⟨.cons hp' h1, h2⟩

theorem clone_paramAt {h : Heap} {rank : ℕ → ℕ} (hr : Ranked h rank) {r : ℕ} {o o' : Obj}
    (eo : h[r]? = some o) (hpub : ∀ k, IsPublic k → o'.attrs.get? k = o.attrs.get? k)
    (ks : List String) (k : String) (v : Val) :
    ParamAt (h ++ [o']) h.length ks k v ↔ ParamAt h r ks k v := by
  have enew : (h ++ [o'])[h.length]? = some o' := by simp
  have hmono : ∀ (r1 : ℕ) (o1 : Obj), h[r1]? = some o1 → (h ++ [o'])[r1]? = some o1 := by
    intro r1 o1 h1
    rw [List.getElem?_append_left (lt_of_getElem? h1)]
    exact h1
  have hattr : ∀ k v, PublicAttr (h ++ [o']) h.length k v ↔ PublicAttr h r k v := by
    intro k v
    constructor
    · rintro ⟨o1, e1, e2, hp⟩
      rw [enew] at e1
      cases e1
      exact ⟨o, eo, by rw [← hpub k hp]; exact e2, hp⟩
    · rintro ⟨o1, e1, e2, hp⟩
      rw [eo] at e1
      cases e1
      exact ⟨o', enew, by rw [hpub k hp]; exact e2, hp⟩
  cases ks with
  | nil => rw [paramAt_nil, paramAt_nil]; exact hattr k v
  | cons k0 ks =>
    rw [paramAt_cons, paramAt_cons]
    constructor
    · rintro ⟨r', hp, r'', hre, o2, e2, hp2⟩
      have hp' := (hattr _ _).mp hp
      obtain ⟨h1, h2⟩ := hre.of_append hr (hr _ _ _ hp').1
      rw [List.getElem?_append_left h2] at e2
      exact ⟨r', hp', r'', h1, o2, e2, hp2⟩
    · rintro ⟨r', hp, hpa⟩
      exact ⟨r', (hattr _ _).mpr hp, hpa.mono hmono⟩

theorem wellNamed_append {h : Heap} (hw : WellNamed h) {o' : Obj}
    (h1 : o'.attrs.keys.Nodup ∧ ∀ k ∈ o'.attrs.keys, IsPublic k → GoodName k) :
    WellNamed (h ++ [o']) := by
  intro r o e
  rcases Nat.lt_or_ge r h.length with hlt | hge
  · rw [List.getElem?_append_left hlt] at e
    exact hw r o e
  · rw [List.getElem?_append_right hge] at e
    have : o = o' := by
      rcases Nat.eq_zero_or_pos (r - h.length) with h0 | h0
      · rw [h0] at e; simpa using e.symm
      · rw [List.getElem?_eq_none (by simp; omega)] at e; cases e
    subst this
    exact h1

theorem ranked_append {h : Heap} {rank : ℕ → ℕ} (hr : Ranked h rank) {r : ℕ} {o o' : Obj}
    (eo : h[r]? = some o) (hpub : ∀ k, IsPublic k → o'.attrs.get? k = o.attrs.get? k) :
    Ranked (h ++ [o']) (fun a => if a = h.length then rank r else rank a) := by
  intro a k b hp
  obtain ⟨o1, e1, e2, hk⟩ := hp
  rcases Nat.lt_or_ge a h.length with hlt | hge
  · rw [List.getElem?_append_left hlt] at e1
    obtain ⟨h1, h2⟩ := hr a k b ⟨o1, e1, e2, hk⟩
    refine ⟨by simp; omega, ?_⟩
    simp only
    rw [if_neg (by omega), if_neg (by omega)]
    exact h2
  · rw [List.getElem?_append_right hge] at e1
    have h0 : a - h.length = 0 := by
      by_contra hne
      rw [List.getElem?_eq_none (by simp; omega)] at e1; cases e1
    rw [h0] at e1
    have : o1 = o' := by simpa using e1.symm
    subst this
    rw [hpub k hk] at e2
    obtain ⟨h1, h2⟩ := hr r k b ⟨o, eo, e2, hk⟩
    refine ⟨by simp; omega, ?_⟩
    simp only
    rw [if_neg (by omega), if_pos (by omega)]
    exact h2

/-! ### Assigning plain values -/

/-- The heap after assigning attribute `k` of the object at `r'`. -/
theorem publicAttr_set {h : Heap} {r' : ℕ} {o : Obj} (eo : h[r']? = some o) {k : String}
    (w : Val) (a : ℕ) (b : String) (u : Val) :
    PublicAttr (h.set r' { o with attrs := o.attrs.set k w }) a b u ↔
      if a = r' ∧ b = k then u = w ∧ IsPublic k else PublicAttr h a b u := by
  have hlt := lt_of_getElem? eo
  unfold PublicAttr
  rw [List.getElem?_set]
  by_cases ha : r' = a
  · subst ha
    simp only [if_true, hlt, Option.some.injEq, exists_eq_left', PyDict.get?_set, true_and, eo]
    by_cases hb : b = k
    · subst hb; simp [eq_comm]
    · simp [hb]
  · simp [ha, Ne.symm ha]

theorem reaches_congr {h h' : Heap}
    (hc : ∀ a b c, PublicAttr h' a b (.obj c) ↔ PublicAttr h a b (.obj c)) (r r' : ℕ)
    (ks : List String) : Reaches h' r ks r' ↔ Reaches h r ks r' := by
  constructor
  · intro hr
    induction hr with
    | nil r => exact .nil r
    | cons hp _ ih => exact .cons ((hc _ _ _).mp hp) ih
  · intro hr
    induction hr with
    | nil r => exact .nil r
    | cons hp _ ih => exact .cons ((hc _ _ _).mpr hp) ih

theorem publicAttr_unique {h : Heap} {r : ℕ} {k : String} {v w : Val} (h1 : PublicAttr h r k v)
    (h2 : PublicAttr h r k w) : v = w := by
  obtain ⟨o, e, g, _⟩ := h1
  obtain ⟨o', e', g', _⟩ := h2
  rw [e] at e'
  cases e'
  rw [g] at g'
  exact Option.some.inj g'

theorem reaches_unique {h : Heap} {r a : ℕ} {ks : List String} (h1 : Reaches h r ks a) :
    ∀ {b : ℕ}, Reaches h r ks b → a = b := by
  induction h1 with
  | nil r => intro b hb; cases hb; rfl
  | cons hp _ ih =>
    intro b hb
    cases hb with
    | cons hp' hr' =>
      have := publicAttr_unique hp hp'
      cases this
      exact ih hr'

/-! ### Flat and nested names -/

theorem splitUU_tail_nil (l : List Char) : ∀ cur, (splitUU l cur).tail = [] →
    ¬ ['_', '_'] <:+: l := by
  intro cur ht
  fun_induction splitUU l cur with
  | case1 cur => intro h; simpa using h.length_le
  | case2 cur c => intro h; simpa using h.length_le
  | case3 c d rest cur h ih =>
    simp only [List.tail_cons] at ht
    exact absurd ht (splitUU_ne_nil _ _)
  | case4 c d rest cur h ih =>
    rintro hinf
    rcases List.infix_cons_iff.mp hinf with hpre | hinf
    · obtain ⟨t, ht'⟩ := hpre
      simp only [List.cons_append, List.nil_append, List.cons.injEq] at ht'
      exact h ⟨ht'.1.symm, ht'.2.1.symm⟩
    · exact ih ht hinf

theorem isFlat_iff {k : String} (hk : IsPublic k) (v : Val) :
    isFlat (k, v) = !isNestedName k := by
  have key : (splitParam k).2 = "" ↔ ¬ ['_', '_'] <:+: k.toList := by
    constructor
    · intro h
      have hj := joinUU_splitUU k.toList []
      cases hs : splitUU k.toList [] with
      | nil => exact absurd hs (splitUU_ne_nil _ _)
      | cons p t =>
        cases t with
        | nil => exact splitUU_tail_nil _ _ (by rw [hs]; rfl)
        | cons q t =>
          exfalso
          simp only [splitParam, hs, List.tail_cons] at h
          have h' : joinUU (q :: t) = [] := by
            have := congrArg String.toList h
            simpa using this
          rw [hs, joinUU_cons _ (by simp), h'] at hj
          apply hk.2
          simp only [List.reverse_nil, List.nil_append] at hj
          rw [← hj]
          simp
    · intro h
      simp [splitParam, splitUU_plain _ _ h, joinUU]
  by_cases h : ['_', '_'] <:+: k.toList
  · simp [isFlat, isNestedName, key, h]
  · simp [isFlat, isNestedName, key, h]

theorem assignAll_private (C : Classes) (fuel r : ℕ) (ps : List (String × Val)) : ∀ (h : Heap),
    assignAll C (fuel + 1) r ps h =
      assignAll C (fuel + 1) r (ps.filter fun e => isParamPublic e.1) h := by
  induction ps with
  | nil => intro h; rfl
  | cons e rest ih =>
    obtain ⟨k, v⟩ := e
    intro h
    by_cases hp : isParamPublic k = true
    · rw [List.filter_cons_of_pos (by simpa using hp), assignAll, assignAll]
      cases setParams C (fuel + 1) h r [(k, v)] with
      | error e => rfl
      | ok h' => exact ih h'
    · rw [List.filter_cons_of_neg (by simpa using hp), assignAll,
        setParams_private C fuel r h (fun hk => hp ((isParamPublic_iff k).mpr hk))]
      exact ih h

theorem setParams_private_filter (C : Classes) (fuel r : ℕ) (ps : List (String × Val)) (h : Heap) :
    setParams C (fuel + 1) h r ps =
      setParams C (fuel + 1) h r (ps.filter fun e => isParamPublic e.1) := by
  rw [setParams_eq, setParams_eq, assignAll_private C fuel r (ps.filter isFlat)]
  have comm : ∀ p : String × Val → Bool, (ps.filter p).filter (fun e => isParamPublic e.1) =
      (ps.filter fun e => isParamPublic e.1).filter p := by
    intro p
    rw [List.filter_filter, List.filter_filter]
    congr 1
    funext e
    rw [Bool.and_comm]
  rw [comm]
  cases assignAll C (fuel + 1) r ((ps.filter fun e => isParamPublic e.1).filter isFlat) h with
  | error e => rfl
  | ok h' =>
    simp only [ok_bind]
    rw [assignAll_private, comm]

theorem setParams_split (C : Classes) (fuel r : ℕ) (ps : List (String × Val)) (h : Heap)
    (hp : ∀ e ∈ ps, IsPublic e.1) :
    setParams C (fuel + 1) h r ps = (do
      let h ← assignAll C (fuel + 1) r (ps.filter fun e => !isNestedName e.1) h
      assignAll C (fuel + 1) r (ps.filter fun e => isNestedName e.1) h) := by
  rw [setParams_eq]
  have e1 : ps.filter isFlat = ps.filter fun e => !isNestedName e.1 := by
    apply List.filter_congr
    intro e he
    exact isFlat_iff (hp e he) e.2
  have e2 : (ps.filter fun e => !isFlat e) = ps.filter fun e => isNestedName e.1 := by
    apply List.filter_congr
    intro e he
    rw [isFlat_iff (hp e he) e.2, Bool.not_not]
  rw [e1, e2]

end Verif
