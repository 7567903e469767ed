import Verif.Spec.UserHistory
import Verif.Proof.LearnHistory
import Verif.Props.Params

/-!
# Lemmas: histories of `fit` and `set_params`
-/

set_option autoImplicit false

namespace Verif

theorem withParam_eq {h : Heap} {r : ℕ} {o : Obj} (e : h[r]? = some o) (k : String) (v : Val) :
    withParam h r k v = h.set r { o with attrs := o.attrs.set k v } := by
  unfold withParam
  rw [e]

theorem keys_set_of_mem {d : PyDict String Val} {k : String} {old : Val} (hk : d.get? k = some old)
    (v : Val) (x : String) : x ∈ (d.set k v).keys ↔ x ∈ d.keys := by
  rw [← PyDict.isSome_get?, ← PyDict.isSome_get?, PyDict.get?_set]
  split
  · rename_i h
    subst h
    simp [hk]
  · rfl

/-- The paths after an assignment. -/
theorem reaches_withParam {h : Heap} {r : ℕ} {o : Obj}
    (e : h[r]? = some o) {k : String} {v : Val}
    (hac : ∀ b, v = .obj b → ∀ ks, ¬ Reaches h b ks r) {a c : ℕ} {ks : List String}
    (hr : Reaches (h.set r { o with attrs := o.attrs.set k v }) a ks c) :
    Reaches h a ks c ∨ ∃ b ks1 ks2, v = .obj b ∧ ks = ks1 ++ k :: ks2 ∧ Reaches h a ks1 r ∧
      Reaches h b ks2 c := by
  induction hr with
  | nil => exact .inl (.nil _)
  | @cons a a' c k' ks hp hr ih =>
    rw [publicAttr_set e] at hp
    split at hp
    · rename_i heq
      obtain ⟨rfl, rfl⟩ := heq
      rcases ih with h1 | ⟨b, ks1, ks2, hb, _, h1, _⟩
      · exact .inr ⟨a', [], ks, hp.1.symm, rfl, .nil _, h1⟩
      · exact absurd h1 (hac _ hp.1.symm _)
    · rcases ih with h1 | ⟨b, ks1, ks2, hb, rfl, h1, h2⟩
      · exact .inl (.cons hp h1)
      · exact .inr ⟨b, k' :: ks1, ks2, hb, rfl, .cons hp h1, h2⟩

theorem goodHeap_assign {h : Heap} {n : ℕ} (hg : GoodHeap h n) {r : ℕ} {o : Obj}
    (e : h[r]? = some o) {k : String} {old v : Val} (hk : o.attrs.get? k = some old)
    (hlt : ∀ b, v = .obj b → b < h.length)
    (hac : ∀ b, v = .obj b → ∀ ks, ¬ Reaches h b ks r) {m : ℕ} (hm : n ≤ m)
    (hm2 : ∀ b, v = .obj b → 2 * n ≤ m) :
    GoodHeap (h.set r { o with attrs := o.attrs.set k v }) m := by
  refine ⟨?_, ?_, ?_⟩
  · intro a oa ea
    rw [List.getElem?_set] at ea
    split at ea
    · split at ea
      · cases ea
        refine ⟨PyDict.nodup_keys_set (hg.1 r o e).1 k v, fun x hx hp => ?_⟩
        exact (hg.1 r o e).2 x ((keys_set_of_mem hk v x).mp hx) hp
      · cases ea
    · exact hg.1 a oa ea
  · intro a x b hp
    rw [List.length_set]
    rw [publicAttr_set e] at hp
    split at hp
    · exact hlt b hp.1.symm
    · exact hg.2.1 a x b hp
  · intro a ks c hr
    rcases reaches_withParam e hac hr with h1 | ⟨b, ks1, ks2, hb, rfl, h1, h2⟩
    · exact (hg.2.2 _ _ _ h1).trans_le hm
    · have l1 := hg.2.2 _ _ _ h1
      have l2 := hg.2.2 _ _ _ h2
      have l3 := hm2 b hb
      simp only [List.length_append, List.length_cons]
      omega

/-- A path to an object is not affected by assignments to this object. -/
theorem reaches_before {h : Heap} {n : ℕ} (hg : GoodHeap h n) {r : ℕ} {o : Obj}
    (e : h[r]? = some o) (k : String) (v : Val) {a c : ℕ} {ks : List String}
    (hr : Reaches h a ks c) (hc : c = r) :
    Reaches (h.set r { o with attrs := o.attrs.set k v }) a ks c := by
  induction hr with
  | nil => exact .nil _
  | @cons a a' c k' ks hp hr ih =>
    refine .cons ?_ (ih hc)
    rw [publicAttr_set e, if_neg]
    · exact hp
    · rintro ⟨rfl, _⟩
      subst hc
      exact not_reaches_self hg hp hr

/-- Assigning the same parameter on both sides. -/
theorem evolves_assign {S H : Heap} (hev : Evolves S H fun _ => True) {r : ℕ} {o o' : Obj}
    (e' : H[r]? = some o') (hcls : o'.cls = o.cls)
    (hp : SamePublic o.attrs o'.attrs) (k : String) (v : Val) :
    Evolves (S.set r { o with attrs := o.attrs.set k v })
      (H.set r { o' with attrs := o'.attrs.set k v }) fun _ => True := by
  refine ⟨by simpa using hev.grow, ?_, fun _ _ h => absurd trivial h⟩
  intro a oa ea
  rw [List.getElem?_set] at ea
  split at ea
  · rename_i hra
    subst hra
    split at ea
    · cases ea
      refine ⟨{ o' with attrs := o'.attrs.set k v }, ?_, hcls, fun x hx => ?_⟩
      · rw [List.getElem?_set, if_pos rfl, if_pos (lt_of_getElem? e')]
      · simp only [PyDict.get?_set]
        split
        · rfl
        · exact hp x hx
    · cases ea
  · rename_i hra
    rw [List.getElem?_set, if_neg hra]
    exact hev.same a oa ea

/-- Calls of `fit` leave the parameters as the calls of `set_params` make them. -/
theorem runUser_ok {W : World} (hW : Contract W) {n : ℕ} (hn : 2 ≤ n) (fuel : ℕ) {cs : List UserCall}
    {S S' : Heap} (hp : ParamsAfter W n cs S S') : ∀ {H : Heap} {m : ℕ}, GoodHeap S n → GoodHeap H m →
    n ≤ m → 2 ^ objectSets cs * m ≤ fuel → Evolves S H (fun _ => True) →
    GoodHeap S' n ∧ GoodHeap (runUser W fuel cs H) (2 ^ objectSets cs * m) ∧
      Evolves S' (runUser W fuel cs H) (fun _ => True) := by
  induction hp with
  | nil h =>
    intro H m hS hH _ _ hev
    exact ⟨hS, by simpa [objectSets, runUser] using hH, hev⟩
  | @fit c cs h h' clust hv _ ih =>
    intro H m hS hH hm hf hev
    have hmf : m ≤ fuel := le_trans (Nat.le_mul_of_pos_left m (by positivity)) hf
    obtain ⟨hg1, hev1⟩ := run_call hW hmf (hn.trans hm) hH (hv.evolve hS hev)
    exact ih hS hg1 hm hf ((hev.trans hev1 fun _ _ _ => trivial))
  | @set r ks r' k old v cs h h' hre hpa hgood _ ih =>
    intro H m hS hH hm hf hev
    obtain ⟨o, eo, hko, hpub⟩ := hpa
    obtain ⟨o', eo', hcls, hsame⟩ := hev.same r' o eo
    have hko' : o'.attrs.get? k = some old := by rw [← hsame k hpub]; exact hko
    rw [withParam_eq eo] at hgood ih
    have hrlt : ∀ {a b : ℕ} {ks : List String}, Reaches h a ks b → b < h.length → a < h.length := by
      intro a b ks hr hb
      cases hr with
      | nil => exact hb
      | cons hp _ =>
        obtain ⟨o, e, _⟩ := hp
        exact lt_of_getElem? e
    have hrH : Reaches H r ks r' :=
      (hev.reaches hS (hrlt hre (lt_of_getElem? eo))).mpr hre
    have hmem : k ∈ o'.attrs.keys := by
      rw [← PyDict.isSome_get?, hko']; rfl
    have hmf : m ≤ fuel := by
      refine le_trans (Nat.le_mul_of_pos_left m ?_) hf
      positivity
    have hset := C46_assign W.classes hH.1 hrH eo' hpub hmem v fuel
      ((hH.2.2 _ _ _ hrH).trans_le hmf)
    have hrun : runUser W fuel (.set r (pathName (ks ++ [k])) v :: cs) H =
        runUser W fuel cs (H.set r' { o' with attrs := o'.attrs.set k v }) := by
      rw [runUser, UserCall.run, hset]
    rw [hrun]
    have hlt : ∀ b, v = .obj b → b < h.length := by
      rintro b rfl
      have := hgood.2.1 r' k b (by rw [publicAttr_set eo]; simp [hpub])
      simpa using this
    have hac : ∀ b, v = .obj b → ∀ ks, ¬ Reaches H b ks r' := by
      rintro b rfl ks hr
      have hr' := (hev.reaches hS (hlt b rfl)).mp hr
      have hr2 := reaches_before hS eo k (.obj b) hr' rfl
      exact not_reaches_self hgood (k := k) (by rw [publicAttr_set eo]; simp [hpub]) hr2
    have hev' := evolves_assign hev eo' hcls hsame k v
    by_cases hv : ∃ b, v = .obj b
    · obtain ⟨b, rfl⟩ := hv
      have hs : objectSets (.set r (pathName (ks ++ [k])) (.obj b) :: cs) = objectSets cs + 1 := rfl
      rw [hs] at hf ⊢
      have hG := goodHeap_assign hH eo' hko' (fun b hb => (hlt b hb).trans_le hev.grow) hac
        (m := 2 * m) (by omega) (fun _ _ => le_rfl)
      have := ih hgood hG (by omega) (by rw [pow_succ] at hf; linarith) hev'
      rw [pow_succ, mul_assoc]
      exact this
    · have hs : objectSets (.set r (pathName (ks ++ [k])) v :: cs) = objectSets cs := by
        cases v <;> first | rfl | exact absurd ⟨_, rfl⟩ hv
      rw [hs] at hf ⊢
      have hG := goodHeap_assign hH eo' hko' (fun b hb => (hlt b hb).trans_le hev.grow) hac
        (m := m) le_rfl (fun b hb => absurd ⟨b, hb⟩ hv)
      exact ih hgood hG hm hf hev'

end Verif
