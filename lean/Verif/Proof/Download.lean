import Verif.Spec.Download
import Verif.Proof.StreamlitPage

/-!
# Lemmas: the file with the graph
-/

set_option autoImplicit false

namespace Verif

/-- What can follow a value. -/
def Delim (r : List Char) : Prop := ∀ c ∈ r.head?, c.isDigit = false

theorem digits_append {l l' r r' : List Char} (hl : ∀ c ∈ l, c.isDigit) (hl' : ∀ c ∈ l', c.isDigit)
    (hr : Delim r) (hr' : Delim r') (h : l ++ r = l' ++ r') : l = l' ∧ r = r' := by
  induction l generalizing l' with
  | nil =>
    cases l' with
    | nil => exact ⟨rfl, h⟩
    | cons c l' =>
      rw [List.nil_append] at h
      subst h
      have h1 := hr c (by simp)
      rw [hl' c (by simp)] at h1
      cases h1
  | cons c l ih =>
    cases l' with
    | nil =>
      rw [List.nil_append] at h
      subst h
      have h1 := hr' c (by simp)
      rw [hl c (by simp)] at h1
      cases h1
    | cons c' l' =>
      simp only [List.cons_append, List.cons.injEq] at h
      obtain ⟨rfl, h⟩ := h
      obtain ⟨rfl, rfl⟩ := ih (fun c hc => hl c (by simp [hc])) (fun c hc => hl' c (by simp [hc])) h
      exact ⟨rfl, rfl⟩

theorem toDigits_isDigit (n : ℕ) : ∀ c ∈ Nat.toDigits 10 n, c.isDigit :=
  fun _ hc => Nat.isDigit_of_mem_toDigits (by norm_num) (by norm_num) hc

theorem toDigits_inj {n m : ℕ} (h : Nat.toDigits 10 n = Nat.toDigits 10 m) : n = m := by
  rw [← Nat.ofDigitChars_toDigits (b := 10) (n := n) (by norm_num) (by norm_num), h,
    Nat.ofDigitChars_toDigits (by norm_num) (by norm_num)]

theorem toDigits_head (n : ℕ) : ∃ c l, Nat.toDigits 10 n = c :: l ∧ c.isDigit := by
  cases h : Nat.toDigits 10 n with
  | nil => exact absurd h Nat.toDigits_ne_nil
  | cons c l => exact ⟨c, l, rfl, toDigits_isDigit n c (by rw [h]; simp)⟩

theorem intText_head (i : ℤ) : ∃ c l, intText i = c :: l ∧ (c.isDigit ∨ c = '-') := by
  cases i with
  | ofNat n =>
    obtain ⟨c, l, h, hc⟩ := toDigits_head n
    exact ⟨c, l, h, .inl hc⟩
  | negSucc n => exact ⟨'-', _, rfl, .inr rfl⟩

theorem intText_append {i i' : ℤ} {r r' : List Char} (hr : Delim r) (hr' : Delim r')
    (h : intText i ++ r = intText i' ++ r') : i = i' ∧ r = r' := by
  cases i with
  | ofNat n =>
    cases i' with
    | ofNat m =>
      obtain ⟨h1, h2⟩ := digits_append (toDigits_isDigit n) (toDigits_isDigit m) hr hr' h
      rw [toDigits_inj h1]
      exact ⟨rfl, h2⟩
    | negSucc m =>
      obtain ⟨c, l, h1, hc⟩ := toDigits_head n
      rw [show intText (.ofNat n) = Nat.toDigits 10 n from rfl, h1] at h
      simp only [intText, List.cons_append, List.cons.injEq] at h
      rw [h.1] at hc
      exact absurd hc (by decide)
  | negSucc n =>
    cases i' with
    | ofNat m =>
      obtain ⟨c, l, h1, hc⟩ := toDigits_head m
      rw [show intText (.ofNat m) = Nat.toDigits 10 m from rfl, h1] at h
      simp only [intText, List.cons_append, List.cons.injEq] at h
      rw [← h.1] at hc
      exact absurd hc (by decide)
    | negSucc m =>
      simp only [intText, List.cons_append, List.cons.injEq, true_and] at h
      obtain ⟨h1, h2⟩ := digits_append (toDigits_isDigit _) (toDigits_isDigit _) hr hr' h
      have := toDigits_inj h1
      rw [show n = m by omega]
      exact ⟨rfl, h2⟩

theorem quoted_append {l l' r r' : List Char} (hl : '"' ∉ l) (hl' : '"' ∉ l')
    (h : l ++ '"' :: r = l' ++ '"' :: r') : l = l' ∧ r = r' := by
  induction l generalizing l' with
  | nil =>
    cases l' with
    | nil => simpa using h
    | cons c l' =>
      simp only [List.nil_append, List.cons_append, List.cons.injEq] at h
      exact absurd (by rw [h.1]; simp) hl'
  | cons c l ih =>
    cases l' with
    | nil =>
      simp only [List.nil_append, List.cons_append, List.cons.injEq] at h
      exact absurd (by rw [h.1]; simp) hl
    | cons c' l' =>
      simp only [List.cons_append, List.cons.injEq] at h
      obtain ⟨rfl, h⟩ := h
      obtain ⟨rfl, rfl⟩ := ih (fun hc => hl (by simp [hc])) (fun hc => hl' (by simp [hc])) h
      exact ⟨rfl, rfl⟩

theorem JsonKey.name_plain (k : JsonKey) : '"' ∉ k.name.toList := by cases k <;> decide

theorem JsonKey.name_inj {k k' : JsonKey} (h : k.name.toList = k'.name.toList) : k = k' := by
  cases k <;> cases k' <;> first | rfl | exact absurd h (by decide)

theorem JsonKey.text_append {k k' : JsonKey} {r r' : List Char} (h : k.text ++ r = k'.text ++ r') :
    k = k' ∧ r = r' := by
  unfold JsonKey.text at h
  simp only [List.cons_append, List.append_assoc, List.cons.injEq, true_and, List.nil_append] at h
  obtain ⟨h1, h2⟩ := quoted_append k.name_plain k'.name_plain h
  simp only [List.cons.injEq, true_and] at h2
  exact ⟨JsonKey.name_inj h1, h2⟩

/-- How the text of a value begins. -/
def Json.Begins : Json → Char → Prop
  | .bool true, c => c = 't'
  | .bool false, c => c = 'f'
  | .int _, c => c.isDigit ∨ c = '-'
  | .arr _, c => c = '['
  | .obj _, c => c = '{'

theorem Json.begins (j : Json) : ∃ c l, j.text = c :: l ∧ j.Begins c := by
  cases j with
  | bool b => cases b <;> exact ⟨_, _, by rw [Json.text], rfl⟩
  | int i =>
    obtain ⟨c, l, h, hc⟩ := intText_head i
    exact ⟨c, l, by rw [Json.text]; exact h, hc⟩
  | arr l => exact ⟨_, _, by rw [Json.text], rfl⟩
  | obj l => exact ⟨_, _, by rw [Json.text], rfl⟩

theorem Json.text_ne {j : Json} {c : Char} (hc : c = ']' ∨ c = '}') {r r' : List Char} :
    j.text ++ r ≠ c :: r' := by
  intro h
  obtain ⟨c', l, h1, h2⟩ := j.begins
  rw [h1, List.cons_append, List.cons.injEq] at h
  obtain ⟨rfl, _⟩ := h
  rcases hc with rfl | rfl <;> cases j with
  | bool b => cases b <;> simp [Json.Begins] at h2
  | int i => revert h2; simp only [Json.Begins]; decide
  | arr l => simp [Json.Begins] at h2
  | obj l => simp [Json.Begins] at h2

theorem JsonList.rest_delim (l : JsonList) (r : List Char) : Delim (l.rest ++ r) := by
  cases l <;> simp [JsonList.rest, Delim]

theorem JsonFields.rest_delim (l : JsonFields) (r : List Char) : Delim (l.rest ++ r) := by
  cases l <;> simp [JsonFields.rest, Delim]

/-- Values of different kinds begin differently. -/
theorem Json.same_kind {j j' : Json} {r r' : List Char} (h : j.text ++ r = j'.text ++ r') :
    (∃ b, j = .bool b ∧ j' = .bool b) ∨ (∃ i i', j = .int i ∧ j' = .int i') ∨
      (∃ l l', j = .arr l ∧ j' = .arr l') ∨ ∃ l l', j = .obj l ∧ j' = .obj l' := by
  obtain ⟨c, l, h1, h2⟩ := j.begins
  obtain ⟨c', l', h1', h2'⟩ := j'.begins
  rw [h1, h1', List.cons_append, List.cons_append, List.cons.injEq] at h
  obtain ⟨rfl, _⟩ := h
  have dig : ∀ c : Char, (c.isDigit ∨ c = '-') → c ≠ 't' ∧ c ≠ 'f' ∧ c ≠ '[' ∧ c ≠ '{' := by
    rintro c (hc | rfl)
    · refine ⟨?_, ?_, ?_, ?_⟩ <;> rintro rfl <;> exact absurd hc (by decide)
    · decide
  cases j with
  | bool b =>
    cases j' with
    | bool b' =>
      cases b <;> cases b' <;> simp only [Json.Begins] at h2 h2' <;>
        first | exact .inl ⟨_, rfl, rfl⟩ | exact absurd (h2.symm.trans h2') (by decide)
    | int i => cases b <;> simp only [Json.Begins] at h2 h2' <;> have := dig c h2' <;> simp_all
    | arr l => cases b <;> simp only [Json.Begins] at h2 h2' <;> exact absurd (h2.symm.trans h2') (by decide)
    | obj l => cases b <;> simp only [Json.Begins] at h2 h2' <;> exact absurd (h2.symm.trans h2') (by decide)
  | int i =>
    have := dig c h2
    cases j' with
    | bool b' => cases b' <;> simp only [Json.Begins] at h2' <;> simp_all
    | int i' => exact .inr (.inl ⟨_, _, rfl, rfl⟩)
    | arr l => simp only [Json.Begins] at h2'; simp_all
    | obj l => simp only [Json.Begins] at h2'; simp_all
  | arr l =>
    simp only [Json.Begins] at h2
    cases j' with
    | bool b' => cases b' <;> simp only [Json.Begins] at h2' <;> exact absurd (h2.symm.trans h2') (by decide)
    | int i' => have := dig c h2'; simp_all
    | arr l' => exact .inr (.inr (.inl ⟨_, _, rfl, rfl⟩))
    | obj l' => exact absurd (h2.symm.trans h2') (by decide)
  | obj l =>
    simp only [Json.Begins] at h2
    cases j' with
    | bool b' => cases b' <;> simp only [Json.Begins] at h2' <;> exact absurd (h2.symm.trans h2') (by decide)
    | int i' => have := dig c h2'; simp_all
    | arr l' => exact absurd (h2.symm.trans h2') (by decide)
    | obj l' => exact .inr (.inr (.inr ⟨_, _, rfl, rfl⟩))

mutual
theorem Json.text_append : ∀ (j j' : Json) (r r' : List Char), Delim r → Delim r' →
    j.text ++ r = j'.text ++ r' → j = j' ∧ r = r'
  | .bool b, j', r, r', hr, hr', h => by
    rcases Json.same_kind h with ⟨b', e, rfl⟩ | ⟨_, _, e, _⟩ | ⟨_, _, e, _⟩ | ⟨_, _, e, _⟩ <;> cases e
    exact ⟨rfl, List.append_cancel_left h⟩
  | .int i, j', r, r', hr, hr', h => by
    rcases Json.same_kind h with ⟨_, e, _⟩ | ⟨_, i', e, rfl⟩ | ⟨_, _, e, _⟩ | ⟨_, _, e, _⟩ <;> cases e
    rw [Json.text, Json.text] at h
    obtain ⟨rfl, rfl⟩ := intText_append hr hr' h
    exact ⟨rfl, rfl⟩
  | .arr l, j', r, r', hr, hr', h => by
    rcases Json.same_kind h with ⟨_, e, _⟩ | ⟨_, _, e, _⟩ | ⟨_, l', e, rfl⟩ | ⟨_, _, e, _⟩ <;> cases e
    rw [Json.text, Json.text, List.cons_append, List.cons_append, List.cons.injEq] at h
    obtain ⟨rfl, rfl⟩ := JsonList.text_append l l' r r' h.2
    exact ⟨rfl, rfl⟩
  | .obj l, j', r, r', hr, hr', h => by
    rcases Json.same_kind h with ⟨_, e, _⟩ | ⟨_, _, e, _⟩ | ⟨_, _, e, _⟩ | ⟨_, l', e, rfl⟩ <;> cases e
    rw [Json.text, Json.text, List.cons_append, List.cons_append, List.cons.injEq] at h
    obtain ⟨rfl, rfl⟩ := JsonFields.text_append l l' r r' h.2
    exact ⟨rfl, rfl⟩

theorem JsonList.text_append : ∀ (l l' : JsonList) (r r' : List Char),
    l.text ++ r = l'.text ++ r' → l = l' ∧ r = r'
  | .nil, .nil, r, r', h => by
    rw [JsonList.text] at h
    exact ⟨rfl, by simpa using h⟩
  | .nil, .cons a l', r, r', h => by
    rw [JsonList.text, JsonList.text, List.append_assoc] at h
    exact absurd h.symm (Json.text_ne (.inl rfl))
  | .cons a l, .nil, r, r', h => by
    rw [JsonList.text, JsonList.text, List.append_assoc] at h
    exact absurd h (Json.text_ne (.inl rfl))
  | .cons a l, .cons a' l', r, r', h => by
    rw [JsonList.text, JsonList.text, List.append_assoc, List.append_assoc] at h
    obtain ⟨rfl, h2⟩ := Json.text_append a a' _ _ (l.rest_delim r) (l'.rest_delim r') h
    obtain ⟨rfl, rfl⟩ := JsonList.rest_append l l' r r' h2
    exact ⟨rfl, rfl⟩

theorem JsonList.rest_append : ∀ (l l' : JsonList) (r r' : List Char),
    l.rest ++ r = l'.rest ++ r' → l = l' ∧ r = r'
  | .nil, .nil, r, r', h => by
    rw [JsonList.rest] at h
    exact ⟨rfl, by simpa using h⟩
  | .nil, .cons a l', r, r', h => by
    rw [JsonList.rest, JsonList.rest] at h
    simp at h
  | .cons a l, .nil, r, r', h => by
    rw [JsonList.rest, JsonList.rest] at h
    simp at h
  | .cons a l, .cons a' l', r, r', h => by
    rw [JsonList.rest, JsonList.rest] at h
    simp only [List.cons_append, List.append_assoc, List.cons.injEq, true_and] at h
    obtain ⟨rfl, h2⟩ := Json.text_append a a' _ _ (l.rest_delim r) (l'.rest_delim r') h
    obtain ⟨rfl, rfl⟩ := JsonList.rest_append l l' r r' h2
    exact ⟨rfl, rfl⟩

theorem JsonFields.text_append : ∀ (l l' : JsonFields) (r r' : List Char),
    l.text ++ r = l'.text ++ r' → l = l' ∧ r = r'
  | .nil, .nil, r, r', h => by
    rw [JsonFields.text] at h
    exact ⟨rfl, by simpa using h⟩
  | .nil, .cons k a l', r, r', h => by
    rw [JsonFields.text, JsonFields.text] at h
    simp [JsonKey.text] at h
  | .cons k a l, .nil, r, r', h => by
    rw [JsonFields.text, JsonFields.text] at h
    simp [JsonKey.text] at h
  | .cons k a l, .cons k' a' l', r, r', h => by
    rw [JsonFields.text, JsonFields.text] at h
    simp only [List.append_assoc] at h
    obtain ⟨rfl, h1⟩ := JsonKey.text_append h
    obtain ⟨rfl, h2⟩ := Json.text_append a a' _ _ (l.rest_delim r) (l'.rest_delim r') h1
    obtain ⟨rfl, rfl⟩ := JsonFields.rest_append l l' r r' h2
    exact ⟨rfl, rfl⟩

theorem JsonFields.rest_append : ∀ (l l' : JsonFields) (r r' : List Char),
    l.rest ++ r = l'.rest ++ r' → l = l' ∧ r = r'
  | .nil, .nil, r, r', h => by
    rw [JsonFields.rest] at h
    exact ⟨rfl, by simpa using h⟩
  | .nil, .cons k a l', r, r', h => by
    rw [JsonFields.rest, JsonFields.rest] at h
    simp at h
  | .cons k a l, .nil, r, r', h => by
    rw [JsonFields.rest, JsonFields.rest] at h
    simp at h
  | .cons k a l, .cons k' a' l', r, r', h => by
    rw [JsonFields.rest, JsonFields.rest] at h
    simp only [List.cons_append, List.append_assoc, List.cons.injEq, true_and] at h
    obtain ⟨rfl, h1⟩ := JsonKey.text_append h
    obtain ⟨rfl, h2⟩ := Json.text_append a a' _ _ (l.rest_delim r) (l'.rest_delim r') h1
    obtain ⟨rfl, rfl⟩ := JsonFields.rest_append l l' r r' h2
    exact ⟨rfl, rfl⟩
end

/-- The text determines the document. -/
theorem Json.text_inj {j j' : Json} (h : j.text = j'.text) : j = j' :=
  (Json.text_append j j' [] [] (by simp [Delim]) (by simp [Delim]) (by simpa using h)).1

/-! ### The document -/

theorem ofList_toList (l : List Json) : (Json.ofList l).toList = l := by
  induction l with
  | nil => rfl
  | cons a l ih => simp [Json.ofList, JsonList.toList, ih]

theorem ofList_inj {l l' : List Json} (h : Json.ofList l = Json.ofList l') : l = l' := by
  rw [← ofList_toList l, h, ofList_toList]

/-- The nodes and the neighbours of a graph name the same nodes, each once. -/
structure Aligned (g : NxGraph) : Prop where
  nodup : g.nodes.keys.Nodup
  keys : g.adj.keys = g.nodes.keys

theorem adjacencyLoop_eq (g : NxGraph) : ∀ (m : List (ℤ × NodeAttr)) (l : List (ℤ × List ℤ)),
    l.map Prod.fst = m.map Prod.fst → (∀ e ∈ m, g.nodes.get? e.1 = some e.2) →
    adjacencyLoop g l = .ok (m.map fun e => nodeJson e.1 e.2, l.map fun e => nbrsJson e.2)
  | [], [], _, _ => rfl
  | (n, a) :: m, (n', nb) :: l, h, hg => by
    simp only [List.map_cons, List.cons.injEq] at h
    obtain ⟨rfl, h⟩ := h
    unfold adjacencyLoop
    rw [dictItem_ok (hg (n', a) (by simp)), ok_bind,
      adjacencyLoop_eq g m l h (fun e he => hg e (by simp [he])), ok_bind]
    rfl

/-- The document for a graph. -/
def graphDoc (g : NxGraph) : Json :=
  .obj (.cons .directed (.bool false) (.cons .multigraph (.bool false)
    (.cons .graph (.arr .nil)
      (.cons .nodes (.arr (Json.ofList (g.nodes.items.map fun e => nodeJson e.1 e.2)))
        (.cons .adjacency (.arr (Json.ofList (g.adj.items.map fun e => nbrsJson e.2))) .nil)))))

theorem adjacencyData_eq {g : NxGraph} (h : Aligned g) : adjacencyData g = .ok (graphDoc g) := by
  unfold adjacencyData
  rw [adjacencyLoop_eq g g.nodes.items g.adj.items h.keys
    (fun e he => PyDict.get?_eq_some_of_mem h.nodup he), ok_bind]
  rfl

theorem nodeJson_inj {n n' : ℤ} {a a' : NodeAttr} (h : nodeJson n a = nodeJson n' a') :
    n = n' ∧ a = a' := by
  have hm : ∀ {l l' : List ℕ}, Json.ofList (l.map fun i : ℕ => Json.int i) =
      Json.ofList (l'.map fun i : ℕ => Json.int i) → l = l' := fun h =>
    List.map_injective_iff.mpr (fun i j h => by simpa using h) (ofList_inj h)
  obtain ⟨s, i⟩ := a
  obtain ⟨s', i'⟩ := a'
  cases s <;> cases i <;> cases s' <;> cases i' <;> simp [nodeJson] at h ⊢
  · exact h
  · exact ⟨h.2, hm h.1⟩
  · exact ⟨h.2, h.1⟩
  · exact ⟨h.2.2, h.1, hm h.2.1⟩

theorem nbrsJson_inj {l l' : List ℤ} (h : nbrsJson l = nbrsJson l') : l = l' := by
  unfold nbrsJson at h
  injection h with h
  exact List.map_injective_iff.mpr (fun i j h => by simpa using h) (ofList_inj h)

theorem graphDoc_inj {g g' : NxGraph} (hg : Aligned g) (hg' : Aligned g')
    (h : graphDoc g = graphDoc g') : g = g' := by
  unfold graphDoc at h
  simp only [Json.obj.injEq, JsonFields.cons.injEq, Json.arr.injEq, true_and, and_true] at h
  have hn : g.nodes.items = g'.nodes.items :=
    List.map_injective_iff.mpr (fun e e' h => by
      obtain ⟨h1, h2⟩ := nodeJson_inj h
      exact Prod.ext h1 h2) (ofList_inj h.1)
  have ha := ofList_inj h.2
  have hk : g.adj.items.map Prod.fst = g'.adj.items.map Prod.fst := by
    have h1 := hg.keys
    have h2 := hg'.keys
    unfold PyDict.keys at h1 h2
    rw [h1, h2, hn]
  have ha : g.adj.items = g'.adj.items := by
    revert ha hk
    generalize g.adj.items = l
    generalize g'.adj.items = l'
    intro ha hk
    induction l generalizing l' with
    | nil => simpa using ha.symm
    | cons e l ih =>
      cases l' with
      | nil => simp at hk
      | cons e' l' =>
        simp only [List.map_cons, List.cons.injEq] at ha hk
        rw [ih l' ha.2 hk.2, Prod.ext hk.1 (nbrsJson_inj ha.1)]
  obtain ⟨⟨_⟩, ⟨_⟩⟩ := g
  obtain ⟨⟨_⟩, ⟨_⟩⟩ := g'
  simp only at hn ha
  rw [hn, ha]

theorem graphDoc_describes (g : NxGraph) : Describes (graphDoc g) g where
  undirected := rfl
  simple := rfl
  nodes := by
    refine ⟨_, rfl, ?_⟩
    rw [ofList_toList, List.forall₂_map_right_iff, List.forall₂_same]
    rintro ⟨n, s, i⟩ _
    refine ⟨?_, ?_, ?_, ?_⟩
    · cases s <;> cases i <;> rfl
    · cases s <;> cases i <;> rfl
    · rintro l rfl
      refine ⟨.arr (Json.ofList (l.map fun i : ℕ => .int i)), ?_, _, rfl, ?_⟩
      · cases s <;> rfl
      · rw [ofList_toList, List.map_map]; rfl
    · rintro rfl
      cases s <;> rfl
  adjacency := by
    refine ⟨_, rfl, ?_⟩
    rw [ofList_toList, List.forall₂_map_right_iff, List.forall₂_same]
    rintro ⟨n, nb⟩ _
    refine ⟨_, rfl, ?_⟩
    rw [ofList_toList, List.forall₂_map_right_iff, List.forall₂_same]
    exact fun _ _ => rfl

/-! ### Graphs of Mapper -/

theorem PyDict.keys_set_congr {A V W : Type} [DecidableEq A] {d : PyDict A V} {d' : PyDict A W}
    (h : d'.keys = d.keys) (k : A) (v : V) (w : W) : (d'.set k w).keys = (d.set k v).keys := by
  rw [PyDict.keys_set, PyDict.keys_set, h]

theorem PyDict.keys_set_found {A V : Type} [DecidableEq A] {d : PyDict A V} {k : A} {a : V}
    (h : d.getItem k = .ok a) (v : V) : (d.set k v).keys = d.keys := by
  rw [PyDict.keys_set, if_pos]
  rw [← PyDict.isSome_get?]
  unfold PyDict.getItem at h
  split at h
  · rename_i e; rw [e]; rfl
  · cases h

theorem addPoint_keys (n : ℕ) : ∀ (l : List ℤ) (g g' : NxGraph), g.adj.keys = g.nodes.keys →
    addPoint n l g = .ok g' → g'.adj.keys = g'.nodes.keys
  | [], g, g', h, e => by cases e; exact h
  | lbl :: rest, g, g', h, e => by
    unfold addPoint at e
    obtain ⟨g1, e1, e⟩ := bind_eq_ok.mp e
    obtain ⟨g2, e2, e⟩ := bind_eq_ok.mp e
    refine addPoint_keys n rest g2 g' ?_ e
    have h0 : (if g.hasNode lbl then g else g.addNode lbl ⟨some 0, some []⟩).adj.keys =
        (if g.hasNode lbl then g else g.addNode lbl ⟨some 0, some []⟩).nodes.keys := by
      split
      · exact h
      · exact PyDict.keys_set_congr h _ _ _
    have h1 : g1.adj.keys = g1.nodes.keys := by
      unfold incrSize at e1
      obtain ⟨a, ha, e1⟩ := bind_eq_ok.mp e1
      split at e1
      · cases e1; exact h0.trans (PyDict.keys_set_found ha _).symm
      · cases e1
    unfold appendId at e2
    obtain ⟨a, ha, e2⟩ := bind_eq_ok.mp e2
    split at e2
    · cases e2; exact h1.trans (PyDict.keys_set_found ha _).symm
    · cases e2

theorem addPoints_keys : ∀ (itm : List (List ℤ)) (n : ℕ) (g g' : NxGraph),
    g.adj.keys = g.nodes.keys → addPoints n itm g = .ok g' → g'.adj.keys = g'.nodes.keys
  | [], _, g, g', h, e => by cases e; exact h
  | l :: itm, n, g, g', h, e => by
    unfold addPoints at e
    obtain ⟨g1, e1, e⟩ := bind_eq_ok.mp e
    exact addPoints_keys itm (n + 1) g1 g' (addPoint_keys n l g g1 h e1) e

theorem addNbr_keys {d d' : PyDict ℤ (List ℤ)} {u v : ℤ} (e : NxGraph.addNbr d u v = .ok d') :
    d'.keys = d.keys := by
  unfold NxGraph.addNbr at e
  obtain ⟨a, ha, e⟩ := bind_eq_ok.mp e
  cases e
  exact PyDict.keys_set_found ha _

theorem addEdge_keys {g g' : NxGraph} {u v : ℤ} (h : g.adj.keys = g.nodes.keys)
    (e : g.addEdge u v = .ok g') : g'.adj.keys = g'.nodes.keys := by
  have he : ∀ (g : NxGraph) (n : ℤ), g.adj.keys = g.nodes.keys →
      (g.ensureNode n).adj.keys = (g.ensureNode n).nodes.keys := by
    intro g n h
    unfold NxGraph.ensureNode
    split
    · exact h
    · exact PyDict.keys_set_congr h _ _ _
  unfold NxGraph.addEdge at e
  obtain ⟨a, ha, e⟩ := bind_eq_ok.mp e
  obtain ⟨b, hb, e⟩ := bind_eq_ok.mp e
  cases e
  exact (addNbr_keys hb).trans ((addNbr_keys ha).trans (he _ v (he _ u h)))

theorem addEdgesFrom_keys (u : ℤ) : ∀ (l : List ℤ) (g g' : NxGraph), g.adj.keys = g.nodes.keys →
    addEdgesFrom u l g = .ok g' → g'.adj.keys = g'.nodes.keys
  | [], g, g', h, e => by cases e; exact h
  | v :: l, g, g', h, e => by
    unfold addEdgesFrom at e
    obtain ⟨nb, _, e⟩ := bind_eq_ok.mp e
    split at e
    · exact addEdgesFrom_keys u l g g' h e
    · obtain ⟨g1, e1, e⟩ := bind_eq_ok.mp e
      exact addEdgesFrom_keys u l g1 g' (addEdge_keys h e1) e

theorem addEdgesOf_keys : ∀ (l : List ℤ) (g g' : NxGraph), g.adj.keys = g.nodes.keys →
    addEdgesOf l g = .ok g' → g'.adj.keys = g'.nodes.keys
  | [], g, g', h, e => by cases e; exact h
  | u :: l, g, g', h, e => by
    unfold addEdgesOf at e
    obtain ⟨g1, e1, e⟩ := bind_eq_ok.mp e
    exact addEdgesOf_keys l g1 g' (addEdgesFrom_keys u l g g1 h e1) e

theorem addEdges_keys : ∀ (itm : List (List ℤ)) (g g' : NxGraph), g.adj.keys = g.nodes.keys →
    addEdges itm g = .ok g' → g'.adj.keys = g'.nodes.keys
  | [], g, g', h, e => by cases e; exact h
  | l :: itm, g, g', h, e => by
    unfold addEdges at e
    obtain ⟨g1, e1, e⟩ := bind_eq_ok.mp e
    exact addEdges_keys itm g1 g' (addEdgesOf_keys l g g1 h e1) e

/-- Whatever the cover and the clustering do, a graph that is returned is aligned. -/
theorem mapperGraph_aligned {S T : Type} {X : List S} {y : List T} {cover : CoverFn T}
    {clust : ClustFn S} {g : NxGraph} (h : mapperGraph X y cover clust = .ok g) : Aligned g := by
  refine ⟨mapperGraph_nodup h, ?_⟩
  unfold mapperGraph at h
  obtain ⟨itm, _, h⟩ := bind_eq_ok.mp h
  obtain ⟨g1, h1, h⟩ := bind_eq_ok.mp h
  exact addEdges_keys itm g1 g (addPoints_keys itm 0 .empty g1 rfl h1) h

end Verif
