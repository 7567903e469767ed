import Mathlib.Tactic.FieldSimp
import Verif.Spec.Frame

/-!
# Lemmas on `fix_data`
-/

set_option autoImplicit false

namespace Verif
variable {K : Type}

open Classical in
theorem usable_filter (f : Frame K) : (dropEmpty (selectNumber f)).columns =
    f.columns.filter fun c => decide c.IsUsable := by
  simp only [dropEmpty, selectNumber, List.filter_filter]
  apply List.filter_congr
  intro c _
  rcases c with ⟨n, l | l⟩
  · simp only [Column.IsUsable, Cells.number.injEq, exists_eq_left', Bool.and_true]
    rw [Bool.eq_iff_iff, List.any_eq_true, decide_eq_true_iff]
    constructor
    · rintro ⟨x, hx, h⟩
      obtain ⟨y, rfl⟩ := Option.isSome_iff_exists.mp h
      exact ⟨y, hx⟩
    · rintro ⟨x, hx⟩
      exact ⟨_, hx, rfl⟩
  · simp [Column.IsUsable]

theorem fillna_cols (values : List (String × Option K)) (hv : (values.map Prod.fst).Nodup) :
    ∀ cols : List (Column K),
    values.foldl (fun cols kv => cols.map fun c =>
      if c.name = kv.1 then ⟨c.name, fillCells kv.2 c.cells⟩ else c) cols =
    cols.map fun c => match values.find? (fun kv => kv.1 == c.name) with
      | some kv => ⟨c.name, fillCells kv.2 c.cells⟩
      | none => c := by
  induction values with
  | nil => intro cols; simp
  | cons kv values ih =>
    intro cols
    rw [List.map_cons, List.nodup_cons] at hv
    rw [List.foldl_cons, ih hv.2, List.map_map]
    apply List.map_congr_left
    intro c _
    simp only [Function.comp, List.find?_cons]
    by_cases h : c.name = kv.1
    · have hn : values.find? (fun kv' => kv'.1 == kv.1) = none := by
        rw [List.find?_eq_none]
        intro p hp hpe
        exact hv.1 (by rw [← eq_of_beq hpe]; exact List.mem_map_of_mem hp)
      simp only [h, if_pos, hn, beq_self_eq_true]
    · have h' : (kv.1 == c.name) = false := by
        rw [beq_eq_false_iff_ne]
        exact fun e => h e.symm
      rw [if_neg h, h']

theorem find?_map_name {α : Type} (v : Column K → α) : ∀ (cols : List (Column K)),
    (cols.map Column.name).Nodup → ∀ c ∈ cols,
    (cols.map fun c => (c.name, v c)).find? (fun kv => kv.1 == c.name) = some (c.name, v c) := by
  intro cols
  induction cols with
  | nil => intro _ c h; cases h
  | cons d cols ih =>
    intro hn c hc
    rw [List.map_cons, List.nodup_cons] at hn
    rw [List.map_cons, List.find?_cons]
    rcases List.mem_cons.mp hc with rfl | hc
    · simp
    · have : (d.name == c.name) = false := by
        rw [beq_eq_false_iff_ne]
        intro e
        exact hn.1 (by rw [e]; exact List.mem_map_of_mem hc)
      simp only [this]
      exact ih hn.2 c hc

/-- Filling a column with its own mean. -/
def fillOwn [Field K] (c : Column K) : Column K :=
  ⟨c.name, match c.cells with
    | .number l => fillCells (mean l) c.cells
    | .other _ => fillCells none c.cells⟩

theorem fixData_columns [Field K] {f : Frame K} (h : (f.columns.map Column.name).Nodup) :
    (fixData f).columns = (dropEmpty (selectNumber f)).columns.map fillOwn := by
  have hn : ((dropEmpty (selectNumber f)).columns.map Column.name).Nodup := by
    classical
    rw [usable_filter]
    exact h.sublist (List.Sublist.map _ List.filter_sublist)
  simp only [fixData, fillna]
  rw [fillna_cols _ (by rw [means, List.map_map]; exact hn)]
  apply List.map_congr_left
  intro c hc
  rw [means, find?_map_name _ _ hn c hc]
  rcases c with ⟨n, l | l⟩ <;> rfl

theorem filterMap_ne_nil {l : List (Option K)} (h : ∃ x, some x ∈ l) : l.filterMap id ≠ [] := by
  obtain ⟨x, hx⟩ := h
  exact List.ne_nil_of_mem (List.mem_filterMap.mpr ⟨some x, hx, rfl⟩)

theorem mean_isMean [Field K] [CharZero K] {l : List (Option K)} (h : ∃ x, some x ∈ l) :
    ∃ m, mean l = some m ∧ IsMean m l := by
  have hne := filterMap_ne_nil h
  refine ⟨(l.filterMap id).sum / ((l.filterMap id).length : K), ?_, ?_⟩
  · rw [mean]
    simp only [List.isEmpty_iff, if_neg hne]
  · rw [IsMean]
    have : ((l.filterMap id).length : K) ≠ 0 :=
      Nat.cast_ne_zero.mpr fun e => hne (List.length_eq_zero_iff.mp e)
    field_simp

theorem fillOwn_filledBy [Field K] [CharZero K] {c : Column K} (h : c.IsUsable) :
    c.FilledBy (fillOwn c) := by
  obtain ⟨l, hl, hx⟩ := h
  obtain ⟨m, hm, hmean⟩ := mean_isMean hx
  refine ⟨rfl, l, l.map fun x => x.or (some m), m, hl, ?_, hmean, by simp, ?_⟩
  · rw [fillOwn, hl]
    simp only [hm, fillCells]
  · intro i x hi
    rw [List.getElem?_map, hi]
    cases x <;> rfl

theorem fillOwn_complete [Field K] {c : Column K} {l : List (Option K)} (hl : c.cells = .number l)
    (h : ∀ x ∈ l, x ≠ none) : fillOwn c = c := by
  obtain ⟨n, cells⟩ := c
  obtain rfl : cells = .number l := hl
  simp only [fillOwn, fillCells, Column.mk.injEq, Cells.number.injEq, true_and]
  conv_rhs => rw [← List.map_id l]
  apply List.map_congr_left
  intro x hx
  cases x with
  | none => exact absurd rfl (h _ hx)
  | some x => rfl

end Verif
