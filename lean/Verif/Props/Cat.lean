import Verif.Lemmas.Cat

/-!
# C40: concatenation adds sizes along one dimension only

The shape computed for cat is the common shape with the concatenated dimension equal to the sum over the
(non-legacy-empty) inputs; stack inserts one new dimension equal to the number of inputs.
-/

namespace Verif

open Shape

/-- `cat`: a shape is computed exactly when it is the shape of the concatenation. -/
theorem C40_cat (ts : List (List Int)) (dim : Int) (c : List Int) :
    cat ts dim = .ok c ↔ IsCat ts dim c :=
  cat_iff ts dim c

/-- `stack`: likewise. -/
theorem C40_stack (ts : List (List Int)) (dim : Int) (c : List Int) :
    stack ts dim = .ok c ↔ IsStack ts dim c :=
  stack_iff ts dim c

/-- The order of the inputs does not matter. -/
theorem C40_cat_order (ts us : List (List Int)) (dim : Int) (c : List Int) (hp : ts.Perm us) :
    cat ts dim = .ok c ↔ cat us dim = .ok c := by
  rw [cat_iff, cat_iff]
  have hf := hp.filter (· ≠ [0])
  have h1 : ts ≠ [] ↔ us ≠ [] := by
    rw [ne_eq, ne_eq, ← List.length_eq_zero_iff, ← List.length_eq_zero_iff, hp.length_eq]
  have h2 : ts.filter (· ≠ [0]) = [] ↔ us.filter (· ≠ [0]) = [] := by
    rw [← List.length_eq_zero_iff, ← List.length_eq_zero_iff, hf.length_eq]
  unfold IsCat
  rw [h1]
  refine and_congr_right (fun _ => and_congr ⟨fun h t ht => h t (hp.mem_iff.mpr ht),
    fun h t ht => h t (hp.mem_iff.mp ht)⟩ ?_)
  by_cases he : us.filter (· ≠ [0]) = []
  · rw [if_pos he, if_pos (h2.mpr he)]
  · rw [if_neg he, if_neg (fun h => he (h2.mp h))]
    refine exists_congr (fun d => and_congr_right (fun _ => and_congr
      ⟨fun h t ht => h t (hf.mem_iff.mpr ht), fun h t ht => h t (hf.mem_iff.mp ht)⟩ ?_))
    rw [sum_perm (hf.map (fun t => t.getD d 0))]

/-- `hstack` concatenates along dimension 0 if the first input has rank at most one, else along 1. -/
theorem C40_hstack (t : List Int) (ts : List (List Int)) (c : List Int) :
    hstack (t :: ts) = .ok c ↔
      IsCat ((t :: ts).map (fun s => if s = [] then [1] else s)) (if t.length ≤ 1 then 0 else 1) c := by
  have ha : atleast1d = fun s => if s = [] then [1] else s := by
    funext s
    unfold atleast1d
    simp only [List.length_eq_zero_iff]
  unfold hstack
  rw [show pyGet ((t :: ts).map atleast1d) 0 = .ok (atleast1d t) from rfl]
  simp only []
  rw [cat_iff, ha]
  have : (if (if t = [] then [1] else t).length = 1 then (0 : Int) else 1) = if t.length ≤ 1 then 0 else 1 := by
    match t with
    | [] => rfl
    | [_] => rfl
    | _ :: _ :: _ => simp
  rw [this]

/-- `column_stack` makes columns of scalars and vectors and concatenates along dimension 1. -/
theorem C40_column_stack (ts : List (List Int)) (c : List Int) :
    columnStack ts = .ok c ↔
      IsCat (ts.map (fun s => match s with | [] => [1, 1] | [x] => [x, 1] | s => s)) 1 c := by
  unfold columnStack
  rw [cat_iff]
  have : columnShape = fun s => match s with | [] => [1, 1] | [x] => [x, 1] | s => s := by
    funext s
    match s with
    | [] => rfl
    | [_] => rfl
    | _ :: _ :: _ => simp [columnShape]
  rw [this]

/-- Matrices of 3 and 5 rows, and a legacy-empty tensor. -/
example : cat [[3, 4], [0], [5, 4]] (-2) = .ok [8, 4] ∧ cat [[3, 4], [5, 3]] 0 = .error .assertion ∧
    stack [[2, 3], [2, 3]] (-1) = .ok [2, 3, 2] ∧ stack [[2, 3], [2, 4]] 0 = .error .assertion ∧
    hstack [[2, 3], [2, 5]] = .ok [2, 8] ∧ columnStack [[2], [2, 5]] = .ok [2, 6] := by
  refine ⟨?_, ?_, ?_, ?_, ?_, ?_⟩ <;> decide +kernel

end Verif
