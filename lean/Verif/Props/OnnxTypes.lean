import Verif.Model.OnnxTypes
import Verif.Spec.OnnxTypes
import Verif.Props.TypeText

/-!
# C28: ONNX tensor types keep rank and sizes

True of every type with a shape.  A type without a shape (a value of unknown rank) is given rank 0.
-/

namespace Verif

open Verif.Onnx Verif.Dtypes Verif.TypeText

namespace Onnx

/-- A dimension as the torch dialect stores it. -/
def sizeOf' : Option Int → Int
  | some n => n
  | none => -1

theorem dimText_sizeOf {d : Option Int} (h : ∀ n, d = some n → 0 ≤ n) :
    dimText (sizeOf' d) = Onnx.dimAsm d := by
  cases d with
  | none => rfl
  | some n =>
    have := h n rfl
    show (if n < 0 then ['?'] else Nat.toDigits 10 n.natAbs) = printInt n
    unfold printInt
    rw [if_neg (by omega), if_neg (by omega)]

theorem shapeAsm_eq {dims : List (Option Int)} (h : ∀ n, some n ∈ dims → 0 ≤ n) :
    shapeAsm dims = join [','] ((dims.map sizeOf').map dimText) := by
  unfold shapeAsm
  rw [List.map_map]
  congr 1
  apply List.map_congr_left
  intro d hd
  exact (dimText_sizeOf (fun n hn => h n (hn ▸ hd))).symm

theorem sizeOk_of {dims : List (Option Int)}
    (h : ∀ n, some n ∈ dims → 0 ≤ n ∧ n ≤ 9223372036854775807) :
    ∀ n ∈ dims.map sizeOf', SizeOk n := by
  intro n hn
  obtain ⟨d, hd, rfl⟩ := List.mem_map.mp hn
  cases d with
  | none => exact Or.inl rfl
  | some n => exact Or.inr (h n hd)

theorem all_ok {l : List Int} (h : ∀ n ∈ l, SizeOk n) :
    l.all (fun n => !(decide (n < 0) && n != -1)) = true := by
  rw [List.all_eq_true]
  intro n hn
  rcases h n hn with rfl | h
  · rfl
  · have : ¬ n < 0 := by omega
    simp [this]

theorem elemTable_valid {code : Nat} {t : ElemTy} (h : elemTable code = some (.ty t)) :
    validDtype t = true := by
  unfold elemTable at h
  split at h <;> cases h <;> rfl

theorem getVtensorType_ok {dims : List (Option Int)} {e : Elem}
    (he : ∀ t, e = .ty t → validDtype t = true)
    (h : ∀ n, some n ∈ dims → 0 ≤ n ∧ n ≤ 9223372036854775807) :
    getVtensorType dims e = .ok (.vtensor (some (dims.map sizeOf')) (some e)) := by
  have hok := sizeOk_of h
  have hshape := shapeAsm_eq (fun n hn => (h n hn).1)
  cases e with
  | ty t =>
    have hver : verifyTensor (⟨true, some (dims.map sizeOf'), some t, none⟩ : TensorTy Unit) = true := by
      simp only [verifyTensor, he t rfl, Bool.true_and]
      exact all_ok hok
    have := parseTensor_text (α := Unit) (pr := fun _ => []) (pa := noAttr) (sep := [',']) (Or.inl rfl)
      ⟨true, some (dims.map sizeOf'), some t, none⟩ hver
      (by intro l hl; cases hl; exact hok) (by intro a ha; cases ha) []
    simp only [sizesText, dtypeText, encText, List.nil_append] at this
    have htext : vtensorAsm dims t = '!' :: ((if true then vtensorId else tensorId)
        ++ '<' :: (['['] ++ join [','] ((dims.map sizeOf').map dimText) ++ [']'] ++
          ',' :: (printElem t ++ ['>']))) := by
      rw [← hshape]; simp [vtensorAsm]
    have hp : parseType noAttr (vtensorAsm dims t) =
        some ⟨true, some (dims.map sizeOf'), some t, none⟩ := by
      rw [htext, parseType_text (by decide), this]
      rfl
    unfold getVtensorType
    simp only [hp, Option.map_some]
  | str =>
    have hp : sizesPart ('[' :: shapeAsm dims ++ [']']) = some (some (dims.map sizeOf'), []) := by
      unfold sizesPart
      rw [List.cons_append, tok_ne (by decide) (by decide), tok_self (by decide)]
      have := parseSizes_join (sep := [',']) (Or.inl rfl) hok
        (fuel := (shapeAsm dims ++ [']']).length + 1)
        (by
          have := join_length (sep := [',']) (Or.inl rfl) (dims.map sizeOf')
          rw [← hshape] at this
          simp only [List.length_append, List.length_cons]
          omega) []
      rw [← hshape] at this
      simp only [this]
      rw [tok_self (by decide)]
    unfold getVtensorType
    simp only [hp, all_ok hok, if_true]

theorem sizesOf_map (dims : List Onnx.Dim) : SizesOf dims ((dims.map Onnx.Dim.size).map sizeOf') := by
  refine ⟨by simp, ?_⟩
  intro i d hd
  simp only [List.map_map, List.getElem?_map, hd, Option.map_some, Function.comp]
  cases d <;> rfl

theorem valid_size {dims : List Onnx.Dim} (h : ValidDims dims) :
    ∀ n, some n ∈ dims.map Onnx.Dim.size → 0 ≤ n ∧ n ≤ 9223372036854775807 := by
  intro n hn
  obtain ⟨d, hd, hs⟩ := List.mem_map.mp hn
  cases d with
  | value m =>
    cases hs
    exact h n hd
  | param s => cases hs
  | unset => cases hs

theorem elemTable_zero : elemTable 0 = none := rfl

theorem tensor_ok {code : Nat} {e : Elem} {dims : List Onnx.Dim} (he : elemTable code = some e)
    (hd : ValidDims dims) :
    typeProtoToType (some (.tensor code (some dims))) =
      .ok (.vtensor (some ((dims.map Onnx.Dim.size).map sizeOf')) (some e)) := by
  have h0 : code ≠ 0 := by rintro rfl; cases he
  have hv : ∀ t, e = .ty t → validDtype t = true := fun t ht => elemTable_valid (ht ▸ he)
  simp only [typeProtoToType, if_neg h0, tensorElementType, he, shapeDims, Option.getD_some]
  exact getVtensorType_ok hv (valid_size hd)

end Onnx

/-- A tensor type with a shape becomes a tensor type of the same rank with the known sizes and everything
else dynamic, for every supported element type. -/
theorem C28_tensor_partial (code : Nat) (e : Elem) (dims : List Onnx.Dim)
    (he : elemTable code = some e) (hd : ValidDims dims) :
    ∃ sizes, typeProtoToType (some (.tensor code (some dims))) = .ok (.vtensor (some sizes) (some e)) ∧
      SizesOf dims sizes :=
  ⟨_, tensor_ok he hd, sizesOf_map dims⟩

example : typeProtoToType (some (.tensor 1 (some [.value 2, .param "n", .unset, .value 0]))) =
    .ok (.vtensor (some [2, -1, -1, 0]) (some (.ty (.float .f32)))) := by decide +kernel

/-- The element type has the values of the ONNX element type; the codes that are not supported are rejected with
`OnnxImportError`. -/
theorem C28_element (code : Nat) :
    (∀ t, elemTable code = some (.ty t) → onnxDesc code = some (t.desc.getD .bool) ∧ t.desc.isSome) ∧
    (code ≠ 8 → ∀ t, tensorElementType code = .ok t → ∃ u, t = .ty u) ∧
    (elemTable code = none → tensorElementType code = .error .onnxImport) := by
  refine ⟨?_, ?_, ?_⟩
  · intro t h
    unfold elemTable at h
    split at h <;> cases h <;> exact ⟨rfl, rfl⟩
  · intro h8 t h
    unfold tensorElementType at h
    split at h
    · rename_i e he
      cases h
      unfold elemTable at he
      split at he <;> first | (exact absurd rfl h8) | (cases he; exact ⟨_, rfl⟩) | cases he
    · cases h
  · intro h
    simp [tensorElementType, h]

/-- Sequences and optionals carry the type of their element, tensors being the only elements of sequences. -/
theorem C28_containers (code : Nat) (e : Elem) (dims : List Onnx.Dim)
    (he : elemTable code = some e) (hd : ValidDims dims) :
    ∃ t, typeProtoToType (some (.tensor code (some dims))) = .ok t ∧
      typeProtoToType (some (.sequence (.tensor code (some dims)))) = .ok (.list t) ∧
      typeProtoToType (some (.optional (.tensor code (some dims)))) = .ok (.optional t) ∧
      typeProtoToType (some (.optional (.sequence (.tensor code (some dims))))) =
        .ok (.optional (.list t)) := by
  have h := tensor_ok he hd
  have h0 : code ≠ 0 := by rintro rfl; cases he
  have hl : listElementType (.tensor code (some dims)) =
      .ok (.vtensor (some ((dims.map Onnx.Dim.size).map sizeOf')) (some e)) := h
  refine ⟨_, h, ?_, ?_, ?_⟩
  · simp only [typeProtoToType, hl]
  · simp only [typeProtoToType, optionalElementType, if_neg h0, hl]
  · simp only [typeProtoToType, optionalElementType, hl]

/-- The type of an initializer is that of the tensor type with its sizes. -/
theorem C28_initializer (t : Tensor) (e : Elem) (he : elemTable t.dataType = some e)
    (hd : ∀ n ∈ t.dims, 0 ≤ n ∧ n ≤ 9223372036854775807) :
    tensorProtoToType t = .ok (.vtensor (some t.dims) (some e)) ∧
      typeProtoToType (some (.tensor t.dataType (some (t.dims.map .value)))) = tensorProtoToType t := by
  have hv : ∀ u, e = .ty u → validDtype u = true := fun u hu => elemTable_valid (hu ▸ he)
  have h1 : tensorProtoToType t = .ok (.vtensor (some t.dims) (some e)) := by
    simp only [tensorProtoToType, tensorElementType, he]
    rw [getVtensorType_ok hv (by
      intro n hn
      obtain ⟨m, hm, hs⟩ := List.mem_map.mp hn
      cases hs
      exact hd n hm)]
    simp only [List.map_map]
    congr 3
    have : (sizeOf' ∘ some : Int → Int) = id := rfl
    rw [this, List.map_id]
  refine ⟨h1, ?_⟩
  rw [h1, tensor_ok he (by
    intro n hn
    obtain ⟨m, hm, hs⟩ := List.mem_map.mp hn
    cases hs
    exact hd n hm)]
  simp only [List.map_map]
  congr 3
  have : (sizeOf' ∘ Onnx.Dim.size ∘ Onnx.Dim.value : Int → Int) = id := rfl
  rw [this, List.map_id]

theorem Onnx.foldl_entries (l : List Int) (a : Int) : l.foldl (· * ·) a = a * entries l := by
  induction l generalizing a with
  | nil => simp [entries]
  | cons d l ih => rw [List.foldl_cons, ih, entries, Int.mul_assoc]

/-- The constant of an accepted initializer has its sizes, the element type of its data type and its content, and
if the entries are listed there are as many as the sizes say. -/
theorem C28_constant (t : Tensor) (a : TensorAttr) (h : tensorProtoToAttr t = .ok a) :
    a.dims = t.dims ∧ elemTable t.dataType = some (.ty a.elem) ∧ a.data = t.data ∧
      ∀ (n c : Nat), t.data = .typed n c → (n : Int) = entries t.dims ∧ ∀ d ∈ t.dims, 0 ≤ d := by
  unfold tensorProtoToAttr tensorElementType at h
  cases he : elemTable t.dataType with
  | none => simp [he] at h
  | some e =>
    simp only [he] at h
    cases e with
    | str => cases h
    | ty e =>
      simp only at h
      cases hd : t.data with
      | raw c =>
        simp only [hd, Except.ok.injEq] at h
        subst h
        exact ⟨rfl, rfl, rfl, fun n c hc => by cases hc⟩
      | typed n c =>
        simp only [hd] at h
        cases hi : inlineTable t.dataType with
        | none => simp [hi] at h
        | some e' =>
          simp only [hi] at h
          split at h
          · rename_i hr
            cases h
            have hee : e' = e := by
              unfold inlineTable at hi
              split at hi <;> first
                | (rename_i hc; rw [hc] at he; cases he; cases hi; rfl)
                | cases hi
            refine ⟨rfl, by rw [hee], rfl, fun n' c' hc => ?_⟩
            cases hc
            unfold reshapes at hr
            split at hr
            · rename_i hall
              have hr := of_decide_eq_true hr
              rw [numel, foldl_entries] at hr
              refine ⟨by rw [← hr]; simp, fun d hd' => ?_⟩
              simpa using List.all_eq_true.mp hall d hd'
            · cases hr
          · cases h

/-- An initializer with another number of entries is rejected. -/
theorem C28_wrong_count (t : Tensor) (n c : Nat) (hd : t.data = .typed n c) (h : (n : Int) ≠ entries t.dims) :
    ∃ e, tensorProtoToAttr t = .error e := by
  cases ha : tensorProtoToAttr t with
  | error e => exact ⟨e, rfl⟩
  | ok a => exact absurd ((C28_constant t a ha).2.2.2 n c hd).1 h

example : tensorProtoToAttr ⟨"w", 7, [2, 3], .typed 6 0⟩ = .ok ⟨[2, 3], .signed 64, .typed 6 0⟩ := by
  decide +kernel

example : tensorProtoToType ⟨"w", 7, [2, 3], .raw 0⟩ =
    .ok (.vtensor (some [2, 3]) (some (.ty (.signed 64)))) := by decide +kernel

/-- A value whose type has no shape is given rank 0: it is not told apart from a scalar. -/
theorem C28_violated (code : Nat) (e : Elem) (he : elemTable code = some e) :
    typeProtoToType (some (.tensor code none)) = .ok (.vtensor (some []) (some e)) ∧
      typeProtoToType (some (.tensor code none)) = typeProtoToType (some (.tensor code (some []))) := by
  have h : typeProtoToType (some (.tensor code none)) = typeProtoToType (some (.tensor code (some []))) :=
    rfl
  refine ⟨?_, h⟩
  rw [h, tensor_ok he (by intro n hn; cases hn)]
  rfl

example : elemTable 1 = some (.ty (.float .f32)) := rfl

/-- A missing type, and a type with nothing set, become `!torch.none`; maps, sparse tensors and tensors without
an element type are rejected. -/
theorem C28_others (shape : Option (List Onnx.Dim)) (n : Nat) :
    typeProtoToType none = .ok .none ∧ typeProtoToType (some .unset) = .ok .none ∧
      typeProtoToType (some .map) = .error .onnxImport ∧
      typeProtoToType (some (.sparse n)) = .error .onnxImport ∧
      typeProtoToType (some (.tensor 0 shape)) = .error .onnxImport := ⟨rfl, rfl, rfl, rfl, rfl⟩

end Verif
