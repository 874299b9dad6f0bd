import Verif.Lemmas.LinMatmulVec

/-!
# C96: matrix products lowered to linalg

`aten.matmul`, `aten.mm` and `aten.bmm` compute, for every entry of the broadcast batch, the sums of products of rows and columns.
-/

namespace Verif

open Lin Mat Red

variable {A B C R : Type}

theorem Mat.total_int {l r res : IntTy} {acc : Nat} (hl : l.width ≤ acc) (hr : r.width ≤ acc) (hl1 : l.width ≠ 1 ∨ acc = 1) (hr1 : r.width ≠ 1 ∨ acc = 1)
    (h : res.width ≤ acc) (h1 : res.width ≠ 1 ∨ acc = 1) (k : Int) (f : Int → BitVec l.width) (g : Int → BitVec r.width) :
    total (intArith l.width r.width l.unsigned r.unsigned acc res.width) k f g = BitVec.ofInt res.width (dot k (fun i => value l (f i)) (fun i => value r (g i))) := by
  unfold total intArith dot
  simp only [widen_value hl hl1, widen_value hr hr1]
  rw [show (0 : BitVec acc) = BitVec.ofInt acc 0 from (BitVec.ofInt_ofNat acc 0).symm, foldl_dot, Int.zero_add, convert_ofInt h h1]

theorem Mat.total_signed (t : IntTy) (k : Int) (f g : Int → BitVec t.width) :
    total (signedArith t) k f g = BitVec.ofInt t.width (dot k (fun i => value t (f i)) (fun i => value t (g i))) := by
  unfold total signedArith intArith dot
  simp only [widen_toInt (accWidth_ge t.width)]
  rw [show (0 : BitVec (accWidth t.width)) = BitVec.ofInt (accWidth t.width) 0 from (BitVec.ofInt_ofNat _ 0).symm, foldl_dot, Int.zero_add,
    convert_ofInt (accWidth_ge t.width) (accWidth_one t.width)]
  exact dot_congr _ _ _ _ _ (fun i => toInt_value t (f i)) (fun i => toInt_value t (g i))

theorem Mat.total_quant {l r : IntTy} (hl : 2 ≤ l.width ∧ l.width ≤ 32) (hr : 2 ≤ r.width ∧ r.width ≤ 32) (zl zr : BitVec 32) (k : Int) (f : Int → BitVec l.width)
    (g : Int → BitVec r.width) :
    total (quantArith l r zl zr) k f g = BitVec.ofInt 32 (dot k (fun i => value l (f i) - zl.toInt) (fun i => value r (g i) - zr.toInt)) := by
  unfold total quantArith dot
  simp only [shift_value hl.1 hl.2, shift_value hr.1 hr.2, id_eq]
  rw [show (0 : BitVec 32) = BitVec.ofInt 32 0 from (BitVec.ofInt_ofNat _ 0).symm, foldl_dot, Int.zero_add]

theorem Mat.bmm_spec (ar : Arith A B C R) (x : Operand A) (y : Operand B) (hx : x.Typed) (hy : y.Typed) {b m k n : Int} (hl : x.tensor.sizes = [b, m, k])
    (hr : y.tensor.sizes = [b, k, n]) (vx : List Int → A) (vy : List Int → B) (hvx : Pool.Holds x.tensor vx) (hvy : Pool.Holds y.tensor vy)
    (resTy : List (Option Int)) (hty : TypeOf resTy [b, m, n]) :
    ∃ t, lowerBmm ar x y resTy = .ok t ∧ t.sizes = [b, m, n] ∧ ∀ q i j, 0 ≤ q → q < b → 0 ≤ i → i < m → 0 ≤ j → j < n →
      t.elem [q, i, j] = some (total ar k (fun l => vx [q, i, l]) (fun l => vy [q, l, j])) := by
  have l1 : x.type.length = 3 := by rw [hx.1, hl]; rfl
  have l2 : y.type.length = 3 := by rw [hy.1, hr]; rfl
  unfold lowerBmm
  simp only [l1, l2, ne_eq, not_true_eq_false, or_self, if_false, dim, hl, hr, List.getD_cons_zero, List.getD_cons_succ]
  obtain ⟨t, e1, e2, e3⟩ := close_ok ar resTy (contract ar x.tensor y.tensor [b, m, n] k (fun idx k => [idx.getD 0 0, idx.getD 1 0, k])
    (fun idx k => [idx.getD 0 0, k, idx.getD 2 0])) hty
  refine ⟨t, e1, e2, fun q i j q0 q1 i0 i1 j0 j1 => ?_⟩
  rw [e3 [q, i, j] (by show inRange [b, m, n] _ = true; simp [inRange, *])]
  refine contract_elem _ _ _ _ _ _ _ _ _ _ (fun l l0 l1 => ?_) (fun l l0 l1 => ?_)
  · have : inRange x.tensor.sizes [q, i, l] = true := by rw [hl]; simp [inRange, *]
    show x.tensor.get [q, i, l] = _
    rw [get_of_range this, hvx _ this]
  · have : inRange y.tensor.sizes [q, l, j] = true := by rw [hr]; simp [inRange, *]
    show y.tensor.get [q, l, j] = _
    rw [get_of_range this, hvy _ this]

theorem Mat.mm_spec (strict : Bool) (ar : Arith A B C R) (x : Operand A) (y : Operand B) (hx : x.Typed) (hy : y.Typed) {m k n : Int} (hl : x.tensor.sizes = [m, k])
    (hr : y.tensor.sizes = [k, n]) (vx : List Int → A) (vy : List Int → B) (hvx : Pool.Holds x.tensor vx) (hvy : Pool.Holds y.tensor vy)
    (resTy : List (Option Int)) (hty : TypeOf resTy [m, n]) :
    ∃ t, lowerMm strict ar x y resTy = .ok t ∧ t.sizes = [m, n] ∧ ∀ i j, 0 ≤ i → i < m → 0 ≤ j → j < n →
      t.elem [i, j] = some (total ar k (fun l => vx [i, l]) (fun l => vy [l, j])) := by
  obtain ⟨tx, d1, d2⟩ := types_two hx hl
  obtain ⟨ty, d3, d4⟩ := types_two hy hr
  have l1 : x.type.length = 2 := by rw [tx]; rfl
  have l2 : y.type.length = 2 := by rw [ty]; rfl
  unfold lowerMm
  simp only [l1, l2, ne_eq, not_true_eq_false, or_self, if_false, and_false, d1, d2, d3, d4]
  obtain ⟨t, e1, e2, e3⟩ := close_ok ar resTy (contract ar x.tensor y.tensor [m, n] k (fun idx k => at2 (idx.getD 0 0) k) (fun idx k => at2 k (idx.getD 1 0))) hty
  refine ⟨t, e1, e2, fun i j i0 i1 j0 j1 => ?_⟩
  rw [e3 [i, j] (range_pair ⟨i0, i1⟩ ⟨j0, j1⟩)]
  exact product_elem ar x.tensor y.tensor hl hr vx vy hvx hvy ⟨i0, i1⟩ ⟨j0, j1⟩

/-- `aten.matmul` of batches of matrices. Missing: a size of a batch that is only known to be one at run time and must be broadcast, empty batches, a result type
that knows more or less than the operands, and integers with two or more unknown sizes in a batch of rank two or more (see the violations below). -/
theorem C96_matmul_partial (strict : Bool) (kind : Kind) (ar : Arith A B C R) (x : Operand A) (y : Operand B) (hx : x.Typed) (hy : y.Typed)
    {lb rb batch : List Int} {m k n : Int} (hl : x.tensor.sizes = lb ++ [m, k]) (hr : y.tensor.sizes = rb ++ [k, n]) (hm : 0 ≤ m) (hk : 0 ≤ k) (hn : 0 ≤ n)
    (vx : List Int → A) (vy : List Int → B) (hvx : Pool.Holds x.tensor vx) (hvy : Pool.Holds y.tensor vy) (hc : IsCommonShape [lb, rb] batch)
    (hpos : ∀ d ∈ batch, 0 < d) (hne : batch ≠ []) (hdx : NoDynamicBroadcast x (batch ++ [m, k]) fun _ => True)
    (hdy : NoDynamicBroadcast y (batch ++ [k, n]) fun _ => True) (resTy : List (Option Int)) (hty : TypeOf resTy (batch ++ [m, n]))
    (hres : Precise resTy x.type y.type) (hkind : kind = .float ∨ batch.length ≤ 1 ∨ (resTy.take batch.length).count none ≤ 1) :
    ∃ t, lowerMatmul strict kind ar x y resTy = .ok t ∧ IsProduct ar t batch lb rb m k n vx vy :=
  matmul_spec strict kind ar x y hx hy hl hr hm hk hn vx vy hvx hvy hc hpos hne hdx hdy resTy hty hres hkind

/-- `aten.matmul` of a matrix or a vector with a matrix or a vector: `lm` and `rn` are empty for vectors. Quantized vectors need a result type that knows just what
the operands do. -/
theorem C96_matmul_vectors (strict : Bool) (kind : Kind) (ar : Arith A B C R) (x : Operand A) (y : Operand B) (hx : x.Typed) (hy : y.Typed) {lm rn : List Int} {k : Int}
    (hl : x.tensor.sizes = lm ++ [k]) (hr : y.tensor.sizes = k :: rn) (hlm : lm.length ≤ 1) (hrn : rn.length ≤ 1) (hmp : ∀ d ∈ lm, 0 ≤ d) (hk : 0 ≤ k)
    (hnp : ∀ d ∈ rn, 0 ≤ d) (vx : List Int → A) (vy : List Int → B) (hvx : Pool.Holds x.tensor vx) (hvy : Pool.Holds y.tensor vy) (resTy : List (Option Int))
    (hty : if kind = .quantized then resTy = x.type.take lm.length ++ y.type.drop 1 else TypeOf resTy (lm ++ rn)) :
    ∃ t, lowerMatmul strict kind ar x y resTy = .ok t ∧ t.sizes = lm ++ rn ∧ ∀ i j, inRange lm i = true → inRange rn j = true →
      t.elem (i ++ j) = some (total ar k (fun l => vx (i ++ [l])) (fun l => vy (l :: j))) :=
  vec_spec strict kind ar x y hx hy hl hr hlm hrn hmp hk hnp vx vy hvx hvy resTy hty

theorem C96_bmm (ar : Arith A B C R) (x : Operand A) (y : Operand B) (hx : x.Typed) (hy : y.Typed) {b m k n : Int} (hl : x.tensor.sizes = [b, m, k])
    (hr : y.tensor.sizes = [b, k, n]) (vx : List Int → A) (vy : List Int → B) (hvx : Pool.Holds x.tensor vx) (hvy : Pool.Holds y.tensor vy)
    (resTy : List (Option Int)) (hty : TypeOf resTy [b, m, n]) :
    ∃ t, lowerBmm ar x y resTy = .ok t ∧ t.sizes = [b, m, n] ∧ ∀ q i j, 0 ≤ q → q < b → 0 ≤ i → i < m → 0 ≤ j → j < n →
      t.elem [q, i, j] = some (total ar k (fun l => vx [q, i, l]) (fun l => vy [q, l, j])) :=
  bmm_spec ar x y hx hy hl hr vx vy hvx hvy resTy hty

theorem C96_mm (strict : Bool) (ar : Arith A B C R) (x : Operand A) (y : Operand B) (hx : x.Typed) (hy : y.Typed) {m k n : Int} (hl : x.tensor.sizes = [m, k])
    (hr : y.tensor.sizes = [k, n]) (vx : List Int → A) (vy : List Int → B) (hvx : Pool.Holds x.tensor vx) (hvy : Pool.Holds y.tensor vy)
    (resTy : List (Option Int)) (hty : TypeOf resTy [m, n]) :
    ∃ t, lowerMm strict ar x y resTy = .ok t ∧ t.sizes = [m, n] ∧ ∀ i j, 0 ≤ i → i < m → 0 ≤ j → j < n →
      t.elem [i, j] = some (total ar k (fun l => vx [i, l]) (fun l => vy [l, j])) :=
  mm_spec strict ar x y hx hy hl hr vx vy hvx hvy resTy hty

/-- Sizes to sum over that differ stop the program: `aten.mm` unless sizes are assumed to be right, `aten.bmm` always, also if the batches differ. -/
theorem C96_aborts (ar : Arith A B C R) (x : Operand A) (y : Operand B) (hx : x.Typed) (hy : y.Typed) (resTy : List (Option Int)) :
    (∀ m k k' n, x.tensor.sizes = [m, k] → y.tensor.sizes = [k', n] → k ≠ k' → lowerMm false ar x y resTy = .aborts) ∧
    (∀ b b' m k k' n, x.tensor.sizes = [b, m, k] → y.tensor.sizes = [b', k', n] → b ≠ b' ∨ k ≠ k' → lowerBmm ar x y resTy = .aborts) := by
  refine ⟨fun m k k' n hl hr hk => ?_, fun b b' m k k' n hl hr hk => ?_⟩
  · have l1 : x.type.length = 2 := by rw [hx.1, hl]; rfl
    have l2 : y.type.length = 2 := by rw [hy.1, hr]; rfl
    unfold lowerMm
    simp [l1, l2, dim, hl, hr, hk]
  · have l1 : x.type.length = 3 := by rw [hx.1, hl]; rfl
    have l2 : y.type.length = 3 := by rw [hy.1, hr]; rfl
    unfold lowerBmm
    simp only [l1, l2, ne_eq, not_true_eq_false, or_self, if_false, dim, hl, hr, List.getD_cons_zero, List.getD_cons_succ]
    rw [if_pos hk]

/-- `aten.mm` of integers, signed or not, computes the sums of the products of their values, modulo the width of the result. Missing: results of eight bits (see
`C96_violated_byte`), those wider than the sums and truth values. -/
theorem C96_mm_int_partial (strict : Bool) (l r res : IntTy) (hw : l.width = r.width) (h : res.width ≤ accWidth l.width) (h8 : res.width ≠ 8)
    (h1 : res.width ≠ 1 ∨ l.width = 1) (x : Operand (BitVec l.width)) (y : Operand (BitVec r.width)) (hx : x.Typed) (hy : y.Typed) {m k n : Int}
    (hl : x.tensor.sizes = [m, k]) (hr : y.tensor.sizes = [k, n]) (vx : List Int → BitVec l.width) (vy : List Int → BitVec r.width)
    (hvx : Pool.Holds x.tensor vx) (hvy : Pool.Holds y.tensor vy) (resTy : List (Option Int)) (hty : TypeOf resTy [m, n]) :
    ∃ t, lowerMmInt strict l r res x y resTy = .ok t ∧ IsIntProduct t [] [] [] m k n (fun i => value l (vx i)) (fun i => value r (vy i)) := by
  have ha := accWidth_one l.width
  obtain ⟨t, e1, e2, e3⟩ := mm_spec strict (intArith l.width r.width l.unsigned r.unsigned (accWidth l.width) res.width) x y hx hy hl hr vx vy hvx hvy resTy hty
  refine ⟨t, ?_, e2, fun b i j hb i0 i1 j0 j1 => ?_⟩
  · unfold lowerMmInt
    have hc : convertible (accWidth l.width) res.width = true := by unfold convertible; simp [h8]
    rw [if_neg (by simp [hw]), hc, if_neg (by simp)]
    exact e1
  · rw [range_nil hb]
    show t.elem [i, j] = _
    rw [e3 i j i0 i1 j0 j1, total_int (accWidth_ge _) (hw ▸ accWidth_ge _) ha (hw ▸ ha) h (by
      rcases h1 with h1 | h1
      · exact .inl h1
      · right; rw [h1]; rfl)]
    rfl

theorem Mat.orCrash_ok {T : Type} {o : Outcome T} {t : T} (h : o = .ok t) : orCrash true o = .ok t := by rw [h]; rfl

theorem Mat.convertible_self {w : Nat} (h : w ≠ 8) : convertible (accWidth w) w = true := by unfold convertible; simp [h]

/-- `aten.matmul` of batches of integers of one type: elements are always extended with their sign, but modulo the width this makes no difference. -/
theorem C96_matmul_int_partial (strict : Bool) (ty : IntTy) (h8 : ty.width ≠ 8) (x y : Operand (BitVec ty.width)) (hx : x.Typed) (hy : y.Typed)
    {lb rb batch : List Int} {m k n : Int} (hl : x.tensor.sizes = lb ++ [m, k]) (hr : y.tensor.sizes = rb ++ [k, n]) (hm : 0 ≤ m) (hk : 0 ≤ k) (hn : 0 ≤ n)
    (vx vy : List Int → BitVec ty.width) (hvx : Pool.Holds x.tensor vx) (hvy : Pool.Holds y.tensor vy) (hc : IsCommonShape [lb, rb] batch)
    (hpos : ∀ d ∈ batch, 0 < d) (hne : batch ≠ []) (hdx : NoDynamicBroadcast x (batch ++ [m, k]) fun _ => True)
    (hdy : NoDynamicBroadcast y (batch ++ [k, n]) fun _ => True) (resTy : List (Option Int)) (hty : TypeOf resTy (batch ++ [m, n]))
    (hres : Precise resTy x.type y.type) (hkind : batch.length ≤ 1 ∨ (resTy.take batch.length).count none ≤ 1) :
    ∃ t, lowerMatmulInt strict ty x y resTy = .ok t ∧ IsIntProduct t batch lb rb m k n (fun i => value ty (vx i)) (fun i => value ty (vy i)) := by
  obtain ⟨t, e1, e2, e3⟩ := matmul_spec strict .int (signedArith ty) x y hx hy hl hr hm hk hn vx vy hvx hvy hc hpos hne hdx hdy resTy hty hres (.inr hkind)
  refine ⟨t, ?_, e2, fun b i j hb i0 i1 j0 j1 => ?_⟩
  · unfold lowerMatmulInt
    rw [convertible_self h8, orCrash_ok e1]
  · rw [e3 b i j hb i0 i1 j0 j1, total_signed]

/-- `aten.bmm` of integers of one type. -/
theorem C96_bmm_int_partial (ty : IntTy) (h8 : ty.width ≠ 8) (x y : Operand (BitVec ty.width)) (hx : x.Typed) (hy : y.Typed) {b m k n : Int}
    (hl : x.tensor.sizes = [b, m, k]) (hr : y.tensor.sizes = [b, k, n]) (vx vy : List Int → BitVec ty.width) (hvx : Pool.Holds x.tensor vx)
    (hvy : Pool.Holds y.tensor vy) (resTy : List (Option Int)) (hty : TypeOf resTy [b, m, n]) :
    ∃ t, lowerBmmInt ty x y resTy = .ok t ∧ t.sizes = [b, m, n] ∧ ∀ q i j, 0 ≤ q → q < b → 0 ≤ i → i < m → 0 ≤ j → j < n →
      t.elem [q, i, j] = some (BitVec.ofInt ty.width (dot k (fun l => value ty (vx [q, i, l])) (fun l => value ty (vy [q, l, j])))) := by
  obtain ⟨t, e1, e2, e3⟩ := bmm_spec (signedArith ty) x y hx hy hl hr vx vy hvx hvy resTy hty
  refine ⟨t, ?_, e2, fun q i j q0 q1 i0 i1 j0 j1 => ?_⟩
  · unfold lowerBmmInt
    rw [convertible_self h8, orCrash_ok e1]
  · rw [e3 q i j q0 q1 i0 i1 j0 j1, total_signed]

/-- Quantized `aten.mm`: the sums of the products of the values without their zero points; the shift of unsigned ones to signed ones cancels. -/
theorem C96_mm_quantized (strict : Bool) (l r : IntTy) (h1 : 2 ≤ l.width ∧ l.width ≤ 32) (h2 : 2 ≤ r.width ∧ r.width ≤ 32) (zl zr : BitVec 32)
    (x : Operand (BitVec l.width)) (y : Operand (BitVec r.width)) (hx : x.Typed) (hy : y.Typed) {m k n : Int}
    (hl : x.tensor.sizes = [m, k]) (hr : y.tensor.sizes = [k, n]) (vx : List Int → BitVec l.width) (vy : List Int → BitVec r.width)
    (hvx : Pool.Holds x.tensor vx) (hvy : Pool.Holds y.tensor vy) (resTy : List (Option Int)) (hty : TypeOf resTy [m, n]) :
    ∃ t, lowerMm strict (quantArith l r zl zr) x y resTy = .ok t ∧
      IsIntProduct t [] [] [] m k n (fun i => value l (vx i) - zl.toInt) (fun i => value r (vy i) - zr.toInt) := by
  obtain ⟨t, e1, e2, e3⟩ := mm_spec strict (quantArith l r zl zr) x y hx hy hl hr vx vy hvx hvy resTy hty
  refine ⟨t, e1, e2, fun b i j hb i0 i1 j0 j1 => ?_⟩
  rw [range_nil hb]
  show t.elem [i, j] = _
  rw [e3 i j i0 i1 j0 j1, total_quant h1 h2]
  rfl

/-- Quantized `aten.matmul` of batches of matrices. -/
theorem C96_matmul_quantized_partial (strict : Bool) (l r : IntTy) (h1 : 2 ≤ l.width ∧ l.width ≤ 32) (h2 : 2 ≤ r.width ∧ r.width ≤ 32) (zl zr : BitVec 32)
    (x : Operand (BitVec l.width)) (y : Operand (BitVec r.width)) (hx : x.Typed) (hy : y.Typed)
    {lb rb batch : List Int} {m k n : Int} (hl : x.tensor.sizes = lb ++ [m, k]) (hr : y.tensor.sizes = rb ++ [k, n]) (hm : 0 ≤ m) (hk : 0 ≤ k) (hn : 0 ≤ n)
    (vx : List Int → BitVec l.width) (vy : List Int → BitVec r.width) (hvx : Pool.Holds x.tensor vx) (hvy : Pool.Holds y.tensor vy)
    (hc : IsCommonShape [lb, rb] batch)
    (hpos : ∀ d ∈ batch, 0 < d) (hne : batch ≠ []) (hdx : NoDynamicBroadcast x (batch ++ [m, k]) fun _ => True)
    (hdy : NoDynamicBroadcast y (batch ++ [k, n]) fun _ => True) (resTy : List (Option Int)) (hty : TypeOf resTy (batch ++ [m, n]))
    (hres : Precise resTy x.type y.type) (hkind : batch.length ≤ 1 ∨ (resTy.take batch.length).count none ≤ 1) :
    ∃ t, lowerMatmul strict .quantized (quantArith l r zl zr) x y resTy = .ok t ∧
      IsIntProduct t batch lb rb m k n (fun i => value l (vx i) - zl.toInt) (fun i => value r (vy i) - zr.toInt) := by
  obtain ⟨t, e1, e2, e3⟩ := matmul_spec strict .quantized (quantArith l r zl zr) x y hx hy hl hr hm hk hn vx vy hvx hvy hc hpos hne hdx hdy resTy hty hres
    (.inr hkind)
  refine ⟨t, e1, e2, fun b i j hb i0 i1 j0 j1 => ?_⟩
  rw [e3 b i j hb i0 i1 j0 j1, total_quant h1 h2]

/-! ## Examples and violations -/

namespace Test96

abbrev plain : Arith Int Int Int Int := ⟨0, fun a b c => a * b + c, id⟩

def ofList (sizes : List Int) (ty : List (Option Int)) (f : List Int → Int) : Operand Int := ⟨⟨sizes, fun idx => some (f idx)⟩, ty⟩

abbrev x : Operand Int := ofList [2, 1, 2, 2] [none, some 1, some 2, none] fun idx => 1 + idx.getD 0 0 + 2 * idx.getD 2 0 + idx.getD 3 0
abbrev y : Operand Int := ofList [3, 2, 1] [some 3, some 2, some 1] fun idx => 10 * idx.getD 0 0 + idx.getD 1 0

def get : Outcome (Tensor Int) → Option (List Int × List (Option Int))
  | .ok t => some (t.sizes, [t.get [0, 0, 0, 0], t.get [1, 0, 1, 0], t.get [1, 2, 1, 0]])
  | _ => none

example : get (lowerMatmul false .float plain x y [none, some 3, some 2, some 1]) = some ([2, 3, 2, 1], [some 2, some 5, some 185]) := by decide +kernel
example : IsCommonShape [[2, 1], [3]] [2, 3] := by
  refine ⟨fun s hs => ?_, fun i n h => ?_⟩
  · simp only [List.mem_cons, List.not_mem_nil, or_false] at hs
    rcases hs with rfl | rfl
    · refine ⟨by decide, fun k n h => ?_⟩
      match k with
      | 0 => simp at h; right; rw [← h]; rfl
      | 1 => simp at h; exact Or.inl h.symm
      | k + 2 => simp at h
    · refine ⟨by decide, fun k n h => ?_⟩
      match k with
      | 0 => simp at h; right; rw [← h]; rfl
      | k + 1 => simp at h
  match i with
  | 0 => exact ⟨[2, 1], by simp, 0, rfl, h⟩
  | 1 => exact ⟨[3], by simp, 0, rfl, h⟩
  | i + 2 => simp at h
example : Precise [none, some 3, some 2, some 1] x.type y.type := by
  refine ⟨fun p hp => ?_, rfl, rfl⟩
  have hp' : p < 2 := by have : p + 2 < 4 := hp; omega
  match p, hp' with
  | 0, _ => exact ⟨fun _ => .inl ⟨0, rfl, rfl⟩, fun _ => rfl⟩
  | 1, _ =>
    refine ⟨fun h => absurd h (by decide), fun h => ?_⟩
    rcases h with ⟨k, hk, hk'⟩ | ⟨k, hk, hk'⟩
    · have : k = 1 := hk
      subst this
      exact absurd hk' (by decide)
    · have : k = 0 := by have : k + 1 = 1 := hk; omega
      subst this
      exact absurd hk' (by decide)

abbrev u8 : IntTy := ⟨8, true⟩
abbrev s8 : IntTy := ⟨8, false⟩
abbrev s32 : IntTy := ⟨32, false⟩
abbrev bytes : Operand (BitVec 8) := ⟨⟨[1, 2], fun idx => some (BitVec.ofInt 8 (200 + idx.getD 1 0))⟩, [some 1, some 2]⟩
abbrev column : Operand (BitVec 8) := ⟨⟨[2, 1], fun idx => some (BitVec.ofInt 8 (-3 + idx.getD 0 0))⟩, [some 2, some 1]⟩

example : (match lowerMmInt false u8 s8 s32 bytes column [some 1, some 1] with | .ok t => (t.get [0, 0]).map BitVec.toInt | _ => none) = some (-1002) := by
  decide +kernel
example : (match lowerMm false (quantArith u8 s8 100#32 1#32) bytes column [some 1, some 1] with | .ok t => (t.get [0, 0]).map BitVec.toInt | _ => none) = some (-703) := by
  decide +kernel

abbrev one (sizes : List Int) (ty : List (Option Int)) : Operand Int := ofList sizes ty fun _ => 1

end Test96

open Test96

/-- A batch of one matrix, whose size is not known, is not broadcast: reading it outside is undefined. -/
theorem C96_violated_broadcast (strict : Bool) : ∃ t, lowerMatmul strict .float plain (one [1, 1, 1] [none, some 1, some 1]) (one [2, 1, 1] [some 2, some 1, some 1])
    [none, some 1, some 1] = .ok t ∧ t.sizes = [2, 1, 1] ∧ t.elem [0, 0, 0] = some 1 ∧ t.elem [1, 0, 0] = none := by
  cases strict <;> exact ⟨_, rfl, rfl, by decide, by decide⟩

/-- An empty batch is not broadcast with a batch of one matrix: the larger size is taken. -/
theorem C96_violated_empty (strict : Bool) : lowerMatmul strict .float plain (one [1, 1, 1] [some 1, some 1, some 1]) (one [0, 1, 1] [some 0, some 1, some 1])
    [some 0, some 1, some 1] = .unmatched := by
  cases strict <;> rfl

/-- Integers with two unknown sizes in the batch: they are multiplied with the operation for floats. -/
theorem C96_violated_int_batches (strict : Bool) : lowerMatmul strict .int plain (one [2, 3, 1, 1] [none, none, some 1, some 1]) (one [1, 1] [some 1, some 1])
    [none, none, some 1, some 1] = .bad := by
  cases strict <;> rfl

/-- A result type that knows less than the operands does not verify. -/
theorem C96_violated_result (strict : Bool) : lowerMatmul strict .float plain (one [2, 3, 1, 1] [some 2, some 3, some 1, some 1]) (one [1, 1] [some 1, some 1])
    [none, some 3, some 1, some 1] = .bad := by
  cases strict <;> rfl

/-- Products of a vector with a batch of matrices are not lowered. -/
theorem C96_violated_vector_batch (strict : Bool) (kind : Kind) (ar : Arith A B C R) (x : Operand A) (y : Operand B) (resTy : List (Option Int))
    (h : x.type.length = 1 ∧ 3 ≤ y.type.length ∨ 3 ≤ x.type.length ∧ y.type.length = 1) : lowerMatmul strict kind ar x y resTy = .unmatched := by
  unfold lowerMatmul
  dsimp only
  have c0 : ¬(kind = .quantized ∧ (x.type.length = 1 ∧ y.type.length ≤ 2 ∨ x.type.length ≤ 2 ∧ y.type.length = 1)) := by
    rintro ⟨-, h⟩
    omega
  rw [if_neg c0, if_neg (by omega), if_neg (by omega), if_neg (by omega), if_neg (by omega), if_neg (by omega)]

/-- Products of bytes into bytes: the compiler stops. -/
theorem C96_violated_byte (strict : Bool) (l r res : IntTy) (hl : l.width = 8) (hr : r.width = 8) (h : res.width = 8) (x : Operand (BitVec l.width))
    (y : Operand (BitVec r.width)) (resTy : List (Option Int)) : lowerMmInt strict l r res x y resTy = .crash := by
  unfold lowerMmInt
  have : convertible (accWidth l.width) res.width = false := by rw [hl, h]; rfl
  rw [if_neg (by omega), this]
  rfl

end Verif
