import Verif.Lemmas.LinReduceDim
import Mathlib.Order.Lattice
import Mathlib.Order.BoundedOrder.Lattice

/-! # C95: reductions lowered to linalg -/

namespace Verif

open Lin Red

variable {E F : Type}

namespace Test95

/-- A tensor with elements given in row-major order. -/
def tensor (sizes : List Int) (l : List E) : Tensor E := ⟨sizes, fun idx => l[(linearize sizes idx).toNat]?⟩

/-- The sizes and the elements of a tensor. -/
def see (o : Outcome (Tensor E)) : Option (List Int × List (Option E)) :=
  match o with
  | .ok t => some (t.sizes, (rows t.sizes).map t.elem)
  | _ => none

def seePair (o : Outcome (Tensor E × Tensor F)) : Option (List Int × List (Option E) × List (Option F)) :=
  match o with
  | .ok (t, s) => some (t.sizes, (rows t.sizes).map t.elem, (rows s.sizes).map s.elem)
  | _ => none

abbrev int64 : IntTy := ⟨64, false⟩
abbrev uint8 : IntTy := ⟨8, true⟩
abbrev uint16 : IntTy := ⟨16, true⟩
abbrev bool : IntTy := ⟨1, false⟩

end Test95

open Test95

/-! ## All reductions -/

/-- Every reduction over dimensions, counted from either end, has the sizes of torch, and each element is made of the elements that are reduced to
it, each once, in row-major order. -/
theorem C95_reduce (x : Tensor E) (arg : DimArg) (keep : Bool) (init : F) (body : E → F → F) (val : List Int → E) (hx : Pool.Holds x val)
    (hv : ValidDims x.sizes.length arg) : ∃ y, lowerReduction x arg keep init body = .ok y ∧ y.sizes = kept (named x.sizes.length arg) keep 1 x.sizes ∧
      ∀ q, inRange y.sizes q = true → y.elem q = some ((lane x.sizes (named x.sizes.length arg) keep q).foldl (fun a p => body (val p) a) init) := by
  obtain ⟨y, h1, h2, h3⟩ := reduction_spec x arg keep init body val hx hv
  exact ⟨y, h1, h2, fun q _ => h3 q⟩

/-- The positions on a lane are those of the tensor that agree with it outside of the reduced dimensions. -/
theorem C95_lane (sizes : List Int) (red : Nat → Bool) (keep : Bool) (p q : List Int) :
    p ∈ lane sizes red keep q ↔ inRange sizes p = true ∧ kept red keep 0 p = q := mem_lane

/-! ## Sums and products -/

/-- The sum of integers, of the type of the result, which wraps around.  What is missing: `C95_violated_sum`; sums as truth values; a result
of eight bits (`C95_crashes`). -/
theorem C95_sum_partial (t r : IntTy) (x : Tensor (BitVec t.width)) (arg : DimArg) (keep : Bool) (val : List Int → BitVec t.width) (hx : Pool.Holds x val)
    (hv : ValidDims x.sizes.length arg) (h1 : r.width ≠ 1) (h8 : r.width ≠ 8 ∨ t.width = 8) (hu : t.unsigned = false ∨ r.width ≤ t.width) :
    ∃ y, lowerSum t r x arg keep = .ok y ∧ y.sizes = kept (named x.sizes.length arg) keep 1 x.sizes ∧ ∀ q, inRange y.sizes q = true →
      y.elem q = some (BitVec.ofInt r.width ((lane x.sizes (named x.sizes.length arg) keep q).map fun p => value t (val p)).sum) := by
  obtain ⟨dims, hd, _⟩ := dimSet_spec hv
  obtain ⟨y, e1, e2, e3⟩ := reduction_spec x arg keep (0 : BitVec r.width) (fun e a => convert t.width r.width e + a) val hx hv
  refine ⟨y, ?_, e2, fun q _ => ?_⟩
  · unfold lowerSum
    rw [hd, if_neg (by simp), if_neg (by simp [convertible]; omega), e1]
  · rw [e3]
    have := foldl_sum (fun p => convert t.width r.width (val p)) (fun p => value t (val p)) (fun p => convert_value (Or.inl h1) hu (val p))
      (lane x.sizes (named x.sizes.length arg) keep q) 0
    rw [Int.zero_add] at this
    rw [← this]
    rfl

/-- The product of integers.  What is missing: as for sums. -/
theorem C95_prod_partial (t r : IntTy) (x : Tensor (BitVec t.width)) (arg : DimArg) (keep : Bool) (val : List Int → BitVec t.width) (hx : Pool.Holds x val)
    (hv : ValidDims x.sizes.length arg) (h1 : r.width ≠ 1) (h8 : r.width ≠ 8 ∨ t.width = 8) (hu : t.unsigned = false ∨ r.width ≤ t.width) :
    ∃ y, lowerProd t r x arg keep = .ok y ∧ y.sizes = kept (named x.sizes.length arg) keep 1 x.sizes ∧ ∀ q, inRange y.sizes q = true →
      y.elem q = some (BitVec.ofInt r.width ((lane x.sizes (named x.sizes.length arg) keep q).map fun p => value t (val p)).prod) := by
  obtain ⟨dims, hd, _⟩ := dimSet_spec hv
  obtain ⟨y, e1, e2, e3⟩ := reduction_spec x arg keep (BitVec.ofNat r.width 1) (fun e a => convert t.width r.width e * a) val hx hv
  refine ⟨y, ?_, e2, fun q _ => ?_⟩
  · unfold lowerProd
    rw [hd, if_neg (by simp), if_neg (by simp [convertible]; omega), e1]
  · rw [e3]
    have := foldl_prod (fun p => convert t.width r.width (val p)) (fun p => value t (val p)) (fun p => convert_value (Or.inl h1) hu (val p))
      (lane x.sizes (named x.sizes.length arg) keep q) 1
    rw [Int.one_mul] at this
    rw [← this]
    rfl

/-- The elements of a tensor of type `uint8` are extended with their sign: the sum, of type `int64`, of 200 alone is -56, and so is the product. -/
theorem C95_violated_sum :
    see (lowerSum uint8 int64 (tensor [1] [200#8]) .none false) = some ([], [some (BitVec.ofInt 64 (-56))]) ∧
    see (lowerProd uint8 int64 (tensor [1] [200#8]) .none false) = some ([], [some (BitVec.ofInt 64 (-56))]) ∧ value uint8 200#8 = 200 := by
  decide +kernel

/-- The compiler stops at sums of type `int8` or `uint8` of other elements, and at the greatest and least elements of tensors of these types. -/
theorem C95_crashes (t r : IntTy) (h8 : r.width = 8) (ht : t.width ≠ 8) (x : Tensor (BitVec t.width)) (y : Tensor (BitVec r.width)) (arg : DimArg)
    (hv : ValidDims x.sizes.length arg) (keep isMax : Bool) : lowerSum t r x arg keep = .crash ∧ lowerMinMax isMax r y = .crash := by
  obtain ⟨dims, hd, _⟩ := dimSet_spec hv
  refine ⟨?_, ?_⟩
  · unfold lowerSum
    rw [hd, if_neg (by simp), if_pos (by simp [convertible]; omega)]
  · unfold lowerMinMax
    rw [if_pos h8]

example : see (lowerSum bool int64 (tensor [2, 3] [1#1, 1#1, 1#1, 0#1, 0#1, 1#1]) (.list [-1]) true) = some ([2, 1], [some 3#64, some 1#64]) := by
  decide +kernel

example : see (lowerProd ⟨32, false⟩ int64 (tensor [2, 2] [2#32, 3#32, BitVec.ofInt 32 (-5), 7#32]) (.int 0) false) =
    some ([2], [some (BitVec.ofInt 64 (-10)), some 21#64]) := by decide +kernel

/-! ## Truth values -/

/-- `aten.all` and `aten.any`: whether all or any of the elements are not zero.  What is missing: `C95_violated_truth`. -/
theorem C95_truth_partial (isAll dimOp : Bool) (nonzero : E → Bool) (x : Tensor E) (arg : DimArg) (keep : Bool) (val : List Int → E) (hx : Pool.Holds x val)
    (hv : ValidDims x.sizes.length arg) : ∃ y, lowerTruth isAll dimOp false nonzero x arg keep = .ok y ∧ y.sizes = kept (named x.sizes.length arg) keep 1 x.sizes ∧
      ∀ q, inRange y.sizes q = true → ∃ b, y.elem q = some b ∧
        (b = true ↔ if isAll then ∀ p ∈ lane x.sizes (named x.sizes.length arg) keep q, nonzero (val p) = true
          else ∃ p ∈ lane x.sizes (named x.sizes.length arg) keep q, nonzero (val p) = true) := by
  obtain ⟨dims, hd, _⟩ := dimSet_spec hv
  obtain ⟨y, e1, e2, e3⟩ := reduction_spec x arg keep isAll (fun e a => if isAll then nonzero e && a else nonzero e || a) val hx hv
  refine ⟨y, ?_, e2, fun q _ => ⟨_, e3 q, ?_⟩⟩
  · unfold lowerTruth
    rw [hd, if_neg (by simp), if_neg (by simp), e1]
  · generalize lane x.sizes (named x.sizes.length arg) keep q = l
    cases isAll with
    | true =>
      have : ∀ (l : List (List Int)) (a : Bool), l.foldl (fun a p => nonzero (val p) && a) a = true ↔ a = true ∧ ∀ p ∈ l, nonzero (val p) = true := by
        intro l
        induction l with
        | nil => intro a; simp
        | cons p l ih =>
          intro a
          rw [List.foldl_cons, ih, Bool.and_eq_true]
          simp only [List.mem_cons, forall_eq_or_imp]
          tauto
      simp only [if_true]
      rw [this]
      simp
    | false =>
      have : ∀ (l : List (List Int)) (a : Bool), l.foldl (fun a p => nonzero (val p) || a) a = true ↔ a = true ∨ ∃ p ∈ l, nonzero (val p) = true := by
        intro l
        induction l with
        | nil => intro a; simp
        | cons p l ih =>
          intro a
          rw [List.foldl_cons, ih, Bool.or_eq_true]
          simp only [List.mem_cons, exists_eq_or_imp]
          tauto
      simp only [Bool.false_eq_true, if_false]
      rw [this]
      simp

/-- For `uint8` the initial value is of one bit and the elements of eight: what is made does not pass the verifier. -/
theorem C95_violated_truth (isAll : Bool) (nonzero : E → Bool) (x : Tensor E) (arg : DimArg) (hv : ValidDims x.sizes.length arg) (keep : Bool) :
    lowerTruth isAll false true nonzero x arg keep = .bad := by
  obtain ⟨dims, hd, _⟩ := dimSet_spec hv
  unfold lowerTruth
  rw [hd, if_neg (by simp), if_pos rfl, if_neg (by simp)]

example : see (lowerTruth false false false (fun (e : Int) => decide (e ≠ 0)) (tensor [2, 2] [0, 0, 0, 5]) (.list [1]) false) =
    some ([2], [some false, some true]) := by decide +kernel

/-! ## Greatest and least elements -/

/-- `aten.max` and `aten.min` of signed integers and truth values.  What is missing: `C95_violated_max`, `C95_crashes`. -/
theorem C95_max_partial (isMax : Bool) (t : IntTy) (hw : t.Valid) (hs : t.unsigned = false) (h8 : t.width ≠ 8) (x : Tensor (BitVec t.width))
    (val : List Int → BitVec t.width) (hx : Pool.Holds x val) (hne : rows x.sizes ≠ []) :
    ∃ y m, lowerMinMax isMax t x = .ok y ∧ y.sizes = [] ∧ y.elem [] = some m ∧ IsExtreme isMax (value t m) ((rows x.sizes).map fun p => value t (val p)) := by
  obtain ⟨y, e1, e2, e3⟩ := reduction_spec x .none false (extreme isMax t.useUnsigned t.width) (pick isMax t.useUnsigned) val hx trivial
  have hkept : ∀ l : List Int, kept (named x.sizes.length .none) false 1 l = [] ∧ kept (named x.sizes.length .none) false 0 l = [] := by
    intro l
    unfold Red.kept named
    simp
  have hlane : lane x.sizes (named x.sizes.length .none) false [] = rows x.sizes := by
    unfold lane
    rw [List.filter_eq_self]
    intro p _
    rw [(hkept p).2]
    simp
  refine ⟨y, _, ?_, by rw [e2, (hkept _).1], e3 [], ?_⟩
  · unfold lowerMinMax
    rw [if_neg h8, signless_useUnsigned hs, e1]
  · rw [hlane]
    have := best_list (key isMax t) (pick isMax t.useUnsigned) (extreme isMax t.useUnsigned t.width) (pick_key isMax t) (extreme_key isMax t hw)
      (fun a b => key_inj) ((rows x.sizes).map val) (by simpa using hne)
    rw [List.foldl_map] at this
    have h2 := isExtreme_of (isMax := isMax) this.1 this.2
    rw [List.map_map] at h2
    exact h2

/-- The initial value is the least signed integer, also for unsigned elements: the greatest element of a tensor of type `uint16` with nothing but a one
is 32768. -/
theorem C95_violated_max : see (lowerMinMax true uint16 (tensor [1] [1#16])) = some ([], [some 32768#16]) := by decide +kernel

example : see (lowerMinMax false int64 (tensor [3] [4#64, BitVec.ofInt 64 (-2), 9#64])) = some ([], [some (BitVec.ofInt 64 (-2))]) := by decide +kernel

/-- `aten.max.dim` and `aten.min.dim` of integers: the greatest or least element along the dimension and the first index of it. -/
theorem C95_max_dim (isMax : Bool) (t : IntTy) (hw : t.Valid) (x : Tensor (BitVec t.width)) (val : List Int → BitVec t.width) (hx : Pool.Holds x val)
    (hpos : ∀ n ∈ x.sizes, 0 ≤ n) (dim : Int) (d : Nat) (hd : d < x.sizes.length) (hdim : dim = d ∨ dim + x.sizes.length = d) (hn : 0 < x.sizes.getD d 0)
    (keep : Bool) (ty : List (Option Int)) (hty : TypeOf ty (kept (only d) keep 1 x.sizes)) (hk : keep = true → ty[d]? = some (some 1)) :
    ∃ v i, lowerMinMaxDimInt isMax t x dim keep ty = .ok (v, i) ∧ v.sizes = kept (only d) keep 1 x.sizes ∧ i.sizes = kept (only d) keep 1 x.sizes ∧
      ∀ q, inRange (kept (only d) keep 1 x.sizes) q = true → ∃ m k, v.elem q = some m ∧ i.elem q = some k ∧
        IsExtreme isMax (value t m) ((lane x.sizes (only d) keep q).map fun p => value t (val p)) ∧ FirstAt val d (lane x.sizes (only d) keep q) m k := by
  obtain ⟨v, i, h1, h2, h3, h4⟩ := minMax_spec (fun _ => True) (key isMax t) (pick isMax t.useUnsigned)
    (fun new old => if isMax then (if t.useUnsigned then old.ult new else old.slt new) else (if t.useUnsigned then new.ult old else new.slt old))
    (extreme isMax t.useUnsigned t.width) (fun a b _ _ => pick_key isMax t a b) (fun a b _ _ => better_key isMax t a b) trivial
    (fun e _ => extreme_key isMax t hw e) (fun a b _ _ => key_inj) x val hx hpos dim d hd hdim hn keep ty hty hk (fun _ _ => trivial)
  refine ⟨v, i, h1, h2, h3, fun q hq => ?_⟩
  obtain ⟨m, k, g1, g2, _, g4, g5⟩ := h4 q hq
  refine ⟨m, k, g1, g2, ?_, g5⟩
  have := isExtreme_of (isMax := isMax) (t := t) (m := m) (l := (lane x.sizes (only d) keep q).map val) (by
    obtain ⟨p, hp, he, _⟩ := g5
    exact List.mem_map.2 ⟨p, hp, he⟩) (by
    intro e he
    obtain ⟨p, hp, rfl⟩ := List.mem_map.1 he
    exact g4 p hp)
  rw [List.map_map] at this
  exact this

/-- The same for floats, if all are numbers.  What is missing: `C95_violated_max_dim`. -/
theorem C95_max_dim_float_partial {O : Type} [LinearOrder O] [OrderBot O] (x : Tensor (Option O)) (val : List Int → Option O) (hx : Pool.Holds x val)
    (hnum : ∀ p, inRange x.sizes p = true → val p ≠ none) (hpos : ∀ n ∈ x.sizes, 0 ≤ n) (dim : Int) (d : Nat) (hd : d < x.sizes.length)
    (hdim : dim = d ∨ dim + x.sizes.length = d) (hn : 0 < x.sizes.getD d 0)
    (keep : Bool) (ty : List (Option Int)) (hty : TypeOf ty (kept (only d) keep 1 x.sizes)) (hk : keep = true → ty[d]? = some (some 1)) :
    ∃ v i, lowerMaxDimFloat x dim keep ty = .ok (v, i) ∧ v.sizes = kept (only d) keep 1 x.sizes ∧ i.sizes = kept (only d) keep 1 x.sizes ∧
      ∀ q, inRange (kept (only d) keep 1 x.sizes) q = true → ∃ m k, v.elem q = some (some m) ∧ i.elem q = some k ∧
        (∀ p ∈ lane x.sizes (only d) keep q, ∃ o, val p = some o ∧ o ≤ m) ∧ FirstAt val d (lane x.sizes (only d) keep q) (some m) k := by
  have key : ∀ a : Option O, a ≠ none → some (a.getD ⊥) = a := by
    intro a ha
    cases a with
    | none => exact absurd rfl ha
    | some a => rfl
  obtain ⟨v, i, h1, h2, h3, h4⟩ := minMax_spec (fun a : Option O => a ≠ none) (fun a => a.getD ⊥) maximumf ogt (some ⊥)
    (by
      rintro (_ | a) (_ | b) ha hb
      · exact absurd rfl ha
      · exact absurd rfl ha
      · exact absurd rfl hb
      · simp only [maximumf, Option.getD_some]
        by_cases h : b < a
        · rw [if_pos h, max_eq_left (le_of_lt h)]
        · rw [if_neg h, max_eq_right (not_lt.1 h)])
    (by
      rintro (_ | a) (_ | b) ha hb
      · exact absurd rfl ha
      · exact absurd rfl ha
      · exact absurd rfl hb
      · rfl)
    (by simp) (fun e _ => bot_le) (fun a b ha hb h => by rw [← key a ha, ← key b hb, h])
    x val hx hpos dim d hd hdim hn keep ty hty hk hnum
  refine ⟨v, i, h1, h2, h3, fun q hq => ?_⟩
  obtain ⟨m, k, g1, g2, g3, g4, g5⟩ := h4 q hq
  refine ⟨m.getD ⊥, k, by rw [key m g3]; exact g1, g2, fun p hp => ⟨(val p).getD ⊥, (key _ (hnum p (mem_lane.1 hp).1)).symm, g4 p hp⟩, by rw [key m g3]; exact g5⟩

/-- A greatest element that is not a number is found, but not its index. -/
theorem C95_violated_max_dim : seePair (lowerMaxDimFloat (O := Nat) (tensor [3] [some 1, none, some 2]) 0 false []) = some ([], [some none], [some 0]) := by
  decide +kernel

example : seePair (lowerMinMaxDimInt true uint8 (tensor [2, 3] [1#8, 200#8, 200#8, 0#8, 0#8, 0#8]) (-1) true [none, some 1]) =
    some ([2, 1], [some 200#8, some 0#8], [some 1, some 0]) := by decide +kernel

example : seePair (lowerMinMaxDimInt false int64 (tensor [2, 3] [1#64, 5#64, 4#64, 0#64, 7#64, 4#64]) 0 false [some 3]) =
    some ([3], [some 0#64, some 5#64, some 4#64], [some 1, some 0, some 0]) := by decide +kernel

/-! ## Norms -/

/-- The norms: the root of the sum of the powers of the absolute values, as floats compute it. -/
theorem C95_norm (o : Floats F) (ord : F) (x : Tensor F) (arg : DimArg) (keep : Bool) (val : List Int → F) (hx : Pool.Holds x val)
    (hv : ValidDims x.sizes.length arg) :
    (∃ y, lowerNorm o ord x arg keep = .ok y ∧ y.sizes = kept (named x.sizes.length arg) keep 1 x.sizes ∧ ∀ q, inRange y.sizes q = true →
      y.elem q = some (o.pow ((lane x.sizes (named x.sizes.length arg) keep q).foldl (fun a p => o.add (o.pow (o.abs (val p)) ord) a) o.zero) (o.div o.one ord))) ∧
    ∃ y, lowerFrobenius o x arg keep = .ok y ∧ y.sizes = kept (named x.sizes.length arg) keep 1 x.sizes ∧ ∀ q, inRange y.sizes q = true →
      y.elem q = some (o.pow ((lane x.sizes (named x.sizes.length arg) keep q).foldl (fun a p => o.add (o.pow (o.abs (val p)) o.two) a) o.zero) o.half) := by
  constructor
  · obtain ⟨y, e1, e2, e3⟩ := reduction_spec x arg keep o.zero (fun e a => o.add (o.pow (o.abs e) ord) a) val hx hv
    refine ⟨⟨y.sizes, fun q => (y.get q).map fun s => o.pow s (o.div o.one ord)⟩, by rw [lowerNorm, e1]; rfl, e2, fun q hq => ?_⟩
    change (y.get q).map _ = _
    rw [get_of_range (t := y) hq, e3]
    rfl
  · obtain ⟨y, e1, e2, e3⟩ := reduction_spec x arg keep o.zero (fun e a => o.add (o.pow (o.abs e) o.two) a) val hx hv
    refine ⟨⟨y.sizes, fun q => (y.get q).map fun s => o.pow s o.half⟩, by rw [lowerFrobenius, e1]; rfl, e2, fun q hq => ?_⟩
    change (y.get q).map _ = _
    rw [get_of_range (t := y) hq, e3]
    rfl

/-- The norm of infinite order is one for every tensor, if one over infinity is zero and every number to the power of zero is one, as in IEEE 754. -/
theorem C95_violated_norm (o : Floats F) (inf : F) (h1 : o.div o.one inf = o.zero) (h2 : ∀ a, o.pow a o.zero = o.one) (x : Tensor F) (val : List Int → F)
    (hx : Pool.Holds x val) : ∃ y, lowerNorm o inf x .none false = .ok y ∧ y.elem [] = some o.one := by
  obtain ⟨⟨y, e1, e2, e3⟩, _⟩ := C95_norm o inf x .none false val hx trivial
  refine ⟨y, e1, ?_⟩
  have hs : y.sizes = [] := by
    rw [e2]
    unfold Red.kept named
    simp
  rw [e3 [] (by rw [hs]; rfl), h1, h2]

/-! ## `prims.prod` -/

/-- `prims.prod` matches only if the type of the result is that of the reduced input, with or without the reduced dimensions, and then reduces over
them. -/
theorem C95_prims_prod_sound (x : Operand E) (arg : DimArg) (res : List (Option Int)) (one : F) (mul : E → F → F) (val : List Int → E)
    (ht : x.Typed) (hx : Pool.Holds x.tensor val) (y : Tensor F) (h : lowerPrimsProd x arg res one mul = .ok y)
    (hv : ValidDims x.tensor.sizes.length arg) :
    ∃ keep red, red = named x.tensor.sizes.length arg ∧ y.sizes = kept red keep 1 x.tensor.sizes ∧
      res.length = y.sizes.length ∧ ∀ q, inRange y.sizes q = true → y.elem q = some ((lane x.tensor.sizes red keep q).foldl (fun a p => mul (val p) a) one) := by
  obtain ⟨ds, h1, h2⟩ := dimSet_spec hv
  unfold lowerPrimsProd at h
  rw [ht.1, h1] at h
  simp only at h
  cases hk : primsKeep ds x.type res with
  | none => rw [hk] at h; exact absurd h (by simp)
  | some keep =>
    rw [hk] at h
    simp only [Outcome.ok.injEq] at h
    obtain ⟨r1, r2⟩ := reduce_spec x.tensor ds keep one (fun _ => mul) val hx _ h2
    subst h
    refine ⟨keep, _, rfl, r1, ?_, fun q _ => r2 q⟩
    rw [r1, ← resultSizes_eq ds keep (named x.tensor.sizes.length arg) x.tensor.sizes 0 (fun k hk => by rw [Nat.zero_add]; exact h2 k hk)]
    have hlen : ∀ (l l' : List Int) (d : Nat), l.length = l'.length → (resultSizes ds keep d l).length = (resultSizes ds keep d l').length := by
      intro l
      induction l with
      | nil => intro l' d h; rw [List.length_eq_zero_iff.1 h.symm]
      | cons a l ih =>
        intro l' d h
        cases l' with
        | nil => simp at h
        | cons a' l' =>
          have := ih l' (d + 1) (by simpa using h)
          simp only [resultSizes]
          by_cases hc : d ∈ ds <;> cases keep <;> simp [hc, this]
    have hres : typeSizes res = resultSizes ds keep 0 (x.type.map (·.getD dynamic)) := by
      unfold primsKeep at hk
      simp only at hk
      by_cases c1 : (typeSizes res).length = (x.type.map (·.getD dynamic)).length
      · rw [if_pos c1] at hk
        by_cases c2 : typeSizes res = resultSizes ds true 0 (x.type.map (·.getD dynamic))
        · rw [if_pos c2, Option.some.injEq] at hk
          rw [← hk]
          exact c2
        · rw [if_neg c2] at hk; simp at hk
      · rw [if_neg c1] at hk
        by_cases c3 : (typeSizes res).length = (resultSizes ds false 0 (x.type.map (·.getD dynamic))).length
        · rw [if_pos c3] at hk
          by_cases c2 : typeSizes res = resultSizes ds false 0 (x.type.map (·.getD dynamic))
          · rw [if_pos c2, Option.some.injEq] at hk
            rw [← hk]
            exact c2
          · rw [if_neg c2] at hk; simp at hk
        · rw [if_neg c3] at hk; simp at hk
    have : res.length = (typeSizes res).length := by simp [typeSizes]
    rw [this, hres]
    exact hlen _ _ 0 (by rw [List.length_map]; exact ht.1)

/-- If all sizes are known, it is lowered.  What is missing: `C95_violated_prims_prod`. -/
theorem C95_prims_prod_partial (x : Operand E) (arg : DimArg) (keep : Bool) (one : F) (mul : E → F → F) (val : List Int → E)
    (hs : x.type = x.tensor.sizes.map some) (hx : Pool.Holds x.tensor val) (hv : ValidDims x.tensor.sizes.length arg) :
    ∃ y, lowerPrimsProd x arg ((kept (named x.tensor.sizes.length arg) keep 1 x.tensor.sizes).map some) one mul = .ok y ∧
      y.sizes = kept (named x.tensor.sizes.length arg) keep 1 x.tensor.sizes ∧ ∀ q, inRange y.sizes q = true →
        y.elem q = some ((lane x.tensor.sizes (named x.tensor.sizes.length arg) keep q).foldl (fun a p => mul (val p) a) one) := by
  obtain ⟨ds, h1, h2⟩ := dimSet_spec hv
  have hsz : ∀ keep, resultSizes ds keep 0 x.tensor.sizes = kept (named x.tensor.sizes.length arg) keep 1 x.tensor.sizes := fun keep =>
    resultSizes_eq ds keep (named x.tensor.sizes.length arg) x.tensor.sizes 0 (fun k hk => by rw [Nat.zero_add]; exact h2 k hk)
  have htype : x.type.map (·.getD dynamic) = x.tensor.sizes := by
    rw [hs, List.map_map]
    exact List.map_id'' (fun _ => rfl) _
  have hts : ∀ l : List Int, typeSizes (l.map some) = l := by
    intro l
    unfold typeSizes
    rw [List.map_map]
    exact List.map_id'' (fun _ => rfl) _
  have hkl : (kept (named x.tensor.sizes.length arg) true 1 x.tensor.sizes).length = x.tensor.sizes.length := by simp [Red.kept]
  have hk : ∃ keep', primsKeep ds x.type ((kept (named x.tensor.sizes.length arg) keep 1 x.tensor.sizes).map some) = some keep' ∧
      ((keep' = keep) ∨ ∀ d < x.tensor.sizes.length, named x.tensor.sizes.length arg d = false) := by
    unfold primsKeep
    simp only [htype, hts, hsz]
    cases keep with
    | true => exact ⟨true, by rw [if_pos hkl, if_pos rfl], .inl rfl⟩
    | false =>
      by_cases hc : (kept (named x.tensor.sizes.length arg) false 1 x.tensor.sizes).length = x.tensor.sizes.length
      · have hall : ∀ d < x.tensor.sizes.length, named x.tensor.sizes.length arg d = false := by
          intro d hd
          simp only [Red.kept, Bool.false_eq_true, if_false, List.length_map] at hc
          rw [← List.length_zipIdx (l := x.tensor.sizes) (i := 0)] at hc
          have := List.length_filter_eq_length_iff.1 hc (x.tensor.sizes[d], d) (by
            rw [List.mem_zipIdx_iff_getElem?]
            simp [hd])
          simpa using this
        refine ⟨true, ?_, .inr hall⟩
        rw [if_pos hc, if_pos]
        simp only [Red.kept, Bool.false_eq_true, if_false, if_true]
        rw [List.filter_eq_self.2]
        · exact List.map_congr_left fun a ha => by
            rw [hall a.2 (by have := List.snd_lt_of_mem_zipIdx ha; omega)]
            rfl
        · intro a ha
          rw [hall a.2 (by have := List.snd_lt_of_mem_zipIdx ha; omega)]
          rfl
      · exact ⟨false, by rw [if_neg hc, if_pos rfl, if_pos rfl], .inl rfl⟩
  obtain ⟨keep', hk1, hk2⟩ := hk
  obtain ⟨r1, r2⟩ := reduce_spec x.tensor ds keep' one (fun _ => mul) val hx _ h2
  refine ⟨reduce x.tensor ds keep' one fun _ => mul, ?_, ?_, fun q _ => ?_⟩
  · unfold lowerPrimsProd
    rw [show x.type.length = x.tensor.sizes.length by rw [hs, List.length_map], h1]
    simp only [hk1]
  · rcases hk2 with rfl | hall
    · exact r1
    · rw [r1]
      rw [kept_free hall, kept_free hall]
  · rcases hk2 with rfl | hall
    · exact r2 q
    · rw [r2]
      congr 2
      unfold lane
      refine List.filter_congr fun p hp => ?_
      have hp' : ∀ d < p.length, named x.tensor.sizes.length arg d = false := fun d hd => hall d (by rw [inRange_length (mem_rows.1 hp)] at hd; exact hd)
      rw [kept_free hp', kept_free hp']

/-- It never matches if a dimension that is not reduced is of unknown size: that is a different number in the two types compared. -/
theorem C95_violated_prims_prod (ds : List Nat) (ins res : List (Option Int)) (d : Nat) (hd : ins[d]? = some none) (hnot : d ∉ ds)
    (hres : ∀ n ∈ res, ∀ m, n = some m → 0 ≤ m) : primsKeep ds ins res = none := by
  have hmem : ∀ (keep : Bool) (l : List Int) (k : Nat), l[d - k]? = some dynamic → k ≤ d → dynamic ∈ resultSizes ds keep k l := by
    intro keep l
    induction l with
    | nil => intro k h; simp at h
    | cons n l ih =>
      intro k h hk
      rcases Nat.lt_or_ge k d with hlt | hge
      · have := ih (k + 1) (by rw [show d - k = (d - (k + 1)) + 1 by omega] at h; simpa using h) hlt
        by_cases hc : k ∈ ds <;> cases keep <;> simp [resultSizes, hc, this]
      · have hkd : k = d := by omega
        subst hkd
        rw [Nat.sub_self, List.getElem?_cons_zero, Option.some.injEq] at h
        simp [resultSizes, hnot, h]
  have hno : dynamic ∉ typeSizes res := by
    intro h
    obtain ⟨n, hn, he⟩ := List.mem_map.1 h
    cases n with
    | none => revert he; decide
    | some m =>
      have h1 := hres _ hn m rfl
      simp only [Option.getD_some] at he
      rw [he] at h1
      revert h1
      decide
  have hin : (ins.map (·.getD dynamic))[d - 0]? = some dynamic := by
    rw [Nat.sub_zero, List.getElem?_map, hd]
    rfl
  unfold primsKeep
  simp only
  have hne : ∀ keep, typeSizes res ≠ resultSizes ds keep 0 (ins.map (·.getD dynamic)) := by
    intro keep h
    exact hno (h ▸ hmem keep _ 0 hin (Nat.zero_le _))
  rw [if_neg (hne true), if_neg (hne false)]
  simp

example : see (lowerPrimsProd ⟨tensor [2, 3] [1, 2, 3, 4, 5, 6], [some 2, some 3]⟩ (.list [1]) [some 2] (1 : Int) (· * ·)) = some ([2], [some 6, some 120]) := by
  decide +kernel

end Verif
