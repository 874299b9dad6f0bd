import Verif.Lemmas.LinFlatten

/-!
# C89: views in the linalg backend
-/

namespace Verif

open Lin

variable {E : Type}

/-- Whatever the lowering of `aten.view` makes without failing has the elements of the input in the same order, and sizes that agree
with the type of the result. -/
theorem C89_view_sound (x : Operand E) (ht : x.Typed) (hx : ∀ n ∈ x.tensor.sizes, 0 ≤ n) (size : List ViewSize) (resTy : List (Option Int)) (t : Tensor E)
    (h : lowerView x size resTy = .ok t) : IsReshapeOf t x.tensor ∧ TypeOf resTy t.sizes :=
  lowerView_sound ht hx h

/-- The lowering of `aten.view` yields the view: at most one size, of the input or asked for, is not known or -1, or one of the input and
one asked for with different products of the others; none is zero, and there are less than 2^31 elements.  What is missing: `C89_violated_empty`, `C89_violated_empty_dynamic`, `C89_violated_overflow`, and sizes read
from the input (`ViewSize.sizeOf`). -/
theorem C89_view_partial (x : Operand E) (ht : x.Typed) (hx : ∀ n ∈ x.tensor.sizes, 1 ≤ n) (size : List ViewSize) (target : List Int)
    (resTy : List (Option Int)) (hs : NoSizeOf size) (hf : Fills (size.map (·.value x.tensor.sizes)) target) (hn : ∀ n ∈ target, 1 ≤ n)
    (hp : target.prod = x.tensor.sizes.prod) (hb : target.prod < 2 ^ 31) (hr : TypeOf resTy target) (h0 : target = [] → x.type.count none = 0)
    (h1 : x.type.count none + size.countP (fun s => !s.isNumber) ≤ 1 ∨
      (x.type.count none = 1 ∧ size.countP (fun s => !s.isNumber) = 1 ∧ (knownSizes x.type).prod ≠ (numbers size).prod)) :
    ∃ t, lowerView x size resTy = .ok t ∧ t.sizes = target ∧ IsReshapeOf t x.tensor := by
  rcases lowerView_spec ht hx hs hf hn hp hb hr (by omega) h0 with ⟨-, h | ⟨h2, h3, h4⟩⟩ | ⟨t, h, e⟩
  · omega
  · rcases h1 with h1 | ⟨-, -, h1⟩
    · omega
    · exact absurd h4 h1
  · exact ⟨t, h, e, (lowerView_sound ht (fun n hm => by have := hx n hm; omega) h).1⟩

/-- If at most one size of the input is not known and any number of the sizes asked for are not, the lowering of `aten.view` leaves the
operation to the fallback, or yields the view.  What is missing: two unknown sizes of the input, `C89_violated_wrong`,
`C89_violated_invalid` and `C89_violated_aborts`; a scalar, `C89_violated_scalar`. -/
theorem C89_view_dynamic_partial (x : Operand E) (ht : x.Typed) (hx : ∀ n ∈ x.tensor.sizes, 1 ≤ n) (size : List ViewSize) (target : List Int)
    (resTy : List (Option Int)) (hs : NoSizeOf size) (hf : Fills (size.map (·.value x.tensor.sizes)) target) (hn : ∀ n ∈ target, 1 ≤ n)
    (hp : target.prod = x.tensor.sizes.prod) (hb : target.prod < 2 ^ 31) (hr : TypeOf resTy target) (h0 : target = [] → x.type.count none = 0)
    (h1 : x.type.count none ≤ 1) :
    lowerView x size resTy = .unmatched ∨ ∃ t, lowerView x size resTy = .ok t ∧ t.sizes = target ∧ IsReshapeOf t x.tensor := by
  rcases lowerView_spec ht hx hs hf hn hp hb hr h1 h0 with ⟨h, -⟩ | ⟨t, h, e⟩
  · exact Or.inl h
  · exact Or.inr ⟨t, h, e, (lowerView_sound ht (fun n hm => by have := hx n hm; omega) h).1⟩

/-- The fallback makes nothing but views. -/
theorem C89_reshape_sound (strict : Bool) (x : Tensor E) (hx : ∀ n ∈ x.sizes, 0 ≤ n) (size : List Int) (t : Tensor E)
    (h : lowerViewToReshape strict x size = .ok t) : IsReshapeOf t x := by
  unfold lowerViewToReshape at h
  dsimp only at h
  split at h
  · cases h
  · split at h
    · cases h
    · split at h
      · cases h
      · exact (reshape_ok hx h).2

/-- The fallback yields the view, whatever the types.  What is missing: sizes of zero (`C89_violated_reshape_zero`); views as a scalar never
get here. -/
theorem C89_reshape_partial (strict : Bool) (x : Tensor E) (hx : ∀ n ∈ x.sizes, 0 ≤ n) (size target : List Int) (hne : size ≠ []) (hf : Fills size target)
    (hn : ∀ n ∈ target, 0 ≤ n) (hp : target.prod = x.sizes.prod) (h0 : ∀ s ∈ size, s ≠ 0) :
    ∃ t, lowerViewToReshape strict x size = .ok t ∧ t.sizes = target ∧ IsReshapeOf t x :=
  lowerViewToReshape_spec strict hx hne hf hn hp h0

/-- The lowering of `aten.flatten.using_ints` merges the dimensions from one to the other. -/
theorem C89_flatten (x : Tensor E) (hx : ∀ n ∈ x.sizes, 0 ≤ n) (start end_ : Int) (c : List Int) (h : Shape.IsFlatten x.sizes start end_ c) :
    ∃ t, lowerFlatten x start end_ = .ok t ∧ t.sizes = c ∧ IsReshapeOf t x :=
  lowerFlatten_spec hx h

/-! ## Violations -/

namespace Test89

/-- Elements counted in row-major order. -/
def iota (sizes : List Int) : Tensor Int := ⟨sizes, fun i => some (position sizes i)⟩

/-- What is seen of an outcome. -/
inductive Seen where
  | unmatched | crash | bad | aborts
  | ok (sizes : List Int) (elems : List (Option Int))
  deriving DecidableEq

def indices : List Int → List (List Int)
  | [] => [[]]
  | n :: ns => (List.range n.toNat).flatMap fun (i : Nat) => (indices ns).map ((i : Int) :: ·)

def see : Outcome (Tensor Int) → Seen
  | .unmatched => .unmatched
  | .crash => .crash
  | .bad => .bad
  | .aborts => .aborts
  | .ok t => .ok t.sizes ((indices t.sizes).map t.elem)

def upTo (n : Nat) : List (Option Int) := (List.range n).map fun (i : Nat) => some (i : Int)

/-- A tensor of which some sizes are known. -/
def operand (sizes : List Int) (ty : List (Option Int)) : Operand Int := ⟨iota sizes, ty⟩

theorem typed {ty : List (Option Int)} {sizes : List Int} (h : castOk ty sizes = true) : TypeOf ty sizes := castOk_iff.mp h

end Test89

open Test89

/-- A view of an empty tensor of known sizes stops the compiler. -/
theorem C89_violated_empty : (operand [2, 0] [some 2, some 0]).Typed ∧ Fills [0] [0] ∧ ([0] : List Int).prod = ([2, 0] : List Int).prod ∧
    see (lowerView (operand [2, 0] [some 2, some 0]) [.const 0] [some 0]) = .crash := by
  refine ⟨typed (by decide +kernel), ⟨.cons (by decide) .nil, by decide⟩, by decide, by decide +kernel⟩

/-- So does one of an empty tensor with a size that is not known. -/
theorem C89_violated_empty_dynamic : (operand [2, 0] [none, some 0]).Typed ∧ Fills [0] [0] ∧ ([0] : List Int).prod = ([2, 0] : List Int).prod ∧
    see (lowerView (operand [2, 0] [none, some 0]) [.const 0] [some 0]) = .crash := by
  refine ⟨typed (by decide +kernel), ⟨.cons (by decide) .nil, by decide⟩, by decide, by decide +kernel⟩

/-- The sizes in between are computed in 32 bits. -/
theorem C89_violated_overflow : (operand [65536, 65536] [some 65536, some 65536]).Typed ∧ Fills [4294967296] [4294967296] ∧
    ([4294967296] : List Int).prod = ([65536, 65536] : List Int).prod ∧
    see (lowerView (operand [65536, 65536] [some 65536, some 65536]) [.const 4294967296] [some 4294967296]) = .bad := by
  refine ⟨typed (by decide +kernel), ⟨.cons (by decide) .nil, by decide⟩, by decide, by decide +kernel⟩

/-- If two sizes of the input are not known, the dimensions are taken to be unchanged: the view of 2 times 6 elements as 3 times 4 has
2 times 6. -/
theorem C89_violated_wrong : (operand [2, 6] [none, none]).Typed ∧ Fills [3, 4] [3, 4] ∧ TypeOf [none, none] [3, 4] ∧
    see (lowerView (operand [2, 6] [none, none]) [.other 3, .const 4] [none, none]) = .ok [2, 6] (upTo 12) := by
  refine ⟨typed (by decide +kernel), ⟨.cons (by decide) (.cons (by decide) .nil), by decide⟩, typed (by decide +kernel), by decide +kernel⟩

/-- Or the cast to the type of the result fails. -/
theorem C89_violated_invalid : (operand [2, 6] [none, none]).Typed ∧ Fills [3, 4] [3, 4] ∧ TypeOf [none, some 4] [3, 4] ∧
    see (lowerView (operand [2, 6] [none, none]) [.other 3, .const 4] [none, some 4]) = .bad := by
  refine ⟨typed (by decide +kernel), ⟨.cons (by decide) (.cons (by decide) .nil), by decide⟩, typed (by decide +kernel), by decide +kernel⟩

/-- Or an assertion that a size is unchanged fails in a valid program. -/
theorem C89_violated_aborts : (operand [2, 6] [none, none]).Typed ∧ Fills [3, -1] [3, 4] ∧ TypeOf [some 3, none] [3, 4] ∧
    see (lowerView (operand [2, 6] [none, none]) [.const 3, .const (-1)] [some 3, none]) = .aborts := by
  refine ⟨typed (by decide +kernel), ⟨.cons (by decide) (.cons (by decide) .nil), by decide⟩, typed (by decide +kernel), by decide +kernel⟩

/-- A tensor of one element in dimensions of unknown sizes can not be viewed as a scalar: an invalid collapse is made. -/
theorem C89_violated_scalar : (operand [1] [none]).Typed ∧ Fills [] [] ∧ ([] : List Int).prod = ([1] : List Int).prod ∧
    see (lowerView (operand [1] [none]) [] []) = .bad := by
  refine ⟨typed (by decide +kernel), ⟨.nil, by decide⟩, by decide, by decide +kernel⟩

/-- The fallback divides by the product of the sizes given, even if none is to be inferred. -/
theorem C89_violated_reshape_zero : Fills [3, 0] [3, 0] ∧ ([3, 0] : List Int).prod = ([0, 2] : List Int).prod ∧
    see (lowerViewToReshape false (iota [0, 2]) [3, 0]) = .bad := by
  refine ⟨⟨.cons (by decide) (.cons (by decide) .nil), by decide⟩, by decide, by decide +kernel⟩

/-! ## Examples -/

namespace Test89

example : see (lowerView (operand [2, 6] [some 2, some 6]) [.const 3, .const 4] [some 3, some 4]) =
    .ok [3, 4] (upTo 12) := by decide +kernel

example : see (lowerView (operand [4, 3] [none, some 3]) [.const 2, .const (-1)] [some 2, none]) = .ok [2, 6] (upTo 12) := by decide +kernel

example : see (lowerView (operand [2, 6] [none, some 6]) [.other 3, .other 4] [none, none]) = .unmatched := by decide +kernel

example : see (lowerView (operand [2, 3, 2] [some 2, some 3, some 2]) [.const (-1), .const 2] [some 6, some 2]) =
    .ok [6, 2] (upTo 12) := by decide +kernel

example : see (lowerView (operand [2, 6] [none, some 6]) [.const 2, .const 2, .const 3] [some 2, some 2, some 3]) =
    .ok [2, 2, 3] (upTo 12) := by decide +kernel

/-- Sizes read from the input. -/
example : see (lowerView (operand [2, 3, 2] [none, some 3, some 2]) [.sizeOf 0, .const 6] [none, some 6]) =
    .ok [2, 6] (upTo 12) := by decide +kernel

/-- Not a view: the products differ. -/
example : see (lowerView (operand [2, 3] [some 2, some 3]) [.const 4] [some 4]) = .unmatched := by decide +kernel

example : see (lowerViewToReshape false (iota [2, 6]) [3, -1]) = .ok [3, 4] (upTo 12) := by decide +kernel

example : see (lowerViewToReshape false (iota [2, 6]) [-1, -1]) = .aborts := by decide +kernel

example : see (lowerFlatten (iota [2, 3, 2]) 1 (-1)) = .ok [2, 6] (upTo 12) := by decide +kernel

example : Shape.IsFlatten [2, 3, 2] 1 (-1) [2, 6] :=
  Or.inr ⟨[2], 3, [2], [], rfl, by simp [Shape.IsDim], by simp [Shape.IsDim], rfl⟩

end Test89

end Verif
