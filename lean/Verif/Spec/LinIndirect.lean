import Verif.Spec.LinPool
import Verif.Spec.LinBroadcast
import Verif.Model.LinIndirect

/-! # Indexing with tensors, embeddings, resizing to the nearest -/

namespace Verif.Ind

open Lin

variable {E : Type}

/-- `dim` is the dimension `d` of `rank`, perhaps counted from the end. -/
def NamesDim (dim : Int) (rank d : Nat) : Prop := d < rank ∧ (dim = d ∨ dim = (d : Int) - rank)

/-! ## Bags of embeddings -/

/-- The places in `indices` that belong to bag `i`. -/
def bag (offsets : List Int) (n i : Nat) : List Nat :=
  (List.range n).filter fun (j : Nat) =>
    decide (offsets.getD i 0 ≤ j) && (decide (offsets.length ≤ i + 1) || decide ((j : Int) < offsets.getD (i + 1) 0))

/-- The sum of a bag in PyTorch: the entries at the padding are left out, the others are scaled. -/
def bagSum (add mul : E → E → E) (zero : E) (weight : Int → Int → E) (indices offsets : List Int) (perSample : Option (List E))
    (paddingIdx : Option Int) (i : Nat) (k : Int) : E :=
  let used := (bag offsets indices.length i).filter fun j => decide (paddingIdx ≠ some (indices.getD j 0))
  (used.map fun j =>
    match perSample with
    | none => weight (indices.getD j 0) k
    | some s => mul (weight (indices.getD j 0) k) (s.getD j zero)).foldl (fun acc w => add w acc) zero

/-- The tensor of a list. -/
def vector (l : List E) : Tensor E := ⟨[l.length], fun idx => l[(idx.getD 0 0).toNat]?⟩

/-! ## Indexing with tensors -/

/-- What belongs to the dimensions without an index. -/
def keep {A : Type} : List (Option A) → List Int → List Int
  | [], ns => ns
  | _ :: _, [] => []
  | some _ :: is, _ :: ns => keep is ns
  | none :: is, n :: ns => n :: keep is ns

/-- The indices are next to each other, after `f` dimensions without one. -/
def AdjacentAt {A : Type} (idxs : List (Option A)) (f : Nat) : Prop :=
  ∃ (ts : List A) (b : Nat), ts ≠ [] ∧ idxs = List.replicate f none ++ ts.map some ++ List.replicate b none

/-- The dimension of the result that those of the indices start at: if they are not next to each other, the first. -/
def PutAt {A : Type} (idxs : List (Option A)) (f : Nat) : Prop :=
  AdjacentAt idxs f ∨ ((∀ g, ¬ AdjacentAt idxs g) ∧ f = 0)

/-- A negative index counts from the end. -/
def fromEnd (v n : Int) : Int := if 0 ≤ v then v else n + v

/-- Where the element is found: `k` is the index in the dimensions kept, `b` that in the dimensions of the indices. -/
def source : List (Option (Tensor Int)) → List Int → List Int → List Int → Option (List Int)
  | [], _, k, _ => some k
  | some t :: is, n :: ns, k, b =>
    match t.elem (bcIndex t.sizes b), source is ns k b with
    | some v, some s => some (fromEnd v n :: s)
    | _, _ => none
  | none :: is, _ :: ns, i :: k, b => (source is ns k b).map (i :: ·)
  | _, _, _, _ => none

/-- The sizes of the result. -/
def indexedSizes {A : Type} (idxs : List (Option A)) (sizes B : List Int) (f : Nat) : List Int :=
  (keep idxs sizes).take f ++ B ++ (keep idxs sizes).drop f

/-- `t` is `x[idxs]`, where the indices are broadcast to `B`. -/
def IsIndexed (t x : Tensor E) (idxs : List (Option (Tensor Int))) (B : List Int) (f : Nat) : Prop :=
  t.sizes = indexedSizes idxs x.sizes B f ∧
  ∀ k b, inRange (keep idxs x.sizes) k = true → inRange B b = true →
    ∃ s, source idxs x.sizes k b = some s ∧ inRange x.sizes s = true ∧ t.elem (k.take f ++ b ++ k.drop f) = x.elem s

/-- There is an index for each, and it is one of the dimension. -/
def ValidIndices : List (Option (Tensor Int)) → List Int → Prop
  | [], _ => True
  | _ :: _, [] => False
  | none :: is, _ :: ns => ValidIndices is ns
  | some t :: is, n :: ns => (∀ idx, inRange t.sizes idx = true → ∃ v, t.elem idx = some v ∧ -n ≤ v ∧ v < n) ∧ ValidIndices is ns

/-! ## Resizing -/

/-- The place the element `o` is taken from, in a dimension of size `small` resized to `large`: `o` over the scale, rounded down. -/
def nearest (scale : Option (Int × Int)) (small large o : Int) : Int :=
  match scale with
  | some s => min (o * s.2 / s.1) (small - 1)
  | none => min (o * small / large) (small - 1)

/-- The sizes are those of resizing by a whole number, which is the scale if there is one. -/
def Whole (scale : Option (Int × Int)) (small large : Int) (k : Int) : Prop :=
  0 < k ∧ 0 < small ∧ (scale = none ∨ ∃ d > 0, scale = some (k * d, d)) ∧ (scale = none → large = k * small) ∧ large ≤ k * small

/-- The scale is so close to the whole number above it that every place is the same. -/
def Close (small large : Int) : Prop := ∃ k, (k - 1) * small < large ∧ large ≤ k * small ∧ large / k * (k * small - large) < small

/-- The places of `large` taken from `p`. -/
def takenFrom (scale : Option (Int × Int)) (small large p : Int) : List Int :=
  ((List.range large.toNat).map fun (o : Nat) => (o : Int)).filter fun o => decide (nearest scale small large o = p)

/-- The sum of what is in `g` at the places taken from `p` and `q`. -/
def gradSum (add : E → E → E) (zero : E) (val : Int → Int → E) (hs ws : List Int) : E :=
  (hs.flatMap fun a => ws.map fun b => val a b).foldl add zero

end Verif.Ind
