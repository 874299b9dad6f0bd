import Verif.Model.Linalg

/-!
# Reflection padding in the linalg backend

`lib/Conversion/TorchToLinalg/DataMovement.cpp` lines 166-596.  Simplified: sizes are unbounded.
-/

namespace Verif.Lin

/-- The part of a dimension a tile covers: its width, where it is cut out, where it is put, and the padding it is reflected with. -/
structure Part where
  width : Int
  extract : Int
  insert : Int
  pad : Option Int

/-- Lines 204-221, and 488-501 (left, top). -/
def leftPart (left : Int) : Part := ⟨left, 1, 0, some left⟩

/-- Right, bottom. -/
def rightPart (n left right : Int) : Part := ⟨right, n - (right + 1), n + left, some right⟩

/-- The input itself. -/
def centerPart (n left : Int) : Part := ⟨n, 0, left, none⟩

/-- The index in a tile that has been reflected (lines 231-240, 534-539). -/
def Part.reflect (p : Part) (i : Int) : Int :=
  match p.pad with
  | some pad => pad - i - 1
  | none => i

/-- `addTileToResult` of `reflection_pad1d` (lines 246-276). -/
def tile1 {E : Type} (x : Tensor E) (p : Part) (result : Tensor E) : Tensor E :=
  let r := x.sizes.length
  let h := r - 1
  let shape := x.sizes.set h p.width
  let tile := extractSlice x ((List.replicate r 0).set h p.extract) shape (List.replicate r 1)
  let tile : Tensor E := if p.pad.isSome then ⟨shape, fun idx => tile.get (idx.set h (p.reflect (idx.getD h 0)))⟩ else tile
  insertSlice tile result ((List.replicate r 0).set h p.insert) shape (List.replicate r 1)

/-- `ConvertAtenReflectionPad1dOp` (lines 166-298). -/
def reflectionPad1d {E : Type} (zero : E) (x : Tensor E) (left right : Int) : Tensor E :=
  let h := x.sizes.length - 1
  let n := x.sizes.getD h 0
  let result := fill (x.sizes.set h (n + (left + right))) zero
  let result := if left > 0 then tile1 x (leftPart left) result else result
  let result := if right > 0 then tile1 x (rightPart n left right) result else result
  tile1 x (centerPart n left) result

/-- `createTile` of `reflection_pad2d` (lines 512-581). -/
def tile2 {E : Type} (x : Tensor E) (v h : Part) (result : Tensor E) : Tensor E :=
  let r := x.sizes.length
  let hd := r - 1
  let vd := r - 2
  let shape := (x.sizes.set hd h.width).set vd v.width
  let tile := extractSlice x (((List.replicate r 0).set hd h.extract).set vd v.extract) shape (List.replicate r 1)
  let tile : Tensor E := ⟨shape, fun idx => tile.get ((idx.set hd (h.reflect (idx.getD hd 0))).set vd (v.reflect (idx.getD vd 0)))⟩
  insertSlice tile result (((List.replicate r 0).set hd h.insert).set vd v.insert) shape (List.replicate r 1)

/-- `shouldCreateTile` (lines 393-400). -/
def Part.create (p : Part) : Bool :=
  match p.pad with
  | some pad => decide (pad > 0)
  | none => true

/-- The tiles in order (lines 583-586). -/
def tiles (vs hs : List Part) : List (Part × Part) :=
  vs.flatMap fun v => (hs.map fun h => (v, h)).filter fun t => t.2.create && t.1.create

/-- `ConvertAtenReflectionPad2dOp` (lines 339-592); `none`: an assertion fails (lines 417-432). -/
def reflectionPad2d {E : Type} (zero : E) (x : Tensor E) (left right top bottom : Int) : Option (Tensor E) :=
  let hd := x.sizes.length - 1
  let vd := x.sizes.length - 2
  let n := x.sizes.getD hd 0
  let m := x.sizes.getD vd 0
  if left ≤ n ∧ right ≤ n ∧ top ≤ m ∧ bottom ≤ m then
    let result := fill ((x.sizes.set vd (m + top + bottom)).set hd (n + left + right)) zero
    some ((tiles [leftPart top, rightPart m top bottom, centerPart m top] [leftPart left, rightPart n left right, centerPart n left]).foldl
      (fun result t => tile2 x t.1 t.2 result) result)
  else none

end Verif.Lin
