import Verif.Model.FxProgram

/-!
# Small FX programs used in the examples
-/

namespace Verif.Fx.Demo

def tensorParam (n : String) : Param := ⟨n, .tensor, .lit .none⟩

/-- `aten.add.Tensor(self, other, *, alpha=1)` -/
def add : Schema := ⟨"torch.aten.add.Tensor", [tensorParam "self", tensorParam "other", ⟨"alpha", .number, .lit (.int 1)⟩], 1⟩

/-- An op with two tensor results. -/
def minmax : Schema := ⟨"torch.aten.aminmax", [tensorParam "self"], 2⟩

/-- A program without canonicalisation, modules or hooks. -/
def mk (nodes : List Node) : Env where
  nodes := nodes
  attr := fun t => if t = "c" then some (.tensor 7 false) else none
  canon := fun s a k => .ok (some (s, a, k))
  scalarSchema := fun _ => none
  builtinOp := fun _ _ => none
  symbolicOp := fun _ => none
  floatScalar := ⟨"torch.aten.Float.Scalar", [⟨"a", .number, .lit .none⟩], 1⟩
  funcOf := fun _ => none
  loadsInput := fun _ => false
  storesBuffer := fun _ => true

def node (name : String) (op : NodeOp) : Node := ⟨name, op, .vtensor, [], .other, false, none⟩
def node2 (name : String) (op : NodeOp) : Node := ⟨name, op, .other, [.vtensor, .vtensor], .other, false, none⟩

def g (i : Nat) : Arg := .node (.graph i)

/-- `lambda x: aminmax(x + w + w)[1]`, with parameters `w` and (unused) `u`. -/
def prog : Env := mk [
  node "p_w" .placeholder, node "p_u" .placeholder, node "x" .placeholder,
  node "add" (.call (.overload add) [g 2, g 0] []),
  node "add_1" (.call (.overload add) [g 3] [("alpha", .lit (.int 2)), ("other", g 0)]),
  node2 "minmax" (.call (.overload minmax) [g 4] []),
  node "getitem" (.call .getitem [g 5, .lit (.int 1)] []),
  node "output" (.output [g 6])]

def progSig : Sig := ⟨[.param "p_w" (some (.tensor 1 false)) true, .param "p_u" (some (.tensor 2 false)) true, .user "x"],
  [.user "getitem"]⟩

/-- The same with an index that is out of range. -/
def badItem : Env := mk [
  node "x" .placeholder,
  node2 "minmax" (.call (.overload minmax) [g 0] []),
  node "getitem" (.call .getitem [g 1, .lit (.int 2)] [])]

/-- `x` is mutated by `add`, the buffer `b` by `add_1`. -/
def mutating : Env := mk [
  node "b_b" .placeholder, node "x" .placeholder,
  node "add" (.call (.overload add) [g 1, g 1] []),
  node "add_1" (.call (.overload add) [g 0, g 2] [])]

def mutatingSig : Sig := ⟨[.buffer "b_b" "b" (some (.tensor 1 false)), .user "x"],
  [.bufferMutation "b" "add_1", .userInputMutation "x" "add", .user "add_1"]⟩

end Verif.Fx.Demo
