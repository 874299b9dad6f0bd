import Verif.Model.Fx

/-!
# The loop region of an imported `while_loop`

`_import_hop_while_loop` (python/torch_mlir/extras/fx_importer.py:1742–1876).  The operations around
the loop are emitted by `Fx.importWhile`, which records the loop as `OpKind.loop cond body`; this
file has the region that belongs to it (1823–1869).  Values of the region are numbered: the block
arguments first, then the results of its operations in order.
-/

namespace Verif.Fx

/-- Operations of the region. -/
inductive RegionOp where
  | call (callee : String) (operands : List Nat) (nResults : Nat)
  | boolTensor (operand : Nat)
  deriving DecidableEq, Repr

/-- A loop region: number of block arguments, operations, operands of
`torch.prim.Loop.condition`. -/
structure Region where
  nArgs : Nat
  ops : List RegionOp
  cond : Nat
  yields : List Nat
  deriving DecidableEq, Repr

/-- The region built for a loop with `n` results (fx_importer.py:1823–1869): block arguments are the
iteration counter and the carried values (1825–1829); the body is called with the carried values
(1834–1841), the condition with the body's results (1844–1850), it is converted to a Boolean
(1853–1858), and condition and body results are passed on (1861–1866). -/
def whileRegion (cond body : String) (n : Nat) : Region :=
  let args := List.range' 1 n
  let bodyResults := List.range' (n + 1) n
  { nArgs := n + 1
    ops := [.call body args n, .call cond bodyResults 1, .boolTensor (2 * n + 1)]
    cond := 2 * n + 2
    yields := bodyResults }

end Verif.Fx
