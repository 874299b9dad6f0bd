import Verif.Py.Basic

/-!
# The textual version gate of the FX importer

`_IS_TORCH_2_1_OR_EARLIER` (/repo/python/torch_mlir/extras/fx_importer.py:301–303).  It selects the
symbolic-op table (314–334) and the `sym_size` handling (1717).

`torch.__version__` is a `TorchVersion`, but `.split("+")[0]` is a plain `str`, so `<=` compares
characters.  The other two gates (/repo/python/torch_mlir/fx.py:117 and 130) compare a
`packaging.Version` and a `TorchVersion`, which both follow PEP 440; they are library code.
-/

namespace Verif.Version

/-- `a <= b` on Python `str`: lexicographic on code points. -/
def strLe : List Char → List Char → Bool
  | [], _ => true
  | _ :: _, [] => false
  | a :: as, b :: bs => if a.toNat < b.toNat then true else if b.toNat < a.toNat then false else strLe as bs

/-- `s.split("+")[0]` -/
def beforePlus (s : List Char) : List Char := s.takeWhile (· ≠ '+')

/-- `torch.__version__.split("+")[0] <= "2.1.0"` (fx_importer.py:303). -/
def isTorch21OrEarlier (version : List Char) : Bool :=
  strLe (beforePlus version) ['2', '.', '1', '.', '0']

end Verif.Version
