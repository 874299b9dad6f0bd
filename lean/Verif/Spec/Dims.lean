/-!
# Dimension arguments (for C32, C38–C42)

A dimension of a tensor of rank `r` is named by an integer in `[-r, r-1]`; negative ones count from the
end.  A tensor of rank zero is treated as having one dimension.
-/

namespace Verif.Shape

/-- The integer `dim` names dimension `d` of a tensor of the given rank. -/
def IsDim (rank : Nat) (dim : Int) (d : Nat) : Prop :=
  d < max rank 1 ∧ (dim = d ∨ dim = (d : Int) - (max rank 1 : Nat))

/-- `dims` names the dimensions `ds`, one by one. -/
def IsDims (rank : Nat) (dims : List Int) (ds : List Nat) : Prop :=
  ds.length = dims.length ∧ ∀ i (h : i < dims.length) (h' : i < ds.length), IsDim rank dims[i] ds[i]

/-- `c` lists the sizes of `self` in the order of dimensions `p`. -/
def Picks (self : List Int) (p : List Nat) (c : List Int) : Prop := c.map some = p.map (self[·]?)

/-- `c` is the shape after `permute(dims)`: the sizes in the order named, each dimension once. -/
def IsPermute (self dims c : List Int) : Prop :=
  ∃ p, IsDims self.length dims p ∧ p.Perm (List.range self.length) ∧ Picks self p c

/-- `c` is `self` with dimensions `d0` and `d1` exchanged. -/
def IsSwap (self : List Int) (d0 d1 : Nat) (c : List Int) : Prop :=
  c.length = self.length ∧ c[d0]? = self[d1]? ∧ c[d1]? = self[d0]? ∧
  ∀ i, i ≠ d0 → i ≠ d1 → c[i]? = self[i]?

/-- `c` is the shape after moving dimensions `src` to the positions `dst`, the others staying in order. -/
def IsMoved (self : List Int) (src dst : List Nat) (c : List Int) : Prop :=
  ∃ q, q.Perm (List.range self.length) ∧ Picks self q c ∧
    (∀ i (h : i < src.length) (h' : i < dst.length), q[dst[i]]? = some src[i]) ∧
    q.filter (· ∉ src) = (List.range self.length).filter (· ∉ src)

end Verif.Shape
