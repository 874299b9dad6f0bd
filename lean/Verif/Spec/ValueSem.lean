import Verif.Model.ValueSem

/-!
# What a block with mutable tensors computes

Every name has contents at every moment.  A value tensor keeps its contents; the contents of a non-value tensor (a handle
to memory) change when memory it may share is overwritten.  Nothing is said about *which* handles share memory, except:
memory is divided into regions, a copy may open a region of its own, a view lies in the region of what it views, casts of
one tensor always show the same contents, and operations that are not known to the pass only see and change memory outside
the regions.  What a view shows, what an overwrite does to the other handles of its region and what unknown operations do
are arbitrary functions.
-/

namespace Verif.VS

/-- Which names are non-value tensors, and in which region their memory lies (`none`: reachable by everybody). -/
structure Info where
  nv : Name → Bool
  region : Name → Option Name

structure Machine (T W : Type) where
  /-- contents of a view -/
  view : Nat → List T → T
  /-- contents of the handles of a region after overwriting `d` -/
  spread : (d : Name) → T → (Name → Option T) → Name → T
  /-- results, memory outside the regions and the rest of the world after an unknown operation -/
  ext : Nat → List T → (Name → Option T) → W → List T × (Name → T) × W

structure State (T W : Type) where
  val : Name → T
  world : W

variable {T W : Type}

/-- The memory of a region. -/
def Info.seen (i : Info) (g : Option Name) (S : Name → T) : Name → Option T :=
  fun n => if i.nv n = true ∧ i.region n = g then some (S n) else none

/-- Change the memory of a region. -/
def Info.poke (i : Info) (g : Option Name) (S m : Name → T) : Name → T :=
  fun n => if i.nv n = true ∧ i.region n = g then m n else S n

def assign (S : Name → T) : List Name → List T → Name → T
  | r :: rs, v :: vs => assign (fun n => if n = r then v else S n) rs vs
  | _, _ => S

/-- One operation. -/
def exec (M : Machine T W) (i : Info) (o : Op) (s : State T W) : State T W :=
  match o.kind, o.args with
  | .toTensor, [x] => ⟨assign s.val o.results [s.val x], s.world⟩
  | .toVTensor, [x] => ⟨assign s.val o.results [s.val x], s.world⟩
  | .cast, [x] => ⟨assign s.val o.results [s.val x], s.world⟩
  | .view k, xs => ⟨assign s.val o.results [M.view k (xs.map s.val)], s.world⟩
  | .overwrite, [v, d] =>
    ⟨i.poke (i.region d) s.val (M.spread d (s.val v) (i.seen (i.region d) s.val)), s.world⟩
  | .other k, xs =>
    let e := M.ext k (xs.map s.val) (i.seen none s.val) s.world
    ⟨assign (i.poke none s.val e.2.1) o.results e.1, e.2.2⟩
  | _, _ => s

/-- What is observed of a block: the contents of the tensors it returns, the memory others can reach, and the world. -/
structure Outcome (T W : Type) where
  returned : List T
  memory : Name → Option T
  world : W

def run (M : Machine T W) (i : Info) : List Op → State T W → Option (Outcome T W)
  | [], _ => none
  | o :: rest, s =>
    if o.kind = .ret then some ⟨o.args.map s.val, i.seen none s.val, s.world⟩ else run M i rest (exec M i o s)

/-- The operands of the return. -/
def returns : List Op → Option (List Name)
  | [] => none
  | o :: rest => if o.kind = .ret then some o.args else returns rest

/-- Two names of one tensor: linked by casts of the block. -/
inductive SameTensor (blk : List Op) : Name → Name → Prop where
  | refl (n : Name) : SameTensor blk n n
  | down {n x r : Name} : ⟨.cast, [x], [r]⟩ ∈ blk → SameTensor blk n x → SameTensor blk n r
  | up {n x r : Name} : ⟨.cast, [x], [r]⟩ ∈ blk → SameTensor blk n r → SameTensor blk n x

/-- What is overwritten can be read back through every name of the tensor. -/
def Machine.ReadsBack (M : Machine T W) (blk : List Op) : Prop :=
  ∀ d v m n, SameTensor blk d n → M.spread d v m n = v

/-- Types and regions of an operation. -/
def Info.Typed (i : Info) (o : Op) : Prop :=
  match o.kind with
  | .toTensor => ∃ x r, o.args = [x] ∧ o.results = [r] ∧ i.nv x = false ∧ i.nv r = true
      ∧ (i.region r = none ∨ i.region r = some r)
  | .toVTensor => ∃ x r, o.args = [x] ∧ o.results = [r] ∧ i.nv x = true ∧ i.nv r = false
  | .cast => ∃ x r, o.args = [x] ∧ o.results = [r] ∧ i.nv x = i.nv r ∧ (i.nv r = true → i.region r = i.region x)
  | .view _ => ∃ x xs r, o.args = x :: xs ∧ o.results = [r]
      ∧ (i.nv r = true → i.nv x = true ∧ i.region r = i.region x)
  | .overwrite => ∃ v d, o.args = [v, d] ∧ o.results = [] ∧ i.nv v = false ∧ i.nv d = true
  | .ret => o.results = []
  | .other _ => (∀ x ∈ o.args, i.nv x = true → i.region x = none) ∧ ∀ r ∈ o.results, i.nv r = true → i.region r = none

/-- Every operand is defined before (`defined` to begin with), nothing is defined twice. -/
def Ssa : List Name → List Op → Prop
  | _, [] => True
  | defined, o :: rest =>
    (∀ a ∈ o.args, a ∈ defined) ∧ (∀ r ∈ o.results, r ∉ defined) ∧ o.results.Nodup ∧ Ssa (o.results ++ defined) rest

/-- A well-formed block with the given arguments; all names are below `base`. -/
structure WellFormed (i : Info) (params : List Name) (base : Name) (blk : List Op) : Prop where
  ssa : Ssa params blk
  typed : ∀ o ∈ blk, i.Typed o
  paramsPublic : ∀ p ∈ params, i.nv p = true → i.region p = none
  paramsBelow : ∀ p ∈ params, p < base
  below : ∀ o ∈ blk, ∀ n ∈ o.args ++ o.results, n < base
  nvBelow : ∀ n, i.nv n = true → n < base ∧ ∀ r, i.region n = some r → r < base

/-- Types and regions after the rewriting: names from `base` on have regions of their own. -/
def Info.after (i : Info) (base : Name) (nv' : Name → Bool) : Info :=
  ⟨nv', fun n => if n < base then i.region n else some n⟩

end Verif.VS

namespace Verif.VS

/-- Casts and views: operations whose result shows (part of) the memory of the first operand. -/
def Op.Shows (o : Op) : Prop := o.kind = .cast ∨ ∃ k, o.kind = .view k

/-- The handles of the memory of `c`: what is reached from `c` through first operands of casts and views. -/
inductive Handle (nv : Name → Bool) (blk : List Op) (c : Name) : Name → Prop where
  | self : Handle nv blk c c
  | step {o : Op} {a r : Name} {as : List Name} : o ∈ blk → o.Shows → o.args = a :: as → o.results = [r] →
      nv r = true → Handle nv blk c a → Handle nv blk c r

/-- The same through any operand (also an operand that only gives a shape). -/
inductive Derived (blk : List Op) (c : Name) : Name → Prop where
  | self : Derived blk c c
  | step {o : Op} {a r : Name} : o ∈ blk → o.Shows → a ∈ o.args → r ∈ o.results → Derived blk c a → Derived blk c r

/-- The types of the rewritten block: the tensors of `gone` are value tensors now, of the new names exactly the results
of copies to non-value tensors are non-value tensors, everything else is as before. -/
def TypesAfter (i : Info) (gone : Name → Prop) (base : Name) (post' : List Op) (nv' : Name → Bool) : Prop :=
  (∀ n, n < base → (nv' n = true ↔ i.nv n = true ∧ ¬ gone n))
    ∧ ∀ n, base ≤ n → (nv' n = true ↔ ∃ o ∈ post', o.kind = .toTensor ∧ n ∈ o.results)

/-- Every view-like operation on something derived from `c` that returns a non-value tensor views a derived tensor. -/
def FirstDerived (nv : Name → Bool) (post : List Op) (c : Name) : Prop :=
  ∀ o ∈ post, o.Shows → ∀ a ∈ o.args, Derived post c a → (∀ r ∈ o.results, nv r = true) →
    ∀ x xs, o.args = x :: xs → Derived post c x

end Verif.VS
