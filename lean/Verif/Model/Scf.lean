import Mathlib.Data.List.Basic

/-!
# Lowering of control flow to SCF

`lib/Conversion/TorchToSCF/TorchToSCF.cpp`.  Blocks of the Torch dialect with `prim.If` and `prim.Loop`, and blocks of the `scf`
dialect.

Simplified: operations without regions are functions of their operands, and are the same before and after; conversions between
types (`materializeSourceConversion`, index casts of 64 bits) are the identity; types that cannot be converted are left out.
A constant operand is a literal.
-/

namespace Verif.Scf

abbrev Var := Nat

inductive Val (D : Type) where
  | int (i : Int)
  | bool (b : Bool)
  | other (d : D)

/-- A value, or a constant. -/
inductive Arg (D : Type) where
  | lit (v : Val D)
  | var (x : Var)

abbrev Env (D : Type) := Var → Option (Val D)

def Arg.get {D : Type} (env : Env D) : Arg D → Option (Val D)
  | .lit v => some v
  | .var x => env x

def getAll {D : Type} (env : Env D) : List (Arg D) → Option (List (Val D))
  | [] => some []
  | a :: as =>
    match a.get env, getAll env as with
    | some v, some vs => some (v :: vs)
    | _, _ => none

def bindAll {D : Type} : Env D → List Var → List (Val D) → Option (Env D)
  | env, [], [] => some env
  | env, x :: xs, v :: vs => bindAll (fun y => if y = x then some v else env y) xs vs
  | _, _, _ => none

/-! ## The Torch dialect -/

/-- Blocks.  `done` ends the branches of `prim.If` (`prim.If.yield`) and functions; `cond` ends the body of `prim.Loop`
(`prim.Loop.condition`).  The first parameter of a loop's body is the induction variable. -/
inductive Blk (D : Type) where
  | done (outs : List (Arg D))
  | cond (c : Arg D) (outs : List (Arg D))
  | op (f : List (Val D) → Option (List (Val D))) (args : List (Arg D)) (res : List Var) (k : Blk D)
  | iff (c : Arg D) (t e : Blk D) (res : List Var) (k : Blk D)
  | loop (trip init : Arg D) (inits : List (Arg D)) (iv : Var) (params : List Var) (body : Blk D) (res : List Var) (k : Blk D)

/-- `prim.Loop` (TorchOps.td 509-559): the body is run while the condition holds and the trip count is not reached.  At most `fuel`
iterations are tried. -/
def iterate {D : Type} (body : Int → List (Val D) → Option (List (Val D))) (trip : Int) :
    Nat → Int → Bool → List (Val D) → Option (List (Val D))
  | fuel, i, c, vs =>
    if c && decide (i < trip) then
      match fuel with
      | 0 => none
      | fuel + 1 =>
        match body i vs with
        | some (.bool c :: vs) => iterate body trip fuel (i + 1) c vs
        | _ => none
    else some vs

/-- Run the body with its parameters bound. -/
def enter {D : Type} (run : Env D → Option (List (Val D))) (env : Env D) (params : List Var) (vs : List (Val D)) : Option (List (Val D)) :=
  match bindAll env params vs with
  | none => none
  | some env => run env

/-- Go on with the results bound. -/
def leave {D : Type} (vs : Option (List (Val D))) (run : Env D → Option (List (Val D))) (env : Env D) (res : List Var) :
    Option (List (Val D)) :=
  match vs with
  | none => none
  | some vs => enter run env res vs

/-- The operands of the terminator. -/
def Blk.run {D : Type} (fuel : Nat) : Blk D → Env D → Option (List (Val D))
  | .done outs, env => getAll env outs
  | .cond c outs, env => getAll env (c :: outs)
  | .op f args res k, env =>
    match getAll env args with
    | none => none
    | some vs => leave (f vs) (fun e => k.run fuel e) env res
  | .iff c t e res k, env =>
    match c.get env with
    | some (.bool true) => leave (t.run fuel env) (fun e => k.run fuel e) env res
    | some (.bool false) => leave (e.run fuel env) (fun e => k.run fuel e) env res
    | _ => none
  | .loop trip init inits iv params body res k, env =>
    match trip.get env, init.get env, getAll env inits with
    | some (.int n), some (.bool c), some vs =>
      leave (iterate (fun i vs => enter (fun e => body.run fuel e) env (iv :: params) (.int i :: vs)) n fuel 0 c vs)
        (fun e => k.run fuel e) env res
    | _, _, _ => none

/-! ## The SCF dialect -/

/-- `scf.while`: the block that ends with `scf.condition` is the operands of it. -/
inductive Scf (D : Type) where
  | yield (outs : List (Arg D))
  | op (f : List (Val D) → Option (List (Val D))) (args : List (Arg D)) (res : List Var) (k : Scf D)
  | iff (c : Arg D) (t e : Scf D) (res : List Var) (k : Scf D)
  | whil (inits : List (Arg D)) (bparams : List Var) (cond : Arg D) (pass : List (Arg D)) (aparams : List Var) (after : Scf D)
      (res : List Var) (k : Scf D)
  | for_ (lb ub step : Arg D) (inits : List (Arg D)) (iv : Var) (params : List Var) (body : Scf D) (res : List Var) (k : Scf D)

/-- `scf.while`: the first region gives a condition and values; these are the results, or go to the second region. -/
def whileLoop {D : Type} (before after : List (Val D) → Option (List (Val D))) : Nat → List (Val D) → Option (List (Val D))
  | fuel, vs =>
    match before vs with
    | some (.bool true :: ws) =>
      match fuel with
      | 0 => none
      | fuel + 1 =>
        match after ws with
        | none => none
        | some vs => whileLoop before after fuel vs
    | some (.bool false :: ws) => some ws
    | _ => none

/-- `scf.for` with a positive step. -/
def forLoop {D : Type} (body : Int → List (Val D) → Option (List (Val D))) (ub step : Int) :
    Nat → Int → List (Val D) → Option (List (Val D))
  | fuel, i, vs =>
    if i < ub then
      match fuel with
      | 0 => none
      | fuel + 1 =>
        match body i vs with
        | none => none
        | some vs => forLoop body ub step fuel (i + step) vs
    else some vs

def Scf.run {D : Type} (fuel : Nat) : Scf D → Env D → Option (List (Val D))
  | .yield outs, env => getAll env outs
  | .op f args res k, env =>
    match getAll env args with
    | none => none
    | some vs => leave (f vs) (fun e => k.run fuel e) env res
  | .iff c t e res k, env =>
    match c.get env with
    | some (.bool true) => leave (t.run fuel env) (fun e => k.run fuel e) env res
    | some (.bool false) => leave (e.run fuel env) (fun e => k.run fuel e) env res
    | _ => none
  | .whil inits bparams cond pass aparams after res k, env =>
    match getAll env inits with
    | none => none
    | some vs =>
      leave (whileLoop (fun vs => enter (fun e => getAll e (cond :: pass)) env bparams vs)
        (fun vs => enter (fun e => after.run fuel e) env aparams vs) fuel vs) (fun e => k.run fuel e) env res
  | .for_ lb ub step inits iv params body res k, env =>
    match lb.get env, ub.get env, step.get env, getAll env inits with
    | some (.int lb), some (.int ub), some (.int step), some vs =>
      leave (forLoop (fun i vs => enter (fun e => body.run fuel e) env (iv :: params) (.int i :: vs)) ub step fuel lb vs)
        (fun e => k.run fuel e) env res
    | _, _, _, _ => none

/-! ## The conversion -/

/-- `isForLike` (TorchOps.cpp 450-453): the initial condition is the constant `true`. -/
def isForLike {D : Type} : Arg D → Bool
  | .lit (.bool true) => true
  | _ => false

/-- `ConvertTorchPrimIfYieldOp` (lines 32-42), `ConvertTorchPrimIfOp` (lines 45-69), `ConvertTorchPrimLoopWhileLikeOp` (lines 74-204),
`ConvertTorchPrimLoopForLikeOp` (lines 207-319).  `inFor`: the block is the body of a for-like loop, of whose terminator the
condition is left out (lines 297-312); else it is the first operand (lines 174-198).  `fresh` names the condition parameter of the first region of `scf.while`. -/
def convert {D : Type} (fresh : Var) (inFor : Bool) : Blk D → Scf D
  | .done outs => .yield outs
  | .cond c outs => if inFor then .yield outs else .yield (c :: outs)
  | .op f args res k => .op f args res (convert fresh inFor k)
  | .iff c t e res k => .iff c (convert fresh false t) (convert fresh false e) res (convert fresh inFor k)
  | .loop trip init inits iv params body res k =>
    if isForLike init then
      .for_ (.lit (.int 0)) trip (.lit (.int 1)) inits iv params (convert fresh true body) res (convert fresh inFor k)
    else
      .whil (init :: inits) (fresh :: params) (.var fresh) (params.map .var) params (convert fresh false body) res (convert fresh inFor k)

end Verif.Scf
