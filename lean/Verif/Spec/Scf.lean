import Verif.Model.Scf

/-!
# Programs whose control flow can be lowered
-/

namespace Verif.Scf

variable {D : Type}

def Arg.uses : Arg D → List Var
  | .lit _ => []
  | .var x => [x]

/-- The names used as operands. -/
def Blk.uses : Blk D → List Var
  | .done outs => outs.flatMap Arg.uses
  | .cond c outs => c.uses ++ outs.flatMap Arg.uses
  | .op _ args _ k => args.flatMap Arg.uses ++ k.uses
  | .iff c t e _ k => c.uses ++ t.uses ++ e.uses ++ k.uses
  | .loop trip init inits _ _ body _ k => trip.uses ++ init.uses ++ inits.flatMap Arg.uses ++ body.uses ++ k.uses

/-- The block ends a loop's body, with this condition and number of values. -/
def Blk.EndsLoop (P : Arg D → Prop) (n : Nat) : Blk D → Prop
  | .done _ => False
  | .cond c outs => P c ∧ outs.length = n
  | .op _ _ _ k | .iff _ _ _ _ k | .loop _ _ _ _ _ _ _ k => k.EndsLoop P n

/-- A block without regions that are not as follows.  For-like loops go on until the trip count.  While-like loops have a trip count that
is at least `T`, and do not use the induction variable; `fresh` is not a name of the program. -/
def Blk.Plain (T : Nat) (fresh : Var) : Blk D → Prop
  | .done _ | .cond _ _ => True
  | .op _ _ _ k => k.Plain T fresh
  | .iff _ t e _ k => t.Plain T fresh ∧ e.Plain T fresh ∧ k.Plain T fresh
  | .loop trip init inits iv params body _ k =>
    inits.length = params.length ∧ body.Plain T fresh ∧ k.Plain T fresh ∧
      (isForLike init = true → body.EndsLoop (fun c => c = .lit (.bool true)) params.length) ∧
      (isForLike init = false → body.EndsLoop (fun _ => True) params.length ∧ params.Nodup ∧ fresh ∉ params ∧ iv ∉ body.uses ∧
        ∃ t : Int, trip = .lit (.int t) ∧ (T : Int) ≤ t)

end Verif.Scf
