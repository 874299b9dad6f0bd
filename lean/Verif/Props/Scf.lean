import Verif.Lemmas.Scf

/-!
# C83: lowering of control flow to SCF
-/

namespace Verif

open Scf

/-- In a program whose for-like loops never stop before the trip count, and whose while-like loops have a constant trip count of at
least `T` and leave the induction variable alone: run with fewer than `T` iterations per loop, the lowered program ends with the same
values, or fails in the same cases, from every environment, at any nesting of branches and loops. -/
theorem C83_convert_partial {D : Type} (b : Blk D) (T : Nat) (fresh : Var) (hp : b.Plain T fresh) (N : Nat) (hN : N < T)
    (env : Env D) : (convert fresh false b).run N env = b.run N env :=
  (convert_run T fresh N hN b hp false 0 (by simp) env env fun _ _ => rfl).symm

/-- The names bound in the source but not in the target do not matter: it suffices that the environments agree on the operands. -/
theorem C83_environment_partial {D : Type} (b : Blk D) (T : Nat) (fresh : Var) (hp : b.Plain T fresh) (N : Nat) (hN : N < T)
    (env env' : Env D) (h : ∀ x ∈ b.uses, env x = env' x) : (convert fresh false b).run N env' = b.run N env :=
  (convert_run T fresh N hN b hp false 0 (by simp) env env' h).symm

namespace Test83

def add : List (Val Unit) → Option (List (Val Unit))
  | [.int a, .int b] => some [.int (a + b)]
  | _ => none

def less : List (Val Unit) → Option (List (Val Unit))
  | [.int a, .int b] => some [.bool (decide (a < b))]
  | _ => none

/-- `for i in range(x0): s += i`, doubled in the body when above a limit. -/
def sum : Blk Unit :=
  .loop (.var 0) (.lit (.bool true)) [.lit (.int 0)] 1 [2]
    (.op less [.var 2, .lit (.int 4)] [3]
      (.iff (.var 3) (.op add [.var 2, .var 1] [4] (.done [.var 4])) (.op add [.var 2, .var 2] [5] (.done [.var 5])) [6]
        (.cond (.lit (.bool true)) [.var 6]))) [7] (.done [.var 7])

/-- `while a < x0: a += a`. -/
def pow : Blk Unit :=
  .op less [.lit (.int 1), .var 0] [1]
    (.loop (.lit (.int 9223372036854775807)) (.var 1) [.lit (.int 1)] 2 [3]
      (.op add [.var 3, .var 3] [4] (.op less [.var 4, .var 0] [5] (.cond (.var 5) [.var 4]))) [6] (.done [.var 6]))

def env (n : Int) : Env Unit := fun x => if x = 0 then some (.int n) else none

theorem sum_plain (T : Nat) : sum.Plain T 100 := by
  simp [sum, Blk.Plain, Blk.EndsLoop, isForLike]

theorem pow_plain : pow.Plain 9223372036854775807 100 := by
  simp [pow, Blk.Plain, Blk.EndsLoop, isForLike, Blk.uses, Arg.uses]

example (n : Int) (N : Nat) : (convert 100 false sum).run N (env n) = sum.run N (env n) :=
  C83_convert_partial sum (N + 1) 100 (sum_plain _) N (by omega) _

example (n : Int) : (convert 100 false pow).run 1000 (env n) = pow.run 1000 (env n) :=
  C83_convert_partial pow _ 100 pow_plain 1000 (by decide) _

example : sum.run 10 (env 5) = some [.int 12] := rfl
example : (convert 100 false sum).run 10 (env 5) = some [.int 12] := rfl
example : pow.run 10 (env 100) = some [.int 128] := rfl
example : (convert 100 false pow).run 10 (env 100) = some [.int 128] := rfl
example : sum.run 10 (env (-3)) = some [.int 0] := rfl
example : (convert 100 false sum).run 10 (env (-3)) = some [.int 0] := rfl

/-- `for i in range(10): s += 1; if not s < 3: break`. -/
def brk : Blk Unit :=
  .loop (.lit (.int 10)) (.lit (.bool true)) [.lit (.int 0)] 1 [2]
    (.op add [.var 2, .lit (.int 1)] [3] (.op less [.var 3, .lit (.int 3)] [4] (.cond (.var 4) [.var 3]))) [5] (.done [.var 5])

/-- A while-like loop with the trip count 2. -/
def two : Blk Unit :=
  .loop (.lit (.int 2)) (.var 0) [.lit (.int 0)] 1 [2]
    (.op add [.var 2, .lit (.int 1)] [3] (.op less [.var 3, .lit (.int 5)] [4] (.cond (.var 4) [.var 3]))) [5] (.done [.var 5])

/-- A while-like loop that uses the number of the iteration. -/
def count : Blk Unit :=
  .loop (.lit (.int 9223372036854775807)) (.var 0) [.lit (.int 0)] 1 [2]
    (.op add [.var 2, .var 1] [3] (.op less [.var 3, .lit (.int 5)] [4] (.cond (.var 4) [.var 3]))) [5] (.done [.var 5])

end Test83

open Test83

/-- A loop that starts unconditionally but may stop early: the condition of the body is dropped, and the lowered loop runs to the trip
count. -/
theorem C83_violated_condition : brk.run 20 (fun _ => none) = some [.int 3] ∧
    (convert 100 false brk).run 20 (fun _ => none) = some [.int 10] := ⟨rfl, rfl⟩

/-- The trip count of a while-like loop is dropped, whatever it is. -/
theorem C83_violated_trip : two.run 20 (fun _ => some (.bool true)) = some [.int 2] ∧
    (convert 100 false two).run 20 (fun _ => some (.bool true)) = some [.int 5] := ⟨rfl, rfl⟩

/-- The induction variable of a while-like loop has no value after the lowering. -/
theorem C83_violated_induction : count.run 20 (fun x => if x = 0 then some (.bool true) else none) = some [.int 6] ∧
    (convert 100 false count).run 20 (fun x => if x = 0 then some (.bool true) else none) = none := ⟨rfl, rfl⟩

end Verif
