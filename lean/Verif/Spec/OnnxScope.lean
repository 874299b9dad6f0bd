import Verif.Model.OnnxImporter

/-!
# Well-scoped IR, and what ONNX names refer to
-/

namespace Verif.Onnx

/-! ## Scopes -/

/-- The values the ops of a block leave visible in it, besides those visible before. -/
def results : List Op → List Nat
  | [] => []
  | .mk _ _ rs _ _ :: rest => rs ++ results rest

mutual

/-- Every operand is visible where it is used: a value from outside, an argument of an enclosing block, or a result
of an earlier op of an enclosing block.  Each op has as many results as types. -/
def Scoped : List Nat → List Op → Prop
  | _, [] => True
  | vis, .mk _ operands res types regions :: rest =>
    (∀ v ∈ operands, v ∈ vis) ∧ res.length = types.length ∧ ScopedRegions vis regions ∧
      Scoped (vis ++ res) rest

/-- The same in every region; the operands of the terminator are visible at the end of the block. -/
def ScopedRegions : List Nat → List Region → Prop
  | _, [] => True
  | vis, .absent :: rest => ScopedRegions vis rest
  | vis, .block args ops ret :: rest =>
    (Scoped (vis ++ args) ops ∧ ∀ v ∈ ret, v ∈ vis ++ args ++ results ops) ∧ ScopedRegions vis rest

end

mutual

/-- All values defined by ops, at any depth. -/
def defs : List Op → List Nat
  | [] => []
  | .mk _ _ rs _ regions :: rest => rs ++ defsRegions regions ++ defs rest

def defsRegions : List Region → List Nat
  | [] => []
  | .absent :: rest => defsRegions rest
  | .block args ops _ :: rest => args ++ defs ops ++ defsRegions rest

end

/-- A function sees nothing from outside, and defines every value once. -/
def Func.WellScoped (f : Func) : Prop :=
  ScopedRegions [] [f.body] ∧ (defsRegions [f.body]).Nodup

mutual

/-- Every call, at any depth, stands for an operator with `P`. -/
def AllCalls (P : String → String → String → List IrTy → Prop) : List Op → Prop
  | [] => True
  | .mk kind _ _ types regions :: rest =>
    (∀ f d o, kind = .call f d o → P f d o types) ∧ AllCallsRegions P regions ∧ AllCalls P rest

def AllCallsRegions (P : String → String → String → List IrTy → Prop) : List Region → Prop
  | [] => True
  | .absent :: rest => AllCallsRegions P rest
  | .block _ ops _ :: rest => AllCalls P ops ∧ AllCallsRegions P rest

end

/-- A call of `name` with result types `types` is a call of a private function of the module with these types. -/
def Resolves (funcs : List Func) (name : String) (types : List IrTy) : Prop :=
  ∃ f ∈ funcs, f.name = name ∧ f.resTypes = types ∧ f.priv = true

/-! ## Attributes -/

/-- What becomes of the attributes: pairs of names and values of those that are not graphs. -/
def Carried (attrs : List Attr) (r : List (String × AttrVal)) : Prop :=
  (attrs.filter (fun a => a.type != attrGraph)).map (fun a => (a.name, importAttribute a)) =
    r.map (fun p => (p.1, .ok (some p.2)))

/-! ## Names -/

/-- What each name refers to. -/
abbrev Env := String → Option Nat

/-- `x` refers to `v` from here on. -/
def Env.set (e : Env) (x : String) (v : Nat) : Env := fun y => if x = y then some v else e y

/-- The names refer to the values, one after the other. -/
def Env.setAll : Env → List String → List Nat → Env
  | e, x :: xs, v :: vs => (e.set x v).setAll xs vs
  | e, _, _ => e

/-- The outputs of a node: an empty name names nothing. -/
def Env.setOutputs : Env → List String → List Nat → Env
  | e, x :: xs, v :: vs => (if x = "" then e else e.set x v).setOutputs xs vs
  | e, _, _ => e

/-- What an input refers to: an empty name stands for the constant `none`. -/
def Env.input (e : Env) (none : Nat) (x : String) : Option Nat := if x = "" then some none else e x

/-- A tensor as a constant op with result `v`. -/
def IsConstant (t : Tensor) (op : Op) (v : Nat) : Prop :=
  ∃ a ty, tensorProtoToAttr t = .ok a ∧ tensorProtoToType t = .ok ty ∧ op = .mk (.constant a) [] [v] [ty] []

mutual

/-- The ops are the nodes, one each, in order; each operand is the value its input's name refers to at that point;
the graph's outputs are what their names refer to at the end. -/
def NodesMean (none : Nat) (outputs : List ValueInfo) (ret : List Nat) : Env → List Node → List Op → Prop
  | env, [], ops => ops = [] ∧ outputs.map (fun o => env o.name) = ret.map some
  | env, .mk _ opType domain inputs outs attrs :: rest, ops =>
    ∃ kind operands res types regions ops',
      ops = .mk kind operands res types regions :: ops' ∧
      ((∃ a name v, opType = "Constant" ∧ a ∈ attrs ∧ a.name = "value" ∧ outs = [name] ∧
          IsConstant a.t (.mk kind operands res types regions) v ∧ res = [v]) ∨
        (inputs.map (env.input none) = operands.map some ∧
          (((∃ f, kind = .call f domain opType) ∧ regions = []) ∨
            ((∃ as, kind = .operator opType as) ∧ ∃ rs : List (String × Region),
              regions = rs.map Prod.snd ∧
              rs.map Prod.fst = sortBy (fun a b => Version.strLe a.toList b.toList)
                ((attrs.filter (fun a => a.type == attrGraph)).map Attr.name) ∧
              AttrsMean env attrs rs)))) ∧
      NodesMean none outputs ret (env.setOutputs outs res) rest ops'

/-- Each graph attribute is a region, in which names refer to the graph's own values first and then to `env`. -/
def AttrsMean : Env → List Attr → List (String × Region) → Prop
  | _, [], _ => True
  | env, .mk name ty _ _ _ _ g _ :: rest, rs =>
    (ty = attrGraph → ∃ r, (name, r) ∈ rs ∧ GraphMean env g r) ∧ AttrsMean env rest rs

def GraphMean : Env → Option Graph → Region → Prop
  | _, none, r => ∃ v, r = .block [] [.mk .none [] [v] [.none] []] []
  | env, some (.mk _ inits _ inputs outputs nodes), r =>
    ∃ args initOps initVals noneVal nodeOps ret,
      r = .block args (initOps ++ .mk .none [] [noneVal] [.none] [] :: nodeOps) ret ∧
      args.length = inputs.length ∧ initOps.length = inits.length ∧ initVals.length = inits.length ∧
      (∀ (i : Nat) (t : Tensor) (op : Op) (v : Nat), inits[i]? = some t → initOps[i]? = some op →
        initVals[i]? = some v → IsConstant t op v) ∧
      NodesMean noneVal outputs ret
        ((env.setAll (inputs.map ValueInfo.name) args).setAll (inits.map Tensor.name) initVals) nodes nodeOps

end

mutual

/-- The graph is unambiguous, `vis` being the names around it: graph attributes of a node have distinct names, a
`Constant` has a named output, … -/
def Plain : List String → List Node → Prop
  | _, [] => True
  | vis, .mk _ opType _ _ outs attrs :: rest =>
    (opType = "Constant" → ∀ o ∈ outs, o ≠ "") ∧
    ((attrs.filter (fun a => a.type == attrGraph)).map Attr.name).Nodup ∧
    PlainAttrs vis attrs ∧ Plain (vis ++ outs) rest

def PlainAttrs : List String → List Attr → Prop
  | _, [] => True
  | vis, .mk _ ty _ _ _ _ g _ :: rest => (ty = attrGraph → PlainGraph vis g) ∧ PlainAttrs vis rest

/-- … the initializers of a subgraph have distinct names and its inputs have names not visible around it. -/
def PlainGraph : List String → Option Graph → Prop
  | _, none => True
  | vis, some (.mk _ inits _ inputs _ nodes) =>
    (∀ v ∈ inputs, v.name ∉ vis) ∧ (inits.map Tensor.name).Nodup ∧
      Plain (vis ++ inputs.map ValueInfo.name ++ inits.map Tensor.name) nodes

end

end Verif.Onnx
