import Verif.Lemmas.FxMutation
import Verif.Props.FxDemo

/-!
# FX importer: C07 (write-back of mutations), C08 (module attributes)
-/

namespace Verif
open Verif.Fx Verif.Fx.Spec

variable {env : Env} {sig : Sig} {sym : Bool} {symbols : List String} {f : Func}

/-! ## C07 -/

/-- **C07**, for programs in which every mutation has a producer of its own that is a call with one
result. The `k`-th user input, if mutated, is written exactly once, and the value written is that of
the node named by the signature. -/
theorem C07_inputs_partial (hm : OwnProducers env sig) (h : importProgram env sig sym symbols = .ok f)
    {name p : String} (hmut : .userInputMutation name p ∈ sig.outs) {k : Nat}
    (hk : (sig.ins.filterMap userInput)[k]? = some name) :
    ∃ i x, IsOutput env.nodes p i ∧ NodeIs f.final (.graph i) x ∧ writes f.final.ops k = [x] :=
  mutation_written hm h (mem_mutation.mpr (Or.inl ⟨_, rfl, hmut⟩)) (hk := .overwrite k) (.input hk)

/-- **C07** for buffers. -/
theorem C07_buffers_partial (hm : OwnProducers env sig) (h : importProgram env sig sym symbols = .ok f)
    {target p : String} (hmut : .bufferMutation target p ∈ sig.outs) {name : String} {l : Option Lit}
    (hb : .buffer name target l ∈ sig.ins) {n : Nat} (hn : IsInput env.nodes name n) :
    ∃ i x, IsOutput env.nodes p i ∧ NodeIs f.final (.graph i) x ∧ stores f.final.ops n = [x] :=
  mutation_written hm h (mem_mutation.mpr (Or.inr ⟨_, rfl, hmut⟩)) (hk := .store n)
    (.buffer (List.mem_filterMap.mpr ⟨_, hb, rfl⟩) (placeholderIdx_iff.mpr hn))

/-- **C07.** Without any restriction on the program: an input that the signature does not list as mutated
is never written. -/
theorem C07_other_inputs (h : importProgram env sig sym symbols = .ok f) {k : Nat} {name : String}
    (hk : (sig.ins.filterMap userInput)[k]? = some name) (hmut : ∀ p, .userInputMutation name p ∉ sig.outs) :
    writes f.final.ops k = [] := by
  refine not_written h (hk := .overwrite k) fun t ht p hp => ?_
  cases ht with
  | input hk' =>
    rw [hk] at hk'; cases hk'
    rcases mem_mutation.mp hp with ⟨i, e, h1⟩ | ⟨i, e, h1⟩
    · cases e; exact hmut _ h1
    · cases e

/-- **C07.** Likewise for buffers. -/
theorem C07_other_buffers (h : importProgram env sig sym symbols = .ok f) {n : Nat}
    (hmut : ∀ name target l p, .buffer name target l ∈ sig.ins → IsInput env.nodes name n →
      .bufferMutation target p ∉ sig.outs) :
    stores f.final.ops n = [] := by
  refine not_written h (hk := .store n) fun t ht p hp => ?_
  cases ht with
  | buffer hb hn =>
    obtain ⟨sp, h1, h2⟩ := List.mem_filterMap.mp hb
    cases sp <;> simp [bufferInput] at h2
    obtain ⟨rfl, rfl⟩ := h2
    rcases mem_mutation.mp hp with ⟨i, e, h3⟩ | ⟨i, e, h3⟩
    · cases e
    · cases e; exact hmut _ _ _ _ h1 (placeholderIdx_iff.mp hn) h3

section
open Verif.Fx.Demo

/-- A program that mutates an input and a buffer: both are written once, with the right value. -/
example : ((importProgram mutating mutatingSig false []).map fun f =>
    (f.argTys, f.final.ops, writes f.final.ops 0, stores f.final.ops 0)) = .ok ([.tensor],
   [⟨.copyToVTensor, [0], [1]⟩, ⟨.const (.int 1) none, [], [2]⟩, ⟨.torchOp "torch.aten.add.Tensor", [1, 1, 2], [3]⟩,
    ⟨.overwrite, [3, 0], []⟩, ⟨.const (.tensor 1 false) (some 0), [], [4]⟩, ⟨.const (.int 1) none, [], [5]⟩,
    ⟨.torchOp "torch.aten.add.Tensor", [4, 3, 5], [6]⟩, ⟨.store 0, [6], []⟩, ⟨.ret, [6], []⟩], [3], [6]) := by
  decide +kernel

/-- It satisfies the hypotheses of the theorems. -/
example : OwnProducers mutating mutatingSig where
  names := by
    have key : ∀ i < 4, ∀ j < 4, ∀ n ∈ mutating.nodes[i]?, ∀ m ∈ mutating.nodes[j]?, n.name = m.name → i = j := by
      decide +kernel
    intro i j n m h1 h2 h3
    have l1 := (List.getElem?_eq_some_iff.mp h1).1
    have l2 := (List.getElem?_eq_some_iff.mp h2).1
    exact key i l1 j l2 n h1 m h2 h3
  targets := by decide +kernel
  producers := by decide +kernel
  inputs := by decide +kernel
  buffers := by decide +kernel
  bufferTargets := by decide +kernel
  single := by
    have one : ∀ (a : List Arg) (nm : String), OneResult mutating (Demo.node nm (.call (.overload add) a [])) := by
      intro a nm
      refine ⟨add, a, [], rfl, fun s hs => ?_⟩
      rcases hs with ⟨_, _, _, h⟩ | ⟨rfl, _⟩
      · cases h
      · rfl
    intro m hm
    simp [mutatingSig, mutation] at hm
    rcases hm with rfl | rfl
    · exact ⟨_, List.mem_of_getElem? (i := 3) rfl, rfl, one _ _⟩
    · exact ⟨_, List.mem_of_getElem? (i := 2) rfl, rfl, one _ _⟩
  notTemp := by
    intro m hm q e
    simp [mutatingSig, mutation] at hm
    have h2 := congrArg (fun s => s.toList.reverse.head?) e
    rcases hm with rfl | rfl
    · simp at h2
    · simp at h2

/-- `x` and buffer `b` are both mutated to `add`: the same node produces two mutations. -/
def sharedSig : Sig := ⟨[.user "x", .buffer "b_b" "b" (some (.tensor 1 false))],
  [.bufferMutation "b" "add", .userInputMutation "x" "add", .user "add"]⟩

/-- `x` is overwritten with the input `y`. -/
def copyInput : Env := mk [node "y" .placeholder, node "x" .placeholder,
  node "add" (.call (.overload add) [g 0, g 1] [])]

def copyInputSig : Sig := ⟨[.user "y", .user "x"], [.userInputMutation "x" "y", .user "add"]⟩

/-- **C07 is violated** in general: import succeeds, but (1) when one node is the producer of an input and
a buffer mutation, the input is never written; (2) when the producer is an input bound earlier, nothing is
written. -/
theorem C07_violated :
    (∃ f, importProgram mutating sharedSig false [] = .ok f ∧ .userInputMutation "x" "add" ∈ sharedSig.outs ∧
      (sharedSig.ins.filterMap userInput)[0]? = some "x" ∧ writes f.final.ops 0 = []) ∧
    (∃ f, importProgram copyInput copyInputSig false [] = .ok f ∧ .userInputMutation "x" "y" ∈ copyInputSig.outs ∧
      (copyInputSig.ins.filterMap userInput)[1]? = some "x" ∧ writes f.final.ops 1 = []) := by
  have get : ∀ {x : Py Func} {k : Nat}, (x.map fun f => writes f.final.ops k) = .ok [] →
      ∃ f, x = .ok f ∧ writes f.final.ops k = [] := by
    intro x k h
    cases x with
    | error e => cases h
    | ok f => exact ⟨f, rfl, by simpa [Except.map] using h⟩
  constructor
  · obtain ⟨f, h1, h2⟩ := get (x := importProgram mutating sharedSig false []) (k := 0) (by decide +kernel)
    exact ⟨f, h1, by decide +kernel, by decide +kernel, h2⟩
  · obtain ⟨f, h1, h2⟩ := get (x := importProgram copyInput copyInputSig false []) (k := 1) (by decide +kernel)
    exact ⟨f, h1, by decide +kernel, by decide +kernel, h2⟩

end

/-! ## C08 -/

/-- **C08 is violated**: in every state the importer can reach, a second use of a `get_attr` node in
argument position raises. -/
theorem C08_second_use_violated {sc : Scope} {tys : List VTy} {s : St} (hr : Reach env sc (St.init tys) s)
    {i : Nat} {node : Node} {target : String} (hn : env.nodes[i]? = some node) (hop : node.op = .getAttr target) {x : Nat}
    (hx : NodeIs s (.graph i) x) : ∃ e, importNodeArg env (.graph i) s = .error e := by
  cases h : importNodeArg env (.graph i) s with
  | error e => exact ⟨e, rfl⟩
  | ok p =>
    exfalso
    have hstr := noStr hr (by simp [St.init]) target 0
    unfold importNodeArg at h
    obtain ⟨s0, s0', h0, h⟩ := M.bind_ok.mp h
    cases h0
    obtain ⟨_, s1, h1, h⟩ := M.bind_ok.mp h
    have e1 : s1 = s := by
      unfold guardM at h1
      split at h1 <;> cases h1; rfl
    subst e1
    simp only [nodeOf, hn, hop] at h
    have hmem : dictMem s1.v (.str target 0) = false := by unfold dictMem; rw [hstr]; rfl
    rw [hmem] at h
    obtain ⟨_, s2, h2, h⟩ := M.bind_ok.mp h
    change bindAttr env (.graph i) node.name target _ = _ at h2
    unfold bindAttr at h2
    cases ha : env.attr target with
    | none => rw [ha] at h2; cases h2
    | some l =>
      rw [ha] at h2
      obtain ⟨y, s3, h3, h4⟩ := M.bind_ok.mp h2
      have w : WF tys.length s1 := hr.wf (WF.init tys)
      obtain ⟨r3, _⟩ := Good.importLiteral (env := env) (sc := freeScope) w _ _ h3
      have hb : dictGet s3.v (.ref (.graph i) 0) = some (.val x) := r3.ext.v _ _ hx
      unfold bindNodeValue at h4
      obtain ⟨_, _, h5, h4⟩ := M.bind_ok.mp h4
      cases h5
      obtain ⟨_, _, h6, _⟩ := M.bind_ok.mp h4
      unfold guardM dictMem at h6
      rw [hb] at h6
      cases h6

section
open Verif.Fx.Demo

/-- `c + c` for a module attribute `c` -/
def attrTwice : Env := mk [node "c" (.getAttr "c"), node "add" (.call (.overload add) [g 0, g 0] []), node "output" (.output [g 1])]
/-- `c + x` -/
def attrOnce : Env := mk [node "x" .placeholder, node "c" (.getAttr "c"), node "add" (.call (.overload add) [g 1, g 0] []),
  node "output" (.output [g 2])]

/-- One use works, two do not. -/
theorem C08_violated : importStateless attrTwice false [] = .error .assertion ∧
    ((importStateless attrOnce false []).map fun f => f.final.ops) = .ok
      [⟨.const (.tensor 7 false) none, [], [1]⟩, ⟨.const (.int 1) none, [], [2]⟩,
       ⟨.torchOp "torch.aten.add.Tensor", [1, 0, 2], [3]⟩, ⟨.ret, [3], []⟩] := by
  constructor
  · have : ∀ x : Py Func, (x.map fun _ => ()) = .error .assertion → x = .error .assertion := by
      intro x h
      cases x with
      | error e => simpa [Except.map] using h
      | ok f => cases h
    exact this _ (by decide +kernel)
  · decide +kernel

end

/-- **C08**, for uses inside list arguments: any number of uses succeeds, and all of them denote the same
value. -/
theorem C08_lists_partial {tys : List VTy} {s : St} (hw : WF tys.length s) {i : Nat} {node : Node} {target : String}
    (hn : env.nodes[i]? = some node) (hop : node.op = .getAttr target) {l : Lit} (ha : env.attr target = some l)
    (hl : l ≠ .unsupported ∧ l ≠ .enum none) (hmu : .graph i ∉ s.multi) (hh : dictGet s.hooks node.name = none)
    (hb : dictGet s.v (.ref (.graph i) 0) = none ∨ ∃ x, NodeIs s (.graph i) x) (k : Nat) :
    ∃ x s', Fx.mapM' (fun _ => importNodeElem env (.graph i)) (List.replicate (k + 1) ()) s = .ok (List.replicate (k + 1) x, s') ∧
      NodeIs s' (.graph i) x := by
  have hms : s.multi.contains (.graph i) = false := by simpa using hmu
  -- a use of a bound attribute
  have again : ∀ {t : St} {x : Nat}, t.multi = s.multi → NodeIs t (.graph i) x → importNodeElem env (.graph i) t = .ok (x, t) := by
    intro t x hm hx
    have hx' : dictGet t.v (.ref (.graph i) 0) = some (.val x) := hx
    have hmem : dictMem t.v (.ref (.graph i) 0) = true := by unfold dictMem; rw [hx']; rfl
    unfold importNodeElem
    refine M.bind_ok.mpr ⟨t, t, rfl, M.bind_ok.mpr ⟨(), t, by unfold guardM; rw [hm, hms]; rfl, ?_⟩⟩
    simp only [nodeOf, hn, hop, hmem, if_true]
    unfold resolveNodeValue
    refine M.bind_ok.mpr ⟨t, t, rfl, ?_⟩
    rw [hx']; rfl
  have many : ∀ {t : St} {x : Nat}, t.multi = s.multi → NodeIs t (.graph i) x → ∀ n,
      Fx.mapM' (fun _ => importNodeElem env (.graph i)) (List.replicate n ()) t = .ok (List.replicate n x, t) := by
    intro t x hm hx n
    induction n with
    | zero => rfl
    | succ n ih =>
      rw [List.replicate_succ]
      unfold Fx.mapM'
      exact M.bind_ok.mpr ⟨_, _, again hm hx, M.bind_ok.mpr ⟨_, _, ih, rfl⟩⟩
  rcases hb with hb | ⟨x, hx⟩
  · have lit : ∃ x t, importLiteral l none s = .ok (x, t) ∧ t.multi = s.multi ∧ t.v = s.v ∧ t.hooks = s.hooks := by
      unfold importLiteral
      split
      · exact ⟨_, _, rfl, rfl, rfl, rfl⟩
      · unfold convertLit
        split
        · exact absurd rfl hl.1
        · exact absurd rfl hl.2
        · exact ⟨_, _, rfl, rfl, rfl, rfl⟩
        · exact ⟨_, _, rfl, rfl, rfl, rfl⟩
    obtain ⟨x, t, h1, h2, h3, h4⟩ := lit
    have hmem : dictMem s.v (.ref (.graph i) 0) = false := by unfold dictMem; rw [hb]; rfl
    have first : importNodeElem env (.graph i) s = .ok (x, { t with v := dictSet t.v (.ref (.graph i) 0) (.val x) }) := by
      unfold importNodeElem
      refine M.bind_ok.mpr ⟨s, s, rfl, M.bind_ok.mpr ⟨(), s, by unfold guardM; rw [hms]; rfl, ?_⟩⟩
      simp only [nodeOf, hn, hop, hmem, Bool.false_eq_true, if_false]
      refine M.bind_ok.mpr ⟨(), { t with v := dictSet t.v (.ref (.graph i) 0) (.val x) }, ?_, ?_⟩
      · unfold bindAttr
        rw [ha]
        refine M.bind_ok.mpr ⟨_, _, h1, ?_⟩
        unfold bindNodeValue
        refine M.bind_ok.mpr ⟨t, t, rfl, M.bind_ok.mpr ⟨(), t, by unfold guardM; rw [h3, hmem]; rfl, M.bind_ok.mpr ⟨(), _, rfl, ?_⟩⟩⟩
        rw [h4, hh]; rfl
      · unfold resolveNodeValue
        refine M.bind_ok.mpr ⟨_, _, rfl, ?_⟩
        simp only [dictGet_set, if_true]
        rfl
    have hx : NodeIs { t with v := dictSet t.v (.ref (.graph i) 0) (.val x) } (.graph i) x := by
      show dictGet (dictSet _ _ _) _ = _
      rw [dictGet_set, if_pos rfl]
    refine ⟨x, _, ?_, hx⟩
    rw [List.replicate_succ]
    unfold Fx.mapM'
    exact M.bind_ok.mpr ⟨_, _, first, M.bind_ok.mpr ⟨_, _, many (t := { t with v := dictSet t.v (.ref (.graph i) 0) (.val x) }) h2 hx k, rfl⟩⟩
  · exact ⟨x, s, many rfl hx (k + 1), hx⟩

section
open Verif.Fx.Demo

/-- `cat([c, c, x])` -/
def attrList : Env := mk [node "x" .placeholder, node "c" (.getAttr "c"),
  node "cat" (.call (.overload ⟨"torch.aten.cat", [⟨"tensors", .list .tensor, .lit .none⟩, ⟨"dim", .int, .lit (.int 0)⟩], 1⟩)
    [.list [.node (.graph 1), .node (.graph 1), .node (.graph 0)]] []), node "output" (.output [g 2])]

example : ((importStateless attrList false []).map fun f => f.final.ops) = .ok
    [⟨.const (.tensor 7 false) none, [], [1]⟩, ⟨.listConstruct, [1, 1, 0], [2]⟩, ⟨.const (.int 0) none, [], [3]⟩,
     ⟨.torchOp "torch.aten.cat", [2, 3], [4]⟩, ⟨.ret, [4], []⟩] := by decide +kernel

end

end Verif
