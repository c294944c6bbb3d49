/-!
# Conditionals of TensorFlow 1 and of ONNX

A node is identified by its outputs; its name is the list of the parts between the slashes. `V` is the type of tensors.
-/
namespace Verif.Cond

/-- A node. Constants and placeholders are operators without inputs; `f` is what an operator computes. -/
inductive Node (V : Type)
  /-- `type`, inputs and outputs of an ordinary operator -/
  | op (type : String) (f : List V → List V) (ins outs : List String)
  /-- `Switch(data, pred)` -/
  | switch (data pred out0 out1 : String)
  /-- `Merge(in0, in1)` with its name -/
  | merge (name : List String) (in0 in1 out : String)
  /-- `If(pred)`; the nodes and outputs of both branches -/
  | cond (pred : String) (outs : List String) (thenNodes : List (Node V)) (thenOuts : List String) (elseNodes : List (Node V)) (elseOuts : List String)

variable {V : Type}

/-- The inputs of a node itself. -/
def Node.ins : Node V → List String
  | .op _ _ ins _ => ins
  | .switch d p _ _ => [d, p]
  | .merge _ a b _ => [a, b]
  | .cond p _ _ _ _ _ => [p]

/-- The outputs of a node. -/
def Node.outs : Node V → List String
  | .op _ _ _ outs => outs
  | .switch _ _ o0 o1 => [o0, o1]
  | .merge _ _ _ o => [o]
  | .cond _ outs _ _ _ _ => outs

/-- The node that produces a tensor. -/
def producer (G : List (Node V)) (x : String) : Option (Node V) := G.find? (fun n => decide (x ∈ n.outs))

/-! ## TensorFlow 1: a run gives each tensor a value, or none if it is dead -/

/-- A run obeys a node. An operator that runs has all its inputs; `Switch` forwards its input to the chosen output only; `Merge` forwards one that is not dead. Operators may be
dead for other reasons (control dependencies). -/
def Fires (truth : V → Bool) (ρ : String → Option V) : Node V → Prop
  | .op _ f ins outs => ∀ (k : Nat) (o : String) (v : V), outs[k]? = some o → ρ o = some v → ∃ vs, ins.mapM ρ = some vs ∧ (f vs)[k]? = some v
  | .switch d p o0 o1 => (∀ v, ρ o0 = some v → ρ d = some v ∧ ∃ q, ρ p = some q ∧ truth q = false) ∧
      (∀ v, ρ o1 = some v → ρ d = some v ∧ ∃ q, ρ p = some q ∧ truth q = true)
  | .merge _ a b o => ∀ v, ρ o = some v → ρ a = some v ∨ ρ b = some v
  | .cond .. => False

/-! ## ONNX: the value of a tensor -/

/-- The value of a tensor in a graph, the graphs around it behind it. `fuel` bounds the depth; `none`: no value. -/
def eval (truth : V → Bool) : Nat → List (List (Node V)) → String → Option V
  | 0, _, _ => none
  | _ + 1, [], _ => none
  | fuel + 1, G :: outer, x =>
    match producer G x with
    | none => eval truth fuel outer x
    | some (.op _ f ins outs) => (ins.mapM (eval truth fuel (G :: outer))).bind (fun vs => (f vs)[outs.idxOf x]?)
    | some (.cond p outs tn to_ en eo) =>
      (eval truth fuel (G :: outer) p).bind (fun q =>
        if truth q then (to_[outs.idxOf x]?).bind (eval truth fuel (tn :: G :: outer)) else (eo[outs.idxOf x]?).bind (eval truth fuel (en :: G :: outer)))
    | some (.switch ..) => none
    | some (.merge ..) => none

/-- The converted graph gives the tensor this value. -/
def Gives (truth : V → Bool) (G : List (Node V)) (x : String) (v : V) : Prop := ∃ k, ∀ fuel, k ≤ fuel → eval truth fuel [G] x = some v

/-! ## What `tf.cond` builds -/

/-- The conditionals around a tensor, the outermost first, each with the branch. -/
abbrev Path := List (List String × Bool)

/-- How a graph was built: where each tensor is, where each conditional is and what it depends on, and an order of computation. -/
structure Plan where
  label : String → Path
  loc : List String → Path
  pred : List String → String
  rank : String → Nat

/-- The scope of a name (utils.tf_name_scope). -/
def scopeOf (name : List String) : List String := name.dropLast

/-- The node is as `tf.cond` makes it: operators stay within a branch, `Switch` leads into a branch, `Merge` out of it. -/
def Made (P : Plan) (G : List (Node V)) : Node V → Prop
  | .op _ _ ins outs => (∃ κ, (∀ x ∈ ins, P.label x = κ) ∧ ∀ o ∈ outs, P.label o = κ) ∧ ∀ x ∈ ins, ∀ o ∈ outs, P.rank x < P.rank o
  | .switch d p o0 o1 => ∃ s, P.label d = P.loc s ∧ P.label p = P.loc s ∧ p = P.pred s ∧ P.label o0 = P.loc s ++ [(s, false)] ∧ P.label o1 = P.loc s ++ [(s, true)] ∧
      (∀ x ∈ [d, p], P.rank x < P.rank o0 ∧ P.rank x < P.rank o1) ∧
      (∀ name a b o, Node.merge name a b o ∈ G → scopeOf name = s → P.rank d < P.rank o ∧ P.rank p < P.rank o)
  | .merge name a b o => P.label o = P.loc (scopeOf name) ∧
      ((P.label a = P.loc (scopeOf name) ++ [(scopeOf name, false)] ∧ P.label b = P.loc (scopeOf name) ++ [(scopeOf name, true)]) ∨
        (P.label a = P.loc (scopeOf name) ++ [(scopeOf name, true)] ∧ P.label b = P.loc (scopeOf name) ++ [(scopeOf name, false)])) ∧
      P.rank a < P.rank o ∧ P.rank b < P.rank o
  | .cond .. => False

/-- The graph is made of conditionals of TensorFlow 1. -/
structure TfMade (P : Plan) (G : List (Node V)) : Prop where
  /-- every tensor has one producer -/
  outs : (G.flatMap Node.outs).Nodup
  /-- every input has one -/
  closed : ∀ n ∈ G, ∀ x ∈ n.ins, ∃ m ∈ G, x ∈ m.outs
  nodes : ∀ n ∈ G, Made P G n
  /-- no conditional is within itself -/
  nested : ∀ s b, (s, b) ∉ P.loc s

/-- A run of TensorFlow: it obeys every node, and within a branch everything is dead unless the branch is chosen (the control dependencies on the pivot). -/
structure Run (truth : V → Bool) (P : Plan) (G : List (Node V)) (ρ : String → Option V) : Prop where
  fires : ∀ n ∈ G, Fires truth ρ n
  chosen : ∀ x v, ρ x = some v → ∀ s b, (s, b) ∈ P.label x → ∃ q, ρ (P.pred s) = some q ∧ truth q = b

end Verif.Cond
