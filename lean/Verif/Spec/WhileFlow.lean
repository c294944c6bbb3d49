/-!
# Loops of TensorFlow 1 and of ONNX

A node is identified by its outputs, a loop by the output of its `LoopCond`. `V` is the type of tensors.
-/
namespace Verif.While

/-- A node. `f` is what an operator computes. -/
inductive Node (V : Type)
  | op (type : String) (f : List V → List V) (ins outs : List String)
  /-- `Enter`; `const` for tensors that stay the same in the loop -/
  | enter (const : Bool) (inp out : String)
  | merge (a b out : String)
  | switch (data pred out0 out1 : String)
  | loopCond (inp out : String)
  | next (inp out : String)
  | exit (inp out : String)
  /-- `Loop` of ONNX with trip count `sys.maxsize`: first condition and values; the nodes, inputs and outputs of the body -/
  | loop (cond : String) (inits outs : List String) (body : List (Node V)) (bodyIns : List String) (bodyCond : String) (bodyOuts : List String)

variable {V : Type}

/-- The inputs of a node itself. -/
def Node.ins : Node V → List String
  | .op _ _ ins _ => ins
  | .enter _ i _ => [i]
  | .merge a b _ => [a, b]
  | .switch d p _ _ => [d, p]
  | .loopCond i _ => [i]
  | .next i _ => [i]
  | .exit i _ => [i]
  | .loop c inits _ _ _ _ _ => c :: inits

/-- The outputs of a node. -/
def Node.outs : Node V → List String
  | .op _ _ _ outs => outs
  | .enter _ _ o => [o]
  | .merge _ _ o => [o]
  | .switch _ _ o0 o1 => [o0, o1]
  | .loopCond _ o => [o]
  | .next _ o => [o]
  | .exit _ o => [o]
  | .loop _ _ outs _ _ _ _ => outs

/-- The node that produces a tensor. -/
def producer (G : List (Node V)) (x : String) : Option (Node V) := G.find? (fun n => decide (x ∈ n.outs))

/-! ## TensorFlow 1: a run gives each tensor a value, or none if it is dead, in each iteration; outside of loops only iteration 0 counts -/

/-- A run obeys a node. -/
def Fires (truth : V → Bool) (ρ : String → Nat → Option V) : Node V → Prop
  | .op _ f ins outs => ∀ (t k : Nat) (o : String) (v : V), outs[k]? = some o → ρ o t = some v → ∃ vs, ins.mapM (fun x => ρ x t) = some vs ∧ (f vs)[k]? = some v
  | .enter const i o => ∀ t v, ρ o t = some v → ρ i 0 = some v ∧ (const = false → t = 0)
  | .merge a b o => ∀ t v, ρ o t = some v → ρ a t = some v ∨ ρ b t = some v
  | .switch d p o0 o1 => (∀ t v, ρ o0 t = some v → ρ d t = some v ∧ ∃ q, ρ p t = some q ∧ truth q = false) ∧
      (∀ t v, ρ o1 t = some v → ρ d t = some v ∧ ∃ q, ρ p t = some q ∧ truth q = true)
  | .loopCond i o => ∀ t v, ρ o t = some v → ρ i t = some v
  | .next i o => ∀ t v, ρ o t = some v → ∃ t', t = t' + 1 ∧ ρ i t' = some v
  | .exit i o => ∀ v, ρ o 0 = some v → ∃ t, ρ i t = some v
  | .loop .. => False

/-! ## What `tf.while_loop` builds -/

/-- Where a tensor is: outside of loops, brought into a loop as it is, before the `Switch` of a loop (its condition), behind it (its body), or on an edge between the
nodes that make the loop. -/
inductive Place
  | outside
  | entered (loop : String)
  | head (loop : String)
  | body (loop : String)
  | edge (loop : String)
  deriving DecidableEq

/-- Operators of a loop use what is in the same part of it and what has been brought into it. -/
def Place.sees (κ κ' : Place) : Prop := κ' = κ ∨ ∃ c, κ' = .entered c ∧ (κ = .head c ∨ κ = .body c)

/-- How a graph was built: where each tensor is and an order of computation within an iteration. -/
structure Plan where
  place : String → Place
  rank : String → Nat

/-- The node is as `tf.while_loop` makes it. -/
def Made (P : Plan) (G : List (Node V)) : Node V → Prop
  | .op t f ins outs => (∃ κ, (κ = .outside ∨ (∃ c, κ = .head c) ∨ ∃ c, κ = .body c) ∧ (∀ o ∈ outs, P.place o = κ) ∧ ∀ x ∈ ins, κ.sees (P.place x)) ∧
      (∀ x ∈ ins, ∀ o ∈ outs, P.rank x < P.rank o) ∧ (t = "Identity" → ∃ x y, ins = [x] ∧ outs = [y] ∧ ∀ v, f [v] = [v]) ∧ (t = "Const" → ins = [])
  | .enter const i o => P.place i = .outside ∧ P.rank i < P.rank o ∧ (∃ c, P.place o = if const then .entered c else .edge c)
  | .merge a b o => ∃ c i e j n, P.place o = .head c ∧ P.place e = .edge c ∧ P.place n = .edge c ∧ Node.enter false i e ∈ G ∧ Node.next j n ∈ G ∧ P.rank e < P.rank o ∧
      ((a = e ∧ b = n) ∨ (a = n ∧ b = e))
  | .switch d c o0 o1 => (∃ i, Node.loopCond i c ∈ G) ∧ P.place d = .head c ∧ P.place c = .edge c ∧ P.place o0 = .edge c ∧ P.place o1 = .body c ∧ (∃ a b, Node.merge a b d ∈ G) ∧
      P.rank d < P.rank o1 ∧ P.rank c < P.rank o0
  | .loopCond i c => (P.place i = .head c ∨ P.place i = .entered c) ∧ P.place c = .edge c ∧ P.rank i < P.rank c
  | .next i o => ∃ c, (P.place i = .body c ∨ P.place i = .entered c) ∧ P.place o = .edge c
  | .exit i o => ∃ c d o1, Node.switch d c i o1 ∈ G ∧ P.place o = .outside ∧ P.rank i < P.rank o ∧
      ∀ const j e, Node.enter const j e ∈ G → P.place e = .entered c ∨ P.place e = .edge c → P.rank j < P.rank o
  | .loop .. => False

/-- The graph is made of loops of TensorFlow 1. -/
structure TfMade (P : Plan) (G : List (Node V)) : Prop where
  /-- every tensor has one producer -/
  outs : (G.flatMap Node.outs).Nodup
  /-- every input has one -/
  closed : ∀ n ∈ G, ∀ x ∈ n.ins, ∃ m ∈ G, x ∈ m.outs
  nodes : ∀ n ∈ G, Made P G n

/-- `sys.maxsize`. -/
def maxTrip : Nat := 2 ^ 63 - 1

/-- A run of TensorFlow: it obeys every node, and every loop comes to its end after some number of iterations; all its variables live until then and nothing later. -/
structure Run (truth : V → Bool) (P : Plan) (G : List (Node V)) (ρ : String → Nat → Option V) : Prop where
  fires : ∀ n ∈ G, Fires truth ρ n
  ends : ∀ i c, Node.loopCond i c ∈ G → ∃ T ≤ maxTrip, (∀ t < T, ∃ q, ρ c t = some q ∧ truth q = true) ∧ (∃ q, ρ c T = some q ∧ truth q = false) ∧
    (∀ a b m, Node.merge a b m ∈ G → P.place m = .head c → ∀ t ≤ T, (ρ m t).isSome) ∧
    (∀ x, P.place x = .head c ∨ P.place x = .body c ∨ P.place x = .edge c → ∀ t, T < t → ρ x t = none)

/-! ## ONNX: the value of a tensor -/

/-- What a body sees: its inputs, then the tensors around it. -/
def bindInputs (ins : List String) (vs : List V) (env : String → Option V) (x : String) : Option V :=
  match (ins.zip vs).lookup x with
  | some v => some v
  | none => env x

mutual
/-- The value of a tensor in a graph; `env` gives the tensors around it. `fuel` bounds the depth; `none`: no value. -/
def eval (truth : V → Bool) : Nat → (String → Option V) → List (Node V) → String → Option V
  | 0, _, _, _ => none
  | fuel + 1, env, G, x =>
    match producer G x with
    | none => env x
    | some (.op _ f ins outs) => (ins.mapM (eval truth fuel env G)).bind (fun vs => (f vs)[outs.idxOf x]?)
    | some (.loop c inits outs body bodyIns bodyCond bodyOuts) =>
      (eval truth fuel env G c).bind (fun q => (inits.mapM (eval truth fuel env G)).bind (fun vs =>
        (iterate truth fuel (eval truth fuel env G) body bodyIns bodyCond bodyOuts maxTrip q vs).bind (fun r => r[outs.idxOf x]?)))
    | some _ => none

/-- The iterations of `Loop`. -/
def iterate (truth : V → Bool) : Nat → (String → Option V) → List (Node V) → List String → String → List String → Nat → V → List V → Option (List V)
  | 0, _, _, _, _, _, _, _, _ => none
  | fuel + 1, env, body, bodyIns, bodyCond, bodyOuts, left, q, vs =>
    if truth q = false ∨ left = 0 then some vs
    else (eval truth fuel (bindInputs bodyIns vs env) body bodyCond).bind (fun q' => (bodyOuts.mapM (eval truth fuel (bindInputs bodyIns vs env) body)).bind (fun vs' =>
      iterate truth fuel env body bodyIns bodyCond bodyOuts (left - 1) q' vs'))
end

/-- The converted graph gives the tensor this value. -/
def Gives (truth : V → Bool) (G : List (Node V)) (x : String) (v : V) : Prop := ∃ k, ∀ fuel, k ≤ fuel → eval truth fuel (fun _ => none) G x = some v

end Verif.While
