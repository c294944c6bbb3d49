/-!
# Model of the optimizer driver, the rewriter driver and the error switch

`optimize_graph` (tf2onnx/optimizer/__init__.py:45-88), `run_rewriters` (tf2onnx/tfonnx.py:368-397) and the choice of
`catch_errors` in `_convert_common` (tf2onnx/convert.py:196-200). Passes and rewriters are arbitrary: they may change the
graph object they are given in place, finish or raise at any point.
-/
namespace Verif.Driver

/-- One run of an optimizer pass (`opt.optimize(current, iteration)`): what it leaves in the graph object it was given
(`left`, also when it raises half-way), and either an exception or the graph it returns (`none` is Python's `None`) with
`opt.graph_been_opt`. -/
structure PassRun (σ : Type) where
  left : σ
  outcome : Except String (Option σ × Bool)

/-- A pass: behaviour as a function of the graph and the iteration number. -/
abbrev Pass (σ : Type) := σ → Nat → PassRun σ

/-- An exception that leaves `optimize_graph`, with what it did to the caller's graph object. -/
structure Raised (σ : Type) where
  msg : String
  graph : σ

/-- One round of the `for` loop (optimizer/__init__.py:55-73). With `catch_errors` the pass works on a deep copy, so an
exception leaves `graph` as it was; without, it works on the graph itself. -/
def sweep {σ : Type} (catchErrors : Bool) (iter : Nat) : List (Pass σ) → σ → Bool → Except (Raised σ) (σ × Bool)
  | [], g, flag => .ok (g, flag)
  | p :: ps, g, flag =>
    let r := p g iter
    if catchErrors then
      match r.outcome with
      | .error _ => sweep catchErrors iter ps g flag
      | .ok (ret, been) => sweep catchErrors iter ps (ret.getD g) (flag || been)
    else
      match r.outcome with
      | .error e => .error ⟨e, r.left⟩
      | .ok (none, _) => .error ⟨"AttributeError: 'NoneType' object", r.left⟩
      | .ok (some g', been) => sweep catchErrors iter ps g' (flag || been)

/-- `while continue_flag` (optimizer/__init__.py:52-74); `none` when the fuel does not suffice. -/
def loop {σ : Type} (catchErrors : Bool) (ps : List (Pass σ)) : Nat → Nat → σ → Option (Except (Raised σ) σ)
  | 0, _, _ => none
  | fuel + 1, iter, g =>
    match sweep catchErrors iter ps g false with
    | .error e => some (.error e)
    | .ok (g', true) => loop catchErrors ps fuel (iter + 1) g'
    | .ok (g', false) => some (.ok g')

/-- `optimize_graph` (optimizer/__init__.py:45-88): the loop, then a topological sort whose failure is only logged. The
statistics are left out. `topologicalSort` raises before it changes the graph (see `Verif.Model.TopoSort`). -/
def optimizeGraph {σ : Type} (topologicalSort : σ → Except String σ) (catchErrors : Bool) (ps : List (Pass σ))
    (fuel : Nat) (g : σ) : Option (Except (Raised σ) σ) :=
  (loop catchErrors ps fuel 0 g).map (fun r => r.map (fun g => match topologicalSort g with | .ok g' => g' | .error _ => g))

/-! ## Rewriters -/

/-- One run of `ops = func(g, g.get_nodes()); g.reset_nodes(ops)` on the graph `id` of the heap `σ`: the heap afterwards
and whether an exception was raised. -/
structure RewriteRun (σ : Type) where
  heap : σ
  raised : Option String

abbrev Rewriter (σ : Type) := σ → Nat → RewriteRun σ

/-- Python truth of the argument `continue_on_error`: the recursive call passes the attribute name (tfonnx.py:397). -/
inductive Flag
  | bool (b : Bool)
  | str (s : String)

def Flag.truthy : Flag → Bool
  | .bool b => b
  | .str s => s ≠ ""

/-- The `for func in funcs` loop (tfonnx.py:373-392; the debug-mode integrity check is left out). -/
def runFuncs {σ : Type} (cont : Flag) : List (Rewriter σ) → σ → Nat → RewriteRun σ
  | [], h, _ => ⟨h, none⟩
  | f :: fs, h, id =>
    let r := f h id
    match r.raised with
    | some e => if cont.truthy then runFuncs cont fs r.heap id else ⟨r.heap, some e⟩
    | none => runFuncs cont fs r.heap id

/-- A loop that stops at the first exception. -/
def forEach {σ α : Type} (body : σ → α → RewriteRun σ) : List α → σ → RewriteRun σ
  | [], h => ⟨h, none⟩
  | a :: l, h =>
    let r := body h a
    match r.raised with
    | some e => ⟨r.heap, some e⟩
    | none => forEach body l r.heap

/-- `run_rewriters` (tfonnx.py:368-397). `contained h id` lists the body graphs of graph `id` with their attribute names;
the nesting depth is bounded by the fuel (Python's recursion limit). -/
def runRewriters {σ : Type} (contained : σ → Nat → List (String × Nat)) (funcs : List (Rewriter σ)) :
    Nat → σ → Nat → Flag → RewriteRun σ
  | 0, h, _, _ => ⟨h, some "RecursionError"⟩
  | fuel + 1, h, id, cont =>
    let r := runFuncs cont funcs h id
    match r.raised with
    | some e => ⟨r.heap, some e⟩
    | none =>
      forEach (fun h (p : String × Nat) => runRewriters contained funcs fuel h p.2 (.str p.1))
        (contained r.heap id) r.heap

/-! ## The error switch -/

/-- `str.upper` on ASCII. -/
def upper (s : String) : List Char := s.toList.map Char.toUpper

/-- The value of `catch_errors` (convert.py:196-199); `env` is `os.environ`. -/
def catchErrors (env : String → Option String) (largeModel : Bool) : Bool :=
  if (env "TF2ONNX_CATCH_ERRORS").isSome then upper "TF2ONNX_CATCH_ERRORS" = "TRUE".toList
  else !largeModel

end Verif.Driver
