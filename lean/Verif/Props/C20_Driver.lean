import Verif.Model.Driver
/-!
# C20: the optimizer driver; C39: failed rewrites are reported; C40: the error switch
-/
namespace Verif.Driver

/-! ## C20 -/

/-- `g'` is reached from `g` by passes that ran to completion and returned a graph. -/
inductive Reached {σ : Type} (ps : List (Pass σ)) (g : σ) : σ → Prop
  | refl : Reached ps g g
  | step {g1 g2 : σ} {p : Pass σ} {iter : Nat} {been : Bool} : Reached ps g g1 → p ∈ ps →
      (p g1 iter).outcome = .ok (some g2, been) → Reached ps g g2

/-- What is returned for a reached graph: the sorted graph if sorting succeeds, else the graph itself. -/
def Sorted {σ : Type} (topologicalSort : σ → Except String σ) (g out : σ) : Prop :=
  topologicalSort g = .ok out ∨ (∃ e, topologicalSort g = .error e) ∧ out = g

theorem sweep_catch {σ : Type} (ps qs : List (Pass σ)) (iter : Nat) (g0 g : σ) (flag : Bool) (hsub : ∀ p ∈ qs, p ∈ ps)
    (hg : Reached ps g0 g) :
    ∃ g' flag', sweep true iter qs g flag = .ok (g', flag') ∧ Reached ps g0 g' := by
  induction qs generalizing g flag with
  | nil => exact ⟨g, flag, rfl, hg⟩
  | cons p qs ih =>
    simp only [sweep, if_true]
    have hrest := fun g flag => ih g flag (fun q hq => hsub q (List.mem_cons_of_mem _ hq))
    cases hr : (p g iter).outcome with
    | error e => exact hrest g flag hg
    | ok x =>
      obtain ⟨ret, been⟩ := x
      cases ret with
      | none => exact hrest g _ hg
      | some g' => exact hrest g' _ (Reached.step hg (hsub p (List.mem_cons_self)) hr)

theorem loop_catch {σ : Type} (ps : List (Pass σ)) (fuel iter : Nat) (g0 g : σ) (hg : Reached ps g0 g)
    (r : Except (Raised σ) σ) (h : loop true ps fuel iter g = some r) : ∃ g', r = .ok g' ∧ Reached ps g0 g' := by
  induction fuel generalizing iter g with
  | zero => cases h
  | succ fuel ih =>
    simp only [loop] at h
    obtain ⟨g', flag, hs, hg'⟩ := sweep_catch ps ps iter g0 g false (fun _ hp => hp) hg
    rw [hs] at h
    cases flag with
    | true => exact ih _ _ hg' h
    | false =>
      simp only [Option.some.injEq] at h
      exact ⟨g', h.symm, hg'⟩

/-- **C20**: with `catch_errors`, whatever the passes do (including raising after changing the graph they were given),
`optimize_graph` does not raise, and the graph it returns is reached from the given one by completed passes only (then
sorted, if it can be). -/
theorem optimize_graph_catches {σ : Type} (topologicalSort : σ → Except String σ) (ps : List (Pass σ)) (fuel : Nat)
    (g : σ) (r : Except (Raised σ) σ) (h : optimizeGraph topologicalSort true ps fuel g = some r) :
    ∃ g' out, r = .ok out ∧ Reached ps g g' ∧ Sorted topologicalSort g' out := by
  unfold optimizeGraph at h
  rw [Option.map_eq_some_iff] at h
  obtain ⟨r', hl, rfl⟩ := h
  obtain ⟨g', rfl, hg'⟩ := loop_catch ps fuel 0 g g Reached.refl r' hl
  refine ⟨g', _, rfl, hg', ?_⟩
  unfold Sorted
  cases ht : topologicalSort g' with
  | ok o => left; simp [ht]
  | error e => right; exact ⟨⟨e, rfl⟩, by simp [ht]⟩

/-- Consequence: anything every completed pass and the sort preserve holds of the result, failing passes or not. -/
theorem optimize_graph_preserves {σ : Type} (topologicalSort : σ → Except String σ) (ps : List (Pass σ)) (fuel : Nat)
    (g out : σ) (P : σ → Prop) (h : optimizeGraph topologicalSort true ps fuel g = some (.ok out)) (h0 : P g)
    (hp : ∀ p ∈ ps, ∀ g iter g' been, P g → (p g iter).outcome = .ok (some g', been) → P g')
    (hs : ∀ g g', P g → topologicalSort g = .ok g' → P g') : P out := by
  obtain ⟨g', o, hr, hreach, hsort⟩ := optimize_graph_catches topologicalSort ps fuel g _ h
  have hg' : P g' := by
    clear hsort
    induction hreach with
    | refl => exact h0
    | step _ hm ho ih => exact hp _ hm _ _ _ _ ih ho
  simp only [Except.ok.injEq] at hr
  subst hr
  rcases hsort with hsort | ⟨_, rfl⟩
  · exact hs _ _ hg' hsort
  · exact hg'

/-- Without `catch_errors` an exception of a pass reaches the caller, and no later pass runs. -/
theorem optimize_graph_raises {σ : Type} (topologicalSort : σ → Except String σ) (ps1 ps2 : List (Pass σ)) (p : Pass σ)
    (fuel : Nat) (g g1 : σ) (e : String) (flag : Bool) (h1 : sweep false 0 ps1 g false = .ok (g1, flag))
    (hp : (p g1 0).outcome = .error e) :
    optimizeGraph topologicalSort false (ps1 ++ p :: ps2) (fuel + 1) g = some (.error ⟨e, (p g1 0).left⟩) := by
  have key : ∀ (qs : List (Pass σ)) (g : σ) (f : Bool), sweep false 0 qs g f = .ok (g1, flag) →
      sweep false 0 (qs ++ p :: ps2) g f = .error ⟨e, (p g1 0).left⟩ := by
    intro qs
    induction qs with
    | nil =>
      intro g f h
      simp only [sweep, Except.ok.injEq, Prod.mk.injEq] at h
      obtain ⟨rfl, rfl⟩ := h
      simp [sweep, hp]
    | cons q qs ih =>
      intro g f h
      simp only [sweep, List.cons_append, Bool.false_eq_true, if_false] at h ⊢
      cases hq : (q g 0).outcome with
      | error e' => rw [hq] at h; cases h
      | ok x =>
        obtain ⟨ret, been⟩ := x
        rw [hq] at h
        cases ret with
        | none => cases h
        | some g' => exact ih g' _ h
  simp [optimizeGraph, loop, key ps1 g false h1, Except.map]

/-- A whole round in which no completed pass reports a change, running over the graphs `g`, ... one pass after the
other. -/
def QuietRound {σ : Type} (iter : Nat) : List (Pass σ) → σ → σ → Prop
  | [], g, g' => g' = g
  | p :: ps, g, g' =>
    match (p g iter).outcome with
    | .error _ => QuietRound iter ps g g'
    | .ok (ret, been) => been = false ∧ QuietRound iter ps (ret.getD g) g'

theorem sweep_flag_mono {σ : Type} (iter : Nat) (ps : List (Pass σ)) (g g' : σ) (flag : Bool)
    (h : sweep true iter ps g true = .ok (g', flag)) : flag = true := by
  induction ps generalizing g with
  | nil => simp only [sweep, Except.ok.injEq, Prod.mk.injEq] at h; exact h.2.symm
  | cons p ps ih =>
    simp only [sweep, if_true] at h
    cases hr : (p g iter).outcome with
    | error e => rw [hr] at h; exact ih _ h
    | ok x =>
      obtain ⟨ret, been⟩ := x
      rw [hr] at h
      exact ih _ (by simpa using h)

theorem sweep_quiet {σ : Type} (iter : Nat) (ps : List (Pass σ)) (g g' : σ)
    (h : sweep true iter ps g false = .ok (g', false)) : QuietRound iter ps g g' := by
  induction ps generalizing g with
  | nil => simp only [sweep, Except.ok.injEq, Prod.mk.injEq] at h; exact h.1.symm
  | cons p ps ih =>
    simp only [sweep, if_true] at h
    simp only [QuietRound]
    cases hr : (p g iter).outcome with
    | error e => rw [hr] at h; exact ih _ h
    | ok x =>
      obtain ⟨ret, been⟩ := x
      rw [hr] at h
      cases been with
      | true => exact absurd (sweep_flag_mono iter ps _ _ _ (by simpa using h)) (by simp)
      | false => exact ⟨rfl, ih _ (by simpa using h)⟩

/-- **C20, stopping**: the driver returns only after a whole round in which no pass that completed reported a change. -/
theorem optimize_graph_stops {σ : Type} (ps : List (Pass σ)) (fuel iter : Nat) (g out : σ)
    (h : loop true ps fuel iter g = some (.ok out)) :
    ∃ iter' g', Reached ps g g' ∧ QuietRound iter' ps g' out := by
  have key : ∀ (fuel iter : Nat) (g1 : σ), Reached ps g g1 → loop true ps fuel iter g1 = some (.ok out) →
      ∃ iter' g', Reached ps g g' ∧ QuietRound iter' ps g' out := by
    intro fuel
    induction fuel with
    | zero => intro iter g1 _ h; cases h
    | succ fuel ih =>
      intro iter g1 hg1 h
      simp only [loop] at h
      obtain ⟨g', flag, hs, hg'⟩ := sweep_catch ps ps iter g g1 false (fun _ hp => hp) hg1
      rw [hs] at h
      cases flag with
      | true => exact ih _ _ hg' h
      | false =>
        simp only [Option.some.injEq, Except.ok.injEq] at h
        subst h
        exact ⟨iter, g1, hg1, sweep_quiet iter ps g1 g' hs⟩
  exact key fuel iter g Reached.refl h

/-- **C20, termination**: if some measure of the graph never grows under a completed pass and shrinks under each pass
that reports a change, the driver stops within `measure + 1` rounds. -/
theorem optimize_graph_terminates {σ : Type} (topologicalSort : σ → Except String σ) (ps : List (Pass σ)) (μ : σ → Nat)
    (hμ : ∀ p ∈ ps, ∀ g iter ret been, (p g iter).outcome = .ok (ret, been) →
      μ (ret.getD g) ≤ μ g ∧ (been = true → μ (ret.getD g) < μ g)) (g : σ) :
    ∃ out, optimizeGraph topologicalSort true ps (μ g + 1) g = some (.ok out) := by
  have hsweep : ∀ (qs : List (Pass σ)) (_ : ∀ p ∈ qs, p ∈ ps) (iter : Nat) (g : σ) (flag : Bool),
      ∃ g' flag', sweep true iter qs g flag = .ok (g', flag') ∧ μ g' ≤ μ g ∧ (flag' = true → flag = true ∨ μ g' < μ g) := by
    intro qs
    induction qs with
    | nil => intro _ iter g flag; exact ⟨g, flag, rfl, Nat.le_refl _, fun h => Or.inl h⟩
    | cons p qs ih =>
      intro hsub iter g flag
      simp only [sweep, if_true]
      have hsub' := fun q hq => hsub q (List.mem_cons_of_mem _ hq)
      cases hr : (p g iter).outcome with
      | error e => exact ih hsub' iter g flag
      | ok x =>
        obtain ⟨ret, been⟩ := x
        obtain ⟨h1, h2⟩ := hμ p (hsub p (List.mem_cons_self)) g iter ret been hr
        obtain ⟨g', flag', hs, h3, h4⟩ := ih hsub' iter (ret.getD g) (flag || been)
        refine ⟨g', flag', hs, Nat.le_trans h3 h1, fun hf => ?_⟩
        rcases h4 hf with h | h
        · rw [Bool.or_eq_true] at h
          rcases h with h | h
          · exact Or.inl h
          · exact Or.inr (Nat.lt_of_le_of_lt h3 (h2 h))
        · exact Or.inr (Nat.lt_of_lt_of_le h h1)
  have hloop : ∀ (n iter : Nat) (g : σ), μ g ≤ n → ∃ out, loop true ps (n + 1) iter g = some (.ok out) := by
    intro n
    induction n with
    | zero =>
      intro iter g hn
      obtain ⟨g', flag', hs, h1, h2⟩ := hsweep ps (fun _ h => h) iter g false
      simp only [loop, hs]
      cases flag' with
      | false => exact ⟨g', rfl⟩
      | true =>
        rcases h2 rfl with h | h
        · exact absurd h (by simp)
        · exact absurd h (by omega)
    | succ n ih =>
      intro iter g hn
      obtain ⟨g', flag', hs, h1, h2⟩ := hsweep ps (fun _ h => h) iter g false
      rw [loop, hs]
      cases flag' with
      | false => exact ⟨g', rfl⟩
      | true =>
        rcases h2 rfl with h | h
        · exact absurd h (by simp)
        · exact ih _ _ (by omega)
  obtain ⟨out, h⟩ := hloop (μ g) 0 g (Nat.le_refl _)
  exact ⟨match topologicalSort out with | .ok g' => g' | .error _ => out,
    by simp only [optimizeGraph, h, Option.map_some, Except.map]; rfl⟩

/-- Instance: a pass that halves, one that raises after wrecking its copy, one that returns `None`. -/
example : optimizeGraph (σ := Nat) (fun g => .ok (g + 100)) true
    [fun g _ => ⟨g / 2, .ok (some (g / 2), g ≠ 0)⟩, fun _ _ => ⟨999, .error "boom"⟩, fun g _ => ⟨g, .ok (none, false)⟩] 20 12 =
    some (.ok 100) := rfl

/-! ## C39 -/

/-- The first rewriter of the list that raises on the top-level graph (after the ones before it ran). -/
def TopRaises {σ : Type} : List (Rewriter σ) → σ → Nat → String → Prop
  | [], _, _, _ => False
  | f :: fs, h, id, e =>
    match (f h id).raised with
    | some e' => e' = e
    | none => TopRaises fs (f h id).heap id e

/-- No rewriter raises on the top-level graph, which then is `h'`. -/
def TopSucceeds {σ : Type} : List (Rewriter σ) → σ → Nat → σ → Prop
  | [], h, _, h' => h' = h
  | f :: fs, h, id, h' => (f h id).raised = none ∧ TopSucceeds fs (f h id).heap id h'

/-- **C39, partial**: without continue-on-error, the first exception raised by a rewriter on the main graph reaches the
caller of `run_rewriters`. Missing: exceptions raised on body graphs, which never reach the caller (see
`nested_exceptions_swallowed`). -/
theorem rewriter_errors_reported_partial {σ : Type} (contained : σ → Nat → List (String × Nat))
    (funcs : List (Rewriter σ)) (fuel : Nat) (h : σ) (id : Nat) (e : String) (ht : TopRaises funcs h id e) :
    (runRewriters contained funcs (fuel + 1) h id (.bool false)).raised = some e := by
  have key : ∀ (fs : List (Rewriter σ)) (h : σ), TopRaises fs h id e →
      (runFuncs (.bool false) fs h id).raised = some e := by
    intro fs
    induction fs with
    | nil => intro h ht; exact ht.elim
    | cons f fs ih =>
      intro h ht
      simp only [TopRaises] at ht
      simp only [runFuncs]
      cases hr : (f h id).raised with
      | some e' => rw [hr] at ht; simp [Flag.truthy, ht]
      | none => rw [hr] at ht; exact ih _ ht
  have := key funcs h ht
  simp [runRewriters, this]

theorem runFuncs_truthy {σ : Type} (cont : Flag) (hc : cont.truthy = true) (fs : List (Rewriter σ)) (h : σ) (id : Nat) :
    (runFuncs cont fs h id).raised = none := by
  induction fs generalizing h with
  | nil => rfl
  | cons f fs ih =>
    simp only [runFuncs]
    cases (f h id).raised with
    | some e => simp [hc, ih]
    | none => exact ih _

/-- **C39 is violated on body graphs**: once the rewriters succeed on the main graph, `run_rewriters` returns normally
whatever the rewriters do on body graphs (at any depth the recursion limit allows), even without continue-on-error:
the recursive call passes the attribute name as the continue-on-error flag. -/
theorem nested_exceptions_swallowed {σ : Type} (contained : σ → Nat → List (String × Nat))
    (hnames : ∀ h id p, p ∈ contained h id → p.1 ≠ "")
    (funcs : List (Rewriter σ)) (fuel : Nat) (h h' : σ) (id : Nat) (ht : TopSucceeds funcs h id h')
    (hdepth : (runRewriters contained funcs (fuel + 1) h id (.bool false)).raised ≠ some "RecursionError") :
    (runRewriters contained funcs (fuel + 1) h id (.bool false)).raised = none := by
  -- a truthy run raises nothing but the recursion limit
  have each : ∀ {α : Type} (body : σ → α → RewriteRun σ) (l : List α),
      (∀ h a, a ∈ l → (body h a).raised = none ∨ (body h a).raised = some "RecursionError") →
      ∀ h, (forEach body l h).raised = none ∨ (forEach body l h).raised = some "RecursionError" := by
    intro α body l
    induction l with
    | nil => intro _ h; exact Or.inl rfl
    | cons a l ih =>
      intro hb h
      simp only [forEach]
      cases hr : (body h a).raised with
      | none => exact ih (fun h b hm => hb h b (List.mem_cons_of_mem _ hm)) _
      | some e =>
        rcases hb h a (List.mem_cons_self) with h1 | h1
        · rw [hr] at h1; cases h1
        · rw [hr] at h1; exact Or.inr h1
  have inner : ∀ (fuel : Nat) (h : σ) (id : Nat) (s : String), s ≠ "" →
      (runRewriters contained funcs fuel h id (.str s)).raised = none ∨
      (runRewriters contained funcs fuel h id (.str s)).raised = some "RecursionError" := by
    intro fuel
    induction fuel with
    | zero => intro h id s _; exact Or.inr rfl
    | succ fuel ih =>
      intro h id s hs
      simp only [runRewriters, runFuncs_truthy (.str s) (by simpa [Flag.truthy] using hs)]
      apply each
      intro h p hp
      exact ih h p.2 p.1 (hnames _ _ p hp)
  have htop : ∀ (fs : List (Rewriter σ)) (h : σ), TopSucceeds fs h id h' →
      runFuncs (.bool false) fs h id = ⟨h', none⟩ := by
    intro fs
    induction fs with
    | nil => intro h ht; simp only [TopSucceeds] at ht; subst ht; rfl
    | cons f fs ih =>
      intro h ht
      simp only [TopSucceeds] at ht
      simp only [runFuncs, ht.1]
      exact ih _ ht.2
  simp only [runRewriters, htop funcs h ht] at hdepth ⊢
  rcases each _ (contained h' id) (fun h p hp => inner fuel h p.2 p.1 (hnames _ _ p hp)) h' with h1 | h1
  · exact h1
  · exact absurd h1 hdepth

/-- A concrete run: the rewriter raises on the body graph 1 of graph 0, and nobody hears of it. -/
theorem nested_exception_violated :
    let contained := fun (_ : Unit) (id : Nat) => if id = 0 then [("then_branch", 1)] else []
    let f : Rewriter Unit := fun _ id => ⟨(), if id = 1 then some "boom" else none⟩
    (f () 1).raised = some "boom" ∧ (runRewriters contained [f] 5 () 0 (.bool false)).raised = none := by decide

/-! ## C40 -/

/-- **C40 is violated**: whenever the environment variable is set, to whatever value, errors are not caught (the name of
the variable is compared with "TRUE", not its value). -/
theorem catch_errors_switch_violated (env : String → Option String) (largeModel : Bool) (v : String)
    (h : env "TF2ONNX_CATCH_ERRORS" = some v) : catchErrors env largeModel = false := by
  simp only [catchErrors, h, Option.isSome_some, if_true]
  decide

/-- What does hold: setting the variable to anything but TRUE makes conversion raise, and without the variable errors are
caught exactly for models that are not large. -/
theorem catch_errors_partial (env : String → Option String) (largeModel : Bool) :
    (∀ v, env "TF2ONNX_CATCH_ERRORS" = some v → upper v ≠ "TRUE".toList → catchErrors env largeModel = false) ∧
    (env "TF2ONNX_CATCH_ERRORS" = none → catchErrors env largeModel = !largeModel) :=
  ⟨fun v h _ => catch_errors_switch_violated env largeModel v h, fun h => by simp [catchErrors, h]⟩

end Verif.Driver
