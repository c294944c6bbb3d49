import Verif.Props.CFBind
/-!
# A copied function computes what the function computes (used by C50, C51)
-/
namespace Verif.Graph
open Verif
variable {V : Type}

open Classical in
/-- The valuation of a function read off a valuation of its copy. -/
noncomputable def pull (f : G) (ρ : String → String) (env e : String → V) (x : String) : V := if f.Produces x then e (ρ x) else env x

open Classical in
/-- The valuation of the copy, on top of `base`. -/
noncomputable def push (f : G) (ρ : String → String) (ef base : String → V) (y : String) : V :=
  if h : ∃ x, f.Produces x ∧ ρ x = y then ef h.choose else base y

theorem pull_of {f : G} {ρ : String → String} {env e : String → V} {x : String} (h : f.Produces x) : pull f ρ env e x = e (ρ x) := by
  simp [pull, h]

theorem push_of {f : G} {scope : String} (hn : CopyNames f scope) {ef base : String → V} {x : String} (h : f.Produces x) :
    push f (f.rho scope) ef base (f.rho scope x) = ef x := by
  have hex : ∃ x', f.Produces x' ∧ f.rho scope x' = f.rho scope x := ⟨x, h, rfl⟩
  simp only [push, hex, dif_pos]
  congr 1
  obtain ⟨h1, h2⟩ := hex.choose_spec
  obtain ⟨n, hn1, hx⟩ := h1
  obtain ⟨m, hm1, hy⟩ := h
  exact hn.inj n hn1 m hm1 _ hx _ hy h2

theorem push_not {f : G} {ρ : String → String} {ef base : String → V} {y : String} (h : ∀ x, f.Produces x → ρ x ≠ y) :
    push f ρ ef base y = base y := by
  have : ¬ ∃ x, f.Produces x ∧ ρ x = y := by rintro ⟨x, h1, h2⟩; exact h x h1 h2
  simp [push, this]

theorem Func.input_of {f : G} (hf : Func f) {n : Node} (hn : n ∈ f.nodeList) (hin : n.isGraphInput = true) :
    ∃ x, n.output = [x] ∧ x ∈ f.params := by
  obtain ⟨r, hr, rfl⟩ := mem_nodeList.1 hn
  have hri := hf.all r hr hin
  obtain ⟨_, _, _, x, hx⟩ := hf.inputs r hri
  exact ⟨x, hx, List.mem_flatMap.2 ⟨r, hri, by rw [hx]; simp⟩⟩

theorem Func.param_produced {f : G} (hf : Func f) {x : String} (h : x ∈ f.params) : f.Produces x := by
  obtain ⟨r, hr, hx⟩ := List.mem_flatMap.1 h
  exact ⟨f.node r, node_mem (hf.inputs r hr).1, hx⟩

theorem rho_not {f : G} {scope : String} {x : String} (h : ¬ f.Produces x) : f.rho scope x = x := by
  refine renBy_fixed (fun p hp e => h ?_)
  obtain ⟨m, hm, hp⟩ := List.mem_flatMap.1 hp
  exact ⟨m, hm, e ▸ (mem_copyPairs hp).1⟩

theorem Func.empty_not {f : G} (hf : Func f) : ¬ f.Produces "" := by
  rintro ⟨n, hn, h⟩; exact hf.named n hn h

/-- What a node of the copy reads. -/
theorem argVals_copy {f : G} (hf : Func f) {scope : String} (hn : CopyNames f scope) {e ef : String → V}
    (h : ∀ x, f.Produces x → e (f.rho scope x) = ef x) {n : Node} (hmem : n ∈ f.nodeList) :
    argVals e (n.copy scope (f.rho scope)) = argVals ef n := by
  unfold argVals Node.copy
  rw [List.map_map]
  refine List.map_congr_left (fun i hi => ?_)
  show argVal e (f.rho scope i) = argVal ef i
  by_cases hne : i = ""
  · subst hne
    rw [rho_not hf.empty_not]
    simp [argVal]
  · have hprod := hf.closed n hmem i hi hne
    obtain ⟨m, hm, him⟩ := hprod
    simp only [argVal, hne, if_false, hn.ne m hm i him, h i ⟨m, hm, him⟩]

theorem copy_output {f : G} {scope : String} (hn : CopyNames f scope) {n : Node} (hmem : n ∈ f.nodeList) (ren : String → String) :
    (n.copy scope ren).output = n.output.map (f.rho scope) := (hn.outs n hmem).symm

/-- The equations of a node and of its copy. -/
theorem nodeSat_wired {f : G} (hf : Func f) (hp : Plain f) {scope : String} (hn : CopyNames f scope) {I : Interp V} (hI : IdentityLaw V I)
    {β : String → String} {env env' e ef : String → V} (h : ∀ x, f.Produces x → e (f.rho scope x) = ef x)
    (hβ : ∀ x ∈ f.params, β x ≠ "") (harg : ∀ x ∈ f.params, env x = e (β x)) {n : Node} (hmem : n ∈ f.nodeList) :
    NodeSat I env' e (n.wired scope β (f.rho scope)) ↔ NodeSat I env ef n := by
  have hne : ∀ o ∈ n.output, o ≠ "" := fun o ho e => hf.named n hmem (e ▸ ho)
  have hval : ∀ o ∈ n.output, e (f.rho scope o) = ef o := fun o ho => h o ⟨n, hmem, ho⟩
  have hout : ∀ j o, n.output[j]? = some o → o ∈ n.output := fun j o hj => List.mem_of_getElem? hj
  by_cases hin : n.isGraphInput = true
  · obtain ⟨x, hx, hxp⟩ := hf.input_of hmem hin
    have hxm : x ∈ n.output := by rw [hx]; simp
    have e1 : n.wired scope β (f.rho scope) = (n.bound (β x)).copy scope id := by simp [Node.wired, hin, hx]
    have e2 : ((n.bound (β x)).copy scope id).output = [f.rho scope x] := by
      show (n.copy scope id).output = _
      rw [copy_output hn hmem, hx]; rfl
    have e3 : ((n.bound (β x)).copy scope id).isGraphInput = false := rfl
    have e4 : argVals e ((n.bound (β x)).copy scope id) = [some (e (β x))] := by
      simp [argVals, Node.copy, Node.bound, argVal, hβ x hxp]
    have e5 : ((n.bound (β x)).copy scope id).op = "Identity" := rfl
    rw [e1]
    unfold NodeSat
    rw [e2, hx, e3, e4, e5]
    constructor
    · intro hs j o hj _
      obtain ⟨rfl, rfl⟩ : j = 0 ∧ o = x := by
        cases j with
        | zero => simp at hj; exact ⟨rfl, hj.symm⟩
        | succ j => simp at hj
      have := hs 0 (f.rho scope o) rfl (hn.ne n hmem o hxm)
      simp only [hin, if_true]
      rw [← hval o hxm, this, harg o hxp]
      exact hI _ _ _
    · intro hs j o hj _
      obtain ⟨rfl, rfl⟩ : j = 0 ∧ o = f.rho scope x := by
        cases j with
        | zero => simp at hj; exact ⟨rfl, hj.symm⟩
        | succ j => simp at hj
      have := hs 0 x rfl (hne x hxm)
      simp only [hin, if_true] at this
      rw [hval x hxm, this, harg x hxp]
      exact (hI _ _ _).symm
  · have hin' : n.isGraphInput = false := by simpa using hin
    have e1 : n.wired scope β (f.rho scope) = n.copy scope (f.rho scope) := by simp [Node.wired, hin]
    have e3 : (n.copy scope (f.rho scope)).isGraphInput = false := hin'
    have hd : (n.copy scope (f.rho scope)).domain = n.domain := by rw [hp n hmem hin']; rfl
    rw [e1]
    unfold NodeSat
    rw [copy_output hn hmem, argVals_copy hf hn h hmem, e3, hin', hd]
    constructor
    · intro hs j o hj ho
      rw [← hval o (hout j o hj)]
      exact hs j (f.rho scope o) (by rw [List.getElem?_map, hj]; rfl) (hn.ne n hmem o (hout j o hj))
    · intro hs j o hj ho
      rw [List.getElem?_map] at hj
      obtain ⟨o', ho', rfl⟩ := Option.map_eq_some_iff.1 hj
      rw [hval o' (hout j o' ho')]
      exact hs j o' ho' (hne o' (hout j o' ho'))

/-- A tensor the copy produces is a renamed tensor of the function. -/
theorem Wired.produces {f f' : G} {scope : String} {β : String → String} (w : Wired f scope β f') {y : String} :
    f'.Produces y ↔ ∃ x, f.Produces x ∧ f.rho scope x = y := by
  have hout : ∀ n ∈ f.nodeList, (n.wired scope β (f.rho scope)).output = n.output.map (f.rho scope) := by
    intro n hn
    unfold Node.wired
    split
    · show (n.copy scope id).output = _
      exact copy_output w.names hn _
    · exact copy_output w.names hn _
  constructor
  · rintro ⟨n', hn', hy⟩
    rw [w.nodes] at hn'
    obtain ⟨n, hn, rfl⟩ := List.mem_map.1 hn'
    rw [hout n hn] at hy
    obtain ⟨x, hx, rfl⟩ := List.mem_map.1 hy
    exact ⟨x, ⟨n, hn, hx⟩, rfl⟩
  · rintro ⟨x, ⟨n, hn, hx⟩, rfl⟩
    refine ⟨n.wired scope β (f.rho scope), ?_, ?_⟩
    · rw [w.nodes]; exact List.mem_map.2 ⟨n, hn, rfl⟩
    · rw [hout n hn]; exact List.mem_map.2 ⟨x, hx, rfl⟩

theorem Func.unproduced {f : G} (hf : Func f) {x : String} : Unproduced f.nodeList x ↔ ¬ f.Produces x := by
  constructor
  · rintro (rfl | h)
    · exact hf.empty_not
    · rintro ⟨n, hn, hx⟩; exact h n hn hx
  · intro h; right; intro n hn hx; exact h ⟨n, hn, hx⟩

theorem env_params {f : G} {outer : String → V} {β : String → String} {env : String → V} (h : f.params.map env = f.params.map (fun x => outer (β x))) :
    ∀ x ∈ f.params, env x = outer (β x) := fun x hx => List.map_inj_left.1 h x hx

/-- The equations of the copies, wherever they are: a call of the function. -/
theorem Wired.call {f f' : G} (hf : Func f) (hp : Plain f) {scope : String} {β : String → String} (w : Wired f scope β f')
    {I : Interp V} (hI : IdentityLaw V I) (hβ : ∀ x ∈ f.params, β x ≠ "") {env' e : String → V}
    (hs : ∀ n ∈ f'.nodeList, NodeSat I env' e n) (outer : String → V) :
    Returns I outer f (f.params.map (fun x => e (β x))) (f'.outputs.map e) := by
  classical
  let env : String → V := fun x => if x ∈ f.params then e (β x) else outer x
  have henv : ∀ x ∈ f.params, env x = e (β x) := fun x hx => by simp [env, hx]
  refine ⟨env, List.map_congr_left henv, fun x hx => by simp [env, hx], pull f (f.rho scope) env e, ⟨?_, ?_⟩, ?_⟩
  · intro n hn
    refine (nodeSat_wired hf hp w.names hI (env' := env') (e := e) (β := β) (fun x hx => (pull_of hx).symm) hβ henv hn).1 ?_
    exact hs _ (by rw [w.nodes]; exact List.mem_map.2 ⟨n, hn, rfl⟩)
  · intro x hx
    have := hf.unproduced.1 hx
    simp [pull, this]
  · rw [w.outputs, List.map_map]
    refine List.map_congr_left (fun o ho => ?_)
    exact (pull_of (hf.results o ho)).symm

/-- Every call of the function gives values to the tensors of the copy. -/
theorem Wired.extend {f f' : G} (hf : Func f) (hp : Plain f) {scope : String} {β : String → String} (w : Wired f scope β f')
    {I : Interp V} (hI : IdentityLaw V I) (hβ : ∀ x ∈ f.params, β x ≠ "") (hout : ∀ x ∈ f.params, ¬ f'.Produces (β x))
    {outer base : String → V} {outs : List V} (h : Returns I outer f (f.params.map (fun x => base (β x))) outs) (env' : String → V) :
    ∃ e, (∀ y, ¬ f'.Produces y → e y = base y) ∧ (∀ n ∈ f'.nodeList, NodeSat I env' e n) ∧ outs = f'.outputs.map e := by
  obtain ⟨env, h1, h2, ef, hs, ho⟩ := h
  have henv := env_params h1
  have hbase : ∀ y, ¬ f'.Produces y → push f (f.rho scope) ef base y = base y := by
    intro y hy
    refine push_not (fun x hx e => hy (w.produces.2 ⟨x, hx, e⟩))
  refine ⟨push f (f.rho scope) ef base, hbase, ?_, ?_⟩
  · intro n' hn'
    rw [w.nodes] at hn'
    obtain ⟨n, hn, rfl⟩ := List.mem_map.1 hn'
    refine (nodeSat_wired hf hp w.names hI (env := env) (fun x hx => push_of w.names hx) hβ ?_ hn).2 (hs.1 n hn)
    intro x hx
    rw [henv x hx, hbase _ (hout x hx)]
  · rw [ho, w.outputs, List.map_map]
    refine List.map_congr_left (fun o ho => ?_)
    exact (push_of w.names (hf.results o ho)).symm

/-- The copy as a graph without inputs returns what the function returns on the tensors it is bound to. -/
theorem Wired.returns {f f' : G} (hf : Func f) (hp : Plain f) {scope : String} {β : String → String} (w : Wired f scope β f')
    {I : Interp V} (hI : IdentityLaw V I) (hβ : ∀ x ∈ f.params, β x ≠ "") (hout : ∀ x ∈ f.params, ¬ f'.Produces (β x))
    (outer : String → V) (outs : List V) :
    Returns I outer f' [] outs ↔ Returns I outer f (f.params.map (fun x => outer (β x))) outs := by
  have hpar : f'.params = [] := by simp [G.params, w.inputs]
  have hempty : ¬ f'.Produces "" := by
    rw [w.produces]
    rintro ⟨x, ⟨n, hn, hx⟩, e⟩
    exact w.names.ne n hn x hx e
  have hun : ∀ x, Unproduced f'.nodeList x ↔ ¬ f'.Produces x := by
    intro x
    constructor
    · rintro (rfl | h)
      · exact hempty
      · rintro ⟨n, hn, hx⟩; exact h n hn hx
    · intro h; right; intro n hn hx; exact h ⟨n, hn, hx⟩
  constructor
  · rintro ⟨env, h1, h2, e, hs, rfl⟩
    have henv : env = outer := by funext x; exact h2 x (by simp [hpar])
    subst henv
    have := w.call hf hp hI hβ hs.1 env
    rwa [show f.params.map (fun x => e (β x)) = f.params.map (fun x => env (β x)) from
      List.map_congr_left (fun x hx => hs.2 _ ((hun _).2 (hout x hx)))] at this
  · intro h
    obtain ⟨e, h1, h2, h3⟩ := w.extend hf hp hI hβ hout h outer
    refine ⟨outer, by simp [hpar], fun _ _ => rfl, e, ⟨h2, fun x hx => h1 x ((hun x).1 hx)⟩, h3⟩

end Verif.Graph
