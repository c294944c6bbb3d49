import Verif.Props.CFWhileParts
/-!
# C51: a graph with a converted `While` has the results of the graph before
-/
namespace Verif.Graph
open Verif
variable {V : Type}

/-- A function does not depend on the graph around it. -/
theorem Func.returns_outer {f : G} (hf : Func f) {I : Interp V} {o1 : String → V} (o2 : String → V) {args outs : List V}
    (h : Returns I o1 f args outs) : Returns I o2 f args outs := by
  classical
  obtain ⟨env, h1, h2, e, ⟨hs1, hs2⟩, ho⟩ := h
  let env2 : String → V := fun x => if x ∈ f.params then env x else o2 x
  let e2 : String → V := fun x => if f.Produces x then e x else o2 x
  have he2 : ∀ x, f.Produces x → e2 x = e x := fun x hx => by simp [e2, hx]
  refine ⟨env2, ?_, fun x hx => by simp [env2, hx], e2, ⟨?_, ?_⟩, ?_⟩
  · rw [← h1]; exact List.map_congr_left (fun x hx => by simp [env2, hx])
  · intro n hn
    refine (hs1 n hn).congr (fun x hx hne => he2 x (hf.closed n hn x hx hne)) (fun x hx => he2 x ⟨n, hn, hx⟩) ?_
    intro hin x hx
    obtain ⟨y, hy, hyp⟩ := hf.input_of hn hin
    rw [hy, List.mem_singleton] at hx
    subst hx
    simp [env2, hyp]
  · intro x hx
    have hx' := hf.unproduced.1 hx
    have : x ∉ f.params := fun h => hx' (hf.param_produced h)
    simp [e2, env2, hx', this]
  · rw [ho]
    exact List.map_congr_left (fun o ho => (he2 o (hf.results o ho)).symm)

theorem Func.returns_eq {f : G} (hf : Func f) (I : Interp V) (o1 o2 : String → V) : Returns I o1 f = Returns I o2 f := by
  funext a b
  exact propext ⟨hf.returns_outer o2, hf.returns_outer o1⟩

/-- The tensors a function is called with have the values `as`. -/
def feed : List String → List V → (String → V) → String → V
  | p :: ps, a :: as, outer => fun x => if x = p then a else feed ps as outer x
  | _, _, outer => outer

theorem feed_not {ps : List String} {as : List V} {outer : String → V} {x : String} (h : x ∉ ps) : feed ps as outer x = outer x := by
  induction ps generalizing as with
  | nil => rfl
  | cons p ps ih =>
    cases as with
    | nil => rfl
    | cons a as =>
      simp only [List.mem_cons, not_or] at h
      simp only [feed, h.1, if_false]
      exact ih h.2

theorem feed_map {ps : List String} {as : List V} {outer : String → V} (hn : ps.Nodup) (hl : as.length = ps.length) : ps.map (feed ps as outer) = as := by
  induction ps generalizing as with
  | nil => cases as with
    | nil => rfl
    | cons a as => simp at hl
  | cons p ps ih =>
    cases as with
    | nil => simp at hl
    | cons a as =>
      simp only [List.nodup_cons] at hn
      simp only [List.map_cons, feed, if_true, List.cons.injEq, true_and]
      rw [← ih (as := as) hn.2 (by simpa using hl)]
      refine List.map_congr_left (fun x hx => ?_)
      have : x ≠ p := fun e => hn.1 (e ▸ hx)
      rw [if_neg this, ih hn.2 (by simpa using hl)]

/-- A function called with as many values as it has parameters returns what running its nodes in order computes. -/
theorem Func.returns_iff {f : G} (hf : Func f) (hw : WF f) (I : Interp V) (outer : String → V) (args outs : List V) :
    Returns I outer f args outs ↔
      args.length = f.params.length ∧ outs = f.outputs.map (Graph.exec I (feed f.params args outer) f.nodeList) := by
  have hu := hw.uniqueOutputs
  constructor
  · rintro ⟨env, h1, h2, e, hs, ho⟩
    have hl : args.length = f.params.length := by rw [← h1]; simp
    have henv : env = feed f.params args outer := by
      funext x
      by_cases hx : x ∈ f.params
      · have : f.params.map env = f.params.map (feed f.params args outer) := by rw [h1, feed_map (hf.params_nodup hw) hl]
        exact List.map_inj_left.1 this x hx
      · rw [h2 x hx, feed_not hx]
    subst henv
    exact ⟨hl, by rw [ho, sat_unique ⟨_, .refl _, hf.exec⟩ hs (exec_sat hu hf.exec)]⟩
  · rintro ⟨hl, ho⟩
    exact ⟨feed f.params args outer, feed_map (hf.params_nodup hw) hl, fun x hx => feed_not hx, _, exec_sat hu hf.exec, ho⟩

/-- How integer scalars are read: constants of type int32 and int64 have the value they state, casting to int64 keeps the value. -/
structure IntLaws (I : Interp V) (int : V → Option Int) : Prop where
  const : ∀ op dom attr t v, (op = "Const" ∨ op = "ConstV2") → Dict.get attr "value" = some (.tensor t) → t.dims = [] → t.data = [v] →
    (t.dtype = 6 ∨ t.dtype = 7) → int (I op dom attr [] 0) = some v
  cast : ∀ dom attr v i, Dict.get attr "to" = some (.int 7) → int v = some i → int (I "Cast" dom attr [some v] 0) = some i

/-- A constant bound is an integer scalar. -/
def IntBound (g : G) (x1 : String) : Prop :=
  ∀ n ∈ g.nodeList, x1 ∈ n.output → n.isConst = true → ∃ t v, n.attr.get "value" = some (.tensor t) ∧ t.dims = [] ∧ t.data = [v] ∧ (t.dtype = 6 ∨ t.dtype = 7)

theorem isConst_op {n : Node} (h : n.isConst = true) : n.op = "Const" ∨ n.op = "ConstV2" := by
  simpa [Node.isConst] using h

theorem isConst_notInput {n : Node} (h : n.isConst = true) : n.isGraphInput = false := by
  rcases isConst_op h with e | e <;> simp [Node.isGraphInput, e]

/-- Reading renamed tensors with the same values. -/
theorem nodeSat_mapIn {I : Interp V} {env e e' : String → V} {n : Node} {σ : String → String} (h0 : σ "" = "")
    (hi : ∀ x ∈ n.input, x ≠ "" → σ x ≠ "" ∧ e' (σ x) = e x) (ho : ∀ x ∈ n.output, x ≠ "" → e' x = e x) :
    NodeSat I env e' (n.mapIn σ) ↔ NodeSat I env e n := by
  have : argVals e' (n.mapIn σ) = argVals e n := by
    unfold argVals
    simp only [Node.mapIn, List.map_map]
    refine List.map_congr_left (fun x hx => ?_)
    simp only [Function.comp, argVal]
    by_cases e : x = ""
    · subst e; simp [h0]
    · simp [e, hi x hx e]
  unfold NodeSat
  rw [this]
  refine forall_congr' (fun j => forall_congr' (fun o => ?_))
  constructor
  · intro h hj hne; rw [← ho o (List.mem_of_getElem? hj) hne]; exact h hj hne
  · intro h hj hne; rw [ho o (List.mem_of_getElem? (l := n.output) hj) hne]; exact h hj hne

theorem mapIn_fixed {n : Node} {σ : String → String} (h : ∀ x ∈ n.input, σ x = x) : n.mapIn σ = n := by
  unfold Node.mapIn
  rw [List.map_congr_left h, List.map_id']

/-- What a node of a copy reads: tensors of the copy, or tensors passed. -/
theorem Wired.reads {f f' : G} (hf : Func f) {scope : String} {β : String → String} (w : Wired f scope β f') {n : Node} (hn : n ∈ f'.nodeList)
    {x : String} (hx : x ∈ n.input) : x = "" ∨ f'.Produces x ∨ ∃ p ∈ f.params, x = β p := by
  rw [w.nodes] at hn
  obtain ⟨m, hm, rfl⟩ := List.mem_map.1 hn
  unfold Node.wired at hx
  split at hx
  · rename_i hin
    obtain ⟨y, hy, hyp⟩ := hf.input_of hm hin
    simp only [Node.copy, Node.bound, hy, List.map_id, List.mem_singleton, List.headD_cons] at hx
    exact Or.inr (Or.inr ⟨y, hyp, hx⟩)
  · simp only [Node.copy, List.mem_map] at hx
    obtain ⟨z, hz, rfl⟩ := hx
    by_cases e : z = ""
    · subst e
      exact Or.inl (rho_not hf.empty_not)
    · exact Or.inr (Or.inl (w.produces.2 ⟨z, hf.closed m hm z hz e, rfl⟩))

/-- The trip count of a loop: the integer of the tensor `trip`, none if there is no such input. -/
def tripOf (int : V → Option Int) (e : String → V) (trip : String) : Option Int := if trip = "" then none else int (e trip)

section
variable {g gA : G} {r : Ref} {x0 x1 y0 y1 fresh mName trip : String} {xs ys : List String} {D T : List Node}

/-- What is removed and what is added for the bound. -/
theorem BoundCase.facts (s : WhileSite g r x0 x1 xs y0 y1 ys) (hfr : fresh ≠ "") (b : BoundCase g r x1 fresh gA mName trip D T) :
    ((D = [] ∧ ∀ t ∈ T, ∀ x ∈ t.output, ¬ g.Produces x) ∨
      ∃ d, D = [d] ∧ d ∈ g.nodeList ∧ d.isConst = true ∧ x1 ∈ d.output ∧ (∀ n ∈ g.nodeList, n ≠ g.node r → x1 ∉ n.input) ∧
        (∃ t ∈ T, t.output = [x1]) ∧ ∀ t ∈ T, t.output = [x1]) ∧
    (∀ t ∈ T, t.isGraphInput = false ∧ ∃ x, t.output = [x] ∧ x ≠ "") := by
  have hne : x1 ≠ "" := fun e => s.passable.1 (by simp [e])
  cases b with
  | unlimited => exact ⟨Or.inl ⟨rfl, by simp⟩, by simp⟩
  | @own c t _ hc hx hk _ _ hr _ =>
    refine ⟨Or.inr ⟨g.node c, rfl, node_mem hc, hk, hx, ?_, by simp [tripConst], by simp [tripConst]⟩, ?_⟩
    · intro n hn hnr
      obtain ⟨q, hq, rfl⟩ := mem_nodeList.1 hn
      exact hr q hq (fun e => hnr (by rw [e])) (s.lists _ hn)
    · intro k hk'
      rw [List.mem_singleton.1 hk']
      exact ⟨rfl, x1, rfl, hne⟩
  | shared _ _ _ _ _ hfp =>
    refine ⟨Or.inl ⟨rfl, by simpa [tripConst] using hfp⟩, ?_⟩
    intro k hk'
    rw [List.mem_singleton.1 hk']
    exact ⟨rfl, fresh, rfl, hfr⟩
  | dynamic hfp =>
    refine ⟨Or.inl ⟨rfl, by simpa [tripCast] using hfp⟩, ?_⟩
    intro k hk'
    rw [List.mem_singleton.1 hk']
    refine ⟨rfl, (g.node r).name ++ "_cast:0", rfl, fun e => ?_⟩
    have := congrArg String.length e
    simp at this

/-- The new tensors can be given values. -/
theorem BoundCase.values (s : WhileSite g r x0 x1 xs y0 y1 ys) (hfr : fresh ≠ "") (b : BoundCase g r x1 fresh gA mName trip D T) (I : Interp V)
    (env e : String → V) : ∃ e1, (∀ x, (∀ t ∈ T, x ∉ t.output) → e1 x = e x) ∧ ∀ t ∈ T, NodeSat I env e1 t := by
  classical
  have hne : x1 ≠ "" := fun e => s.passable.1 (by simp [e])
  have hx1 : g.Produces x1 := s.closed _ (node_mem s.mem) x1 (by rw [s.input]; simp) hne
  have one : ∀ t : Node, ∀ x, t.output = [x] → x ≠ "" → t.isGraphInput = false → x ∉ t.input →
      ∃ e1, (∀ z, (∀ t' ∈ [t], z ∉ t'.output) → e1 z = e z) ∧ ∀ t' ∈ [t], NodeSat I env e1 t' := by
    intro t x ho hx hin hself
    refine ⟨fun z => if z = x then I t.op t.domain t.attr (argVals e t) 0 else e z, ?_, ?_⟩
    · intro z hz
      have : z ≠ x := fun e' => hz t (by simp) (by rw [ho, e']; simp)
      simp [this]
    · intro t' ht'
      rw [List.mem_singleton.1 ht', nodeSat_single ho hx, hin]
      simp only [if_true, Bool.false_eq_true, if_false]
      congr 1
      unfold argVals
      refine List.map_congr_left (fun z hz => ?_)
      unfold argVal
      have : z ≠ x := fun e' => hself (e' ▸ hz)
      simp [this]
  obtain ⟨_, hb⟩ := b.facts s hfr
  cases b with
  | unlimited => exact ⟨e, by simp, by simp⟩
  | own => exact one _ _ rfl hne rfl (by simp [tripConst])
  | shared => exact one _ _ rfl hfr rfl (by simp [tripConst])
  | dynamic hfp =>
    obtain ⟨_, x, hx, hxe⟩ := hb _ (List.mem_singleton.2 rfl)
    refine one _ _ hx hxe rfl ?_
    simp only [tripCast, List.cons.injEq, and_true, List.mem_singleton] at hx ⊢
    rintro rfl
    exact hfp (hx ▸ hx1)

/-- The trip count and the bound the functions read are the bound of the loop. -/
theorem BoundCase.int (hw : WF g) (s : WhileSite g r x0 x1 xs y0 y1 ys) (hfr : fresh ≠ "") (hib : IntBound g x1)
    (b : BoundCase g r x1 fresh gA mName trip D T) {I : Interp V} {int : V → Option Int} (hI : IntLaws I int) {env e e1 : String → V}
    (he : ∀ n ∈ g.nodeList, n.name ≠ (g.node r).name → NodeSat I env e n) (he1 : ∀ t ∈ T, NodeSat I env e1 t) (h1 : D = [] → e1 x1 = e x1)
    (ht : trip ≠ "") {M : Int} (hM : int (e x1) = some M) : int (e1 mName) = some M ∧ int (e1 trip) = some M := by
  have hne : x1 ≠ "" := fun e => s.passable.1 (by simp [e])
  have hval : ∀ (c : Ref) (t : Tensor) (v : Int), c ∈ g.nodes → x1 ∈ (g.node c).output → (g.node c).isConst = true →
      (g.node c).attr.get "value" = some (.tensor t) → t.dims = [] → t.data = [v] → (t.dtype = 6 ∨ t.dtype = 7) → v = M := by
    intro c t v hc hx hk hv h3 h4 h5
    obtain ⟨n1, n2, _⟩ := s.bound _ (node_mem hc) hx hk
    have hcr : (g.node c).name ≠ (g.node r).name := by
      intro e'
      have := hw.name_inj hc s.mem e'
      subst this
      exact s.acyclic x1 (by simp) hx
    have := he _ (node_mem hc) hcr
    rw [nodeSat_single n2 hne, isConst_notInput hk] at this
    simp only [Bool.false_eq_true, if_false, argVals, n1, List.map_nil] at this
    rw [this, hI.const _ _ _ t v (isConst_op hk) hv h3 h4 h5] at hM
    exact Option.some.inj hM
  have hnew : ∀ (x : String) (t : Tensor) (v : Int), x ≠ "" → t.dims = [] → t.data = [v] → NodeSat I env e1 (tripConst x t) → int (e1 x) = some v := by
    intro x t v hx h3 h4 hs
    rw [nodeSat_single (n := tripConst x t) rfl hx] at hs
    rw [hs]
    exact hI.const "Const" "" _ { t with dtype := 7 } v (Or.inl rfl) rfl h3 h4 (Or.inr rfl)
  cases b with
  | unlimited => exact (ht rfl).elim
  | @own c t _ hc hx hk hv _ _ _ =>
    obtain ⟨t', v, h2, h3, h4, h5⟩ := hib _ (node_mem hc) hx hk
    rw [hv] at h2
    cases h2
    have e2 := hval c t v hc hx hk hv h3 h4 h5
    have := hnew x1 t v hne h3 h4 (he1 _ (by simp))
    rw [e2] at this
    exact ⟨this, this⟩
  | @shared c t _ hc hx hk hv _ _ _ =>
    obtain ⟨t', v, h2, h3, h4, h5⟩ := hib _ (node_mem hc) hx hk
    rw [hv] at h2
    cases h2
    have e2 := hval c t v hc hx hk hv h3 h4 h5
    have := hnew fresh t v hfr h3 h4 (he1 _ (by simp))
    rw [e2] at this
    exact ⟨this, this⟩
  | dynamic =>
    have e2 := h1 rfl
    refine ⟨by rw [e2, hM], ?_⟩
    have := he1 (tripCast (g.node r).name x1) (by simp)
    rw [nodeSat_single (n := tripCast (g.node r).name x1) rfl ht] at this
    rw [this]
    have ha : argVals e1 (tripCast (g.node r).name x1) = [some (e x1)] := by simp [argVals, tripCast, argVal, hne, e2]
    rw [ha]
    exact hI.cast _ _ _ _ rfl hM
end

section
variable {g g' gA cond body body' cond' : G} {r rl : Ref} {x0 x1 y0 y1 cf fresh condName mName trip c : String} {xs ys : List String} {D T : List Node}
  {β : String → String}

/-- The renaming of the consumers. -/
def loopRen (ys : List String) (name : String) (k : Nat) : String → String := seqRen (ys.zip (ports (name ++ "_loop") k))

theorem loopRen_eq (s : WhileSite g r x0 x1 xs y0 y1 ys) (hl : ∀ p ∈ ports ((g.node r).name ++ "_loop") xs.length, ¬ g.Produces p) (x : String) :
    loopRen ys (g.node r).name xs.length x = renBy (ys.zip (ports ((g.node r).name ++ "_loop") xs.length)) x := by
  refine seqRen_eq (O := fun x => x ∈ ys) (fun p hp => (List.of_mem_zip hp).1) (fun p hp h => ?_) x
  exact hl p.2 (List.of_mem_zip hp).2 ⟨_, node_mem s.mem, by rw [s.output]; simp [h]⟩

theorem loopRen_fixed (s : WhileSite g r x0 x1 xs y0 y1 ys) (hl : ∀ p ∈ ports ((g.node r).name ++ "_loop") xs.length, ¬ g.Produces p) {x : String}
    (h : x ∉ ys) : loopRen ys (g.node r).name xs.length x = x := by
  rw [loopRen_eq s hl]
  exact renBy_fixed (fun p hp e => h (e ▸ (List.of_mem_zip hp).1))

theorem loopRen_map (hw : WF g) (s : WhileSite g r x0 x1 xs y0 y1 ys) (hl : ∀ p ∈ ports ((g.node r).name ++ "_loop") xs.length, ¬ g.Produces p) :
    ys.map (loopRen ys (g.node r).name xs.length) = ports ((g.node r).name ++ "_loop") xs.length := by
  rw [List.map_congr_left (fun x _ => loopRen_eq s hl x)]
  refine map_renBy_zip ?_ (by rw [length_ports, s.same])
  have := hw.outNodup r s.mem
  rw [List.filter_eq_self.2 (fun x hx => by simpa using (fun e => s.named (e ▸ hx) : x ≠ ""))] at this
  rw [s.output] at this
  simp only [List.nodup_cons] at this
  exact this.2.2

/-- The loop itself, given valuations of both graphs that agree on its inputs. -/
theorem loop_core (hw : WF g) (s : WhileSite g r x0 x1 xs y0 y1 ys) (hwb : WF body) (hfb : Func body) (hfc : Func cond)
    (hpc : Plain cond) {i0 i1 : String} {is : List String} (hpb : body.params = i0 :: i1 :: is) {o0 o1 : String} {os : List String}
    (hob : body.outputs = o0 :: o1 :: os) {oc : String} (hoc : cond.outputs = [oc]) (hfr : fresh ≠ "") (hib : IntBound g x1)
    (bc : BoundCase g r x1 fresh gA mName trip D T) (hln : LoopNames body cond mName condName) {cond2 : G} {β2 : String → String}
    (bp : BodyParts body cond i0 i1 is mName condName body' cond2 β2) (w : Wired cond cf β cond') (hargs : cond.params.map β = x0 :: mName :: xs)
    (hβ : ∀ x ∈ cond.params, β x ≠ "") (hcs : ∃ cs, cond'.outputs = c :: cs)
    {I : Interp V} (hI : IdentityLaw V I) {int : V → Option Int} (hII : IntLaws I int) {truth : V → Bool} {num : Nat → V} {env e e1 : String → V}
    (hcl : CountedLoop int truth (decide (trip ≠ "")) xs.length (fun s k => Returns I env cond s [k]) (Returns I env body))
    (hstart : trip ≠ "" → int (e x0) = some 0 ∧ ∃ M, int (e x1) = some M ∧ ∀ i : Nat, (i : Int) < M → int (num i) = some (i : Int))
    (he : ∀ n ∈ g.nodeList, n.name ≠ (g.node r).name → NodeSat I env e n) (he1 : ∀ t ∈ T, NodeSat I env e1 t)
    (hec : ∀ n ∈ cond'.nodeList, NodeSat I env e1 n) (hD : D = [] → e1 x1 = e x1) (hx0 : e1 x0 = e x0) (hxs : xs.map e1 = xs.map e) (t : List V) :
    OnnxLoop truth num (Returns I e1 body') (tripOf int e1 trip) 0 (e1 c) (xs.map e1) t ↔
      ∃ cv mv, TfWhile truth (fun s k => Returns I e cond s [k]) (Returns I e body) ((x0 :: x1 :: xs).map e) (cv :: mv :: t) := by
  rw [hfc.returns_eq I e env, hfb.returns_eq I e env]
  have hk0 : Returns I env cond (e1 x0 :: e1 mName :: xs.map e1) [e1 c] := by
    have := w.call hfc hpc hI hβ hec env
    have h3 : cond.params.map (fun x => e1 (β x)) = (cond.params.map β).map e1 := by rw [List.map_map]; rfl
    rw [h3, hargs] at this
    obtain ⟨cs, hcs⟩ := hcs
    have hlen := w.outputs
    rw [hcs, hoc] at hlen
    simp only [List.map_cons, List.map_nil, List.cons.injEq] at hlen
    rw [hcs, hlen.2] at this
    exact this
  have hbody : ∀ i k s k' s', Returns I e1 body' (num i :: k :: s) (k' :: s') ↔
      ∃ cv mv, Returns I env body (num i :: e1 mName :: s) (cv :: mv :: s') ∧ Returns I env cond (num i :: e1 mName :: s') [k'] := by
    intro i k s k' s'
    rw [body_returns hwb hfb hfc hpc hpb hln hob hoc bp hI e1, hfc.returns_eq I e1 env, hfb.returns_eq I e1 env]
  by_cases ht : trip = ""
  · have hlim : decide (trip ≠ "") = false := by simp [ht]
    rw [hlim] at hcl
    have := while_loop (M := 0) hcl (by simp) (by simp) hbody (c0 := e1 x0) (m0 := e x1) (by simp) (s := xs.map e1) (t := t) (by simp) hk0
    simp only [Bool.false_eq_true, if_false] at this
    rw [tripOf, if_pos ht, this, hx0, hxs]
    rfl
  · obtain ⟨a1, M, a2, a3⟩ := hstart ht
    obtain ⟨b1, b2⟩ := bc.int hw s hfr hib hII he he1 hD ht a2
    have hlim : decide (trip ≠ "") = true := by simp [ht]
    rw [hlim] at hcl
    have := while_loop (M := M) hcl (fun _ => a3) (fun _ => b1) hbody (c0 := e1 x0) (m0 := e x1) (fun _ => ⟨by rw [hx0]; exact a1, a2⟩)
      (s := xs.map e1) (t := t) (by simp) hk0
    simp only [if_true] at this
    rw [tripOf, if_neg ht, b2, this, hx0, hxs]
    rfl

/-- The facts about names both directions need. -/
structure WhileFacts (g : G) (r : Ref) (x0 x1 : String) (xs ys : List String) (mName : String) (D T : List Node) (cond' : G) : Prop where
  condIn : ∀ x, cond'.Produces x → ¬ g.Produces x ∧ x ∉ ports ((g.node r).name ++ "_loop") xs.length ∧ ∀ t ∈ T, x ∉ t.output
  reads : ∀ n ∈ cond'.nodeList, n.mapIn (loopRen ys (g.node r).name xs.length) = n
  trip : ∀ t ∈ T, t.mapIn (loopRen ys (g.node r).name xs.length) = t
  tripOut : ∀ t ∈ T, ∀ x ∈ t.output, x ∉ (g.node r).output ∧ x ∉ ports ((g.node r).name ++ "_loop") xs.length ∧ (g.Produces x → x = x1 ∧ D ≠ [])
  tripIn : ∀ t ∈ T, ∀ x ∈ t.input, x = x1 ∧ D = []
  empty : ¬ cond'.Produces ""

theorem whileFacts (s : WhileSite g r x0 x1 xs y0 y1 ys) (hfc : Func cond)
    (hn : WhileNames g r x0 x1 xs cond body cf fresh condName) (bc : BoundCase g r x1 fresh gA mName trip D T)
    (wp : WhileParts g r x0 xs ys cond cf g' rl mName trip c D T cond' β) : WhileFacts g r x0 x1 xs ys mName D T cond' := by
  have hne : x1 ≠ "" := fun e => s.passable.1 (by simp [e])
  have hprod : ∀ x ∈ x0 :: x1 :: xs, g.Produces x := fun x hx =>
    s.closed _ (node_mem s.mem) x (by rw [s.input]; exact hx) (fun e => s.passable.1 (e ▸ hx))
  have hys : ∀ x ∈ ys, x ∈ (g.node r).output := fun x hx => by rw [s.output]; simp [hx]
  have hysP : ∀ x, ¬ g.Produces x → x ∉ ys := fun x hx hy => hx ⟨_, node_mem s.mem, hys x hy⟩
  obtain ⟨f1, f2⟩ := bc.facts s hn.own.1
  have hcg : ∀ x, cond'.Produces x → ¬ g.Produces x := by
    rintro x hx ⟨n, hn', hxn⟩
    exact wp.wired.apart hn.apart hn' (Or.inl hxn) hx
  have hemp : ¬ cond'.Produces "" := by
    intro h
    obtain ⟨y, ⟨n, hn', hy⟩, e⟩ := wp.wired.produces.1 h
    exact wp.wired.names.ne n hn' y hy e
  have hto : ∀ t ∈ T, ∀ x ∈ t.output, x ∉ (g.node r).output ∧ x ∉ ports ((g.node r).name ++ "_loop") xs.length ∧ (g.Produces x → x = x1 ∧ D ≠ []) := by
    intro t ht x hx
    refine ⟨?_, fun hp => wp.fresh t (Or.inr (Or.inl ht)) x hp hx, ?_⟩
    · rcases f1 with ⟨_, h2⟩ | ⟨d, _, _, _, _, _, _, h2⟩
      · exact fun h => h2 t ht x hx ⟨_, node_mem s.mem, h⟩
      · rw [h2 t ht, List.mem_singleton] at hx
        rw [hx]; exact s.acyclic x1 (by simp)
    · intro hp
      rcases f1 with ⟨_, h2⟩ | ⟨d, hd, _, _, _, _, _, h2⟩
      · exact (h2 t ht x hx hp).elim
      · rw [h2 t ht, List.mem_singleton] at hx
        exact ⟨hx, by simp [hd]⟩
  have htx : ∀ t ∈ T, ∀ x ∈ t.input, x = x1 ∧ D = [] := by
    intro t ht x hx
    cases bc with
    | unlimited => simp at ht
    | own => rw [List.mem_singleton.1 ht] at hx; simp [tripConst] at hx
    | shared => rw [List.mem_singleton.1 ht] at hx; simp [tripConst] at hx
    | dynamic => rw [List.mem_singleton.1 ht] at hx; simp [tripCast] at hx; exact ⟨hx, rfl⟩
  refine ⟨?_, ?_, ?_, hto, htx, hemp⟩
  · intro x hx
    refine ⟨hcg x hx, ?_, ?_⟩
    · intro hp
      obtain ⟨m, hm, hxm⟩ := hx
      exact wp.fresh m (Or.inr (Or.inr hm)) x hp hxm
    · intro t ht hxt
      have := (bc.new).2 t ht
      obtain ⟨_, t2, _⟩ := this
      obtain ⟨m, hm, hxm⟩ := hx
      rw [wp.wired.nodes] at hm
      obtain ⟨m0, hm0, rfl⟩ := List.mem_map.1 hm
      rw [Node.wired_output] at hxm
      rcases t2 x hxt with e | e
      · rw [e.1] at hxm
        exact hn.apart.inputs _ (node_mem s.mem) m0 hm0 x1 (by rw [s.input]; simp) hxm
      · simp only [List.mem_cons, List.not_mem_nil, or_false] at e
        rcases e with e | e
        · exact (hn.new x (by simp [e]) m0 hm0).2 hxm
        · exact (hn.new x (by simp [e]) m0 hm0).2 hxm
  · intro n hn'
    refine mapIn_fixed (fun x hx => loopRen_fixed s hn.loop ?_)
    rcases wp.wired.reads hfc hn' hx with e | e | ⟨p, hp, e⟩
    · rw [e]; exact fun h => s.named (hys _ h)
    · exact hysP x (hcg x e)
    · have : x ∈ x0 :: mName :: xs := by rw [← wp.args, e]; exact List.mem_map.2 ⟨p, hp, rfl⟩
      simp only [List.mem_cons] at this
      rcases this with e | e | e
      · exact fun h => s.acyclic x (by simp [e]) (hys _ h)
      · rcases bc.new.1 with e' | e'
        · exact fun h => s.acyclic x (by simp [e, e']) (hys _ h)
        · exact hysP x (by rw [e, e']; exact hn.own.2.2)
      · exact fun h => s.acyclic x (by simp [e]) (hys _ h)
  · intro t ht
    refine mapIn_fixed (fun x hx => loopRen_fixed s hn.loop ?_)
    rw [(htx t ht x hx).1]
    exact fun h => s.acyclic x1 (by simp) (hys _ h)

/-- The valuation of the graph with the loop, from one of the graph before. -/
theorem while_to_loop (hw : WF g) (s : WhileSite g r x0 x1 xs y0 y1 ys) (hfc : Func cond) (hpc : Plain cond)
    (hn : WhileNames g r x0 x1 xs cond body cf fresh condName) (bc : BoundCase g r x1 fresh gA mName trip D T)
    (wp : WhileParts g r x0 xs ys cond cf g' rl mName trip c D T cond' β)
    {I : Interp V} (hI : IdentityLaw V I) {env e : String → V}
    (htot : ∀ a b : V, ∃ k, Returns I env cond (a :: b :: xs.map e) [k])
    (he : ∀ n ∈ g.nodeList, n.name ≠ (g.node r).name → NodeSat I env e n) (hu : ∀ x, Unproduced g.nodeList x → e x = env x) :
    ∃ e1, (∀ n ∈ g'.nodeList, n.name ≠ (g.node r).name ++ "_loop" → NodeSat I env e1 n) ∧ (∀ x, Unproduced g'.nodeList x → e1 x = env x) ∧
      (∀ t ∈ T, NodeSat I env e1 t) ∧ (∀ n ∈ cond'.nodeList, NodeSat I env e1 n) ∧ (D = [] → e1 x1 = e x1) ∧ e1 x0 = e x0 ∧
      xs.map e1 = xs.map e ∧ g.outputs.map e1 = g.outputs.map e ∧ (ports ((g.node r).name ++ "_loop") xs.length).map e1 = ys.map e := by
  classical
  have wf := whileFacts s hfc hn bc wp
  obtain ⟨f1, f2⟩ := bc.facts s hn.own.1
  have hne : x1 ≠ "" := fun e => s.passable.1 (by simp [e])
  have hprod : ∀ x ∈ x0 :: x1 :: xs, g.Produces x := fun x hx =>
    s.closed _ (node_mem s.mem) x (by rw [s.input]; exact hx) (fun e => s.passable.1 (e ▸ hx))
  obtain ⟨eT, t1, t2⟩ := bc.values s hn.own.1 I env e
  have hPg : ∀ p ∈ ports ((g.node r).name ++ "_loop") xs.length, ¬ g.Produces p := hn.loop
  have hwp : ∀ x, x ∈ (g.node r).output → g.Produces x := fun x hx => ⟨_, node_mem s.mem, hx⟩
  generalize hP : ports ((g.node r).name ++ "_loop") xs.length = P at *
  have hPnd : P.Nodup := by rw [← hP]; exact nodup_ports _ _
  have hPlen : P.length = ys.length := by rw [← hP, length_ports, s.same]
  have hPne : "" ∉ P := fun h => port_ne (by rw [hP]; exact h) rfl
  let base : String → V := fun z => if z ∈ P then e (renBy (P.zip ys) z) else if z ∈ (g.node r).output then env z else eT z
  have hβmem : ∀ x ∈ cond.params, β x ∈ x0 :: mName :: xs := fun x hx => by rw [← wp.args]; exact List.mem_map.2 ⟨x, hx, rfl⟩
  have hmne : mName ≠ "" := by
    rcases bc.new.1 with e' | e'
    · rw [e']; exact hne
    · rw [e']; exact hn.own.1
  have hβne : ∀ x ∈ cond.params, β x ≠ "" := by
    intro x hx h
    have := hβmem x hx
    rw [h] at this
    simp only [List.mem_cons] at this
    rcases this with e' | e' | e'
    · exact s.passable.1 (by simp [← e'])
    · exact hmne e'.symm
    · exact s.passable.1 (by simp [e'])
  have hmc : ¬ cond'.Produces mName := by
    intro h
    rcases bc.new.1 with e' | e'
    · exact (wf.condIn _ h).1 (e' ▸ hprod x1 (by simp))
    · obtain ⟨m, hm, hxm⟩ := h
      rw [wp.wired.nodes] at hm
      obtain ⟨m0, hm0, rfl⟩ := List.mem_map.1 hm
      rw [Node.wired_output, e'] at hxm
      exact (hn.new fresh (by simp) m0 hm0).2 hxm
  have hβout : ∀ x ∈ cond.params, ¬ cond'.Produces (β x) := by
    intro x hx h
    have := hβmem x hx
    simp only [List.mem_cons] at this
    rcases this with e' | e' | e'
    · exact (wf.condIn _ h).1 (hprod _ (by simp [e']))
    · exact hmc (e' ▸ h)
    · exact (wf.condIn _ h).1 (hprod _ (by simp [e']))
  -- values of the base
  have hbase : ∀ x, g.Produces x → x ∉ (g.node r).output → (D ≠ [] → x ≠ x1) → base x = e x := by
    intro x hx hxo hx1
    have h1 : x ∉ P := fun h => hPg x h hx
    simp only [base, h1, hxo, if_false]
    refine t1 x (fun t ht hxt => ?_)
    obtain ⟨a, b⟩ := (wf.tripOut t ht x hxt).2.2 hx
    exact hx1 b a
  have hx1D : ∀ x ∈ x0 :: xs, D ≠ [] → x ≠ x1 := by
    intro x hx hD e'
    rcases f1 with ⟨h1, _⟩ | ⟨d, hd, hdm, hdc, hdx, _⟩
    · exact hD h1
    · exact (s.bound d hdm hdx hdc).2.2.2 (e' ▸ hx)
  have hbx0 : base x0 = e x0 := hbase x0 (hprod x0 (by simp)) (s.acyclic x0 (by simp)) (hx1D x0 (by simp))
  have hbxs : ∀ x ∈ xs, base x = e x := fun x hx => hbase x (hprod x (by simp [hx])) (s.acyclic x (by simp [hx])) (hx1D x (by simp [hx]))
  obtain ⟨k, hk⟩ := htot (base x0) (base mName)
  have hk' : Returns I env cond (cond.params.map (fun x => base (β x))) [k] := by
    have h3 : cond.params.map (fun x => base (β x)) = (cond.params.map β).map base := by rw [List.map_map]; rfl
    rw [h3, wp.args]
    simp only [List.map_cons]
    rwa [List.map_congr_left hbxs]
  obtain ⟨e1, a1, a2, _⟩ := wp.wired.extend hfc hpc hI hβne hβout hk' env
  have hg1 : ∀ x, g.Produces x → x ∉ (g.node r).output → (D ≠ [] → x ≠ x1) → e1 x = e x := fun x hx hxo hx1 => by
    rw [a1 x (fun h => (wf.condIn x h).1 hx), hbase x hx hxo hx1]
  have hP1 : P.map e1 = ys.map e := by
    have : P.map e1 = (P.map (renBy (P.zip ys))).map e := by
      rw [List.map_map]
      refine List.map_congr_left (fun p hp => ?_)
      rw [a1 p (fun h => (wf.condIn p h).2.1 (by rw [hP]; exact hp))]
      simp [base, hp]
    rw [this, map_renBy_zip hPnd hPlen.symm]
  have hys : ys.map (loopRen ys (g.node r).name xs.length) = P := by rw [loopRen_map hw s hn.loop, hP]
  have hyv : ∀ y ∈ ys, e1 (loopRen ys (g.node r).name xs.length y) = e y := by
    have : ys.map (fun y => e1 (loopRen ys (g.node r).name xs.length y)) = ys.map e := by
      rw [← hP1, ← hys, List.map_map]; rfl
    exact List.map_inj_left.1 this
  have hyP : ∀ y ∈ ys, loopRen ys (g.node r).name xs.length y ∈ P := fun y hy => by rw [← hys]; exact List.mem_map.2 ⟨y, hy, rfl⟩
  have hTo : ∀ t ∈ T, ∀ x ∈ t.output, e1 x = eT x := by
    intro t ht x hx
    obtain ⟨b1, b2, _⟩ := wf.tripOut t ht x hx
    rw [hP] at b2
    rw [a1 x (fun h => (wf.condIn x h).2.2 t ht hx)]
    simp [base, b1, b2]
  have hTi : ∀ t ∈ T, ∀ x ∈ t.input, e1 x = eT x := by
    intro t ht x hx
    obtain ⟨b1, b2⟩ := wf.tripIn t ht x hx
    subst b1
    rw [hg1 x (hprod x (by simp)) (s.acyclic x (by simp)) (fun h => (h b2).elim), t1 x]
    intro t' ht' hx'
    exact ((wf.tripOut t' ht' x hx').2.2 (hprod x (by simp))).2 b2
  have hTs : ∀ t ∈ T, NodeSat I env e1 t := fun t ht => (t2 t ht).congr (fun x hx _ => hTi t ht x hx) (hTo t ht) (fun _ _ _ => rfl)
  have hσ0 : loopRen ys (g.node r).name xs.length "" = "" :=
    loopRen_fixed s hn.loop (fun h => s.named (by rw [s.output]; simp [h]))
  refine ⟨e1, ?_, ?_, hTs, a2, ?_, ?_, ?_, ?_, hP1⟩
  · intro n hn' hname
    obtain ⟨m0, hm0, rfl⟩ := (wp.list n).1 hn'
    rcases hm0 with ⟨h1, h2, h3⟩ | h1 | h1 | h1
    · have hname0 : m0.name ≠ (g.node r).name := fun e' => h2 ((hw.node_eq s.mem h1).1 e')
      refine (nodeSat_mapIn (e := e) hσ0 ?_ ?_).2 (he m0 h1 hname0)
      · intro x hx hxe
        by_cases hy : x ∈ ys
        · exact ⟨fun e' => hPne (e' ▸ hyP x hy), hyv x hy⟩
        · show loopRen ys (g.node r).name xs.length x ≠ "" ∧ e1 (loopRen ys (g.node r).name xs.length x) = e x
          rw [loopRen_fixed s hn.loop hy]
          refine ⟨hxe, hg1 x (s.closed m0 h1 x hx hxe) ?_ ?_⟩
          · rw [s.output]
            simp only [List.mem_cons, not_or]
            exact ⟨fun e' => (s.unread m0 h1).1 (e' ▸ hx), fun e' => (s.unread m0 h1).2 (e' ▸ hx), hy⟩
          · rintro hD rfl
            rcases f1 with ⟨h1', _⟩ | ⟨d, _, _, _, _, hrd, _⟩
            · exact hD h1'
            · exact hrd m0 h1 h2 hx
      · intro x hx hxe
        refine hg1 x ⟨m0, h1, hx⟩ ?_ ?_
        · intro hxo
          obtain ⟨q, hq, rfl⟩ := mem_nodeList.1 h1
          exact h2 (by rw [hw.out_inj hxe hq s.mem hx hxo])
        · rintro hD rfl
          rcases f1 with ⟨h1', _⟩ | ⟨d, hd, hdm, _, hdx, _⟩
          · exact hD h1'
          · obtain ⟨q, hq, rfl⟩ := mem_nodeList.1 h1
            obtain ⟨q', hq', rfl⟩ := mem_nodeList.1 hdm
            exact h3 (by rw [hd, hw.out_inj hxe hq hq' hx hdx]; simp)
    · have := wf.trip m0 h1
      unfold loopRen at this
      rw [this]
      exact hTs m0 h1
    · have := wf.reads m0 h1
      unfold loopRen at this
      rw [this]
      exact a2 m0 h1
    · exact (hname (by rw [h1]; rfl)).elim
  · intro x hx
    have hnp : ∀ m0, WhileNew g r D T cond' (loopNode (g.node r).name trip c xs) m0 → x ≠ "" → x ∉ m0.output := by
      intro m0 hm0 hxe
      rcases hx with h | h
      · exact (hxe h).elim
      · exact h (m0.mapIn _) ((wp.list _).2 ⟨m0, hm0, rfl⟩)
    have h1 : ¬ cond'.Produces x := by
      rintro ⟨m, hm, hxm⟩
      by_cases e' : x = ""
      · exact wf.empty (e' ▸ ⟨m, hm, hxm⟩)
      · exact hnp m (Or.inr (Or.inr (Or.inl hm))) e' hxm
    have h2 : x ∉ P := by
      intro h
      exact hnp _ (Or.inr (Or.inr (Or.inr rfl))) (fun e' => hPne (e' ▸ h)) (show x ∈ ports _ _ by rw [hP]; exact h)
    rw [a1 x h1]
    simp only [base, h2, if_false]
    split
    · rfl
    · rename_i h3
      have h4 : ∀ t ∈ T, x ∉ t.output := by
        intro t ht hxt
        obtain ⟨y, hy, hye⟩ := (f2 t ht).2
        rw [hy, List.mem_singleton] at hxt
        exact hnp t (Or.inr (Or.inl ht)) (hxt ▸ hye) (by rw [hy, hxt]; simp)
      rw [t1 x h4]
      refine hu x ?_
      by_cases e' : x = ""
      · exact Or.inl e'
      · refine Or.inr (fun n hn' hxn => ?_)
        by_cases hnr : n = g.node r
        · exact h3 (hnr ▸ hxn)
        · by_cases hnD : n ∈ D
          · rcases f1 with ⟨h1', _⟩ | ⟨d, hd, hdm, hdc, hdx, _, ⟨t, ht, hto⟩, _⟩
            · rw [h1'] at hnD; simp at hnD
            · rw [hd, List.mem_singleton] at hnD
              subst hnD
              rw [(s.bound n hdm hdx hdc).2.1, List.mem_singleton] at hxn
              exact h4 t ht (by rw [hto, hxn]; simp)
          · exact hnp n (Or.inl ⟨hn', hnr, hnD⟩) e' hxn
  · intro hD
    exact hg1 x1 (hprod x1 (by simp)) (s.acyclic x1 (by simp)) (fun h => (h hD).elim)
  · exact hg1 x0 (hprod x0 (by simp)) (s.acyclic x0 (by simp)) (hx1D x0 (by simp))
  · exact List.map_congr_left (fun x hx => hg1 x (hprod x (by simp [hx])) (s.acyclic x (by simp [hx])) (hx1D x (by simp [hx])))
  · refine List.map_congr_left (fun o ho => hg1 o (s.results o ho).1 (s.results o ho).2 ?_)
    rintro hD rfl
    rcases f1 with ⟨h1, _⟩ | ⟨d, _, hdm, hdc, hdx, _⟩
    · exact hD h1
    · exact (s.bound d hdm hdx hdc).2.2.1 ho

/-- The valuation of the graph before, from one of the graph with the loop and values for the last counter and bound. -/
theorem loop_to_while (hw : WF g) (s : WhileSite g r x0 x1 xs y0 y1 ys) (hfc : Func cond)
    (hn : WhileNames g r x0 x1 xs cond body cf fresh condName) (bc : BoundCase g r x1 fresh gA mName trip D T)
    (wp : WhileParts g r x0 xs ys cond cf g' rl mName trip c D T cond' β) {I : Interp V} {env e1 : String → V}
    (he : ∀ n ∈ g'.nodeList, n.name ≠ (g.node r).name ++ "_loop" → NodeSat I env e1 n) (hu : ∀ x, Unproduced g'.nodeList x → e1 x = env x) :
    (∀ t ∈ T, NodeSat I env e1 t) ∧ (∀ n ∈ cond'.nodeList, NodeSat I env e1 n) ∧ ∃ v : V, ∀ cv mv : V, ∃ e,
      (∀ n ∈ g.nodeList, n.name ≠ (g.node r).name → NodeSat I env e n) ∧ (∀ x, Unproduced g.nodeList x → e x = env x) ∧
      (D = [] → e1 x1 = e x1) ∧ (D ≠ [] → e x1 = v) ∧ e1 x0 = e x0 ∧
      xs.map e1 = xs.map e ∧ g.outputs.map e1 = g.outputs.map e ∧
      (g.node r).output.map e = cv :: mv :: (ports ((g.node r).name ++ "_loop") xs.length).map e1 := by
  classical
  have wf := whileFacts s hfc hn bc wp
  obtain ⟨f1, f2⟩ := bc.facts s hn.own.1
  have hne : x1 ≠ "" := fun e => s.passable.1 (by simp [e])
  have hprod : ∀ x ∈ x0 :: x1 :: xs, g.Produces x := fun x hx =>
    s.closed _ (node_mem s.mem) x (by rw [s.input]; exact hx) (fun e => s.passable.1 (e ▸ hx))
  have hys : ys.map (loopRen ys (g.node r).name xs.length) = ports ((g.node r).name ++ "_loop") xs.length := loopRen_map hw s hn.loop
  have hyP : ∀ y ∈ ys, loopRen ys (g.node r).name xs.length y ∈ ports ((g.node r).name ++ "_loop") xs.length :=
    fun y hy => by rw [← hys]; exact List.mem_map.2 ⟨y, hy, rfl⟩
  have hσ0 : loopRen ys (g.node r).name xs.length "" = "" :=
    loopRen_fixed s hn.loop (fun h => s.named (by rw [s.output]; simp [h]))
  have hx1D : ∀ x ∈ x0 :: xs, D ≠ [] → x ≠ x1 := by
    intro x hx hD e'
    rcases f1 with ⟨h1, _⟩ | ⟨d, hd, hdm, hdc, hdx, _⟩
    · exact hD h1
    · exact (s.bound d hdm hdx hdc).2.2.2 (e' ▸ hx)
  have hnd : y0 ≠ y1 ∧ y0 ∉ ys ∧ y1 ∉ ys := by
    have := hw.outNodup r s.mem
    rw [List.filter_eq_self.2 (fun x hx => by simpa using (fun e => s.named (e ▸ hx) : x ≠ "")), s.output] at this
    simp only [List.nodup_cons, List.mem_cons, not_or] at this
    exact ⟨this.1.1, this.1.2, this.2.1⟩
  have hlname : ∀ m0, WhileNew g r D T cond' (loopNode (g.node r).name trip c xs) m0 → m0 ≠ loopNode (g.node r).name trip c xs →
      NodeSat I env e1 (m0.mapIn (loopRen ys (g.node r).name xs.length)) := by
    intro m0 hm0 hne0
    exact he _ ((wp.list _).2 ⟨m0, hm0, rfl⟩) (fun e' => hne0 (wp.names m0 hm0 e'))
  have hnl : ∀ m0, ((m0 ∈ g.nodeList ∧ m0 ≠ g.node r ∧ m0 ∉ D) ∨ m0 ∈ T ∨ m0 ∈ cond'.nodeList) →
      NodeSat I env e1 (m0.mapIn (loopRen ys (g.node r).name xs.length)) := by
    intro m0 hm0
    by_cases e' : m0 = loopNode (g.node r).name trip c xs
    · -- the loop node has no output then
      have hfr := wp.fresh m0 hm0
      intro j o hj hoe
      have hmem : o ∈ m0.output := List.mem_of_getElem? (l := m0.output) hj
      refine (hfr o ?_ hmem).elim
      rw [e'] at hmem
      exact hmem
    · exact hlname m0 (by unfold WhileNew; tauto) e'
  refine ⟨fun t ht => ?_, fun n hn' => ?_, ?_⟩
  · have := hnl t (Or.inr (Or.inl ht))
    rwa [wf.trip t ht] at this
  · have := hnl n (Or.inr (Or.inr hn'))
    rwa [wf.reads n hn'] at this
  have hv : ∃ v : V, ∀ d ∈ D, ∀ e : String → V, e x1 = v → NodeSat I env e d := by
    rcases f1 with ⟨h1, _⟩ | ⟨d, hd, hdm, hdc, hdx, _⟩
    · exact ⟨env x1, by simp [h1]⟩
    · refine ⟨I d.op d.domain d.attr [] 0, fun d' hd' e hex => ?_⟩
      rw [hd, List.mem_singleton] at hd'
      subst hd'
      obtain ⟨n1, n2, _⟩ := s.bound _ hdm hdx hdc
      rw [nodeSat_single n2 hne, isConst_notInput hdc, hex]
      simp [argVals, n1]
  obtain ⟨v, hv⟩ := hv
  refine ⟨v, fun cv mv => ?_⟩
  let e : String → V := fun z => if z = y0 then cv else if z = y1 then mv else if z ∈ ys then e1 (loopRen ys (g.node r).name xs.length z)
    else if D ≠ [] ∧ z = x1 then v else if g.Produces z then e1 z else env z
  have heq : ∀ x, g.Produces x → x ∉ (g.node r).output → (D ≠ [] → x ≠ x1) → e x = e1 x := by
    intro x hx hxo hxD
    rw [s.output] at hxo
    simp only [List.mem_cons, not_or] at hxo
    have : ¬ (D ≠ [] ∧ x = x1) := fun h => hxD h.1 h.2
    simp only [e, hxo.1, hxo.2.1, hxo.2.2, this, hx, if_false, if_true]
  have hey : ∀ y ∈ ys, e y = e1 (loopRen ys (g.node r).name xs.length y) := by
    intro y hy
    have h1 : y ≠ y0 := fun e' => hnd.2.1 (e' ▸ hy)
    have h2 : y ≠ y1 := fun e' => hnd.2.2 (e' ▸ hy)
    simp only [e, h1, h2, hy, if_false, if_true]
  have hx1o := s.acyclic x1 (by simp)
  have hex1 : D ≠ [] → e x1 = v := by
    intro hD
    have hxo := hx1o
    rw [s.output] at hxo
    simp only [List.mem_cons, not_or] at hxo
    simp only [e, hxo.1, hxo.2.1, hxo.2.2, if_false]
    simp [hD]
  refine ⟨e, ?_, ?_, ?_, hex1, ?_, ?_, ?_, ?_⟩
  · intro n hn' hname
    have h2 : n ≠ g.node r := fun e' => hname (by rw [e'])
    by_cases hD : n ∈ D
    · exact hv n hD e (hex1 (fun h => by rw [h] at hD; simp at hD))
    · refine (nodeSat_mapIn (e := e) (e' := e1) hσ0 ?_ ?_).1 (hnl n (Or.inl ⟨hn', h2, hD⟩))
      · intro x hx hxe
        by_cases hy : x ∈ ys
        · exact ⟨port_ne (hyP x hy), (hey x hy).symm⟩
        · rw [loopRen_fixed s hn.loop hy]
          refine ⟨hxe, (heq x (s.closed n hn' x hx hxe) ?_ ?_).symm⟩
          · rw [s.output]
            simp only [List.mem_cons, not_or]
            exact ⟨fun e' => (s.unread n hn').1 (e' ▸ hx), fun e' => (s.unread n hn').2 (e' ▸ hx), hy⟩
          · rintro hD' rfl
            rcases f1 with ⟨h1', _⟩ | ⟨d, _, _, _, _, hrd, _⟩
            · exact hD' h1'
            · exact hrd n hn' h2 hx
      · intro x hx hxe
        refine (heq x ⟨n, hn', hx⟩ ?_ ?_).symm
        · intro hxo
          obtain ⟨q, hq, rfl⟩ := mem_nodeList.1 hn'
          exact h2 (by rw [hw.out_inj hxe hq s.mem hx hxo])
        · rintro hD' rfl
          rcases f1 with ⟨h1', _⟩ | ⟨d, hd, hdm, _, hdx, _⟩
          · exact hD' h1'
          · obtain ⟨q, hq, rfl⟩ := mem_nodeList.1 hn'
            obtain ⟨q', hq', rfl⟩ := mem_nodeList.1 hdm
            exact hD (by rw [hd, hw.out_inj hxe hq hq' hx hdx]; simp)
  · intro x hx
    have hxo : x ∉ (g.node r).output := by
      rcases hx with h | h
      · rw [h]; exact s.named
      · exact h _ (node_mem s.mem)
    rw [s.output] at hxo
    simp only [List.mem_cons, not_or] at hxo
    have hxx : x ≠ x1 := by
      rcases hx with h | h
      · rw [h]; exact Ne.symm hne
      · rintro rfl
        obtain ⟨n, hn', hxn⟩ := hprod x (by simp)
        exact h n hn' hxn
    simp only [e, hxo.1, hxo.2.1, hxo.2.2, if_false, hxx, and_false]
    split
    · rename_i hp
      rcases hx with h | h
      · exact hu x (Or.inl h)
      · obtain ⟨n, hn', hxn⟩ := hp
        exact (h n hn' hxn).elim
    · rfl
  · intro hD
    exact (heq x1 (hprod x1 (by simp)) hx1o (fun h => (h hD).elim)).symm
  · exact (heq x0 (hprod x0 (by simp)) (s.acyclic x0 (by simp)) (hx1D x0 (by simp))).symm
  · exact List.map_congr_left (fun x hx => (heq x (hprod x (by simp [hx])) (s.acyclic x (by simp [hx])) (hx1D x (by simp [hx]))).symm)
  · refine List.map_congr_left (fun o ho => (heq o (s.results o ho).1 (s.results o ho).2 ?_).symm)
    rintro hD rfl
    rcases f1 with ⟨h1, _⟩ | ⟨d, _, hdm, hdc, hdx, _⟩
    · exact hD h1
    · exact (s.bound d hdm hdx hdc).2.2.1 ho
  · rw [s.output]
    simp only [List.map_cons, List.cons.injEq]
    refine ⟨by simp [e], by simp [e, Ne.symm hnd.1], ?_⟩
    rw [← hys, List.map_map]
    exact List.map_congr_left hey
end

/-- C51. A converted loop: the graph keeps its outputs and inputs; the node `While` becomes a node `Loop` that reads the loop variables, the condition for
their initial values and the bound as trip count (no trip count if the bound is the constant -1); and for loops that follow TensorFlow's conventions for
counter and bound the graph has the same results as the graph of the input model, where the node repeats the functions `cond` and `body`. -/
theorem while_converts {g g' cond body body' : G} {r rl : Ref} {x0 x1 y0 y1 cf fresh condName i0 i1 c0 c1 o0 o1 oc : String}
    {xs ys is cs os : List String} (hg : ReachableSafe g) (s : WhileSite g r x0 x1 xs y0 y1 ys) (hib : IntBound g x1) (hc : Reachable cond)
    (hfc : Func cond) (hpc : Plain cond) (hb : Reachable body) (hfb : Func body)
    (hn : WhileNames g r x0 x1 xs cond body cf fresh condName) (hcp : cond.params = c0 :: c1 :: cs) (hbp : body.params = i0 :: i1 :: is)
    (hco : cond.outputs = [oc]) (hbo : body.outputs = o0 :: o1 :: os)
    (h : g.convertWhile r cf cond body fresh condName = .ok (g', rl, body')) :
    ∃ trip c, g'.outputs = g.outputs ∧ g'.inputs = g.inputs ∧ rl ∈ g'.nodes ∧ g'.node rl = loopNode (g.node r).name trip c xs ∧
    (trip = "" ↔ ∃ n ∈ g.nodeList, x1 ∈ n.output ∧ n.isConst = true ∧ ∃ t, n.attr.get "value" = some (.tensor t) ∧ t.data = [-1] ∧ t.dims = []) ∧
    ∀ (V : Type) (I : Interp V), IdentityLaw V I → ∀ (int : V → Option Int), IntLaws I int → ∀ (truth : V → Bool) (num : Nat → V) (env : String → V),
      LoopConventions int truth (decide (trip ≠ "")) (fun s k => Returns I env cond s [k]) (Returns I env body) →
      (trip ≠ "" → ∀ e, (∀ n ∈ g.nodeList, n.name ≠ (g.node r).name → NodeSat I env e n) →
        int (e x0) = some 0 ∧ ∃ M, int (e x1) = some M ∧ ∀ i : Nat, (i : Int) < M → int (num i) = some (i : Int)) →
      ∀ out : List V,
      (∃ e, SatWith I env e g'.nodeList ((g.node r).name ++ "_loop")
          (OnnxLoop truth num (Returns I e body') (tripOf int e trip) 0 (e c) (xs.map e)) ∧ out = g'.outputs.map e) ↔
      ∃ e, SatWith I env e g.nodeList (g.node r).name
          (TfWhile truth (fun s k => Returns I e cond s [k]) (Returns I e body) ((x0 :: x1 :: xs).map e)) ∧ out = g.outputs.map e := by
  have hw := hg.reachable.wf
  obtain ⟨gA, mName, trip, c, D, T, cond', β, bc, wp, hbody⟩ := convertWhile_parts hw hg.idx s hc.wf hfc hn h
  have hmN : mName ∈ [x1, fresh] := by rcases bc.new.1 with e | e <;> simp [e]
  have hln := hn.names mName hmN
  obtain ⟨cond2, β2, bp⟩ := wireWhileBody_parts hb.wf hfb hc.wf hfc hn.input hbp hcp hln hbody
  have wf := whileFacts s hfc hn bc wp
  have hne : x1 ≠ "" := fun e => s.passable.1 (by simp [e])
  have hmne : mName ≠ "" := by
    rcases bc.new.1 with e' | e'
    · rw [e']; exact hne
    · rw [e']; exact hn.own.1
  have hβne : ∀ x ∈ cond.params, β x ≠ "" := by
    intro x hx h
    have : β x ∈ x0 :: mName :: xs := by rw [← wp.args]; exact List.mem_map.2 ⟨x, hx, rfl⟩
    rw [h] at this
    simp only [List.mem_cons] at this
    rcases this with e' | e' | e'
    · exact s.passable.1 (by simp [← e'])
    · exact hmne e'.symm
    · exact s.passable.1 (by simp [e'])
  have hysout : ∀ x ∈ ys, x ∈ (g.node r).output := fun x hx => by rw [s.output]; simp [hx]
  have hloopIn : (loopNode (g.node r).name trip c xs).mapIn (loopRen ys (g.node r).name xs.length) = loopNode (g.node r).name trip c xs := by
    refine mapIn_fixed (fun x hx => loopRen_fixed s hn.loop ?_)
    have hx : x = trip ∨ x = c ∨ x ∈ xs := by simpa [loopNode] using hx
    rcases hx with e | e | e
    · rw [e]
      intro hy
      have hp : g.Produces trip := ⟨_, node_mem s.mem, hysout _ hy⟩
      cases bc with
      | unlimited => exact s.named (hysout _ hy)
      | own => exact s.acyclic x1 (by simp) (hysout _ hy)
      | shared _ _ _ _ _ hf => exact hf hp
      | dynamic hf => exact hf hp
    · rw [e]
      intro hy
      obtain ⟨cs', hcs'⟩ := wp.result
      have hcp' : cond'.Produces c := by
        have := wp.wired.outputs
        rw [hcs', hco] at this
        simp only [List.map_cons, List.map_nil, List.cons.injEq] at this
        rw [this.1]
        exact wp.wired.produces.2 ⟨oc, hfc.results oc (by simp [hco]), rfl⟩
      exact (wf.condIn c hcp').1 ⟨_, node_mem s.mem, hysout _ hy⟩
    · exact fun hy => s.acyclic x (by simp [e]) (hysout _ hy)
  refine ⟨trip, c, wp.outputs, wp.inputs, wp.loop.1, ?_, ?_, ?_⟩
  · have := wp.loop.2
    rw [this]; exact hloopIn
  · constructor
    · intro ht
      cases bc with
      | @unlimited cr t h1 h2 h3 h4 h5 h6 => exact ⟨_, node_mem h1, h2, h3, t, h4, h5, h6⟩
      | own => exact (hne ht).elim
      | shared => exact (hn.own.1 ht).elim
      | dynamic => have := congrArg String.length ht; simp at this
    · rintro ⟨n, hn1, hn2, hn3, t, hn4, hn5, hn6⟩
      obtain ⟨q, hq, rfl⟩ := mem_nodeList.1 hn1
      cases bc with
      | unlimited => rfl
      | @own cr t' _ h1 h2 h3 h4 h5 _ _ =>
        have e := hw.out_inj hne hq h1 hn2 h2
        rw [e, h4] at hn4
        cases hn4
        exact (h5 ⟨hn5, hn6⟩).elim
      | @shared cr t' _ h1 h2 h3 h4 h5 _ _ =>
        have e := hw.out_inj hne hq h1 hn2 h2
        rw [e, h4] at hn4
        cases hn4
        exact (h5 ⟨hn5, hn6⟩).elim
      | dynamic _ hd =>
        rw [hd q hq hn2] at hn3
        cases hn3
  intro V I hI int hII truth num env hlc hstart out
  have hlenc : cond.params.length = xs.length + 2 := by
    have := congrArg List.length wp.args
    simpa using this
  have hlenb : os.length = xs.length := by
    have := congrArg List.length bp.args
    rw [hbo] at this
    simp only [List.length_map, List.length_cons, List.drop_succ_cons, List.drop_zero] at this
    omega
  have hcl : CountedLoop int truth (decide (trip ≠ "")) xs.length (fun s k => Returns I env cond s [k]) (Returns I env body) := by
    refine ⟨hlc, ?_, ?_⟩
    · intro a b v hv
      refine ⟨_, (hfc.returns_iff hc.wf I env _ _).2 ⟨by simp [hlenc, hv], by rw [hco]; rfl⟩⟩
    · intro a b v t ht
      have := ((hfb.returns_iff hb.wf I env _ _).1 ht).2
      rw [hbo] at this
      exact ⟨_, _, _, this, by simp [hlenb]⟩
  have hloopMem : loopNode (g.node r).name trip c xs ∈ g'.nodeList := (wp.list _).2 ⟨_, Or.inr (Or.inr (Or.inr rfl)), hloopIn.symm⟩
  have hloopUniq : ∀ m ∈ g'.nodeList, m.name = (g.node r).name ++ "_loop" → m = loopNode (g.node r).name trip c xs := by
    intro m hm hname
    obtain ⟨m0, hm0, rfl⟩ := (wp.list m).1 hm
    have := wp.names m0 hm0 hname
    rw [this]; exact hloopIn
  rw [wp.outputs]
  constructor
  · rintro ⟨e1, ⟨h1, h2, h3⟩, ho⟩
    obtain ⟨a1, a2, v, a3⟩ := loop_to_while hw s hfc hn bc wp h1 h3
    have hR := h2 _ hloopMem rfl
    obtain ⟨e0, b1, b2, b3, b4, b5, b6, b7, b8⟩ := a3 (e1 x0) (e1 x0)
    have hcore := (loop_core hw s hb.wf hfb hfc hpc hbp hbo hco hn.own.1 hib bc hln bp wp.wired wp.args hβne wp.result hI hII hcl
      (fun ht => hstart ht e0 b1) b1 a1 a2 b3 b5 b6 _).1 hR
    obtain ⟨cv, mv, hT⟩ := hcore
    obtain ⟨e, d1, d2, d3, d4, d5, d6, d7, d8⟩ := a3 cv mv
    have hin : (x0 :: x1 :: xs).map e0 = (x0 :: x1 :: xs).map e := by
      simp only [List.map_cons]
      rw [← b5, ← b6, d5, d6]
      congr 2
      by_cases hD : D = []
      · rw [← b3 hD, d3 hD]
      · rw [b4 hD, d4 hD]
    refine ⟨e, ⟨d1, ?_, d2⟩, by rw [ho, d7]⟩
    intro n hn' hname
    rw [(hw.node_eq s.mem hn').1 hname, d8, ← hin, hfc.returns_eq I e e0, hfb.returns_eq I e e0]
    exact hT
  · rintro ⟨e, ⟨h1, h2, h3⟩, ho⟩
    have hR := h2 _ (node_mem s.mem) rfl
    obtain ⟨e1, a1, a2, a3, a4, a5, a6, a7, a8, a9⟩ := while_to_loop hw s hfc hpc hn bc wp hI (fun a b => hcl.total a b _ (by simp)) h1 h3
    refine ⟨e1, ⟨a1, ?_, a2⟩, by rw [ho, a8]⟩
    intro m hm hname
    rw [hloopUniq m hm hname]
    show OnnxLoop _ _ _ _ _ _ _ ((ports ((g.node r).name ++ "_loop") xs.length).map e1)
    refine (loop_core hw s hb.wf hfb hfc hpc hbp hbo hco hn.own.1 hib bc hln bp wp.wired wp.args hβne wp.result hI hII hcl
      (fun ht => hstart ht e h1) h1 a3 a4 a5 a6 a7 _).2 ⟨e y0, e y1, ?_⟩
    rw [s.output] at hR
    simp only [List.map_cons] at hR
    rw [a9]
    exact hR

end Verif.Graph
