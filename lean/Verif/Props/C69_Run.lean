import Verif.Props.C69_Body
/-!
# C69: conditionals of TensorFlow 1
-/
namespace Verif.Cond
variable {V : Type} {truth : V → Bool} {P : Plan} {ρ : String → Option V} {G₀ G : List (Node V)} {S : List (List String)} {s : List String}

/-- What the rewriter takes out of the graph. -/
def goneOf (G₀ : List (Node V)) (s : List String) (ts : List Trace) : List String :=
  (ts.flatMap Trace.trueKeys).eraseDups ++ (ts.flatMap Trace.falseKeys).eraseDups ++ (ts.flatMap Trace.switches).eraseDups ++ (mergesOf G₀ s).map (fun m => m.2.2)

/-- A node that is taken out belongs to a branch, or is a `Switch` or a `Merge` of the conditional. -/
theorem Setting.gone (h : Setting truth P ρ G₀ S G s) {ts : List Trace} (ht : Traces P G s (mergesOf G₀ s) ts) {n : Node V} (hn : n ∈ G) (ho : ∃ o, o ∈ n.outs)
    (hg : n.key ∈ goneOf G₀ s ts) : (∃ b, Ok truth P ρ (P.loc s ++ [(s, b)]) n) ∨ (∃ d p o0 o1, n = .switch d p o0 o1 ∧ IsSwitch truth P ρ G₀ G s d p o0 o1) ∨
      ∃ name a b o, n = .merge name a b o ∧ Node.merge name a b o ∈ G₀ ∧ scopeOf name = s := by
  obtain ⟨o, ho⟩ := ho
  have hk := key_mem ho
  have hu := h.inv.nodup
  have same : ∀ m, producer G n.key = some m → m = n := fun m hm => by
    rw [producer_eq hu hn hk] at hm
    cases hm
    rfl
  obtain ⟨ct, cf⟩ := h.collect ht
  unfold goneOf at hg
  simp only [List.mem_append] at hg
  rcases hg with ((hg | hg) | hg) | hg
  · obtain ⟨m, hm, -, hok, -⟩ := ct.nodes _ hg
    rw [same m hm] at hok
    exact Or.inl ⟨_, hok⟩
  · obtain ⟨m, hm, -, hok, -⟩ := cf.nodes _ hg
    rw [same m hm] at hok
    exact Or.inl ⟨_, hok⟩
  · obtain ⟨d, p, o0, o1, hm, -, hs⟩ := ct.switches _ hg
    exact Or.inr (Or.inl ⟨d, p, o0, o1, (same _ hm).symm, hs⟩)
  · obtain ⟨m, hm, he⟩ := List.mem_map.1 hg
    obtain ⟨name, h0, hs⟩ := mem_mergesOf.1 hm
    have hG := h.inv.keep _ _ _ _ h0 (by rw [hs]; exact h.new)
    have := unique_out hu hn hG hk (by rw [← he]; simp [Node.outs])
    exact Or.inr (Or.inr ⟨name, m.1, m.2.1, m.2.2, this, h0, hs⟩)

/-- The `If` node. -/
def ifNode (G₀ G : List (Node V)) (s : List String) (ts : List Trace) (p : String) : Node V :=
  .cond p ((mergesOf G₀ s).map (fun m => m.2.2)) (bodyOf G true (ts.flatMap Trace.trueKeys).eraseDups (ts.flatMap Trace.switches).eraseDups) (ts.map Trace.trueOut)
    (bodyOf G false (ts.flatMap Trace.falseKeys).eraseDups (ts.flatMap Trace.switches).eraseDups) (ts.map Trace.falseOut)

theorem ifGraph_eq (ts : List Trace) (p : String) :
    ifGraph G (mergesOf G₀ s) ts p = G.filter (fun n => decide (n.key ∉ goneOf G₀ s ts)) ++ [ifNode G₀ G s ts p] := rfl

/-- A tensor outside the conditional is still produced. -/
theorem Setting.kept (h : Setting truth P ρ G₀ S G s) {ts : List Trace} (ht : Traces P G s (mergesOf G₀ s) ts) (p : String) {x : String} (hx : Produced G x)
    (hl : ∀ b, (s, b) ∉ P.label x) : Produced (ifGraph G (mergesOf G₀ s) ts p) x := by
  obtain ⟨n, hn, hxn⟩ := hx
  rw [ifGraph_eq]
  by_cases hg : n.key ∈ goneOf G₀ s ts
  · rcases h.gone ht hn ⟨x, hxn⟩ hg with ⟨b, hok⟩ | ⟨d, p', o0, o1, rfl, hs⟩ | ⟨name, a, b, o, rfl, h0, hs⟩
    · exact absurd (by rw [ok_outs truth P ρ hok x hxn]; simp) (hl b)
    · have : x = o0 ∨ x = o1 := by simpa [Node.outs] using hxn
      rcases this with rfl | rfl
      · exact absurd (by rw [hs.out0]; simp) (hl false)
      · exact absurd (by rw [hs.out1]; simp) (hl true)
    · refine ⟨ifNode G₀ G s ts p, by simp, ?_⟩
      have : x = o := by simpa [Node.outs] using hxn
      subst this
      exact List.mem_map.2 ⟨(a, b, x), mem_mergesOf.2 ⟨name, h0, hs⟩, rfl⟩
  · exact ⟨n, List.mem_append.2 (Or.inl (List.mem_filter.2 ⟨hn, by simpa using hg⟩)), hxn⟩

theorem sublist_flatMap {A B : Type} {l l' : List A} (h : l.Sublist l') (f : A → List B) : (l.flatMap f).Sublist (l'.flatMap f) := by
  induction h with
  | slnil => simp
  | cons a _ ih => rw [List.flatMap_cons]; exact ih.trans (List.sublist_append_right _ _)
  | cons_cons a _ ih => rw [List.flatMap_cons, List.flatMap_cons]; exact ih.append_left _

theorem mergesOf_outs_nodup (hu : (G₀.flatMap Node.outs).Nodup) : ((mergesOf G₀ s).map (fun m => m.2.2)).Nodup := by
  have : ((mergesOf G₀ s).map (fun m => m.2.2)).Sublist (G₀.flatMap Node.outs) := by
    clear hu
    unfold mergesOf merges
    induction G₀ with
    | nil => simp
    | cons n G ih =>
      rw [List.flatMap_cons]
      cases n with
      | merge name a b o =>
        simp only [List.filterMap_cons, List.filter_cons]
        split
        · simp only [List.map_cons, Node.outs, List.singleton_append]
          exact ih.cons_cons _
        · exact ih.trans (List.sublist_append_right _ _)
      | op => rw [List.filterMap_cons_none rfl]; exact ih.trans (List.sublist_append_right _ _)
      | switch => rw [List.filterMap_cons_none rfl]; exact ih.trans (List.sublist_append_right _ _)
      | cond => rw [List.filterMap_cons_none rfl]; exact ih.trans (List.sublist_append_right _ _)
  exact this.nodup hu

/-- The `If` node is right. -/
theorem Setting.ifOk (h : Setting truth P ρ G₀ S G s) {ts : List Trace} (ht : Traces P G s (mergesOf G₀ s) ts) {d p o0 o1 : String}
    (hq : IsSwitch truth P ρ G₀ G s d p o0 o1) : Ok truth P ρ (P.loc s) (ifNode G₀ G s ts p) := by
  obtain ⟨ct, cf⟩ := h.collect ht
  obtain ⟨t1, t2⟩ := ct.body h
  obtain ⟨f1, f2⟩ := cf.body h
  have outlab : ∀ o ∈ (mergesOf G₀ s).map (fun m => m.2.2), P.label o = P.loc s ∧ P.rank p < P.rank o := by
    intro o ho
    obtain ⟨m, hm, rfl⟩ := List.mem_map.1 ho
    obtain ⟨name, h0, hs⟩ := mem_mergesOf.1 hm
    obtain ⟨h1, -⟩ := h.made.nodes _ h0
    rw [hs] at h1
    exact ⟨h1, (hq.before _ _ _ _ h0 hs).2⟩
  rw [ifNode, Ok]
  refine ⟨hq.lab, fun o ho => (outlab o ho).1, fun o ho => (outlab o ho).2, ?_, ?_, s, ⟨t1, t2, ?_⟩, f1, f2, ?_⟩
  · intro k o x hk hx
    rw [List.getElem?_map, Option.map_eq_some_iff] at hk
    obtain ⟨m, hm, rfl⟩ := hk
    obtain ⟨t, htk, hr⟩ := ht.right k m hm
    obtain ⟨name, h0, hs⟩ := mem_mergesOf.1 (List.mem_of_getElem? hm)
    obtain ⟨-, -, h1, h2⟩ := h.made.nodes _ h0
    have : x = t.trueOut ∨ x = t.falseOut := by
      rw [List.getElem?_map, List.getElem?_map, htk] at hx
      simpa [eq_comm] using hx
    rcases hr.ends with ⟨e1, e2⟩ | ⟨e1, e2⟩ <;> rcases this with rfl | rfl
    · rw [e1]; exact h1
    · rw [e2]; exact h2
    · rw [e1]; exact h2
    · rw [e2]; exact h1
  · intro k o v hk hv
    rw [List.getElem?_map, Option.map_eq_some_iff] at hk
    obtain ⟨m, hm, rfl⟩ := hk
    obtain ⟨t, htk, hr⟩ := ht.right k m hm
    obtain ⟨name, h0, hs⟩ := mem_mergesOf.1 (List.mem_of_getElem? hm)
    have hf := h.run.fires _ h0 v hv
    have alive : ρ t.trueOut = some v ∨ ρ t.falseOut = some v := by
      rcases hr.ends with ⟨e1, e2⟩ | ⟨e1, e2⟩
      · rw [e1, e2]; exact hf
      · rw [e1, e2]; exact hf.symm
    rcases alive with ha | ha
    · obtain ⟨q, hq1, hq2⟩ := h.run.chosen _ v ha s true (by rw [hr.true_]; simp)
      refine ⟨q, t.trueOut, by rw [hq.pred]; exact hq1, ?_, ha⟩
      rw [hq2]
      simp only [if_true]
      rw [List.getElem?_map, htk]
      rfl
    · obtain ⟨q, hq1, hq2⟩ := h.run.chosen _ v ha s false (by rw [hr.false_]; simp)
      refine ⟨q, t.falseOut, by rw [hq.pred]; exact hq1, ?_, ha⟩
      rw [hq2]
      simp only [Bool.false_eq_true, if_false]
      rw [List.getElem?_map, htk]
      rfl
  · intro x hx
    obtain ⟨t, htm, rfl⟩ := List.mem_map.1 hx
    obtain ⟨m, -, hr⟩ := ht.mem htm
    refine ⟨hr.true_, h.branchOut ct hr.true_ hr.prodT (fun k hk => ?_) (fun k hk => ?_)⟩
    · exact List.mem_eraseDups.2 (List.mem_flatMap.2 ⟨t, htm, by rw [hr.trueKeys]; exact hk⟩)
    · exact List.mem_eraseDups.2 (List.mem_flatMap.2 ⟨t, htm, (hr.switches k).2 (Or.inl hk)⟩)
  · intro x hx
    obtain ⟨t, htm, rfl⟩ := List.mem_map.1 hx
    obtain ⟨m, -, hr⟩ := ht.mem htm
    refine ⟨hr.false_, h.branchOut cf hr.false_ hr.prodF (fun k hk => ?_) (fun k hk => ?_)⟩
    · exact List.mem_eraseDups.2 (List.mem_flatMap.2 ⟨t, htm, by rw [hr.falseKeys]; exact hk⟩)
    · exact List.mem_eraseDups.2 (List.mem_flatMap.2 ⟨t, htm, (hr.switches k).2 (Or.inr hk)⟩)

/-- What the `If` node uses is produced in the graph, outside the conditional. -/
theorem Setting.ifUses (h : Setting truth P ρ G₀ S G s) {ts : List Trace} (ht : Traces P G s (mergesOf G₀ s) ts) {d p o0 o1 : String}
    (hq : IsSwitch truth P ρ G₀ G s d p o0 o1) : ∀ x ∈ (ifNode G₀ G s ts p).uses, Produced G x := by
  obtain ⟨ct, cf⟩ := h.collect ht
  have hok := h.ifOk ht hq
  rw [ifNode, Ok] at hok
  obtain ⟨-, -, -, -, -, s', ⟨-, -, h2⟩, -, -, h4⟩ := hok
  intro x hx
  rw [ifNode] at hx
  rcases uses_cond truth P ρ (ct.body h).2 (fun x hx => (h2 x hx).2) (cf.body h).2 (fun x hx => (h4 x hx).2) hx with rfl | ⟨y, hy, hl⟩
  · exact hq.prodP
  · rcases hy with hy | hy
    · obtain ⟨q, hq', rfl⟩ := ct.entry hy hl
      exact (ct.switchNode hq').2.prodD
    · obtain ⟨q, hq', rfl⟩ := cf.entry hy hl
      exact (cf.switchNode hq').2.prodD

/-- **One conditional.** -/
theorem Setting.step (h : Setting truth P ρ G₀ S G s) {info : Info} {G' : List (Node V)} (hd : rewriteScope info G (mergesOf G₀ s) = .done G') :
    Inv truth P ρ G₀ (s :: S) G' ∧ ∀ x, Produced G x → (∀ b, (s, b) ∉ P.label x) → Produced G' x := by
  unfold rewriteScope at hd
  split at hd
  · cases hd
  rename_i ts hts
  split at hd
  · cases hd
  rename_i q qs hqs
  split_ifs at hd
  cases hd
  have ht := h.traces hts
  obtain ⟨ct, cf⟩ := h.collect ht
  have hq : IsSwitch truth P ρ G₀ G s q.1 q.2.1 q.2.2.1 q.2.2.2 := (ct.switchNode (by rw [hqs]; simp)).2
  have hok := h.ifOk ht hq
  have huses := h.ifUses ht hq
  have hu := h.inv.nodup
  have liveS : ∀ {κ : Path}, Live (s :: S) κ → Live S κ ∧ ∀ b, (s, b) ∉ κ := by
    intro κ hl
    exact ⟨fun s' b' h' h'' => hl s' b' h' (by simp [h'']), fun b hb => hl s b hb (by simp)⟩
  have memG : ∀ n ∈ ifGraph G (mergesOf G₀ s) ts q.2.1, (n ∈ G ∧ n.key ∉ goneOf G₀ s ts) ∨ n = ifNode G₀ G s ts q.2.1 := by
    intro n hn
    rw [ifGraph_eq] at hn
    rcases List.mem_append.1 hn with hn | hn
    · left
      have := List.mem_filter.1 hn
      exact ⟨this.1, by simpa using this.2⟩
    · right
      simpa using hn
  have kept : ∀ {x : String}, Produced G x → (∀ b, (s, b) ∉ P.label x) → Produced (ifGraph G (mergesOf G₀ s) ts q.2.1) x := fun hx hl => h.kept ht _ hx hl
  refine ⟨⟨?_, ?_, ?_, ?_, ?_, ?_⟩, fun x => kept⟩
  · rw [ifGraph_eq, List.flatMap_append, List.nodup_append]
    refine ⟨?_, ?_, ?_⟩
    · have : ((G.filter (fun n => decide (n.key ∉ goneOf G₀ s ts))).flatMap Node.outs).Sublist (G.flatMap Node.outs) :=
        sublist_flatMap List.filter_sublist _
      exact this.nodup hu
    · rw [List.flatMap_cons, List.flatMap_nil, List.append_nil]
      exact mergesOf_outs_nodup h.made.outs
    · intro x hx y hy he
      subst he
      obtain ⟨n, hn, hxn⟩ := List.mem_flatMap.1 hx
      rw [List.flatMap_cons, List.flatMap_nil, List.append_nil] at hy
      obtain ⟨m, hm, rfl⟩ := List.mem_map.1 hy
      obtain ⟨name, h0, hs⟩ := mem_mergesOf.1 hm
      have hG := h.inv.keep _ _ _ _ h0 (by rw [hs]; exact h.new)
      have hn' := List.mem_filter.1 hn
      have := unique_out hu hn'.1 hG hxn (by simp [Node.outs])
      subst this
      have hng : (Node.merge name m.1 m.2.1 m.2.2 : Node V).key ∉ goneOf G₀ s ts := by simpa using hn'.2
      apply hng
      unfold goneOf
      refine List.mem_append.2 (Or.inr (List.mem_map.2 ⟨m, hm, ?_⟩))
      simp [Node.key, Node.outs]
  · intro n hn
    rcases memG n hn with ⟨hn, -⟩ | rfl
    · exact h.inv.plain n hn
    · exact Or.inr ⟨_, hok⟩
  · intro n hn κ hκ ho hl x hx
    rcases memG n hn with ⟨hn, -⟩ | rfl
    · refine kept (h.inv.ok n hn κ hκ ho (liveS hl).1 x hx) (fun b hb => ?_)
      rw [uses_lab truth P ρ hκ x hx] at hb
      exact (liveS hl).2 b hb
    · refine kept (huses x hx) (fun b hb => ?_)
      rw [uses_lab truth P ρ hok x hx] at hb
      exact h.made.nested s b hb
  · intro d p o0 o1 hn hl
    rcases memG _ hn with ⟨hn, -⟩ | he
    · obtain ⟨h1, h2⟩ := h.inv.switch d p o0 o1 hn (liveS hl).1
      have hm : Node.switch d p o0 o1 ∈ G₀ := by
        rcases h.inv.plain _ hn with h0 | ⟨κ, h0⟩
        · exact h0
        · rw [Ok] at h0
          exact h0.elim
      obtain ⟨s', e1, e2, -⟩ := h.made.nodes _ hm
      refine ⟨kept h1 (liveS hl).2, kept h2 (fun b hb => (liveS hl).2 b ?_)⟩
      rw [e1, ← e2]
      exact hb
    · cases he
  · intro name a b o hn
    rcases memG _ hn with ⟨hn, hg⟩ | he
    · obtain ⟨h1, h2⟩ := h.inv.merge name a b o hn
      have hm : Node.merge name a b o ∈ G₀ := by
        rcases h.inv.plain _ hn with h0 | ⟨κ, h0⟩
        · exact h0
        · rw [Ok] at h0
          exact h0.elim
      have hne : scopeOf name ≠ s := by
        intro he
        apply hg
        unfold goneOf
        refine List.mem_append.2 (Or.inr (List.mem_map.2 ⟨(a, b, o), mem_mergesOf.2 ⟨name, hm, he⟩, ?_⟩))
        simp [Node.key, Node.outs]
      refine ⟨by simp [h1, hne], fun hl => ?_⟩
      obtain ⟨pa, pb⟩ := h2 (liveS hl).1
      obtain ⟨-, hlab, -⟩ := h.made.nodes _ hm
      have out : ∀ c b', (s, b') ∉ P.loc (scopeOf name) ++ [(scopeOf name, c)] := by
        intro c b' hb
        rcases List.mem_append.1 hb with hb | hb
        · exact (liveS hl).2 b' hb
        · simp only [List.mem_singleton, Prod.mk.injEq] at hb
          exact hne hb.1.symm
      rcases hlab with ⟨la, lb⟩ | ⟨la, lb⟩
      · exact ⟨kept pa (by rw [la]; exact out _), kept pb (by rw [lb]; exact out _)⟩
      · exact ⟨kept pa (by rw [la]; exact out _), kept pb (by rw [lb]; exact out _)⟩
    · cases he
  · intro name a b o h0 hs
    have hs' : scopeOf name ≠ s ∧ scopeOf name ∉ S := by simpa using hs
    have hG := h.inv.keep name a b o h0 hs'.2
    rw [ifGraph_eq]
    refine List.mem_append.2 (Or.inl (List.mem_filter.2 ⟨hG, ?_⟩))
    rw [decide_eq_true_eq]
    intro hg
    rcases h.gone ht hG ⟨o, by simp [Node.outs]⟩ hg with ⟨b', hok'⟩ | ⟨_, _, _, _, he, -⟩ | ⟨name', _, _, _, he, -, hs2⟩
    · rw [Ok] at hok'
      exact hok'
    · cases he
    · cases he
      exact hs'.1 hs2

/-- The loop over the conditionals. -/
theorem runScopes_inv {info : Info} (made : TfMade P G₀) (run : Run truth P G₀ ρ) : ∀ (l : List (List String)) (S : List (List String)) (G G' : List (Node V)),
    Inv truth P ρ G₀ S G → l.Nodup → (∀ x ∈ l, x ∉ S) → (∀ x ∈ S, ∀ y ∈ l, ∀ b, (x, b) ∉ P.loc y) → l.Pairwise (fun x y => ∀ b, (x, b) ∉ P.loc y) →
    (∀ name a b o, Node.merge name a b o ∈ G₀ → scopeOf name ∈ S ∨ scopeOf name ∈ l) → runScopes info G₀ l G = .ok (G', []) →
    ∃ S', Inv truth P ρ G₀ S' G' ∧ (∀ name a b o, Node.merge name a b o ∈ G₀ → scopeOf name ∈ S') ∧ ∀ x, Produced G x → P.label x = [] → Produced G' x := by
  intro l
  induction l with
  | nil =>
    intro S G G' hi _ _ _ _ hall h
    rw [runScopes] at h
    cases h
    exact ⟨S, hi, fun name a b o hm => (hall name a b o hm).resolve_right (by simp), fun x hx _ => hx⟩
  | cons s l ih =>
    intro S G G' hi hnd hdis hS hpw hall h
    rw [runScopes] at h
    rw [List.nodup_cons] at hnd
    rw [List.pairwise_cons] at hpw
    split at h
    · rename_i G1 hG1
      have hset : Setting truth P ρ G₀ S G s := by
        refine ⟨made, run, hi, hdis s (by simp), fun s' b hb hs' => hS s' hs' s (by simp) b hb, ?_⟩
        intro name a b o c hm hc
        rcases hall name a b o hm with h1 | h1
        · exact h1
        · exfalso
          rcases List.mem_cons.1 h1 with h1 | h1
          · rw [h1] at hc
            exact made.nested s c hc
          · exact hpw.1 _ h1 c hc
      obtain ⟨hinv, hkept⟩ := hset.step hG1
      have next : ∃ S', Inv truth P ρ G₀ S' G' ∧ (∀ name a b o, Node.merge name a b o ∈ G₀ → scopeOf name ∈ S') ∧ ∀ x, Produced G1 x → P.label x = [] → Produced G' x := ?_
      · obtain ⟨S', h1, h2, h3⟩ := next
        exact ⟨S', h1, h2, fun x hx hl => h3 x (hkept x hx (by rw [hl]; simp)) hl⟩
      refine ih (s :: S) G1 G' hinv hnd.2 ?_ ?_ hpw.2 ?_ h
      · intro x hx hxs
        rcases List.mem_cons.1 hxs with rfl | hxs
        · exact hnd.1 hx
        · exact hdis x (by simp [hx]) hxs
      · intro x hx y hy b
        rcases List.mem_cons.1 hx with rfl | hx
        · exact hpw.1 y hy b
        · exact hS x hx y (by simp [hy]) b
      · intro name a b o hm
        rcases hall name a b o hm with h1 | h1
        · exact Or.inl (by simp [h1])
        · rcases List.mem_cons.1 h1 with h1 | h1
          · exact Or.inl (by simp [h1])
          · exact Or.inr h1
    · cases hr : runScopes info G₀ l G with
      | error e => rw [hr] at h; cases h
      | ok r =>
        rw [hr] at h
        simp only [Except.map, Except.ok.injEq, Prod.mk.injEq] at h
        exact absurd h.2 (by simp)
    · cases h
    · cases h

theorem inv_start (made : TfMade P G₀) : Inv truth P ρ G₀ [] G₀ := by
  have closed : ∀ n ∈ G₀, ∀ x ∈ n.ins, Produced G₀ x := made.closed
  refine ⟨made.outs, fun n hn => Or.inl hn, ?_, ?_, ?_, fun _ _ _ _ h _ => h⟩
  · intro n hn κ hκ _ _ x hx
    cases n with
    | op t f ins outs =>
      simp only [Node.uses, Node.inner, List.filter_nil, List.append_nil] at hx
      exact closed _ hn x hx
    | switch => rw [Ok] at hκ; exact hκ.elim
    | merge => rw [Ok] at hκ; exact hκ.elim
    | cond => exact (made.nodes _ hn).elim
  · intro d p o0 o1 hn _
    exact ⟨closed _ hn d (by simp [Node.ins]), closed _ hn p (by simp [Node.ins])⟩
  · intro name a b o hn
    exact ⟨by simp, fun _ => ⟨closed _ hn a (by simp [Node.ins]), closed _ hn b (by simp [Node.ins])⟩⟩

/-- **C69**: the graph in which `If` nodes have taken the place of the conditionals of TensorFlow 1 gives every tensor outside of them the value it has in a run of
TensorFlow, whichever branches the run takes; for conditionals within branches of conditionals to any depth, if an inner one comes before the outer one in the sorted
graph (`cond_order_violated`), none is left as it is (`cond_constant_branches_violated`) and no predicate is a constant. -/
theorem cond_rewrite_partial (truth : V → Bool) (P : Plan) (info : Info) (G G' : List (Node V)) (made : TfMade P G)
    (order : (scopes G).Pairwise (fun x y => ∀ b, (x, b) ∉ P.loc y)) (h : rewriteCond info G = .ok (G', [])) (ρ : String → Option V) (run : Run truth P G ρ)
    (x : String) (v : V) (hl : P.label x = []) (hx : ∃ n ∈ G, x ∈ n.outs) (hv : ρ x = some v) : Gives truth G' x v := by
  have hall : ∀ name a b o, Node.merge name a b o ∈ G → scopeOf name ∈ ([] : List (List String)) ∨ scopeOf name ∈ scopes G := by
    intro name a b o hm
    right
    unfold scopes merges
    exact List.mem_eraseDups.2 (List.mem_map.2 ⟨(scopeOf name, a, b, o), List.mem_filterMap.2 ⟨_, hm, rfl⟩, rfl⟩)
  obtain ⟨S, hi, hS, hp⟩ := runScopes_inv made run (scopes G) [] G G' (inv_start made) (nodup_eraseDups _ _ (Nat.le_refl _)) (by simp) (by simp) order hall h
  have hst : Stack truth P ρ [] [G'] := by
    refine ⟨rfl, hi.nodup, fun n hn o ho hlo => ?_⟩
    rcases hi.plain n hn with h0 | ⟨κ, hκ⟩
    · have hm := made.nodes n h0
      cases n with
      | op t f ins outs =>
        obtain ⟨⟨κ, h1, h2⟩, h3⟩ := hm
        have hκ : κ = [] := by rw [← h2 o ho]; exact hlo
        subst hκ
        have hok : Ok truth P ρ [] (.op t f ins outs) := by rw [Ok]; exact ⟨h1, h2, h3, run.fires _ h0⟩
        exact ⟨hok, hi.ok _ hn _ hok ⟨o, ho⟩ (by intro s b hb; cases hb)⟩
      | switch d p o0 o1 =>
        exfalso
        obtain ⟨s, -, -, -, h4, h5, -⟩ := hm
        have : o = o0 ∨ o = o1 := by simpa [Node.outs] using ho
        rcases this with rfl | rfl
        · rw [h4] at hlo; simp at hlo
        · rw [h5] at hlo; simp at hlo
      | merge name a b o' => exact absurd (hS _ _ _ _ h0) (hi.merge _ _ _ _ hn).1
      | cond => exact hm.elim
    · have : κ = [] := by rw [← ok_outs truth P ρ hκ o ho]; exact hlo
      subst this
      exact ⟨hκ, hi.ok n hn _ hκ ⟨o, ho⟩ (by intro s b hb; cases hb)⟩
  exact eval_run truth P ρ (P.rank x + 1) [] G' [] x v (by omega) hst hl (hp x hx hl) hv

end Verif.Cond
