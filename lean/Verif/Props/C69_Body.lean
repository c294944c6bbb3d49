import Verif.Props.C69_Step
/-!
# C69: the branches of the `If` node
-/
namespace Verif.Cond
variable {V : Type} {truth : V → Bool} {P : Plan} {ρ : String → Option V} {G₀ G : List (Node V)} {S : List (List String)} {s : List String}

theorem nodup_eraseDups {A : Type} [BEq A] [LawfulBEq A] (n : Nat) (l : List A) (h : l.length ≤ n) : l.eraseDups.Nodup := by
  induction n generalizing l with
  | zero => rw [List.length_eq_zero_iff.1 (by omega : l.length = 0)]; simp
  | succ n ih =>
    cases l with
    | nil => simp
    | cons a l =>
      rw [List.eraseDups_cons, List.nodup_cons]
      constructor
      · rw [List.mem_eraseDups, List.mem_filter]
        simp
      · apply ih
        have := List.length_filter_le (fun b => !b == a) l
        simp only [List.length_cons] at h
        omega

/-- The output of a `Switch` for a branch. -/
def side (b : Bool) (q : String × String × String × String) : String := if b then q.2.2.2 else q.2.2.1

/-- The nodes of a branch. -/
def bodyOf (G : List (Node V)) (b : Bool) (keys sk : List String) : List (Node V) :=
  nodesOf G keys ++ (switchNodes G sk).map (fun q => identity q.1 (side b q))

theorem mem_switchNodes {sk : List String} {q : String × String × String × String} :
    q ∈ switchNodes G sk ↔ ∃ k ∈ sk, producer G k = some (.switch q.1 q.2.1 q.2.2.1 q.2.2.2) := by
  unfold switchNodes
  rw [List.mem_filterMap]
  constructor
  · rintro ⟨k, hk, h⟩
    refine ⟨k, hk, ?_⟩
    split at h
    · rename_i hp
      cases h
      exact hp
    · cases h
  · rintro ⟨k, hk, h⟩
    exact ⟨k, hk, by rw [h]⟩

/-- What is collected for a branch of the whole conditional. -/
structure Collected (truth : V → Bool) (P : Plan) (ρ : String → Option V) (G₀ G : List (Node V)) (s : List String) (b : Bool) (keys sk : List String) : Prop where
  keysNodup : keys.Nodup
  skNodup : sk.Nodup
  nodes : ∀ k ∈ keys, InBranch truth P ρ G (P.loc s ++ [(s, b)]) k
  switches : ∀ k ∈ sk, ∃ d p o0 o1, producer G k = some (.switch d p o0 o1) ∧ k = o0 ∧ IsSwitch truth P ρ G₀ G s d p o0 o1
  closed : ∀ k ∈ keys, ∀ n, producer G k = some n → ∀ z ∈ n.uses, ∃ m, producer G z = some m ∧ (m.isSwitch = false → m.key ∈ keys) ∧ (m.isSwitch = true → m.key ∈ sk)

theorem Collected.switchNode {b : Bool} {keys sk : List String} (c : Collected truth P ρ G₀ G s b keys sk) {q : String × String × String × String} (hq : q ∈ switchNodes G sk) :
    q.2.2.1 ∈ sk ∧ IsSwitch truth P ρ G₀ G s q.1 q.2.1 q.2.2.1 q.2.2.2 := by
  obtain ⟨k, hk, hp⟩ := mem_switchNodes.1 hq
  obtain ⟨d, p, o0, o1, hp', rfl, hs⟩ := c.switches k hk
  rw [hp] at hp'
  cases hp'
  exact ⟨hk, hs⟩

theorem side_out {b : Bool} {q : String × String × String × String} (h : IsSwitch truth P ρ G₀ G s q.1 q.2.1 q.2.2.1 q.2.2.2) :
    side b q ∈ (Node.switch q.1 q.2.1 q.2.2.1 q.2.2.2 : Node V).outs ∧ P.label (side b q) = P.loc s ++ [(s, b)] ∧ P.rank q.1 < P.rank (side b q) ∧
      ∀ v, ρ (side b q) = some v → ρ q.1 = some v := by
  cases b with
  | true => exact ⟨by simp [side, Node.outs], h.out1, (h.rank _ (by simp)).2, fun v hv => (h.fires.2 v hv).1⟩
  | false => exact ⟨by simp [side, Node.outs], h.out0, (h.rank _ (by simp)).1, fun v hv => (h.fires.1 v hv).1⟩

/-- Every tensor of the branch whose producer is collected is produced in the body. -/
theorem Collected.produced (h : Setting truth P ρ G₀ S G s) {b : Bool} {keys sk : List String} (c : Collected truth P ρ G₀ G s b keys sk) {z : String} {m : Node V}
    (hl : P.label z = P.loc s ++ [(s, b)]) (hm : producer G z = some m) (h1 : m.isSwitch = false → m.key ∈ keys) (h2 : m.isSwitch = true → m.key ∈ sk) :
    Produced (bodyOf G b keys sk) z := by
  obtain ⟨hmG, hzm⟩ := producer_mem hm
  rcases h.source hmG hzm hl with ⟨hok, -⟩ | ⟨d, p, o0, o1, rfl, hsw, hz⟩
  · refine ⟨m, List.mem_append.2 (Or.inl (List.mem_filterMap.2 ⟨m.key, h1 (not_switch hok), producer_eq h.inv.nodup hmG (key_mem hzm)⟩)), hzm⟩
  · have hk : o0 ∈ sk := h2 rfl
    have hq : (d, p, o0, o1) ∈ switchNodes G sk := mem_switchNodes.2 ⟨o0, hk, producer_eq h.inv.nodup hmG (by simp [Node.outs])⟩
    refine ⟨identity d (side b (d, p, o0, o1)), List.mem_append.2 (Or.inr (List.mem_map.2 ⟨_, hq, rfl⟩)), ?_⟩
    simp only [identity, Node.outs, List.mem_singleton]
    exact hz

/-- The body of a branch. -/
theorem Collected.body (h : Setting truth P ρ G₀ S G s) {b : Bool} {keys sk : List String} (c : Collected truth P ρ G₀ G s b keys sk) :
    ((bodyOf G b keys sk).flatMap Node.outs).Nodup ∧ OkAll truth P ρ (P.loc s) s b (bodyOf G b keys sk) (bodyOf G b keys sk) := by
  have hu := h.inv.nodup
  constructor
  · unfold bodyOf
    rw [List.flatMap_append, List.nodup_append]
    refine ⟨?_, ?_, ?_⟩
    · rw [List.nodup_flatMap]
      constructor
      · intro n hn
        obtain ⟨k, -, hk⟩ := List.mem_filterMap.1 hn
        exact outs_nodup hu (producer_mem hk).1
      · unfold nodesOf
        rw [List.pairwise_filterMap]
        refine c.keysNodup.imp_of_mem (fun {k k'} hk hk' hne n hn n' hn' => ?_)
        intro z hz hz'
        have e := unique_out hu (producer_mem hn).1 (producer_mem hn').1 hz hz'
        subst e
        obtain ⟨m, hm, hkey, -⟩ := c.nodes k hk
        obtain ⟨m', hm', hkey', -⟩ := c.nodes k' hk'
        rw [hn] at hm
        rw [hn'] at hm'
        cases hm
        cases hm'
        exact hne (hkey.symm.trans hkey')
    · rw [List.flatMap_map]
      have e : (switchNodes G sk).flatMap (fun q => (identity q.1 (side b q) : Node V).outs) = (switchNodes G sk).map (side b) := by
        induction switchNodes G sk with
        | nil => rfl
        | cons q l ih =>
          rw [List.flatMap_cons, ih, List.map_cons]
          rfl
      rw [e]
      rw [List.Nodup, List.pairwise_map]
      unfold switchNodes
      rw [List.pairwise_filterMap]
      refine c.skNodup.imp_of_mem (fun {k k'} hk hk' hne q hq q' hq' => ?_)
      intro he
      obtain ⟨d, p, o0, o1, hp, rfl, hs⟩ := c.switches k hk
      obtain ⟨d', p', o0', o1', hp', rfl, hs'⟩ := c.switches k' hk'
      rw [hp] at hq
      rw [hp'] at hq'
      cases hq
      cases hq'
      have e1 := (side_out (b := b) (q := (d, p, k, o1)) hs).1
      have e2 := (side_out (b := b) (q := (d', p', k', o1')) hs').1
      rw [he] at e1
      have := unique_out hu hs.mem hs'.mem e1 e2
      cases this
      exact hne rfl
    · intro z hz z' hz' he
      subst he
      obtain ⟨n, hn, hz⟩ := List.mem_flatMap.1 hz
      obtain ⟨i, hi, hz'⟩ := List.mem_flatMap.1 hz'
      obtain ⟨q, hq, rfl⟩ := List.mem_map.1 hi
      obtain ⟨k, hk, hkn⟩ := List.mem_filterMap.1 hn
      obtain ⟨n', hn', -, hok, -⟩ := c.nodes k hk
      rw [hkn] at hn'
      cases hn'
      have hs := (c.switchNode hq).2
      have hzq : z = side b q := by simpa [identity, Node.outs] using hz'
      subst hzq
      have := unique_out hu (producer_mem hkn).1 hs.mem hz (side_out hs).1
      subst this
      rw [Ok] at hok
      exact hok
  · rw [okAll_iff]
    intro n hn
    rcases List.mem_append.1 hn with hn | hn
    · left
      obtain ⟨k, hk, hkn⟩ := List.mem_filterMap.1 hn
      obtain ⟨n', hn', -, hok, -⟩ := c.nodes k hk
      rw [hkn] at hn'
      cases hn'
      refine ⟨hok, fun z hz => ?_⟩
      obtain ⟨m, hm, h1, h2⟩ := c.closed k hk n hkn z hz
      exact c.produced h (uses_lab truth P ρ hok z hz) hm h1 h2
    · right
      obtain ⟨q, hq, rfl⟩ := List.mem_map.1 hn
      have hs := (c.switchNode hq).2
      obtain ⟨-, h1, h2, h3⟩ := side_out (b := b) hs
      exact ⟨q.1, side b q, rfl, hs.data, h1, h2, h3⟩

/-- Entries bring in what the `Switch` nodes read. -/
theorem Collected.entry {b : Bool} {keys sk : List String} (c : Collected truth P ρ G₀ G s b keys sk) {x y : String} (hi : identity x y ∈ bodyOf G b keys sk)
    (hl : P.label x = P.loc s) : ∃ q ∈ switchNodes G sk, x = q.1 := by
  rcases List.mem_append.1 hi with hi | hi
  · exfalso
    obtain ⟨k, hk, hkn⟩ := List.mem_filterMap.1 hi
    obtain ⟨n', hn', -, hok, -⟩ := c.nodes k hk
    rw [hkn] at hn'
    cases hn'
    have := uses_lab truth P ρ hok x (by simp [Node.uses, identity, Node.ins])
    rw [hl] at this
    have := congrArg List.length this
    simp at this
  · obtain ⟨q, hq, he⟩ := List.mem_map.1 hi
    refine ⟨q, hq, ?_⟩
    simp only [identity, Node.op.injEq, List.cons.injEq, and_true] at he
    exact he.2.2.1.symm

/-! ## All `Merge` nodes together -/

theorem mapM_ok {A B : Type} {f : A → Except String B} {l : List A} {r : List B} (h : l.mapM f = .ok r) :
    r.length = l.length ∧ ∀ (k : Nat) (a : A), l[k]? = some a → ∃ b, r[k]? = some b ∧ f a = .ok b := by
  induction l generalizing r with
  | nil =>
    cases h
    simp
  | cons a l ih =>
    rw [List.mapM_cons] at h
    cases ha : f a with
    | error e => rw [ha] at h; cases h
    | ok b =>
      rw [ha] at h
      cases hl : l.mapM f with
      | error e =>
        rw [hl] at h
        cases h
      | ok r' =>
        rw [hl] at h
        cases h
        obtain ⟨h1, h2⟩ := ih hl
        refine ⟨by simp [h1], fun k c hk => ?_⟩
        cases k with
        | zero =>
          simp only [List.getElem?_cons_zero, Option.some.injEq] at hk
          subst hk
          exact ⟨b, by simp, ha⟩
        | succ k =>
          simp only [List.getElem?_cons_succ] at hk ⊢
          exact h2 k c hk

/-- The traces of the `Merge` nodes. -/
structure Traces (P : Plan) (G : List (Node V)) (s : List String) (ms : List (String × String × String)) (ts : List Trace) : Prop where
  length : ts.length = ms.length
  right : ∀ (k : Nat) m, ms[k]? = some m → ∃ t, ts[k]? = some t ∧ Right P G s t m.1 m.2.1
  back : ∀ (k : Nat) t, ts[k]? = some t → ∃ m, ms[k]? = some m ∧ Right P G s t m.1 m.2.1

theorem Traces.mem {ms : List (String × String × String)} {ts : List Trace} (h : Traces P G s ms ts) {t : Trace} (ht : t ∈ ts) : ∃ m ∈ ms, Right P G s t m.1 m.2.1 := by
  obtain ⟨k, hk⟩ := List.mem_iff_getElem?.1 ht
  obtain ⟨m, hm, hr⟩ := h.back k t hk
  exact ⟨m, List.mem_of_getElem? hm, hr⟩

theorem mem_mergesOf {s : List String} {m : String × String × String} : m ∈ mergesOf G₀ s ↔ ∃ name, Node.merge name m.1 m.2.1 m.2.2 ∈ G₀ ∧ scopeOf name = s := by
  unfold mergesOf merges
  simp only [List.mem_map, List.mem_filter, List.mem_filterMap, decide_eq_true_eq]
  constructor
  · rintro ⟨q, ⟨⟨n, hn, hq⟩, hs⟩, rfl⟩
    split at hq
    · cases hq
      exact ⟨_, hn, hs⟩
    · cases hq
  · rintro ⟨name, hn, hs⟩
    exact ⟨(scopeOf name, m.1, m.2.1, m.2.2), ⟨⟨_, hn, rfl⟩, hs⟩, rfl⟩

theorem Setting.traces (h : Setting truth P ρ G₀ S G s) {ts : List Trace} (ht : traceAll G (mergesOf G₀ s) = .ok ts) : Traces P G s (mergesOf G₀ s) ts := by
  obtain ⟨h1, h2⟩ := mapM_ok ht
  have right : ∀ (k : Nat) m, (mergesOf G₀ s)[k]? = some m → ∃ t, ts[k]? = some t ∧ Right P G s t m.1 m.2.1 := by
    intro k m hm
    obtain ⟨t, ht, htr⟩ := h2 k m hm
    obtain ⟨name, hn, hs⟩ := mem_mergesOf.1 (List.mem_of_getElem? hm)
    obtain ⟨-, hl, -⟩ := h.made.nodes _ hn
    have hG := h.inv.keep _ _ _ _ hn (by rw [hs]; exact h.new)
    obtain ⟨pa, pb⟩ := (h.inv.merge _ _ _ _ hG).2 (by rw [hs]; exact h.live)
    rw [hs] at hl
    refine ⟨t, ht, ?_⟩
    rcases hl with ⟨hla, hlb⟩ | ⟨hla, hlb⟩
    · exact h.traced (c := false) hla hlb pa pb htr
    · exact h.traced (c := true) hla hlb pa pb htr
  refine ⟨h1, right, fun k t hk => ?_⟩
  have hlt : k < (mergesOf G₀ s).length := by
    rw [← h1]
    exact (List.getElem?_eq_some_iff.1 hk).1
  obtain ⟨t', ht', hr⟩ := right k _ (List.getElem?_eq_getElem hlt)
  rw [hk] at ht'
  cases ht'
  exact ⟨_, List.getElem?_eq_getElem hlt, hr⟩

theorem Setting.collect (h : Setting truth P ρ G₀ S G s) {ms : List (String × String × String)} {ts : List Trace} (ht : Traces P G s ms ts) :
    Collected truth P ρ G₀ G s true (ts.flatMap Trace.trueKeys).eraseDups (ts.flatMap Trace.switches).eraseDups ∧
      Collected truth P ρ G₀ G s false (ts.flatMap Trace.falseKeys).eraseDups (ts.flatMap Trace.switches).eraseDups := by
  have sws : ∀ k ∈ (ts.flatMap Trace.switches).eraseDups, ∃ d p o0 o1, producer G k = some (.switch d p o0 o1) ∧ k = o0 ∧ IsSwitch truth P ρ G₀ G s d p o0 o1 := by
    intro k hk
    obtain ⟨t, htm, hk⟩ := List.mem_flatMap.1 (List.mem_eraseDups.1 hk)
    obtain ⟨m, -, hr⟩ := ht.mem htm
    rcases (hr.switches k).1 hk with hk | hk
    · exact h.switches hr.true_ hr.prodT hk
    · exact h.switches hr.false_ hr.prodF hk
  have close : ∀ (b : Bool) (x : String), P.label x = P.loc s ++ [(s, b)] → Produced G x → ∀ k ∈ branchKeys G x, ∀ n, producer G k = some n → ∀ z ∈ n.uses,
      ∃ m, producer G z = some m ∧ (m.isSwitch = false → m.key ∈ branchKeys G x) ∧ (m.isSwitch = true → m.key ∈ switchKeys G x) := by
    intro b x hl hp k hk n hn z hz
    obtain ⟨m, hm, hm'⟩ := (h.collected hl hp).2 z (Or.inr ⟨k, hk, n, hn, hz⟩)
    refine ⟨m, hm, hm', fun hs => ?_⟩
    unfold switchKeys
    refine List.mem_map.2 ⟨m, List.mem_filter.2 ⟨List.mem_filterMap.2 ⟨z, List.mem_cons.2 (Or.inr (List.mem_flatMap.2 ⟨n, List.mem_filterMap.2 ⟨k, hk, hn⟩, hz⟩)), hm⟩, hs⟩, rfl⟩
  constructor
  · refine ⟨nodup_eraseDups _ _ (Nat.le_refl _), nodup_eraseDups _ _ (Nat.le_refl _), ?_, sws, ?_⟩
    · intro k hk
      obtain ⟨t, htm, hk⟩ := List.mem_flatMap.1 (List.mem_eraseDups.1 hk)
      obtain ⟨m, -, hr⟩ := ht.mem htm
      rw [hr.trueKeys] at hk
      exact (h.collected hr.true_ hr.prodT).1 k hk
    · intro k hk n hn z hz
      obtain ⟨t, htm, hk⟩ := List.mem_flatMap.1 (List.mem_eraseDups.1 hk)
      obtain ⟨m, -, hr⟩ := ht.mem htm
      rw [hr.trueKeys] at hk
      obtain ⟨m', h1, h2, h3⟩ := close true _ hr.true_ hr.prodT k hk n hn z hz
      refine ⟨m', h1, fun hs => List.mem_eraseDups.2 (List.mem_flatMap.2 ⟨t, htm, by rw [hr.trueKeys]; exact h2 hs⟩),
        fun hs => List.mem_eraseDups.2 (List.mem_flatMap.2 ⟨t, htm, (hr.switches _).2 (Or.inl (h3 hs))⟩)⟩
  · refine ⟨nodup_eraseDups _ _ (Nat.le_refl _), nodup_eraseDups _ _ (Nat.le_refl _), ?_, sws, ?_⟩
    · intro k hk
      obtain ⟨t, htm, hk⟩ := List.mem_flatMap.1 (List.mem_eraseDups.1 hk)
      obtain ⟨m, -, hr⟩ := ht.mem htm
      rw [hr.falseKeys] at hk
      exact (h.collected hr.false_ hr.prodF).1 k hk
    · intro k hk n hn z hz
      obtain ⟨t, htm, hk⟩ := List.mem_flatMap.1 (List.mem_eraseDups.1 hk)
      obtain ⟨m, -, hr⟩ := ht.mem htm
      rw [hr.falseKeys] at hk
      obtain ⟨m', h1, h2, h3⟩ := close false _ hr.false_ hr.prodF k hk n hn z hz
      refine ⟨m', h1, fun hs => List.mem_eraseDups.2 (List.mem_flatMap.2 ⟨t, htm, by rw [hr.falseKeys]; exact h2 hs⟩),
        fun hs => List.mem_eraseDups.2 (List.mem_flatMap.2 ⟨t, htm, (hr.switches _).2 (Or.inr (h3 hs))⟩)⟩

/-- The outputs of a branch are produced in it. -/
theorem Setting.branchOut (h : Setting truth P ρ G₀ S G s) {b : Bool} {keys sk : List String} (c : Collected truth P ρ G₀ G s b keys sk) {x : String}
    (hl : P.label x = P.loc s ++ [(s, b)]) (hp : Produced G x) (hk : ∀ k ∈ branchKeys G x, k ∈ keys) (hs : ∀ k ∈ switchKeys G x, k ∈ sk) :
    Produced (bodyOf G b keys sk) x := by
  obtain ⟨m, hm, hm'⟩ := (h.collected hl hp).2 x (Or.inl rfl)
  refine c.produced h hl hm (fun h1 => hk _ (hm' h1)) (fun h1 => hs _ ?_)
  unfold switchKeys
  exact List.mem_map.2 ⟨m, List.mem_filter.2 ⟨List.mem_filterMap.2 ⟨x, by simp, hm⟩, h1⟩, rfl⟩

end Verif.Cond
