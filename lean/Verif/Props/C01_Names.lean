import Verif.Model.Names
/-!
# C01, C02: generated names are fresh; tensor/node name conversion
-/
namespace Verif.Names
open Verif Decimal

/-! ## Specification -/

/-- `b` is the graph `g` itself or a body nested in it at any depth. -/
inductive Nested : ProtoGraph → ProtoGraph → Prop
  | self (g) : Nested g g
  | body {g b h} : b ∈ g.bodies → Nested b h → Nested g h

/-- Names in use by the nodes (node names and their output tensors) of a model, at any nesting depth. -/
def NodeNameInUse (g : ProtoGraph) (n : Str) : Prop := ∃ b, Nested g b ∧ n ∈ b.nodeNames

/-! ## Lemmas -/

theorem mem_subgraphsFrom {stack : List ProtoGraph} {g h : ProtoGraph}
    (hg : g ∈ stack) (hn : Nested g h) : h ∈ subgraphsFrom stack := by
  induction stack using subgraphsFrom.induct generalizing g with
  | case1 => simp at hg
  | case2 a rest ih =>
    rw [subgraphsFrom]
    rcases List.mem_cons.1 hg with rfl | hg
    · cases hn with
      | self => simp
      | body hb hn => exact List.mem_cons_of_mem _ (ih (by simp [hb]) hn)
    · exact List.mem_cons_of_mem _ (ih (by simp [hg]) hn)

theorem le_avoidName (c : Nat) (n : Str) : c ≤ avoidName c n := by
  unfold avoidName; split <;> omega

theorem le_foldl_avoidName (l : List Str) (c : Nat) : c ≤ l.foldl avoidName c := by
  induction l generalizing c with
  | nil => simp
  | cons a l ih => exact Nat.le_trans (le_avoidName c a) (ih _)

theorem lt_foldl_avoidName {l : List Str} {n : Str} {k c : Nat} (hn : n ∈ l)
    (hk : suffixNumber n = some k) : k < l.foldl avoidName c := by
  induction l generalizing c with
  | nil => simp at hn
  | cons a l ih =>
    rcases List.mem_cons.1 hn with rfl | hn
    · have := le_foldl_avoidName l (avoidName c n)
      simp only [avoidName, hk, List.foldl_cons] at this ⊢
      omega
    · exact ih hn

theorem le_foldl_graphs (gs : List ProtoGraph) (c : Nat) :
    c ≤ gs.foldl (fun c sg => sg.nodeNames.foldl avoidName c) c := by
  induction gs generalizing c with
  | nil => simp
  | cons a l ih => exact Nat.le_trans (le_foldl_avoidName _ c) (ih _)

theorem lt_foldl_graphs {gs : List ProtoGraph} {g : ProtoGraph} {n : Str} {k c : Nat} (hg : g ∈ gs)
    (hn : n ∈ g.nodeNames) (hk : suffixNumber n = some k) :
    k < gs.foldl (fun c sg => sg.nodeNames.foldl avoidName c) c := by
  induction gs generalizing c with
  | nil => simp at hg
  | cons a l ih =>
    rcases List.mem_cons.1 hg with rfl | hg
    · exact Nat.lt_of_lt_of_le (lt_foldl_avoidName hn hk) (le_foldl_graphs l _)
    · exact ih hg

theorem takeWhile_append_stop {p : Char → Bool} {l r : Str} {c : Char} (hl : ∀ x ∈ l, p x = true)
    (hc : p c = false) : (l ++ c :: r).takeWhile p = l := by
  induction l with
  | nil => simp [hc]
  | cons a l ih =>
    have ha := hl a (by simp)
    simp [ha]
    exact ih (fun x hx => hl x (by simp [hx]))

theorem dropWhile_append_stop {p : Char → Bool} {l r : Str} {c : Char} (hl : ∀ x ∈ l, p x = true)
    (hc : p c = false) : (l ++ c :: r).dropWhile p = c :: r := by
  induction l with
  | nil => simp [hc]
  | cons a l ih =>
    have ha := hl a (by simp)
    simp [ha]
    exact ih (fun x hx => hl x (by simp [hx]))

theorem suffixRev_generated (b : Str) (k : Nat) :
    suffixRev ((render k).reverse ++ '_' :: '_' :: b) = some k := by
  have hd : ∀ x ∈ (render k).reverse, isDigit x = true := by
    intro x hx; exact all_isDigit_render k x (by simpa using hx)
  have h1 := takeWhile_append_stop (r := '_' :: b) hd (show isDigit '_' = false by decide)
  have h2 := dropWhile_append_stop (r := '_' :: b) hd (show isDigit '_' = false by decide)
  unfold suffixRev
  rw [h1, h2]
  have hne := render_ne_nil k
  cases hr : (render k).reverse with
  | nil => simp at hr; exact absurd hr hne
  | cons x xs =>
    have hx : (x :: xs).reverse = render k := by rw [← hr, List.reverse_reverse]
    simp only [Option.some.injEq]
    rw [hx, parse_render]

/-- A generated node name carries its number. -/
theorem suffixNumber_generated (b : Str) (k : Nat) :
    suffixNumber (b ++ ['_', '_'] ++ render k) = some k := by
  unfold suffixNumber
  have : (b ++ ['_', '_'] ++ render k).reverse = (render k).reverse ++ '_' :: '_' :: b.reverse := by simp
  simp only [this, suffixRev_generated]

/-- So does every output tensor of a generated node. -/
theorem suffixNumber_generated_port (b : Str) (k i : Nat) :
    suffixNumber (portName (b ++ ['_', '_'] ++ render k) i) = some k := by
  unfold suffixNumber portName
  have hrev : (b ++ ['_', '_'] ++ render k ++ [':'] ++ render i).reverse
      = (render i).reverse ++ ':' :: ((render k).reverse ++ '_' :: '_' :: b.reverse) := by simp
  have hd : ∀ x ∈ (render i).reverse, isDigit x = true := by
    intro x hx; exact all_isDigit_render i x (by simpa using hx)
  have h1 := takeWhile_append_stop (r := (render k).reverse ++ '_' :: '_' :: b.reverse) hd
    (show isDigit ':' = false by decide)
  have h2 := dropWhile_append_stop (r := (render k).reverse ++ '_' :: '_' :: b.reverse) hd
    (show isDigit ':' = false by decide)
  rw [hrev]
  simp only [h1, h2]
  have hne := render_ne_nil i
  cases hr : (render i).reverse with
  | nil => simp at hr; exact absurd hr hne
  | cons x xs =>
    have : suffixRev ((x :: xs) ++ ':' :: ((render k).reverse ++ '_' :: '_' :: b.reverse)) = none := by
      rw [← hr]; unfold suffixRev; simp only [h1, h2]; rw [hr]; rfl
    simp only [this]
    exact suffixRev_generated _ _

theorem makeNames_mem {c : Nat} {bs : List Str} {n : Str} (h : n ∈ (makeNames c bs).2) :
    ∃ b k, c < k ∧ n = b ++ ['_', '_'] ++ render k := by
  induction bs generalizing c with
  | nil => simp [makeNames] at h
  | cons b bs ih =>
    simp only [makeNames, makeName] at h
    rcases List.mem_cons.1 h with rfl | h
    · exact ⟨b, c + 1, by omega, rfl⟩
    · obtain ⟨b', k, hk, rfl⟩ := ih h
      exact ⟨b', k, by omega, rfl⟩

/-! ## Theorems -/

/-- C01 (part 1): in any history of `make_name` calls all results are pairwise distinct, whatever the base
names (also when base names look like generated names). -/
theorem make_name_results_distinct (c : Nat) (bases : List Str) :
    ((makeNames c bases).2).Pairwise (· ≠ ·) := by
  induction bases generalizing c with
  | nil => simp [makeNames]
  | cons b bs ih =>
    simp only [makeNames, makeName, List.pairwise_cons]
    refine ⟨?_, ih _⟩
    intro n hn heq
    obtain ⟨b', k, hk, rfl⟩ := makeNames_mem hn
    have h1 := suffixNumber_generated b (c + 1)
    have h2 := suffixNumber_generated b' k
    rw [heq, h2] at h1
    simp at h1; omega

/-- C01 (part 2): after `initialize_name_counter(model)`, no later `make_name` result is the name of a node or a
node-produced tensor that the model already holds, at any nesting depth; nor is any tensor name derived from
such a result by `port_name`. -/
theorem make_name_fresh_after_initialize (c : Nat) (g : ProtoGraph) (bases : List Str) (used : Str)
    (hused : NodeNameInUse g used) (n : Str)
    (hn : n ∈ (makeNames (initializeNameCounter c g) bases).2) :
    n ≠ used ∧ ∀ i, portName n i ≠ used := by
  obtain ⟨b, hb, hu⟩ := hused
  obtain ⟨b', k, hk, rfl⟩ := makeNames_mem hn
  have hmem := mem_subgraphsFrom (stack := [g]) (by simp) hb
  constructor
  · rintro rfl
    have := lt_foldl_graphs (c := c) hmem hu (suffixNumber_generated b' k)
    unfold initializeNameCounter at hk; omega
  · rintro i rfl
    have := lt_foldl_graphs (c := c) hmem hu (suffixNumber_generated_port b' k i)
    unfold initializeNameCounter at hk; omega

/-- The hypotheses of the previous theorem are met by a model whose *nested* body holds a generated-looking
tensor name. -/
example : NodeNameInUse (.mk [] [] [("a".toList, ["a:0".toList])]
    [.mk [] [] [("w__41".toList, ["w__41:0".toList])] []]) "w__41:0".toList :=
  ⟨_, .body (by simp [ProtoGraph.bodies]; rfl) (.self _), by simp [ProtoGraph.nodeNames]⟩

example : (makeNames (initializeNameCounter 1 (.mk [] [] [("a".toList, ["a:0".toList])]
    [.mk [] [] [("w__41".toList, ["w__41:0".toList])] []])) ["w".toList]).2 = ["w__43".toList] := by
  simp [initializeNameCounter, subgraphsFrom, ProtoGraph.bodies, ProtoGraph.nodeNames, makeNames]
  decide

/-- Every name that is in use anywhere in the graph, as the English property C01 wants it. -/
def NameInUse : ProtoGraph → Str → Prop
  | .mk ins inits nodes bodies, n => n ∈ ins ∨ n ∈ inits ∨ NodeNameInUse (.mk ins inits nodes bodies) n

/-- C01 is *violated* for graph inputs and initializers: `initialize_name_counter` does not look at them, so
`make_name` can return the name of an existing initializer (here `w__3`, produced for base `w` by the
second call). -/
theorem make_name_collides_with_initializer_violated :
    ∃ (g : ProtoGraph) (bases : List Str) (n : Str),
      n ∈ (makeNames (initializeNameCounter 1 g) bases).2 ∧ NameInUse g n :=
  ⟨.mk [] ["w__3".toList] [("n".toList, ["n:0".toList])] [], ["u".toList, "w".toList], "w__3".toList,
    by
      simp [initializeNameCounter, subgraphsFrom, ProtoGraph.bodies, ProtoGraph.nodeNames, makeNames]
      decide,
    Or.inr (Or.inl (by simp))⟩

/-- C02: `node_name(port_name(n, i)) == n` for every node name without a colon. -/
theorem node_name_port_name (n : Str) (i : Nat) (h : ':' ∉ n) : nodeName (portName n i) = n := by
  unfold nodeName portName
  have := takeWhile_append_stop (p := fun c => c != ':') (l := n) (r := render i) (c := ':')
    (by intro x hx; simp; rintro rfl; exact h hx) (by decide)
  simpa using this

/-- C02: it is also *only* then that the node name is recovered. -/
theorem node_name_port_name_iff (n : Str) (i : Nat) : nodeName (portName n i) = n ↔ ':' ∉ n := by
  refine ⟨fun h hc => ?_, node_name_port_name n i⟩
  rw [← h] at hc
  have : ∀ (l : Str) (p : Char → Bool), ∀ x ∈ l.takeWhile p, p x = true := by
    intro l p
    induction l with
    | nil => simp
    | cons a l ih =>
      intro x hx
      rw [List.takeWhile_cons] at hx
      split at hx
      · rcases List.mem_cons.1 hx with rfl | hx
        · assumption
        · exact ih x hx
      · simp at hx
  simpa using this _ _ _ hc

/-- C02: tensor names determine node name and port, for *every* pair of node names. -/
theorem port_name_injective (n m : Str) (i j : Nat) (h : portName n i = portName m j) : n = m ∧ i = j := by
  unfold portName at h
  have hr := congrArg List.reverse h
  simp only [List.reverse_append, List.reverse_cons, List.reverse_nil, List.nil_append,
    List.append_assoc, List.singleton_append] at hr
  have hd : ∀ k, ∀ x ∈ (render k).reverse, isDigit x = true := by
    intro k x hx; exact all_isDigit_render k x (by simpa using hx)
  have h1 := congrArg (List.takeWhile isDigit) hr
  have h2 := congrArg (List.dropWhile isDigit) hr
  rw [takeWhile_append_stop (hd i) (by decide), takeWhile_append_stop (hd j) (by decide)] at h1
  rw [dropWhile_append_stop (hd i) (by decide), dropWhile_append_stop (hd j) (by decide)] at h2
  simp at h1 h2
  exact ⟨h2, render_injective h1⟩

example : nodeName (portName "model/dense".toList 12) = "model/dense".toList ∧
    portName "model/dense".toList 12 = "model/dense:12".toList := by
  decide

end Verif.Names
