import Verif.Props.C56_LstmMain
import Mathlib.Data.List.Sort
/-!
# C56: stacks of LSTM cells

`MultiRNNCell` runs all cells in every step; the rewriter makes one node for each cell, and each node runs over the whole sequence.
-/
set_option linter.unusedSectionVars false
namespace Verif.Rnn
open Verif.Tensor Verif.Emit

variable {K : Type} [Field K] [LinearOrder K]

/-! ## Statement -/

/-- One step of a layer: the cell reads `pre x`. -/
def Layer.step (A : String → K → K) (l : Layer K) (s : Lstm K) (x : Nat → K) : Lstm K := l.cell.step A s (l.pre x)

/-- The sizes fit: the first cell reads `I` values, every other one what the cell before gives. -/
def SizesFit : Nat → List (Layer K) → Prop
  | _, [] => True
  | I, l :: ls => l.cell.I = I ∧ SizesFit l.cell.H ls

/-- The initial states have the right shapes. -/
def InitsFit (N : Nat) : List (Layer K) → List (T K × T K) → Prop
  | [], [] => True
  | l :: ls, i :: is => i.1.shape = [N, l.cell.H] ∧ i.2.shape = [N, l.cell.H] ∧ InitsFit N ls is
  | _, _ => False

/-- Size of the output of a stack. -/
def outSize : Nat → List (Layer K) → Nat
  | I, [] => I
  | _, l :: ls => outSize l.cell.H ls

/-- The initial states of batch `n`. -/
def initStates (init : List (T K × T K)) (n : Nat) : List (Lstm K) := init.map (fun i => tfInit i.1 i.2 n)

/-- The state of cell number `k`. -/
def nthState (p : Lstm K → Nat → K) (k : Nat) (ss : List (Lstm K)) : Nat → K := (ss[k]?.map p).getD (fun _ => 0)

/-! ## Congruence -/

theorem row3_congr {X Y : T K} {a b c : Nat} (h : Same X Y) (hX : X.shape = [a, b, c]) {t n : Nat} (ht : t < a) (hn : n < b) : row3 X t n = row3 Y t n := by
  unfold row3
  have hs := h.1
  rw [← hs, hX]
  refine vec_congr (fun i hi => h.2 _ ?_)
  rw [hX]
  refine ⟨rfl, ?_⟩
  intro k hk
  match k, hk with
  | 0, _ => exact ht
  | 1, _ => exact hn
  | 2, _ => exact hi
  | k + 3, hk => simp at hk

variable {S X : Type}

theorem dynState_congr {step : S → X → S} {len : Nat} {s : S} {x y : Nat → X} (h : ∀ i < len, x i = y i) : ∀ t, dynState step len s x t = dynState step len s y t
  | 0 => rfl
  | t + 1 => by
    show (if len ≤ t then _ else _) = if len ≤ t then _ else _
    rw [dynState_congr h t]
    by_cases e : len ≤ t
    · rw [if_pos e, if_pos e]
    · rw [if_neg e, if_neg e, h t (by omega)]

theorem dynState_step {f g : S → X → S} {len : Nat} {s : S} {x : Nat → X} (h : ∀ s x, f s x = g s x) (t : Nat) : dynState f len s x t = dynState g len s x t := by
  have : f = g := by funext s x; exact h s x
  rw [this]

/-- Steps of a stack are steps of the first cell, and steps of the rest, that reads the outputs of the first. -/
theorem dyn_stack {out : S → X} {f : S → X → S} {fs : List (S → X → S)} {len : Nat} {s : S} {ss : List S} {x : Nat → X} : ∀ t,
    dynState (stackStep out (f :: fs)) len (s :: ss) x t =
      dynState f len s x t :: dynState (stackStep out fs) len ss (fun t => out (f (dynState f len s x t) (x t))) t
  | 0 => rfl
  | t + 1 => by
    show (if len ≤ t then _ else _) = (if len ≤ t then _ else _) :: (if len ≤ t then _ else _)
    rw [dyn_stack t]
    by_cases e : len ≤ t
    · rw [if_pos e, if_pos e, if_pos e]
    · rw [if_neg e, if_neg e, if_neg e]
      rfl

theorem stack_length {out : S → X} : ∀ {fs : List (S → X → S)} {ss : List S} {x : X}, ss.length = fs.length → (stackStep out fs ss x).length = fs.length
  | [], _, _, _ => rfl
  | f :: fs, [], _, h => by simp at h
  | f :: fs, s :: ss, x, h => by
    show (stackStep out fs ss _).length + 1 = _
    rw [stack_length (by simpa using h)]
    rfl

theorem dyn_length {out : S → X} {fs : List (S → X → S)} {ss : List S} {len : Nat} {x : Nat → X} (h : ss.length = fs.length) :
    ∀ t, (dynState (stackStep out fs) len ss x t).length = fs.length
  | 0 => h
  | t + 1 => by
    show List.length (if len ≤ t then _ else _) = _
    by_cases e : len ≤ t
    · rw [if_pos e]; exact dyn_length h t
    · rw [if_neg e]; exact stack_length (dyn_length h t)

theorem tfOut_congr {S : Type} {step : S → (Nat → K) → S} {out : S → Nat → K} {H len N I : Nat} {s0 : Nat → S} {X Y : T K} {lens : Option (Nat → Nat)}
    (b : Batch X lens len N I) (h : Same X Y) : Same (tfOut step out H s0 X lens) (tfOut step out H s0 Y lens) := by
  refine ⟨by show [_, _, _] = [_, _, _]; rw [h.1], ?_⟩
  intro idx hi
  have hsh : (tfOut step out H s0 X lens).shape = [len, N, H] := by show [nth X.shape 0, nth X.shape 1, H] = _; rw [b.X]; rfl
  rw [hsh] at hi
  obtain ⟨t, n, j, rfl, ht, hn, hj⟩ := InB_three hi
  have hle := lenOf_le b hn
  show (if lenOf (nth X.shape 0) lens n ≤ t then 0 else out (step (dynState step (lenOf (nth X.shape 0) lens n) (s0 n) (row3 X · n) t) (row3 X t n)) j) =
    if lenOf (nth Y.shape 0) lens n ≤ t then 0 else out (step (dynState step (lenOf (nth Y.shape 0) lens n) (s0 n) (row3 Y · n) t) (row3 Y t n)) j
  have e0 : nth X.shape 0 = len := by rw [b.X]; rfl
  rw [← h.1]
  rw [e0] at hle ⊢
  rw [row3_congr h b.X ht hn, dynState_congr (y := (row3 Y · n)) (fun i hi => row3_congr h b.X (by omega) hn) t]

theorem tfState_congr {S : Type} {step : S → (Nat → K) → S} {out : S → Nat → K} {H len N I : Nat} {s0 : Nat → S} {X Y : T K} {lens : Option (Nat → Nat)}
    (b : Batch X lens len N I) (h : Same X Y) : Same (tfState step out H s0 X lens) (tfState step out H s0 Y lens) := by
  refine ⟨by show [_, _] = [_, _]; rw [h.1], ?_⟩
  intro idx hi
  have hsh : (tfState step out H s0 X lens).shape = [N, H] := by show [nth X.shape 1, H] = _; rw [b.X]; rfl
  rw [hsh] at hi
  obtain ⟨n, j, rfl, hn, hj⟩ := InB_two hi
  have hle := lenOf_le b hn
  show out (dynState step (lenOf (nth X.shape 0) lens n) (s0 n) (row3 X · n) (nth X.shape 0)) j =
    out (dynState step (lenOf (nth Y.shape 0) lens n) (s0 n) (row3 Y · n) (nth Y.shape 0)) j
  have e0 : nth X.shape 0 = len := by rw [b.X]; rfl
  rw [← h.1]
  rw [e0] at hle ⊢
  rw [dynState_congr (y := (row3 Y · n)) (fun i hi => row3_congr h b.X (by omega) hn)]

/-! ## One cell after another -/

/-- The output of a cell is a vector of length `H`. -/
theorem step_vec (A : String → K → K) (c : TfLstm K) (s : Lstm K) (x : Nat → K) : vec c.H (c.step A s x).h = (c.step A s x).h := by
  have : ∀ f : Nat → K, vec c.H (vec c.H f) = vec c.H f := by
    intro f
    funext i
    unfold vec
    by_cases h : i < c.H
    · rw [if_pos h, if_pos h]
    · rw [if_neg h, if_neg h]
  exact this _

/-- What the next cell reads. -/
theorem row_tfOut (A : String → K → K) (c : TfLstm K) {s0 : Nat → Lstm K} {X : T K} {lens : Option (Nat → Nat)} {t n : Nat}
    (h : t < lenOf (nth X.shape 0) lens n) :
    row3 (tfOut (c.step A) Lstm.h c.H s0 X lens) t n =
      (c.step A (dynState (c.step A) (lenOf (nth X.shape 0) lens n) (s0 n) (row3 X · n) t) (row3 X t n)).h := by
  unfold row3
  show vec c.H (fun i => if lenOf (nth X.shape 0) lens n ≤ t then 0 else _) = _
  rw [← step_vec]
  refine vec_congr (fun i _ => ?_)
  rw [if_neg (by omega)]
  rfl

theorem stack_out (A : String → K → K) (c : TfLstm K) {f : Lstm K → (Nat → K) → Lstm K} {fs : List (Lstm K → (Nat → K) → Lstm K)} {H : Nat} {s0 : Nat → Lstm K} {r0 : Nat → Lstm K} {ss0 : Nat → List (Lstm K)}
    {X : T K} {lens : Option (Nat → Nat)} {len N I : Nat} (_b : Batch X lens len N I) (hl : ∀ n, (ss0 n).length = fs.length) :
    Same (tfOut (stackStep Lstm.h (f :: fs)) lastH H (fun n => r0 n :: ss0 n) (tfOut (c.step A) Lstm.h c.H s0 X lens) lens)
      (tfOut (stackStep Lstm.h (c.step A :: f :: fs)) lastH H (fun n => s0 n :: r0 n :: ss0 n) X lens) := by
  have hsh : (tfOut (c.step A) Lstm.h c.H s0 X lens).shape = [nth X.shape 0, nth X.shape 1, c.H] := rfl
  refine ⟨rfl, ?_⟩
  intro idx hi
  have hi' : InB [nth X.shape 0, nth X.shape 1, H] idx := hi
  obtain ⟨t, n, j, rfl, ht, hn, hj⟩ := InB_three hi'
  show (if lenOf (nth X.shape 0) lens n ≤ t then (0 : K) else lastH (stackStep Lstm.h (f :: fs) (dynState _ (lenOf (nth X.shape 0) lens n) _ _ t) _) j) =
    if lenOf (nth X.shape 0) lens n ≤ t then 0 else lastH (stackStep Lstm.h (c.step A :: f :: fs) (dynState _ (lenOf (nth X.shape 0) lens n) _ _ t) _) j
  by_cases hlt : lenOf (nth X.shape 0) lens n ≤ t
  · rw [if_pos hlt, if_pos hlt]
  · rw [if_neg hlt, if_neg hlt, dyn_stack (f := c.step A)]
    simp only [show nth [t, n, j] 1 = n from rfl, show nth [t, n, j] 0 = t from rfl]
    rw [dynState_congr (x := fun t => row3 (tfOut (c.step A) Lstm.h c.H s0 X lens) t n) (fun i hi => row_tfOut A c hi), row_tfOut A c (by omega)]
    show _ = lastH (c.step A _ _ :: stackStep Lstm.h (f :: fs) _ _) j
    have hlen := dyn_length (out := Lstm.h) (fs := f :: fs) (ss := r0 n :: ss0 n) (len := lenOf (nth X.shape 0) lens n)
      (x := fun t => (c.step A (dynState (c.step A) (lenOf (nth X.shape 0) lens n) (s0 n) (row3 X · n) t) (row3 X t n)).h) (by simp [hl n]) t
    obtain ⟨a, l, e⟩ := List.exists_cons_of_length_eq_add_one (n := fs.length) (hlen.trans (by simp))
    rw [e]
    rfl

theorem stack_state_zero (A : String → K → K) (c : TfLstm K) (p : Lstm K → Nat → K) {fs : List (Lstm K → (Nat → K) → Lstm K)} {H : Nat} {s0 : Nat → Lstm K} {ss0 : Nat → List (Lstm K)}
    {X : T K} {lens : Option (Nat → Nat)} :
    Same (tfState (c.step A) p H s0 X lens) (tfState (stackStep Lstm.h (c.step A :: fs)) (nthState p 0) H (fun n => s0 n :: ss0 n) X lens) := by
  refine ⟨rfl, fun idx _ => ?_⟩
  show p (dynState _ _ _ _ _) _ = nthState p 0 (dynState _ _ _ _ _) _
  rw [dyn_stack]
  rfl

theorem stack_state_succ (A : String → K → K) (c : TfLstm K) (p : Lstm K → Nat → K) {k : Nat} {fs : List (Lstm K → (Nat → K) → Lstm K)} {H : Nat} {s0 : Nat → Lstm K}
    {ss0 : Nat → List (Lstm K)} {X : T K} {lens : Option (Nat → Nat)} :
    Same (tfState (stackStep Lstm.h fs) (nthState p k) H ss0 (tfOut (c.step A) Lstm.h c.H s0 X lens) lens)
      (tfState (stackStep Lstm.h (c.step A :: fs)) (nthState p (k + 1)) H (fun n => s0 n :: ss0 n) X lens) := by
  refine ⟨rfl, fun idx _ => ?_⟩
  show nthState p k (dynState _ (lenOf (nth X.shape 0) lens (nth idx 0)) _ _ (nth X.shape 0)) _ =
    nthState p (k + 1) (dynState _ (lenOf (nth X.shape 0) lens (nth idx 0)) _ _ (nth X.shape 0)) _
  rw [dyn_stack (f := c.step A)]
  rw [dynState_congr (x := fun t => row3 (tfOut (c.step A) Lstm.h c.H s0 X lens) t (nth idx 0)) (fun i hi => row_tfOut A c hi)]
  rfl

/-! ## The nodes -/

/-- The nodes agree with the cells. -/
def NodesAgree (A : String → K → K) : List (Layer K) → List (LstmNode K) → Prop
  | [], [] => True
  | l :: ls, nd :: nds => LstmAgrees A (l.cell.step A) l.cell.I l.cell.H nd ∧ NodesAgree A ls nds
  | _, _ => False

/-- What the nodes compute for a stack. -/
def StackAgrees (A : String → K → K) (ls : List (Layer K)) (nds : List (LstmNode K)) (I : Nat) : Prop :=
  ∀ (X : T K) (lens : Option (Nat → Nat)) (len N : Nat) (init : List (T K × T K)), Batch X lens len N I → InitsFit N ls init →
    Same (runNodes A lens nds init X).1 (tfOut (stackStep Lstm.h (ls.map (Layer.step A))) lastH (outSize I ls) (initStates init) X lens) ∧
    ∀ k (hk : k < ls.length), ∃ p, (runNodes A lens nds init X).2[k]? = some p ∧
      Same p.1 (tfState (stackStep Lstm.h (ls.map (Layer.step A))) (nthState Lstm.h k) ls[k].cell.H (initStates init) X lens) ∧
      Same p.2 (tfState (stackStep Lstm.h (ls.map (Layer.step A))) (nthState Lstm.c k) ls[k].cell.H (initStates init) X lens)

theorem initsFit_length {N : Nat} : ∀ {ls : List (Layer K)} {init : List (T K × T K)}, InitsFit N ls init → init.length = ls.length
  | [], [], _ => rfl
  | [], _ :: _, h => h.elim
  | _ :: _, [], h => h.elim
  | _ :: ls, _ :: is, h => by
    show is.length + 1 = ls.length + 1
    rw [initsFit_length h.2.2]

theorem step_pre (A : String → K → K) {l : Layer K} (h : l.pre = id) : l.step A = l.cell.step A := by
  funext s x
  unfold Layer.step
  rw [h]; rfl

theorem single_out (A : String → K → K) (c : TfLstm K) {H : Nat} {s0 : Nat → Lstm K} {X : T K} {lens : Option (Nat → Nat)} :
    Same (tfOut (c.step A) Lstm.h H s0 X lens) (tfOut (stackStep Lstm.h [c.step A]) lastH H (fun n => [s0 n]) X lens) := by
  refine ⟨rfl, fun idx _ => ?_⟩
  show (if _ then (0 : K) else _) = if _ then 0 else lastH (stackStep Lstm.h [c.step A] (dynState _ _ _ _ _) _) _
  rw [dyn_stack]
  rfl

theorem nodes_stack (A : String → K → K) : ∀ {ls : List (Layer K)} {nds : List (LstmNode K)} {I : Nat}, ls ≠ [] → (∀ l ∈ ls, l.pre = id) → SizesFit I ls →
    NodesAgree A ls nds → StackAgrees A ls nds I
  | [], _, _, h, _, _, _ => absurd rfl h
  | [l], [], _, _, _, _, h => h.elim
  | [l], [nd], I, _, hp, hs, h => by
    intro X lens len N init b hi
    match init, hi with
    | [i], hi =>
      obtain ⟨hI, _⟩ := hs
      rw [← hI] at b
      obtain ⟨a1, a2, a3⟩ := h.1.2 X lens len N i.1 i.2 b hi.1 hi.2.1
      have e : [l].map (Layer.step A) = [l.cell.step A] := by
        show [l.step A] = _
        rw [step_pre A (hp l (by simp))]
      rw [e]
      refine ⟨a1.trans (single_out A l.cell), ?_⟩
      intro k hk
      have hk0 : k = 0 := by simpa using hk
      subst hk0
      exact ⟨_, rfl, a2.trans (stack_state_zero A l.cell Lstm.h (ss0 := fun _ => [])), a3.trans (stack_state_zero A l.cell Lstm.c (ss0 := fun _ => []))⟩
  | [l], _ :: _ :: _, _, _, _, _, h => h.2.elim
  | l :: l2 :: ls, [], _, _, _, _, h => h.elim
  | l :: l2 :: ls, nd :: nds, I, _, hp, hs, h => by
    intro X lens len N init b hi
    match init, hi with
    | i :: i2 :: is, hi =>
      obtain ⟨hI, hs'⟩ := hs
      rw [← hI] at b
      obtain ⟨a1, a2, a3⟩ := h.1.2 X lens len N i.1 i.2 b hi.1 hi.2.1
      have e : (l :: l2 :: ls).map (Layer.step A) = l.cell.step A :: l2.step A :: ls.map (Layer.step A) := by
        show l.step A :: _ = _
        rw [step_pre A (hp l (by simp))]
        rfl
      have bY : Batch (squeezeAt 4 1 (nd.eval A X lens (expand0 i.1) (expand0 i.2)).1) lens len N l.cell.H := by
        refine ⟨?_, b.lens⟩
        rw [a1.1]
        show [nth X.shape 0, nth X.shape 1, l.cell.H] = _
        rw [b.X]; rfl
      obtain ⟨r1, r2⟩ := nodes_stack A (by simp) (fun x hx => hp x (by simp [hx])) hs' h.2 _ lens len N (i2 :: is) bY hi.2.2
      have hl : ∀ n, (initStates is n).length = (ls.map (Layer.step A)).length := by
        intro n
        unfold initStates
        rw [List.length_map, List.length_map, initsFit_length hi.2.2.2.2]
      rw [e]
      refine ⟨r1.trans ((tfOut_congr bY a1).trans (stack_out A l.cell (s0 := tfInit i.1 i.2) (r0 := tfInit i2.1 i2.2) (ss0 := initStates is) b hl)), ?_⟩
      intro k hk
      match k, hk with
      | 0, _ =>
        exact ⟨_, rfl, a2.trans (stack_state_zero A l.cell Lstm.h (ss0 := initStates (i2 :: is))), a3.trans (stack_state_zero A l.cell Lstm.c (ss0 := initStates (i2 :: is)))⟩
      | k + 1, hk =>
        obtain ⟨p, e1, e2, e3⟩ := r2 k (by simpa using hk)
        exact ⟨p, e1, e2.trans ((tfState_congr bY a1).trans (stack_state_succ A l.cell Lstm.h)), e3.trans ((tfState_congr bY a1).trans (stack_state_succ A l.cell Lstm.c))⟩

/-- Stacked cells with default activations, each reading exactly the output of the one before, whose kernel names are in the order of the stack: whenever
the rewriter makes nodes, the last one gives the outputs of the stack, and every node the final state of its cell. -/
theorem lstmStack1_converts (A : String → K → K) {ls : List (Layer K)} {I : Nat} (hne : ls ≠ []) (hF : ∀ l ∈ ls, l.cell.Fits ∧ l.cell.gates.tfOrder ∧ l.cell.gates.defaults)
    (hp : ∀ l ∈ ls, l.pre = id) (hs : SizesFit I ls) (ho : ls.Pairwise (fun a b => a.name ≤ b.name)) {nds : List (LstmNode K)} (h : lstmStack1 ls = some nds) :
    StackAgrees A ls nds I := by
  refine nodes_stack A hne hp hs ?_
  unfold lstmStack1 at h
  rw [List.Pairwise.insertionSort_eq ho] at h
  clear hne hp hs ho
  induction ls generalizing nds with
  | nil =>
    simp at h
    subst h
    trivial
  | cons l ls ih =>
    rw [List.mapM_cons] at h
    cases e : lstmTf1 l.cell with
    | none => rw [e] at h; simp at h
    | some nd =>
      cases e2 : ls.mapM (fun x => lstmTf1 x.cell) with
      | none => rw [e, e2] at h; simp at h
      | some nds' =>
        rw [e, e2] at h
        simp at h
        subst h
        obtain ⟨f1, f2, f3⟩ := hF l (by simp)
        exact ⟨lstmTf1_converts A f1 f2 f3 e, ih (fun x hx => hF x (by simp [hx])) e2⟩

end Verif.Rnn
