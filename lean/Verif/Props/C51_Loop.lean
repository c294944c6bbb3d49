import Verif.Props.C51_Body
/-!
# C51: loops. TensorFlow's `While` and ONNX `Loop` with the converted body leave the same loop variables.
-/
namespace Verif.Graph
open Verif
variable {V : Type}

/-- What the conversion relies on: TensorFlow's conventions for the first two loop variables, a counter and a bound. `int` reads an integer scalar of
any width; `limited` says whether the loop has a maximum number of iterations. Integers matter only
up to the bound, so counters of a fixed width do. -/
structure LoopConventions (int : V → Option Int) (truth : V → Bool) (limited : Bool) (cond : List V → V → Prop) (body : List V → List V → Prop) :
    Prop where
  /-- below the bound the body counts, and it keeps the bound -/
  counts : limited = true → ∀ c m s i M c' m' s', int c = some i → int m = some M → i < M → body (c :: m :: s) (c' :: m' :: s') →
    int c' = some (i + 1) ∧ int m' = some M
  /-- the other variables do not depend on counter and bound, or, if there is a bound, only through their integers -/
  blind : ∀ c m d k s c' m' s',
    (limited = true → ∃ i M, int c = some i ∧ int d = some i ∧ int m = some M ∧ int k = some M ∧ i < M) → body (c :: m :: s) (c' :: m' :: s') →
    ∃ d' k', body (d :: k :: s) (d' :: k' :: s')
  /-- the condition is a test of the other variables and, if there is a bound, that it is not reached -/
  test : ∃ P : List V → Bool, ∀ c m s k, cond (c :: m :: s) k → (limited = false → truth k = P s) ∧
    (limited = true → ∀ i M, int c = some i → int m = some M → truth k = (P s && decide (i < M)))

/-- The condition has a value, the body returns as many variables as it gets: `n` besides counter and bound. -/
structure CountedLoop (int : V → Option Int) (truth : V → Bool) (limited : Bool) (n : Nat) (cond : List V → V → Prop)
    (body : List V → List V → Prop) : Prop extends LoopConventions int truth limited cond body where
  total : ∀ c m s, s.length = n → ∃ k, cond (c :: m :: s) k
  arity : ∀ c m s t, body (c :: m :: s) t → ∃ c' m' s', t = c' :: m' :: s' ∧ s'.length = n

section
variable {int : V → Option Int} {truth : V → Bool} {limited : Bool} {n : Nat} {cond : List V → V → Prop} {body bodyO : List V → List V → Prop}
  {num : Nat → V} {mv : V} {M : Int}

/-- One side: the condition the converted loop carries is right unless the bound is reached. -/
theorem onnx_of_tf (h : CountedLoop int truth limited n cond body) (hnum : limited = true → ∀ i : Nat, (i : Int) < M → int (num i) = some (i : Int))
    (hmv : limited = true → int mv = some M)
    (hbody : ∀ i k s k' s', bodyO (num i :: k :: s) (k' :: s') ↔ ∃ c m, body (num i :: mv :: s) (c :: m :: s') ∧ cond (num i :: mv :: s') k')
    {P : List V → Bool} (hP : ∀ c m s k, cond (c :: m :: s) k → (limited = false → truth k = P s) ∧
      (limited = true → ∀ i M, int c = some i → int m = some M → truth k = (P s && decide (i < M)))) {S T : List V}
    (ht : TfWhile truth cond body S T) : ∀ (c m : V) (s : List V) (i : Nat) (k : V), S = c :: m :: s → s.length = n →
      (limited = true → int c = some (i : Int) ∧ int m = some M) → (limited = false ∨ (i : Int) < M → truth k = P s) →
      ∃ c' m' t, T = c' :: m' :: t ∧ OnnxLoop truth num bodyO (if limited then some M else none) i k s t := by
  induction ht with
  | @done S kc hc hk =>
    rintro c m s i k rfl hl hcm htk
    refine ⟨c, m, s, rfl, ?_⟩
    obtain ⟨h0, h1⟩ := hP c m s kc hc
    cases hlim : limited with
    | false => exact .cond (by rw [htk (Or.inl hlim), ← h0 hlim, hk])
    | true =>
      obtain ⟨hic, him⟩ := hcm hlim
      have h1 := h1 hlim i M hic him
      rw [hk] at h1
      by_cases hiM : (i : Int) < M
      · simp only [hiM, decide_true, Bool.and_true] at h1
        exact .cond (by rw [htk (Or.inr hiM), ← h1])
      · exact .trips (m := M) (by simp) (by omega)
  | @step S S' T kc hc hk hb _ ih =>
    rintro c m s i k rfl hl hcm htk
    obtain ⟨c', m', s', rfl, hl'⟩ := h.arity _ _ _ _ hb
    obtain ⟨h0, h1⟩ := hP c m s kc hc
    have hin : limited = false ∨ (i : Int) < M := by
      cases hlim : limited with
      | false => exact Or.inl rfl
      | true =>
        obtain ⟨hic, him⟩ := hcm hlim
        have := h1 hlim i M hic him
        rw [hk] at this
        simp only [Bool.true_eq, Bool.and_eq_true, decide_eq_true_eq] at this
        exact Or.inr this.2
    have hPs : P s = true := by
      cases hlim : limited with
      | false => rw [← h0 hlim, hk]
      | true =>
        obtain ⟨hic, him⟩ := hcm hlim
        have := h1 hlim i M hic him
        rw [hk] at this
        simp only [Bool.true_eq, Bool.and_eq_true] at this
        exact this.1
    have hlt : limited = true → (i : Int) < M := by
      intro hl
      rcases hin with hf | hf
      · rw [hl] at hf; cases hf
      · exact hf
    obtain ⟨d', n', hb'⟩ := h.blind c m (num i) mv s c' m' s'
      (fun hl => ⟨i, M, (hcm hl).1, hnum hl i (hlt hl), (hcm hl).2, hmv hl, hlt hl⟩) hb
    obtain ⟨k', hk'⟩ := h.total (num i) mv s' hl'
    obtain ⟨g0, g1⟩ := hP _ _ _ _ hk'
    obtain ⟨c'', m'', t, rfl, hloop⟩ := ih c' m' s' (i + 1) k' rfl hl'
      (fun hl => by
        have := h.counts hl _ _ _ _ _ _ _ _ (hcm hl).1 (hcm hl).2 (hlt hl) hb
        simpa using this)
      (by
        intro _
        cases hlim : limited with
        | false => exact g0 hlim
        | true =>
          rw [g1 hlim i M (hnum hlim i (hlt hlim)) (hmv hlim)]
          simp [hlt hlim])
    refine ⟨c'', m'', t, rfl, .step ?_ ?_ ((hbody i k s k' s').2 ⟨d', n', hb', hk'⟩) hloop⟩
    · intro M' hM'
      cases hlim : limited with
      | false => simp [hlim] at hM'
      | true =>
        simp [hlim] at hM'
        subst hM'
        exact hlt hlim
    · rw [htk hin, hPs]

theorem tf_of_onnx (h : CountedLoop int truth limited n cond body) (hnum : limited = true → ∀ i : Nat, (i : Int) < M → int (num i) = some (i : Int))
    (hmv : limited = true → int mv = some M)
    (hbody : ∀ i k s k' s', bodyO (num i :: k :: s) (k' :: s') ↔ ∃ c m, body (num i :: mv :: s) (c :: m :: s') ∧ cond (num i :: mv :: s') k')
    {P : List V → Bool} (hP : ∀ c m s k, cond (c :: m :: s) k → (limited = false → truth k = P s) ∧
      (limited = true → ∀ i M, int c = some i → int m = some M → truth k = (P s && decide (i < M)))) {i : Nat} {k : V} {s t : List V}
    (ho : OnnxLoop truth num bodyO (if limited then some M else none) i k s t) : ∀ (c m : V), s.length = n →
      (limited = true → int c = some (i : Int) ∧ int m = some M) → (limited = false ∨ (i : Int) < M → truth k = P s) →
      ∃ c' m', TfWhile truth cond body (c :: m :: s) (c' :: m' :: t) := by
  induction ho with
  | @trips i k s M' hM' hle =>
    intro c m hl hcm _
    obtain ⟨kc, hkc⟩ := h.total c m s hl
    refine ⟨c, m, .done hkc ?_⟩
    cases hlim : limited with
    | false => simp [hlim] at hM'
    | true =>
      simp [hlim] at hM'
      subst hM'
      rw [(hP _ _ _ _ hkc).2 hlim _ _ (hcm hlim).1 (hcm hlim).2]
      have : ¬ ((i : Int) < M) := by omega
      simp [this]
  | @cond i k s hk =>
    intro c m hl hcm htk
    obtain ⟨kc, hkc⟩ := h.total c m s hl
    refine ⟨c, m, .done hkc ?_⟩
    cases hlim : limited with
    | false => rw [(hP _ _ _ _ hkc).1 hlim, ← htk (Or.inl hlim), hk]
    | true =>
      rw [(hP _ _ _ _ hkc).2 hlim _ _ (hcm hlim).1 (hcm hlim).2]
      by_cases hlt : (i : Int) < M
      · rw [← htk (Or.inr hlt), hk]; rfl
      · simp [hlt]
  | @step i k k' s s' t hlt hk hb _ ih =>
    intro c m hl hcm htk
    obtain ⟨kc, hkc⟩ := h.total c m s hl
    have hltM : limited = true → (i : Int) < M := fun hlim => hlt M (by simp [hlim])
    have hin : limited = false ∨ (i : Int) < M := by
      cases hlim : limited with
      | false => exact Or.inl rfl
      | true => exact Or.inr (hltM hlim)
    have htrue : truth kc = true := by
      cases hlim : limited with
      | false => rw [(hP _ _ _ _ hkc).1 hlim, ← htk hin, hk]
      | true =>
        rw [(hP _ _ _ _ hkc).2 hlim _ _ (hcm hlim).1 (hcm hlim).2, ← htk hin, hk]
        simp [hltM hlim]
    obtain ⟨c1, m1, hb1, hk1⟩ := (hbody i k s k' s').1 hb
    obtain ⟨c', m', hb'⟩ := h.blind (num i) mv c m s c1 m1 s'
      (fun hl => ⟨i, M, hnum hl i (hltM hl), (hcm hl).1, hmv hl, (hcm hl).2, hltM hl⟩) hb1
    obtain ⟨_, _, s1, e, hl'⟩ := h.arity _ _ _ _ hb'
    simp only [List.cons.injEq] at e
    obtain ⟨_, _, rfl⟩ := e
    obtain ⟨c'', m'', hw⟩ := ih c' m' hl'
      (fun hl => by
        have := h.counts hl _ _ _ _ _ _ _ _ (hcm hl).1 (hcm hl).2 (hltM hl) hb'
        simpa using this)
      (by
        intro _
        cases hlim : limited with
        | false => exact (hP _ _ _ _ hk1).1 hlim
        | true =>
          rw [(hP _ _ _ _ hk1).2 hlim i M (hnum hlim i (hltM hlim)) (hmv hlim)]
          simp [hltM hlim])
    exact ⟨c'', m'', .step hkc htrue hb' hw⟩

/-- C51. A loop that follows the conventions, whose counter starts at 0: TensorFlow's `While` leaves the loop variables `t` exactly if ONNX `Loop`
does, started with the condition for the initial variables, with the bound as trip count (if there is one), and with a body that does one step
and evaluates the condition with the number of the iteration just done (`bodyO`, see `body_returns`). Neither need terminate. -/
theorem while_loop (h : CountedLoop int truth limited n cond body) (hnum : limited = true → ∀ i : Nat, (i : Int) < M → int (num i) = some (i : Int))
    (hmv : limited = true → int mv = some M)
    (hbody : ∀ i k s k' s', bodyO (num i :: k :: s) (k' :: s') ↔ ∃ c m, body (num i :: mv :: s) (c :: m :: s') ∧ cond (num i :: mv :: s') k')
    {c0 m0 k0 : V} (hc0 : limited = true → int c0 = some 0 ∧ int m0 = some M) {s t : List V} (hs : s.length = n) (hk0 : cond (c0 :: mv :: s) k0) :
    OnnxLoop truth num bodyO (if limited then some M else none) 0 k0 s t ↔ ∃ c m, TfWhile truth cond body (c0 :: m0 :: s) (c :: m :: t) := by
  obtain ⟨P, hP⟩ := h.test
  have htk : limited = false ∨ ((0 : Nat) : Int) < M → truth k0 = P s := by
    intro hin
    cases hlim : limited with
    | false => exact (hP _ _ _ _ hk0).1 hlim
    | true =>
      rw [(hP _ _ _ _ hk0).2 hlim 0 M (hc0 hlim).1 (hmv hlim)]
      rcases hin with hf | hf
      · rw [hlim] at hf; cases hf
      · have : (0 : Int) < M := by simpa using hf
        simp [this]
  constructor
  · intro ho
    exact tf_of_onnx h hnum hmv hbody hP ho c0 m0 hs (by simpa using hc0) htk
  · rintro ⟨c, m, ht⟩
    obtain ⟨c', m', t', e, ho⟩ := onnx_of_tf h hnum hmv hbody hP ht c0 m0 s 0 k0 rfl hs (by simpa using hc0) htk
    simp only [List.cons.injEq] at e
    obtain ⟨_, _, rfl⟩ := e
    exact ho
end

end Verif.Graph
