import Verif.Props.HandlerTotal
/-!
# The mapping loop: when no handler raises (used by C52)
-/
namespace Verif.Graph
open Verif

variable {V : Type} {I : Interp V} {fresh : Nat → String} {table : String → Option MapInfo} {skip : Ref → Bool} {outputs : List String}
  {dt : String → Option Nat}

/-- The handler converts nodes with signature `σ` without raising, in whatever graph it meets them, if the types recorded for the outputs of the
node are at least those given by `dt`; and it keeps what other nodes rely on. -/
def Total (fresh : Nat → String) (outputs : List String) (dt : String → Option Nat) (m : MapInfo) (σ : Sig) : Prop :=
  ∀ g r P, HInv fresh g → g.outputs = outputs → NInv fresh P g → P r → r ∈ g.nodes → HasSig g r σ →
    (∀ x ∈ σ.outs, x ≠ "" → ∀ t, dt x = some t → g.dtypes.get x = some t) →
    ∃ g', m.convert g r = .ok g' ∧ NInv fresh (fun q => P q ∧ q ∈ g.nodes ∧ q ≠ r) g' ∧
      ∀ q ∈ g.nodes, q ≠ r → ∀ x ∈ (g.node q).output, x ≠ "" → Keeps g x g' x

theorem NInv.mono {P Q : Ref → Prop} {g : G} (h : NInv fresh P g) (hQ : ∀ q ∈ g.nodes, Q q → P q) : NInv fresh Q g :=
  ⟨h.live, h.unused, fun q hq hq' => h.keyed q hq (hQ q hq hq')⟩

/-- Where the loop stands. -/
structure TotInv (fresh : Nat → String) (g0 : G) (rest : List Ref) (g : G) : Prop where
  names : NInv fresh (· ∈ rest) g
  types : ∀ q ∈ rest, ∀ x ∈ (g0.node q).output, x ≠ "" → ∀ t, g0.dtypes.get x = some t → g.dtypes.get x = some t
  made : ReadsMade g0 → ReadsMade g
  outsMade : ∀ o ∈ g0.outputs, o ≠ "" → (∃ p ∈ g0.nodes, o ∈ (g0.node p).output) → ∃ p ∈ g.nodes, o ∈ (g.node p).output

theorem mapLoop_total {sig : Ref → Sig} {D : Ref → List (Option V) → Prop} {g0 : G}
    (hsig : ∀ r ∈ g0.nodes, HasSig g0 r (sig r))
    (hok : ∀ r, r ∈ g0.nodes → skip r = false → ∀ m, table (g0.node r).op = some m → Correct I fresh g0.outputs m (sig r) (D r))
    (htot : ∀ r, r ∈ g0.nodes → skip r = false → ∀ m, table (g0.node r).op = some m → Total fresh g0.outputs g0.dtypes.get m (sig r))
    (rest : List Ref) (hnd : rest.Nodup) (hsub : ∀ r ∈ rest, r ∈ g0.nodes) :
    ∀ (s : MapState), MapInv I fresh table skip sig D g0 rest s.g → TotInv fresh g0 rest s.g → s.exceptions = [] →
      (rest.foldl (mapNode table skip) s).exceptions = [] ∧ TotInv fresh g0 [] (rest.foldl (mapNode table skip) s).g := by
  induction rest with
  | nil => intro s _ ht hex; exact ⟨hex, ht⟩
  | cons r rest ih =>
    intro s hi ht hex
    have hr0 := hsub r (by simp)
    obtain ⟨hrm, hrs⟩ := hi.kept r hr0 (Or.inl (by simp))
    have hopeq : (s.g.node r).op = (g0.node r).op := hrs.op.trans (hsig r hr0).op.symm
    have stay : TotInv fresh g0 rest s.g :=
      ⟨ht.names.mono fun q _ h => by simp [h], fun q hq => ht.types q (by simp [hq]), ht.made, ht.outsMade⟩
    have step : (mapNode table skip s r).exceptions = [] ∧ TotInv fresh g0 rest (mapNode table skip s r).g := by
      unfold mapNode
      split
      · exact ⟨hex, stay⟩
      rename_i hskip
      have hskip : skip r = false := by simpa using hskip
      split
      · exact ⟨hex, stay⟩
      rename_i m hm
      have hm0 : table (g0.node r).op = some m := by rw [← hopeq]; exact hm
      obtain ⟨g', h1, h2, h3⟩ := htot r hr0 hskip m hm0 s.g r (· ∈ r :: rest) hi.inv hi.outputs ht.names (by simp) hrm hrs
        (fun x hx hxe => ht.types r (by simp) x (by rw [(hsig r hr0).outs]; exact hx) hxe)
      rw [h1]
      have hne : ∀ q ∈ rest, q ≠ r := by
        rintro q hq rfl
        exact (List.nodup_cons.1 hnd).1 hq
      refine ⟨hex, h2.mono ?_, ?_, ?_, ?_⟩
      · intro q _ hq
        exact ⟨by simp [hq], (hi.kept q (hsub q (by simp [hq])) (Or.inl (by simp [hq]))).1, hne q hq⟩
      · intro q hq x hx hxe t ht'
        have hq0 := hsub q (by simp [hq])
        obtain ⟨k1, k2⟩ := hi.kept q hq0 (Or.inl (by simp [hq]))
        refine (h3 q k1 (hne q hq) x ?_ hxe).dtype t (ht.types q (by simp [hq]) x hx hxe t ht')
        rw [k2.outs, ← (hsig q hq0).outs]; exact hx
      all_goals rcases hok r hr0 hskip m hm0 s.g r g' hi.inv hi.outputs hrm hrs h1 with rfl | ⟨-, st⟩
      · exact ht.made
      · exact fun h => st.made (ht.made h)
      · exact ht.outsMade
      · exact fun o ho hoe h => st.outsMade o (by rw [hi.outputs]; exact ho) hoe (ht.outsMade o ho hoe h)
    have hstep := mapLoop_step hsig hok hnd hsub s hi step.1
    rw [List.foldl_cons]
    exact ih (List.nodup_cons.1 hnd).2 (fun q hq => hsub q (by simp [hq])) _ hstep step.2 step.1

/-- **The mapping loop raises nothing** if no handler does. -/
theorem mapping_total {sig : Ref → Sig} {D : Ref → List (Option V) → Prop} {g : G} (h0 : HInv fresh g)
    (hsig : ∀ r ∈ g.nodes, HasSig g r (sig r))
    (hok : ∀ r, r ∈ g.nodes → skip r = false → ∀ m, table (g.node r).op = some m → Correct I fresh g.outputs m (sig r) (D r))
    (htot : ∀ r, r ∈ g.nodes → skip r = false → ∀ m, table (g.node r).op = some m → Total fresh g.outputs g.dtypes.get m (sig r))
    (hn : NInv fresh (fun _ => True) g) :
      (g.mapping table skip).exceptions = [] ∧
      (ReadsMade g → ReadsMade (g.mapping table skip).g) ∧
      ∀ o ∈ g.outputs, o ≠ "" → (∃ p ∈ g.nodes, o ∈ (g.node p).output) →
        ∃ p ∈ (g.mapping table skip).g.nodes, o ∈ ((g.mapping table skip).g.node p).output := by
  obtain ⟨h1, h2⟩ := mapLoop_total (I := I) (D := D) (skip := skip) (table := table) hsig hok htot g.nodes h0.reach.wf.nodup (fun _ h => h) { g := g }
    ⟨h0, rfl, rfl, fun _ _ => rfl, fun r hr _ => ⟨hr, hsig r hr⟩, fun env e he _ => ⟨e, he, fun _ _ => rfl, fun _ _ _ => rfl⟩⟩
    ⟨hn.mono fun _ _ _ => trivial, fun _ _ _ _ _ _ h => h, id, fun _ _ _ h => h⟩ rfl
  exact ⟨h1, h2.made, h2.outsMade⟩

/-- An entry that does nothing. -/
theorem total_pass {σ : Sig} : Total fresh outputs dt ⟨none, fun g _ _ => .ok g⟩ σ := by
  intro g r P _ _ hn _ _ _ _
  exact ⟨g, rfl, hn.mono fun q _ h => h.1, fun _ _ _ _ _ _ => ⟨fun _ h => h, fun _ h => h⟩⟩

end Verif.Graph
