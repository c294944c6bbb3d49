import Verif.Model.IdentityOpt
import Verif.Model.QDQ
import Verif.Props.GraphEdits
/-!
# What graph edits do to the recorded shapes and element types
-/
namespace Verif.Graph
open Verif

/-- The tables of shapes and element types are the same. -/
def TabEq (g g' : G) : Prop := g'.shapes = g.shapes ∧ g'.dtypes = g.dtypes

theorem TabEq.refl (g : G) : TabEq g g := ⟨rfl, rfl⟩

theorem TabEq.trans {a b c : G} (h : TabEq a b) (h' : TabEq b c) : TabEq a c := ⟨h'.1.trans h.1, h'.2.trans h.2⟩

/-- What is recorded for `x` in `g` is recorded for `x'` in `g'`. -/
structure Keeps (g : G) (x : String) (g' : G) (x' : String) : Prop where
  dtype : ∀ t, g.dtypes.get x = some t → g'.dtypes.get x' = some t
  shape : ∀ s, g.shapes.get x = some s → g'.shapes.get x' = some s

theorem TabEq.keeps {g g' : G} (h : TabEq g g') (x : String) : Keeps g x g' x :=
  ⟨fun t ht => by rw [h.2]; exact ht, fun s hs => by rw [h.1]; exact hs⟩

theorem Keeps.trans {a b c : G} {x y z : String} (h : Keeps a x b y) (h' : Keeps b y c z) : Keeps a x c z :=
  ⟨fun t ht => h'.dtype t (h.dtype t ht), fun s hs => h'.shape s (h.shape s hs)⟩

theorem registerInputs_tab (g : G) (is : List String) (nm : String) : TabEq g (g.registerInputs is nm) := by
  unfold G.registerInputs
  induction is generalizing g with
  | nil => exact .refl _
  | cons i is ih => exact TabEq.trans ⟨rfl, rfl⟩ (ih _)

theorem dropConsumer_tab (g : G) (x nm : String) : TabEq g (g.dropConsumer x nm) := by
  unfold G.dropConsumer
  split <;> exact ⟨rfl, rfl⟩

theorem moveConsumer_tab (g : G) (a b nm : String) : TabEq g (g.moveConsumer a b nm) :=
  (dropConsumer_tab g a nm).trans ⟨rfl, rfl⟩

theorem makeNode_tab {g g' : G} {r : Ref} {op : String} {xs : List String} {name : String} {outs : List String}
    {attr : Dict String Attr} {dom : String} (h : g.makeNode op xs name outs attr dom = .ok (g', r)) : TabEq g g' := by
  unfold G.makeNode at h
  split at h
  · cases h
  split at h
  · cases h
  cases h
  simp only [G.setNodeByName]
  exact ⟨((registerInputs_tab _ _ _).1).trans (registerInputs_tab g xs name).1,
    ((registerInputs_tab _ _ _).2).trans (registerInputs_tab g xs name).2⟩

theorem replaceInputAt_tab {g g' : G} {r : Ref} {a b : String} {i : Nat} (h : g.replaceInputAt r a b i = .ok g') : TabEq g g' := by
  simp only [G.replaceInputAt] at h
  split at h
  · cases h; exact TabEq.trans ⟨rfl, rfl⟩ (moveConsumer_tab _ _ _ _)
  · cases h

theorem removeInputAt_tab {g g' : G} {r : Ref} {a : String} {i : Nat} (h : g.removeInputAt r a i = .ok g') : TabEq g g' := by
  simp only [G.removeInputAt] at h
  split at h
  · cases h
    unfold G.dropConsumer
    split <;> exact ⟨rfl, rfl⟩
  · cases h

theorem replaceSlots_tab {r : Ref} {a b : String} {is : List Nat} : ∀ {g g' : G}, g.replaceSlots r a b is = .ok g' → TabEq g g' := by
  induction is with
  | nil => intro g g' h; cases h; exact .refl _
  | cons i is ih =>
    intro g g' h
    simp only [G.replaceSlots] at h
    split at h
    · simp only [bind, Except.bind] at h
      split at h
      · cases h
      · rename_i g1 h1
        exact (replaceInputAt_tab h1).trans (ih h)
    · exact ih h

theorem replaceAllIn_tab {a b : String} {rs : List Ref} : ∀ {g g' : G}, g.replaceAllIn a b rs = .ok g' → TabEq g g' := by
  induction rs with
  | nil => intro g g' h; cases h; exact .refl _
  | cons r rs ih =>
    intro g g' h
    simp only [G.replaceAllIn] at h
    split at h
    · cases h
    simp only [bind, Except.bind] at h
    split at h
    · cases h
    rename_i g1 h1
    exact TabEq.trans (b := g.registerInput b (g.node r).name) ⟨rfl, rfl⟩ ((replaceSlots_tab h1).trans (ih h))

theorem replaceAllInputs_tab {g g' : G} {a b : String} {ops : Option (List Ref)} (h : g.replaceAllInputs a b ops = .ok g') : TabEq g g' := by
  unfold G.replaceAllInputs at h
  split at h
  · cases h; exact .refl _
  · refine TabEq.trans ?_ (replaceAllIn_tab h)
    unfold G.ensureConsumers
    split <;> exact ⟨rfl, rfl⟩

theorem insertNodeOnOutput_tab {g g' : G} {r : Ref} {o : String} (h : g.insertNodeOnOutput r o = .ok g') : TabEq g g' := by
  unfold G.insertNodeOnOutput at h
  split at h
  · cases h
  · cases h
  · simp only at h
    split at h
    · cases h
    · exact replaceAllInputs_tab h

theorem replaceInputs_tab (g : G) (r : Ref) (xs : List String) : TabEq g (g.replaceInputs r xs) := by
  unfold G.replaceInputs
  have : ∀ (is : List String) (g : G), TabEq g (is.foldl (fun g old => g.dropConsumer old old) g) := by
    intro is
    induction is with
    | nil => intro g; exact .refl _
    | cons i is ih => intro g; exact (dropConsumer_tab g i i).trans (ih _)
  exact (this _ _).trans ((registerInputs_tab _ _ _).trans ⟨rfl, rfl⟩)

theorem unregisterInput_tab {g g' : G} {i nm : String} (h : g.unregisterInput i nm = .ok g') : TabEq g g' := by
  unfold G.unregisterInput at h
  split at h
  · cases h
  · split at h
    · split at h <;> cases h <;> exact ⟨rfl, rfl⟩
    · cases h; exact .refl _

theorem removeInputs_tab {nm : String} {is : List String} : ∀ {g g' : G}, g.removeInputs nm is = .ok g' → TabEq g g' := by
  induction is with
  | nil => intro g g' h; cases h; exact .refl _
  | cons i is ih =>
    intro g g' h
    simp only [G.removeInputs] at h
    split at h
    · exact ih h
    split at h
    · cases h
    simp only [bind, Except.bind] at h
    split at h
    · cases h
    rename_i g1 h1
    exact (unregisterInput_tab h1).trans (ih h)

theorem removeOutputs_keeps {os : List String} : ∀ {g g' : G}, g.removeOutputs os = .ok g' → ∀ x, x ∉ os → Keeps g x g' x := by
  induction os with
  | nil => intro g g' h x _; cases h; exact (TabEq.refl g).keeps x
  | cons o os ih =>
    intro g g' h x hx
    simp only [List.mem_cons, not_or] at hx
    simp only [G.removeOutputs] at h
    split at h
    · exact ih h x hx.2
    split at h
    · cases h
    refine Keeps.trans ?_ (ih h x hx.2)
    have hne : ¬ (o = x) := fun e => hx.1 e.symm
    exact ⟨fun t ht => by simp [Dict.get_erase, hne, ht], fun s hs => by simp [Dict.get_erase, hne, hs]⟩

/-- Removing a node forgets what is recorded for its outputs. -/
theorem removeNode_keeps {g g' : G} {r : Ref} (hr : g.byName.get (g.node r).name = some r) (h : g.removeNode (g.node r).name = .ok g')
    {x : String} (hx : x ∉ (g.node r).output) : Keeps g x g' x := by
  unfold G.removeNode at h
  rw [hr] at h
  simp only [bind, Except.bind] at h
  split at h
  · cases h
  rename_i g1 h1
  split at h
  · cases h
  rename_i g2 h2
  cases h
  have k1 : Keeps g x g1 x := Keeps.trans (TabEq.keeps (g := g)
    (g' := { g with byName := g.byName.erase (g.node r).name, inputs := g.inputs.erase r }) ⟨rfl, rfl⟩ x) (removeOutputs_keeps h1 x hx)
  have k2 := k1.trans ((removeInputs_tab h2).keeps x)
  exact ⟨k2.dtype, k2.shape⟩

theorem setDtypeOpt_keeps {g g' : G} {y : String} {t : Option Nat} (h : g.setDtypeOpt y t = .ok g') :
    g'.shapes = g.shapes ∧ (∀ x, x ≠ y → g'.dtypes.get x = g.dtypes.get x) ∧ ∀ u, t = some u → g'.dtypes.get y = some u := by
  unfold G.setDtypeOpt at h
  split at h
  · unfold G.setDtype at h
    split at h
    · cases h
    · cases h
      refine ⟨rfl, fun x hx => ?_, fun u hu => ?_⟩
      · rw [Dict.get_set, if_neg (Ne.symm hx)]
      · cases hu; rw [Dict.get_set, if_pos rfl]
  · cases h
    exact ⟨rfl, fun _ _ => rfl, fun _ hu => by cases hu⟩

theorem setShapeOpt_keeps {g g' : G} {y : String} {t : Option Shapes.Shape} (h : g.setShapeOpt y t = .ok g') :
    g'.dtypes = g.dtypes ∧ (∀ x, x ≠ y → g'.shapes.get x = g.shapes.get x) ∧ ∀ u, t = some u → g'.shapes.get y = some u := by
  unfold G.setShapeOpt at h
  split at h
  · unfold G.setShape at h
    split at h
    · cases h
    · cases h
      refine ⟨rfl, fun x hx => ?_, fun u hu => ?_⟩
      · rw [Dict.get_set, if_neg (Ne.symm hx)]
      · cases hu; rw [Dict.get_set, if_pos rfl]
  · cases h
    exact ⟨rfl, fun _ _ => rfl, fun _ hu => by cases hu⟩

end Verif.Graph
