import Verif.Props.C62_Merge
/-!
# C62: what an Einsum node is replaced by computes the same
-/
namespace Verif.Einsum
open Verif.Tensor

variable {α : Type} [CommSemiring α]

/-! ## Letters are numbered -/

theorem alphabet_nodup : alphabet.Nodup := by decide

theorem letters_nodup (ins : List (List Char)) : (lettersOf ins).Nodup := alphabet_nodup.filter _

theorem mem_letters {ins : List (List Char)} {c : Char} : c ∈ lettersOf ins ↔ c ∈ alphabet ∧ c ∈ ins.flatten := by
  simp only [lettersOf, List.mem_filter, List.any_eq_true, List.contains_eq_mem, decide_eq_true_eq, List.mem_flatten]

theorem idxOf_inj {l : List Char} {a b : Char} (ha : a ∈ l) (h : l.idxOf a = l.idxOf b) : a = b := by
  have hi := List.idxOf_lt_length_iff.2 ha
  have h1 : l[l.idxOf a] = a := List.getElem_idxOf hi
  have hb : l.idxOf b < l.length := by omega
  have h2 : l[l.idxOf b] = b := List.getElem_idxOf hb
  rw [← h1, ← h2]
  simp only [h]

theorem idxOf_map {l term : List Char} (ht : ∀ c ∈ term, c ∈ l) {c : Char} (hc : c ∈ l) :
    (term.map (fun c => l.idxOf c)).idxOf (l.idxOf c) = term.idxOf c := by
  induction term with
  | nil => rfl
  | cons a term ih =>
    rw [List.map_cons, List.idxOf_cons, List.idxOf_cons, ih (fun c h => ht c (by simp [h]))]
    by_cases hac : a = c
    · simp [hac]
    · have : ¬ l.idxOf a = l.idxOf c := fun h => hac (idxOf_inj (ht a (by simp)) h)
      have h1 : (l.idxOf a == l.idxOf c) = false := by simpa using this
      have h2 : (a == c) = false := by simpa using hac
      rw [h1, h2]

theorem mem_map_idxOf {l term : List Char} (ht : ∀ c ∈ term, c ∈ l) {c : Char} (hc : c ∈ l) :
    l.idxOf c ∈ term.map (fun c => l.idxOf c) ↔ c ∈ term := by
  constructor
  · intro h
    obtain ⟨a, ha, hac⟩ := List.mem_map.1 h
    rw [← idxOf_inj (ht a ha) hac]
    exact ha
  · intro h; exact List.mem_map.2 ⟨c, h, rfl⟩

theorem reverse_idxOf {term : List Char} (hn : term.Nodup) {c : Char} (hc : c ∈ term) : term.length - 1 - term.reverse.idxOf c = term.idxOf c := by
  have hi := List.idxOf_lt_length_iff.2 hc
  have hr : term.reverse.Nodup := List.nodup_reverse.2 hn
  have hk : term.length - 1 - term.idxOf c < term.reverse.length := by rw [List.length_reverse]; omega
  have h1 : term.reverse[term.length - 1 - term.idxOf c] = c := by
    rw [List.getElem_reverse]
    have : term.length - 1 - (term.length - 1 - term.idxOf c) = term.idxOf c := by omega
    simp only [this]
    exact List.getElem_idxOf hi
  have h2 := hr.idxOf_getElem _ hk
  rw [h1] at h2
  omega

/-- The row of a term, in numbers. -/
theorem rowOf_eq {l term : List Char} (hl : l.Nodup) (hn : term.Nodup) (ht : ∀ c ∈ term, c ∈ l) :
    rowOf l term = nrow l.length (term.map (fun c => l.idxOf c)) := by
  unfold rowOf nrow
  apply List.ext_getElem (by simp)
  intro i h1 h2
  have hi : i < l.length := by simpa using h1
  simp only [List.getElem_map, List.getElem_range]
  have he : l.idxOf l[i] = i := hl.idxOf_getElem i hi
  have hm : l[i] ∈ l := List.getElem_mem hi
  have hmem := mem_map_idxOf ht hm
  rw [he] at hmem
  by_cases hc : l[i] ∈ term
  · rw [if_pos hc, if_pos (hmem.2 hc), reverse_idxOf hn hc]
    have := idxOf_map ht hm
    rw [he] at this
    rw [this]
  · rw [if_neg hc, if_neg (fun h => hc (hmem.1 h))]

theorem operands_map {dim : Char → Nat} {dim' : Nat → Nat} (f : Char → Nat) {ins : List (List Char)} {xs : List (T α)} (h : Operands dim ins xs)
    (hd : ∀ c ∈ ins.flatten, dim' (f c) = dim c) : List.Forall₂ (fun t x => T.shape x = t.map dim') (ins.map (List.map f)) xs := by
  induction h with
  | nil => exact .nil
  | @cons t x ts ys hx _ ih =>
    refine .cons ?_ (ih (fun c hc => hd c (by simp only [List.flatten_cons, List.mem_append]; exact Or.inr hc)))
    rw [hx, List.map_map]
    exact List.map_congr_left (fun c hc => (hd c (by simp [hc])).symm)

/-- The decomposition before transposes are merged. -/
theorem decomposeRaw_res {v : Nat} {dim : Char → Nat} {xs : List (T α)} {e : Eqn} (hv : 13 ≤ v) (hp : Proper e.ins e.out)
    (ha : ∀ t ∈ e.ins, ∀ c ∈ t, c ∈ alphabet) (hne : e.ins ≠ []) (hpos : ∀ c ∈ e.ins.flatten, 0 < dim c) (hx : Operands dim e.ins xs) :
    ∃ s t, decomposeRaw e = some s ∧ s.run v xs = some t ∧ Same t (einsum e.ins e.out xs) := by
  obtain ⟨ins, out⟩ := e
  simp only at *
  have hknown : ∀ c ∈ out, c ∈ ins.flatten := fun c hc => by
    obtain ⟨t, ht, hct⟩ := hp.known c hc
    exact List.mem_flatten.2 ⟨t, ht, hct⟩
  have hall : ∀ c ∈ ins.flatten, c ∈ lettersOf ins := fun c hc => by
    obtain ⟨t, ht, hct⟩ := List.mem_flatten.1 hc
    exact mem_letters.2 ⟨ha t ht c hct, hc⟩
  have hterm : ∀ t ∈ ins, ∀ c ∈ t, c ∈ lettersOf ins := fun t ht c hc => hall c (List.mem_flatten.2 ⟨t, ht, hc⟩)
  have hout : ∀ c ∈ out, c ∈ lettersOf ins := fun c hc => hall c (hknown c hc)
  have hln := letters_nodup ins
  have hlm : ∀ c, c ∈ lettersOf ins → c ∈ ins.flatten := fun c hc => (mem_letters.1 hc).2
  unfold decomposeRaw
  rw [if_neg (by rintro ⟨t, ht, h⟩; exact h (hp.noRepeat t ht))]
  simp only
  generalize lettersOf ins = l at *
  let f : Char → Nat := fun c => l.idxOf c
  let dim' : Nat → Nat := fun d => dim (l.getD d 'A')
  have hf : ∀ a ∈ l, ∀ b ∈ l, f a = f b → a = b := fun a ha b _ h => idxOf_inj ha h
  have hfl : ∀ c ∈ l, f c < l.length := fun c hc => List.idxOf_lt_length_iff.2 hc
  have hdim : ∀ c ∈ l, dim' (f c) = dim c := by
    intro c hc
    simp only [dim', f]
    rw [List.getD_eq_getElem?_getD, List.getElem?_eq_getElem (hfl c hc)]
    simp only [Option.getD_some]
    congr 1
    exact List.getElem_idxOf (hfl c hc)
  have hrow : ∀ t ∈ ins, rowOf l t = nrow l.length (t.map f) := fun t ht => rowOf_eq hln (hp.noRepeat t ht) (hterm t ht)
  have hrows : ins.map (rowOf l) = (ins.map (List.map f)).map (nrow l.length) := by
    rw [List.map_map]; exact List.map_congr_left hrow
  have hor : rowOf l out = nrow l.length (out.map f) := rowOf_eq hln hp.outNoRepeat hout
  have hnd : ∀ t ∈ ins, (t.map f).Nodup := fun t ht =>
    List.Nodup.map_on (fun a h1 b h2 h => hf a (hterm t ht a h1) b (hterm t ht b h2) h) (hp.noRepeat t ht)
  have hond : (out.map f).Nodup := List.Nodup.map_on (fun a h1 b h2 h => hf a (hout a h1) b (hout b h2) h) hp.outNoRepeat
  have holt : ∀ d ∈ out.map f, d < l.length := by
    intro d hd
    obtain ⟨c, hc, rfl⟩ := List.mem_map.1 hd
    exact hfl c (hout c hc)
  have htlt : ∀ t ∈ ins, ∀ d ∈ t.map f, d < l.length := by
    intro t ht d hd
    obtain ⟨c, hc, rfl⟩ := List.mem_map.1 hd
    exact hfl c (hterm t ht c hc)
  have hpos' : ∀ d, d < l.length → 0 < dim' d := by
    intro d hd
    simp only [dim']
    rw [List.getD_eq_getElem?_getD, List.getElem?_eq_getElem hd]
    exact hpos _ (hlm _ (List.getElem_mem hd))
  have hx' : List.Forall₂ (fun t x => T.shape x = t.map dim') (ins.map (List.map f)) xs := by
    exact operands_map f hx (fun c hc => hdim c (hall c hc))
  rw [hrows, hor]
  have hknown' : ∀ d ∈ out.map f, d ∈ (ins.map (List.map f)).flatten := by
    intro d hd
    obtain ⟨c, hc, rfl⟩ := List.mem_map.1 hd
    rw [← List.map_flatten]
    exact List.mem_map.2 ⟨c, hknown c hc, rfl⟩
  -- run the loop
  have hrun : ∃ s r, operands l.length (nrow l.length (out.map f)) 0 ((ins.map (List.map f)).map (nrow l.length)) none (List.replicate l.length (-1)) =
      some (some s, r) ∧ Inv l.length v dim' xs (ins.map (List.map f)) [out.map f] s r := by
    cases ins with
    | nil => exact absurd rfl hne
    | cons t ts =>
      simp only [List.map_cons] at hx' ⊢
      obtain ⟨x, ys, hsx, hrest, rfl⟩ := List.forall₂_cons_left_iff.1 hx'
      obtain ⟨p, h1, h2⟩ := operand_first (n := l.length) (v := v) (xs := x :: ys) (t := t.map f) (later := ts.map (List.map f) ++ [out.map f]) hv
        (hnd t (by simp)) (htlt t (by simp)) rfl hsx
      obtain ⟨s', r', h3, h4⟩ := operands_res (out := out.map f) hv hpos' (ts.map (List.map f)) [t.map f] 1 p.1 p.2 rfl
        (by simpa using fun c hc => htlt t (by simp) _ (List.mem_map.2 ⟨c, hc, rfl⟩))
        (fun t' ht' => by
          obtain ⟨t0, ht0, rfl⟩ := List.mem_map.1 ht'
          exact ⟨hnd t0 (by simp [ht0]), htlt t0 (by simp [ht0])⟩) hrest h2
      refine ⟨s', r', ?_, h4⟩
      rw [operands]
      rw [List.map_append] at h1
      simp only [List.map_cons, List.map_nil] at h1
      rw [h1]
      exact h3
  obtain ⟨s, r, hs, hinv⟩ := hrun
  obtain ⟨s', hs', D, hDn, hD, t, ht, hat⟩ := finalOut_res (n := l.length) (v := v) hond hv holt hknown' hinv
  refine ⟨s', t, by rw [hs]; exact hs', ht, ?_⟩
  have hSm : ∀ c, c ∈ summed ins out ↔ c ∈ ins.flatten ∧ c ∉ out := by
    intro c
    simp only [summed, List.mem_dedup, List.mem_filter, decide_eq_true_eq]
  have hSn : ((summed ins out).map f).Nodup :=
    List.Nodup.map_on (fun a h1 b h2 h => hf a (hall a ((hSm a).1 h1).1) b (hall b ((hSm b).1 h2).1) h) (List.nodup_dedup _)
  have hperm : D.Perm ((summed ins out).map f) := by
    rw [List.perm_ext_iff_of_nodup hDn hSn]
    intro d
    rw [hD d, ← List.map_flatten]
    constructor
    · rintro ⟨h1, h2⟩
      obtain ⟨c, hc, rfl⟩ := List.mem_map.1 h1
      exact List.mem_map.2 ⟨c, (hSm c).2 ⟨hc, fun h => h2 (List.mem_map.2 ⟨c, h, rfl⟩)⟩, rfl⟩
    · intro h
      obtain ⟨c, hc, rfl⟩ := List.mem_map.1 h
      have := (hSm c).1 hc
      refine ⟨List.mem_map.2 ⟨c, this.1, rfl⟩, fun h' => ?_⟩
      obtain ⟨b, hb, hbc⟩ := List.mem_map.1 h'
      exact this.2 (by rw [← hf b (hout b hb) c (hall c this.1) hbc]; exact hb)
  have hshape : t.shape = out.map dim := by
    rw [hat.shape, List.map_map]
    apply List.map_congr_left
    intro c hc
    have hm : maskT (out.map f) (f c) = true := decide_eq_true (List.mem_map.2 ⟨c, hc, rfl⟩)
    simp only [Function.comp_apply, dimM, hm, if_true]
    exact hdim c (hout c hc)
  refine ⟨by rw [hshape, einsum_shape hx hknown], fun idx hi => ?_⟩
  have hil : idx.length = out.length := by rw [hi.1, hshape, List.length_map]
  -- the values of the letters
  let σ : Char → Nat := fun c => nth idx (out.idxOf c)
  let σ' : Nat → Nat := fun d => σ (l.getD d 'A')
  have hσ : ∀ c ∈ l, σ c = σ' (f c) := by
    intro c hc
    simp only [σ', f]
    rw [List.getD_eq_getElem?_getD, List.getElem?_eq_getElem (hfl c hc)]
    simp only [Option.getD_some]
    congr 1
    exact (List.getElem_idxOf (hfl c hc)).symm
  have hidx : out.map σ = idx := index_map hp.outNoRepeat hil
  have hidx' : (out.map f).map (valM (maskT (out.map f)) σ') = idx := by
    rw [← hidx, List.map_map]
    apply List.map_congr_left
    intro c hc
    have hm : maskT (out.map f) (f c) = true := decide_eq_true (List.mem_map.2 ⟨c, hc, rfl⟩)
    simp only [Function.comp_apply, valM, hm, if_true]
    exact (hσ c (hout c hc)).symm
  have hg := hat.get σ' (by
    intro d hd _
    obtain ⟨c, hc, rfl⟩ := List.mem_map.1 hd
    rw [← hσ c (hout c hc), hdim c (hout c hc)]
    simp only [σ]
    have hci := List.idxOf_lt_length_iff.2 hc
    have := hi.2 (out.idxOf c) (by rw [hshape, List.length_map]; exact hci)
    rw [hshape] at this
    have e : nth (out.map dim) (out.idxOf c) = dim c := by
      simp [nth, hci]
    rw [e] at this
    exact this)
  rw [hidx'] at hg
  rw [hg, sumL_perm hperm]
  have he := einsum_get (out := out) hx σ
  rw [hidx] at he
  rw [he]
  symm
  refine sumL_rename (K := l) hf (fun τ τ' h => product_rename f ins xs (fun c hc => h c (hall c hc))) (summed ins out) σ σ' hσ ?_
  intro c hc
  exact ⟨hall c ((hSm c).1 hc).1, (hdim c (hall c ((hSm c).1 hc).1)).symm⟩

end Verif.Einsum
