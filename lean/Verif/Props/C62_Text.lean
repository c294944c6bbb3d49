import Verif.Props.C62_Einsum
/-!
# C62: reading the equation, renaming its letters
-/
namespace Verif.Einsum
open Verif.Tensor

variable {α : Type} [CommSemiring α]

/-! ## Reading -/

theorem alphabet_chars : ∀ c ∈ alphabet, c ≠ '-' ∧ c ≠ '>' ∧ c ≠ ',' ∧ c ≠ ' ' ∧ c.isWhitespace = false := by decide

theorem strip_id {p : Char → Bool} {l : List Char} (h : ∀ c ∈ l, p c = false) : strip p l = l := by
  have hd : ∀ m : List Char, (∀ c ∈ m, p c = false) → m.dropWhile p = m := by
    intro m hm
    cases m with
    | nil => rfl
    | cons a m => rw [List.dropWhile_cons, hm a (by simp)]; rfl
  unfold strip
  rw [hd l h, hd _ (fun c hc => h c (List.mem_reverse.1 hc)), List.reverse_reverse]

theorem strip_ends {p : Char → Bool} {a b : Char} {l : List Char} (ha : p a = false) (hb : p b = false) : strip p (a :: l ++ [b]) = a :: l ++ [b] := by
  unfold strip
  rw [List.cons_append, List.dropWhile_cons, ha]
  simp only [Bool.false_eq_true, if_false, List.reverse_cons, List.reverse_append, List.reverse_nil, List.nil_append, List.singleton_append,
    List.cons_append, List.dropWhile_cons, hb]
  simp

theorem splitC_free {c : Char} {l : List Char} (h : c ∉ l) : splitC c l = [l] := by
  induction l with
  | nil => rfl
  | cons a l ih =>
    simp only [List.mem_cons, not_or] at h
    rw [splitC, if_neg (Ne.symm h.1), ih h.2]

theorem splitC_cons {c : Char} {l r : List Char} (h : c ∉ l) : splitC c (l ++ c :: r) = l :: splitC c r := by
  induction l with
  | nil => simp [splitC]
  | cons a l ih =>
    simp only [List.mem_cons, not_or] at h
    rw [List.cons_append, splitC, if_neg (Ne.symm h.1), ih h.2]

theorem splitC_commas {ins : List (List Char)} (hne : ins ≠ []) (h : ∀ t ∈ ins, ',' ∉ t) : splitC ',' (commas ins) = ins := by
  induction ins with
  | nil => exact absurd rfl hne
  | cons t ts ih =>
    cases ts with
    | nil => exact splitC_free (h t (by simp))
    | cons u us =>
      rw [commas, splitC_cons (h t (by simp)), ih (by simp) (fun t' ht' => h t' (by simp [ht']))]
      simp

theorem splitArrow_free {l : List Char} (h : '-' ∉ l) : splitArrow l = [l] := by
  induction l with
  | nil => rfl
  | cons a l ih =>
    simp only [List.mem_cons, not_or] at h
    cases l with
    | nil => rfl
    | cons b l =>
      rw [splitArrow, if_neg (fun hc => h.1 hc.1.symm), ih h.2]

theorem splitArrow_text {l r : List Char} (hl : '-' ∉ l) (hr : '-' ∉ r) : splitArrow (l ++ '-' :: '>' :: r) = [l, r] := by
  induction l with
  | nil =>
    rw [List.nil_append, splitArrow, if_pos ⟨rfl, rfl⟩, splitArrow_free hr]
  | cons a l ih =>
    simp only [List.mem_cons, not_or] at hl
    have : ∃ b m, l ++ '-' :: '>' :: r = b :: m := by
      cases l with
      | nil => exact ⟨_, _, rfl⟩
      | cons b l => exact ⟨_, _, rfl⟩
    obtain ⟨b, m, hbm⟩ := this
    rw [List.cons_append, hbm, splitArrow, if_neg (fun hc => hl.1 hc.1.symm), ← hbm, ih hl.2]

theorem mem_commas {ins : List (List Char)} {c : Char} (h : c ∈ commas ins) : c = ',' ∨ c ∈ ins.flatten := by
  induction ins with
  | nil => simp [commas] at h
  | cons t ts ih =>
    cases ts with
    | nil => right; simpa [commas] using h
    | cons u us =>
      rw [commas] at h
      rcases List.mem_append.1 h with h | h
      · right; simp [h]
      · rcases List.mem_cons.1 h with h | h
        · left; exact h
        · rcases ih h with h | h
          · left; exact h
          · right
            simp only [List.flatten_cons, List.mem_append] at h ⊢
            right
            exact h
      · simp

/-- The text of an equation is read as the equation. -/
theorem analyse_text {ins : List (List Char)} {out : List Char} (ha : ∀ t ∈ ins, ∀ c ∈ t, c ∈ alphabet) (hk : ∀ c ∈ out, ∃ t ∈ ins, c ∈ t)
    (h0 : ∃ t ts, ins = t :: ts ∧ t ≠ []) (ho : out ≠ []) : analyse (text ins out) = some ⟨ins, out⟩ := by
  obtain ⟨t, ts, rfl, ht⟩ := h0
  have hfa : ∀ c ∈ (t :: ts).flatten, c ∈ alphabet := fun c hc => by
    obtain ⟨t', ht', hct⟩ := List.mem_flatten.1 hc
    exact ha t' ht' c hct
  have hoa : ∀ c ∈ out, c ∈ alphabet := fun c hc => by
    obtain ⟨t', ht', hct⟩ := hk c hc
    exact ha t' ht' c hct
  have hm : ∀ c ∈ commas (t :: ts), c ≠ '-' := by
    intro c hc
    rcases mem_commas hc with rfl | h
    · decide
    · exact (alphabet_chars c (hfa c h)).1
  obtain ⟨a, t', rfl⟩ := List.exists_cons_of_ne_nil ht
  have hcc : ∃ m, commas ((a :: t') :: ts) = a :: m := by
    cases ts with
    | nil => exact ⟨_, rfl⟩
    | cons u us => exact ⟨_, rfl⟩
  obtain ⟨m, hm'⟩ := hcc
  have hlast : out.dropLast ++ [out.getLast ho] = out := List.dropLast_append_getLast ho
  have hstrip : strip (fun c => c = ' ' || c = ',') (text ((a :: t') :: ts) out) = text ((a :: t') :: ts) out := by
    have e : text ((a :: t') :: ts) out = a :: (m ++ '-' :: '>' :: out.dropLast) ++ [out.getLast ho] := by
      unfold text
      rw [hm']
      conv_lhs => rw [← hlast]
      simp
    have ca := alphabet_chars a (ha (a :: t') (by simp) a (by simp))
    have cb := alphabet_chars _ (hoa _ (List.getLast_mem ho))
    rw [e]
    apply strip_ends
    · simp [ca.2.2.1, ca.2.2.2.1]
    · simp [cb.2.2.1, cb.2.2.2.1]
  unfold analyse
  rw [hstrip, text, splitArrow_text (fun h => hm _ h rfl) (fun h => (alphabet_chars _ (hoa _ h)).1 rfl)]
  simp only
  rw [splitC_commas (by simp) (fun t' ht' h => (alphabet_chars _ (ha t' ht' _ h)).2.2.1 rfl)]
  have hmap : ((a :: t') :: ts).map (strip Char.isWhitespace) = (a :: t') :: ts := by
    conv_rhs => rw [← List.map_id ((a :: t') :: ts)]
    apply List.map_congr_left
    intro t' ht'
    exact strip_id (fun c hc => (alphabet_chars c (ha t' ht' c hc)).2.2.2.2)
  rw [hmap, if_pos]
  refine ⟨by rw [hm']; simp, ho, ha, fun c hc => ?_⟩
  obtain ⟨t', ht', hct⟩ := hk c hc
  exact mem_letters.2 ⟨hoa c hc, List.mem_flatten.2 ⟨t', ht', hct⟩⟩

/-- **C62.** Every equation that the optimizer reads is decomposed, and the nodes compute what the `Einsum` node computes. -/
theorem decompose_correct {v : Nat} {dim : Char → Nat} {xs : List (T α)} {eq : List Char} {e : Eqn} (ha : analyse eq = some e) (hv : 13 ≤ v)
    (hp : Proper e.ins e.out) (hpos : ∀ c ∈ e.ins.flatten, 0 < dim c) (hx : Operands dim e.ins xs) :
    ∃ s t, decompose eq = some s ∧ s.run v xs = some t ∧ Same t (einsum e.ins e.out xs) := by
  have hal : (∀ t ∈ e.ins, ∀ c ∈ t, c ∈ alphabet) ∧ e.ins ≠ [] := by
    unfold analyse at ha
    split at ha
    · rename_i l r _
      simp only at ha
      split at ha
      · rename_i hc
        cases ha
        refine ⟨hc.2.2.1, fun h => ?_⟩
        simp only at h
        obtain ⟨c, r', hr⟩ := List.exists_cons_of_ne_nil hc.2.1
        have := hc.2.2.2 c (by simp [hr])
        rw [h] at this
        simp [lettersOf] at this
      · cases ha
    · cases ha
  obtain ⟨s, t, h1, h2, h3⟩ := decomposeRaw_res hv hp hal.1 hal.2 hpos hx
  refine ⟨mergeAll (.ident s), t, ?_, mergeAll_run v xs (.ident s) t h2, h3⟩
  simp only [decompose, ha, h1]

/-! ## Renaming -/

theorem summed_mem {ι : Type} [DecidableEq ι] {ins : List (List ι)} {out : List ι} {c : ι} : c ∈ summed ins out ↔ c ∈ ins.flatten ∧ c ∉ out := by
  simp only [summed, List.mem_dedup, List.mem_filter, decide_eq_true_eq]

/-- Renaming letters does not change what an equation computes. -/
theorem einsum_rename {ι κ : Type} [DecidableEq ι] [DecidableEq κ] {dim : ι → Nat} {ins : List (List ι)} {out : List ι} {xs : List (T α)} (f : ι → κ)
    (hf : ∀ a ∈ ins.flatten, ∀ b ∈ ins.flatten, f a = f b → a = b) (hp : Proper ins out) (hx : Operands dim ins xs) :
    (∃ dim' : κ → Nat, (∀ c ∈ ins.flatten, dim' (f c) = dim c) ∧ Operands dim' (ins.map (List.map f)) xs) ∧
    Proper (ins.map (List.map f)) (out.map f) ∧
    Same (einsum (ins.map (List.map f)) (out.map f) xs) (einsum ins out xs) := by
  have hknown : ∀ c ∈ out, c ∈ ins.flatten := fun c hc => by
    obtain ⟨t, ht, hct⟩ := hp.known c hc
    exact List.mem_flatten.2 ⟨t, ht, hct⟩
  let K := ins.flatten.dedup
  let g : κ → Nat := fun d => (K.map f).idxOf d
  have hg : ∀ c ∈ ins.flatten, ∃ hi : g (f c) < K.length, K[g (f c)] = c := by
    intro c hc
    have hm : f c ∈ K.map f := List.mem_map.2 ⟨c, List.mem_dedup.2 hc, rfl⟩
    have hi : g (f c) < (K.map f).length := List.idxOf_lt_length_iff.2 hm
    have hi' : g (f c) < K.length := by simpa using hi
    refine ⟨hi', ?_⟩
    have h1 : (K.map f)[g (f c)] = f c := List.getElem_idxOf hi
    rw [List.getElem_map] at h1
    exact hf _ (List.mem_dedup.1 (List.getElem_mem hi')) _ hc h1
  have hdim : ∀ (h : ι → Nat), ∃ h' : κ → Nat, ∀ c ∈ ins.flatten, h' (f c) = h c := by
    intro h
    refine ⟨fun d => ((K[g d]?).map h).getD 0, fun c hc => ?_⟩
    obtain ⟨hi, he⟩ := hg c hc
    simp only [List.getElem?_eq_getElem hi, Option.map_some, Option.getD_some, he]
  obtain ⟨dim', hd'⟩ := hdim dim
  have hx' : Operands dim' (ins.map (List.map f)) xs := by
    clear hdim hg g K hknown hf hp
    induction hx with
    | nil => exact .nil
    | @cons t x ts ys hx _ ih =>
      refine .cons ?_ (ih (fun c hc => hd' c (by simp only [List.flatten_cons, List.mem_append]; exact Or.inr hc)))
      rw [hx, List.map_map]
      exact List.map_congr_left (fun c hc => (hd' c (by simp [hc])).symm)
  have hp' : Proper (ins.map (List.map f)) (out.map f) := by
    refine ⟨fun t ht => ?_, ?_, fun d hd => ?_⟩
    · obtain ⟨t0, ht0, rfl⟩ := List.mem_map.1 ht
      exact List.Nodup.map_on (fun a h1 b h2 h => hf a (List.mem_flatten.2 ⟨t0, ht0, h1⟩) b (List.mem_flatten.2 ⟨t0, ht0, h2⟩) h) (hp.noRepeat t0 ht0)
    · exact List.Nodup.map_on (fun a h1 b h2 h => hf a (hknown a h1) b (hknown b h2) h) hp.outNoRepeat
    · obtain ⟨c, hc, rfl⟩ := List.mem_map.1 hd
      obtain ⟨t, ht, hct⟩ := hp.known c hc
      exact ⟨t.map f, List.mem_map.2 ⟨t, ht, rfl⟩, List.mem_map.2 ⟨c, hct, rfl⟩⟩
  have hknown' : ∀ d ∈ out.map f, d ∈ (ins.map (List.map f)).flatten := fun d hd => by
    obtain ⟨t, ht, hct⟩ := hp'.known d hd
    exact List.mem_flatten.2 ⟨t, ht, hct⟩
  refine ⟨⟨dim', hd', hx'⟩, hp', ?_, fun idx hi => ?_⟩
  · rw [einsum_shape hx hknown, einsum_shape hx' hknown', List.map_map]
    exact List.map_congr_left (fun c hc => hd' c (hknown c hc))
  · have hil : idx.length = out.length := by rw [hi.1]; simp [einsum]
    have e1 := index_map hp.outNoRepeat hil
    obtain ⟨σ', hσ'⟩ := hdim (fun c => nth idx (out.idxOf c))
    have e2 : (out.map f).map σ' = idx := by
      rw [List.map_map]
      conv_rhs => rw [← e1]
      exact List.map_congr_left (fun c hc => hσ' c (hknown c hc))
    have h1 := einsum_get (out := out) hx (fun c => nth idx (out.idxOf c))
    have h2 := einsum_get (out := out.map f) hx' σ'
    rw [e1] at h1
    rw [e2] at h2
    rw [h1, h2]
    have hSn : ((summed ins out).map f).Nodup :=
      List.Nodup.map_on (fun a h1 b h2 h => hf a (summed_mem.1 h1).1 b (summed_mem.1 h2).1 h) (List.nodup_dedup _)
    have hperm : (summed (ins.map (List.map f)) (out.map f)).Perm ((summed ins out).map f) := by
      refine (List.perm_ext_iff_of_nodup (List.nodup_dedup _) hSn).2 ?_
      intro d
      rw [show (List.filter _ _).dedup = summed (ins.map (List.map f)) (out.map f) from rfl, summed_mem, ← List.map_flatten]
      constructor
      · rintro ⟨h1, h2⟩
        obtain ⟨c, hc, rfl⟩ := List.mem_map.1 h1
        exact List.mem_map.2 ⟨c, summed_mem.2 ⟨hc, fun h => h2 (List.mem_map.2 ⟨c, h, rfl⟩)⟩, rfl⟩
      · intro h
        obtain ⟨c, hc, rfl⟩ := List.mem_map.1 h
        have := summed_mem.1 hc
        refine ⟨List.mem_map.2 ⟨c, this.1, rfl⟩, fun h' => ?_⟩
        obtain ⟨b, hb, hbc⟩ := List.mem_map.1 h'
        exact this.2 (by rw [← hf b (hknown b hb) c this.1 hbc]; exact hb)
    rw [sumL_perm hperm]
    symm
    refine sumL_rename (K := ins.flatten) hf (fun τ τ' h => product_rename f ins xs h) (summed ins out) _ σ' (fun c hc => (hσ' c hc).symm) ?_
    intro c hc
    exact ⟨(summed_mem.1 hc).1, (hd' c (summed_mem.1 hc).1).symm⟩

/-- Lower-case letters. -/
def lower : List Char := "abcdefghijklmnopqrstuvwxyz".toList

theorem lower_upper : ∀ c ∈ lower, c.toUpper.toLower = c ∧ c.toUpper ∉ lower ∧ c.toLower = c ∧ c ∈ alphabet := by decide

theorem map_commas (f : Char → Char) (hf : f ',' = ',') (ins : List (List Char)) : (commas ins).map f = commas (ins.map (List.map f)) := by
  induction ins with
  | nil => rfl
  | cons t ts ih =>
    cases ts with
    | nil => rfl
    | cons u us =>
      rw [commas, List.map_append, List.map_cons, ih, hf]
      · rfl
      · simp

theorem map_text {f : Char → Char} (h1 : f ',' = ',') (h2 : f '-' = '-') (h3 : f '>' = '>') (ins : List (List Char)) (out : List Char) :
    (text ins out).map f = text (ins.map (List.map f)) (out.map f) := by
  unfold text
  rw [List.map_append, List.map_cons, List.map_cons, h2, h3, map_commas f h1]

theorem renameSeq_map (pairs : List (Char × Char)) (eq : List Char) : renameSeq pairs eq =
    eq.map (fun c => (pairs.foldl (fun d kv => if d = kv.1 then kv.2.toUpper else d) c).toLower) := by
  unfold renameSeq
  have : ∀ (ps : List (Char × Char)) (e : List Char), ps.foldl (fun e kv => e.map (fun c => if c = kv.1 then kv.2.toUpper else c)) e =
      e.map (fun c => ps.foldl (fun d kv => if d = kv.1 then kv.2.toUpper else d) c) := by
    intro ps
    induction ps with
    | nil => intro e; simp
    | cons p ps ih => intro e; simp only [List.foldl_cons]; rw [ih, List.map_map]; rfl
  rw [this, List.map_map]
  rfl

theorem fold_other (pairs : List (Char × Char)) (d : Char) (h : ∀ kv ∈ pairs, d ≠ kv.1) :
    pairs.foldl (fun d kv => if d = kv.1 then kv.2.toUpper else d) d = d := by
  induction pairs with
  | nil => rfl
  | cons p ps ih =>
    rw [List.foldl_cons, if_neg (h p (by simp))]
    exact ih (fun kv hkv => h kv (by simp [hkv]))

theorem fold_letter (perm letters : List Char) (hp : ∀ c ∈ perm, c ∈ lower) (hl : ∀ c ∈ letters, c ∈ lower) (hlen : perm.length = letters.length)
    (hn : perm.Nodup) (k : Nat) (hk : k < perm.length) (hk' : k < letters.length) :
    ((perm.zip letters).foldl (fun d kv => if d = kv.1 then kv.2.toUpper else d) perm[k]).toLower = letters[k] := by
  induction perm generalizing letters k with
  | nil => simp at hk
  | cons a perm ih =>
    cases letters with
    | nil => simp at hk'
    | cons b letters =>
      rw [List.zip_cons_cons, List.foldl_cons]
      cases k with
      | zero =>
        simp only [List.getElem_cons_zero, if_true]
        rw [fold_other]
        · exact (lower_upper b (hl b (by simp))).1
        · intro kv hkv he
          have h1 := (lower_upper b (hl b (by simp))).2.1
          rw [he] at h1
          exact h1 (hp _ (by simp [(List.of_mem_zip hkv).1]))
      | succ k =>
        simp only [List.getElem_cons_succ]
        have hne : perm[k]'(by simpa using hk) ≠ a := by
          intro he
          exact (List.nodup_cons.1 hn).1 (by rw [← he]; exact List.getElem_mem _)
        rw [if_neg hne]
        exact ih letters (fun c hc => hp c (by simp [hc])) (fun c hc => hl c (by simp [hc])) (by simpa using hlen) (List.nodup_cons.1 hn).2 k
          (by simpa using hk) (by simpa using hk')

/-- **C62, the equation that is taken.** Whatever permutation of the letters is taken, the equation is decomposed, and the nodes compute what the
original equation says. -/
theorem candidate_correct {v : Nat} {dim : Char → Nat} {xs : List (T α)} {ins : List (List Char)} {out perm : List Char} (hv : 13 ≤ v)
    (hp : Proper ins out) (hlow : ∀ c ∈ ins.flatten, c ∈ lower) (h0 : ∃ t ts, ins = t :: ts ∧ t ≠ []) (ho : out ≠ [])
    (hperm : perm.Perm (lowerLetters (text ins out))) (hpos : ∀ c ∈ ins.flatten, 0 < dim c) (hx : Operands dim ins xs) :
    ∃ eq s t, candidate perm (text ins out) = some eq ∧ decompose eq = some s ∧ s.run v xs = some t ∧ Same t (einsum ins out xs) := by
  have hknown : ∀ c ∈ out, c ∈ ins.flatten := fun c hc => by
    obtain ⟨t, ht, hct⟩ := hp.known c hc
    exact List.mem_flatten.2 ⟨t, ht, hct⟩
  have hLm : ∀ c, c ∈ lowerLetters (text ins out) → c ∈ lower := fun c hc => (List.mem_filter.1 hc).1
  have hLn : (lowerLetters (text ins out)).Nodup := List.Nodup.filter _ (by decide)
  have htxt : ∀ c ∈ ins.flatten, c ∈ text ins out := by
    intro c hc
    have : c ∈ commas ins := by
      clear h0 hx hp hlow hpos hperm hknown hLm hLn
      induction ins with
      | nil => simp at hc
      | cons t ts ih =>
        cases ts with
        | nil => simpa [commas] using hc
        | cons u us =>
          rw [commas]
          simp only [List.flatten_cons, List.mem_append] at hc
          rcases hc with h | h
          · simp [h]
          · have := ih (by simpa using h)
            simp [this]
          · simp
    simp [text, this]
  have hmemL : ∀ c ∈ ins.flatten, c ∈ lowerLetters (text ins out) := fun c hc =>
    List.mem_filter.2 ⟨hlow c hc, by simpa using htxt c hc⟩
  generalize hL : lowerLetters (text ins out) = L at *
  have hpn : perm.Nodup := hperm.nodup_iff.2 hLn
  have hpl : ∀ c ∈ perm, c ∈ lower := fun c hc => hLm c (hperm.mem_iff.1 hc)
  let f : Char → Char := fun c => ((perm.zip L).foldl (fun d kv => if d = kv.1 then kv.2.toUpper else d) c).toLower
  have hfl : ∀ c ∈ perm, ∃ (h : perm.idxOf c < L.length), f c = L[perm.idxOf c] := by
    intro c hc
    have hi := List.idxOf_lt_length_iff.2 hc
    have hi' : perm.idxOf c < L.length := by rw [← hperm.length_eq]; exact hi
    refine ⟨hi', ?_⟩
    have := fold_letter perm L hpl hLm hperm.length_eq hpn (perm.idxOf c) hi hi'
    rw [List.getElem_idxOf hi] at this
    exact this
  have hfo : ∀ c, c ∉ lower → f c = c.toLower := by
    intro c hc
    simp only [f]
    rw [fold_other]
    intro kv hkv he
    exact hc (by rw [he]; exact hpl _ (List.of_mem_zip hkv).1)
  have hfi : ∀ a ∈ ins.flatten, ∀ b ∈ ins.flatten, f a = f b → a = b := by
    intro a ha b hb h
    have pa := hperm.mem_iff.2 (hmemL a ha)
    have pb := hperm.mem_iff.2 (hmemL b hb)
    obtain ⟨h1, e1⟩ := hfl a pa
    obtain ⟨h2, e2⟩ := hfl b pb
    rw [e1, e2] at h
    have := (hLn.getElem_inj_iff).1 h
    exact idxOf_inj pa this
  have hfm : ∀ c ∈ ins.flatten, f c ∈ lower := by
    intro c hc
    obtain ⟨h1, e1⟩ := hfl c (hperm.mem_iff.2 (hmemL c hc))
    rw [e1]
    exact hLm _ (List.getElem_mem h1)
  obtain ⟨⟨dim', hd', hx'⟩, hp', hsame⟩ := einsum_rename f hfi hp hx
  have hren : renameSeq (perm.zip L) (text ins out) = text (ins.map (List.map f)) (out.map f) := by
    rw [renameSeq_map]
    exact map_text (f := f) (by rw [hfo _ (by decide)]; decide) (by rw [hfo _ (by decide)]; decide) (by rw [hfo _ (by decide)]; decide) ins out
  have hid : (text ins out).map Char.toLower = text ins out := by
    rw [map_text (by decide) (by decide) (by decide)]
    have e1 : out.map Char.toLower = out := by
      conv_rhs => rw [← List.map_id out]
      exact List.map_congr_left (fun c hc => (lower_upper c (hlow c (hknown c hc))).2.2.1)
    have e2 : ins.map (List.map Char.toLower) = ins := by
      conv_rhs => rw [← List.map_id ins]
      apply List.map_congr_left
      intro t ht
      conv_rhs => rw [id, ← List.map_id t]
      exact List.map_congr_left (fun c hc => (lower_upper c (hlow c (List.mem_flatten.2 ⟨t, ht, hc⟩))).2.2.1)
    rw [e1, e2]
  have hfa : ∀ d ∈ (ins.map (List.map f)).flatten, ∃ c ∈ ins.flatten, f c = d := by
    intro d hd
    rw [← List.map_flatten] at hd
    exact List.mem_map.1 hd
  have han : analyse (text (ins.map (List.map f)) (out.map f)) = some ⟨ins.map (List.map f), out.map f⟩ := by
    apply analyse_text
    · intro t ht c hc
      obtain ⟨b, hb, rfl⟩ := hfa c (List.mem_flatten.2 ⟨t, ht, hc⟩)
      exact (lower_upper _ (hfm b hb)).2.2.2
    · exact hp'.known
    · obtain ⟨t, ts, rfl, ht⟩ := h0
      exact ⟨t.map f, ts.map (List.map f), rfl, by simpa using ht⟩
    · simpa using ho
  obtain ⟨s, t, h1, h2, h3⟩ := decompose_correct (dim := dim') han hv hp' (fun d hd => by
    obtain ⟨c, hc, rfl⟩ := hfa d hd
    rw [hd' c hc]
    exact hpos c hc) hx'
  refine ⟨_, s, t, ?_, h1, h2, h3.trans hsame⟩
  unfold candidate
  rw [if_pos hid, hL, hren]

end Verif.Einsum
