import Verif.Model.External
/-!
# C24: external tensors
-/
namespace Verif.External
open Verif

/-! ## Specification -/

/-- What a runtime makes of a tensor of the model, given the files of the archive: an external tensor's bytes are those of
the file at its location (the values in `float_data`, `string_data`, ... are not looked at for an external tensor). -/
def resolve (files : Dict Str Bytes) (t : Tensor) : Option Tensor :=
  match t.location with
  | none => some t
  | some l => (files.get l).map (fun b => { t with raw := b, typed := [], location := none })

/-- A tensor as the converter makes them: inline. -/
def Inline : Attr → Prop
  | .tensor t => t.location = none
  | .other _ => True

/-! ## Names -/

theorem isDigit_not_bad {c : Char} (h : Decimal.isDigit c = true) : c ∉ badChars := by
  intro hb
  have : ∀ c ∈ badChars, Decimal.isDigit c = false := by decide
  rw [this c hb] at h; exact absurd h (by decide)

theorem sanitize_suffix (x : Str) (k : Nat) :
    sanitize (x ++ '_' :: Decimal.render k) = sanitize x ++ '_' :: Decimal.render k := by
  unfold sanitize
  rw [List.map_append, List.map_cons]
  have h1 : (if '_' ∈ badChars then '_' else '_') = '_' := by simp
  have h2 : (Decimal.render k).map (fun c => if c ∈ badChars then '_' else c) = Decimal.render k := by
    conv => rhs; rw [← List.map_id (Decimal.render k)]
    apply List.map_congr_left
    intro c hc
    rw [if_neg (isDigit_not_bad (Decimal.all_isDigit_render k c hc))]; rfl
  rw [h1, h2]

/-- The digits at the end of a string. -/
def tailDigits (s : Str) : Str := (s.reverse.takeWhile Decimal.isDigit).reverse

theorem tailDigits_name (x : Str) (k : Nat) : tailDigits (x ++ '_' :: Decimal.render k) = Decimal.render k := by
  unfold tailDigits
  have : (x ++ '_' :: Decimal.render k).reverse = (Decimal.render k).reverse ++ ('_' :: x.reverse) := by simp
  rw [this, List.takeWhile_append_of_pos (by intro c hc; exact Decimal.all_isDigit_render k c (by simpa using hc))]
  have h0 : Decimal.isDigit '_' = false := by decide
  rw [List.takeWhile_cons, h0]
  simp

theorem name_counter {x y : Str} {j k : Nat}
    (h : sanitize (x ++ '_' :: Decimal.render j) = sanitize (y ++ '_' :: Decimal.render k)) : j = k := by
  rw [sanitize_suffix, sanitize_suffix] at h
  have := congrArg tailDigits h
  rw [tailDigits_name, tailDigits_name] at this
  exact Decimal.render_injective this

theorem name_not_onnx (x : Str) (k : Nat) : endsOnnx (sanitize (x ++ '_' :: Decimal.render k)) = false := by
  rw [sanitize_suffix]
  unfold endsOnnx
  rw [Bool.eq_false_iff]
  intro h
  have hp := List.isPrefixOf_iff_prefix.1 h
  obtain ⟨t, ht⟩ := hp
  have hne := Decimal.render_ne_nil k
  have : (sanitize x ++ '_' :: Decimal.render k).reverse = (Decimal.render k).reverse ++ ('_' :: (sanitize x).reverse) := by
    simp
  rw [this] at ht
  cases hr : (Decimal.render k).reverse with
  | nil => exact hne (by simpa using hr)
  | cons c l =>
    rw [hr] at ht
    have hc : Decimal.isDigit c = true := Decimal.all_isDigit_render k c (by
      have : c ∈ (Decimal.render k).reverse := by rw [hr]; simp
      simpa using this)
    have e : 'x' = c := by
      have := congrArg List.head? ht
      simpa using this
    rw [← e] at hc
    exact absurd hc (by decide)

/-! ## Invariant of the storage -/

/-- `l` is a name made for a counter below `k`. -/
def Made (k : Nat) (l : Str) : Prop := ∃ x j, j < k ∧ l = sanitize (strip x ++ '_' :: Decimal.render j)

structure Inv (nodes : List VNode) (st : Storage) : Prop where
  names : ∀ l b, st.nameToData.get l = some b → Made st.counter l
  /-- every modified node has its own location, and its data is there -/
  modified : ∀ i t, st.modified.get i = some t → ∃ n ∈ nodes, n.id = i ∧ ∃ t0, n.value = .tensor t0 ∧
    size t0 > st.threshold ∧ ∃ l, t = { t0 with raw := [], location := some l } ∧ st.nameToData.get l = some t0.raw ∧
      ∃ j, j < st.counter ∧ l = sanitize (strip n.name ++ '_' :: Decimal.render j)
  distinct : ∀ i j t u, st.modified.get i = some t → st.modified.get j = some u → t.location = u.location → i = j

theorem inv_empty (nodes : List VNode) : Inv nodes Storage.empty := by
  constructor
  · intro l b h; simp [Storage.empty] at h
  · intro i t h; simp [Storage.empty] at h
  · intro i j t u h; simp [Storage.empty] at h

theorem inv_step {nodes : List VNode} {st : Storage} (h : Inv nodes st) {n : VNode} (hn : n ∈ nodes) :
    Inv nodes (getValueAttr st n.id n.name n.value).1 := by
  unfold getValueAttr
  cases hm : st.modified.get n.id with
  | some t => exact h
  | none =>
    cases hv : n.value with
    | other k => exact h
    | tensor t =>
      simp only
      split
      · rename_i hsz
        have hfresh : st.nameToData.get (sanitize (strip n.name ++ '_' :: Decimal.render st.counter)) = none := by
          cases hg : st.nameToData.get (sanitize (strip n.name ++ '_' :: Decimal.render st.counter)) with
          | none => rfl
          | some b =>
            obtain ⟨x, j, hj, he⟩ := h.names _ _ hg
            have := name_counter he
            omega
        refine ⟨?_, ?_, ?_⟩
        · intro l b hl
          simp only [Dict.get_set] at hl
          split at hl
          · rename_i e; exact ⟨n.name, st.counter, Nat.lt_succ_self _, e.symm⟩
          · obtain ⟨x, j, hj, he⟩ := h.names l b hl
            exact ⟨x, j, Nat.lt_succ_of_lt hj, he⟩
        · intro i u hu
          simp only [Dict.get_set] at hu ⊢
          split at hu
          · rename_i e
            simp only [Option.some.injEq] at hu
            refine ⟨n, hn, e, t, hv, hsz, _, hu.symm, ?_, st.counter, Nat.lt_succ_self _, rfl⟩
            simp
          · obtain ⟨m, hmem, hid, t0, hv0, hs0, l, hl, hg, j, hj, he⟩ := h.modified i u hu
            refine ⟨m, hmem, hid, t0, hv0, hs0, l, hl, ?_, j, Nat.lt_succ_of_lt hj, he⟩
            rw [if_neg]
            · exact hg
            · intro e
              rw [← e, hfresh] at hg
              cases hg
        · intro i j u v hu hv' hloc
          simp only [Dict.get_set] at hu hv'
          have hno : ∀ i u, st.modified.get i = some u →
              u.location ≠ some (sanitize (strip n.name ++ '_' :: Decimal.render st.counter)) := by
            intro i u hu e
            obtain ⟨m, _, _, t0, _, _, l, hl, hg, _⟩ := h.modified i u hu
            rw [hl] at e
            simp only [Option.some.injEq] at e
            rw [e, hfresh] at hg
            cases hg
          split at hu
          · rename_i e1
            split at hv'
            · rename_i e2; rw [← e1, ← e2]
            · simp only [Option.some.injEq] at hu
              subst hu
              exact absurd hloc.symm (hno j v hv')
          · split at hv'
            · simp only [Option.some.injEq] at hv'
              subst hv'
              exact absurd hloc (hno i u hu)
            · exact h.distinct i j u v hu hv' hloc
      · exact h

/-- A step never forgets a modified attribute. -/
theorem step_keeps {st : Storage} {n : VNode} {i : Nat} {t : Tensor} (h : st.modified.get i = some t) :
    (getValueAttr st n.id n.name n.value).1.modified.get i = some t := by
  unfold getValueAttr
  cases hm : st.modified.get n.id with
  | some t => exact h
  | none =>
    cases hv : n.value with
    | other k => exact h
    | tensor u =>
      simp only
      split
      · simp only [Dict.get_set]
        rw [if_neg]
        · exact h
        · intro e; rw [← e, hm] at h; cases h
      · exact h

theorem step_threshold (st : Storage) (n : VNode) : (getValueAttr st n.id n.name n.value).1.threshold = st.threshold := by
  unfold getValueAttr
  cases st.modified.get n.id with
  | some t => rfl
  | none =>
    cases n.value with
    | other k => rfl
    | tensor u => simp only; split <;> rfl

theorem serialize_keeps {ns : List VNode} {st : Storage} {i : Nat} {t : Tensor} (h : st.modified.get i = some t) :
    (serialize st ns).1.modified.get i = some t := by
  induction ns generalizing st with
  | nil => exact h
  | cons n ns ih => exact ih (step_keeps h)

theorem serialize_inv {nodes ns : List VNode} {st : Storage} (h : Inv nodes st) (hs : ∀ n ∈ ns, n ∈ nodes) :
    Inv nodes (serialize st ns).1 := by
  induction ns generalizing st with
  | nil => exact h
  | cons n ns ih =>
    exact ih (inv_step h (hs n List.mem_cons_self)) (fun m hm => hs m (List.mem_cons_of_mem _ hm))

/-- Every result: small or no tensor, and then unchanged; or a large one, and then the recorded modified attribute. -/
theorem serialize_result {nodes ns : List VNode} {st : Storage} (h : Inv nodes st) (hs : ∀ n ∈ ns, n ∈ nodes)
    (hid : ∀ m ∈ nodes, ∀ n ∈ nodes, m.id = n.id → m = n) :
    (serialize st ns).2.length = ns.length ∧ ∀ p ∈ ns.zip (serialize st ns).2,
      (p.2 = p.1.value ∧ ∀ t, p.1.value = .tensor t → size t ≤ st.threshold) ∨
      ∃ t, p.2 = .tensor t ∧ (serialize st ns).1.modified.get p.1.id = some t := by
  induction ns generalizing st with
  | nil => exact ⟨rfl, fun p hp => by simp at hp⟩
  | cons n ns ih =>
    have hn := hs n List.mem_cons_self
    have hinv := inv_step h hn
    obtain ⟨ih1, ih2⟩ := ih hinv (fun m hm => hs m (List.mem_cons_of_mem _ hm))
    refine ⟨by simp only [serialize, List.length_cons, ih1], ?_⟩
    intro p hp
    simp only [serialize, List.zip_cons_cons, List.mem_cons] at hp
    rcases hp with rfl | hp
    · simp only [serialize]
      cases hm : st.modified.get n.id with
      | some t =>
        refine Or.inr ⟨t, by simp [getValueAttr, hm], serialize_keeps (step_keeps hm)⟩
      | none =>
        cases hv : n.value with
        | other k => exact Or.inl ⟨by simp [getValueAttr, hm], fun t ht => by cases ht⟩
        | tensor u =>
          by_cases hz : size u > st.threshold
          · refine Or.inr ⟨{ u with raw := [], location := some (sanitize (strip n.name ++ '_' :: Decimal.render st.counter)) },
              ?_, serialize_keeps ?_⟩
            · simp [getValueAttr, hm, hz]
            · simp [getValueAttr, hm, hz]
          · refine Or.inl ⟨by simp [getValueAttr, hm, hz], fun t ht => ?_⟩
            cases ht; omega
    · have := ih2 p hp
      rw [step_threshold] at this
      exact this

/-! ## The archive -/

theorem sanitize_noNul {s : Str} (h : Char.ofNat 0 ∉ s) : Char.ofNat 0 ∉ sanitize s := by
  unfold sanitize
  intro hc
  obtain ⟨c, hc1, hc2⟩ := List.mem_map.1 hc
  split at hc2
  · exact absurd hc2 (by decide)
  · subst hc2; exact h hc1

theorem zipName_eq {s : Str} (h : Char.ofNat 0 ∉ s) : zipName s = s := by
  unfold zipName
  induction s with
  | nil => rfl
  | cons c s ih =>
    rw [List.mem_cons, not_or] at h
    rw [List.takeWhile_cons_of_pos (by simpa using Ne.symm h.1), ih h.2]

/-- A dictionary has distinct keys. -/
theorem set_keys_nodup {κ β : Type} [DecidableEq κ] (d : Dict κ β) (k : κ) (b : β) (h : d.keys.Nodup) :
    (d.set k b).keys.Nodup ∧ ∀ x, x ∈ (d.set k b).keys ↔ x = k ∨ x ∈ d.keys := by
  have hmem : ∀ x, x ∈ (d.set k b).keys ↔ x = k ∨ x ∈ d.keys := by
    intro x
    rw [← Dict.get_isSome_iff, ← Dict.get_isSome_iff, Dict.get_set]
    by_cases e : k = x
    · simp [e]
    · simp [e, Ne.symm e]
  refine ⟨?_, hmem⟩
  induction d with
  | nil => simp [Dict.set, Dict.keys]
  | cons p d ih =>
    obtain ⟨k', b'⟩ := p
    simp only [Dict.keys, List.map_cons, List.nodup_cons] at h
    simp only [Dict.set]
    split
    · rename_i e
      simp only [Dict.keys, List.map_cons, List.nodup_cons]
      exact ⟨e ▸ h.1, h.2⟩
    · rename_i e
      have hm' : ∀ x, x ∈ (Dict.set d k b).keys ↔ x = k ∨ x ∈ Dict.keys d := by
        intro x
        rw [← Dict.get_isSome_iff, ← Dict.get_isSome_iff, Dict.get_set]
        by_cases e : k = x
        · simp [e]
        · simp [e, Ne.symm e]
      have := ih h.2 hm'
      simp only [Dict.keys, List.map_cons, List.nodup_cons] at this ⊢
      refine ⟨?_, this⟩
      intro hk
      have h2 := (hm' k').1 hk
      rcases h2 with rfl | h2
      · exact e rfl
      · exact h.1 h2

theorem step_nodup {st : Storage} {n : VNode} (h : st.nameToData.keys.Nodup) :
    (getValueAttr st n.id n.name n.value).1.nameToData.keys.Nodup := by
  unfold getValueAttr
  cases st.modified.get n.id with
  | some t => exact h
  | none =>
    cases n.value with
    | other k => exact h
    | tensor u =>
      simp only
      split
      · exact (set_keys_nodup _ _ _ h).1
      · exact h

theorem serialize_nodup {ns : List VNode} {st : Storage} (h : st.nameToData.keys.Nodup) :
    (serialize st ns).1.nameToData.keys.Nodup := by
  induction ns generalizing st with
  | nil => exact h
  | cons n ns ih => exact ih (step_nodup h)

/-- Looking up a name in a list of entries with distinct names. -/
theorem zipRead_mem {z : List (Str × Bytes)} (h : (z.map (·.1)).Nodup) {n : Str} {b : Bytes} (hm : (n, b) ∈ z) :
    zipRead z n = some b := by
  unfold zipRead
  cases hf : z.reverse.find? (fun p => p.1 = n) with
  | none =>
    rw [List.find?_eq_none] at hf
    exact absurd (decide_eq_true rfl) (hf (n, b) (by simpa using hm))
  | some p =>
    have h1 := List.find?_some hf
    have h2 : p ∈ z := by simpa using List.mem_of_find?_eq_some hf
    have hp : p = (n, b) := by
      have hpn : p.1 = n := by simpa using h1
      obtain ⟨i, hi, rfl⟩ := List.mem_iff_getElem.1 h2
      obtain ⟨j, hj, hjb⟩ := List.mem_iff_getElem.1 hm
      have : (z.map (·.1))[i]'(by simpa using hi) = (z.map (·.1))[j]'(by simpa using hj) := by
        simp only [List.getElem_map, hpn, hjb]
      have := (List.getElem_inj h).1 this
      subst this
      exact hjb
    rw [hp]; rfl

/-- The loop over entries that are all tensors. -/
theorem foldl_unzip (z : List (Str × Bytes)) (ns : List Str) (hns : ∀ n ∈ ns, endsOnnx n = false) (s : Bytes × Dict Str Bytes) :
    (ns.foldl (unzipStep z) s).1 = s.1 ∧
    ∀ l, (ns.foldl (unzipStep z) s).2.get l = if l ∈ ns then some ((zipRead z l).getD []) else s.2.get l := by
  induction ns generalizing s with
  | nil => simp
  | cons n ns ih =>
    obtain ⟨h1, h2⟩ := ih (fun m hm => hns m (List.mem_cons_of_mem _ hm)) (unzipStep z s n)
    have e : unzipStep z s n = (s.1, s.2.set n ((zipRead z n).getD [])) := by
      unfold unzipStep; simp only [hns n List.mem_cons_self]; rfl
    rw [e] at h1 h2
    simp only [List.foldl_cons, e]
    refine ⟨h1, fun l => ?_⟩
    rw [h2 l, Dict.get_set]
    by_cases hl : l ∈ ns
    · simp [hl]
    · by_cases hln : l = n
      · subst hln; simp [hl]
      · simp [hl, hln, Ne.symm hln]

/-- Reading back what was saved: the model's bytes and every stored file. -/
theorem read_save (nodes : List VNode) (st : Storage) (model : Bytes) (hinv : Inv nodes st)
    (hnd : st.nameToData.keys.Nodup) (hnul : ∀ l ∈ st.nameToData.keys, Char.ofNat 0 ∉ l) :
    (readZip (saveZip model st)).1 = model ∧
    ∀ l, (readZip (saveZip model st)).2.get l = st.nameToData.get l := by
  have hmap : st.nameToData.map (fun p => (zipName p.1, p.2)) = st.nameToData := by
    conv => rhs; rw [← List.map_id st.nameToData]
    apply List.map_congr_left
    intro p hp
    rw [zipName_eq (hnul p.1 (List.mem_map.2 ⟨p, hp, rfl⟩))]; rfl
  have hz : saveZip model st = (modelName, model) :: st.nameToData := by
    unfold saveZip; rw [hmap]
  have hon : ∀ l ∈ st.nameToData.keys, endsOnnx l = false := by
    intro l hl
    obtain ⟨b, hb⟩ := Option.isSome_iff_exists.1 (Dict.get_isSome_iff.2 hl)
    obtain ⟨x, j, _, rfl⟩ := hinv.names l b hb
    exact name_not_onnx _ _
  have hm : endsOnnx modelName = true := by decide
  have hnm : modelName ∉ st.nameToData.keys := by
    intro h; rw [hon _ h] at hm; cases hm
  have hnodup : ((saveZip model st).map (·.1)).Nodup := by
    rw [hz, List.map_cons, List.nodup_cons]
    exact ⟨hnm, hnd⟩
  have hr : readZip (saveZip model st) = st.nameToData.keys.foldl (unzipStep (saveZip model st)) (model, []) := by
    unfold readZip
    have e : (saveZip model st).map (·.1) = modelName :: st.nameToData.keys := by rw [hz]; rfl
    rw [e, List.foldl_cons]
    congr 1
    unfold unzipStep
    rw [zipRead_mem hnodup (n := modelName) (b := model) (by rw [hz]; simp)]
    simp [hm]
  obtain ⟨h1, h2⟩ := foldl_unzip (saveZip model st) st.nameToData.keys hon (model, [])
  rw [hr]
  refine ⟨h1, fun l => ?_⟩
  rw [h2 l]
  by_cases hl : l ∈ st.nameToData.keys
  · rw [if_pos hl]
    obtain ⟨b, hb⟩ := Option.isSome_iff_exists.1 (Dict.get_isSome_iff.2 hl)
    rw [zipRead_mem hnodup (n := l) (b := b) (by
      rw [hz]; exact List.mem_cons_of_mem _ (Dict.get_eq_some_mem hb)), hb]
    rfl
  · rw [if_neg hl, Dict.get_eq_none_iff.2 hl]; rfl

/-- **C24**. Whatever nodes are serialized, in whatever order and how often:
* tensors stored externally by different nodes have different locations;
* tensors of at most 1024 elements, and other values, are written unchanged;
* from the archive one reads back the model's bytes, and each written tensor, resolved against the files of the archive,
  is the node's own tensor.
Missing: tensors of more than 1024 elements whose values are not in `raw_data` (see `typed_data_lost_violated`), and node
names holding a NUL character (`zipfile` cuts names there). -/
theorem external_storage_partial (nodes calls : List VNode) (model : Bytes)
    (hcalls : ∀ n ∈ calls, n ∈ nodes) (hid : ∀ m ∈ nodes, ∀ n ∈ nodes, m.id = n.id → m = n)
    (hinline : ∀ n ∈ nodes, Inline n.value)
    (hraw : ∀ n ∈ nodes, ∀ t, n.value = .tensor t → 1024 < size t → t.typed = []) (hnul : ∀ n ∈ nodes, Char.ofNat 0 ∉ n.name) :
    let out := serialize Storage.empty calls
    let archive := readZip (saveZip model out.1)
    out.2.length = calls.length ∧ archive.1 = model ∧
    (∀ p ∈ calls.zip out.2, ∀ q ∈ calls.zip out.2, ∀ t u l, p.2 = .tensor t → q.2 = .tensor u → t.location = some l →
      u.location = some l → p.1 = q.1) ∧
    (∀ p ∈ calls.zip out.2, (∀ t, p.1.value = .tensor t → size t ≤ 1024) → p.2 = p.1.value) ∧
    (∀ p ∈ calls.zip out.2, ∀ t, p.1.value = .tensor t → ∃ t', p.2 = .tensor t' ∧ resolve archive.2 t' = some t) := by
  intro out archive
  have hinv : Inv nodes out.1 := serialize_inv (inv_empty nodes) hcalls
  have hnd : out.1.nameToData.keys.Nodup := serialize_nodup (by simp [Storage.empty, Dict.keys])
  obtain ⟨hlen, hres⟩ := serialize_result (inv_empty nodes) hcalls hid
  -- every stored location comes from a modified node, by a second invariant: names are made from node names
  have hn2 : ∀ l ∈ out.1.nameToData.keys, Char.ofNat 0 ∉ l := by
    have key : ∀ (ns : List VNode) (st : Storage), (∀ n ∈ ns, n ∈ nodes) →
        (∀ l ∈ st.nameToData.keys, Char.ofNat 0 ∉ l) → st.nameToData.keys.Nodup →
        ∀ l ∈ (serialize st ns).1.nameToData.keys, Char.ofNat 0 ∉ l := by
      intro ns
      induction ns with
      | nil => intro st _ h _; exact h
      | cons n ns ih =>
        intro st hs h hnd
        apply ih _ (fun m hm => hs m (List.mem_cons_of_mem _ hm)) _ (step_nodup hnd)
        unfold getValueAttr
        cases st.modified.get n.id with
        | some t => exact h
        | none =>
          cases n.value with
          | other k => exact h
          | tensor u =>
            simp only
            split
            · intro l hl
              rcases ((set_keys_nodup _ _ _ hnd).2 l).1 hl with rfl | hl
              · apply sanitize_noNul
                intro hc
                rcases List.mem_append.1 hc with hc | hc
                · apply hnul n (hs n List.mem_cons_self)
                  unfold strip at hc
                  rw [List.mem_reverse] at hc
                  have := List.dropWhile_subset _ hc
                  rw [List.mem_reverse] at this
                  exact List.dropWhile_subset _ this
                · rcases List.mem_cons.1 hc with hc | hc
                  · exact absurd hc (by decide)
                  · have := Decimal.all_isDigit_render _ _ hc
                    exact absurd this (by decide)
              · exact h l hl
            · exact h
    exact key calls Storage.empty hcalls (by simp [Storage.empty, Dict.keys]) (by simp [Storage.empty, Dict.keys])
  obtain ⟨hm, hfiles⟩ := read_save nodes out.1 model hinv hnd hn2
  have ht : out.1.threshold = 1024 := by
    have : ∀ (ns : List VNode) (st : Storage), (serialize st ns).1.threshold = st.threshold := by
      intro ns
      induction ns with
      | nil => intro st; rfl
      | cons n ns ih => intro st; simp only [serialize]; rw [ih, step_threshold]
    exact this calls Storage.empty
  refine ⟨hlen, hm, ?_, ?_, ?_⟩
  · intro p hp q hq t u l hpt hqt hl1 hl2
    have hpn := hcalls p.1 (List.of_mem_zip hp).1
    have hqn := hcalls q.1 (List.of_mem_zip hq).1
    have big : ∀ r ∈ calls.zip out.2, ∀ t l, r.2 = .tensor t → t.location = some l → out.1.modified.get r.1.id = some t := by
      intro r hr t l hrt hl
      rcases hres r hr with ⟨h1, h2⟩ | ⟨t', h1, h2⟩
      · have := hinline r.1 (hcalls r.1 (List.of_mem_zip hr).1)
        rw [← h1, hrt] at this
        simp only [Inline] at this
        rw [this] at hl; cases hl
      · rw [hrt] at h1; cases h1; exact h2
    have := hinv.distinct _ _ t u (big p hp t l hpt hl1) (big q hq u l hqt hl2) (hl1.trans hl2.symm)
    exact hid _ hpn _ hqn this
  · intro p hp hsmall
    rcases hres p hp with ⟨h1, _⟩ | ⟨t, h1, h2⟩
    · exact h1
    · obtain ⟨n, hn, hni, t0, hv, hsz, _⟩ := hinv.modified _ _ h2
      have : n = p.1 := hid n hn _ (hcalls _ (List.of_mem_zip hp).1) hni
      subst this
      have := hsmall t0 hv
      omega
  · intro p hp t hpt
    rcases hres p hp with ⟨h1, _⟩ | ⟨t', h1, h2⟩
    · refine ⟨t, by rw [h1, hpt], ?_⟩
      have := hinline p.1 (hcalls p.1 (List.of_mem_zip hp).1)
      rw [hpt] at this
      simp only [Inline] at this
      unfold resolve
      rw [this]
    · obtain ⟨n, hn, hni, t0, hv, hsz, l, hl, hg, _⟩ := hinv.modified _ _ h2
      have : n = p.1 := hid n hn _ (hcalls _ (List.of_mem_zip hp).1) hni
      subst this
      rw [hpt] at hv
      cases hv
      refine ⟨t', h1, ?_⟩
      have hin := hinline _ hn
      rw [hpt] at hin
      simp only [Inline] at hin
      unfold resolve
      rw [hl]
      simp only
      rw [hfiles l, hg]
      simp only [Option.map_some, Option.some.injEq]
      have htyped := hraw _ hn t hpt (by omega)
      cases t
      simp only at hin htyped
      subst hin htyped
      rfl

/-- Instance: two large constants whose names clean up to the same text, and a small one, with repeated calls. -/
example :
    let a : VNode := ⟨0, "w/x".toList, .tensor ⟨[1025], [1, 2], [], none⟩⟩
    let b : VNode := ⟨1, "w:x".toList, .tensor ⟨[1025], [3, 4], [], none⟩⟩
    let c : VNode := ⟨2, "c".toList, .tensor ⟨[2], [5, 6], [], none⟩⟩
    (serialize Storage.empty [a, b, c, a]).2 =
      [.tensor ⟨[1025], [], [], some "w_x_0".toList⟩, .tensor ⟨[1025], [], [], some "w_x_1".toList⟩,
       .tensor ⟨[2], [5, 6], [], none⟩, .tensor ⟨[1025], [], [], some "w_x_0".toList⟩] ∧
    (readZip (saveZip [9] (serialize Storage.empty [a, b, c, a]).1)) =
      ([9], [("w_x_0".toList, [1, 2]), ("w_x_1".toList, [3, 4])]) := ⟨rfl, rfl⟩

/-- **C24 is violated** for every large tensor whose values are not in `raw_data` (a constant of more than 1024 strings,
for instance): its values are not in the archive, and what is read back is not the tensor. -/
theorem typed_data_lost_violated (n : VNode) (t : Tensor) (model : Bytes) (hn : n.value = .tensor t) (hbig : 1024 < size t)
    (htyped : t.typed ≠ []) :
    let out := serialize Storage.empty [n]
    ∃ t', out.2 = [.tensor t'] ∧ resolve (readZip (saveZip model out.1)).2 t' ≠ some t := by
  have hbig' : size t > Storage.empty.threshold := hbig
  refine ⟨{ t with raw := [], location := some (sanitize (strip n.name ++ '_' :: Decimal.render 0)) }, ?_, ?_⟩
  · have hm : Storage.empty.modified.get n.id = none := rfl
    simp only [serialize, getValueAttr, hn, hm]
    rw [if_pos hbig']
    rfl
  · unfold resolve
    simp only
    intro h
    rw [Option.map_eq_some_iff] at h
    obtain ⟨b, _, hb⟩ := h
    apply htyped
    rw [← hb]

end Verif.External
