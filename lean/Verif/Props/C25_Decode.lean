import Verif.Model.Decode
/-!
# C25-C28: byte-level readers
-/
namespace Verif.Decode
open Verif Bytes

/-! ## C25: tfjs string weights -/

/-- The tfjs encoding of a list of byte strings: each with a 4-byte little-endian length in front. -/
def encodeStrings (ss : List Bytes) : Bytes := ss.flatMap (fun s => writeLE 4 s.length ++ s)

theorem encodeStrings_cons (s : Bytes) (ss : List Bytes) :
    encodeStrings (s :: ss) = writeLE 4 s.length ++ (s ++ encodeStrings ss) := by
  simp [encodeStrings]

theorem unpack_writeLE (n : Nat) (h : n < 2 ^ 32) : unpackU32 (writeLE 4 n) = .ok n := by
  unfold unpackU32
  rw [if_pos (by simp), readLE_writeLE 4 n (by simpa using h)]

/-- Reading back what was encoded, wherever it lies in the data. -/
theorem readStrings_encode (ss : List Bytes) (pre post : Bytes) (hlen : ∀ s ∈ ss, s.length < 2 ^ 32) :
    readStrings (pre ++ (encodeStrings ss ++ post)) ss.length pre.length =
      .ok (ss, pre.length + (encodeStrings ss).length) := by
  induction ss generalizing pre with
  | nil => rfl
  | cons s ss ih =>
    rw [encodeStrings_cons]
    simp only [List.length_cons, readStrings]
    have e1 : slice (pre ++ (writeLE 4 s.length ++ (s ++ encodeStrings ss) ++ post)) pre.length (pre.length + 4) =
        writeLE 4 s.length := by
      rw [List.append_assoc]
      exact slice_append' _ _ _ _ _ rfl (by simp)
    rw [e1, unpack_writeLE _ (hlen s (List.mem_cons_self))]
    have e2 : slice (pre ++ (writeLE 4 s.length ++ (s ++ encodeStrings ss) ++ post)) (pre.length + 4)
        (pre.length + 4 + s.length) = s := by
      have : pre ++ (writeLE 4 s.length ++ (s ++ encodeStrings ss) ++ post) =
          (pre ++ writeLE 4 s.length) ++ (s ++ (encodeStrings ss ++ post)) := by simp
      rw [this]
      exact slice_append' _ _ _ _ _ (by simp) (by simp)
    have e3 : pre ++ (writeLE 4 s.length ++ (s ++ encodeStrings ss) ++ post) =
        (pre ++ writeLE 4 s.length ++ s) ++ (encodeStrings ss ++ post) := by simp
    have ih' := ih (pre ++ writeLE 4 s.length ++ s) (fun t ht => hlen t (List.mem_cons_of_mem _ ht))
    have e4 : (pre ++ writeLE 4 s.length ++ s).length = pre.length + 4 + s.length := by simp [Nat.add_assoc]
    rw [← e3, e4] at ih'
    simp only [bind, Except.bind, e2, ih']
    congr 2
    simp [Nat.add_assoc, Nat.add_comm, Nat.add_left_comm]

/-- **C25**: `read_string_weight` returns exactly the byte strings that were encoded, and the number of bytes they take,
at any offset in any data. -/
theorem read_string_weight_exact (ss : List Bytes) (pre post : Bytes) (hlen : ∀ s ∈ ss, s.length < 2 ^ 32) :
    readStringWeight (pre ++ (encodeStrings ss ++ post)) pre.length ss.length = .ok (ss, (encodeStrings ss).length) := by
  unfold readStringWeight
  rw [readStrings_encode ss pre post hlen]
  simp [bind, Except.bind]

/-- Instance: two strings, the second empty. -/
example : readStringWeight [9, 2, 0, 0, 0, 104, 105, 0, 0, 0, 0, 7] 1 2 = .ok ([[104, 105], []], 10) := rfl

theorem stripNul_eq (s : Bytes) (h : s.getLast? ≠ some 0) : stripNul s = s := by
  unfold stripNul
  cases hr : s.reverse with
  | nil => simp at hr; subst hr; rfl
  | cons a l =>
    have ha : a ≠ 0 := by
      intro e
      apply h
      have : s = (a :: l).reverse := by rw [← hr]; simp
      rw [this]; simp [e]
    rw [List.dropWhile_cons_of_neg (by simpa using ha), ← hr, List.reverse_reverse]

/-- **C25, the whole weight**: `read_tfjs_weight` gives the encoded strings, provided none ends with a NUL byte.
Missing: strings with trailing NULs (see `string_weight_trailing_nul_violated`). -/
theorem read_tfjs_string_weight_partial (name : String) (ss : List Bytes) (pre post : Bytes)
    (hlen : ∀ s ∈ ss, s.length < 2 ^ 32) (hnul : ∀ s ∈ ss, s.getLast? ≠ some 0) :
    readWeight ⟨name, ss.length, none⟩ (pre ++ (encodeStrings ss ++ post)) pre.length =
      .ok (.strings ss, (encodeStrings ss).length) := by
  unfold readWeight
  simp only
  rw [read_string_weight_exact ss pre post hlen]
  have : ss.map stripNul = ss := by
    conv => rhs; rw [← List.map_id ss]
    exact List.map_congr_left (fun s hs => stripNul_eq s (hnul s hs))
  simp [bind, Except.bind, this]

/-- **C25 is violated** for strings that end with a NUL byte: numpy's byte-string arrays drop it. -/
theorem string_weight_trailing_nul_violated :
    readWeight ⟨"w", 1, none⟩ (encodeStrings [[97, 0]]) 0 = .ok (.strings [[97]], 6) := rfl

/-! ## C26: the weights partition the data -/

/-- `raw` is how the value `v` of the manifest entry `w` is stored (strings up to trailing NULs). -/
def Stored (w : Weight) (raw : Bytes) (v : Value) : Prop :=
  match w.itemSize with
  | some size => raw.length = w.count * size ∧ v = .raw raw
  | none => ∃ ss : List Bytes, ss.length = w.count ∧ raw = encodeStrings ss ∧ (∀ s ∈ ss, s.length < 2 ^ 32) ∧
      v = .strings (ss.map stripNul)

/-- The values stored one after the other. -/
def Layout : List Weight → List Bytes → List (String × Value) → Prop
  | [], [], [] => True
  | w :: ws, r :: rs, p :: ps => p.1 = w.name ∧ Stored w r p.2 ∧ Layout ws rs ps
  | _, _, _ => False

theorem readWeight_stored (w : Weight) (raw pre post : Bytes) (v : Value) (h : Stored w raw v) :
    readWeight w (pre ++ (raw ++ post)) pre.length = .ok (v, raw.length) := by
  unfold Stored at h
  unfold readWeight
  cases hs : w.itemSize with
  | some size =>
    rw [hs] at h
    simp only at h ⊢
    obtain ⟨hl, rfl⟩ := h
    rw [if_neg (by simp), if_neg (by simp; omega), ← hl]
    rw [slice_append' pre raw post _ _ rfl rfl]
  | none =>
    rw [hs] at h
    simp only at h ⊢
    obtain ⟨ss, hc, rfl, hlen, rfl⟩ := h
    rw [← hc, read_string_weight_exact ss pre post hlen]
    rfl

theorem readWeightsFrom_layout (ws : List Weight) (rs : List Bytes) (ps : List (String × Value)) (pre : Bytes)
    (h : Layout ws rs ps) :
    readWeightsFrom (pre ++ rs.flatten) ws pre.length = .ok (ps, pre.length + rs.flatten.length) := by
  induction ws generalizing rs ps pre with
  | nil =>
    cases rs with
    | nil => cases ps with
      | nil => rfl
      | cons p ps => exact h.elim
    | cons r rs => cases ps <;> exact h.elim
  | cons w ws ih =>
    cases rs with
    | nil => cases ps <;> exact h.elim
    | cons r rs =>
      cases ps with
      | nil => exact h.elim
      | cons p ps =>
        obtain ⟨h1, h2, h3⟩ := h
        simp only [List.flatten_cons, readWeightsFrom]
        rw [readWeight_stored w r pre rs.flatten p.2 h2]
        have := ih rs ps (pre ++ r) h3
        rw [List.append_assoc, List.length_append] at this
        simp only [bind, Except.bind, this, List.length_append]
        rw [← h1]
        congr 2
        omega

theorem readStrings_mono (data : Bytes) (n j : Nat) (l : List Bytes) (j' : Nat)
    (h : readStrings data n j = .ok (l, j')) : j ≤ j' := by
  induction n generalizing j l with
  | zero => simp only [readStrings, Except.ok.injEq, Prod.mk.injEq] at h; omega
  | succ n ih =>
    simp only [readStrings, bind, Except.bind] at h
    split at h
    · cases h
    · rename_i len _
      split at h
      · cases h
      · rename_i x hx
        obtain ⟨rest, j''⟩ := x
        simp only [Except.ok.injEq, Prod.mk.injEq] at h
        obtain ⟨_, rfl⟩ := h
        have := ih _ _ hx
        omega

/-- Strings that end inside the data were stored there. -/
theorem readStrings_sound (data : Bytes) (n j : Nat) (l : List Bytes) (j' : Nat)
    (h : readStrings data n j = .ok (l, j')) (hin : j' ≤ data.length) :
    l.length = n ∧ slice data j j' = encodeStrings l ∧ ∀ s ∈ l, s.length < 2 ^ 32 := by
  induction n generalizing j l with
  | zero =>
    simp only [readStrings, Except.ok.injEq, Prod.mk.injEq] at h
    obtain ⟨rfl, rfl⟩ := h
    refine ⟨rfl, ?_, by simp⟩
    unfold slice encodeStrings
    simp
  | succ n ih =>
    simp only [readStrings, bind, Except.bind] at h
    split at h
    · cases h
    · rename_i len hlen
      split at h
      · cases h
      · rename_i x hx
        obtain ⟨rest, j''⟩ := x
        simp only [Except.ok.injEq, Prod.mk.injEq] at h
        obtain ⟨rfl, rfl⟩ := h
        have hmono := readStrings_mono _ _ _ _ _ hx
        obtain ⟨h1, h2, h3⟩ := ih _ _ hx
        unfold unpackU32 at hlen
        split at hlen
        · rename_i h4
          simp only [Except.ok.injEq] at hlen
          have hl4 : writeLE 4 len = slice data j (j + 4) := by
            have := writeLE_readLE (slice data j (j + 4))
            rwa [h4, hlen] at this
          have hll : len < 2 ^ 32 := by
            have := readLE_lt (slice data j (j + 4))
            rw [h4, hlen] at this
            simpa using this
          have hsl : (slice data (j + 4) (j + 4 + len)).length = len := by
            rw [length_slice _ _ _ (by omega)]; omega
          refine ⟨by simp [h1], ?_, ?_⟩
          · rw [encodeStrings_cons, hsl, hl4, ← h2]
            have key : ∀ a b c : Nat, a ≤ b → b ≤ c → slice data a b ++ slice data b c = slice data a c := by
              intro a b c hab hbc
              have e1 := split_at data a c (by omega)
              have e2 := split_at data b c hbc
              have e3 := split_at data a b hab
              rw [e2, e3, List.append_assoc] at e1
              exact List.append_cancel_left e1
            rw [key _ _ _ (by omega) (by omega), key _ _ _ (by omega) (by omega)]
          · intro s hs
            rcases List.mem_cons.1 hs with rfl | hs
            · rw [hsl]; exact hll
            · exact h3 s hs
        · cases hlen

theorem readWeight_sound (w : Weight) (data : Bytes) (i : Nat) (v : Value) (n : Nat)
    (h : readWeight w data i = .ok (v, n)) (hin : i + n ≤ data.length) : Stored w (slice data i (i + n)) v := by
  unfold readWeight at h
  unfold Stored
  cases hs : w.itemSize with
  | some size =>
    rw [hs] at h
    simp only at h ⊢
    split at h
    · cases h
    · split at h
      · cases h
      · simp only [Except.ok.injEq, Prod.mk.injEq] at h
        obtain ⟨rfl, rfl⟩ := h
        exact ⟨by rw [length_slice _ _ _ hin]; omega, rfl⟩
  | none =>
    rw [hs] at h
    simp only [readStringWeight, bind, Except.bind] at h ⊢
    cases hr : readStrings data w.count i with
    | error e => rw [hr] at h; cases h
    | ok x =>
      obtain ⟨l, j⟩ := x
      rw [hr] at h
      simp only [Except.ok.injEq, Prod.mk.injEq] at h
      obtain ⟨rfl, rfl⟩ := h
      have hm := readStrings_mono _ _ _ _ _ hr
      have hj : i + (j - i) = j := by omega
      rw [hj] at hin ⊢
      obtain ⟨h1, h2, h3⟩ := readStrings_sound _ _ _ _ _ hr hin
      exact ⟨l, h1, h2, h3, rfl⟩

theorem readWeightsFrom_sound (data : Bytes) (ws : List Weight) (i i' : Nat) (ps : List (String × Value))
    (h : readWeightsFrom data ws i = .ok (ps, i')) (hin : i' ≤ data.length) :
    i ≤ i' ∧ ∃ rs, slice data i i' = rs.flatten ∧ Layout ws rs ps := by
  induction ws generalizing i ps with
  | nil =>
    simp only [readWeightsFrom, Except.ok.injEq, Prod.mk.injEq] at h
    obtain ⟨rfl, rfl⟩ := h
    exact ⟨Nat.le_refl _, [], by simp [slice], trivial⟩
  | cons w ws ih =>
    simp only [readWeightsFrom, bind, Except.bind] at h
    cases hw : readWeight w data i with
    | error e => rw [hw] at h; cases h
    | ok x =>
      obtain ⟨v, n⟩ := x
      rw [hw] at h
      simp only at h
      cases hr : readWeightsFrom data ws (i + n) with
      | error e => rw [hr] at h; cases h
      | ok y =>
        obtain ⟨rest, i''⟩ := y
        rw [hr] at h
        simp only [Except.ok.injEq, Prod.mk.injEq] at h
        obtain ⟨rfl, rfl⟩ := h
        obtain ⟨hle, rs, h1, h2⟩ := ih _ _ hr
        refine ⟨by omega, slice data i (i + n) :: rs, ?_, rfl, readWeight_sound w data i v n hw (by omega), h2⟩
        rw [List.flatten_cons, ← h1]
        have e1 := split_at data i i'' (by omega)
        have e2 := split_at data (i + n) i'' hle
        have e3 := split_at data i (i + n) (by omega)
        rw [e2, e3, List.append_assoc] at e1
        exact (List.append_cancel_left e1).symm

/-- **C26**: reading succeeds exactly when the data of the shards is, byte for byte, the stored values of the manifest's
weights one after the other with nothing left over; each weight then gets its own value. In particular it raises for any
data that is too short or too long. -/
theorem read_weights_partition (shards : List Bytes) (ws : List Weight) (ps : List (String × Value)) :
    readWeights shards ws = .ok ps ↔ ∃ rs, shards.flatten = rs.flatten ∧ Layout ws rs ps := by
  unfold readWeights
  constructor
  · intro h
    simp only [bind, Except.bind] at h
    cases hr : readWeightsFrom shards.flatten ws 0 with
    | error e => rw [hr] at h; cases h
    | ok x =>
      obtain ⟨l, i⟩ := x
      rw [hr] at h
      simp only at h
      split at h
      · rename_i hl
        simp only [Except.ok.injEq] at h
        subst h
        obtain ⟨_, rs, h1, h2⟩ := readWeightsFrom_sound _ _ _ _ _ hr (by omega)
        refine ⟨rs, ?_, h2⟩
        rw [← h1, ← hl]
        unfold slice
        rw [List.take_length, List.drop_zero]
      · cases h
  · rintro ⟨rs, h1, h2⟩
    have := readWeightsFrom_layout ws rs ps [] h2
    simp only [List.nil_append, List.length_nil, Nat.zero_add] at this
    rw [h1]
    simp [this, bind, Except.bind]

/-- Instance: two bytes, one string and a 2-item array of 2-byte numbers, spread over two shards. -/
example : readWeights [[1, 2, 1, 0, 0], [0, 65, 3, 3, 4, 4]] [⟨"a", 2, some 1⟩, ⟨"s", 1, none⟩, ⟨"b", 2, some 2⟩] =
    .ok [("a", .raw [1, 2]), ("s", .strings [[65]]), ("b", .raw [3, 3, 4, 4])] := rfl

/-! ## C27: base64 -/

theorem b64val_char {n : Nat} (h : n < 64) : b64val (b64char n) = some n ∧ b64char n ≠ '=' := by
  have : ∀ n : Fin 64, b64val (b64char n.1) = some n.1 ∧ b64char n.1 ≠ '=' := by decide
  exact this ⟨n, h⟩

theorem a2b_step {n : Nat} (h : n < 64) (cs : List Char) (quad left pads : Nat) :
    a2b (b64char n :: cs) quad left pads =
      match quad with
      | 0 => a2b cs 1 n 0
      | 1 => (a2b cs 2 (n % 16) 0).bind (fun r => .ok ((left * 4 + n / 16) :: r))
      | 2 => (a2b cs 3 (n % 4) 0).bind (fun r => .ok ((left * 16 + n / 4) :: r))
      | _ => (a2b cs 0 0 0).bind (fun r => .ok ((left * 64 + n) :: r)) := by
  obtain ⟨h1, h2⟩ := b64val_char h
  rw [a2b]
  simp only [h2, if_false, h1]
  rfl

/-- Whole groups of three bytes are decoded and decoding goes on after them. -/
theorem a2b_groups (l : List Nat) (cs : List Char) (r : List Nat) (hl : ∀ b ∈ l, b < 256) (h3 : l.length % 3 = 0)
    (hr : ∀ pads, a2b cs 0 0 pads = .ok r) (pads : Nat) : a2b (b2a l ++ cs) 0 0 pads = .ok (l ++ r) := by
  match l with
  | [] => simpa [b2a] using hr pads
  | [a] => simp at h3
  | [a, b] => simp at h3
  | a :: b :: c :: l =>
    have ha := hl a (by simp)
    have hb := hl b (by simp)
    have hc := hl c (by simp)
    have ih := a2b_groups l cs r (fun x hx => hl x (by simp [hx])) (by simp at h3; omega) hr 0
    simp only [b2a, List.cons_append]
    rw [a2b_step (by omega)]
    simp only
    rw [a2b_step (by omega)]
    simp only
    rw [a2b_step (by omega)]
    simp only
    rw [a2b_step (by omega)]
    simp only [ih, Except.bind]
    congr 2
    · omega
    · congr 1
      · omega
      · congr 1
        omega

theorem a2b_last (l : List Nat) (cs : List Char) (hl : ∀ b ∈ l, b < 256) (hn : l.length % 3 ≠ 0) (pads : Nat) :
    a2b (b2a l ++ cs) 0 0 pads = .ok l := by
  match l with
  | [] => simp at hn
  | [a] =>
    have ha := hl a (by simp)
    simp only [b2a, List.cons_append]
    rw [a2b_step (by omega)]
    simp only
    rw [a2b_step (by omega)]
    simp [a2b, Except.bind]
    omega
  | [a, b] =>
    have ha := hl a (by simp)
    have hb := hl b (by simp)
    simp only [b2a, List.cons_append]
    rw [a2b_step (by omega)]
    simp only
    rw [a2b_step (by omega)]
    simp only
    rw [a2b_step (by omega)]
    simp [a2b, Except.bind]
    omega
  | a :: b :: c :: l =>
    have ha := hl a (by simp)
    have hb := hl b (by simp)
    have hc := hl c (by simp)
    have ih := a2b_last l cs (fun x hx => hl x (by simp [hx])) (by simp at hn; omega) 0
    simp only [b2a, List.cons_append]
    rw [a2b_step (by omega)]
    simp only
    rw [a2b_step (by omega)]
    simp only
    rw [a2b_step (by omega)]
    simp only
    rw [a2b_step (by omega)]
    simp only [ih, Except.bind]
    congr 2
    · omega
    · congr 1
      · omega
      · congr 1
        omega

theorem a2b_newline (cs : List Char) (quad left pads : Nat) : a2b ('\n' :: cs) quad left pads = a2b cs quad left pads := by
  rw [a2b]
  have h1 : ('\n' : Char) ≠ '=' := by decide
  have h2 : b64val '\n' = none := by decide
  simp only [h1, if_false, h2]

theorem a2b_encodeLines (f : Nat) (l : List Nat) (hf : l.length < f) (hl : ∀ b ∈ l, b < 256) (pads : Nat) :
    a2b (encodeLines f l) 0 0 pads = .ok l := by
  induction f generalizing l pads with
  | zero => omega
  | succ f ih =>
    cases l with
    | nil => simp [encodeLines, a2b]
    | cons x l =>
      simp only [encodeLines]
      generalize hL : x :: l = L at *
      have hpos : 0 < L.length := by rw [← hL]; simp
      have hdrop : ∀ p, a2b (encodeLines f (L.drop 57)) 0 0 p = .ok (L.drop 57) := by
        intro p
        apply ih
        · simp only [List.length_drop]; omega
        · exact fun b hb => hl b (List.mem_of_mem_drop hb)
      have htake : ∀ b ∈ L.take 57, b < 256 := fun b hb => hl b (List.mem_of_mem_take hb)
      by_cases h3 : (L.take 57).length % 3 = 0
      · rw [a2b_groups (L.take 57) _ (L.drop 57) htake h3 (fun p => by rw [a2b_newline]; exact hdrop p),
          List.take_append_drop]
      · have hs : L.length < 57 := by
          rw [List.length_take] at h3
          by_cases hc : 57 ≤ L.length
          · rw [Nat.min_eq_left hc] at h3; omega
          · omega
        rw [a2b_last (L.take 57) _ htake h3, List.take_of_length_le (by omega)]

/-- **C27**: after `fix_string_attr`, decoding the attribute gives precisely the bytes the model's JSON listed (strings of
any length, over several base64 lines); texts are left alone, and anything that is not a byte raises. -/
theorem fix_string_attr_exact (l : List Nat) (s : List Char) :
    ((∀ b ∈ l, b < 256) → ∃ t, fixStr (.ints l) = .ok (.text t) ∧ decodebytes t = .ok l) ∧
    ((∃ b ∈ l, 256 ≤ b) → ∃ e, fixStr (.ints l) = .error e) ∧ fixStr (.text s) = .ok (.text s) := by
  refine ⟨fun h => ⟨encodebytes l, ?_, a2b_encodeLines _ l (Nat.lt_succ_self _) h 0⟩, ?_, rfl⟩
  · simp only [fixStr]
    rw [if_pos (by simpa using h)]
  · rintro ⟨b, hb, hlt⟩
    refine ⟨"ValueError: bytes must be in range(0, 256)", ?_⟩
    simp only [fixStr]
    rw [if_neg]
    simp only [List.all_eq_true, decide_eq_true_eq]
    intro h
    have := h b hb
    omega

/-- Instance: `Man` is `TWFu`. -/
example : fixStr (.ints [77, 97, 110]) = .ok (.text "TWFu\n".toList) ∧ decodebytes "TWE=\n".toList = .ok [77, 97] :=
  ⟨rfl, rfl⟩

/-! ## C28: tflite string tensors -/

/-- Start positions of strings stored one after the other from `o`. -/
def starts : Nat → List Bytes → List Nat
  | _, [] => []
  | o, s :: ss => o :: starts (o + s.length) ss

/-- The tflite encoding: number of strings, start offset of each, end offset, data. -/
def encodeTflite (ss : List Bytes) : Bytes :=
  let header := 4 * (ss.length + 2)
  writeLE 4 ss.length ++ (starts header ss).flatMap (writeLE 4) ++ writeLE 4 (header + ss.flatten.length) ++ ss.flatten

theorem starts_getD (o : Nat) (ss : List Bytes) (i : Nat) (hi : i ≤ ss.length) :
    (((starts o ss).map (fun (n : Nat) => (n : Int))) ++ [((o + ss.flatten.length : Nat) : Int)]).getD i 0 =
      ((o + (ss.take i).flatten.length : Nat) : Int) := by
  induction ss generalizing o i with
  | nil => simp only [List.length_nil, Nat.le_zero] at hi; subst hi; simp [starts]
  | cons s ss ih =>
    cases i with
    | zero => simp [starts]
    | succ i =>
      have := ih (o + s.length) i (by simpa using hi)
      simp only [starts, List.map_cons, List.cons_append, List.getD_cons_succ, List.take_succ_cons, List.flatten_cons,
        List.length_append]
      rw [show o + (s.length + ss.flatten.length) = o + s.length + ss.flatten.length by omega, this]
      congr 1
      omega

theorem length_starts (o : Nat) (ss : List Bytes) : (starts o ss).length = ss.length := by
  induction ss generalizing o with
  | nil => rfl
  | cons s ss ih => simp [starts, ih]

theorem starts_le (o : Nat) (ss : List Bytes) : ∀ x ∈ starts o ss, x ≤ o + ss.flatten.length := by
  induction ss generalizing o with
  | nil => simp [starts]
  | cons s ss ih =>
    intro x hx
    rcases List.mem_cons.1 hx with rfl | hx
    · omega
    · have := ih _ x hx
      simp only [List.flatten_cons, List.length_append]
      omega

theorem readI32_writeLE (pre post : Bytes) (n : Nat) (h : n < 2 ^ 31) :
    readI32 (pre ++ (writeLE 4 n ++ post)) pre.length = .ok (n : Int) := by
  unfold readI32
  rw [slice_append' pre (writeLE 4 n) post _ _ rfl (by simp), unpack_writeLE n (by omega)]
  simp only [bind, Except.bind]
  rw [if_pos h]

theorem readOffsets_writeLE (l : List Nat) (pre post : Bytes) (h : ∀ x ∈ l, x < 2 ^ 31) :
    readOffsets (pre ++ (l.flatMap (writeLE 4) ++ post)) l.length pre.length = .ok (l.map (fun (n : Nat) => (n : Int))) := by
  induction l generalizing pre with
  | nil => rfl
  | cons x l ih =>
    have ih' := ih (pre ++ writeLE 4 x) (fun y hy => h y (List.mem_cons_of_mem _ hy))
    have e : pre ++ ((x :: l).flatMap (writeLE 4) ++ post) = pre ++ (writeLE 4 x ++ (l.flatMap (writeLE 4) ++ post)) := by
      simp
    have e2 : pre ++ writeLE 4 x ++ (l.flatMap (writeLE 4) ++ post) =
        pre ++ (writeLE 4 x ++ (l.flatMap (writeLE 4) ++ post)) := by simp
    rw [e2, List.length_append, length_writeLE] at ih'
    rw [e]
    simp only [List.length_cons, readOffsets]
    rw [readI32_writeLE pre _ x (h x List.mem_cons_self), ih']
    rfl

theorem length_flatMap_writeLE (l : List Nat) : (l.flatMap (writeLE 4)).length = 4 * l.length := by
  induction l with
  | nil => rfl
  | cons x l ih => simp only [List.flatMap_cons, List.length_append, length_writeLE, ih, List.length_cons]; omega

theorem pyBound_nat (len i : Nat) (h : i ≤ len) : pyBound len (i : Int) = i := by
  unfold pyBound
  rw [if_neg (by omega)]
  simp [Nat.min_eq_left h]

/-- The part of a concatenation between the starts of the `i`-th and the next string is the `i`-th string. -/
theorem slice_flatten (hdr : Bytes) (ss : List Bytes) (i : Nat) (hi : i < ss.length) :
    slice (hdr ++ ss.flatten) (hdr.length + (ss.take i).flatten.length) (hdr.length + (ss.take (i + 1)).flatten.length) =
      ss[i] := by
  have e : hdr ++ ss.flatten = (hdr ++ (ss.take i).flatten) ++ (ss[i] ++ (ss.drop (i + 1)).flatten) := by
    have h := congrArg List.flatten (List.take_append_drop i ss)
    rw [List.drop_eq_getElem_cons hi, List.flatten_append, List.flatten_cons] at h
    rw [← h, List.append_assoc]
  rw [e]
  apply slice_append'
  · rw [List.length_append]
  · rw [← List.take_append_getElem hi, List.flatten_append, List.length_append, List.length_append]
    simp [Nat.add_assoc]

/-- **C28**: reading a tflite string tensor gives exactly the stored strings, in order (then decoded and reshaped), for
every list of byte strings whose encoding fits the format's 31-bit offsets. -/
theorem parse_tflite_strings_exact (ss : List Bytes) (hsize : (encodeTflite ss).length < 2 ^ 31) :
    parseTfliteStrings (encodeTflite ss) = .ok ss := by
  have hlen : (encodeTflite ss).length = 4 * (ss.length + 2) + ss.flatten.length := by
    simp only [encodeTflite, List.length_append, length_writeLE, length_flatMap_writeLE, length_starts]; omega
  have hform : encodeTflite ss = writeLE 4 ss.length ++ ((starts (4 * (ss.length + 2)) ss).flatMap (writeLE 4) ++
      (writeLE 4 (4 * (ss.length + 2) + ss.flatten.length) ++ ss.flatten)) := by
    simp [encodeTflite]
  have h1 : readI32 (encodeTflite ss) 0 = .ok (ss.length : Int) := by
    have := readI32_writeLE [] ((starts (4 * (ss.length + 2)) ss).flatMap (writeLE 4) ++
      (writeLE 4 (4 * (ss.length + 2) + ss.flatten.length) ++ ss.flatten)) ss.length (by omega)
    rw [hform]
    exact this
  have h2 : readOffsets (encodeTflite ss) ss.length 4 = .ok ((starts (4 * (ss.length + 2)) ss).map (fun (n : Nat) => (n : Int))) := by
    have := readOffsets_writeLE (starts (4 * (ss.length + 2)) ss) (writeLE 4 ss.length)
      (writeLE 4 (4 * (ss.length + 2) + ss.flatten.length) ++ ss.flatten) (by
        intro x hx
        have := starts_le _ _ x hx
        omega)
    rw [length_starts, length_writeLE] at this
    rw [hform]
    exact this
  unfold parseTfliteStrings
  simp only [h1, h2, bind, Except.bind, Int.toNat_natCast]
  congr 1
  rw [hlen]
  apply List.ext_getElem
  · simp
  · intro i hi1 hi2
    simp only [List.length_map, List.length_range] at hi1
    rw [List.getElem_map, List.getElem_range, starts_getD _ _ _ (by omega), starts_getD _ _ _ (by omega)]
    have key := slice_flatten (writeLE 4 ss.length ++ (starts (4 * (ss.length + 2)) ss).flatMap (writeLE 4) ++
      writeLE 4 (4 * (ss.length + 2) + ss.flatten.length)) ss i hi1
    have hh : (writeLE 4 ss.length ++ (starts (4 * (ss.length + 2)) ss).flatMap (writeLE 4) ++
      writeLE 4 (4 * (ss.length + 2) + ss.flatten.length)).length = 4 * (ss.length + 2) := by
      simp only [List.length_append, length_writeLE, length_flatMap_writeLE, length_starts]; omega
    rw [hh] at key
    have mono : ∀ k, (ss.take k).flatten.length ≤ ss.flatten.length := by
      intro k
      have h := congrArg (fun l => (List.flatten l).length) (List.take_append_drop k ss)
      simp only [List.flatten_append, List.length_append] at h
      omega
    unfold pySlice
    rw [pyBound_nat _ _ (by rw [hlen]; have := mono i; omega), pyBound_nat _ _ (by rw [hlen]; have := mono (i + 1); omega)]
    rw [← key]
    simp [encodeTflite]

/-- Instance: three strings, one of them empty. -/
example : parseTfliteStrings (encodeTflite [[104, 105], [], [33]]) = .ok [[104, 105], [], [33]] ∧
    (encodeTflite [[104, 105], [], [33]]).length < 2 ^ 31 := ⟨rfl, by decide⟩

/-- The stored end offset is not looked at: whatever follows the last string in the buffer becomes part of it. -/
theorem parse_tflite_strings_padding_violated :
    parseTfliteStrings (encodeTflite [[104, 105]] ++ [0, 0]) = .ok [[104, 105, 0, 0]] := rfl

end Verif.Decode
