/-!
# Byte strings and little-endian numbers
-/
namespace Verif

abbrev Bytes := List UInt8

namespace Bytes

/-- The number little-endian bytes stand for. -/
def readLE : Bytes → Nat
  | [] => 0
  | b :: bs => b.toNat + 256 * readLE bs

/-- `k` little-endian bytes of a number. -/
def writeLE : Nat → Nat → Bytes
  | 0, _ => []
  | k + 1, n => UInt8.ofNat n :: writeLE k (n / 256)

/-- Python `b[i:j]` for `0 ≤ i`, `0 ≤ j`. -/
def slice (b : Bytes) (i j : Nat) : Bytes := (b.take j).drop i

@[simp] theorem length_writeLE (k n : Nat) : (writeLE k n).length = k := by
  induction k generalizing n with
  | zero => rfl
  | succ k ih => simp [writeLE, ih]

theorem readLE_writeLE (k n : Nat) (h : n < 256 ^ k) : readLE (writeLE k n) = n := by
  induction k generalizing n with
  | zero => simp [writeLE, readLE] at *; omega
  | succ k ih =>
    simp only [writeLE, readLE]
    rw [ih (n / 256) (by rw [Nat.pow_succ] at h; omega)]
    simp
    omega

theorem readLE_lt (b : Bytes) : readLE b < 256 ^ b.length := by
  induction b with
  | nil => simp [readLE]
  | cons x b ih =>
    simp only [readLE, List.length_cons, Nat.pow_succ]
    have := x.toNat_lt
    omega

theorem writeLE_readLE (b : Bytes) : writeLE b.length (readLE b) = b := by
  induction b with
  | nil => rfl
  | cons x b ih =>
    simp only [readLE, List.length_cons, writeLE]
    have hx := x.toNat_lt
    have e1 : UInt8.ofNat (x.toNat + 256 * readLE b) = x := by
      apply UInt8.toNat_inj.1
      simp
    have e2 : (x.toNat + 256 * readLE b) / 256 = readLE b := by omega
    rw [e1, e2, ih]

theorem slice_append (pre mid post : Bytes) : slice (pre ++ mid ++ post) pre.length (pre.length + mid.length) = mid := by
  unfold slice
  rw [← List.length_append, List.take_left, List.drop_left]

theorem slice_append' (pre mid post : Bytes) (i j : Nat) (hi : i = pre.length) (hj : j = pre.length + mid.length) :
    slice (pre ++ (mid ++ post)) i j = mid := by
  subst hi hj; rw [← List.append_assoc]; exact slice_append pre mid post

theorem length_slice (b : Bytes) (i j : Nat) (h : j ≤ b.length) : (slice b i j).length = j - i := by
  unfold slice; simp; omega

theorem split_at (b : Bytes) (i j : Nat) (hij : i ≤ j) : b.take j = b.take i ++ slice b i j := by
  unfold slice
  conv => lhs; rw [← List.take_append_drop i (b.take j)]
  rw [List.take_take, Nat.min_eq_left hij]

end Bytes
end Verif
