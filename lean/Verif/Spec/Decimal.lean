/-!
# Decimal rendering of natural numbers

`str(n)` / `"{}".format(n)` of a Python `int >= 0`, and `int(s)` on ASCII digits.  This is the only
part of Python's formatting mini-language the model needs.  Strings are lists of characters.
-/
namespace Verif

/-- A Python `str`, as the list of its code points. -/
abbrev Str := List Char

namespace Decimal

/-- Character of a decimal digit (`0..9`). -/
def digitChar (d : Nat) : Char := Char.ofNat (48 + d)

/-- Decimal digits of `n`, with a bound on the number of digits. -/
def renderAux : Nat → Nat → Str
  | 0, _ => []
  | f + 1, n => if n < 10 then [digitChar n] else renderAux f (n / 10) ++ [digitChar (n % 10)]

/-- Python `str(n)` for a non-negative integer `n` (`n + 1` digits are always enough). -/
def render (n : Nat) : Str := renderAux (n + 1) n

theorem renderAux_enough : ∀ (f n : Nat), n < f → renderAux f n = render n := by
  suffices h : ∀ n f g, n < f → n < g → renderAux f n = renderAux g n from
    fun f n hf => h n f (n + 1) hf (by omega)
  intro n
  induction n using Nat.strongRecOn with
  | _ n ih =>
    intro f g hf hg
    match f, g with
    | f + 1, g + 1 =>
      unfold renderAux
      split
      · rfl
      · rw [ih (n / 10) (by omega) f g (by omega) (by omega)]

/-- The usual recursion equation of decimal rendering. -/
theorem render_eq (n : Nat) :
    render n = if n < 10 then [digitChar n] else render (n / 10) ++ [digitChar (n % 10)] := by
  conv => lhs; unfold render; unfold renderAux
  split
  · rfl
  · rw [renderAux_enough _ _ (by omega)]

/-- ASCII decimal digit test (`\d` restricted to ASCII). -/
def isDigit (c : Char) : Bool := 48 ≤ c.toNat && c.toNat ≤ 57

/-- Python `int(s)` on a string of ASCII digits. -/
def parse (s : Str) : Nat := s.foldl (fun a c => 10 * a + (c.toNat - 48)) 0

theorem toNat_digitChar {d : Nat} (h : d < 10) : (digitChar d).toNat = 48 + d := by
  have : ∀ d : Fin 10, (digitChar d.1).toNat = 48 + d.1 := by decide
  exact this ⟨d, h⟩

theorem isDigit_digitChar {d : Nat} (h : d < 10) : isDigit (digitChar d) = true := by
  simp [isDigit, toNat_digitChar h]; omega

theorem render_ne_nil (n : Nat) : render n ≠ [] := by
  rw [render_eq]; split <;> simp

theorem all_isDigit_render (n : Nat) : ∀ c ∈ render n, isDigit c = true := by
  induction n using Nat.strongRecOn with
  | _ n ih =>
    rw [render_eq]
    split
    · rename_i h; simp [isDigit_digitChar h]
    · rename_i h
      intro c hc
      rcases List.mem_append.1 hc with hc | hc
      · exact ih (n / 10) (by omega) c hc
      · simp at hc; subst hc; exact isDigit_digitChar (by omega)

theorem parse_append_single (s : Str) (c : Char) :
    parse (s ++ [c]) = 10 * parse s + (c.toNat - 48) := by
  simp [parse]

/-- `int(str(n)) == n`. -/
theorem parse_render (n : Nat) : parse (render n) = n := by
  induction n using Nat.strongRecOn with
  | _ n ih =>
    rw [render_eq]
    split
    · rename_i h; simp [parse, toNat_digitChar h]
    · rename_i h
      rw [parse_append_single, ih (n / 10) (by omega), toNat_digitChar (by omega)]
      omega

theorem render_injective {a b : Nat} (h : render a = render b) : a = b := by
  rw [← parse_render a, ← parse_render b, h]

end Decimal
end Verif
