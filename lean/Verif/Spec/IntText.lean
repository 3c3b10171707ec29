import Verif.Model.Basic
import Verif.Model.Text

/-! # Specification of the integers of a command line: the integer literals of Go

`123`, `0x1F`, `0o17`, `017`, `0b101`, `1_000_000`, each with an optional sign. -/

namespace StlDice
namespace Spec

/-- The byte `c` is the digit of value `v` in this base, up to 16. -/
def IsDigitOf (base : Nat) (c : UInt8) (v : Nat) : Prop :=
  v < base ∧ ((ascii "0123456789abcdef")[v]? = some c ∨ (ascii "0123456789ABCDEF")[v]? = some c)

/-- One digit or more, two of which may have one underscore between them, and their value in this base. -/
inductive DigitText (base : Nat) : Bytes → Nat → Prop
  | one {c v} (h : IsDigitOf base c v) : DigitText base [c] v
  | digit {s n c v} (hs : DigitText base s n) (h : IsDigitOf base c v) : DigitText base (s ++ [c]) (n * base + v)
  | under {s n c v} (hs : DigitText base s n) (h : IsDigitOf base c v) :
      DigitText base (s ++ [95, c]) (n * base + v)

/-- The prefixes that select a base. -/
def BasePrefix (p : Bytes) (base : Nat) : Prop :=
  (p = ascii "0b" ∨ p = ascii "0B") ∧ base = 2 ∨
  (p = ascii "0o" ∨ p = ascii "0O") ∧ base = 8 ∨
  (p = ascii "0x" ∨ p = ascii "0X") ∧ base = 16

/-- A number without sign: decimal unless it begins with `0`, then octal, or with the prefix of a base. -/
inductive NatText : Bytes → Nat → Prop
  | decimal {s n} (h : DigitText 10 s n) (h0 : s.head? ≠ some 48) : NatText s n
  | octal {s n} (h : DigitText 8 s n) (h0 : s.head? = some 48) : NatText s n
  | based {p base s n} (hp : BasePrefix p base) (h : DigitText base s n) : NatText (p ++ s) n
  | under {p base s n} (hp : BasePrefix p base) (h : DigitText base s n) : NatText (p ++ 95 :: s) n

/-- An integer with optional sign that fits in 64 bits. -/
inductive IntText : Bytes → Int → Prop
  | plain {s n} (h : NatText s n) (hn : n < 2 ^ 63) : IntText s n
  | plus {s n} (h : NatText s n) (hn : n < 2 ^ 63) : IntText (43 :: s) n
  | minus {s n} (h : NatText s n) (hn : n ≤ 2 ^ 63) : IntText (45 :: s) (-n)

end Spec
end StlDice
