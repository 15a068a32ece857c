import Verif.Model.Basic

/-! # Specification: the number a typed line stands for -/

namespace Ndncert

/-- the value of a string of decimal digits -/
def digitsValue (s : Bytes) : Nat := s.foldl (fun v b => 10 * v + (b.toNat - 48)) 0

/-- The line stands for the number `n`: white space, an optional sign, at least one decimal digit with a value below 2^64, and then
anything that does not begin with a digit. After a minus sign `n` is the value negated modulo 2^64. -/
inductive StandsFor (line : Bytes) (n : Nat) : Prop
  | mk {blanks sign digits rest : Bytes} (shape : line = blanks ++ (sign ++ (digits ++ rest)))
      (blank : ∀ b ∈ blanks, b = 32 ∨ 9 ≤ b.toNat ∧ b.toNat ≤ 13) (signs : sign = [] ∨ sign = [43] ∨ sign = [45]) (some : digits ≠ [])
      (digit : ∀ b ∈ digits, 48 ≤ b.toNat ∧ b.toNat ≤ 57) (all : ∀ b, rest.head? = .some b → ¬ (48 ≤ b.toNat ∧ b.toNat ≤ 57))
      (fits : digitsValue digits < 2 ^ 64)
      (value : if sign = [45] then (n + digitsValue digits) % 2 ^ 64 = 0 ∧ n < 2 ^ 64 else n = digitsValue digits)

/-- the lower 32 bits of a number as a signed one -/
def asSigned32 (n : Nat) : Int := if n % 2 ^ 32 < 2 ^ 31 then (n % 2 ^ 32 : Nat) else ((n % 2 ^ 32 : Nat) : Int) - 2 ^ 32

end Ndncert
