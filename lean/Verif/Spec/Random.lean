import Verif.Spec.Code
import Verif.Spec.Assign

/-! # What "decimal numeral" and "in lower case" mean -/

namespace Ndncert

/-- `v` is the decimal numeral of `n`: digits, at least one, no leading zero (except for zero itself), with value `n` -/
def DecimalOf (n : Nat) (v : Bytes) : Prop :=
  v ≠ [] ∧ (∀ b ∈ v, 48 ≤ b.toNat ∧ b.toNat ≤ 57) ∧ (v.head? = some 48 → v = [48]) ∧ digitsVal v = n

/-- the capital letters -/
def capitals : Bytes := bytes! "ABCDEFGHIJKLMNOPQRSTUVWXYZ"

/-- the small letters, in the same order -/
def smallLetters : Bytes := bytes! "abcdefghijklmnopqrstuvwxyz"

/-- `t` is `s` with each capital letter replaced by the corresponding small one -/
def InSmallLetters (s t : Bytes) : Prop :=
  Each (fun b c => (∃ k : Nat, capitals[k]? = some b ∧ smallLetters[k]? = some c) ∨ (b ∉ capitals ∧ c = b)) s t

end Ndncert
