import Verif.Model.Email

/-! # Which addresses come through the command line of the email script -/

namespace Ndncert

/-- the addresses that come through the command line unchanged: no NUL, no backslash directly before a quote, an even number of quotes, and
an even number of them in front of every space -/
def ComesThrough (a : Bytes) : Prop :=
  (0 : UInt8) ∉ a ∧ (∀ x y, a ≠ x ++ 92 :: 34 :: y) ∧ a.count 34 % 2 = 0 ∧ ∀ x y, a = x ++ 32 :: y → x.count 34 % 2 = 0

/-- letters and digits -/
def alphanumerics : Bytes := bytes! "abcdefghijklmnopqrstuvwxyzABCDEFGHIJKLMNOPQRSTUVWXYZ0123456789"

/-- `user@host.domain`: a user name of letters, digits and `_.+-`, a host of letters, digits and `-`, and a domain of letters, digits, `-`
and `.`, none of them empty -/
def WellFormedAddress (a : Bytes) : Prop :=
  ∃ user host domain, a = user ++ bytes! "@" ++ host ++ bytes! "." ++ domain ∧ user ≠ [] ∧ host ≠ [] ∧ domain ≠ [] ∧
    (∀ c ∈ user, c ∈ alphanumerics ++ bytes! "_.+-") ∧ (∀ c ∈ host, c ∈ alphanumerics ++ bytes! "-") ∧
    ∀ c ∈ domain, c ∈ alphanumerics ++ bytes! "-."

/-- the same with anything but a line break in the place of the dot -/
def AlmostAddress (a : Bytes) : Prop :=
  ∃ user host x domain, a = user ++ bytes! "@" ++ host ++ [x] ++ domain ∧ user ≠ [] ∧ host ≠ [] ∧ domain ≠ [] ∧ x ∉ bytes! "\n\r" ∧
    (∀ c ∈ user, c ∈ alphanumerics ++ bytes! "_.+-") ∧ (∀ c ∈ host, c ∈ alphanumerics ++ bytes! "-") ∧
    ∀ c ∈ domain, c ∈ alphanumerics ++ bytes! "-."

end Ndncert
