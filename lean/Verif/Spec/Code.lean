import Verif.Model.Challenge

/-! # Secret codes -/

namespace Ndncert

/-- six decimal digits -/
def IsCode (s : Bytes) : Prop := s.length = 6 ∧ ∀ c ∈ s, 48 ≤ c.toNat ∧ c.toNat ≤ 57

/-- the number written by decimal digits -/
def digitsVal (s : Bytes) : Nat := s.foldl (fun n c => 10 * n + (c.toNat - 48)) 0

end Ndncert
