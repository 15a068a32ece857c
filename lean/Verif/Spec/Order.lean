import Verif.Model.Encoders

/-! # The order of the keys of a multimap, in words -/

namespace Ndncert

/-- the order of `std::string`: one string is a proper prefix of the other, or at the first octet where they differ the first has the
smaller one -/
def BytesBefore (a b : Bytes) : Prop :=
  (∃ x rest, b = a ++ x :: rest) ∨ ∃ common x y as bs, a = common ++ x :: as ∧ b = common ++ y :: bs ∧ x < y

/-- no entry has a key that belongs before the key of an entry in front of it: this holds of every `std::multimap` -/
def MMap.InOrder (m : MMap) : Prop := m.Pairwise (fun e f => ¬ BytesBefore f.1 e.1)

end Ndncert
