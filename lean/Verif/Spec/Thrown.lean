import Verif.Model.RequestObject

/-! # Kinds of exceptions -/

namespace Ndncert

/-- the exception is a `std::runtime_error`: `ndn::tlv::Error` is derived from it, `ndn::Name::Error` from `std::invalid_argument` -/
def Exc.IsRuntimeError : Exc → Prop
  | .runtime => True
  | .tlv => True
  | .name => False
  | .caError _ _ => True

/-- the call threw, and what -/
def Res.Throws {α : Type} (x : Res α) (e : Exc) : Prop := x = .exc e

end Ndncert
