import Verif.Model.RequestObject
import Verif.Model.Face

/-! # The type of request an Interest makes -/

namespace Ndncert

/-- the word in the name of an Interest for a request of this type (docs/protocol.md); there is none for CHALLENGE -/
def RequestType.word : RequestType → Option Bytes
  | .new => some (bytes! "NEW")
  | .renew => some (bytes! "RENEW")
  | .revoke => some (bytes! "REVOKE")
  | .notInitialized => none

/-- the Interest asks the CA `ca` for a request of type `ty` -/
def Interest.AsksFor (i : Interest) (ca : Name) (ty : RequestType) : Prop :=
  ∃ w rest, ty.word = some w ∧ i.name = ca ++ [gcomp (bytes! "CA"), gcomp w] ++ rest

end Ndncert
