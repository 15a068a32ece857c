import Verif.Model.Types
import Verif.Spec.TextStore

/-! # What can be read off the listing of `ndncert-ca-status` -/

namespace Ndncert

/-- what is shown of a challenge: its status, the tries and seconds left, when it was last used (in microseconds) and the secrets -/
structure ShownChallenge where
  status : Bytes
  tries : Nat
  seconds : Int
  updated : Int
  secrets : List (Bytes × Bytes)
  deriving DecidableEq

/-- what is shown of a request. The type of the request, its key and the IVs are not. -/
structure Shown where
  caName : Name
  id : Bytes
  status : Status
  challengeType : Bytes
  challenge : Option ShownChallenge
  certLines : List Bytes
  deriving DecidableEq

def shown (certLines : Cert → List Bytes) (r : RequestState) : Shown :=
  ⟨r.caPrefix, r.requestId, r.status, r.challengeType,
    r.challengeState.map (fun cs => ⟨cs.challengeStatus, cs.remainingTries, cs.remainingTime, cs.timestamp.tdiv 1000, cs.secrets⟩), certLines r.cert⟩

/-- the parts of a request that the CA chooses have no line feeds, its secrets are UTF-8 and its status is one of the five -/
def OneLiners (r : RequestState) : Prop :=
  10 ∉ r.challengeType ∧ (∀ n, r.status ≠ .other n) ∧ ∀ cs, r.challengeState = some cs → 10 ∉ cs.challengeStatus ∧ SecretsUtf8 cs.secrets

end Ndncert
