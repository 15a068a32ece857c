import Verif.Model.Ca
import Verif.Spec.Store
import Verif.Spec.Names

/-! # What the CA is supposed to do with NEW and REVOKE -/

namespace Ndncert

/-- the identity in a certificate name `<identity>/KEY/<key id>/<issuer>/<version>` -/
def identityOf (n : Name) : Name := n.take (n.length - 4)

/-- the key name in a certificate name `<key name>/<issuer>/<version>` -/
def keyNameOf (n : Name) : Name := n.take (n.length - 2)

/-- the id of a request for a certificate of this name: the first eight octets of the keyed hash of the name's wire format -/
def idFor (C : Crypto) (idKey : Bytes) (certName : Name) : RequestId :=
  (C.hmac idKey (Block.encode ⟨7, encodeAll certName⟩)).take 8

/-- the name is a certificate name whose identity is strictly below the CA prefix, by at most max-suffix-length components -/
def NamePolicy (p : CaProfile) (c : Cert) : Prop :=
  IsCertName c.name ∧ p.caPrefix <+: identityOf c.name ∧ p.caPrefix.length < (identityOf c.name).length ∧
  ∀ k, p.maxSuffixLength = some k → (identityOf c.name).length ≤ p.caPrefix.length + k

/-- the period stated in the certificate satisfies
notBefore >= now-120s, notAfter <= now+max-validity-period, notBefore < notAfter (times in ns) -/
def ValidityPolicy (p : CaProfile) (c : Cert) (now : Time) : Prop :=
  ∃ nb na, c.validity = some (nb, na) ∧
    now - 120 * 1000000000 ≤ nb ∧ na ≤ now + p.maxValidityPeriod * 1000000000 ∧ nb < na

/-- the period is what remains of `nb`..`na` (in ns) when both ends are moved inwards to whole seconds -/
def SecondsInside (nb na : Time) (p : Time × Time) : Prop :=
  (∃ a : Int, p.1 = a * 1000000000) ∧ nb ≤ p.1 ∧ p.1 < nb + 1000000000 ∧
  (∃ b : Int, p.2 = b * 1000000000) ∧ p.2 ≤ na ∧ na < p.2 + 1000000000

/-- the CA's own certificate is valid now -/
def CaCertValid (env : Env) : Prop := ∃ nb na, env.caCert.validity = some (nb, na) ∧ nb ≤ env.nowCa ∧ env.nowCa ≤ na

/-- the Interest's parameters are well formed and carry this ECDH key and this certificate
(`C04_params_strict` says what that means) -/
def Submits (C : Crypto) (ty : RequestType) (i : Interest) (pub : Bytes) (cert : Cert) : Prop :=
  requestParamsDecode C i.params ty = .ok (pub, cert)

/-- a pending request was added -/
def Accepted (o : Outcome) : Prop := ∃ r, Effect.dbAdd r ∈ o.effects

/-- the Data packets a handler sends -/
def sent : List Effect → List Data
  | [] => []
  | .put d :: es => d :: sent es
  | _ :: es => sent es

/-- the states the status callback is called with -/
def callbacks : List Effect → List RequestState
  | [] => []
  | .callback r :: es => r :: callbacks es
  | _ :: es => callbacks es

/-- the certificates signed by the CA -/
def issued : List Effect → List Cert
  | [] => []
  | .issue c :: es => c :: issued es
  | _ :: es => issued es

/-- the emails sent -/
def mailed : List Effect → List Mail
  | [] => []
  | .mail m :: es => m :: mailed es
  | _ :: es => mailed es

/-- an error reply to `i` with a non-zero code, signed by the CA -/
def IsErrorReply (C : Crypto) (cfg : CaConfig) (i : Interest) (code : ErrorCode) (d : Data) : Prop :=
  code ≠ 0 ∧ ∃ info, d =
    { name := i.name, content := errorEncode code info,
      sig := C.signData cfg.profile.caPrefix i.name (errorEncode code info) }

/-- The checks for NEW and REVOKE in the documented order, each with the error code of its failure. -/
def acceptanceChecks {σ : Type} (C : Crypto) (S : StoreI σ) (cfg : CaConfig) (idKey : Bytes) (st : σ) (ty : RequestType)
    (i : Interest) (env : Env) : List (Prop × ErrorCode) :=
  [ (CaCertValid env, ErrorCode.BAD_VALIDITY_PERIOD),
    (∃ pub cert, Submits C ty i pub cert, ErrorCode.INVALID_PARAMETER),
    (∃ pub cert, Submits C ty i pub cert ∧ pub ≠ [], ErrorCode.INVALID_PARAMETER),
    (∃ pub cert, Submits C ty i pub cert ∧ C.ecdhDerive env.ecdhPriv pub ≠ none, ErrorCode.INVALID_PARAMETER),
    (∃ pub cert, Submits C ty i pub cert ∧ NamePolicy cfg.profile cert, ErrorCode.NAME_NOT_ALLOWED)]
  ++ (match ty with
    | .new =>
      [ (∃ pub cert, Submits C ty i pub cert ∧ ValidityPolicy cfg.profile cert env.now, ErrorCode.BAD_VALIDITY_PERIOD),
        (∃ pub cert, Submits C ty i pub cert ∧ C.verifyCert cert cert = true, ErrorCode.BAD_SIGNATURE),
        (∃ pub cert, Submits C ty i pub cert ∧ C.verifyInterest i cert = true, ErrorCode.BAD_SIGNATURE)]
    | _ => [(∃ pub cert, Submits C ty i pub cert ∧ C.verifyCert cert env.caCert = true, ErrorCode.BAD_SIGNATURE)])
  ++ [(∃ pub cert, Submits C ty i pub cert ∧ S.view st (idFor C idKey cert.name) = none, ErrorCode.INVALID_PARAMETER)]

/-- the first check that fails has this code -/
def FirstFailing (checks : List (Prop × ErrorCode)) (code : ErrorCode) : Prop :=
  ∃ pre p post, checks = pre ++ (p, code) :: post ∧ (∀ q ∈ pre, q.1) ∧ ¬ p

/-- what a NEW that is accepted has satisfied -/
structure NewPolicy (C : Crypto) (cfg : CaConfig) (i : Interest) (env : Env) (cert : Cert) : Prop where
  submitted : ∃ pub, Submits C .new i pub cert
  name : NamePolicy cfg.profile cert
  validity : ValidityPolicy cfg.profile cert env.now
  selfSigned : C.verifyCert cert cert = true
  possession : C.verifyInterest i cert = true

end Ndncert
