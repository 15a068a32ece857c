import Verif.Spec.Session

/-! # Sessions that begin with REVOKE -/

namespace Ndncert

variable {σ : Type}

/-- REVOKE: `genRevokeInterest`, the CA, `onNewRenewRevokeResponse`; the challenges offered by the CA are the second component -/
def revokeTurn (C : Crypto) (S : StoreI σ) (cfg : CaConfig) (x : Session σ) (cert : Cert) (stack : Bytes) (t : Turn) : Option (Session σ × List Bytes) :=
  let s := serve C S cfg x.ca t.others
  match genRevokeInterest C x.requester cert with
  | some i =>
    match answer C S cfg s (.revoke i) t.env with
    | some (s', es, d) =>
      match onNewResponse C x.requester d stack with
      | (q', .ok offered) => some (⟨q', s', x.done ++ es⟩, offered)
      | _ => none
    | none => none
  | none => none

/-- A fresh requester that holds the key of the certificate `cert` is about to ask for its revocation, and the CA's policy admits that:
* the requester uses the profile of this CA, with the CA's key;
* the requester's object has a key pair, that of the certificate (`genRevokeInterest` does not set it; an earlier `genNewInterest` does);
* the name of the certificate is below the CA's prefix, within the suffix limit, and the certificate is signed by the CA;
* the CA's own certificate is valid;
* no request for this certificate is pending;
* the two messages are of sizes that TLV can express. -/
structure AdmissibleRevoke (C : Crypto) (S : StoreI σ) (cfg : CaConfig) (x : Session σ) (cert : Cert) (pub : Bytes) (env : Env) : Prop where
  pre : x.requester.profile.caPrefix = cfg.profile.caPrefix
  caKey : ∃ c, x.requester.profile.cert = some c ∧ c.content = some (C.idPub cfg.profile.caPrefix)
  fresh : x.requester.status = .beforeChallenge ∧ x.requester.challengeStatus = [] ∧ x.requester.encryptionIv = [] ∧
    x.requester.decryptionIv = [] ∧ x.requester.requestId.length = 8
  pair : ∃ kp, x.requester.keyPair = some kp ∧ C.keyPub kp.name = some pub
  content : cert.content = some pub
  packet : C.decodeCert cert.wire = some cert
  name : NamePolicy cfg.profile cert
  signed : C.verifyCert cert env.caCert = true
  caValid : CaCertValid env
  notPending : S.view x.ca.store (idFor C x.ca.idKey cert.name) = none
  revokeSize : ∀ i b, genRevokeInterest C x.requester cert = some i → i.params = some b → b.val.length < 2 ^ 64
  replySize : ∀ rid : RequestId, rid.length = 8 →
    (requestEncode (C.ecdhPub env.ecdhPriv) env.salt rid cfg.profile.supportedChallenges).val.length < 2 ^ 64

end Ndncert
