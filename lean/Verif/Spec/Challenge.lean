import Verif.Spec.Ca

/-! # Vocabulary for CHALLENGE -/

namespace Ndncert

/-- the Interest's parameters are an AES-GCM block whose IV, tag and ciphertext decrypt, under the key and id of `r`,
to `pt` -/
def Decrypts (C : Crypto) (i : Interest) (r : RequestState) (pt : Bytes) : Prop :=
  ∃ b es ct iv tag, i.params = some b ∧ parse b.val = .ok es ∧
    getElem es T.EncryptedPayload = .ok ct ∧ getElem es T.InitializationVector = .ok iv ∧
    getElem es T.AuthenticationTag = .ok tag ∧
    C.aesDec r.encryptionKey iv.val r.requestId ct.val tag.val = some pt

/-- the IV may be used by the requester of `r` for its next message, of `n` octets: not an IV of the CA's own, the same
random part as before and a counter that was not used before and stays within 32 bits -/
def FreshIv (r : RequestState) (iv : Bytes) (n : Nat) : Prop :=
  iv.length = 12 ∧ (r.encryptionIv ≠ [] → iv.take 8 ≠ r.encryptionIv.take 8) ∧
  (r.decryptionIv ≠ [] → iv.take 8 = r.decryptionIv.take 8 ∧ ivCounter r.decryptionIv ≤ ivCounter iv) ∧
  ivCounter iv + (n + 15) / 16 < 2 ^ 32 - 1

/-- `Decrypts`, with elements of the right sizes and a fresh IV -/
def Opens (C : Crypto) (i : Interest) (r : RequestState) (pt : Bytes) : Prop :=
  ∃ b es ct iv tag, i.params = some b ∧ parse b.val = .ok es ∧
    getElem es T.EncryptedPayload = .ok ct ∧ getElem es T.InitializationVector = .ok iv ∧
    getElem es T.AuthenticationTag = .ok tag ∧ tag.val.length = 16 ∧ ct.val.length = pt.length ∧ FreshIv r iv.val pt.length ∧
    C.aesDec r.encryptionKey iv.val r.requestId ct.val tag.val = some pt

/-- the decrypted parameters are the elements `es`, which select challenge `k` -/
def Selects (C : Crypto) (i : Interest) (r : RequestState) (es : List Block) (k : ChalKind) : Prop :=
  ∃ pt sel, Decrypts C i r pt ∧ pt ≠ [] ∧ parse pt = .ok es ∧ getElem es T.SelectedChallenge = .ok sel ∧
    sel.val = k.regName

/-- the elements give this value for the challenge (first ParameterValue) -/
def Gives (es : List Block) (v : Bytes) : Prop := ∃ b, getElem es T.ParameterValue = .ok b ∧ b.val = v

/-- the code a request waits for -/
def AwaitsCode (r : RequestState) (cs : ChallengeState) (code : Bytes) : Prop :=
  r.challengeState = some cs ∧ (cs.challengeStatus = (bytes! "need-code") ∨ cs.challengeStatus = (bytes! "wrong-code")) ∧
    secretGet cs.secrets (bytes! "code") = .ok code

/-- the elements carry a proof: a key `proof` followed by this value -/
def GivesProof (es : List Block) (v : Bytes) : Prop :=
  ∃ a b pre post, es = pre ++ a :: b :: post ∧ a.typ = T.ParameterKey ∧ a.val = (bytes! "proof") ∧
    b.typ = T.ParameterValue ∧ b.val = v

/-- the elements carry a credential: a key `issued-cert` followed by a value that holds a Data packet; that it is a certificate is not
checked here -/
def GivesCredential (C : Crypto) (es : List Block) (c : Cert) : Prop :=
  ∃ a b d pre post, es = pre ++ a :: b :: post ∧ a.typ = T.ParameterKey ∧ a.val = (bytes! "issued-cert") ∧
    b.typ = T.ParameterValue ∧ b.blockFromValue = .ok d ∧ C.decodeData d = some c

/-- the credential is certified by one of the trust anchors, which its key locator names -/
def Certified (C : Crypto) (anchors : List Cert) (c : Cert) : Prop :=
  ∃ a ∈ anchors, ∃ kl, c.keyLocator = some kl ∧ (keyNameOf a.name = kl ∨ a.name = kl) ∧ C.verifyCert c a = true

/-- the credential and nonce a request waits for a proof of -/
def AwaitsProof (C : Crypto) (r : RequestState) (cs : ChallengeState) (cred : Cert) (nonce : Bytes) : Prop :=
  r.challengeState = some cs ∧ cs.challengeStatus = (bytes! "need-proof") ∧
    (∃ w d, fromHex (secretGetD cs.secrets (bytes! "issued-cert")) = .ok w ∧ blockOfBytes w = .ok d ∧ C.decodeCert d = some cred) ∧
    fromHex (secretGetD cs.secrets (bytes! "nonce")) = .ok nonce

/-- the Data packet and nonce kept with a request whose challenge asks for a proof -/
def KeepsProof (r : RequestState) (cs : ChallengeState) (cred : Cert) (nonce : Bytes) : Prop :=
  r.challengeState = some cs ∧ cs.challengeStatus = (bytes! "need-proof") ∧
    fromHex (secretGetD cs.secrets (bytes! "issued-cert")) = .ok cred.wire.encode ∧ fromHex (secretGetD cs.secrets (bytes! "nonce")) = .ok nonce

/-- the request id a CHALLENGE Interest names: the one at position |CA prefix| + 2, i.e.
after `<CA prefix>/CA/CHALLENGE`. Eight octets are an id; a shorter component is completed with what the stack holds. -/
def Names (cfg : CaConfig) (env : Env) (i : Interest) (id : RequestId) : Prop :=
  ∃ c, i.name[cfg.profile.caPrefix.length + 2]? = some c ∧ id = c.val ++ env.stack.drop c.val.length

/-- how long the secret of a challenge is good, in nanoseconds: 3600 s for a pin, 300 s for an email code, 60 s for the
nonce of a proof of possession -/
def secretLifetime : ChalKind → Int
  | .pin => 3600 * 1000000000
  | .email => 300 * 1000000000
  | .possession => 60 * 1000000000

/-- the request id component, if there is one, has at most eight octets -/
def IdFits (cfg : CaConfig) (i : Interest) : Prop :=
  ∀ c, i.name[cfg.profile.caPrefix.length + 2]? = some c → c.val.length ≤ 8

/-- the CHALLENGE Interest names the pending request `r` and its signature verifies under the key of `r` -/
structure Authentic {σ : Type} (C : Crypto) (S : StoreI σ) (cfg : CaConfig) (st : σ) (i : Interest) (env : Env)
    (r : RequestState) : Prop where
  pending : S.view st r.requestId = some r
  names : Names cfg env i r.requestId
  sig : C.verifyInterest i r.cert = true

/-- the content of the reply is the encryption of these elements under the AES key and id of `r` -/
def Encloses (C : Crypto) (r : RequestState) (d : Data) (es : List Block) : Prop :=
  ∃ iv, 12 ≤ iv.length ∧ d.content = mkBlock T.Content
    [binBlock T.InitializationVector iv,
     binBlock T.AuthenticationTag (C.aesEnc r.encryptionKey (iv.take 12) r.requestId (encodeAll es)).2,
     binBlock T.EncryptedPayload (C.aesEnc r.encryptionKey (iv.take 12) r.requestId (encodeAll es)).1]

/-- the reply tells the requester that its request is in this status -/
def TellsStatus (C : Crypto) (r : RequestState) (d : Data) (s : Status) : Prop :=
  ∃ rest, Encloses C r d (nniBlock T.Status s.toNat :: rest)

/-- the reply tells the requester that the challenge goes on, with this challenge status and so many remaining tries -/
def TellsTries (C : Crypto) (r : RequestState) (d : Data) (chalStatus : Bytes) (tries : Nat) : Prop :=
  ∃ rest, Encloses C r d (nniBlock T.Status Status.challenge.toNat :: binBlock T.ChallengeStatus chalStatus ::
    nniBlock T.RemainingTries tries :: rest)

/-- the elements select challenge `k` -/
def Picks (es : List Block) (k : ChalKind) : Prop := ∃ sel, getElem es T.SelectedChallenge = .ok sel ∧ sel.val = k.regName

/-- the credential kept with a request, if there is one, is in the format of a certificate -/
def KeepsCertificate (C : Crypto) (r : RequestState) : Prop :=
  ∀ cs w d, r.challengeState = some cs → fromHex (secretGetD cs.secrets (bytes! "issued-cert")) = .ok w → blockOfBytes w = .ok d →
    C.decodeCert d ≠ none

/-- the elements of a decrypted CHALLENGE say what is needed for the request in its present status, and the surroundings
allow it: a challenge is selected; a code or email address is given; the email script can be started; the trust anchors
can be read; a credential names its issuer and its key can be loaded, and once accepted is found to be a certificate -/
structure Digestible (C : Crypto) (env : Env) (r : RequestState) (es : List Block) : Prop where
  selects : ∃ sel, getElem es T.SelectedChallenge = .ok sel
  pin : Picks es .pin → r.status ≠ .beforeChallenge → ∃ v, Gives es v
  email : Picks es .email → (∃ v, Gives es v) ∧ (r.status = .beforeChallenge → env.spawnOk = true)
  possession : Picks es .possession → (∃ anchors, env.anchors = .ok anchors) ∧
    (r.status = .beforeChallenge → ∀ c, GivesCredential C es c → c.keyLocator ≠ none ∧ C.loadKey (c.content.getD []) = true) ∧
    (r.status ≠ .beforeChallenge → KeepsCertificate C r)

/-- the certificate that would be issued has a public key and a name of sane size -/
structure Issuable (cfg : CaConfig) (env : Env) (r : RequestState) : Prop where
  content : r.cert.content ≠ none
  size : (nameBlock (keyNameOf r.cert.name ++ [ndncertComponent, env.version])).encode.length + (nameBlock cfg.profile.forwardingHint).encode.length ≤ 2 ^ 32

/-- the IVs of a request are unset or have 12 octets -/
structure IvsOk (r : RequestState) : Prop where
  enc : r.encryptionIv = [] ∨ r.encryptionIv.length = 12
  dec : r.decryptionIv = [] ∨ r.decryptionIv.length = 12

end Ndncert
