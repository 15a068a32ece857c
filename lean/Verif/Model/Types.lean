import Verif.Model.Tlv

/-!
# Data types of ndncert and the cryptographic interface
-/

namespace Ndncert

/-- `RequestId` (src/detail/ca-request-state.hpp:30): an array of 8 octets. -/
abbrev RequestId := Bytes

/-- `RequestType` (src/detail/ndncert-common.hpp:125-130). -/
inductive RequestType where
  | notInitialized | new | renew | revoke
  deriving DecidableEq, Repr

/-- `Status` (src/detail/ca-request-state.hpp:32-38). `other n` stands for a value of the
underlying `uint16_t` that is not an enumerator. -/
inductive Status where
  | beforeChallenge | challenge | pending | success | failure
  | other (n : Nat)
  deriving DecidableEq, Repr

/-- `static_cast<uint64_t>(status)` -/
def Status.toNat : Status → Nat
  | beforeChallenge => 0
  | challenge => 1
  | pending => 2
  | success => 3
  | failure => 4
  | other n => n

/-- `static_cast<Status>(n)` -/
def Status.ofNat : Nat → Status
  | 0 => beforeChallenge
  | 1 => challenge
  | 2 => pending
  | 3 => success
  | 4 => failure
  | n => other n

/-- `ErrorCode` (src/detail/ndncert-common.hpp:107-118): a `uint64_t`. -/
abbrev ErrorCode := Nat

namespace ErrorCode
@[simp] abbrev NO_ERROR : Nat := 0
@[simp] abbrev BAD_INTEREST_FORMAT : Nat := 1
@[simp] abbrev BAD_PARAMETER_FORMAT : Nat := 2
@[simp] abbrev BAD_SIGNATURE : Nat := 3
@[simp] abbrev INVALID_PARAMETER : Nat := 4
@[simp] abbrev NAME_NOT_ALLOWED : Nat := 5
@[simp] abbrev BAD_VALIDITY_PERIOD : Nat := 6
@[simp] abbrev OUT_OF_TRIES : Nat := 7
@[simp] abbrev OUT_OF_TIME : Nat := 8
@[simp] abbrev NO_AVAILABLE_NAMES : Nat := 9
end ErrorCode

/-- `ndn::security::Certificate`: the wire it was decoded from (or encoded to) and the fields the code reads.
`content = none`: no Content element; `keyLocator = none`: no KeyLocator with a name;
`validity = none`: no ValidityPeriod; `digest`: implicit SHA-256 digest of the packet. -/
structure Cert where
  wire : Block
  name : Name
  content : Option Bytes
  keyLocator : Option Name
  validity : Option (Time × Time)
  digest : Bytes
  deriving DecidableEq, Repr

namespace Cert
/-- `Certificate::getIdentity` = name without its last four components. -/
def identity (c : Cert) : Name := c.name.take (c.name.length - 4)
/-- `Certificate::getKeyName` = name without its last two components. -/
def keyName (c : Cert) : Name := c.name.take (c.name.length - 2)
/-- `Data::getFullName` = name followed by the implicit digest component (type 1). -/
def fullName (c : Cert) : Name := c.name ++ [⟨1, c.digest⟩]
end Cert

/-- the component `KEY` -/
def keyComponent : Block := gcomp (bytes! "KEY")

/-- `Certificate::isValidName`: at least four components, the fourth from the end is `KEY`. -/
def isValidCertName (n : Name) : Bool :=
  4 ≤ n.length && n[n.length - 4]? == some keyComponent

/-- `ndn::Interest`: name, ApplicationParameters (if any), signature value.
The ParametersSha256Digest component is part of `name`. -/
structure Interest where
  name : Name
  params : Option Block
  sig : Bytes
  deriving DecidableEq, Repr

/-- `ndn::Data`: name, content, signature value. Freshness period and other meta info are not modelled. -/
structure Data where
  name : Name
  content : Block
  sig : Bytes
  deriving DecidableEq, Repr

/-- The cryptographic and packet-format operations ndncert calls. No law is built in; theorems that need
one assume it explicitly (`Crypto.Lawful`). -/
structure Crypto where
  /-- `Certificate(Block)`; `none` = throws -/
  decodeCert : Block → Option Cert
  /-- `Data::wireDecode` called on a `Certificate`, which does not make the checks of its constructor (name, content type); `none` =
  throws. Should a version of ndn-cxx make these checks here too, this is `decodeCert`: the model holds for either. -/
  decodeData : Block → Option Cert
  /-- `verifySignature(Data, Certificate)` for a certificate -/
  verifyCert : Cert → Cert → Bool
  /-- `verifySignature(Interest, Certificate)` -/
  verifyInterest : Interest → Cert → Bool
  /-- `verifySignature(Data, Certificate)` for a reply -/
  verifyData : Data → Cert → Bool
  /-- the signature of the reply has a KeyLocator; otherwise `SignatureInfo::getKeyLocator()` throws -/
  hasLocator : Data → Bool
  /-- signature put by `KeyChain::sign(Data, signingByIdentity(id))` -/
  signData : Name → Name → Block → Bytes
  /-- wire, key locator and digest of a certificate signed by the identity with the given fields -/
  signCert : Name → Name → Bytes → Time × Time → Block × Name × Bytes
  /-- public key of the default key of an identity in the CA's KeyChain -/
  idPub : Name → Bytes
  /-- public key of a key in the requester's KeyChain; `none` if there is no such key -/
  keyPub : Name → Option Bytes
  /-- wire, key locator and digest of a certificate signed with a key of the requester's KeyChain -/
  keySignCert : Name → Name → Bytes → Time × Time → Block × Name × Bytes
  /-- signature put on an Interest (name, parameters) with a key of the requester's KeyChain -/
  keySignInterest : Name → Name → Block → Bytes
  /-- ParametersSha256Digest of an Interest with the given name, parameters and signature -/
  paramsDigest : Name → Block → Bytes → Bytes
  /-- ECDH: public key of a private key -/
  ecdhPub : Bytes → Bytes
  /-- `ECDHState::deriveSecret`; `none` = throws -/
  ecdhDerive : Bytes → Bytes → Option Bytes
  /-- HMAC-SHA256 key data -/
  hmac : Bytes → Bytes → Bytes
  /-- HKDF secret salt info, 16 octets -/
  hkdf : Bytes → Bytes → Bytes → Bytes
  /-- SHA-256 -/
  sha256 : Bytes → Bytes
  /-- AES-128-GCM key iv aad plaintext: ciphertext and tag -/
  aesEnc : Bytes → Bytes → Bytes → Bytes → Bytes × Bytes
  /-- AES-128-GCM key iv aad ciphertext tag: plaintext, `none` if the tag does not verify -/
  aesDec : Bytes → Bytes → Bytes → Bytes → Bytes → Option Bytes
  /-- `PublicKey::loadPkcs8` succeeds -/
  loadKey : Bytes → Bool
  /-- `verifySignature({data}, signature, key)` -/
  verifyRaw : Bytes → Bytes → Bytes → Bool
  /-- what `Name::append(std::string)` appends; `none` = throws. Which overload this call selects depends on the version of ndn-cxx:
  one component with the octets of the string, or the name that the string denotes as a URI. The model holds for either. -/
  stringName : Bytes → Option Name

/-- Laws of the cryptographic operations. Only functional correctness, no security assumption. -/
structure Crypto.Lawful (C : Crypto) : Prop where
  /-- a decoded certificate keeps its wire, which is a Data element -/
  decode_wire : ∀ b c, C.decodeCert b = some c → c.wire = b ∧ b.typ = T.Data
  /-- the `Certificate` constructor rejects names that are not certificate names -/
  decode_name : ∀ b c, C.decodeCert b = some c → isValidCertName c.name = true
  /-- a decoded Data keeps its wire, and a certificate is a Data -/
  data_wire : ∀ b c, C.decodeData b = some c → c.wire = b ∧ b.typ = T.Data
  data_of_cert : ∀ b c, C.decodeCert b = some c → C.decodeData b = some c
  hmac_length : ∀ k d, (C.hmac k d).length = 32
  hkdf_length : ∀ s t i, (C.hkdf s t i).length = 16
  sha256_length : ∀ d, (C.sha256 d).length = 32
  /-- GCM: lengths and decryption of an encryption -/
  aes_length : ∀ k iv a p, (C.aesEnc k iv a p).1.length = p.length ∧ (C.aesEnc k iv a p).2.length = 16
  aes_correct : ∀ k iv a p, C.aesDec k iv a (C.aesEnc k iv a p).1 (C.aesEnc k iv a p).2 = some p
  /-- both sides of ECDH agree on generated keys -/
  ecdh_agree : ∀ a b, C.ecdhDerive a (C.ecdhPub b) = C.ecdhDerive b (C.ecdhPub a)
  ecdh_total : ∀ a b, (C.ecdhDerive a (C.ecdhPub b)).isSome = true
  ecdh_pub_ne : ∀ a, C.ecdhPub a ≠ []

/-- `ca::ChallengeState` (src/detail/ca-request-state.hpp:56-86). The JSON secrets are a flat list of
key/value pairs, as all challenge modules use them. `remainingTime` is in seconds. -/
structure ChallengeState where
  challengeStatus : Bytes
  timestamp : Time
  remainingTries : Nat
  remainingTime : Int
  secrets : List (Bytes × Bytes)
  deriving DecidableEq, Repr

/-- `ca::RequestState` (src/detail/ca-request-state.hpp:91-140). -/
structure RequestState where
  caPrefix : Name
  requestId : RequestId
  requestType : RequestType := .notInitialized
  status : Status := .beforeChallenge
  cert : Cert
  encryptionKey : Bytes
  encryptionIv : Bytes := []
  decryptionIv : Bytes := []
  challengeType : Bytes := []
  challengeState : Option ChallengeState := none
  deriving DecidableEq, Repr

/-- `CaProfile` (src/detail/ca-profile.hpp:64-110). `maxValidityPeriod` in seconds. -/
structure CaProfile where
  caPrefix : Name := []
  forwardingHint : Name := []
  caInfo : Bytes := []
  probeParameterKeys : List Bytes := []
  maxValidityPeriod : Int := 0
  maxSuffixLength : Option Nat := none
  supportedChallenges : List Bytes := []
  cert : Option Cert := none
  deriving DecidableEq, Repr

end Ndncert
