import Verif.Model.Requester
import Verif.Model.TimeText

/-! # The packets of NDN: certificates, replies and signed Interests as octets

The rest of the model takes from an interface (`Crypto`) how a certificate is decoded, signed and verified. Here these operations are made
from a signature scheme over octets and the packet format of NDN, as ndn-cxx implements it for `issueCertificate` (/repo/src/ca-module.cpp:473-493),
the replies (ca-module.cpp:358-365, 462-467, 526-531) and the requester (/repo/src/requester-request.cpp:139-158, 230-237). ndn-cxx is not part
of /repo; what is modelled are `Data::wireEncode`, `wireDecode`, `extractSignedRanges`, `MetaInfo`, `SignatureInfo`, `KeyLocator`,
`ValidityPeriod`, the constructor of `Certificate`, `Interest::extractSignedRanges` and `verifySignature`. -/

namespace Ndncert

/-- A signature scheme, and the keys of the two KeyChains. One signature is fixed for each key and text. -/
structure KeyRing where
  /-- the public key of a private key -/
  pubOf : Bytes → Bytes
  /-- signature with a private key over a text -/
  sign : Bytes → Bytes → Bytes
  /-- public key, text, signature -/
  verify : Bytes → Bytes → Bytes → Bool
  /-- the SignatureType for a private key -/
  sigType : Bytes → Nat
  /-- private key of the default key of an identity of the CA, and the name in the KeyLocator of its signatures -/
  idPriv : Name → Bytes
  idLocator : Name → Name
  /-- private key of a key of the requester, and the name in the KeyLocator of its signatures -/
  keyPriv : Name → Option Bytes
  keyLocator : Name → Name

/-! ## Encoding -/

/-- `MetaInfo::wireEncode`: ContentType and FreshnessPeriod (in milliseconds) if they are not zero -/
def metaInfoBlock (contentType freshness : Nat) : Block :=
  mkBlock 20 ((if contentType = 0 then [] else [nniBlock 24 contentType]) ++ (if freshness = 0 then [] else [nniBlock 25 freshness]))

/-- `time::toIsoString` of a time in nanoseconds. (Dates that it cannot write make it throw; here they are written as nothing.) -/
def periodText (t : Time) : Bytes := (toIsoText (t / 1000)).getD []

/-- `ValidityPeriod::wireEncode` -/
def validityBlock (v : Time × Time) : Block := mkBlock 253 [binBlock 254 (periodText v.1), binBlock 255 (periodText v.2)]

/-- `SignatureInfo::wireEncode` (type 22, in Interests 44): SignatureType, KeyLocator with a name, ValidityPeriod.
(Simplification: the SignatureNonce and SignatureTime of Interests are left out.) -/
def sigInfoBlock (t sigType : Nat) (locator : Name) (v : Option (Time × Time)) : Block :=
  mkBlock t ([nniBlock 27 sigType, nestedBlock 28 (nameBlock locator)] ++ v.toList.map validityBlock)

/-- the elements of a Data that are signed -/
def signedElements (name : Name) (contentType freshness : Nat) (content : Bytes) (sigInfo : Block) : List Block :=
  [nameBlock name, metaInfoBlock contentType freshness, binBlock 21 content, sigInfo]

/-- `KeyChain::sign(Data)` for a certificate: content type KEY (2), and the freshness period given -/
def certWire (K : KeyRing) (priv : Bytes) (locator name : Name) (content : Bytes) (v : Time × Time) (freshness : Nat) : Block :=
  let signed := signedElements name 2 freshness content (sigInfoBlock 22 (K.sigType priv) locator (some v))
  mkBlock T.Data (signed ++ [binBlock 23 (K.sign priv (encodeAll signed))])

/-! ## Decoding -/

/-- the octets before the first element of type `t` -/
def octetsBefore (t : Nat) : Nat → Bytes → Bytes
  | 0, _ => []
  | n + 1, bs =>
    match readElement bs with
    | .ok (e, rest) => if e.typ = t then [] else bs.take (bs.length - rest.length) ++ octetsBefore t n rest
    | _ => []

/-- `Data::extractSignedRanges`: all before the first SignatureValue -/
def signedOctets (b : Block) : Bytes := octetsBefore 23 b.val.length b.val

/-- a `Res` that throws is `none` here -/
def toOption {α : Type} : Res α → Option α
  | .ok a => some a
  | _ => none

/-- `MetaInfo::wireDecode`: content type and freshness period. The content type must fit into 32 bits; the FinalBlockId must be one element. -/
def metaInfoOf (b : Block) : Option (Nat × Nat) := do
  let es ← toOption b.elements
  let (ct, es) ← (match es with
    | e :: rest => if e.typ = 24 then do
        let n ← toOption (readNni e)
        if n < 2 ^ 32 then some (n, rest) else none
      else some (0, es)
    | [] => some (0, []) : Option (Nat × List Block))
  let (fresh, es) ← (match es with
    | e :: rest => if e.typ = 25 then do
        let n ← toOption (readNni e)
        some (n, rest)
      else some (0, es)
    | [] => some (0, []) : Option (Nat × List Block))
  match es with
  | e :: _ => if e.typ = 26 then (toOption e.blockFromValue).map (fun _ => (ct, fresh)) else some (ct, fresh)
  | [] => some (ct, fresh)

/-- `KeyLocator::wireDecode`: the name, if the first element is one -/
def keyLocatorOf (b : Block) : Option (Option Name) := do
  let es ← toOption b.elements
  match es with
  | e :: _ => if e.typ = 7 then (toOption (nameOfBlock e)).map some else some none
  | [] => some none

/-- `ValidityPeriod::wireDecode`: exactly NotBefore and NotAfter, cut to seconds -/
def validityOf (b : Block) : Option (Time × Time) := do
  let es ← toOption b.elements
  match es with
  | [x, y] =>
    if x.typ = 254 ∧ y.typ = 255 then do
      let nb ← fromIsoText x.val
      let na ← fromIsoText y.val
      some (nb.tdiv 1000000 * nsPerSec, na.tdiv 1000000 * nsPerSec)
    else none
  | _ => none

/-- `SignatureInfo`: SignatureType, KeyLocator (with a name, or without), the other elements -/
structure SigInfo where
  sigType : Option Nat := none
  locator : Option (Option Name) := none
  others : List Block := []
  deriving DecidableEq, Repr

/-- one element of a SignatureInfo: SignatureType first, then KeyLocator, at most once each -/
def sigInfoStep (a : SigInfo) (e : Block) : Option SigInfo :=
  if e.typ = 27 then
    if a.sigType ≠ none ∨ a.locator ≠ none then none else (toOption (readNni e)).map (fun n => { a with sigType := some n })
  else if e.typ = 28 then
    if a.locator ≠ none then none else (keyLocatorOf e).map (fun l => { a with locator := some l })
  else some { a with others := a.others ++ [e] }

/-- `SignatureInfo::wireDecode` -/
def sigInfoOf (b : Block) : Option SigInfo := do
  let es ← toOption b.elements
  let a ← es.foldlM sigInfoStep {}
  if a.sigType = none then none else some a

/-- `SignatureInfo::getValidityPeriod`; `none` = throws -/
def SigInfo.validity (s : SigInfo) : Option (Time × Time) := (s.others.find? (fun e => e.typ == 253)).bind validityOf

/-- what `Data::wireDecode` has read after some elements; `last`: the rank of the last known element -/
structure DataPacket where
  name : Name
  last : Nat := 1
  contentType : Nat := 0
  freshness : Nat := 0
  content : Option Bytes := none
  sigInfo : Option SigInfo := none
  sigValue : Option Bytes := none
  deriving DecidableEq, Repr

/-- one element after the name: MetaInfo, Content, SignatureInfo and SignatureValue in this order, each at most once; others must
not be critical -/
def packetStep (p : DataPacket) (e : Block) : Option DataPacket :=
  if e.typ = 20 then
    if 2 ≤ p.last then none else (metaInfoOf e).map (fun m => { p with last := 2, contentType := m.1, freshness := m.2 })
  else if e.typ = 21 then
    if 3 ≤ p.last then none else some { p with last := 3, content := some e.val }
  else if e.typ = 22 then
    if 4 ≤ p.last then none else (sigInfoOf e).map (fun s => { p with last := 4, sigInfo := some s })
  else if e.typ = 23 then
    if 5 ≤ p.last then none else some { p with last := 5, sigValue := some e.val }
  else if isCriticalType e.typ then none
  else some p

/-- the elements of a Data: the first must be the name -/
def packetFields (es : List Block) : Option DataPacket :=
  match es with
  | e :: rest => if e.typ = 7 then do
      let n ← toOption (nameOfBlock e)
      rest.foldlM packetStep { name := n }
    else none
  | [] => none

/-- `Data::wireDecode` -/
def decodePacket (b : Block) : Option DataPacket :=
  if b.typ = T.Data then do
    let es ← toOption b.elements
    let p ← packetFields es
    if p.sigInfo = none then none else some p
  else none

/-- what the code reads of a certificate. The implicit digest is the SHA-256 digest of the packet. -/
def packetCert (sha256 : Bytes → Bytes) (b : Block) (p : DataPacket) : Cert :=
  { wire := b, name := p.name, content := p.content, keyLocator := (p.sigInfo.bind (·.locator)).join,
    validity := p.sigInfo.bind (·.validity), digest := sha256 b.encode }

/-- `verifySignature(Data, Certificate)` -/
def verifyPacket (K : KeyRing) (b : Block) (signer : Cert) : Bool :=
  match signer.content, decodePacket b with
  | some pub, some p => K.verify pub (signedOctets b) (p.sigValue.getD [])
  | _, _ => false

/-! ## Replies and Interests

`Data.sig` holds the octets of all elements but Name and Content: MetaInfo, SignatureInfo and SignatureValue. `Interest.sig` holds
InterestSignatureInfo and InterestSignatureValue. -/

/-- the elements of a reply that are signed, as octets (`rest`: the other elements) -/
def replySigned (name : Name) (content : Block) (rest : Bytes) : Bytes :=
  let metaInfo := octetsBefore 22 rest.length rest
  (nameBlock name).encode ++ metaInfo ++ content.encode ++ (octetsBefore 23 rest.length rest).drop metaInfo.length

/-- MetaInfo and SignatureInfo of the replies; the freshness period is `DEFAULT_DATA_FRESHNESS_PERIOD`, one second
(/repo/src/ca-module.cpp:41) -/
def replyInfo (K : KeyRing) (id : Name) : List Block :=
  [metaInfoBlock 0 1000, sigInfoBlock 22 (K.sigType (K.idPriv id)) (K.idLocator id) none]

/-- `KeyChain::sign(Data, signingByIdentity)` for a reply -/
def replySig (K : KeyRing) (id name : Name) (content : Block) : Bytes :=
  encodeAll (replyInfo K id) ++
    (binBlock 23 (K.sign (K.idPriv id) (replySigned name content (encodeAll (replyInfo K id))))).encode

/-- the value of the first element of the type -/
def valueOf (t : Nat) (bs : Bytes) : Option Bytes := ((toOption (parse bs)).bind (fun es => es.find? (fun e => e.typ == t))).map (·.val)

/-- `verifySignature(Data, Certificate)` for a reply -/
def verifyReply (K : KeyRing) (d : Data) (signer : Cert) : Bool :=
  match signer.content, valueOf 23 d.sig with
  | some pub, some v => K.verify pub (replySigned d.name d.content d.sig) v
  | _, _ => false

/-- the SignatureInfo of the reply has a KeyLocator -/
def replyHasLocator (d : Data) : Bool :=
  match ((toOption (parse d.sig)).bind (fun es => es.find? (fun e => e.typ == 22))).bind sigInfoOf with
  | some s => s.locator.isSome
  | none => false

/-- `Interest::extractSignedRanges`: the components of the name without the digest, ApplicationParameters and InterestSignatureInfo -/
def interestSigned (name : Name) (params : Block) (rest : Bytes) : Bytes :=
  encodeAll name ++ params.encode ++ octetsBefore 46 rest.length rest

/-- `KeyChain::sign(Interest, signingByKey)` -/
def interestSig (K : KeyRing) (key name : Name) (params : Block) : Bytes :=
  let priv := (K.keyPriv key).getD []
  let info := sigInfoBlock 44 (K.sigType priv) (K.keyLocator key) none
  info.encode ++ (binBlock 46 (K.sign priv (interestSigned name params info.encode))).encode

/-- `verifySignature(Interest, Certificate)`: the name must end in a ParametersSha256DigestComponent -/
def verifyInterestOctets (K : KeyRing) (i : Interest) (signer : Cert) : Bool :=
  match signer.content, i.params, valueOf 46 i.sig, i.name.getLast? with
  | some pub, some p, some v, some c => c.typ == 2 && K.verify pub (interestSigned i.name.dropLast p i.sig) v
  | _, _, _, _ => false

/-- a signed certificate, its locator and its digest -/
def signedPacket (sha256 : Bytes → Bytes) (locator : Name) (w : Block) : Block × Name × Bytes := (w, locator, sha256 w.encode)

/-- The operations of the interface made from a signature scheme and the packet format; those that have nothing to do with packets are
taken from `C`. Freshness periods: one hour for issued certificates (ca-module.cpp:483), none for certificate requests. -/
def packetCrypto (K : KeyRing) (C : Crypto) : Crypto :=
  { C with
    decodeCert := fun b => (decodePacket b).bind fun p => if isValidCertName p.name ∧ p.contentType = 2 then some (packetCert C.sha256 b p) else none
    decodeData := fun b => (decodePacket b).map (packetCert C.sha256 b)
    verifyCert := fun c signer => verifyPacket K c.wire signer
    verifyInterest := verifyInterestOctets K
    verifyData := verifyReply K
    hasLocator := replyHasLocator
    signData := replySig K
    signCert := fun id name content v =>
      signedPacket C.sha256 (K.idLocator id) (certWire K (K.idPriv id) (K.idLocator id) name content v 3600000)
    idPub := fun id => K.pubOf (K.idPriv id)
    keyPub := fun k => (K.keyPriv k).map K.pubOf
    keySignCert := fun k name content v =>
      signedPacket C.sha256 (K.keyLocator k) (certWire K ((K.keyPriv k).getD []) (K.keyLocator k) name content v 0)
    keySignInterest := interestSig K
    paramsDigest := fun _ params sig => C.sha256 (params.encode ++ sig) }

end Ndncert
