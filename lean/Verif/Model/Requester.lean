import Verif.Model.Ca

/-! # The requester (src/requester-request.cpp) -/

namespace Ndncert

/-- the components `CA`, `INFO`, `PROBE`, `NEW`, `REVOKE`, `CHALLENGE` -/
def caComp : Block := gcomp (bytes! "CA")
def infoComp : Block := gcomp (bytes! "INFO")
def probeComp : Block := gcomp (bytes! "PROBE")
def newComp : Block := gcomp (bytes! "NEW")
def revokeComp : Block := gcomp (bytes! "REVOKE")
def challengeComp : Block := gcomp (bytes! "CHALLENGE")
/-- the component `cert-request` -/
def certRequestComp : Block := gcomp (bytes! "cert-request")
/-- `MetadataObject::getKeywordComponent()`: the keyword component (type 32) `metadata` -/
def metadataComp : Block := ⟨32, bytes! "metadata"⟩
/-- `Component::fromSegment(0)`: type 50, one zero octet -/
def segmentZero : Block := ⟨50, [0]⟩

/-- an Interest with ApplicationParameters, unsigned: the digest component is appended to the name -/
def plainInterest (C : Crypto) (name : Name) (params : Block) : Interest :=
  { name := name ++ [⟨2, C.paramsDigest name params []⟩], params := some params, sig := [] }

/-- an Interest with ApplicationParameters signed with a key -/
def signedInterest (C : Crypto) (key name : Name) (params : Block) : Interest :=
  let sig := C.keySignInterest key name params
  { name := name ++ [⟨2, C.paramsDigest name params sig⟩], params := some params, sig := sig }

/-- a certificate signed with a key of the requester's KeyChain -/
def keySignedCert (C : Crypto) (key name : Name) (content : Bytes) (v : Time × Time) : Cert :=
  let (wire, locator, digest) := C.keySignCert key name content v
  { wire := wire, name := name, content := some content, keyLocator := some locator,
    validity := some v, digest := digest }

/-- `genCaProfileDiscoveryInterest` (requester-request.cpp:47-55): the Interest name. `Name::at(-1)` of the empty name
throws. -/
def genDiscoveryName (caName : Name) : Res Name :=
  match caName.getLast? with
  | none => .exc .name
  | some c =>
    .ok ((if readString c = (bytes! "CA") then caName else caName ++ [caComp]) ++ [infoComp, metadataComp])

/-- `genCaProfileInterestFromDiscoveryResponse` (requester-request.cpp:57-64): `MetadataObject(Data)` takes the name
that is the only element of the content. (Its checks on the Data name are not modelled.) -/
def genProfileName (reply : Data) : Res Name := do
  let es ← reply.content.elements
  let nb ← getElem es T.Name
  let n ← nameOfBlock nb
  .ok (n ++ [segmentZero])

/-- `onCaProfileResponse` (requester-request.cpp:66-75) -/
def onCaProfileResponse (C : Crypto) (reply : Data) : Res CaProfile := do
  let p ← infoDecode C reply.content
  match p.cert with
  | none => .ub .nullDeref
  | some c => if C.verifyData reply c then .ok p else .exc .runtime

/-- `onCaProfileResponseAfterRedirection` (requester-request.cpp:77-88). Decoding the certificate's own wire again
gives the same certificate. -/
def onCaProfileResponseAfterRedirection (C : Crypto) (reply : Data) (fullName : Name) : Res CaProfile := do
  let p ← infoDecode C reply.content
  match p.cert with
  | none => .ub .nullDeref
  | some c => if c.fullName ≠ fullName then .exc .runtime else onCaProfileResponse C reply

/-- `genProbeInterest` (requester-request.cpp:90-99) -/
def genProbeInterest (C : Crypto) (ca : CaProfile) (info : MMap) : Interest :=
  plainInterest C (ca.caPrefix ++ [caComp, probeComp]) (probeParamsEncode info)

/-- `processIfError` (requester-request.cpp:273-285) -/
def processIfError (d : Data) : Res Unit :=
  let (code, info) := errorDecode d.content
  if code = 0 then .ok () else .exc (.caError code info)

/-- signature check and error check at the start of each reply handler -/
def checkReply (C : Crypto) (p : CaProfile) (d : Data) : Res Unit :=
  match p.cert with
  | none => .ub .nullDeref
  | some c => if C.verifyData d c then processIfError d else .exc .runtime

/-- `onProbeResponse` (requester-request.cpp:101-111) -/
def onProbeResponse (C : Crypto) (d : Data) (ca : CaProfile) (names : List (Name × Int)) (cas : List Name) :
    Res (List (Name × Int) × List Name) := do
  checkReply C ca d
  probeDecode d.content names cas

/-- `extractIdentityFromKeyName` (ndn-cxx): throws `std::invalid_argument` unless the name is `.../KEY/<id>` -/
def identityOfKeyName (k : Name) : Res Name :=
  if 2 ≤ k.length ∧ k[k.length - 2]? = some keyComponent then .ok (k.take (k.length - 2)) else .exc .name

/-- the period kept by `ValidityPeriod(notBefore, notAfter)` (ndn-cxx): whole seconds, the start rounded up -/
def roundPeriod (nb na : Time) : Time × Time :=
  ((nb + (nsPerSec - 1)).tdiv nsPerSec * nsPerSec, na.tdiv nsPerSec * nsPerSec)

/-- `genNewInterest` (requester-request.cpp:120-159). `ok none` is the null pointer; `version`: the component
appended by `appendVersion`. -/
def genNewInterest (C : Crypto) (r : Request) (keyName : Name) (nb na : Time) (version : Block) :
    Request × Res (Option Interest) :=
  if isPrefixOf r.profile.caPrefix keyName = false then (r, .ok none)
  else if keyName = [] then (r, .ok none)
  else match identityOfKeyName keyName with
    | .exc e => (r, .exc e)
    | .ub u => (r, .ub u)
    | .ok id =>
      match C.keyPub keyName with
      | none => ({ r with identityName := id }, .exc .runtime)
      | some pub =>
        let cert := keySignedCert C keyName (keyName ++ [certRequestComp, version]) pub (roundPeriod nb na)
        ({ r with identityName := id, keyPair := some ⟨keyName, pub⟩ },
          .ok (some (signedInterest C keyName (r.profile.caPrefix ++ [caComp, newComp])
            (requestParamsEncode .new (C.ecdhPub r.ecdhPriv) cert))))

/-- `genRevokeInterest` (requester-request.cpp:161-176): not signed, and `m_keyPair` is not set -/
def genRevokeInterest (C : Crypto) (r : Request) (cert : Cert) : Option Interest :=
  if isPrefixOf r.profile.caPrefix cert.name = false then none
  else some (plainInterest C (r.profile.caPrefix ++ [caComp, revokeComp])
    (requestParamsEncode .revoke (C.ecdhPub r.ecdhPriv) cert))

/-- `onNewRenewRevokeResponse` (requester-request.cpp:178-200). `stack`: the 32 octets of the uninitialised local `salt`. -/
def onNewResponse (C : Crypto) (r : Request) (d : Data) (stack : Bytes) : Request × Res (List Bytes) :=
  match checkReply C r.profile d with
  | .exc e => (r, .exc e)
  | .ub u => (r, .ub u)
  | .ok () =>
    let ((salt, id), res) := requestDecode d.content stack r.requestId
    let r1 := { r with requestId := id }
    match res with
    | .exc e => (r1, .exc e)
    | .ub u => (r1, .ub u)
    | .ok (pub, challenges) =>
      match C.ecdhDerive r.ecdhPriv pub with
      | none => (r1, .exc .runtime)
      | some secret => ({ r1 with aesKey := C.hkdf secret salt id }, .ok challenges)

/-- `selectOrContinueChallenge` (requester-request.cpp:202-211): the keys to be filled in -/
def selectOrContinueChallenge (r : Request) (selected : Bytes) : Request × Res (List Bytes) :=
  match createChallenge selected with
  | none => (r, .exc .runtime)
  | some k => ({ r with challengeType := selected }, requestedParams k r.status r.challengeStatus)

/-- `genChallengeInterest` (requester-request.cpp:213-238). `rnd`: the octets drawn if the IV is empty. Without a key
pair `getName()` of the default `Key` throws, after the IV was advanced. -/
def genChallengeInterest (C : Crypto) (r : Request) (params : MMap) (rnd : Bytes) : Request × Res Interest :=
  if r.challengeType = [] then (r, .exc .runtime)
  else match createChallenge r.challengeType with
    | none => (r, .exc .runtime)
    | some k =>
      match genChallengeTlv k r.status r.challengeStatus params with
      | .exc e => (r, .exc e)
      | .ub u => (r, .ub u)
      | .ok es =>
        let (iv, res) := encodeAes C T.ApplicationParameters r.aesKey (encodeAll es) r.requestId r.encryptionIv rnd
        let r1 := { r with encryptionIv := iv }
        match res with
        | .exc e => (r1, .exc e)
        | .ub u => (r1, .ub u)
        | .ok b =>
          match r1.keyPair with
          | none => (r1, .exc .runtime)
          | some kp =>
            (r1, .ok (signedInterest C kp.name
              (r.profile.caPrefix ++ [caComp, challengeComp, gcomp r.requestId]) b))

/-- `onChallengeResponse` (requester-request.cpp:240-249). `now`: the requester's clock. -/
def onChallengeResponse (C : Crypto) (r : Request) (d : Data) (now : Time) : Request × Res Unit :=
  match checkReply C r.profile d with
  | .exc e => (r, .exc e)
  | .ub u => (r, .ub u)
  | .ok () => challengeDecode C d.content r now

/-- `genCertFetchInterest` (requester-request.cpp:251-259): name and forwarding hint -/
def genCertFetchInterest (r : Request) : Name × Option Name :=
  (r.issuedCertName, if r.forwardingHint = [] then none else some r.forwardingHint)

/-- `onCertFetchResponse` (requester-request.cpp:261-271). The reply is given as the wire of the Data packet; the
signature is not checked. -/
def onCertFetchResponse (C : Crypto) (wire : Block) : Res Cert := .ofOption .runtime (C.decodeCert wire)

/-! ## The CA's side of profile discovery (src/ca-module.cpp:121-152) -/

/-- name of the profile Data (ca-module.cpp:129-131) -/
def profileDataName (p : CaProfile) (version : Block) : Name := p.caPrefix ++ [caComp, infoComp, version, segmentZero]

/-- `getCaProfileData` (ca-module.cpp:121-138), first call -/
def getCaProfileData (C : Crypto) (p : CaProfile) (caCert : Cert) (version : Block) : Res Data := do
  let content ← infoEncode p caCert
  .ok (mkData C p.caPrefix (profileDataName p version) content)

/-- `getCaProfileData` (ca-module.cpp:121-138): the Data is made by the first call that does not throw and kept in
`m_profileData` (`cache`) for later calls. The result and the cache after the call. -/
def cachedProfileData (C : Crypto) (p : CaProfile) (cache : Option Data) (caCert : Cert) (version : Block) : Res Data × Option Data :=
  match cache with
  | some d => (.ok d, some d)
  | none =>
    match getCaProfileData C p caCert version with
    | .ok d => (.ok d, some d)
    | e => (e, none)

/-- the calls of `getCaProfileData` in the life of one process, and what each returns. At each call the KeyChain holds a
signing key (in `C`), the identity has a default certificate, and the time gives a version. -/
def profileCalls (p : CaProfile) (cache : Option Data) : List (Crypto × Cert × Block) → List (Res Data)
  | [] => []
  | (C, caCert, version) :: calls =>
    let (r, cache') := cachedProfileData C p cache caCert version
    r :: profileCalls p cache' calls

/-- `onCaProfileDiscovery` (ca-module.cpp:140-152): the metadata reply for a profile Data of the given name.
`MetadataObject::makeData` appends a version (`metaVersion`) and segment zero. -/
def onCaProfileDiscovery (C : Crypto) (p : CaProfile) (profileName : Name) (metaVersion : Block) : Data :=
  let versioned := profileName.take (profileName.length - 1)
  let discovery := profileName.take (profileName.length - 2) ++ [metadataComp]
  mkData C p.caPrefix (discovery ++ [metaVersion, segmentZero]) (mkBlock T.Content [nameBlock versioned])

/-- filter of the metadata Interests set in `registerPrefix` (ca-module.cpp:84-87) -/
def discoveryFilter (p : CaProfile) : Name := p.caPrefix ++ [caComp, infoComp, metadataComp]

end Ndncert
