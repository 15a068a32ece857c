import Verif.Model.Crypto

/-! # The TLV encoders and decoders (src/detail/*-encoder.cpp) -/

namespace Ndncert

/-! ## `std::multimap<std::string, std::string>` -/

/-- `std::string::operator<`: lexicographic on unsigned octets -/
def bytesLt : Bytes → Bytes → Bool
  | _, [] => false
  | [], _ :: _ => true
  | a :: as, b :: bs => a < b || (a == b && bytesLt as bs)

/-- `std::multimap<std::string, std::string>` as its sequence of entries in iteration order -/
abbrev MMap := List (Bytes × Bytes)

/-- `multimap::emplace`: inserted behind the entries with an equal or smaller key -/
def mmInsert (k v : Bytes) : MMap → MMap
  | [] => [(k, v)]
  | e :: es => if bytesLt k e.1 then (k, v) :: e :: es else e :: mmInsert k v es

/-- `multimap::find`: the first entry with that key (as libstdc++ and libc++ do) -/
def mmFind (m : MMap) (k : Bytes) : Option Bytes := (m.find? (fun e => e.1 == k)).map (·.2)

/-- the entries of a multimap are in key order -/
def MMap.Sorted (m : MMap) : Prop := m.Pairwise (fun a b => bytesLt b.1 a.1 = false)

/-! ## errortlv (src/detail/error-encoder.cpp) -/

/-- `errortlv::encodeDataContent` (error-encoder.cpp:29-37) -/
def errorEncode (code : ErrorCode) (description : Bytes) : Block :=
  mkBlock T.Content [nniBlock T.ErrorCode code, binBlock T.ErrorInfo description]

/-- accumulators of the loop in `errortlv::decodefromDataContent` -/
structure ErrorAcc where
  codeCount : Nat := 0
  infoCount : Nat := 0
  otherCritical : Nat := 0
  error : Nat := 0
  info : Bytes := []

/-- loop body (error-encoder.cpp:50-65); note that it reads `block.get(type)`, i.e. the *first* such element,
whichever element is being visited -/
def errorStep (es : List Block) (a : ErrorAcc) (item : Block) : Res ErrorAcc :=
  if item.typ = T.ErrorCode then do
    let b ← getElem es T.ErrorCode
    let n ← readNni b
    .ok { a with error := n, codeCount := a.codeCount + 1 }
  else if item.typ = T.ErrorInfo then do
    let b ← getElem es T.ErrorInfo
    .ok { a with info := readString b, infoCount := a.infoCount + 1 }
  else if isCriticalType item.typ then .ok { a with otherCritical := a.otherCritical + 1 }
  else .ok a

/-- the body of the `try` in `errortlv::decodefromDataContent` (error-encoder.cpp:43-77) -/
def errorDecodeBody (block : Block) : Res (ErrorCode × Bytes) := do
  let es ← block.elements
  let a ← es.foldlM (errorStep es) {}
  if a.codeCount = 0 ∧ a.infoCount = 0 then .ok (0, [])
  else if a.codeCount ≠ 1 ∨ a.infoCount ≠ 1 then .exc .runtime
  else if a.otherCritical > 0 then .exc .runtime
  else .ok (a.error, a.info)

/-- `errortlv::decodefromDataContent` (error-encoder.cpp:39-83): every exception means "no error" -/
def errorDecode (block : Block) : ErrorCode × Bytes :=
  match errorDecodeBody block with
  | .ok r => r
  | _ => (0, [])

/-! ## infotlv (src/detail/info-encoder.cpp) -/

/-- one octet of a URI (ndn-cxx `escape`): unreserved characters stay, others become %XX -/
def uriEscapeByte (b : UInt8) : Bytes :=
  let n := b.toNat
  if (48 ≤ n ∧ n ≤ 57) ∨ (65 ≤ n ∧ n ≤ 90) ∨ (97 ≤ n ∧ n ≤ 122) ∨ n = 45 ∨ n = 46 ∨ n = 95 ∨ n = 126
  then [b]
  else
    let hex := fun d : Nat => UInt8.ofNat (if d < 10 then 48 + d else 55 + d)
    [37, hex (n / 16), hex (n % 16)]

/-- decimal digits of a number -/
def decDigits (n : Nat) : Bytes := (Nat.toDigits 10 n).map (fun c => UInt8.ofNat c.toNat)

/-- `Component::toUri` (ndn-cxx): escaped value; values made of periods only get "..." in front; components that are
not generic get a `type=` prefix (the alternate spellings such as `v=` or `sha256digest=` are not modelled) -/
def compUri (c : Block) : Bytes :=
  let v := (if c.val.all (· == 46) then bytes! "..." else []) ++ c.val.flatMap uriEscapeByte
  if c.typ = 8 then v else decDigits c.typ ++ [61] ++ v

/-- `Name::toUri` (ndn-cxx) -/
def nameUri (n : Name) : Bytes :=
  if n = [] then [47] else n.flatMap (fun c => 47 :: compUri c)

/-- the CA info text of the profile, or the default one made of the certificate's key locator
(info-encoder.cpp:34-40); throws if that is needed and absent -/
def caInfoText (p : CaProfile) (c : Cert) : Res Bytes :=
  if p.caInfo = [] then
    match c.keyLocator with
    | some n => .ok (bytes! "Issued by " ++ nameUri n)
    | none => .exc .tlv
  else .ok p.caInfo

/-- `infotlv::encodeDataContent` (info-encoder.cpp:29-50) -/
def infoEncode (p : CaProfile) (c : Cert) : Res Block := do
  let info ← caInfoText p c
  .ok (mkBlock T.Content
    ([nestedBlock T.CaPrefix (nameBlock p.caPrefix), binBlock T.CaInfo info]
      ++ p.probeParameterKeys.map (binBlock T.ParameterKey)
      ++ [nniBlock T.MaxValidityPeriod (p.maxValidityPeriod % 2 ^ 64).toNat,
          nestedBlock T.CaCertificate c.wire]))

/-- conversion of a `uint64_t` to `int64_t` (two's complement) -/
def toInt64 (n : Nat) : Int :=
  let m : Nat := n % 2 ^ 64
  if m < 2 ^ 63 then (m : Int) else (m : Int) - 2 ^ 64

/-- `Certificate(Block)` -/
def certOfBlock (C : Crypto) (b : Block) : Res Cert := .ofOption .tlv (C.decodeCert b)

/-- `Certificate::wireDecode(Block)`, inherited from `Data` -/
def dataOfBlock (C : Crypto) (b : Block) : Res Cert := .ofOption .tlv (C.decodeData b)

/-- loop body of `infotlv::decodeDataContent` (info-encoder.cpp:57-82) -/
def infoStep (C : Crypto) (p : CaProfile) (item : Block) : Res CaProfile :=
  if item.typ = T.CaPrefix then do
    let es ← item.elements
    let nb ← getElem es T.Name
    let n ← nameOfBlock nb
    .ok { p with caPrefix := n }
  else if item.typ = T.CaInfo then .ok { p with caInfo := readString item }
  else if item.typ = T.ParameterKey then
    .ok { p with probeParameterKeys := p.probeParameterKeys ++ [readString item] }
  else if item.typ = T.MaxValidityPeriod then do
    let n ← readNni item
    .ok { p with maxValidityPeriod := toInt64 n }
  else if item.typ = T.CaCertificate then do
    let es ← item.elements
    let db ← getElem es T.Data
    let c ← certOfBlock C db
    .ok { p with cert := some c }
  else if isCriticalType item.typ then .exc .runtime
  else .ok p

/-- `infotlv::decodeDataContent` (info-encoder.cpp:52-84). The uninitialised `maxValidityPeriod` of a profile
without that element is taken as 0. -/
def infoDecode (C : Crypto) (block : Block) : Res CaProfile := do
  let es ← block.elements
  es.foldlM (infoStep C) {}

/-! ## probetlv (src/detail/probe-encoder.cpp) -/

/-- `probetlv::encodeApplicationParameters` (probe-encoder.cpp:25-35) -/
def probeParamsEncode (m : MMap) : Block :=
  mkBlock T.ApplicationParameters
    (m.flatMap fun e => [binBlock T.ParameterKey e.1, binBlock T.ParameterValue e.2])

/-- the loop of `probetlv::decodeApplicationParameters` (probe-encoder.cpp:43-55) -/
def probeParamsLoop (acc : MMap) : List Block → Res MMap
  | [] => .ok acc
  | [a] => if isCriticalType a.typ then .exc .runtime else .ok acc
  | a :: b :: rest =>
    if a.typ = T.ParameterKey ∧ b.typ = T.ParameterValue then
      probeParamsLoop (mmInsert (readString a) (readString b) acc) rest
    else if isCriticalType a.typ then .exc .runtime
    else probeParamsLoop acc (b :: rest)

/-- `probetlv::decodeApplicationParameters` (probe-encoder.cpp:37-57) -/
def probeParamsDecode (block : Block) : Res MMap := do
  let es ← block.elements
  probeParamsLoop [] es

/-- one ProbeResponse element (probe-encoder.cpp:65-70) -/
def probeNameBlock (maxSuffix : Option Nat) (n : Name) : Block :=
  mkBlock T.ProbeResponse (nameBlock n ::
    (match maxSuffix with | some k => [nniBlock T.MaxSuffixLength k] | none => []))

/-- `probetlv::encodeDataContent` (probe-encoder.cpp:59-79) -/
def probeEncode (ids : List Name) (maxSuffix : Option Nat) (redirects : List Name) : Block :=
  mkBlock T.Content
    (ids.map (probeNameBlock maxSuffix) ++ redirects.map (fun n => nestedBlock T.ProbeRedirect (nameBlock n)))

/-- conversion of a `uint64_t` to `int` (two's complement, as all supported compilers do) -/
def toInt32 (n : Nat) : Int :=
  let m : Nat := n % 2 ^ 32
  if m < 2 ^ 31 then (m : Int) else (m : Int) - 2 ^ 32

/-- loop over the sub-elements of a ProbeResponse (probe-encoder.cpp:91-107) -/
def probeNameStep (a : Name × Int) (sub : Block) : Res (Name × Int) :=
  if sub.typ = T.Name then
    if a.1 ≠ [] then .exc .runtime
    else do
      let n ← nameOfBlock sub
      .ok (n, a.2)
  else if sub.typ = T.MaxSuffixLength then do
    let n ← readNni sub
    .ok (a.1, toInt32 n)
  else if isCriticalType sub.typ then .exc .runtime
  else .ok a

/-- one element of a PROBE reply (probe-encoder.cpp:87-121) -/
def probeStep (acc : List (Name × Int) × List Name) (item : Block) :
    Res (List (Name × Int) × List Name) :=
  if item.typ = T.ProbeResponse then do
    let es ← item.elements
    let r ← es.foldlM probeNameStep ([], 0)
    if r.1 = [] then .exc .runtime
    else .ok (acc.1 ++ [r], acc.2)
  else if item.typ = T.ProbeRedirect then do
    let b ← item.blockFromValue
    let n ← nameOfBlock b
    .ok (acc.1, acc.2 ++ [n])
  else if isCriticalType item.typ then .exc .runtime
  else .ok acc

/-- `probetlv::decodeDataContent` (probe-encoder.cpp:81-123). The two vectors passed by reference are
taken and returned; what they hold after an exception is not modelled. -/
def probeDecode (block : Block) (names : List (Name × Int)) (redirects : List Name) :
    Res (List (Name × Int) × List Name) := do
  let es ← block.elements
  es.foldlM probeStep (names, redirects)

/-! ## requesttlv (src/detail/request-encoder.cpp) -/

/-- `requesttlv::encodeApplicationParameters` (request-encoder.cpp:29-44) -/
def requestParamsEncode (ty : RequestType) (ecdhPub : Bytes) (cert : Cert) : Block :=
  mkBlock T.ApplicationParameters
    (binBlock T.EcdhPub ecdhPub ::
      (match ty with
       | .new | .renew => [nestedBlock T.CertRequest cert.wire]
       | .revoke => [nestedBlock T.CertToRevoke cert.wire]
       | .notInitialized => []))

/-- accumulators of the loop in `requesttlv::decodeApplicationParameters` -/
structure ReqParamsAcc where
  pub : Bytes := []
  pubCount : Nat := 0
  cert : Option Cert := none
  certCount : Nat := 0

/-- loop body (request-encoder.cpp:56-75) -/
def requestParamsStep (C : Crypto) (ty : RequestType) (a : ReqParamsAcc) (item : Block) : Res ReqParamsAcc :=
  if item.typ = T.EcdhPub then
    .ok { a with pub := item.val, pubCount := a.pubCount + 1 }
  else if (ty = .new ∧ item.typ = T.CertRequest) ∨ (ty = .revoke ∧ item.typ = T.CertToRevoke) then do
    let es ← item.elements
    let db ← getElem es T.Data
    let c ← certOfBlock C db
    .ok { a with cert := some c, certCount := a.certCount + 1 }
  else if isCriticalType item.typ then .exc .runtime
  else .ok a

/-- `requesttlv::decodeApplicationParameters` (request-encoder.cpp:46-82). The block may be absent
(`Interest::getApplicationParameters` of an Interest without parameters: a block without elements). A null
certificate pointer would be dereferenced by the caller; it is reported as undefined behaviour here. -/
def requestParamsDecode (C : Crypto) (payload : Option Block) (ty : RequestType) : Res (Bytes × Cert) := do
  let es ← match payload with
    | some b => b.elements
    | none => .ok []
  let a ← es.foldlM (requestParamsStep C ty) {}
  if a.pubCount ≠ 1 ∨ a.certCount ≠ 1 then .exc .runtime
  else match a.cert with
    | some c => .ok (a.pub, c)
    | none => .ub .nullDeref

/-- `requesttlv::encodeDataContent` (request-encoder.cpp:84-99) -/
def requestEncode (ecdhKey salt : Bytes) (requestId : RequestId) (challenges : List Bytes) : Block :=
  mkBlock T.Content
    ([binBlock T.EcdhPub ecdhKey, binBlock T.Salt salt, binBlock T.RequestId requestId]
      ++ challenges.map (binBlock T.Challenge))

/-- `std::memcpy(dst.data(), src, n)` into a fixed size array: out of bounds if the source is longer, and the
tail of the array keeps its old octets if it is shorter. -/
def memcpyInto (dst src : Bytes) : Res Bytes :=
  if dst.length < src.length then .ub .overflow else .ok (src ++ dst.drop src.length)

/-- accumulators of the loop in `requesttlv::decodeDataContent`; `salt` and `requestId` are the caller's arrays -/
structure ReqDataAcc where
  pub : Bytes := []
  salt : Bytes
  requestId : RequestId
  challenges : List Bytes := []
  pubCount : Nat := 0
  saltCount : Nat := 0
  idCount : Nat := 0

/-- loop body (request-encoder.cpp:107-130) -/
def requestStep (a : ReqDataAcc) (e : Block) : Res ReqDataAcc :=
  if e.typ = T.Challenge then .ok { a with challenges := a.challenges ++ [readString e] }
  else if e.typ = T.EcdhPub then .ok { a with pub := e.val, pubCount := a.pubCount + 1 }
  else if e.typ = T.Salt then do
    let s ← memcpyInto a.salt e.val
    .ok { a with salt := s, saltCount := a.saltCount + 1 }
  else if e.typ = T.RequestId then do
    let s ← memcpyInto a.requestId e.val
    .ok { a with requestId := s, idCount := a.idCount + 1 }
  else if isCriticalType e.typ then .exc .runtime
  else .ok a

/-- a loop whose body may throw: the accumulator reached, and how it ended -/
def loopRes {σ : Type} (f : σ → Block → Res σ) (s : σ) : List Block → σ × Res Unit
  | [] => (s, .ok ())
  | b :: bs =>
    match f s b with
    | .ok s' => loopRes f s' bs
    | .exc e => (s, .exc e)
    | .ub u => (s, .ub u)

/-- `requesttlv::decodeDataContent` (request-encoder.cpp:101-137). Returns the caller's arrays as left behind
(also when throwing) and the result: public key and challenges. -/
def requestDecode (content : Block) (salt : Bytes) (requestId : RequestId) :
    (Bytes × RequestId) × Res (Bytes × List Bytes) :=
  match content.elements with
  | .exc e => ((salt, requestId), .exc e)
  | .ub u => ((salt, requestId), .ub u)
  | .ok es =>
    let (a, r) := loopRes requestStep { salt := salt, requestId := requestId } es
    ((a.salt, a.requestId),
      match r with
      | .exc e => .exc e
      | .ub u => .ub u
      | .ok () =>
        if a.pubCount ≠ 1 ∨ a.saltCount ≠ 1 ∨ a.idCount ≠ 1 then .exc .runtime
        else .ok (a.pub, a.challenges))

/-! ## challengetlv (src/detail/challenge-encoder.cpp) -/

/-- a hexadecimal digit's value -/
def hexVal (b : UInt8) : Option Nat :=
  let n := b.toNat
  if 48 ≤ n ∧ n ≤ 57 then some (n - 48)
  else if 65 ≤ n ∧ n ≤ 70 then some (n - 55)
  else if 97 ≤ n ∧ n ≤ 102 then some (n - 87)
  else none

/-- `ndn::fromHex`: throws on an odd length or a non-hex character -/
def fromHex : Bytes → Res Bytes
  | [] => .ok []
  | [_] => .exc .runtime
  | a :: b :: rest =>
    match hexVal a, hexVal b with
    | some x, some y => do
      let r ← fromHex rest
      .ok (UInt8.ofNat (16 * x + y) :: r)
    | _, _ => .exc .runtime

/-- one digit of `ndn::toHex` (upper case) -/
def hexDigit (d : Nat) : UInt8 := UInt8.ofNat (if d < 10 then 48 + d else 55 + d)

/-- `ndn::toHex` -/
def toHex (bs : Bytes) : Bytes := bs.flatMap (fun b => [hexDigit (b.toNat / 16), hexDigit (b.toNat % 16)])

/-- `ptree::get(key, "")` on the flat secrets -/
def secretGetD (s : List (Bytes × Bytes)) (k : Bytes) : Bytes :=
  match s.find? (fun e => e.1 == k) with
  | some e => e.2
  | none => []

/-- `ptree::get<std::string>(key)`: throws if absent -/
def secretGet (s : List (Bytes × Bytes)) (k : Bytes) : Res Bytes :=
  match s.find? (fun e => e.1 == k) with
  | some e => .ok e.2
  | none => .exc .runtime

def NEED_PROOF : Bytes := bytes! "need-proof"
def NEED_CODE : Bytes := bytes! "need-code"
def WRONG_CODE : Bytes := bytes! "wrong-code"
def KEY_CODE : Bytes := bytes! "code"
def KEY_EMAIL : Bytes := bytes! "email"
def KEY_NONCE : Bytes := bytes! "nonce"
def KEY_CREDENTIAL : Bytes := bytes! "issued-cert"
def KEY_PROOF : Bytes := bytes! "proof"

/-- the challenge-state elements of a CHALLENGE reply (challenge-encoder.cpp:30-41) -/
def challengeStateElems (cs : ChallengeState) : Res (List Block) := do
  let base := [binBlock T.ChallengeStatus cs.challengeStatus, nniBlock T.RemainingTries cs.remainingTries,
               nniBlock T.RemainingTime (cs.remainingTime % 2 ^ 64).toNat]
  if cs.challengeStatus = NEED_PROOF then
    let nonce ← fromHex (secretGetD cs.secrets KEY_NONCE)
    .ok (base ++ [binBlock T.ParameterKey KEY_NONCE, binBlock T.ParameterValue nonce])
  else .ok base

/-- the plaintext elements of a CHALLENGE reply (challenge-encoder.cpp:28-46) -/
def challengeElems (r : RequestState) (issued : Name) (hint : Name) : Res (List Block) := do
  let st ← match r.challengeState with
    | some cs => challengeStateElems cs
    | none => .ok []
  .ok ([nniBlock T.Status r.status.toNat] ++ st ++
    (if issued = [] then []
     else [nestedBlock T.IssuedCertName (nameBlock issued), nestedBlock T.ForwardingHint (nameBlock hint)]))

/-- `challengetlv::encodeDataContent` (challenge-encoder.cpp:25-52). Returns the request (its encryption IV
advances) and the content. `rnd`: the octets drawn if the IV is empty. -/
def challengeEncode (C : Crypto) (r : RequestState) (issued hint : Name) (rnd : Bytes) :
    RequestState × Res Block :=
  match challengeElems r issued hint with
  | .exc e => (r, .exc e)
  | .ub u => (r, .ub u)
  | .ok es =>
    let (iv, res) := encodeAes C T.Content r.encryptionKey (encodeAll es) r.requestId r.encryptionIv rnd
    ({ r with encryptionIv := iv }, res)

/-- `statusFromBlock` (src/detail/ca-request-state.cpp:47-54) -/
def statusFromBlock (b : Block) : Res Status := do
  let n ← readNni b
  if n > 6 then .exc .runtime else .ok (Status.ofNat n)

/-- A key pair held in the requester's KeyChain: name and public key. -/
structure KeyPair where
  name : Name
  pub : Bytes
  deriving DecidableEq, Repr

/-- `requester::Request` (src/requester-request.hpp:195-270). `keyPair = none`: the default constructed
`ndn::security::Key`. -/
structure Request where
  profile : CaProfile
  type : RequestType
  identityName : Name := []
  requestId : RequestId
  status : Status := .beforeChallenge
  challengeType : Bytes := []
  challengeStatus : Bytes := []
  remainingTries : Int := 0
  freshBefore : Time := 0
  issuedCertName : Name := []
  forwardingHint : Name := []
  ecdhPriv : Bytes
  aesKey : Bytes
  encryptionIv : Bytes := []
  decryptionIv : Bytes := []
  nonce : Bytes
  keyPair : Option KeyPair := none
  deriving DecidableEq, Repr

/-- `system_clock::now() + seconds(n)` (challenge-encoder.cpp:79-80): the seconds are converted to 64-bit nanoseconds and added to
the clock reading, both in signed arithmetic -/
def addSeconds (now : Time) (n : Nat) : Res Time :=
  let d := toInt64 n * nsPerSec
  if -(2 ^ 63) ≤ d ∧ d < 2 ^ 63 ∧ -(2 ^ 63) ≤ now + d ∧ now + d < 2 ^ 63 then .ok (now + d) else .ub .signedOverflow

/-- loop state of `challengetlv::decodeDataContent` -/
structure ChalDecAcc where
  req : Request
  numStatus : Nat := 0
  lookingForNonce : Bool := false

/-- loop body of `challengetlv::decodeDataContent` (challenge-encoder.cpp:65-118). `now`: the clock reading.
As in the code the status is read from `data.get(Status)`, the first one. -/
def challengeStep (es : List Block) (now : Time) (a : ChalDecAcc) (item : Block) : Res ChalDecAcc :=
  if a.lookingForNonce = false then
    if item.typ = T.Status then do
      let b ← getElem es T.Status
      let s ← statusFromBlock b
      .ok { a with req := { a.req with status := s }, numStatus := a.numStatus + 1 }
    else if item.typ = T.ChallengeStatus then
      .ok { a with req := { a.req with challengeStatus := readString item } }
    else if item.typ = T.RemainingTries then do
      let n ← readNni item
      .ok { a with req := { a.req with remainingTries := toInt32 n } }
    else if item.typ = T.RemainingTime then do
      let n ← readNni item
      let t ← addSeconds now n
      .ok { a with req := { a.req with freshBefore := t } }
    else if item.typ = T.IssuedCertName then do
      let b ← item.blockFromValue
      let n ← nameOfBlock b
      .ok { a with req := { a.req with issuedCertName := n } }
    else if item.typ = T.ForwardingHint then do
      let b ← item.blockFromValue
      let n ← nameOfBlock b
      .ok { a with req := { a.req with forwardingHint := n } }
    else if item.typ = T.ParameterKey then
      if readString item = KEY_NONCE then .ok { a with lookingForNonce := true }
      else .exc .runtime
    else if isCriticalType item.typ then .exc .runtime
    else .ok a
  else if item.typ = T.ParameterValue then
    if item.val.length ≠ 16 then .exc .runtime
    else .ok { a with req := { a.req with nonce := item.val }, lookingForNonce := false }
  else .exc .runtime

/-- `challengetlv::decodeDataContent` (challenge-encoder.cpp:54-123). Returns the requester state as left
behind (also when throwing) and the outcome. -/
def challengeDecode (C : Crypto) (content : Block) (req : Request) (now : Time) : Request × Res Unit :=
  let (div, res) := decodeAes C content req.aesKey req.requestId req.decryptionIv req.encryptionIv
  let req1 := { req with decryptionIv := div }
  match res with
  | .exc e => (req1, .exc e)
  | .ub u => (req1, .ub u)
  | .ok pt =>
    match parse pt with
    | .exc e => (req1, .exc e)
    | .ub u => (req1, .ub u)
    | .ok es =>
      let (a, r) := loopRes (challengeStep es now) { req := req1 } es
      (a.req,
        match r with
        | .exc e => .exc e
        | .ub u => .ub u
        | .ok () => if a.numStatus ≠ 1 then .exc .runtime else .ok ())

end Ndncert
