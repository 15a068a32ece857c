import Verif.Model.Storage

/-! # Challenge modules (src/challenge/*) -/

namespace Ndncert

/-- What one handler execution reads from its surroundings: clock, random source, key chain, file system,
uninitialised stack memory. All fields are arbitrary. -/
structure Env where
  /-- clock reading used for checks -/
  now : Time
  /-- clock reading of `caCert.isValid()` in the NEW and REVOKE handler, an earlier call of `now()` -/
  nowCa : Time := now
  /-- clock reading stored by `returnWithNewChallengeStatus` (a later call of `now()`) -/
  nowStore : Time
  /-- default certificate of the CA identity in the PIB -/
  caCert : Cert
  /-- private key of the fresh `ECDHState` -/
  ecdhPriv : Bytes
  /-- 32 random octets -/
  salt : Bytes
  /-- 8 random octets for a fresh encryption IV -/
  ivRnd : Bytes
  /-- the 32-bit word on which the loop of `generateSecretCode` ends -/
  word32 : Nat
  /-- 16 random octets of the possession challenge -/
  nonce : Bytes
  /-- random words of the `random` name assignment, in order of use -/
  rand64 : Nat → Nat
  /-- component appended by `Name::appendVersion` -/
  version : Block
  /-- result of `ChallengePossession::parseConfigFile` -/
  anchors : Res (List Cert)
  /-- `boost::process::child` could start the email script -/
  spawnOk : Bool
  /-- previous content of the stack bytes that become `requestId` in `getCertificateRequest` -/
  stack : Bytes

/-- sizes of the random draws and of the id buffer; reading the trust anchor file may throw but is not undefined -/
structure Env.Wf (env : Env) : Prop where
  salt : env.salt.length = 32
  ivRnd : env.ivRnd.length = 8
  word : env.word32 < 4294000000
  nonce : env.nonce.length = 16
  stack : env.stack.length = 8
  anchors : ∀ u, env.anchors ≠ .ub u

/-- one invocation of the email script (src/challenge/challenge-email.cpp:160-177) -/
structure Mail where
  address : Bytes
  code : Bytes
  caPrefix : Name
  certName : Name
  deriving DecidableEq, Repr

/-- the registered challenge modules (NDNCERT_REGISTER_CHALLENGE) -/
inductive ChalKind where
  | pin | email | possession
  deriving DecidableEq, Repr

/-- registered name: challenge-pin.cpp:29, challenge-email.cpp:31, challenge-possession.cpp:34 -/
def ChalKind.regName : ChalKind → Bytes
  | pin => bytes! "pin"
  | email => bytes! "email"
  | possession => bytes! "possession"

/-- `CHALLENGE_TYPE`: challenge-pin.cpp:36, challenge-email.cpp:41, challenge-possession.cpp:42
(note the capital letter of the last one) -/
def ChalKind.chalType : ChalKind → Bytes
  | pin => bytes! "pin"
  | email => bytes! "email"
  | possession => bytes! "Possession"

/-- `m_maxAttemptTimes`: challenge-pin.hpp:49, challenge-email.hpp:50, challenge-possession.cpp:42 -/
def ChalKind.maxTries : ChalKind → Nat
  | pin => 3 | email => 3 | possession => 1

/-- `m_secretLifetime` in seconds: challenge-pin.hpp:50, challenge-email.hpp:51, challenge-possession.cpp:42 -/
def ChalKind.lifetime : ChalKind → Int
  | pin => 3600 | email => 300 | possession => 60

/-- `ChallengeModule::createChallengeModule` (challenge-module.cpp:44-50) -/
def createChallenge (ty : Bytes) : Option ChalKind :=
  if ty = ChalKind.pin.regName then some .pin
  else if ty = ChalKind.email.regName then some .email
  else if ty = ChalKind.possession.regName then some .possession
  else none

/-- `std::to_string` then left padding with '0' to six characters (challenge-module.cpp:66-70) -/
def padSix (s : Bytes) : Bytes := List.replicate (6 - s.length) 48 ++ s

/-- `generateSecretCode` after its loop (challenge-module.cpp:66-71), for the accepted word -/
def secretCode (word : Nat) : Bytes := padSix (decDigits (word / 4294))

/-- the loop of `generateSecretCode` (challenge-module.cpp:62-65) on a stream of random words: the first one below
4294000000; `none` if there is none within the first `fuel` -/
def firstAccepted (draws : Nat → Nat) : Nat → Option Nat
  | 0 => none
  | n + 1 =>
    match firstAccepted draws n with
    | some w => some w
    | none => if draws n ≥ 4294000000 then none else some (draws n)

/-- what `handleChallengeRequest` returns: error code and text, the modified request, emails sent -/
structure ChalOut where
  code : ErrorCode
  info : Bytes
  req : RequestState
  mails : List Mail := []

/-- `returnWithError` (challenge-module.cpp:74-81) -/
def returnWithError (r : RequestState) (code : ErrorCode) (info : Bytes) : ChalOut :=
  { code := code, info := info,
    req := { r with status := .failure, challengeType := [], challengeState := none } }

/-- `returnWithNewChallengeStatus` (challenge-module.cpp:83-93) -/
def returnWithNewStatus (k : ChalKind) (env : Env) (r : RequestState) (chalStatus : Bytes)
    (secrets : List (Bytes × Bytes)) (tries : Nat) (time : Int) : ChalOut :=
  { code := 0, info := [],
    req := { r with
      status := .challenge
      challengeType := k.chalType
      challengeState := some { challengeStatus := chalStatus, timestamp := env.nowStore,
                               remainingTries := tries, remainingTime := time, secrets := secrets } } }

/-- `returnWithSuccess` (challenge-module.cpp:95-102) -/
def returnWithSuccess (k : ChalKind) (r : RequestState) : ChalOut :=
  { code := 0, info := [],
    req := { r with status := .pending, challengeType := k.chalType, challengeState := none } }

/-- The second part, common to `ChallengePin` and `ChallengeEmail`
(challenge-pin.cpp:57-86, challenge-email.cpp:69-101): compare the given code. -/
def handleCode (k : ChalKind) (env : Env) (es : List Block) (r : RequestState) : Res ChalOut :=
  match r.challengeState with
  | none => .ok (returnWithError r ErrorCode.INVALID_PARAMETER (bytes! "Unexpected status or challenge status"))
  | some cs =>
    if cs.challengeStatus = NEED_CODE ∨ cs.challengeStatus = WRONG_CODE then do
      let given ← getElem es T.ParameterValue
      if k.lifetime * nsPerSec ≤ env.now - cs.timestamp then
        .ok (returnWithError r ErrorCode.OUT_OF_TIME (bytes! "Secret expired."))
      else do
        let code ← secretGet cs.secrets KEY_CODE
        if readString given = code then .ok (returnWithSuccess k r)
        else if cs.remainingTries > 1 then
          .ok (returnWithNewStatus k env r WRONG_CODE cs.secrets (cs.remainingTries - 1)
            ((k.lifetime * nsPerSec - (env.now - cs.timestamp)).tdiv nsPerSec))
        else
          .ok (returnWithError r ErrorCode.OUT_OF_TRIES
            (match k with | .pin => bytes! "Ran out tires." | _ => bytes! "Ran out of tries."))
    else .ok (returnWithError r ErrorCode.INVALID_PARAMETER (bytes! "Unexpected status or challenge status"))

/-- `ChallengePin::handleChallengeRequest` (challenge-pin.cpp:41-87) -/
def handlePin (env : Env) (es : List Block) (r : RequestState) : Res ChalOut :=
  if r.status = .beforeChallenge then
    .ok (returnWithNewStatus .pin env r NEED_CODE [(KEY_CODE, secretCode env.word32)]
      ChalKind.pin.maxTries ChalKind.pin.lifetime)
  else handleCode .pin env es r

/-- `ChallengeEmail::handleChallengeRequest` (challenge-email.cpp:47-102). A mismatch between the address and the
requested name is only logged (lines 55-59). `Name::get(-1)` does no bounds checking. -/
def handleEmail (env : Env) (es : List Block) (r : RequestState) : Res ChalOut :=
  if r.status = .beforeChallenge then do
    let addr ← getElem es T.ParameterValue
    if r.cert.identity = [] then .ub .endDeref
    else if env.spawnOk = false then .exc .runtime
    else
      let out := returnWithNewStatus .email env r NEED_CODE [(KEY_CODE, secretCode env.word32)]
        ChalKind.email.maxTries ChalKind.email.lifetime
      .ok { out with mails := [{ address := readString addr, code := secretCode env.word32,
                                 caPrefix := r.caPrefix, certName := r.cert.name }] }
  else handleCode .email env es r

/-- loop over the parameters of the possession challenge (challenge-possession.cpp:94-111): credential and
proof found last; `none` when decoding a credential failed. (The text of that exception, which the code appends to the error
information, is left out.) -/
def possessionScan (C : Crypto) : List Block → Option Cert × Option Bytes → Option (Option Cert × Option Bytes)
  | [], acc => some acc
  | [_], acc => some acc
  | a :: b :: rest, acc =>
    if a.typ = T.ParameterKey ∧ b.typ = T.ParameterValue then
      if readString a = KEY_CREDENTIAL then
        match (do let d ← b.blockFromValue; dataOfBlock C d : Res Cert) with
        | .ok c => possessionScan C (b :: rest) (some c, acc.2)
        | _ => none
      else if readString a = KEY_PROOF then possessionScan C (b :: rest) (acc.1, some b.val)
      else possessionScan C (b :: rest) acc
    else possessionScan C (b :: rest) acc

/-- `credential.hasContent()`; a default constructed certificate has none -/
def credHasContent (c : Option Cert) : Bool :=
  match c with
  | some c => c.content.isSome
  | none => false

/-- `ChallengePossession::handleChallengeRequest` (challenge-possession.cpp:83-161). `elements.size() - 1`
underflows on an empty list; the caller never passes one. -/
def handlePossession (C : Crypto) (env : Env) (es : List Block) (r : RequestState) : Res ChalOut :=
  if es = [] then .ub .overflow
  else match env.anchors with
  | .exc e => .exc e
  | .ub u => .ub u
  | .ok anchors =>
    match possessionScan C es (none, none) with
    | none => .ok (returnWithError r ErrorCode.INVALID_PARAMETER (bytes! "Cannot challenge credential: credential."))
    | some (cred, proof) =>
      let sigLen := (proof.getD []).length
      if r.status = .beforeChallenge then
        if credHasContent cred = false ∨ sigLen ≠ 0 then
          .ok (returnWithError r ErrorCode.BAD_INTEREST_FORMAT (bytes! "Cannot find certificate"))
        else match cred with
          | none => .ub .nullDeref
          | some c =>
            match c.keyLocator with
            | none => .exc .tlv
            | some kl =>
              if C.loadKey (c.content.getD []) = false then .exc .runtime
              else if anchors.any (fun a => (a.keyName == kl || a.name == kl) && C.verifyCert c a) then
                .ok (returnWithNewStatus .possession env r NEED_PROOF
                  [(KEY_NONCE, toHex env.nonce), (KEY_CREDENTIAL, toHex c.wire.encode)]
                  ChalKind.possession.maxTries ChalKind.possession.lifetime)
              else .ok (returnWithError r ErrorCode.INVALID_PARAMETER (bytes! "Certificate cannot be verified"))
      else match r.challengeState with
        | some cs =>
          if cs.challengeStatus = NEED_PROOF then
            if credHasContent cred = true ∨ sigLen = 0 then
              .ok (returnWithError r ErrorCode.BAD_INTEREST_FORMAT (bytes! "Cannot find certificate"))
            else do
              let cw ← fromHex (secretGetD cs.secrets KEY_CREDENTIAL)
              let cb ← blockOfBytes cw
              let c ← certOfBlock C cb
              let nonce ← fromHex (secretGetD cs.secrets KEY_NONCE)
              if C.loadKey (c.content.getD []) = false then .exc .runtime
              else if C.verifyRaw nonce (proof.getD []) (c.content.getD []) then
                .ok (returnWithSuccess .possession r)
              else .ok (returnWithError r ErrorCode.INVALID_PARAMETER
                (bytes! "Cannot verify the proof of private key against credential."))
          else .ok (returnWithError r ErrorCode.INVALID_PARAMETER (bytes! "Fail to recognize the request."))
        | none => .ok (returnWithError r ErrorCode.INVALID_PARAMETER (bytes! "Fail to recognize the request."))

/-- virtual dispatch of `handleChallengeRequest` -/
def handleChallenge (C : Crypto) (k : ChalKind) (env : Env) (es : List Block) (r : RequestState) : Res ChalOut :=
  match k with
  | .pin => handlePin env es r
  | .email => handleEmail env es r
  | .possession => handlePossession C env es r

/-! ## Requester side -/

/-- `getRequestedParameterList` (challenge-pin.cpp:90-107, challenge-email.cpp:105-122,
challenge-possession.cpp:164-179): the keys asked for (prompts are not modelled) -/
def requestedParams (k : ChalKind) (st : Status) (cs : Bytes) : Res (List Bytes) :=
  match k with
  | .pin =>
    if st = .beforeChallenge then .ok []
    else if st = .challenge ∧ cs = NEED_CODE then .ok [KEY_CODE]
    else if st = .challenge ∧ cs = WRONG_CODE then .ok [KEY_CODE]
    else .exc .runtime
  | .email =>
    if st = .beforeChallenge ∧ cs = [] then .ok [KEY_EMAIL]
    else if st = .challenge ∧ cs = NEED_CODE then .ok [KEY_CODE]
    else if st = .challenge ∧ cs = WRONG_CODE then .ok [KEY_CODE]
    else .exc .runtime
  | .possession =>
    if st = .beforeChallenge then .ok [KEY_CREDENTIAL]
    else if st = .challenge ∧ cs = NEED_PROOF then .ok [KEY_PROOF]
    else .exc .runtime

/-- the code submission of pin and email (challenge-pin.cpp:117-124, challenge-email.cpp:137-144) -/
def genCodeTlv (k : ChalKind) (params : MMap) : Res (List Block) :=
  if params.length ≠ 1 then .exc .runtime
  else match mmFind params KEY_CODE with
    | none => .exc .runtime
    | some v => .ok [binBlock T.SelectedChallenge k.chalType, binBlock T.ParameterKey KEY_CODE,
                     binBlock T.ParameterValue v]

/-- `genChallengeRequestTLV` (challenge-pin.cpp:109-130, challenge-email.cpp:124-150,
challenge-possession.cpp:181-224): the elements of the plaintext -/
def genChallengeTlv (k : ChalKind) (st : Status) (cs : Bytes) (params : MMap) : Res (List Block) :=
  match k with
  | .pin =>
    if st = .beforeChallenge then .ok [binBlock T.SelectedChallenge k.chalType]
    else if st = .challenge ∧ (cs = NEED_CODE ∨ cs = WRONG_CODE) then genCodeTlv k params
    else .exc .runtime
  | .email =>
    if st = .beforeChallenge then
      if params.length ≠ 1 then .exc .runtime
      else match mmFind params KEY_EMAIL with
        | none => .exc .runtime
        | some v => .ok [binBlock T.SelectedChallenge k.chalType, binBlock T.ParameterKey KEY_EMAIL,
                         binBlock T.ParameterValue v]
    else if st = .challenge ∧ (cs = NEED_CODE ∨ cs = WRONG_CODE) then genCodeTlv k params
    else .exc .runtime
  | .possession =>
    if st = .beforeChallenge then
      match params with
      | [(key, v)] =>
        if key = KEY_CREDENTIAL then do
          let b ← blockOfBytes v
          .ok [binBlock T.SelectedChallenge k.chalType, binBlock T.ParameterKey KEY_CREDENTIAL,
               mkBlock T.ParameterValue [b]]
        else .exc .runtime
      | _ => .exc .runtime
    else if st = .challenge ∧ cs = NEED_PROOF then
      match params with
      | [(key, v)] =>
        if key = KEY_PROOF then
          .ok [binBlock T.ParameterKey KEY_PROOF, binBlock T.ParameterValue v]
        else .exc .runtime
      | _ => .exc .runtime
    else .exc .runtime

end Ndncert
