import Verif.Model.Assign

/-! # The CA module (src/ca-module.cpp) -/

namespace Ndncert

/-- `CaConfig` (src/detail/ca-configuration.hpp:52-75) after `CaModule`'s constructor -/
structure CaConfig where
  profile : CaProfile
  redirection : List (Cert × Redirection) := []
  assignments : List Assignment := [.random]

/-- observable actions of a handler, in the order they happen -/
inductive Effect where
  | dbAdd (r : RequestState)
  | dbUpdate (r : RequestState)
  | dbDelete (id : RequestId)
  | mail (m : Mail)
  /-- a certificate was signed by the CA (`issueCertificate`) -/
  | issue (c : Cert)
  | put (d : Data)
  /-- the status update callback was called (it is taken to be set, as in ndncert-ca-server) -/
  | callback (r : RequestState)
  deriving DecidableEq, Repr

/-- how a handler ended: returned, an exception left it, undefined behaviour was reached -/
inductive Term where
  | done
  | threw (e : Exc)
  | undefined (u : Ub)
  deriving DecidableEq, Repr

/-- one execution of a handler -/
structure Outcome where
  effects : List Effect
  term : Term
  deriving DecidableEq, Repr

/-- `DEFAULT_..GRACE_PERIOD` (ca-module.cpp:42), in nanoseconds -/
def graceNs : Int := 120 * nsPerSec

/-- a Data packet signed by the CA identity -/
def mkData (C : Crypto) (ca : Name) (name : Name) (content : Block) : Data :=
  { name := name, content := content, sig := C.signData ca name content }

/-- `generateErrorDataPacket` (ca-module.cpp:523-532) -/
def errorData (C : Crypto) (ca : Name) (name : Name) (code : ErrorCode) (info : Bytes) : Data :=
  mkData C ca name (errorEncode code info)

/-- handler that only sends an error reply -/
def replyError (C : Crypto) (cfg : CaConfig) (i : Interest) (pre : List Effect) (code : ErrorCode) (info : Bytes) :
    Outcome :=
  { effects := pre ++ [.put (errorData C cfg.profile.caPrefix i.name code info)], term := .done }

/-- names collected from the assignment functions, in order; the n-th function may use the n-th random word
(ca-module.cpp:174-177) -/
def collectNames (C : Crypto) (params : MMap) (rand : Nat → Nat) : Nat → List Assignment → Res (List Name)
  | _, [] => .ok []
  | n, a :: as => do
    let names ← a.assignName C params (rand n)
    let rest ← collectNames C params rand (n + 1) as
    .ok (names ++ rest)

/-- `CaModule::onProbe` (ca-module.cpp:154-205) -/
def onProbe (C : Crypto) (cfg : CaConfig) (i : Interest) (env : Env) : Outcome :=
  match (match i.params with | some b => probeParamsDecode b | none => .ok []) with
  | .exc _ => { effects := [], term := .done }
  | .ub u => { effects := [], term := .undefined u }
  | .ok params =>
    let redirects := (cfg.redirection.filter (fun r => r.2.isRedirecting params)).map (fun r => r.1.fullName)
    match collectNames C params env.rand64 0 cfg.assignments with
    | .exc _ => { effects := [], term := .done }
    | .ub u => { effects := [], term := .undefined u }
    | .ok comps =>
    if comps = [] ∧ redirects = [] then
      replyError C cfg i [] ErrorCode.INVALID_PARAMETER
        (bytes! "Cannot generate available names from parameters provided.")
    else
      { effects := [.put (mkData C cfg.profile.caPrefix i.name
          (probeEncode (comps.map (cfg.profile.caPrefix ++ ·)) cfg.profile.maxSuffixLength redirects))],
        term := .done }

/-- `Certificate::isValid()` at time `now`; throws if there is no validity period -/
def certIsValid (c : Cert) (now : Time) : Res Bool :=
  match c.validity with
  | none => .exc .tlv
  | some (nb, na) => .ok (decide (nb ≤ now ∧ now ≤ na))

/-- name checks (ca-module.cpp:265-281) -/
def nameRejected (p : CaProfile) (c : Cert) : Bool :=
  !isPrefixOf p.caPrefix c.identity || !isValidCertName c.name || decide (c.identity.length ≤ p.caPrefix.length) ||
    (match p.maxSuffixLength with
     | some k => decide (c.identity.length > p.caPrefix.length + k)
     | none => false)

/-- validity check of NEW (ca-module.cpp:286-289) -/
def validityRejected (p : CaProfile) (nb na now : Time) : Bool :=
  decide (nb < now - graceNs ∨ na > now + p.maxValidityPeriod * nsPerSec ∨ na ≤ nb)

/-- the request id derived from a certificate name (ca-module.cpp:321-333) -/
def requestIdOf (C : Crypto) (idKey : Bytes) (certName : Name) : RequestId :=
  (C.hmac idKey (nameBlock certName).encode).take 8

/-- the state stored for an accepted request (ca-module.cpp:335-347) -/
def newRequestState (C : Crypto) (cfg : CaConfig) (idKey : Bytes) (ty : RequestType) (cert : Cert)
    (secret salt : Bytes) : RequestState :=
  let id := requestIdOf C idKey cert.name
  { caPrefix := cfg.profile.caPrefix, requestId := id, requestType := ty, cert := cert,
    encryptionKey := C.hkdf secret salt id }

/-- from creation of the request instance on (ca-module.cpp:320-368) -/
def acceptRequest {σ : Type} (C : Crypto) (S : StoreI σ) (cfg : CaConfig) (idKey : Bytes) (st : σ)
    (ty : RequestType) (i : Interest) (env : Env) (cert : Cert) (secret : Bytes) : Outcome :=
  let rs := newRequestState C cfg idKey ty cert secret env.salt
  match S.add st rs with
  | .exc _ => replyError C cfg i [] ErrorCode.INVALID_PARAMETER
      (bytes! "Duplicate Request ID: The same request has been seen before.")
  | .ub u => { effects := [], term := .undefined u }
  | .ok _ =>
    { effects := [.dbAdd rs,
        .put (mkData C cfg.profile.caPrefix i.name
          (requestEncode (C.ecdhPub env.ecdhPriv) env.salt rs.requestId cfg.profile.supportedChallenges)),
        .callback rs],
      term := .done }

/-- `CaModule::onNewRenewRevoke` (ca-module.cpp:207-369) -/
def onNewRenewRevoke {σ : Type} (C : Crypto) (S : StoreI σ) (cfg : CaConfig) (idKey : Bytes) (st : σ)
    (ty : RequestType) (i : Interest) (env : Env) : Outcome :=
  match certIsValid env.caCert env.nowCa with
  | .exc e => { effects := [], term := .threw e }
  | .ub u => { effects := [], term := .undefined u }
  | .ok false => replyError C cfg i [] ErrorCode.BAD_VALIDITY_PERIOD (bytes! "Server certificate invalid/expired")
  | .ok true =>
    match requestParamsDecode C i.params ty with
    | .ub u => { effects := [], term := .undefined u }
    | .exc _ =>
      replyError C cfg i [] ErrorCode.INVALID_PARAMETER
        (match i.params with
         | none => bytes! "Empty TLV obtained from the Interest parameter."
         | some _ => bytes! "Unrecognized self-signed certificate.")
    | .ok (pub, cert) =>
      if pub = [] then
        replyError C cfg i [] ErrorCode.INVALID_PARAMETER
          (bytes! "Empty ECDH PUB obtained from the Interest parameter.")
      else match C.ecdhDerive env.ecdhPriv pub with
        | none => replyError C cfg i [] ErrorCode.INVALID_PARAMETER
            (bytes! "Cannot derive a shared secret using the provided ECDH key.")
        | some secret =>
          if nameRejected cfg.profile cert then
            replyError C cfg i [] ErrorCode.NAME_NOT_ALLOWED
              (bytes! "An invalid certificate name is being requested.")
          else if ty = .new then
            match cert.validity with
            | none => { effects := [], term := .threw .tlv }
            | some (nb, na) =>
              if validityRejected cfg.profile nb na env.now then
                replyError C cfg i [] ErrorCode.BAD_VALIDITY_PERIOD
                  (bytes! "An invalid validity period is being requested.")
              else if C.verifyCert cert cert = false then
                replyError C cfg i [] ErrorCode.BAD_SIGNATURE
                  (bytes! "Invalid signature in the self-signed certificate.")
              else if C.verifyInterest i cert = false then
                replyError C cfg i [] ErrorCode.BAD_SIGNATURE
                  (bytes! "Invalid signature in the Interest packet.")
              else acceptRequest C S cfg idKey st ty i env cert secret
          else if ty = .revoke then
            if C.verifyCert cert env.caCert = false then
              replyError C cfg i [] ErrorCode.BAD_SIGNATURE
                (bytes! "Invalid signature in the certificate to revoke.")
            else acceptRequest C S cfg idKey st ty i env cert secret
          else acceptRequest C S cfg idKey st ty i env cert secret

/-- `getCertificateRequest` (ca-module.cpp:495-515): `ok none` is the null pointer. The name component is copied
into an uninitialised array of eight octets without a length check. -/
def getCertificateRequest {σ : Type} (S : StoreI σ) (cfg : CaConfig) (st : σ) (i : Interest) (env : Env) :
    Res (Option RequestState) :=
  match i.name[cfg.profile.caPrefix.length + 2]? with
  | none => .ok none
  | some comp =>
    match memcpyInto env.stack comp.val with
    | .ub u => .ub u
    | .exc e => .exc e
    | .ok id =>
      match S.get st id with
      | .ok r => .ok (some r)
      | .exc _ => .ok none
      | .ub u => .ub u

/-- the component `NDNCERT` -/
def ndncertComponent : Block := gcomp (bytes! "NDNCERT")

/-- `issueCertificate` (ca-module.cpp:473-493). Throws if the submitted certificate has no validity period or no
content. -/
def issueCertificate (C : Crypto) (cfg : CaConfig) (env : Env) (r : RequestState) : Res Cert :=
  match r.cert.validity, r.cert.content with
  | some v, some content =>
    let name := r.cert.keyName ++ [ndncertComponent, env.version]
    let (wire, locator, digest) := C.signCert cfg.profile.caPrefix name content v
    .ok { wire := wire, name := name, content := some content, keyLocator := some locator,
          validity := some v, digest := digest }
  | _, _ => .exc .tlv

/-- put the reply and call the callback (ca-module.cpp:462-470) -/
def sendChallengeReply (C : Crypto) (cfg : CaConfig) (i : Interest) (pre : List Effect) (r : RequestState)
    (payload : Block) : Outcome :=
  { effects := pre ++ [.put (mkData C cfg.profile.caPrefix i.name payload), .callback r], term := .done }

/-- effects so far, then an exception or undefined behaviour -/
def abort {α : Type} (pre : List Effect) : Res α → Outcome
  | .exc e => { effects := pre, term := .threw e }
  | .ub u => { effects := pre, term := .undefined u }
  | .ok _ => { effects := pre, term := .done }

/-- the part of `onChallenge` after the challenge module succeeded without error (ca-module.cpp:435-470) -/
def finishChallenge (C : Crypto) (cfg : CaConfig) (i : Interest) (env : Env) (pre : List Effect)
    (r : RequestState) : Outcome :=
  if r.status = .pending then
    if r.requestType = .new ∨ r.requestType = .renew then
      match issueCertificate C cfg env r with
      | .ok c =>
        let r1 := { r with cert := c, status := .success }
        let pre1 := pre ++ [.issue c, .dbDelete r.requestId]
        let (r2, res) := challengeEncode C r1 c.name cfg.profile.forwardingHint env.ivRnd
        match res with
        | .ok payload => sendChallengeReply C cfg i pre1 r2 payload
        | e => abort pre1 e
      | e => abort pre e
    else if r.requestType = .revoke then
      let r1 := { r with status := .success }
      let pre1 := pre ++ [.dbDelete r.requestId]
      let (r2, res) := challengeEncode C r1 [] [] env.ivRnd
      match res with
      | .ok payload => sendChallengeReply C cfg i pre1 r2 payload
      | e => abort pre1 e
    else
      -- `payload` stays an invalid Block; `Data::setContent` throws
      abort pre (.exc .runtime : Res Unit)
  else
    let (r2, res) := challengeEncode C r [] [] env.ivRnd
    match res with
    | .ok payload => sendChallengeReply C cfg i (pre ++ [.dbUpdate r2]) r2 payload
    | e => abort pre e

/-- from the decrypted parameters on (ca-module.cpp:405-471) -/
def processParams (C : Crypto) (cfg : CaConfig) (i : Interest) (env : Env) (r : RequestState) (pt : Bytes) :
    Outcome :=
  if pt = [] then
    replyError C cfg i [.dbDelete r.requestId] ErrorCode.INVALID_PARAMETER
      (bytes! "No parameters are found after decryption.")
  else
    match parse pt with
    | .ok es =>
      match getElem es T.SelectedChallenge with
      | .ok sel =>
        match createChallenge (readString sel) with
        | none => replyError C cfg i [.dbDelete r.requestId] ErrorCode.INVALID_PARAMETER
            (bytes! "Unrecognized challenge type.")
        | some k =>
          match handleChallenge C k env es r with
          | .ok out =>
            if out.code ≠ 0 then
              replyError C cfg i (out.mails.map .mail ++ [.dbDelete out.req.requestId]) out.code out.info
            else finishChallenge C cfg i env (out.mails.map .mail) out.req
          | e => abort [] e
      | e => abort [] e
    | e => abort [] e

/-- `CaModule::onChallenge` (ca-module.cpp:371-471) -/
def onChallenge {σ : Type} (C : Crypto) (S : StoreI σ) (cfg : CaConfig) (st : σ) (i : Interest) (env : Env) :
    Outcome :=
  match getCertificateRequest S cfg st i env with
  | .exc e => { effects := [], term := .threw e }
  | .ub u => { effects := [], term := .undefined u }
  | .ok none => replyError C cfg i [] ErrorCode.INVALID_PARAMETER
      (bytes! "No certificate request state can be found.")
  | .ok (some r) =>
    if C.verifyInterest i r.cert = false then
      replyError C cfg i [] ErrorCode.BAD_SIGNATURE (bytes! "Invalid Signature in the Interest packet.")
    else
      let (div, res) := decodeAes C (i.params.getD ⟨0, []⟩) r.encryptionKey r.requestId r.decryptionIv r.encryptionIv
      match res with
      | .exc _ => replyError C cfg i [.dbDelete r.requestId] ErrorCode.INVALID_PARAMETER
          (bytes! "Interest paramaters decryption failed.")
      | .ub u => { effects := [], term := .undefined u }
      | .ok pt => processParams C cfg i env { r with decryptionIv := div } pt

/-! ## The CA as a transition system -/

/-- effect of an action on the storage -/
def applyEffect {σ : Type} (S : StoreI σ) (st : σ) : Effect → σ
  | .dbAdd r => match S.add st r with | .ok s => s | _ => st
  | .dbUpdate r => match S.update st r with | .ok s => s | _ => st
  | .dbDelete id => S.delete st id
  | _ => st

def applyEffects {σ : Type} (S : StoreI σ) (st : σ) (es : List Effect) : σ := es.foldl (applyEffect S) st

/-- Interests dispatched by the filters set in `registerPrefix` (ca-module.cpp:74-113) -/
inductive Msg where
  | probe (i : Interest)
  | new (i : Interest)
  | revoke (i : Interest)
  | challenge (i : Interest)
  deriving DecidableEq, Repr

/-- the state of a CA process: its storage and the random key generated by the constructor (ca-module.cpp:55) -/
structure CaState (σ : Type) where
  store : σ
  idKey : Bytes

/-- what the CA does with one Interest -/
def handle {σ : Type} (C : Crypto) (S : StoreI σ) (cfg : CaConfig) (s : CaState σ) (m : Msg) (env : Env) : Outcome :=
  match m with
  | .probe i => onProbe C cfg i env
  | .new i => onNewRenewRevoke C S cfg s.idKey s.store .new i env
  | .revoke i => onNewRenewRevoke C S cfg s.idKey s.store .revoke i env
  | .challenge i => onChallenge C S cfg s.store i env

/-- things that happen to a CA: an Interest is processed; the process is killed while processing one, after the
first `k` effects, and restarted on the same storage with a new id key; it is restarted while idle -/
inductive Event where
  | msg (m : Msg) (env : Env)
  | crash (m : Msg) (env : Env) (k : Nat) (newKey : Bytes)
  | restart (newKey : Bytes)

/-- the Interest in a message -/
def Msg.interest : Msg → Interest
  | probe i => i
  | new i => i
  | revoke i => i
  | challenge i => i

/-- the request id component of a CHALLENGE Interest (ca-module.cpp:500) -/
def idComponent (cfg : CaConfig) (i : Interest) : Option Block := i.name[cfg.profile.caPrefix.length + 2]?

/-- Interests whose handling is defined: the parameters are within the AES-GCM limit (an NDN packet has at most 8800
octets), and the request id component of a CHALLENGE is not longer than the eight octets of the buffer it is copied to
(a longer one is a buffer overflow, after which nothing can be said) -/
def Msg.Wf (cfg : CaConfig) (m : Msg) : Prop :=
  (∀ b, m.interest.params = some b → b.val.length ≤ 2 ^ 36 - 32) ∧
  (∀ i, m = .challenge i → ∀ comp, idComponent cfg i = some comp → comp.val.length ≤ 8)

/-- the message an event processes -/
def Event.msg? : Event → Option (Msg × Env)
  | .msg m env => some (m, env)
  | .crash m env _ _ => some (m, env)
  | .restart _ => none

def Event.Wf (cfg : CaConfig) (e : Event) : Prop := ∀ m env, e.msg? = some (m, env) → m.Wf cfg ∧ env.Wf

/-- One entry of a history: the event, the state before it and the effects that happened. -/
structure Step (σ : Type) where
  pre : CaState σ
  event : Event
  effects : List Effect

/-- the effects an event has in a state, and the next state -/
def Event.run {σ : Type} (C : Crypto) (S : StoreI σ) (cfg : CaConfig) (s : CaState σ) : Event → List Effect × CaState σ
  | .msg m env =>
    let es := (handle C S cfg s m env).effects
    (es, { s with store := applyEffects S s.store es })
  | .crash m env k newKey =>
    let es := (handle C S cfg s m env).effects.take k
    (es, { store := S.reopen (applyEffects S s.store es), idKey := newKey })
  | .restart newKey => ([], { store := S.reopen s.store, idKey := newKey })

/-- `msg` stands for a handler that returns. An exception that leaves the handler kills the process: that
is a `crash` after all effects of the handler. -/
def Event.Possible {σ : Type} (C : Crypto) (S : StoreI σ) (cfg : CaConfig) (s : CaState σ) : Event → Prop
  | .msg m env => (handle C S cfg s m env).term = .done
  | _ => True

/-- Executions of a CA started on an empty storage: the history, oldest step first, and the state reached. -/
inductive Exec {σ : Type} (C : Crypto) (S : StoreI σ) (cfg : CaConfig) : List (Step σ) → CaState σ → Prop where
  | init (idKey : Bytes) : Exec C S cfg [] { store := S.empty, idKey := idKey }
  | step {h : List (Step σ)} {s : CaState σ} (e : Event) (prev : Exec C S cfg h s) (wf : e.Wf cfg)
      (possible : e.Possible C S cfg s) :
      Exec C S cfg (h ++ [⟨s, e, (e.run C S cfg s).1⟩]) (e.run C S cfg s).2

end Ndncert
