import Verif.Model.Requester
import Verif.Model.Config

/-! # The command line client (tools/ndncert-client.cpp)

A run of the client is sequential: after each callback at most one Interest is pending, and the next callback is the one of that
Interest (Data, Nack or timeout) or a signal. Output on the terminal is not modelled, except the question whether a CA is trusted. -/

namespace Ndncert

/-- an identity of the user's KeyChain: its keys and its default key. The keys are in the order in which the KeyChain iterates over
them. (Simplification: ndn-cxx iterates in the order of the names, here a key created later comes last.) -/
structure IdEntry where
  name : Name
  keys : List Name
  dflt : Option Name
  deriving DecidableEq, Repr

/-- the identities and keys of the user's KeyChain (`ndn::security::Pib`); certificates are not modelled -/
abbrev Pib := List IdEntry

/-- `Pib::getIdentity`; `none` = throws `Pib::Error` -/
def Pib.get (p : Pib) (id : Name) : Option IdEntry := p.find? (fun e => e.name == id)

/-- what the client waits for -/
inductive Awaiting where
  /-- metadata of the CA; the full certificate name if redirected, otherwise empty -/
  | discovery (full : Name)
  /-- the CA profile -/
  | info (full : Name)
  | probe (p : CaProfile)
  | new
  | challenge
  | fetch
  deriving DecidableEq, Repr

/-- the static variables of the client (ndncert-client.cpp:49-57), its standard input as lines, and its KeyChain -/
structure Client where
  trusted : Option Cert := none
  captured : Option MMap := none
  request : Option Request := none
  newIdentity : Name := []
  newKey : Name := []
  pib : Pib
  stdin : List Bytes
  pending : Option Awaiting := none
  deriving DecidableEq, Repr

/-- what the client does that others can see -/
inductive Act where
  /-- Interests for the metadata and for the profile -/
  | discovery (name : Name)
  | profile (name : Name)
  /-- the question whether this profile is trusted, and the line typed -/
  | asked (p : CaProfile) (answer : Bytes)
  /-- PROBE and NEW to the CA with this profile -/
  | probe (p : CaProfile) (i : Interest)
  | new (p : CaProfile) (i : Interest)
  | challenge (p : CaProfile) (i : Interest)
  | fetch (name : Name) (hint : Option Name)
  /-- certificate added to the KeyChain -/
  | install (c : Cert)
  deriving DecidableEq, Repr

/-- how a callback ends -/
inductive Ended where
  | going
  | exit (code : Nat)
  /-- uncaught exception: `std::terminate` -/
  | threw (e : Exc)
  | ub (u : Ub)
  deriving DecidableEq, Repr

/-- the state after a callback, what it did, and how it ended -/
structure ClientOut where
  st : Client
  acts : List Act := []
  ended : Ended := .going
  deriving DecidableEq, Repr

/-- what a callback takes from its environment: the clock, the ephemeral ECDH key, random octets for the IV, uninitialised
memory (request id, AES key, nonce, salt), the version component, and the random key ids drawn -/
structure ClientEnv where
  now : Time
  ecdhPriv : Bytes
  rnd : Bytes
  memId : Bytes
  memKey : Bytes
  memNonce : Bytes
  stack : Bytes
  version : Block
  keyIds : List Block
  keyIds2 : List Block

/-- do something first -/
def ClientOut.after (acts : List Act) (o : ClientOut) : ClientOut := { o with acts := acts ++ o.acts }

/-- `getline(std::cin, s)` into an empty string: the next line, or the empty string at the end of the input -/
def Client.getline (c : Client) : Bytes × Client :=
  match c.stdin with
  | [] => ([], c)
  | l :: ls => (l, { c with stdin := ls })

/-- an optional sign in front of a number (`std::stoul`); `true` = minus -/
def stripSign : Bytes → Bool × Bytes
  | 43 :: r => (false, r)
  | 45 :: r => (true, r)
  | r => (false, r)

/-- `std::stoul`: leading white space, an optional sign, digits; what follows is ignored. A minus sign negates modulo 2^64.
`none` = throws. -/
def stoul (s : Bytes) : Option Nat :=
  let s1 := s.dropWhile isSpace
  let (neg, s2) := stripSign s1
  match readDigits (s2.takeWhile (fun b => 48 ≤ b && b ≤ 57)) with
  | none => none
  | some n => if 2 ^ 64 ≤ n then none else some (if neg then (2 ^ 64 - n) % 2 ^ 64 else n)

/-- `captureParams(multimap&)` (ndncert-client.cpp:59-73): one line per entry -/
def captureValues : MMap → Client → MMap × Client
  | [], c => ([], c)
  | e :: es, c =>
    let (l, c1) := c.getline
    let (es', c2) := captureValues es c1
    ((e.1, l) :: es', c2)

/-- `captureParams(vector)` (ndncert-client.cpp:75-84); the prompts stored first are overwritten, so they are left empty here -/
def captureKeys (keys : List Bytes) (c : Client) : MMap × Client :=
  captureValues (keys.foldl (fun m k => mmInsert k [] m) []) c

/-- `captureValidityPeriod` (ndncert-client.cpp:86-109): at most `tries` lines; `none` = exit(1) -/
def captureValidity : Nat → Client → Option Int × Client
  | 0, c => (none, c)
  | t + 1, c =>
    let (l, c1) := c.getline
    match stoul l with
    | some n => (some (toInt32 n), c1)
    | none => captureValidity t c1

/-- the index typed for the challenge (ndncert-client.cpp:248-269): at most `tries` lines; `none` = exit(1) -/
def captureIndex (count : Nat) : Nat → Client → Option Nat × Client
  | 0, c => (none, c)
  | t + 1, c =>
    let (l, c1) := c.getline
    match stoul l with
    | some n => if count ≤ n then captureIndex count t c1 else (some n, c1)
    | none => captureIndex count t c1

/-- `KeyChain::createKey(identity)`: draws a random key id until it is unused. The key becomes the default key if there is none.
`none`: the draws given do not contain an unused id. -/
def createKey (p : Pib) (id : Name) (draws : List Block) : Option (Name × Pib) :=
  match p.get id with
  | none => none
  | some e =>
    match draws.find? (fun b => !(e.keys.contains (id ++ [keyComponent, b]))) with
    | none => none
    | some b =>
      let k := id ++ [keyComponent, b]
      some (k, p.map (fun e => if e.name = id then { e with keys := e.keys ++ [k], dflt := some (e.dflt.getD k) } else e))

/-- the part of `KeyChain::createIdentity(name)` for an identity that does not exist: a new identity with one key -/
def createIdentity (p : Pib) (id : Name) (draws : List Block) : Option (Name × Pib) :=
  createKey (p ++ [⟨id, [], none⟩]) id draws

/-- `KeyChain::deleteIdentity` -/
def Pib.deleteIdentity (p : Pib) (id : Name) : Pib := p.filter (fun e => !(e.name == id))

/-- `KeyChain::deleteKey`: if the key was the default key, there is none afterwards -/
def Pib.deleteKey (p : Pib) (id k : Name) : Pib :=
  p.map (fun e => if e.name = id then
    { e with keys := e.keys.filter (fun x => !(x == k)), dflt := if e.dflt = some k then none else e.dflt } else e)

/-- the key is in the KeyChain -/
def Pib.has (p : Pib) (id k : Name) : Bool :=
  match p.get id with
  | some e => e.keys.contains k
  | none => false

/-- `captureKeyName` (ndncert-client.cpp:111-163) for an existing identity; `Sum.inl` = how the program ends.
With the draws exhausted the program is still in `createKey`; the model ends it with an exception. -/
def captureKeyName (c : Client) (e : IdEntry) (draws : List Block) : Client × (Ended ⊕ Name) :=
  let (l, c1) := c.getline
  if toLower l = (bytes! "new") then
    match createKey c1.pib e.name draws with
    | none => (c1, .inl (.threw .runtime))
    | some (k, pib) => ({ c1 with pib := pib, newKey := k }, .inr k)
  else match stoul l with
    | none => (c1, .inl (.exit 1))
    | some n =>
      match e.keys[n]? with
      | none => (c1, .inl (.exit 1))
      | some k => (c1, .inr k)

/-- the identity and its default key (ndncert-client.cpp:524-540): created where missing. Returns the entry of the identity
and the default key. -/
def prepareKey (c : Client) (id : Name) (draws : List Block) : Option (Client × IdEntry × Name) :=
  match c.pib.get id with
  | none =>
    match createIdentity c.pib id draws with
    | none => none
    | some (k, pib) => some ({ c with pib := pib, newIdentity := id }, ⟨id, [k], some k⟩, k)
  | some e =>
    match e.dflt with
    | some k => some (c, e, k)
    | none =>
      match createKey c.pib id draws with
      | none => none
      | some (k, pib) => some ({ c with pib := pib, newKey := k }, { e with keys := e.keys ++ [k], dflt := some k }, k)

/-- the clock value `now` plus `hours`, as 64-bit nanoseconds; `none` = signed overflow -/
def addHours (now : Time) (hours : Int) : Option Time :=
  let d := hours * 3600 * nsPerSec
  if -(2 ^ 63) ≤ d ∧ d < 2 ^ 63 ∧ -(2 ^ 63) ≤ now + d ∧ now + d < 2 ^ 63 then some (now + d) else none

/-- `runNew` from the construction of the request on (ndncert-client.cpp:521-558); `hours`: the period typed -/
def runNewWith (C : Crypto) (env : ClientEnv) (c : Client) (p : CaProfile) (id : Name) (hours : Int) : ClientOut :=
  let r : Request := { profile := p, type := .new, requestId := env.memId, ecdhPriv := env.ecdhPriv,
                       aesKey := env.memKey, nonce := env.memNonce }
  let c1 := { c with request := some r }
  match prepareKey c1 id env.keyIds with
  | none => { st := c1, ended := .threw .runtime }
  | some (c2, e, k) =>
    let (c3, chosen) := if c2.newIdentity = [] then captureKeyName c2 e env.keyIds2 else (c2, .inr k)
    match chosen with
    | .inl x => { st := c3, ended := x }
    | .inr key =>
      match addHours env.now hours with
      | none => { st := c3, ended := .ub .signedOverflow }
      | some na =>
        let (r1, res) := genNewInterest C r key env.now na env.version
        let c4 := { c3 with request := some r1 }
        match res with
        | .exc x => { st := c4, ended := .threw x }
        | .ub u => { st := c4, ended := .ub u }
        | .ok none => { st := { c4 with pending := none } }
        | .ok (some i) => { st := { c4 with pending := some .new }, acts := [.new p i] }

/-- `runNew` (ndncert-client.cpp:515-559) -/
def runNew (C : Crypto) (env : ClientEnv) (c : Client) (p : CaProfile) (id : Name) : ClientOut :=
  match captureValidity 3 c with
  | (none, c1) => { st := c1, ended := .exit 1 }
  | (some h, c1) => runNewWith C env c1 p id h

/-- the answers to the probe parameters of a profile, read once (ndncert-client.cpp:499-508). The value of the first
parameter called email is put in lower case. -/
def probeParams (c : Client) (p : CaProfile) : MMap × Client :=
  match c.captured with
  | some m => (m, c)
  | none =>
    let (m, c1) := captureKeys p.probeParameterKeys c
    let m' := match m.findIdx? (fun e => e.1 == (bytes! "email")) with
      | some i => m.modify i (fun e => (e.1, toLower e.2))
      | none => m
    (m', { c1 with captured := some m' })

/-- `runProbe` (ndncert-client.cpp:496-513). `genProbeInterest` takes an rvalue reference but does not move from it. -/
def runProbe (C : Crypto) (c : Client) (p : CaProfile) : ClientOut :=
  let (m, c1) := probeParams c p
  { st := { c1 with pending := some (.probe p) }, acts := [.probe p (genProbeInterest C p m)] }

/-- `extractIdentityFromCertName` (ndn-cxx): throws if the name is not a certificate name -/
def identityOfCertName (n : Name) : Res Name :=
  if isValidCertName n then .ok (n.take (n.length - 4)) else .exc .name

/-- `getPrefix(-1)` -/
def Name.parent (n : Name) : Name := n.take (n.length - 1)

/-- express the Interest for the metadata of a CA (ndncert-client.cpp:374-384, 483-493) -/
def runDiscovery (c : Client) (caName full : Name) : ClientOut :=
  match genDiscoveryName caName with
  | .ok n => { st := { c with pending := some (.discovery full) }, acts := [.discovery n] }
  | .exc e => { st := c, ended := .threw e }
  | .ub u => { st := c, ended := .ub u }

/-- callback of the metadata Interest (ndncert-client.cpp:376-382, 485-491) -/
def discoveryCb (c : Client) (full : Name) (d : Data) : ClientOut :=
  match genProfileName d with
  | .ok n => { st := { c with pending := some (.info full) }, acts := [.profile n] }
  | .exc e => { st := c, ended := .threw e }
  | .ub u => { st := c, ended := .ub u }

/-- the checks of `infoCb` inside its try block (ndncert-client.cpp:282-292) -/
def acceptProfile (C : Crypto) (c : Client) (full : Name) (d : Data) : Res CaProfile :=
  if full = [] then
    match c.trusted with
    | some t => if C.verifyData d t then onCaProfileResponse C d else .exc .runtime
    | none => onCaProfileResponse C d
  else onCaProfileResponseAfterRedirection C d full

/-- Printing the reply for the question whether the CA is trusted (ndncert-client.cpp:299-305) does not throw: the signature names its
key (303), and the certificate has a validity period, which `operator<<` for certificates prints (304). -/
def canShow (C : Crypto) (d : Data) (p : CaProfile) : Bool :=
  C.hasLocator d && (match p.cert with | some t => t.validity.isSome | none => false)

/-- `infoCb` (ndncert-client.cpp:278-323). If the profile cannot be used, the function returns and nothing is pending. -/
def infoCb (C : Crypto) (c : Client) (full : Name) (d : Data) : ClientOut :=
  match acceptProfile C c full d with
  | .exc _ => { st := { c with pending := none } }
  | .ub u => { st := c, ended := .ub u }
  | .ok p =>
    if c.trusted = none then
      if canShow C d p then
        let (l, c1) := c.getline
        if toLower l = (bytes! "yes") then
          (runProbe C { c1 with trusted := p.cert } p).after [.asked p l]
        else { st := c1, acts := [.asked p l], ended := .exit 0 }
      else { st := c, ended := .threw .tlv }
    else runProbe C c p

/-- the redirection chosen (ndncert-client.cpp:342-371); `Sum.inl` = how the program ends -/
def chooseRedirect (c : Client) (redirects : List Name) : Client × (Ended ⊕ Name) :=
  match redirects with
  | [] => (c, .inl (.exit 1))
  | [n] => (c, .inr n)
  | ns =>
    if ns.any (fun n => !isValidCertName n.parent) then (c, .inl (.threw .name))
    else
      let (l, c1) := c.getline
      match stoul l with
      | none => (c1, .inl (.exit 1))
      | some i =>
        match ns[i]? with
        | none => (c1, .inl (.exit 1))
        | some n => (c1, .inr n)

/-- the name chosen (ndncert-client.cpp:386-415); `none` = exit(1) -/
def chooseName (c : Client) (names : List (Name × Int)) : Client × Option Name :=
  match names with
  | [] => (c, none)
  | [n] => (c, some n.1)
  | ns =>
    let (l, c1) := c.getline
    match stoul l with
    | none => (c1, none)
    | some i => (c1, (ns[i]?).map (·.1))

/-- `probeCb` (ndncert-client.cpp:325-423) -/
def probeCb (C : Crypto) (env : ClientEnv) (c : Client) (p : CaProfile) (d : Data) : ClientOut :=
  match onProbeResponse C d p [] [] with
  | .exc _ => { st := c, ended := .exit 1 }
  | .ub u => { st := c, ended := .ub u }
  | .ok (names, redirects) =>
    if redirects ≠ [] then
      match chooseRedirect c redirects with
      | (c1, .inl x) => { st := c1, ended := x }
      | (c1, .inr full) =>
        match identityOfCertName full.parent with
        | .ok id => runDiscovery c1 id full
        | .exc e => { st := c1, ended := .threw e }
        | .ub u => { st := c1, ended := .ub u }
    else
      match chooseName c names with
      | (c1, none) => { st := c1, ended := .exit 1 }
      | (c1, some n) => runNew C env c1 p n

/-- `selectCaProfile` (ndncert-client.cpp:425-494), called once from `main` (651); `file`: the contents of the configuration file -/
def selectCaProfile (T : TextIO) (file : Bytes) (c : Client) : ClientOut :=
  match loadProfiles T file with
  | .exc _ => { st := c, ended := .exit 1 }
  | .ub u => { st := c, ended := .ub u }
  | .ok known =>
    let (l, c1) := c.getline
    if toLower l = (bytes! "none") then
      let (l2, c2) := c1.getline
      match T.nameOfUri l2 with
      | none => { st := c2, ended := .exit 1 }
      | some n => runDiscovery c2 n []
    else match stoul l with
      | none => { st := c1, ended := .exit 1 }
      | some i =>
        match known[i]? with
        | none => { st := c1, ended := .exit 1 }
        | some p => runDiscovery { c1 with trusted := p.cert } p.caPrefix []

/-- the parameters for a challenge (ndncert-client.cpp:573-583) given the keys asked for. For the email challenge the address is
the one typed for PROBE: `find` on the captured parameters is dereferenced without a check. -/
def challengeParams (c : Client) (r : Request) (ty : Bytes) (keys : List Bytes) : Client × Res MMap :=
  if keys = [] then (c, .ok [])
  else if r.status = .beforeChallenge ∧ ty = (bytes! "email") then
    match c.captured with
    | none => (c, .ub .nullDeref)
    | some m =>
      match mmFind m (bytes! "email") with
      | none => (c, .ub .endDeref)
      | some v =>
        match keys.findIdx? (fun k => k == ty) with
        | none => (c, .ub .endDeref)
        | some i => (c, .ok ((keys.map (fun k => (k, []))).modify i (fun e => (e.1, v))))
  else
    let (m, c1) := captureValues (keys.map (fun k => (k, []))) c
    (c1, .ok m)

/-- `runChallenge` (ndncert-client.cpp:561-588) for the request `r` the static pointer refers to -/
def runChallenge (C : Crypto) (env : ClientEnv) (c : Client) (r : Request) (ty : Bytes) : ClientOut :=
  let (r1, res) := selectOrContinueChallenge r ty
  let c1 := { c with request := some r1 }
  match res with
  | .exc _ => { st := c1, ended := .exit 1 }
  | .ub u => { st := c1, ended := .ub u }
  | .ok keys =>
    let (c2, params) := challengeParams c1 r1 ty keys
    match params with
    | .exc e => { st := c2, ended := .threw e }
    | .ub u => { st := c2, ended := .ub u }
    | .ok m =>
      let (r2, ires) := genChallengeInterest C r1 m env.rnd
      let c3 := { c2 with request := some r2 }
      match ires with
      | .exc e => { st := c3, ended := .threw e }
      | .ub u => { st := c3, ended := .ub u }
      | .ok i => { st := { c3 with pending := some .challenge }, acts := [.challenge r2.profile i] }

/-- `newCb` (ndncert-client.cpp:214-276) -/
def newCb (C : Crypto) (env : ClientEnv) (c : Client) (r : Request) (d : Data) : ClientOut :=
  let (r1, res) := onNewResponse C r d env.stack
  let c1 := { c with request := some r1 }
  match res with
  | .exc _ => { st := c1, ended := .exit 1 }
  | .ub u => { st := c1, ended := .ub u }
  | .ok challenges =>
    if challenges = [] then { st := c1, ended := .exit 1 }
    else if challenges.contains (bytes! "email") then runChallenge C env c1 r1 (bytes! "email")
    else match captureIndex challenges.length 3 c1 with
      | (none, c2) => { st := c2, ended := .exit 1 }
      | (some i, c2) => runChallenge C env c2 r1 (challenges[i]?.getD [])

/-- `challengeCb` (ndncert-client.cpp:193-212) -/
def challengeCb (C : Crypto) (env : ClientEnv) (c : Client) (r : Request) (d : Data) : ClientOut :=
  let (r1, res) := onChallengeResponse C r d env.now
  let c1 := { c with request := some r1 }
  match res with
  | .exc _ => { st := c1, ended := .exit 1 }
  | .ub u => { st := c1, ended := .ub u }
  | .ok () =>
    if r1.status = .success then
      let (n, hint) := genCertFetchInterest r1
      { st := { c1 with pending := some .fetch }, acts := [.fetch n hint] }
    else runChallenge C env c1 r1 r1.challengeType

/-- `certFetchCb` (ndncert-client.cpp:178-191); `wire`: the reply as a packet. `KeyChain::addCertificate` throws unless the
certificate has the name and the public key of the key. Then the event loop is stopped and `main` returns 0. -/
def certFetchCb (C : Crypto) (c : Client) (wire : Block) : ClientOut :=
  match onCertFetchResponse C wire with
  | .exc e => { st := c, ended := .threw e }
  | .ub u => { st := c, ended := .ub u }
  | .ok cert =>
    if c.pib.has cert.identity cert.keyName ∧ C.keyPub cert.keyName = cert.content ∧ cert.content ≠ none then
      { st := { c with pending := none }, acts := [.install cert], ended := .exit 0 }
    else { st := c, ended := .threw .runtime }

/-- `handleSignal` (ndncert-client.cpp:590-617): `getIdentity` and `getKey` throw if there is no such identity or key -/
def handleSignal (c : Client) : ClientOut :=
  if c.request = none then { st := c, ended := .exit 1 }
  else if c.newIdentity ≠ [] then
    match c.pib.get c.newIdentity with
    | none => { st := c, ended := .threw .runtime }
    | some _ => { st := { c with pib := c.pib.deleteIdentity c.newIdentity }, ended := .exit 1 }
  else if c.newKey ≠ [] then
    match identityOfKeyName c.newKey with
    | .ok id =>
      if c.pib.has id c.newKey then { st := { c with pib := c.pib.deleteKey id c.newKey }, ended := .exit 1 }
      else { st := c, ended := .threw .runtime }
    | .exc e => { st := c, ended := .threw e }
    | .ub u => { st := c, ended := .ub u }
  else { st := c, ended := .exit 1 }

/-- what can happen next: Data for the pending Interest (given decoded and as a packet), a Nack, a timeout, or SIGINT/SIGTERM.
Any Data is considered, also one that does not match the Interest. -/
inductive ClientEvent where
  | reply (d : Data) (wire : Block)
  | nack
  | timeout
  | signal
  deriving DecidableEq, Repr

/-- the callback for an event. `onNackCb`, `timeoutCb`: ndncert-client.cpp:165-176. Without a pending Interest there is no
callback, but the process goes on: it waits for signals (ndncert-client.cpp:622-625, 652). -/
def Client.step (C : Crypto) (env : ClientEnv) (c : Client) (e : ClientEvent) : ClientOut :=
  match e with
  | .signal => handleSignal c
  | .nack => if c.pending = none then { st := c } else { st := c, ended := .exit 1 }
  | .timeout => { st := { c with pending := none } }
  | .reply d wire =>
    match c.pending with
    | none => { st := c }
    | some (.discovery full) => discoveryCb c full d
    | some (.info full) => infoCb C c full d
    | some (.probe p) => probeCb C env c p d
    | some .new =>
      match c.request with
      | some r => newCb C env c r d
      | none => { st := c, ended := .ub .nullDeref }
    | some .challenge =>
      match c.request with
      | some r => challengeCb C env c r d
      | none => { st := c, ended := .ub .nullDeref }
    | some .fetch => certFetchCb C c wire

/-- one callback of a run: what happened, what the client did, and how the callback ended -/
structure ClientStep where
  event : ClientEvent
  env : ClientEnv
  acts : List Act
  ended : Ended

/-- A run of the client: `main` (ndncert-client.cpp:651-652) on the given configuration file, input and KeyChain, and then the
callbacks as long as the program runs. `first` is what `selectCaProfile` did, `h` the callbacks, `c` the state after them and `x`
how the last one ended. -/
inductive ClientRun (C : Crypto) (T : TextIO) (file : Bytes) (pib : Pib) (stdin : List Bytes) :
    List Act → List ClientStep → Client → Ended → Prop
  | start (o : ClientOut) (eq : selectCaProfile T file { pib := pib, stdin := stdin } = o) :
      ClientRun C T file pib stdin o.acts [] o.st o.ended
  | step {first : List Act} {h : List ClientStep} {c : Client} (e : ClientEvent) (env : ClientEnv)
      (run : ClientRun C T file pib stdin first h c .going) (o : ClientOut) (eq : c.step C env e = o) :
      ClientRun C T file pib stdin first (h ++ [⟨e, env, o.acts, o.ended⟩]) o.st o.ended

end Ndncert
