import Verif.Spec.Names
import Verif.Spec.Number
import Verif.Model.Client

/-! # Specification of the command line client -/

namespace Ndncert

/-- the client did this in the history -/
def Did (h : List ClientStep) (a : Act) : Prop := ∃ n ∈ h, a ∈ n.acts

/-- this reply arrived in the history -/
def Received (h : List ClientStep) (d : Data) : Prop := ∃ n ∈ h, ∃ w, n.event = .reply d w

/-- The ways in which a CA profile comes to be trusted, given the profiles `known` of the configuration file. -/
inductive TrustedProfile (C : Crypto) (known : Profiles) (h : List ClientStep) : CaProfile → Prop
  /-- it came in a reply that verifies under the certificate of a configured CA -/
  | configured {d : Data} {q p : CaProfile} {t : Cert} (received : Received h d) (mem : q ∈ known) (cert : q.cert = some t)
      (verified : C.verifyData d t = true) (decoded : infoDecode C d.content = .ok p) : TrustedProfile C known h p
  /-- the user was asked about it and typed yes -/
  | user {p : CaProfile} {answer : Bytes} (asked : Did h (.asked p answer)) (yes : toLower answer = (bytes! "yes")) :
      TrustedProfile C known h p
  /-- the full name of its certificate was announced in a PROBE reply that verifies under the certificate of a trusted CA to which
  PROBE was sent, and it came in a reply that verifies under that certificate -/
  | redirected {q p : CaProfile} {i : Interest} {d d2 : Data} {t c : Cert} {names : List (Name × Int)} {redirects : List Name}
      (trusted : TrustedProfile C known h q) (sent : Did h (.probe q i)) (received : Received h d)
      (cert : q.cert = some t) (verified : C.verifyData d t = true)
      (decoded : probeDecode d.content [] [] = .ok (names, redirects)) (announced : fullNameOf c ∈ redirects)
      (received2 : Received h d2) (decoded2 : infoDecode C d2.content = .ok p) (cert2 : p.cert = some c)
      (verified2 : C.verifyData d2 c = true) : TrustedProfile C known h p

/-- the CA an act is directed to -/
def Act.ca : Act → Option CaProfile
  | .probe p _ => some p
  | .new p _ => some p
  | .challenge p _ => some p
  | _ => none

/-- sizes of what the environment delivers: fixed size arrays and eight random octets -/
structure ClientEnv.Wf (env : ClientEnv) : Prop where
  rnd : env.rnd.length = 8
  memId : env.memId.length = 8
  stack : env.stack.length = 32

/-- an element of a NEW reply that does not fit the fixed size arrays -/
def TooLong (e : Block) : Prop := (e.typ = T.Salt ∧ 32 < e.val.length) ∨ (e.typ = T.RequestId ∧ 8 < e.val.length)

/-- the instant `n` seconds after `now`, both in nanoseconds, is within the 64 bits of the clock type; `n` is taken as a signed number -/
def DeadlineFits (now : Time) (n : Nat) : Prop :=
  ∃ s : Int, (s = n ∧ n < 2 ^ 63 ∨ s = n - 2 ^ 64 ∧ 2 ^ 63 ≤ n) ∧ -(2 ^ 63) ≤ s * 1000000000 ∧ s * 1000000000 < 2 ^ 63 ∧
    -(2 ^ 63) ≤ now + s * 1000000000 ∧ now + s * 1000000000 < 2 ^ 63

/-- the instant `hours` hours after `now`, and the number of nanoseconds between them, are within the 64 bits of the clock type -/
def HoursFit (now : Time) (hours : Int) : Prop :=
  -(2 ^ 63) ≤ hours * 3600 * 1000000000 ∧ hours * 3600 * 1000000000 < 2 ^ 63 ∧
    -(2 ^ 63) ≤ now + hours * 3600 * 1000000000 ∧ now + hours * 3600 * 1000000000 < 2 ^ 63

/-- the CA to which a PROBE is sent -/
def Act.probed : Act → Option CaProfile
  | .probe p _ => some p
  | _ => none

/-- the profile of the CA to which the first PROBE of the history was sent -/
def firstProbe (h : List ClientStep) : Option CaProfile :=
  (h.flatMap ClientStep.acts).findSome? Act.probed

/-- the causes of undefined behaviour in a callback of the client -/
inductive UbCause (C : Crypto) (env : ClientEnv) (h : List ClientStep) (c : Client) (d : Data) : Ub → Prop
  /-- a CA profile without certificate -/
  | noCertificate {full : Name} {p : CaProfile} (pending : c.pending = some (.info full))
      (decoded : infoDecode C d.content = .ok p) (cert : p.cert = none) : UbCause C env h c d .nullDeref
  /-- a NEW reply signed by the CA with a salt or a request id that is too long -/
  | tooLong {r : Request} {t : Cert} {es : List Block} {e : Block} (pending : c.pending = some .new) (request : c.request = some r)
      (cert : r.profile.cert = some t) (verified : C.verifyData d t = true) (elements : d.content.elements = .ok es)
      (mem : e ∈ es) (long : TooLong e) : UbCause C env h c d .overflow
  /-- the email challenge although the first CA asked did not ask for an address -/
  | noAddress {p : CaProfile} (pending : c.pending = some .new ∨ c.pending = some .challenge) (first : firstProbe h = some p)
      (key : (bytes! "email") ∉ p.probeParameterKeys) : UbCause C env h c d .endDeref
  /-- a CHALLENGE reply signed by the CA, decrypting with the key of the request, with so long a remaining time that the deadline is
  beyond the range of the clock -/
  | deadline {r : Request} {t : Cert} {pt : Bytes} {es : List Block} {e : Block} {n : Nat} (pending : c.pending = some .challenge)
      (request : c.request = some r) (cert : r.profile.cert = some t) (verified : C.verifyData d t = true)
      (decrypted : (decodeAes C d.content r.aesKey r.requestId r.decryptionIv r.encryptionIv).2 = .ok pt) (elements : parse pt = .ok es)
      (mem : e ∈ es) (typ : e.typ = T.RemainingTime) (number : readNni e = .ok n) (long : ¬ DeadlineFits env.now n) :
      UbCause C env h c d .signedOverflow
  /-- the validity period typed overflows the clock -/
  | hours {p : CaProfile} {line : Bytes} {n : Nat} (pending : c.pending = some (.probe p)) (typed : line ∈ c.stdin)
      (number : StandsFor line n) (overflow : ¬ HoursFit env.now (asSigned32 n)) : UbCause C env h c d .signedOverflow

/-- A CHALLENGE reply for the request `r` that the client accepted: it arrived, verifies under the certificate of a trusted CA, and
its content decrypts with the key of the request to these elements. -/
structure AcceptedReply (C : Crypto) (known : Profiles) (h : List ClientStep) (r : Request) (d : Data) (es : List Block) : Prop where
  trusted : TrustedProfile C known h r.profile
  received : Received h d
  verified : ∃ t, r.profile.cert = some t ∧ C.verifyData d t = true
  decrypted : ∃ div eiv pt, (decodeAes C d.content r.aesKey r.requestId div eiv).2 = .ok pt ∧ parse pt = .ok es

/-- the certificate name announced by a decrypted CHALLENGE reply -/
def AnnouncesCert (es : List Block) (n : Name) : Prop :=
  ∃ item ∈ es, item.typ = T.IssuedCertName ∧ ∃ b, item.blockFromValue = .ok b ∧ nameOfBlock b = .ok n

/-- the NEW Interest asks for a certificate with this validity period -/
def AsksFor (C : Crypto) (i : Interest) (v : Time × Time) : Prop :=
  ∃ pub key name content, i.params = some (requestParamsEncode .new pub (keySignedCert C key name content v))

/-- the lines typed for the validity period: those after the line that selects a name, which is asked for only if the PROBE reply
does not offer exactly one name -/
def hoursLines (names : List (Name × Int)) (lines : List Bytes) : List Bytes :=
  if names.length = 1 then lines else lines.tail

/-- the name to apply for: the only one offered, or the one whose number is typed in the next line -/
inductive Chosen (names : List (Name × Int)) (lines : List Bytes) : Name → Prop
  | only {n : Name} {k : Int} (offered : names = [(n, k)]) : Chosen names lines n
  | typed {n : Name} {k : Int} {line : Bytes} {rest : List Bytes} {j : Nat} (several : names.length ≠ 1) (next : lines = line :: rest)
      (number : StandsFor line j) (offered : names[j]? = some (n, k)) : Chosen names lines n

/-- the NEW Interest asks the CA `ca` for a certificate for a key of this identity: it is named `<ca>/CA/NEW` (and the digest of its
parameters), it carries a certificate request named `<identity>/KEY/<key id>/cert-request/<version>` with the public key of that key, signed
with it, and it is signed with that key itself -/
def AppliesFor (C : Crypto) (ca : Name) (i : Interest) (identity : Name) : Prop :=
  ∃ pub keyId version content period params digest, C.keyPub (identity ++ [keyComponent, keyId]) = some content ∧
    params = requestParamsEncode .new pub (keySignedCert C (identity ++ [keyComponent, keyId])
      (identity ++ [keyComponent, keyId] ++ [gcomp (bytes! "cert-request"), version]) content period) ∧
    i.params = some params ∧ i.name = ca ++ [gcomp (bytes! "CA"), gcomp (bytes! "NEW"), digest] ∧
    i.sig = C.keySignInterest (identity ++ [keyComponent, keyId]) (ca ++ [gcomp (bytes! "CA"), gcomp (bytes! "NEW")]) params

/-- a KeyChain whose keys are named after their identities, and whose default keys are among the keys -/
def Pib.Sound (p : Pib) : Prop :=
  ∀ e ∈ p, (∀ k ∈ e.keys, ∃ b, k = e.name ++ [keyComponent, b]) ∧ ∀ k, e.dflt = some k → k ∈ e.keys

/-- a decrypted CHALLENGE reply says, once, that the request is in this status -/
def TellsOnce (es : List Block) (s : Status) : Prop :=
  ∃ b, es.filter (fun e => e.typ == T.Status) = [b] ∧ statusFromBlock b = .ok s

/-- the challenges a NEW reply offers -/
def Offers (d : Data) (challenges : List Bytes) : Prop :=
  ∃ es, d.content.elements = .ok es ∧ challenges = (es.filter (fun e => e.typ == T.Challenge)).map Block.val

/-- the challenge to take: email if it is offered, otherwise the one whose number is typed in one of the next three lines, the lines
before it being no such numbers; `rest` are the lines left -/
inductive Picked (challenges lines : List Bytes) : Bytes → List Bytes → Prop
  | email (offered : (bytes! "email") ∈ challenges) : Picked challenges lines (bytes! "email") lines
  | typed {skipped rest : List Bytes} {line ty : Bytes} {j : Nat} (notOffered : (bytes! "email") ∉ challenges)
      (next : lines = skipped ++ line :: rest) (tries : skipped.length ≤ 2) (number : StandsFor line j) (offered : challenges[j]? = some ty)
      (no : ∀ l ∈ skipped, ∀ k, StandsFor l k → challenges[k]? = none) : Picked challenges lines ty rest

/-- what the client says in a CHALLENGE, given the status and challenge status the CA reported, the lines not read yet and the
answers given to the PROBE questions -/
inductive Says (status : Status) (challengeStatus : Bytes) (lines : List Bytes) (answers : Option MMap) : ChalKind → List Block → Prop
  | pin (start : status = .beforeChallenge) :
      Says status challengeStatus lines answers .pin [binBlock T.SelectedChallenge (bytes! "pin")]
  | email {m : MMap} {address : Bytes} (start : status = .beforeChallenge) (asked : answers = some m) (mem : ((bytes! "email"), address) ∈ m) :
      Says status challengeStatus lines answers .email [binBlock T.SelectedChallenge (bytes! "email"),
        binBlock T.ParameterKey (bytes! "email"), binBlock T.ParameterValue address]
  | credential {b : Block} (start : status = .beforeChallenge) (typed : blockOfBytes (lines.headD []) = .ok b) :
      Says status challengeStatus lines answers .possession [binBlock T.SelectedChallenge (bytes! "Possession"),
        binBlock T.ParameterKey (bytes! "issued-cert"), mkBlock T.ParameterValue [b]]
  | code {k : ChalKind} (kind : k = .pin ∨ k = .email) (going : status = .challenge)
      (wanted : challengeStatus = (bytes! "need-code") ∨ challengeStatus = (bytes! "wrong-code")) :
      Says status challengeStatus lines answers k [binBlock T.SelectedChallenge k.regName,
        binBlock T.ParameterKey (bytes! "code"), binBlock T.ParameterValue (lines.headD [])]
  | proof (going : status = .challenge) (wanted : challengeStatus = (bytes! "need-proof")) :
      Says status challengeStatus lines answers .possession [binBlock T.ParameterKey (bytes! "proof"), binBlock T.ParameterValue (lines.headD [])]

/-- the Interest carries these parameters, in this order -/
def CarriesAnswers (i : Interest) (answers : MMap) : Prop :=
  i.params = some (mkBlock T.ApplicationParameters (answers.flatMap fun a => [binBlock T.ParameterKey a.1, binBlock T.ParameterValue a.2]))

/-- the CHALLENGE Interest is for this request and carries these elements, encrypted under its key -/
structure SentFor (C : Crypto) (r : Request) (i : Interest) (es : List Block) : Prop where
  name : ∃ digest, i.name = r.profile.caPrefix ++ [gcomp (bytes! "CA"), gcomp (bytes! "CHALLENGE"), gcomp r.requestId, digest]
  params : ∃ iv, 12 ≤ iv.length ∧ i.params = some (mkBlock T.ApplicationParameters
    [binBlock T.InitializationVector iv,
     binBlock T.AuthenticationTag (C.aesEnc r.aesKey (iv.take 12) r.requestId (encodeAll es)).2,
     binBlock T.EncryptedPayload (C.aesEnc r.aesKey (iv.take 12) r.requestId (encodeAll es)).1])

/-- a KeyChain: identities have different names, and a default key is one of the keys -/
structure Pib.Wf (p : Pib) : Prop where
  names : (p.map IdEntry.name).Nodup
  dflt : ∀ e ∈ p, ∀ k, e.dflt = some k → k ∈ e.keys

/-- every identity and key of `p` is in `q`, with the same default key -/
def Pib.Kept (p q : Pib) : Prop :=
  ∀ e ∈ p, ∃ e' ∈ q, e'.name = e.name ∧ (∀ k ∈ e.keys, k ∈ e'.keys) ∧ ∀ k, e.dflt = some k → e'.dflt = some k

/-- Play callbacks from a point of a run, given the history so far: the history and the last outcome, or `none` if the program
ended before the last callback. Used for examples. -/
def playClient (C : Crypto) (o : ClientOut) (h : List ClientStep) : List (ClientEvent × ClientEnv) → Option (List ClientStep × ClientOut)
  | [] => some (h, o)
  | (e, env) :: es =>
    if o.ended = .going then
      playClient C (o.st.step C env e) (h ++ [⟨e, env, (o.st.step C env e).acts, (o.st.step C env e).ended⟩]) es
    else none

end Ndncert
