import Verif.Model.Requester
import Verif.Spec.Ca
import Verif.Spec.History

/-! # Sessions: a requester and a CA exchanging messages

Each turn of a session is one Interest of the requester, the CA's handling of it and the requester's handling of the reply.
A session fails as soon as anything in it throws, is undefined, or the CA does not answer with exactly one Data packet.
It dies if a message of somebody else ends the CA process. -/

namespace Ndncert

variable {σ : Type}

/-- what a turn depends on besides the states of the two parties -/
structure Turn where
  /-- messages of other parties which the CA handles before the one of this turn -/
  others : List (Msg × Env) := []
  /-- surroundings of the CA's handler -/
  env : Env
  /-- random octets drawn by the requester -/
  rnd : Bytes := []
  /-- the requester's clock when the reply arrives -/
  clock : Time := 0

/-- eight random octets, and a clock between the years 1970 and 2255 (the clock type ends in 2262) -/
def Turn.Wf (t : Turn) : Prop := t.rnd.length = 8 ∧ 0 ≤ t.clock ∧ t.clock < 9000000000 * 1000000000

/-- the CA after handling messages one after the other -/
def serve (C : Crypto) (S : StoreI σ) (cfg : CaConfig) (s : CaState σ) : List (Msg × Env) → CaState σ
  | [] => s
  | (m, env) :: ms => serve C S cfg { s with store := applyEffects S s.store (handle C S cfg s m env).effects } ms

/-- the CA handles these messages without its process being ended by one of them -/
def survives (C : Crypto) (S : StoreI σ) (cfg : CaConfig) (s : CaState σ) : List (Msg × Env) → Bool
  | [] => true
  | (m, env) :: ms => decide ((handle C S cfg s m env).term = .done) &&
      survives C S cfg { s with store := applyEffects S s.store (handle C S cfg s m env).effects } ms

/-- how a run of two parties ends: the CA process was ended by somebody else, something failed, or it went well -/
inductive Ran (α : Type) where
  | died
  | failed
  | ok (a : α)

/-- the CA handles one message and answers it: its next state, what it did, and the reply -/
def answer (C : Crypto) (S : StoreI σ) (cfg : CaConfig) (s : CaState σ) (m : Msg) (env : Env) :
    Option (CaState σ × List Effect × Data) :=
  let o := handle C S cfg s m env
  match o.term, sent o.effects with
  | .done, [d] => some ({ s with store := applyEffects S s.store o.effects }, o.effects, d)
  | _, _ => none

/-- the states of the two parties, and what the CA did for this requester so far -/
structure Session (σ : Type) where
  requester : Request
  ca : CaState σ
  done : List Effect := []

/-- NEW: `genNewInterest`, the CA, `onNewRenewRevokeResponse`; the challenges offered by the CA are the second component -/
def newTurn (C : Crypto) (S : StoreI σ) (cfg : CaConfig) (x : Session σ) (key : Name) (nb na : Time) (version : Block) (stack : Bytes)
    (t : Turn) : Option (Session σ × List Bytes) :=
  let s := serve C S cfg x.ca t.others
  match genNewInterest C x.requester key nb na version with
  | (q, .ok (some i)) =>
    match answer C S cfg s (.new i) t.env with
    | some (s', es, d) =>
      match onNewResponse C q d stack with
      | (q', .ok offered) => some (⟨q', s', x.done ++ es⟩, offered)
      | _ => none
    | none => none
  | _ => none

/-- CHALLENGE: `selectOrContinueChallenge`, the user types `typed` for each parameter asked for, `genChallengeInterest`,
the CA, `onChallengeResponse`; the CA survives the messages of others -/
def challengeTurn (C : Crypto) (S : StoreI σ) (cfg : CaConfig) (x : Session σ) (selected typed : Bytes) (t : Turn) : Option (Session σ) :=
  let s := serve C S cfg x.ca t.others
  match selectOrContinueChallenge x.requester selected with
  | (q, .ok keys) =>
    match genChallengeInterest C q (keys.map fun k => (k, typed)) t.rnd with
    | (q', .ok i) =>
      match answer C S cfg s (.challenge i) t.env with
      | some (s', es, d) =>
        match onChallengeResponse C q' d t.clock with
        | (q'', .ok ()) => some ⟨q'', s', x.done ++ es⟩
        | _ => none
      | none => none
    | _ => none
  | _ => none

/-- several CHALLENGE turns -/
def challengeTurns (C : Crypto) (S : StoreI σ) (cfg : CaConfig) (selected : Bytes) : Session σ → List (Bytes × Turn) → Ran (Session σ)
  | x, [] => .ok x
  | x, (typed, t) :: rest =>
    if survives C S cfg x.ca t.others then
      match challengeTurn C S cfg x selected typed t with
      | some y => challengeTurns C S cfg selected y rest
      | none => .failed
    else .died

/-- no message is a CHALLENGE signed with the key `pub`; all are well formed -/
def Foreign (C : Crypto) (cfg : CaConfig) (pub : Bytes) (ms : List (Msg × Env)) : Prop :=
  ∀ x ∈ ms, x.1.Wf cfg ∧ x.2.Wf ∧ ∀ i, x.1 = .challenge i → ∀ c : Cert, c.content = some pub → C.verifyInterest i c = false

/-- A fresh requester with the key `id ++ [KEY, keyId]`, whose public part is `pub`, is about to apply for a certificate
valid from `nb` to `na`, and the CA's policy admits that:
* the requester uses the profile of this CA, with the CA's key;
* the name is below the CA's prefix, within the suffix limit;
* the period has at least two seconds and lies within the CA's limits;
* the CA's own certificate is valid;
* no request of the same name is pending;
* the two messages are of sizes that TLV can express. -/
structure Admissible (C : Crypto) (S : StoreI σ) (cfg : CaConfig) (x : Session σ) (id : Name) (keyId : Block) (pub : Bytes) (nb na : Time)
    (version : Block) (env : Env) : Prop where
  pre : x.requester.profile.caPrefix = cfg.profile.caPrefix
  caKey : ∃ c, x.requester.profile.cert = some c ∧ c.content = some (C.idPub cfg.profile.caPrefix)
  fresh : x.requester.status = .beforeChallenge ∧ x.requester.challengeStatus = [] ∧ x.requester.encryptionIv = [] ∧
    x.requester.decryptionIv = [] ∧ x.requester.requestId.length = 8
  key : C.keyPub (id ++ [keyComponent, keyId]) = some pub
  below : cfg.profile.caPrefix <+: id ∧ cfg.profile.caPrefix.length < id.length ∧
    ∀ k, cfg.profile.maxSuffixLength = some k → id.length ≤ cfg.profile.caPrefix.length + k
  period : 0 ≤ nb ∧ env.now - 120 * 1000000000 ≤ nb ∧ nb + 2 * 1000000000 ≤ na ∧
    na ≤ env.now + cfg.profile.maxValidityPeriod * 1000000000 ∧ na < 2 ^ 37 * 1000000000
  caValid : CaCertValid env
  notPending : S.view x.ca.store (idFor C x.ca.idKey (id ++ [keyComponent, keyId] ++ [gcomp (bytes! "cert-request"), version])) = none
  keySize : NameFits (id ++ [keyComponent, keyId])
  certSize : NameFits (id ++ [keyComponent, keyId] ++ [gcomp (bytes! "cert-request"), version])
  newSize : ∀ i b, (genNewInterest C x.requester (id ++ [keyComponent, keyId]) nb na version).2 = .ok (some i) → i.params = some b → b.val.length < 2 ^ 64
  replySize : ∀ rid : RequestId, rid.length = 8 →
    (requestEncode (C.ecdhPub env.ecdhPriv) env.salt rid cfg.profile.supportedChallenges).val.length < 2 ^ 64

/-- these turns follow one upon another, each before the code of challenge `k` expires: the CA's clock does not go back,
and a turn is handled less than the lifetime after the previous one was (the storage may have rounded that instant by up
to a microsecond). The requester draws eight octets; others do not sign with the requester's key. -/
def InTime (C : Crypto) (cfg : CaConfig) (pub : Bytes) (k : ChalKind) : Env → List Turn → Prop
  | _, [] => True
  | prev, t :: ts => Foreign C cfg pub t.others ∧ t.env.Wf ∧ t.Wf ∧ prev.nowStore ≤ t.env.now ∧
      t.env.now - prev.nowStore + 1000 ≤ secretLifetime k ∧ InTime C cfg pub k t.env ts

end Ndncert
