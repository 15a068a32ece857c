import Verif.Spec.Challenge

/-! # Vocabulary for executions of the CA -/

namespace Ndncert

variable {σ : Type}

/-- the step processed this message, in these surroundings (possibly only partly, if it was killed) -/
def Step.Handles (n : Step σ) (m : Msg) (env : Env) : Prop := n.event.msg? = some (m, env)

/-- the step accepted a NEW Interest, creating the pending request `r` -/
def AcceptsNew (n : Step σ) (i : Interest) (env : Env) (r : RequestState) : Prop :=
  n.Handles (.new i) env ∧ .dbAdd r ∈ n.effects

/-- the step accepted a REVOKE Interest, creating the pending request `r` -/
def AcceptsRevoke (n : Step σ) (i : Interest) (env : Env) (r : RequestState) : Prop :=
  n.Handles (.revoke i) env ∧ .dbAdd r ∈ n.effects

/-- none of the steps removes the request with this id or creates another one with it -/
def Kept (id : RequestId) (h : List (Step σ)) : Prop :=
  ∀ n ∈ h, .dbDelete id ∉ n.effects ∧ ∀ r, .dbAdd r ∈ n.effects → r.requestId ≠ id

/-- the step processed a CHALLENGE Interest that is authentic for the pending request `r` and whose parameters decrypt to
the elements `es`, which select the challenge `k` -/
structure Challenges (C : Crypto) (S : StoreI σ) (cfg : CaConfig) (n : Step σ) (i : Interest) (env : Env) (r : RequestState)
    (es : List Block) (k : ChalKind) : Prop where
  handles : n.Handles (.challenge i) env
  authentic : Authentic C S cfg n.pre.store i env r
  selects : Selects C i r es k

/-- the step started challenge `k` for the pending request `r`, which had none -/
structure StartsChallenge (C : Crypto) (S : StoreI σ) (cfg : CaConfig) (n : Step σ) (i : Interest) (env : Env) (r : RequestState)
    (k : ChalKind) : Prop where
  challenges : ∃ es, Challenges C S cfg n i env r es k
  before : r.status = .beforeChallenge
  stored : ∃ r1, .dbUpdate r1 ∈ n.effects ∧ r1.requestId = r.requestId ∧ r1.challengeType = k.chalType

/-- the elements of a CHALLENGE carry the answer to challenge `k` as it was started in the surroundings `env`:
the code generated then, or a signature over the nonce generated then, valid under a credential certified by one of
the trust anchors configured then, which is a certificate -/
inductive Answered (C : Crypto) (env : Env) (k : ChalKind) (es : List Block) : Prop where
  | code (hk : k = .pin ∨ k = .email) (h : Gives es (secretCode env.word32))
  | proof (hk : k = .possession) (anchors : List Cert) (cred : Cert) (p : Bytes) (ha : env.anchors = .ok anchors)
      (hcred : C.decodeCert cred.wire = some cred) (hc : Certified C anchors cred) (hp : GivesProof es p) (hv : C.verifyRaw env.nonce p (cred.content.getD []) = true)

/-- the certificate is `cert` reissued by the CA: key name, public key and validity period of `cert`, issuer NDNCERT, some
version, signed by the CA identity -/
def Reissues (C : Crypto) (cfg : CaConfig) (version : Block) (cert c : Cert) : Prop :=
  c.name = keyNameOf cert.name ++ [gcomp (bytes! "NDNCERT"), version] ∧
  ∃ content period, cert.content = some content ∧ c.content = some content ∧
    cert.validity = some period ∧ c.validity = some period ∧
    C.signCert cfg.profile.caPrefix c.name content period = (c.wire, c.keyLocator.getD [], c.digest) ∧ c.keyLocator ≠ none

/-- no handler of these steps takes more than `d` between its clock readings -/
def Quick (d : Int) (h : List (Step σ)) : Prop :=
  ∀ n ∈ h, ∀ m env, n.Handles m env → env.nowStore ≤ env.now + d

/-- the last of these steps that wrote the request with this id to the storage processed a CHALLENGE in these surroundings -/
def LastUpdate (id : RequestId) (h : List (Step σ)) (env : Env) : Prop :=
  ∃ h1 n h2 i, h = h1 ++ n :: h2 ∧ n.Handles (.challenge i) env ∧ (∃ r, .dbUpdate r ∈ n.effects ∧ r.requestId = id) ∧
    ∀ m ∈ h2, ∀ r, .dbUpdate r ∈ m.effects → r.requestId ≠ id

/-- the certificates handed out: those signed in steps in which a Data packet was sent -/
def handedOut (h : List (Step σ)) : List Cert :=
  (h.filter (fun n => decide (sent n.effects ≠ []))).flatMap (fun n => issued n.effects)

/-- the step accepted a NEW -/
def Step.acceptsNew (n : Step σ) : Bool :=
  match n.event.msg? with
  | some (.new _, _) => n.effects.any (fun e => match e with | .dbAdd _ => true | _ => false)
  | _ => false

/-- the step answered an attempt on the challenge of the request with this id: a CHALLENGE authentic for the request, whose
challenge was already started -/
def AnswersAttempt (C : Crypto) (S : StoreI σ) (cfg : CaConfig) (id : RequestId) (n : Step σ) : Prop :=
  ∃ i env r, n.Handles (.challenge i) env ∧ Authentic C S cfg n.pre.store i env r ∧ r.requestId = id ∧
    r.status ≠ .beforeChallenge ∧ sent n.effects ≠ []

/-- the step did nothing but send an error reply to the Interest -/
def OnlyError (C : Crypto) (cfg : CaConfig) (i : Interest) (o : Outcome) : Prop :=
  ∃ code d, IsErrorReply C cfg i code d ∧ o = ⟨[.put d], .done⟩

end Ndncert
