import Verif.Spec.RequestObject
import Verif.Spec.History
import Verif.Spec.Face

/-! # Vocabulary for the agreement of a program and the CA across a network nobody controls

The network may lose, delay, repeat, reorder and invent packets. What it cannot do is said here: forge signatures of the CA, find two Interests
with the same digest, or open what was sealed with another key. -/

namespace Ndncert

variable {σ : Type}

/-- the message came to the callback whose filter matches the name of the Interest (C84) -/
def Msg.Dispatched (cfg : CaConfig) (m : Msg) : Prop :=
  ∃ hd : Handler, hd.msg m.interest = some m ∧ hd.For cfg.profile m.interest.name

/-- the program passes `d` to its `Request` object as the reply to the Interest `j`, when the history of the CA is `h` -/
structure Delivered (C : Crypto) (cfg : CaConfig) (h : List (Step σ)) (cert : Cert) (j : Interest) (d : Data) : Prop where
  /-- a Face passes on Data with the name of the Interest -/
  named : d.name = j.name
  /-- only the CA signs with the key of its certificate, and what it signs under a name that ends with a digest of parameters (component
  type 2) are the replies of its callbacks; certificates, profile and metadata end with a version or a segment number -/
  signed : C.verifyData d cert = true → (∃ n digest, d.name = n ++ [⟨2, digest⟩]) → ∃ n ∈ h, d ∈ sent n.effects
  dispatched : ∀ n ∈ h, ∀ m env, n.Handles m env → m.Dispatched cfg
  /-- the name of an Interest with parameters ends with a digest of parameters and signature: an Interest with the name of `j` is `j` -/
  digest : ∀ n ∈ h, ∀ m env, n.Handles m env → m.interest.name = j.name → m.interest = j

/-- authenticated encryption: what is sealed with the key of a request the CA accepted, for that request, is opened only with the same key
for the same request -/
def OpensOnlyOwn (C : Crypto) (h : List (Step σ)) (key : Bytes) (id : RequestId) : Prop :=
  ∀ n ∈ h, ∀ r, .dbAdd r ∈ n.effects → ∀ iv pt, C.aesDec key iv id (C.aesEnc r.encryptionKey iv r.requestId pt).1 (C.aesEnc r.encryptionKey iv r.requestId pt).2 ≠ none →
    r.encryptionKey = key ∧ r.requestId = id

/-- this call made a NEW or REVOKE Interest -/
def Called.Asks (n : Called) (j : Interest) : Prop :=
  ((∃ key nb na version, n.call = .genNew key nb na version) ∨ ∃ cert, n.call = .genRevoke cert) ∧ n.result = .ok (.interest j)

/-- this call passed a reply to CHALLENGE to the object, which accepted it -/
def Called.AcceptsChallengeReply (n : Called) (d : Data) : Prop := (∃ now, n.call = .onChallenge d now) ∧ ∃ x, n.result = .ok x

/-- what the CA did in the step in which it answered the CHALLENGE `j` for the pending request `r`, and what the object `q` has after the reply -/
inductive SameOutcome (C : Crypto) (cfg : CaConfig) (n : Step σ) (env : Env) (r : RequestState) (q : Request) : Prop where
  /-- the certificate was issued under the name the object has -/
  | issued (c : Cert) (type : r.requestType ≠ .revoke) (signs : .issue c ∈ n.effects) (reissues : Reissues C cfg env.version r.cert c)
      (status : q.status = .success) (name : q.issuedCertName = c.name) (hint : q.forwardingHint = cfg.profile.forwardingHint)
  /-- the revocation is complete -/
  | revoked (type : r.requestType = .revoke) (removed : .dbDelete r.requestId ∈ n.effects) (status : q.status = .success)
  /-- the challenge goes on, with the challenge status and the tries the CA stored -/
  | continued (r1 : RequestState) (cs : ChallengeState) (stored : .dbUpdate r1 ∈ n.effects) (same : r1.requestId = r.requestId)
      (waits : r1.status = .challenge) (state : r1.challengeState = some cs) (status : q.status = .challenge)
      (challengeStatus : q.challengeStatus = cs.challengeStatus) (tries : q.remainingTries = cs.remainingTries)

end Ndncert
