import Verif.Spec.History
import Verif.Spec.Run

/-! # Emails sent over a history (C142, C143) -/

namespace Ndncert

variable {σ : Type}

/-- the emails sent over a history -/
def allMails (h : List (Step σ)) : List Mail := h.flatMap fun n => mailed n.effects

/-- the step accepted a NEW or REVOKE -/
def Step.accepts (n : Step σ) : Bool := n.effects.any fun e => match e with | .dbAdd _ => true | _ => false

/-- the process died in this step, while it handled a CHALLENGE and before it sent the reply -/
def Step.died (n : Step σ) : Bool :=
  match n.event with
  | .crash (.challenge _) _ _ _ => (sent n.effects).isEmpty
  | _ => false

/-- the step sent an email for the request with this id -/
def MailsFor (C : Crypto) (S : StoreI σ) (cfg : CaConfig) (id : RequestId) (n : Step σ) : Prop :=
  mailed n.effects ≠ [] ∧ ∃ i env r, n.Handles (.challenge i) env ∧ Authentic C S cfg n.pre.store i env r ∧ r.requestId = id

/-- The email challenge of the request of `r2` in the step `a`, if `k` is the email challenge: one email was sent in this step, for the
name of the certificate that was requested and to the address that the message of this step gave, and the elements `es` give its code.
For another challenge no email was sent. After the step no other email was sent for the request. -/
structure ByMail (C : Crypto) (S : StoreI σ) (cfg : CaConfig) (a : Step σ) (since : List (Step σ)) (i2 : Interest) (env2 : Env)
    (r2 : RequestState) (k : ChalKind) (es : List Block) : Prop where
  mail : k = .email → ∃ es2 m, Challenges C S cfg a i2 env2 r2 es2 .email ∧ mailed a.effects = [m] ∧ m.certName = r2.cert.name ∧
    m.caPrefix = r2.caPrefix ∧ Gives es2 m.address ∧ Gives es m.code
  other : k ≠ .email → mailed a.effects = []
  last : ∀ b ∈ since, ¬ MailsFor C S cfg r2.requestId b

end Ndncert
