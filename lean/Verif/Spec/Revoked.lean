import Verif.Spec.Server

/-! # Completed revocations -/

namespace Ndncert

variable {σ : Type}

/-- the step processed a CHALLENGE that is authentic for the pending revocation `r`, removed the request and sent the reply `d`, which is not an
error: the revocation is done, as far as the CA says -/
structure CompletesRevoke (C : Crypto) (S : StoreI σ) (cfg : CaConfig) (n : Step σ) (i : Interest) (env : Env) (r : RequestState) (d : Data) :
    Prop where
  handles : n.Handles (.challenge i) env
  authentic : Authentic C S cfg n.pre.store i env r
  type : r.requestType = .revoke
  removed : .dbDelete r.requestId ∈ n.effects
  replied : d ∈ sent n.effects
  noError : ∀ code, ¬ IsErrorReply C cfg i code d

/-- the server without repo, whatever its profile packets are, does not answer any Interest with a certificate whose revocation was completed since
it was issued last -/
def RevokedNotServed (C : Crypto) (S : StoreI σ) (cfg : CaConfig) : Prop :=
  ∀ h1 n h2 s, Exec C S cfg (h1 ++ n :: h2) s → ∀ i env r d, CompletesRevoke C S cfg n i env r d →
    (∀ m ∈ h2, .issue r.cert ∉ m.effects) → ∀ first next name, (Server.after false first next (h1 ++ n :: h2)).onInterest name ≠ some (.cert r.cert)

/-- a REVOKE for a certificate whose revocation was completed is not accepted again -/
def RevokedOnce (C : Crypto) (S : StoreI σ) (cfg : CaConfig) : Prop :=
  ∀ h1 n h2 s, Exec C S cfg (h1 ++ n :: h2) s → ∀ i env r d, CompletesRevoke C S cfg n i env r d →
    ∀ i' env' pub, Submits C .revoke i' pub r.cert → ¬ Accepted (onNewRenewRevoke C S cfg s.idKey s.store .revoke i' env')

end Ndncert
