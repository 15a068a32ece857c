import Verif.Spec.History

/-! # Certificates backed by the CA's own certificate -/

namespace Ndncert

/-- the validity period stated in the certificate contains the time `t` -/
def ValidAt (c : Cert) (t : Time) : Prop := ∃ nb na, c.validity = some (nb, na) ∧ nb ≤ t ∧ t ≤ na

/-- the second certificate is not valid longer than the first -/
def Outlasts (ca c : Cert) : Prop := ∀ nb na cb ce, c.validity = some (nb, na) → ca.validity = some (cb, ce) → na ≤ ce

/-- in every execution, the CA's own certificate is valid whenever the CA signs one -/
def SignsOnlyWhileValid {σ : Type} (C : Crypto) (S : StoreI σ) (cfg : CaConfig) : Prop :=
  ∀ h s, Exec C S cfg h s → ∀ n ∈ h, ∀ m env, n.Handles m env → ∀ c, .issue c ∈ n.effects → ValidAt env.caCert env.now

/-- in every execution, no certificate is signed which is valid longer than the CA's own -/
def SignsNothingLonger {σ : Type} (C : Crypto) (S : StoreI σ) (cfg : CaConfig) : Prop :=
  ∀ h s, Exec C S cfg h s → ∀ n ∈ h, ∀ m env, n.Handles m env → ∀ c, .issue c ∈ n.effects → Outlasts env.caCert c

end Ndncert
