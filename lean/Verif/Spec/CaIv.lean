import Verif.Spec.History
import Verif.Spec.IvRuns

/-! # Vocabulary for the IVs of the CA's replies -/

namespace Ndncert

variable {σ : Type}

/-- the content of the packet is an encrypted payload: it holds an IV and a ciphertext -/
def Carries (d : Data) (iv ct : Bytes) : Prop :=
  d.content.val.length < 2 ^ 64 ∧ ∃ es a b, parse d.content.val = .ok es ∧
    getElem es T.InitializationVector = .ok a ∧ a.val = iv ∧ getElem es T.EncryptedPayload = .ok b ∧ b.val = ct

/-- in this step the CA sent an encrypted reply to a CHALLENGE for the request with this id -/
def EncryptedReply (cfg : CaConfig) (n : Step σ) (id : RequestId) (iv ct : Bytes) : Prop :=
  ∃ i env d, n.Handles (.challenge i) env ∧ Names cfg env i id ∧ d ∈ sent n.effects ∧ Carries d iv ct

end Ndncert
