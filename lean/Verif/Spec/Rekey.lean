import Verif.Model.Requester
import Verif.Spec.Laws

/-! # Replacing the key of the CA (C107) -/

namespace Ndncert

/-- `C'` is `C` after the keys of the identities of the CA's KeyChain were replaced: other public keys, hence other
signatures. How signatures are checked, and everything else, stays. -/
def Crypto.Rekeyed (C C' : Crypto) : Prop :=
  ∃ pub sign certify, C' = { C with idPub := pub, signData := sign, signCert := certify }

/-- The last Data a process returned for its profile is one that a requester accepts, and the certificate in it verifies
whatever the CA signs now. -/
def ServesCurrentKey (C : Crypto) (p : CaProfile) (d : Data) : Prop :=
  ∃ q t, onCaProfileResponse C d = .ok q ∧ q.cert = some t ∧
    ∀ (name : Name) (content : Block), C.verifyData { name := name, content := content, sig := C.signData p.caPrefix name content } t = true

end Ndncert
