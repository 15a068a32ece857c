import Verif.Model.Packet
import Verif.Spec.Laws

/-! # What is assumed of a signature scheme -/

namespace Ndncert

/-- What is assumed of the signature scheme and the two KeyChains: signatures verify, and signatures and the names of keys are not
enormous. No security assumption. -/
structure KeyRing.Lawful (K : KeyRing) : Prop where
  verifies : ∀ priv text, K.verify (K.pubOf priv) text (K.sign priv text) = true
  sign_length : ∀ priv text, (K.sign priv text).length < 2 ^ 32
  id_locator : ∀ id, NameFits (K.idLocator id) ∧ (encodeAll (K.idLocator id)).length < 2 ^ 32
  key_locator : ∀ key, NameFits (K.keyLocator key) ∧ (encodeAll (K.keyLocator key)).length < 2 ^ 32

/-- The reply is a Data with the elements Name, MetaInfo, Content, SignatureInfo and SignatureValue, as in the packets CAs send.
`text` is what its signature is for: all elements but the SignatureValue; `sig` is the SignatureValue. -/
def FormedReply (d : Data) (text sig : Bytes) : Prop :=
  ∃ m s : Block, d.sig = encodeAll [m, s, ⟨23, sig⟩] ∧ m.typ = 20 ∧ s.typ = 22 ∧ m.Fits ∧ s.Fits ∧ sig.length < 2 ^ 64 ∧
    NameFits d.name ∧ d.content.typ = 21 ∧ d.content.Fits ∧ text = encodeAll [nameBlock d.name, m, d.content, s]

/-- An Interest with ApplicationParameters, InterestSignatureInfo and InterestSignatureValue, whose name ends in a digest. No component
of the name has the type of ApplicationParameters. `text` is what its signature is for: the components of the name but the digest,
the parameters, InterestSignatureInfo; `sig` is the InterestSignatureValue. -/
def FormedInterest (i : Interest) (name : Name) (params : Block) (text sig : Bytes) : Prop :=
  ∃ digest, ∃ s : Block, i.name = name ++ [⟨2, digest⟩] ∧ i.params = some params ∧ i.sig = encodeAll [s, ⟨46, sig⟩] ∧ s.typ = 44 ∧ s.Fits ∧
    sig.length < 2 ^ 64 ∧ (∀ c ∈ name, c.Fits ∧ c.typ ≠ 36) ∧ params.typ = 36 ∧ params.Fits ∧ text = encodeAll (name ++ [params, s])

end Ndncert
