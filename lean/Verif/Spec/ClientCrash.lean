import Verif.Spec.ClientTurn
import Verif.Spec.Strict

/-! # Specification: what makes the client end by an exception that nobody catches -/

namespace Ndncert

/-- every one of these key ids is among `others` or is that of a key in the KeyChain -/
def AllUsed (p : Pib) (others draws : List Block) : Prop :=
  ∀ b ∈ draws, b ∈ others ∨ ∃ e ∈ p, e.name ++ [gcomp (bytes! "KEY"), b] ∈ e.keys

/-- the certificate is one of a key in the KeyChain: it is named `<identity>/KEY/<key id>/<issuer>/<version>` after the key and has its
public key -/
def ForKeyIn (C : Crypto) (p : Pib) (cert : Cert) : Prop :=
  ∃ e ∈ p, ∃ keyId issuer version, cert.name = e.name ++ [gcomp (bytes! "KEY"), keyId, issuer, version] ∧
    e.name ++ [gcomp (bytes! "KEY"), keyId] ∈ e.keys ∧
    ∃ pub, cert.content = some pub ∧ C.keyPub (e.name ++ [gcomp (bytes! "KEY"), keyId]) = some pub

/-- the number in the last four octets of an IV: the blocks of 16 octets encrypted so far -/
def blocksCounted (iv : Bytes) : Nat := beVal ((iv.drop 8).take 4)

/-- The causes of an uncaught exception in the callback of a reply. -/
inductive CrashCause (C : Crypto) (env : ClientEnv) (c : Client) (d : Data) (wire : Block) : Prop
  /-- a metadata packet without a name in it -/
  | metadata {full : Name} (pending : c.pending = some (.discovery full)) (noName : ∀ n, ¬ HasName d.content n)
  /-- the profile of a CA that is not configured, signed with its own certificate, that cannot be shown to the user: the signature does
  not name its key, or the certificate has no validity period -/
  | question {full : Name} {p : CaProfile} {t : Cert} (pending : c.pending = some (.info full)) (unknown : c.trusted = none)
      (decoded : infoDecode C d.content = .ok p) (cert : p.cert = some t) (verified : C.verifyData d t = true)
      (unshown : C.hasLocator d = false ∨ t.validity = none)
  /-- a redirection, signed by the CA probed, to something that is not the full name of a certificate of a (non-empty) CA name -/
  | redirect {p : CaProfile} {t : Cert} {names : List (Name × Int)} {redirects : List Name} {r : Name} (pending : c.pending = some (.probe p))
      (cert : p.cert = some t) (verified : C.verifyData d t = true) (decoded : probeDecode d.content [] [] = .ok (names, redirects))
      (announced : r ∈ redirects) (bad : ∀ ca, FullNameOfCa ca r → ca = [])
  /-- a key is to be made, and no unused key id is drawn (the program would go on drawing) -/
  | keyIds {p : CaProfile} {t : Cert} (pending : c.pending = some (.probe p)) (cert : p.cert = some t) (verified : C.verifyData d t = true)
      (used : AllUsed c.pib [] env.keyIds ∨ AllUsed c.pib env.keyIds env.keyIds2)
  /-- the key chosen has no public key -/
  | noKey {p : CaProfile} {t : Cert} {id : Name} {b : Block} (pending : c.pending = some (.probe p)) (cert : p.cert = some t)
      (verified : C.verifyData d t = true) (none : C.keyPub (id ++ [gcomp (bytes! "KEY"), b]) = none)
  /-- the CA offers the possession challenge, and the line typed as the certificate is not one TLV element -/
  | credential {r : Request} {t : Cert} {line : Bytes} (pending : c.pending = some .new ∨ c.pending = some .challenge)
      (request : c.request = some r) (cert : r.profile.cert = some t) (verified : C.verifyData d t = true)
      (typed : line ∈ c.stdin ∨ line = []) (garbage : ∀ b, parse line ≠ .ok [b])
  /-- the message to be encrypted does not fit into what is left of the IV counter -/
  | counter {r : Request} {t : Cert} {st : Status} {cs : Bytes} {lines : List Bytes} {k : ChalKind} {es : List Block}
      (pending : c.pending = some .new ∨ c.pending = some .challenge) (request : c.request = some r) (cert : r.profile.cert = some t)
      (verified : C.verifyData d t = true) (left : lines <:+ c.stdin) (message : Says st cs lines c.captured k es)
      (full : 2 ^ 32 - 1 ≤ blocksCounted r.encryptionIv + ((encodeAll es).length + 15) / 16)
  /-- what is fetched is not a certificate of a key in the KeyChain -/
  | certificate (pending : c.pending = some .fetch) (other : ∀ cert, C.decodeCert wire = some cert → ¬ ForKeyIn C c.pib cert)

end Ndncert
