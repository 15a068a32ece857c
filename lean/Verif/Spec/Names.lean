import Verif.Model.Types

/-! # Names of certificates, as documented for NDN -/

namespace Ndncert

/-- the full name of a certificate: its name and its digest, as an implicit digest component (type 1) -/
abbrev fullNameOf (c : Cert) : Name := c.name ++ [⟨1, c.digest⟩]

/-- the certificate name is an identity followed by `KEY`, a key id, an issuer and a version -/
def IsCertName (n : Name) : Prop := ∃ identity keyId issuer version, n = identity ++ [gcomp (bytes! "KEY"), keyId, issuer, version]

end Ndncert
