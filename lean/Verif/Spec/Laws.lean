import Verif.Model.Requester

/-! # What theorems about honest runs assume of the cryptographic operations -/

namespace Ndncert

/-- A period the certificate format can hold: whole seconds, from the epoch on. (Dates are written with a year of four digits; 2^37 seconds
lead to the year 6325. The clock of ndn-cxx, 64 bits of nanoseconds, ends in 2262.) -/
def PeriodFits (v : Time × Time) : Prop :=
  ∃ a b : Nat, a < 2 ^ 37 ∧ b < 2 ^ 37 ∧ v = ((a : Int) * nsPerSec, (b : Int) * nsPerSec)

/-- Functional correctness of signing and of the certificate format (in addition to `Lawful`): what was signed
verifies under the certificate that carries the signer's public key, and a signed certificate, of the requester or of the CA,
decodes to itself. -/
structure Crypto.Honest (C : Crypto) : Prop extends C.Lawful where
  interest_verifies : ∀ k pub n p c, C.keyPub k = some pub → c.content = some pub →
    C.verifyInterest { name := n ++ [⟨2, C.paramsDigest n p (C.keySignInterest k n p)⟩], params := some p, sig := C.keySignInterest k n p } c = true
  cert_verifies : ∀ k pub n content v c, C.keyPub k = some pub → c.content = some pub →
    NameFits k → NameFits n → (C.keySignCert k n content v).1.val.length < 2 ^ 64 →
    C.verifyCert
      { wire := (C.keySignCert k n content v).1, name := n, content := some content, keyLocator := some (C.keySignCert k n content v).2.1,
        validity := some v, digest := (C.keySignCert k n content v).2.2 } c = true
  cert_decodes : ∀ k n content v, NameFits k → NameFits n → isValidCertName n = true → PeriodFits v →
    (C.keySignCert k n content v).1.val.length < 2 ^ 64 →
    C.decodeCert (C.keySignCert k n content v).1 = some
      { wire := (C.keySignCert k n content v).1, name := n, content := some content, keyLocator := some (C.keySignCert k n content v).2.1,
        validity := some v, digest := (C.keySignCert k n content v).2.2 }
  issued_decodes : ∀ ca n content v, NameFits (C.signCert ca n content v).2.1 → NameFits n → isValidCertName n = true → PeriodFits v →
    (C.signCert ca n content v).1.val.length < 2 ^ 64 →
    C.decodeCert (C.signCert ca n content v).1 = some
      { wire := (C.signCert ca n content v).1, name := n, content := some content, keyLocator := some (C.signCert ca n content v).2.1,
        validity := some v, digest := (C.signCert ca n content v).2.2 }
  data_verifies : ∀ ca n content c, c.content = some (C.idPub ca) →
    C.verifyData { name := n, content := content, sig := C.signData ca n content } c = true

end Ndncert
