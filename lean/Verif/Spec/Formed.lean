import Verif.Model.Packet

/-! # The format of a certificate (C140)

From the specification of the NDN packet format: Data, MetaInfo, SignatureInfo, ValidityPeriod, and of NDN certificates. -/

namespace Ndncert

/-- the elements of these types come in ascending order of their types, at most one of each -/
def OrderedOnce (types : List Nat) (es : List Block) : Prop := ((es.filter fun e => decide (e.typ ∈ types)).map (·.typ)).Pairwise (· < ·)

/-- a MetaInfo whose first element says content type KEY -/
def SaysKey (m : Block) : Prop := ∃ e rest, m.elements = .ok (e :: rest) ∧ e.typ = 24 ∧ readNni e = .ok 2

/-- a KeyLocator that names this key or certificate -/
def Locates (l : Block) (name : Name) : Prop := ∃ e rest, l.elements = .ok (e :: rest) ∧ e.typ = 7 ∧ nameOfBlock e = .ok name

/-- a ValidityPeriod with these two texts -/
def SaysPeriod (v : Block) (notBefore notAfter : Bytes) : Prop := v.elements = .ok [⟨254, notBefore⟩, ⟨255, notAfter⟩]

/-- a SignatureInfo with one SignatureType, then at most one KeyLocator; the KeyLocator and the validity period read are those in it -/
structure FormedInfo (s : Block) (locator : Option Name) (validity : Option (Time × Time)) : Prop where
  ok : ∃ es, s.elements = .ok es ∧ OrderedOnce [27, 28] es ∧ (∃ t ∈ es, t.typ = 27 ∧ ∃ n, readNni t = .ok n) ∧
    (∀ name, locator = some name → ∃ l ∈ es, l.typ = 28 ∧ Locates l name) ∧
    (∀ p, validity = some p → ∃ v ∈ es, v.typ = 253 ∧ ∃ x y a b, SaysPeriod v x y ∧ fromIsoText x = some a ∧ fromIsoText y = some b ∧
      p = (a.tdiv 1000000 * 1000000000, b.tdiv 1000000 * 1000000000))

/-- A Data: first the name; then MetaInfo, Content, SignatureInfo and SignatureValue in this order, at most one of each, with others between them only if
they may be ignored. MetaInfo says KEY; what is read as public key, KeyLocator and validity period is in Content and SignatureInfo. -/
structure FormedCert (b : Block) (c : Cert) : Prop where
  data : b.typ = 6
  elements : ∃ name rest, parse b.val = .ok (name :: rest) ∧ name.typ = 7 ∧ nameOfBlock name = .ok c.name ∧
    OrderedOnce [20, 21, 22, 23] rest ∧ (∀ e ∈ rest, e.typ ∉ [20, 21, 22, 23] → isCriticalType e.typ = false) ∧
    (∃ m ∈ rest, m.typ = 20 ∧ SaysKey m) ∧ (∀ v, c.content = some v ↔ ∃ e ∈ rest, e.typ = 21 ∧ e.val = v) ∧
    ∃ s ∈ rest, s.typ = 22 ∧ FormedInfo s c.keyLocator c.validity

/-- the name of an Interest ends in the SHA-256 digest of the elements from the parameters on -/
def EndsInDigest (sha256 : Bytes → Bytes) (i : Interest) : Prop :=
  ∃ name params, i.params = some params ∧ i.name = name ++ [⟨2, sha256 (params.encode ++ i.sig)⟩]

end Ndncert
