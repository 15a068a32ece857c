import Verif.Model.Tlv

/-! # Base64 (RFC 4648, section 4) -/

namespace Ndncert

/-- the alphabet -/
def base64Alphabet : Bytes := bytes! "ABCDEFGHIJKLMNOPQRSTUVWXYZabcdefghijklmnopqrstuvwxyz0123456789+/"

/-- the character is the one of this six-bit number -/
def Sextet (c : UInt8) (n : Nat) : Prop := base64Alphabet[n]? = some c

/-- the text stands for the octets: three octets are four characters; what is left is padded with `=`, and with zero bits if the text is `canonical` -/
inductive Base64 (canonical : Prop) : Bytes → Bytes → Prop where
  | nil : Base64 canonical [] []
  | three (a b c p q r s : UInt8) (w x y z : Nat) (text octets : Bytes) : Sextet p w → Sextet q x → Sextet r y → Sextet s z →
      a.toNat * 256 ^ 2 + b.toNat * 256 + c.toNat = w * 64 ^ 3 + x * 64 ^ 2 + y * 64 + z → Base64 canonical text octets →
      Base64 canonical (p :: q :: r :: s :: text) (a :: b :: c :: octets)
  | two (a b p q r : UInt8) (w x y extra : Nat) : Sextet p w → Sextet q x → Sextet r y → extra < 2 ^ 2 → (canonical → extra = 0) →
      (a.toNat * 256 + b.toNat) * 2 ^ 2 + extra = w * 64 ^ 2 + x * 64 + y → Base64 canonical [p, q, r, 61] [a, b]
  | one (a p q : UInt8) (w x extra : Nat) : Sextet p w → Sextet q x → extra < 2 ^ 4 → (canonical → extra = 0) →
      a.toNat * 2 ^ 4 + extra = w * 64 + x → Base64 canonical [p, q, 61, 61] [a]

/-- the text without spaces, tabs, line feeds and carriage returns -/
def withoutBlanks (text : Bytes) : Bytes := text.filter (fun c => decide (c ∉ [32, 9, 10, 13]))

end Ndncert
