import Verif.Spec.JsonGrammar
import Verif.Model.Uri

/-! # Names and documents in configuration files -/

namespace Ndncert

/-- components NDN allows: a type of 1 to 65535, digests of 32 octets -/
def CompValid (c : Block) : Prop := 1 ≤ c.typ ∧ c.typ ≤ 65535 ∧ (c.typ = 1 ∨ c.typ = 2 → c.val.length = 32)

/-- the two objects have the same members, perhaps in another order, and no key twice -/
def SameMembers (t t' : PTree) : Prop := t.data = t'.data ∧ t.kids.Perm t'.kids ∧ (t.kids.map Prod.fst).Nodup

/-- a hexadecimal digit: 0-9, A-F, a-f -/
def IsHexDigit (b : UInt8) : Prop := (48 ≤ b ∧ b ≤ 57) ∨ (65 ≤ b ∧ b ≤ 70) ∨ (97 ≤ b ∧ b ≤ 102)

/-- a component as people type it: no slash, no equals sign, no percent sign with two hexadecimal digits after it, and not periods only -/
structure PlainPiece (p : Bytes) : Prop where
  slash : (47 : UInt8) ∉ p
  equals : (61 : UInt8) ∉ p
  escape : ∀ a h l b, p = a ++ 37 :: h :: l :: b → ¬ (IsHexDigit h ∧ IsHexDigit l)
  periods : ∃ b ∈ p, b ≠ 46

end Ndncert
