import Verif.Model.JsonText

/-! # Texts in JSON -/

namespace Ndncert

/-- a sequence of characters in UTF-8, each of one to four octets. Overlong forms are allowed. -/
inductive Utf8 : Bytes → Prop where
  | nil : Utf8 []
  | char (b : UInt8) (tail rest : Bytes) :
      (b.toNat < 0x80 ∧ tail.length = 0 ∨ 0xC0 ≤ b.toNat ∧ b.toNat < 0xE0 ∧ tail.length = 1 ∨
        0xE0 ≤ b.toNat ∧ b.toNat < 0xF0 ∧ tail.length = 2 ∨ 0xF0 ≤ b.toNat ∧ b.toNat < 0xF8 ∧ tail.length = 3) →
      (∀ x ∈ tail, 0x80 ≤ x.toNat ∧ x.toNat < 0xC0) → Utf8 rest → Utf8 (b :: tail ++ rest)

mutual
/-- all data and keys below are UTF-8 -/
def PTree.TextsUtf8 : PTree → Prop
  | .node data kids => Utf8 data ∧ kidsUtf8 kids
def kidsUtf8 : List (Bytes × PTree) → Prop
  | [] => True
  | (k, v) :: es => Utf8 k ∧ v.TextsUtf8 ∧ kidsUtf8 es
end

mutual
/-- no node has both data and children -/
def PTree.Plain : PTree → Prop
  | .node data kids => (data = [] ∨ kids = []) ∧ kidsPlain kids
def kidsPlain : List (Bytes × PTree) → Prop
  | [] => True
  | (_, v) :: es => v.Plain ∧ kidsPlain es
end

end Ndncert
