import Verif.Spec.JsonText

/-! # The grammar of JSON

As in RFC 8259, except that control characters may stand in strings unescaped. A relation between texts and trees: it does not say how to
read, only which texts are JSON and what they stand for. -/

namespace Ndncert

/-- white space -/
def JsonWs (s : Bytes) : Prop := ∀ b ∈ s, b = 32 ∨ b = 9 ∨ b = 10 ∨ b = 13

/-- one character in UTF-8 -/
def Utf8Char (c : Bytes) : Prop :=
  ∃ b tail, c = b :: tail ∧ (∀ x ∈ tail, 0x80 ≤ x.toNat ∧ x.toNat < 0xC0) ∧
    (b.toNat < 0x80 ∧ tail.length = 0 ∨ 0xC0 ≤ b.toNat ∧ b.toNat < 0xE0 ∧ tail.length = 1 ∨
      0xE0 ≤ b.toNat ∧ b.toNat < 0xF0 ∧ tail.length = 2 ∨ 0xF0 ≤ b.toNat ∧ b.toNat < 0xF8 ∧ tail.length = 3)

/-- a hexadecimal digit and its value -/
inductive HexDigit : UInt8 → Nat → Prop where
  | digit (d : Nat) : d < 10 → HexDigit (UInt8.ofNat (48 + d)) d
  | upper (d : Nat) : d < 6 → HexDigit (UInt8.ofNat (65 + d)) (10 + d)
  | lower (d : Nat) : d < 6 → HexDigit (UInt8.ofNat (97 + d)) (10 + d)

/-- four hexadecimal digits and their value -/
def HexQuad (q : Bytes) (n : Nat) : Prop :=
  ∃ a b c d w x y z, q = [a, b, c, d] ∧ HexDigit a w ∧ HexDigit b x ∧ HexDigit c y ∧ HexDigit d z ∧ n = w * 4096 + x * 256 + y * 16 + z

/-- the letter after a backslash and the octet it stands for -/
def escapeLetters : List (UInt8 × UInt8) :=
  [(34, 34), (92, 92), (47, 47), (98, 8), (102, 12), (110, 10), (114, 13), (116, 9)]

/-- what stands between the quotes of a string, and the octets meant -/
inductive JsonChars : Bytes → Bytes → Prop where
  | nil : JsonChars [] []
  | plain {c s m : Bytes} : Utf8Char c → c ≠ [34] → c ≠ [92] → JsonChars s m → JsonChars (c ++ s) (c ++ m)
  | letter {e x : UInt8} {s m : Bytes} : (e, x) ∈ escapeLetters → JsonChars s m → JsonChars (92 :: e :: s) (x :: m)
  /-- `\uXXXX` -/
  | code {q s m : Bytes} (c : Char) : HexQuad q c.toNat → JsonChars s m → JsonChars (92 :: 117 :: (q ++ s)) (String.utf8EncodeChar c ++ m)
  /-- `\uXXXX\uYYYY`, a character beyond the first 65536 -/
  | pair {q r s m : Bytes} {h l : Nat} (c : Char) : HexQuad q (0xD800 + h) → HexQuad r (0xDC00 + l) → h < 0x400 → l < 0x400 →
      c.toNat = 0x10000 + h * 0x400 + l → JsonChars s m →
      JsonChars (92 :: 117 :: (q ++ 92 :: 117 :: (r ++ s))) (String.utf8EncodeChar c ++ m)

/-- at least one decimal digit -/
def Digits1 (s : Bytes) : Prop := s ≠ [] ∧ ∀ b ∈ s, 48 ≤ b.toNat ∧ b.toNat ≤ 57

/-- a number: sign, integer without leading zeros, fraction, exponent -/
def JsonNumber (n : Bytes) : Prop :=
  ∃ sign int frac exp, n = sign ++ int ++ frac ++ exp ∧ (sign = [] ∨ sign = [45]) ∧
    (int = [48] ∨ Digits1 int ∧ int.head? ≠ some 48) ∧
    (frac = [] ∨ ∃ ds, Digits1 ds ∧ frac = 46 :: ds) ∧
    (exp = [] ∨ ∃ e sg ds, (e = 101 ∨ e = 69) ∧ (sg = [] ∨ sg = [43] ∨ sg = [45]) ∧ Digits1 ds ∧ exp = e :: (sg ++ ds))

mutual
/-- a value (without white space around it) and the tree it stands for. Numbers, true, false and null are kept as texts; an empty object and an
empty array are the tree without data and children, as is the empty string. -/
inductive JsonValue : Bytes → PTree → Prop where
  | string {s m : Bytes} : JsonChars s m → JsonValue (34 :: (s ++ [34])) (.node m [])
  | number {n : Bytes} : JsonNumber n → JsonValue n (.node n [])
  | word {w : Bytes} : w = bytes! "true" ∨ w = bytes! "false" ∨ w = bytes! "null" → JsonValue w (.node w [])
  | object0 {w : Bytes} : JsonWs w → JsonValue (123 :: (w ++ [125])) (.node [] [])
  | object {s : Bytes} {ks : List (Bytes × PTree)} : JsonMembers s ks → JsonValue (123 :: (s ++ [125])) (.node [] ks)
  | array0 {w : Bytes} : JsonWs w → JsonValue (91 :: (w ++ [93])) (.node [] [])
  | array {s : Bytes} {ks : List (Bytes × PTree)} : JsonElements s ks → JsonValue (91 :: (s ++ [93])) (.node [] ks)
/-- the members of an object -/
inductive JsonMembers : Bytes → List (Bytes × PTree) → Prop where
  | one {w1 k key w2 w3 s w4 : Bytes} {v : PTree} : JsonWs w1 → JsonChars k key → JsonWs w2 → JsonWs w3 → JsonValue s v → JsonWs w4 →
      JsonMembers (w1 ++ 34 :: (k ++ 34 :: (w2 ++ 58 :: (w3 ++ (s ++ w4))))) [(key, v)]
  | cons {w1 k key w2 w3 s w4 r : Bytes} {v : PTree} {ks : List (Bytes × PTree)} : JsonWs w1 → JsonChars k key → JsonWs w2 → JsonWs w3 →
      JsonValue s v → JsonWs w4 → JsonMembers r ks →
      JsonMembers (w1 ++ 34 :: (k ++ 34 :: (w2 ++ 58 :: (w3 ++ (s ++ (w4 ++ 44 :: r)))))) ((key, v) :: ks)
/-- the elements of an array: children without key -/
inductive JsonElements : Bytes → List (Bytes × PTree) → Prop where
  | one {w1 s w2 : Bytes} {v : PTree} : JsonWs w1 → JsonValue s v → JsonWs w2 → JsonElements (w1 ++ (s ++ w2)) [([], v)]
  | cons {w1 s w2 r : Bytes} {v : PTree} {ks : List (Bytes × PTree)} : JsonWs w1 → JsonValue s v → JsonWs w2 → JsonElements r ks →
      JsonElements (w1 ++ (s ++ (w2 ++ 44 :: r))) (([], v) :: ks)
end

/-- a document: a value between white space, perhaps after a byte order mark -/
def JsonDocument (text : Bytes) (t : PTree) : Prop :=
  ∃ bom w1 s w2, (bom = [] ∨ bom = [0xEF, 0xBB, 0xBF]) ∧ JsonWs w1 ∧ JsonValue s t ∧ JsonWs w2 ∧ text = bom ++ (w1 ++ (s ++ w2))

end Ndncert
