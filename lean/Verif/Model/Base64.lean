import Verif.Model.Uri

/-! # The text of certificates in files

`ndn::io::save` and `ndn::io::load` with their default encoding, which the profile and configuration readers use (ca-profile.cpp:83-87, 119-123,
ca-configuration.cpp:56-60, challenge-possession.cpp:70-74): base64 in lines of 64 characters, through OpenSSL's base64 filter. -/

namespace Ndncert

/-- the character for a six-bit number (`EVP_EncodeUpdate`, which `io::save` at ca-profile.cpp:122 ends in) -/
def b64Char (n : Nat) : UInt8 :=
  if n < 26 then UInt8.ofNat (65 + n) else if n < 52 then UInt8.ofNat (97 + (n - 26)) else if n < 62 then UInt8.ofNat (48 + (n - 52))
  else if n = 62 then 43 else 47

/-- the number for a character (`EVP_DecodeUpdate`, which `io::load` at ca-profile.cpp:87 ends in) -/
def b64Value (c : UInt8) : Option Nat :=
  if 65 ≤ c.toNat ∧ c.toNat ≤ 90 then some (c.toNat - 65) else if 97 ≤ c.toNat ∧ c.toNat ≤ 122 then some (c.toNat - 97 + 26)
  else if 48 ≤ c.toNat ∧ c.toNat ≤ 57 then some (c.toNat - 48 + 52) else if c.toNat = 43 then some 62 else if c.toNat = 47 then some 63 else none

/-- base64 without line breaks (ca-profile.cpp:122, `ndn::io::save`) -/
def b64Encode : Bytes → Bytes
  | a :: b :: c :: rest =>
    b64Char (a.toNat / 4) :: b64Char (a.toNat % 4 * 16 + b.toNat / 16) :: b64Char (b.toNat % 16 * 4 + c.toNat / 64) :: b64Char (c.toNat % 64) :: b64Encode rest
  | [a, b] => [b64Char (a.toNat / 4), b64Char (a.toNat % 4 * 16 + b.toNat / 16), b64Char (b.toNat % 16 * 4), 61]
  | [a] => [b64Char (a.toNat / 4), b64Char (a.toNat % 4 * 16), 61, 61]
  | [] => []

/-- lines of 64 characters, each with a newline, at most `n` of them -/
def b64LinesN : Nat → Bytes → Bytes
  | 0, _ => []
  | n + 1, s => if s = [] then [] else s.take 64 ++ 10 :: b64LinesN n (s.drop 64)

/-- lines of 64 characters, each with a newline (ca-profile.cpp:122, `ndn::io::save`) -/
def b64Lines (s : Bytes) : Bytes := b64LinesN s.length s

/-- the octets of base64 text without white space (ca-profile.cpp:87, `ndn::io::load`); `none` = not base64. Bits that are left over in the last
group are not looked at. -/
def b64Decode : Bytes → Option Bytes
  | [] => some []
  | p :: q :: r :: s :: rest => do
    let w ← b64Value p
    let x ← b64Value q
    if rest = [] ∧ r = 61 ∧ s = 61 then some [UInt8.ofNat (w * 4 + x / 16)]
    else do
      let y ← b64Value r
      if rest = [] ∧ s = 61 then some [UInt8.ofNat (w * 4 + x / 16), UInt8.ofNat (x % 16 * 16 + y / 4)]
      else do
        let z ← b64Value s
        let l ← b64Decode rest
        some (UInt8.ofNat (w * 4 + x / 16) :: UInt8.ofNat (x % 16 * 16 + y / 4) :: UInt8.ofNat (y % 4 * 64 + z) :: l)
  | _ => none

/-- white space that the filter leaves out -/
def isB64Space (c : UInt8) : Bool := c == 32 || c == 9 || c == 10 || c == 13

/-- `ndn::io::load<Certificate>` (ca-profile.cpp:87, ca-configuration.cpp:59, challenge-possession.cpp:73): base64, then the first element, then the
constructor of `Certificate`; all exceptions become the null pointer. The filter is taken to leave out white space wherever it is; what OpenSSL does
with texts that are not in lines or not base64 (it may skip lines) is not modelled. -/
def loadCertText (C : Crypto) (text : Bytes) : Option Cert :=
  match b64Decode (text.filter (fun c => !isB64Space c)) with
  | none => none
  | some octets =>
    match readElement octets with
    | .ok (b, _) => C.decodeCert b
    | _ => none

/-- `ndn::io::save` (ca-profile.cpp:122) -/
def saveCertText (c : Cert) : Bytes := b64Lines (b64Encode c.wire.encode)

/-- the text operations of the programs, all as modelled (ca-profile.cpp:83-123) -/
def fileText (C : Crypto) : TextIO := libText (loadCertText C) saveCertText

end Ndncert
