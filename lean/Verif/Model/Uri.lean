import Verif.Model.JsonText

/-! # Names read from URIs, and the text formats of the configuration files

`Name(std::string)` of ndn-cxx, which the code uses for the names in configuration files (ca-profile.cpp:31, 38, ca-configuration.cpp:60) and for
what the user types (ndncert-client.cpp:507). The alternate spellings of typed components (`sha256digest=`, `v=` …) are not modelled: where the
library reads them, the model has an exception. -/

namespace Ndncert

/-- `fromHexChar` -/
def hexChar (b : UInt8) : Option Nat := jsonHexDigit b

/-- `ndn::unescape`: a percent sign and two more octets are one octet if these are hexadecimal digits, otherwise they stay -/
def uriUnescape : Bytes → Bytes
  | 37 :: h :: l :: s =>
    match hexChar h, hexChar l with
    | some x, some y => UInt8.ofNat (16 * x + y) :: uriUnescape s
    | _, _ => 37 :: h :: l :: uriUnescape s
  | b :: s => b :: uriUnescape s
  | [] => []

/-- `Component(type, value)`: digest components have 32 octets; `none` = throws -/
def mkComp (ty : Nat) (v : Bytes) : Option Block :=
  if (ty = 1 ∨ ty = 2) ∧ v.length ≠ 32 then none else some ⟨ty, v⟩

/-- `parseUriEscapedValue` (ndn-cxx): a value of periods only has three more of them -/
def compValue (ty : Nat) (s : Bytes) : Option Block :=
  let v := uriUnescape s
  if v.all (· == 46) then (if v.length < 3 then none else mkComp ty (v.drop 3)) else mkComp ty v

/-- `Component::fromEscapedString` (ndn-cxx): with an equals sign, what is before it is the type in decimal -/
def readComp (s : Bytes) : Option Block :=
  match splitFirst 61 s with
  | none => compValue 8 s
  | some (ty, v) =>
    match readDigits ty with
    | none => none
    | some n => if 1 ≤ n ∧ n ≤ 65535 ∧ decDigits n = ty then compValue n v else none

/-- the scheme: everything up to a colon before the first slash is left out -/
def skipScheme (s : Bytes) : Bytes :=
  match splitFirst 58 s with
  | some (before, rest) => if (47 : UInt8) ∈ before then s else rest
  | none => s

/-- the leading slash, or two of them and the authority -/
def skipRoot : Bytes → Bytes
  | 47 :: 47 :: s => (s.dropWhile (· ≠ 47)).drop 1
  | 47 :: s => s
  | s => s

/-- `Name(std::string)` (ndn-cxx); `none` = throws. A slash at the end is no component. -/
def readUri (s : Bytes) : Option Name :=
  let pieces := splitAll 47 (skipRoot (skipScheme s))
  (if pieces.getLast? = some [] then pieces.dropLast else pieces).mapM readComp

/-- the text operations of the programs: JSON and URIs as modelled, the base64 text of certificates as given -/
def libText (loadCert : Bytes → Option Cert) (saveCert : Cert → Bytes) : TextIO where
  nameOfUri := readUri
  uriOfName := nameUri
  loadCert := loadCert
  saveCert := saveCert
  readJson := readJsonText
  writeJson := writeJsonText

end Ndncert
