import Verif.Model.Basic

/-!
# The ndn-cxx TLV functions used by ndncert

ndn-cxx is a dependency and not part of /repo; the functions below give the meaning of
`ndn::tlv::readVarNumber`, `ndn::Block`, `ndn::makeNonNegativeIntegerBlock`, ... that the encoders in
/repo/src/detail/*-encoder.cpp rely on.
-/

namespace Ndncert

/-- A TLV element: TLV-TYPE and TLV-VALUE (`ndn::Block`). -/
structure Block where
  typ : Nat
  val : Bytes
  deriving DecidableEq, Repr

/-- big-endian encoding of `n` in `k` octets (higher bits are cut) -/
def beBytes : Nat → Nat → Bytes
  | 0, _ => []
  | k + 1, n => UInt8.ofNat (n / 256 ^ k) :: beBytes k n

/-- value of a big-endian octet string -/
def beVal (bs : Bytes) : Nat := bs.foldl (fun a b => a * 256 + b.toNat) 0

/-- `ndn::tlv::writeVarNumber`: 1, 3, 5 or 9 octets. -/
def varNumber (n : Nat) : Bytes :=
  if n < 253 then [UInt8.ofNat n]
  else if n < 2 ^ 16 then 253 :: beBytes 2 n
  else if n < 2 ^ 32 then 254 :: beBytes 4 n
  else 255 :: beBytes 8 n

/-- `ndn::tlv::readVarNumber`; throws when the input is too short.
(Non-shortest encodings are accepted, as in ndn-cxx.) -/
def readVarNumber (bs : Bytes) : Res (Nat × Bytes) :=
  match bs with
  | [] => .exc .tlv
  | b :: rest =>
    if b < 253 then .ok (b.toNat, rest)
    else
      let k := if b = 253 then 2 else if b = 254 then 4 else 8
      if rest.length < k then .exc .tlv
      else .ok (beVal (rest.take k), rest.drop k)

/-- `Block::encode`: the wire form of an element. -/
def Block.encode (b : Block) : Bytes := varNumber b.typ ++ varNumber b.val.length ++ b.val

/-- `Block::encode` of a sequence of sub-elements, i.e. the TLV-VALUE of their parent. -/
def encodeAll (bs : List Block) : Bytes := bs.flatMap Block.encode

/-- One step of `Block::parse` / `Block::fromBuffer`: `readType` (type 0 and types above 2^32-1 are
rejected), `readVarNumber`, length check. -/
def readElement (bs : Bytes) : Res (Block × Bytes) := do
  let (t, r1) ← readVarNumber bs
  if t = 0 ∨ 2 ^ 32 ≤ t then .exc .tlv
  else
    let (l, r2) ← readVarNumber r1
    if r2.length < l then .exc .tlv
    else .ok (⟨t, r2.take l⟩, r2.drop l)

/-- `Block::parse` with an explicit bound on the number of elements. -/
def parseFuel : Nat → Bytes → Res (List Block)
  | _, [] => .ok []
  | 0, _ :: _ => .exc .tlv
  | n + 1, b :: bs => do
    let (e, rest) ← readElement (b :: bs)
    let es ← parseFuel n rest
    .ok (e :: es)

/-- `Block::parse` on a TLV-VALUE: the list of sub-elements (each takes at least two octets, so the
bound is never the reason of a failure). -/
def parse (bs : Bytes) : Res (List Block) := parseFuel bs.length bs

/-- `Block::elements()` after `parse()`. -/
def Block.elements (b : Block) : Res (List Block) := parse b.val

/-- `Block::get(type)`: first sub-element of that type, or throws. -/
def getElem (es : List Block) (t : Nat) : Res Block :=
  .ofOption .tlv (es.find? (fun e => e.typ == t))

/-- `Block::blockFromValue()`: the TLV-VALUE must be exactly one element. -/
def Block.blockFromValue (b : Block) : Res Block := do
  let (e, rest) ← readElement b.val
  if rest = [] then .ok e else .exc .tlv

/-- `Block(span)`: construct a block from a buffer that must hold exactly one element. -/
def blockOfBytes (bs : Bytes) : Res Block := Block.blockFromValue ⟨0, bs⟩

/-- `ndn::tlv::isCriticalType` -/
def isCriticalType (t : Nat) : Bool := t ≤ 31 || t % 2 == 1

/-- octets written by `makeNonNegativeIntegerBlock`: 1, 2, 4 or 8. -/
def nniBytes (n : Nat) : Bytes :=
  if n < 2 ^ 8 then beBytes 1 n
  else if n < 2 ^ 16 then beBytes 2 n
  else if n < 2 ^ 32 then beBytes 4 n
  else beBytes 8 n

/-- `ndn::makeNonNegativeIntegerBlock`; the argument is a `uint64_t`. -/
def nniBlock (t : Nat) (n : Nat) : Block := ⟨t, nniBytes (n % 2 ^ 64)⟩

/-- `ndn::readNonNegativeInteger`: only lengths 1, 2, 4 and 8 are accepted. -/
def readNni (b : Block) : Res Nat :=
  if b.val.length = 1 ∨ b.val.length = 2 ∨ b.val.length = 4 ∨ b.val.length = 8 then
    .ok (beVal b.val)
  else .exc .tlv

/-- `ndn::makeStringBlock` / `ndn::makeBinaryBlock` -/
def binBlock (t : Nat) (s : Bytes) : Block := ⟨t, s⟩

/-- `ndn::readString` -/
def readString (b : Block) : Bytes := b.val

/-- `ndn::makeNestedBlock(type, x)`: an element whose value is the wire form of `x`. -/
def nestedBlock (t : Nat) (inner : Block) : Block := ⟨t, inner.encode⟩

/-- `Block(type)` followed by `push_back`s and `encode()`. -/
def mkBlock (t : Nat) (es : List Block) : Block := ⟨t, encodeAll es⟩

/-! ## Names -/

/-- `ndn::Name`: a list of components, each a TLV element. -/
abbrev Name := List Block

/-- a GenericNameComponent (type 8) -/
def gcomp (v : Bytes) : Block := ⟨8, v⟩

/-- `Name::wireEncode` -/
def nameBlock (n : Name) : Block := mkBlock 7 n

/-- `Name(Block)` / `Name::wireDecode`: type check, then parse. -/
def nameOfBlock (b : Block) : Res Name :=
  if b.typ = 7 then b.elements else .exc .tlv

/-- `Name::isPrefixOf` -/
def isPrefixOf (a b : Name) : Bool := a.isPrefixOf b

/-- An element that fits the TLV format: type 1 .. 2^32-1, value shorter than 2^64 octets.
Every `ndn::Block` that exists in memory satisfies it. -/
def Block.Fits (b : Block) : Prop := 0 < b.typ ∧ b.typ < 2 ^ 32 ∧ b.val.length < 2 ^ 64

instance (b : Block) : Decidable b.Fits := by unfold Block.Fits; infer_instance

/-- A name whose components and whose own wire form fit. -/
def NameFits (n : Name) : Prop := (∀ c ∈ n, c.Fits) ∧ (encodeAll n).length < 2 ^ 64

instance (n : Name) : Decidable (NameFits n) := by unfold NameFits; infer_instance

/-- Component types are 1..65535 (ndn-cxx rejects others when a component is made or decoded). -/
def Name.Wf (n : Name) : Prop := ∀ c ∈ n, 0 < c.typ ∧ c.typ ≤ 65535

/-! ## TLV type numbers -/

namespace T
/-! ndn-cxx numbers -/
@[simp] abbrev Data : Nat := 6
@[simp] abbrev Name : Nat := 7
@[simp] abbrev Content : Nat := 21
@[simp] abbrev ForwardingHint : Nat := 30
@[simp] abbrev ApplicationParameters : Nat := 36
/-! src/detail/ndncert-common.hpp:73-100 -/
@[simp] abbrev CaPrefix : Nat := 129
@[simp] abbrev CaInfo : Nat := 131
@[simp] abbrev ParameterKey : Nat := 133
@[simp] abbrev ParameterValue : Nat := 135
@[simp] abbrev CaCertificate : Nat := 137
@[simp] abbrev MaxValidityPeriod : Nat := 139
@[simp] abbrev ProbeResponse : Nat := 141
@[simp] abbrev MaxSuffixLength : Nat := 143
@[simp] abbrev EcdhPub : Nat := 145
@[simp] abbrev CertRequest : Nat := 147
@[simp] abbrev Salt : Nat := 149
@[simp] abbrev RequestId : Nat := 151
@[simp] abbrev Challenge : Nat := 153
@[simp] abbrev Status : Nat := 155
@[simp] abbrev InitializationVector : Nat := 157
@[simp] abbrev EncryptedPayload : Nat := 159
@[simp] abbrev SelectedChallenge : Nat := 161
@[simp] abbrev ChallengeStatus : Nat := 163
@[simp] abbrev RemainingTries : Nat := 165
@[simp] abbrev RemainingTime : Nat := 167
@[simp] abbrev IssuedCertName : Nat := 169
@[simp] abbrev ErrorCode : Nat := 171
@[simp] abbrev ErrorInfo : Nat := 173
@[simp] abbrev AuthenticationTag : Nat := 175
@[simp] abbrev CertToRevoke : Nat := 177
@[simp] abbrev ProbeRedirect : Nat := 179
end T

end Ndncert
