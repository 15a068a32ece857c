import Verif.Model.Crypto

/-! # Vocabulary for the properties of encryption IVs

Sequences of calls that share one IV variable. -/

namespace Ndncert

/-- number of 16-octet AES blocks of a payload of `n` octets -/
def blocksOf (n : Nat) : Nat := (n + 15) / 16

/-- largest payload of AES-GCM with a 12-octet IV: 2^39 - 256 bits -/
def gcmLimit : Nat := 2 ^ 36 - 32

/-- arguments of one call of `encodeBlockWithAesGcm128`, except the shared IV variable; `rnd` are the
random octets the call draws if it has to -/
structure EncCall where
  typ : Nat
  key : Bytes
  payload : Bytes
  aad : Bytes
  rnd : Bytes
  deriving DecidableEq, Repr

/-- a call the protocol can make: something to encrypt, within the limit of GCM; eight random octets -/
def EncCall.Valid (c : EncCall) : Prop :=
  c.payload ≠ [] ∧ c.payload.length ≤ gcmLimit ∧ c.rnd.length = 8

/-- Calls that share the IV variable `iv`: the outcome of each. -/
def encRun (C : Crypto) : Bytes → List EncCall → List (EncCall × Res Block)
  | _, [] => []
  | iv, c :: cs =>
    let (iv', r) := encodeAes C c.typ c.key c.payload c.aad iv c.rnd
    (c, r) :: encRun C iv' cs

/-- the value of the IV variable after the calls -/
def encEnd (C : Crypto) : Bytes → List EncCall → Bytes
  | iv, [] => iv
  | iv, c :: cs => encEnd C (encodeAes C c.typ c.key c.payload c.aad iv c.rnd).1 cs

/-- the calls that succeeded, each with its block -/
def produced (l : List (EncCall × Res Block)) : List (EncCall × Block) :=
  l.filterMap fun e => match e.2 with | .ok b => some (e.1, b) | _ => none

/-- the IV an encrypted block carries in its InitializationVector element -/
def carriedIv (b : Block) : Option Bytes :=
  match parse b.val with
  | .ok es => (es.find? (fun e => e.typ == T.InitializationVector)).map (fun e => e.val)
  | _ => none

/-- arguments of one call of `decodeBlockWithAesGcm128`, except the shared decryption IV variable -/
structure DecCall where
  block : Block
  key : Bytes
  aad : Bytes
  encIv : Bytes

/-- Calls that share the decryption IV variable `iv`: the value left in the variable and all outcomes. -/
def decRun (C : Crypto) : Bytes → List DecCall → Bytes × List (Res Bytes)
  | iv, [] => (iv, [])
  | iv, c :: cs =>
    let (iv', r) := decodeAes C c.block c.key c.aad iv c.encIv
    let (iv'', rs) := decRun C iv' cs
    (iv'', r :: rs)

end Ndncert
