import Verif.Model.Types

/-! # AES-GCM block format and IV handling (src/detail/crypto-helpers.cpp:365-457) -/

namespace Ndncert

/-- `loadBigU32(&iv[8])` (crypto-helpers.cpp:365-369) -/
def ivCounter (iv : Bytes) : Nat := beVal ((iv.drop 8).take 4)

/-- the first eight octets of an IV, its random part -/
def ivPrefix (iv : Bytes) : Bytes := iv.take 8

/-- `updateIv` (crypto-helpers.cpp:371-385). `increment` is a `uint32_t`, hence the reduction. -/
def updateIv (iv : Bytes) (payloadSize : Nat) : Res Bytes :=
  let counter := ivCounter iv
  let increment := ((payloadSize + 15) / 16) % 2 ^ 32
  if (2 ^ 32 - 1) - counter ≤ increment then .exc .runtime
  else .ok (iv.take 8 ++ beBytes 4 (counter + increment) ++ iv.drop 12)

/-- the IV used by an encryption: the stored one, or eight fresh random octets and a zero counter
(crypto-helpers.cpp:396-399) -/
def startIv (iv rnd : Bytes) : Bytes := if iv = [] then rnd ++ [0, 0, 0, 0] else iv

/-- `encodeBlockWithAesGcm128` (crypto-helpers.cpp:387-414). `rnd` are the eight octets drawn if the IV is
empty. Returns the IV left in the caller's variable (also when throwing) and the block.
An IV shorter than 12 octets would be read out of bounds. -/
def encodeAes (C : Crypto) (t : Nat) (key payload aad iv rnd : Bytes) : Bytes × Res Block :=
  let iv0 := startIv iv rnd
  if iv0.length < 12 then (iv0, .ub .overflow)
  else
    let (ct, tag) := C.aesEnc key (iv0.take 12) aad payload
    let content := mkBlock t [binBlock T.InitializationVector iv0, binBlock T.AuthenticationTag tag,
                              binBlock T.EncryptedPayload ct]
    match updateIv iv0 payload.length with
    | .ok iv1 => (iv1, .ok content)
    | .exc e => (iv0, .exc e)
    | .ub u => (iv0, .ub u)

/-- `decodeBlockWithAesGcm128` (crypto-helpers.cpp:416-457). Returns the decryption IV left in the caller's
variable (also when throwing) and the plaintext. -/
def decodeAes (C : Crypto) (block : Block) (key aad decIv encIv : Bytes) : Bytes × Res Bytes :=
  match (do
    let es ← block.elements
    let payload ← getElem es T.EncryptedPayload
    let iv ← getElem es T.InitializationVector
    let tag ← getElem es T.AuthenticationTag
    if iv.val.length ≠ 12 ∨ tag.val.length ≠ 16 then Res.exc .runtime
    else .ok (payload.val, iv.val, tag.val) : Res (Bytes × Bytes × Bytes)) with
  | .exc e => (decIv, .exc e)
  | .ub u => (decIv, .ub u)
  | .ok (ct, obs, tag) =>
    if encIv ≠ [] ∧ encIv.length < 8 then (decIv, .ub .overflow)
    else if encIv ≠ [] ∧ ivPrefix obs = ivPrefix encIv then (decIv, .exc .runtime)
    else if decIv ≠ [] ∧ decIv.length < 12 then (decIv, .ub .overflow)
    else if decIv ≠ [] ∧ (ivCounter obs < ivCounter decIv ∨ ivPrefix obs ≠ ivPrefix decIv) then
      (decIv, .exc .runtime)
    else
      match C.aesDec key obs aad ct tag with
      | none => (obs, .exc .runtime)
      | some pt =>
        if pt.length ≠ ct.length then (obs, .exc .runtime)
        else match updateIv obs pt.length with
          | .ok iv1 => (iv1, .ok pt)
          | .exc e => (obs, .exc e)
          | .ub u => (obs, .ub u)

end Ndncert
