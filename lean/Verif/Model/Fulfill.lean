import Verif.Model.Challenge

/-! # Filling in the parameters of the possession challenge (src/challenge/challenge-possession.cpp:226-247) -/

namespace Ndncert

/-- a KeyChain: certificates by name, and signing with a key of the TPM -/
structure KeyStore where
  /-- `getPib().getIdentity(..).getKey(..).getCertificate(name)`; `none` = throws -/
  cert : Name → Option Cert
  /-- `getTpm().sign({data}, key, SHA256)`: key and data; `none` = a null pointer, as there is no such key -/
  sign : Name → Bytes → Option Bytes

/-- the loop over the parameters (challenge-possession.cpp:237-244); the signature may be null -/
def fillParams (wire : Bytes) (sig : Option Bytes) : MMap → Res MMap
  | [] => .ok []
  | (k, v) :: rest =>
    if k = KEY_CREDENTIAL then do
      let rest ← fillParams wire sig rest
      .ok ((k, wire) :: rest)
    else if k = KEY_PROOF then
      match sig with
      | none => .ub .nullDeref
      | some s => do
        let rest ← fillParams wire sig rest
        .ok ((k, s) :: rest)
    else do
      let rest ← fillParams wire sig rest
      .ok ((k, v) :: rest)

/-- `ChallengePossession::fulfillParameters` (challenge-possession.cpp:226-245). A name that is not that of a certificate throws. -/
def fulfillParameters (K : KeyStore) (params : MMap) (issuedCertName : Name) (nonce : Bytes) : Res MMap :=
  if isValidCertName issuedCertName = false then .exc .runtime
  else match K.cert issuedCertName with
    | none => .exc .runtime
    | some c => fillParams c.wire.encode (K.sign (issuedCertName.take (issuedCertName.length - 2)) nonce) params

end Ndncert
