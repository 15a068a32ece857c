import Verif.Spec.Independence
import Verif.Spec.RequestObject

/-! # Vocabulary: the same run with other secret keys

To say that secret keys stay inside, the keys are exchanged for others: the cryptographic operations that take a secret key are replaced by operations that do
with the other keys what the given ones do with the given keys. A program that uses its keys for these operations only cannot notice; one that puts a
key, or part of it, into a packet, a file, an error text or a comparison can. -/

namespace Ndncert

/-- the operations that take or yield a secret key -/
structure KeyOps where
  ecdhPub : Bytes → Bytes
  ecdhDerive : Bytes → Bytes → Option Bytes
  hmac : Bytes → Bytes → Bytes
  hkdf : Bytes → Bytes → Bytes → Bytes
  aesEnc : Bytes → Bytes → Bytes → Bytes → Bytes × Bytes
  aesDec : Bytes → Bytes → Bytes → Bytes → Bytes → Option Bytes

/-- `C` with these operations instead of its own -/
def Crypto.keyed (C : Crypto) (K : KeyOps) : Crypto :=
  { C with ecdhPub := K.ecdhPub, ecdhDerive := K.ecdhDerive, hmac := K.hmac, hkdf := K.hkdf, aesEnc := K.aesEnc, aesDec := K.aesDec }

/-- what stands for a secret key in the other run: for a private ECDH key, for the secret ECDH yields, for an AES key, for the CA's key for request ids -/
structure OtherKeys where
  ecdh : Bytes → Bytes
  shared : Bytes → Bytes
  aes : Bytes → Bytes
  mac : Bytes → Bytes

/-- `K` does with the other keys what `C` does with the original ones. AES keys have 16 octets also there, and the 16 zeros with which every `Request` object starts
stay what they are. -/
structure KeyOps.Mirror (K : KeyOps) (C : Crypto) (f : OtherKeys) : Prop where
  pub : ∀ k, K.ecdhPub (f.ecdh k) = C.ecdhPub k
  derive : ∀ k p, K.ecdhDerive (f.ecdh k) p = (C.ecdhDerive k p).map f.shared
  hkdf : ∀ s salt info, K.hkdf (f.shared s) salt info = f.aes (C.hkdf s salt info)
  enc : ∀ k iv aad p, K.aesEnc (f.aes k) iv aad p = C.aesEnc k iv aad p
  dec : ∀ k iv aad ct tag, K.aesDec (f.aes k) iv aad ct tag = C.aesDec k iv aad ct tag
  mac : ∀ k d, K.hmac (f.mac k) d = C.hmac k d
  size : ∀ k, k.length = 16 → (f.aes k).length = 16
  zeros : f.aes (List.replicate 16 0) = List.replicate 16 0

/-- the Request object with the other keys -/
def Request.otherKeys (f : OtherKeys) (r : Request) : Request := { r with ecdhPriv := f.ecdh r.ecdhPriv, aesKey := f.aes r.aesKey }

/-- the request in the CA's storage with the other key -/
def RequestState.otherKeys (f : OtherKeys) (r : RequestState) : RequestState := { r with encryptionKey := f.aes r.encryptionKey }

/-- the environment of a handler that draws the other ECDH key -/
def Env.otherKeys (f : OtherKeys) (env : Env) : Env := { env with ecdhPriv := f.ecdh env.ecdhPriv }

/-- the same thing happens to a CA that draws other keys -/
def Event.otherKeys (f : OtherKeys) : Event → Event
  | .msg m env => .msg m (env.otherKeys f)
  | .crash m env k newKey => .crash m (env.otherKeys f) k (f.mac newKey)
  | .restart newKey => .restart (f.mac newKey)

/-- the two steps send the same Data, sign the same certificates, send the same emails, end alike, and pass to the callback requests that differ in the key only -/
structure SameButKeys {σ : Type} (C C' : Crypto) (S S' : StoreI σ) (cfg : CaConfig) (f : OtherKeys) (n n' : Step σ) : Prop where
  event : n'.event = n.event.otherKeys f
  sent : sent n'.effects = sent n.effects
  issued : issued n'.effects = issued n.effects
  mailed : mailed n'.effects = mailed n.effects
  callbacks : callbacks n'.effects = (callbacks n.effects).map (RequestState.otherKeys f)
  ends : n'.ends C' S' cfg = n.ends C S cfg

end Ndncert
