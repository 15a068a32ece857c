import Verif.Model.OpenSsl
import Verif.Spec.Toy

/-! # What is asked of the operations behind OpenSSL, and what it means for the wrappers to be right -/

namespace Ndncert.OpenSsl

/-- laws of AES-GCM, HMAC, HKDF and the curve; the coordinates of prime256v1 have 32 octets -/
structure Prims.Lawful (P : Prims) : Prop where
  stream_length : ∀ k iv t, (P.stream k iv t).length = t.length
  stream_inverse : ∀ k iv t, P.stream k iv (P.stream k iv t) = t
  mac_length : ∀ k iv a t, (P.mac k iv a t).length = 16
  hmac_length : ∀ k d, (P.hmac k d).length = 32
  hkdf_length : ∀ s k i n, (P.hkdf s k i n).length = n
  octets : ∀ p, P.ofOctets (P.toOctets p) = some p
  octets_ne : ∀ p, P.toOctets p ≠ []
  mul_length : ∀ a p, (P.mul a p).length = 32
  mul_comm : ∀ a b, P.mul a (P.pubOf b) = P.mul b (P.pubOf a)

/-- the tag is that of the ciphertext and associated data under the key and IV -/
def Authentic (P : Prims) (key iv aad ciphertext tag : Bytes) : Prop := tag = P.mac key iv aad ciphertext

/-- the operations assumed in the rest of the model, made from the wrappers with calls that do not fail -/
def opensslCrypto (P : Prims) (C : Crypto) : Crypto :=
  { C with
    ecdhPub := fun priv => match getSelfPubKey P .good .good .good priv with | .ok b => b | _ => []
    ecdhDerive := fun priv peer => match deriveSecret P {} priv peer with | .ok s => some s | _ => none
    hmac := fun key data => match hmacSha256 P .good data key with | .ok b => b | _ => []
    hkdf := fun secret salt info => match hkdf P {} secret salt info (List.replicate 16 0) with | .ok b => b | _ => []
    aesEnc := fun key iv aad text =>
      match aesGcm128Encrypt P {} text aad key iv (List.replicate text.length 0) (List.replicate 16 0) with
      | .ok (n, out, tag) => (out.take n, tag)
      | _ => ([], [])
    aesDec := fun key iv aad text tag =>
      match aesGcm128Decrypt P {} text aad tag key iv (List.replicate text.length 0) with
      | .ok (n, out) => some (out.take n)
      | _ => none }

/-- an instance, for examples -/
def toyPrims : Prims where
  stream k iv t := t.map (· ^^^ (Toy.sum k + Toy.sum iv))
  mac k iv a t := Toy.pad 16 (Toy.sum k :: Toy.sum iv :: Toy.sum a :: Toy.sum t :: a ++ t)
  hmac k d := Toy.pad 32 (Toy.sum k :: Toy.sum d :: d.reverse)
  hkdf s k i n := Toy.pad n (Toy.sum (s.getD []) :: Toy.sum k :: Toy.sum i :: k)
  Point := UInt8
  pubOf a := Toy.sum a
  toOctets p := [4, p]
  ofOctets b := match b with | [4, p] => some p | _ => none
  mul a p := List.replicate 32 (Toy.sum a + p)

theorem toyPrims_lawful : toyPrims.Lawful where
  stream_length k iv t := by simp [toyPrims]
  stream_inverse k iv t := by
    show (t.map _).map _ = t
    rw [List.map_map]
    conv => rhs; rw [← List.map_id t]
    apply List.map_congr_left
    intro x _
    show x ^^^ _ ^^^ _ = x
    rw [UInt8.xor_assoc, UInt8.xor_self, UInt8.xor_zero]
  mac_length k iv a t := by simp [toyPrims]
  hmac_length k d := by simp [toyPrims]
  hkdf_length s k i n := by simp [toyPrims]
  octets p := rfl
  octets_ne p := by simp [toyPrims]
  mul_length a p := by simp [toyPrims]
  mul_comm a b := by
    show List.replicate 32 (Toy.sum a + Toy.sum b) = List.replicate 32 (Toy.sum b + Toy.sum a)
    rw [UInt8.add_comm]

end Ndncert.OpenSsl
