import Verif.Spec.OpenSsl

/-! # The wrappers around OpenSSL: C92, C93 -/

namespace Ndncert.Props

open Ndncert.OpenSsl

/-! ## C92 AES-GCM -/

/-- C92, the full statement: whichever calls of OpenSSL fail, text that is returned was authenticated, with the associated data. -/
def DecryptionAuthentic (P : Prims) : Prop :=
  ∀ (f : CipherCalls) (ciphertext aad tag key iv buf : Bytes) (n : Nat) (out : Bytes), key.length = 16 → iv.length = 12 → tag.length = 16 →
    aesGcm128Decrypt P f ciphertext aad tag key iv buf = .ok (n, out) → Authentic P key iv aad ciphertext tag

/-- C92 is false of the code: the results of `EVP_DecryptUpdate` are ignored. If the one for the text fails, any text of the size
left in `len` is "decrypted" to the former contents of the buffer, with the tag of the associated data alone. -/
theorem C92_false : ∃ P : Prims, P.Lawful ∧ ¬ DecryptionAuthentic P := by
  refine ⟨toyPrims, toyPrims_lawful, fun h => ?_⟩
  have := h { text := { fails := true, left := 8 } } (List.replicate 8 66) (List.replicate 8 7)
    (toyPrims.mac (List.replicate 16 3) (List.replicate 12 4) (List.replicate 8 7) []) (List.replicate 16 3) (List.replicate 12 4) (List.replicate 8 0)
    8 (List.replicate 8 0) rfl rfl (by decide) (by decide)
  exact absurd this (by unfold Authentic; decide)

/-- C92, what holds for every pattern of failing calls: text is only returned if the tag is right under the given key and IV, for
the associated data and the ciphertext, each unless the call for it failed. -/
theorem C92_checked_partial (P : Prims) (f : CipherCalls) {ciphertext aad tag key iv buf out : Bytes} {n : Nat} (hk : key.length = 16) (hi : iv.length = 12)
    (ht : tag.length = 16) (h : aesGcm128Decrypt P f ciphertext aad tag key iv buf = .ok (n, out)) :
    Authentic P key iv (if f.aad.fails then [] else aad) (if f.text.fails then [] else ciphertext) tag ∧
    (f.text.fails = false → out = P.stream key iv ciphertext ∧ n = ciphertext.length) := by
  have e1 : key.take 16 = key := List.take_of_length_le (by omega)
  have e2 : iv.take 12 = iv := List.take_of_length_le (by omega)
  have e3 : tag.take 16 = tag := List.take_of_length_le (by omega)
  obtain ⟨fn, fi, fl, fk, fa, fx, ff, ft⟩ := f
  unfold aesGcm128Decrypt at h
  cases h1 : fn.fails <;> cases h2 : fi.fails <;> cases h3 : fl.fails <;> cases h4 : fk.fails <;> cases h5 : fa.fails <;> cases h6 : fx.fails <;>
    cases h7 : ff.fails <;> cases h8 : ft.fails <;>
    simp [CipherCtx.init, CipherCtx.setIvLen, CipherCtx.setKey, CipherCtx.updateAad, CipherCtx.decrypt, CipherCtx.setTag, CipherCtx.decryptFinal,
      h1, h2, h3, h4, h5, h6, h7, h8, e1, e2, e3] at h <;>
    (split at h <;> simp at h <;> simp_all [Authentic])

/-- C92: if no call fails, a ciphertext is decrypted exactly if its tag is right; otherwise the wrapper throws. -/
theorem C92_decrypts (P : Prims) {ciphertext aad tag key iv buf : Bytes} (hk : key.length = 16) (hi : iv.length = 12) (ht : tag.length = 16) :
    (Authentic P key iv aad ciphertext tag → aesGcm128Decrypt P {} ciphertext aad tag key iv buf = .ok (ciphertext.length, P.stream key iv ciphertext)) ∧
    (¬ Authentic P key iv aad ciphertext tag → aesGcm128Decrypt P {} ciphertext aad tag key iv buf = .exc .runtime) := by
  have e1 : key.take 16 = key := List.take_of_length_le (by omega)
  have e2 : iv.take 12 = iv := List.take_of_length_le (by omega)
  have e3 : tag.take 16 = tag := List.take_of_length_le (by omega)
  unfold aesGcm128Decrypt Authentic
  refine ⟨fun h => ?_, fun h => ?_⟩
  · simp [CipherCtx.init, CipherCtx.setIvLen, CipherCtx.setKey, CipherCtx.updateAad, CipherCtx.decrypt, CipherCtx.setTag, CipherCtx.decryptFinal, Call.good, e1, e2, e3, ← h]
  · simp [CipherCtx.init, CipherCtx.setIvLen, CipherCtx.setKey, CipherCtx.updateAad, CipherCtx.decrypt, CipherCtx.setTag, CipherCtx.decryptFinal, Call.good, e1, e2, e3, h]

/-- C92, encryption: whichever calls fail, a tag that is returned was made under the given key and IV, for the associated data and the
ciphertext, each unless the call for it failed. In that case the buffer is as it was before; otherwise it is the ciphertext. -/
theorem C92_encrypted_partial (P : Prims) (f : CipherCalls) {plaintext aad key iv buf tagBuf out tag : Bytes} {n : Nat} (hk : key.length = 16) (hi : iv.length = 12)
    (h : aesGcm128Encrypt P f plaintext aad key iv buf tagBuf = .ok (n, out, tag)) :
    Authentic P key iv (if f.aad.fails then [] else aad) (if f.text.fails then [] else out) tag ∧
    (f.text.fails = false → out = P.stream key iv plaintext ∧ n = plaintext.length) ∧ (f.text.fails = true → out = buf) := by
  have e1 : key.take 16 = key := List.take_of_length_le (by omega)
  have e2 : iv.take 12 = iv := List.take_of_length_le (by omega)
  obtain ⟨fn, fi, fl, fk, fa, fx, ff, ft⟩ := f
  unfold aesGcm128Encrypt at h
  cases h1 : fn.fails <;> cases h2 : fi.fails <;> cases h3 : fl.fails <;> cases h4 : fk.fails <;> cases h5 : fa.fails <;> cases h6 : fx.fails <;>
    cases h7 : ff.fails <;> cases h8 : ft.fails <;>
    simp [CipherCtx.init, CipherCtx.setIvLen, CipherCtx.setKey, CipherCtx.updateAad, CipherCtx.encrypt, CipherCtx.encryptFinal, CipherCtx.getTag,
      h1, h2, h3, h4, h5, h6, h7, h8, e1, e2] at h <;>
    (obtain ⟨r1, r2, r3⟩ := h; subst r1 r2 r3; simp [Authentic])

/-- C92: if no call fails, the text is encrypted. -/
theorem C92_encrypts (P : Prims) {plaintext aad key iv buf tagBuf : Bytes} (hk : key.length = 16) (hi : iv.length = 12) :
    aesGcm128Encrypt P {} plaintext aad key iv buf tagBuf =
      .ok (plaintext.length, P.stream key iv plaintext, P.mac key iv aad (P.stream key iv plaintext)) := by
  have e1 : key.take 16 = key := List.take_of_length_le (by omega)
  have e2 : iv.take 12 = iv := List.take_of_length_le (by omega)
  unfold aesGcm128Encrypt
  simp [CipherCtx.init, CipherCtx.setIvLen, CipherCtx.setKey, CipherCtx.updateAad, CipherCtx.encrypt, CipherCtx.encryptFinal, CipherCtx.getTag, Call.good, e1, e2]

/-- an encrypted text is decrypted; with another tag it is not; and with the first call failing it is not either -/
example :
    aesGcm128Encrypt toyPrims {} [1, 2, 3] [9] (List.replicate 16 3) (List.replicate 12 4) [0, 0, 0] (List.replicate 16 0) =
      .ok (3, toyPrims.stream (List.replicate 16 3) (List.replicate 12 4) [1, 2, 3],
        toyPrims.mac (List.replicate 16 3) (List.replicate 12 4) [9] (toyPrims.stream (List.replicate 16 3) (List.replicate 12 4) [1, 2, 3])) ∧
    aesGcm128Decrypt toyPrims {} (toyPrims.stream (List.replicate 16 3) (List.replicate 12 4) [1, 2, 3]) [9]
      (toyPrims.mac (List.replicate 16 3) (List.replicate 12 4) [9] (toyPrims.stream (List.replicate 16 3) (List.replicate 12 4) [1, 2, 3]))
      (List.replicate 16 3) (List.replicate 12 4) [0, 0, 0] = .ok (3, [1, 2, 3]) ∧
    aesGcm128Decrypt toyPrims {} [1, 2, 3] [9] (List.replicate 16 0) (List.replicate 16 3) (List.replicate 12 4) [0, 0, 0] = .exc .runtime ∧
    aesGcm128Decrypt toyPrims { init := { fails := true } } (toyPrims.stream (List.replicate 16 3) (List.replicate 12 4) [1, 2, 3]) [9]
      (toyPrims.mac (List.replicate 16 3) (List.replicate 12 4) [9] (toyPrims.stream (List.replicate 16 3) (List.replicate 12 4) [1, 2, 3]))
      (List.replicate 16 3) (List.replicate 12 4) [0, 0, 0] = .exc .runtime ∧
    aesGcm128Decrypt toyPrims { ivLen := { fails := true } } (toyPrims.stream (List.replicate 16 3) (List.replicate 12 4) [1, 2, 3]) [9]
      (toyPrims.mac (List.replicate 16 3) (List.replicate 12 4) [9] (toyPrims.stream (List.replicate 16 3) (List.replicate 12 4) [1, 2, 3]))
      (List.replicate 16 3) (List.replicate 12 4) [0, 0, 0] = .ok (3, [1, 2, 3]) := by
  decide

/-! ## C93 keys -/

/-- C93, the full statement for ECDH: whichever calls fail, a secret that is returned is the one shared with the holder of the peer's key. -/
def SecretShared (P : Prims) : Prop :=
  ∀ (f : DeriveCalls) (priv peerKey secret : Bytes), f.derive.code ≤ 0 → deriveSecret P f priv peerKey = .ok secret →
    ∃ q, P.ofOctets peerKey = some q ∧ secret = P.mul priv q

/-- C93, the full statement for HKDF: whichever calls fail, a key that is returned is derived from the secret, salt and info. -/
def KeyDerived (P : Prims) : Prop :=
  ∀ (f : KdfCalls) (secret salt info buf out : Bytes), f.derive.code ≤ 0 → hkdf P f secret salt info buf = .ok out →
    out = P.hkdf (some salt) secret info buf.length

/-- C93 is false of the code: only the value 0 of the last call is taken for a failure. If the context cannot be initialised,
the "secret" is empty whatever the keys are, and the "AES key" is what happened to be in the buffer. -/
theorem C93_false : ∃ P : Prims, P.Lawful ∧ ¬ SecretShared P ∧ ¬ KeyDerived P ∧
    (∀ priv peerKey, deriveSecret P { init := { fails := true } } priv peerKey = .ok []) ∧
    (∀ secret salt info buf, hkdf P { init := { fails := true } } secret salt info buf = .ok buf) := by
  have h1 : ∀ priv peerKey, deriveSecret toyPrims { init := { fails := true } } priv peerKey = .ok [] := by intro priv peerKey; rfl
  have h2 : ∀ secret salt info buf, hkdf toyPrims { init := { fails := true } } secret salt info buf = .ok buf := by intro _ _ _ _; rfl
  refine ⟨toyPrims, toyPrims_lawful, fun h => ?_, fun h => ?_, h1, h2⟩
  · obtain ⟨q, _, h3⟩ := h { init := { fails := true } } [1] [4, 2] [] (by decide) (h1 _ _)
    have := congrArg List.length h3
    rw [toyPrims_lawful.mul_length] at this
    cases this
  · exact absurd (h { init := { fails := true } } [1] [2] [3] [0, 0] [0, 0] (by decide) (h2 _ _ _ _)) (by decide)

/-- C93, what holds: if the derivation context can be made and initialised, the length is told, and the last call fails with 0 only, then
whichever other calls fail, a secret that is returned is the shared one. -/
theorem C93_secret_partial {P : Prims} (hP : P.Lawful) (f : DeriveCalls) {priv peerKey secret : Bytes} (h1 : f.ctxNew.fails = false) (h2 : f.init.fails = false)
    (h3 : f.size.fails = false) (h4 : f.derive.code = 0) (h : deriveSecret P f priv peerKey = .ok secret) :
    ∃ q, P.ofOctets peerKey = some q ∧ secret = P.mul priv q := by
  unfold deriveSecret at h
  split at h
  · cases h
  dsimp only at h
  unfold deriveSize deriveCode at h
  rw [h1, h2, h3, h4] at h
  simp only [Bool.false_eq_true, false_or, or_false, if_false] at h
  by_cases hp : f.setGroup.fails = true ∨ f.setPublic.fails = true ∨ f.set1.fails = true ∨ f.setPeer.fails = true
  · rw [if_pos hp] at h
    simp at h
  · rw [if_neg hp] at h
    by_cases hd : f.derive.fails = true
    · rw [if_pos hd] at h
      simp at h
    · rw [if_neg hd] at h
      cases hq : (if f.oct2point.fails = true then none else P.ofOctets peerKey) with
      | none => rw [hq] at h; simp at h
      | some q =>
        rw [hq] at h
        have hl := hP.mul_length priv q
        simp [hl] at h
        split at hq
        · cases hq
        · exact ⟨q, hq, h.symm⟩

/-- C93: if no call fails, a valid key of the peer gives the shared secret, and an invalid one makes the wrapper throw. -/
theorem C93_peer {P : Prims} (hP : P.Lawful) (priv peerKey : Bytes) :
    (∀ q, P.ofOctets peerKey = some q → deriveSecret P {} priv peerKey = .ok (P.mul priv q)) ∧
    (P.ofOctets peerKey = none → deriveSecret P {} priv peerKey = .exc .runtime) := by
  constructor
  · intro q hq
    have hl := hP.mul_length priv q
    simp [deriveSecret, deriveSize, deriveCode, Call.good, hq, hl]
  · intro hq
    simp [deriveSecret, deriveSize, deriveCode, Call.good, hq]

/-- C93, HKDF: if the context can be made and initialised, salt and info can be set, and the last call fails with 0 only, then
whichever other calls fail, a key that is returned is the derived one. -/
theorem C93_key_partial (P : Prims) (f : KdfCalls) {secret salt info buf out : Bytes} (h1 : f.new.fails = false) (h2 : f.init.fails = false)
    (h3 : f.salt.fails = false) (h4 : f.info.fails = false) (h5 : f.derive.code = 0) (h : hkdf P f secret salt info buf = .ok out) :
    out = P.hkdf (some salt) secret info buf.length := by
  unfold hkdf at h
  cases h6 : f.md.fails <;> cases h7 : f.key.fails <;> cases h8 : f.derive.fails <;>
    simp [KdfCtx.set, KdfCtx.derive, h1, h2, h3, h4, h5, h6, h7, h8] at h
  exact h.symm

/-- C93, key generation: whichever calls fail, a key is returned only if none of them failed; otherwise the constructor throws. -/
theorem C93_keygen (f : KeygenCalls) (priv : Bytes) (hc : f.keygen.code ≤ 0) :
    (ecdhState f priv = .ok priv ∨ ecdhState f priv = .exc .runtime) ∧
    (ecdhState f priv = .ok priv → f.paramCtx.fails = false ∧ f.paramInit.fails = false ∧ f.curve.fails = false ∧ f.params.fails = false ∧
      f.keyCtx.fails = false ∧ f.keyInit.fails = false ∧ f.keygen.fails = false) := by
  unfold ecdhState
  cases h1 : f.paramCtx.fails <;> cases h2 : f.paramInit.fails <;> cases h3 : f.curve.fails <;> cases h4 : f.params.fails <;> cases h5 : f.keyCtx.fails <;>
    cases h6 : f.keyInit.fails <;> cases h7 : f.keygen.fails <;> simp [hc]

/-- C93, HMAC: the digest is returned exactly if the call did not fail; otherwise the wrapper throws. -/
theorem C93_hmac (P : Prims) (f : Call) (data key : Bytes) :
    (∀ out, hmacSha256 P f data key = .ok out ↔ f.fails = false ∧ out = P.hmac key data) ∧ (f.fails = true → hmacSha256 P f data key = .exc .runtime) := by
  unfold hmacSha256
  cases f.fails with
  | true => exact ⟨fun out => ⟨fun h => (by cases h), fun h => absurd h.1 (by decide)⟩, fun _ => rfl⟩
  | false => exact ⟨fun out => ⟨fun h => (by cases h; exact ⟨rfl, rfl⟩), fun h => (by rw [h.2]; rfl)⟩, fun h => (by cases h)⟩

/-- the hypotheses of C93 are met: a valid and an invalid key of the peer, and a derived key -/
example : deriveSecret toyPrims {} [1, 2] [4, 7] = .ok (List.replicate 32 10) ∧ deriveSecret toyPrims {} [1, 2] [5, 7] = .exc .runtime ∧
    deriveSecret toyPrims { setPeer := { fails := true, code := -1 } } [1, 2] [4, 7] = .exc .runtime ∧
    hkdf toyPrims {} [1] [2] [3] (List.replicate 4 0) = .ok [2, 1, 3, 1] ∧
    hkdf toyPrims { key := { fails := true } } [1] [2] [3] (List.replicate 4 0) = .exc .runtime ∧
    ecdhState {} [1, 2] = .ok [1, 2] ∧ ecdhState { params := { fails := true } } [1, 2] = .exc .runtime := by
  decide

/-- C92, C93: with calls that do not fail the wrappers are operations as assumed everywhere else in this development: the laws
follow from those of the mathematical operations. -/
theorem C92_laws {P : Prims} (hP : P.Lawful) {C : Crypto} (hC : C.Lawful) : (opensslCrypto P C).Lawful := by
  have enc : ∀ k iv a p, (opensslCrypto P C).aesEnc k iv a p =
      (P.stream (k.take 16) (iv.take 12) p, P.mac (k.take 16) (iv.take 12) a (P.stream (k.take 16) (iv.take 12) p)) := by
    intro k iv a p
    have hl := hP.stream_length (k.take 16) (iv.take 12) p
    simp [opensslCrypto, aesGcm128Encrypt, CipherCtx.init, CipherCtx.setIvLen, CipherCtx.setKey, CipherCtx.updateAad, CipherCtx.encrypt, CipherCtx.encryptFinal,
      CipherCtx.getTag, Call.good, ← hl]
  have pub : ∀ a, (opensslCrypto P C).ecdhPub a = P.toOctets (P.pubOf a) := by
    intro a
    have h := hP.octets_ne (P.pubOf a)
    simp [opensslCrypto, getSelfPubKey, Call.good, h]
  have derive : ∀ a b, (opensslCrypto P C).ecdhDerive a (P.toOctets (P.pubOf b)) = some (P.mul a (P.pubOf b)) := by
    intro a b
    have h := (C93_peer hP a (P.toOctets (P.pubOf b))).1 _ (hP.octets _)
    simp only [opensslCrypto, h]
  refine ⟨hC.decode_wire, hC.decode_name, hC.data_wire, hC.data_of_cert, ?_, ?_, hC.sha256_length, ?_, ?_, ?_, ?_, ?_⟩
  · intro k d
    simp [opensslCrypto, hmacSha256, Call.good, hP.hmac_length]
  · intro s t i
    simp [opensslCrypto, hkdf, KdfCtx.set, KdfCtx.derive, Call.good, hP.hkdf_length]
  · intro k iv a p
    rw [enc]
    exact ⟨hP.stream_length .., hP.mac_length ..⟩
  · intro k iv a p
    rw [enc]
    have hm := hP.mac_length (k.take 16) (iv.take 12) a (P.stream (k.take 16) (iv.take 12) p)
    have ht : (P.mac (k.take 16) (iv.take 12) a (P.stream (k.take 16) (iv.take 12) p)).take 16 = P.mac (k.take 16) (iv.take 12) a (P.stream (k.take 16) (iv.take 12) p) :=
      List.take_of_length_le (by omega)
    have hs := hP.stream_inverse (k.take 16) (iv.take 12) p
    have hl := hP.stream_length (k.take 16) (iv.take 12) p
    simp [opensslCrypto, aesGcm128Decrypt, CipherCtx.init, CipherCtx.setIvLen, CipherCtx.setKey, CipherCtx.updateAad, CipherCtx.decrypt, CipherCtx.setTag,
      CipherCtx.decryptFinal, Call.good, ht, hs, hl]
  · intro a b
    rw [pub, pub, derive, derive, hP.mul_comm]
  · intro a b
    rw [pub, derive]
    rfl
  · intro a
    rw [pub]
    exact hP.octets_ne _

example : (opensslCrypto toyPrims Toy.crypto).Lawful := C92_laws toyPrims_lawful Toy.lawful

end Ndncert.Props
