import Verif.Lemmas.Module

namespace Ndncert

variable {C : Crypto}

/-- the elements of an AES block -/
theorem sealed_elements (hC : C.Lawful) {t : Nat} {key pt aad iv rnd iv' : Bytes} {b : Block}
    (h : encodeAes C t key pt aad iv rnd = (iv', .ok b)) (hl : (startIv iv rnd).length < 2 ^ 64) (hp : pt.length < 2 ^ 64) :
    parse b.val = .ok [binBlock T.InitializationVector (startIv iv rnd),
        binBlock T.AuthenticationTag (C.aesEnc key ((startIv iv rnd).take 12) aad pt).2,
        binBlock T.EncryptedPayload (C.aesEnc key ((startIv iv rnd).take 12) aad pt).1] := by
  obtain ⟨_, _, hb⟩ := encodeAes_ok h
  rw [hb]
  obtain ⟨l1, l2⟩ := hC.aes_length key ((startIv iv rnd).take 12) aad pt
  refine parse_encodeAll _ ?_
  intro e he
  simp only [List.mem_cons, List.not_mem_nil, or_false] at he
  rcases he with rfl | rfl | rfl
  · exact binBlock_fits _ _ (by decide) (by decide) hl
  · exact binBlock_fits _ _ (by decide) (by decide) (by rw [l2]; decide)
  · exact binBlock_fits _ _ (by decide) (by decide) (by rw [l1]; exact hp)

/-- a block encrypted with the key of the request opens to its plaintext if its IV is fresh for the CA -/
theorem encoded_opens (hC : C.Lawful) {t : Nat} {pt iv rnd iv' : Bytes} {b : Block} {r : RequestState} {i : Interest}
    (h : encodeAes C t r.encryptionKey pt r.requestId iv rnd = (iv', .ok b)) (hi : i.params = some b) (hp : pt.length < 2 ^ 64)
    (hf : FreshIv r (startIv iv rnd) pt.length) : Opens C i r pt := by
  have hl := hf.1
  obtain ⟨l1, l2⟩ := hC.aes_length r.encryptionKey ((startIv iv rnd).take 12) r.requestId pt
  have hpar := sealed_elements hC h (by omega) hp
  refine ⟨b, _, _, _, _, hi, hpar, rfl, rfl, rfl, l2, l1, hf, ?_⟩
  have : (startIv iv rnd).take 12 = startIv iv rnd := List.take_of_length_le (by omega)
  simp only [binBlock_val]
  rw [this]
  exact hC.aes_correct _ _ _ _

/-- what comes out of decrypting such a block is its plaintext -/
theorem encoded_decoded (hC : C.Lawful) {t : Nat} {key aad pt iv rnd iv' div eiv div' pt' : Bytes} {b : Block}
    (h : encodeAes C t key pt aad iv rnd = (iv', .ok b)) (hsz : b.val.length < 2 ^ 64)
    (hd : decodeAes C b key aad div eiv = (div', .ok pt')) : pt' = pt := by
  obtain ⟨l1, l2⟩ := hC.aes_length key ((startIv iv rnd).take 12) aad pt
  have hb := (encodeAes_ok h).2.2
  have hiv : (startIv iv rnd).length < 2 ^ 64 ∧ pt.length < 2 ^ 64 := by
    have h1 := mem_encodeAll_length (es := [binBlock T.InitializationVector (startIv iv rnd),
        binBlock T.AuthenticationTag (C.aesEnc key ((startIv iv rnd).take 12) aad pt).2,
        binBlock T.EncryptedPayload (C.aesEnc key ((startIv iv rnd).take 12) aad pt).1]) (b := binBlock T.InitializationVector (startIv iv rnd)) (by simp)
    have h2 := mem_encodeAll_length (es := [binBlock T.InitializationVector (startIv iv rnd),
        binBlock T.AuthenticationTag (C.aesEnc key ((startIv iv rnd).take 12) aad pt).2,
        binBlock T.EncryptedPayload (C.aesEnc key ((startIv iv rnd).take 12) aad pt).1])
        (b := binBlock T.EncryptedPayload (C.aesEnc key ((startIv iv rnd).take 12) aad pt).1) (by simp)
    rw [hb] at hsz
    simp only [mkBlock] at hsz
    simp only [binBlock_val] at h1 h2
    omega
  have hpar := sealed_elements hC h hiv.1 hiv.2
  obtain ⟨es, ct, iv1, tag, h1, h2, h3, h4, h5, _, _, _, h9, _⟩ := decodeAes_ok hd
  rw [hpar] at h1
  cases h1
  have e1 : ct = binBlock T.EncryptedPayload (C.aesEnc key ((startIv iv rnd).take 12) aad pt).1 := by cases h2; rfl
  have e2 : iv1 = binBlock T.InitializationVector (startIv iv rnd) := by cases h3; rfl
  have e3 : tag = binBlock T.AuthenticationTag (C.aesEnc key ((startIv iv rnd).take 12) aad pt).2 := by cases h4; rfl
  rw [e2] at h5 h9
  rw [e1, e3] at h9
  simp only [binBlock_val] at h5 h9
  have : (startIv iv rnd).take 12 = startIv iv rnd := List.take_of_length_le (by omega)
  rw [this, hC.aes_correct] at h9
  cases h9
  rfl

/-- how a CHALLENGE Interest is made -/
theorem genChallengeInterest_ok {r r' : Request} {params : MMap} {rnd : Bytes} {i : Interest}
    (h : genChallengeInterest C r params rnd = (r', .ok i)) :
    ∃ k es iv b kp, createChallenge r.challengeType = some k ∧ genChallengeTlv k r.status r.challengeStatus params = .ok es ∧
      encodeAes C T.ApplicationParameters r.aesKey (encodeAll es) r.requestId r.encryptionIv rnd = (iv, .ok b) ∧
      r.keyPair = some kp ∧ r' = { r with encryptionIv := iv } ∧
      i = signedInterest C kp.name (r.profile.caPrefix ++ [caComp, challengeComp, gcomp r.requestId]) b := by
  unfold genChallengeInterest at h
  split at h
  · cases h
  split at h
  · cases h
  rename_i k hk
  split at h
  · cases h
  · cases h
  rename_i es hes
  rcases he : encodeAes C T.ApplicationParameters r.aesKey (encodeAll es) r.requestId r.encryptionIv rnd with ⟨iv, res⟩
  rw [he] at h
  dsimp only at h
  cases res with
  | exc e => cases h
  | ub u => cases h
  | ok b =>
    dsimp only at h
    cases hkp : r.keyPair with
    | none => rw [hkp] at h; cases h
    | some kp =>
      rw [hkp] at h
      cases h
      exact ⟨k, es, iv, b, kp, hk, hes, he, rfl, rfl, rfl⟩

end Ndncert
