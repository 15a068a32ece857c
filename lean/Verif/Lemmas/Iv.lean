import Verif.Lemmas.Tlv
import Verif.Spec.IvRuns

namespace Ndncert

theorem ivCounter_lt (iv : Bytes) : ivCounter iv < 2 ^ 32 := by
  have h := beVal_lt ((iv.drop 8).take 4)
  have h2 : ((iv.drop 8).take 4).length ≤ 4 := by simp; omega
  have h3 : 256 ^ ((iv.drop 8).take 4).length ≤ 256 ^ 4 := Nat.pow_le_pow_right (by decide) h2
  unfold ivCounter
  omega

theorem updateIv_ok {iv iv' : Bytes} {n : Nat} (hl : iv.length = 12) (hn : n ≤ 2 ^ 36 - 16)
    (h : updateIv iv n = .ok iv') :
    iv'.length = 12 ∧ ivPrefix iv' = ivPrefix iv ∧ ivCounter iv' = ivCounter iv + blocksOf n ∧
      ivCounter iv + blocksOf n < 2 ^ 32 - 1 := by
  unfold updateIv at h
  dsimp only at h
  have hb : (n + 15) / 16 % 2 ^ 32 = blocksOf n := Nat.mod_eq_of_lt (by omega)
  rw [hb] at h
  split at h
  · cases h
  · rename_i hc
    simp only [Res.ok.injEq] at h
    subst h
    have hlt : ivCounter iv + blocksOf n < 2 ^ 32 - 1 := by omega
    have h8 : (iv.take 8).length = 8 := by simp [hl]
    refine ⟨by simp [hl], ?_, ?_, hlt⟩
    · simp only [ivPrefix, List.append_assoc]
      rw [List.take_append_of_le_length (by omega), List.take_take]
      simp
    · show beVal (List.take 4 (List.drop 8 _)) = _
      rw [List.append_assoc, List.drop_left' h8, List.take_left' (by simp)]
      exact beVal_beBytes_of_lt (by omega)

theorem updateIv_no_ub (iv : Bytes) (n : Nat) (u : Ub) : updateIv iv n ≠ .ub u := by
  unfold updateIv; dsimp only; split <;> simp

theorem updateIv_congr {iv : Bytes} {n m : Nat} (h : n = m) : updateIv iv n = updateIv iv m := by rw [h]

/-- what a successful encryption does -/
theorem encodeAes_ok {C : Crypto} {t : Nat} {key payload aad iv rnd iv' : Bytes} {b : Block}
    (h : encodeAes C t key payload aad iv rnd = (iv', .ok b)) :
    12 ≤ (startIv iv rnd).length ∧ updateIv (startIv iv rnd) payload.length = .ok iv' ∧
      b = mkBlock t [binBlock T.InitializationVector (startIv iv rnd),
        binBlock T.AuthenticationTag (C.aesEnc key ((startIv iv rnd).take 12) aad payload).2,
        binBlock T.EncryptedPayload (C.aesEnc key ((startIv iv rnd).take 12) aad payload).1] := by
  unfold encodeAes at h
  dsimp only at h
  split at h
  · simp at h
  · rename_i hl
    split at h
    · rename_i iv1 hu
      simp only [Prod.mk.injEq, Res.ok.injEq] at h
      exact ⟨by omega, by rw [hu, h.1], h.2.symm⟩
    · simp at h
    · simp at h

theorem encodeAes_iv {C : Crypto} {t : Nat} {key payload aad iv rnd : Bytes}
    (hl : (startIv iv rnd).length = 12) (hn : payload.length ≤ 2 ^ 36 - 16) :
    let iv' := (encodeAes C t key payload aad iv rnd).1
    iv'.length = 12 ∧ ivPrefix iv' = ivPrefix (startIv iv rnd) ∧ ivCounter (startIv iv rnd) ≤ ivCounter iv' := by
  dsimp only
  unfold encodeAes
  dsimp only
  rw [if_neg (by omega)]
  split
  · rename_i iv1 hu
    obtain ⟨h1, h2, h3, _⟩ := updateIv_ok hl hn hu
    exact ⟨h1, h2, by dsimp only; omega⟩
  · exact ⟨hl, rfl, Nat.le_refl _⟩
  · exact ⟨hl, rfl, Nat.le_refl _⟩

/-- the elements of an encrypted block -/
theorem aes_elements (t : Nat) (iv tag ct : Bytes)
    (hiv : iv.length < 2 ^ 64) (htag : tag.length < 2 ^ 64) (hct : ct.length < 2 ^ 64) :
    parse (mkBlock t [binBlock T.InitializationVector iv, binBlock T.AuthenticationTag tag,
      binBlock T.EncryptedPayload ct]).val = .ok [binBlock T.InitializationVector iv, binBlock T.AuthenticationTag tag,
      binBlock T.EncryptedPayload ct] := by
  apply parse_encodeAll
  intro e he
  simp at he
  rcases he with rfl | rfl | rfl
  · exact ⟨by simp, by simp, hiv⟩
  · exact ⟨by simp, by simp, htag⟩
  · exact ⟨by simp, by simp, hct⟩

/-- a block accepted by decryption: its parts, and what happened to the IV -/
theorem decodeAes_ok {C : Crypto} {b : Block} {key aad div encIv div' pt : Bytes}
    (h : decodeAes C b key aad div encIv = (div', .ok pt)) :
    ∃ es ct iv tag, parse b.val = .ok es ∧ getElem es T.EncryptedPayload = .ok ct ∧
      getElem es T.InitializationVector = .ok iv ∧ getElem es T.AuthenticationTag = .ok tag ∧
      iv.val.length = 12 ∧ tag.val.length = 16 ∧
      (encIv ≠ [] → 8 ≤ encIv.length ∧ ivPrefix iv.val ≠ ivPrefix encIv) ∧
      (div ≠ [] → 12 ≤ div.length ∧ ivCounter div ≤ ivCounter iv.val ∧ ivPrefix iv.val = ivPrefix div) ∧
      C.aesDec key iv.val aad ct.val tag.val = some pt ∧ pt.length = ct.val.length ∧
      updateIv iv.val pt.length = .ok div' := by
  unfold decodeAes at h
  split at h
  · simp at h
  · simp at h
  · rename_i ct obs tag hd
    rw [Res.bind_eq_ok] at hd
    obtain ⟨es, h1, hd⟩ := hd
    rw [Res.bind_eq_ok] at hd
    obtain ⟨c, h2, hd⟩ := hd
    rw [Res.bind_eq_ok] at hd
    obtain ⟨i, h3, hd⟩ := hd
    rw [Res.bind_eq_ok] at hd
    obtain ⟨g, h4, hd⟩ := hd
    split at hd
    · cases hd
    · rename_i hlen
      simp only [Res.ok.injEq, Prod.mk.injEq] at hd
      obtain ⟨rfl, rfl, rfl⟩ := hd
      split at h
      · simp at h
      rename_i n1
      split at h
      · simp at h
      rename_i n2
      split at h
      · simp at h
      rename_i n3
      split at h
      · simp at h
      rename_i n4
      split at h
      · simp at h
      rename_i p hp
      split at h
      · simp at h
      rename_i n5
      split at h
      · rename_i iv1 hu
        simp only [Prod.mk.injEq, Res.ok.injEq] at h
        obtain ⟨rfl, rfl⟩ := h
        refine ⟨es, c, i, g, h1, h2, h3, h4, by omega, by omega, ?_, ?_, hp, by omega, hu⟩
        · intro hne
          refine ⟨?_, fun heq => n2 ⟨hne, heq⟩⟩
          have : ¬ (encIv.length < 8) := fun hlt => n1 ⟨hne, hlt⟩
          omega
        · intro hne
          have h12 : ¬ (div.length < 12) := fun hlt => n3 ⟨hne, hlt⟩
          have hnn : ¬ (ivCounter i.val < ivCounter div ∨ ivPrefix i.val ≠ ivPrefix div) := fun hx => n4 ⟨hne, hx⟩
          simp only [not_or, Nat.not_lt, ne_eq, Decidable.not_not] at hnn
          exact ⟨by omega, hnn.1, hnn.2⟩
      · simp at h
      · simp at h

/-- decryption never reaches undefined behaviour when the stored IVs are absent or of full length -/
theorem decodeAes_no_ub {C : Crypto} {b : Block} {key aad div encIv : Bytes}
    (hd : div = [] ∨ 12 ≤ div.length) (he : encIv = [] ∨ 8 ≤ encIv.length) (u : Ub) :
    (decodeAes C b key aad div encIv).2 ≠ .ub u := by
  unfold decodeAes
  split
  · simp
  · rename_i v hd
    exfalso
    cases h1 : b.elements with
    | exc e => rw [h1] at hd; simp at hd
    | ub w => exact elements_no_ub _ _ h1
    | ok es =>
      rw [h1] at hd
      simp only [Res.bind_ok, getElem] at hd
      cases h2 : es.find? (fun e => e.typ == T.EncryptedPayload) <;> rw [h2] at hd <;> simp at hd
      cases h3 : es.find? (fun e => e.typ == T.InitializationVector) <;>
        simp only [T.InitializationVector] at h3 <;> rw [h3] at hd <;> simp at hd
      cases h4 : es.find? (fun e => e.typ == T.AuthenticationTag) <;>
        simp only [T.AuthenticationTag] at h4 <;> rw [h4] at hd <;> simp at hd
      split at hd <;> cases hd
  · split
    · rename_i h
      exfalso
      rcases he with he | he
      · exact h.1 he
      · omega
    split
    · simp
    split
    · rename_i h
      exfalso
      rcases hd with hd | hd
      · exact h.1 hd
      · omega
    split
    · simp
    split
    · simp
    · split
      · simp
      · split
        · simp
        · simp
        · rename_i hu
          exact absurd hu (updateIv_no_ub _ _ _)

/-- the decryption IV only moves forward: full length is kept, the prefix is kept, the counter never decreases -/
theorem decodeAes_mono {C : Crypto} {b : Block} {key aad div encIv : Bytes} (hl : div.length = 12)
    (hb : b.val.length ≤ 2 ^ 36 - 16) :
    let div' := (decodeAes C b key aad div encIv).1
    div'.length = 12 ∧ ivPrefix div' = ivPrefix div ∧ ivCounter div ≤ ivCounter div' := by
  dsimp only
  unfold decodeAes
  split
  · exact ⟨hl, rfl, Nat.le_refl _⟩
  · exact ⟨hl, rfl, Nat.le_refl _⟩
  · rename_i ct obs tag hd
    have hobs : obs.length = 12 ∧ ct.length ≤ 2 ^ 36 - 16 := by
      rw [Res.bind_eq_ok] at hd
      obtain ⟨es, h1, hd⟩ := hd
      rw [Res.bind_eq_ok] at hd
      obtain ⟨c, h2, hd⟩ := hd
      rw [Res.bind_eq_ok] at hd
      obtain ⟨i, h3, hd⟩ := hd
      rw [Res.bind_eq_ok] at hd
      obtain ⟨g, h4, hd⟩ := hd
      split at hd
      · cases hd
      · simp only [Res.ok.injEq, Prod.mk.injEq] at hd
        obtain ⟨rfl, rfl, rfl⟩ := hd
        have := getElem_val_le h1 h2
        omega
    obtain ⟨hobs, hct⟩ := hobs
    split
    · exact ⟨hl, rfl, Nat.le_refl _⟩
    split
    · exact ⟨hl, rfl, Nat.le_refl _⟩
    split
    · exact ⟨hl, rfl, Nat.le_refl _⟩
    split
    · exact ⟨hl, rfl, Nat.le_refl _⟩
    rename_i hn
    have hne : div ≠ [] := by intro h; rw [h] at hl; cases hl
    have hnn : ¬ (ivCounter obs < ivCounter div ∨ ivPrefix obs ≠ ivPrefix div) := fun hx => hn ⟨hne, hx⟩
    simp only [not_or, Nat.not_lt, ne_eq, Decidable.not_not] at hnn
    split
    · exact ⟨hobs, hnn.2, hnn.1⟩
    rename_i pt hp
    split
    · exact ⟨hobs, hnn.2, hnn.1⟩
    rename_i hpt
    split
    · rename_i iv1 hu
      obtain ⟨a, b, c, _⟩ := updateIv_ok hobs (by omega) hu
      exact ⟨a, by rw [b, hnn.2], by dsimp only; omega⟩
    · exact ⟨hobs, hnn.2, hnn.1⟩
    · exact ⟨hobs, hnn.2, hnn.1⟩

end Ndncert
