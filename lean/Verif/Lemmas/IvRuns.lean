import Verif.Lemmas.Iv
import Verif.Spec.Laws

namespace Ndncert

/-- the block made by a successful encryption with IV `v` -/
def sealedBlock (C : Crypto) (c : EncCall) (v : Bytes) : Block :=
  mkBlock c.typ [binBlock T.InitializationVector v,
    binBlock T.AuthenticationTag (C.aesEnc c.key v c.aad c.payload).2,
    binBlock T.EncryptedPayload (C.aesEnc c.key v c.aad c.payload).1]

theorem startIv_idem (rnd rnd' : Bytes) : startIv (startIv [] rnd) rnd' = startIv [] rnd := by
  have : startIv [] rnd ≠ [] := by simp [startIv]
  rw [startIv, if_neg this]

theorem startIv_nil_length {rnd : Bytes} (h : rnd.length = 8) : (startIv [] rnd).length = 12 := by simp [startIv, h]

theorem startIv_nil_prefix {rnd : Bytes} (h : rnd.length = 8) : ivPrefix (startIv [] rnd) = rnd := by
  simp only [startIv, ivPrefix, if_true]
  exact List.take_left' h

theorem encodeAes_start (C : Crypto) (t : Nat) (key payload aad rnd : Bytes) :
    encodeAes C t key payload aad [] rnd = encodeAes C t key payload aad (startIv [] rnd) rnd := by
  unfold encodeAes
  rw [startIv_idem]

theorem encRun_start (C : Crypto) (c : EncCall) (cs : List EncCall) :
    encRun C [] (c :: cs) = encRun C (startIv [] c.rnd) (c :: cs) := by
  simp only [encRun, encodeAes_start C]

theorem sealedBlock_parse {C : Crypto} (hC : C.Lawful) {c : EncCall} {v : Bytes} (hv : v.length = 12)
    (hc : c.payload.length ≤ gcmLimit) :
    parse (sealedBlock C c v).val = .ok [binBlock T.InitializationVector v,
      binBlock T.AuthenticationTag (C.aesEnc c.key v c.aad c.payload).2,
      binBlock T.EncryptedPayload (C.aesEnc c.key v c.aad c.payload).1] := by
  have := hC.aes_length c.key v c.aad c.payload
  unfold gcmLimit at hc
  exact aes_elements _ _ _ _ (by omega) (by omega) (by omega)

theorem sealedBlock_iv {C : Crypto} (hC : C.Lawful) {c : EncCall} {v : Bytes} (hv : v.length = 12)
    (hc : c.payload.length ≤ gcmLimit) : carriedIv (sealedBlock C c v) = some v := by
  unfold carriedIv
  rw [sealedBlock_parse hC hv hc]
  rfl

/-- outcome of one encryption with a full IV -/
theorem encodeAes_cases (C : Crypto) {c : EncCall} {iv : Bytes} (hl : iv.length = 12) (hc : c.payload.length ≤ gcmLimit) :
    (∃ iv', encodeAes C c.typ c.key c.payload c.aad iv c.rnd = (iv', .ok (sealedBlock C c iv)) ∧
      iv'.length = 12 ∧ ivPrefix iv' = ivPrefix iv ∧ ivCounter iv' = ivCounter iv + blocksOf c.payload.length ∧
      updateIv iv c.payload.length = .ok iv' ∧ ivCounter iv + blocksOf c.payload.length < 2 ^ 32 - 1) ∨
    (encodeAes C c.typ c.key c.payload c.aad iv c.rnd = (iv, .exc .runtime) ∧
      2 ^ 32 - 1 ≤ ivCounter iv + blocksOf c.payload.length) := by
  unfold gcmLimit at hc
  have hs : startIv iv c.rnd = iv := by
    rw [startIv, if_neg]; intro h; rw [h] at hl; cases hl
  have ht : iv.take 12 = iv := List.take_of_length_le (by omega)
  unfold encodeAes
  rw [hs]
  dsimp only
  rw [if_neg (by omega), ht]
  have hn : c.payload.length ≤ 2 ^ 36 - 16 := by omega
  cases hu : updateIv iv c.payload.length with
  | ok iv' =>
    left
    obtain ⟨h1, h2, h3, h4⟩ := updateIv_ok hl hn hu
    exact ⟨iv', rfl, h1, h2, h3, rfl, h4⟩
  | exc e =>
    right
    unfold updateIv at hu
    dsimp only at hu
    have hb : (c.payload.length + 15) / 16 % 2 ^ 32 = blocksOf c.payload.length :=
      Nat.mod_eq_of_lt (by omega)
    rw [hb] at hu
    split at hu
    · simp only [Res.exc.injEq] at hu
      subst hu
      exact ⟨rfl, by omega⟩
    · cases hu
  | ub u => exact absurd hu (updateIv_no_ub _ _ _)

/-- what a run of encryptions produces, from a full IV -/
theorem encRun_spec {C : Crypto} (cs : List EncCall) {iv : Bytes} (hl : iv.length = 12)
    (hv : ∀ c ∈ cs, c.payload.length ≤ gcmLimit) :
    ∃ vs : List (EncCall × Bytes),
      produced (encRun C iv cs) = vs.map (fun e => (e.1, sealedBlock C e.1 e.2)) ∧
      (∀ e ∈ vs, e.1 ∈ cs ∧ e.2.length = 12 ∧ ivPrefix e.2 = ivPrefix iv ∧ ivCounter iv ≤ ivCounter e.2 ∧
        ∃ v', updateIv e.2 e.1.payload.length = .ok v') ∧
      vs.Pairwise (fun x y => ivCounter x.2 + blocksOf x.1.payload.length ≤ ivCounter y.2) := by
  induction cs generalizing iv with
  | nil => exact ⟨[], by simp [produced, encRun], by simp, List.Pairwise.nil⟩
  | cons c cs ih =>
    have hc := hv c (by simp)
    rcases encodeAes_cases C hl hc with ⟨iv', he, h1, h2, h3, hu, _⟩ | ⟨he, _⟩
    · obtain ⟨vs, hp, hm, hw⟩ := ih h1 (fun x hx => hv x (by simp [hx]))
      refine ⟨(c, iv) :: vs, ?_, ?_, ?_⟩
      · simp only [encRun, he]
        simp only [produced, List.filterMap_cons, List.map_cons]
        rw [← hp]; rfl
      · intro e hem
        simp only [List.mem_cons] at hem
        rcases hem with rfl | hem
        · exact ⟨by simp, hl, rfl, Nat.le_refl _, _, hu⟩
        · obtain ⟨a, b, cc, d, ee⟩ := hm e hem
          exact ⟨by simp [a], b, by rw [cc, h2], by omega, ee⟩
      · refine List.Pairwise.cons ?_ hw
        intro e hem
        have := (hm e hem).2.2.2.1
        dsimp only
        omega
    · obtain ⟨vs, hp, hm, hw⟩ := ih hl (fun x hx => hv x (by simp [hx]))
      refine ⟨vs, ?_, ?_, hw⟩
      · simp only [encRun, he]
        simp only [produced, List.filterMap_cons]
        rw [← hp]; rfl
      · intro e hem
        obtain ⟨a, rest⟩ := hm e hem
        exact ⟨by simp [a], rest⟩

/-- a sealed block with an admissible IV decrypts to its payload -/
theorem decodeAes_sealed {C : Crypto} (hC : C.Lawful) {c : EncCall} {v v' div encIv : Bytes} (hv : v.length = 12)
    (hc : c.payload.length ≤ gcmLimit) (hu : updateIv v c.payload.length = .ok v')
    (he : encIv = [] ∨ (8 ≤ encIv.length ∧ ivPrefix encIv ≠ ivPrefix v))
    (hd : div = [] ∨ (div.length = 12 ∧ ivPrefix div = ivPrefix v ∧ ivCounter div ≤ ivCounter v)) :
    decodeAes C (sealedBlock C c v) c.key c.aad div encIv = (v', .ok c.payload) := by
  have hp := sealedBlock_parse hC hv hc
  have hal := hC.aes_length c.key v c.aad c.payload
  have hac := hC.aes_correct c.key v c.aad c.payload
  unfold decodeAes
  have hel : (sealedBlock C c v).elements = parse (sealedBlock C c v).val := rfl
  rw [hel, hp]
  generalize hc1 : (C.aesEnc c.key v c.aad c.payload).1 = ct at *
  generalize hc2 : (C.aesEnc c.key v c.aad c.payload).2 = tag at *
  have g1 : getElem [binBlock T.InitializationVector v, binBlock T.AuthenticationTag tag, binBlock T.EncryptedPayload ct]
    T.EncryptedPayload = .ok (binBlock T.EncryptedPayload ct) := rfl
  have g2 : getElem [binBlock T.InitializationVector v, binBlock T.AuthenticationTag tag, binBlock T.EncryptedPayload ct]
    T.InitializationVector = .ok (binBlock T.InitializationVector v) := rfl
  have g3 : getElem [binBlock T.InitializationVector v, binBlock T.AuthenticationTag tag, binBlock T.EncryptedPayload ct]
    T.AuthenticationTag = .ok (binBlock T.AuthenticationTag tag) := rfl
  simp only [Res.bind_ok, g1, g2, g3, binBlock_val, hv, hal.2, ne_eq, not_true_eq_false, or_self, if_false]
  rw [if_neg (by rintro ⟨h1, h2⟩; rcases he with h | h; exact h1 h; omega)]
  rw [if_neg (by rintro ⟨h1, h2⟩; rcases he with h | h; exact h1 h; exact h.2 h2.symm)]
  rw [if_neg (by rintro ⟨h1, h2⟩; rcases hd with h | h; exact h1 h; omega)]
  rw [if_neg (by
    rintro ⟨h1, h2⟩
    rcases hd with h | h
    · exact h1 h
    · rcases h2 with h2 | h2
      · omega
      · exact h2 h.2.1.symm)]
  rw [hac]
  dsimp only
  rw [if_neg (by omega), hu]

end Ndncert
