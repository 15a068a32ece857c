import Verif.Lemmas.ChallengeWire
import Verif.Props.Encoding

/-! # Property C11: CHALLENGE replies survive the wire -/

namespace Ndncert.Props

/-- What the requester should know after a CHALLENGE reply of the CA: the CA's status; from the CA's
challenge state, if there is one, the challenge status, the tries and the deadline, and for a possession challenge the nonce;
the name of the issued certificate and the forwarding hint, if one was issued; and the IV window moved on. -/
def afterReply (r : RequestState) (issued hint : Name) (nonce : Bytes) (now : Time) (div : Bytes) (q : Request) : Request :=
  { q with
    status := r.status
    challengeStatus := match r.challengeState with | some cs => cs.challengeStatus | none => q.challengeStatus
    remainingTries := match r.challengeState with | some cs => (cs.remainingTries : Int) | none => q.remainingTries
    freshBefore := match r.challengeState with | some cs => now + cs.remainingTime * nsPerSec | none => q.freshBefore
    nonce := match r.challengeState with
      | some cs => if cs.challengeStatus = bytes! "need-proof" then nonce else q.nonce
      | none => q.nonce
    issuedCertName := if issued = [] then q.issuedCertName else issued
    forwardingHint := if issued = [] then q.forwardingHint else hint
    decryptionIv := div }

/-- a challenge state the wire format can carry, whose deadline the clock type can express at `now`; for a possession challenge it holds the nonce in hexadecimal -/
def Encodable (cs : ChallengeState) (nonce : Bytes) (now : Time) : Prop :=
  cs.remainingTries < 2 ^ 31 ∧ 0 ≤ cs.remainingTime ∧
  (cs.remainingTime * 1000000000 < 2 ^ 63 ∧ -(2 ^ 63) ≤ now + cs.remainingTime * 1000000000 ∧ now + cs.remainingTime * 1000000000 < 2 ^ 63) ∧
  (cs.challengeStatus = bytes! "need-proof" → secretGetD cs.secrets (bytes! "nonce") = toHex nonce ∧ nonce.length = 16)

/-- C11. `b` is the content the CA encoded from `r`; the requester `q` holds the same key and request id; the IV
carried by `b` is in its window (its own IV has another random part, what it has already decrypted lies before). Decoding
succeeds and the requester's new state is exactly `afterReply`. -/
theorem C11_challenge_reply_roundtrip (C : Crypto) (hC : C.Lawful) (r r' : RequestState) (issued hint : Name)
    (rnd nonce : Bytes) (b : Block) (q : Request) (now : Time)
    (henc : challengeEncode C r issued hint rnd = (r', .ok b))
    (hkey : q.aesKey = r.encryptionKey) (hid : q.requestId = r.requestId)
    (hiv : (r.encryptionIv = [] ∧ rnd.length = 8) ∨ r.encryptionIv.length = 12)
    (hown : q.encryptionIv = [] ∨ (q.encryptionIv.length = 12 ∧
      ivPrefix q.encryptionIv ≠ ivPrefix (startIv r.encryptionIv rnd)))
    (hwin : q.decryptionIv = [] ∨ (q.decryptionIv.length = 12 ∧
      ivPrefix q.decryptionIv = ivPrefix (startIv r.encryptionIv rnd) ∧
      ivCounter q.decryptionIv ≤ ivCounter (startIv r.encryptionIv rnd)))
    (hst : definedStatus r.status) (hcs : ∀ cs, r.challengeState = some cs → Encodable cs nonce now)
    (hi : Name.Wf issued) (hh : Name.Wf hint) (hsize : b.val.length ≤ gcmLimit) :
    challengeDecode C b q now = (afterReply r issued hint nonce now r'.encryptionIv q, .ok ()) := by
  unfold challengeEncode at henc
  cases hes : challengeElems r issued hint with
  | exc e => rw [hes] at henc; simp at henc
  | ub u => rw [hes] at henc; simp at henc
  | ok es =>
    rw [hes] at henc
    dsimp only at henc
    simp only [Prod.mk.injEq] at henc
    obtain ⟨hr', hb⟩ := henc
    have hl : (startIv r.encryptionIv rnd).length = 12 := by
      rcases hiv with ⟨h1, h2⟩ | h
      · rw [h1]; exact startIv_nil_length h2
      · rw [startIv, if_neg (by intro h0; rw [h0] at h; cases h)]; exact h
    generalize hv : startIv r.encryptionIv rnd = v at *
    -- the block
    have hpair : encodeAes C T.Content r.encryptionKey (encodeAll es) r.requestId r.encryptionIv rnd =
        (r'.encryptionIv, .ok b) := by
      rw [← hr', ← hb]
    obtain ⟨e1, e2, e3⟩ := encodeAes_ok hpair
    rw [hv] at e1 e2 e3
    rw [List.take_of_length_le (by omega)] at e3
    let c : EncCall := ⟨T.Content, r.encryptionKey, encodeAll es, r.requestId, rnd⟩
    have hbc : b = sealedBlock C c v := e3
    have hpay : (encodeAll es).length ≤ gcmLimit := by
      have hct : ((binBlock T.EncryptedPayload (C.aesEnc r.encryptionKey v r.requestId (encodeAll es)).1)).val.length ≤
          b.val.length := by
        rw [e3]
        exact mem_encodeAll_length (by simp)
      have := (hC.aes_length r.encryptionKey v r.requestId (encodeAll es)).1
      simp only [binBlock_val] at hct
      omega
    have hdec : decodeAes C b q.aesKey q.requestId q.decryptionIv q.encryptionIv = (r'.encryptionIv, .ok (encodeAll es)) := by
      rw [hbc, hkey, hid]
      refine decodeAes_sealed hC hl hpay e2 ?_ ?_
      · rcases hown with h | ⟨h1, h2⟩
        · exact .inl h
        · exact .inr ⟨by omega, h2⟩
      · exact hwin
    -- the elements fit
    have hpay' := hpay
    unfold gcmLimit at hpay'
    obtain ⟨st, hst1, hes'⟩ := challengeElems_ok hes
    have htyp : ∀ e ∈ es, 0 < e.typ ∧ e.typ < 2 ^ 32 := by
      intro e he
      rw [hes'] at he
      simp only [List.mem_cons, List.mem_append] at he
      rcases he with rfl | he | he
      · simp
      · cases hc : r.challengeState with
        | none => rw [hc] at hst1; simp at hst1; subst hst1; simp at he
        | some cs =>
          rw [hc] at hst1
          dsimp only at hst1
          unfold challengeStateElems at hst1
          dsimp only at hst1
          split at hst1
          · rw [Res.bind_eq_ok] at hst1
            obtain ⟨n, _, hst1⟩ := hst1
            simp only [Res.ok.injEq] at hst1
            subst hst1
            simp at he
            rcases he with rfl | rfl | rfl | rfl | rfl <;> simp
          · simp only [Res.ok.injEq] at hst1
            subst hst1
            simp at he
            rcases he with rfl | rfl | rfl <;> simp
      · split at he
        · simp at he
        · simp at he
          rcases he with rfl | rfl <;> simp
    have hparse : parse (encodeAll es) = .ok es := parse_encodeAll es (fits_of_total htyp (by omega))
    have hsb : statusFromBlock (nniBlock T.Status r.status.toNat) = .ok r.status := C12_roundtrip _ hst
    -- names
    have hnames : issued ≠ [] → NameFits issued ∧ NameFits hint := by
      intro hne
      have m1 : nestedBlock T.IssuedCertName (nameBlock issued) ∈ es := by rw [hes', if_neg hne]; simp
      have m2 : nestedBlock T.ForwardingHint (nameBlock hint) ∈ es := by rw [hes', if_neg hne]; simp
      have l1 : (nameBlock issued).encode.length ≤ (encodeAll es).length := mem_encodeAll_length m1
      have l2 : (nameBlock hint).encode.length ≤ (encodeAll es).length := mem_encodeAll_length m2
      have k1 : (encodeAll issued).length ≤ (nameBlock issued).encode.length := encode_length_ge (nameBlock issued)
      have k2 : (encodeAll hint).length ≤ (nameBlock hint).encode.length := encode_length_ge (nameBlock hint)
      exact ⟨nameFits_of_wf hi (by omega), nameFits_of_wf hh (by omega)⟩
    have hloop : loopRes (challengeStep es now) { req := { q with decryptionIv := r'.encryptionIv } } es =
        ({ req := afterReply r issued hint nonce now r'.encryptionIv q, numStatus := 1, lookingForNonce := false }, .ok ()) := by
      have hloop1 : loopRes (challengeStep es now) { req := { q with decryptionIv := r'.encryptionIv } } es =
        loopRes (challengeStep es now)
          { req := { q with decryptionIv := r'.encryptionIv, status := r.status }, numStatus := 1 }
          (st ++ (if issued = [] then []
            else [nestedBlock T.IssuedCertName (nameBlock issued), nestedBlock T.ForwardingHint (nameBlock hint)])) := by
        generalize hf : challengeStep es now = f
        rw [hes', loopRes, ← hf, hes', challengeStep_status _ hsb _ _ _ rfl]
      rw [hloop1, loopRes_append]
      cases hc : r.challengeState with
      | none =>
        rw [hc] at hst1
        simp only [Res.ok.injEq] at hst1
        subst hst1
        simp only [loopRes]
        by_cases hne : issued = []
        · simp only [hne, if_true, loopRes, afterReply, hc]
        · obtain ⟨n1, n2⟩ := hnames hne
          rw [if_neg hne, challengeLoop_tail es now issued hint n1 n2 _ rfl]
          simp only [afterReply, hc, hne, if_false]
      | some cs =>
        rw [hc] at hst1
        dsimp only at hst1
        obtain ⟨k1, k2, k3, k4⟩ := hcs cs hc
        rw [challengeLoop_state es now cs st nonce hst1 k1 k2 k3 k4 _ rfl]
        dsimp only
        by_cases hne : issued = []
        · simp only [hne, if_true, loopRes, afterReply, hc]
          rfl
        · obtain ⟨n1, n2⟩ := hnames hne
          rw [if_neg hne, challengeLoop_tail es now issued hint n1 n2 _ rfl]
          simp only [afterReply, hc, hne, if_false]
          rfl
    unfold challengeDecode
    rw [hdec]
    dsimp only
    rw [hparse]
    dsimp only
    rw [hloop]
    simp

def exChallengeState : ChallengeState :=
  { challengeStatus := bytes! "need-proof", timestamp := 5, remainingTries := 1, remainingTime := 60,
    secrets := [(bytes! "nonce", toHex (List.replicate 16 171))] }

/-- a CA request state in the possession challenge -/
def exCaRequest : RequestState :=
  { caPrefix := [gcomp [65]], requestId := [1, 2, 3, 4, 5, 6, 7, 8], requestType := .new, status := .challenge,
    cert := exCaCert, encryptionKey := List.replicate 16 3, challengeType := bytes! "possession",
    challengeState := some exChallengeState }

/-- non-vacuity: both encode, and the hypotheses hold for a fresh requester with the same key and id -/
example : (∃ b, (challengeEncode Toy.crypto exCaRequest [] [] [9, 9, 9, 9, 9, 9, 9, 9]).2 = .ok b ∧
      b.val.length ≤ gcmLimit) ∧
    (∃ b, (challengeEncode Toy.crypto { exCaRequest with status := .success, challengeState := none }
      [gcomp [65], gcomp [66]] [gcomp [70]] [9, 9, 9, 9, 9, 9, 9, 9]).2 = .ok b ∧ b.val.length ≤ gcmLimit) ∧
    Encodable exChallengeState (List.replicate 16 171) (1700000000 * 1000000000) := by
  refine ⟨?_, ?_, by decide, by decide, by decide, ?_⟩
  · have h : (Toy.okOpt (challengeEncode Toy.crypto exCaRequest [] [] [9, 9, 9, 9, 9, 9, 9, 9]).2).any
        (fun b => decide (b.val.length ≤ gcmLimit)) = true := by decide +kernel
    cases hr : (challengeEncode Toy.crypto exCaRequest [] [] [9, 9, 9, 9, 9, 9, 9, 9]).2 with
    | ok b => rw [hr] at h; exact ⟨b, rfl, by simpa [Toy.okOpt] using h⟩
    | exc e => rw [hr] at h; simp [Toy.okOpt] at h
    | ub u => rw [hr] at h; simp [Toy.okOpt] at h
  · have h : (Toy.okOpt (challengeEncode Toy.crypto { exCaRequest with status := .success, challengeState := none }
        [gcomp [65], gcomp [66]] [gcomp [70]] [9, 9, 9, 9, 9, 9, 9, 9]).2).any
        (fun b => decide (b.val.length ≤ gcmLimit)) = true := by decide +kernel
    cases hr : (challengeEncode Toy.crypto { exCaRequest with status := .success, challengeState := none }
        [gcomp [65], gcomp [66]] [gcomp [70]] [9, 9, 9, 9, 9, 9, 9, 9]).2 with
    | ok b => rw [hr] at h; exact ⟨b, rfl, by simpa [Toy.okOpt] using h⟩
    | exc e => rw [hr] at h; simp [Toy.okOpt] at h
    | ub u => rw [hr] at h; simp [Toy.okOpt] at h
  · intro _
    exact ⟨by decide, by decide⟩

end Ndncert.Props
