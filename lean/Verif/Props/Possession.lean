import Verif.Lemmas.Honest
import Verif.Props.CaExec
import Verif.Lemmas.Safe
import Verif.Spec.Run

/-! # The possession challenge (C46, C47, C48) -/

namespace Ndncert.Props

section
variable {σ : Type} {C : Crypto} {S : StoreI σ} {Inv : σ → Prop} {cfg : CaConfig}

/-! ## C46 -/

/-- C46, first half: if the CA answers a CHALLENGE that selects possession for a request that has no challenge yet with anything but
an error, then the CHALLENGE carried a credential certified by one of the configured trust anchors, which the credential's key
locator names; the reply hands out the 16 octets just drawn; and what is stored waits for a proof under that credential
over these octets. -/
theorem C46_start (hC : C.Lawful) (hS : LawfulStore C S Inv) {st : σ} (hi : Inv st) {i : Interest} {env : Env} (hid : IdFits cfg i) (he : env.Wf)
    {r : RequestState} (ha : Authentic C S cfg st i env r) {es : List Block} (hs : Selects C i r es .possession)
    (hst : r.status = .beforeChallenge) {d : Data} (hd : d ∈ sent (onChallenge C S cfg st i env).effects)
    (hne : ¬ ∃ code, IsErrorReply C cfg i code d) :
    env.nonce.length = 16 ∧ ∃ anchors cred r' cs, env.anchors = .ok anchors ∧ GivesCredential C es cred ∧ Certified C anchors cred ∧
      Encloses C r d [nniBlock T.Status Status.challenge.toNat, binBlock T.ChallengeStatus (bytes! "need-proof"), nniBlock T.RemainingTries 1,
        nniBlock T.RemainingTime 60, binBlock T.ParameterKey (bytes! "nonce"), binBlock T.ParameterValue env.nonce] ∧
      (onChallenge C S cfg st i env).effects = [.dbUpdate r', .put d, .callback r'] ∧ r'.requestId = r.requestId ∧
      KeepsProof r' cs cred env.nonce ∧ (C.decodeCert cred.wire ≠ none → AwaitsProof C r' cs cred env.nonce) := by
  refine ⟨he.nonce, ?_⟩
  have hv := (verified_authentic hS hi hid he.stack).mpr ha
  obtain ⟨div, es', k, out, ho, hm, hans⟩ := answer_module hv hd hne
  obtain ⟨rfl, rfl⟩ := hs.unique ho.selects
  generalize (onChallenge C S cfg st i env).effects = effs at hans
  cases hm with
  | error code info hcode => cases hans with
    | continued _ _ h => cases h
    | issued _ _ _ h => cases h
    | revoked _ _ h => cases h
  | wrong cs code given h => exact absurd hst h
  | code cs code h => exact absurd hst h
  | proof cs cred nonce p h => exact absurd hst h
  | start cstat secrets mails _ hsc =>
    cases hsc with
    | possession c anchors hanc hg hc hk hcert =>
      cases hans with
      | issued _ _ _ h => cases h
      | revoked _ _ h => cases h
      | continued r2 payload _ henc hd' =>
        obtain ⟨els, iv, hel, hr2, _⟩ := challengeEncode_ok henc
        obtain ⟨els', hel', hen⟩ := challengeEncode_encloses (cfg := cfg) (name := i.name) henc
        rw [hel] at hel'
        cases hel'
        have hels : els = [nniBlock T.Status Status.challenge.toNat, binBlock T.ChallengeStatus NEED_PROOF, nniBlock T.RemainingTries 1,
          nniBlock T.RemainingTime 60, binBlock T.ParameterKey KEY_NONCE, binBlock T.ParameterValue env.nonce] := by
          have hf : fromHex (secretGetD [(KEY_NONCE, toHex env.nonce), (KEY_CREDENTIAL, toHex c.wire.encode)] KEY_NONCE) = .ok env.nonce :=
            fromHex_toHex _
          have : challengeElems (returnWithNewStatus .possession env { r with decryptionIv := div } NEED_PROOF
              [(KEY_NONCE, toHex env.nonce), (KEY_CREDENTIAL, toHex c.wire.encode)] ChalKind.possession.maxTries ChalKind.possession.lifetime).req [] [] = .ok els := hel
          unfold challengeElems returnWithNewStatus challengeStateElems at this
          dsimp only at this
          rw [if_pos rfl, hf] at this
          simp only [Res.bind_ok] at this
          cases this
          rfl
        obtain ⟨dd, hfit, hdec⟩ := givesCredential_decode hg
        have hw := (hC.data_wire _ _ hdec).1
        rw [hels] at hen
        rw [← hd'] at hen
        refine ⟨anchors, c, r2, { challengeStatus := NEED_PROOF, timestamp := env.nowStore, remainingTries := ChalKind.possession.maxTries, remainingTime := ChalKind.possession.lifetime, secrets := [(KEY_NONCE, toHex env.nonce), (KEY_CREDENTIAL, toHex c.wire.encode)] }, hanc, hg, hcert, encloses_congr rfl rfl hen, rfl, by rw [hr2]; rfl, ?_⟩
        refine ⟨⟨by rw [hr2]; rfl, rfl, fromHex_toHex _, fromHex_toHex _⟩, fun hcert => ?_⟩
        refine ⟨by rw [hr2]; rfl, rfl, ⟨c.wire.encode, dd, fromHex_toHex _, by rw [hw]; exact blockOfBytes_encode dd hfit, ?_⟩, fromHex_toHex _⟩
        rw [hw] at hcert
        cases h9 : C.decodeCert dd with
        | none => exact absurd h9 hcert
        | some c' =>
          have h10 := hC.data_of_cert _ _ h9
          rw [hdec] at h10
          exact h10.symm

/-- C46, second half: if the CA answers a CHALLENGE that selects possession for a request whose challenge was started with anything
but an error, then the CHALLENGE carried a proof that verifies, under the key of the credential stored for the request,
over the nonce stored for it. In particular if it issues a certificate. -/
theorem C46_success (hS : LawfulStore C S Inv) {st : σ} (hi : Inv st) {i : Interest} {env : Env} (hid : IdFits cfg i) (he : env.Wf)
    {r : RequestState} (ha : Authentic C S cfg st i env r) {es : List Block} (hs : Selects C i r es .possession)
    (hst : r.status ≠ .beforeChallenge) {d : Data} (hd : d ∈ sent (onChallenge C S cfg st i env).effects)
    (hne : ¬ ∃ code, IsErrorReply C cfg i code d) :
    ∃ cs cred nonce p, AwaitsProof C r cs cred nonce ∧ GivesProof es p ∧ C.verifyRaw nonce p (cred.content.getD []) = true := by
  have hv := (verified_authentic hS hi hid he.stack).mpr ha
  obtain ⟨div, es', k, out, ho, hm, hans⟩ := answer_module hv hd hne
  obtain ⟨rfl, rfl⟩ := hs.unique ho.selects
  generalize (onChallenge C S cfg st i env).effects = effs at hans
  cases hm with
  | error code info hcode => cases hans with
    | continued _ _ h => cases h
    | issued _ _ _ h => cases h
    | revoked _ _ h => cases h
  | start cstat secrets mails h hsc => exact absurd h hst
  | wrong cs code given _ h => rcases h with h | h <;> cases h
  | code cs code _ h => rcases h with h | h <;> cases h
  | proof cs cred nonce p _ hk hap hg hl hver => exact ⟨cs, cred, nonce, p, hap, hg, hver⟩

/-! ## C47 -/

theorem getElem_first {es : List Block} {t : Nat} {b : Block} (h : b.typ = t) : getElem (b :: es) t = .ok b := by
  unfold getElem
  rw [List.find?_cons_of_pos (by simpa using h)]
  rfl

/-- C47 is false of the code, for every run: whatever CHALLENGE Interest a requester makes with the library's possession challenge,
in whatever state and with whatever parameters, a CA that agrees with it on the key of the request and its id neither
continues the challenge nor issues a certificate, nor reports a status. -/
theorem C47_false (hC : C.Lawful) (hS : LawfulStore C S Inv) {st : σ} (hi : Inv st) {q q' : Request} {params : MMap} {rnd : Bytes}
    {i : Interest} (hq : q.challengeType = bytes! "possession") (hg : genChallengeInterest C q params rnd = (q', .ok i))
    {env : Env} (he : env.Wf) (hm : (Msg.challenge i).Wf cfg) {r : RequestState} (ha : Authentic C S cfg st i env r)
    (hkey : r.encryptionKey = q.aesKey) (hrid : r.requestId = q.requestId) :
    issued (onChallenge C S cfg st i env).effects = [] ∧ (∀ r', .dbUpdate r' ∉ (onChallenge C S cfg st i env).effects) ∧
    ∀ d ∈ sent (onChallenge C S cfg st i env).effects, ∃ code, IsErrorReply C cfg i code d := by
  obtain ⟨k, es, iv, b, kp, h1, h2, h3, h4, h5, h6⟩ := genChallengeInterest_ok hg
  have hk : k = .possession := by
    rw [hq] at h1
    have : createChallenge (bytes! "possession") = some .possession := by decide
    rw [this] at h1
    cases h1; rfl
  subst hk
  have hpar : i.params = some b := by rw [h6]; rfl
  have hbsz : b.val.length < 2 ^ 64 := by have := hm.1 b hpar; omega
  have hv := (verified_authentic hS hi (idFits_of_wf hm) he.stack).mpr ha
  -- no plaintext of the library selects a challenge the CA knows
  have nosel : ∀ sel, getElem es T.SelectedChallenge = .ok sel → ∀ k, sel.val ≠ ChalKind.regName k := by
    intro sel hsel k
    unfold genChallengeTlv at h2
    dsimp only at h2
    split at h2
    · split at h2
      · split at h2
        · rw [Res.bind_eq_ok] at h2
          obtain ⟨x, _, h2⟩ := h2
          cases h2
          rw [getElem_first (t := T.SelectedChallenge) rfl] at hsel
          cases hsel
          cases k <;> decide
        · cases h2
      · cases h2
    · split at h2
      · split at h2
        · split at h2
          · cases h2
            cases hsel
          · cases h2
        · cases h2
      · cases h2
  have htyp : ∀ e ∈ es, 0 < e.typ ∧ e.typ < 2 ^ 32 := by
    intro e hmem
    unfold genChallengeTlv at h2
    dsimp only at h2
    split at h2
    · split at h2
      · split at h2
        · rw [Res.bind_eq_ok] at h2
          obtain ⟨x, _, h2⟩ := h2
          cases h2
          simp only [List.mem_cons, List.not_mem_nil, or_false] at hmem
          rcases hmem with rfl | rfl | rfl <;> exact ⟨by simp [binBlock, nestedBlock, mkBlock, T.SelectedChallenge, T.ParameterKey, T.ParameterValue], by simp [binBlock, nestedBlock, mkBlock, T.SelectedChallenge, T.ParameterKey, T.ParameterValue]⟩
        · cases h2
      · cases h2
    · split at h2
      · split at h2
        · split at h2
          · cases h2
            simp only [List.mem_cons, List.not_mem_nil, or_false] at hmem
            rcases hmem with rfl | rfl <;> exact ⟨by simp [binBlock, T.ParameterKey, T.ParameterValue], by simp [binBlock, T.ParameterKey, T.ParameterValue]⟩
          · cases h2
        · cases h2
      · cases h2
  have noopen : ∀ {r' div es' k}, Verified C S cfg st i env r' → Opened C i r' div es' k → False := by
    intro r' div es' k hv' ho
    have : r' = r := by
      have h7 := hv'.found
      rw [hv.found] at h7
      cases h7; rfl
    subst this
    obtain ⟨pt, sel, g1, g2, g3, g4, g5⟩ := ho
    rw [hpar, hkey, hrid] at g1
    have hpt := encoded_decoded hC h3 hbsz g1
    subst hpt
    have hsz : (encodeAll es).length < 2 ^ 64 := by
      have hl1 := (hC.aes_length q.aesKey ((startIv q.encryptionIv rnd).take 12) q.requestId (encodeAll es)).1
      have hb := (encodeAes_ok h3).2.2
      have h8 := mem_encodeAll_length (es := [binBlock T.InitializationVector (startIv q.encryptionIv rnd),
        binBlock T.AuthenticationTag (C.aesEnc q.aesKey ((startIv q.encryptionIv rnd).take 12) q.requestId (encodeAll es)).2,
        binBlock T.EncryptedPayload (C.aesEnc q.aesKey ((startIv q.encryptionIv rnd).take 12) q.requestId (encodeAll es)).1])
        (b := binBlock T.EncryptedPayload (C.aesEnc q.aesKey ((startIv q.encryptionIv rnd).take 12) q.requestId (encodeAll es)).1) (by simp)
      rw [hb] at hbsz
      simp only [mkBlock] at hbsz
      simp only [binBlock_val] at h8
      omega
    rw [parse_encodeAll es (fits_of_total htyp hsz)] at g3
    cases g3
    exact nosel sel g4 k g5
  have hc := onChallenge_cases C S cfg st i env
  generalize onChallenge C S cfg st i env = o at hc
  cases hc with
  | undefined u _ => exact ⟨rfl, by simp, by simp [sent]⟩
  | noRequest info h => exact ⟨rfl, by simp, fun d hd => ⟨ErrorCode.INVALID_PARAMETER, by decide, info, by simp only [sent, List.mem_singleton] at hd; exact hd⟩⟩
  | badSig r' info h h' => exact ⟨rfl, by simp, fun d hd => ⟨ErrorCode.BAD_SIGNATURE, by decide, info, by simp only [sent, List.mem_singleton] at hd; exact hd⟩⟩
  | reject r' code info hv' hcode => exact ⟨rfl, by simp, fun d hd => ⟨code, hcode, info, by simp only [sent, List.mem_singleton] at hd; exact hd⟩⟩
  | early r' t _ _ => exact ⟨rfl, by simp, by simp [sent]⟩
  | continued r' div es k out r2 payload hv' ho => exact (noopen hv' ho).elim
  | contThrew r' div es k out t hv' ho => exact (noopen hv' ho).elim
  | issued r' div es k out c r2 payload hv' ho => exact (noopen hv' ho).elim
  | issueThrew r' div es k out c t hv' ho => exact (noopen hv' ho).elim
  | revoked r' div es k out r2 payload hv' ho => exact (noopen hv' ho).elim
  | revokeThrew r' div es k out t hv' ho => exact (noopen hv' ho).elim

/-- the elements that a requester should send to start the possession challenge -/
def possessionStart (cred : Cert) : List Block :=
  [binBlock T.SelectedChallenge (bytes! "possession"), binBlock T.ParameterKey KEY_CREDENTIAL, nestedBlock T.ParameterValue cred.wire]

/-- the elements that a requester should send to finish it -/
def possessionProof (p : Bytes) : List Block :=
  [binBlock T.SelectedChallenge (bytes! "possession"), binBlock T.ParameterKey KEY_PROOF, binBlock T.ParameterValue p]

/-- C47, the CA's half of starting: a requester that sends what the CA expects, with a usable credential that is certified by a trust
anchor, gets the nonce. Missing: the library's requester does not send this (`C47_false`). -/
theorem C47_start_partial (hC : C.Lawful) (hS : LawfulStore C S Inv) {st : σ} (hi : Inv st) {i : Interest} {env : Env} (hid : IdFits cfg i) (he : env.Wf)
    {r : RequestState} (ha : Authentic C S cfg st i env r) (hst : Fresh r) {cred : Cert}
    (hw : C.decodeCert cred.wire = some cred) (hfit : (encodeAll (possessionStart cred)).length < 2 ^ 60) (ho : Opens C i r (encodeAll (possessionStart cred)))
    {anchors : List Cert} (hanc : env.anchors = .ok anchors) (hcert : Certified C anchors cred) (hcon : cred.content.isSome = true)
    (hload : C.loadKey (cred.content.getD []) = true) :
    ∃ r' d cs, (onChallenge C S cfg st i env) = ⟨[.dbUpdate r', .put d, .callback r'], .done⟩ ∧ r'.requestId = r.requestId ∧
      AwaitsProof C r' cs cred env.nonce := by
  have hv := (verified_authentic hS hi hid he.stack).mpr ha
  have hiv : IvsOk r := ⟨.inl hst.2.2.2.1, .inl hst.2.2.2.2⟩
  obtain ⟨div, hdec, heq⟩ := onChallenge_opens hS hi hid he ha hiv ho
  have hwf : cred.wire.Fits := by
    have h1 := mem_encodeAll_length (es := possessionStart cred) (b := nestedBlock T.ParameterValue cred.wire) (by simp [possessionStart])
    have h2 := encode_length_ge cred.wire
    have h3 := (hC.decode_wire _ _ hw).2
    simp only [nestedBlock] at h1
    exact ⟨by rw [h3]; decide, by rw [h3]; decide, by omega⟩
  have hpar : parse (encodeAll (possessionStart cred)) = .ok (possessionStart cred) := by
    refine parse_encodeAll _ (fits_of_total ?_ (by omega))
    intro e hmem
    simp only [possessionStart, List.mem_cons, List.not_mem_nil, or_false] at hmem
    rcases hmem with rfl | rfl | rfl <;> exact ⟨by simp [binBlock, nestedBlock, mkBlock, T.SelectedChallenge, T.ParameterKey, T.ParameterValue], by simp [binBlock, nestedBlock, mkBlock, T.SelectedChallenge, T.ParameterKey, T.ParameterValue]⟩
  obtain ⟨a, ham, kl, hkl, hnm, hver⟩ := hcert
  have hnm : a.keyName = kl ∨ a.name = kl := hnm
  have hany : anchors.any (fun a => (a.keyName == kl || a.name == kl) && C.verifyCert cred a) = true := by
    rw [List.any_eq_true]
    refine ⟨a, ham, ?_⟩
    rw [Bool.and_eq_true, Bool.or_eq_true]
    exact ⟨hnm.imp (by simp) (by simp), hver⟩
  have hscan : possessionScan C (possessionStart cred) (none, none) = some (some cred, none) := by
    unfold possessionStart
    simp only [possessionScan]
    rw [if_neg (by simp [binBlock, T.SelectedChallenge, T.ParameterKey]), if_pos (by simp [binBlock, nestedBlock]), if_pos (by rfl)]
    rw [blockFromValue_nested _ _ hwf]
    simp only [Res.bind_ok, dataOfBlock]
    rw [hC.data_of_cert _ _ hw]
    simp only [Res.ofOption_some]
  have hmod : handleChallenge C .possession env (possessionStart cred) { r with decryptionIv := div } =
      .ok (returnWithNewStatus .possession env { r with decryptionIv := div } NEED_PROOF
        [(KEY_NONCE, toHex env.nonce), (KEY_CREDENTIAL, toHex cred.wire.encode)] ChalKind.possession.maxTries ChalKind.possession.lifetime) := by
    show handlePossession C env (possessionStart cred) { r with decryptionIv := div } = _
    unfold handlePossession
    rw [if_neg (by simp [possessionStart]), hanc]
    dsimp only
    rw [hscan]
    dsimp only
    rw [if_pos hst.1, if_neg (by simp [credHasContent, hcon]), hkl]
    dsimp only
    rw [if_neg (by rw [hload]; simp), if_pos hany]
  have hels : ∃ els, challengeElems (returnWithNewStatus .possession env { r with decryptionIv := div } NEED_PROOF
        [(KEY_NONCE, toHex env.nonce), (KEY_CREDENTIAL, toHex cred.wire.encode)] ChalKind.possession.maxTries ChalKind.possession.lifetime).req [] [] = .ok els ∧
        (encodeAll els).length ≤ 1000 := by
    have hf : fromHex (secretGetD [(KEY_NONCE, toHex env.nonce), (KEY_CREDENTIAL, toHex cred.wire.encode)] KEY_NONCE) = .ok env.nonce :=
      fromHex_toHex _
    refine ⟨[nniBlock T.Status Status.challenge.toNat, binBlock T.ChallengeStatus NEED_PROOF, nniBlock T.RemainingTries 1,
          nniBlock T.RemainingTime 60, binBlock T.ParameterKey KEY_NONCE, binBlock T.ParameterValue env.nonce], ?_, ?_⟩
    · unfold challengeElems returnWithNewStatus challengeStateElems
      dsimp only
      rw [if_pos rfl, hf]
      rfl
    · have hn := he.nonce
      have h16 : (binBlock T.ParameterValue env.nonce).encode.length = 18 := by
        simp only [Block.encode, binBlock, List.length_append, hn]
        decide
      simp only [encodeAll_cons, List.length_append, h16, encodeAll_nil]
      decide
  obtain ⟨els, hel, hlen⟩ := hels
  obtain ⟨r2, payload, henc⟩ := challengeEncode_some (C := C) hel (.inl hst.2.2.2.1) he.ivRnd
    (by rw [if_pos (by exact hst.2.2.2.1)]; omega)
  obtain ⟨_, iv, _, hr2, _⟩ := challengeEncode_ok henc
  refine ⟨r2, mkData C cfg.profile.caPrefix i.name payload, { challengeStatus := NEED_PROOF, timestamp := env.nowStore, remainingTries := ChalKind.possession.maxTries, remainingTime := ChalKind.possession.lifetime, secrets := [(KEY_NONCE, toHex env.nonce), (KEY_CREDENTIAL, toHex cred.wire.encode)] }, ?_, by rw [hr2]; rfl, ?_⟩
  · rw [heq, processParams_selects (by simp [possessionStart, encode_ne_nil]) hpar (getElem_first rfl) rfl hmod, if_neg (by simp [returnWithNewStatus])]
    unfold finishChallenge
    rw [if_neg (by simp [returnWithNewStatus]), henc]
    rfl
  · exact ⟨by rw [hr2]; rfl, rfl, ⟨cred.wire.encode, cred.wire, fromHex_toHex _, blockOfBytes_encode _ hwf, hw⟩, fromHex_toHex _⟩

/-- C47, the CA's half of finishing: the certificate is issued. Missing: the library's requester does not send
this (`C47_false`). -/
theorem C47_proof_partial (hC : C.Lawful) (hS : LawfulStore C S Inv) (hcfg : NameFits cfg.profile.caPrefix) {h : List (Step σ)} {s : CaState σ}
    (hx : Exec C S cfg h s) {i : Interest} {env : Env} (hid : IdFits cfg i) (he : env.Wf)
    {r : RequestState} (ha : Authentic C S cfg s.store i env r) (hty : r.requestType = .new) (hiss : Issuable cfg env r)
    {cs : ChallengeState} {cred : Cert} {nonce p : Bytes} (hst : r.status = .challenge) (haw : AwaitsProof C r cs cred nonce) (hp0 : p ≠ [])
    (hp : (encodeAll (possessionProof p)).length < 2 ^ 60) (ho : Opens C i r (encodeAll (possessionProof p)))
    {anchors : List Cert} (hanc : env.anchors = .ok anchors) (hver : C.verifyRaw nonce p (cred.content.getD []) = true)
    (hload : C.loadKey (cred.content.getD []) = true) :
    ∃ c d r', onChallenge C S cfg s.store i env = ⟨[.issue c, .dbDelete r.requestId, .put d, .callback r'], .done⟩ := by
  have hi := (hx.life hC hS hcfg).1
  have hiv := hx.ivsOk hC hS hcfg ha.pending
  obtain ⟨hwait, _, _, hval⟩ := hx.stored hC hS hcfg ha.pending
  have hctr := waiting_counter hwait
  obtain ⟨div, hdec, heq⟩ := onChallenge_opens hS hi hid he ha hiv ho
  have hpar : parse (encodeAll (possessionProof p)) = .ok (possessionProof p) := by
    refine parse_encodeAll _ (fits_of_total ?_ (by omega))
    intro e hmem
    simp only [possessionProof, List.mem_cons, List.not_mem_nil, or_false] at hmem
    rcases hmem with rfl | rfl | rfl <;> exact ⟨by simp [binBlock, nestedBlock, mkBlock, T.SelectedChallenge, T.ParameterKey, T.ParameterValue], by simp [binBlock, nestedBlock, mkBlock, T.SelectedChallenge, T.ParameterKey, T.ParameterValue]⟩
  have hscan : possessionScan C (possessionProof p) (none, none) = some (none, some p) := by
    unfold possessionProof
    simp only [possessionScan]
    rw [if_neg (by simp [binBlock, T.SelectedChallenge, T.ParameterKey]), if_pos (by simp [binBlock]), if_neg (by simp [readString, binBlock]; decide),
      if_pos (by rfl)]
    rfl
  obtain ⟨h1, h2, ⟨w, dd, h3, h4, h5⟩, h6⟩ := haw
  have hmod : handleChallenge C .possession env (possessionProof p) { r with decryptionIv := div } =
      .ok (returnWithSuccess .possession { r with decryptionIv := div }) := by
    show handlePossession C env (possessionProof p) { r with decryptionIv := div } = _
    unfold handlePossession
    rw [if_neg (by simp [possessionProof]), hanc]
    dsimp only
    rw [hscan]
    dsimp only
    rw [if_neg (by rw [hst]; simp), h1]
    dsimp only
    have : p.length ≠ 0 := by simpa using hp0
    have h2 : cs.challengeStatus = NEED_PROOF := h2
    have h3 : fromHex (secretGetD cs.secrets KEY_CREDENTIAL) = .ok w := h3
    have h6 : fromHex (secretGetD cs.secrets KEY_NONCE) = .ok nonce := h6
    rw [if_pos h2, if_neg (by simpa [credHasContent] using this), h3]
    simp only [Res.bind_ok, h4, certOfBlock, h5, Res.ofOption_some, h6, Option.getD_some]
    rw [if_neg (by rw [hload]; simp), if_pos hver]
  obtain ⟨v, hv⟩ := Option.ne_none_iff_exists'.mp (hval hty)
  obtain ⟨content, hcon⟩ := Option.ne_none_iff_exists'.mp hiss.content
  have hissue : ∃ c, issueCertificate C cfg env (returnWithSuccess .possession { r with decryptionIv := div }).req = .ok c ∧
      c.name = keyNameOf r.cert.name ++ [ndncertComponent, env.version] := by
    unfold issueCertificate
    dsimp only [returnWithSuccess]
    rw [hv, hcon]
    exact ⟨_, rfl, rfl⟩
  obtain ⟨c, hc, hcn⟩ := hissue
  obtain ⟨r2, payload, henc⟩ := success_encode (C := C)
    (r := { (returnWithSuccess .possession { r with decryptionIv := div }).req with cert := c, status := .success })
    (issued := c.name) (hint := cfg.profile.forwardingHint) rfl hiv.enc he.ivRnd hctr (by rw [hcn]; exact hiss.size)
  refine ⟨c, mkData C cfg.profile.caPrefix i.name payload, r2, ?_⟩
  rw [heq, processParams_selects (by simp [possessionProof, encode_ne_nil]) hpar (getElem_first rfl) rfl hmod, if_neg (by simp [returnWithSuccess])]
  unfold finishChallenge
  rw [if_pos (by rfl), if_pos (by left; exact hty), hc]
  dsimp only
  rw [henc]
  rfl

/-! ## C48 -/

/-- C48 in full: if a certificate is issued for a proof of possession, less than 60 s have passed since the nonce was stored -/
def ProofsExpire {σ : Type} (C : Crypto) (S : StoreI σ) (cfg : CaConfig) : Prop :=
  ∀ h s, Exec C S cfg h s → ∀ i env r es cs c, env.Wf → IdFits cfg i → Authentic C S cfg s.store i env r → Selects C i r es .possession →
    r.challengeState = some cs → .issue c ∈ (onChallenge C S cfg s.store i env).effects →
    env.now - cs.timestamp < 60 * 1000000000

/-- The age of a proof plays no role: the clock reading does not change the outcome of a possession CHALLENGE. -/
theorem C48_false_any_time (hS : LawfulStore C S Inv) {st : σ} (hi : Inv st) {i : Interest} {env : Env} (hid : IdFits cfg i) (he : env.Wf)
    {r : RequestState} (ha : Authentic C S cfg st i env r) {es : List Block} (hs : Selects C i r es .possession) (t : Time) :
    onChallenge C S cfg st i { env with now := t } = onChallenge C S cfg st i env := by
  have hv := (verified_authentic hS hi hid he.stack).mpr ha
  have hv' : getCertificateRequest S cfg st i { env with now := t } = .ok (some r) := hv.found
  unfold onChallenge
  rw [hv.found, hv']
  dsimp only
  rw [if_neg (by rw [hv.sig]; simp), if_neg (by rw [hv.sig]; simp)]
  rcases hd : decodeAes C (i.params.getD ⟨0, []⟩) r.encryptionKey r.requestId r.decryptionIv r.encryptionIv with ⟨div, res⟩
  cases res with
  | exc e => rfl
  | ub u => rfl
  | ok pt =>
    obtain ⟨pt', sel, h1, h2, h3, h4, h5⟩ := hs
    obtain rfl := h1.unique (decodeAes_decrypts hd)
    dsimp only
    unfold processParams
    rw [if_neg h2, if_neg h2, h3]
    dsimp only
    rw [h4]
    unfold readString
    dsimp only
    rw [h5, createChallenge_regName]
    rfl

/-- C48, what holds: a started possession challenge can be answered only once; every answer to a CHALLENGE that selects possession
removes the request. Missing: the time limit. -/
theorem C48_once_partial (hS : LawfulStore C S Inv) {st : σ} (hi : Inv st) {i : Interest} {env : Env} (hid : IdFits cfg i) (he : env.Wf)
    {r : RequestState} (ha : Authentic C S cfg st i env r) {es : List Block} (hs : Selects C i r es .possession)
    (hst : r.status ≠ .beforeChallenge) {d : Data} (hd : d ∈ sent (onChallenge C S cfg st i env).effects) :
    .dbDelete r.requestId ∈ (onChallenge C S cfg st i env).effects := by
  have hv := (verified_authentic hS hi hid he.stack).mpr ha
  have hsame : ∀ {r'}, Verified C S cfg st i env r' → r' = r := by
    intro r' h
    have h1 := h.found
    rw [hv.found] at h1
    cases h1; rfl
  have hc := onChallenge_cases C S cfg st i env
  generalize onChallenge C S cfg st i env = o at hd hc
  cases hc with
  | undefined u _ => cases hd
  | noRequest info h => rw [hv.found] at h; cases h
  | badSig r' info h h' =>
    have h1 := hv.sig
    rw [hv.found] at h; cases h
    rw [h1] at h'; cases h'
  | reject r' code info hv' hcode => obtain rfl := hsame hv'; simp
  | early r' t _ _ => cases hd
  | continued r' div es' k out r2 payload hv' ho hmc hst' henc =>
    obtain rfl := hsame hv'
    obtain ⟨rfl, rfl⟩ := hs.unique ho.selects
    cases hmc with
    | error code info hcode => cases hst'
    | start cstat secrets mails h hsc => exact absurd h hst
    | wrong cs code given _ h => rcases h with h | h <;> cases h
    | code cs code _ h => rcases h with h | h <;> cases h
    | proof cs cred nonce p _ hk hap hg hl hver => cases hst'
  | contThrew r' div es k out t hv' ho => rw [sent_mail] at hd; cases hd
  | issued r' div es k out c r2 payload hv' ho => obtain rfl := hsame hv'; simp
  | issueThrew r' div es k out c t hv' ho => cases hd
  | revoked r' div es k out r2 payload hv' ho => obtain rfl := hsame hv'; simp
  | revokeThrew r' div es k out t hv' ho => cases hd

end

/-! ## A run -/

/-- decides `Opens` -/
def opensOk (C : Crypto) (i : Interest) (r : RequestState) (pt : Bytes) : Bool :=
  match i.params with
  | none => false
  | some b =>
    match parse b.val with
    | .ok es =>
      match getElem es T.EncryptedPayload, getElem es T.InitializationVector, getElem es T.AuthenticationTag with
      | .ok ct, .ok iv, .ok tag => decide (tag.val.length = 16) && decide (ct.val.length = pt.length) &&
        (decide (iv.val.length = 12) && decide (r.encryptionIv ≠ [] → iv.val.take 8 ≠ r.encryptionIv.take 8) &&
          decide (r.decryptionIv ≠ [] → iv.val.take 8 = r.decryptionIv.take 8 ∧ ivCounter r.decryptionIv ≤ ivCounter iv.val) &&
          decide (ivCounter iv.val + (pt.length + 15) / 16 < 2 ^ 32 - 1)) &&
        decide (C.aesDec r.encryptionKey iv.val r.requestId ct.val tag.val = some pt)
      | _, _, _ => false
    | _ => false

theorem opensOk_sound {C : Crypto} {i : Interest} {r : RequestState} {pt : Bytes} (h : opensOk C i r pt = true) : Opens C i r pt := by
  unfold opensOk at h
  split at h
  · cases h
  · rename_i b hb
    split at h
    · rename_i es hes
      split at h
      · rename_i ct iv tag h1 h2 h3
        simp only [Bool.and_eq_true, decide_eq_true_eq] at h
        obtain ⟨⟨⟨a, b'⟩, ⟨⟨c, d⟩, e⟩, f⟩, g⟩ := h
        exact ⟨b, es, ct, iv, tag, hb, hes, h1, h2, h3, a, b', ⟨c, d, e, f⟩, g⟩
      · cases h
    · cases h

/-- the credential of the fixtures, presented to start the challenge -/
def exPoss1 : Interest := Fix.sealed Fix.req1 (possessionStart Fix.revCert)
def exPossEv1 : Event := .msg (.challenge exPoss1) Fix.env2
/-- the requester after sending it -/
def exPossReq : Request :=
  { Fix.req1 with encryptionIv := (encodeAes Fix.C T.ApplicationParameters Fix.req1.aesKey (encodeAll (possessionStart Fix.revCert)) Fix.req1.requestId [] (List.replicate 8 3)).1 }
/-- the proof, in the toy cryptography: the nonce followed by the public key -/
def exPossP : Bytes := List.replicate 16 171 ++ Fix.revCert.content.getD []
def exPoss2 : Interest := Fix.sealed exPossReq (possessionProof exPossP)

def exPossSt : CaState Mem := (runs Fix.C Fix.S Fix.cfg Fix.st0 [Fix.ev1, exPossEv1]).2

theorem exPoss_exec : ∃ h, Exec Fix.C Fix.S Fix.cfg h exPossSt :=
  ⟨_, exec_of_runs (es := [Fix.ev1, exPossEv1]) (by decide +kernel)⟩

/-- C48 is false of the code: the proof is accepted one hour after the nonce was handed out. -/
theorem C48_false : ¬ ProofsExpire Fix.C Fix.S Fix.cfg := by
  intro H
  obtain ⟨h, hx⟩ := exPoss_exec
  have hau : Authentic Fix.C Fix.S Fix.cfg exPossSt.store exPoss2 (Fix.env 4601) (Fix.stored exPossSt) := authenticOk_sound (by decide +kernel)
  have hdec : Decrypts Fix.C exPoss2 (Fix.stored exPossSt) (encodeAll (possessionProof exPossP)) := decryptsOk_sound (by decide +kernel)
  have hid : IdFits Fix.cfg exPoss2 := by
    intro c hc
    have h : (match exPoss2.name[Fix.cfg.profile.caPrefix.length + 2]? with | some c => decide (c.val.length ≤ 8) | none => true) = true := by
      decide +kernel
    rw [hc] at h
    simpa using h
  have hsel : Selects Fix.C exPoss2 (Fix.stored exPossSt) (possessionProof exPossP) .possession :=
    ⟨_, _, hdec, by decide +kernel, by decide +kernel, rfl, rfl⟩
  obtain ⟨c, hc⟩ := issues_of (es := (onChallenge Fix.C Fix.S Fix.cfg exPossSt.store exPoss2 (Fix.env 4601)).effects) (by decide +kernel)
  have hcs : ((Fix.stored exPossSt).challengeState.map (fun cs => decide (cs.timestamp = 1001 * nsPerSec))) = some true := by decide +kernel
  cases hcs' : (Fix.stored exPossSt).challengeState with
  | none => rw [hcs'] at hcs; cases hcs
  | some cs =>
    rw [hcs'] at hcs
    have hts : cs.timestamp = 1001 * nsPerSec := by simpa using hcs
    have h1 := H h exPossSt hx exPoss2 (Fix.env 4601) _ _ cs c (Fix.env_wf _ _ _) hid hau hsel hcs' hc
    have h2 : (Fix.env 4601).now = 4601 * nsPerSec := rfl
    rw [hts, h2] at h1
    revert h1
    decide

/-- The hypotheses of `C46_start`, `C46_success`, `C47_start_partial` and `C47_proof_partial` are met: the challenge is
started, and finished with a certificate. -/
example : (match (runs Fix.C Fix.S Fix.cfg Fix.st0 [Fix.ev1, exPossEv1]).1.map (·.effects) with
      | [_, [.dbUpdate r, .put d, .callback _]] => decide (r.challengeType = bytes! "Possession" ∧ (errorDecode d.content).1 = 0)
      | _ => false) = true ∧
    (issued (onChallenge Fix.C Fix.S Fix.cfg exPossSt.store exPoss2 Fix.env3).effects).length = 1 ∧
    Fix.C.decodeCert Fix.revCert.wire = some Fix.revCert ∧ Fix.C.loadKey (Fix.revCert.content.getD []) = true := by
  refine ⟨by decide +kernel, by decide +kernel, by decide +kernel, by decide +kernel⟩

example : Certified Fix.C [Fix.caCert] Fix.revCert := by
  refine ⟨Fix.caCert, by simp, Fix.revCert.keyLocator.getD [], ?_, .inl ?_, ?_⟩ <;> decide +kernel

/-- the same with the theorems: `C46_start` and `C47_start_partial` apply to the first CHALLENGE, -/
example : Authentic Fix.C Fix.S Fix.cfg Fix.st1.store exPoss1 Fix.env2 (Fix.stored Fix.st1) ∧
    Selects Fix.C exPoss1 (Fix.stored Fix.st1) (possessionStart Fix.revCert) .possession ∧ Fresh (Fix.stored Fix.st1) ∧
    Opens Fix.C exPoss1 (Fix.stored Fix.st1) (encodeAll (possessionStart Fix.revCert)) :=
  ⟨authenticOk_sound (by decide +kernel), ⟨encodeAll (possessionStart Fix.revCert), _, decryptsOk_sound (by decide +kernel), by decide +kernel, by decide +kernel, rfl, rfl⟩,
    by unfold Fresh; decide +kernel, opensOk_sound (by decide +kernel)⟩

/-- and `C46_success`, `C47_proof_partial` and `C48_once_partial` to the second. -/
example : Authentic Fix.C Fix.S Fix.cfg exPossSt.store exPoss2 Fix.env3 (Fix.stored exPossSt) ∧
    Selects Fix.C exPoss2 (Fix.stored exPossSt) (possessionProof exPossP) .possession ∧ (Fix.stored exPossSt).status = .challenge ∧
    Opens Fix.C exPoss2 (Fix.stored exPossSt) (encodeAll (possessionProof exPossP)) ∧
    (∃ cs, AwaitsProof Fix.C (Fix.stored exPossSt) cs Fix.revCert Fix.env2.nonce) ∧
    Fix.C.verifyRaw Fix.env2.nonce exPossP (Fix.revCert.content.getD []) = true := by
  refine ⟨authenticOk_sound (by decide +kernel), ⟨encodeAll (possessionProof exPossP), _, decryptsOk_sound (by decide +kernel), by decide +kernel, by decide +kernel, rfl, rfl⟩,
    by decide +kernel, opensOk_sound (by decide +kernel), ?_, by decide +kernel⟩
  have h : (match (Fix.stored exPossSt).challengeState with
    | none => false
    | some cs => decide (cs.challengeStatus = (bytes! "need-proof")) &&
        decide (fromHex (secretGetD cs.secrets (bytes! "issued-cert")) = .ok Fix.revCert.wire.encode) &&
        decide (fromHex (secretGetD cs.secrets (bytes! "nonce")) = .ok Fix.env2.nonce)) = true := by decide +kernel
  split at h
  · cases h
  · rename_i cs hcs
    simp only [Bool.and_eq_true, decide_eq_true_eq] at h
    exact ⟨cs, hcs, h.1.1, ⟨_, Fix.revCert.wire, h.1.2, by decide +kernel, by decide +kernel⟩, h.2⟩

/-- the requester of the library with the possession challenge and the credential of the fixtures -/
def exPossUser : Request := { Fix.req1 with challengeType := bytes! "possession" }
def exPossGen : Request × Res Interest := genChallengeInterest Fix.C exPossUser [(bytes! "issued-cert", Fix.revCert.wire.encode)] (List.replicate 8 3)
def exPossI : Interest := Fix.interestOf' exPossGen.2

/-- the hypotheses of `C47_false` are met: the library makes a CHALLENGE, and the CA finds it authentic -/
example : exPossGen.2 = .ok exPossI ∧ Authentic Fix.C Fix.S Fix.cfg Fix.st1.store exPossI Fix.env2 (Fix.stored Fix.st1) ∧
    (Fix.stored Fix.st1).encryptionKey = exPossUser.aesKey ∧ (Fix.stored Fix.st1).requestId = exPossUser.requestId ∧
    (sent (onChallenge Fix.C Fix.S Fix.cfg Fix.st1.store exPossI Fix.env2).effects).length = 1 :=
  ⟨by decide +kernel, authenticOk_sound (by decide +kernel), by decide +kernel, by decide +kernel, by decide +kernel⟩

/-- a Data packet signed by the trust anchor whose content is a key, but whose name is not the name of a certificate -/
def exLoose : Cert :=
  (Fix.C.decodeData (Toy.wire (Fix.ca ++ [gcomp (bytes! "data")]) (some [7]) Fix.revCert.keyLocator none (Fix.caCert.content.getD []))).getD Fix.revCert
def exLoose1 : Interest := Fix.sealed Fix.req1 (possessionStart exLoose)
def exLooseReq : Request :=
  { Fix.req1 with encryptionIv := (encodeAes Fix.C T.ApplicationParameters Fix.req1.aesKey (encodeAll (possessionStart exLoose)) Fix.req1.requestId [] (List.replicate 8 3)).1 }
def exLoose2 : Interest := Fix.sealed exLooseReq (possessionProof (List.replicate 16 171 ++ [7]))
def exLooseSt : CaState Mem := (runs Fix.C Fix.S Fix.cfg Fix.st0 [Fix.ev1, .msg (.challenge exLoose1) Fix.env2]).2

/-- A third way in which C39 is false: a credential is taken apart by `Data::wireDecode`, so that any Data packet signed by a trust
anchor whose content is a public key starts the challenge; the proof then makes a `Certificate` of it, which throws, and nothing
catches that. -/
theorem C39_false_credential : (∃ h, Exec Fix.C Fix.S Fix.cfg h exLooseSt) ∧ Certified Fix.C [Fix.caCert] exLoose ∧
    ¬ IsCertName exLoose.name ∧ IdFits Fix.cfg exLoose2 ∧
    ∃ e, onChallenge Fix.C Fix.S Fix.cfg exLooseSt.store exLoose2 Fix.env3 = ⟨[], .threw e⟩ := by
  refine ⟨⟨_, exec_of_runs (es := [Fix.ev1, .msg (.challenge exLoose1) Fix.env2]) (by decide +kernel)⟩, ?_,
    fun h => absurd ((isCertName_iff _).mpr h) (by decide +kernel), ?_,
    .tlv, by decide +kernel⟩
  · refine ⟨Fix.caCert, by simp, exLoose.keyLocator.getD [], ?_, .inl ?_, ?_⟩ <;> decide +kernel
  · intro c hc
    have h : (match exLoose2.name[Fix.cfg.profile.caPrefix.length + 2]? with | some c => decide (c.val.length ≤ 8) | none => true) = true := by
      decide +kernel
    rw [hc] at h
    simpa using h

end Ndncert.Props
