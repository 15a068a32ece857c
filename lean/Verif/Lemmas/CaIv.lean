import Verif.Lemmas.Opens
import Verif.Spec.CaIv

/-! # Lemmas about the IVs of the CA's replies -/

namespace Ndncert

variable {σ : Type} {C : Crypto} {S : StoreI σ} {Inv : σ → Prop} {cfg : CaConfig}

theorem errorData_carries {ca name : Name} {code : ErrorCode} {info iv ct : Bytes} : ¬ Carries (errorData C ca name code info) iv ct := by
  rintro ⟨hl, es, a, b, h1, h2, _⟩
  have hl' : (encodeAll [nniBlock T.ErrorCode code, binBlock T.ErrorInfo info]).length < 2 ^ 64 := hl
  have hp : parse (encodeAll [nniBlock T.ErrorCode code, binBlock T.ErrorInfo info]) =
      .ok [nniBlock T.ErrorCode code, binBlock T.ErrorInfo info] := by
    apply parse_encodeAll
    intro x hx
    have hm := Nat.lt_of_le_of_lt (mem_encodeAll_length hx) hl'
    simp only [List.mem_cons, List.not_mem_nil, or_false] at hx
    rcases hx with rfl | rfl
    · exact ⟨by show 0 < _; simp only [nniBlock, binBlock]; decide, by show _ < 2 ^ 32; simp only [nniBlock, binBlock]; decide, hm⟩
    · exact ⟨by show 0 < _; simp only [nniBlock, binBlock]; decide, by show _ < 2 ^ 32; simp only [nniBlock, binBlock]; decide, hm⟩
  have h1' : parse (encodeAll [nniBlock T.ErrorCode code, binBlock T.ErrorInfo info]) = .ok es := h1
  rw [hp] at h1'
  injection h1' with h1'
  subst h1'
  unfold getElem at h2
  revert h2
  simp [nniBlock, binBlock, T.ErrorCode, T.ErrorInfo, T.InitializationVector, Res.ofOption]

/-- the IV and the ciphertext of an encrypted reply -/
theorem encoded_carries (hC : C.Lawful) {r r2 : RequestState} {issued hint : Name} {rnd : Bytes} {payload : Block} {ca name : Name} {iv ct : Bytes}
    (h : challengeEncode C r issued hint rnd = (r2, .ok payload)) (hc : Carries (mkData C ca name payload) iv ct) :
    ∃ es, challengeElems r issued hint = .ok es ∧ iv = startIv r.encryptionIv rnd ∧ ct.length = (encodeAll es).length ∧
      updateIv iv ct.length = .ok r2.encryptionIv := by
  obtain ⟨es, iv', h1, h2, h3⟩ := challengeEncode_ok h
  obtain ⟨_, h4, h5⟩ := encodeAes_ok h3
  obtain ⟨hl, es', a, b, g1, g2, g3, g4, g5⟩ := hc
  have hpl : (mkData C ca name payload).content = payload := rfl
  rw [hpl, h5] at hl g1
  generalize hiv : startIv r.encryptionIv rnd = v at *
  have hlen := hC.aes_length r.encryptionKey (v.take 12) r.requestId (encodeAll es)
  generalize C.aesEnc r.encryptionKey (v.take 12) r.requestId (encodeAll es) = x at *
  have hl' : (encodeAll [binBlock T.InitializationVector v, binBlock T.AuthenticationTag x.2, binBlock T.EncryptedPayload x.1]).length < 2 ^ 64 := hl
  have hp : parse (encodeAll [binBlock T.InitializationVector v, binBlock T.AuthenticationTag x.2, binBlock T.EncryptedPayload x.1]) =
      .ok [binBlock T.InitializationVector v, binBlock T.AuthenticationTag x.2, binBlock T.EncryptedPayload x.1] := by
    apply parse_encodeAll
    intro y hy
    have hm := Nat.lt_of_le_of_lt (mem_encodeAll_length hy) hl'
    simp only [List.mem_cons, List.not_mem_nil, or_false] at hy
    rcases hy with rfl | rfl | rfl <;> exact ⟨by show 0 < _; simp only [nniBlock, binBlock]; decide, by show _ < 2 ^ 32; simp only [nniBlock, binBlock]; decide, hm⟩
  have g1' : parse (encodeAll [binBlock T.InitializationVector v, binBlock T.AuthenticationTag x.2, binBlock T.EncryptedPayload x.1]) = .ok es' := g1
  rw [hp] at g1'
  injection g1' with g1'
  subst g1'
  have ha : a.val = v := by
    have : getElem [binBlock T.InitializationVector v, binBlock T.AuthenticationTag x.2, binBlock T.EncryptedPayload x.1] T.InitializationVector =
      .ok (binBlock T.InitializationVector v) := rfl
    rw [this] at g2
    injection g2 with g2
    rw [← g2]; rfl
  have hb : b.val = x.1 := by
    have : getElem [binBlock T.InitializationVector v, binBlock T.AuthenticationTag x.2, binBlock T.EncryptedPayload x.1] T.EncryptedPayload =
      .ok (binBlock T.EncryptedPayload x.1) := rfl
    rw [this] at g4
    injection g4 with g4
    rw [← g4]; rfl
  have e1 : iv = v := g3.symm.trans ha
  have e2 : ct.length = (encodeAll es).length := by rw [← g5, hb]; exact hlen.1
  refine ⟨es, h1, e1, e2, ?_⟩
  rw [e1, e2, h4, h2]

/-- the state of a request that stays in its challenge: its reply is short -/
theorem ModCase.replyShape {k : ChalKind} {env : Env} {es : List Block} {r : RequestState} {out : ChalOut}
    (h : ModCase C k env es r out) (hst : out.req.status = .challenge) (he : env.Wf) :
    ∃ cs, out.req.challengeState = some cs ∧ out.req.encryptionIv = r.encryptionIv ∧ out.req.requestId = r.requestId ∧
      ((cs.challengeStatus = NEED_CODE ∨ cs.challengeStatus = WRONG_CODE) ∨
      (cs.challengeStatus = NEED_PROOF ∧ ∃ nonce : Bytes, nonce.length = 16 ∧ secretGetD cs.secrets KEY_NONCE = toHex nonce)) := by
  cases h with
  | error code info hcode => cases hst
  | code cs code hs hk ha hg ht => cases hst
  | proof cs cred nonce p hs hk ha hg hl hv => cases hst
  | start cstat secrets mails hs0 hsc =>
    refine ⟨_, rfl, rfl, rfl, ?_⟩
    cases hsc with
    | pin => exact .inl (.inl rfl)
    | email _ _ _ _ => exact .inl (.inl rfl)
    | possession _ _ _ _ _ _ _ => exact .inr ⟨rfl, env.nonce, he.nonce, rfl⟩
  | wrong cs code given hns hk ha hg hne ht htr time => exact ⟨_, rfl, rfl, rfl, .inl (.inr rfl)⟩

/-- the next encryption IV of a request that stays in its challenge -/
theorem advances {k : ChalKind} {env : Env} {es : List Block} {r r2 : RequestState} {out : ChalOut} {payload : Block}
    (hm : ModCase C k env es r out) (hst : out.req.status = .challenge) (he : env.Wf)
    (hl : r.encryptionIv = [] ∨ r.encryptionIv.length = 12) (henc : challengeEncode C out.req [] [] env.ivRnd = (r2, .ok payload)) :
    r2.requestId = r.requestId ∧ r2.encryptionIv.length = 12 ∧ ivPrefix r2.encryptionIv = ivPrefix (startIv r.encryptionIv env.ivRnd) ∧
    ∃ els, challengeElems out.req [] [] = .ok els ∧ 0 < (encodeAll els).length ∧ (encodeAll els).length ≤ 64 ∧
      ivCounter r2.encryptionIv = ivCounter (startIv r.encryptionIv env.ivRnd) + blocksOf (encodeAll els).length := by
  obtain ⟨cs, c1, c2, c3, c4⟩ := hm.replyShape hst he
  obtain ⟨els, iv, h1, h2, h3⟩ := challengeEncode_ok henc
  obtain ⟨_, h4, _⟩ := encodeAes_ok h3
  obtain ⟨g1, g2⟩ := reply_length hst c1 c4 h1
  rw [c2] at h4
  obtain ⟨h5, h6, h7, _⟩ := updateIv_ok (startIv_length hl he.ivRnd) (by omega) h4
  have e2 : r2.encryptionIv = iv := by rw [h2]
  have e3 : r2.requestId = out.req.requestId := by rw [h2]
  rw [e2]
  exact ⟨e3.trans c3, h5, h6, els, h1, g2, g1, h7⟩

/-- an encrypted reply, and what happened before it was sent -/
theorem reply_iv (hC : C.Lawful) (hS : LawfulStore C S Inv) {st : σ} (hi : Inv st) {i : Interest} {env : Env} (hmw : (Msg.challenge i).Wf cfg)
    (he : env.Wf) {k : Nat} {d : Data} {iv ct : Bytes}
    (hd : d ∈ sent ((onChallenge C S cfg st i env).effects.take k)) (hc : Carries d iv ct) :
    ∃ r, Authentic C S cfg st i env r ∧ iv = startIv r.encryptionIv env.ivRnd ∧
      (.dbDelete r.requestId ∈ (onChallenge C S cfg st i env).effects.take k ∨
        ∃ div es kk out r2 payload els, .dbUpdate r2 ∈ (onChallenge C S cfg st i env).effects.take k ∧
          ModCase C kk env es { r with decryptionIv := div } out ∧ out.req.status = .challenge ∧
          challengeEncode C out.req [] [] env.ivRnd = (r2, .ok payload) ∧ challengeElems out.req [] [] = .ok els ∧
          ct.length = (encodeAll els).length) := by
  have hf := idFits_of_wf hmw
  have hva : ∀ {r}, Verified C S cfg st i env r → Authentic C S cfg st i env r := fun h => (verified_authentic hS hi hf he.stack).mp h
  have hcase := onChallenge_cases C S cfg st i env
  generalize onChallenge C S cfg st i env = o at hd hcase ⊢
  have hsub : sent o.effects = [] → False := by
    intro h
    have : List.Sublist (sent (o.effects.take k)) (sent o.effects) := by
      rw [sent_eq, sent_eq]
      exact (List.take_sublist _ _).filterMap _
    rw [h] at this
    rw [List.sublist_nil.mp this] at hd
    cases hd
  have hs : ∀ {pre post d'}, o.effects = pre ++ .put d' :: post → sent pre = [] → sent post = [] → dbOps post = [] →
      d = d' ∧ ∀ x ∈ pre, x ∈ o.effects.take k := by
    intro pre post d' h1 h2 h3 h4
    rw [h1] at hd ⊢
    exact ⟨(sent_take (σ := σ) h2 h3 h4 hd).1, put_take h2 hd⟩
  cases hcase with
  | undefined u _ => exact absurd rfl (fun h => hsub h)
  | noRequest info h =>
    obtain ⟨h1, _⟩ := hs (pre := []) (post := []) rfl rfl rfl rfl
    subst h1
    exact absurd hc errorData_carries
  | badSig r' info h h' =>
    obtain ⟨h1, _⟩ := hs (pre := []) (post := []) rfl rfl rfl rfl
    subst h1
    exact absurd hc errorData_carries
  | reject r' code info hv' hcode =>
    obtain ⟨h1, _⟩ := hs (pre := [.dbDelete r'.requestId]) (post := []) rfl rfl rfl rfl
    subst h1
    exact absurd hc errorData_carries
  | early r' t _ _ => exact absurd rfl (fun h => hsub h)
  | continued r' div es k' out r2 payload hv' ho hmc hst henc =>
    obtain ⟨h1, h2⟩ := hs (pre := out.mails.map .mail ++ [.dbUpdate r2]) (post := [.callback r2])
      (d' := mkData C cfg.profile.caPrefix i.name payload) (by simp) (by rw [sent_append, sent_mail]; rfl) rfl rfl
    subst h1
    obtain ⟨els, g1, g2, g3, _⟩ := encoded_carries hC henc hc
    obtain ⟨cs, _, c2, _⟩ := hmc.replyShape hst he
    refine ⟨r', hva hv', by rw [g2, c2], .inr ⟨div, es, k', out, r2, payload, els, h2 _ (by simp), hmc, hst, henc, g1, g3⟩⟩
  | contThrew r' div es k' out t hv' ho hmc hst ht => exact absurd (sent_mail out.mails) hsub
  | issued r' div es k' out c r2 payload hv' ho hmc hst hty hiss henc =>
    obtain ⟨h1, h2⟩ := hs (pre := [.issue c, .dbDelete r'.requestId]) (post := [.callback r2]) rfl rfl rfl rfl
    subst h1
    obtain ⟨els, g1, g2, g3, _⟩ := encoded_carries hC henc hc
    refine ⟨r', hva hv', ?_, .inl (h2 _ (by simp))⟩
    rw [g2]
    cases hmc <;> first | rfl | cases hst
  | issueThrew r' div es k' out c t hv' ho hmc hst hty hiss ht => exact absurd rfl (fun h => hsub h)
  | revoked r' div es k' out r2 payload hv' ho hmc hst hty henc =>
    obtain ⟨h1, h2⟩ := hs (pre := [.dbDelete r'.requestId]) (post := [.callback r2]) rfl rfl rfl rfl
    subst h1
    obtain ⟨els, g1, g2, g3, _⟩ := encoded_carries hC henc hc
    refine ⟨r', hva hv', ?_, .inl (h2 _ (by simp))⟩
    rw [g2]
    cases hmc <;> first | rfl | cases hst
  | revokeThrew r' div es k' out t hv' ho hmc hst hty ht => exact absurd rfl (fun h => hsub h)

theorem startIv_full {iv rnd : Bytes} (h : iv.length = 12) : startIv iv rnd = iv := by
  unfold startIv
  rw [if_neg]
  rintro rfl
  cases h

/-- the encryption IV of a pending request after an encrypted reply -/
theorem Exec.iv_after (hC : C.Lawful) (hS : LawfulStore C S Inv) (hcfg : NameFits cfg.profile.caPrefix)
    {h : List (Step σ)} {s : CaState σ} (hx : Exec C S cfg h s) {h1 h2 : List (Step σ)} {n : Step σ} (hh : h = h1 ++ n :: h2)
    {id : RequestId} {iv ct : Bytes} (hr : EncryptedReply cfg n id iv ct)
    (hno : ∀ x ∈ h2, ∀ r, Effect.dbAdd r ∈ x.effects → r.requestId ≠ id) :
    ∀ r, S.view s.store id = some r → 0 < ct.length ∧ r.encryptionIv.length = 12 ∧ ivPrefix r.encryptionIv = ivPrefix iv ∧
      ivCounter iv + blocksOf ct.length ≤ ivCounter r.encryptionIv := by
  refine hx.preserve (P := fun r => 0 < ct.length ∧ r.encryptionIv.length = 12 ∧ ivPrefix r.encryptionIv = ivPrefix iv ∧
      ivCounter iv + blocksOf ct.length ≤ ivCounter r.encryptionIv) hC hS hcfg ?_ h1 n h2 hh ?_ hno
  · intro h' n' i env k es out r0 r1 r hx' hu hv hid hs hp
    obtain ⟨p0, p1, p2, p3⟩ := hp
    obtain ⟨div, _, hm⟩ := hu.module
    obtain ⟨payload, henc⟩ := hu.encode
    obtain ⟨_, a2, a3, els, _, _, _, a4⟩ := advances hm hu.status hu.wf (.inr p1) henc
    have hf := hs.fields.2.2.2.2.2.1
    rw [startIv_full p1] at a3 a4
    rw [← hf]
    exact ⟨p0, a2, a3.trans p2, by omega⟩
  · intro r hr'
    obtain ⟨hx0, hwf, _, heff, _⟩ := hx.split _ _ _ hh
    obtain ⟨i, env, d, hh1, hn, hd, hc⟩ := hr
    obtain ⟨hmw, hew⟩ := hwf _ _ hh1
    have hinv := (hx0.life hC hS hcfg).1
    obtain ⟨hinv', hvc⟩ := step_view hC hS hcfg hinv hwf heff
    obtain ⟨_, hview⟩ := run_view (cfg := cfg) hS heff hinv'
    have hr1 : S.view (n.afterStore S) id = some r := by
      rcases hview with h | h
      · rw [← h]; exact hr'
      · rw [h] at hr'; cases hr'
    obtain ⟨k, hk⟩ : ∃ k, n.effects = (onChallenge C S cfg n.pre.store i env).effects.take k := by
      rcases run_effects C S cfg n.pre n.event with ⟨h, _⟩ | ⟨m, env', k, h, h'⟩
      · rw [hh1] at h; cases h
      · rw [hh1] at h
        cases h
        exact ⟨k, heff.trans h'⟩
    rw [hk] at hd
    obtain ⟨r0, ha, e1, hdb⟩ := reply_iv hC hS hinv hmw hew hd hc
    have hid : r0.requestId = id := by
      obtain ⟨c, q1, q2⟩ := ha.names
      obtain ⟨c', q3, q4⟩ := hn
      rw [q1] at q3
      injection q3 with q3
      rw [q2, q4, q3]
    rw [← hk] at hdb
    have hivs := hx0.ivsOk hC hS hcfg ha.pending
    cases hvc with
    | same h0 hsame =>
      exfalso
      rcases hdb with hdb | ⟨_, _, _, _, _, _, _, hdb, _⟩
      · have := (mem_dbOps (by rfl)).mpr hdb; rw [h0] at this; cases this
      · have := (mem_dbOps (by rfl)).mpr hdb; rw [h0] at this; cases this
    | added ty i' env' r1 hd' ha' _ _ =>
      exfalso
      rcases hdb with hdb | ⟨_, _, _, _, _, _, _, hdb, _⟩
      · have := (mem_dbOps (by rfl)).mpr hdb; rw [hd'] at this; simp at this
      · have := (mem_dbOps (by rfl)).mpr hdb; rw [hd'] at this; simp at this
    | deleted i' env' r1 hd' _ _ _ hvw =>
      rcases hdb with hdb | ⟨_, _, _, _, _, _, _, hdb, _⟩
      · have := (mem_dbOps (by rfl)).mpr hdb
        rw [hd'] at this
        simp only [List.mem_singleton, Effect.dbDelete.injEq] at this
        rw [hvw, if_pos (hid.symm.trans this)] at hr1
        cases hr1
      · have := (mem_dbOps (by rfl)).mpr hdb; rw [hd'] at this; simp at this
    | updated i' env' k' es' out' r0' r1 r'' hd' hu h0 hsm hvw =>
      rcases hdb with hdb | ⟨div, es, kk, out, r2, payload, els, hdb, hm, hst, henc, hel, hct⟩
      · have := (mem_dbOps (by rfl)).mpr hdb; rw [hd'] at this; simp at this
      · have := (mem_dbOps (by rfl)).mpr hdb
        rw [hd'] at this
        simp only [List.mem_singleton, Effect.dbUpdate.injEq] at this
        subst this
        obtain ⟨b1, b2, b3, els', b4, b5, b6, b7⟩ := advances hm hst hew hivs.1 henc
        rw [hel] at b4
        injection b4 with b4
        subst b4
        rw [hvw, if_pos (by rw [b1]; exact hid.symm)] at hr1
        injection hr1 with hr1
        subst hr1
        have hf := hsm.fields.2.2.2.2.2.1
        rw [← hf]
        dsimp only at b3 b7
        rw [← e1] at b3 b7
        exact ⟨by omega, b2, b3, by rw [hct, b7]; exact Nat.le_refl _⟩

end Ndncert
