import Verif.Lemmas.Opens

namespace Ndncert

variable {σ : Type} {C : Crypto} {S : StoreI σ} {Inv : σ → Prop} {cfg : CaConfig}

theorem Res.of_bind_ub {α β : Type} {x : Res α} {f : α → Res β} {u : Ub} (h : x >>= f = .ub u) : x = .ub u ∨ ∃ a, x = .ok a ∧ f a = .ub u := by
  cases x with
  | ok a => exact .inr ⟨a, rfl, h⟩
  | exc e => cases h
  | ub v => exact .inl (by cases h; rfl)

theorem Res.of_bind_exc {α β : Type} {x : Res α} {f : α → Res β} {e : Exc} (h : x >>= f = .exc e) : x = .exc e ∨ ∃ a, x = .ok a ∧ f a = .exc e := by
  cases x with
  | ok a => exact .inr ⟨a, rfl, h⟩
  | exc e => exact .inl (by cases h; rfl)
  | ub v => cases h

theorem secretGet_no_ub (l : List (Bytes × Bytes)) (k : Bytes) (u : Ub) : secretGet l k ≠ .ub u := by
  unfold secretGet
  split <;> simp

theorem certOfBlock_no_ub (C : Crypto) (b : Block) (u : Ub) : certOfBlock C b ≠ .ub u := by
  unfold certOfBlock Res.ofOption
  cases C.decodeCert b <;> simp

theorem blockOfBytes_no_ub (bs : Bytes) (u : Ub) : blockOfBytes bs ≠ .ub u := by
  intro h
  unfold blockOfBytes Block.blockFromValue at h
  rcases Res.of_bind_ub h with h | ⟨a, _, h⟩
  · exact readElement_no_ub _ _ h
  · dsimp only at h
    split at h <;> cases h

theorem handleCode_no_ub {k : ChalKind} {env : Env} {es : List Block} {r : RequestState} {u : Ub} : handleCode k env es r ≠ .ub u := by
  intro h
  unfold handleCode at h
  split at h
  · cases h
  split at h
  · rcases Res.of_bind_ub h with h | ⟨a, _, h⟩
    · exact getElem_no_ub _ _ _ h
    split at h
    · cases h
    rcases Res.of_bind_ub h with h | ⟨a, _, h⟩
    · exact secretGet_no_ub _ _ _ h
    split at h
    · cases h
    split at h <;> cases h
  · cases h

theorem handleChallenge_no_ub {k : ChalKind} {env : Env} {es : List Block} {r : RequestState} {u : Ub} (he : env.Wf) (hes : es ≠ [])
    (hne : r.cert.identity ≠ []) : handleChallenge C k env es r ≠ .ub u := by
  intro h
  cases k with
  | pin =>
    have h : handlePin env es r = .ub u := h
    unfold handlePin at h
    split at h
    · cases h
    · exact handleCode_no_ub h
  | email =>
    have h : handleEmail env es r = .ub u := h
    unfold handleEmail at h
    split at h
    · rcases Res.of_bind_ub h with h | ⟨a, _, h⟩
      · exact getElem_no_ub _ _ _ h
      split at h <;> cases h
    · exact handleCode_no_ub h
  | possession =>
    have h : handlePossession C env es r = .ub u := h
    unfold handlePossession at h
    rw [if_neg hes] at h
    split at h
    · cases h
    · rename_i u' hu; exact he.anchors _ hu
    split at h
    · cases h
    dsimp only at h
    split at h
    · split at h
      · cases h
      rename_i hcond
      split at h
      · exact hcond (.inl rfl)
      split at h
      · cases h
      split at h
      · cases h
      split at h <;> cases h
    · split at h
      · split at h
        · split at h
          · cases h
          rcases Res.of_bind_ub h with h | ⟨a, _, h⟩
          · exact fromHex_no_ub _ _ h
          rcases Res.of_bind_ub h with h | ⟨a, _, h⟩
          · exact blockOfBytes_no_ub _ _ h
          rcases Res.of_bind_ub h with h | ⟨a, _, h⟩
          · exact certOfBlock_no_ub _ _ _ h
          rcases Res.of_bind_ub h with h | ⟨a, _, h⟩
          · exact fromHex_no_ub _ _ h
          split at h
          · cases h
          split at h <;> cases h
        · cases h
      · cases h

theorem challengeElems_no_ub (r : RequestState) (issued hint : Name) (u : Ub) : challengeElems r issued hint ≠ .ub u := by
  intro h
  unfold challengeElems at h
  dsimp only at h
  split at h
  · rcases Res.of_bind_ub h with h | ⟨a, _, h⟩
    · unfold challengeStateElems at h
      dsimp only at h
      split at h
      · rcases Res.of_bind_ub h with h | ⟨a, _, h⟩
        · exact fromHex_no_ub _ _ h
        · cases h
      · cases h
    · cases h
  · cases h

theorem challengeEncode_no_ub {r : RequestState} {issued hint : Name} {rnd : Bytes} {u : Ub} (hl : r.encryptionIv = [] ∨ r.encryptionIv.length = 12)
    (hr : rnd.length = 8) : (challengeEncode C r issued hint rnd).2 ≠ .ub u := by
  unfold challengeEncode
  cases h : challengeElems r issued hint with
  | exc e => simp
  | ub v => exact absurd h (challengeElems_no_ub _ _ _ _)
  | ok es =>
    dsimp only
    unfold encodeAes
    dsimp only
    rw [if_neg (by rw [startIv_length hl hr]; omega)]
    cases h : updateIv (startIv r.encryptionIv rnd) (encodeAll es).length with
    | ok iv => simp
    | exc e => simp
    | ub v => exact absurd h (updateIv_no_ub _ _ _)

/-- encoding succeeds as long as the counter does not overflow -/
theorem challengeEncode_some {r : RequestState} {issued hint : Name} {rnd : Bytes} {es : List Block} (hes : challengeElems r issued hint = .ok es)
    (hl : r.encryptionIv = [] ∨ r.encryptionIv.length = 12) (hr : rnd.length = 8)
    (hc : (if r.encryptionIv = [] then 0 else ivCounter r.encryptionIv) + ((encodeAll es).length + 15) / 16 < 2 ^ 32 - 1) :
    ∃ r2 payload, challengeEncode C r issued hint rnd = (r2, .ok payload) := by
  have h7 : ivCounter (startIv r.encryptionIv rnd) = if r.encryptionIv = [] then 0 else ivCounter r.encryptionIv := by
    unfold startIv
    split
    · unfold ivCounter
      rw [List.drop_append, List.drop_of_length_le (by omega), hr]
      decide
    · rfl
  rw [← h7] at hc
  obtain ⟨iv', hiv⟩ := updateIv_some hc
  unfold challengeEncode
  rw [hes]
  dsimp only
  unfold encodeAes
  dsimp only
  rw [if_neg (by rw [startIv_length hl hr]; omega), hiv]
  exact ⟨_, _, rfl⟩

theorem abort_term {α : Type} {pre : List Effect} {x : Res α} {u : Ub} (h : x ≠ .ub u) : (abort pre x).term ≠ .undefined u := by
  cases x with
  | ok a => simp [abort]
  | exc e => simp [abort]
  | ub v => intro h'; simp [abort] at h'; exact h (by rw [h'])

theorem finishChallenge_no_ub {i : Interest} {env : Env} {pre : List Effect} {r : RequestState} {u : Ub} (he : env.Wf)
    (hl : r.encryptionIv = [] ∨ r.encryptionIv.length = 12) : (finishChallenge C cfg i env pre r).term ≠ .undefined u := by
  have key : ∀ (r' : RequestState) (is hint : Name) (pre' pre'' : List Effect) , r'.encryptionIv = r.encryptionIv →
      ∀ f : RequestState → Block → Outcome, (∀ a b, (f a b).term = .done) →
      (match (challengeEncode C r' is hint env.ivRnd).2 with
        | .ok payload => f (challengeEncode C r' is hint env.ivRnd).1 payload
        | e => abort pre' e).term ≠ .undefined u := by
    intro r' is hint pre' pre'' hr f hf
    have hn := challengeEncode_no_ub (C := C) (issued := is) (hint := hint) (u := u) (r := r') (rnd := env.ivRnd) (by rw [hr]; exact hl) he.ivRnd
    split
    · rw [hf]; simp
    · exact abort_term hn
  unfold finishChallenge
  split
  · split
    · split
      · exact key _ _ _ _ [] (by rfl) _ (fun a b => rfl)
      · rename_i hne
        apply abort_term
        unfold issueCertificate
        split <;> simp
    · split
      · exact key _ _ _ _ [] (by rfl) _ (fun a b => rfl)
      · exact abort_term (by simp)
  · exact key _ _ _ _ [] (by rfl) (fun a b => sendChallengeReply C cfg i (pre ++ [.dbUpdate a]) a b) (fun a b => rfl)

/-- for well formed Interests the handler has defined behaviour -/
theorem onChallenge_no_ub (hS : LawfulStore C S Inv) {st : σ} (hi : Inv st) {i : Interest} {env : Env} (hid : IdFits cfg i) (he : env.Wf)
    (hiv : ∀ id r, S.view st id = some r → IvsOk r) (hne : ∀ id r, S.view st id = some r → r.cert.identity ≠ []) (u : Ub) : (onChallenge C S cfg st i env).term ≠ .undefined u := by
  unfold onChallenge
  rcases lookup_cases (cfg := cfg) (i := i) hS hi hid he.stack with ⟨h1, _⟩ | ⟨r, h1, h2, h3⟩
  · rw [h1]; simp [replyError]
  rw [h1]
  dsimp only
  split
  · simp [replyError]
  have hr := hiv _ _ h2
  rcases hdec : decodeAes C (i.params.getD ⟨0, []⟩) r.encryptionKey r.requestId r.decryptionIv r.encryptionIv with ⟨div, res⟩
  cases res with
  | exc e => simp [replyError]
  | ub u => exact absurd (congrArg Prod.snd hdec) (decodeAes_no_ub (by rcases hr.dec with h | h <;> simp [h]) (by rcases hr.enc with h | h <;> simp [h]) u)
  | ok pt =>
    dsimp only
    unfold processParams
    split
    · simp [replyError]
    cases hp : parse pt with
    | exc e => simp [abort]
    | ub u => exact absurd hp (parse_no_ub _ _)
    | ok es =>
      dsimp only
      cases hsel : getElem es T.SelectedChallenge with
      | exc e => simp [abort]
      | ub u => exact absurd hsel (getElem_no_ub _ _ _)
      | ok sel =>
        dsimp only
        have hes : es ≠ [] := by
          rintro rfl
          cases hsel
        split
        · simp [replyError]
        · cases hh : handleChallenge C _ env es { r with decryptionIv := div } with
          | exc e => simp [abort]
          | ub u => exact absurd hh (handleChallenge_no_ub he hes (show r.cert.identity ≠ [] from hne _ _ h2))
          | ok out =>
            dsimp only
            split
            · simp [replyError]
            · apply finishChallenge_no_ub he
              have hm := handleChallenge_cases C hh
              have : out.req.encryptionIv = r.encryptionIv := by cases hm <;> rfl
              rw [this]
              exact hr.enc

/-- the only Data a CHALLENGE handler sends is named as the Interest -/
theorem onChallenge_sent (C : Crypto) (S : StoreI σ) (cfg : CaConfig) (st : σ) (i : Interest) (env : Env) :
    ((onChallenge C S cfg st i env).term = .done → ∃ d, sent (onChallenge C S cfg st i env).effects = [d] ∧ d.name = i.name) ∧
    ((onChallenge C S cfg st i env).term ≠ .done → sent (onChallenge C S cfg st i env).effects = []) := by
  have hc := onChallenge_cases C S cfg st i env
  generalize onChallenge C S cfg st i env = o at hc
  cases hc with
  | undefined u h => exact ⟨fun h => (nomatch h), fun _ => rfl⟩
  | noRequest info h => exact ⟨fun _ => ⟨_, rfl, rfl⟩, fun h => absurd rfl h⟩
  | badSig r' info h h' => exact ⟨fun _ => ⟨_, rfl, rfl⟩, fun h => absurd rfl h⟩
  | reject r' code info hv' hcode => exact ⟨fun _ => ⟨_, rfl, rfl⟩, fun h => absurd rfl h⟩
  | early r' t _ ht => exact ⟨fun h => absurd h ht, fun _ => rfl⟩
  | continued r' div es k' out r2 payload hv' ho hmc hst henc =>
    refine ⟨fun _ => ⟨mkData C cfg.profile.caPrefix i.name payload, ?_, rfl⟩, fun h => absurd rfl h⟩
    dsimp only
    rw [sent_append, sent_mail]; rfl
  | contThrew r' div es k' out t hv' ho hmc hst ht => exact ⟨fun h => absurd h ht, fun _ => by dsimp only; rw [sent_mail]⟩
  | issued r' div es k' out c r2 payload hv' ho hmc hst hty hiss henc => exact ⟨fun _ => ⟨_, rfl, rfl⟩, fun h => absurd rfl h⟩
  | issueThrew r' div es k' out c t hv' ho hmc hst hty hiss ht => exact ⟨fun h => absurd h ht, fun _ => rfl⟩
  | revoked r' div es k' out r2 payload hv' ho hmc hst hty henc => exact ⟨fun _ => ⟨_, rfl, rfl⟩, fun h => absurd rfl h⟩
  | revokeThrew r' div es k' out t hv' ho hmc hst hty ht => exact ⟨fun h => absurd h ht, fun _ => rfl⟩

/-! ## When the handler returns -/

theorem handleCode_returns {k k' : ChalKind} {env env' : Env} {es : List Block} {r : RequestState} {cs : ChallengeState}
    (hcs : r.challengeState = some cs) (hsec : SecretOf C env' k' cs) (hg : ∃ v, Gives es v) : ∃ out, handleCode k env es r = .ok out := by
  obtain ⟨v, b, hb, _⟩ := hg
  unfold handleCode
  rw [hcs]
  dsimp only
  split
  · rename_i hst
    rw [hb]
    simp only [Res.bind_ok]
    split
    · exact ⟨_, rfl⟩
    · have : ∃ code, secretGet cs.secrets KEY_CODE = .ok code := by
        cases hsec with
        | code _ _ _ _ h => rw [h]; exact ⟨_, rfl⟩
        | proof _ c anchors h =>
          rw [h] at hst
          exact absurd hst (by decide)
      obtain ⟨code, hcode⟩ := this
      rw [hcode]
      simp only [Res.bind_ok]
      split
      · exact ⟨_, rfl⟩
      split <;> exact ⟨_, rfl⟩
  · exact ⟨_, rfl⟩

theorem handlePossession_returns (hC : C.Lawful) {env : Env} {es : List Block} {r : RequestState} (hes : es ≠ [])
    (ha : ∃ anchors, env.anchors = .ok anchors)
    (hb : r.status = .beforeChallenge → ∀ c, GivesCredential C es c → c.keyLocator ≠ none ∧ C.loadKey (c.content.getD []) = true)
    (hk : r.status ≠ .beforeChallenge → KeepsCertificate C r)
    (hc : r.status ≠ .beforeChallenge → ∃ k' env' cs, r.challengeState = some cs ∧ SecretOf C env' k' cs) :
    ∃ out, handlePossession C env es r = .ok out := by
  obtain ⟨anchors, ha⟩ := ha
  unfold handlePossession
  rw [if_neg hes, ha]
  dsimp only
  cases hscan : possessionScan C es (none, none) with
  | none => exact ⟨_, rfl⟩
  | some acc =>
    obtain ⟨cred, proof⟩ := acc
    obtain ⟨sc, _⟩ := possessionScan_spec C _ _ _ hscan
    dsimp only at sc ⊢
    split
    · rename_i hst
      split
      · exact ⟨_, rfl⟩
      rename_i hcond
      rcases sc with rfl | ⟨c, rfl, hg⟩
      · exact absurd (.inl rfl) hcond
      dsimp only
      obtain ⟨h1, h2⟩ := hb hst c hg
      cases hkl : c.keyLocator with
      | none => exact absurd hkl h1
      | some kl =>
        dsimp only
        rw [if_neg (by rw [h2]; simp)]
        split <;> exact ⟨_, rfl⟩
    · rename_i hst
      obtain ⟨k', env', cs, hcs, hsec⟩ := hc hst
      rw [hcs]
      dsimp only
      split
      · rename_i hnp
        split
        · exact ⟨_, rfl⟩
        cases hsec with
        | code _ _ _ h _ =>
          rw [hnp] at h
          exact absurd h (by decide)
        | proof _ c anchors' h4 _ _ _ hdec hload hsec =>
          have h6 : secretGetD cs.secrets KEY_CREDENTIAL = toHex c.wire.encode := by rw [hsec]; rfl
          have h7 : secretGetD cs.secrets KEY_NONCE = toHex env'.nonce := by rw [hsec]; rfl
          obtain ⟨d, hf, hd⟩ := hdec
          have hw := (hC.data_wire d c hd).1
          have hd2 : C.decodeCert d = some c := by
            cases h9 : C.decodeCert d with
            | none => exact absurd h9 (hk hst cs c.wire.encode d hcs ((congrArg fromHex h6).trans (fromHex_toHex _)) (by rw [hw]; exact blockOfBytes_encode _ hf))
            | some c' =>
              have h10 := hC.data_of_cert _ _ h9
              rw [hd] at h10
              cases h10
              rfl
          rw [h6, h7, fromHex_toHex, fromHex_toHex, hw]
          have h8 : certOfBlock C d = .ok c := by unfold certOfBlock; rw [hd2]; rfl
          simp only [Res.bind_ok, blockOfBytes_encode _ hf, h8]
          rw [if_neg (by rw [hload]; simp)]
          split <;> exact ⟨_, rfl⟩
      · exact ⟨_, rfl⟩

theorem handleChallenge_returns (hC : C.Lawful) {env : Env} {es : List Block} {r : RequestState} {k : ChalKind} (div : Bytes)
    (hst : Fresh r ∨ ∃ k env cs, InChallenge C r k env cs) (hname : r.cert.identity ≠ []) (hd : Digestible C env r es) (hp : Picks es k) :
    ∃ out, handleChallenge C k env es { r with decryptionIv := div } = .ok out := by
  have hch : r.status ≠ .beforeChallenge → ∃ k' env' cs, r.challengeState = some cs ∧ SecretOf C env' k' cs := by
    intro h
    rcases hst with h' | ⟨k', env', cs, h'⟩
    · exact absurd h'.1 h
    · exact ⟨k', env', cs, h'.state, h'.secret⟩
  have hes : es ≠ [] := by
    obtain ⟨sel, hsel⟩ := hd.selects
    rintro rfl
    cases hsel
  cases k with
  | pin =>
    show ∃ out, handlePin env es _ = .ok out
    unfold handlePin
    split
    · exact ⟨_, rfl⟩
    · rename_i hs
      obtain ⟨k', env', cs, h1, h2⟩ := hch hs
      exact handleCode_returns (C := C) h1 h2 (hd.pin hp hs)
  | email =>
    show ∃ out, handleEmail env es _ = .ok out
    unfold handleEmail
    split
    · rename_i hs
      obtain ⟨⟨v, b, hb, _⟩, hsp⟩ := hd.email hp
      rw [hb]
      simp only [Res.bind_ok]
      rw [if_neg (c := env.spawnOk = false) (by rw [hsp hs]; simp)]
      exact ⟨_, rfl⟩
    · rename_i hs
      obtain ⟨k', env', cs, h1, h2⟩ := hch hs
      exact handleCode_returns (C := C) h1 h2 (hd.email hp).1
  | possession =>
    obtain ⟨h1, h2, h3⟩ := hd.possession hp
    exact handlePossession_returns hC hes h1 h2 h3 hch

/-- the counter of the encryption IV of a stored request -/
theorem waiting_counter {r : RequestState} (hst : Fresh r ∨ ∃ k env cs, InChallenge C r k env cs) :
    (if r.encryptionIv = [] then 0 else ivCounter r.encryptionIv) ≤ 12 := by
  rcases hst with h | ⟨k, env, cs, h⟩
  · rw [if_pos h.2.2.2.1]; omega
  · have h1 := h.encCtr
    have h2 := h.tries
    split
    · omega
    · omega

theorem nested_length {t : Nat} {b : Block} (h : t < 253) : (nestedBlock t b).encode.length ≤ b.encode.length + 10 := by
  unfold nestedBlock Block.encode
  have : ∀ n, (varNumber n).length ≤ 9 := by
    intro n
    unfold varNumber
    split
    · simp
    split
    · simp
    split <;> simp
  have h2 : (varNumber t).length = 1 := by unfold varNumber; rw [if_pos h]; rfl
  simp only [List.length_append]
  rw [h2]
  have := this (varNumber b.typ ++ varNumber b.val.length ++ b.val).length
  simp only [List.length_append] at this
  omega

/-- the reply to a passed challenge -/
theorem success_encode {r : RequestState} {issued hint : Name} {rnd : Bytes} (hcs : r.challengeState = none)
    (hl : r.encryptionIv = [] ∨ r.encryptionIv.length = 12) (hr : rnd.length = 8) (hc : (if r.encryptionIv = [] then 0 else ivCounter r.encryptionIv) ≤ 12)
    (hsz : (nameBlock issued).encode.length + (nameBlock hint).encode.length ≤ 2 ^ 32) :
    ∃ r2 payload, challengeEncode C r issued hint rnd = (r2, .ok payload) := by
  have hes : challengeElems r issued hint = .ok ([nniBlock T.Status r.status.toNat] ++ [] ++
    (if issued = [] then []
     else [nestedBlock T.IssuedCertName (nameBlock issued), nestedBlock T.ForwardingHint (nameBlock hint)])) := by
    unfold challengeElems
    rw [hcs]
    rfl
  refine challengeEncode_some hes hl hr ?_
  have h1 := nni_encode_length (t := T.Status) (n := r.status.toNat) (by decide)
  have h2 := nested_length (t := T.IssuedCertName) (b := nameBlock issued) (by decide)
  have h3 := nested_length (t := T.ForwardingHint) (b := nameBlock hint) (by decide)
  have : (encodeAll ([nniBlock T.Status r.status.toNat] ++ [] ++
    (if issued = [] then []
     else [nestedBlock T.IssuedCertName (nameBlock issued), nestedBlock T.ForwardingHint (nameBlock hint)]))).length ≤ 2 ^ 32 + 30 := by
    split
    · simp only [encodeAll, List.append_nil, List.flatMap_cons, List.flatMap_nil, List.length_append, List.length_nil]
      omega
    · simp only [encodeAll, List.append_nil, List.cons_append, List.nil_append, List.flatMap_cons, List.flatMap_nil, List.length_append, List.length_nil]
      omega
  omega

theorem finishChallenge_done (hst : Fresh r ∨ ∃ k env cs, InChallenge C r k env cs) {i : Interest} {env : Env} {k : ChalKind} {es : List Block}
    {div : Bytes} {out : ChalOut} {pre : List Effect} (he : env.Wf) (hm : ModCase C k env es { r with decryptionIv := div } out) (hc0 : out.code = 0)
    (hty : r.requestType = .new ∨ r.requestType = .revoke)
    (hiss : r.requestType = .new → r.cert.validity ≠ none ∧ Issuable cfg env r) : (finishChallenge C cfg i env pre out.req).term = .done := by
  have hiv : r.encryptionIv = [] ∨ r.encryptionIv.length = 12 := by
    rcases hst with h | ⟨k, env, cs, h⟩
    · exact .inl h.2.2.2.1
    · exact .inr h.encIv
  have hctr := waiting_counter hst
  have hpend : out.req.status = .pending → out.req = { { r with decryptionIv := div } with status := .pending, challengeType := out.req.challengeType, challengeState := none } := by
    intro h
    cases hm with
    | error code info hcode => cases h
    | start cstat secrets mails hs hsc => cases h
    | wrong cs code given hns hk ha hg hne ht htr time => cases h
    | code cs code hs hk ha hg ht => rfl
    | proof cs cred nonce p hs hk ha hg hl hv => rfl
  unfold finishChallenge
  by_cases hp : out.req.status = .pending
  · rw [if_pos hp]
    have hreq := hpend hp
    generalize out.req = q at hreq hp
    have q1 : q.requestType = r.requestType := by rw [hreq]
    have q2 : q.cert = r.cert := by rw [hreq]
    have q3 : q.challengeState = none := by rw [hreq]
    have q4 : q.encryptionIv = r.encryptionIv := by rw [hreq]
    by_cases hnew : r.requestType = .new
    · rw [if_pos (by rw [q1]; exact .inl hnew)]
      obtain ⟨hv, hcont, hsize⟩ := hiss hnew
      obtain ⟨v, hv⟩ : ∃ v, r.cert.validity = some v := by cases h : r.cert.validity with | none => exact absurd h hv | some v => exact ⟨v, rfl⟩
      obtain ⟨content, hcont⟩ : ∃ v, r.cert.content = some v := by cases h : r.cert.content with | none => exact absurd h hcont | some v => exact ⟨v, rfl⟩
      have hi : ∃ c, issueCertificate C cfg env q = .ok c ∧ c.name = r.cert.keyName ++ [ndncertComponent, env.version] := by
        unfold issueCertificate
        rw [q2, hv, hcont]
        exact ⟨_, rfl, rfl⟩
      obtain ⟨c, hi, hn⟩ := hi
      rw [hi]
      dsimp only
      obtain ⟨r2, payload, henc⟩ := success_encode (C := C) (r := { q with cert := c, status := .success }) (issued := c.name) (hint := cfg.profile.forwardingHint)
        (rnd := env.ivRnd) q3 (by rw [← q4] at hiv; exact hiv) he.ivRnd (by rw [← q4] at hctr; exact hctr) (by rw [hn]; exact hsize)
      rw [henc]
      rfl
    · have hrev : r.requestType = .revoke := by rcases hty with h | h; exact absurd h hnew; exact h
      rw [if_neg (by rw [q1, hrev]; simp), if_pos (by rw [q1, hrev])]
      dsimp only
      obtain ⟨r2, payload, henc⟩ := success_encode (C := C) (r := { q with status := .success }) (issued := []) (hint := [])
        (rnd := env.ivRnd) q3 (by rw [← q4] at hiv; exact hiv) he.ivRnd (by rw [← q4] at hctr; exact hctr) (by decide)
      rw [henc]
      rfl
  · rw [if_neg hp]
    have hx : ∃ cs, out.req.status = .challenge ∧ out.req.challengeState = some cs ∧ out.req.encryptionIv = r.encryptionIv ∧
        ((cs.challengeStatus = NEED_CODE ∨ cs.challengeStatus = WRONG_CODE) ∨
          (cs.challengeStatus = NEED_PROOF ∧ ∃ nonce : Bytes, nonce.length = 16 ∧ secretGetD cs.secrets KEY_NONCE = toHex nonce)) := by
      cases hm with
      | error code info hcode => exact absurd hc0 hcode
      | start cstat secrets mails hs hsc =>
        refine ⟨_, rfl, rfl, rfl, ?_⟩
        cases hsc with
        | pin => exact .inl (.inl rfl)
        | email => exact .inl (.inl rfl)
        | possession c anchors => exact .inr ⟨rfl, env.nonce, he.nonce, rfl⟩
      | wrong cs code given hns hk ha hg hne ht htr time => exact ⟨_, rfl, rfl, rfl, .inl (.inr rfl)⟩
      | code cs code hs hk ha hg ht => exact absurd rfl hp
      | proof cs cred nonce p hs hk ha hg hl hv => exact absurd rfl hp
    obtain ⟨cs, x1, x2, x3, x4⟩ := hx
    have hes : ∃ es', challengeElems out.req [] [] = .ok es' := by
      unfold challengeElems challengeStateElems
      rw [x2]
      dsimp only
      rcases x4 with x4 | ⟨x4, nonce, _, x5⟩
      · rw [if_neg (by rcases x4 with h | h <;> rw [h] <;> decide)]
        exact ⟨_, rfl⟩
      · rw [if_pos x4, x5, fromHex_toHex]
        exact ⟨_, rfl⟩
    obtain ⟨es', hes⟩ := hes
    have hlen := (reply_length x1 x2 x4 hes).1
    obtain ⟨r2, payload, henc⟩ := challengeEncode_some (C := C) (rnd := env.ivRnd) hes (by rw [x3]; exact hiv) he.ivRnd (by rw [x3]; omega)
    rw [henc]
    rfl

/-- a CHALLENGE the handler does not choke on -/
theorem onChallenge_done (hC : C.Lawful) (hS : LawfulStore C S Inv) {st : σ} (hi : Inv st) {i : Interest} {env : Env} (hid : IdFits cfg i) (he : env.Wf)
    (hst : ∀ id r, S.view st id = some r → (Fresh r ∨ ∃ k env cs, InChallenge C r k env cs) ∧ (r.requestType = .new ∨ r.requestType = .revoke) ∧
      r.cert.identity ≠ [] ∧ (r.requestType = .new → r.cert.validity ≠ none))
    (hok : ∀ r, Authentic C S cfg st i env r → (r.requestType = .new → Issuable cfg env r) ∧
      ∀ pt, Decrypts C i r pt → pt ≠ [] → ∃ es, parse pt = .ok es ∧ Digestible C env r es) :
    (onChallenge C S cfg st i env).term = .done := by
  unfold onChallenge
  rcases lookup_cases (cfg := cfg) (i := i) hS hi hid he.stack with ⟨h1, _⟩ | ⟨r, h1, h2, h3⟩
  · rw [h1]; rfl
  rw [h1]
  dsimp only
  split
  · rfl
  rename_i hsig
  obtain ⟨s1, s2, s3, s4⟩ := hst _ _ h2
  obtain ⟨o1, o2⟩ := hok r ⟨h2, h3, by simpa using hsig⟩
  have hr : IvsOk r := by
    rcases s1 with h | ⟨k, env, cs, h⟩
    · exact ⟨.inl h.2.2.2.1, .inl h.2.2.2.2⟩
    · exact ⟨.inr h.encIv, .inr h.decIv⟩
  rcases hdec : decodeAes C (i.params.getD ⟨0, []⟩) r.encryptionKey r.requestId r.decryptionIv r.encryptionIv with ⟨div, res⟩
  cases res with
  | exc e => rfl
  | ub u => exact absurd (congrArg Prod.snd hdec) (decodeAes_no_ub (by rcases hr.dec with h | h <;> simp [h]) (by rcases hr.enc with h | h <;> simp [h]) u)
  | ok pt =>
    dsimp only
    unfold processParams
    split
    · rfl
    rename_i hne
    obtain ⟨es, hp, hdig⟩ := o2 pt (decodeAes_decrypts hdec) hne
    rw [hp]
    dsimp only
    obtain ⟨sel, hsel⟩ := hdig.selects
    rw [hsel]
    dsimp only
    cases hk : createChallenge (readString sel) with
    | none => rfl
    | some k =>
      dsimp only
      obtain ⟨out, ho⟩ := handleChallenge_returns hC div s1 s3 hdig ⟨sel, hsel, createChallenge_some hk⟩
      rw [ho]
      dsimp only
      split
      · rfl
      · rename_i hcode
        exact finishChallenge_done s1 he (handleChallenge_cases C ho) (Classical.not_not.mp hcode) s2 (fun h => ⟨s4 h, o1 h⟩)

/-- what is known of stored requests -/
theorem Exec.stored (hC : C.Lawful) (hS : LawfulStore C S Inv) (hcfg : NameFits cfg.profile.caPrefix)
    {h : List (Step σ)} {s : CaState σ} (hx : Exec C S cfg h s) {id : RequestId} {r : RequestState} (hv : S.view s.store id = some r) :
    (Fresh r ∨ ∃ k env cs, InChallenge C r k env cs) ∧ (r.requestType = .new ∨ r.requestType = .revoke) ∧
      r.cert.identity ≠ [] ∧ (r.requestType = .new → r.cert.validity ≠ none) := by
  refine ⟨hx.waiting hC hS hcfg hv, ?_⟩
  obtain ⟨_, _, _, ty, i, env, r0, _, hadd, hsame, _⟩ := hx.pending hC hS hcfg hv
  obtain ⟨secret, hr0⟩ := hadd.state
  have h1 : r0.requestType = ty := by rw [hr0]; rfl
  have hcert : r0.cert = r.cert := hsame.2.2.2.1
  rw [← hsame.2.2.1, h1, ← hcert]
  refine ⟨hadd.type, ?_, ?_⟩
  · intro h
    have := hadd.name.2.2.1
    rw [identityOf_eq, h] at this
    cases this
  · rintro rfl
    obtain ⟨⟨nb, na, h2, _⟩, _⟩ := hadd.new rfl
    rw [h2]; simp

end Ndncert
