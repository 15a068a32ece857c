import Verif.Lemmas.Independence

/-! # What the CA does before the code is given does not depend on the code -/

namespace Ndncert

/-! ## Requests that differ in the code -/

theorem hidden_cases {r r' : RequestState} (h : r.hidden = r'.hidden) :
    r = r' ∨ ∃ cs sec, r.challengeState = some cs ∧ r' = { r with challengeState := some { cs with secrets := sec } } ∧
      hideCode cs.secrets = hideCode sec := by
  obtain ⟨a1, a2, a3, a4, a5, a6, a7, a8, a9, a10⟩ := r
  obtain ⟨b1, b2, b3, b4, b5, b6, b7, b8, b9, b10⟩ := r'
  simp only [RequestState.hidden, RequestState.mk.injEq] at h
  obtain ⟨rfl, rfl, rfl, rfl, rfl, rfl, rfl, rfl, rfl, h⟩ := h
  cases a10 with
  | none =>
    cases b10 with
    | none => exact .inl rfl
    | some b => cases h
  | some a =>
    cases b10 with
    | none => cases h
    | some b =>
      simp only [Option.map_some, Option.some.injEq] at h
      obtain ⟨x1, x2, x3, x4, x5⟩ := a
      obtain ⟨y1, y2, y3, y4, y5⟩ := b
      simp only [ChallengeState.mk.injEq] at h
      obtain ⟨rfl, rfl, rfl, rfl, h⟩ := h
      exact .inr ⟨_, y5, rfl, rfl, h⟩

theorem hidden_field {α : Type} (f : RequestState → α) (hf : ∀ (r : RequestState) (cs : Option ChallengeState), f { r with challengeState := cs } = f r)
    {r r' : RequestState} (h : r.hidden = r'.hidden) : f r = f r' := by
  rcases hidden_cases h with rfl | ⟨cs, t, _, rfl, _⟩
  · rfl
  · exact (hf r _).symm

theorem hidden_congr {r r' : RequestState} (f : RequestState → RequestState) (hf : ∀ r : RequestState, (f r).hidden = (f r.hidden).hidden)
    (h : r.hidden = r'.hidden) : (f r).hidden = (f r').hidden := by
  rw [hf r, hf r', h]

theorem hideCode_getD {k : Bytes} (hk : k ≠ bytes! "code") (s : List (Bytes × Bytes)) : secretGetD (hideCode s) k = secretGetD s k := by
  unfold secretGetD
  induction s with
  | nil => rfl
  | cons e s ih =>
    unfold hideCode at ih ⊢
    rw [List.map_cons, List.find?_cons, List.find?_cons]
    by_cases he : e.1 = bytes! "code"
    · have h1 : (e.1 == k) = false := by
        rw [beq_eq_false_iff_ne, he]
        exact fun h => hk h.symm
      rw [if_pos he]
      simp only [h1]
      exact ih
    · rw [if_neg he]
      cases e.1 == k with
      | true => rfl
      | false => exact ih

theorem getD_hidden {k : Bytes} (hk : k ≠ bytes! "code") {a b : List (Bytes × Bytes)} (h : hideCode a = hideCode b) : secretGetD a k = secretGetD b k := by
  rw [← hideCode_getD hk a, ← hideCode_getD hk b, h]

theorem hideCode_get (s : List (Bytes × Bytes)) : (∃ c, secretGet s KEY_CODE = .ok c ∧ secretGet (hideCode s) KEY_CODE = .ok []) ∨
    (secretGet s KEY_CODE = .exc .runtime ∧ secretGet (hideCode s) KEY_CODE = .exc .runtime) := by
  unfold secretGet
  induction s with
  | nil => exact .inr ⟨rfl, rfl⟩
  | cons e s ih =>
    unfold hideCode at ih ⊢
    rw [List.map_cons, List.find?_cons, List.find?_cons]
    by_cases he : e.1 = bytes! "code"
    · have h1 : (e.1 == KEY_CODE) = true := by rw [he]; rfl
      rw [if_pos he]
      simp only [h1]
      exact .inl ⟨e.2, rfl, trivial⟩
    · have h1 : (e.1 == KEY_CODE) = false := by
        rw [beq_eq_false_iff_ne]
        exact he
      rw [if_neg he]
      simp only [h1]
      exact ih

theorem get_hidden {a b : List (Bytes × Bytes)} (h : hideCode a = hideCode b) :
    (∃ c d, secretGet a KEY_CODE = .ok c ∧ secretGet b KEY_CODE = .ok d) ∨
    (secretGet a KEY_CODE = .exc .runtime ∧ secretGet b KEY_CODE = .exc .runtime) := by
  rcases hideCode_get a with ⟨c, h1, h2⟩ | ⟨h1, h2⟩
  · rcases hideCode_get b with ⟨d, h3, h4⟩ | ⟨h3, h4⟩
    · exact .inl ⟨c, d, h1, h3⟩
    · rw [h, h4] at h2; cases h2
  · rcases hideCode_get b with ⟨d, h3, h4⟩ | ⟨h3, h4⟩
    · rw [h, h4] at h2; cases h2
    · exact .inr ⟨h1, h3⟩

/-! ## The challenge modules -/

/-- results of a challenge module that differ in the code -/
inductive LikeOut : Res ChalOut → Res ChalOut → Prop where
  | ok (o o' : ChalOut) (code : o.code = o'.code) (info : o.info = o'.info) (req : o.req.hidden = o'.req.hidden)
      (mails : o.mails.map Mail.hidden = o'.mails.map Mail.hidden) : LikeOut (.ok o) (.ok o')
  | exc (e : Exc) : LikeOut (.exc e) (.exc e)
  | ub (u : Ub) : LikeOut (.ub u) (.ub u)

theorem LikeOut.refl (x : Res ChalOut) : LikeOut x x := by
  cases x with
  | ok o => exact .ok o o rfl rfl rfl rfl
  | exc e => exact .exc e
  | ub u => exact .ub u

theorem error_like {r r' : RequestState} (h : r.hidden = r'.hidden) (code : ErrorCode) (info : Bytes) :
    LikeOut (.ok (returnWithError r code info)) (.ok (returnWithError r' code info)) := by
  refine .ok _ _ rfl rfl ?_ rfl
  rcases hidden_cases h with rfl | ⟨cs, sec, _, rfl, _⟩ <;> rfl

theorem success_like {r r' : RequestState} (h : r.hidden = r'.hidden) (k : ChalKind) :
    LikeOut (.ok (returnWithSuccess k r)) (.ok (returnWithSuccess k r')) := by
  refine .ok _ _ rfl rfl ?_ rfl
  rcases hidden_cases h with rfl | ⟨cs, sec, _, rfl, _⟩ <;> rfl

theorem status_like {r r' : RequestState} (h : r.hidden = r'.hidden) (k : ChalKind) (env : Env) (w : Nat) (st : Bytes) {a b : List (Bytes × Bytes)}
    (hab : hideCode a = hideCode b) (tries : Nat) (time : Int) :
    LikeOut (.ok (returnWithNewStatus k env r st a tries time)) (.ok (returnWithNewStatus k { env with word32 := w } r' st b tries time)) := by
  refine .ok _ _ rfl rfl ?_ rfl
  rcases hidden_cases h with rfl | ⟨cs, sec, _, rfl, _⟩
  · simp only [returnWithNewStatus, RequestState.hidden, Option.map_some, hab]
  · simp only [returnWithNewStatus, RequestState.hidden, Option.map_some, hab]

theorem code_like (w w' : Nat) : hideCode [(KEY_CODE, secretCode w)] = hideCode [(KEY_CODE, secretCode w')] := by
  simp only [hideCode, List.map_cons, List.map_nil, KEY_CODE, if_true]

/-- neither of the two requests gets its code -/
def NotGiven (es : List Block) (r : RequestState) : Prop := ∀ cs code, AwaitsCode r cs code → ¬ Gives es code

theorem handleCode_like (k : ChalKind) (env : Env) (w : Nat) (es : List Block) {r r' : RequestState} (h : r.hidden = r'.hidden)
    (hg : NotGiven es r) (hg' : NotGiven es r') : LikeOut (handleCode k env es r) (handleCode k { env with word32 := w } es r') := by
  rcases hidden_cases h with rfl | ⟨cs, sec, hc, hr, hs⟩
  · exact LikeOut.refl _
  · have hc' : r'.challengeState = some { cs with secrets := sec } := by rw [hr]
    unfold handleCode
    rw [hc, hc']
    dsimp only
    split
    · rename_i hst
      cases hp : getElem es T.ParameterValue with
      | exc e => exact .exc e
      | ub u => exact .ub u
      | ok given =>
        simp only [Res.bind_ok]
        split
        · exact error_like h _ _
        · rcases get_hidden hs with ⟨c, d, h1, h2⟩ | ⟨h1, h2⟩
          · rw [h1, h2]
            simp only [Res.bind_ok]
            have n1 : readString given ≠ c := fun he => hg cs c ⟨hc, hst, h1⟩ ⟨given, hp, he⟩
            have n2 : readString given ≠ d := fun he => hg' _ d ⟨hc', hst, h2⟩ ⟨given, hp, he⟩
            rw [if_neg n1, if_neg n2]
            split
            · exact status_like h k env w _ hs _ _
            · exact error_like h _ _
          · rw [h1, h2]
            exact .exc _
    · exact error_like h _ _

theorem handleChallenge_like (C : Crypto) (k : ChalKind) (env : Env) (w : Nat) (es : List Block) {r r' : RequestState} (h : r.hidden = r'.hidden)
    (hg : k = .pin ∨ k = .email → NotGiven es r) (hg' : k = .pin ∨ k = .email → NotGiven es r') :
    LikeOut (handleChallenge C k env es r) (handleChallenge C k { env with word32 := w } es r') := by
  have hst : r.status = r'.status := hidden_field RequestState.status (fun _ _ => rfl) h
  have hcert : r.cert = r'.cert := hidden_field RequestState.cert (fun _ _ => rfl) h
  have hca : r.caPrefix = r'.caPrefix := hidden_field RequestState.caPrefix (fun _ _ => rfl) h
  cases k with
  | pin =>
    show LikeOut (handlePin env es r) (handlePin _ es r')
    unfold handlePin
    rw [hst]
    split
    · exact status_like h .pin env w _ (code_like _ _) _ _
    · exact handleCode_like .pin env w es h (hg (.inl rfl)) (hg' (.inl rfl))
  | email =>
    show LikeOut (handleEmail env es r) (handleEmail _ es r')
    unfold handleEmail
    rw [hst]
    split
    · cases hp : getElem es T.ParameterValue with
      | exc e => exact .exc e
      | ub u => exact .ub u
      | ok addr =>
        simp only [Res.bind_ok]
        rw [hcert]
        split
        · exact .ub _
        split
        · exact .exc _
        · have := status_like h .email env w NEED_CODE (code_like env.word32 w) ChalKind.email.maxTries ChalKind.email.lifetime
          cases this with
          | ok o o' a b c d =>
            refine .ok _ _ a b c ?_
            simp only [List.map_cons, List.map_nil, Mail.hidden, hca]
    · exact handleCode_like .email env w es h (hg (.inr rfl)) (hg' (.inr rfl))
  | possession =>
    show LikeOut (handlePossession C env es r) (handlePossession C _ es r')
    unfold handlePossession
    rw [hst]
    dsimp only
    split
    · exact .ub _
    cases env.anchors with
    | exc e => exact .exc e
    | ub u => exact .ub u
    | ok anchors =>
      dsimp only
      cases possessionScan C es (none, none) with
      | none => exact error_like h _ _
      | some x =>
        obtain ⟨cred, proof⟩ := x
        dsimp only
        split
        · split
          · exact error_like h _ _
          · cases cred with
            | none => exact .ub _
            | some c =>
              dsimp only
              cases c.keyLocator with
              | none => exact .exc _
              | some kl =>
                dsimp only
                split
                · exact .exc _
                split
                · exact status_like h .possession env w _ rfl _ _
                · exact error_like h _ _
        · rcases hidden_cases h with rfl | ⟨cs, sec, hc, hr, hs⟩
          · exact LikeOut.refl _
          · have hc' : r'.challengeState = some { cs with secrets := sec } := by rw [hr]
            rw [hc, hc']
            dsimp only
            rw [← getD_hidden (k := KEY_CREDENTIAL) (by decide) hs, ← getD_hidden (k := KEY_NONCE) (by decide) hs]
            split
            · split
              · exact error_like h _ _
              · cases fromHex (secretGetD cs.secrets KEY_CREDENTIAL) with
                | exc e => exact .exc e
                | ub u => exact .ub u
                | ok cw =>
                  simp only [Res.bind_ok]
                  cases blockOfBytes cw with
                  | exc e => exact .exc e
                  | ub u => exact .ub u
                  | ok cb =>
                    simp only [Res.bind_ok]
                    cases certOfBlock C cb with
                    | exc e => exact .exc e
                    | ub u => exact .ub u
                    | ok c =>
                      simp only [Res.bind_ok]
                      cases fromHex (secretGetD cs.secrets KEY_NONCE) with
                      | exc e => exact .exc e
                      | ub u => exact .ub u
                      | ok nonce =>
                        simp only [Res.bind_ok]
                        split
                        · exact .exc _
                        split
                        · exact success_like h _
                        · exact error_like h _ _
            · exact error_like h _ _

/-! ## The handlers -/

/-- an effect without the code -/
def Effect.hidden : Effect → Effect
  | .dbAdd r => .dbAdd r.hidden
  | .dbUpdate r => .dbUpdate r.hidden
  | .mail m => .mail m.hidden
  | .callback r => .callback r.hidden
  | e => e

/-- outcomes that differ in the code -/
def LikeOutcome (o o' : Outcome) : Prop := o.term = o'.term ∧ o.effects.map Effect.hidden = o'.effects.map Effect.hidden

theorem LikeOutcome.refl (o : Outcome) : LikeOutcome o o := ⟨rfl, rfl⟩

theorem challengeElems_like {r r' : RequestState} (h : r.hidden = r'.hidden) (n hint : Name) : challengeElems r n hint = challengeElems r' n hint := by
  rcases hidden_cases h with rfl | ⟨cs, sec, hc, rfl, hs⟩
  · rfl
  · unfold challengeElems
    rw [hc]
    dsimp only
    have : challengeStateElems cs = challengeStateElems { cs with secrets := sec } := by
      unfold challengeStateElems
      dsimp only
      rw [getD_hidden (k := KEY_NONCE) (by decide) hs]
    rw [this]

theorem withIv_like {r r' : RequestState} (h : r.hidden = r'.hidden) (iv : Bytes) :
    RequestState.hidden { r with encryptionIv := iv } = RequestState.hidden { r' with encryptionIv := iv } := by
  rcases hidden_cases h with rfl | ⟨cs, sec, hc, rfl, hs⟩
  · rfl
  · simp only [RequestState.hidden, hc, Option.map_some, hs]

theorem withDiv_like {r r' : RequestState} (h : r.hidden = r'.hidden) (iv : Bytes) :
    RequestState.hidden { r with decryptionIv := iv } = RequestState.hidden { r' with decryptionIv := iv } := by
  rcases hidden_cases h with rfl | ⟨cs, sec, hc, rfl, hs⟩
  · rfl
  · simp only [RequestState.hidden, hc, Option.map_some, hs]

theorem withCert_like {r r' : RequestState} (h : r.hidden = r'.hidden) (c : Cert) (st : Status) :
    RequestState.hidden { r with cert := c, status := st } = RequestState.hidden { r' with cert := c, status := st } := by
  rcases hidden_cases h with rfl | ⟨cs, sec, hc, rfl, hs⟩
  · rfl
  · simp only [RequestState.hidden, hc, Option.map_some, hs]

theorem withStatus_like {r r' : RequestState} (h : r.hidden = r'.hidden) (st : Status) :
    RequestState.hidden { r with status := st } = RequestState.hidden { r' with status := st } := by
  rcases hidden_cases h with rfl | ⟨cs, sec, hc, rfl, hs⟩
  · rfl
  · simp only [RequestState.hidden, hc, Option.map_some, hs]

theorem challengeEncode_like (C : Crypto) {r r' : RequestState} (h : r.hidden = r'.hidden) (n hint : Name) (rnd : Bytes) :
    (challengeEncode C r n hint rnd).1.hidden = (challengeEncode C r' n hint rnd).1.hidden ∧
    (challengeEncode C r n hint rnd).2 = (challengeEncode C r' n hint rnd).2 := by
  have e1 : r.encryptionKey = r'.encryptionKey := hidden_field RequestState.encryptionKey (fun _ _ => rfl) h
  have e2 : r.requestId = r'.requestId := hidden_field RequestState.requestId (fun _ _ => rfl) h
  have e3 : r.encryptionIv = r'.encryptionIv := hidden_field RequestState.encryptionIv (fun _ _ => rfl) h
  have e4 := challengeElems_like h n hint
  unfold challengeEncode
  cases hx : challengeElems r' n hint with
  | exc e => rw [hx] at e4; rw [e4]; exact ⟨h, rfl⟩
  | ub u => rw [hx] at e4; rw [e4]; exact ⟨h, rfl⟩
  | ok es =>
    rw [hx] at e4
    rw [e4]
    dsimp only
    have : encodeAes C T.Content r.encryptionKey (encodeAll es) r.requestId r.encryptionIv rnd =
        encodeAes C T.Content r'.encryptionKey (encodeAll es) r'.requestId r'.encryptionIv rnd := by rw [e1, e2, e3]
    rw [this]
    exact ⟨withIv_like h _, rfl⟩

theorem finishChallenge_like (C : Crypto) (cfg : CaConfig) (i : Interest) (env : Env) (w : Nat) {pre pre' : List Effect}
    (hp : pre.map Effect.hidden = pre'.map Effect.hidden) {r r' : RequestState} (h : r.hidden = r'.hidden) :
    LikeOutcome (finishChallenge C cfg i env pre r) (finishChallenge C cfg i { env with word32 := w } pre' r') := by
  have e1 : r.status = r'.status := hidden_field RequestState.status (fun _ _ => rfl) h
  have e2 : r.requestId = r'.requestId := hidden_field RequestState.requestId (fun _ _ => rfl) h
  have e3 : r.requestType = r'.requestType := hidden_field RequestState.requestType (fun _ _ => rfl) h
  have e4 : r.cert = r'.cert := hidden_field RequestState.cert (fun _ _ => rfl) h
  have hab : ∀ {α : Type} (x : Res α) {p p' : List Effect}, p.map Effect.hidden = p'.map Effect.hidden → LikeOutcome (abort p x) (abort p' x) := by
    intro α x p p' hpp
    cases x <;> exact ⟨rfl, hpp⟩
  have hsend : ∀ {p p' : List Effect} {a a' : RequestState} (b : Block), p.map Effect.hidden = p'.map Effect.hidden → a.hidden = a'.hidden →
      LikeOutcome (sendChallengeReply C cfg i p a b) (sendChallengeReply C cfg i p' a' b) := by
    intro p p' a a' b hpp haa
    refine ⟨rfl, ?_⟩
    simp only [sendChallengeReply, List.map_append, List.map_cons, List.map_nil, Effect.hidden, hpp, haa]
  unfold finishChallenge
  rw [e1, e2, e3]
  split
  · split
    · have hiss : issueCertificate C cfg env r = issueCertificate C cfg { env with word32 := w } r' := by
        unfold issueCertificate
        rw [e4]
      rw [hiss]
      cases issueCertificate C cfg { env with word32 := w } r' with
      | exc e => exact hab _ hp
      | ub u => exact hab _ hp
      | ok c =>
        dsimp only
        have hpp : (pre ++ [Effect.issue c, .dbDelete r'.requestId]).map Effect.hidden = (pre' ++ [Effect.issue c, .dbDelete r'.requestId]).map Effect.hidden := by
          rw [List.map_append, List.map_append, hp]
        have henc := challengeEncode_like C (withCert_like h c .success) c.name cfg.profile.forwardingHint env.ivRnd
        rw [e2, e3] at henc
        generalize challengeEncode C { r with requestId := r'.requestId, requestType := r'.requestType, cert := c, status := .success } c.name cfg.profile.forwardingHint env.ivRnd = x at henc
        generalize challengeEncode C { r' with cert := c, status := .success } c.name cfg.profile.forwardingHint env.ivRnd = y at henc
        obtain ⟨x1, x2⟩ := x
        obtain ⟨y1, y2⟩ := y
        obtain ⟨h1, h2⟩ := henc
        dsimp only at h1 h2
        subst h2
        cases x2 with
        | ok p => exact hsend p hpp h1
        | exc e => exact hab _ hpp
        | ub u => exact hab _ hpp
    · split
      · dsimp only
        have hpp : (pre ++ [Effect.dbDelete r'.requestId]).map Effect.hidden = (pre' ++ [Effect.dbDelete r'.requestId]).map Effect.hidden := by
          rw [List.map_append, List.map_append, hp]
        have henc := challengeEncode_like C (withStatus_like h .success) [] [] env.ivRnd
        rw [e2, e3] at henc
        generalize challengeEncode C { r with requestId := r'.requestId, requestType := r'.requestType, status := .success } [] [] env.ivRnd = x at henc
        generalize challengeEncode C { r' with status := .success } [] [] env.ivRnd = y at henc
        obtain ⟨x1, x2⟩ := x
        obtain ⟨y1, y2⟩ := y
        obtain ⟨h1, h2⟩ := henc
        dsimp only at h1 h2
        subst h2
        cases x2 with
        | ok p => exact hsend p hpp h1
        | exc e => exact hab _ hpp
        | ub u => exact hab _ hpp
      · exact hab _ hp
  · dsimp only
    have henc := challengeEncode_like C h [] [] env.ivRnd
    generalize challengeEncode C r [] [] env.ivRnd = x at henc
    generalize challengeEncode C r' [] [] env.ivRnd = y at henc
    obtain ⟨x1, x2⟩ := x
    obtain ⟨y1, y2⟩ := y
    obtain ⟨h1, h2⟩ := henc
    dsimp only at h1 h2
    subst h2
    cases x2 with
    | ok p =>
      refine hsend p ?_ h1
      simp only [List.map_append, List.map_cons, List.map_nil, Effect.hidden, hp, h1]
    | exc e => exact hab _ hp
    | ub u => exact hab _ hp

theorem mails_like {a b : List Mail} (h : a.map Mail.hidden = b.map Mail.hidden) :
    (a.map Effect.mail).map Effect.hidden = (b.map Effect.mail).map Effect.hidden := by
  have e : ∀ l : List Mail, (l.map Effect.mail).map Effect.hidden = (l.map Mail.hidden).map Effect.mail := by
    intro l
    rw [List.map_map, List.map_map]
    rfl
  rw [e, e, h]

theorem processParams_like (C : Crypto) (cfg : CaConfig) (i : Interest) (env : Env) (w : Nat) {r r' : RequestState} (h : r.hidden = r'.hidden)
    (pt : Bytes) (hg : ∀ es sel (k : ChalKind), pt ≠ [] → parse pt = .ok es → getElem es T.SelectedChallenge = .ok sel → sel.val = k.regName →
      (k = .pin ∨ k = .email) → NotGiven es r ∧ NotGiven es r') :
    LikeOutcome (processParams C cfg i env r pt) (processParams C cfg i { env with word32 := w } r' pt) := by
  have e2 : r.requestId = r'.requestId := hidden_field RequestState.requestId (fun _ _ => rfl) h
  unfold processParams
  rw [e2]
  split
  · exact LikeOutcome.refl _
  rename_i hne
  cases hp : parse pt with
  | exc e => exact ⟨rfl, rfl⟩
  | ub u => exact ⟨rfl, rfl⟩
  | ok es =>
    dsimp only
    cases hs : getElem es T.SelectedChallenge with
    | exc e => exact ⟨rfl, rfl⟩
    | ub u => exact ⟨rfl, rfl⟩
    | ok sel =>
      dsimp only
      cases hk : createChallenge (readString sel) with
      | none => exact LikeOutcome.refl _
      | some k =>
        dsimp only
        have hl := handleChallenge_like C k env w es h (fun hc => (hg es sel k hne hp hs (createChallenge_some hk) hc).1)
          (fun hc => (hg es sel k hne hp hs (createChallenge_some hk) hc).2)
        generalize handleChallenge C k env es r = x at hl
        generalize handleChallenge C k { env with word32 := w } es r' = y at hl
        cases hl with
        | exc e => exact ⟨rfl, rfl⟩
        | ub u => exact ⟨rfl, rfl⟩
        | ok o o' hcode hinfo hreq hmails =>
          dsimp only
          have hid : o.req.requestId = o'.req.requestId := hidden_field RequestState.requestId (fun _ _ => rfl) hreq
          rw [hcode, hinfo, hid]
          split
          · refine ⟨rfl, ?_⟩
            simp only [replyError, List.map_append, mails_like hmails]
          · exact finishChallenge_like C cfg i env w (mails_like hmails) hreq

variable {σ : Type} {C : Crypto} {S : StoreI σ} {Inv : σ → Prop} {cfg : CaConfig}

/-- states that differ in codes, as far as the requests with these ids are concerned -/
structure LikeState (S : StoreI σ) (P : RequestId → Prop) (s s' : CaState σ) : Prop where
  key : s.idKey = s'.idKey
  view : ∀ id, P id → (S.view s.store id).map RequestState.hidden = (S.view s'.store id).map RequestState.hidden

theorem LikeState.none_iff {P : RequestId → Prop} {s s' : CaState σ} (h : LikeState S P s s') {id : RequestId} (hp : P id) :
    S.view s.store id = none ↔ S.view s'.store id = none := by
  have := h.view id hp
  cases h1 : S.view s.store id <;> cases h2 : S.view s'.store id <;> rw [h1, h2] at this <;> simp at this ⊢

theorem handle_like (hC : C.Lawful) (hS : LawfulStore C S Inv) (hcfg : NameFits cfg.profile.caPrefix) {s s' : CaState σ}
    {P : RequestId → Prop} (hi : Inv s.store) (hi' : Inv s'.store) (hl : LikeState S P s s') {m : Msg} {env : Env} (w : Nat) (hm : m.Wf cfg) (he : env.Wf)
    (hc : ∀ i id, m = .challenge i → Names cfg env i id → P id)
    (hc' : ∀ ty i pub cert, m = .new i ∧ ty = .new ∨ m = .revoke i ∧ ty = .revoke → Submits C ty i pub cert → P (idFor C s.idKey cert.name))
    (hg : ∀ i r es k, m = .challenge i → Authentic C S cfg s.store i env r → Selects C i r es k → (k = .pin ∨ k = .email) → NotGiven es r)
    (hg' : ∀ i r es k, m = .challenge i → Authentic C S cfg s'.store i { env with word32 := w } r → Selects C i r es k →
      (k = .pin ∨ k = .email) → NotGiven es r) :
    LikeOutcome (handle C S cfg s m env) (handle C S cfg s' m { env with word32 := w }) := by
  have hn : ∀ ty i, m = .new i ∧ ty = .new ∨ m = .revoke i ∧ ty = .revoke → LikeOutcome (onNewRenewRevoke C S cfg s.idKey s.store ty i env) (onNewRenewRevoke C S cfg s'.idKey s'.store ty i { env with word32 := w }) := by
    intro ty i hmi
    have : onNewRenewRevoke C S cfg s.idKey s.store ty i env = onNewRenewRevoke C S cfg s'.idKey s'.store ty i { env with word32 := w } := by
      have hacc : ∀ pub cert secret, requestParamsDecode C i.params ty = .ok (pub, cert) →
          acceptRequest C S cfg s.idKey s.store ty i env cert secret = acceptRequest C S cfg s'.idKey s'.store ty i { env with word32 := w } cert secret := by
        intro pub cert secret hd
        have hst : Storable C (newRequestState C cfg s.idKey ty cert secret env.salt) := newRequestState_storable hC hcfg hd _ _ _
        unfold acceptRequest
        rw [← hl.key]
        dsimp only
        have hiff := hl.none_iff (id := (newRequestState C cfg s.idKey ty cert secret env.salt).requestId) (hc' ty i pub cert hmi hd)
        by_cases hx : S.view s.store (newRequestState C cfg s.idKey ty cert secret env.salt).requestId = none
        · obtain ⟨_, _, h1, _⟩ := hS.add_absent _ _ hi hst hx
          obtain ⟨_, _, h2, _⟩ := hS.add_absent _ _ hi' hst (hiff.mp hx)
          rw [h1, h2]
        · obtain ⟨_, h1⟩ := hS.add_present _ (newRequestState C cfg s.idKey ty cert secret env.salt) hi hx
          obtain ⟨_, h2⟩ := hS.add_present _ (newRequestState C cfg s.idKey ty cert secret env.salt) hi' (fun h => hx (hiff.mpr h))
          rw [h1, h2]
      unfold onNewRenewRevoke
      cases hd : requestParamsDecode C i.params ty with
      | ub u => rfl
      | exc e => rfl
      | ok x =>
        obtain ⟨pub, cert⟩ := x
        simp only [hacc pub cert _ hd]
    rw [this]
    exact LikeOutcome.refl _
  cases m with
  | probe i => exact LikeOutcome.refl _
  | new i => exact hn _ _ (.inl ⟨rfl, rfl⟩)
  | revoke i => exact hn _ _ (.inr ⟨rfl, rfl⟩)
  | challenge i =>
    show LikeOutcome (onChallenge C S cfg s.store i env) (onChallenge C S cfg s'.store i _)
    have hfit := idFits_of_wf hm
    have hg0 : getCertificateRequest S cfg s'.store i { env with word32 := w } = getCertificateRequest S cfg s'.store i env := rfl
    unfold onChallenge
    rw [hg0]
    rcases lookup_cases (cfg := cfg) (i := i) hS hi hfit he.stack with ⟨h1, h2⟩ | ⟨r, h1, h2, h3⟩
    · rcases lookup_cases (cfg := cfg) (i := i) hS hi' hfit he.stack with ⟨h1', h2'⟩ | ⟨r', h1', h2', h3'⟩
      · rw [h1, h1']
        exact LikeOutcome.refl _
      · have := (hl.none_iff (hc _ _ rfl h3')).mp (h2 _ h3')
        rw [h2'] at this
        cases this
    · rcases lookup_cases (cfg := cfg) (i := i) hS hi' hfit he.stack with ⟨h1', h2'⟩ | ⟨r', h1', h2', h3'⟩
      · have := (hl.none_iff (hc _ _ rfl h3)).mpr (h2' _ h3)
        rw [h2] at this
        cases this
      · have hid := h3.unique h3'
        have hv := hl.view r.requestId (hc _ _ rfl h3)
        rw [h2, hid, h2'] at hv
        have h : r.hidden = r'.hidden := Option.some.inj hv
        rw [h1, h1']
        dsimp only
        have e1 : r.cert = r'.cert := hidden_field RequestState.cert (fun _ _ => rfl) h
        have e2 : r.encryptionKey = r'.encryptionKey := hidden_field RequestState.encryptionKey (fun _ _ => rfl) h
        have e4 : r.decryptionIv = r'.decryptionIv := hidden_field RequestState.decryptionIv (fun _ _ => rfl) h
        have e5 : r.encryptionIv = r'.encryptionIv := hidden_field RequestState.encryptionIv (fun _ _ => rfl) h
        have hdec : decodeAes C (i.params.getD ⟨0, []⟩) r.encryptionKey r.requestId r.decryptionIv r.encryptionIv =
            decodeAes C (i.params.getD ⟨0, []⟩) r'.encryptionKey r'.requestId r'.decryptionIv r'.encryptionIv := by
          rw [e2, hid, e4, e5]
        split
        · rename_i hver
          rw [e1] at hver
          rw [if_pos hver]
          exact LikeOutcome.refl _
        · rename_i hver
          have hver1 : C.verifyInterest i r.cert = true := by simpa using hver
          have hver2 : C.verifyInterest i r'.cert = true := by rw [← e1]; exact hver1
          rw [if_neg (by rw [hver2]; simp)]
          rw [hdec]
          cases hd : decodeAes C (i.params.getD ⟨0, []⟩) r'.encryptionKey r'.requestId r'.decryptionIv r'.encryptionIv with
          | mk div res =>
            cases res with
            | exc e => dsimp only; rw [hid]; exact LikeOutcome.refl _
            | ub u => exact LikeOutcome.refl _
            | ok pt =>
              dsimp only
              refine processParams_like C cfg i env w (withDiv_like h div) pt ?_
              intro es sel k hne hp hs hk hc
              have ha : NotGiven es r := hg i r es k rfl ⟨h2, h3, hver1⟩ ⟨pt, sel, decodeAes_decrypts (hdec.trans hd), hne, hp, hs, hk⟩ hc
              have hb : NotGiven es r' := hg' i r' es k rfl ⟨h2', h3', hver2⟩ ⟨pt, sel, decodeAes_decrypts hd, hne, hp, hs, hk⟩ hc
              exact ⟨fun cs code h => ha cs code h, fun cs code h => hb cs code h⟩

/-! ## Steps and executions -/

theorem isDb_hidden (e : Effect) : e.hidden.isDb = e.isDb := by cases e <;> rfl

theorem dbOps_hidden {a b : List Effect} (h : a.map Effect.hidden = b.map Effect.hidden) :
    (dbOps a).map Effect.hidden = (dbOps b).map Effect.hidden := by
  have e : ∀ l : List Effect, (dbOps l).map Effect.hidden = (l.map Effect.hidden).filter Effect.isDb := by
    intro l
    induction l with
    | nil => rfl
    | cons x l ih =>
      unfold dbOps at *
      rw [List.filter_cons, List.map_cons, List.filter_cons, isDb_hidden]
      split
      · rw [List.map_cons, ih]
      · exact ih
  rw [e, e, h]

theorem sent_hidden (l : List Effect) : sent (l.map Effect.hidden) = sent l := by
  induction l with
  | nil => rfl
  | cons x l ih => cases x <;> simp [sent, Effect.hidden, ih]

theorem issued_hidden (l : List Effect) : issued (l.map Effect.hidden) = issued l := by
  induction l with
  | nil => rfl
  | cons x l ih => cases x <;> simp [issued, Effect.hidden, ih]

theorem mailed_hidden (l : List Effect) : mailed (l.map Effect.hidden) = (mailed l).map Mail.hidden := by
  induction l with
  | nil => rfl
  | cons x l ih => cases x <;> simp [mailed, Effect.hidden, ih]

theorem callbacks_hidden (l : List Effect) : callbacks (l.map Effect.hidden) = (callbacks l).map RequestState.hidden := by
  induction l with
  | nil => rfl
  | cons x l ih => cases x <;> simp [callbacks, Effect.hidden, ih]

/-- the storage rounds requests that differ in the code alike -/
theorem rounded_like {r r' : RequestState} (h : r.hidden = r'.hidden) (f : Time → Time) (g : Int → Int) :
    RequestState.hidden { r with challengeState := r.challengeState.map (fun cs => { cs with timestamp := f cs.timestamp, remainingTime := g cs.remainingTime }) } =
    RequestState.hidden { r' with challengeState := r'.challengeState.map (fun cs => { cs with timestamp := f cs.timestamp, remainingTime := g cs.remainingTime }) } := by
  rcases hidden_cases h with rfl | ⟨cs, sec, hc, rfl, hs⟩
  · rfl
  · simp only [RequestState.hidden, hc, Option.map_some, hs]

theorem after_like (hC : C.Lawful) (hS : ExactStore C S Inv) (hcfg : NameFits cfg.profile.caPrefix) {n n' : Step σ}
    (hi : Inv n.pre.store) (hi' : Inv n'.pre.store) (hwf : n.event.Wf cfg) (hwf' : n'.event.Wf cfg)
    (he : n.effects = (n.event.run C S cfg n.pre).1) (he' : n'.effects = (n'.event.run C S cfg n'.pre).1)
    {P : RequestId → Prop} (hl : LikeState S P n.pre n'.pre) (heff : n.effects.map Effect.hidden = n'.effects.map Effect.hidden)
    (id : RequestId) (hp : P id) :
    (S.view (n.afterStore S) id).map RequestState.hidden = (S.view (n'.afterStore S) id).map RequestState.hidden := by
  obtain ⟨_, v1⟩ := step_view hC hS.toLawfulStore hcfg hi hwf he
  obtain ⟨_, v2⟩ := step_view hC hS.toLawfulStore hcfg hi' hwf' he'
  have hdb := dbOps_hidden heff
  have hv := hl.view id hp
  have hupd : ∀ {m : Step σ} (_ : Inv m.pre.store) {i env k es out r0 r1} (_ : dbOps m.effects = [.dbUpdate r1])
      (_ : UpdatedBy C S cfg m i env k es out r0 r1) (_ : S.view m.pre.store r1.requestId = some r0),
      ∃ st', S.update m.pre.store r1 = .ok st' ∧ m.afterStore S = st' ∧ Storable C r1 ∧ SameRequest r0 r1 := by
    intro m hi i env k es out r0 r1 hd hu h0
    obtain ⟨div, ho, hmc⟩ := hu.module
    obtain ⟨payload, henc⟩ := hu.encode
    have hsame := sameRequest_challenge hmc hu.status henc
    have hstor := storable_challenge (hS.get_storable _ _ _ hi h0) hmc hu.status henc
    obtain ⟨st', r', h1, _⟩ := hS.update_present _ r1 r0 hi hstor h0 hsame
    refine ⟨st', h1, ?_, hstor, hsame⟩
    unfold Step.afterStore
    rw [applyEffects_dbOps, hd]
    simp [applyEffects, applyEffect, h1]
  cases v1 with
  | same h0 h =>
    rw [h0] at hdb
    cases v2 with
    | same h0' h' => rw [h, h', hv]
    | added ty i env r hd => rw [hd] at hdb; cases hdb
    | updated i env k es out r0 r1 r hd => rw [hd] at hdb; cases hdb
    | deleted i env r hd => rw [hd] at hdb; cases hdb
  | added ty i env r hd1 ha h0 h =>
    rw [hd1] at hdb
    cases v2 with
    | same h0' h' => rw [h0'] at hdb; cases hdb
    | added ty' i' env' r' hd2 ha' h0' h' =>
      rw [hd2] at hdb
      injection hdb with hdb
      injection hdb with hdb
      have hid : r.requestId = r'.requestId := hidden_field RequestState.requestId (fun _ _ => rfl) hdb
      rw [h, h', hid]
      split
      · rw [Option.map_some, Option.map_some, hdb]
      · exact hv
    | updated i env k es out r0 r1 r hd => rw [hd] at hdb; simp [Effect.hidden] at hdb
    | deleted i env r hd => rw [hd] at hdb; simp [Effect.hidden] at hdb
  | updated i env k es out r0 r1 r hd1 hu h0 hs h =>
    obtain ⟨st1, a1, a2, a3, a4⟩ := hupd hi hd1 hu h0
    rw [hd1] at hdb
    cases v2 with
    | same h0' h' => rw [h0'] at hdb; cases hdb
    | added ty i env r hd => rw [hd] at hdb; simp [Effect.hidden] at hdb
    | deleted i env r hd => rw [hd] at hdb; simp [Effect.hidden] at hdb
    | updated i' env' k' es' out' r0' r1' r' hd2 hu' h0' hs' h' =>
      obtain ⟨st2, b1, b2, b3, b4⟩ := hupd hi' hd2 hu' h0'
      rw [hd2] at hdb
      injection hdb with hdb
      injection hdb with hdb
      have hrid : r1.requestId = r1'.requestId := hidden_field RequestState.requestId (fun _ _ => rfl) hdb
      by_cases hid : id = r1.requestId
      · obtain ⟨f, g, hex⟩ := hS.update_exact
        have e1 := hex _ _ _ _ hi a3 h0 a4 a1
        have e2 := hex _ _ _ _ hi' b3 h0' b4 b1
        have e3 := (congrArg (S.view st2) hrid).trans e2
        rw [a2, b2, hid, e1, e3, Option.map_some, Option.map_some, rounded_like hdb]
      · rw [h, h', if_neg hid, if_neg (hrid ▸ hid), hv]
  | deleted i env r hd1 hm1 hv1 h0 h =>
    rw [hd1] at hdb
    cases v2 with
    | same h0' h' => rw [h0'] at hdb; cases hdb
    | added ty i env r hd => rw [hd] at hdb; simp [Effect.hidden] at hdb
    | updated i env k es out r0 r1 r hd => rw [hd] at hdb; simp [Effect.hidden] at hdb
    | deleted i' env' r' hd2 hm2 hv2 h0' h' =>
      rw [hd2] at hdb
      injection hdb with hdb
      have hid : r.requestId = r'.requestId := by injection hdb
      rw [h, h', hid]
      split
      · rfl
      · exact hv

theorem concerns_unique {n : Step σ} {id id' : RequestId} (h : Concerns C cfg id n) (h' : Concerns C cfg id' n) : id = id' := by
  unfold Concerns Step.Handles at h h'
  rcases h with ⟨i, env, h1, h2⟩ | ⟨i, env, pub, cert, h1, h2, h3⟩ | ⟨i, env, pub, cert, h1, h2, h3⟩ <;>
  rcases h' with ⟨i', env', g1, g2⟩ | ⟨i', env', pub', cert', g1, g2, g3⟩ | ⟨i', env', pub', cert', g1, g2, g3⟩ <;>
  rw [h1] at g1 <;> cases g1
  · exact h2.unique g2
  · rw [← h3, ← g3, (submits_unique h2 g2).2]
  · rw [← h3, ← g3, (submits_unique h2 g2).2]

theorem OtherCode.concerns {s s' : CaState σ} {e e' : Event} {l l' : List Effect} (ho : OtherCode e e') (hk : s.idKey = s'.idKey) {id : RequestId}
    (h : Concerns C cfg id (⟨s, e, l⟩ : Step σ)) : Concerns C cfg id (⟨s', e', l'⟩ : Step σ) := by
  cases ho with
  | msg m env w =>
    rcases h with ⟨i, env', h1, h2⟩ | ⟨i, env', pub, cert, h1, h2, h3⟩ | ⟨i, env', pub, cert, h1, h2, h3⟩ <;> cases h1
    · exact .inl ⟨i, _, rfl, h2⟩
    · exact .inr (.inl ⟨i, _, pub, cert, rfl, h2, by rw [← hk]; exact h3⟩)
    · exact .inr (.inr ⟨i, _, pub, cert, rfl, h2, by rw [← hk]; exact h3⟩)
  | crash m env w k nk =>
    rcases h with ⟨i, env', h1, h2⟩ | ⟨i, env', pub, cert, h1, h2, h3⟩ | ⟨i, env', pub, cert, h1, h2, h3⟩ <;> cases h1
    · exact .inl ⟨i, _, rfl, h2⟩
    · exact .inr (.inl ⟨i, _, pub, cert, rfl, h2, by rw [← hk]; exact h3⟩)
    · exact .inr (.inr ⟨i, _, pub, cert, rfl, h2, by rw [← hk]; exact h3⟩)
  | restart nk => exact absurd h (not_concerns rfl)

/-- one step of the two executions -/
theorem step_like (hC : C.Lawful) (hS : ExactStore C S Inv) (hcfg : NameFits cfg.profile.caPrefix) (P : RequestId → Prop) {s s' : CaState σ}
    {e e' : Event} (hi : Inv s.store) (hi' : Inv s'.store) (hwf : e.Wf cfg) (hwf' : e'.Wf cfg) (hl : LikeState S P s s') (ho : OtherCode e e')
    (hg : NoRightCode C S cfg P [⟨s, e, (e.run C S cfg s).1⟩]) (hg' : NoRightCode C S cfg P [⟨s', e', (e'.run C S cfg s').1⟩]) :
    ((∃ id, ¬ P id ∧ Concerns C cfg id (⟨s, e, (e.run C S cfg s).1⟩ : Step σ)) ∨
      SameButCode C S cfg ⟨s, e, (e.run C S cfg s).1⟩ ⟨s', e', (e'.run C S cfg s').1⟩) ∧
    LikeState S P (e.run C S cfg s).2 (e'.run C S cfg s').2 := by
  have i1 := (step_view (n := ⟨s, e, (e.run C S cfg s).1⟩) hC hS.toLawfulStore hcfg hi hwf rfl).1
  have i2 := (step_view (n := ⟨s', e', (e'.run C S cfg s').1⟩) hC hS.toLawfulStore hcfg hi' hwf' rfl).1
  have hre : ∀ st st', Inv st → Inv st' → (∀ id, P id → (S.view st id).map RequestState.hidden = (S.view st' id).map RequestState.hidden) →
      ∀ id, P id → (S.view (S.reopen st) id).map RequestState.hidden = (S.view (S.reopen st') id).map RequestState.hidden := by
    intro st st' a b hab id hp
    rcases hS.reopen_exact with hr | hr
    · rw [hr _ a, hr _ b, hab id hp]
    · rw [hr _ a, hr _ b]
  have hlast : (∀ id, P id → (S.view (Step.afterStore S ⟨s, e, (e.run C S cfg s).1⟩) id).map RequestState.hidden =
      (S.view (Step.afterStore S ⟨s', e', (e'.run C S cfg s').1⟩) id).map RequestState.hidden) →
      LikeState S P (e.run C S cfg s).2 (e'.run C S cfg s').2 := by
    intro haft
    cases ho with
    | msg m env w => exact ⟨hl.key, haft⟩
    | crash m env w k nk => exact ⟨rfl, hre _ _ i1 i2 haft⟩
    | restart nk => exact ⟨rfl, hre _ _ i1 i2 haft⟩
  by_cases hout : ∃ id, ¬ P id ∧ Concerns C cfg id (⟨s, e, (e.run C S cfg s).1⟩ : Step σ)
  · refine ⟨.inl hout, hlast ?_⟩
    obtain ⟨id0, hp0, hc0⟩ := hout
    have hc0' : Concerns C cfg id0 (⟨s', e', (e'.run C S cfg s').1⟩ : Step σ) := ho.concerns hl.key hc0
    intro id hp
    rw [step_own (n := ⟨s, e, (e.run C S cfg s).1⟩) hC hS.toLawfulStore hcfg hi hwf rfl id
        (fun h => hp0 (concerns_unique (OwnStep.concerns hwf rfl h) hc0 ▸ hp)),
      step_own (n := ⟨s', e', (e'.run C S cfg s').1⟩) hC hS.toLawfulStore hcfg hi' hwf' rfl id
        (fun h => hp0 (concerns_unique (OwnStep.concerns hwf' rfl h) hc0' ▸ hp))]
    exact hl.view id hp
  have hin : ∀ id, Concerns C cfg id (⟨s, e, (e.run C S cfg s).1⟩ : Step σ) → P id := by
    intro id h
    by_cases hp : P id
    · exact hp
    · exact absurd ⟨id, hp, h⟩ hout
  have hh : ∀ m env w, e.msg? = some (m, env) → e'.msg? = some (m, { env with word32 := w }) →
      LikeOutcome (handle C S cfg s m env) (handle C S cfg s' m { env with word32 := w }) := by
    intro m env w h1 h2
    obtain ⟨w1, w2⟩ := hwf _ _ h1
    refine handle_like hC hS.toLawfulStore hcfg hi hi' hl w w1 w2 ?_ ?_ ?_ ?_
    · rintro i id rfl hn
      exact hin id (.inl ⟨i, env, h1, hn⟩)
    · rintro ty i pub cert (⟨rfl, rfl⟩ | ⟨rfl, rfl⟩) hsub
      · exact hin _ (.inr (.inl ⟨i, env, pub, cert, h1, hsub, rfl⟩))
      · exact hin _ (.inr (.inr ⟨i, env, pub, cert, h1, hsub, rfl⟩))
    · rintro i r es k rfl ha hsel hk cs code hw
      exact hg _ (List.mem_singleton.mpr rfl) i env r es k cs code (hin _ (.inl ⟨i, env, h1, ha.names⟩)) ⟨h1, ha, hsel⟩ hk hw
    · rintro i r es k rfl ha hsel hk cs code hw
      exact hg' _ (List.mem_singleton.mpr rfl) i _ r es k cs code (hin _ (.inl ⟨i, env, h1, ha.names⟩)) ⟨h2, ha, hsel⟩ hk hw
  have heff : (e.run C S cfg s).1.map Effect.hidden = (e'.run C S cfg s').1.map Effect.hidden := by
    cases ho with
    | msg m env w => exact (hh m env w rfl rfl).2
    | crash m env w k nk =>
      show ((handle C S cfg s m env).effects.take k).map _ = ((handle C S cfg s' m _).effects.take k).map _
      rw [List.map_take, List.map_take, (hh m env w rfl rfl).2]
    | restart nk => rfl
  have hends : Step.ends C S cfg ⟨s, e, (e.run C S cfg s).1⟩ = Step.ends C S cfg ⟨s', e', (e'.run C S cfg s').1⟩ := by
    cases ho with
    | msg m env w => exact congrArg some (hh m env w rfl rfl).1
    | crash m env w k nk => exact congrArg some (hh m env w rfl rfl).1
    | restart nk => rfl
  have haft := after_like hC hS hcfg (n := ⟨s, e, (e.run C S cfg s).1⟩) (n' := ⟨s', e', (e'.run C S cfg s').1⟩) hi hi' hwf hwf' rfl rfl hl heff
  refine ⟨.inr ⟨?_, ?_, ?_, ?_, hends⟩, hlast haft⟩
  · have := congrArg sent heff
    rwa [sent_hidden, sent_hidden] at this
  · have := congrArg issued heff
    rwa [issued_hidden, issued_hidden] at this
  · have := congrArg mailed heff
    rwa [mailed_hidden, mailed_hidden] at this
  · have := congrArg callbacks heff
    rwa [callbacks_hidden, callbacks_hidden] at this

theorem Each.snoc {α β : Type} {R : α → β → Prop} {as : List α} {bs : List β} {a : α} {b : β} (h : Each R as bs) (hab : R a b) :
    Each R (as ++ [a]) (bs ++ [b]) := by
  induction h with
  | nil => exact .cons hab .nil
  | cons h1 _ ih => exact .cons h1 ih

theorem Each.mono {α β : Type} {R Q : α → β → Prop} {as : List α} {bs : List β} (h : Each R as bs) (hq : ∀ a b, R a b → Q a b) : Each Q as bs := by
  induction h with
  | nil => exact .nil
  | cons h1 _ ih => exact .cons (hq _ _ h1) ih

theorem Each.length {α β : Type} {R : α → β → Prop} {as : List α} {bs : List β} (h : Each R as bs) : as.length = bs.length := by
  induction h with
  | nil => rfl
  | cons _ _ ih => rw [List.length_cons, List.length_cons, ih]

theorem Each.snoc_inv {α β : Type} {R : α → β → Prop} {as : List α} {bs : List β} {a : α} {b : β} (h : Each R (as ++ [a]) (bs ++ [b])) :
    Each R as bs ∧ R a b := by
  induction as generalizing bs with
  | nil =>
    cases bs with
    | nil => cases h with | cons h1 _ => exact ⟨.nil, h1⟩
    | cons c bs =>
      have := h.length
      simp at this
  | cons c as ih =>
    cases bs with
    | nil =>
      have := h.length
      simp at this
    | cons d bs =>
      cases h with
      | cons h1 h2 => exact ⟨.cons h1 (ih h2).1, (ih h2).2⟩

theorem startKey_snoc (h : List (Step σ)) (n : Step σ) (s : CaState σ) : startKey (h ++ [n]) s = startKey h n.pre := by
  cases h <;> rfl

/-- two executions that differ in the random words for codes, in none of which the right code is given -/
theorem exec_like (hC : C.Lawful) (hS : ExactStore C S Inv) (hcfg : NameFits cfg.profile.caPrefix) (P : RequestId → Prop) {h h' : List (Step σ)} {s s' : CaState σ}
    (hx : Exec C S cfg h s) (hx' : Exec C S cfg h' s') (hev : Each OtherCode (h.map Step.event) (h'.map Step.event))
    (hk : startKey h s = startKey h' s') (hg : NoRightCode C S cfg P h) (hg' : NoRightCode C S cfg P h') :
    Each (fun n n' => (∃ id, ¬ P id ∧ Concerns C cfg id n) ∨ SameButCode C S cfg n n') h h' ∧ LikeState S P s s' := by
  induction hx generalizing h' s' with
  | init k =>
    cases hx' with
    | init k' => exact ⟨.nil, hk, fun _ _ => rfl⟩
    | step e prev wf possible =>
      rw [List.map_append] at hev
      generalize hy : List.map Step.event _ ++ _ = y at hev
      cases hev
      simp at hy
  | @step h s e prev wf possible ih =>
    cases hx' with
    | init k' =>
      rw [List.map_append] at hev
      generalize hy : List.map Step.event h ++ _ = y at hev
      cases hev
      simp at hy
    | @step h' s' e' prev' wf' possible' =>
      rw [List.map_append, List.map_append] at hev
      obtain ⟨h1, h2⟩ := Each.snoc_inv hev
      rw [startKey_snoc, startKey_snoc] at hk
      obtain ⟨i1, i2⟩ := ih prev' h1 hk (fun n hn => hg n (List.mem_append_left _ hn)) (fun n hn => hg' n (List.mem_append_left _ hn))
      obtain ⟨s1, s2⟩ := step_like hC hS hcfg P (exec_inv hC hS.toLawfulStore hcfg prev) (exec_inv hC hS.toLawfulStore hcfg prev') wf wf' i2 h2
        (fun n hn => hg n (List.mem_append_right _ hn)) (fun n hn => hg' n (List.mem_append_right _ hn))
      exact ⟨i1.snoc s1, s2⟩

end Ndncert
