import Verif.Lemmas.Authentic

namespace Ndncert

variable {σ : Type} {C : Crypto} {S : StoreI σ} {Inv : σ → Prop} {cfg : CaConfig} {st : σ} {i : Interest} {env : Env}

theorem challengeEncode_encloses {r r2 : RequestState} {issued hint : Name} {rnd : Bytes} {payload : Block} {name : Name}
    (h : challengeEncode C r issued hint rnd = (r2, .ok payload)) :
    ∃ es, challengeElems r issued hint = .ok es ∧ Encloses C r (mkData C cfg.profile.caPrefix name payload) es := by
  obtain ⟨es, iv, h1, _, h3⟩ := challengeEncode_ok h
  obtain ⟨h4, _, h5⟩ := encodeAes_ok h3
  exact ⟨es, h1, _, h4, h5⟩

theorem encloses_congr {r r' : RequestState} (h1 : r.encryptionKey = r'.encryptionKey) (h2 : r.requestId = r'.requestId) {d : Data}
    {es : List Block} (h : Encloses C r d es) : Encloses C r' d es := by
  unfold Encloses at *
  rw [← h1, ← h2]
  exact h

theorem challengeElems_status {r : RequestState} {issued hint : Name} {es : List Block} (h : challengeElems r issued hint = .ok es) :
    ∃ rest, es = nniBlock T.Status r.status.toNat :: rest := by
  unfold challengeElems at h
  cases hcs : r.challengeState with
  | none =>
    rw [hcs] at h
    cases h
    exact ⟨_, rfl⟩
  | some cs =>
    rw [hcs] at h
    dsimp only at h
    rw [Res.bind_eq_ok] at h
    obtain ⟨st, _, h⟩ := h
    cases h
    exact ⟨_, rfl⟩

theorem challengeElems_tries {r : RequestState} {issued hint : Name} {es : List Block} {cs : ChallengeState}
    (h : challengeElems r issued hint = .ok es) (hcs : r.challengeState = some cs) :
    ∃ rest, es = nniBlock T.Status r.status.toNat :: binBlock T.ChallengeStatus cs.challengeStatus ::
      nniBlock T.RemainingTries cs.remainingTries :: rest := by
  unfold challengeElems at h
  rw [hcs] at h
  rw [Res.bind_eq_ok] at h
  obtain ⟨st, h1, h⟩ := h
  cases h
  unfold challengeStateElems at h1
  dsimp only at h1
  split at h1
  · rw [Res.bind_eq_ok] at h1
    obtain ⟨nonce, _, h1⟩ := h1
    cases h1
    exact ⟨_, rfl⟩
  · cases h1
    exact ⟨_, rfl⟩

theorem sent_eq (es : List Effect) : sent es = es.filterMap (fun e => match e with | .put d => some d | _ => none) := by
  induction es with
  | nil => rfl
  | cons e es ih => cases e <;> simp [sent, ih]

theorem callbacks_eq (es : List Effect) :
    callbacks es = es.filterMap (fun e => match e with | .callback r => some r | _ => none) := by
  induction es with
  | nil => rfl
  | cons e es ih => cases e <;> simp [callbacks, ih]

theorem sent_append (a b : List Effect) : sent (a ++ b) = sent a ++ sent b := by
  simp [sent_eq, List.filterMap_append]

theorem sent_mail (ms : List Mail) : sent (ms.map Effect.mail) = [] := by
  induction ms with
  | nil => rfl
  | cons m ms ih => simpa [sent] using ih

theorem callbacks_append (a b : List Effect) : callbacks (a ++ b) = callbacks a ++ callbacks b := by
  simp [callbacks_eq, List.filterMap_append]

theorem callbacks_mail (ms : List Mail) : callbacks (ms.map Effect.mail) = [] := by
  induction ms with
  | nil => rfl
  | cons m ms ih => simpa [callbacks] using ih

/-- if the only Data of a handler was sent, its storage operations have happened -/
theorem sent_take {pre post : List Effect} {d d' : Data} (hpre : sent pre = []) (hpost : sent post = []) (hdb : dbOps post = [])
    {k : Nat} (h : d ∈ sent ((pre ++ .put d' :: post).take k)) :
    d = d' ∧ ∀ (S : StoreI σ) st, applyEffects S st ((pre ++ .put d' :: post).take k) = applyEffects S st (pre ++ .put d' :: post) := by
  by_cases hk : k ≤ pre.length
  · rw [List.take_append_of_le_length hk] at h
    have : List.Sublist (sent (pre.take k)) (sent pre) := by
      rw [sent_eq, sent_eq]
      exact (List.take_sublist k pre).filterMap _
    rw [hpre] at this
    rw [List.sublist_nil.mp this] at h
    cases h
  · have htake : (pre ++ .put d' :: post).take k = pre ++ .put d' :: post.take (k - pre.length - 1) := by
      rw [List.take_append, List.take_of_length_le (by omega)]
      congr 1
      obtain ⟨j, hj⟩ : ∃ j, k - pre.length = j + 1 := ⟨k - pre.length - 1, by omega⟩
      rw [hj, List.take_succ_cons]
      simp
    rw [htake] at h ⊢
    refine ⟨?_, ?_⟩
    · have : List.Sublist (sent (post.take (k - pre.length - 1))) (sent post) := by
        rw [sent_eq, sent_eq]
        exact (List.take_sublist _ post).filterMap _
      rw [hpost] at this
      rw [sent_append, hpre] at h
      simp only [sent, List.sublist_nil.mp this] at h
      simpa using h
    · intro S st
      rw [applyEffects_dbOps, applyEffects_dbOps S (pre ++ .put d' :: post)]
      have h1 : dbOps (post.take (k - pre.length - 1)) = [] := dbOps_take_nil hdb _
      unfold dbOps at *
      rw [List.filter_append, List.filter_append, List.filter_cons, List.filter_cons, h1, hdb]

/-- the step in which a CHALLENGE is handled up to its first `k` effects -/
def cutStep (C : Crypto) (S : StoreI σ) (cfg : CaConfig) (st : σ) (i : Interest) (env : Env) (k : Nat) : Step σ :=
  ⟨⟨st, []⟩, .crash (.challenge i) env k [], (onChallenge C S cfg st i env).effects.take k⟩

theorem cut_view (hC : C.Lawful) (hS : LawfulStore C S Inv) (hcfg : NameFits cfg.profile.caPrefix) (hi : Inv st)
    (hm : (Msg.challenge i).Wf cfg) (he : env.Wf) (k : Nat) :
    Inv (applyEffects S st ((onChallenge C S cfg st i env).effects.take k)) ∧
    ViewCase C S cfg (cutStep C S cfg st i env k) (applyEffects S st ((onChallenge C S cfg st i env).effects.take k)) := by
  refine step_view (n := cutStep C S cfg st i env k) hC hS hcfg hi ?_ rfl
  intro m env' h
  cases h
  exact ⟨hm, he⟩

/-- all requests other than the named one stay -/
theorem cut_other (hC : C.Lawful) (hS : LawfulStore C S Inv) (hcfg : NameFits cfg.profile.caPrefix) (hi : Inv st)
    (hm : (Msg.challenge i).Wf cfg) (he : env.Wf) (k : Nat) {id : RequestId} (hn : ¬ Names cfg env i id) :
    S.view (applyEffects S st ((onChallenge C S cfg st i env).effects.take k)) id = S.view st id := by
  have hf := idFits_of_wf hm
  obtain ⟨_, hv⟩ := cut_view (cfg := cfg) hC hS hcfg hi hm he k
  cases hv with
  | same h0 h => exact h id
  | added ty i' env' r hd ha h0 h =>
    obtain ⟨m, h1, h2⟩ := ha.event
    cases h1
    cases h2
  | updated i' env' k' es out r0 r1 r hd hu h0 hs h =>
    have h1 := hu.event
    cases h1
    have ha := (verified_authentic hS hi hf he.stack).mp hu.verified
    rw [h id, if_neg]
    · rfl
    rintro rfl
    have := hS.get_id _ _ _ hi h0
    rw [← this] at hn
    exact hn ha.names
  | deleted i' env' r hd he' hv h0 h =>
    cases he'
    have ha := (verified_authentic hS hi hf he.stack).mp hv
    rw [h id, if_neg]
    · rfl
    rintro rfl
    exact hn ha.names

theorem tellsStatus {r r0 r2 : RequestState} {issued hint : Name} {rnd : Bytes} {payload : Block} {name : Name}
    (h : challengeEncode C r issued hint rnd = (r2, .ok payload)) (h1 : r.encryptionKey = r0.encryptionKey)
    (h2 : r.requestId = r0.requestId) : TellsStatus C r0 (mkData C cfg.profile.caPrefix name payload) r.status := by
  obtain ⟨es, he, hen⟩ := challengeEncode_encloses (cfg := cfg) (name := name) h
  obtain ⟨rest, rfl⟩ := challengeElems_status he
  exact ⟨rest, encloses_congr h1 h2 hen⟩

theorem tellsTries {r r0 r2 : RequestState} {issued hint : Name} {rnd : Bytes} {payload : Block} {name : Name}
    (h : challengeEncode C r issued hint rnd = (r2, .ok payload)) (h1 : r.encryptionKey = r0.encryptionKey)
    (h2 : r.requestId = r0.requestId) (h3 : r.status = .challenge) {cs : ChallengeState} (h4 : r.challengeState = some cs) :
    TellsTries C r0 (mkData C cfg.profile.caPrefix name payload) cs.challengeStatus cs.remainingTries := by
  obtain ⟨es, he, hen⟩ := challengeEncode_encloses (cfg := cfg) (name := name) h
  obtain ⟨rest, rfl⟩ := challengeElems_tries he h4
  rw [h3] at hen
  exact ⟨rest, encloses_congr h1 h2 hen⟩

theorem ModCase.req {C : Crypto} {k : ChalKind} {env : Env} {es : List Block} {r : RequestState} {out : ChalOut}
    (h : ModCase C k env es r out) : out.req.encryptionKey = r.encryptionKey ∧ out.req.requestId = r.requestId := by
  cases h <;> exact ⟨rfl, rfl⟩

/-- what a reply to an authentic CHALLENGE means for the storage at any later point of the handler -/
theorem reply_facts (hC : C.Lawful) (hS : LawfulStore C S Inv) (hcfg : NameFits cfg.profile.caPrefix) (hi : Inv st)
    (hm : (Msg.challenge i).Wf cfg) (he : env.Wf) {r : RequestState} (ha : Authentic C S cfg st i env r)
    {k : Nat} {d : Data} (hd : d ∈ sent ((onChallenge C S cfg st i env).effects.take k)) :
    ((∃ code, IsErrorReply C cfg i code d) ∧
      S.view (applyEffects S st ((onChallenge C S cfg st i env).effects.take k)) r.requestId = none) ∨
    (¬ (∃ code, IsErrorReply C cfg i code d) ∧ TellsStatus C r d .success ∧
      S.view (applyEffects S st ((onChallenge C S cfg st i env).effects.take k)) r.requestId = none) ∨
    (¬ (∃ code, IsErrorReply C cfg i code d) ∧ ∃ r' cs,
      S.view (applyEffects S st ((onChallenge C S cfg st i env).effects.take k)) r.requestId = some r' ∧
      r'.challengeState = some cs ∧ TellsTries C r d cs.challengeStatus cs.remainingTries ∧
      (r.status ≠ .beforeChallenge → ∃ cs0, r.challengeState = some cs0 ∧ cs.remainingTries + 1 = cs0.remainingTries)) := by
  have hf := idFits_of_wf hm
  have hv := (verified_authentic (cfg := cfg) (i := i) hS hi hf he.stack).mpr ha
  have hsame : ∀ {r'}, Verified C S cfg st i env r' → r' = r := by
    intro r' h
    have h1 := h.found
    rw [hv.found] at h1
    cases h1; rfl
  obtain ⟨hinv, hview⟩ := cut_view (cfg := cfg) hC hS hcfg hi hm he (onChallenge C S cfg st i env).effects.length
  have hc := onChallenge_cases C S cfg st i env
  have heff : (cutStep C S cfg st i env (onChallenge C S cfg st i env).effects.length).effects = (onChallenge C S cfg st i env).effects := by
    simp [cutStep]
  rw [List.take_length] at hview
  generalize hn : cutStep C S cfg st i env (onChallenge C S cfg st i env).effects.length = n at hview heff
  have hnst : n.pre.store = st := by rw [← hn]; rfl
  generalize onChallenge C S cfg st i env = o at hd hc heff hview
  have hs : ∀ {pre post d'}, o.effects = pre ++ .put d' :: post → sent pre = [] → sent post = [] → dbOps post = [] →
      d = d' ∧ applyEffects S st (o.effects.take k) = applyEffects S st o.effects := by
    intro pre post d' h1 h2 h3 h4
    rw [h1] at hd ⊢
    obtain ⟨h5, h6⟩ := sent_take (σ := σ) h2 h3 h4 hd
    exact ⟨h5, h6 S st⟩
  have hdel : dbOps o.effects = [.dbDelete r.requestId] → S.view (applyEffects S st o.effects) r.requestId = none := by
    intro h
    rw [applyEffects_dbOps, h]
    show S.view (S.delete st r.requestId) r.requestId = none
    rw [hS.delete_view _ _ hi, if_pos rfl]
  have hnil : sent (o.effects.take k) = [] → False := by intro h; rw [h] at hd; cases hd
  have hsub : sent o.effects = [] → False := by
    intro h
    apply hnil
    have : List.Sublist (sent (o.effects.take k)) (sent o.effects) := by
      rw [sent_eq, sent_eq]
      exact (List.take_sublist _ _).filterMap _
    rw [h] at this
    exact List.sublist_nil.mp this
  cases hc with
  | undefined u _ => exact absurd rfl (fun h => hsub h)
  | noRequest info h => rw [hv.found] at h; cases h
  | badSig r' info h h' =>
    have h1 := hv.sig
    rw [hv.found] at h; cases h
    rw [h1] at h'; cases h'
  | reject r' code info hv' hcode =>
    obtain rfl := hsame hv'
    obtain ⟨h1, h2⟩ := hs (pre := [.dbDelete r'.requestId]) (post := []) rfl rfl rfl rfl
    left
    rw [h2]
    exact ⟨⟨code, hcode, info, h1⟩, hdel rfl⟩
  | early r' t _ _ => exact absurd rfl (fun h => hsub h)
  | continued r' div es k' out r2 payload hv' ho hmc hst henc =>
    obtain rfl := hsame hv'
    obtain ⟨h1, h2⟩ := hs (pre := out.mails.map .mail ++ [.dbUpdate r2]) (post := [.callback r2]) (d' := mkData C cfg.profile.caPrefix i.name payload) (by simp) (by rw [sent_append, sent_mail]; rfl) rfl rfl
    subst h1
    right; right
    refine ⟨fun ⟨code, h⟩ => challengeEncode_not_error henc h, ?_⟩
    have hdb : dbOps n.effects = [.dbUpdate r2] := by
      rw [heff]
      show dbOps (_ ++ _) = _
      unfold dbOps
      rw [List.filter_append]
      have := dbOps_mail out.mails
      unfold dbOps at this
      rw [this]
      rfl
    obtain ⟨hk1, hk2⟩ := hmc.req
    obtain ⟨es', iv, _, hr2, _⟩ := challengeEncode_ok henc
    obtain ⟨cs, hcs, _⟩ := hmc.challenge hst
    have hid : r2.requestId = r'.requestId := by rw [hr2, hcs]
    rw [h2]
    cases hview with
    | same h0 _ => rw [hdb] at h0; cases h0
    | added ty i' env' rr hd' _ _ _ => rw [hdb] at hd'; cases hd'
    | deleted i' env' rr hd' _ _ _ _ => rw [hdb] at hd'; cases hd'
    | updated i' env' kk es1 out1 r0 r1 rr hd' hu h0 hsm hvw =>
      rw [hdb] at hd'
      cases hd'
      have hvr : S.view (applyEffects S st (out.mails.map Effect.mail ++ [.dbUpdate r2, .put (mkData C cfg.profile.caPrefix i.name payload), .callback r2])) r'.requestId = some rr := by
        rw [hvw, if_pos hid.symm]
      have hr2c : r2.challengeState = some cs := by rw [hr2, hcs]
      obtain ⟨cs', g1, g2, g3, _⟩ := hsm.chal hr2c
      refine ⟨rr, cs', hvr, g1, ?_, ?_⟩
      · rw [g2, g3]
        exact tellsTries henc hk1 hk2 hst (by rw [hcs])
      · intro hnb
        rw [g3]
        cases hmc with
        | error code info hcode => cases hst
        | start cstat secrets mails hsb _ => exact absurd hsb hnb
        | wrong cs0 code given hsb hk ha0 hg hne ht htr time =>
          refine ⟨cs0, ha0.1, ?_⟩
          have : cs = { challengeStatus := WRONG_CODE, timestamp := env.nowStore, remainingTries := cs0.remainingTries - 1, remainingTime := time, secrets := cs0.secrets } := by
            have := congrArg RequestState.challengeState hcs
            simpa [returnWithNewStatus] using this.symm
          rw [this]
          dsimp only
          omega
        | code cs0 code hsb hk ha0 hg ht => cases hst
        | proof cs0 cred nonce p hsb hk ha0 hg hl hv0 => cases hst
  | contThrew r' div es k' out t hv' ho hmc hst ht => exact absurd (sent_mail out.mails) hsub
  | issued r' div es k' out c r2 payload hv' ho hmc hst hty hiss henc =>
    obtain rfl := hsame hv'
    obtain ⟨h1, h2⟩ := hs (pre := [.issue c, .dbDelete r'.requestId]) (post := [.callback r2]) rfl rfl rfl rfl
    subst h1
    right; left
    rw [h2]
    obtain ⟨hk1, hk2⟩ := hmc.req
    have h3 := tellsStatus (cfg := cfg) (name := i.name) (r0 := r') henc hk1 hk2
    exact ⟨fun ⟨code, h⟩ => challengeEncode_not_error henc h, h3, hdel rfl⟩
  | issueThrew r' div es k' out c t hv' ho hmc hst hty hiss ht => exact absurd rfl (fun h => hsub h)
  | revoked r' div es k' out r2 payload hv' ho hmc hst hty henc =>
    obtain rfl := hsame hv'
    obtain ⟨h1, h2⟩ := hs (pre := [.dbDelete r'.requestId]) (post := [.callback r2]) rfl rfl rfl rfl
    subst h1
    right; left
    rw [h2]
    obtain ⟨hk1, hk2⟩ := hmc.req
    have h3 := tellsStatus (cfg := cfg) (name := i.name) (r0 := r') henc hk1 hk2
    exact ⟨fun ⟨code, h⟩ => challengeEncode_not_error henc h, h3, hdel rfl⟩
  | revokeThrew r' div es k' out t hv' ho hmc hst hty ht => exact absurd rfl (fun h => hsub h)

/-- the status callback -/
theorem callback_cases (C : Crypto) (S : StoreI σ) (cfg : CaConfig) (s : CaState σ) (m : Msg) (env : Env) :
    (callbacks (handle C S cfg s m env).effects = [] ∧
      ((handle C S cfg s m env).term = .done →
        (∃ i, m = .probe i) ∨ ∃ code d, IsErrorReply C cfg m.interest code d ∧ sent (handle C S cfg s m env).effects = [d])) ∨
    (∃ pre d r, (handle C S cfg s m env).term = .done ∧ (handle C S cfg s m env).effects = pre ++ [.put d, .callback r] ∧
      callbacks pre = [] ∧ sent pre = [] ∧ ¬ (∃ code, IsErrorReply C cfg m.interest code d) ∧ (∀ i, m ≠ .probe i) ∧
      (.dbAdd r ∈ pre ∨ .dbUpdate r ∈ pre ∨ (.dbDelete r.requestId ∈ pre ∧ r.status = .success))) := by
  have newcase : ∀ ty i, (ty = .new ∨ ty = .revoke) → m.request? = some (ty, i) → m.interest = i →
      handle C S cfg s m env = onNewRenewRevoke C S cfg s.idKey s.store ty i env →
      (callbacks (handle C S cfg s m env).effects = [] ∧
      ((handle C S cfg s m env).term = .done →
        (∃ i, m = .probe i) ∨ ∃ code d, IsErrorReply C cfg m.interest code d ∧ sent (handle C S cfg s m env).effects = [d])) ∨
    (∃ pre d r, (handle C S cfg s m env).term = .done ∧ (handle C S cfg s m env).effects = pre ++ [.put d, .callback r] ∧
      callbacks pre = [] ∧ sent pre = [] ∧ ¬ (∃ code, IsErrorReply C cfg m.interest code d) ∧ (∀ i, m ≠ .probe i) ∧
      (.dbAdd r ∈ pre ∨ .dbUpdate r ∈ pre ∨ (.dbDelete r.requestId ∈ pre ∧ r.status = .success))) := by
    intro ty i hty hmr hmi hh
    have hc := onNew_cases C S cfg s.idKey s.store ty hty i env
    rw [← hh] at hc
    rw [hmi]
    generalize handle C S cfg s m env = o at hc
    cases hc with
    | accept pub cert secret st' h1 h2 h3 h4 h5 h6 h7 h8 =>
      right
      refine ⟨[.dbAdd _], _, _, rfl, rfl, rfl, rfl, ?_, ?_, .inl (by simp)⟩
      · rintro ⟨code, _, info, heq⟩
        exact requestEncode_ne_error _ _ _ _ _ _ (congrArg Data.content heq)
      · rintro j rfl; cases hmr
    | error code info hcode =>
      left
      exact ⟨rfl, fun _ => .inr ⟨code, _, ⟨hcode, info, rfl⟩, rfl⟩⟩
    | threwCa e _ => exact .inl ⟨rfl, fun h => by cases h⟩
    | threw pub cert _ _ _ e => exact .inl ⟨rfl, fun h => by cases h⟩
    | undefined r u _ => exact .inl ⟨rfl, fun h => by cases h⟩
  cases m with
  | new i => exact newcase .new i (.inl rfl) rfl rfl rfl
  | revoke i => exact newcase .revoke i (.inr rfl) rfl rfl rfl
  | probe i =>
    left
    refine ⟨?_, fun _ => .inl ⟨i, rfl⟩⟩
    show callbacks (onProbe C cfg i env).effects = []
    unfold onProbe
    split
    · rfl
    · rfl
    · dsimp only
      split
      · rfl
      · rfl
      · split <;> rfl
  | challenge i =>
    have hc := onChallenge_cases C S cfg s.store i env
    have hh : handle C S cfg s (.challenge i) env = onChallenge C S cfg s.store i env := rfl
    rw [← hh] at hc
    have hmi : (Msg.challenge i).interest = i := rfl
    rw [hmi]
    generalize handle C S cfg s (.challenge i) env = o at hc
    cases hc with
    | undefined u _ => exact .inl ⟨rfl, fun h => by cases h⟩
    | noRequest info _ => exact .inl ⟨rfl, fun _ => .inr ⟨_, _, ⟨by decide, info, rfl⟩, rfl⟩⟩
    | badSig r info _ _ => exact .inl ⟨rfl, fun _ => .inr ⟨_, _, ⟨by decide, info, rfl⟩, rfl⟩⟩
    | reject r code info hv hcode => exact .inl ⟨rfl, fun _ => .inr ⟨code, _, ⟨hcode, info, rfl⟩, rfl⟩⟩
    | early r t _ ht => exact .inl ⟨rfl, fun h => absurd h ht⟩
    | continued r div es k' out r2 payload hv ho hmc hst henc =>
      right
      refine ⟨out.mails.map .mail ++ [.dbUpdate r2], mkData C cfg.profile.caPrefix i.name payload, r2, rfl, by simp, ?_, ?_, ?_, ?_, .inr (.inl (by simp))⟩
      · rw [callbacks_append, callbacks_mail]; rfl
      · rw [sent_append, sent_mail]; rfl
      · rintro ⟨code, h⟩; exact challengeEncode_not_error henc h
      · intro j h; cases h
    | contThrew r div es k' out t hv ho hmc hst ht => exact .inl ⟨callbacks_mail _, fun h => absurd h ht⟩
    | issued r div es k' out c r2 payload hv ho hmc hst hty hiss henc =>
      right
      obtain ⟨es', iv, _, hr2, _⟩ := challengeEncode_ok henc
      obtain ⟨_, hk2⟩ := hmc.req
      have hid : r2.requestId = r.requestId := by rw [hr2]; exact hk2
      have hst : r2.status = .success := by rw [hr2]
      refine ⟨[.issue c, .dbDelete r.requestId], _, r2, rfl, rfl, rfl, rfl, ?_, ?_, .inr (.inr ⟨by rw [hid]; simp, hst⟩)⟩
      · rintro ⟨code, h⟩; exact challengeEncode_not_error henc h
      · intro j h; cases h
    | issueThrew r div es k' out c t hv ho hmc hst hty hiss ht => exact .inl ⟨rfl, fun h => absurd h ht⟩
    | revoked r div es k' out r2 payload hv ho hmc hst hty henc =>
      right
      obtain ⟨es', iv, _, hr2, _⟩ := challengeEncode_ok henc
      obtain ⟨_, hk2⟩ := hmc.req
      have hid : r2.requestId = r.requestId := by rw [hr2]; exact hk2
      have hst : r2.status = .success := by rw [hr2]
      refine ⟨[.dbDelete r.requestId], _, r2, rfl, rfl, rfl, rfl, ?_, ?_, .inr (.inr ⟨by rw [hid]; simp, hst⟩)⟩
      · rintro ⟨code, h⟩; exact challengeEncode_not_error henc h
      · intro j h; cases h
    | revokeThrew r div es k' out t hv ho hmc hst hty ht => exact .inl ⟨rfl, fun h => absurd h ht⟩

/-- decryption is a function -/
theorem Decrypts.unique {r : RequestState} {pt pt' : Bytes} (h : Decrypts C i r pt) (h' : Decrypts C i r pt') : pt = pt' := by
  obtain ⟨b, es, ct, iv, tag, h1, h2, h3, h4, h5, h6⟩ := h
  obtain ⟨b', es', ct', iv', tag', g1, g2, g3, g4, g5, g6⟩ := h'
  rw [h1] at g1; cases g1
  rw [h2] at g2; cases g2
  rw [h3] at g3; cases g3
  rw [h4] at g4; cases g4
  rw [h5] at g5; cases g5
  rw [h6] at g6; cases g6
  rfl

/-- decides `Decrypts` -/
def decryptsOk (C : Crypto) (i : Interest) (r : RequestState) (pt : Bytes) : Bool :=
  match i.params with
  | none => false
  | some b =>
    match parse b.val with
    | .ok es =>
      match getElem es T.EncryptedPayload, getElem es T.InitializationVector, getElem es T.AuthenticationTag with
      | .ok ct, .ok iv, .ok tag => decide (C.aesDec r.encryptionKey iv.val r.requestId ct.val tag.val = some pt)
      | _, _, _ => false
    | _ => false

theorem decryptsOk_sound {r : RequestState} {pt : Bytes} (h : decryptsOk C i r pt = true) : Decrypts C i r pt := by
  unfold decryptsOk at h
  split at h
  · cases h
  · rename_i b hb
    split at h
    · rename_i es hes
      split at h
      · rename_i ct iv tag h1 h2 h3
        exact ⟨b, es, ct, iv, tag, hb, hes, h1, h2, h3, of_decide_eq_true h⟩
      · cases h
    · cases h

end Ndncert
