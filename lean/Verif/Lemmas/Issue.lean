import Verif.Lemmas.CaReply
import Verif.Spec.History
import Verif.Lemmas.ChallengeWire

namespace Ndncert

variable {σ : Type} {C : Crypto} {S : StoreI σ} {Inv : σ → Prop} {cfg : CaConfig}

/-- the effects of a step are among those of the handler -/
theorem effects_handle {n : Step σ} (he : n.effects = (n.event.run C S cfg n.pre).1) {x : Effect} (hx : x ∈ n.effects) :
    ∃ m env, n.Handles m env ∧ x ∈ (handle C S cfg n.pre m env).effects := by
  rcases run_effects C S cfg n.pre n.event with ⟨_, h⟩ | ⟨m, env, k, hm, h⟩
  · rw [he, h] at hx; cases hx
  · rw [he, h] at hx
    exact ⟨m, env, hm, List.mem_of_mem_take hx⟩

/-- when a certificate is signed -/
theorem issue_case {s : CaState σ} {m : Msg} {env : Env} {c : Cert} (h : Effect.issue c ∈ (handle C S cfg s m env).effects) :
    ∃ i r div es k out, m = .challenge i ∧ Verified C S cfg s.store i env r ∧ Opened C i r div es k ∧
      ModCase C k env es { r with decryptionIv := div } out ∧ out.req.status = .pending ∧
      (r.requestType = .new ∨ r.requestType = .renew) ∧ issueCertificate C cfg env out.req = .ok c := by
  have newcase : ∀ ty i, (ty = .new ∨ ty = .revoke) →
      handle C S cfg s m env = onNewRenewRevoke C S cfg s.idKey s.store ty i env → False := by
    intro ty i hty hh
    have hc := onNew_cases C S cfg s.idKey s.store ty hty i env
    rw [← hh] at hc
    generalize handle C S cfg s m env = o at hc h
    cases hc <;> simp [acceptOutcome] at h
  cases m with
  | probe i =>
    exfalso
    have hh : handle C S cfg s (.probe i) env = onProbe C cfg i env := rfl
    rw [hh] at h
    unfold onProbe at h
    split at h
    · cases h
    · cases h
    · dsimp only at h
      split at h
      · cases h
      · cases h
      · split at h <;> simp [replyError] at h
  | new i => exact (newcase .new i (.inl rfl) rfl).elim
  | revoke i => exact (newcase .revoke i (.inr rfl) rfl).elim
  | challenge i =>
    have hc := onChallenge_cases C S cfg s.store i env
    have hh : handle C S cfg s (.challenge i) env = onChallenge C S cfg s.store i env := rfl
    rw [← hh] at hc
    generalize handle C S cfg s (.challenge i) env = o at hc h
    cases hc with
    | undefined u _ => cases h
    | noRequest info _ => simp at h
    | badSig r info _ _ => simp at h
    | reject r code info hv hcode => simp at h
    | early r t _ ht => cases h
    | continued r div es k' out r2 payload hv ho hmc hst henc => simp at h
    | contThrew r div es k' out t hv ho hmc hst ht => simp at h
    | issued r div es k' out c' r2 payload hv ho hmc hst hty hiss henc =>
      simp at h
      subst h
      exact ⟨i, r, div, es, k', out, rfl, hv, ho, hmc, hst, hty, hiss⟩
    | issueThrew r div es k' out c' t hv ho hmc hst hty hiss ht =>
      simp at h
      subst h
      exact ⟨i, r, div, es, k', out, rfl, hv, ho, hmc, hst, hty, hiss⟩
    | revoked r div es k' out r2 payload hv ho hmc hst hty henc => simp at h
    | revokeThrew r div es k' out t hv ho hmc hst hty ht => simp at h

/-- what a passed challenge means for the secret -/
theorem answered {k k' : ChalKind} {env env' : Env} {es : List Block} {r : RequestState} {div : Bytes} {out : ChalOut}
    {cs : ChallengeState} (hC : C.Lawful) (hc : InChallenge C r k env' cs) 
    (hm : ModCase C k' env es { r with decryptionIv := div } out) (hst : out.req.status = .pending) :
    Answered C env' k es ∧ ((k = .possession ∧ k' = .possession) ∨
      ((k = .pin ∨ k = .email) ∧ (k' = .pin ∨ k' = .email) ∧ env.now - cs.timestamp < k'.lifetime * nsPerSec)) := by
  cases hm with
  | error code info hcode => cases hst
  | start cstat secrets mails hs0 hsc => cases hst
  | wrong cs code given hns hk ha hg hne ht htr time => cases hst
  | code cs0 code hs hk ha hg ht =>
    have h1 : r.challengeState = some cs0 := ha.1
    rw [hc.state] at h1; cases h1
    cases hc.secret with
    | code _ _ hk0 hst0 hsec =>
      have h2 := ha.2.2
      rw [hsec] at h2
      have h3 : secretGet [(KEY_CODE, secretCode env'.word32)] KEY_CODE = .ok (secretCode env'.word32) := by
        simp [secretGet]
      have h2 := h3.symm.trans h2
      cases h2
      exact ⟨.code hk0 hg, .inr ⟨hk0, hk, ht⟩⟩
    | proof _ c anchors hst0 _ _ _ _ _ _ =>
      exfalso
      rcases ha.2.1 with h | h <;> rw [hst0] at h <;> revert h <;> decide
  | proof cs0 cred nonce p hs hk ha hg hl hv =>
    have h1 : r.challengeState = some cs0 := ha.1
    rw [hc.state] at h1; cases h1
    cases hc.secret with
    | code _ _ hk0 hst0 hsec =>
      exfalso
      have h2 := ha.2.1
      rcases hst0 with h | h <;> rw [h2] at h <;> revert h <;> decide
    | proof _ c anchors hst0 han hcert htr hdec _ hsec =>
      obtain ⟨_, _, ⟨w, d, h2, h3, h4⟩, h5⟩ := ha
      rw [hsec] at h2 h5
      have h6 : secretGetD [(KEY_NONCE, toHex env'.nonce), (KEY_CREDENTIAL, toHex c.wire.encode)] KEY_CREDENTIAL = toHex c.wire.encode := by
        rfl
      have h7 : secretGetD [(KEY_NONCE, toHex env'.nonce), (KEY_CREDENTIAL, toHex c.wire.encode)] KEY_NONCE = toHex env'.nonce := by
        rfl
      have h2 := (congrArg fromHex h6).symm.trans h2
      have h5 := (congrArg fromHex h7).symm.trans h5
      rw [fromHex_toHex] at h2 h5
      cases h2
      cases h5
      obtain ⟨d', hf, hd'⟩ := hdec
      have h8 := (hC.data_wire _ _ hd').1
      rw [h8, blockOfBytes_encode _ hf] at h3
      cases h3
      have h9 := hC.data_of_cert _ _ h4
      rw [hd'] at h9
      cases h9
      exact ⟨.proof rfl anchors _ p han (by rw [h8]; exact h4) hcert hg hv, .inl ⟨rfl, hk⟩⟩

theorem issueCertificate_reissues {env : Env} {r : RequestState} {c : Cert} (h : issueCertificate C cfg env r = .ok c) :
    Reissues C cfg env.version r.cert c := by
  unfold issueCertificate at h
  split at h
  · rename_i v content hv hc
    dsimp only at h
    cases h
    exact ⟨rfl, content, v, hc, rfl, hv, rfl, rfl, by simp⟩
  · cases h

/-- the whole history behind an issued certificate -/
structure IssuedBy (C : Crypto) (S : StoreI σ) (cfg : CaConfig) (h1 : List (Step σ)) (n : Step σ) (c : Cert) (i : Interest) (env : Env)
    (r : RequestState) (es : List Block) (k' : ChalKind) (ha : List (Step σ)) (m : Step σ) (hb1 : List (Step σ)) (m2 : Step σ)
    (hb2 : List (Step σ)) (i0 : Interest) (env0 : Env) (r0 : RequestState) (i2 : Interest) (env2 : Env) (r2 : RequestState)
    (k : ChalKind) : Prop where
  challenges : Challenges C S cfg n i env r es k'
  split : h1 = ha ++ m :: (hb1 ++ m2 :: hb2)
  accepts : AcceptsNew m i0 env0 r0
  policy : NewPolicy C cfg i0 env0 r0.cert
  same : SameRequest r0 r
  kept : Kept r.requestId (hb1 ++ m2 :: hb2)
  starts : StartsChallenge C S cfg m2 i2 env2 r2 k
  id2 : r2.requestId = r.requestId
  cert2 : r2.cert = r.cert
  answered : Answered C env2 k es
  kinds : (k = .possession ∧ k' = .possession) ∨ ((k = .pin ∨ k = .email) ∧ (k' = .pin ∨ k' = .email))
  time : (k = .pin ∨ k = .email) → ∃ cs, r.challengeState = some cs ∧ env.now - cs.timestamp < k'.lifetime * nsPerSec ∧
    TimeBound hb2 env2.nowStore cs ∧ 1 ≤ cs.remainingTries ∧
    ∃ env3, LastUpdate r.requestId (m2 :: hb2) env3 ∧ cs.timestamp < env3.nowStore + 1000
  reissues : Reissues C cfg env.version r.cert c

theorem issued_by (hC : C.Lawful) (hS : LawfulStore C S Inv) (hcfg : NameFits cfg.profile.caPrefix)
    {h : List (Step σ)} {s : CaState σ} (hx : Exec C S cfg h s) {h1 h2 : List (Step σ)} {n : Step σ} (hh : h = h1 ++ n :: h2)
    {c : Cert} (hc : Effect.issue c ∈ n.effects) :
    ∃ i env r es k' ha m hb1 m2 hb2 i0 env0 r0 i2 env2 r2 k,
      IssuedBy C S cfg h1 n c i env r es k' ha m hb1 m2 hb2 i0 env0 r0 i2 env2 r2 k := by
  obtain ⟨hx1, hwf, _, heff, _⟩ := hx.split h1 n h2 hh
  obtain ⟨msg, env, hmsg, hmem⟩ := effects_handle heff hc
  obtain ⟨i, r, div, es, k', out, rfl, hv, ho, hm, hst, hty, hiss⟩ := issue_case hmem
  obtain ⟨hmwf, hewf⟩ := hwf _ _ hmsg
  have hinv := (hx1.life hC hS hcfg).1
  have hau := (verified_authentic hS hinv (idFits_of_wf hmwf) hewf.stack).mp hv
  obtain ⟨ha, m, hb, ty, i0, env0, r0, rfl, hadd, hsame, hkept, hst0⟩ := hx1.pending hC hS hcfg hau.pending
  -- the request was created by NEW
  have hty0 : ty = .new := by
    obtain ⟨secret, hr0⟩ := hadd.state
    have h1 : r0.requestType = ty := by rw [hr0]; rfl
    have h2 := hsame.2.2.1
    rw [h1] at h2
    rcases hadd.type with h | h
    · exact h
    · rw [h] at h2
      rcases hty with h3 | h3 <;> rw [← h2] at h3 <;> cases h3
  subst hty0
  rcases hst0 with hfresh | ⟨hb1, m2, hb2, k, env2, cs, rfl, hstart, hin, htb, hlast⟩
  · exfalso
    cases hm with
    | error code info hcode => cases hst
    | start cstat secrets mails hs0 hsc => cases hst
    | wrong cs code given hns hk ha hg hne ht htr time => cases hst
    | code cs0 code hs hk ha hg ht => exact hs hfresh.1
    | proof cs0 cred nonce p hs hk ha hg hl hv => exact hs hfresh.1
  obtain ⟨hans, hkinds⟩ := answered hC hin hm hst
  obtain ⟨i2, r2, hm2, hv2, hc2, hid2, hbef, es2, hsel2⟩ := hstart.event
  obtain ⟨hx2, hwf2, _, _, _⟩ := hx1.split (ha ++ m :: hb1) m2 hb2 (by simp)
  have hinv2 := (hx2.life hC hS hcfg).1
  have hau2 := (verified_authentic hS hinv2 (idFits_of_wf (hwf2 _ _ hm2).1) hstart.wf.stack).mp hv2
  obtain ⟨mm, hmm, hreq⟩ := hadd.event
  have hmm' : mm = .new i0 := by
    cases mm <;> simp [Msg.request?] at hreq
    rw [hreq]
  subst hmm'
  obtain ⟨hpol1, hpol2, hpol3⟩ := hadd.new rfl
  refine ⟨i, env, r, es, k', ha, m, hb1, m2, hb2, i0, env0, r0, i2, env2, r2, k, ?_⟩
  exact
    { challenges := ⟨hmsg, hau, ho.selects⟩
      split := rfl
      accepts := ⟨hmm, hadd.effect⟩
      policy := ⟨hadd.submits, hadd.name, hpol1, hpol2, hpol3⟩
      same := hsame
      kept := hkept
      starts := ⟨⟨es2, hm2, hau2, hsel2⟩, hbef, by rw [hid2]; exact hstart.stored⟩
      id2 := hid2
      cert2 := hc2
      answered := hans
      kinds := by
        rcases hkinds with h | ⟨h1, h2, _⟩
        · exact .inl h
        · exact .inr ⟨h1, h2⟩
      time := by
        intro hk
        rcases hkinds with ⟨h, _⟩ | ⟨_, _, h⟩
        · subst h; rcases hk with hk | hk <;> cases hk
        · exact ⟨cs, hin.state, h, htb, hin.tries.1, hlast⟩
      reissues := by
        have := issueCertificate_reissues hiss
        have hcert : out.req.cert = r.cert := by
          cases hm <;> rfl
        rw [hcert] at this
        exact this }

/-- origin of a stored request: the step that created it is unique -/
theorem origin_unique {h1 h1' hb hb' : List (Step σ)} {m m' : Step σ} {r r' : RequestState} {id : RequestId}
    (heq : h1 ++ m :: hb = h1' ++ m' :: hb') (hr : Effect.dbAdd r ∈ m.effects) (hid : r.requestId = id) (hk : Kept id hb)
    (hr' : Effect.dbAdd r' ∈ m'.effects) (hid' : r'.requestId = id) (hk' : Kept id hb') : h1 = h1' ∧ m = m' ∧ hb = hb' := by
  rcases List.append_eq_append_iff.mp heq with ⟨l, h2, h3⟩ | ⟨l, h2, h3⟩
  · cases l with
    | nil => simp at h2 h3; exact ⟨h2.symm, h3.1, h3.2⟩
    | cons x l =>
      simp only [List.cons_append, List.cons.injEq] at h3
      exfalso
      have : m' ∈ hb := by rw [h3.2]; simp
      exact (hk m' this).2 r' hr' hid'
  · cases l with
    | nil => simp at h2 h3; exact ⟨h2, h3.1.symm, h3.2.symm⟩
    | cons x l =>
      simp only [List.cons_append, List.cons.injEq] at h3
      exfalso
      have : m ∈ hb' := by rw [h3.2]; simp
      exact (hk' m this).2 r hr hid

/-- a step adds at most one request -/
theorem add_unique {n : Step σ} (hwf : n.event.Wf cfg) (he : n.effects = (n.event.run C S cfg n.pre).1) {r r' : RequestState}
    (h : Effect.dbAdd r ∈ n.effects) (h' : Effect.dbAdd r' ∈ n.effects) : r = r' := by
  have hdb := step_db C S cfg n hwf he
  have h1 := (mem_dbOps (e := .dbAdd r) rfl).mpr h
  have h2 := (mem_dbOps (e := .dbAdd r') rfl).mpr h'
  generalize dbOps n.effects = d at hdb h1 h2
  cases hdb <;> simp at h1 h2
  rw [h1, h2]

end Ndncert
