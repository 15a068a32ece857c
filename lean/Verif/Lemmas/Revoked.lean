import Verif.Lemmas.Issue
import Verif.Lemmas.Server
import Verif.Spec.Revoked

namespace Ndncert

variable {σ : Type} {C : Crypto} {S : StoreI σ} {Inv : σ → Prop} {cfg : CaConfig}

/-- how a revocation is completed -/
theorem completes_case (hC : C.Lawful) (hS : LawfulStore C S Inv) (hcfg : NameFits cfg.profile.caPrefix)
    {h : List (Step σ)} {s : CaState σ} (hx : Exec C S cfg h s) {h1 h2 : List (Step σ)} {n : Step σ} (hh : h = h1 ++ n :: h2)
    {i : Interest} {env : Env} {r : RequestState} {d : Data} (hc : CompletesRevoke C S cfg n i env r d) :
    ∃ div es k out r2, Opened C i r div es k ∧ ModCase C k env es { r with decryptionIv := div } out ∧ out.req.status = .pending ∧
      TellsStatus C r d .success ∧ r2.status = .success ∧ r2.requestType = .revoke ∧ r2.cert = r.cert ∧
      (∃ j, n.effects = [.dbDelete r.requestId, .put d, .callback r2].take j) ∧
      (n.event.stops = false → n.effects = [.dbDelete r.requestId, .put d, .callback r2]) := by
  obtain ⟨hx1, hwf, _, heff, _⟩ := hx.split h1 n h2 hh
  obtain ⟨hmwf, hewf⟩ := hwf _ _ hc.handles
  have hinv := (hx1.life hC hS hcfg).1
  have hv := (verified_authentic hS hinv (idFits_of_wf hmwf) hewf.stack).mpr hc.authentic
  have hsame : ∀ {r'}, Verified C S cfg n.pre.store i env r' → r' = r := by
    intro r' h
    have h1 := h.found
    rw [hv.found] at h1
    cases h1; rfl
  have hfull : n.event.stops = false → n.effects = (onChallenge C S cfg n.pre.store i env).effects := by
    intro hs
    have hm := hc.handles
    unfold Step.Handles at hm
    cases he : n.event with
    | msg m env' =>
      rw [he] at hm heff
      cases hm
      exact heff
    | crash m env' k key => rw [he] at hs; cases hs
    | restart key => rw [he] at hs; cases hs
  have hrun : ∃ j, n.effects = (onChallenge C S cfg n.pre.store i env).effects.take j := by
    rcases run_effects C S cfg n.pre n.event with ⟨_, h⟩ | ⟨m, env', j, hm, h⟩
    · have := hc.removed
      rw [heff, h] at this
      cases this
    · have hm' : some (m, env') = some (Msg.challenge i, env) := hm.symm.trans hc.handles
      cases hm'
      exact ⟨j, heff.trans h⟩
  obtain ⟨j, hj⟩ := hrun
  have hdel := List.mem_of_mem_take (by rw [← hj]; exact hc.removed)
  have hput : Effect.put d ∈ (onChallenge C S cfg n.pre.store i env).effects :=
    List.mem_of_mem_take (by rw [← hj]; exact mem_sent.mp hc.replied)
  have hcase := onChallenge_cases C S cfg n.pre.store i env
  generalize onChallenge C S cfg n.pre.store i env = o at hcase hdel hput hj hfull
  cases hcase with
  | undefined u _ => cases hdel
  | noRequest info _ => simp at hdel
  | badSig r info _ _ => simp at hdel
  | reject r' code info hv' hcode =>
    simp at hput
    exact absurd ⟨hcode, info, hput⟩ (hc.noError code)
  | early r t _ ht => cases hdel
  | continued r' div es k' out r2 payload hv' ho hmc hst henc => simp at hdel
  | contThrew r' div es k' out t hv' ho hmc hst ht => simp at hdel
  | issued r' div es k' out c' r2 payload hv' ho hmc hst hty hiss henc =>
    rw [hsame hv', hc.type] at hty
    rcases hty with h | h <;> cases h
  | issueThrew r' div es k' out c' t hv' ho hmc hst hty hiss ht =>
    rw [hsame hv', hc.type] at hty
    rcases hty with h | h <;> cases h
  | revoked r' div es k' out r2 payload hv' ho hmc hst hty henc =>
    obtain rfl := hsame hv'
    simp at hput
    obtain ⟨hk1, hk2⟩ := hmc.req
    have h3 := tellsStatus (cfg := cfg) (name := i.name) (r0 := r') henc hk1 hk2
    obtain ⟨es', iv, _, hr2, _⟩ := challengeEncode_ok henc
    refine ⟨div, es, k', out, r2, ho, hmc, hst, by rw [hput]; exact h3, ?_, ?_, ?_, ⟨j, by rw [hj, hput]⟩, by rw [hput]; exact hfull⟩
    · rw [hr2]
    · rw [hr2]
      show out.req.requestType = _
      rw [← hty]
      cases hmc <;> rfl
    · rw [hr2]
      show out.req.cert = _
      cases hmc <;> rfl
  | revokeThrew r' div es k' out t hv' ho hmc hst hty ht => simp at hput

/-- when the status callback says that a revocation succeeded -/
theorem callback_revoked (hC : C.Lawful) (hS : LawfulStore C S Inv) (hcfg : NameFits cfg.profile.caPrefix)
    {h : List (Step σ)} {s : CaState σ} (hx : Exec C S cfg h s) {h1 h2 : List (Step σ)} {n : Step σ} (hh : h = h1 ++ n :: h2)
    {r' : RequestState} (hmem : Effect.callback r' ∈ n.effects) (hst : r'.status = .success) (hty : r'.requestType = .revoke) :
    ∃ i env r d, CompletesRevoke C S cfg n i env r d ∧ r'.cert = r.cert := by
  obtain ⟨hx1, hwf, _, heff, _⟩ := hx.split h1 n h2 hh
  have hinv := (hx1.life hC hS hcfg).1
  rcases run_effects C S cfg n.pre n.event with ⟨_, he⟩ | ⟨m, env, k, hm, he⟩
  · rw [heff, he] at hmem; cases hmem
  obtain ⟨hmwf, hewf⟩ := hwf _ _ hm
  have he := heff.trans he
  have hmem' : Effect.callback r' ∈ (handle C S cfg n.pre m env).effects := List.mem_of_mem_take (by rw [← he]; exact hmem)
  have newcase : ∀ ty i, (ty = .new ∨ ty = .revoke) →
      handle C S cfg n.pre m env = onNewRenewRevoke C S cfg n.pre.idKey n.pre.store ty i env → False := by
    intro ty i hty hh
    have hc := onNew_cases C S cfg n.pre.idKey n.pre.store ty hty i env
    rw [← hh] at hc
    generalize handle C S cfg n.pre m env = o at hc hmem'
    cases hc <;> simp [acceptOutcome] at hmem'
    rw [hmem'] at hst
    cases hst
  cases m with
  | probe i =>
    exfalso
    have hh : handle C S cfg n.pre (.probe i) env = onProbe C cfg i env := rfl
    rw [hh] at hmem'
    unfold onProbe at hmem'
    split at hmem'
    · cases hmem'
    · cases hmem'
    · dsimp only at hmem'
      split at hmem'
      · cases hmem'
      · cases hmem'
      · split at hmem' <;> simp [replyError] at hmem'
  | new i => exact (newcase .new i (.inl rfl) rfl).elim
  | revoke i => exact (newcase .revoke i (.inr rfl) rfl).elim
  | challenge i =>
    have hc := onChallenge_cases C S cfg n.pre.store i env
    have hh : handle C S cfg n.pre (.challenge i) env = onChallenge C S cfg n.pre.store i env := rfl
    rw [← hh] at hc
    generalize handle C S cfg n.pre (.challenge i) env = o at hc hmem' he
    cases hc with
    | undefined u _ => cases hmem'
    | noRequest info _ => simp at hmem'
    | badSig r info _ _ => simp at hmem'
    | reject r code info hv hcode => simp at hmem'
    | early r t _ ht => cases hmem'
    | continued r div es k' out r2 payload hv ho hmc hst' henc =>
      simp at hmem'
      obtain ⟨_, _, _, hr2, _⟩ := challengeEncode_ok henc
      rw [hmem', hr2] at hst
      have : out.req.status = .success := hst
      rw [hst'] at this
      cases this
    | contThrew r div es k' out t hv ho hmc hst ht => simp at hmem'
    | issued r div es k' out c' r2 payload hv ho hmc hst' hty' hiss henc =>
      simp at hmem'
      obtain ⟨_, _, _, hr2, _⟩ := challengeEncode_ok henc
      rw [hmem', hr2] at hty
      have h1 : out.req.requestType = .revoke := hty
      have h2 : out.req.requestType = r.requestType := by cases hmc <;> rfl
      rw [← h2, h1] at hty'
      rcases hty' with h | h <;> cases h
    | issueThrew r div es k' out c' t hv ho hmc hst hty hiss ht => simp at hmem'
    | revoked r div es k' out r2 payload hv ho hmc hst' hty' henc =>
      simp at hmem'
      obtain ⟨_, _, _, hr2, _⟩ := challengeEncode_ok henc
      have hall : n.effects = [.dbDelete r.requestId, .put (mkData C cfg.profile.caPrefix i.name payload), .callback r2] := by
        rw [he] at hmem ⊢
        match k with
        | 0 => simp at hmem
        | 1 => simp at hmem
        | 2 => simp at hmem
        | k + 3 => simp
      refine ⟨i, env, r, mkData C cfg.profile.caPrefix i.name payload,
        ⟨hm, (verified_authentic hS hinv (idFits_of_wf hmwf) hewf.stack).mp hv, hty', by rw [hall]; simp, mem_sent.mpr (by rw [hall]; simp),
          fun code hcode => challengeEncode_not_error henc hcode⟩, ?_⟩
      rw [hmem', hr2]
      show out.req.cert = _
      cases hmc <;> rfl
    | revokeThrew r div es k' out t hv ho hmc hst hty ht => simp at hmem'

/-- the state a history ends in -/
theorem exec_ends {h : List (Step σ)} {n : Step σ} {s : CaState σ} (hx : Exec C S cfg (h ++ [n]) s) : s = (n.event.run C S cfg n.pre).2 := by
  generalize hh : h ++ [n] = h' at hx
  cases hx with
  | init idKey => simp at hh
  | step e prev wf possible =>
    have := (List.append_inj' hh rfl).2
    simp only [List.cons.injEq, and_true] at this
    subst this
    rfl

end Ndncert
