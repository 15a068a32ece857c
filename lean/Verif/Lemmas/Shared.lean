import Verif.Model.Shared
import Verif.Lemmas.Count

namespace Ndncert

variable {σ : Type} {C : Crypto} {S : StoreI σ} {Inv : σ → Prop}

/-- none of the steps removes the request with this id or creates another one with it -/
def SharedKept (id : RequestId) (h : List (Served σ)) : Prop := Kept id (h.map Served.step)

/-- everything known about a request stored by one of the CAs -/
def SharedPending (C : Crypto) (S : StoreI σ) (h : List (Served σ)) (r : RequestState) : Prop :=
  ∃ h1 n h2 ty i env r0, h = h1 ++ n :: h2 ∧ AddedBy C S n.cfg n.step ty i env r0 ∧ SameRequest r0 r ∧
    SharedKept r.requestId h2 ∧
    (Fresh r ∨ ∃ ha m hb k env' cs, h2 = ha ++ m :: hb ∧ Starts C S m.cfg m.step r.cert r.requestId k env' ∧ InChallenge C r k env' cs)

theorem SharedExec.split {h : List (Served σ)} {st : σ} (hx : SharedExec C S h st) : ∀ h1 n h2, h = h1 ++ n :: h2 →
    SharedExec C S h1 n.step.pre.store ∧ n.step.event.Wf n.cfg ∧ NameFits n.cfg.profile.caPrefix ∧
      n.step.effects = (n.step.event.run C S n.cfg n.step.pre).1 := by
  induction hx with
  | init => intro h1 n h2 h; simp at h
  | @step h st cfg idKey e prev wf fits possible ih =>
    intro h1 n h2 hh
    rcases List.eq_nil_or_concat h2 with rfl | ⟨h2', x, rfl⟩
    · obtain ⟨rfl, h3⟩ := List.append_inj' hh rfl
      simp only [List.cons.injEq, and_true] at h3
      subst h3
      exact ⟨prev, wf, fits, rfl⟩
    · rw [List.concat_eq_append, ← List.cons_append, ← List.append_assoc] at hh
      obtain ⟨h3, _⟩ := List.append_inj' hh rfl
      exact ih h1 n h2' h3

theorem SharedPending.kept {h : List (Served σ)} {r : RequestState} (hp : SharedPending C S h r) (n : Served σ)
    (hk : n.step.touches r.requestId = false) : SharedPending C S (h ++ [n]) r := by
  obtain ⟨h1, m, h2, ty, i, env, r0, rfl, ha, hs, hn, hst⟩ := hp
  refine ⟨h1, m, h2 ++ [n], ty, i, env, r0, by simp, ha, hs, ?_, ?_⟩
  · intro x hx
    rw [List.map_append] at hx
    rcases List.mem_append.mp hx with hx | hx
    · exact hn x hx
    · simp only [List.map_cons, List.map_nil, List.mem_singleton] at hx
      subst hx
      unfold Step.touches at hk
      rw [List.any_eq_false] at hk
      constructor
      · intro hmem; exact hk _ hmem (by simp [Effect.touches])
      · intro r' hmem heq; exact hk _ hmem (by simp [Effect.touches, heq])
  · rcases hst with hst | ⟨ha, x, hb, k, env', cs, rfl, h3, h4⟩
    · exact .inl hst
    · exact .inr ⟨ha, x, hb ++ [n], k, env', cs, by simp, h3, h4⟩

theorem SharedPending.updated {h : List (Served σ)} {n : Served σ} {i : Interest} {env : Env} {k : ChalKind} {es : List Block}
    {out : ChalOut} {r0 r1 r : RequestState} (hp : SharedPending C S h r0) (hd : dbOps n.step.effects = [.dbUpdate r1])
    (hu : UpdatedBy C S n.cfg n.step i env k es out r0 r1) (hsr : SameRequest r0 r1) (hs : SameStored r1 r) :
    SharedPending C S (h ++ [n]) r := by
  obtain ⟨h1, m, h2, ty, i', env', r00, rfl, ha, hs0, hn, hst⟩ := hp
  have hid : r0.requestId = r.requestId := hsr.1.trans hs.fields.1
  have hcert : r0.cert = r.cert := hsr.2.2.2.1.trans hs.fields.2.2.2.1
  obtain ⟨div, ho, hm⟩ := hu.module
  obtain ⟨payload, henc⟩ := hu.encode
  refine ⟨h1, m, h2 ++ [n], ty, i', env', r00, by simp, ha, (hs0.trans hsr).trans hs.sameRequest, ?_, ?_⟩
  · intro x hx
    rw [List.map_append] at hx
    rcases List.mem_append.mp hx with hx | hx
    · rw [← hid]; exact hn x hx
    · simp only [List.map_cons, List.map_nil, List.mem_singleton] at hx
      subst hx
      constructor
      · intro hmem
        have : Effect.dbDelete r.requestId ∈ dbOps n.step.effects := (mem_dbOps rfl).mpr hmem
        rw [hd] at this; simp at this
      · intro r' hmem
        have : Effect.dbAdd r' ∈ dbOps n.step.effects := (mem_dbOps rfl).mpr hmem
        rw [hd] at this; simp at this
  · rcases hst with hst | ⟨ha, x, hb, k0, env0, cs0, rfl, h3, h4⟩
    · obtain ⟨cs, h5, _, h6⟩ := start_inChallenge hu.wf hst ho hm hu.status henc hs
      refine .inr ⟨h2, n, [], k, env, cs, rfl, ?_, h5⟩
      exact ⟨hu.wf, ⟨i, r0, hu.event, hu.verified, hcert, hid, hst.1, es, ho.selects⟩, r1, hu.effect, hsr.1.symm.trans hid, h6⟩
    · obtain ⟨cs, h5, _⟩ := again_inChallenge hu.wf h4 ho hm hu.status henc hs
      exact .inr ⟨ha, x, hb ++ [n], k0, env0, cs, by simp, by rw [← hcert, ← hid]; exact h3, h5⟩

/-- every request stored by any of the CAs has such a past -/
theorem SharedExec.pending (hC : C.Lawful) (hS : LawfulStore C S Inv) {h : List (Served σ)} {st : σ} (hx : SharedExec C S h st) :
    Inv st ∧ ∀ id r, S.view st id = some r → SharedPending C S h r := by
  induction hx with
  | init =>
    refine ⟨hS.empty_inv, ?_⟩
    intro id r h
    rw [hS.empty_view] at h
    cases h
  | @step h st cfg idKey e prev wf fits possible ih =>
    obtain ⟨hi, ih⟩ := ih
    have he : (⟨⟨st, idKey⟩, e, (e.run C S cfg ⟨st, idKey⟩).1⟩ : Step σ).effects = (e.run C S cfg ⟨st, idKey⟩).1 := rfl
    generalize hn : (⟨⟨st, idKey⟩, e, (e.run C S cfg ⟨st, idKey⟩).1⟩ : Step σ) = n at *
    have hpre : n.pre = ⟨st, idKey⟩ := by rw [← hn]
    have hev : n.event = e := by rw [← hn]
    rw [← hpre, ← hev] at he ⊢
    have hi' : Inv n.pre.store := by rw [hpre]; exact hi
    obtain ⟨hinv, hvc⟩ := step_view hC hS fits hi' (by rw [hev]; exact wf) he
    obtain ⟨hinv', hview⟩ := run_view (cfg := cfg) hS he hinv
    refine ⟨hinv', ?_⟩
    intro id r hr
    have hr' : S.view (n.afterStore S) id = some r := by
      rcases hview with h1 | h1
      · rw [← h1]; exact hr
      · rw [h1] at hr; cases hr
    clear hview hr
    have ih' : ∀ id r, S.view n.pre.store id = some r → r.requestId = id ∧ SharedPending C S h r := by
      intro id r hv
      exact ⟨hS.get_id _ _ _ hi' hv, ih id r (by rw [hpre] at hv; exact hv)⟩
    have untouched : ∀ {id r' op}, dbOps n.effects = [op] → S.view n.pre.store id = some r' → op.touches id = false →
        SharedPending C S (h ++ [⟨cfg, n⟩]) r' := by
      intro id r' op hd hv ht
      obtain ⟨hid, hl⟩ := ih' _ _ hv
      refine hl.kept _ ?_
      show n.touches r'.requestId = false
      rw [touches_of_dbOps, hd, hid]
      simpa using ht
    cases hvc with
    | same h0 hsame =>
      rw [hsame] at hr'
      obtain ⟨hid, hl⟩ := ih' _ _ hr'
      exact hl.kept _ (by show n.touches _ = false; rw [touches_of_dbOps, h0]; rfl)
    | added ty i env r0 hd ha h0 hv =>
      rw [hv] at hr'
      split at hr'
      · cases hr'; exact ⟨h, ⟨cfg, n⟩, [], ty, i, env, r, rfl, ha, .refl _, by intro x hx; simp at hx, .inl (fresh_of_added ha)⟩
      · rename_i hne
        exact untouched hd hr' (by simpa [Effect.touches] using fun h => hne h.symm)
    | updated i env k es out r0 r1 r' hd hu h0 hs hv =>
      rw [hv] at hr'
      split at hr'
      · cases hr'
        obtain ⟨hid, hl⟩ := ih' _ _ h0
        obtain ⟨div, ho, hm⟩ := hu.module
        obtain ⟨payload, henc⟩ := hu.encode
        exact hl.updated (n := ⟨cfg, n⟩) hd hu (sameRequest_challenge hm hu.status henc) hs
      · rename_i hne
        exact untouched hd hr' (by simpa [Effect.touches] using fun h => hne h.symm)
    | deleted i env r0 hd hev' hv' h0 hv =>
      rw [hv] at hr'
      split at hr'
      · cases hr'
      · rename_i hne
        exact untouched hd hr' (by simpa [Effect.touches] using fun h => hne h.symm)

/-- the whole history behind a certificate issued by one of the CAs -/
theorem shared_issued_by (hC : C.Lawful) (hS : LawfulStore C S Inv) {h : List (Served σ)} {st : σ} (hx : SharedExec C S h st)
    {h1 h2 : List (Served σ)} {n : Served σ} (hh : h = h1 ++ n :: h2) {c : Cert} (hc : Effect.issue c ∈ n.step.effects) :
    ∃ i env r es k' ha m hb1 m2 hb2 i0 env0 r0 i2 env2 r2 k,
      Challenges C S n.cfg n.step i env r es k' ∧ h1 = ha ++ m :: (hb1 ++ m2 :: hb2) ∧ AcceptsNew m.step i0 env0 r0 ∧
      NewPolicy C m.cfg i0 env0 r0.cert ∧ SameRequest r0 r ∧ SharedKept r.requestId (hb1 ++ m2 :: hb2) ∧
      StartsChallenge C S m2.cfg m2.step i2 env2 r2 k ∧ r2.requestId = r.requestId ∧ r2.cert = r.cert ∧ Answered C env2 k es ∧
      Reissues C n.cfg env.version r.cert c := by
  obtain ⟨hx1, hwf, _, heff⟩ := hx.split h1 n h2 hh
  obtain ⟨msg, env, hmsg, hmem⟩ := effects_handle heff hc
  obtain ⟨i, r, div, es, k', out, rfl, hv, ho, hm, hst, hty, hiss⟩ := issue_case hmem
  obtain ⟨hmwf, hewf⟩ := hwf _ _ hmsg
  obtain ⟨hinv, hpend⟩ := hx1.pending hC hS
  have hau := (verified_authentic hS hinv (idFits_of_wf hmwf) hewf.stack).mp hv
  obtain ⟨ha, m, hb, ty, i0, env0, r0, rfl, hadd, hsame, hkept, hst0⟩ := hpend _ _ hau.pending
  have hty0 : ty = .new := by
    obtain ⟨secret, hr0⟩ := hadd.state
    have h1 : r0.requestType = ty := by rw [hr0]; rfl
    have h2 := hsame.2.2.1
    rw [h1] at h2
    rcases hadd.type with h | h
    · exact h
    · rw [h] at h2
      rcases hty with h3 | h3 <;> rw [← h2] at h3 <;> cases h3
  subst hty0
  rcases hst0 with hfresh | ⟨hb1, m2, hb2, k, env2, cs, rfl, hstart, hin⟩
  · exfalso
    cases hm with
    | error code info hcode => cases hst
    | start cstat secrets mails hs0 hsc => cases hst
    | wrong cs code given hns hk ha hg hne ht htr time => cases hst
    | code cs0 code hs hk ha hg ht => exact hs hfresh.1
    | proof cs0 cred nonce p hs hk ha hg hl hv => exact hs hfresh.1
  obtain ⟨hans, hkinds⟩ := answered hC hin hm hst
  obtain ⟨i2, r2, hm2, hv2, hc2, hid2, hbef, es2, hsel2⟩ := hstart.event
  obtain ⟨hx2, hwf2, _, _⟩ := hx1.split (ha ++ m :: hb1) m2 hb2 (by simp)
  have hinv2 := (hx2.pending hC hS).1
  have hau2 := (verified_authentic hS hinv2 (idFits_of_wf (hwf2 _ _ hm2).1) hstart.wf.stack).mp hv2
  obtain ⟨mm, hmm, hreq⟩ := hadd.event
  have hmm' : mm = .new i0 := by
    cases mm <;> simp [Msg.request?] at hreq
    rw [hreq]
  subst hmm'
  obtain ⟨hpol1, hpol2, hpol3⟩ := hadd.new rfl
  refine ⟨i, env, r, es, k', ha, m, hb1, m2, hb2, i0, env0, r0, i2, env2, r2, k, ⟨hmsg, hau, ho.selects⟩, rfl, ⟨hmm, hadd.effect⟩,
    ⟨hadd.submits, hadd.name, hpol1, hpol2, hpol3⟩, hsame, hkept, ⟨⟨es2, hm2, hau2, hsel2⟩, hbef, by rw [hid2]; exact hstart.stored⟩,
    hid2, hc2, hans, ?_⟩
  have := issueCertificate_reissues hiss
  have hcert : out.req.cert = r.cert := by
    cases hm <;> rfl
  rw [hcert] at this
  exact this

/-- requests that can still lead to a certificate, of all CAs together -/
theorem SharedExec.count (hC : C.Lawful) (hS : LawfulStore C S Inv) {h : List (Served σ)} {st : σ} (hx : SharedExec C S h st) :
    ∃ l : List RequestId, (∀ id r, S.view st id = some r → r.requestType = .new → id ∈ l) ∧
      (handedOut (h.map Served.step)).length + l.length ≤ ((h.map Served.step).filter Step.acceptsNew).length := by
  induction hx with
  | init =>
    refine ⟨[], ?_, by simp [handedOut]⟩
    intro id r h
    rw [hS.empty_view] at h
    cases h
  | @step h0 st cfg idKey e prev wf fits possible ih =>
    obtain ⟨l, hl, hle⟩ := ih
    rw [List.map_append]
    show ∃ l : List RequestId, _ ∧ (handedOut (h0.map Served.step ++ [(⟨⟨st, idKey⟩, e, (e.run C S cfg ⟨st, idKey⟩).1⟩ : Step σ)])).length + l.length ≤
      ((h0.map Served.step ++ [(⟨⟨st, idKey⟩, e, (e.run C S cfg ⟨st, idKey⟩).1⟩ : Step σ)]).filter Step.acceptsNew).length
    have hpend : ∀ id r, S.view st id = some r → r.requestType = .new ∨ r.requestType = .revoke := by
      intro id r hv
      obtain ⟨_, _, _, ty, _, _, r0, _, hadd, hsame, _⟩ := (prev.pending hC hS).2 _ _ hv
      obtain ⟨secret, hr0⟩ := hadd.state
      have h1 : r0.requestType = ty := by rw [hr0]; rfl
      rw [← hsame.2.2.1, h1]
      exact hadd.type
    have hi := (prev.pending hC hS).1
    generalize h0.map Served.step = h at hle ⊢
    exact count_step hC hS fits wf hi hl hpend hle

end Ndncert
