import Verif.Props.CaExec
import Verif.Props.CaNew
import Verif.Props.Server
import Verif.Lemmas.Revoked

/-! # Completed revocations (C137, C138) -/

namespace Ndncert.Props
open Ndncert

variable {σ : Type} {C : Crypto} {S : StoreI σ} {Inv : σ → Prop} {cfg : CaConfig}

/-- C137: whenever the CA completes a revocation in a step `n`,
* an earlier step `m` accepted a REVOKE for this certificate, which satisfied the name policy and verified under the certificate of the CA of that
  time, which was valid;
* the request was neither removed nor replaced since;
* a later step `m2` started a challenge `k` for it, and the CHALLENGE in step `n`, which verifies under the key of the certificate, answered it;
* the reply says so, and all the CA does is to remove the request, to reply and to call the status callback. -/
theorem C137_revoked_only_after (hC : C.Lawful) (hS : LawfulStore C S Inv) (hcfg : NameFits cfg.profile.caPrefix)
    {h : List (Step σ)} {s : CaState σ} (hx : Exec C S cfg h s) {h1 h2 : List (Step σ)} {n : Step σ} (hh : h = h1 ++ n :: h2)
    {i : Interest} {env : Env} {r : RequestState} {d : Data} (hc : CompletesRevoke C S cfg n i env r d) :
    (∃ ha m hb i0 env0 r0, h1 = ha ++ m :: hb ∧ AcceptsRevoke m i0 env0 r0 ∧ r0.requestId = r.requestId ∧ r0.cert = r.cert ∧
      (∃ pub, Submits C .revoke i0 pub r.cert) ∧ NamePolicy cfg.profile r.cert ∧ CaCertValid env0 ∧ C.verifyCert r.cert env0.caCert = true ∧
      Kept r.requestId hb ∧
      ∃ hb1 m2 hb2 i2 env2 r2 k es k', hb = hb1 ++ m2 :: hb2 ∧ StartsChallenge C S cfg m2 i2 env2 r2 k ∧
        r2.requestId = r.requestId ∧ r2.cert = r.cert ∧ Challenges C S cfg n i env r es k' ∧ Answered C env2 k es) ∧
    TellsStatus C r d .success ∧
    ∃ r', r'.status = .success ∧ r'.requestType = .revoke ∧ r'.cert = r.cert ∧ ∃ j, n.effects = [.dbDelete r.requestId, .put d, .callback r'].take j := by
  obtain ⟨div, es, k', out, r', ho, hm, hst, htell, g1, g2, g3, hj, _⟩ := completes_case hC hS hcfg hx hh hc
  refine ⟨?_, htell, r', g1, g2, g3, hj⟩
  obtain ⟨hx1, hwf, _, heff, _⟩ := hx.split h1 n h2 hh
  obtain ⟨ha, m, hb, ty, i0, env0, r0, rfl, hadd, hsame, hkept, hst0⟩ := hx1.pending hC hS hcfg hc.authentic.pending
  have hty0 : ty = .revoke := by
    obtain ⟨secret, hr0⟩ := hadd.state
    have h1 : r0.requestType = ty := by rw [hr0]; rfl
    rw [← h1, hsame.2.2.1, hc.type]
  subst hty0
  rcases hst0 with hfresh | ⟨hb1, m2, hb2, k, env2, cs, rfl, hstart, hin, _, _⟩
  · exfalso
    cases hm with
    | error code info hcode => cases hst
    | start cstat secrets mails hs0 hsc => cases hst
    | wrong cs code given hns hk ha hg hne ht htr time => cases hst
    | code cs0 code hs hk ha hg ht => exact hs hfresh.1
    | proof cs0 cred nonce p hs hk ha hg hl hv => exact hs hfresh.1
  obtain ⟨hans, _⟩ := answered hC hin hm hst
  obtain ⟨i2, r2, hm2, hv2, hc2, hid2, hbef, es2, hsel2⟩ := hstart.event
  obtain ⟨hx2, hwf2, _, _, _⟩ := hx1.split (ha ++ m :: hb1) m2 hb2 (by simp)
  have hinv2 := (hx2.life hC hS hcfg).1
  have hau2 := (verified_authentic hS hinv2 (idFits_of_wf (hwf2 _ _ hm2).1) hstart.wf.stack).mp hv2
  obtain ⟨mm, hmm, hreq⟩ := hadd.event
  have hmm' : mm = .revoke i0 := by
    cases mm <;> simp [Msg.request?] at hreq
    rw [hreq]
  subst hmm'
  have hcert : r0.cert = r.cert := hsame.2.2.2.1
  have hcav : CaCertValid env0 := by
    obtain ⟨_, _, _, heff0, _⟩ := hx1.split ha m (hb1 ++ m2 :: hb2) rfl
    obtain ⟨msg, env', hmsg, hmem⟩ := effects_handle heff0 hadd.effect
    have he : some (msg, env') = some (Msg.revoke i0, env0) := hmsg.symm.trans hmm
    cases he
    obtain ⟨_, _, _, _, hv, _⟩ := added_case C S cfg _ _ i0 env0 (.inr rfl) hmem
    exact hv
  refine ⟨ha, m, _, i0, env0, r0, rfl, ⟨hmm, hadd.effect⟩, hsame.1, hcert, ?_, ?_, hcav, ?_, hkept, hb1, m2, hb2, i2, env2, r2, k, es, k', rfl,
    ⟨⟨es2, hm2, hau2, hsel2⟩, hbef, by rw [hid2]; exact hstart.stored⟩, hid2, hc2, ⟨hc.handles, hc.authentic, ho.selects⟩, hans⟩
  · rw [← hcert]; exact hadd.submits
  · rw [← hcert]; exact hadd.name
  · rw [← hcert]; exact hadd.revoke rfl

/-! ## A run: a certificate is issued and then revoked -/

/-- the certificate issued in the run of the fixtures -/
def exHeld : Cert := (issued (Fix.ev4.run Fix.C Fix.S Fix.cfg Fix.st3).1).headD Fix.caCert
def exHeldRevoke : Interest := (genRevokeInterest Fix.C Fix.requester exHeld).getD Fix.blankInterest
def exHeld1 : Event := .msg (.revoke exHeldRevoke) (Fix.env 1004)
def exHeldSt1 : CaState Mem := (exHeld1.run Fix.C Fix.S Fix.cfg Fix.st4).2
/-- its holder, given the key pair that `genRevokeInterest` forgets -/
def exHolder : Request :=
  { (onNewResponse Fix.C Fix.requester (Fix.firstData (exHeld1.run Fix.C Fix.S Fix.cfg Fix.st4).1) (List.replicate 32 0)).1 with
      keyPair := some ⟨Fix.key, (Fix.C.keyPub Fix.key).getD []⟩ }
def exHeldGen1 : Request × Res Interest :=
  genChallengeInterest Fix.C (selectOrContinueChallenge exHolder (bytes! "pin")).1 [] (List.replicate 8 3)
def exHeld2 : Event := .msg (.challenge (Fix.interestOf' exHeldGen1.2)) (Fix.env 1005)
def exHeldSt2 : CaState Mem := (exHeld2.run Fix.C Fix.S Fix.cfg exHeldSt1).2
def exHolder2 : Request :=
  (onChallengeResponse Fix.C exHeldGen1.1 (Fix.firstData (exHeld2.run Fix.C Fix.S Fix.cfg exHeldSt1).1) (1005 * nsPerSec)).1
def exHeldGen2 : Request × Res Interest :=
  genChallengeInterest Fix.C (selectOrContinueChallenge exHolder2 (bytes! "pin")).1 [(KEY_CODE, secretCode (Fix.env 1005).word32)] (List.replicate 8 3)
/-- the right code -/
def exHeldCode : Interest := Fix.interestOf' exHeldGen2.2
def exHeld3 : Event := .msg (.challenge exHeldCode) (Fix.env 1006)

def exRevokedRun : List Event := Fix.pinRun ++ [exHeld1, exHeld2, exHeld3]

theorem exRevokedRun_ok : runsOk Fix.C Fix.S Fix.cfg Fix.st0 exRevokedRun = true := by decide +kernel

/-- the last step -/
def exRevokedLast : Step Mem := ⟨exHeldSt2, exHeld3, (exHeld3.run Fix.C Fix.S Fix.cfg exHeldSt2).1⟩

/-- the pending revocation before it -/
def exRevocation : RequestState := (Fix.S.view exHeldSt2.store exHolder.requestId).getD (newRequestState Fix.C Fix.cfg [] .new Fix.caCert [] [])
def exRevokedReply : Data := Fix.firstData exRevokedLast.effects

theorem exRevoked_hist : (runs Fix.C Fix.S Fix.cfg Fix.st0 exRevokedRun).1 = (runs Fix.C Fix.S Fix.cfg Fix.st0 exRevokedRun).1.take 6 ++ [exRevokedLast] := by
  unfold exRevokedRun Fix.pinRun
  simp only [List.cons_append, List.nil_append]
  rw [hist_cons, hist_cons, hist_cons, hist_cons, hist_cons, hist_cons, hist_cons]
  simp only [runs, List.take, List.cons_append, List.nil_append]
  unfold exRevokedLast exHeldSt2 exHeldSt1 Fix.st4 Fix.st3 Fix.st2 Fix.st1
  rfl

theorem exRevoked_completes : CompletesRevoke Fix.C Fix.S Fix.cfg exRevokedLast exHeldCode (Fix.env 1006) exRevocation exRevokedReply where
  handles := rfl
  authentic := authenticOk_sound (by decide +kernel)
  type := by decide +kernel
  removed := by
    have h : exRevokedLast.effects.any (fun e => match e with | .dbDelete id => decide (id = exRevocation.requestId) | _ => false) = true := by
      decide +kernel
    rw [List.any_eq_true] at h
    obtain ⟨e, he, h⟩ := h
    cases e with
    | dbDelete id => rw [← of_decide_eq_true h]; exact he
    | _ => cases h
  replied := by decide +kernel
  noError := by
    rintro code ⟨_, info, h⟩
    have h1 : (exRevokedReply.content.val.head?) = some 157 := by decide +kernel
    rw [h] at h1
    revert h1
    have : varNumber 171 = [171] := by decide
    simp [errorEncode, mkBlock, encodeAll, Block.encode, nniBlock, this]

theorem exRevoked_exec : Exec Fix.C Fix.S Fix.cfg ((runs Fix.C Fix.S Fix.cfg Fix.st0 exRevokedRun).1.take 6 ++ [exRevokedLast])
    (runs Fix.C Fix.S Fix.cfg Fix.st0 exRevokedRun).2 := by
  rw [← exRevoked_hist]
  exact exec_of_runs exRevokedRun_ok

/-- the run meets the hypotheses of `C137_revoked_only_after`, and what is revoked was issued in it -/
example : (∃ h s h1 n i env r d, Exec Fix.C Fix.S Fix.cfg h s ∧ h = h1 ++ [n] ∧ CompletesRevoke Fix.C Fix.S Fix.cfg n i env r d) ∧
    exRevocation.cert = exHeld ∧ exHeld ≠ Fix.caCert :=
  ⟨⟨_, _, _, _, _, _, _, _, exRevoked_exec, rfl, exRevoked_completes⟩, by decide +kernel, by decide +kernel⟩

/-! ## C138 -/

/-- C138 is false: the certificate of the run is revoked, and the server still returns it when it is asked for it. -/
theorem C138_false : ¬ RevokedNotServed Fix.C Fix.S Fix.cfg := by
  intro H
  refine H _ _ [] _ exRevoked_exec _ _ _ _ exRevoked_completes (by simp) ⟨[], ⟨0, []⟩, []⟩ (fun _ => ⟨[], ⟨0, []⟩, []⟩) exHeld.name ?_
  rw [← exRevoked_hist]
  decide +kernel

/-- C138 is false also in its second part: the same REVOKE Interest is accepted again. -/
theorem C138_false_again : ¬ RevokedOnce Fix.C Fix.S Fix.cfg := by
  intro H
  have hs : ∃ pub, Submits Fix.C .revoke exHeldRevoke pub exRevocation.cert ∧
      Accepted (onNewRenewRevoke Fix.C Fix.S Fix.cfg (runs Fix.C Fix.S Fix.cfg Fix.st0 exRevokedRun).2.idKey
        (runs Fix.C Fix.S Fix.cfg Fix.st0 exRevokedRun).2.store .revoke exHeldRevoke (Fix.env 1007)) := by
    have h : (onNewRenewRevoke Fix.C Fix.S Fix.cfg (runs Fix.C Fix.S Fix.cfg Fix.st0 exRevokedRun).2.idKey
        (runs Fix.C Fix.S Fix.cfg Fix.st0 exRevokedRun).2.store .revoke exHeldRevoke (Fix.env 1007)).effects.any
          (fun e => match e with | .dbAdd r => decide (r.cert = exRevocation.cert) | _ => false) = true := by
      decide +kernel
    rw [List.any_eq_true] at h
    obtain ⟨e, he, h⟩ := h
    cases e with
    | dbAdd r =>
      obtain ⟨pub, _, _, hsub, _⟩ := added_case Fix.C Fix.S Fix.cfg _ _ exHeldRevoke (Fix.env 1007) (.inr rfl) he
      rw [of_decide_eq_true h] at hsub
      exact ⟨pub, hsub, r, he⟩
    | _ => cases h
  obtain ⟨pub, h1, h2⟩ := hs
  exact H _ _ [] _ exRevoked_exec _ _ _ _ exRevoked_completes _ _ pub h1 h2

/-- C138, what holds: the program around the CA is told. In a step that is not interrupted the status callback is called, once, with a request of
type REVOKE in status success and with the revoked certificate. And it is called like this in no other step.
Missing: that the CA or its server do anything with it (`C138_no_effect`). -/
theorem C138_told_partial (hC : C.Lawful) (hS : LawfulStore C S Inv) (hcfg : NameFits cfg.profile.caPrefix)
    {h : List (Step σ)} {s : CaState σ} (hx : Exec C S cfg h s) {h1 h2 : List (Step σ)} {n : Step σ} (hh : h = h1 ++ n :: h2) :
    (∀ i env r d, CompletesRevoke C S cfg n i env r d → n.event.stops = false →
      ∃ r', callbacks n.effects = [r'] ∧ r'.status = .success ∧ r'.requestType = .revoke ∧ r'.cert = r.cert) ∧
    ∀ r', .callback r' ∈ n.effects → r'.status = .success → r'.requestType = .revoke →
      ∃ i env r d, CompletesRevoke C S cfg n i env r d ∧ r'.cert = r.cert := by
  refine ⟨?_, ?_⟩
  · intro i env r d hc hs
    obtain ⟨_, _, _, _, r', _, _, _, _, g1, g2, g3, _, hall⟩ := completes_case hC hS hcfg hx hh hc
    exact ⟨r', by rw [hall hs]; rfl, g1, g2, g3⟩
  · intro r' hmem hst hty
    exact callback_revoked hC hS hcfg hx hh hmem hst hty

/-- C138: a completed revocation has no effect on the server, with or without repo: it serves and has written what it had before; and the storage
has, as before the REVOKE, no entry for it: the same REVOKE is accepted again by a CA of the same key for ids, as long as the certificate of the CA
is valid and verifies it. -/
theorem C138_no_effect (hC : C.Lawful) (hS : LawfulStore C S Inv) (hcfg : NameFits cfg.profile.caPrefix)
    {h : List (Step σ)} {n : Step σ} {s : CaState σ} (hx : Exec C S cfg (h ++ [n]) s)
    {i : Interest} {env : Env} {r : RequestState} {d : Data} (hc : CompletesRevoke C S cfg n i env r d) (hs : n.event.stops = false) :
    (∀ repo first next, Server.after repo first next (h ++ [n]) = Server.after repo first next h) ∧
    S.view s.store r.requestId = none ∧ (∀ id, id ≠ r.requestId → S.view s.store id = S.view n.pre.store id) ∧
    ∀ i' env' pub, r.requestId = idFor C s.idKey r.cert.name → Submits C .revoke i' pub r.cert → pub ≠ [] → CaCertValid env' →
      C.ecdhDerive env'.ecdhPriv pub ≠ none → C.verifyCert r.cert env'.caCert = true →
      Accepted (onNewRenewRevoke C S cfg s.idKey s.store .revoke i' env') := by
  obtain ⟨_, _, _, _, r', _, _, _, _, g1, g2, g3, _, hall⟩ := completes_case hC hS hcfg hx rfl hc
  have hall := hall hs
  obtain ⟨hx1, hwf, _, heff, _⟩ := hx.split h n [] rfl
  have hinv := (hx1.life hC hS hcfg).1
  have hst : s.store = S.delete n.pre.store r.requestId := by
    rw [exec_ends hx]
    cases he : n.event with
    | msg m env' =>
      rw [he] at heff
      have h1 : (handle C S cfg n.pre m env').effects = _ := heff.symm.trans hall
      simp only [Event.run, h1]
      rfl
    | crash m env' k key => rw [he] at hs; cases hs
    | restart key => rw [he] at hs; cases hs
  have hview := hS.delete_view n.pre.store r.requestId hinv
  rw [← hst] at hview
  have hnone : S.view s.store r.requestId = none := by rw [hview, if_pos rfl]
  refine ⟨?_, hnone, fun id hid => by rw [hview, if_neg hid], ?_⟩
  · intro repo first next
    have hstep : Server.after repo first next (h ++ [n]) = (Server.after repo first next h).step repo (next n) n.event n.effects := by
      unfold Server.after
      rw [List.foldl_append]
      rfl
    rw [hstep, step_eq, if_neg (by rw [hs]; decide), hall]
    show Server.onStatus repo _ r' = _
    unfold Server.onStatus
    rw [if_neg]
    rintro ⟨_, h⟩
    rw [g2] at h
    cases h
  · intro i' env' pub hid hsub hpub hca hder hver
    have hpol : NamePolicy cfg.profile r.cert := by
      obtain ⟨⟨_, _, _, _, _, _, _, _, _, _, _, h, _⟩, _⟩ := C137_revoked_only_after hC hS hcfg hx rfl hc
      exact h
    refine (C21_accepted_iff_policy C S cfg s.idKey s.store i' env' hC hS (hx.life hC hS hcfg).1 hcfg (.inr rfl)).mpr ?_
    intro q hq
    simp only [acceptanceChecks, List.cons_append, List.nil_append, List.mem_cons, List.not_mem_nil, or_false] at hq
    rcases hq with rfl | rfl | rfl | rfl | rfl | rfl | rfl
    · exact hca
    · exact ⟨pub, _, hsub⟩
    · exact ⟨pub, _, hsub, hpub⟩
    · exact ⟨pub, _, hsub, hder⟩
    · exact ⟨pub, _, hsub, hpol⟩
    · exact ⟨pub, _, hsub, hver⟩
    · exact ⟨pub, _, hsub, by rw [← hid]; exact hnone⟩

/-- the run meets the hypotheses of `C138_told_partial` and `C138_no_effect` -/
example : (∃ h n s i env r d, Exec Fix.C Fix.S Fix.cfg (h ++ [n]) s ∧ CompletesRevoke Fix.C Fix.S Fix.cfg n i env r d ∧ n.event.stops = false) ∧
    exRevocation.requestId = idFor Fix.C (runs Fix.C Fix.S Fix.cfg Fix.st0 exRevokedRun).2.idKey exRevocation.cert.name :=
  ⟨⟨_, _, _, _, _, _, _, exRevoked_exec, exRevoked_completes, rfl⟩, by decide +kernel⟩

end Ndncert.Props
