import Verif.Lemmas.Revoke
import Verif.Lemmas.RequestObject
import Verif.Props.Session
import Verif.Props.RequestObject

/-! # C119: revocation with the requester library -/

namespace Ndncert.Props

variable {σ : Type} {C : Crypto} {S : StoreI σ} {Inv : σ → Prop} {cfg : CaConfig}

/-! ## It cannot be carried through on an object that made no NEW Interest -/

/-- C119: an object on which no NEW Interest was made returns no CHALLENGE Interest, whatever else is called on it. -/
theorem C119_no_challenge (p : CaProfile) (ty : RequestType) (priv : Bytes) (id : RequestId) {h : List Called} {r : Request}
    (hx : ReqRun C (.create p ty priv id) h r) (hn : ∀ n ∈ h, ¬ n.MakesNew) : ∀ n ∈ h, ∀ i, ¬ n.SendsChallenge i := by
  intro n hm i hi
  obtain ⟨h1, h2, rfl⟩ := List.append_of_mem hm
  obtain ⟨r1, x1, _, e1, _⟩ := hx.split rfl
  obtain ⟨⟨params, rnd, hc⟩, hres⟩ := hi
  have hk := x1.noPair rfl (fun n hm => hn n (List.mem_append_left _ hm))
  rw [hres, hc] at e1
  obtain ⟨j, hj, _⟩ := Res.as_ok e1.symm
  obtain ⟨_, _, _, _, kp, _, _, _, hkp, _⟩ := genChallengeInterest_ok (Prod.ext rfl hj : genChallengeInterest C r1 params rnd = (_, .ok j))
  rw [hk] at hkp
  cases hkp

/-- REVOKE for a certificate issued by the CA, its reply, pin selected, and the CHALLENGE -/
def exRevokeCalls : List ReqCall :=
  [.genRevoke Fix.revCert, .onNew (Fix.firstData (Fix.rev1.run Fix.C Fix.S Fix.cfg Fix.st0).1) (List.replicate 32 0), .select (bytes! "pin"),
   .genChallenge [] (List.replicate 8 3)]

def exRevoker : Request := .create Fix.profile .revoke [1, 2] (List.replicate 8 0)

/-- C119 is false: with an object made for a revocation, the Interest for a certificate of the CA is made, the CA accepts it and the object
accepts the reply, and then no CHALLENGE Interest can be made: the call throws. -/
theorem C119_false : ReqRun Fix.C exRevoker (calls Fix.C exRevoker exRevokeCalls).1 (calls Fix.C exRevoker exRevokeCalls).2 ∧
    (calls Fix.C exRevoker exRevokeCalls).1.map (·.result) =
      [.ok (.interest Fix.revInterest), .ok (.challenges [bytes! "pin"]), .ok (.keys []), .exc .runtime] ∧
    Accepted (onNewRenewRevoke Fix.C Fix.S Fix.cfg Fix.st0.idKey Fix.st0.store .revoke Fix.revInterest Fix.env1) := by
  refine ⟨run_of_calls (cs := exRevokeCalls) (r := exRevoker) (C := Fix.C) .init (by decide +kernel), by decide +kernel, ?_⟩
  have hd : ((onNewRenewRevoke Fix.C Fix.S Fix.cfg Fix.st0.idKey Fix.st0.store .revoke Fix.revInterest Fix.env1).effects.any
    fun e => match e with | .dbAdd _ => true | _ => false) = true := by decide +kernel
  rw [List.any_eq_true] at hd
  obtain ⟨e, he, h⟩ := hd
  cases e with
  | dbAdd r => exact ⟨r, he⟩
  | _ => cases h

/-! ## With the key pair set -/

/-- wrong codes, then the right one -/
theorem guesses_revoke (hC : C.Honest) (hS : LawfulStore C S Inv) (hcfg : NameFits cfg.profile.caPrefix) {k : ChalKind} (hk : k = .pin ∨ k = .email)
    {pub code : Bytes} (hcode : code.length ≤ 8800) {tl : Turn} :
    ∀ (wrong : List (Bytes × Turn)) (x : Session σ) (r : RequestState) (n tries : Nat) (env : Env),
      Waiting C S Inv cfg x r pub n code tries env.nowStore → wrong.length < tries → tries ≤ 3 → n + tries * 1000 ≤ 4000 →
      (∀ w ∈ wrong, w.1 ≠ code ∧ w.1.length ≤ 8800) → InTime C cfg pub k env (wrong.map (·.2) ++ [tl]) → r.requestType = .revoke →
      challengeTurns C S cfg k.regName x (wrong ++ [(code, tl)]) = .died ∨
      ∃ y pre d r2, challengeTurns C S cfg k.regName x (wrong ++ [(code, tl)]) = .ok y ∧ y.requester.status = .success ∧
        issued y.done = issued x.done ∧ mailed y.done = mailed x.done ∧ S.view y.ca.store r.requestId = none ∧
        y.done = pre ++ [.dbDelete r.requestId, .put d, .callback r2] ∧ r2.status = .success ∧ r2.requestType = .revoke ∧ r2.cert = r.cert
  | [], x, r, n, tries, env, w, ht, ht3, hn, _, hin, hty => by
    obtain ⟨i1, i2, i3, _, i5, _⟩ := hin
    rw [← lifetime_ns] at i5
    obtain ⟨y, d, r2, t1, _, _, t3, t4, _, t6, t7, t8, t9⟩ := turn_revoked hC hS hcfg w (by omega) hk hcode i1 i2 i3 i5 hty
    by_cases hl : survives C S cfg x.ca tl.others = true
    · refine .inr ⟨y, x.done, d, r2, ?_, t4, ?_, ?_, t3, t6, t8, t9, t7⟩
      · rw [List.nil_append, turns_cons hl t1]
        rfl
      · rw [t6, issued_append]
        exact List.append_nil _
      · rw [t6, mailed_append]
        exact List.append_nil _
    · exact .inl (turns_dead hl)
  | (g, t) :: rest, x, r, n, tries, env, w, ht, ht3, hn, hall, hin, hty => by
    rw [List.map_cons, List.cons_append] at hin
    unfold InTime at hin
    obtain ⟨i1, i2, i3, i4, i5, i6⟩ := hin
    rw [← lifetime_ns] at i5
    obtain ⟨a1, a2⟩ := hall _ (List.mem_cons_self ..)
    have hlt : rest.length + 1 < tries := ht
    obtain ⟨m, rfl⟩ : ∃ m, tries = m + 2 := ⟨tries - 2, by omega⟩
    obtain ⟨y, r', t1, t2, t3, t4, t5⟩ := turn_wrong hC hS hcfg w ht3 (by omega) hk a1 a2 i1 i2 i3 i4 i5
    have l1 : rest.length < m + 1 := by omega
    have l2 : m + 1 ≤ 3 := by omega
    have l3 : n + 1000 + (m + 1) * 1000 ≤ 4000 := room hn
    rw [List.cons_append]
    by_cases hl : survives C S cfg x.ca t.others = true
    case neg => exact .inl (turns_dead hl)
    rw [turns_cons hl t1]
    rcases guesses_revoke hC hS hcfg hk hcode rest y r' (n + 1000) (m + 1) t.env t2 l1 l2 l3
      (fun w hw => hall w (List.mem_cons_of_mem _ hw)) i6 (by rw [← t3.2.2.1]; exact hty)
      with u | ⟨z, pre, d, r2, u1, u2, u3, u4, u5, u6, u7, u8, u9⟩
    · exact .inl u
    rw [← t3.1] at u5 u6
    exact .inr ⟨z, pre, d, r2, u1, u2, by rw [u3, t4], by rw [u4, t5], u5, u6, u7, u8, by rw [u9, t3.2.2.2.1]⟩

/-- C119, what holds: if the object has the key pair of the certificate - an earlier `genNewInterest` with that key on the same object sets it -
a requester whose revocation the CA's policy admits sends REVOKE, selects the pin challenge, types at most two wrong codes and then the code,
each in time, while the CA handles any messages of others. Unless one of these ends the CA process, nothing throws, every message is answered,
and at the end the requester's status is success and the request is no longer stored. All the CA does upon the right code is to delete the
request, to reply and to call the status callback; it signs nothing and keeps no record of the revocation. -/
theorem C119_pin_partial (hC : C.Honest) (hS : LawfulStore C S Inv) (hcfg : NameFits cfg.profile.caPrefix)
    {x : Session σ} (hi : Inv x.ca.store) {cert : Cert} {pub : Bytes} {stack : Bytes} (hs : stack.length = 32)
    {tn ts tl : Turn} {typed : Bytes} {wrong : List (Bytes × Turn)}
    (hn : tn.env.Wf ∧ tn.others = []) (ha : AdmissibleRevoke C S cfg x cert pub tn.env)
    (hst : Foreign C cfg pub ts.others ∧ ts.env.Wf ∧ ts.Wf ∧ ts.rnd ≠ ts.env.ivRnd)
    (hw : wrong.length ≤ 2 ∧ ∀ w ∈ wrong, w.1 ≠ secretCode ts.env.word32 ∧ w.1.length ≤ 8800)
    (ht : InTime C cfg pub .pin ts.env (wrong.map (·.2) ++ [tl])) :
    ∃ x1, revokeTurn C S cfg x cert stack tn = some (x1, cfg.profile.supportedChallenges) ∧
      (challengeTurns C S cfg (bytes! "pin") x1 ((typed, ts) :: wrong ++ [(secretCode ts.env.word32, tl)]) = .died ∨
      ∃ y pre d r2, challengeTurns C S cfg (bytes! "pin") x1 ((typed, ts) :: wrong ++ [(secretCode ts.env.word32, tl)]) = .ok y ∧
      y.requester.status = .success ∧ issued y.done = issued x.done ∧ mailed y.done = mailed x.done ∧
      S.view y.ca.store (idFor C x.ca.idKey cert.name) = none ∧
      y.done = pre ++ [.dbDelete (idFor C x.ca.idKey cert.name), .put d, .callback r2] ∧
      r2.status = .success ∧ r2.requestType = .revoke ∧ r2.cert.name = cert.name) := by
  obtain ⟨x1, r, a1, a2, a3, a4, a5, a6, a7, a8, a9⟩ := turn_revoke hC hS hcfg hi ha hn.1 hn.2 hs
  obtain ⟨x2, r', b1, b2, b3, b4, b5⟩ := turn_start_pin hC hS hcfg a2 hst.1 hst.2.1 hst.2.2.1 hst.2.2.2 typed
  have b1' : challengeTurn C S cfg x1 (bytes! "pin") typed ts = some x2 := b1
  refine ⟨x1, a1, ?_⟩
  rw [List.cons_append]
  by_cases hl : survives C S cfg x1.ca ts.others = true
  case neg => exact .inl (turns_dead hl)
  rw [turns_cons hl b1']
  rcases guesses_revoke hC hS hcfg (.inl rfl) (code_short hst.2.1) wrong x2 r' 1000 3 ts.env b2
    (by omega) (by omega) (by decide) hw.2 ht (by rw [← b3.2.2.1]; exact a3) with u | ⟨y, pre, d, r2, c1, c2, c3, c4, c5, c6, c7, c8, c9⟩
  · exact .inl u
  rw [← b3.1, a5] at c5 c6
  exact .inr ⟨y, pre, d, r2, c1, c2, by rw [c3, b4, a8], by rw [c4, b5, a9], c5, c6, c7, c8, by rw [c9, ← b3.2.2.2.1, a6]⟩

/-- C119, the same with the email challenge: exactly one mail is sent. -/
theorem C119_email_partial (hC : C.Honest) (hS : LawfulStore C S Inv) (hcfg : NameFits cfg.profile.caPrefix)
    {x : Session σ} (hi : Inv x.ca.store) {cert : Cert} {pub : Bytes} {stack : Bytes} (hs : stack.length = 32)
    {tn ts tl : Turn} {addr : Bytes} {wrong : List (Bytes × Turn)}
    (hn : tn.env.Wf ∧ tn.others = []) (ha : AdmissibleRevoke C S cfg x cert pub tn.env)
    (hst : Foreign C cfg pub ts.others ∧ ts.env.Wf ∧ ts.Wf ∧ ts.rnd ≠ ts.env.ivRnd)
    (haddr : addr.length ≤ 8800) (hscript : ts.env.spawnOk = true)
    (hw : wrong.length ≤ 2 ∧ ∀ w ∈ wrong, w.1 ≠ secretCode ts.env.word32 ∧ w.1.length ≤ 8800)
    (ht : InTime C cfg pub .email ts.env (wrong.map (·.2) ++ [tl])) :
    ∃ x1, revokeTurn C S cfg x cert stack tn = some (x1, cfg.profile.supportedChallenges) ∧
      (challengeTurns C S cfg (bytes! "email") x1 ((addr, ts) :: wrong ++ [(secretCode ts.env.word32, tl)]) = .died ∨
      ∃ y pre d r2, challengeTurns C S cfg (bytes! "email") x1 ((addr, ts) :: wrong ++ [(secretCode ts.env.word32, tl)]) = .ok y ∧
      y.requester.status = .success ∧ issued y.done = issued x.done ∧
      mailed y.done = mailed x.done ++ [⟨addr, secretCode ts.env.word32, cfg.profile.caPrefix, cert.name⟩] ∧
      S.view y.ca.store (idFor C x.ca.idKey cert.name) = none ∧
      y.done = pre ++ [.dbDelete (idFor C x.ca.idKey cert.name), .put d, .callback r2] ∧
      r2.status = .success ∧ r2.requestType = .revoke ∧ r2.cert.name = cert.name) := by
  obtain ⟨x1, r, a1, a2, a3, a4, a5, a6, a7, a8, a9⟩ := turn_revoke hC hS hcfg hi ha hn.1 hn.2 hs
  have hid : r.cert.identity ≠ [] := by
    rw [← identityOf_eq, a6]
    intro h
    have := ha.name.2.2.1
    rw [h] at this
    exact absurd this (by simp)
  obtain ⟨x2, r', b1, b2, b3, b4, b5⟩ := turn_start_email hC hS hcfg a2 hst.1 hst.2.1 hst.2.2.1 hst.2.2.2 hscript hid haddr
  have b1' : challengeTurn C S cfg x1 (bytes! "email") addr ts = some x2 := b1
  refine ⟨x1, a1, ?_⟩
  rw [List.cons_append]
  by_cases hl : survives C S cfg x1.ca ts.others = true
  case neg => exact .inl (turns_dead hl)
  rw [turns_cons hl b1']
  rcases guesses_revoke hC hS hcfg (.inr rfl) (code_short hst.2.1) wrong x2 r' 1000 3 ts.env b2
    (by omega) (by omega) (by decide) hw.2 ht (by rw [← b3.2.2.1]; exact a3) with u | ⟨y, pre, d, r2, c1, c2, c3, c4, c5, c6, c7, c8, c9⟩
  · exact .inl u
  rw [← b3.1, a5] at c5 c6
  exact .inr ⟨y, pre, d, r2, c1, c2, by rw [c3, b4, a8], by rw [c4, b5, a9, a4, a6], c5, c6, c7, c8, by rw [c9, ← b3.2.2.2.1, a6]⟩

/-! ## The hypotheses hold of a concrete session

The object made a NEW Interest for the key of the certificate, which was never sent. -/

def exRevoking : Session Mem := ⟨((ReqCall.genNew Fix.key 0 (10 ^ 12) ⟨54, [2]⟩).run Fix.C exRevoker).1, Fix.st0, []⟩

def exRevokeOk : Bool := ((genRevokeInterest Fix.C exRevoking.requester Fix.revCert).getD Fix.blankInterest).params.all fun b => decide (b.val.length < 2 ^ 64)

theorem exRevokeOk_true : exRevokeOk = true := by decide +kernel

theorem exAdmissibleRevoke : AdmissibleRevoke Fix.C Fix.S Fix.cfg exRevoking Fix.revCert exPub Fix.env1 where
  pre := by decide +kernel
  caKey := ⟨Fix.caCert, by decide +kernel, rfl⟩
  fresh := by decide +kernel
  pair := ⟨⟨Fix.key, exPub⟩, by decide +kernel, by decide +kernel⟩
  content := by decide +kernel
  packet := by decide +kernel
  name := ⟨(isCertName_iff _).mp (by decide +kernel), by rw [← isPrefixOf_iff]; decide +kernel, by decide +kernel, by
    intro k hk
    have : Fix.cfg.profile.maxSuffixLength = some 1 := rfl
    rw [this] at hk
    cases hk
    decide +kernel⟩
  signed := by decide +kernel
  caValid := exAdmissible.caValid
  notPending := by decide +kernel
  revokeSize := by
    intro i b hi hb
    have h := exRevokeOk_true
    unfold exRevokeOk at h
    rw [hi] at h
    change i.params.all _ = true at h
    rw [hb] at h
    simpa using h
  replySize := exAdmissible.replySize

def exRevokeStart : Turn := { exStart with others := [] }

example : ∃ x1 y, revokeTurn Fix.C Fix.S Fix.cfg exRevoking Fix.revCert (List.replicate 32 0) { env := Fix.env1 } = some (x1, Fix.cfg.profile.supportedChallenges) ∧
    challengeTurns Fix.C Fix.S Fix.cfg (bytes! "pin") x1 [([], exRevokeStart), (bytes! "000000", exWrongTurn), (secretCode Fix.env2.word32, exRightTurn)] = .ok y ∧
    y.requester.status = .success ∧ issued y.done = [] := by
  obtain ⟨x1, h1, hrun⟩ := C119_pin_partial Toy.honest (memStore_lawful Fix.C) Fix.cfg_fits (x := exRevoking) (memStore_lawful Fix.C).empty_inv
    (stack := List.replicate 32 0) (by decide) (tn := { env := Fix.env1 }) (ts := exRevokeStart) (tl := exRightTurn) (typed := []) (wrong := [(bytes! "000000", exWrongTurn)])
    ⟨Fix.env_wf .., rfl⟩ exAdmissibleRevoke ⟨(by intro x hx; cases hx), Fix.env_wf .., by unfold Turn.Wf; decide +kernel, by decide +kernel⟩
    ⟨by decide, by
      intro w hw
      simp only [List.mem_singleton] at hw
      subst hw
      decide +kernel⟩ (exInTime .pin (.inl rfl))
  rcases hrun with hd | ⟨y, _, _, _, h2, h3, h4, _⟩
  · exact absurd hd (turns_alone (by
      intro w hw
      simp only [List.cons_append, List.nil_append, List.mem_cons, List.not_mem_nil, or_false] at hw
      rcases hw with rfl | rfl | rfl <;> rfl))
  exact ⟨x1, y, h1, h2, h3, h4⟩

example : ∃ x1 y, revokeTurn Fix.C Fix.S Fix.cfg exRevoking Fix.revCert (List.replicate 32 0) { env := Fix.env1 } = some (x1, Fix.cfg.profile.supportedChallenges) ∧
    challengeTurns Fix.C Fix.S Fix.cfg (bytes! "email") x1
      [(bytes! "alice@example.com", exRevokeStart), (bytes! "000000", exWrongTurn), (secretCode Fix.env2.word32, exRightTurn)] = .ok y ∧
    y.requester.status = .success ∧ issued y.done = [] ∧ (mailed y.done).map (·.address) = [bytes! "alice@example.com"] := by
  obtain ⟨x1, h1, hrun⟩ := C119_email_partial Toy.honest (memStore_lawful Fix.C) Fix.cfg_fits (x := exRevoking) (memStore_lawful Fix.C).empty_inv
    (stack := List.replicate 32 0) (by decide) (tn := { env := Fix.env1 }) (ts := exRevokeStart) (tl := exRightTurn) (addr := bytes! "alice@example.com")
    (wrong := [(bytes! "000000", exWrongTurn)])
    ⟨Fix.env_wf .., rfl⟩ exAdmissibleRevoke ⟨(by intro x hx; cases hx), Fix.env_wf .., by unfold Turn.Wf; decide +kernel, by decide +kernel⟩ (by decide) rfl
    ⟨by decide, by
      intro w hw
      simp only [List.mem_singleton] at hw
      subst hw
      decide +kernel⟩ (exInTime .email (.inr rfl))
  rcases hrun with hd | ⟨y, _, _, _, h2, h3, h4, h5, _⟩
  · exact absurd hd (turns_alone (by
      intro w hw
      simp only [List.cons_append, List.nil_append, List.mem_cons, List.not_mem_nil, or_false] at hw
      rcases hw with rfl | rfl | rfl <;> rfl))
  exact ⟨x1, y, h1, h2, h3, h4, by rw [h5]; rfl⟩

end Ndncert.Props
