import Verif.Lemmas.Agreement
import Verif.Props.CaExec
import Verif.Props.RequestObject

/-! # C132: what a program was told is what the CA did, whatever the network does -/

namespace Ndncert.Props

variable {C : Crypto} {σ : Type} {S : StoreI σ} {Inv : σ → Prop} {cfg : CaConfig}

/-- C132: if an object accepts a reply to a CHALLENGE Interest it made, the CA handled exactly that Interest, which is authentic for a pending
request with the id and the AES key of the object, and sent that reply; and what the object now has is what the CA did in that step: the
certificate was issued under the name the object has, or the revocation was completed, or the challenge goes on with the status and the
tries the CA stored. -/
theorem C132_challenge_agreement (hC : C.Lawful) (hS : LawfulStore C S Inv) (hcfg : NameFits cfg.profile.caPrefix) {h : List (Step σ)} {s : CaState σ}
    (hx : Exec C S cfg h s) (p : CaProfile) (ty : RequestType) (priv : Bytes) (id : RequestId) (hid : id.length = 8) {before : List Called} {m n : Called} {q : Request}
    (hr : ReqRun C (.create p ty priv id) (before ++ [n]) q) (hm : m ∈ before) {j : Interest} (hj : m.SendsChallenge j) {d : Data}
    (hn : n.AcceptsChallengeReply d) {cert : Cert} (hp : p.cert = some cert) (hpre : p.caPrefix = cfg.profile.caPrefix) (hnet : Delivered C cfg h cert j d)
    (hown : OpensOnlyOwn C h q.aesKey q.requestId) (hnames : ∀ n ∈ h, ∀ c, .issue c ∈ n.effects → Name.Wf c.name) (hhint : Name.Wf cfg.profile.forwardingHint) :
    ∃ k ∈ h, ∃ env r, k.Handles (.challenge j) env ∧ Authentic C S cfg k.pre.store j env r ∧ d ∈ sent k.effects ∧
      r.encryptionKey = q.aesKey ∧ r.requestId = q.requestId ∧ SameOutcome C cfg k env r q := by
  obtain ⟨q0, x0, w0, e0, _, rfl⟩ := hr.snoc
  obtain ⟨⟨now, hc⟩, x, hx'⟩ := hn
  rw [hc] at w0 e0 hown ⊢
  obtain ⟨u, hok, _⟩ := Res.as_ok (e0.symm.trans hx')
  obtain ⟨b1, b2, rfl⟩ := List.append_of_mem hm
  obtain ⟨q1, x1, w1, e1, x2⟩ := x0.split rfl
  obtain ⟨⟨prm, rnd, c1⟩, hi⟩ := hj
  rw [c1] at w1 e1
  obtain ⟨_, _, _, _, _, _, _, _, _, _, _, _, _, dg, hname⟩ := sends_iv hC (x1.full (create_full p ty priv hid)) w1 (e1.symm.trans hi)
  rw [x1.frame.1] at hname
  have hname' : j.name = cfg.profile.caPrefix ++ gcomp (bytes! "CA") :: gcomp (bytes! "CHALLENGE") :: [⟨8, q1.requestId⟩, ⟨2, dg⟩] := by
    rw [hname, ← hpre]; rfl
  obtain ⟨t, _, _, ht, hv, _⟩ := onChallengeResponse_told hok
  have hprof : q0.profile = p := x0.frame.1
  rw [hprof, hp] at ht
  injection ht with ht
  subst ht
  obtain ⟨k, hk, hd⟩ := hnet.signed hv ⟨cfg.profile.caPrefix ++ [gcomp (bytes! "CA"), gcomp (bytes! "CHALLENGE"), ⟨8, q1.requestId⟩], dg, by
    rw [hnet.named, hname']; simp⟩
  obtain ⟨m', env, hh, hin⟩ := answered_by hx hnet hk hd
  have hmj : m' = .challenge j := by
    have := (dispatched_name (hnet.dispatched k hk m' env hh) (by rw [hin]; exact hname')).1 rfl
    rw [hin] at this
    exact this
  subst hmj
  have hcore := onChallengeResponse_core C q0 d now
  have e3 : ((ReqCall.onChallenge d now).run C q0).1.aesKey = q0.aesKey := hcore.key
  have e4 : ((ReqCall.onChallenge d now).run C q0).1.requestId = q0.requestId := hcore.id
  rw [e3, e4] at hown ⊢
  obtain ⟨r, a1, a2, a3, a4⟩ := answered_challenge hC hS hcfg hx hk hd hh hok w0 hown hnames hhint
  exact ⟨k, hk, env, r, hh, a1, hd, a2, a3, a4⟩

/-- C132: if an object accepts a reply to a NEW or REVOKE Interest it made, the CA accepted exactly that Interest and sent that reply, and both
have the same request id and AES key; the challenges the program is told are those of the CA. -/
theorem C132_new_agreement (hC : C.Honest) {h : List (Step σ)} {s : CaState σ} (hx : Exec C S cfg h s) (p : CaProfile) (ty : RequestType) (priv : Bytes)
    (id : RequestId) (hid : id.length = 8) {before : List Called} {m n : Called} {q : Request}
    (hr : ReqRun C (.create p ty priv id) (before ++ [n]) q) (hm : m ∈ before) {j : Interest} (hj : m.Asks j) (hl : ∀ b, j.params = some b → b.val.length < 2 ^ 64)
    {d : Data} {stack : Bytes} {l : List Bytes} (hc : n.call = .onNew d stack) (hn : n.result = .ok (.challenges l)) (hd : d.content.val.length < 2 ^ 64)
    {cert : Cert} (hp : p.cert = some cert) (hkey : cert.content = some (C.idPub cfg.profile.caPrefix)) (hpre : p.caPrefix = cfg.profile.caPrefix)
    (hnet : Delivered C cfg h cert j d) :
    ∃ k ∈ h, ∃ env rs, (AcceptsNew k j env rs ∨ AcceptsRevoke k j env rs) ∧ d ∈ sent k.effects ∧ q.requestId = rs.requestId ∧ q.aesKey = rs.encryptionKey ∧
      l = cfg.profile.supportedChallenges := by
  obtain ⟨q0, x0, w0, e0, _, rfl⟩ := hr.snoc
  rw [hc] at w0 e0 ⊢
  obtain ⟨l', hok, hl'⟩ := Res.as_ok (e0.symm.trans hn)
  injection hl' with hl'
  subst hl'
  obtain ⟨b1, b2, rfl⟩ := List.append_of_mem hm
  obtain ⟨q1, x1, w1, e1, x2⟩ := x0.split rfl
  obtain ⟨hcall, hi⟩ := hj
  have hfr1 := x1.frame
  have hfr0 := x0.frame
  have hv : C.verifyData d cert = true := by
    unfold onNewResponse at hok
    split at hok
    · cases hok
    · cases hok
    · next hck =>
      unfold checkReply at hck
      rw [hfr0.1] at hck
      change (match p.cert with | none => _ | some c => _) = _ at hck
      rw [hp] at hck
      dsimp only at hck
      split at hck
      · next h => exact h
      · cases hck
  have hq : Trusts C cfg q0 := ⟨cert, by rw [hfr0.1]; exact hp, hkey⟩
  have hid0 : q0.requestId.length = 8 := (x0.full (create_full p ty priv hid)).id
  -- the Interest
  have hint : ∃ ty' w c dg, ((ty' = .new ∧ w = gcomp (bytes! "NEW")) ∨ (ty' = .revoke ∧ w = gcomp (bytes! "REVOKE"))) ∧
      j.params = some (requestParamsEncode ty' (C.ecdhPub q0.ecdhPriv) c) ∧
      j.name = cfg.profile.caPrefix ++ gcomp (bytes! "CA") :: w :: [⟨2, dg⟩] := by
    have hpriv : q0.ecdhPriv = q1.ecdhPriv := by rw [hfr0.2, hfr1.2]
    have hpr : q1.profile.caPrefix = cfg.profile.caPrefix := by rw [hfr1.1]; exact hpre
    rcases hcall with ⟨key, nb, na, v, hcall⟩ | ⟨c, hcall⟩
    · rw [hcall] at e1
      obtain ⟨o, ho, ho'⟩ := Res.as_ok (e1.symm.trans hi)
      cases o with
      | none => cases ho'
      | some i' =>
        injection ho' with ho'
        subst ho'
        obtain ⟨_, pub, _, _, _, _, rfl⟩ := genNewInterest_ok (Prod.ext rfl ho)
        exact ⟨.new, _, _, _, .inl ⟨rfl, rfl⟩, by rw [hpriv]; rfl, by rw [← hpr]; unfold signedInterest; simp [caComp, newComp]; rfl⟩
    · rw [hcall] at e1
      have ho : ReqReturn.ofOption (genRevokeInterest C q1 c) = .interest j := by
        have := e1.symm.trans hi
        injection this
      unfold genRevokeInterest at ho
      split at ho
      · cases ho
      · injection ho with ho
        subst ho
        exact ⟨.revoke, _, _, _, .inr ⟨rfl, rfl⟩, by rw [hpriv]; rfl, by rw [← hpr]; unfold plainInterest; simp [caComp, revokeComp]; rfl⟩
  obtain ⟨ty', w, c, dg, hw, hpar, hname⟩ := hint
  obtain ⟨k, hk, hsent⟩ := hnet.signed hv ⟨cfg.profile.caPrefix ++ [gcomp (bytes! "CA"), w], dg, by rw [hnet.named, hname]; simp⟩
  obtain ⟨m', env, hh, hin⟩ := answered_by hx hnet hk hsent
  obtain ⟨_, _, m2, env2, kk, _, _, hh2, heff, _, hew⟩ := handled_step hx hk hsent
  have : m2 = m' ∧ env2 = env := by
    unfold Step.Handles at hh hh2
    rw [hh] at hh2
    injection hh2 with hh2
    injection hh2 with g1 g2
    exact ⟨g1.symm, g2.symm⟩
  obtain ⟨rfl, rfl⟩ := this
  have hdis := dispatched_name (hnet.dispatched k hk m2 env2 hh) (by rw [hin]; exact hname)
  rw [hin] at hdis
  rcases hw with ⟨rfl, rfl⟩ | ⟨rfl, rfl⟩
  · have hm2 := hdis.2.1 rfl
    subst hm2
    change k.effects = (onNewRenewRevoke C S cfg k.pre.idKey k.pre.store .new j env2).effects.take kk at heff
    rw [heff] at hsent
    obtain ⟨rs, r1, r2, r3, r4⟩ := answered_new (.inl rfl) hC hew hq hid0 hpar (hl _ hpar) hsent hd w0 hok
    exact ⟨k, hk, env2, rs, .inl ⟨hh, by rw [heff]; exact r1⟩, by rw [heff]; exact hsent, r2, r3, r4⟩
  · have hm2 := hdis.2.2 rfl
    subst hm2
    change k.effects = (onNewRenewRevoke C S cfg k.pre.idKey k.pre.store .revoke j env2).effects.take kk at heff
    rw [heff] at hsent
    obtain ⟨rs, r1, r2, r3, r4⟩ := answered_new (.inr rfl) hC hew hq hid0 hpar (hl _ hpar) hsent hd w0 hok
    exact ⟨k, hk, env2, rs, .inr ⟨hh, by rw [heff]; exact r1⟩, by rw [heff]; exact hsent, r2, r3, r4⟩

/-- C132: if an object that made the CHALLENGE `j` is told that its request is complete, then the CA, having accepted a NEW that met the policies
and having started a challenge for it which `j` answers, issued a certificate under the name the object now has, for the only key `j` verifies
with; or the CA had accepted a REVOKE with the id and key of the object, and that revocation is complete. -/
theorem C132_told_success (hC : C.Lawful) (hS : LawfulStore C S Inv) (hcfg : NameFits cfg.profile.caPrefix) {h : List (Step σ)} {s : CaState σ}
    (hx : Exec C S cfg h s) (p : CaProfile) (ty : RequestType) (priv : Bytes) (id : RequestId) (hid : id.length = 8) {before : List Called} {m n : Called} {q : Request}
    (hr : ReqRun C (.create p ty priv id) (before ++ [n]) q) (hm : m ∈ before) {j : Interest} (hj : m.SendsChallenge j) {d : Data}
    (hn : n.AcceptsChallengeReply d) {cert : Cert} (hp : p.cert = some cert) (hpre : p.caPrefix = cfg.profile.caPrefix) (hnet : Delivered C cfg h cert j d)
    (hown : OpensOnlyOwn C h q.aesKey q.requestId) (hnames : ∀ n ∈ h, ∀ c, .issue c ∈ n.effects → Name.Wf c.name) (hhint : Name.Wf cfg.profile.forwardingHint)
    (hst : q.status = .success) {pub : Bytes} (hsig : ∀ c, C.verifyInterest j c = true → c.content = some pub) :
    ∃ h1 k h2 a i0 env0 r0, h = h1 ++ k :: h2 ∧ a ∈ h1 ∧ d ∈ sent k.effects ∧ r0.requestId = q.requestId ∧ r0.encryptionKey = q.aesKey ∧ r0.cert.content = some pub ∧
      ((AcceptsNew a i0 env0 r0 ∧ NewPolicy C cfg i0 env0 r0.cert ∧
        (∃ c, .issue c ∈ k.effects ∧ q.issuedCertName = c.name ∧ c.content = some pub ∧ keyNameOf c.name = keyNameOf r0.cert.name ∧ c.validity = r0.cert.validity) ∧
        ∃ b ∈ h1, ∃ i2 env2 r2 kind, StartsChallenge C S cfg b i2 env2 r2 kind ∧ r2.requestId = q.requestId ∧
          ∃ env r es kind', Challenges C S cfg k j env r es kind' ∧ r.requestId = q.requestId ∧ Answered C env2 kind es) ∨
       (AcceptsRevoke a i0 env0 r0 ∧ .dbDelete q.requestId ∈ k.effects)) := by
  obtain ⟨k, hk, env, r, a1, a2, a3, a4, a5, a6⟩ := C132_challenge_agreement hC hS hcfg hx p ty priv id hid hr hm hj hn hp hpre hnet hown hnames hhint
  obtain ⟨h1, h2, hsplit⟩ := List.append_of_mem hk
  obtain ⟨hpk, hwf, _, heff, _⟩ := hx.split h1 k h2 hsplit
  cases a6 with
  | continued r1 cs st sm wt stt status cst tr => rw [hst] at status; cases status
  | revoked type removed status =>
    obtain ⟨g1, ga, g2, ty0, i0, env0, r0, hg, hadd, hsame, _⟩ := hpk.pending hC hS hcfg a2.pending
    obtain ⟨secret, hrs⟩ := hadd.state
    have hty0 : ty0 = .revoke := by
      have h1 : r0.requestType = .revoke := by rw [hsame.2.2.1]; exact type
      rw [hrs] at h1
      exact h1
    subst hty0
    obtain ⟨msg, e1, e2⟩ := hadd.event
    have hmsg : msg = .revoke i0 := by
      cases msg <;> simp [Msg.request?] at e2
      rw [e2]
    refine ⟨h1, k, h2, ga, i0, env0, r0, hsplit, by rw [hg]; simp, a3, hsame.1.trans a5, hsame.2.2.2.2.trans a4, ?_, .inr ⟨⟨by rw [← hmsg]; exact e1, hadd.effect⟩, by rw [← a5]; exact removed⟩⟩
    rw [hsame.2.2.2.1]
    exact hsig _ a2.sig
  | issued c type signs re status name hint =>
    obtain ⟨i, env', r', es, k', ha, am, hb1, m2, hb2, i0, env0, r0, i2, env2, r2, kk, hi⟩ := issued_by hC hS hcfg hx hsplit signs
    have heq : i = j ∧ env' = env := by
      have := hi.challenges.handles
      unfold Step.Handles at this a1
      rw [a1] at this
      injection this with this
      injection this with g1 g2
      injection g1 with g1
      exact ⟨g1.symm, g2.symm⟩
    obtain ⟨rfl, rfl⟩ := heq
    have hrr := hi.challenges.authentic.unique a2
    subst hrr
    have hcont : r0.cert.content = some pub := by rw [hi.same.2.2.2.1]; exact hsig _ a2.sig
    obtain ⟨f1, f2, f3, _⟩ := hi.reissues.facts
    rw [← hi.same.2.2.2.1] at f1 f2 f3
    exact ⟨h1, k, h2, am, i0, env0, r0, hsplit, by rw [hi.split]; simp, a3, hi.same.1.trans a5, hi.same.2.2.2.2.trans a4, hcont,
      .inl ⟨hi.accepts, hi.policy, ⟨c, signs, name, by rw [f2, hcont], f1, f3⟩, m2, by rw [hi.split]; simp, i2, env2, r2, kk, hi.starts, by rw [hi.id2, a5],
        env', r', es, k', hi.challenges, a5, hi.answered⟩⟩

/-! ## a session in which all of this is so -/

/-- NEW, its reply, pin, a wrong code, the right code, with the replies of the CA -/
def exTold : List ReqCall :=
  [.genNew Fix.key (1000 * nsPerSec) (4600 * nsPerSec) ⟨54, [2]⟩, .onNew Fix.reply1 (List.replicate 32 0), .select (bytes! "pin"),
   .genChallenge [] (List.replicate 8 3), .onChallenge Fix.reply2 (1001 * nsPerSec), .select (bytes! "pin"),
   .genChallenge [(KEY_CODE, bytes! "999999")] (List.replicate 8 3), .onChallenge Fix.reply3 (1002 * nsPerSec), .select (bytes! "pin"),
   .genChallenge [(KEY_CODE, secretCode Fix.env2.word32)] (List.replicate 8 3), .onChallenge Fix.reply4 (1003 * nsPerSec)]

def exToldObject : Request := (calls Fix.C exObject exTold).2

theorem exTold_run (k : Nat) (hk : callsOk Fix.C exObject (exTold.take k) = true) : ReqRun Fix.C exObject (calls Fix.C exObject (exTold.take k)).1 (calls Fix.C exObject (exTold.take k)).2 :=
  run_of_calls (cs := exTold.take k) (r := exObject) (C := Fix.C) .init hk

/-- what `Delivered` asks of a history, for the Interest `j` and a reply in the history -/
def deliveredOk (cfg : CaConfig) (h : List (Step Mem)) (j : Interest) (d : Data) : Bool :=
  decide (d.name = j.name) && h.any (fun n => (sent n.effects).contains d) &&
  h.all (fun n => match n.event.msg? with
    | none => true
    | some (m, _) => ([Handler.probe, .new, .challenge, .revoke].any (fun hd => decide (hd.msg m.interest = some m) && (cfg.profile.caPrefix ++ [gcomp (bytes! "CA")] ++ hd.words).isPrefixOf m.interest.name)) &&
        (decide (m.interest.name ≠ j.name) || decide (m.interest = j)))

theorem delivered_of_ok {cfg : CaConfig} {h : List (Step Mem)} {j : Interest} {d : Data} (hd : deliveredOk cfg h j d = true) (cert : Cert) : Delivered Fix.C cfg h cert j d := by
  unfold deliveredOk at hd
  simp only [Bool.and_eq_true, decide_eq_true_eq, List.any_eq_true, List.all_eq_true] at hd
  obtain ⟨⟨h1, n, hn, h2⟩, h3⟩ := hd
  refine ⟨h1, fun _ _ => ⟨n, hn, by simpa using h2⟩, ?_, ?_⟩
  · intro n hn m env hh
    have := h3 n hn
    unfold Step.Handles at hh
    rw [hh] at this
    simp only [Bool.and_eq_true, List.any_eq_true, decide_eq_true_eq] at this
    obtain ⟨⟨hd, _, g1, g2⟩, _⟩ := this
    exact ⟨hd, g1, List.isPrefixOf_iff_prefix.mp g2⟩
  · intro n hn m env hh hname
    have := h3 n hn
    unfold Step.Handles at hh
    rw [hh] at this
    simp only [Bool.and_eq_true, Bool.or_eq_true, decide_eq_true_eq] at this
    rcases this.2 with g | g
    · exact absurd hname g
    · exact g

/-- the hypotheses of C132 in the run of the fixtures: NEW and its reply -/
example : ∃ before m n j, (calls Fix.C exObject (exTold.take 2)).1 = before ++ [n] ∧ m ∈ before ∧ m.Asks j ∧ n.call = .onNew Fix.reply1 (List.replicate 32 0) ∧
    n.result = .ok (.challenges [bytes! "pin"]) ∧ Fix.profile.cert = some Fix.caCert ∧ Fix.caCert.content = some (Fix.C.idPub Fix.cfg.profile.caPrefix) ∧
    Delivered Fix.C Fix.cfg Fix.pinHist Fix.caCert j Fix.reply1 ∧ callsOk Fix.C exObject (exTold.take 2) = true := by
  refine ⟨[(calls Fix.C exObject exTold).1[0]'(by decide +kernel)], (calls Fix.C exObject exTold).1[0]'(by decide +kernel), (calls Fix.C exObject exTold).1[1]'(by decide +kernel),
    Fix.newInterest, rfl, by simp, ⟨.inl ⟨_, _, _, _, rfl⟩, by decide +kernel⟩, rfl, by decide +kernel, rfl, by decide +kernel, delivered_of_ok (by decide +kernel) _, by decide +kernel⟩

/-- the hypotheses of C132 in the run of the fixtures: the right code and its reply -/
example : ∃ before m n j, (calls Fix.C exObject exTold).1 = before ++ [n] ∧ m ∈ before ∧ m.SendsChallenge j ∧ n.AcceptsChallengeReply Fix.reply4 ∧
    Delivered Fix.C Fix.cfg Fix.pinHist Fix.caCert j Fix.reply4 ∧ OpensOnlyOwn Fix.C Fix.pinHist exToldObject.aesKey exToldObject.requestId ∧
    (∀ n ∈ Fix.pinHist, ∀ c, .issue c ∈ n.effects → Name.Wf c.name) ∧ Name.Wf Fix.cfg.profile.forwardingHint ∧ exToldObject.status = .success ∧
    (∃ pub, ∀ c, Fix.C.verifyInterest j c = true → c.content = some pub) ∧ callsOk Fix.C exObject exTold = true := by
  refine ⟨(calls Fix.C exObject exTold).1.take 10, (calls Fix.C exObject exTold).1[9]'(by decide +kernel), (calls Fix.C exObject exTold).1[10]'(by decide +kernel),
    Fix.chal3, rfl, ?_, ⟨⟨_, _, rfl⟩, by decide +kernel⟩, ⟨⟨_, rfl⟩, ⟨.nothing, by decide +kernel⟩⟩, delivered_of_ok (by decide +kernel) _, ?_, ?_, by unfold Name.Wf; decide +kernel, by decide +kernel, ⟨Fix.chal3.sig, ?_⟩, by decide +kernel⟩
  · rw [List.mem_take_iff_getElem]
    exact ⟨9, by decide +kernel, rfl⟩
  · intro n hn r hr iv pt _
    have : (Fix.pinHist.all fun n => n.effects.all fun e => match e with
        | .dbAdd r => decide (r.encryptionKey = exToldObject.aesKey ∧ r.requestId = exToldObject.requestId)
        | _ => true) = true := by decide +kernel
    simpa using List.all_eq_true.mp (List.all_eq_true.mp this n hn) _ hr
  · intro n hn c hc
    have : (Fix.pinHist.all fun n => (issued n.effects).all fun c => c.name.all fun x => decide (0 < x.typ ∧ x.typ ≤ 65535)) = true := by decide +kernel
    intro x hx
    simpa using List.all_eq_true.mp (List.all_eq_true.mp (List.all_eq_true.mp this n hn) c (mem_issued.mpr hc)) x hx
  · intro c hc
    have : (some Fix.chal3.sig == c.content) = true := hc
    simpa using (eq_of_beq this).symm

end Ndncert.Props
