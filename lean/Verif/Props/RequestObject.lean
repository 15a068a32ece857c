import Verif.Lemmas.RequestObject
import Verif.Props.Strict
import Verif.Spec.Run

/-! # C120, C121, C122: the calls a program may make on a `Request` object -/

namespace Ndncert.Props

variable {C : Crypto}

/-! ## Concrete runs -/

/-- a new object for the CA of the fixtures -/
def exObject : Request := .create Fix.profile .new [1, 2] (List.replicate 8 0)

/-- NEW, its reply, pin selected, the first CHALLENGE, its reply, pin again, a wrong code -/
def exObjectCalls : List ReqCall :=
  [.genNew Fix.key (1000 * nsPerSec) (4600 * nsPerSec) ⟨54, [2]⟩, .onNew Fix.reply1 (List.replicate 32 0), .select (bytes! "pin"),
   .genChallenge [] (List.replicate 8 3), .onChallenge Fix.reply2 (1001 * nsPerSec), .select (bytes! "pin"),
   .genChallenge [(KEY_CODE, bytes! "999999")] (List.replicate 8 3)]

def exObjectCalled : List Called := (calls Fix.C exObject exObjectCalls).1

def interestOfCall : Called → Interest
  | ⟨_, .ok (.interest i)⟩ => i
  | _ => Fix.blankInterest

theorem exObjectCalls_run : ReqRun Fix.C exObject exObjectCalled (calls Fix.C exObject exObjectCalls).2 :=
  run_of_calls (cs := exObjectCalls) (r := exObject) (C := Fix.C) .init (by decide +kernel)

/-- a program that goes on without waiting for the reply to NEW -/
def exHasty : List ReqCall :=
  [.genNew Fix.key (1000 * nsPerSec) (4600 * nsPerSec) ⟨54, [2]⟩, .select (bytes! "email"), .genChallenge [(KEY_EMAIL, bytes! "alice@example.com")] (List.replicate 8 3)]

theorem exHasty_run : ReqRun Fix.C exObject (calls Fix.C exObject exHasty).1 (calls Fix.C exObject exHasty).2 :=
  run_of_calls (cs := exHasty) (r := exObject) (C := Fix.C) .init (by decide +kernel)

/-- a reply signed by the CA that holds a request id and nothing else -/
def exBadReply : Data := mkData Fix.C Fix.ca Fix.newInterest.name (mkBlock T.Content [binBlock 151 [1, 2, 3, 4, 5, 6, 7, 8]])

/-- the reply to NEW is accepted; the bad reply is refused; the program goes on -/
def exReplaced : List ReqCall :=
  [.genNew Fix.key (1000 * nsPerSec) (4600 * nsPerSec) ⟨54, [2]⟩, .onNew Fix.reply1 (List.replicate 32 0), .onNew exBadReply (List.replicate 32 0),
   .select (bytes! "pin"), .genChallenge [] (List.replicate 8 3)]

theorem exReplaced_run : ReqRun Fix.C exObject (calls Fix.C exObject exReplaced).1 (calls Fix.C exObject exReplaced).2 :=
  run_of_calls (cs := exReplaced) (r := exObject) (C := Fix.C) .init (by decide +kernel)

/-! ## C120 -/

/-- C120: whatever calls are made on an object and in whatever order, two CHALLENGE Interests it returns never carry the same IV: the
counters of the later one start after the last block of the earlier one. -/
theorem C120_iv_fresh (hC : C.Lawful) (p : CaProfile) (ty : RequestType) (priv : Bytes) (id : RequestId) (hid : id.length = 8)
    {h h1 h2 h3 : List Called} {a b : Called} {r : Request} (hx : ReqRun C (.create p ty priv id) h r) (hh : h = h1 ++ a :: (h2 ++ b :: h3))
    {i j : Interest} (ha : a.SendsChallenge i) (hb : b.SendsChallenge j) :
    ∃ iv1 tag1 ct1 iv2 tag2 ct2, i.CarriesSealed iv1 tag1 ct1 ∧ j.CarriesSealed iv2 tag2 ct2 ∧ iv1.length = 12 ∧ iv2.length = 12 ∧
      ivPrefix iv1 = ivPrefix iv2 ∧ 0 < ct1.length ∧ ivCounter iv1 + blocksOf ct1.length ≤ ivCounter iv2 ∧ iv1 ≠ iv2 := by
  obtain ⟨r1, x1, w1, e1, x2⟩ := hx.split hh
  obtain ⟨⟨m, rnd, c1⟩, hi⟩ := ha
  obtain ⟨⟨m', rnd', c2⟩, hj⟩ := hb
  rw [c1] at w1 e1 x2
  have f1 := x1.full (create_full p ty priv hid)
  have hd : ∀ u, ((ReqCall.genChallenge m rnd).run C r1).2 ≠ .ub u := by rw [← e1, hi]; simp
  have f2 := run_full f1 w1 hd
  obtain ⟨r2, x3, w2, e2, _⟩ := x2.split rfl
  rw [c2] at w2 e2
  obtain ⟨iv1, tag1, ct1, es1, s1, _, s3, s4, _, _, s5, s6, s7, _⟩ := sends_iv hC f1 w1 (e1.symm.trans hi)
  obtain ⟨iv2, tag2, ct2, es2, t1, t2, t3, _⟩ := sends_iv hC (x3.full f2) w2 (e2.symm.trans hj)
  obtain ⟨q1, q2, q3⟩ := x3.iv_mono s5
  have hs := startIv_full (rnd := rnd') q1
  have hle : ivCounter iv1 + blocksOf ct1.length ≤ ivCounter iv2 := by rw [t2, hs]; omega
  have hpos : 0 < blocksOf ct1.length := by unfold blocksOf; omega
  refine ⟨iv1, tag1, ct1, iv2, tag2, ct2, s1, t1, s3, t3, ?_, s4, hle, ?_⟩
  · rw [t2, hs, q2, s6]
  · rintro rfl
    omega

/-- C120: a CHALLENGE Interest has no other IV than the one it carries. -/
theorem C120_one_iv {i : Interest} {iv tag ct iv' tag' ct' : Bytes} (h : i.CarriesSealed iv tag ct) (h' : i.CarriesSealed iv' tag' ct') :
    iv = iv' ∧ tag = tag' ∧ ct = ct' := by
  obtain ⟨b, es, h1, h2, _, h4⟩ := h
  obtain ⟨b', es', g1, g2, _, g4⟩ := h'
  rw [h1] at g1
  injection g1 with g1
  subst g1
  rw [h2] at g2
  injection g2 with g2
  subst g2
  rw [h4] at g4
  simpa using g4

-- two CHALLENGE Interests in one run
example : ∃ h1 a h2 b i j, exObjectCalled = h1 ++ a :: (h2 ++ b :: []) ∧ a.SendsChallenge i ∧ b.SendsChallenge j := by
  refine ⟨exObjectCalled.take 3, exObjectCalled[3]'(by decide +kernel), (exObjectCalled.drop 4).take 2, exObjectCalled[6]'(by decide +kernel),
    interestOfCall (exObjectCalled[3]'(by decide +kernel)), interestOfCall (exObjectCalled[6]'(by decide +kernel)), rfl, ⟨⟨_, _, rfl⟩, by decide +kernel⟩, ⟨⟨_, _, rfl⟩, by decide +kernel⟩⟩

/-! ## C121 -/

/-- C121, what holds: if the object accepted a reply to NEW or REVOKE and none was passed to it since, a CHALLENGE Interest it returns is for
the CA of the profile and the request that the reply names, and it can be decrypted with the key derived from the object's private key and
the public key, the salt and the request id in the reply. (A reply of the CA has a salt of 32 and an id of 8 octets.) -/
theorem C121_agreed_partial (hC : C.Lawful) (p : CaProfile) (ty : RequestType) (priv : Bytes) (id : RequestId) (hid : id.length = 8)
    {h1 h2 h3 : List Called} {n m : Called} {r : Request} (hx : ReqRun C (.create p ty priv id) (h1 ++ n :: (h2 ++ m :: h3)) r)
    {d : Data} (hn : n.AcceptsReply d) (hlast : ∀ x ∈ h2, ∀ d' s', x.call ≠ .onNew d' s') {i : Interest} (hm : m.SendsChallenge i) :
    ∃ es k s x secret, parse d.content.val = .ok es ∧ ofType 145 es = [k] ∧ ofType 149 es = [s] ∧ ofType 151 es = [x] ∧
      C.ecdhDerive priv k.val = some secret ∧
      (s.val.length = 32 → x.val.length = 8 → ∃ pt, SealedFor C i p.caPrefix x.val (C.hkdf secret s.val x.val) pt) := by
  obtain ⟨r1, x1, w1, e1, x2⟩ := hx.split rfl
  obtain ⟨⟨stack, c1⟩, l, hl⟩ := hn
  obtain ⟨⟨prm, rnd, c2⟩, hi⟩ := hm
  rw [c1] at w1 e1 x2
  obtain ⟨p1, p2⟩ := x1.frame
  have f1 := x1.full (create_full p ty priv hid)
  have hd : ∀ u, ((ReqCall.onNew d stack).run C r1).2 ≠ .ub u := by rw [← e1, hl]; simp
  have f2 := run_full f1 w1 hd
  obtain ⟨r2, x3, w2, e2, _⟩ := x2.split rfl
  rw [c2] at w2 e2
  obtain ⟨k1, k2⟩ := x3.sameKey hlast
  obtain ⟨p3, p4⟩ := x3.frame
  obtain ⟨iv, tag, ct, els, s1, s2, s3, s4, _, s5, _, _, _, dg, s6⟩ := sends_iv hC (x3.full f2) w2 (e2.symm.trans hi)
  have hw : stack.length = 32 := w1
  obtain ⟨l', hl', _⟩ := Res.as_ok (e1.symm.trans hl)
  have hprof := (run_frame C r1 (.onNew d stack)).1
  rw [p3, hprof, p1] at s6
  rw [k1, k2] at s5
  rw [k2] at s6
  change C.aesDec (onNewResponse C r1 d stack).1.aesKey iv (onNewResponse C r1 d stack).1.requestId ct tag = _ at s5
  change i.name = p.caPrefix ++ [_, _, ⟨8, (onNewResponse C r1 d stack).1.requestId⟩, _] at s6
  unfold onNewResponse at hl' s5 s6
  split at hl'
  · cases hl'
  · cases hl'
  next hck =>
  rw [hck] at s5 s6
  dsimp only at hl' s5 s6
  rcases hrd : requestDecode d.content stack r1.requestId with ⟨⟨salt, id'⟩, res⟩
  rw [hrd] at hl' s5 s6
  dsimp only at hl' s5 s6
  cases res with
  | exc e => cases hl'
  | ub u => cases hl'
  | ok pc =>
    obtain ⟨pub, chs⟩ := pc
    dsimp only at hl' s5 s6
    obtain ⟨es, k, s, x, a1, _, a3, a4, a5, a6, a7, a8, a9, a10, _⟩ := (C110_new_reply _ _ _ _ _ _ _).mp hrd
    have hpk : pub = k.val := a4
    cases hs : C.ecdhDerive r1.ecdhPriv pub with
    | none => rw [hs] at hl'; cases hl'
    | some secret =>
      rw [hs] at s5 s6
      dsimp only at s5 s6
      have hpriv : r1.ecdhPriv = priv := p2
      refine ⟨es, k, s, x, secret, a1, a3, a5, a8, by rw [← hpk, ← hpriv]; exact hs, ?_⟩
      intro ls lx
      have es1 : salt = s.val := by rw [a7, ls, ← hw]; simp
      have es2 : id' = x.val := by rw [a10, lx, ← f1.id]; simp
      rw [es1, es2] at s5
      rw [es2] at s6
      exact ⟨encodeAll els, ⟨dg, s6⟩, iv, tag, ct, s1, s5⟩

-- the run of the pin challenge meets the hypotheses, also those about the sizes
example : ∃ h1 n h2 m i, exObjectCalled = h1 ++ n :: (h2 ++ m :: []) ∧ n.AcceptsReply Fix.reply1 ∧ (∀ x ∈ h2, ∀ d' s', x.call ≠ .onNew d' s') ∧ m.SendsChallenge i := by
  refine ⟨exObjectCalled.take 1, exObjectCalled[1]'(by decide +kernel), (exObjectCalled.drop 2).take 4, exObjectCalled[6]'(by decide +kernel),
    interestOfCall (exObjectCalled[6]'(by decide +kernel)), rfl, ⟨⟨_, rfl⟩, [bytes! "pin"], by decide +kernel⟩, ?_, ⟨⟨_, _, rfl⟩, by decide +kernel⟩⟩
  intro x hx
  have : x ∈ [exObjectCalled[2]'(by decide +kernel), exObjectCalled[3]'(by decide +kernel), exObjectCalled[4]'(by decide +kernel), exObjectCalled[5]'(by decide +kernel)] := hx
  simp only [List.mem_cons, List.not_mem_nil, or_false] at this
  rcases this with rfl | rfl | rfl | rfl <;> (intro d' s' h; cases h)
example : ∃ es s x, parse Fix.reply1.content.val = .ok es ∧ ofType 149 es = [s] ∧ s.val.length = 32 ∧ ofType 151 es = [x] ∧ x.val.length = 8 := by
  rcases h : parse Fix.reply1.content.val with es | e | u
  · refine ⟨es, (ofType 149 es).headD ⟨0, []⟩, (ofType 151 es).headD ⟨0, []⟩, rfl, ?_⟩
    have : ∀ es, parse Fix.reply1.content.val = .ok es → ofType 149 es = [(ofType 149 es).headD ⟨0, []⟩] ∧ ((ofType 149 es).headD ⟨0, []⟩).val.length = 32 ∧
        ofType 151 es = [(ofType 151 es).headD ⟨0, []⟩] ∧ ((ofType 151 es).headD ⟨0, []⟩).val.length = 8 := by
      have hd : (match parse Fix.reply1.content.val with
        | .ok es => decide (ofType 149 es = [(ofType 149 es).headD ⟨0, []⟩] ∧ ((ofType 149 es).headD ⟨0, []⟩).val.length = 32 ∧
            ofType 151 es = [(ofType 151 es).headD ⟨0, []⟩] ∧ ((ofType 151 es).headD ⟨0, []⟩).val.length = 8)
        | _ => false) = true := by decide +kernel
      intro es hes
      rw [hes] at hd
      simpa using hd
    exact this es h
  · have : (parse Fix.reply1.content.val).isOk = true := by decide +kernel
    rw [h] at this; cases this
  · have : (parse Fix.reply1.content.val).isOk = true := by decide +kernel
    rw [h] at this; cases this

/-- C121: before a reply was accepted, whatever the object encrypts can be decrypted with a key of 16 zero octets, known to everybody. -/
theorem C121_zero_key (hC : C.Lawful) (p : CaProfile) (ty : RequestType) (priv : Bytes) (id : RequestId) (hid : id.length = 8)
    {h1 h2 : List Called} {m : Called} {r : Request} (hx : ReqRun C (.create p ty priv id) (h1 ++ m :: h2) r)
    (hno : ∀ n ∈ h1, ∀ d, ¬ n.AcceptsReply d) {i : Interest} (hm : m.SendsChallenge i) :
    ∃ rid pt, SealedFor C i p.caPrefix rid (List.replicate 16 0) pt := by
  obtain ⟨r1, x1, w1, e1, x2⟩ := hx.split rfl
  obtain ⟨⟨prm, rnd, c⟩, hi⟩ := hm
  rw [c] at w1 e1
  obtain ⟨iv, tag, ct, els, s1, s2, s3, s4, _, s5, _, _, _, dg, s6⟩ := sends_iv hC (x1.full (create_full p ty priv hid)) w1 (e1.symm.trans hi)
  rw [x1.oldKey hno] at s5
  rw [x1.frame.1] at s6
  exact ⟨r1.requestId, _, ⟨dg, s6⟩, iv, tag, ct, s1, s5⟩

/-- C121 is false: a program that does not wait for the reply to NEW gets a CHALLENGE Interest all the same, and anybody can read the e-mail
address in it. -/
theorem C121_false : ∃ h1 m i, ReqRun Fix.C exObject (h1 ++ [m]) (calls Fix.C exObject exHasty).2 ∧
    (∀ n ∈ h1, ∀ d s, n.call ≠ .onNew d s) ∧ m.SendsChallenge i ∧
    ∃ iv tag ct, i.CarriesSealed iv tag ct ∧ Fix.C.aesDec (List.replicate 16 0) iv (List.replicate 8 0) ct tag =
      some (encodeAll [binBlock 161 (bytes! "email"), binBlock 133 (bytes! "email"), binBlock 135 (bytes! "alice@example.com")]) := by
  have hs : (calls Fix.C exObject exHasty).1[2]'(by decide +kernel) |>.SendsChallenge (interestOfCall ((calls Fix.C exObject exHasty).1[2]'(by decide +kernel))) :=
    ⟨⟨_, _, rfl⟩, by decide +kernel⟩
  refine ⟨(calls Fix.C exObject exHasty).1.take 2, (calls Fix.C exObject exHasty).1[2]'(by decide +kernel), _, exHasty_run, ?_, hs, ?_⟩
  · intro x hx
    have : x ∈ [(calls Fix.C exObject exHasty).1[0]'(by decide +kernel), (calls Fix.C exObject exHasty).1[1]'(by decide +kernel)] := hx
    simp only [List.mem_cons, List.not_mem_nil, or_false] at this
    rcases this with rfl | rfl <;> (intro d' s' h; cases h)
  · refine ⟨_, _, _, sealedOk_carries (by decide +kernel), by decide +kernel⟩

/-- C121 is false also after a reply was accepted: another reply signed by the CA, which the object refuses, changes the request that the next
CHALLENGE Interest is for. The key is still the one agreed for the first request. -/
theorem C121_false_replaced : ∃ h1 n h2 bad h3 m i, ReqRun Fix.C exObject (h1 ++ n :: h2 ++ bad :: h3 ++ [m]) (calls Fix.C exObject exReplaced).2 ∧
    n.AcceptsReply Fix.reply1 ∧ (∃ stack, bad.call = .onNew exBadReply stack) ∧ (∃ e, bad.result = .exc e) ∧
    (∀ x ∈ h3, ∀ d s, x.call ≠ .onNew d s) ∧ m.SendsChallenge i ∧
    (∀ es x, parse Fix.reply1.content.val = .ok es → ofType 151 es = [x] → x.val ≠ [1, 2, 3, 4, 5, 6, 7, 8]) ∧
    ∃ digest, i.name = Fix.ca ++ [⟨8, bytes! "CA"⟩, ⟨8, bytes! "CHALLENGE"⟩, ⟨8, [1, 2, 3, 4, 5, 6, 7, 8]⟩, ⟨2, digest⟩] := by
  refine ⟨[(calls Fix.C exObject exReplaced).1[0]'(by decide +kernel)], (calls Fix.C exObject exReplaced).1[1]'(by decide +kernel), [],
    (calls Fix.C exObject exReplaced).1[2]'(by decide +kernel), [(calls Fix.C exObject exReplaced).1[3]'(by decide +kernel)],
    (calls Fix.C exObject exReplaced).1[4]'(by decide +kernel), interestOfCall ((calls Fix.C exObject exReplaced).1[4]'(by decide +kernel)),
    exReplaced_run, ⟨⟨_, rfl⟩, [bytes! "pin"], by decide +kernel⟩, ⟨_, rfl⟩, ⟨.runtime, by decide +kernel⟩, ?_, ⟨⟨_, _, rfl⟩, by decide +kernel⟩, ?_, ?_⟩
  · intro x hx
    simp only [List.mem_cons, List.not_mem_nil, or_false] at hx
    subst hx
    intro d s h
    cases h
  · have hd : (match parse Fix.reply1.content.val with
      | .ok es => decide ((ofType 151 es).map (·.val) ≠ [[1, 2, 3, 4, 5, 6, 7, 8]])
      | _ => true) = true := by decide +kernel
    intro es x hes hx hv
    rw [hes] at hd
    dsimp only at hd
    rw [hx] at hd
    simp [hv] at hd
  · exact ⟨((interestOfCall ((calls Fix.C exObject exReplaced).1[4]'(by decide +kernel))).name.getLastD ⟨0, []⟩).val, by decide +kernel⟩

/-! ## C122 -/

/-- C122: a call on an object has undefined behaviour only for one of four reasons: the program gave a profile without certificate (and passes
a reply), or a reply that the CA signed holds a salt or a request id that is too long, or a remaining time that does not fit. -/
theorem C122_causes (p : CaProfile) (ty : RequestType) (priv : Bytes) (id : RequestId) (hid : id.length = 8) {h : List Called} {r : Request}
    (hx : ReqRun C (.create p ty priv id) h r) (c : ReqCall) (wf : c.Wf) {u : Ub} (hu : (c.run C r).2 = .ub u) : ReqUb C p r c u := by
  have hf := hx.full (create_full p ty priv hid)
  have hp : r.profile = p := hx.frame.1
  cases c with
  | genNew key nb na v => exact absurd (Res.as_ub hu) (genNewInterest_no_ub C r key nb na v u)
  | genRevoke cert => cases hu
  | select ch => exact absurd (Res.as_ub hu) ((selectOrContinue_full hf ch).1 u)
  | genChallenge m rnd => exact absurd (Res.as_ub hu) ((genChallengeInterest_full hf wf.1).1 u)
  | onNew d s =>
    have hu' : (onNewResponse C r d s).2 = .ub u := Res.as_ub hu
    by_cases hc : r.profile.cert = none
    · have : (onNewResponse C r d s).2 = .ub .nullDeref := by unfold onNewResponse checkReply; rw [hc]
      rw [this] at hu'
      injection hu' with hu'
      subst hu'
      exact .noCertNew d s (by rw [← hp]; exact hc)
    · obtain ⟨e1, ⟨t, ht, hv⟩, es, hes, e, he, hl⟩ := (onNewResponse_full hf hc d wf).2.2 u hu'
      subst e1
      exact .tooLong d s t es e (by rw [← hp]; exact ht) hv hes he hl
  | onChallenge d now =>
    have hu' : (onChallengeResponse C r d now).2 = .ub u := Res.as_ub hu
    by_cases hc : r.profile.cert = none
    · have : (onChallengeResponse C r d now).2 = .ub .nullDeref := by unfold onChallengeResponse checkReply; rw [hc]
      rw [this] at hu'
      injection hu' with hu'
      subst hu'
      exact .noCertChallenge d now (by rw [← hp]; exact hc)
    · obtain ⟨e1, ⟨t, ht, hv⟩, pt, es, hdec, hes, e, he, hty, n, hn, hl⟩ := (onChallengeResponse_full hf hc d now).1 u hu'
      subst e1
      exact .deadline d now t pt es e n (by rw [← hp]; exact ht) hv hdec hes he hty hn hl

/-- C122: the calls that make Interests or select a challenge, and replies that are not signed by the CA, never have undefined behaviour. -/
theorem C122_defined (p : CaProfile) (ty : RequestType) (priv : Bytes) (id : RequestId) (hid : id.length = 8) {h : List Called} {r : Request}
    (hx : ReqRun C (.create p ty priv id) h r) (c : ReqCall) (wf : c.Wf) {t : Cert} (ht : p.cert = some t)
    (hc : ∀ d, (∃ s, c = .onNew d s) ∨ (∃ now, c = .onChallenge d now) → C.verifyData d t = false) (u : Ub) : (c.run C r).2 ≠ .ub u := by
  intro hu
  cases C122_causes p ty priv id hid hx c wf hu with
  | noCertNew d s h => rw [ht] at h; cases h
  | noCertChallenge d now h => rw [ht] at h; cases h
  | tooLong d s t' es e h1 h2 h3 h4 h5 =>
    rw [ht] at h1
    injection h1 with h1
    have := hc d (.inl ⟨s, rfl⟩)
    rw [h1, h2] at this
    cases this
  | deadline d now t' pt es e n h1 h2 h3 h4 h5 h6 h7 h8 =>
    rw [ht] at h1
    injection h1 with h1
    have := hc d (.inr ⟨now, rfl⟩)
    rw [h1, h2] at this
    cases this

-- each cause can occur
def exNoCert : Request := .create { Fix.profile with cert := none } .new [1, 2] (List.replicate 8 0)
example (d : Data) (s : Bytes) : ((ReqCall.onNew d s).run Fix.C exNoCert).2 = .ub .nullDeref := rfl
example (d : Data) (now : Time) : ((ReqCall.onChallenge d now).run Fix.C exNoCert).2 = .ub .nullDeref := rfl

def exLongReply : Data := mkData Fix.C Fix.ca Fix.newInterest.name (mkBlock T.Content [binBlock 151 [1, 2, 3, 4, 5, 6, 7, 8, 9]])
example : ((ReqCall.onNew exLongReply (List.replicate 32 0)).run Fix.C exObject).2 = .ub .overflow := by decide +kernel

/-- a CHALLENGE reply with a remaining time of 2^63 seconds, encrypted with the key of the object -/
def exLateReply : Data :=
  mkData Fix.C Fix.ca Fix.newInterest.name
    (match (encodeAes Fix.C T.Content (List.replicate 16 0) (encodeAll [nniBlock 155 1, nniBlock 167 (2 ^ 63)]) (List.replicate 8 0) [] (List.replicate 8 77)).2 with
     | .ok b => b
     | _ => ⟨0, []⟩)
example : ((ReqCall.onChallenge exLateReply (1001 * nsPerSec)).run Fix.C exObject).2 = .ub .signedOverflow := by decide +kernel

end Ndncert.Props
