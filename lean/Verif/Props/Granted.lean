import Verif.Lemmas.Granted
import Verif.Props.CaHistory
import Verif.Props.CaExec
import Verif.Props.Possession

/-! # The tries and the time a reply announces (C139) -/

namespace Ndncert.Props

section
variable {σ : Type} {C : Crypto} {S : StoreI σ} {Inv : σ → Prop} {cfg : CaConfig}

/-- C139, first part: what is announced. A reply that continues a challenge tells, when the challenge starts, the
tries and seconds of that challenge; when a code was wrong, one try less and the whole seconds that were left of the lifetime of
the code (if the clock was not set back behind the time the code was set). -/
theorem C139_announced (hC : C.Lawful) (hS : LawfulStore C S Inv) (hcfg : NameFits cfg.profile.caPrefix)
    {h : List (Step σ)} {s : CaState σ} (hx : Exec C S cfg h s) {h1 h2 : List (Step σ)} {n : Step σ} (hh : h = h1 ++ n :: h2)
    {i : Interest} {env : Env} (hn : n.Handles (.challenge i) env) {r r1 : RequestState} (ha : Authentic C S cfg n.pre.store i env r)
    (hup : .dbUpdate r1 ∈ n.effects) {d : Data} (hd : .put d ∈ n.effects) :
    ∃ es k, Selects C i r es k ∧
      (r.status = .beforeChallenge → TellsTerms C r d (firstTerms k).chalStatus (firstTerms k).tries (firstTerms k).seconds) ∧
      (r.status ≠ .beforeChallenge → ∃ cs code v, AwaitsCode r cs code ∧ Gives es v ∧ v ≠ code ∧
        (cs.timestamp ≤ env.now → TellsTerms C r d (bytes! "wrong-code") (cs.remainingTries - 1) (secondsLeft k cs.timestamp env.now))) := by
  obtain ⟨div, es, k, out, payload, rr, ho, hm, hst, henc, rfl, hsm, hid, hview⟩ := continues hC hS hcfg hx hh hn ha hup hd
  obtain ⟨hk1, hk2⟩ := hm.req
  refine ⟨es, k, ho.selects, ?_, ?_⟩
  · intro hb
    cases hm with
    | error code info hcode => cases hst
    | wrong cs code given hs hk ha' hg hne ht htr time => exact absurd hb hs
    | code cs code hs hk ha' hg ht => cases hst
    | proof cs cred nonce p hs hk ha' hg hl hv => cases hst
    | start cstat secrets mails hs hsc =>
      have := tellsTerms (cfg := cfg) (name := i.name) (r0 := r) henc rfl rfl rfl rfl
      cases hsc <;> exact this
  · intro hb
    cases hm with
    | error code info hcode => cases hst
    | code cs code hs hk ha' hg ht => cases hst
    | proof cs cred nonce p hs hk ha' hg hl hv => cases hst
    | start cstat secrets mails hs hsc => exact absurd hs hb
    | wrong cs code given hs hk ha' hg hne ht htr time htm =>
      refine ⟨cs, code, given, ha', hg, hne, fun hclock => ?_⟩
      have := tellsTerms (cfg := cfg) (name := i.name) (r0 := r) henc rfl rfl rfl rfl
      dsimp only at this
      rw [lifetime_ns] at ht htm
      have hl : secretLifetime k ≤ 3600 * 1000000000 := by cases k <;> decide
      unfold secondsLeft
      rw [← (seconds_eq ht hclock hl).1]
      rw [htm] at this
      exact this

/-- how a code that is given in time is judged -/
theorem judged (hC : C.Lawful) (hS : LawfulStore C S Inv) (hcfg : NameFits cfg.profile.caPrefix)
    {h : List (Step σ)} {s : CaState σ} (hx : Exec C S cfg h s)
    {i : Interest} {env : Env} (hid : IdFits cfg i) (he : env.Wf) {rr : RequestState} (ha : Authentic C S cfg s.store i env rr)
    {pt : Bytes} (ho : Opens C i rr pt) (hne : pt ≠ []) {es : List Block} (hp : parse pt = .ok es) {k : ChalKind} (hk : k = .pin ∨ k = .email)
    (hs : Selects C i rr es k) (hst : rr.status ≠ .beforeChallenge) {c' : ChallengeState} {code v : Bytes} (haw : AwaitsCode rr c' code)
    (hg : Gives es v) (hnow : env.now - c'.timestamp < secretLifetime k) :
    (v = code → (rr.requestType = .new → Issuable cfg env rr) →
      (onChallenge C S cfg s.store i env).term = .done ∧
      (∃ d, sent (onChallenge C S cfg s.store i env).effects = [d] ∧ TellsStatus C rr d .success) ∧
      (rr.requestType = .new → ∃ c, .issue c ∈ (onChallenge C S cfg s.store i env).effects)) ∧
    (v ≠ code → 1 < c'.remainingTries → ∃ d r2 seconds', onChallenge C S cfg s.store i env = ⟨[.dbUpdate r2, .put d, .callback r2], .done⟩ ∧
      TellsTerms C rr d (bytes! "wrong-code") (c'.remainingTries - 1) seconds') ∧
    (v ≠ code → c'.remainingTries = 1 → ∃ d, IsErrorReply C cfg i ErrorCode.OUT_OF_TRIES d ∧
      onChallenge C S cfg s.store i env = ⟨[.dbDelete rr.requestId, .put d], .done⟩) := by
  have hi := (hx.life hC hS hcfg).1
  have hiv := hx.ivsOk hC hS hcfg ha.pending
  obtain ⟨hwait, hty, _, hval⟩ := hx.stored hC hS hcfg ha.pending
  have hctr := waiting_counter hwait
  obtain ⟨div, _, heq⟩ := onChallenge_opens hS hi hid he ha hiv ho
  obtain ⟨pt', sel, _, _, _, hsel, hsv⟩ := id hs
  obtain ⟨b, hb, rfl⟩ := id hg
  have hcode : ∀ out, handleCode k env es { rr with decryptionIv := div } = .ok out →
      handleChallenge C k env es { rr with decryptionIv := div } = .ok out := by
    intro out h
    rcases hk with rfl | rfl
    · show handlePin env es _ = _
      unfold handlePin
      rw [if_neg hst]
      exact h
    · show handleEmail env es _ = _
      unfold handleEmail
      rw [if_neg hst]
      exact h
  obtain ⟨hright, hwrong⟩ := handleCode_in_time (k := k) (q := { rr with decryptionIv := div }) haw.1 haw.2.1 haw.2.2 hb hnow
  refine ⟨?_, ?_, ?_⟩
  · intro hv hiss
    have hout := hright hv
    have hm := handleCode_cases C hk (r := { rr with decryptionIv := div }) hst hout
    rw [heq, processParams_selects hne hp hsel hsv (hcode _ hout), if_neg (by simp [returnWithSuccess])]
    have hdone := finishChallenge_done (cfg := cfg) (i := i) (pre := []) hwait he hm rfl hty (fun h => ⟨hval h, hiss h⟩)
    have := finish_passed (cfg := cfg) (i := i) (r := rr) (q := (returnWithSuccess k { rr with decryptionIv := div }).req) rfl hty rfl rfl hdone
    exact ⟨hdone, this⟩
  · intro hv htr
    have hout := hwrong hv htr
    rw [heq, processParams_selects hne hp hsel hsv (hcode _ hout), if_neg (by simp [returnWithNewStatus])]
    obtain ⟨d, r2, h1, h2⟩ := finish_wrong (cfg := cfg) (i := i) (r := rr) (env := env) (q := (returnWithNewStatus k env { rr with decryptionIv := div } WRONG_CODE c'.secrets (c'.remainingTries - 1)
      ((k.lifetime * nsPerSec - (env.now - c'.timestamp)).tdiv nsPerSec)).req) rfl rfl rfl he hiv.enc hctr rfl rfl
    exact ⟨d, r2, _, h1, h2⟩
  · intro hv htr
    exact C33_last_try hS hi hid he ha hiv ho hne hp hk hs hst haw hg hv (by omega) hnow

/-- C139, second part: what is announced is granted. A reply to a CHALLENGE of a request continues the challenge `k`, which asks for a
code, when the clock was not behind the time the code was set. It announces some tries, one at least, and some seconds. Until another CHALLENGE of this request is accepted, whatever else
happens to the CA, a code given in the same challenge within the announced seconds (less the microsecond to which times are stored)
is judged by its value only: the right one finishes the request, and for a NEW the certificate is signed; a wrong one leaves one
try less, and only the last removes the request. -/
theorem C139_granted (hC : C.Lawful) (hS : LawfulStore C S Inv) (hcfg : NameFits cfg.profile.caPrefix)
    {h1 h2 : List (Step σ)} {n : Step σ} {s : CaState σ} (hx : Exec C S cfg (h1 ++ n :: h2) s)
    {i0 : Interest} {env0 : Env} (hn : n.Handles (.challenge i0) env0) {r0 r1 : RequestState} (ha0 : Authentic C S cfg n.pre.store i0 env0 r0)
    (hup : .dbUpdate r1 ∈ n.effects) {d0 : Data} (hd0 : .put d0 ∈ n.effects)
    (hclock : ∀ cs, r0.challengeState = some cs → cs.timestamp ≤ env0.now) (hno : NothingStored r0.requestId h2) :
    ∃ es0 k status tries seconds, Selects C i0 r0 es0 k ∧ TellsTerms C r0 d0 status tries seconds ∧ 1 ≤ tries ∧ tries ≤ 3 ∧
      ∀ (i : Interest) (env : Env) (r : RequestState) (pt : Bytes) (es : List Block) (cs : ChallengeState) (code v : Bytes),
        IdFits cfg i → env.Wf → Authentic C S cfg s.store i env r → r.requestId = r0.requestId → Opens C i r pt → pt ≠ [] → parse pt = .ok es →
        (k = .pin ∨ k = .email) → Selects C i r es k → AwaitsCode r cs code → Gives es v →
        env.now + 1000 ≤ env0.nowStore + seconds * 1000000000 →
        (v = code → (r.requestType = .new → Issuable cfg env r) →
          (onChallenge C S cfg s.store i env).term = .done ∧
          (∃ d, sent (onChallenge C S cfg s.store i env).effects = [d] ∧ TellsStatus C r d .success) ∧
          (r.requestType = .new → ∃ c, .issue c ∈ (onChallenge C S cfg s.store i env).effects)) ∧
        (v ≠ code → 1 < tries → ∃ d r2 seconds', onChallenge C S cfg s.store i env = ⟨[.dbUpdate r2, .put d, .callback r2], .done⟩ ∧
          TellsTerms C r d (bytes! "wrong-code") (tries - 1) seconds') ∧
        (v ≠ code → tries = 1 → ∃ d, IsErrorReply C cfg i ErrorCode.OUT_OF_TRIES d ∧
          onChallenge C S cfg s.store i env = ⟨[.dbDelete r.requestId, .put d], .done⟩) := by
  obtain ⟨div0, es0, k, out, payload, rr, ho0, hm0, hst0, henc0, rfl, hsm, hid0, hview⟩ := continues hC hS hcfg hx rfl hn ha0 hup hd0
  obtain ⟨hk1, hk2⟩ := hm0.req
  obtain ⟨es', iv, _, hr1, _⟩ := challengeEncode_ok henc0
  obtain ⟨hx1, _⟩ := hx.split _ _ _ rfl
  obtain ⟨c, hc1, hc2, hc5, hc3, hc4⟩ := announced_state hm0 hst0 (fun cs h => ⟨hclock cs h, by
    rcases hx1.waiting hC hS hcfg ha0.pending with hw | ⟨k', e', cs', hw⟩
    · have h' : r0.challengeState = some cs := h
      rw [hw.2.1] at h'; cases h'
    · have h' : r0.challengeState = some cs := h
      rw [hw.state] at h'; cases h'; exact hw.tries.2⟩)
  have hterms := tellsTerms (cfg := cfg) (name := i0.name) (r0 := r0) henc0 hk1 hk2 hst0 hc1
  generalize (c.remainingTime % 2 ^ 64).toNat = seconds at hterms hc4
  have hr1c : r1.challengeState = some c := by rw [hr1]; exact hc1
  have hr1s : r1.status = .challenge := by rw [hr1]; exact hst0
  obtain ⟨c', g1, _, g3, _, g4, g5⟩ := hsm.chal hr1c
  have hrs : rr.status = .challenge := by rw [← hsm.fields.2.2.2.2.2.2.2.1]; exact hr1s
  have hview' := nothingStored hC hS hcfg h2 hx hno
  rw [hview] at hview'
  refine ⟨es0, k, c.challengeStatus, c.remainingTries, seconds, ho0.selects, hterms, hc2, hc5, ?_⟩
  · intro i env r pt es cs code v hid he ha hrid ho hne hp hk hs haw hg htime
    have hi := (hx.life hC hS hcfg).1
    have hpend := ha.pending
    rw [hrid] at hpend
    have hrr : rr = r := by
      rcases hview' with h | h
      · rw [hpend] at h; cases h
      · rw [hpend] at h; cases h; rfl
    subst hrr
    have hcs : c' = cs := by
      have := haw.1
      rw [g1] at this; cases this; rfl
    subst hcs
    have hst : rr.status ≠ .beforeChallenge := by rw [hrs]; simp
    have hnow : env.now - c'.timestamp < secretLifetime k := by
      rw [hc3] at g4
      exact in_time htime hc4 g4
    have := judged hC hS hcfg hx hid he ha ho hne hp hk hs hst haw hg hnow
    rw [g3] at this
    exact this

end

/-- the elements of the right code of the run -/
def exRight : List Block :=
  [binBlock T.SelectedChallenge (bytes! "pin"), binBlock T.ParameterKey (bytes! "code"), binBlock T.ParameterValue (secretCode Fix.env2.word32)]

/-- the third step of the run, the wrong code, meets what is assumed of the announcing step, with clocks that were not set back; -/
example : Authentic Fix.C Fix.S Fix.cfg Fix.st2.store Fix.chal2 Fix.env3 (Fix.stored Fix.st2) ∧
    (∃ r1, Effect.dbUpdate r1 ∈ (Fix.ev3.run Fix.C Fix.S Fix.cfg Fix.st2).1 ∧ r1.requestId = (Fix.stored Fix.st2).requestId ∧ r1.challengeType = bytes! "pin") ∧
    (sent (Fix.ev3.run Fix.C Fix.S Fix.cfg Fix.st2).1).length = 1 ∧
    ((Fix.stored Fix.st2).challengeState.map fun cs => decide (cs.timestamp ≤ Fix.env3.now)) = some true :=
  ⟨authenticOk_sound (by decide +kernel), updates_of (by decide +kernel), by decide +kernel, by decide +kernel⟩

/-- and the fourth, the right code, what is assumed of the code, within the 3599 seconds announced -/
example : Authentic Fix.C Fix.S Fix.cfg Fix.st3.store Fix.chal3 Fix.env4 (Fix.stored Fix.st3) ∧
    (Fix.stored Fix.st3).requestId = (Fix.stored Fix.st2).requestId ∧
    Opens Fix.C Fix.chal3 (Fix.stored Fix.st3) (encodeAll exRight) ∧ parse (encodeAll exRight) = .ok exRight ∧
    Selects Fix.C Fix.chal3 (Fix.stored Fix.st3) exRight .pin ∧ Gives exRight (secretCode Fix.env2.word32) ∧
    ((Fix.stored Fix.st3).challengeState.map fun cs => (decide (cs.challengeStatus = bytes! "wrong-code"),
      decide (secretGet cs.secrets (bytes! "code") = .ok (secretCode Fix.env2.word32)), cs.remainingTries, cs.remainingTime)) = some (true, true, 2, 3599) ∧
    ((Fix.stored Fix.st2).challengeState.map fun cs => secondsLeft .pin cs.timestamp Fix.env3.now) = some 3599 ∧
    Fix.env4.now + 1000 ≤ Fix.env3.nowStore + 3599 * 1000000000 :=
  ⟨authenticOk_sound (by decide +kernel), by decide +kernel, opensOk_sound (by decide +kernel), by decide +kernel,
    selects_of (pt := encodeAll exRight) (by decide +kernel) (by decide +kernel) (by decide +kernel) (by decide +kernel),
    ⟨_, by rfl, rfl⟩, by decide +kernel, by decide +kernel, by decide +kernel⟩

end Ndncert.Props
