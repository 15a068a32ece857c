import Verif.Lemmas.CaNewOutcome
import Verif.Spec.Fixtures

/-! # NEW and REVOKE at the CA (C18-C26) -/

namespace Ndncert.Props

variable {σ : Type} (C : Crypto) (S : StoreI σ) (cfg : CaConfig) (idKey : Bytes) (st : σ) (i : Interest) (env : Env)

/-! ## C18 -/

/-- C18: a request is only added for a certificate, carried in the Interest, whose identity satisfies the name policy. -/
theorem C18_name_policy {ty : RequestType} (hty : ty = .new ∨ ty = .revoke) {r : RequestState}
    (h : Effect.dbAdd r ∈ (onNewRenewRevoke C S cfg idKey st ty i env).effects) :
    (∃ pub, Submits C ty i pub r.cert) ∧ IsCertName r.cert.name ∧
    cfg.profile.caPrefix <+: identityOf r.cert.name ∧ cfg.profile.caPrefix.length < (identityOf r.cert.name).length ∧
    (∀ k, cfg.profile.maxSuffixLength = some k → (identityOf r.cert.name).length ≤ cfg.profile.caPrefix.length + k) := by
  obtain ⟨pub, _, _, h1, _, _, _, h5, _⟩ := added_case C S cfg idKey st i env hty h
  exact ⟨⟨pub, h1⟩, h5⟩

/-- an Interest made by the library's requester is accepted -/
example : ∃ r, Effect.dbAdd r ∈ (onNewRenewRevoke Fix.C memStore Fix.cfg Fix.idKey [] .new Fix.newInterest (Fix.env 1000)).effects := by
  have : (onNewRenewRevoke Fix.C memStore Fix.cfg Fix.idKey [] .new Fix.newInterest (Fix.env 1000)).effects.any
      (fun e => match e with | .dbAdd _ => true | _ => false) = true := by decide +kernel
  rw [List.any_eq_true] at this
  obtain ⟨x, hx, hm⟩ := this
  cases x with
  | dbAdd r => exact ⟨r, hx⟩
  | _ => cases hm

/-! ## C19 -/

/-- C19: an accepted NEW states a validity period that satisfies the policy at the time of the check. -/
theorem C19_validity_policy {r : RequestState}
    (h : Effect.dbAdd r ∈ (onNewRenewRevoke C S cfg idKey st .new i env).effects) :
    ∃ nb na, r.cert.validity = some (nb, na) ∧ env.now - 120 * 1000000000 ≤ nb ∧
      na ≤ env.now + cfg.profile.maxValidityPeriod * 1000000000 ∧ nb < na := by
  obtain ⟨_, _, _, _, _, _, _, _, h6, _⟩ := added_case C S cfg idKey st i env (.inl rfl) h
  exact (h6 rfl).1

/-! ## C20 -/

/-- C20, NEW: the submitted certificate and the Interest both verify under the certificate's own key. -/
theorem C20_new_possession {r : RequestState}
    (h : Effect.dbAdd r ∈ (onNewRenewRevoke C S cfg idKey st .new i env).effects) :
    (∃ pub, Submits C .new i pub r.cert) ∧ C.verifyCert r.cert r.cert = true ∧ C.verifyInterest i r.cert = true := by
  obtain ⟨pub, _, _, h1, _, _, _, _, h6, _⟩ := added_case C S cfg idKey st i env (.inl rfl) h
  exact ⟨⟨pub, h1⟩, (h6 rfl).2⟩

/-- C20, REVOKE: the submitted certificate verifies under the CA's current certificate. -/
theorem C20_revoke_origin {r : RequestState}
    (h : Effect.dbAdd r ∈ (onNewRenewRevoke C S cfg idKey st .revoke i env).effects) :
    (∃ pub, Submits C .revoke i pub r.cert) ∧ C.verifyCert r.cert env.caCert = true := by
  obtain ⟨pub, _, _, h1, _, _, _, _, _, h7, _⟩ := added_case C S cfg idKey st i env (.inr rfl) h
  exact ⟨⟨pub, h1⟩, h7 rfl⟩

/-- a certificate issued by the CA of the fixtures for `key` -/
def exIssued : Cert :=
  let (w, l, d) := Fix.C.signCert Fix.ca (Fix.key ++ [ndncertComponent, ⟨54, [3]⟩]) [1, 7] (0, 10 ^ 12)
  { wire := w, name := Fix.key ++ [ndncertComponent, ⟨54, [3]⟩], content := some [1, 7], keyLocator := some l,
    validity := some (0, 10 ^ 12), digest := d }

/-- its revocation request -/
def exRevoke : Interest := (genRevokeInterest Fix.C Fix.requester exIssued).getD Fix.blankInterest

/-- a REVOKE made by the library's requester is accepted -/
example : ∃ r, Effect.dbAdd r ∈ (onNewRenewRevoke Fix.C memStore Fix.cfg Fix.idKey [] .revoke exRevoke (Fix.env 1000)).effects := by
  have : (onNewRenewRevoke Fix.C memStore Fix.cfg Fix.idKey [] .revoke exRevoke (Fix.env 1000)).effects.any
      (fun e => match e with | .dbAdd _ => true | _ => false) = true := by decide +kernel
  rw [List.any_eq_true] at this
  obtain ⟨x, hx, hm⟩ := this
  cases x with
  | dbAdd r => exact ⟨r, hx⟩
  | _ => cases hm

/-! ## C21 -/

section
variable {Inv : σ → Prop}

/-- C21, first half: accepted if and only if every check of the policy holds. -/
theorem C21_accepted_iff_policy (hC : C.Lawful) (hS : LawfulStore C S Inv) (hi : Inv st)
    (hcfg : NameFits cfg.profile.caPrefix) {ty : RequestType} (hty : ty = .new ∨ ty = .revoke) :
    Accepted (onNewRenewRevoke C S cfg idKey st ty i env) ↔
      ∀ q ∈ acceptanceChecks C S cfg idKey st ty i env, q.1 := by
  by_cases hca : env.caCert.validity = none
  · constructor
    · rintro ⟨r, h⟩
      obtain ⟨_, _, _, _, ⟨nb, na, h2, _⟩, _⟩ := added_case C S cfg idKey st i env hty h
      rw [hca] at h2; cases h2
    · intro h
      obtain ⟨nb, na, h2, _⟩ := h _ (List.mem_cons_self ..)
      rw [hca] at h2; cases h2
  · rcases new_outcome (idKey := idKey) (i := i) hC hS hi hcfg hty hca with ⟨h1, h2⟩ | ⟨code, info, ⟨pre, p, post, h1, _, h3⟩, h2⟩ | ⟨_, _, ⟨q, hq, hnq⟩, h2⟩
    · exact ⟨fun _ => h1, fun _ => h2⟩
    · constructor
      · rintro ⟨r, hr⟩; rw [h2] at hr; simp at hr
      · intro h; exact absurd (h (p, code) (by rw [h1]; simp)) h3
    · constructor
      · rintro ⟨r, hr⟩; rw [h2] at hr; simp at hr
      · intro h; exact absurd (h q hq) hnq

/-- C21, second half, as far as it is true: if the CA certificate and a submitted NEW certificate state a validity
period, a refused Interest is answered by exactly one error reply with the code of the first failing check.
Missing: certificates without validity period, see `C21_false`. -/
theorem C21_first_failing_check_partial (hC : C.Lawful) (hS : LawfulStore C S Inv) (hi : Inv st)
    (hcfg : NameFits cfg.profile.caPrefix) {ty : RequestType} (hty : ty = .new ∨ ty = .revoke)
    (hca : env.caCert.validity ≠ none)
    (hcert : ∀ pub cert, ty = .new → Submits C ty i pub cert → cert.validity ≠ none)
    (h : ¬ Accepted (onNewRenewRevoke C S cfg idKey st ty i env)) :
    ∃ code d, FirstFailing (acceptanceChecks C S cfg idKey st ty i env) code ∧ IsErrorReply C cfg i code d ∧
      onNewRenewRevoke C S cfg idKey st ty i env = { effects := [.put d], term := .done } := by
  rcases new_outcome (idKey := idKey) (i := i) hC hS hi hcfg hty hca with ⟨_, h2⟩ | ⟨code, info, h1, h2⟩ | ⟨h1, ⟨pub, cert, h2, h3⟩, _⟩
  · exact absurd h2 h
  · refine ⟨code, _, h1, ⟨?_, info, rfl⟩, h2⟩
    obtain ⟨pre, p, post, he, _⟩ := h1
    have hall : ∀ q ∈ acceptanceChecks C S cfg idKey st ty i env, q.2 ≠ 0 := by
      intro q hq
      rcases hty with rfl | rfl <;>
      · simp only [acceptanceChecks, List.cons_append, List.nil_append, List.mem_cons, List.not_mem_nil, or_false] at hq
        rcases hq with rfl | rfl | rfl | rfl | rfl | rfl | rfl | rfl | rfl <;> exact Nat.succ_ne_zero _
    exact hall (p, code) (by rw [he]; simp)
  · exact absurd h3 (hcert pub cert h1 h2)

/-- the hypotheses hold for a NEW whose period is too long -/
def exTooLong : Interest := Fix.interestOf (genNewInterest Fix.C Fix.requester Fix.key (1000 * nsPerSec) (100000 * nsPerSec) ⟨54, [2]⟩).2

example : (∃ d, onNewRenewRevoke Fix.C memStore Fix.cfg Fix.idKey [] .new exTooLong (Fix.env 1000) =
      { effects := [.put d], term := .done } ∧ errorDecode d.content = (ErrorCode.BAD_VALIDITY_PERIOD,
        bytes! "An invalid validity period is being requested.")) ∧
    (∃ pub cert, Submits Fix.C .new exTooLong pub cert ∧ cert.validity ≠ none) := by
  constructor
  · exact ⟨Fix.firstData (onNewRenewRevoke Fix.C memStore Fix.cfg Fix.idKey [] .new exTooLong (Fix.env 1000)).effects,
      by decide +kernel, by decide +kernel⟩
  · have h : (Toy.okOpt (requestParamsDecode Fix.C exTooLong.params .new)).any (fun x => x.2.validity.isSome) = true := by
      decide +kernel
    unfold Submits
    cases hd : requestParamsDecode Fix.C exTooLong.params .new with
    | ok x =>
      rw [hd] at h
      refine ⟨x.1, x.2, rfl, ?_⟩
      intro hn
      simp [Toy.okOpt, hn] at h
    | exc e => rw [hd] at h; simp [Toy.okOpt] at h
    | ub u => rw [hd] at h; simp [Toy.okOpt] at h

end

/-- parameters of a NEW whose certificate has no ValidityPeriod -/
def exNoPeriodParams : Block :=
  requestParamsEncode .new [4, 1, 2]
    { Fix.caCert with wire := Toy.wire (Fix.key ++ [gcomp (bytes! "cert-request"), ⟨54, [2]⟩]) (some [1]) (some Fix.key) none [1] }

/-- such an Interest; `alice`'s key needs not even sign it -/
def exNoPeriod : Interest := ⟨Fix.ca ++ [gcomp (bytes! "CA"), gcomp (bytes! "NEW"), ⟨2, []⟩], some exNoPeriodParams, []⟩

/-- C21 is false as stated: a NEW whose certificate states no validity period is not answered, the exception
leaves the handler. -/
theorem C21_false : ∃ (C : Crypto) (cfg : CaConfig) (idKey : Bytes) (i : Interest) (env : Env),
    C.Lawful ∧ NameFits cfg.profile.caPrefix ∧ env.Wf ∧
    ¬ Accepted (onNewRenewRevoke C memStore cfg idKey [] .new i env) ∧
    sent (onNewRenewRevoke C memStore cfg idKey [] .new i env).effects = [] :=
  ⟨Fix.C, Fix.cfg, Fix.idKey, exNoPeriod, Fix.env 1000, Toy.lawful, by decide +kernel, Fix.env_wf _ _ _, (by
    have h : (onNewRenewRevoke Fix.C memStore Fix.cfg Fix.idKey [] .new exNoPeriod (Fix.env 1000)).effects = [] := by
      decide +kernel
    rintro ⟨r, hr⟩; rw [h] at hr; cases hr), by decide +kernel⟩

/-! ## C22 -/

/-- C22: while the CA's certificate states a validity period that does not contain the present, every NEW and REVOKE is
answered with BAD_VALIDITY_PERIOD, and that reply is the only effect. -/
theorem C22_expired_ca {nb na : Time} (hca : env.caCert.validity = some (nb, na)) (hexp : env.nowCa < nb ∨ na < env.nowCa)
    {ty : RequestType} :
    ∃ d, IsErrorReply C cfg i ErrorCode.BAD_VALIDITY_PERIOD d ∧
      onNewRenewRevoke C S cfg idKey st ty i env = { effects := [.put d], term := .done } := by
  refine ⟨_, ⟨by decide, bytes! "Server certificate invalid/expired", rfl⟩, ?_⟩
  unfold onNewRenewRevoke certIsValid
  rw [hca]
  have : decide (nb ≤ env.nowCa ∧ env.nowCa ≤ na) = false := by
    apply decide_eq_false
    intro h
    have h1 : nb ≤ env.nowCa := h.1
    have h2 : env.nowCa ≤ na := h.2
    rcases hexp with h | h
    · exact absurd h1 (Int.not_le.mpr h)
    · exact absurd h2 (Int.not_le.mpr h)
  dsimp only
  rw [this]
  rfl

example : (Fix.env 2000000000).caCert.validity = some (0, 10 ^ 18) ∧ ((10 : Int) ^ 18 < (Fix.env 2000000000).nowCa) := by
  constructor <;> decide

/-! ## C23 -/

/-- C23: a NEW/REVOKE that is not accepted has no effect but at most one error reply; in particular the storage is
unchanged and the callback does not fire. -/
theorem C23_refused_no_trace {ty : RequestType} (hty : ty = .new ∨ ty = .revoke)
    (h : ¬ Accepted (onNewRenewRevoke C S cfg idKey st ty i env)) :
    ((onNewRenewRevoke C S cfg idKey st ty i env).effects = [] ∨
      ∃ code d, IsErrorReply C cfg i code d ∧ (onNewRenewRevoke C S cfg idKey st ty i env).effects = [.put d]) ∧
    applyEffects S st (onNewRenewRevoke C S cfg idKey st ty i env).effects = st ∧
    callbacks (onNewRenewRevoke C S cfg idKey st ty i env).effects = [] := by
  have hc := onNew_cases C S cfg idKey st ty hty i env
  generalize onNewRenewRevoke C S cfg idKey st ty i env = o at h hc
  cases hc with
  | accept pub cert secret st' _ _ _ _ _ _ _ _ => exact absurd ⟨_, List.mem_cons_self ..⟩ h
  | error code info hcode => exact ⟨.inr ⟨code, _, ⟨hcode, info, rfl⟩, rfl⟩, rfl, rfl⟩
  | threwCa e _ => exact ⟨.inl rfl, rfl, rfl⟩
  | threw pub cert _ _ _ e => exact ⟨.inl rfl, rfl, rfl⟩
  | undefined r u _ => exact ⟨.inl rfl, rfl, rfl⟩

example : ¬ Accepted (onNewRenewRevoke Fix.C memStore Fix.cfg Fix.idKey [] .new exTooLong (Fix.env 1000)) := by
  have h : (onNewRenewRevoke Fix.C memStore Fix.cfg Fix.idKey [] .new exTooLong (Fix.env 1000)).effects.any
      (fun e => match e with | .dbAdd _ => true | _ => false) = false := by decide +kernel
  rintro ⟨r, hr⟩
  have := List.any_eq_false.mp h _ hr
  simp at this

/-! ## C24 -/

/-- C24: an accepted NEW/REVOKE adds exactly one request, absent before, before its challenge, of the right type, with
the submitted certificate, no challenge and empty IVs; it leaves every other request alone; and it sends exactly one
reply, which carries the request's id. -/
theorem C24_accepted_one_fresh_request {Inv : σ → Prop} (hC : C.Lawful) (hS : LawfulStore C S Inv) (hi : Inv st)
    (hcfg : NameFits cfg.profile.caPrefix) {ty : RequestType} (hty : ty = .new ∨ ty = .revoke)
    (h : Accepted (onNewRenewRevoke C S cfg idKey st ty i env)) :
    ∃ r pub, Submits C ty i pub r.cert ∧ r.requestType = ty ∧ r.status = .beforeChallenge ∧ r.caPrefix = cfg.profile.caPrefix ∧
      r.challengeState = none ∧ r.challengeType = [] ∧ r.encryptionIv = [] ∧ r.decryptionIv = [] ∧
      S.view st r.requestId = none ∧
      (∀ id, S.view (applyEffects S st (onNewRenewRevoke C S cfg idKey st ty i env).effects) id =
        if id = r.requestId then some r else S.view st id) ∧
      sent (onNewRenewRevoke C S cfg idKey st ty i env).effects =
        [{ name := i.name,
           content := requestEncode (C.ecdhPub env.ecdhPriv) env.salt r.requestId cfg.profile.supportedChallenges,
           sig := C.signData cfg.profile.caPrefix i.name
             (requestEncode (C.ecdhPub env.ecdhPriv) env.salt r.requestId cfg.profile.supportedChallenges) }] := by
  obtain ⟨r, hr⟩ := h
  obtain ⟨pub, secret, st', h1, _, _, _, _, _, _, h8, h9, h10⟩ := added_case C S cfg idKey st i env hty hr
  have hstor : Storable C r := by rw [h8]; exact newRequestState_storable hC hcfg h1 idKey secret env.salt
  have hnone := (add_iff hS hi hstor).mp ⟨st', h9⟩
  obtain ⟨st'', r', ha, _, hsame, hview⟩ := hS.add_absent st r hi hstor hnone
  rw [h9] at ha
  cases ha
  have hst : r.requestType = ty ∧ r.status = .beforeChallenge ∧ r.caPrefix = cfg.profile.caPrefix ∧
      r.challengeState = none ∧ r.challengeType = [] ∧ r.encryptionIv = [] ∧ r.decryptionIv = [] := by
    rw [h8]; exact ⟨rfl, rfl, rfl, rfl, rfl, rfl, rfl⟩
  have hrr : r' = r := by
    rcases hsame with ⟨_, _, h⟩ | ⟨ca, cb, h, _⟩
    · exact h.symm
    · rw [hst.2.2.2.1] at h; cases h
  refine ⟨r, pub, h1, hst.1, hst.2.1, hst.2.2.1, hst.2.2.2.1, hst.2.2.2.2.1, hst.2.2.2.2.2.1, hst.2.2.2.2.2.2, hnone, ?_, ?_⟩
  · rw [h10]
    simp only [acceptOutcome, applyEffects, List.foldl_cons, List.foldl_nil, applyEffect, h9]
    rw [← hrr] at hview ⊢
    rw [hrr] at hview ⊢
    exact hview
  · rw [h10]; rfl

/-! ## C26 -/

/-- C26 as far as it is true: if the CA certificate and a submitted NEW certificate state a validity period, a NEW or
REVOKE is answered by exactly one Data, named as the Interest, and the handler returns. Missing: certificates without
validity period, see `C26_false`. -/
theorem C26_one_reply_partial {Inv : σ → Prop} (hC : C.Lawful) (hS : LawfulStore C S Inv) (hi : Inv st)
    (hcfg : NameFits cfg.profile.caPrefix) {ty : RequestType} (hty : ty = .new ∨ ty = .revoke)
    (hca : env.caCert.validity ≠ none)
    (hcert : ∀ pub cert, ty = .new → Submits C ty i pub cert → cert.validity ≠ none) :
    (onNewRenewRevoke C S cfg idKey st ty i env).term = .done ∧
    ∃ d, sent (onNewRenewRevoke C S cfg idKey st ty i env).effects = [d] ∧ d.name = i.name := by
  by_cases h : Accepted (onNewRenewRevoke C S cfg idKey st ty i env)
  · obtain ⟨r, hr⟩ := h
    obtain ⟨_, _, _, _, _, _, _, _, _, _, _, _, h⟩ := added_case C S cfg idKey st i env hty hr
    rw [h]
    exact ⟨rfl, _, rfl, rfl⟩
  · obtain ⟨code, d, _, ⟨_, info, h2⟩, h3⟩ := C21_first_failing_check_partial C S cfg idKey st i env hC hS hi hcfg hty hca hcert h
    rw [h3]
    exact ⟨rfl, d, rfl, by rw [h2]⟩

/-- C26 is false as stated: an Interest anyone can send, carrying a certificate without validity period, gets no reply
and the exception leaves the handler, which ends the process. -/
theorem C26_false : ∃ (C : Crypto) (cfg : CaConfig) (idKey : Bytes) (i : Interest) (env : Env) (e : Exc),
    C.Lawful ∧ NameFits cfg.profile.caPrefix ∧ env.Wf ∧ env.caCert.validity ≠ none ∧
    onNewRenewRevoke C memStore cfg idKey [] .new i env = { effects := [], term := .threw e } :=
  ⟨Fix.C, Fix.cfg, Fix.idKey, exNoPeriod, Fix.env 1000, .tlv, Toy.lawful, by decide +kernel, Fix.env_wf _ _ _,
    by decide, by decide +kernel⟩

end Ndncert.Props
