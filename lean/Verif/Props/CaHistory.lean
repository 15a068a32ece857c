import Verif.Lemmas.Opens
import Verif.Lemmas.CaNewOutcome
import Verif.Spec.Run

/-! # The life of one request (C25, C32, C33, C38) -/

namespace Ndncert.Props

section
variable {σ : Type} {C : Crypto} {S : StoreI σ} {Inv : σ → Prop} {cfg : CaConfig}

/-! ## C32 -/

/-- C32, first part: not more certificates are handed out than NEW were accepted, whatever crashes occur. -/
theorem C32_at_most_one (hC : C.Lawful) (hS : LawfulStore C S Inv) (hcfg : NameFits cfg.profile.caPrefix)
    {h : List (Step σ)} {s : CaState σ} (hx : Exec C S cfg h s) :
    (handedOut h).length ≤ (h.filter Step.acceptsNew).length := by
  obtain ⟨l, _, hle⟩ := hx.count hC hS hcfg
  omega

/-- C32, second part: a step that signs a certificate and sends a reply processed a CHALLENGE of a pending request, and
removed the request from the storage before it sent the reply. -/
theorem C32_removed_before_reply (hC : C.Lawful) (hS : LawfulStore C S Inv) (hcfg : NameFits cfg.profile.caPrefix)
    {h : List (Step σ)} {s : CaState σ} (hx : Exec C S cfg h s) {h1 h2 : List (Step σ)} {n : Step σ} (hh : h = h1 ++ n :: h2)
    {c : Cert} (hc : .issue c ∈ n.effects) {d : Data} (hd : .put d ∈ n.effects) :
    ∃ i env r post, n.Handles (.challenge i) env ∧ Authentic C S cfg n.pre.store i env r ∧
      n.effects = [.issue c, .dbDelete r.requestId] ++ .put d :: post ∧ (∀ d', .put d' ∉ post) := by
  obtain ⟨hx1, hwf, _, heff, _⟩ := hx.split _ _ _ hh
  obtain ⟨i, env, r, post, h1, h2, _, h4, h5⟩ := issue_sent heff hc hd
  obtain ⟨hmw, hew⟩ := hwf _ _ h1
  refine ⟨i, env, r, post, h1, (verified_authentic hS (hx1.life hC hS hcfg).1 (idFits_of_wf hmw) hew.stack).mp h2, h4, ?_⟩
  rcases h5 with rfl | ⟨r2, rfl⟩ <;> simp

/-- C32, third part: once a request was removed, a CHALLENGE that names its id is answered with an error and has no other
effect, until a request with this id is created again. -/
theorem C32_then_error (hC : C.Lawful) (hS : LawfulStore C S Inv) (hcfg : NameFits cfg.profile.caPrefix)
    {h : List (Step σ)} {s : CaState σ} (hx : Exec C S cfg h s) {h1 h2 : List (Step σ)} {n : Step σ} (hh : h = h1 ++ n :: h2)
    {id : RequestId} (hdel : .dbDelete id ∈ n.effects) (hno : ∀ m ∈ h2, ∀ r, .dbAdd r ∈ m.effects → r.requestId ≠ id)
    {i : Interest} {env : Env} (hid : IdFits cfg i) (he : env.Wf) (hn : Names cfg env i id) :
    OnlyError C cfg i (onChallenge C S cfg s.store i env) :=
  absent_onlyError hS (hx.life hC hS hcfg).1 hid he hn (gone hC hS hcfg hx hh hdel hno)

/-! ## C33 -/

/-- C33, first part: for one accepted request at most three CHALLENGEs are answered after its challenge was started, so
at most three guesses are answered, right or wrong. -/
theorem C33_three_attempts (hC : C.Lawful) (hS : LawfulStore C S Inv) (hcfg : NameFits cfg.profile.caPrefix)
    {h : List (Step σ)} {s : CaState σ} (hx : Exec C S cfg h s) {h1 h2 : List (Step σ)} {m : Step σ} (hh : h = h1 ++ m :: h2)
    {r0 : RequestState} (_hadd : .dbAdd r0 ∈ m.effects) (hno : ∀ x ∈ h2, ∀ r, .dbAdd r ∈ x.effects → r.requestId ≠ r0.requestId)
    {l : List (Step σ)} (hl : l.Sublist h2) (ha : ∀ n ∈ l, AnswersAttempt C S cfg r0.requestId n) : l.length ≤ 3 := by
  have := attempts hC hS hcfg hx (h1 ++ [m]) h2 (by rw [hh]; simp) hno l hl ha
  omega

/-- C33, second part: with a wrong code on the last try, within the lifetime of the code, the request is removed and the
reply is OUT_OF_TRIES. (Then `C32_then_error` applies.) -/
theorem C33_last_try (hS : LawfulStore C S Inv) {st : σ} (hi : Inv st) {i : Interest} {env : Env} (hid : IdFits cfg i) (he : env.Wf)
    {r : RequestState} (ha : Authentic C S cfg st i env r) (hiv : IvsOk r) {pt : Bytes} (ho : Opens C i r pt) (hne : pt ≠ [])
    {es : List Block} (hp : parse pt = .ok es) {k : ChalKind} (hk : k = .pin ∨ k = .email) (hs : Selects C i r es k)
    (hst : r.status ≠ .beforeChallenge) {cs : ChallengeState} {code v : Bytes} (hcs : AwaitsCode r cs code) (hg : Gives es v) (hv : v ≠ code)
    (htries : cs.remainingTries ≤ 1) (htime : env.now - cs.timestamp < secretLifetime k) :
    ∃ d, IsErrorReply C cfg i ErrorCode.OUT_OF_TRIES d ∧ onChallenge C S cfg st i env = ⟨[.dbDelete r.requestId, .put d], .done⟩ := by
  obtain ⟨div, _, heq⟩ := onChallenge_opens hS hi hid he ha hiv ho
  obtain ⟨pt', sel, hd', _, hp', hsel, hsv⟩ := hs
  obtain ⟨h1, h2, h3⟩ := hcs
  obtain ⟨b, hb, rfl⟩ := hg
  have hout : ∃ info, handleChallenge C k env es { r with decryptionIv := div } = .ok (returnWithError { r with decryptionIv := div } ErrorCode.OUT_OF_TRIES info) := by
    have hcode : ∃ info, handleCode k env es { r with decryptionIv := div } = .ok (returnWithError { r with decryptionIv := div } ErrorCode.OUT_OF_TRIES info) := by
      unfold handleCode
      dsimp only
      rw [h1]
      dsimp only
      have h2 : cs.challengeStatus = NEED_CODE ∨ cs.challengeStatus = WRONG_CODE := h2
      have h3 : secretGet cs.secrets KEY_CODE = .ok code := h3
      rw [if_pos h2, hb]
      simp only [Res.bind_ok]
      rw [lifetime_ns, if_neg (Int.not_le.mpr htime), h3]
      simp only [Res.bind_ok]
      rw [if_neg (c := readString b = code) hv, if_neg (by omega)]
      exact ⟨_, rfl⟩
    rcases hk with rfl | rfl
    · show ∃ info, handlePin env es _ = _
      unfold handlePin
      rw [if_neg hst]
      exact hcode
    · show ∃ info, handleEmail env es _ = _
      unfold handleEmail
      rw [if_neg hst]
      exact hcode
  obtain ⟨info, hout⟩ := hout
  rw [heq, processParams_selects hne hp hsel hsv hout, if_pos (by show ErrorCode.OUT_OF_TRIES ≠ 0; decide)]
  exact ⟨_, ⟨by decide, info, rfl⟩, rfl⟩

/-- C33, third part: when two attempts on the challenge of a request were answered since it was accepted, a third one with a wrong code,
within the lifetime of the code, removes the request and is answered with OUT_OF_TRIES. -/
theorem C33_third_wrong (hC : C.Lawful) (hS : LawfulStore C S Inv) (hcfg : NameFits cfg.profile.caPrefix)
    {h : List (Step σ)} {s : CaState σ} (hx : Exec C S cfg h s) {h1 h2 : List (Step σ)} {m : Step σ} (hh : h = h1 ++ m :: h2)
    {r0 : RequestState} (_hadd : .dbAdd r0 ∈ m.effects) (hno : ∀ x ∈ h2, ∀ r, .dbAdd r ∈ x.effects → r.requestId ≠ r0.requestId)
    {a b : Step σ} (hab : [a, b].Sublist h2) (ha1 : AnswersAttempt C S cfg r0.requestId a) (ha2 : AnswersAttempt C S cfg r0.requestId b)
    {i : Interest} {env : Env} (hid : IdFits cfg i) (he : env.Wf) {r : RequestState} (ha : Authentic C S cfg s.store i env r)
    (hr : r.requestId = r0.requestId) {pt : Bytes} (ho : Opens C i r pt) (hne : pt ≠ [])
    {es : List Block} (hp : parse pt = .ok es) {k : ChalKind} (hk : k = .pin ∨ k = .email) (hs : Selects C i r es k)
    (hst : r.status ≠ .beforeChallenge) {cs : ChallengeState} {code v : Bytes} (hcs : AwaitsCode r cs code) (hg : Gives es v) (hv : v ≠ code)
    (htime : env.now - cs.timestamp < secretLifetime k) :
    ∃ d, IsErrorReply C cfg i ErrorCode.OUT_OF_TRIES d ∧ onChallenge C S cfg s.store i env = ⟨[.dbDelete r0.requestId, .put d], .done⟩ := by
  have hl := attempts hC hS hcfg hx (h1 ++ [m]) h2 (by rw [hh]; simp) hno [a, b] hab (by
    intro n hn
    simp only [List.mem_cons, List.not_mem_nil, or_false] at hn
    rcases hn with rfl | rfl
    · exact ha1
    · exact ha2)
  have hpend := ha.pending
  rw [← hr] at hl ⊢
  rw [hpend] at hl
  simp only [left, hcs.1, List.length_cons, List.length_nil] at hl
  exact C33_last_try hS (hx.life hC hS hcfg).1 hid he ha (hx.ivsOk hC hS hcfg hpend) ho hne hp hk hs hst hcs hg hv (by omega) htime

/-! ## C38 -/

/-- C38: a CHALLENGE that was answered without error is, presented again in any later state of the same request and in any
surroundings, answered with an error: nothing is issued, no email is sent, the challenge does not go on. -/
theorem C38_replay (hC : C.Lawful) (hS : LawfulStore C S Inv) (hcfg : NameFits cfg.profile.caPrefix)
    {h : List (Step σ)} {s : CaState σ} (hx : Exec C S cfg h s) {h1 h2 : List (Step σ)} {n : Step σ} (hh : h = h1 ++ n :: h2)
    {i : Interest} {env : Env} {r : RequestState} (hm : n.Handles (.challenge i) env) (hau : Authentic C S cfg n.pre.store i env r)
    {d : Data} (hd : d ∈ sent n.effects) (hne : ¬ ∃ code, IsErrorReply C cfg i code d)
    (hno : ∀ x ∈ h2, ∀ r', .dbAdd r' ∈ x.effects → r'.requestId ≠ r.requestId)
    {env' : Env} (he' : env'.Wf) (hn : Names cfg env' i r.requestId) :
    (onChallenge C S cfg s.store i env').term = .done ∧
    issued (onChallenge C S cfg s.store i env').effects = [] ∧ mailed (onChallenge C S cfg s.store i env').effects = [] ∧
    (∀ r', .dbUpdate r' ∉ (onChallenge C S cfg s.store i env').effects) ∧
    ∃ code d', IsErrorReply C cfg i code d' ∧ sent (onChallenge C S cfg s.store i env').effects = [d'] := by
  obtain ⟨hx1, hwf, _, heff, _⟩ := hx.split _ _ _ hh
  obtain ⟨hmw, hew⟩ := hwf _ _ hm
  rcases stale_refused (cfg := cfg) hS (hx.life hC hS hcfg).1 (idFits_of_wf hmw) he' hn (fun r' hr' =>
    ⟨hx.ivsOk hC hS hcfg hr', replay_counter hC hS hcfg hx hh hm hau hd hne hno hr'⟩) with ⟨code, d', h1, h2⟩ | ⟨code, d', h1, h2⟩
  · rw [h2]
    exact ⟨rfl, rfl, rfl, by simp, code, d', h1, rfl⟩
  · rw [h2]
    exact ⟨rfl, rfl, rfl, by simp, code, d', h1, rfl⟩

/-! ## C83 -/

/-- C83, first part: the id of every request the CA accepts is the first eight octets of the HMAC, under the secret key of
the running process, of the wire format of the name of the submitted certificate. -/
theorem C83_id_of_name {h : List (Step σ)} {s : CaState σ} (hx : Exec C S cfg h s) {h1 h2 : List (Step σ)} {m : Step σ}
    (hh : h = h1 ++ m :: h2) {r : RequestState} (hadd : .dbAdd r ∈ m.effects) :
    r.requestId = (C.hmac m.pre.idKey (Block.encode ⟨7, encodeAll r.cert.name⟩)).take 8 := by
  obtain ⟨_, hwf, _, heff, _⟩ := hx.split _ _ _ hh
  have hdb := step_db C S cfg m hwf heff
  have h6 := (mem_dbOps (e := .dbAdd r) rfl).mpr hadd
  generalize dbOps m.effects = d at hdb h6
  cases hdb with
  | add ty i env r' ha =>
    simp only [List.mem_singleton, Effect.dbAdd.injEq] at h6
    subst h6
    obtain ⟨secret, hst⟩ := ha.state
    rw [hst]
    rfl
  | _ => simp at h6

/-- C83, second part: two requests for different certificate names that the same process accepted have the same id only
if the first eight octets of that HMAC collide on two different inputs. -/
theorem C83_shared_id {h : List (Step σ)} {s : CaState σ} (hx : Exec C S cfg h s) {h1 h2 h1' h2' : List (Step σ)} {m m' : Step σ}
    (hh : h = h1 ++ m :: h2) (hh' : h = h1' ++ m' :: h2') {r r' : RequestState} (hadd : .dbAdd r ∈ m.effects) (hadd' : .dbAdd r' ∈ m'.effects)
    (hkey : m'.pre.idKey = m.pre.idKey) (hf : NameFits r.cert.name) (hf' : NameFits r'.cert.name) (hne : r.cert.name ≠ r'.cert.name)
    (hid : r.requestId = r'.requestId) :
    ∃ x y, x = Block.encode ⟨7, encodeAll r.cert.name⟩ ∧ y = Block.encode ⟨7, encodeAll r'.cert.name⟩ ∧ x ≠ y ∧
      (C.hmac m.pre.idKey x).take 8 = (C.hmac m.pre.idKey y).take 8 := by
  refine ⟨_, _, rfl, rfl, ?_, ?_⟩
  · intro he
    apply hne
    have e1 := parse_encodeAll [(⟨7, encodeAll r.cert.name⟩ : Block)] (by
      intro b hb; obtain rfl : b = _ := by simpa using hb
      exact ⟨by show 0 < 7; decide, by show 7 < 2 ^ 32; decide, hf.2⟩)
    have e2 := parse_encodeAll [(⟨7, encodeAll r'.cert.name⟩ : Block)] (by
      intro b hb; obtain rfl : b = _ := by simpa using hb
      exact ⟨by show 0 < 7; decide, by show 7 < 2 ^ 32; decide, hf'.2⟩)
    have e3 : encodeAll [(⟨7, encodeAll r.cert.name⟩ : Block)] = encodeAll [(⟨7, encodeAll r'.cert.name⟩ : Block)] := by
      show List.flatMap Block.encode [_] = List.flatMap Block.encode [_]
      rw [List.flatMap_singleton, List.flatMap_singleton, he]
    rw [e3, e2] at e1
    simp only [Res.ok.injEq, List.cons.injEq, Block.mk.injEq, true_and, and_true] at e1
    have d1 := parse_encodeAll _ hf.1
    have d2 := parse_encodeAll _ hf'.1
    rw [← e1, d2] at d1
    injection d1 with d1
    exact d1.symm
  · rw [← C83_id_of_name hx hh hadd, hid, C83_id_of_name hx hh' hadd', hkey]

/-- the first step of the run accepts a request -/
example : ∃ m h2 r, Fix.pinHist = [] ++ m :: h2 ∧ Effect.dbAdd r ∈ m.effects ∧ NameFits r.cert.name := by
  have h : ((Fix.ev1.run Fix.C Fix.S Fix.cfg Fix.st0).1.findSome? (fun e => match e with | .dbAdd r => some r | _ => none)).map (fun r => decide (NameFits r.cert.name)) = some true := by
    decide +kernel
  cases hr : (Fix.ev1.run Fix.C Fix.S Fix.cfg Fix.st0).1.findSome? (fun e => match e with | .dbAdd r => some r | _ => none) with
  | none => rw [hr] at h; cases h
  | some r =>
    rw [hr] at h
    simp only [Option.map_some, Option.some.injEq, decide_eq_true_eq] at h
    obtain ⟨e, he, h'⟩ := List.exists_of_findSome?_eq_some hr
    refine ⟨⟨Fix.st0, Fix.ev1, (Fix.ev1.run Fix.C Fix.S Fix.cfg Fix.st0).1⟩, _, r, rfl, ?_, h⟩
    cases e with
    | dbAdd r' => dsimp only at h'; injection h' with h'; rw [← h']; exact he
    | _ => cases h'

/-! ## C25 -/

/-- C25: a request was created by a NEW or REVOKE (step `m`), the CA process was not restarted since, and the request is
still pending. Then a certificate of the same name is not accepted again and the storage does not change; if it is
acceptable otherwise, it is answered with INVALID_PARAMETER. -/
theorem C25_duplicate_refused (hC : C.Lawful) (hS : LawfulStore C S Inv) (hcfg : NameFits cfg.profile.caPrefix)
    {h : List (Step σ)} {s : CaState σ} (hx : Exec C S cfg h s) {h1 h2 : List (Step σ)} {m : Step σ} (hh : h = h1 ++ m :: h2)
    {r0 : RequestState} (hadd : .dbAdd r0 ∈ m.effects) (hup : ∀ x ∈ m :: h2, ∃ msg env, x.event = .msg msg env)
    (hpend : S.view s.store r0.requestId ≠ none) {ty : RequestType} (hty : ty = .new ∨ ty = .revoke) {i : Interest} {env : Env} {pub : Bytes}
    {cert : Cert} (hs : Submits C ty i pub cert) (hname : cert.name = r0.cert.name) :
    ¬ Accepted (onNewRenewRevoke C S cfg s.idKey s.store ty i env) ∧
    applyEffects S s.store (onNewRenewRevoke C S cfg s.idKey s.store ty i env).effects = s.store ∧
    ((∀ q ∈ (acceptanceChecks C S cfg s.idKey s.store ty i env).dropLast, q.1) →
      ∃ d, IsErrorReply C cfg i ErrorCode.INVALID_PARAMETER d ∧
        onNewRenewRevoke C S cfg s.idKey s.store ty i env = ⟨[.put d], .done⟩) := by
  have hi := (hx.life hC hS hcfg).1
  obtain ⟨hx1, hwf, _, heff, _⟩ := hx.split _ _ _ hh
  have hkey := hx.sameKey h1 m h2 hh hup
  have hid : r0.requestId = requestIdOf C s.idKey r0.cert.name := by
    have hdb := step_db C S cfg m hwf heff
    have h6 := (mem_dbOps (e := .dbAdd r0) rfl).mpr hadd
    generalize dbOps m.effects = d at hdb h6
    cases hdb with
    | add ty i env r ha =>
      simp only [List.mem_singleton, Effect.dbAdd.injEq] at h6
      subst h6
      obtain ⟨secret, hst⟩ := ha.state
      rw [hkey, hst]
      rfl
    | _ => simp at h6
  have hlast : ¬ ∃ pub cert, Submits C ty i pub cert ∧ S.view s.store (idFor C s.idKey cert.name) = none := by
    rw [sub_iff hs (fun _ c => S.view s.store (idFor C s.idKey c.name) = none), hname, idFor_eq, ← hid]
    exact hpend
  have hsplit : acceptanceChecks C S cfg s.idKey s.store ty i env = (acceptanceChecks C S cfg s.idKey s.store ty i env).dropLast ++
      [(∃ pub cert, Submits C ty i pub cert ∧ S.view s.store (idFor C s.idKey cert.name) = none, ErrorCode.INVALID_PARAMETER)] := by
    conv => lhs; unfold acceptanceChecks
    conv => rhs; unfold acceptanceChecks
    rw [List.dropLast_append_of_ne_nil (by simp)]
    simp
  have hnacc : ¬ Accepted (onNewRenewRevoke C S cfg s.idKey s.store ty i env) := by
    rintro ⟨r, hr⟩
    obtain ⟨pub', secret, st', h1, _, _, _, _, _, _, h8, h9, _⟩ := added_case C S cfg _ _ i env hty hr
    have hstor : Storable C r := by rw [h8]; exact newRequestState_storable hC hcfg h1 _ secret env.salt
    apply hlast
    refine ⟨pub', r.cert, h1, ?_⟩
    have := (add_iff hS hi hstor).mp ⟨st', h9⟩
    rw [h8] at this
    exact this
  refine ⟨hnacc, ?_, ?_⟩
  · have hc := onNew_cases C S cfg s.idKey s.store ty hty i env
    generalize onNewRenewRevoke C S cfg s.idKey s.store ty i env = o at hnacc hc
    cases hc with
    | accept pub cert secret st' _ _ _ _ _ _ _ _ => exact absurd ⟨_, List.mem_cons_self ..⟩ hnacc
    | _ => rfl
  · intro hall
    have hcav : CaCertValid env := hall (CaCertValid env, ErrorCode.BAD_VALIDITY_PERIOD) (by
      unfold acceptanceChecks
      rw [List.dropLast_append_of_ne_nil (by simp)]
      simp)
    have hca : env.caCert.validity ≠ none := by
      obtain ⟨nb, na, h, _⟩ := hcav
      rw [h]; simp
    rcases new_outcome (idKey := s.idKey) (i := i) hC hS hi hcfg hty hca with ⟨_, h⟩ | ⟨code, info, ⟨pre, p, post, he, hpre, hp⟩, h⟩ | ⟨rfl, ⟨pub', cert', hs', hval⟩, _, _⟩
    · exact absurd h hnacc
    · have : code = ErrorCode.INVALID_PARAMETER := by
        rw [hsplit] at he
        rcases List.eq_nil_or_concat post with rfl | ⟨post', y, rfl⟩
        · have := (List.append_inj' he rfl).2
          simp at this
          exact this.2.symm
        · exfalso
          rw [List.concat_eq_append] at he
          have he' : (acceptanceChecks C S cfg s.idKey s.store ty i env).dropLast ++
            [(∃ pub cert, Submits C ty i pub cert ∧ S.view s.store (idFor C s.idKey cert.name) = none, ErrorCode.INVALID_PARAMETER)] =
            (pre ++ (p, code) :: post') ++ [y] := by rw [he]; simp
          have := (List.append_inj' he' rfl).1
          exact hp (hall (p, code) (by rw [this]; simp))
      subst this
      exact ⟨_, ⟨by decide, info, rfl⟩, h⟩
    · exfalso
      have := hall (∃ pub cert, Submits C .new i pub cert ∧ ValidityPolicy cfg.profile cert env.now, ErrorCode.BAD_VALIDITY_PERIOD) (by
        unfold acceptanceChecks
        rw [List.dropLast_append_of_ne_nil (by simp)]
        simp)
      have h3 := (sub_iff hs' (fun _ c => ValidityPolicy cfg.profile c env.now)).mp this
      obtain ⟨nb, na, hv, _⟩ := h3
      rw [hval] at hv; cases hv

/-- C25, what "the same CA instance" means: the CA process was killed or stopped and started again (step `m`) and drew the key `k`. Until the next
start every request it creates gets the id which belongs to the name of the certificate under `k`: what an earlier process accepted for the same name has, as a
rule, another id and stands in the way of nothing. -/
theorem C25_next_instance {h : List (Step σ)} {s : CaState σ} (hx : Exec C S cfg h s) {h1 h2 h3 : List (Step σ)} {m n : Step σ}
    (hh : h = h1 ++ m :: (h2 ++ n :: h3)) {k : Bytes} (hm : m.event = .restart k ∨ ∃ msg env j, m.event = .crash msg env j k)
    (hup : ∀ x ∈ h2, ∃ msg env, x.event = .msg msg env) {r : RequestState} (hadd : .dbAdd r ∈ n.effects) :
    r.requestId = idFor C k r.cert.name := by
  obtain ⟨hx1, hwf, _, heff, _⟩ := hx.split (h1 ++ m :: h2) n h3 (by rw [hh]; simp)
  have hkey : n.pre.idKey = k := by
    have hafter : ∀ {s'}, Exec C S cfg (h1 ++ [m]) s' → s'.idKey = k := by
      intro s' hx'
      generalize hg : h1 ++ [m] = g at hx'
      cases hx' with
      | init _ => simp at hg
      | step e prev wf possible =>
        have := (List.append_inj' hg rfl).2
        simp only [List.cons.injEq, and_true] at this
        subst this
        dsimp only at hm
        rcases hm with he | ⟨msg, env, j, he⟩ <;> rw [he] <;> rfl
    cases h2 with
    | nil => exact hafter hx1
    | cons x t =>
      rw [hx1.sameKey (h1 ++ [m]) x t (by simp) hup]
      exact hafter (hx1.split (h1 ++ [m]) x t (by simp)).1
  have hdb := step_db C S cfg n hwf heff
  have h6 := (mem_dbOps (e := .dbAdd r) rfl).mpr hadd
  generalize dbOps n.effects = d at hdb h6
  cases hdb with
  | add ty i env r' ha =>
    simp only [List.mem_singleton, Effect.dbAdd.injEq] at h6
    subst h6
    obtain ⟨secret, hst⟩ := ha.state
    rw [← hkey, hst]
    rfl
  | _ => simp at h6

end

/-! ## The hypotheses are met -/

/-- the same NEW before and after a crash of a CA with the SQLite storage: accepted twice, with different ids -/
def exTwice : List Event := [Fix.ev1, .crash (.probe Fix.newInterest) Fix.env1 0 (List.replicate 32 9), Fix.ev1]

def exAdded (l : List (Step Db)) : List RequestState := l.flatMap (fun n => n.effects.filterMap (fun | .dbAdd r => some r | _ => none))

example : runsOk Fix.C (sqlStore Fix.C) Fix.cfg ⟨(sqlStore Fix.C).empty, Fix.idKey⟩ exTwice = true ∧
    (match exAdded (runs Fix.C (sqlStore Fix.C) Fix.cfg ⟨(sqlStore Fix.C).empty, Fix.idKey⟩ exTwice).1 with
      | [a, b] => decide (a.cert.name = b.cert.name ∧ a.requestId ≠ b.requestId ∧ b.requestId = idFor Fix.C (List.replicate 32 9) b.cert.name)
      | _ => false) = true := ⟨by decide +kernel, by decide +kernel⟩

/-- an accepted NEW, its challenge and issuance: one certificate for one accepted NEW -/
example : Exec Fix.C Fix.S Fix.cfg Fix.pinHist (runs Fix.C Fix.S Fix.cfg Fix.st0 Fix.pinRun).2 ∧
    (handedOut Fix.pinHist).length = 1 ∧ (Fix.pinHist.filter Step.acceptsNew).length = 1 :=
  ⟨Fix.pinExec, by decide +kernel, by decide +kernel⟩

/-- the fourth step of the run signs, removes, replies -/
example : (match (Fix.ev4.run Fix.C Fix.S Fix.cfg (runs Fix.C Fix.S Fix.cfg Fix.st0 [Fix.ev1, Fix.ev2, Fix.ev3]).2).1 with
    | [.issue _, .dbDelete id, .put _, .callback _] => decide (id = Fix.req1.requestId)
    | _ => false) = true := by decide +kernel

/-- and afterwards the same code gets an error -/
example : (match (onChallenge Fix.C Fix.S Fix.cfg (runs Fix.C Fix.S Fix.cfg Fix.st0 Fix.pinRun).2.store Fix.chal3 Fix.env4) with
    | ⟨[.put d], .done⟩ => decide ((errorDecode d.content).1 = ErrorCode.INVALID_PARAMETER)
    | _ => false) = true := by decide +kernel

/-- two more wrong codes after that of `Fix.ev3` -/
def exWrong2 : Request × Res Interest :=
  genChallengeInterest Fix.C (selectOrContinueChallenge Fix.req3 (bytes! "pin")).1 [(KEY_CODE, bytes! "999998")] (List.replicate 8 3)
def exWrongEv2 : Event := .msg (.challenge (Fix.interestOf' exWrong2.2)) Fix.env4
def exReq4 : Request := (onChallengeResponse Fix.C exWrong2.1 (Fix.firstData (exWrongEv2.run Fix.C Fix.S Fix.cfg Fix.st3).1) (1003 * nsPerSec)).1
def exWrong3 : Request × Res Interest :=
  genChallengeInterest Fix.C (selectOrContinueChallenge exReq4 (bytes! "pin")).1 [(KEY_CODE, bytes! "999997")] (List.replicate 8 3)
def exWrongRun : List Event := [Fix.ev1, Fix.ev2, Fix.ev3, exWrongEv2, .msg (.challenge (Fix.interestOf' exWrong3.2)) (Fix.env 1004)]

/-- the third wrong code: OUT_OF_TRIES, and the request is gone; three attempts were answered -/
example : runsOk Fix.C Fix.S Fix.cfg Fix.st0 exWrongRun = true ∧
    ((runs Fix.C Fix.S Fix.cfg Fix.st0 exWrongRun).1.map (fun n => (sent n.effects).map (fun d => (errorDecode d.content).1))) =
      [[0], [0], [0], [0], [ErrorCode.OUT_OF_TRIES]] ∧
    Fix.S.view (runs Fix.C Fix.S Fix.cfg Fix.st0 exWrongRun).2.store Fix.req1.requestId = none ∧
    ((Fix.stored (runs Fix.C Fix.S Fix.cfg Fix.st0 (exWrongRun.take 4)).2).challengeState.map (·.remainingTries)) = some 1 :=
  ⟨by decide +kernel, by decide +kernel, by decide +kernel, by decide +kernel⟩

/-- a wrong code presented again: the request has one try less, not two, but it is removed -/
example : (match onChallenge Fix.C Fix.S Fix.cfg Fix.st3.store Fix.chal2 Fix.env4 with
    | ⟨[.dbDelete _, .put d], .done⟩ => decide ((errorDecode d.content).1 = ErrorCode.INVALID_PARAMETER)
    | _ => false) = true := by decide +kernel

/-- the same NEW again, after the challenge was started -/
example : (onNewRenewRevoke Fix.C Fix.S Fix.cfg Fix.st2.idKey Fix.st2.store .new Fix.newInterest Fix.env3).effects.map
      (fun e => match e with | .put d => (errorDecode d.content).1 | _ => 0) = [ErrorCode.INVALID_PARAMETER] ∧
    Fix.S.view Fix.st2.store Fix.req1.requestId ≠ none := by
  constructor <;> decide +kernel

end Ndncert.Props
