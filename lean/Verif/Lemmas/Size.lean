import Verif.Spec.Size
import Verif.Lemmas.Session
import Verif.Lemmas.Code

/-! # The size of the CA's replies -/

namespace Ndncert

variable {σ : Type} {C : Crypto} {S : StoreI σ} {Inv : σ → Prop} {cfg : CaConfig}

/-- every Data among the effects has this name and a content of at most so many octets -/
def PutsWithin (name : Name) (n : Nat) (es : List Effect) : Prop :=
  ∀ d, .put d ∈ es → d.name = name ∧ d.content.encode.length ≤ n

theorem PutsWithin.mono {name : Name} {n m : Nat} {es : List Effect} (h : PutsWithin name n es) (hm : n ≤ m) : PutsWithin name m es :=
  fun d hd => ⟨(h d hd).1, Nat.le_trans (h d hd).2 hm⟩

theorem PutsWithin.nil {name : Name} {n : Nat} : PutsWithin name n [] := fun d hd => absurd hd List.not_mem_nil

theorem onFace_fits {extra n : Nat} {name : Name} {o : Outcome} (h : PutsWithin name n o.effects)
    (hn : nameOctets name + n + extra ≤ maxPacketSize) : onFace extra o = o := by
  unfold onFace
  rw [if_neg]
  simp only [List.any_eq_true, not_exists, not_and]
  intro e he
  cases e with
  | put d =>
    obtain ⟨h1, h2⟩ := h d he
    simp only [Effect.tooBig, decide_eq_true_eq, Nat.not_lt, Data.octets, h1]
    omega
  | _ => simp [Effect.tooBig]

theorem errorEncode_octets (code : ErrorCode) {info : Bytes} (h : info.length ≤ 100) : (errorEncode code info).encode.length ≤ 130 := by
  have a1 := nni_encode_length (t := T.ErrorCode) (n := code) (by decide)
  have a2 := encode_length_small (b := binBlock T.ErrorInfo info) (by simp [binBlock, T.ErrorInfo])
  have a3 := encode_length_small (b := errorEncode code info) (by simp [errorEncode, mkBlock, T.Content])
  simp only [errorEncode, mkBlock, encodeAll, List.flatMap_cons, List.flatMap_nil, List.length_append, List.length_nil, binBlock] at *
  omega

theorem errorEncode_octets_ge (code : ErrorCode) (info : Bytes) : info.length + 2 ≤ (errorEncode code info).encode.length := by
  have key : ∀ b : Block, b.val.length + 2 ≤ b.encode.length := by
    intro b
    have h1 : ∀ n, 1 ≤ (varNumber n).length := by
      intro n
      unfold varNumber
      split
      · simp
      split
      · simp
      split <;> simp
    have := h1 b.typ
    have := h1 b.val.length
    unfold Block.encode
    simp only [List.length_append]
    omega
  have h1 := key (errorEncode code info)
  have h2 := key (binBlock T.ErrorInfo info)
  simp only [errorEncode, mkBlock, encodeAll, List.flatMap_cons, List.flatMap_nil, List.length_append, List.length_nil, binBlock] at *
  omega

theorem replyError_within {i : Interest} {pre : List Effect} {code : ErrorCode} {info : Bytes} (h : info.length ≤ 100)
    (hp : ∀ d, .put d ∉ pre) : PutsWithin i.name 130 (replyError C cfg i pre code info).effects := by
  intro d hd
  simp only [replyError, List.mem_append, List.mem_singleton, Effect.put.injEq] at hd
  rcases hd with hd | rfl
  · exact absurd hd (hp d)
  · exact ⟨rfl, errorEncode_octets code h⟩

theorem challenges_octets (l : List Bytes) :
    (encodeAll (l.map (binBlock T.Challenge))).length ≤ (l.map (fun s => s.length + 10)).sum := by
  induction l with
  | nil => simp [encodeAll]
  | cons s l ih =>
    have := encode_length_small (b := binBlock T.Challenge s) (by simp [binBlock, T.Challenge])
    simp only [encodeAll, List.map_cons, List.flatMap_cons, List.length_append, List.sum_cons, binBlock] at *
    omega

theorem requestEncode_octets (pub salt id : Bytes) (l : List Bytes) :
    (requestEncode pub salt id l).encode.length ≤ pub.length + salt.length + id.length + (l.map (fun s => s.length + 10)).sum + 40 := by
  have a0 := challenges_octets l
  have a1 := encode_length_small (b := binBlock T.EcdhPub pub) (by simp [binBlock, T.EcdhPub])
  have a2 := encode_length_small (b := binBlock T.Salt salt) (by simp [binBlock, T.Salt])
  have a3 := encode_length_small (b := binBlock T.RequestId id) (by simp [binBlock, T.RequestId])
  have a4 := encode_length_small (b := requestEncode pub salt id l) (by simp [requestEncode, mkBlock, T.Content])
  simp only [requestEncode, mkBlock, encodeAll, List.flatMap_cons, List.flatMap_nil, List.flatMap_append, List.length_append, List.length_nil, binBlock] at *
  omega

theorem new_within (ty : RequestType) (idKey : Bytes) (st : σ) (i : Interest) (env : Env) (hs : env.salt.length = 32) :
    PutsWithin i.name ((C.ecdhPub env.ecdhPriv).length + offerOctets cfg.profile + 200)
      (onNewRenewRevoke C S cfg idKey st ty i env).effects := by
  have err : ∀ code info, info.length ≤ 100 → PutsWithin i.name ((C.ecdhPub env.ecdhPriv).length + offerOctets cfg.profile + 200)
      (replyError C cfg i [] code info).effects := fun code info h => (replyError_within h (by simp)).mono (by omega)
  have acc : ∀ cert secret, PutsWithin i.name ((C.ecdhPub env.ecdhPriv).length + offerOctets cfg.profile + 200)
      (acceptRequest C S cfg idKey st ty i env cert secret).effects := by
    intro cert secret
    unfold acceptRequest
    dsimp only
    split
    · exact err _ _ (by decide)
    · exact .nil
    · intro d hd
      simp only [List.mem_cons, Effect.put.injEq, List.not_mem_nil, or_false, reduceCtorEq, false_or] at hd
      subst hd
      refine ⟨rfl, Nat.le_trans (requestEncode_octets _ _ _ _) ?_⟩
      have : (newRequestState C cfg idKey ty cert secret env.salt).requestId.length ≤ 8 := by
        simp only [newRequestState, requestIdOf, List.length_take]
        omega
      unfold offerOctets
      omega
  unfold onNewRenewRevoke
  repeat' split
  all_goals first
    | exact .nil
    | exact acc _ _
    | exact err _ _ (by decide)
    | (refine err _ _ ?_; split <;> decide)

/-- the texts of the challenge modules are short -/
theorem handleCode_info {k : ChalKind} {env : Env} {es : List Block} {r : RequestState} {out : ChalOut} (h : handleCode k env es r = .ok out) :
    out.info.length ≤ 100 := by
  unfold handleCode at h
  split at h
  · cases h; simp [returnWithError, returnWithSuccess, returnWithNewStatus]
  split at h
  · rw [Res.bind_eq_ok] at h
    obtain ⟨_, _, h⟩ := h
    split at h
    · cases h; simp [returnWithError, returnWithSuccess, returnWithNewStatus]
    rw [Res.bind_eq_ok] at h
    obtain ⟨_, _, h⟩ := h
    split at h
    · cases h; simp [returnWithError, returnWithSuccess, returnWithNewStatus]
    split at h
    · cases h; simp [returnWithError, returnWithSuccess, returnWithNewStatus]
    · cases h; cases k <;> simp [returnWithError]
  · cases h; simp [returnWithError, returnWithSuccess, returnWithNewStatus]

theorem handleChallenge_info {k : ChalKind} {env : Env} {es : List Block} {r : RequestState} {out : ChalOut}
    (h : handleChallenge C k env es r = .ok out) : out.info.length ≤ 100 := by
  unfold handleChallenge at h
  split at h
  · unfold handlePin at h
    split at h
    · cases h; simp [returnWithError, returnWithSuccess, returnWithNewStatus]
    · exact handleCode_info h
  · unfold handleEmail at h
    split at h
    · rw [Res.bind_eq_ok] at h
      obtain ⟨_, _, h⟩ := h
      split at h
      · cases h
      split at h
      · cases h
      · cases h; simp [returnWithError, returnWithSuccess, returnWithNewStatus]
    · exact handleCode_info h
  · unfold handlePossession at h
    split at h
    · cases h
    split at h
    · cases h
    · cases h
    split at h
    · cases h; simp [returnWithError, returnWithSuccess, returnWithNewStatus]
    dsimp only at h
    split at h
    · split at h
      · cases h; simp [returnWithError, returnWithSuccess, returnWithNewStatus]
      split at h
      · cases h
      split at h
      · cases h
      split at h
      · cases h
      split at h
      · cases h; simp [returnWithError, returnWithSuccess, returnWithNewStatus]
      · cases h; simp [returnWithError, returnWithSuccess, returnWithNewStatus]
    · split at h
      · split at h
        · split at h
          · cases h; simp [returnWithError, returnWithSuccess, returnWithNewStatus]
          simp only [Res.bind_eq_ok] at h
          obtain ⟨_, _, _, _, _, _, _, _, h⟩ := h
          split at h
          · cases h
          split at h
          · cases h; simp [returnWithError, returnWithSuccess, returnWithNewStatus]
          · cases h; simp [returnWithError, returnWithSuccess, returnWithNewStatus]
        · cases h; simp [returnWithError, returnWithSuccess, returnWithNewStatus]
      · cases h; simp [returnWithError, returnWithSuccess, returnWithNewStatus]

/-- octets of an encrypted reply -/
theorem reply_octets (hC : C.Lawful) {r r2 : RequestState} {issued hint : Name} {rnd : Bytes} {payload : Block} {es : List Block} {n : Nat}
    (hes : challengeElems r issued hint = .ok es) (hn : (encodeAll es).length ≤ n) (h : challengeEncode C r issued hint rnd = (r2, .ok payload))
    (hl : r.encryptionIv = [] ∨ r.encryptionIv.length = 12) (hr : rnd.length = 8) : payload.encode.length ≤ n + 70 := by
  have h1 := reply_size hC hes h hl hr
  obtain ⟨es', iv, _, _, h3⟩ := challengeEncode_ok h
  obtain ⟨_, _, h4⟩ := encodeAes_ok h3
  have h5 := encode_length_small (b := payload) (by rw [h4]; simp [mkBlock, T.Content])
  omega

theorem success_octets {r : RequestState} {issued hint : Name} (hcs : r.challengeState = none) :
    ∃ els, challengeElems r issued hint = .ok els ∧ (encodeAll els).length ≤ nameOctets issued + nameOctets hint + 30 := by
  have hes : challengeElems r issued hint = .ok ([nniBlock T.Status r.status.toNat] ++ [] ++
    (if issued = [] then []
     else [nestedBlock T.IssuedCertName (nameBlock issued), nestedBlock T.ForwardingHint (nameBlock hint)])) := by
    unfold challengeElems
    rw [hcs]
    rfl
  refine ⟨_, hes, ?_⟩
  have h1 := nni_encode_length (t := T.Status) (n := r.status.toNat) (by decide)
  have h2 := nested_length (t := T.IssuedCertName) (b := nameBlock issued) (by decide)
  have h3 := nested_length (t := T.ForwardingHint) (b := nameBlock hint) (by decide)
  unfold nameOctets
  split
  · simp only [encodeAll, List.append_nil, List.flatMap_cons, List.flatMap_nil, List.length_append, List.length_nil]
    omega
  · simp only [encodeAll, List.append_nil, List.cons_append, List.nil_append, List.flatMap_cons, List.flatMap_nil, List.length_append, List.length_nil]
    omega

theorem finish_within (hC : C.Lawful) {r : RequestState} (hiv : r.encryptionIv = [] ∨ r.encryptionIv.length = 12) {i : Interest} {env : Env}
    {k : ChalKind} {es : List Block} {div : Bytes} {out : ChalOut} {pre : List Effect} (hpre : ∀ d, .put d ∉ pre) (he : env.Wf)
    (hm : ModCase C k env es { r with decryptionIv := div } out) (hc0 : out.code = 0) :
    PutsWithin i.name (challengeOctets cfg env r) (finishChallenge C cfg i env pre out.req).effects := by
  have send : ∀ pre' r2 payload, (∀ d, .put d ∉ pre') → payload.encode.length ≤ challengeOctets cfg env r →
      PutsWithin i.name (challengeOctets cfg env r) (sendChallengeReply C cfg i pre' r2 payload).effects := by
    intro pre' r2 payload hp hl d hd
    simp only [sendChallengeReply, List.mem_append, List.mem_cons, Effect.put.injEq, reduceCtorEq, List.not_mem_nil, or_false] at hd
    rcases hd with hd | rfl
    · exact absurd hd (hp d)
    · exact ⟨rfl, hl⟩
  have stop : ∀ {α : Type} (x : Res α) pre', (∀ d, .put d ∉ pre') → PutsWithin i.name (challengeOctets cfg env r) (abort pre' x).effects := by
    intro α x pre' hp d hd
    cases x <;> exact absurd hd (hp d)
  have hpend : out.req.status = .pending → out.req = { { r with decryptionIv := div } with status := .pending, challengeType := out.req.challengeType, challengeState := none } := by
    intro h
    cases hm with
    | error code info hcode => cases h
    | start cstat secrets mails hs hsc => cases h
    | wrong cs code given hns hk ha hg hne ht htr time => cases h
    | code cs code hs hk ha hg ht => rfl
    | proof cs cred nonce p hs hk ha hg hl hv => rfl
  unfold finishChallenge
  by_cases hp : out.req.status = .pending
  · rw [if_pos hp]
    have hreq := hpend hp
    generalize out.req = q at hreq hp
    have q2 : q.cert = r.cert := by rw [hreq]
    have q3 : q.challengeState = none := by rw [hreq]
    have q4 : q.encryptionIv = r.encryptionIv := by rw [hreq]
    split
    · split
      · rename_i c hi
        have hn : c.name = r.cert.keyName ++ [ndncertComponent, env.version] := by
          unfold issueCertificate at hi
          split at hi
          · cases hi; rw [q2]
          · cases hi
        dsimp only
        obtain ⟨els, h1, h2⟩ := success_octets (r := { q with cert := c, status := .success }) (issued := c.name) (hint := cfg.profile.forwardingHint) q3
        rcases henc : challengeEncode C { q with cert := c, status := .success } c.name cfg.profile.forwardingHint env.ivRnd with ⟨r2, res⟩
        cases res with
        | ok payload =>
          refine send _ _ _ (by simp [hpre]) ?_
          have := reply_octets hC h1 h2 henc (by rw [← q4] at hiv; exact hiv) he.ivRnd
          rw [hn] at this
          have hcert : certOctets env r = nameOctets (r.cert.keyName ++ [ndncertComponent, env.version]) := rfl
          unfold challengeOctets
          omega
        | exc e => exact stop _ _ (by simp [hpre])
        | ub u => exact stop _ _ (by simp [hpre])
      · exact stop _ _ hpre
    · split
      · dsimp only
        obtain ⟨els, h1, h2⟩ := success_octets (r := { q with status := .success }) (issued := []) (hint := []) q3
        rcases henc : challengeEncode C { q with status := .success } [] [] env.ivRnd with ⟨r2, res⟩
        cases res with
        | ok payload =>
          refine send _ _ _ (by simp [hpre]) ?_
          have := reply_octets hC h1 h2 henc (by rw [← q4] at hiv; exact hiv) he.ivRnd
          have h0 : nameOctets [] = 2 := by decide
          unfold challengeOctets certOctets
          omega
        | exc e => exact stop _ _ (by simp [hpre])
        | ub u => exact stop _ _ (by simp [hpre])
      · exact stop _ _ hpre
  · rw [if_neg hp]
    have hx : ∃ cs, out.req.status = .challenge ∧ out.req.challengeState = some cs ∧ out.req.encryptionIv = r.encryptionIv ∧
        ((cs.challengeStatus = NEED_CODE ∨ cs.challengeStatus = WRONG_CODE) ∨
          (cs.challengeStatus = NEED_PROOF ∧ ∃ nonce : Bytes, nonce.length = 16 ∧ secretGetD cs.secrets KEY_NONCE = toHex nonce)) := by
      cases hm with
      | error code info hcode => exact absurd hc0 hcode
      | start cstat secrets mails hs hsc =>
        refine ⟨_, rfl, rfl, rfl, ?_⟩
        cases hsc with
        | pin => exact .inl (.inl rfl)
        | email => exact .inl (.inl rfl)
        | possession c anchors => exact .inr ⟨rfl, env.nonce, he.nonce, rfl⟩
      | wrong cs code given hns hk ha hg hne ht htr time => exact ⟨_, rfl, rfl, rfl, .inl (.inr rfl)⟩
      | code cs code hs hk ha hg ht => exact absurd rfl hp
      | proof cs cred nonce p hs hk ha hg hl hv => exact absurd rfl hp
    obtain ⟨cs, x1, x2, x3, x4⟩ := hx
    rcases henc : challengeEncode C out.req [] [] env.ivRnd with ⟨r2, res⟩
    cases res with
    | ok payload =>
      obtain ⟨es', iv, h1, _, _⟩ := challengeEncode_ok henc
      refine send _ _ _ (by simp [hpre]) ?_
      have := reply_octets hC h1 (reply_length x1 x2 x4 h1).1 henc (by rw [x3]; exact hiv) he.ivRnd
      unfold challengeOctets certOctets
      omega
    | exc e => exact stop _ _ hpre
    | ub u => exact stop _ _ hpre

theorem challenge_within (hC : C.Lawful) {st : σ} {i : Interest} {env : Env} (he : env.Wf) {n : Nat} (hn : 130 ≤ n)
    (hst : ∀ r, getCertificateRequest S cfg st i env = .ok (some r) → (r.encryptionIv = [] ∨ r.encryptionIv.length = 12) ∧ challengeOctets cfg env r ≤ n) :
    PutsWithin i.name n (onChallenge C S cfg st i env).effects := by
  have err : ∀ pre code info, (∀ d, .put d ∉ pre) → info.length ≤ 100 → PutsWithin i.name n (replyError C cfg i pre code info).effects :=
    fun pre code info hp h => (replyError_within h hp).mono hn
  have stop : ∀ {α : Type} (x : Res α), PutsWithin i.name n (abort [] x).effects := by
    intro α x d hd
    cases x <;> exact absurd hd List.not_mem_nil
  unfold onChallenge
  split
  · exact .nil
  · exact .nil
  · exact err _ _ _ (by simp) (by decide)
  rename_i r hg
  obtain ⟨hiv, hlen⟩ := hst r hg
  split
  · exact err _ _ _ (by simp) (by decide)
  dsimp only
  split
  · exact err _ _ _ (by simp) (by decide)
  · exact .nil
  unfold processParams
  split
  · exact err _ _ _ (by simp) (by decide)
  split
  · split
    · split
      · exact err _ _ _ (by simp) (by decide)
      · split
        · rename_i out ho
          split
          · exact err _ _ _ (by simp) (handleChallenge_info ho)
          · rename_i hcode
            exact (finish_within hC hiv (by simp) he (handleChallenge_cases C ho) (Classical.not_not.mp hcode)).mono hlen
        · exact stop _
    · exact stop _
  · exact stop _

theorem varNumber_mid {n : Nat} (h1 : 253 ≤ n) (h2 : n < 65536) : (varNumber n).length = 3 := by
  unfold varNumber
  rw [if_neg (by omega), if_pos (by omega)]
  simp

/-- a name with a long last component -/
theorem long_name (p : Name) {n : Nat} (hp : nameOctets p ≤ 8000) (h1 : 8700 ≤ n) (h2 : n ≤ 60000) :
    ∃ c : Block, nameOctets (p ++ [gcomp (bytes! "CA"), gcomp (bytes! "NEW"), c]) = n := by
  have hv : (encodeAll p).length + 2 ≤ nameOctets p := by
    have key : ∀ k, 1 ≤ (varNumber k).length := by
      intro k
      unfold varNumber
      split
      · simp
      split
      · simp
      split <;> simp
    have := key 7
    have := key (encodeAll p).length
    unfold nameOctets nameBlock mkBlock Block.encode
    simp only [List.length_append]
    omega
  refine ⟨gcomp (List.replicate (n - 17 - (encodeAll p).length) 0), ?_⟩
  have hc : (gcomp (List.replicate (n - 17 - (encodeAll p).length) 0)).encode.length = n - 17 - (encodeAll p).length + 4 := by
    unfold gcomp Block.encode
    simp only [List.length_append, List.length_replicate]
    rw [show (varNumber 8).length = 1 from rfl, varNumber_mid (by omega) (by omega)]
    omega
  have hall : (encodeAll (p ++ [gcomp (bytes! "CA"), gcomp (bytes! "NEW"), gcomp (List.replicate (n - 17 - (encodeAll p).length) 0)])).length = n - 4 := by
    have e1 : (gcomp (bytes! "CA")).encode.length = 4 := by decide
    have e2 : (gcomp (bytes! "NEW")).encode.length = 5 := by decide
    simp only [encodeAll, List.flatMap_append, List.flatMap_cons, List.flatMap_nil, List.length_append, List.length_nil] at hc hv ⊢
    omega
  unfold nameOctets nameBlock mkBlock Block.encode
  simp only [List.length_append]
  rw [hall, show (varNumber 7).length = 1 from rfl, varNumber_mid (by omega) (by omega)]
  omega

/-- the reply to a PROBE of a CA with the default configuration -/
theorem probe_within {i : Interest} {env : Env} (ha : cfg.assignments = [.random]) (hr : cfg.redirection = []) (hw : env.rand64 0 < 2 ^ 64) :
    PutsWithin i.name (nameOctets cfg.profile.caPrefix + 100) (onProbe C cfg i env).effects := by
  have hcomps : ∀ params, collectNames C params env.rand64 0 cfg.assignments = .ok [[gcomp (decDigits (env.rand64 0))]] := by
    intro params
    rw [ha]
    rfl
  unfold onProbe
  split
  · exact .nil
  · exact .nil
  rename_i params _
  dsimp only
  rw [hcomps, hr]
  dsimp only
  rw [if_neg (by simp)]
  intro d hd
  simp only [List.mem_singleton, Effect.put.injEq] at hd
  subst hd
  refine ⟨rfl, ?_⟩
  have hdig := (decDigits_length (n := env.rand64 0) (k := 20) (by decide)).mpr (Nat.lt_trans hw (by decide))
  simp only [List.map_cons, List.map_nil, List.filter_nil, mkData]
  have a1 := encode_length_small (b := gcomp (decDigits (env.rand64 0))) (by simp [gcomp])
  have a2 := encode_length_small (b := nameBlock (cfg.profile.caPrefix ++ [gcomp (decDigits (env.rand64 0))])) (by simp [nameBlock, mkBlock])
  have hp : (encodeAll cfg.profile.caPrefix).length ≤ nameOctets cfg.profile.caPrefix := by
    unfold nameOctets nameBlock mkBlock Block.encode
    simp only [List.length_append]
    omega
  have a3 : ∀ k, (nniBlock T.MaxSuffixLength k).encode.length ≤ 10 := fun k => nni_encode_length (by decide)
  have a4 := encode_length_small (b := probeNameBlock cfg.profile.maxSuffixLength (cfg.profile.caPrefix ++ [gcomp (decDigits (env.rand64 0))])) (by simp [probeNameBlock, mkBlock, T.ProbeResponse])
  have a5 := encode_length_small (b := probeEncode [cfg.profile.caPrefix ++ [gcomp (decDigits (env.rand64 0))]] cfg.profile.maxSuffixLength []) (by simp [probeEncode, mkBlock, T.Content])
  have a6 : ∀ (ms : Option Nat) (n : Name), (probeNameBlock ms n).val.length ≤ (nameBlock n).encode.length + 10 := by
    intro ms n
    cases ms with
    | none => simp [probeNameBlock, mkBlock, encodeAll]
    | some k => simpa [probeNameBlock, mkBlock, encodeAll] using a3 k
  have a6 := a6 cfg.profile.maxSuffixLength (cfg.profile.caPrefix ++ [gcomp (decDigits (env.rand64 0))])
  simp only [probeEncode, nameBlock, gcomp, mkBlock, encodeAll, List.map_cons, List.map_nil, List.flatMap_append, List.flatMap_cons, List.flatMap_nil,
    List.length_append, List.length_nil, List.filter_nil, mkData] at *
  omega

theorem probeEncode_octets (ms : Option Nat) (names redirs : List Name) :
    (probeEncode names ms redirs).encode.length ≤ (names.map (fun n => nameOctets n + 30)).sum + (redirs.map (fun n => nameOctets n + 10)).sum + 10 := by
  have a3 : ∀ k, (nniBlock T.MaxSuffixLength k).encode.length ≤ 10 := fun k => nni_encode_length (by decide)
  have h1 : ∀ n : Name, (probeNameBlock ms n).encode.length ≤ nameOctets n + 30 := by
    intro n
    have a4 := encode_length_small (b := probeNameBlock ms n) (by simp [probeNameBlock, mkBlock, T.ProbeResponse])
    have a6 : (probeNameBlock ms n).val.length ≤ (nameBlock n).encode.length + 10 := by
      cases ms with
      | none => simp [probeNameBlock, mkBlock, encodeAll]
      | some k => simpa [probeNameBlock, mkBlock, encodeAll] using a3 k
    unfold nameOctets
    omega
  have h2 : ∀ n : Name, (nestedBlock T.ProbeRedirect (nameBlock n)).encode.length ≤ nameOctets n + 10 := by
    intro n
    have a4 := encode_length_small (b := nestedBlock T.ProbeRedirect (nameBlock n)) (by simp [nestedBlock, mkBlock, T.ProbeRedirect])
    have a6 : (nestedBlock T.ProbeRedirect (nameBlock n)).val.length = (nameBlock n).encode.length := by simp [nestedBlock, mkBlock, encodeAll]
    unfold nameOctets
    omega
  have hs : ∀ (f : Name → Block) (k : Nat) (l : List Name), (∀ n, (f n).encode.length ≤ nameOctets n + k) →
      (encodeAll (l.map f)).length ≤ (l.map (fun n => nameOctets n + k)).sum := by
    intro f k l hf
    induction l with
    | nil => simp [encodeAll]
    | cons n l ih =>
      have := hf n
      simp only [encodeAll, List.map_cons, List.flatMap_cons, List.length_append, List.sum_cons] at ih ⊢
      omega
  have a5 := encode_length_small (b := probeEncode names ms redirs) (by simp [probeEncode, mkBlock, T.Content])
  have a7 : (probeEncode names ms redirs).val.length =
      (encodeAll (names.map (probeNameBlock ms))).length + (encodeAll (redirs.map (fun n => nestedBlock T.ProbeRedirect (nameBlock n)))).length := by
    simp [probeEncode, mkBlock, encodeAll]
  have b1 := hs (probeNameBlock ms) 30 names h1
  have b2 := hs (fun n => nestedBlock T.ProbeRedirect (nameBlock n)) 10 redirs h2
  omega

end Ndncert
