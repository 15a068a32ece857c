import Verif.Props.Requester
import Verif.Lemmas.CaNewOutcome

/-! # Both ends agree on the AES key and the request id (C27) -/

namespace Ndncert.Props

variable {C : Crypto} {σ : Type} {S : StoreI σ} {cfg : CaConfig}

/-- the ECDH key the CA finds in parameters is the one that was put there -/
theorem decoded_pub {ty : RequestType} (hty : ty = .new ∨ ty = .revoke) {pub pub' : Bytes} {cert cert' : Cert}
    (hl : (requestParamsEncode ty pub cert).val.length < 2 ^ 64)
    (h : requestParamsDecode C (some (requestParamsEncode ty pub cert)) ty = .ok (pub', cert')) : pub' = pub := by
  obtain ⟨es, e, inner, d, h1, h2, _⟩ := (C04_params_strict C ty _ pub' cert').mp h
  rcases hty with rfl | rfl
  · have h3 : parse (requestParamsEncode .new pub cert).val = .ok [binBlock T.EcdhPub pub, nestedBlock T.CertRequest cert.wire] := by
      refine parse_encodeAll _ (fits_of_total ?_ hl)
      intro x hx
      simp only [List.mem_cons, List.not_mem_nil, or_false] at hx
      rcases hx with rfl | rfl <;> simp
    rw [h3] at h1
    cases h1
    simpa using h2.symm
  · have h3 : parse (requestParamsEncode .revoke pub cert).val = .ok [binBlock T.EcdhPub pub, nestedBlock T.CertToRevoke cert.wire] := by
      refine parse_encodeAll _ (fits_of_total ?_ hl)
      intro x hx
      simp only [List.mem_cons, List.not_mem_nil, or_false] at hx
      rcases hx with rfl | rfl <;> simp
    rw [h3] at h1
    cases h1
    simpa using h2.symm

/-- The requester trusts this CA: its profile carries a certificate of the CA's signing key. -/
def Trusts (C : Crypto) (cfg : CaConfig) (q : Request) : Prop :=
  ∃ c, q.profile.cert = some c ∧ c.content = some (C.idPub cfg.profile.caPrefix)

theorem agree {ty : RequestType} (hty : ty = .new ∨ ty = .revoke) (hC : C.Honest) {idKey : Bytes} {st : σ} {env : Env} (he : env.Wf)
    {q : Request} (hq : Trusts C cfg q) (hid : q.requestId.length = 8) {i : Interest} {cert : Cert}
    (hi : i.params = some (requestParamsEncode ty (C.ecdhPub q.ecdhPriv) cert))
    (hl : (requestParamsEncode ty (C.ecdhPub q.ecdhPriv) cert).val.length < 2 ^ 64)
    {rs : RequestState} (hacc : Effect.dbAdd rs ∈ (onNewRenewRevoke C S cfg idKey st ty i env).effects)
    {stack : Bytes} (hs : stack.length = 32)
    (hsz : ∀ d ∈ sent (onNewRenewRevoke C S cfg idKey st ty i env).effects, d.content.val.length < 2 ^ 64) :
    ∃ d, sent (onNewRenewRevoke C S cfg idKey st ty i env).effects = [d] ∧
      onNewResponse C q d stack = ({ q with requestId := rs.requestId, aesKey := rs.encryptionKey }, .ok cfg.profile.supportedChallenges) := by
  obtain ⟨pub, secret, st', h1, h2, h3, h4, h5, h6, h7, h8, h9, h10⟩ := added_case C S cfg idKey st i env hty hacc
  rw [h10] at hsz ⊢
  refine ⟨_, rfl, ?_⟩
  have hsz' := hsz _ (List.mem_singleton.mpr rfl)
  have hpub : pub = C.ecdhPub q.ecdhPriv := by
    unfold Submits at h1
    rw [hi] at h1
    exact decoded_pub hty hl h1
  have hidl : rs.requestId.length = 8 := by
    rw [h8]
    show ((C.hmac _ _).take 8).length = 8
    rw [List.length_take, hC.hmac_length]
    rfl
  obtain ⟨c, hc1, hc2⟩ := hq
  have hchk : checkReply C q.profile (mkData C cfg.profile.caPrefix i.name
      (requestEncode (C.ecdhPub env.ecdhPriv) env.salt rs.requestId cfg.profile.supportedChallenges)) = .ok () := by
    unfold checkReply
    rw [hc1]
    dsimp only
    have hv : ∀ n b, C.verifyData (mkData C cfg.profile.caPrefix n b) c = true := fun n b => hC.data_verifies _ _ _ c hc2
    rw [hv]
    exact C02_request_not_error _ _ _ _ hsz' _ _
  have hdec := C05_reply_roundtrip (C.ecdhPub env.ecdhPriv) env.salt rs.requestId cfg.profile.supportedChallenges stack q.requestId
    he.salt hidl hs hid hsz'
  unfold onNewResponse
  rw [hchk]
  dsimp only
  rw [show (mkData C cfg.profile.caPrefix i.name (requestEncode (C.ecdhPub env.ecdhPriv) env.salt rs.requestId
      cfg.profile.supportedChallenges)).content = requestEncode (C.ecdhPub env.ecdhPriv) env.salt rs.requestId
      cfg.profile.supportedChallenges from rfl, hdec]
  dsimp only
  have hsec : C.ecdhDerive q.ecdhPriv (C.ecdhPub env.ecdhPriv) = some secret := by
    rw [hC.ecdh_agree, ← hpub]
    exact h4
  rw [hsec]
  dsimp only
  have hkey : C.hkdf secret env.salt rs.requestId = rs.encryptionKey := by
    rw [h8]
    rfl
  rw [hkey]

/-- **C27** If the CA accepts a NEW made by `genNewInterest` (it stores `rs`), it answers with one Data packet, and the
requester, processing it, ends with the request id and AES key the CA stored and learns the CA's challenges in order. -/
theorem C27_new_agreement (hC : C.Honest) {idKey : Bytes} {st : σ} {env : Env} (he : env.Wf)
    {q : Request} (hq : Trusts C cfg q) (hid : q.requestId.length = 8)
    {k : Name} {nb na : Time} {v : Block} {q1 : Request} {i : Interest} (hgen : genNewInterest C q k nb na v = (q1, .ok (some i)))
    (hl : ∀ b, i.params = some b → b.val.length < 2 ^ 64)
    {rs : RequestState} (hacc : Effect.dbAdd rs ∈ (onNewRenewRevoke C S cfg idKey st .new i env).effects)
    {stack : Bytes} (hs : stack.length = 32)
    (hsz : ∀ d ∈ sent (onNewRenewRevoke C S cfg idKey st .new i env).effects, d.content.val.length < 2 ^ 64) :
    ∃ d q2, sent (onNewRenewRevoke C S cfg idKey st .new i env).effects = [d] ∧
      onNewResponse C q1 d stack = (q2, .ok cfg.profile.supportedChallenges) ∧
      q2.requestId = rs.requestId ∧ q2.aesKey = rs.encryptionKey := by
  obtain ⟨id, pub, g1, g2, g3, rfl, rfl⟩ := genNewInterest_ok hgen
  obtain ⟨d, h1, h2⟩ := agree (q := { q with identityName := id, keyPair := some ⟨k, pub⟩ }) (.inl rfl) hC he hq hid (hi := rfl) (hl _ rfl) hacc hs hsz
  exact ⟨d, _, h1, h2, rfl, rfl⟩

/-- **C27** The same for a REVOKE made by `genRevokeInterest`. -/
theorem C27_revoke_agreement (hC : C.Honest) {idKey : Bytes} {st : σ} {env : Env} (he : env.Wf)
    {q : Request} (hq : Trusts C cfg q) (hid : q.requestId.length = 8)
    {cert : Cert} {i : Interest} (hgen : genRevokeInterest C q cert = some i)
    (hl : ∀ b, i.params = some b → b.val.length < 2 ^ 64)
    {rs : RequestState} (hacc : Effect.dbAdd rs ∈ (onNewRenewRevoke C S cfg idKey st .revoke i env).effects)
    {stack : Bytes} (hs : stack.length = 32)
    (hsz : ∀ d ∈ sent (onNewRenewRevoke C S cfg idKey st .revoke i env).effects, d.content.val.length < 2 ^ 64) :
    ∃ d q2, sent (onNewRenewRevoke C S cfg idKey st .revoke i env).effects = [d] ∧
      onNewResponse C q d stack = (q2, .ok cfg.profile.supportedChallenges) ∧
      q2.requestId = rs.requestId ∧ q2.aesKey = rs.encryptionKey := by
  unfold genRevokeInterest at hgen
  split at hgen
  · cases hgen
  · cases hgen
    obtain ⟨d, h1, h2⟩ := agree (.inr rfl) hC he hq hid (hi := rfl) (hl _ rfl) hacc hs hsz
    exact ⟨d, _, h1, h2, rfl, rfl⟩

/-- the NEW and the REVOKE of the concrete runs meet the hypotheses -/
example : genNewInterest Fix.C Fix.requester Fix.key (1000 * nsPerSec) (4600 * nsPerSec) ⟨54, [2]⟩ = (Fix.gen1.1, .ok (some Fix.newInterest)) ∧
    genRevokeInterest Fix.C Fix.requester Fix.revCert = some Fix.revInterest ∧
    (∃ rs, Effect.dbAdd rs ∈ (onNewRenewRevoke Fix.C Fix.S Fix.cfg Fix.idKey Fix.S.empty .new Fix.newInterest Fix.env1).effects) ∧
    (∃ rs, Effect.dbAdd rs ∈ (onNewRenewRevoke Fix.C Fix.S Fix.cfg Fix.idKey Fix.S.empty .revoke Fix.revInterest Fix.env1).effects) ∧
    Trusts Fix.C Fix.cfg Fix.requester ∧ Fix.requester.requestId.length = 8 ∧ Fix.C.Honest := by
  have h1 : (match (onNewRenewRevoke Fix.C Fix.S Fix.cfg Fix.idKey Fix.S.empty .new Fix.newInterest Fix.env1).effects with
    | .dbAdd _ :: _ => true | _ => false) = true := by decide +kernel
  have h2 : (match (onNewRenewRevoke Fix.C Fix.S Fix.cfg Fix.idKey Fix.S.empty .revoke Fix.revInterest Fix.env1).effects with
    | .dbAdd _ :: _ => true | _ => false) = true := by decide +kernel
  refine ⟨by decide +kernel, by decide +kernel, ?_, ?_, ⟨Fix.caCert, by decide +kernel, by decide +kernel⟩, by decide +kernel, Toy.honest⟩
  · split at h1
    · rename_i r _ heq; exact ⟨r, by rw [heq]; simp⟩
    · cases h1
  · split at h2
    · rename_i r _ heq; exact ⟨r, by rw [heq]; simp⟩
    · cases h2

end Ndncert.Props
