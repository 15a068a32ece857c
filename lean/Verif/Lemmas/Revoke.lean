import Verif.Lemmas.Session
import Verif.Spec.Revoke
import Verif.Props.Requester

/-! # Turns of a session that begins with REVOKE -/

namespace Ndncert

open Props

variable {σ : Type} {C : Crypto} {S : StoreI σ} {Inv : σ → Prop} {cfg : CaConfig}

theorem turn_revoke (hC : C.Honest) (hS : LawfulStore C S Inv) (hcfg : NameFits cfg.profile.caPrefix) {x : Session σ} {cert : Cert} {pub : Bytes}
    {t : Turn} (hi : Inv x.ca.store) (ha : AdmissibleRevoke C S cfg x cert pub t.env) (he : t.env.Wf) (ho : t.others = [])
    {stack : Bytes} (hs : stack.length = 32) :
    ∃ y r, revokeTurn C S cfg x cert stack t = some (y, cfg.profile.supportedChallenges) ∧
      Ready C S Inv cfg y r pub ∧ r.requestType = .revoke ∧ r.caPrefix = cfg.profile.caPrefix ∧
      r.requestId = idFor C x.ca.idKey cert.name ∧ r.cert.name = cert.name ∧ r.cert.content = some pub ∧
      issued y.done = issued x.done ∧ mailed y.done = mailed x.done := by
  have hpre : x.requester.profile.caPrefix <+: cert.name := by
    rw [ha.pre]
    exact ha.name.2.1.trans (by unfold identityOf; exact List.take_prefix ..)
  obtain ⟨i, hgen⟩ : ∃ i, genRevokeInterest C x.requester cert = some i := by
    cases hg : genRevokeInterest C x.requester cert with
    | none => exact absurd hpre ((C66_revoke hC.toLawful x.requester cert).1.mp hg)
    | some i => exact ⟨i, rfl⟩
  have n3 : Submits C .revoke i (C.ecdhPub x.requester.ecdhPriv) cert :=
    ((C66_revoke hC.toLawful x.requester cert).2 i hgen ha.packet (fun b hb => ha.revokeSize i b hgen hb)).2
  have hpub : C.ecdhPub x.requester.ecdhPriv ≠ [] := hC.ecdh_pub_ne _
  have hacc : Accepted (onNewRenewRevoke C S cfg x.ca.idKey x.ca.store .revoke i t.env) := by
    rw [C21_accepted_iff_policy C S cfg x.ca.idKey x.ca.store i t.env hC.toLawful hS hi hcfg (.inr rfl)]
    intro c hc
    simp only [acceptanceChecks, List.cons_append, List.nil_append, List.mem_cons, List.not_mem_nil, or_false] at hc
    rcases hc with rfl | rfl | rfl | rfl | rfl | rfl | rfl
    · exact ha.caValid
    · exact ⟨_, _, n3⟩
    · exact ⟨_, _, n3, hpub⟩
    · exact ⟨_, _, n3, by
        intro h
        have := hC.ecdh_total t.env.ecdhPriv x.requester.ecdhPriv
        rw [h] at this
        cases this⟩
    · exact ⟨_, _, n3, ha.name⟩
    · exact ⟨_, _, n3, ha.signed⟩
    · exact ⟨_, _, n3, ha.notPending⟩
  obtain ⟨rs, hrs⟩ := hacc
  obtain ⟨pub2, secret, st', a1, a2, a3, a4, a5, a6, a7, a8, a9, a10⟩ := added_case C S cfg x.ca.idKey x.ca.store i t.env (.inr rfl) hrs
  have hcert : rs.cert = cert := by
    unfold Submits at a1 n3
    rw [n3] at a1
    cases a1
    rfl
  have hstor : Storable C rs := by rw [a8]; exact newRequestState_storable hC.toLawful hcfg a1 x.ca.idKey secret t.env.salt
  have hnone := (add_iff hS hi hstor).mp ⟨st', a9⟩
  obtain ⟨st'', r', b1, b2, b3, b4⟩ := hS.add_absent x.ca.store rs hi hstor hnone
  rw [a9] at b1
  cases b1
  obtain ⟨f1, f2, f3, f4, f5, f6, f7, f8, f9⟩ := b3.fields
  have c1 : rs.requestId = requestIdOf C x.ca.idKey rs.cert.name := by rw [a8]; rfl
  have c2 : rs.status = .beforeChallenge := by rw [a8]; rfl
  have c3 : rs.requestType = .revoke := by rw [a8]; rfl
  have c4 : rs.encryptionIv = [] := by rw [a8]; rfl
  have c5 : rs.decryptionIv = [] := by rw [a8]; rfl
  have c6 : rs.caPrefix = cfg.profile.caPrefix := by rw [a8]; rfl
  have hidl : rs.requestId.length = 8 := by
    rw [c1]
    show ((C.hmac _ _).take 8).length = 8
    rw [List.length_take, hC.hmac_length]
    rfl
  have hiparams : i.params = some (requestParamsEncode .revoke (C.ecdhPub x.requester.ecdhPriv) cert) := by
    unfold genRevokeInterest at hgen
    split at hgen
    · cases hgen
    · cases hgen; rfl
  obtain ⟨d, e1, e2⟩ := agree (S := S) (idKey := x.ca.idKey) (st := x.ca.store) (.inr rfl) hC he (q := x.requester) ha.caKey ha.fresh.2.2.2.2 (i := i) hiparams
    (ha.revokeSize i _ hgen hiparams) hrs hs (by
      intro d hd
      rw [a10] at hd
      simp only [acceptOutcome, sent, List.mem_cons, List.not_mem_nil, or_false] at hd
      rw [hd]
      exact ha.replySize _ hidl)
  have happ : applyEffects S x.ca.store (onNewRenewRevoke C S cfg x.ca.idKey x.ca.store .revoke i t.env).effects = st' := by
    rw [a10]
    simp only [acceptOutcome, applyEffects, List.foldl_cons, List.foldl_nil, applyEffect, a9]
  have hans : answer C S cfg (serve C S cfg x.ca t.others) (.revoke i) t.env =
      some ({ x.ca with store := st' }, (onNewRenewRevoke C S cfg x.ca.idKey x.ca.store .revoke i t.env).effects, d) := by
    rw [ho]
    unfold answer
    have hh : handle C S cfg (serve C S cfg x.ca []) (.revoke i) t.env = onNewRenewRevoke C S cfg x.ca.idKey x.ca.store .revoke i t.env := rfl
    have hh2 : serve C S cfg x.ca [] = x.ca := rfl
    rw [hh, hh2]
    dsimp only
    rw [happ, e1]
    rw [a10]
    rfl
  have hturn : revokeTurn C S cfg x cert stack t =
      some (⟨{ x.requester with requestId := rs.requestId, aesKey := rs.encryptionKey },
        { x.ca with store := st' }, x.done ++ (onNewRenewRevoke C S cfg x.ca.idKey x.ca.store .revoke i t.env).effects⟩, cfg.profile.supportedChallenges) := by
    unfold revokeTurn
    dsimp only
    rw [hgen]
    dsimp only
    rw [hans]
    dsimp only
    rw [e2]
  refine ⟨_, r', hturn, ⟨b2, by rw [b4, ← f1, if_pos rfl], ⟨ha.pre, ha.caKey, ha.pair, by rw [← f4, hcert]; exact ha.content, f5, f1, by rw [← f1]; exact hidl,
      by rw [← f7, c5]; exact ha.fresh.2.2.1.symm, by rw [← f6, c4]; exact ha.fresh.2.2.2.1, .inl ⟨ha.fresh.2.2.1, by rw [← f6]; exact c4⟩, ?_⟩, ha.fresh.2.2.1, ha.fresh.1, ha.fresh.2.1,
      by rw [← f8]; exact c2⟩,
    ?_, ?_, by rw [← f1, c1, hcert, idFor_eq], by rw [← f4, hcert], by rw [← f4, hcert]; exact ha.content, ?_, ?_⟩
  · show ivCounter x.requester.encryptionIv ≤ 0 ∧ ivCounter r'.encryptionIv ≤ 0
    rw [ha.fresh.2.2.1, ← f6, c4]
    decide
  · rw [← f3]; exact c3
  · rw [← f2]; exact c6
  · show issued (x.done ++ (onNewRenewRevoke C S cfg x.ca.idKey x.ca.store .revoke i t.env).effects) = _
    rw [issued_append, a10]
    show issued x.done ++ [] = _
    rw [List.append_nil]
  · show mailed (x.done ++ (onNewRenewRevoke C S cfg x.ca.idKey x.ca.store .revoke i t.env).effects) = _
    rw [mailed_append, a10]
    show mailed x.done ++ [] = _
    rw [List.append_nil]

/-- a turn in which the challenge of a REVOKE is passed -/
theorem turn_revoked (hC : C.Honest) (hS : LawfulStore C S Inv) (hcfg : NameFits cfg.profile.caPrefix) {x : Session σ} {r : RequestState} {pub : Bytes} {n : Nat}
    {code : Bytes} {tries : Nat} {since : Time} (w : Waiting C S Inv cfg x r pub n code tries since) (hn : n ≤ 2 ^ 30)
    {k : ChalKind} (hk : k = .pin ∨ k = .email) (hlen : code.length ≤ 8800)
    {t : Turn} (hf : Foreign C cfg pub t.others) (he : t.env.Wf) (hrnd : t.Wf)
    (ht : t.env.now - since + 1000 ≤ k.lifetime * nsPerSec) (hty : r.requestType = .revoke) :
    ∃ y d r2, challengeTurn C S cfg x k.regName code t = some y ∧ Inv y.ca.store ∧
      y.ca.store = S.delete (serve C S cfg x.ca t.others).store r.requestId ∧
      S.view y.ca.store r.requestId = none ∧ y.requester.status = .success ∧ y.requester.issuedCertName = x.requester.issuedCertName ∧
      y.done = x.done ++ [.dbDelete r.requestId, .put d, .callback r2] ∧ r2.cert = r.cert ∧ r2.status = .success ∧ r2.requestType = .revoke := by
  obtain ⟨cs, k1, k2, k3, k4, k5, k6⟩ := w.cs
  have hin := time_in k5 ht
  obtain ⟨b1, b2, b3⟩ := code_blocks (k := k) hlen
  obtain ⟨p1, p2⟩ := code_prompts hk (typed := code) w.qChal
  have hi := w.inv
  have L := w.linked
  have hkk := createChallenge_regName k
  have hclk := hrnd.2
  replace hrnd := hrnd.1
  obtain ⟨g1, g2, g3⟩ := serve_keeps hC.toLawful hS hcfg L.content t.others x.ca hi w.view hf
  obtain ⟨iv, i, h1, h2, h3, h4, h5⟩ := link_send hC hS g1 (linked_select (sel := k.regName) L) g2 he hrnd hkk
    (params := [KEY_CODE].map fun key => (key, code)) (by rw [w.qStatus]; exact p2) b1 hn
  have hmod : handleChallenge C k t.env [binBlock T.SelectedChallenge k.chalType, binBlock T.ParameterKey KEY_CODE, binBlock T.ParameterValue code]
      { r with decryptionIv := iv } = .ok (returnWithSuccess k { r with decryptionIv := iv }) := by
    rw [code_module (r := { r with decryptionIv := iv }) hk w.rStatus k1 k2 k4 hin, if_pos rfl]
  have hpp := processParams_selects (cfg := cfg) (i := i) b3 (parse_encodeAll _ b2) rfl (by rcases hk with rfl | rfl <;> rfl) hmod
  rw [if_neg (by simp [returnWithSuccess])] at hpp
  rw [hpp] at h2
  generalize hr1 : ({ (returnWithSuccess k { r with decryptionIv := iv }).req with status := .success } : RequestState) = r1
  have c1 : r1.status = .success := by rw [← hr1]
  have c2 : r1.challengeState = none := by rw [← hr1]; rfl
  have c3 : r1.encryptionKey = r.encryptionKey := by rw [← hr1]; rfl
  have c4 : r1.requestId = r.requestId := by rw [← hr1]; rfl
  have c5 : r1.encryptionIv = r.encryptionIv := by rw [← hr1]; rfl
  have hriv : r1.encryptionIv = [] ∨ r1.encryptionIv.length = 12 := by
    rw [c5]
    rcases L.ivs with h | h
    · exact .inl h.2
    · exact .inr h.2.1
  obtain ⟨els, hels, hell⟩ := success_elems (issued := []) (hint := []) c2 (by decide)
  have hctr : (if r1.encryptionIv = [] then 0 else ivCounter r1.encryptionIv) ≤ n := by
    split
    · omega
    · rw [c5]; exact L.ctr.2
  obtain ⟨r2, payload, henc⟩ := challengeEncode_some (C := C) hels hriv he.ivRnd (by omega)
  have hsz2 := reply_size hC.toLawful hels henc hriv he.ivRnd
  have hresp := link_reply hC (linked_select (sel := k.regName) L) h3 h4 hrnd he (fun h => absurd h w.started) c3 c4 c5 henc t.clock (by rw [c1]; simp [definedStatus])
    (by intro cs hcs; rw [c2] at hcs; cases hcs) (by unfold Name.Wf; decide) (by unfold Name.Wf; decide) (by unfold gcmLimit; omega) i.name
  have hfin : finishChallenge C cfg i t.env ((returnWithSuccess k { r with decryptionIv := iv }).mails.map .mail) (returnWithSuccess k { r with decryptionIv := iv }).req =
      sendChallengeReply C cfg i [.dbDelete r.requestId] r2 payload := by
    unfold finishChallenge
    have hty' : (returnWithSuccess k { r with decryptionIv := iv }).req.requestType = .revoke := hty
    rw [if_pos (by rfl), if_neg (by rw [hty']; simp), if_pos hty']
    dsimp only
    rw [hr1, henc]
    rfl
  rw [hfin] at h2
  have happ : applyEffects S (serve C S cfg x.ca t.others).store (onChallenge C S cfg (serve C S cfg x.ca t.others).store i t.env).effects =
      S.delete (serve C S cfg x.ca t.others).store r.requestId := by
    rw [h2]; rfl
  have hans : answer C S cfg (serve C S cfg x.ca t.others) (.challenge i) t.env =
      some ({ serve C S cfg x.ca t.others with store := S.delete (serve C S cfg x.ca t.others).store r.requestId },
        [.dbDelete r.requestId, .put (mkData C cfg.profile.caPrefix i.name payload), .callback r2],
        mkData C cfg.profile.caPrefix i.name payload) := by
    unfold answer
    have hh : handle C S cfg (serve C S cfg x.ca t.others) (.challenge i) t.env =
        onChallenge C S cfg (serve C S cfg x.ca t.others).store i t.env := rfl
    rw [hh]
    dsimp only
    rw [happ, h2]
    rfl
  have hturn := turn_of hkk (by rw [w.qStatus]; exact p1) h1 hans hresp
  obtain ⟨_, _, _, hr2, _⟩ := challengeEncode_ok henc
  exact ⟨_, _, r2, hturn, hS.delete_inv _ _ g1, rfl, by rw [hS.delete_view _ _ g1, if_pos rfl], c1, rfl, rfl,
    by rw [hr2, ← hr1]; rfl, by rw [hr2]; exact c1, by rw [hr2, ← hr1]; exact hty⟩

end Ndncert
