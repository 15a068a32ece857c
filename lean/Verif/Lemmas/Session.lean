import Verif.Lemmas.Honest
import Verif.Lemmas.Safe
import Verif.Lemmas.Requester
import Verif.Props.ChallengeWire
import Verif.Props.KeyAgreement
import Verif.Props.CaNew
import Verif.Spec.Session

namespace Ndncert

open Props

variable {σ : Type} {C : Crypto} {S : StoreI σ} {Inv : σ → Prop} {cfg : CaConfig}

/-- messages of others do not touch a pending request -/
theorem serve_keeps (hC : C.Lawful) (hS : LawfulStore C S Inv) (hcfg : NameFits cfg.profile.caPrefix) {pub : Bytes} {id : RequestId} {r : RequestState}
    (hr : r.cert.content = some pub) : ∀ (ms : List (Msg × Env)) (s : CaState σ), Inv s.store → S.view s.store id = some r → Foreign C cfg pub ms →
      Inv (serve C S cfg s ms).store ∧ S.view (serve C S cfg s ms).store id = some r ∧ (serve C S cfg s ms).idKey = s.idKey
  | [], s, hi, hv, _ => ⟨hi, hv, rfl⟩
  | (m, env) :: ms, s, hi, hv, hf => by
    obtain ⟨f1, f2, f3⟩ := hf _ (List.mem_cons_self ..)
    have hwf : (Event.msg m env).Wf cfg := by
      intro m' env' h
      cases h
      exact ⟨f1, f2⟩
    obtain ⟨g1, g2⟩ := step_view hC hS hcfg (n := ⟨s, .msg m env, (handle C S cfg s m env).effects⟩) hi hwf rfl
    have hstep : Inv (applyEffects S s.store (handle C S cfg s m env).effects) ∧
        S.view (applyEffects S s.store (handle C S cfg s m env).effects) id = some r := by
      refine ⟨g1, ?_⟩
      change ViewCase C S cfg _ (applyEffects S s.store (handle C S cfg s m env).effects) at g2
      cases g2 with
      | same h0 h => rw [h]; exact hv
      | added ty i env' r' hd ha h0 h =>
        rw [h, if_neg]
        · exact hv
        · intro e
          rw [e] at hv
          change S.view s.store r'.requestId = none at h0
          rw [h0] at hv
          cases hv
      | updated i env' k es out r0 r1 r' hd hu h0 hs h =>
        rw [h, if_neg]
        · exact hv
        · intro e
          rw [e] at hv
          change S.view s.store r1.requestId = some r0 at h0
          rw [h0] at hv
          cases hv
          have he := hu.event
          cases he
          have := f3 i rfl _ hr
          rw [hu.verified.sig] at this
          cases this
      | deleted i env' r' hd he hv' h0 h =>
        rw [h, if_neg]
        · exact hv
        · intro e
          rw [e] at hv
          change S.view s.store r'.requestId = some r' at h0
          rw [h0] at hv
          cases hv
          cases he
          have := f3 i rfl _ hr
          rw [hv'.sig] at this
          cases this
    have := serve_keeps hC hS hcfg hr ms { s with store := applyEffects S s.store (handle C S cfg s m env).effects } hstep.1 hstep.2
      (fun x hx => hf x (List.mem_cons_of_mem _ hx))
    exact this

/-- the two ends of a request fit together: key material, id, IVs -/
structure Linked (C : Crypto) (cfg : CaConfig) (q : Request) (r : RequestState) (pub : Bytes) (n : Nat) : Prop where
  pre : q.profile.caPrefix = cfg.profile.caPrefix
  trusts : Trusts C cfg q
  key : ∃ kp, q.keyPair = some kp ∧ C.keyPub kp.name = some pub
  content : r.cert.content = some pub
  aes : q.aesKey = r.encryptionKey
  id : q.requestId = r.requestId
  len : r.requestId.length = 8
  dec : r.decryptionIv = q.encryptionIv
  enc : q.decryptionIv = r.encryptionIv
  ivs : (q.encryptionIv = [] ∧ r.encryptionIv = []) ∨
    (q.encryptionIv.length = 12 ∧ r.encryptionIv.length = 12 ∧ ivPrefix q.encryptionIv ≠ ivPrefix r.encryptionIv)
  ctr : ivCounter q.encryptionIv ≤ n ∧ ivCounter r.encryptionIv ≤ n

theorem startIv_counter {iv rnd : Bytes} (h : rnd.length = 8) : ivCounter (startIv iv rnd) = ivCounter iv := by
  unfold startIv
  split
  · rename_i h0
    rw [h0]
    unfold ivCounter
    rw [List.drop_append, List.drop_of_length_le (by omega), h]
    decide
  · rfl

/-- the requester's CHALLENGE reaches the challenge module -/
theorem link_send (hC : C.Honest) (hS : LawfulStore C S Inv) {st : σ} (hi : Inv st) {q : Request} {r : RequestState} {pub : Bytes} {n : Nat}
    (L : Linked C cfg q r pub n) (hv : S.view st r.requestId = some r) {env : Env} (he : env.Wf) {rnd : Bytes} (hrnd : rnd.length = 8)
    {k : ChalKind} (hk : createChallenge q.challengeType = some k) {params : MMap} {es : List Block}
    (hes : genChallengeTlv k q.status q.challengeStatus params = .ok es) (hlen : (encodeAll es).length ≤ 16000) (hn : n ≤ 2 ^ 30) :
    ∃ iv i, genChallengeInterest C q params rnd = ({ q with encryptionIv := iv }, .ok i) ∧
      onChallenge C S cfg st i env = processParams C cfg i env { r with decryptionIv := iv } (encodeAll es) ∧
      iv.length = 12 ∧ ivPrefix iv = ivPrefix (startIv q.encryptionIv rnd) ∧ ivCounter iv ≤ n + 1000 := by
  have hq : q.encryptionIv = [] ∨ q.encryptionIv.length = 12 := by
    rcases L.ivs with h | h
    · exact .inl h.1
    · exact .inr h.1
  have hl : (startIv q.encryptionIv rnd).length = 12 := startIv_length hq hrnd
  have hctr := startIv_counter (iv := q.encryptionIv) hrnd
  have hlim : (encodeAll es).length ≤ gcmLimit := by unfold gcmLimit; omega
  have hcq := L.ctr.1
  rcases encodeAes_cases C (c := ⟨T.ApplicationParameters, q.aesKey, encodeAll es, q.requestId, rnd⟩) hl hlim with
    ⟨iv, h1, h2, h3, h4, h5, h6⟩ | ⟨_, h2⟩
  · have hstart : encodeAes C T.ApplicationParameters q.aesKey (encodeAll es) q.requestId q.encryptionIv rnd =
        encodeAes C T.ApplicationParameters q.aesKey (encodeAll es) q.requestId (startIv q.encryptionIv rnd) rnd := by
      by_cases h0 : q.encryptionIv = []
      · rw [h0]; exact encodeAes_start ..
      · have : startIv q.encryptionIv rnd = q.encryptionIv := by unfold startIv; rw [if_neg h0]
        rw [this]
    obtain ⟨kp, hkp, hpub⟩ := L.key
    refine ⟨iv, signedInterest C kp.name (q.profile.caPrefix ++ [caComp, challengeComp, gcomp q.requestId])
      (sealedBlock C ⟨T.ApplicationParameters, q.aesKey, encodeAll es, q.requestId, rnd⟩ (startIv q.encryptionIv rnd)), ?_, ?_, h2, h3, ?_⟩
    · unfold genChallengeInterest
      rw [if_neg (by
        intro h
        rw [h, show createChallenge [] = none by decide] at hk
        cases hk), hk]
      dsimp only
      rw [hes]
      dsimp only
      rw [hstart]
      have h1' : encodeAes C T.ApplicationParameters q.aesKey (encodeAll es) q.requestId (startIv q.encryptionIv rnd) rnd = _ := h1
      rw [h1']
      dsimp only
      rw [hkp]
    · generalize hi' : signedInterest C kp.name (q.profile.caPrefix ++ [caComp, challengeComp, gcomp q.requestId])
        (sealedBlock C ⟨T.ApplicationParameters, q.aesKey, encodeAll es, q.requestId, rnd⟩ (startIv q.encryptionIv rnd)) = i
      have hcomp : i.name[cfg.profile.caPrefix.length + 2]? = some (gcomp r.requestId) := by
        rw [← hi', ← L.id]
        unfold signedInterest
        dsimp only
        rw [L.pre]
        simp
      have hidf : IdFits cfg i := by
        intro c hc
        rw [hcomp] at hc
        cases hc
        have := L.len
        simp only [gcomp]
        omega
      have hsig : C.verifyInterest i r.cert = true := by
        rw [← hi']
        exact hC.interest_verifies _ _ _ _ _ hpub L.content
      have ha : Authentic C S cfg st i env r := ⟨hv, ⟨_, hcomp, by
        have h1 := L.len
        have h2 := he.stack
        simp only [gcomp]
        rw [List.drop_of_length_le (by omega), List.append_nil]⟩, hsig⟩
      have hver := (verified_authentic hS hi hidf he.stack).mpr ha
      have hpar : i.params.getD ⟨0, []⟩ =
          sealedBlock C ⟨T.ApplicationParameters, q.aesKey, encodeAll es, q.requestId, rnd⟩ (startIv q.encryptionIv rnd) := by
        rw [← hi']; rfl
      have hdec : decodeAes C (i.params.getD ⟨0, []⟩) r.encryptionKey r.requestId r.decryptionIv r.encryptionIv = (iv, .ok (encodeAll es)) := by
        rw [hpar, ← L.aes, ← L.id]
        refine decodeAes_sealed hC.toLawful (c := ⟨T.ApplicationParameters, q.aesKey, encodeAll es, q.requestId, rnd⟩) hl hlim h5 ?_ ?_
        · rcases L.ivs with ⟨_, h⟩ | ⟨i1, i2, i3⟩
          · exact .inl h
          · refine .inr ⟨by omega, ?_⟩
            have : startIv q.encryptionIv rnd = q.encryptionIv := by
              unfold startIv; rw [if_neg (by intro h; rw [h] at i1; cases i1)]
            rw [this]
            exact fun h => i3 h.symm
        · rw [L.dec]
          rcases L.ivs with ⟨h, _⟩ | ⟨i1, i2, i3⟩
          · exact .inl h
          · have : startIv q.encryptionIv rnd = q.encryptionIv := by
              unfold startIv; rw [if_neg (by intro h; rw [h] at i1; cases i1)]
            rw [this]
            exact .inr ⟨i1, rfl, Nat.le_refl _⟩
      unfold onChallenge
      rw [hver.found]
      dsimp only
      rw [if_neg (by rw [hver.sig]; simp), hdec]
    · rw [h4, hctr]
      have : blocksOf (encodeAll es).length ≤ 1000 := by unfold blocksOf; omega
      dsimp only
      omega
  · exfalso
    rw [hctr] at h2
    have : blocksOf (encodeAll es).length ≤ 1000 := by unfold blocksOf; omega
    dsimp only at h2
    omega

theorem encode_length_small {b : Block} (h : b.typ < 253) : b.encode.length ≤ b.val.length + 10 := by
  unfold Block.encode
  have h1 : ∀ n, (varNumber n).length ≤ 9 := by
    intro n
    unfold varNumber
    split
    · simp
    split
    · simp
    split <;> simp
  have h2 : (varNumber b.typ).length = 1 := by unfold varNumber; rw [if_pos h]; rfl
  have := h1 b.val.length
  simp only [List.length_append]
  omega

/-- size of an encrypted reply -/
theorem reply_size (hC : C.Lawful) {r r2 : RequestState} {issued hint : Name} {rnd : Bytes} {payload : Block} {es : List Block}
    (hes : challengeElems r issued hint = .ok es) (h : challengeEncode C r issued hint rnd = (r2, .ok payload))
    (hl : r.encryptionIv = [] ∨ r.encryptionIv.length = 12) (hr : rnd.length = 8) :
    payload.val.length ≤ (encodeAll es).length + 60 := by
  obtain ⟨es', iv, h1, _, h3⟩ := challengeEncode_ok h
  rw [hes] at h1
  cases h1
  obtain ⟨_, _, h4⟩ := encodeAes_ok h3
  have hl := startIv_length hl hr
  obtain ⟨l1, l2⟩ := hC.aes_length r.encryptionKey ((startIv r.encryptionIv rnd).take 12) r.requestId (encodeAll es)
  rw [h4]
  have a1 := encode_length_small (b := binBlock T.InitializationVector (startIv r.encryptionIv rnd)) (by simp [T.InitializationVector])
  have a2 := encode_length_small (b := binBlock T.AuthenticationTag (C.aesEnc r.encryptionKey ((startIv r.encryptionIv rnd).take 12) r.requestId (encodeAll es)).2) (by simp [T.AuthenticationTag])
  have a3 := encode_length_small (b := binBlock T.EncryptedPayload (C.aesEnc r.encryptionKey ((startIv r.encryptionIv rnd).take 12) r.requestId (encodeAll es)).1) (by simp [T.EncryptedPayload])
  simp only [binBlock_val] at a1 a2 a3
  simp only [mkBlock, encodeAll, List.flatMap_cons, List.flatMap_nil, List.length_append, List.length_nil] at *
  omega

/-- the requester understands the CA's reply -/
theorem link_reply (hC : C.Honest) {q : Request} {r r1 r2 : RequestState} {pub : Bytes} {n : Nat} (L : Linked C cfg q r pub n)
    {iv rnd : Bytes} (hiv : iv.length = 12) (hivp : ivPrefix iv = ivPrefix (startIv q.encryptionIv rnd)) (hrnd : rnd.length = 8)
    {env : Env} (he : env.Wf) (hdiff : q.encryptionIv = [] → rnd ≠ env.ivRnd)
    (e1 : r1.encryptionKey = r.encryptionKey) (e2 : r1.requestId = r.requestId) (e3 : r1.encryptionIv = r.encryptionIv)
    {issued hint : Name} {payload : Block} (henc : challengeEncode C r1 issued hint env.ivRnd = (r2, .ok payload)) (now : Time)
    (hst : definedStatus r1.status) (hcs : ∀ cs, r1.challengeState = some cs → Encodable cs [] now)
    (hi : Name.Wf issued) (hh : Name.Wf hint) (hsize : payload.val.length ≤ gcmLimit) (name : Name) :
    onChallengeResponse C { q with encryptionIv := iv } (mkData C cfg.profile.caPrefix name payload) now =
      (afterReply r1 issued hint [] now r2.encryptionIv { q with encryptionIv := iv }, .ok ()) := by
  obtain ⟨c, hc1, hc2⟩ := L.trusts
  have hchk : checkReply C q.profile (mkData C cfg.profile.caPrefix name payload) = .ok () := by
    unfold checkReply
    rw [hc1]
    dsimp only
    have hv : ∀ n b, C.verifyData (mkData C cfg.profile.caPrefix n b) c = true := fun n b => hC.data_verifies _ _ _ c hc2
    rw [hv]
    exact C02_challenge_not_error C _ _ _ _ _ _ henc (by unfold gcmLimit at hsize; omega) _ _
  unfold onChallengeResponse
  dsimp only
  rw [hchk]
  dsimp only
  refine C11_challenge_reply_roundtrip C hC.toLawful r1 r2 issued hint env.ivRnd [] payload { q with encryptionIv := iv } now henc
    (by rw [e1]; exact L.aes) (by rw [e2]; exact L.id) ?_ (.inr ⟨hiv, ?_⟩) ?_ hst hcs hi hh hsize
  · rw [e3]
    rcases L.ivs with ⟨_, h⟩ | ⟨_, h, _⟩
    · exact .inl ⟨h, he.ivRnd⟩
    · exact .inr h
  · dsimp only
    rw [hivp, e3]
    rcases L.ivs with ⟨h1, h2⟩ | ⟨h1, h2, h3⟩
    · rw [h1, h2, startIv_nil_prefix hrnd, startIv_nil_prefix he.ivRnd]
      exact hdiff h1
    · unfold startIv
      rw [if_neg (by intro h; rw [h] at h1; cases h1), if_neg (by intro h; rw [h] at h2; cases h2)]
      exact h3
  · dsimp only
    rw [L.enc, e3]
    rcases L.ivs with ⟨h1, h2⟩ | ⟨h1, h2, h3⟩
    · exact .inl h2
    · refine .inr ⟨h2, ?_⟩
      unfold startIv
      rw [if_neg (by intro h; rw [h] at h2; cases h2)]
      exact ⟨rfl, Nat.le_refl _⟩

theorem sent_mails (ms : List Mail) (es : List Effect) : sent (ms.map .mail ++ es) = sent es := by
  induction ms with
  | nil => rfl
  | cons m ms ih => exact ih

theorem issued_mails (ms : List Mail) (es : List Effect) : issued (ms.map .mail ++ es) = issued es := by
  induction ms with
  | nil => rfl
  | cons m ms ih => exact ih

theorem mailed_mails (ms : List Mail) (es : List Effect) : mailed (ms.map .mail ++ es) = ms ++ mailed es := by
  induction ms with
  | nil => rfl
  | cons m ms ih => exact congrArg (m :: ·) ih

theorem applyEffects_mails (S : StoreI σ) (st : σ) (ms : List Mail) (es : List Effect) :
    applyEffects S st (ms.map .mail ++ es) = applyEffects S st es := by
  induction ms with
  | nil => rfl
  | cons m ms ih => exact ih

/-- the requester's side of a turn, with the CA's answer given -/
theorem turn_of {x : Session σ} {sel typed : Bytes} {t : Turn} {k : ChalKind} {keys : List Bytes} {q1 q2 : Request} {i : Interest} {s' : CaState σ}
    {es : List Effect} {d : Data} (hk : createChallenge sel = some k)
    (hkeys : requestedParams k x.requester.status x.requester.challengeStatus = .ok keys)
    (hgen : genChallengeInterest C { x.requester with challengeType := sel } (keys.map fun k => (k, typed)) t.rnd = (q1, .ok i))
    (hans : answer C S cfg (serve C S cfg x.ca t.others) (.challenge i) t.env = some (s', es, d))
    (hresp : onChallengeResponse C q1 d t.clock = (q2, .ok ())) :
    challengeTurn C S cfg x sel typed t = some ⟨q2, s', x.done ++ es⟩ := by
  unfold challengeTurn selectOrContinueChallenge
  dsimp only
  rw [hk]
  dsimp only
  rw [hkeys]
  dsimp only
  rw [hgen]
  dsimp only
  rw [hans]
  dsimp only
  rw [hresp]

theorem linked_select {q : Request} {r : RequestState} {pub sel : Bytes} {n : Nat} (L : Linked C cfg q r pub n) :
    Linked C cfg { q with challengeType := sel } r pub n :=
  ⟨L.pre, L.trusts, L.key, L.content, L.aes, L.id, L.len, L.dec, L.enc, L.ivs, L.ctr⟩

theorem clock_fits {now s : Int} (h : 0 ≤ now ∧ now < 9000000000 * 1000000000) (h0 : 0 ≤ s) (h1 : s ≤ 1000000) :
    s * 1000000000 < 2 ^ 63 ∧ -(2 ^ 63) ≤ now + s * 1000000000 ∧ now + s * 1000000000 < 2 ^ 63 := by omega

/-- a turn after which the challenge goes on -/
theorem turn_continue (hC : C.Honest) (hS : LawfulStore C S Inv) (hcfg : NameFits cfg.profile.caPrefix) {x : Session σ} {r : RequestState} {pub : Bytes} {n : Nat}
    (hi : Inv x.ca.store) (hv : S.view x.ca.store r.requestId = some r) (L : Linked C cfg x.requester r pub n) (hn : n ≤ 2 ^ 30)
    {t : Turn} (hf : Foreign C cfg pub t.others) (he : t.env.Wf) (hrnd : t.Wf)
    (hdiff : x.requester.encryptionIv = [] → t.rnd ≠ t.env.ivRnd)
    {sel typed : Bytes} {k : ChalKind} {keys : List Bytes} (hk : createChallenge sel = some k)
    (hkeys : requestedParams k x.requester.status x.requester.challengeStatus = .ok keys) {es : List Block}
    (hes : genChallengeTlv k x.requester.status x.requester.challengeStatus (keys.map fun k => (k, typed)) = .ok es)
    (hlen : (encodeAll es).length ≤ 16000) (hfit : ∀ e ∈ es, e.Fits) (hne : encodeAll es ≠ [])
    {s0 : Block} (hs0 : getElem es T.SelectedChallenge = .ok s0) (hs1 : s0.val = k.regName)
    {mails : List Mail} {info : Bytes} {cs : ChallengeState}
    (hmod : ∀ div, handleChallenge C k t.env es { r with decryptionIv := div } =
      .ok { code := 0, info := info, mails := mails, req := { { r with decryptionIv := div } with
              status := .challenge, challengeType := k.chalType, challengeState := some cs } })
    (hst : cs.challengeStatus = NEED_CODE ∨ cs.challengeStatus = WRONG_CODE) (htr : cs.remainingTries ≤ 3)
    (ht0 : 0 ≤ cs.remainingTime) (ht1 : cs.remainingTime ≤ 1000000) :
    ∃ q' s' es' r', challengeTurn C S cfg x sel typed t = some ⟨q', s', x.done ++ es'⟩ ∧ Inv s'.store ∧ s'.idKey = x.ca.idKey ∧
      S.view s'.store r.requestId = some r' ∧ SameRequest r r' ∧ Linked C cfg q' r' pub (n + 1000) ∧ q'.encryptionIv ≠ [] ∧
      q'.status = .challenge ∧ q'.challengeStatus = cs.challengeStatus ∧ r'.status = .challenge ∧
      (∃ cs', r'.challengeState = some cs' ∧ cs'.challengeStatus = cs.challengeStatus ∧ cs'.remainingTries = cs.remainingTries ∧
        cs'.secrets = cs.secrets ∧ cs.timestamp - 1000 < cs'.timestamp ∧ cs'.timestamp < cs.timestamp + 1000) ∧
      issued es' = [] ∧ mailed es' = mails := by
  have hclk := hrnd.2
  replace hrnd := hrnd.1
  obtain ⟨g1, g2, g3⟩ := serve_keeps hC.toLawful hS hcfg L.content t.others x.ca hi hv hf
  obtain ⟨iv, i, h1, h2, h3, h4, h5⟩ := link_send hC hS g1 (linked_select (sel := sel) L) g2 he hrnd hk (params := keys.map fun k => (k, typed)) hes hlen hn
  have hpp := processParams_selects (cfg := cfg) (i := i) hne (parse_encodeAll es hfit) hs0 hs1 (hmod iv)
  dsimp only at hpp
  rw [if_neg (by simp)] at hpp
  rw [hpp] at h2
  generalize hr1 : ({ { r with decryptionIv := iv } with status := .challenge, challengeType := k.chalType, challengeState := some cs } : RequestState) = r1 at h2 hpp
  have c1 : r1.status = .challenge := by rw [← hr1]
  have c2 : r1.challengeState = some cs := by rw [← hr1]
  have c3 : r1.encryptionKey = r.encryptionKey := by rw [← hr1]
  have c4 : r1.requestId = r.requestId := by rw [← hr1]
  have c5 : r1.encryptionIv = r.encryptionIv := by rw [← hr1]
  have c6 : r1.decryptionIv = iv := by rw [← hr1]
  have hriv : r1.encryptionIv = [] ∨ r1.encryptionIv.length = 12 := by
    rw [c5]
    rcases L.ivs with h | h
    · exact .inl h.2
    · exact .inr h.2.1
  have hels : ∃ els, challengeElems r1 [] [] = .ok els := by
    unfold challengeElems challengeStateElems
    rw [c2]
    dsimp only
    rw [if_neg (by rcases hst with h | h <;> rw [h] <;> decide)]
    exact ⟨_, rfl⟩
  obtain ⟨els, hels⟩ := hels
  have hl64 := (reply_length c1 c2 (.inl hst) hels).1
  have hctr : (if r1.encryptionIv = [] then 0 else ivCounter r1.encryptionIv) ≤ n := by
    split
    · omega
    · rw [c5]; exact L.ctr.2
  obtain ⟨r2, payload, henc⟩ := challengeEncode_some (C := C) hels hriv he.ivRnd (by omega)
  have hrc := reply_counter henc c1 c2 (.inl hst) hriv he.ivRnd
  have hl12 := encode_iv henc hriv he.ivRnd
  have hsz := reply_size hC.toLawful hels henc hriv he.ivRnd
  have hresp := link_reply hC (linked_select (sel := sel) L) h3 h4 hrnd he hdiff c3 c4 c5 henc t.clock (by rw [c1]; simp [definedStatus])
    (by
      intro cs' hc
      rw [c2] at hc
      cases hc
      refine ⟨by omega, ht0, clock_fits hclk ht0 ht1, ?_⟩
      intro h
      exfalso
      rcases hst with h' | h' <;> rw [h'] at h <;> revert h <;> decide)
    (by intro c hc; cases hc) (by intro c hc; cases hc) (by unfold gcmLimit; omega) i.name
  have hfin : finishChallenge C cfg i t.env (mails.map .mail) r1 =
      sendChallengeReply C cfg i (mails.map .mail ++ [.dbUpdate r2]) r2 payload := by
    unfold finishChallenge
    rw [if_neg (by rw [c1]; simp), henc]
  rw [hfin] at h2
  obtain ⟨_, ivn, _, hr2, henc2⟩ := challengeEncode_ok henc
  obtain ⟨_, henc3, _⟩ := encodeAes_ok henc2
  have hpre2 : ivPrefix r2.encryptionIv = ivPrefix (startIv r.encryptionIv t.env.ivRnd) := by
    rw [hr2, ← c5]
    exact (updateIv_ok (startIv_length hriv he.ivRnd) (by
      have := (reply_length c1 c2 (.inl hst) (by assumption)).1
      omega) henc3).2.1
  -- the storage
  have hstor0 := hS.get_storable _ _ _ g1 g2
  have hsame : SameRequest r r2 := by
    rw [hr2, ← hr1]; exact ⟨rfl, rfl, rfl, rfl, rfl⟩
  have hid2 : r2.requestId = r.requestId := hsame.1.symm
  have hstor : Storable C r2 := by
    rw [hr2, ← hr1]
    exact
      { cert := hstor0.cert, certFits := hstor0.certFits, caFits := hstor0.caFits, key := hstor0.key
        status := by intro n h; cases h
        chal := ⟨fun h => absurd h (chalType_ne k), fun h => by cases h⟩
        chalFits := by intro cs' h; cases h; omega }
  obtain ⟨st', r', u1, u2, u3, u4⟩ := hS.update_present (serve C S cfg x.ca t.others).store r2 r g1 hstor (by rw [hid2]; exact g2) hsame
  have happ : applyEffects S (serve C S cfg x.ca t.others).store (onChallenge C S cfg (serve C S cfg x.ca t.others).store i t.env).effects = st' := by
    rw [h2]
    unfold sendChallengeReply
    dsimp only
    rw [List.append_assoc, applyEffects_mails]
    simp only [List.cons_append, List.nil_append, applyEffects, List.foldl_cons, List.foldl_nil, applyEffect, u1]
  have hans : answer C S cfg (serve C S cfg x.ca t.others) (.challenge i) t.env =
      some ({ serve C S cfg x.ca t.others with store := st' }, mails.map .mail ++ [.dbUpdate r2, .put (mkData C cfg.profile.caPrefix i.name payload), .callback r2],
        mkData C cfg.profile.caPrefix i.name payload) := by
    unfold answer
    have hh : handle C S cfg (serve C S cfg x.ca t.others) (.challenge i) t.env =
        onChallenge C S cfg (serve C S cfg x.ca t.others).store i t.env := rfl
    rw [hh]
    dsimp only
    rw [happ, h2]
    unfold sendChallengeReply
    dsimp only
    rw [List.append_assoc, sent_mails]
    rfl
  have hturn := turn_of hk hkeys h1 hans hresp
  obtain ⟨f1, f2, f3, f4, f5, f6, f7, f8, f9⟩ := u3.fields
  have d2 : r2.challengeState = some cs := by rw [hr2]; exact c2
  have d3 : r2.decryptionIv = iv := by rw [hr2]; exact c6
  have d4 : r2.status = .challenge := by rw [hr2]; exact c1
  obtain ⟨cs', k1, k2, k3, k4, k5, k6⟩ := u3.chal d2
  refine ⟨_, _, _, r', hturn, u2, g3, by rw [u4, if_pos hid2.symm], hsame.trans u3.sameRequest, ?_, ?_, ?_, ?_, by rw [← f8]; exact d4, ⟨cs', k1, k2, k3, k4, k5, k6⟩, ?_, ?_⟩
  · refine ⟨L.pre, L.trusts, L.key, by rw [← f4, ← hsame.2.2.2.1]; exact L.content, by rw [← f5, ← hsame.2.2.2.2]; exact L.aes,
      by rw [← f1, hid2]; exact L.id, by rw [← f1, hid2]; exact L.len, by rw [← f7, d3]; rfl, by rw [← f6]; rfl, .inr ⟨h3, by rw [← f6]; exact hl12, ?_⟩, h5, ?_⟩
    · show ivPrefix iv ≠ ivPrefix r'.encryptionIv
      rw [← f6, h4, hpre2]
      rcases L.ivs with ⟨h1, h2⟩ | ⟨h1, h2, h3⟩
      · dsimp only
        rw [h1, h2, startIv_nil_prefix hrnd, startIv_nil_prefix he.ivRnd]
        exact hdiff h1
      · unfold startIv
        dsimp only
        rw [if_neg (by intro h; rw [h] at h1; cases h1), if_neg (by intro h; rw [h] at h2; cases h2)]
        exact h3
    · rw [← f6]; omega
  · show iv ≠ []
    intro h; rw [h] at h3; cases h3
  · show r1.status = .challenge
    exact c1
  · show (match r1.challengeState with | some cs => cs.challengeStatus | none => _) = _
    rw [c2]
  · rw [issued_mails]; rfl
  · rw [mailed_mails]
    show mails ++ [] = mails
    simp

theorem success_elems {r : RequestState} {issued hint : Name} (hcs : r.challengeState = none) (hsz : (nameBlock issued).encode.length + (nameBlock hint).encode.length ≤ 2 ^ 32) :
    ∃ els, challengeElems r issued hint = .ok els ∧ (encodeAll els).length ≤ 2 ^ 32 + 30 := by
  have hes : challengeElems r issued hint = .ok ([nniBlock T.Status r.status.toNat] ++ [] ++
    (if issued = [] then []
     else [nestedBlock T.IssuedCertName (nameBlock issued), nestedBlock T.ForwardingHint (nameBlock hint)])) := by
    unfold challengeElems
    rw [hcs]
    rfl
  refine ⟨_, hes, ?_⟩
  have h1 := nni_encode_length (t := T.Status) (n := r.status.toNat) (by decide)
  have h2 := nested_length (t := T.IssuedCertName) (b := nameBlock issued) (by decide)
  have h3 := nested_length (t := T.ForwardingHint) (b := nameBlock hint) (by decide)
  split
  · simp only [encodeAll, List.append_nil, List.flatMap_cons, List.flatMap_nil, List.length_append, List.length_nil]
    omega
  · simp only [encodeAll, List.append_nil, List.cons_append, List.nil_append, List.flatMap_cons, List.flatMap_nil, List.length_append, List.length_nil]
    omega

/-- a turn in which the challenge is passed -/
theorem turn_success (hC : C.Honest) (hS : LawfulStore C S Inv) (hcfg : NameFits cfg.profile.caPrefix) {x : Session σ} {r : RequestState} {pub : Bytes} {n : Nat}
    (hi : Inv x.ca.store) (hv : S.view x.ca.store r.requestId = some r) (L : Linked C cfg x.requester r pub n) (hn : n ≤ 2 ^ 30)
    {t : Turn} (hf : Foreign C cfg pub t.others) (he : t.env.Wf) (hrnd : t.Wf)
    (hdiff : x.requester.encryptionIv = [] → t.rnd ≠ t.env.ivRnd)
    {sel typed : Bytes} {k : ChalKind} {keys : List Bytes} (hk : createChallenge sel = some k)
    (hkeys : requestedParams k x.requester.status x.requester.challengeStatus = .ok keys) {es : List Block}
    (hes : genChallengeTlv k x.requester.status x.requester.challengeStatus (keys.map fun k => (k, typed)) = .ok es)
    (hlen : (encodeAll es).length ≤ 16000) (hfit : ∀ e ∈ es, e.Fits) (hne : encodeAll es ≠ [])
    {s0 : Block} (hs0 : getElem es T.SelectedChallenge = .ok s0) (hs1 : s0.val = k.regName)
    (hmod : ∀ div, handleChallenge C k t.env es { r with decryptionIv := div } = .ok (returnWithSuccess k { r with decryptionIv := div }))
    (hty : r.requestType = .new) {v : Time × Time} (hval : r.cert.validity = some v)
    (hsz : (nameBlock (r.cert.keyName ++ [ndncertComponent, t.env.version])).encode.length + (nameBlock cfg.profile.forwardingHint).encode.length ≤ 2 ^ 32)
    (hw : Name.Wf (r.cert.keyName ++ [ndncertComponent, t.env.version])) (hwh : Name.Wf cfg.profile.forwardingHint) :
    ∃ q' s' es' c, challengeTurn C S cfg x sel typed t = some ⟨q', s', x.done ++ es'⟩ ∧ Inv s'.store ∧
      S.view s'.store r.requestId = none ∧ q'.status = .success ∧ q'.issuedCertName = c.name ∧ q'.forwardingHint = cfg.profile.forwardingHint ∧
      issued es' = [c] ∧ mailed es' = [] ∧
      c.name = r.cert.keyName ++ [ndncertComponent, t.env.version] ∧ c.content = some pub ∧ c.validity = some v ∧
      (∃ r1, issueCertificate C cfg t.env r1 = .ok c) ∧
      ∃ d r2, es' = [.issue c, .dbDelete r.requestId, .put d, .callback r2] ∧ r2.cert = c ∧ r2.status = .success ∧ r2.requestType = .new := by
  have hclk := hrnd.2
  replace hrnd := hrnd.1
  obtain ⟨g1, g2, g3⟩ := serve_keeps hC.toLawful hS hcfg L.content t.others x.ca hi hv hf
  obtain ⟨iv, i, h1, h2, h3, h4, h5⟩ := link_send hC hS g1 (linked_select (sel := sel) L) g2 he hrnd hk (params := keys.map fun k => (k, typed)) hes hlen hn
  have hpp := processParams_selects (cfg := cfg) (i := i) hne (parse_encodeAll es hfit) hs0 hs1 (hmod iv)
  rw [if_neg (by simp [returnWithSuccess])] at hpp
  rw [hpp] at h2
  have hiss : ∃ c, issueCertificate C cfg t.env (returnWithSuccess k { r with decryptionIv := iv }).req = .ok c ∧
      c.name = r.cert.keyName ++ [ndncertComponent, t.env.version] ∧ c.content = some pub ∧ c.validity = some v := by
    unfold issueCertificate returnWithSuccess
    dsimp only
    rw [hval, L.content]
    exact ⟨_, rfl, rfl, rfl, rfl⟩
  obtain ⟨c, hc, hcn, hcc, hcv⟩ := hiss
  generalize hr1 : ({ (returnWithSuccess k { r with decryptionIv := iv }).req with cert := c, status := .success } : RequestState) = r1
  have c1 : r1.status = .success := by rw [← hr1]
  have c2 : r1.challengeState = none := by rw [← hr1]; rfl
  have c3 : r1.encryptionKey = r.encryptionKey := by rw [← hr1]; rfl
  have c4 : r1.requestId = r.requestId := by rw [← hr1]; rfl
  have c5 : r1.encryptionIv = r.encryptionIv := by rw [← hr1]; rfl
  have hriv : r1.encryptionIv = [] ∨ r1.encryptionIv.length = 12 := by
    rw [c5]
    rcases L.ivs with h | h
    · exact .inl h.2
    · exact .inr h.2.1
  rw [← hcn] at hsz hw
  obtain ⟨els, hels, hell⟩ := success_elems c2 hsz
  have hctr : (if r1.encryptionIv = [] then 0 else ivCounter r1.encryptionIv) ≤ n := by
    split
    · omega
    · rw [c5]; exact L.ctr.2
  obtain ⟨r2, payload, henc⟩ := challengeEncode_some (C := C) hels hriv he.ivRnd (by omega)
  have hsz2 := reply_size hC.toLawful hels henc hriv he.ivRnd
  have hresp := link_reply hC (linked_select (sel := sel) L) h3 h4 hrnd he hdiff c3 c4 c5 henc t.clock (by rw [c1]; simp [definedStatus])
    (by intro cs hcs; rw [c2] at hcs; cases hcs) hw hwh (by unfold gcmLimit; omega) i.name
  have hfin : finishChallenge C cfg i t.env [] (returnWithSuccess k { r with decryptionIv := iv }).req =
      sendChallengeReply C cfg i [.issue c, .dbDelete r.requestId] r2 payload := by
    unfold finishChallenge
    rw [if_pos (by rfl), if_pos (.inl hty), hc]
    dsimp only
    rw [hr1, henc]
    rfl
  have hfin' : finishChallenge C cfg i t.env ((returnWithSuccess k { r with decryptionIv := iv }).mails.map .mail) (returnWithSuccess k { r with decryptionIv := iv }).req =
      sendChallengeReply C cfg i [.issue c, .dbDelete r.requestId] r2 payload := hfin
  rw [hfin'] at h2
  have happ : applyEffects S (serve C S cfg x.ca t.others).store (onChallenge C S cfg (serve C S cfg x.ca t.others).store i t.env).effects =
      S.delete (serve C S cfg x.ca t.others).store r.requestId := by
    rw [h2]; rfl
  have hans : answer C S cfg (serve C S cfg x.ca t.others) (.challenge i) t.env =
      some ({ serve C S cfg x.ca t.others with store := S.delete (serve C S cfg x.ca t.others).store r.requestId },
        [.issue c, .dbDelete r.requestId, .put (mkData C cfg.profile.caPrefix i.name payload), .callback r2],
        mkData C cfg.profile.caPrefix i.name payload) := by
    unfold answer
    have hh : handle C S cfg (serve C S cfg x.ca t.others) (.challenge i) t.env =
        onChallenge C S cfg (serve C S cfg x.ca t.others).store i t.env := rfl
    rw [hh]
    dsimp only
    rw [happ, h2]
    rfl
  have hturn := turn_of hk hkeys h1 hans hresp
  have hcne : c.name ≠ [] := by rw [hcn]; simp
  obtain ⟨_, _, _, hr2, _⟩ := challengeEncode_ok henc
  refine ⟨_, _, _, c, hturn, hS.delete_inv _ _ g1, by rw [hS.delete_view _ _ g1, if_pos rfl], c1, ?_, ?_, rfl, rfl, hcn, hcc, hcv, ⟨_, hc⟩, _, r2, rfl,
    by rw [hr2, ← hr1], by rw [hr2]; exact c1, by rw [hr2, ← hr1]; exact hty⟩
  · show (if c.name = [] then _ else c.name) = c.name
    rw [if_neg hcne]
  · show (if c.name = [] then _ else cfg.profile.forwardingHint) = cfg.profile.forwardingHint
    rw [if_neg hcne]

/-- the requester is asked for the code; `since` is when the CA last looked at the request -/
structure Waiting (C : Crypto) (S : StoreI σ) (Inv : σ → Prop) (cfg : CaConfig) (x : Session σ) (r : RequestState) (pub : Bytes) (n : Nat)
    (code : Bytes) (tries : Nat) (since : Time) : Prop where
  inv : Inv x.ca.store
  view : S.view x.ca.store r.requestId = some r
  linked : Linked C cfg x.requester r pub n
  started : x.requester.encryptionIv ≠ []
  qStatus : x.requester.status = .challenge
  qChal : x.requester.challengeStatus = NEED_CODE ∨ x.requester.challengeStatus = WRONG_CODE
  rStatus : r.status = .challenge
  cs : ∃ cs, r.challengeState = some cs ∧ (cs.challengeStatus = NEED_CODE ∨ cs.challengeStatus = WRONG_CODE) ∧ cs.remainingTries = tries ∧
    cs.secrets = [(KEY_CODE, code)] ∧ since - 1000 < cs.timestamp ∧ cs.timestamp < since + 1000

theorem time_in {now ts since life : Int} (h1 : since - 1000 < ts) (h2 : now - since + 1000 ≤ life) : now - ts < life := by omega

theorem time_left {now ts since life : Int} (h0 : since ≤ now) (h1 : since - 1000 < ts) (h1' : ts < since + 1000) (h2 : now - since + 1000 ≤ life) (hl : life ≤ 100000 * 1000000000) :
    0 ≤ (life - (now - ts)).tdiv nsPerSec ∧ (life - (now - ts)).tdiv nsPerSec ≤ 1000000 := by
  have e : nsPerSec = 1000000000 := rfl
  have h3 : 0 ≤ life - (now - ts) := by omega
  rw [e, Int.tdiv_eq_ediv_of_nonneg h3]
  omega

theorem code_blocks {typed : Bytes} {k : ChalKind} (hlen : typed.length ≤ 8800) :
    (encodeAll [binBlock T.SelectedChallenge k.chalType, binBlock T.ParameterKey KEY_CODE, binBlock T.ParameterValue typed]).length ≤ 16000 ∧
    (∀ e ∈ [binBlock T.SelectedChallenge k.chalType, binBlock T.ParameterKey KEY_CODE, binBlock T.ParameterValue typed], e.Fits) ∧
    encodeAll [binBlock T.SelectedChallenge k.chalType, binBlock T.ParameterKey KEY_CODE, binBlock T.ParameterValue typed] ≠ [] := by
  have hk : k.chalType.length ≤ 20 := by cases k <;> decide
  have hkc : KEY_CODE.length ≤ 20 := by decide
  have a1 := encode_length_small (b := binBlock T.SelectedChallenge k.chalType) (by simp [T.SelectedChallenge])
  have a2 := encode_length_small (b := binBlock T.ParameterKey KEY_CODE) (by simp [T.ParameterKey])
  have a3 := encode_length_small (b := binBlock T.ParameterValue typed) (by simp [T.ParameterValue])
  simp only [binBlock_val] at a1 a2 a3
  refine ⟨?_, ?_, ?_⟩
  · simp only [encodeAll, List.flatMap_cons, List.flatMap_nil, List.length_append, List.length_nil]
    omega
  · intro e he
    simp only [List.mem_cons, List.not_mem_nil, or_false] at he
    rcases he with rfl | rfl | rfl
    · exact ⟨by simp [binBlock, T.SelectedChallenge], by simp [binBlock, T.SelectedChallenge], by show k.chalType.length < _; omega⟩
    · exact ⟨by decide, by decide, by show KEY_CODE.length < _; omega⟩
    · exact ⟨by simp [binBlock, T.ParameterValue], by simp [binBlock, T.ParameterValue], by show typed.length < _; omega⟩
  · intro h
    have a4 := encode_length_ge (binBlock T.ParameterValue typed)
    have := congrArg List.length h
    simp only [encodeAll, List.flatMap_cons, List.flatMap_nil, List.length_append, List.length_nil] at this
    have a5 : 0 < (binBlock T.SelectedChallenge k.chalType).encode.length := by
      have := encode_length_ge (binBlock T.SelectedChallenge k.chalType)
      have h6 : 0 < k.chalType.length := by cases k <;> decide
      simp only [binBlock_val] at this
      omega
    omega

theorem code_prompts {k : ChalKind} (hk : k = .pin ∨ k = .email) {cs typed : Bytes} (hs : cs = NEED_CODE ∨ cs = WRONG_CODE) :
    requestedParams k .challenge cs = .ok [KEY_CODE] ∧
    genChallengeTlv k .challenge cs ([KEY_CODE].map fun key => (key, typed)) =
      .ok [binBlock T.SelectedChallenge k.chalType, binBlock T.ParameterKey KEY_CODE, binBlock T.ParameterValue typed] := by
  have ne : Status.challenge ≠ Status.beforeChallenge := by decide
  rcases hk with rfl | rfl <;> rcases hs with rfl | rfl <;> exact ⟨rfl, rfl⟩

/-- what the module does with a code in time -/
theorem code_module {k : ChalKind} (hk : k = .pin ∨ k = .email) {env : Env} {typed : Bytes} {r : RequestState} (hr : r.status = .challenge)
    {cs : ChallengeState} {code : Bytes} (h1 : r.challengeState = some cs) (h2 : cs.challengeStatus = NEED_CODE ∨ cs.challengeStatus = WRONG_CODE)
    (h3 : cs.secrets = [(KEY_CODE, code)]) (ht : env.now - cs.timestamp < k.lifetime * nsPerSec) :
    handleChallenge C k env [binBlock T.SelectedChallenge k.chalType, binBlock T.ParameterKey KEY_CODE, binBlock T.ParameterValue typed] r =
      if typed = code then .ok (returnWithSuccess k r)
      else if cs.remainingTries > 1 then .ok (returnWithNewStatus k env r WRONG_CODE [(KEY_CODE, code)] (cs.remainingTries - 1)
            ((k.lifetime * nsPerSec - (env.now - cs.timestamp)).tdiv nsPerSec))
        else .ok (returnWithError r ErrorCode.OUT_OF_TRIES
            (match k with | .pin => bytes! "Ran out tires." | _ => bytes! "Ran out of tries.")) := by
  have hne : ¬ r.status = .beforeChallenge := by rw [hr]; decide
  have hcode : ∀ es, handleChallenge C k env es r = handleCode k env es r := by
    intro es
    rcases hk with rfl | rfl
    · unfold handleChallenge handlePin; dsimp only; rw [if_neg hne]
    · unfold handleChallenge handleEmail; dsimp only; rw [if_neg hne]
  rw [hcode]
  unfold handleCode
  rw [h1]
  dsimp only
  rw [if_pos h2]
  have e : getElem [binBlock T.SelectedChallenge k.chalType, binBlock T.ParameterKey KEY_CODE,
    binBlock T.ParameterValue typed] T.ParameterValue = .ok (binBlock T.ParameterValue typed) := rfl
  rw [e]
  simp only [Res.bind_ok]
  rw [if_neg (Int.not_le.mpr ht), h3]
  have e2 : secretGet [(KEY_CODE, code)] KEY_CODE = .ok code := by
    unfold secretGet
    simp
  rw [e2]
  simp only [Res.bind_ok]
  have e3 : readString (binBlock T.ParameterValue typed) = typed := rfl
  rw [e3]
  rcases hk with rfl | rfl <;> rfl

theorem mailed_append (a b : List Effect) : mailed (a ++ b) = mailed a ++ mailed b := by
  induction a with
  | nil => rfl
  | cons e a ih =>
    cases e <;> simp [mailed, ih]

/-- a wrong code in time, when two tries or more are left -/
theorem turn_wrong (hC : C.Honest) (hS : LawfulStore C S Inv) (hcfg : NameFits cfg.profile.caPrefix) {x : Session σ} {r : RequestState} {pub : Bytes} {n : Nat}
    {code : Bytes} {tries : Nat} {since : Time} (w : Waiting C S Inv cfg x r pub n code (tries + 2) since) (htries : tries + 2 ≤ 3) (hn : n ≤ 2 ^ 30)
    {k : ChalKind} (hk : k = .pin ∨ k = .email) {typed : Bytes} (hne : typed ≠ code) (hlen : typed.length ≤ 8800)
    {t : Turn} (hf : Foreign C cfg pub t.others) (he : t.env.Wf) (hrnd : t.Wf)
    (ht0 : since ≤ t.env.now) (ht : t.env.now - since + 1000 ≤ k.lifetime * nsPerSec) :
    ∃ y r', challengeTurn C S cfg x k.regName typed t = some y ∧ Waiting C S Inv cfg y r' pub (n + 1000) code (tries + 1) t.env.nowStore ∧
      SameRequest r r' ∧ issued y.done = issued x.done ∧ mailed y.done = mailed x.done := by
  obtain ⟨cs, k1, k2, k3, k4, k5, k6⟩ := w.cs
  have hlife : k.lifetime * nsPerSec ≤ 100000 * 1000000000 := by rcases hk with rfl | rfl <;> decide
  have hin := time_in k5 ht
  obtain ⟨l1, l2⟩ := time_left ht0 k5 k6 ht hlife
  obtain ⟨b1, b2, b3⟩ := code_blocks (k := k) hlen
  obtain ⟨p1, p2⟩ := code_prompts hk (typed := typed) w.qChal
  obtain ⟨q', s', es', r', t1, t2, t3, t4, t5, t6, t7, t8, t9, t10, ⟨cs', m1, m2, m3, m4, m5, m6⟩, t12, t13⟩ :=
    turn_continue (sel := k.regName) (typed := typed) (k := k) (mails := []) (info := [])
      (cs := { challengeStatus := WRONG_CODE, timestamp := t.env.nowStore, remainingTries := tries + 1,
               remainingTime := (k.lifetime * nsPerSec - (t.env.now - cs.timestamp)).tdiv nsPerSec, secrets := [(KEY_CODE, code)] })
      hC hS hcfg w.inv w.view w.linked hn hf he hrnd (fun h => absurd h w.started) (createChallenge_regName k) (by rw [w.qStatus]; exact p1) (by rw [w.qStatus]; exact p2)
      b1 b2 b3 rfl (by rcases hk with rfl | rfl <;> rfl)
      (by
        intro div
        rw [code_module (r := { r with decryptionIv := div }) hk w.rStatus k1 k2 k4 hin, if_neg hne, if_pos (by omega)]
        rw [show cs.remainingTries - 1 = tries + 1 by omega]
        rfl)
      (.inr rfl) (by show tries + 1 ≤ 3; omega) l1 l2
  exact ⟨_, r', t1, ⟨t2, by rw [← t5.1]; exact t4, t6, t7, t8, .inr (t9.trans rfl), t10, ⟨cs', m1, .inr (m2.trans rfl), m3, m4, m5, m6⟩⟩, t5,
    by rw [issued_append, t12, List.append_nil], by rw [mailed_append, t13, List.append_nil]⟩

/-- the code in time -/
theorem turn_right (hC : C.Honest) (hS : LawfulStore C S Inv) (hcfg : NameFits cfg.profile.caPrefix) {x : Session σ} {r : RequestState} {pub : Bytes} {n : Nat}
    {code : Bytes} {tries : Nat} {since : Time} (w : Waiting C S Inv cfg x r pub n code tries since) (hn : n ≤ 2 ^ 30)
    {k : ChalKind} (hk : k = .pin ∨ k = .email) (hlen : code.length ≤ 8800)
    {t : Turn} (hf : Foreign C cfg pub t.others) (he : t.env.Wf) (hrnd : t.Wf)
    (ht : t.env.now - since + 1000 ≤ k.lifetime * nsPerSec)
    (hty : r.requestType = .new) {v : Time × Time} (hval : r.cert.validity = some v)
    (hsz : (nameBlock (r.cert.keyName ++ [ndncertComponent, t.env.version])).encode.length + (nameBlock cfg.profile.forwardingHint).encode.length ≤ 2 ^ 32)
    (hw : Name.Wf (r.cert.keyName ++ [ndncertComponent, t.env.version])) (hwh : Name.Wf cfg.profile.forwardingHint) :
    ∃ y c, challengeTurn C S cfg x k.regName code t = some y ∧ Inv y.ca.store ∧
      S.view y.ca.store r.requestId = none ∧ y.requester.status = .success ∧ y.requester.issuedCertName = c.name ∧
      y.requester.forwardingHint = cfg.profile.forwardingHint ∧
      issued y.done = issued x.done ++ [c] ∧ mailed y.done = mailed x.done ∧
      c.name = r.cert.keyName ++ [ndncertComponent, t.env.version] ∧ c.content = some pub ∧ c.validity = some v ∧
      (∃ r1, issueCertificate C cfg t.env r1 = .ok c) ∧
      ∃ d r2, y.done = x.done ++ [.issue c, .dbDelete r.requestId, .put d, .callback r2] ∧ r2.cert = c ∧ r2.status = .success ∧ r2.requestType = .new := by
  obtain ⟨cs, k1, k2, k3, k4, k5, k6⟩ := w.cs
  have hin := time_in k5 ht
  obtain ⟨b1, b2, b3⟩ := code_blocks (k := k) hlen
  obtain ⟨p1, p2⟩ := code_prompts hk (typed := code) w.qChal
  obtain ⟨q', s', es', c, t1, t2, t3, t4, t5, t6, t7, t8, t9⟩ :=
    turn_success (sel := k.regName) (typed := code) (k := k)
      hC hS hcfg w.inv w.view w.linked hn hf he hrnd (fun h => absurd h w.started) (createChallenge_regName k) (by rw [w.qStatus]; exact p1) (by rw [w.qStatus]; exact p2)
      b1 b2 b3 rfl (by rcases hk with rfl | rfl <;> rfl)
      (by
        intro div
        rw [code_module (r := { r with decryptionIv := div }) hk w.rStatus k1 k2 k4 hin, if_pos rfl])
      hty hval hsz hw hwh
  obtain ⟨u1, u2, u3, u4, d, r2, rfl, u5⟩ := t9
  exact ⟨_, c, t1, t2, t3, t4, t5, t6, by rw [issued_append, t7], by rw [mailed_append, t8, List.append_nil], u1, u2, u3, u4, d, r2, rfl, u5⟩

/-- the request has been accepted and no challenge chosen yet -/
structure Ready (C : Crypto) (S : StoreI σ) (Inv : σ → Prop) (cfg : CaConfig) (x : Session σ) (r : RequestState) (pub : Bytes) : Prop where
  inv : Inv x.ca.store
  view : S.view x.ca.store r.requestId = some r
  linked : Linked C cfg x.requester r pub 0
  qIv : x.requester.encryptionIv = []
  qStatus : x.requester.status = .beforeChallenge
  qChal : x.requester.challengeStatus = []
  rStatus : r.status = .beforeChallenge

theorem round_bounds {nb na : Int} (h1 : 0 ≤ nb) (h2 : nb + 2 * 1000000000 ≤ na) (h3 : na < 2 ^ 37 * 1000000000) :
    0 ≤ na ∧ nb + 1000000000 < 2 ^ 37 * 1000000000 := by omega

theorem round_arith {nb na now mx : Int} (h0 : 0 ≤ nb) (h1 : now - 120 * 1000000000 ≤ nb) (h2 : nb + 2 * 1000000000 ≤ na) (h3 : na ≤ now + mx * 1000000000) :
    now - 120 * 1000000000 ≤ (nb + (1000000000 - 1)) / 1000000000 * 1000000000 ∧ na / 1000000000 * 1000000000 ≤ now + mx * 1000000000 ∧
      (nb + (1000000000 - 1)) / 1000000000 * 1000000000 < na / 1000000000 * 1000000000 := by omega

theorem round_policy {nb na now mx : Int} (h0 : 0 ≤ nb) (h1 : now - 120 * 1000000000 ≤ nb) (h2 : nb + 2 * 1000000000 ≤ na) (h3 : na ≤ now + mx * 1000000000) :
    now - 120 * 1000000000 ≤ (roundPeriod nb na).1 ∧ (roundPeriod nb na).2 ≤ now + mx * 1000000000 ∧ (roundPeriod nb na).1 < (roundPeriod nb na).2 := by
  unfold roundPeriod
  have e : nsPerSec = 1000000000 := rfl
  rw [e]
  dsimp only
  rw [Int.tdiv_eq_ediv_of_nonneg (by omega), Int.tdiv_eq_ediv_of_nonneg (by omega)]
  exact round_arith h0 h1 h2 h3

theorem turn_new (hC : C.Honest) (hS : LawfulStore C S Inv) (hcfg : NameFits cfg.profile.caPrefix) {x : Session σ} {id : Name} {keyId : Block} {pub : Bytes} {nb na : Time}
    {version : Block} {t : Turn} (hi : Inv x.ca.store) (ha : Admissible C S cfg x id keyId pub nb na version t.env) (he : t.env.Wf) (ho : t.others = [])
    {stack : Bytes} (hs : stack.length = 32) :
    ∃ y r, newTurn C S cfg x (id ++ [keyComponent, keyId]) nb na version stack t = some (y, cfg.profile.supportedChallenges) ∧
      Ready C S Inv cfg y r pub ∧ r.requestType = .new ∧ r.caPrefix = cfg.profile.caPrefix ∧
      r.requestId = requestIdOf C x.ca.idKey (id ++ [keyComponent, keyId] ++ [gcomp (bytes! "cert-request"), version]) ∧
      r.cert.name = id ++ [keyComponent, keyId] ++ [gcomp (bytes! "cert-request"), version] ∧ r.cert.validity = some (roundPeriod nb na) ∧
      issued y.done = issued x.done ∧ mailed y.done = mailed x.done := by
  obtain ⟨p1, p2, p3, p4, p5⟩ := ha.period
  obtain ⟨i, hgen⟩ := (C66_new_some (C := C) x.requester (id ++ [keyComponent, keyId]) nb na version).mpr
    ⟨by rw [ha.pre]; exact ha.below.1.trans (List.prefix_append ..), ⟨id, keyId, rfl⟩, pub, ha.key⟩
  obtain ⟨pub', cert, n1, n2, n3, n4, n5, n6, n7, n8⟩ := new_request hC x.requester _ nb na version i hgen ha.keySize ha.certSize p1
    (round_bounds p1 p3 p5).1 (round_bounds p1 p3 p5).2 p5 (fun b hb => ha.newSize i b hgen hb)
  rw [ha.key] at n1
  cases n1
  obtain ⟨id', pub', g1, g2, g3, g4, g5⟩ := genNewInterest_ok (r' := (genNewInterest C x.requester (id ++ [keyComponent, keyId]) nb na version).1) (Prod.ext rfl hgen)
  rw [ha.key] at g3
  cases g3
  have hid : cert.identity = id := by unfold Cert.identity; rw [n4]; simp
  obtain ⟨r1, r2, r3⟩ := round_policy p1 p2 p3 p4
  have hpub : C.ecdhPub x.requester.ecdhPriv ≠ [] := hC.ecdh_pub_ne _
  have hacc : Accepted (onNewRenewRevoke C S cfg x.ca.idKey x.ca.store .new i t.env) := by
    rw [C21_accepted_iff_policy C S cfg x.ca.idKey x.ca.store i t.env hC.toLawful hS hi hcfg (.inl rfl)]
    intro c hc
    simp only [acceptanceChecks, List.cons_append, List.nil_append, List.mem_cons, List.not_mem_nil, or_false] at hc
    rcases hc with rfl | rfl | rfl | rfl | rfl | rfl | rfl | rfl | rfl
    · exact ha.caValid
    · exact ⟨_, _, n3⟩
    · exact ⟨_, _, n3, hpub⟩
    · exact ⟨_, _, n3, by
        intro h
        have := hC.ecdh_total t.env.ecdhPriv x.requester.ecdhPriv
        rw [h] at this
        cases this⟩
    · exact ⟨_, _, n3, by unfold NamePolicy; rw [identityOf_eq, hid]; exact ⟨⟨_, _, _, _, n4.trans (List.append_assoc _ _ _)⟩, ha.below⟩⟩
    · exact ⟨_, _, n3, _, _, n6, r1, r2, r3⟩
    · exact ⟨_, _, n3, n8⟩
    · exact ⟨_, _, n3, n7⟩
    · exact ⟨_, _, n3, by rw [n4]; exact ha.notPending⟩
  obtain ⟨rs, hrs⟩ := hacc
  obtain ⟨pub2, secret, st', a1, a2, a3, a4, a5, a6, a7, a8, a9, a10⟩ := added_case C S cfg x.ca.idKey x.ca.store i t.env (.inl rfl) hrs
  have hcert : rs.cert = cert := by
    unfold Submits at a1
    rw [n3] at a1
    cases a1
    rfl
  have hstor : Storable C rs := by rw [a8]; exact newRequestState_storable hC.toLawful hcfg a1 x.ca.idKey secret t.env.salt
  have hnone := (add_iff hS hi hstor).mp ⟨st', a9⟩
  obtain ⟨st'', r', b1, b2, b3, b4⟩ := hS.add_absent x.ca.store rs hi hstor hnone
  rw [a9] at b1
  cases b1
  obtain ⟨f1, f2, f3, f4, f5, f6, f7, f8, f9⟩ := b3.fields
  have c1 : rs.requestId = requestIdOf C x.ca.idKey rs.cert.name := by rw [a8]; rfl
  have c2 : rs.status = .beforeChallenge := by rw [a8]; rfl
  have c3 : rs.requestType = .new := by rw [a8]; rfl
  have c4 : rs.encryptionIv = [] := by rw [a8]; rfl
  have c5 : rs.decryptionIv = [] := by rw [a8]; rfl
  have c6 : rs.caPrefix = cfg.profile.caPrefix := by rw [a8]; rfl
  have hidl : rs.requestId.length = 8 := by
    rw [c1]
    show ((C.hmac _ _).take 8).length = 8
    rw [List.length_take, hC.hmac_length]
    rfl
  have hiparams : i.params = some (requestParamsEncode .new (C.ecdhPub x.requester.ecdhPriv)
      (keySignedCert C (id ++ [keyComponent, keyId]) (id ++ [keyComponent, keyId] ++ [gcomp (bytes! "cert-request"), version]) pub (roundPeriod nb na))) := by
    rw [g5]; rfl
  have htr : Trusts C cfg { x.requester with identityName := id', keyPair := some ⟨id ++ [keyComponent, keyId], pub⟩ } := ha.caKey
  obtain ⟨d, e1, e2⟩ := agree (S := S) (idKey := x.ca.idKey) (st := x.ca.store) (.inl rfl) hC he htr ha.fresh.2.2.2.2 (i := i) hiparams
    (ha.newSize i _ hgen hiparams) hrs hs (by
      intro d hd
      rw [a10] at hd
      simp only [acceptOutcome, sent, List.mem_cons, List.not_mem_nil, or_false] at hd
      rw [hd]
      exact ha.replySize _ hidl)
  have happ : applyEffects S x.ca.store (onNewRenewRevoke C S cfg x.ca.idKey x.ca.store .new i t.env).effects = st' := by
    rw [a10]
    simp only [acceptOutcome, applyEffects, List.foldl_cons, List.foldl_nil, applyEffect, a9]
  have hans : answer C S cfg (serve C S cfg x.ca t.others) (.new i) t.env =
      some ({ x.ca with store := st' }, (onNewRenewRevoke C S cfg x.ca.idKey x.ca.store .new i t.env).effects, d) := by
    rw [ho]
    unfold answer
    have hh : handle C S cfg (serve C S cfg x.ca []) (.new i) t.env = onNewRenewRevoke C S cfg x.ca.idKey x.ca.store .new i t.env := rfl
    have hh2 : serve C S cfg x.ca [] = x.ca := rfl
    rw [hh, hh2]
    dsimp only
    rw [happ, e1]
    rw [a10]
    rfl
  have hgen' : genNewInterest C x.requester (id ++ [keyComponent, keyId]) nb na version =
      ({ x.requester with identityName := id', keyPair := some ⟨id ++ [keyComponent, keyId], pub⟩ }, .ok (some i)) := Prod.ext g4 hgen
  have hturn : newTurn C S cfg x (id ++ [keyComponent, keyId]) nb na version stack t =
      some (⟨{ { x.requester with identityName := id', keyPair := some ⟨id ++ [keyComponent, keyId], pub⟩ } with requestId := rs.requestId, aesKey := rs.encryptionKey },
        { x.ca with store := st' }, x.done ++ (onNewRenewRevoke C S cfg x.ca.idKey x.ca.store .new i t.env).effects⟩, cfg.profile.supportedChallenges) := by
    unfold newTurn
    dsimp only
    rw [hgen']
    dsimp only
    rw [hans]
    dsimp only
    rw [e2]
  refine ⟨_, r', hturn, ⟨b2, by rw [b4, ← f1, if_pos rfl], ⟨ha.pre, htr, ⟨_, rfl, ha.key⟩, by rw [← f4, hcert]; exact n5, f5, f1, by rw [← f1]; exact hidl,
      by rw [← f7, c5]; exact ha.fresh.2.2.1.symm, by rw [← f6, c4]; exact ha.fresh.2.2.2.1, .inl ⟨ha.fresh.2.2.1, by rw [← f6]; exact c4⟩, ?_⟩, ha.fresh.2.2.1, ha.fresh.1, ha.fresh.2.1,
      by rw [← f8]; exact c2⟩,
    ?_, ?_, by rw [← f1, c1, hcert, n4], by rw [← f4, hcert]; exact n4, by rw [← f4, hcert]; exact n6, ?_, ?_⟩
  · show ivCounter x.requester.encryptionIv ≤ 0 ∧ ivCounter r'.encryptionIv ≤ 0
    rw [ha.fresh.2.2.1, ← f6, c4]
    decide
  · rw [← f3]; exact c3
  · rw [← f2]; exact c6
  · show issued (x.done ++ (onNewRenewRevoke C S cfg x.ca.idKey x.ca.store .new i t.env).effects) = _
    rw [issued_append, a10]
    show issued x.done ++ [] = _
    rw [List.append_nil]
  · show mailed (x.done ++ (onNewRenewRevoke C S cfg x.ca.idKey x.ca.store .new i t.env).effects) = _
    rw [mailed_append, a10]
    show mailed x.done ++ [] = _
    rw [List.append_nil]

/-- the pin challenge is chosen -/
theorem turn_start_pin (hC : C.Honest) (hS : LawfulStore C S Inv) (hcfg : NameFits cfg.profile.caPrefix) {x : Session σ} {r : RequestState} {pub : Bytes}
    (w : Ready C S Inv cfg x r pub) {t : Turn} (hf : Foreign C cfg pub t.others) (he : t.env.Wf) (hrnd : t.Wf) (hdiff : t.rnd ≠ t.env.ivRnd)
    (typed : Bytes) :
    ∃ y r', challengeTurn C S cfg x ChalKind.pin.regName typed t = some y ∧
      Waiting C S Inv cfg y r' pub 1000 (secretCode t.env.word32) 3 t.env.nowStore ∧ SameRequest r r' ∧
      issued y.done = issued x.done ∧ mailed y.done = mailed x.done := by
  obtain ⟨q', s', es', r', t1, t2, t3, t4, t5, t6, t7, t8, t9, t10, ⟨cs', m1, m2, m3, m4, m5, m6⟩, t12, t13⟩ :=
    turn_continue (sel := ChalKind.pin.regName) (typed := typed) (k := .pin) (keys := []) (es := [binBlock T.SelectedChallenge ChalKind.pin.chalType]) (mails := []) (info := [])
      (cs := { challengeStatus := NEED_CODE, timestamp := t.env.nowStore, remainingTries := ChalKind.pin.maxTries,
               remainingTime := ChalKind.pin.lifetime, secrets := [(KEY_CODE, secretCode t.env.word32)] })
      hC hS hcfg w.inv w.view w.linked (by decide) hf he hrnd (fun _ => hdiff) (createChallenge_regName _) (by rw [w.qStatus]; rfl)
      (by rw [w.qStatus]; rfl) (by decide) (by decide) (by decide) rfl rfl
      (by
        intro div
        unfold handleChallenge handlePin
        dsimp only
        rw [if_pos w.rStatus]
        rfl)
      (.inl rfl) (Nat.le_refl 3) (by show (0 : Int) ≤ ChalKind.pin.lifetime; decide) (by show ChalKind.pin.lifetime ≤ (1000000 : Int); decide)
  exact ⟨_, r', t1, ⟨t2, by rw [← t5.1]; exact t4, t6, t7, t8, .inl t9, t10, ⟨cs', m1, .inl m2, m3, m4, m5, m6⟩⟩, t5,
    by rw [issued_append, t12, List.append_nil], by rw [mailed_append, t13, List.append_nil]⟩

theorem email_blocks {addr : Bytes} (hlen : addr.length ≤ 8800) :
    (encodeAll [binBlock T.SelectedChallenge ChalKind.email.chalType, binBlock T.ParameterKey KEY_EMAIL, binBlock T.ParameterValue addr]).length ≤ 16000 ∧
    (∀ e ∈ [binBlock T.SelectedChallenge ChalKind.email.chalType, binBlock T.ParameterKey KEY_EMAIL, binBlock T.ParameterValue addr], e.Fits) ∧
    encodeAll [binBlock T.SelectedChallenge ChalKind.email.chalType, binBlock T.ParameterKey KEY_EMAIL, binBlock T.ParameterValue addr] ≠ [] := by
  have a1 : (binBlock T.SelectedChallenge ChalKind.email.chalType).encode.length ≤ 100 ∧ 0 < (binBlock T.SelectedChallenge ChalKind.email.chalType).encode.length := by decide
  have a2 : (binBlock T.ParameterKey KEY_EMAIL).encode.length ≤ 100 := by decide
  have a3 := encode_length_small (b := binBlock T.ParameterValue addr) (by simp [T.ParameterValue])
  simp only [binBlock_val] at a3
  refine ⟨?_, ?_, ?_⟩
  · simp only [encodeAll, List.flatMap_cons, List.flatMap_nil, List.length_append, List.length_nil]
    omega
  · intro e he
    simp only [List.mem_cons, List.not_mem_nil, or_false] at he
    rcases he with rfl | rfl | rfl
    · decide
    · decide
    · exact ⟨by simp [binBlock, T.ParameterValue], by simp [binBlock, T.ParameterValue], by show addr.length < _; omega⟩
  · intro h
    have := congrArg List.length h
    simp only [encodeAll, List.flatMap_cons, List.flatMap_nil, List.length_append, List.length_nil] at this
    omega

/-- the email challenge is chosen -/
theorem turn_start_email (hC : C.Honest) (hS : LawfulStore C S Inv) (hcfg : NameFits cfg.profile.caPrefix) {x : Session σ} {r : RequestState} {pub : Bytes}
    (w : Ready C S Inv cfg x r pub) {t : Turn} (hf : Foreign C cfg pub t.others) (he : t.env.Wf) (hrnd : t.Wf) (hdiff : t.rnd ≠ t.env.ivRnd)
    (hsp : t.env.spawnOk = true) (hid : r.cert.identity ≠ []) {addr : Bytes} (hlen : addr.length ≤ 8800) :
    ∃ y r', challengeTurn C S cfg x ChalKind.email.regName addr t = some y ∧
      Waiting C S Inv cfg y r' pub 1000 (secretCode t.env.word32) 3 t.env.nowStore ∧ SameRequest r r' ∧
      issued y.done = issued x.done ∧
      mailed y.done = mailed x.done ++ [{ address := addr, code := secretCode t.env.word32, caPrefix := r.caPrefix, certName := r.cert.name }] := by
  obtain ⟨b1, b2, b3⟩ := email_blocks hlen
  obtain ⟨q', s', es', r', t1, t2, t3, t4, t5, t6, t7, t8, t9, t10, ⟨cs', m1, m2, m3, m4, m5, m6⟩, t12, t13⟩ :=
    turn_continue (sel := ChalKind.email.regName) (typed := addr) (k := .email) (keys := [KEY_EMAIL])
      (es := [binBlock T.SelectedChallenge ChalKind.email.chalType, binBlock T.ParameterKey KEY_EMAIL, binBlock T.ParameterValue addr])
      (mails := [{ address := addr, code := secretCode t.env.word32, caPrefix := r.caPrefix, certName := r.cert.name }]) (info := [])
      (cs := { challengeStatus := NEED_CODE, timestamp := t.env.nowStore, remainingTries := ChalKind.email.maxTries,
               remainingTime := ChalKind.email.lifetime, secrets := [(KEY_CODE, secretCode t.env.word32)] })
      hC hS hcfg w.inv w.view w.linked (by decide) hf he hrnd (fun _ => hdiff) (createChallenge_regName _) (by rw [w.qStatus, w.qChal]; rfl)
      (by rw [w.qStatus, w.qChal]; rfl) b1 b2 b3 rfl rfl
      (by
        intro div
        unfold handleChallenge handleEmail
        dsimp only
        rw [if_pos w.rStatus]
        have e : getElem [binBlock T.SelectedChallenge ChalKind.email.chalType, binBlock T.ParameterKey KEY_EMAIL,
          binBlock T.ParameterValue addr] T.ParameterValue = .ok (binBlock T.ParameterValue addr) := rfl
        rw [e]
        simp only [Res.bind_ok]
        rw [if_neg hid, if_neg (by simp [hsp])]
        rfl)
      (.inl rfl) (Nat.le_refl 3) (by show (0 : Int) ≤ ChalKind.email.lifetime; decide) (by show ChalKind.email.lifetime ≤ (1000000 : Int); decide)
  exact ⟨_, r', t1, ⟨t2, by rw [← t5.1]; exact t4, t6, t7, t8, .inl t9, t10, ⟨cs', m1, .inl m2, m3, m4, m5, m6⟩⟩, t5,
    by rw [issued_append, t12, List.append_nil], by rw [mailed_append, t13]⟩

end Ndncert
