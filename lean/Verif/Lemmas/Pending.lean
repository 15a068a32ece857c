import Verif.Lemmas.Life
import Verif.Lemmas.ChallengeWire
import Verif.Spec.History

namespace Ndncert

variable {σ : Type} {C : Crypto} {S : StoreI σ} {Inv : σ → Prop} {cfg : CaConfig}

theorem updateIv_length {iv iv' : Bytes} {n : Nat} (hl : iv.length = 12) (h : updateIv iv n = .ok iv') : iv'.length = 12 := by
  unfold updateIv at h
  dsimp only at h
  split at h
  · cases h
  · simp only [Res.ok.injEq] at h
    rw [← h]
    simp [hl]

/-- the secret the request waits for, given the surroundings in which module `k` was started -/
inductive SecretOf (C : Crypto) (env : Env) : ChalKind → ChallengeState → Prop where
  | code (k : ChalKind) (cs : ChallengeState) (hk : k = .pin ∨ k = .email)
      (hst : cs.challengeStatus = NEED_CODE ∨ cs.challengeStatus = WRONG_CODE)
      (hsec : cs.secrets = [(KEY_CODE, secretCode env.word32)]) : SecretOf C env k cs
  | proof (cs : ChallengeState) (c : Cert) (anchors : List Cert) (hst : cs.challengeStatus = NEED_PROOF)
      (ha : env.anchors = .ok anchors) (hcert : Certified C anchors c) (htr : cs.remainingTries = 1)
      (hdec : ∃ d : Block, d.Fits ∧ C.decodeData d = some c) (hload : C.loadKey (c.content.getD []) = true)
      (hsec : cs.secrets = [(KEY_NONCE, toHex env.nonce), (KEY_CREDENTIAL, toHex c.wire.encode)]) :
      SecretOf C env .possession cs

/-- a request in its challenge -/
structure InChallenge (C : Crypto) (r : RequestState) (k : ChalKind) (env : Env) (cs : ChallengeState) : Prop where
  status : r.status = .challenge
  state : r.challengeState = some cs
  type : ∃ k', r.challengeType = ChalKind.chalType k'
  tries : 1 ≤ cs.remainingTries ∧ cs.remainingTries ≤ 3
  encIv : r.encryptionIv.length = 12
  decIv : r.decryptionIv.length = 12
  encCtr : ivCounter r.encryptionIv ≤ 4 * (4 - cs.remainingTries)
  secret : SecretOf C env k cs

/-- a CHALLENGE that started module `k` -/
structure Starts (C : Crypto) (S : StoreI σ) (cfg : CaConfig) (n : Step σ) (cert : Cert) (id : RequestId) (k : ChalKind) (env : Env) : Prop where
  wf : env.Wf
  event : ∃ i r0, n.event.msg? = some (.challenge i, env) ∧ Verified C S cfg n.pre.store i env r0 ∧ r0.cert = cert ∧
    r0.requestId = id ∧ r0.status = .beforeChallenge ∧ ∃ es, Selects C i r0 es k
  stored : ∃ r1, Effect.dbUpdate r1 ∈ n.effects ∧ r1.requestId = id ∧ r1.challengeType = k.chalType

/-- the time stamp of a challenge is bounded by the time of its start and the tries used -/
def TimeBound (hb : List (Step σ)) (t0 : Time) (cs : ChallengeState) : Prop :=
  ∀ d, 0 ≤ d → Quick d hb → cs.timestamp < t0 + 1000 + (3 - cs.remainingTries) * (3600 * 1000000000 + 1000 + d)

/-- everything known about a stored request -/
def Pending (C : Crypto) (S : StoreI σ) (cfg : CaConfig) (h : List (Step σ)) (r : RequestState) : Prop :=
  ∃ h1 n h2 ty i env r0, h = h1 ++ n :: h2 ∧ AddedBy C S cfg n ty i env r0 ∧ SameRequest r0 r ∧
    (∀ m ∈ h2, Effect.dbDelete r.requestId ∉ m.effects ∧ ∀ r', Effect.dbAdd r' ∈ m.effects → r'.requestId ≠ r.requestId) ∧
    (Fresh r ∨ ∃ ha m hb k env' cs, h2 = ha ++ m :: hb ∧ Starts C S cfg m r.cert r.requestId k env' ∧ InChallenge C r k env' cs ∧
      TimeBound hb env'.nowStore cs ∧ ∃ env3, LastUpdate r.requestId (m :: hb) env3 ∧ cs.timestamp < env3.nowStore + 1000)

theorem lt_lifetime {a b x l : Int} (h : a - b < x) (h' : x ≤ l) : a < b + l := by omega

theorem timeBound_start {t t0 d : Int} {n : Nat} (h : t < t0 + 1000) (hn : n ≤ 3) (hd : 0 ≤ d) :
    t < t0 + 1000 + (3 - n) * (3600 * 1000000000 + 1000 + d) := by
  have : 0 ≤ ((3 : Int) - n) * (3600 * 1000000000 + 1000 + d) := Int.mul_nonneg (by omega) (by omega)
  omega

theorem timeBound_again {t t' t0 d now nowStore : Int} {n n' : Nat} (h1 : t' < nowStore + 1000)
    (h2 : now < t + 3600 * 1000000000) (h3 : n' + 1 = n)
    (h4 : t < t0 + 1000 + (3 - n) * (3600 * 1000000000 + 1000 + d)) (h5 : nowStore ≤ now + d) :
    t' < t0 + 1000 + (3 - n') * (3600 * 1000000000 + 1000 + d) := by
  have h8 : (3 : Int) - n' = (3 - n) + 1 := by omega
  rw [h8, Int.add_mul]
  generalize (3 - (n : Int)) * (3600 * 1000000000 + 1000 + d) = z at h4 ⊢
  omega

theorem startIv_length {iv rnd : Bytes} (h : iv = [] ∨ iv.length = 12) (hr : rnd.length = 8) : (startIv iv rnd).length = 12 := by
  unfold startIv
  split
  · simp [hr]
  · rename_i hne
    rcases h with h | h
    · exact absurd h hne
    · exact h

theorem opened_iv {i : Interest} {r : RequestState} {div : Bytes} {es : List Block} {k : ChalKind}
    (h : Opened C i r div es k) : div.length = 12 := by
  obtain ⟨pt, sel, h1, _⟩ := h
  obtain ⟨_, _, _, _, _, _, _, _, h5, _, _, _, _, _, h6⟩ := decodeAes_ok h1
  exact updateIv_length h5 h6

/-- the new encryption IV -/
theorem encode_iv {r r2 : RequestState} {issued hint : Name} {rnd : Bytes} {payload : Block}
    (h : challengeEncode C r issued hint rnd = (r2, .ok payload)) (hl : r.encryptionIv = [] ∨ r.encryptionIv.length = 12)
    (hr : rnd.length = 8) : r2.encryptionIv.length = 12 := by
  obtain ⟨es, iv, _, h2, h3⟩ := challengeEncode_ok h
  obtain ⟨_, h4, _⟩ := encodeAes_ok h3
  rw [h2]
  exact updateIv_length (startIv_length hl hr) h4

theorem SecretOf.stored {env : Env} {k : ChalKind} {cs cs' : ChallengeState} (h : SecretOf C env k cs)
    (h1 : cs'.challengeStatus = cs.challengeStatus) (h2 : cs'.remainingTries = cs.remainingTries)
    (h3 : cs'.secrets = cs.secrets) : SecretOf C env k cs' := by
  cases h with
  | code k cs hk hst hsec => exact .code k cs' hk (by rw [h1]; exact hst) (by rw [h3]; exact hsec)
  | proof cs c anchors hst ha hcert htr hdec hload hsec =>
    exact .proof cs' c anchors (by rw [h1]; exact hst) ha hcert (by rw [h2]; exact htr) hdec hload (by rw [h3]; exact hsec)

theorem small_encode_length {b : Block} (h1 : b.typ < 253) (h2 : b.val.length < 253) : b.encode.length = 2 + b.val.length := by
  unfold Block.encode varNumber
  rw [if_pos h1, if_pos h2]
  simp
  omega

theorem nni_encode_length {t n : Nat} (h : t < 253) : (nniBlock t n).encode.length ≤ 10 := by
  have h1 : (nniBlock t n).val.length ≤ 8 := by
    unfold nniBlock
    have := nniBytes_length (n % 2 ^ 64)
    dsimp only
    omega
  rw [small_encode_length h (by omega)]
  omega

/-- a reply that continues the challenge takes at most four AES blocks -/
theorem reply_length {r : RequestState} {cs : ChallengeState} {es : List Block} (hst : r.status = .challenge) (hr : r.challengeState = some cs)
    (hcs : (cs.challengeStatus = NEED_CODE ∨ cs.challengeStatus = WRONG_CODE) ∨
      (cs.challengeStatus = NEED_PROOF ∧ ∃ nonce : Bytes, nonce.length = 16 ∧ secretGetD cs.secrets KEY_NONCE = toHex nonce))
    (h : challengeElems r [] [] = .ok es) : (encodeAll es).length ≤ 64 ∧ 0 < (encodeAll es).length := by
  unfold challengeElems at h
  rw [hr] at h
  dsimp only at h
  rw [Res.bind_eq_ok] at h
  obtain ⟨st, h1, h2⟩ := h
  simp only [if_true, List.append_nil, Res.ok.injEq, List.cons_append, List.nil_append] at h2
  have a1 := nni_encode_length (t := T.Status) (n := r.status.toNat) (by decide)
  have a2 := nni_encode_length (t := T.RemainingTries) (n := cs.remainingTries) (by decide)
  have a3 := nni_encode_length (t := T.RemainingTime) (n := (cs.remainingTime % 2 ^ 64).toNat) (by decide)
  have a4 : (binBlock T.ChallengeStatus cs.challengeStatus).encode.length ≤ 12 := by
    rcases hcs with (h | h) | ⟨h, _⟩ <;> rw [h] <;> decide
  have a5 := encode_length_pos (nniBlock T.Status r.status.toNat)
  unfold challengeStateElems at h1
  dsimp only at h1
  rw [← h2]
  rcases hcs with h | ⟨h, nonce, hn, hs⟩
  · rw [if_neg (by rcases h with h | h <;> rw [h] <;> decide)] at h1
    simp only [Res.ok.injEq] at h1
    rw [← h1]
    simp only [encodeAll, List.flatMap_cons, List.flatMap_nil, List.length_append, List.length_nil]
    omega
  · rw [if_pos h, hs, fromHex_toHex] at h1
    simp only [Res.bind_ok, Res.ok.injEq] at h1
    rw [← h1]
    have a6 : (binBlock T.ParameterKey KEY_NONCE).encode.length = 7 := by decide
    have a7 : (binBlock T.ParameterValue nonce).encode.length = 18 := by
      rw [small_encode_length (show T.ParameterValue < 253 by decide) (by unfold binBlock; dsimp only; omega)]
      unfold binBlock; dsimp only; omega
    have a8 : (nniBlock T.Status r.status.toNat).encode.length ≤ 3 := by
      rw [hst]
      decide
    simp only [encodeAll, List.flatMap_append, List.flatMap_cons, List.flatMap_nil, List.length_append, List.length_nil]
    omega

/-- the counter of the encryption IV after such a reply -/
theorem reply_counter {r r2 : RequestState} {cs : ChallengeState} {rnd : Bytes} {payload : Block} (h : challengeEncode C r [] [] rnd = (r2, .ok payload)) (hst : r.status = .challenge) (hr : r.challengeState = some cs)
    (hcs : (cs.challengeStatus = NEED_CODE ∨ cs.challengeStatus = WRONG_CODE) ∨
      (cs.challengeStatus = NEED_PROOF ∧ ∃ nonce : Bytes, nonce.length = 16 ∧ secretGetD cs.secrets KEY_NONCE = toHex nonce))
    (hl : r.encryptionIv = [] ∨ r.encryptionIv.length = 12) (hrnd : rnd.length = 8) :
    ivCounter r2.encryptionIv ≤ (if r.encryptionIv = [] then 0 else ivCounter r.encryptionIv) + 4 := by
  obtain ⟨es, iv, h1, h2, h3⟩ := challengeEncode_ok h
  obtain ⟨_, h4, _⟩ := encodeAes_ok h3
  obtain ⟨g1, g2⟩ := reply_length hst hr hcs h1
  obtain ⟨_, _, h6, _⟩ := updateIv_ok (startIv_length hl hrnd) (by omega) h4
  rw [h2]
  dsimp only
  rw [h6]
  have : blocksOf (encodeAll es).length ≤ 4 := by unfold blocksOf; omega
  have h7 : ivCounter (startIv r.encryptionIv rnd) = if r.encryptionIv = [] then 0 else ivCounter r.encryptionIv := by
    unfold startIv
    split
    · unfold ivCounter
      rw [List.drop_append, List.drop_of_length_le (by omega), hrnd]
      decide
    · rfl
  omega

theorem fresh_of_added {n : Step σ} {ty : RequestType} {i : Interest} {env : Env} {r : RequestState}
    (ha : AddedBy C S cfg n ty i env r) : Fresh r := by
  obtain ⟨secret, hr⟩ := ha.state
  rw [hr]
  exact ⟨rfl, rfl, rfl, rfl, rfl⟩

theorem givesCredential_decode {es : List Block} {c : Cert} (h : GivesCredential C es c) :
    ∃ d : Block, d.Fits ∧ C.decodeData d = some c := by
  obtain ⟨a, b, d, pre, post, _, _, _, _, h1, h2⟩ := h
  refine ⟨d, ?_, h2⟩
  unfold Block.blockFromValue at h1
  rw [Res.bind_eq_ok] at h1
  obtain ⟨⟨e, rest⟩, h3, h4⟩ := h1
  dsimp only at h4
  split at h4
  · cases h4
    exact (readElement_ok h3).2
  · cases h4

/-- a module step from a fresh request -/
theorem start_inChallenge {k : ChalKind} {env : Env} {es : List Block} {r0 r1 r : RequestState} {div : Bytes} {out : ChalOut} {i : Interest}
    (hwf : env.Wf) (hf : Fresh r0) (ho : Opened C i r0 div es k)
    (hm : ModCase C k env es { r0 with decryptionIv := div } out) (hst : out.req.status = .challenge) {payload : Block}
    (henc : challengeEncode C out.req [] [] env.ivRnd = (r1, .ok payload)) (hs : SameStored r1 r) :
    ∃ cs, InChallenge C r k env cs ∧ cs.timestamp < env.nowStore + 1000 ∧ r1.challengeType = k.chalType := by
  have hiv := opened_iv ho
  obtain ⟨es', iv, _, hr1, _⟩ := challengeEncode_ok henc
  obtain ⟨f1, f2, f3, f4, f5, f6, f7, f8, f9⟩ := hs.fields
  cases hm with
  | error code info hcode => cases hst
  | wrong cs code given hs hk ha hg hne ht htr time => exact absurd hf.1 hs
  | code cs code hs hk ha hg ht => cases hst
  | proof cs cred nonce p hs hk ha hg hl hv => cases hst
  | start cstat secrets mails hs0 hsc =>
    have henc' := encode_iv henc (.inl hf.2.2.2.1) hwf.ivRnd
    obtain ⟨cs', c1, c2, c3, c4, _, c5⟩ := hs.chal (cs := { challengeStatus := cstat, timestamp := env.nowStore, remainingTries := k.maxTries, remainingTime := k.lifetime, secrets := secrets }) (by rw [hr1]; rfl)
    have hctr := reply_counter henc (cs := { challengeStatus := cstat, timestamp := env.nowStore, remainingTries := k.maxTries, remainingTime := k.lifetime, secrets := secrets }) rfl rfl (by
      cases hsc with
      | pin => exact .inl (.inl rfl)
      | email _ _ _ _ => exact .inl (.inl rfl)
      | possession _ _ _ _ _ _ _ => exact .inr ⟨rfl, env.nonce, hwf.nonce, rfl⟩) (.inl hf.2.2.2.1) hwf.ivRnd
    have hctr : ivCounter r1.encryptionIv ≤ (if r0.encryptionIv = [] then 0 else ivCounter r0.encryptionIv) + 4 := hctr
    rw [if_pos (c := r0.encryptionIv = []) hf.2.2.2.1] at hctr
    refine ⟨cs', ⟨by rw [← f8, hr1]; rfl, c1, ⟨k, by rw [← f9, hr1]; rfl⟩, ⟨by rw [c3]; exact maxTries_pos k, by rw [c3]; exact maxTries_le k⟩,
      by rw [← f6]; exact henc', by rw [← f7, hr1]; exact hiv, ?_, ?_⟩, c5, by rw [hr1]; rfl⟩
    · rw [← f6, c3]
      have := maxTries_le k
      dsimp only
      omega
    cases hsc with
    | pin => exact .code _ _ (.inl rfl) (.inl c2) c4
    | email addr hg hid hsp => exact .code _ _ (.inr rfl) (.inl c2) c4
    | possession c anchors ha hg hc hk hcert =>
      exact .proof cs' c anchors c2 ha hcert c3 (givesCredential_decode hg) hk c4

/-- a module step from a request in its challenge -/
theorem again_inChallenge {k k0 : ChalKind} {env env0 : Env} {es : List Block} {r0 r1 r : RequestState} {div : Bytes}
    {out : ChalOut} {i : Interest} {cs0 : ChallengeState} (hwf : env.Wf) (hf : InChallenge C r0 k0 env0 cs0) (ho : Opened C i r0 div es k)
    (hm : ModCase C k env es { r0 with decryptionIv := div } out) (hst : out.req.status = .challenge) {payload : Block}
    (henc : challengeEncode C out.req [] [] env.ivRnd = (r1, .ok payload)) (hs : SameStored r1 r) :
    ∃ cs, InChallenge C r k0 env0 cs ∧ cs.remainingTries + 1 = cs0.remainingTries ∧ cs.challengeStatus = WRONG_CODE ∧
      cs.timestamp < env.nowStore + 1000 ∧ env.now < cs0.timestamp + 3600 * 1000000000 := by
  have hiv := opened_iv ho
  obtain ⟨es', iv, _, hr1, _⟩ := challengeEncode_ok henc
  obtain ⟨f1, f2, f3, f4, f5, f6, f7, f8, f9⟩ := hs.fields
  cases hm with
  | error code info hcode => cases hst
  | start cstat secrets mails hs0 hsc =>
    have h1 : r0.status = .beforeChallenge := hs0
    rw [hf.status] at h1; cases h1
  | code cs code hs hk ha hg ht => cases hst
  | proof cs cred nonce p hs hk ha hg hl hv => cases hst
  | wrong cs code given hns hk ha hg hne ht htr time =>
    have hcs : cs = cs0 := by
      have h1 : r0.challengeState = some cs := ha.1
      rw [hf.state] at h1; cases h1; rfl
    subst hcs
    have henc' := encode_iv henc (.inr hf.encIv) hwf.ivRnd
    obtain ⟨cs', c1, c2, c3, c4, _, c5⟩ := hs.chal (cs := { challengeStatus := WRONG_CODE, timestamp := env.nowStore, remainingTries := cs.remainingTries - 1, remainingTime := time, secrets := cs.secrets }) (by rw [hr1]; rfl)
    refine ⟨cs', ⟨by rw [← f8, hr1]; rfl, c1, ⟨k, by rw [← f9, hr1]; rfl⟩, ?_,
      by rw [← f6]; exact henc', by rw [← f7, hr1]; exact hiv, ?_, ?_⟩, by rw [c3]; dsimp only; omega, c2, c5, ?_⟩
    · have := hf.tries
      rw [c3]
      dsimp only
      omega
    · have hctr := reply_counter henc (cs := { challengeStatus := WRONG_CODE, timestamp := env.nowStore, remainingTries := cs.remainingTries - 1, remainingTime := time, secrets := cs.secrets }) rfl rfl
        (.inl (.inr rfl)) (.inr hf.encIv) hwf.ivRnd
      have hctr : ivCounter r1.encryptionIv ≤ (if r0.encryptionIv = [] then 0 else ivCounter r0.encryptionIv) + 4 := hctr
      rw [if_neg (c := r0.encryptionIv = []) (by intro h; have := hf.encIv; rw [h] at this; cases this)] at hctr
      have h1 := hf.encCtr
      have h2 := hf.tries
      rw [← f6, c3]
      have h3 : ivCounter r1.encryptionIv ≤ ivCounter r0.encryptionIv + 4 := hctr
      dsimp only
      omega
    · cases hf.secret with
      | code _ _ hk0 hst0 hsec => exact .code _ _ hk0 (.inr c2) (by rw [c4]; exact hsec)
      | proof _ c anchors hst0 _ _ _ _ _ _ =>
        exfalso
        rcases ha.2.1 with h | h <;> rw [hst0] at h <;> revert h <;> decide
    · have hlt : k.lifetime * nsPerSec ≤ 3600 * 1000000000 := by cases k <;> decide
      exact lt_lifetime ht hlt

theorem Life.pending {h : List (Step σ)} {r : RequestState} (hl : Life C S cfg h r) : Pending C S cfg h r := by
  induction hl with
  | @added h n ty i env r hd ha => exact ⟨h, n, [], ty, i, env, r, rfl, ha, .refl _, by simp, .inl (fresh_of_added ha)⟩
  | @kept h n r hl hk ih =>
    obtain ⟨h1, m, h2, ty, i, env, r0, rfl, ha, hs, hn, hst⟩ := ih
    refine ⟨h1, m, h2 ++ [n], ty, i, env, r0, by simp, ha, hs, ?_, ?_⟩
    · intro x hx
      rcases List.mem_append.mp hx with hx | hx
      · exact hn x hx
      · simp only [List.mem_singleton] at hx
        subst hx
        unfold Step.touches at hk
        rw [List.any_eq_false] at hk
        constructor
        · intro hmem; exact hk _ hmem (by simp [Effect.touches])
        · intro r' hmem heq; exact hk _ hmem (by simp [Effect.touches, heq])
    · rcases hst with hst | ⟨ha, x, hb, k, env', cs, rfl, h3, h4, h5, env3, ⟨l1, m3, l2, i3, h6, h7, h8, h9⟩, h10⟩
      · exact .inl hst
      · refine .inr ⟨ha, x, hb ++ [n], k, env', cs, by simp, h3, h4, fun d h0 hd => h5 d h0 (fun m hm => hd m (List.mem_append_left _ hm)), env3, ⟨l1, m3, l2 ++ [n], i3, ?_, h7, h8, ?_⟩, h10⟩
        · rw [← List.cons_append, h6]; simp
        · intro y hy r' hr'
          rcases List.mem_append.mp hy with hy | hy
          · exact h9 y hy r' hr'
          · simp only [List.mem_singleton] at hy
            subst hy
            unfold Step.touches at hk
            rw [List.any_eq_false] at hk
            intro heq
            exact hk _ hr' (by simp [Effect.touches, heq])
  | @updated h n i env k es out r0 r1 r hl hd hu hsr hs ih =>
    obtain ⟨h1, m, h2, ty, i', env', r00, rfl, ha, hs0, hn, hst⟩ := ih
    have hid : r0.requestId = r.requestId := hsr.1.trans hs.fields.1
    have hcert : r0.cert = r.cert := hsr.2.2.2.1.trans hs.fields.2.2.2.1
    refine ⟨h1, m, h2 ++ [n], ty, i', env', r00, by simp, ha, (hs0.trans hsr).trans hs.sameRequest, ?_, ?_⟩
    · intro x hx
      rcases List.mem_append.mp hx with hx | hx
      · rw [← hid]; exact hn x hx
      · simp only [List.mem_singleton] at hx
        subst hx
        constructor
        · intro hmem
          have : Effect.dbDelete r.requestId ∈ dbOps x.effects := (mem_dbOps rfl).mpr hmem
          rw [hd] at this; simp at this
        · intro r' hmem
          have : Effect.dbAdd r' ∈ dbOps x.effects := (mem_dbOps rfl).mpr hmem
          rw [hd] at this; simp at this
    · right
      obtain ⟨div, ho, hm⟩ := hu.module
      obtain ⟨payload, henc⟩ := hu.encode
      rcases hst with hst | ⟨ha', x, hb, k', env'', cs, rfl, h3, h4, h5, _⟩
      · obtain ⟨cs, hc, ht, hty⟩ := start_inChallenge hu.wf hst ho hm hu.status henc hs
        refine ⟨h2, n, [], k, env, cs, rfl, ⟨hu.wf, ⟨i, r0, hu.event, hu.verified, hcert, hid, hst.1, es, ho.selects⟩, r1, hu.effect, hs.fields.1, hty⟩, hc, ?_, env, ⟨[], n, [], i, rfl, hu.event, ⟨r1, hu.effect, hs.fields.1⟩, by simp⟩, ht⟩
        intro d h0 hd
        exact timeBound_start ht hc.tries.2 h0
      · obtain ⟨cs', hc, htr, _, ht1, ht2⟩ := again_inChallenge hu.wf h4 ho hm hu.status henc hs
        rw [← hid, ← hcert]
        refine ⟨ha', x, hb ++ [n], k', env'', cs', by simp, h3, hc, ?_, env, ⟨x :: hb, n, [], i, rfl, hu.event, ⟨r1, hu.effect, hs.fields.1.trans hid.symm⟩, by simp⟩, ht1⟩
        intro d h0 hd
        have h6 := h5 d h0 (fun m hm => hd m (List.mem_append_left _ hm))
        have h7 := hd n (by simp) _ _ hu.event
        exact timeBound_again ht1 ht2 htr h6 h7

/-- a request stored in a reachable state -/
theorem Exec.pending (hC : C.Lawful) (hS : LawfulStore C S Inv) (hcfg : NameFits cfg.profile.caPrefix)
    {h : List (Step σ)} {s : CaState σ} (hx : Exec C S cfg h s) {id : RequestId} {r : RequestState}
    (hv : S.view s.store id = some r) : Pending C S cfg h r :=
  ((hx.life hC hS hcfg).2 id r hv).pending

end Ndncert
