import Verif.Lemmas.ClientKeys

/-! # Lemmas about the certificate the client fetches -/

namespace Ndncert

/-- the part of a request that identifies its CA, its key and the certificate announced is the same -/
structure Request.SameCert (r r' : Request) : Prop where
  name : r'.issuedCertName = r.issuedCertName
  aesKey : r'.aesKey = r.aesKey
  requestId : r'.requestId = r.requestId
  profile : r'.profile = r.profile

theorem Request.SameCert.refl (r : Request) : r.SameCert r := ⟨rfl, rfl, rfl, rfl⟩

theorem Request.SameCert.trans {a b c : Request} (h1 : a.SameCert b) (h2 : b.SameCert c) : a.SameCert c :=
  ⟨h2.1.trans h1.1, h2.2.trans h1.2, h2.3.trans h1.3, h2.4.trans h1.4⟩

theorem select_sameCert (r : Request) (ty : Bytes) : r.SameCert (selectOrContinueChallenge r ty).1 := by
  unfold selectOrContinueChallenge
  split <;> exact ⟨rfl, rfl, rfl, rfl⟩

theorem genChallenge_sameCert (C : Crypto) (r : Request) (m : MMap) (rnd : Bytes) : r.SameCert (genChallengeInterest C r m rnd).1 := by
  unfold genChallengeInterest
  split
  · exact .refl r
  · split
    · exact .refl r
    · split
      · exact .refl r
      · exact .refl r
      · dsimp only
        split
        · exact ⟨rfl, rfl, rfl, rfl⟩
        · exact ⟨rfl, rfl, rfl, rfl⟩
        · split <;> exact ⟨rfl, rfl, rfl, rfl⟩

theorem runChallenge_fetch (C : Crypto) (env : ClientEnv) (c : Client) (r : Request) (ty : Bytes) :
    (∃ r', (runChallenge C env c r ty).st.request = some r' ∧ r.SameCert r') ∧
    ((runChallenge C env c r ty).st.pending = c.pending ∨ (runChallenge C env c r ty).st.pending = some .challenge) := by
  unfold runChallenge
  dsimp only
  have h1 := select_sameCert r ty
  generalize selectOrContinueChallenge r ty = x at *
  split
  · exact ⟨⟨_, rfl, h1⟩, .inl rfl⟩
  · exact ⟨⟨_, rfl, h1⟩, .inl rfl⟩
  · next keys hk =>
    obtain ⟨ls, h2⟩ := challengeParams_same { c with request := some x.1 } x.1 ty keys
    generalize challengeParams { c with request := some x.1 } x.1 ty keys = y at *
    split
    · rw [h2]; exact ⟨⟨_, rfl, h1⟩, .inl rfl⟩
    · rw [h2]; exact ⟨⟨_, rfl, h1⟩, .inl rfl⟩
    · next m hm =>
      have h3 := genChallenge_sameCert C x.1 m env.rnd
      generalize genChallengeInterest C x.1 m env.rnd = z at *
      split
      · rw [h2]; exact ⟨⟨_, rfl, h1.trans h3⟩, .inl rfl⟩
      · rw [h2]; exact ⟨⟨_, rfl, h1.trans h3⟩, .inl rfl⟩
      · rw [h2]; exact ⟨⟨_, rfl, h1.trans h3⟩, .inr rfl⟩

theorem onNew_certName (C : Crypto) (r : Request) (d : Data) (s : Bytes) : (onNewResponse C r d s).1.issuedCertName = r.issuedCertName := by
  unfold onNewResponse
  split
  · rfl
  · rfl
  · dsimp only
    split
    · rfl
    · rfl
    · split <;> rfl

theorem newCb_fetch (C : Crypto) (env : ClientEnv) (c : Client) (r : Request) (d : Data) :
    (∃ r', (newCb C env c r d).st.request = some r' ∧ r'.issuedCertName = r.issuedCertName) ∧
    ((newCb C env c r d).st.pending = c.pending ∨ (newCb C env c r d).st.pending = some .challenge) := by
  unfold newCb
  dsimp only
  have h1 := onNew_certName C r d env.stack
  generalize onNewResponse C r d env.stack = x at *
  split
  · exact ⟨⟨_, rfl, h1⟩, .inl rfl⟩
  · exact ⟨⟨_, rfl, h1⟩, .inl rfl⟩
  · next cs hcs =>
    split
    · exact ⟨⟨_, rfl, h1⟩, .inl rfl⟩
    · split
      · obtain ⟨⟨r', g1, g2⟩, g3⟩ := runChallenge_fetch C env { c with request := some x.1 } x.1 (bytes! "email")
        exact ⟨⟨r', g1, g2.name.trans h1⟩, g3⟩
      · obtain ⟨ls, h2⟩ := captureIndex_same cs.length 3 { c with request := some x.1 }
        split
        · next c2 hc =>
          rw [hc] at h2
          dsimp only at h2
          subst h2
          exact ⟨⟨_, rfl, h1⟩, .inl rfl⟩
        · next i c2 hc =>
          rw [hc] at h2
          dsimp only at h2
          subst h2
          obtain ⟨⟨r', g1, g2⟩, g3⟩ := runChallenge_fetch C env { c with request := some x.1, stdin := ls } x.1 (cs[i]?.getD [])
          exact ⟨⟨r', g1, g2.name.trans h1⟩, g3⟩

/-- what the decoder of CHALLENGE replies does to the request, as far as the certificate is concerned -/
structure ReplyEffect (es : List Block) (r r' : Request) : Prop where
  name : r'.issuedCertName = r.issuedCertName ∨ AnnouncesCert es r'.issuedCertName
  aesKey : r'.aesKey = r.aesKey
  requestId : r'.requestId = r.requestId
  profile : r'.profile = r.profile

theorem challengeStep_effect {es : List Block} {now : Time} {a a' : ChalDecAcc} {item : Block} (hm : item ∈ es)
    (h : challengeStep es now a item = .ok a') : ReplyEffect es a.req a'.req := by
  unfold challengeStep at h
  split at h
  · split at h
    · rw [Res.bind_eq_ok] at h
      obtain ⟨b, _, h⟩ := h
      rw [Res.bind_eq_ok] at h
      obtain ⟨s, _, h⟩ := h
      injection h with h; subst h; exact ⟨.inl rfl, rfl, rfl, rfl⟩
    · split at h
      · injection h with h; subst h; exact ⟨.inl rfl, rfl, rfl, rfl⟩
      · split at h
        · rw [Res.bind_eq_ok] at h
          obtain ⟨b, _, h⟩ := h
          injection h with h; subst h; exact ⟨.inl rfl, rfl, rfl, rfl⟩
        · split at h
          · rw [Res.bind_eq_ok] at h
            obtain ⟨b, _, h⟩ := h
            rw [Res.bind_eq_ok] at h
            obtain ⟨s, _, h⟩ := h
            injection h with h; subst h; exact ⟨.inl rfl, rfl, rfl, rfl⟩
          · split at h
            · next ht =>
              rw [Res.bind_eq_ok] at h
              obtain ⟨b, hb, h⟩ := h
              rw [Res.bind_eq_ok] at h
              obtain ⟨s, hs, h⟩ := h
              injection h with h; subst h; exact ⟨.inr ⟨item, hm, ht, b, hb, hs⟩, rfl, rfl, rfl⟩
            · split at h
              · rw [Res.bind_eq_ok] at h
                obtain ⟨b, _, h⟩ := h
                rw [Res.bind_eq_ok] at h
                obtain ⟨s, _, h⟩ := h
                injection h with h; subst h; exact ⟨.inl rfl, rfl, rfl, rfl⟩
              · split at h
                · split at h
                  · injection h with h; subst h; exact ⟨.inl rfl, rfl, rfl, rfl⟩
                  · cases h
                · split at h
                  · cases h
                  · injection h with h; subst h; exact ⟨.inl rfl, rfl, rfl, rfl⟩
  · split at h
    · split at h
      · cases h
      · injection h with h; subst h; exact ⟨.inl rfl, rfl, rfl, rfl⟩
    · cases h

theorem challengeLoop_effect (es0 : List Block) (now : Time) (es : List Block) (hsub : ∀ e ∈ es, e ∈ es0) (a : ChalDecAcc) :
    ReplyEffect es0 a.req (loopRes (challengeStep es0 now) a es).1.req := by
  induction es generalizing a with
  | nil => exact ⟨.inl rfl, rfl, rfl, rfl⟩
  | cons e es ih =>
    unfold loopRes
    split
    · next a' h =>
      have h1 := challengeStep_effect (hsub e (by simp)) h
      have h2 := ih (fun x hx => hsub x (by simp [hx])) a'
      refine ⟨?_, h2.2.trans h1.2, h2.3.trans h1.3, h2.4.trans h1.4⟩
      rcases h2.name with h2 | h2
      · rcases h1.name with h1 | h1
        · exact .inl (h2.trans h1)
        · exact .inr (h2 ▸ h1)
      · exact .inr h2
    · exact ⟨.inl rfl, rfl, rfl, rfl⟩
    · exact ⟨.inl rfl, rfl, rfl, rfl⟩

/-- a CHALLENGE reply leaves the request as it was, or it was accepted -/
theorem onChallengeResponse_effect (C : Crypto) (r : Request) (d : Data) (now : Time) :
    (r.SameCert (onChallengeResponse C r d now).1 ∧ ∀ x, (onChallengeResponse C r d now).2 ≠ .ok x) ∨
    ∃ t pt es, r.profile.cert = some t ∧ C.verifyData d t = true ∧
      (decodeAes C d.content r.aesKey r.requestId r.decryptionIv r.encryptionIv).2 = .ok pt ∧ parse pt = .ok es ∧
      ReplyEffect es r (onChallengeResponse C r d now).1 := by
  unfold onChallengeResponse
  split
  · exact .inl ⟨.refl r, by simp⟩
  · exact .inl ⟨.refl r, by simp⟩
  · next hc =>
    have hv : ∃ t, r.profile.cert = some t ∧ C.verifyData d t = true := by
      unfold checkReply at hc
      split at hc
      · cases hc
      · next t ht =>
        split at hc
        · next hv => exact ⟨t, ht, hv⟩
        · cases hc
    obtain ⟨t, ht, hv⟩ := hv
    unfold challengeDecode
    dsimp only
    split
    · exact .inl ⟨⟨rfl, rfl, rfl, rfl⟩, by simp⟩
    · exact .inl ⟨⟨rfl, rfl, rfl, rfl⟩, by simp⟩
    · next pt hpt =>
      split
      · exact .inl ⟨⟨rfl, rfl, rfl, rfl⟩, by simp⟩
      · exact .inl ⟨⟨rfl, rfl, rfl, rfl⟩, by simp⟩
      · next es hes =>
        refine .inr ⟨t, pt, es, ht, hv, hpt, hes, ?_⟩
        have h := challengeLoop_effect es now es (fun _ h => h) ({ req := { r with decryptionIv := (decodeAes C d.content r.aesKey r.requestId r.decryptionIv r.encryptionIv).1 } } : ChalDecAcc)
        exact ⟨h.1, h.2, h.3, h.4⟩

theorem challengeCb_fetch (C : Crypto) (env : ClientEnv) (c : Client) (r : Request) (d : Data) :
    ∃ r', (challengeCb C env c r d).st.request = some r' ∧
      (r.SameCert r' ∨ ∃ t pt es, r.profile.cert = some t ∧ C.verifyData d t = true ∧
        (decodeAes C d.content r.aesKey r.requestId r.decryptionIv r.encryptionIv).2 = .ok pt ∧ parse pt = .ok es ∧ ReplyEffect es r r') ∧
      (((challengeCb C env c r d).st.pending = c.pending ∨ (challengeCb C env c r d).st.pending = some .challenge) ∨
        ((challengeCb C env c r d).st.pending = some .fetch ∧ ∃ hint, (challengeCb C env c r d).acts = [.fetch r'.issuedCertName hint])) := by
  unfold challengeCb
  dsimp only
  have h1 := onChallengeResponse_effect C r d env.now
  generalize onChallengeResponse C r d env.now = x at *
  have h1' := h1.imp_left (·.1)
  split
  · exact ⟨_, rfl, h1', .inl (.inl rfl)⟩
  · exact ⟨_, rfl, h1', .inl (.inl rfl)⟩
  · split
    · exact ⟨_, rfl, h1', .inr ⟨rfl, _, rfl⟩⟩
    · obtain ⟨⟨r', g1, g2⟩, g3⟩ := runChallenge_fetch C env { c with request := some x.1 } x.1 x.1.challengeType
      refine ⟨r', g1, ?_, .inl g3⟩
      rcases h1' with h | ⟨t, pt, es, k1, k2, k3, k4, k5⟩
      · exact .inl (h.trans g2)
      · refine .inr ⟨t, pt, es, k1, k2, k3, k4, ?_, g2.aesKey.trans k5.aesKey, g2.requestId.trans k5.requestId, g2.profile.trans k5.profile⟩
        rw [g2.name]
        exact k5.name

theorem genNew_certName (C : Crypto) (r : Request) (k : Name) (nb na : Time) (v : Block) :
    (genNewInterest C r k nb na v).1.issuedCertName = r.issuedCertName := by
  unfold genNewInterest
  split
  · rfl
  · split
    · rfl
    · split
      · rfl
      · rfl
      · split <;> rfl

/-- `runNew`: the new request has no certificate name -/
theorem runNew_fetch (C : Crypto) (env : ClientEnv) (c : Client) (p : CaProfile) (id : Name) :
    ((runNew C env c p id).st.request = c.request ∧ (runNew C env c p id).st.pending = c.pending) ∨ ∃ r, (runNew C env c p id).st.request = some r ∧ r.issuedCertName = [] := by
  unfold runNew
  obtain ⟨ls, h⟩ := captureValidity_same 3 c
  split
  · next c1 hc =>
    rw [hc] at h
    dsimp only at h
    subst h
    exact .inl ⟨rfl, rfl⟩
  · next hr c1 hc =>
    right
    unfold runNewWith
    dsimp only
    split
    · exact ⟨_, rfl, rfl⟩
    · next c2 e k hp =>
      have a3 := (prepareKey_like hp).1.2.2
      have hb : ∃ c3 chosen, (if c2.newIdentity = [] then captureKeyName c2 e env.keyIds2 else (c2, Sum.inr k)) = (c3, chosen) ∧
          c3.request = c2.request := by
        split
        · exact ⟨(captureKeyName c2 e env.keyIds2).1, (captureKeyName c2 e env.keyIds2).2, rfl, (captureKeyName_like _ _ _).1.2.2⟩
        · exact ⟨_, _, rfl, rfl⟩
      obtain ⟨c3, chosen, heq, b3⟩ := hb
      rw [heq]
      dsimp only
      split
      · exact ⟨_, b3.trans a3, rfl⟩
      · split
        · exact ⟨_, b3.trans a3, rfl⟩
        · have hp := fun r => genNew_certName C r
          split
          · exact ⟨_, rfl, hp _ _ _ _ _⟩
          · exact ⟨_, rfl, hp _ _ _ _ _⟩
          · exact ⟨_, rfl, hp _ _ _ _ _⟩
          · exact ⟨_, rfl, hp _ _ _ _ _⟩

theorem runNew_pending (C : Crypto) (env : ClientEnv) (c : Client) (p : CaProfile) (id : Name) :
    (runNew C env c p id).st.pending = c.pending ∨ (runNew C env c p id).st.pending = none ∨ (runNew C env c p id).st.pending = some .new := by
  unfold runNew
  obtain ⟨ls, h⟩ := captureValidity_same 3 c
  split
  · next c1 hc =>
    rw [hc] at h
    dsimp only at h
    subst h
    exact .inl rfl
  · next hr c1 hc =>
    rw [hc] at h
    dsimp only at h
    subst h
    unfold runNewWith
    dsimp only
    split
    · exact .inl rfl
    · next c2 e k hp =>
      have a3 := (prepareKey_like hp).1.2.1
      have hb : ∃ c3 chosen, (if c2.newIdentity = [] then captureKeyName c2 e env.keyIds2 else (c2, Sum.inr k)) = (c3, chosen) ∧
          c3.pending = c2.pending := by
        split
        · exact ⟨(captureKeyName c2 e env.keyIds2).1, (captureKeyName c2 e env.keyIds2).2, rfl, (captureKeyName_like _ _ _).1.2.1⟩
        · exact ⟨_, _, rfl, rfl⟩
      obtain ⟨c3, chosen, heq, b3⟩ := hb
      rw [heq]
      dsimp only
      split
      · exact .inl (b3.trans a3)
      · split
        · exact .inl (b3.trans a3)
        · split
          · exact .inl (b3.trans a3)
          · exact .inl (b3.trans a3)
          · exact .inr (.inl rfl)
          · exact .inr (.inr rfl)

/-! ## Runs -/

theorem AcceptedReply.mono {C : Crypto} {known : Profiles} {h h' : List ClientStep} {r : Request} {d : Data} {es : List Block}
    (ha : AcceptedReply C known h r d es) : AcceptedReply C known (h ++ h') r d es :=
  ⟨ha.trusted.mono, ha.received.mono, ha.verified, ha.decrypted⟩

/-- the name the request has for its certificate was announced -/
def NameKnown (C : Crypto) (known : Profiles) (h : List ClientStep) (r : Request) : Prop :=
  r.issuedCertName = [] ∨ ∃ d es, AcceptedReply C known h r d es ∧ AnnouncesCert es r.issuedCertName

structure FetchInv (C : Crypto) (known : Profiles) (h : List ClientStep) (c : Client) : Prop where
  name : ∀ r, c.request = some r → NameKnown C known h r
  new : c.pending = some .new → ∀ r, c.request = some r → r.issuedCertName = []
  fetch : c.pending = some .fetch → ∃ r hint, c.request = some r ∧ Did h (.fetch r.issuedCertName hint)

theorem NameKnown.mono {C : Crypto} {known : Profiles} {h h' : List ClientStep} {r : Request} (hk : NameKnown C known h r) :
    NameKnown C known (h ++ h') r := by
  rcases hk with hk | ⟨d, es, h1, h2⟩
  · exact .inl hk
  · exact .inr ⟨d, es, h1.mono, h2⟩

theorem NameKnown.same {C : Crypto} {known : Profiles} {h : List ClientStep} {r r' : Request} (hk : NameKnown C known h r)
    (hs : r.SameCert r') : NameKnown C known h r' := by
  rcases hk with hk | ⟨d, es, h1, h2⟩
  · exact .inl (hs.name.trans hk)
  · refine .inr ⟨d, es, ⟨hs.profile ▸ h1.trusted, h1.received, hs.profile ▸ h1.verified, ?_⟩, hs.name ▸ h2⟩
    rw [hs.aesKey, hs.requestId]
    exact h1.decrypted

theorem FetchInv.idle {C : Crypto} {known : Profiles} {h : List ClientStep} {c c' : Client} (hi : FetchInv C known h c)
    (hr : c'.request = c.request) (hp : c'.pending = c.pending ∨ (c'.pending ≠ some .new ∧ c'.pending ≠ some .fetch)) (n : ClientStep) :
    FetchInv C known (h ++ [n]) c' := by
  refine ⟨fun r h => (hi.name r (hr ▸ h)).mono, ?_, ?_⟩
  · intro h r h'
    rcases hp with hp | hp
    · exact hi.new (hp ▸ h) r (hr ▸ h')
    · exact absurd h hp.1
  · intro h
    rcases hp with hp | hp
    · obtain ⟨r, hint, h1, h2⟩ := hi.fetch (hp ▸ h)
      exact ⟨r, hint, hr.trans h1, h2.mono⟩
    · exact absurd h hp.2

theorem FetchInv.step {C : Crypto} {known : Profiles} {h : List ClientStep} {c : Client} (hi : FetchInv C known h c)
    (ht : TrustInv C known h c) (e : ClientEvent) (env : ClientEnv) :
    FetchInv C known (h ++ [⟨e, env, (c.step C env e).acts, (c.step C env e).ended⟩]) (c.step C env e).st := by
  have hidle : ∀ (o : ClientOut), o.st.request = c.request → (o.st.pending = c.pending ∨ (o.st.pending ≠ some .new ∧
      o.st.pending ≠ some .fetch)) → FetchInv C known (h ++ [⟨e, env, o.acts, o.ended⟩]) o.st := fun o h1 h2 => hi.idle h1 h2 _
  cases e with
  | signal =>
    have hs : c.step C env .signal = handleSignal c := rfl
    rw [hs]
    refine hidle _ ?_ (.inl ?_) <;>
    · unfold handleSignal
      split
      · rfl
      · split
        · split <;> rfl
        · split
          · split
            · split <;> rfl
            · rfl
            · rfl
          · rfl
  | nack =>
    have hs : c.step C env .nack = if c.pending = Option.none then { st := c } else { st := c, ended := .exit 1 } := rfl
    rw [hs]
    split <;> exact hidle _ rfl (.inl rfl)
  | timeout => exact hidle _ rfl (.inr (by simp [Client.step]))
  | reply d w =>
    cases hpend : c.pending with
    | none =>
      have hs : c.step C env (.reply d w) = { st := c } := by unfold Client.step; rw [hpend]
      rw [hs]
      exact hidle _ rfl (.inl rfl)
    | some aw =>
      cases aw with
      | discovery full =>
        have hs : c.step C env (.reply d w) = discoveryCb c full d := by unfold Client.step; rw [hpend]
        rw [hs]
        unfold discoveryCb
        split
        · exact hidle _ rfl (.inr (by simp))
        · exact hidle _ rfl (.inl rfl)
        · exact hidle _ rfl (.inl rfl)
      | info full =>
        have hs : c.step C env (.reply d w) = infoCb C c full d := by unfold Client.step; rw [hpend]
        rw [hs]
        unfold infoCb
        split
        · exact hidle _ rfl (.inr (by simp))
        · exact hidle _ rfl (.inl rfl)
        · next p hp =>
          split
          · split
            · rw [getline_eq]
              dsimp only
              split
              · exact hidle _ (probeParams_same { c with stdin := c.stdin.tail, trusted := p.cert } p).2.1 (.inr (by simp [runProbe, ClientOut.after]))
              · exact hidle _ rfl (.inl rfl)
            · exact hidle _ rfl (.inl rfl)
          · exact hidle _ (probeParams_same c p).2.1 (.inr (by simp [runProbe]))
      | probe p =>
        have hs : c.step C env (.reply d w) = probeCb C env c p d := by unfold Client.step; rw [hpend]
        rw [hs]
        unfold probeCb
        split
        · exact hidle _ rfl (.inl rfl)
        · exact hidle _ rfl (.inl rfl)
        · next names rs hok =>
          split
          · obtain ⟨⟨ls, hl⟩, _⟩ := chooseRedirect_spec c rs
            split
            · next c1 x hc =>
              rw [hc] at hl
              dsimp only at hl
              subst hl
              exact hidle _ rfl (.inl rfl)
            · next c1 full hc =>
              rw [hc] at hl
              dsimp only at hl
              subst hl
              split
              · next id hid =>
                refine hidle _ (runDiscovery_safe { c with stdin := ls } id full).2.1 ?_
                rcases (runDiscovery_safe { c with stdin := ls } id full).2.2.1 with h | h
                · exact .inl h
                · exact .inr (by rw [h]; simp)
              · exact hidle _ rfl (.inl rfl)
              · exact hidle _ rfl (.inl rfl)
          · obtain ⟨ls, hl⟩ := chooseName_same c names
            split
            · next c1 hc =>
              rw [hc] at hl
              dsimp only at hl
              subst hl
              exact hidle _ rfl (.inl rfl)
            · next c1 nm hc =>
              rw [hc] at hl
              dsimp only at hl
              subst hl
              have hf := runNew_fetch C env { c with stdin := ls } p nm
              refine ⟨?_, ?_, ?_⟩
              · intro r hr
                rcases hf with ⟨hf, _⟩ | ⟨r', h1, h2⟩
                · exact (hi.name r (hf ▸ hr)).mono
                · rw [h1] at hr
                  injection hr with hr
                  subst hr
                  exact .inl h2
              · intro hp r hr
                rcases hf with ⟨_, hf⟩ | ⟨r', h1, h2⟩
                · rw [hf] at hp
                  dsimp only at hp
                  rw [hpend] at hp
                  cases hp
                · rw [h1] at hr
                  injection hr with hr
                  subst hr
                  exact h2
              · intro hp
                rcases runNew_pending C env { c with stdin := ls } p nm with h | h | h
                · rw [h] at hp
                  dsimp only at hp
                  rw [hpend] at hp
                  cases hp
                · rw [h] at hp; cases hp
                · rw [h] at hp; cases hp
      | new =>
        cases hreq : c.request with
        | none =>
          have hs : c.step C env (.reply d w) = { st := c, ended := .ub .nullDeref } := by unfold Client.step; rw [hpend, hreq]
          rw [hs]
          exact hidle _ rfl (.inl rfl)
        | some r =>
          have hs : c.step C env (.reply d w) = newCb C env c r d := by unfold Client.step; rw [hpend, hreq]
          rw [hs]
          have hn := hi.new hpend r hreq
          obtain ⟨⟨r', g1, g2⟩, g3⟩ := newCb_fetch C env c r d
          have hall : ∀ x, (newCb C env c r d).st.request = some x → x.issuedCertName = [] := by
            intro x hx
            rw [g1] at hx
            injection hx with hx
            subst hx
            exact g2.trans hn
          refine ⟨fun x hx => .inl (hall x hx), fun _ x hx => hall x hx, ?_⟩
          intro hp
          rcases g3 with g3 | g3
          · rw [g3, hpend] at hp; cases hp
          · rw [g3] at hp; cases hp
      | challenge =>
        cases hreq : c.request with
        | none =>
          have hs : c.step C env (.reply d w) = { st := c, ended := .ub .nullDeref } := by unfold Client.step; rw [hpend, hreq]
          rw [hs]
          exact hidle _ rfl (.inl rfl)
        | some r =>
          have hs : c.step C env (.reply d w) = challengeCb C env c r d := by unfold Client.step; rw [hpend, hreq]
          rw [hs]
          obtain ⟨r', g1, g2, g3⟩ := challengeCb_fetch C env c r d
          have hrec : ∀ n : ClientStep, n.event = .reply d w → Received (h ++ [n]) d := fun n hn => ⟨n, by simp, w, hn⟩
          refine ⟨?_, ?_, ?_⟩
          · intro x hx
            rw [g1] at hx
            injection hx with hx
            subst hx
            rcases g2 with g2 | ⟨t, pt, es, k1, k2, k3, k4, k5⟩
            · exact ((hi.name r hreq).same g2).mono
            · rcases k5.name with k | k
              · exact ((hi.name r hreq).same ⟨k, k5.aesKey, k5.requestId, k5.profile⟩).mono
              · refine .inr ⟨d, es, ⟨?_, hrec _ rfl, ?_, ?_⟩, k⟩
                · rw [k5.profile]; exact (ht.request r hreq).mono
                · rw [k5.profile]; exact ⟨t, k1, k2⟩
                · rw [k5.aesKey, k5.requestId]; exact ⟨_, _, pt, k3, k4⟩
          · intro hp
            rcases g3 with (g3 | g3) | ⟨g3, _⟩
            · rw [g3, hpend] at hp; cases hp
            · rw [g3] at hp; cases hp
            · rw [g3] at hp; cases hp
          · intro hp
            rcases g3 with (g3 | g3) | ⟨g3, hint, g4⟩
            · rw [g3, hpend] at hp; cases hp
            · rw [g3] at hp; cases hp
            · exact ⟨r', hint, g1, _, List.mem_append_right _ (List.mem_singleton.mpr rfl), by dsimp only; rw [g4]; simp⟩
      | fetch =>
        have hs : c.step C env (.reply d w) = certFetchCb C c w := by unfold Client.step; rw [hpend]
        rw [hs]
        unfold certFetchCb
        split
        · exact hidle _ rfl (.inl rfl)
        · exact hidle _ rfl (.inl rfl)
        · split
          · exact hidle _ rfl (.inr (by simp))
          · exact hidle _ rfl (.inl rfl)

variable {C : Crypto} {T : TextIO} {file : Bytes} {pib : Pib} {stdin : List Bytes}

theorem ClientRun.fetchInv {known : Profiles} (hk : loadProfiles T file = .ok known) {first : List Act} {h : List ClientStep} {c : Client}
    {x : Ended} (run : ClientRun C T file pib stdin first h c x) : FetchInv C known h c := by
  induction run with
  | start o e =>
    have hs := e ▸ selectCaProfile_started T file { pib := pib, stdin := stdin }
    have hr : ∀ r, o.st.request ≠ some r := by
      intro r h
      rw [hs.request] at h
      cases h
    have hp : ∀ w, o.st.pending = some w → w = .discovery [] := by
      intro w hw
      rcases hs.pending with h | h
      · rw [h] at hw; cases hw
      · rw [h] at hw; injection hw with hw; exact hw.symm
    exact ⟨fun r h => absurd h (hr r), fun _ r h => absurd h (hr r), fun h => by cases hp _ h⟩
  | step e env run o eo ih => exact eo ▸ ih.step (run.trustInv hk) e env

/-! ## The NEW Interest -/

theorem onProbeResponse_decoded {d : Data} {p : CaProfile} {names : List (Name × Int)} {rs : List Name}
    (h : onProbeResponse C d p [] [] = .ok (names, rs)) : probeDecode d.content [] [] = .ok (names, rs) := by
  unfold onProbeResponse at h
  obtain ⟨_, _, h⟩ := Res.bind_eq_ok.mp h
  exact h

theorem chooseName_hours {c c1 : Client} {names : List (Name × Int)} {nm : Name} (h : chooseName c names = (c1, some nm)) :
    c1 = { c with stdin := hoursLines names c.stdin } := by
  unfold chooseName at h
  split at h
  · cases h
  · cases h; rfl
  · next h1 h2 =>
    rw [getline_eq] at h
    dsimp only at h
    have e : hoursLines names c.stdin = c.stdin.tail := by
      unfold hoursLines
      rw [if_neg]
      intro hl
      obtain ⟨n, hn⟩ := List.length_eq_one_iff.mp hl
      exact h2 n hn
    rw [e]
    split at h
    · cases h
    · exact (congrArg Prod.fst h).symm

theorem chooseName_chosen {c c1 : Client} {names : List (Name × Int)} {nm : Name} (h : chooseName c names = (c1, some nm)) :
    Chosen names c.stdin nm := by
  unfold chooseName at h
  split at h
  · cases h
  · next n => cases h; exact .only rfl
  · next h1 h2 =>
    rw [getline_eq] at h
    dsimp only at h
    split at h
    · cases h
    · next j hj =>
      injection h with _ h
      rw [Option.map_eq_some_iff] at h
      obtain ⟨⟨n, k⟩, h3, rfl⟩ := h
      cases hl : c.stdin with
      | nil => rw [hl] at hj; simp [stoul_nil] at hj
      | cons l ls =>
        rw [hl] at hj
        refine .typed ?_ rfl ((stoul_iff _ _).mp hj) h3
        intro e
        obtain ⟨n, hn⟩ := List.length_eq_one_iff.mp e
        exact h2 n hn

theorem captureValidity_first (t : Nat) (c : Client) {x : Int} (h : (captureValidity t c).1 = some x) :
    ∃ n, (c.stdin.take t).findSome? stoul = some n ∧ x = toInt32 n := by
  induction t generalizing c with
  | zero => cases h
  | succ t ih =>
    unfold captureValidity at h
    rw [getline_eq] at h
    dsimp only at h
    cases hs : c.stdin with
    | nil =>
      exfalso
      rw [hs] at h
      rw [List.headD_nil, stoul_nil] at h
      obtain ⟨n, h1, _⟩ := ih { c with stdin := [] } h
      simp at h1
    | cons l ls =>
      rw [hs] at h
      rw [List.headD_cons] at h
      cases hn : stoul l with
      | some n =>
        rw [hn] at h
        injection h with h
        exact ⟨n, by simp [hn], h.symm⟩
      | none =>
        rw [hn] at h
        obtain ⟨n, h1, h2⟩ := ih { c with stdin := ls } h
        exact ⟨n, by simpa [hn] using h1, h2⟩

theorem findSome_split {lines : List Bytes} {t n : Nat} (h : (lines.take t).findSome? stoul = some n) :
    ∃ skipped line rest, lines = skipped ++ line :: rest ∧ skipped.length < t ∧ (∀ l ∈ skipped, ∀ k, ¬ StandsFor l k) ∧ StandsFor line n := by
  induction lines generalizing t with
  | nil => simp at h
  | cons l ls ih =>
    cases t with
    | zero => simp at h
    | succ t =>
      cases hl : stoul l with
      | some m =>
        simp only [List.take_succ_cons, List.findSome?_cons, hl] at h
        injection h with h
        subst h
        exact ⟨[], l, ls, rfl, by simp, by simp, (stoul_iff _ _).mp hl⟩
      | none =>
        simp only [List.take_succ_cons, List.findSome?_cons, hl] at h
        obtain ⟨sk, line, rest, h1, h2, h3, h4⟩ := ih h
        refine ⟨l :: sk, line, rest, by rw [h1]; rfl, by simp; omega, ?_, h4⟩
        intro x hx
        rcases List.mem_cons.mp hx with rfl | hx
        · exact (stoul_none _).mp hl
        · exact h3 x hx

theorem runChallenge_acts (env : ClientEnv) (c : Client) (r : Request) (ty : Bytes) :
    ∀ a ∈ (runChallenge C env c r ty).acts, ∃ q i, a = .challenge q i := by
  unfold runChallenge
  dsimp only
  split
  · simp
  · simp
  · split
    · simp
    · simp
    · split
      · simp
      · simp
      · simp

theorem newCb_acts (env : ClientEnv) (c : Client) (r : Request) (d : Data) :
    ∀ a ∈ (newCb C env c r d).acts, ∃ q i, a = .challenge q i := by
  unfold newCb
  dsimp only
  split
  · simp
  · simp
  · split
    · simp
    · split
      · exact runChallenge_acts _ _ _ _
      · split
        · simp
        · exact runChallenge_acts _ _ _ _

theorem challengeCb_acts (env : ClientEnv) (c : Client) (r : Request) (d : Data) :
    ∀ a ∈ (challengeCb C env c r d).acts, (∃ q i, a = .challenge q i) ∨ ∃ n x, a = .fetch n x := by
  unfold challengeCb
  dsimp only
  split
  · simp
  · simp
  · split
    · simp
    · exact fun a ha => .inl (runChallenge_acts _ _ _ _ a ha)

/-- NEW is sent only by `runNew` -/
theorem step_new {env : ClientEnv} {c : Client} {e : ClientEvent} {p : CaProfile} {i : Interest} (h : .new p i ∈ (c.step C env e).acts) :
    ∃ d w q names nm, e = .reply d w ∧ c.pending = some (.probe q) ∧ probeDecode d.content [] [] = .ok (names, []) ∧
      c.step C env e = runNew C env { c with stdin := hoursLines names c.stdin } q nm ∧ Chosen names c.stdin nm ∧
      ∃ t, q.cert = some t ∧ C.verifyData d t = true := by
  cases e with
  | signal =>
    exfalso
    have hs : c.step C env .signal = handleSignal c := rfl
    rw [hs] at h
    revert h
    unfold handleSignal
    split
    · simp
    · split
      · split <;> simp
      · split
        · split
          · split <;> simp
          · simp
          · simp
        · simp
  | nack =>
    exfalso
    have hs : c.step C env .nack = if c.pending = Option.none then { st := c } else { st := c, ended := .exit 1 } := rfl
    rw [hs] at h
    split at h <;> cases h
  | timeout => cases h
  | reply d w =>
    cases hpend : c.pending with
    | none =>
      have hs : c.step C env (.reply d w) = { st := c } := by unfold Client.step; rw [hpend]
      rw [hs] at h
      cases h
    | some aw =>
      cases aw with
      | discovery full =>
        have hs : c.step C env (.reply d w) = discoveryCb c full d := by unfold Client.step; rw [hpend]
        rw [hs] at h
        unfold discoveryCb at h
        split at h <;> simp at h
      | info full =>
        have hs : c.step C env (.reply d w) = infoCb C c full d := by unfold Client.step; rw [hpend]
        rw [hs] at h
        unfold infoCb at h
        split at h
        · simp at h
        · simp at h
        · split at h
          · split at h
            · rw [getline_eq] at h
              dsimp only at h
              split at h
              · simp [ClientOut.after, runProbe] at h
              · simp at h
            · simp at h
          · simp [runProbe] at h
      | probe q =>
        have hs : c.step C env (.reply d w) = probeCb C env c q d := by unfold Client.step; rw [hpend]
        rw [hs] at h ⊢
        unfold probeCb at h ⊢
        split at h
        · simp at h
        · simp at h
        · next names rs hok =>
          split at h
          · exfalso
            split at h
            · simp at h
            · split at h
              · unfold runDiscovery at h
                split at h <;> simp at h
              · simp at h
              · simp at h
          · next hrs =>
            have hrs' : rs = [] := by
              by_cases e : rs = []
              · exact e
              · exact absurd e hrs
            subst hrs'
            have hdec := onProbeResponse_decoded hok
            split at h
            · simp at h
            · next c1 nm hc =>
              refine ⟨d, w, q, names, nm, rfl, rfl, hdec, ?_, chooseName_chosen hc, (onProbeResponse_ok hok).1⟩
              rw [if_neg hrs]
              congr 1
              rw [← hpend]
              exact chooseName_hours hc
      | new =>
        exfalso
        cases hreq : c.request with
        | none =>
          have hs : c.step C env (.reply d w) = { st := c, ended := .ub .nullDeref } := by unfold Client.step; rw [hpend, hreq]
          rw [hs] at h
          cases h
        | some r =>
          have hs : c.step C env (.reply d w) = newCb C env c r d := by unfold Client.step; rw [hpend, hreq]
          rw [hs] at h
          obtain ⟨_, _, h⟩ := newCb_acts _ _ _ _ _ h
          cases h
      | challenge =>
        exfalso
        cases hreq : c.request with
        | none =>
          have hs : c.step C env (.reply d w) = { st := c, ended := .ub .nullDeref } := by unfold Client.step; rw [hpend, hreq]
          rw [hs] at h
          cases h
        | some r =>
          have hs : c.step C env (.reply d w) = challengeCb C env c r d := by unfold Client.step; rw [hpend, hreq]
          rw [hs] at h
          rcases challengeCb_acts _ _ _ _ _ h with ⟨_, _, h⟩ | ⟨_, _, h⟩ <;> cases h
      | fetch =>
        have hs : c.step C env (.reply d w) = certFetchCb C c w := by unfold Client.step; rw [hpend]
        rw [hs] at h
        unfold certFetchCb at h
        split at h
        · simp at h
        · simp at h
        · split at h <;> simp at h

theorem runNew_asks {env : ClientEnv} {c : Client} {q p : CaProfile} {nm : Name} {i : Interest}
    (h : .new p i ∈ (runNew C env c q nm).acts) : ∃ n na, (c.stdin.take 3).findSome? stoul = some n ∧ addHours env.now (toInt32 n) = some na ∧
      AsksFor C i (roundPeriod env.now na) := by
  unfold runNew at h
  split at h
  · simp at h
  · next hr c1 hc =>
    obtain ⟨n, h2, h3⟩ := captureValidity_first 3 c (x := hr) (by rw [hc])
    refine ⟨n, ?_⟩
    subst h3
    unfold runNewWith at h
    dsimp only at h
    split at h
    · simp at h
    · next c2 e k hp =>
      generalize (if c2.newIdentity = [] then captureKeyName c2 e env.keyIds2 else (c2, Sum.inr k)) = y at h
      split at h
      · simp at h
      · next key hkey =>
        split at h
        · simp at h
        · next na hna =>
          refine ⟨na, h2, hna, ?_⟩
          split at h
          · simp at h
          · simp at h
          · simp at h
          · next i' hi' =>
            simp only [List.mem_singleton, Act.new.injEq] at h
            obtain ⟨_, rfl⟩ := h
            unfold genNewInterest at hi'
            split at hi'
            · cases hi'
            · split at hi'
              · cases hi'
              · split at hi'
                · cases hi'
                · cases hi'
                · split at hi'
                  · cases hi'
                  · next pub hpub =>
                    injection hi' with hi'
                    injection hi' with hi'
                    subst hi'
                    exact ⟨_, _, _, _, rfl⟩

theorem stoul_decDigits (n : Nat) (h : n < 2 ^ 64) : stoul (decDigits n) = some n := by
  have hd := decDigits_digit n
  have h1 : (decDigits n).dropWhile isSpace = decDigits n := by
    cases hx : decDigits n with
    | nil => rfl
    | cons b bs =>
      have := isSpace_digit (hd b (by rw [hx]; simp)).1
      rw [List.dropWhile_cons, if_neg (by simp [this])]
  have h2 : ∀ s : Bytes, (∀ c ∈ s, 48 ≤ c.toNat ∧ c.toNat ≤ 57) → s.takeWhile (fun b => 48 ≤ b && b ≤ 57) = s := by
    intro s
    induction s with
    | nil => intro _; rfl
    | cons b s ih =>
      intro h
      have hb := h b (by simp)
      rw [List.takeWhile_cons, if_pos (by simpa [UInt8.le_iff_toNat_le] using hb), ih (fun c hc => h c (by simp [hc]))]
  have h3 : stripSign (decDigits n) = (false, decDigits n) := by
    unfold stripSign
    split
    · next r hr => have := (hd 43 (by rw [hr]; simp)).1; simp at this
    · next r hr => have := (hd 45 (by rw [hr]; simp)).1; simp at this
    · rfl
  unfold stoul
  dsimp only
  rw [h1, h3, h2 _ hd, readDigits_decDigits]
  simp [Nat.not_le.mpr h]

/-- a certificate is installed only from the packet that answers the Interest for the certificate -/
theorem step_install {env : ClientEnv} {c : Client} {e : ClientEvent} {t : Cert} (h : .install t ∈ (c.step C env e).acts) :
    ∃ d w, e = .reply d w ∧ c.pending = some .fetch ∧ C.decodeCert w = some t ∧ c.pib.has t.identity t.keyName = true ∧
      C.keyPub t.keyName = t.content ∧ t.content ≠ none := by
  cases e with
  | signal =>
    exfalso
    have hs : c.step C env .signal = handleSignal c := rfl
    rw [hs] at h
    revert h
    unfold handleSignal
    split
    · simp
    · split
      · split <;> simp
      · split
        · split
          · split <;> simp
          · simp
          · simp
        · simp
  | nack =>
    exfalso
    have hs : c.step C env .nack = if c.pending = Option.none then { st := c } else { st := c, ended := .exit 1 } := rfl
    rw [hs] at h
    split at h <;> cases h
  | timeout => cases h
  | reply d w =>
    cases hpend : c.pending with
    | none =>
      have hs : c.step C env (.reply d w) = { st := c } := by unfold Client.step; rw [hpend]
      rw [hs] at h
      cases h
    | some aw =>
      cases aw with
      | discovery full =>
        have hs : c.step C env (.reply d w) = discoveryCb c full d := by unfold Client.step; rw [hpend]
        rw [hs] at h
        unfold discoveryCb at h
        split at h <;> simp at h
      | info full =>
        have hs : c.step C env (.reply d w) = infoCb C c full d := by unfold Client.step; rw [hpend]
        rw [hs] at h
        unfold infoCb at h
        split at h
        · simp at h
        · simp at h
        · split at h
          · split at h
            · rw [getline_eq] at h
              dsimp only at h
              split at h
              · simp [ClientOut.after, runProbe] at h
              · simp at h
            · simp at h
          · simp [runProbe] at h
      | probe q =>
        exfalso
        have hs : c.step C env (.reply d w) = probeCb C env c q d := by unfold Client.step; rw [hpend]
        rw [hs] at h
        unfold probeCb at h
        split at h
        · simp at h
        · simp at h
        · split at h
          · split at h
            · simp at h
            · split at h
              · unfold runDiscovery at h
                split at h <;> simp at h
              · simp at h
              · simp at h
          · split at h
            · simp at h
            · next c1 nm hc =>
              unfold runNew at h
              split at h
              · simp at h
              · unfold runNewWith at h
                dsimp only at h
                split at h
                · simp at h
                · next c2 e k hp =>
                  generalize (if c2.newIdentity = [] then captureKeyName c2 e env.keyIds2 else (c2, Sum.inr k)) = y at h
                  split at h
                  · simp at h
                  · split at h
                    · simp at h
                    · split at h <;> simp at h
      | new =>
        exfalso
        cases hreq : c.request with
        | none =>
          have hs : c.step C env (.reply d w) = { st := c, ended := .ub .nullDeref } := by unfold Client.step; rw [hpend, hreq]
          rw [hs] at h
          cases h
        | some r =>
          have hs : c.step C env (.reply d w) = newCb C env c r d := by unfold Client.step; rw [hpend, hreq]
          rw [hs] at h
          obtain ⟨_, _, h⟩ := newCb_acts _ _ _ _ _ h
          cases h
      | challenge =>
        exfalso
        cases hreq : c.request with
        | none =>
          have hs : c.step C env (.reply d w) = { st := c, ended := .ub .nullDeref } := by unfold Client.step; rw [hpend, hreq]
          rw [hs] at h
          cases h
        | some r =>
          have hs : c.step C env (.reply d w) = challengeCb C env c r d := by unfold Client.step; rw [hpend, hreq]
          rw [hs] at h
          rcases challengeCb_acts _ _ _ _ _ h with ⟨_, _, h⟩ | ⟨_, _, h⟩ <;> cases h
      | fetch =>
        have hs : c.step C env (.reply d w) = certFetchCb C c w := by unfold Client.step; rw [hpend]
        rw [hs] at h
        refine ⟨d, w, rfl, rfl, ?_⟩
        unfold certFetchCb at h
        split at h
        · simp at h
        · simp at h
        · next cert hok =>
          unfold onCertFetchResponse at hok
          split at h
          · next hc =>
            simp only [List.mem_singleton, Act.install.injEq] at h
            subst h
            refine ⟨?_, hc⟩
            cases hd : C.decodeCert w with
            | none => rw [hd] at hok; cases hok
            | some t => rw [hd] at hok; exact congrArg some (Res.ok.inj hok)
          · simp at h

end Ndncert
