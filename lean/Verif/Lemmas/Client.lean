import Verif.Spec.Client
import Verif.Lemmas.Requester

/-! # Lemmas on the command line client -/

namespace Ndncert

/-! ## Reading lines -/

theorem getline_eq (c : Client) : c.getline = (c.stdin.headD [], { c with stdin := c.stdin.tail }) := by
  obtain ⟨t, cp, r, ni, nk, pib, stdin, pd⟩ := c
  cases stdin <;> rfl

theorem captureValues_same (m : MMap) (c : Client) : ∃ ls, (captureValues m c).2 = { c with stdin := ls } := by
  induction m generalizing c with
  | nil => exact ⟨c.stdin, rfl⟩
  | cons e es ih =>
    unfold captureValues
    rw [getline_eq]
    obtain ⟨ls, h⟩ := ih { c with stdin := c.stdin.tail }
    exact ⟨ls, h⟩

theorem captureValues_keys (m : MMap) (c : Client) : (captureValues m c).1.map (·.1) = m.map (·.1) := by
  induction m generalizing c with
  | nil => rfl
  | cons e es ih =>
    unfold captureValues
    rw [getline_eq]
    show e.1 :: _ = e.1 :: _
    rw [ih]

theorem captureValidity_same (t : Nat) (c : Client) : ∃ ls, (captureValidity t c).2 = { c with stdin := ls } := by
  induction t generalizing c with
  | zero => exact ⟨c.stdin, rfl⟩
  | succ t ih =>
    unfold captureValidity
    rw [getline_eq]
    dsimp only
    split
    · exact ⟨_, rfl⟩
    · obtain ⟨ls, h⟩ := ih { c with stdin := c.stdin.tail }
      exact ⟨ls, h⟩

theorem captureIndex_same (n t : Nat) (c : Client) : ∃ ls, (captureIndex n t c).2 = { c with stdin := ls } := by
  induction t generalizing c with
  | zero => exact ⟨c.stdin, rfl⟩
  | succ t ih =>
    unfold captureIndex
    rw [getline_eq]
    dsimp only
    obtain ⟨ls, h⟩ := ih { c with stdin := c.stdin.tail }
    split
    · split
      · exact ⟨ls, h⟩
      · exact ⟨_, rfl⟩
    · exact ⟨ls, h⟩

/-- the part of the state that the choice of a CA depends on is the same -/
def Client.Like (c c' : Client) : Prop := c'.trusted = c.trusted ∧ c'.pending = c.pending ∧ c'.request = c.request

theorem Client.Like.refl (c : Client) : c.Like c := ⟨rfl, rfl, rfl⟩

theorem captureKeyName_like (c : Client) (e : IdEntry) (ds : List Block) : c.Like (captureKeyName c e ds).1 ∧
    (captureKeyName c e ds).1.captured = c.captured := by
  unfold captureKeyName
  rw [getline_eq]
  dsimp only
  split
  · split <;> exact ⟨⟨rfl, rfl, rfl⟩, rfl⟩
  · split
    · exact ⟨⟨rfl, rfl, rfl⟩, rfl⟩
    · split <;> exact ⟨⟨rfl, rfl, rfl⟩, rfl⟩

theorem prepareKey_like {c c' : Client} {id k : Name} {ds : List Block} {e : IdEntry} (h : prepareKey c id ds = some (c', e, k)) :
    c.Like c' ∧ c'.captured = c.captured := by
  unfold prepareKey at h
  split at h
  · split at h
    · cases h
    · injection h with h; injection h with h1 h2; subst h1; exact ⟨⟨rfl, rfl, rfl⟩, rfl⟩
  · split at h
    · injection h with h; injection h with h1 h2; subst h1; exact ⟨⟨rfl, rfl, rfl⟩, rfl⟩
    · split at h
      · cases h
      · injection h with h; injection h with h1 h2; subst h1; exact ⟨⟨rfl, rfl, rfl⟩, rfl⟩

theorem genNew_profile (C : Crypto) (r : Request) (k : Name) (nb na : Time) (v : Block) :
    (genNewInterest C r k nb na v).1.profile = r.profile := by
  unfold genNewInterest
  split
  · rfl
  · split
    · rfl
    · split
      · rfl
      · rfl
      · split <;> rfl

/-! ## What each callback does to the choice of the CA -/

/-- facts about `runNew` and `newCb`, `challengeCb`, `runChallenge`: the CA does not change -/
structure Client.Keeps (c : Client) (p : CaProfile) (o : ClientOut) : Prop where
  trusted : o.st.trusted = c.trusted
  captured : o.st.captured = c.captured
  pending : o.st.pending = c.pending ∨ o.st.pending = none ∨ o.st.pending = some .new ∨ o.st.pending = some .challenge ∨
    o.st.pending = some .fetch
  request : o.st.request = c.request ∨ ∃ r, o.st.request = some r ∧ r.profile = p
  acts : ∀ a ∈ o.acts, (∃ i, a = .new p i) ∨ (∃ i, a = .challenge p i) ∨ (∃ n x, a = .fetch n x)

theorem runNewWith_keeps (C : Crypto) (env : ClientEnv) (c : Client) (p : CaProfile) (id : Name) (hours : Int) :
    c.Keeps p (runNewWith C env c p id hours) := by
  unfold runNewWith
  dsimp only
  split
  · exact ⟨rfl, rfl, .inl rfl, .inr ⟨_, rfl, rfl⟩, by simp⟩
  · next c2 e k hp =>
    obtain ⟨⟨a1, a2, a3⟩, a4⟩ := prepareKey_like hp
    dsimp only at a1 a2 a3 a4
    have hb : ∃ c3 chosen, (if c2.newIdentity = [] then captureKeyName c2 e env.keyIds2 else (c2, Sum.inr k)) = (c3, chosen) ∧
        c2.Like c3 ∧ c3.captured = c2.captured := by
      split
      · exact ⟨_, _, rfl, captureKeyName_like _ _ _⟩
      · exact ⟨_, _, rfl, .refl _, rfl⟩
    obtain ⟨c3, chosen, heq, ⟨b1, b2, b3⟩, b4⟩ := hb
    rw [heq]
    dsimp only
    split
    · exact ⟨b1.trans a1, b4.trans a4, .inl (b2.trans a2), .inr ⟨_, b3.trans a3, rfl⟩, by simp⟩
    · split
      · exact ⟨b1.trans a1, b4.trans a4, .inl (b2.trans a2), .inr ⟨_, b3.trans a3, rfl⟩, by simp⟩
      · have hp := fun r => genNew_profile C r
        split
        · exact ⟨b1.trans a1, b4.trans a4, .inl (b2.trans a2), .inr ⟨_, rfl, hp _ _ _ _ _⟩, by simp⟩
        · exact ⟨b1.trans a1, b4.trans a4, .inl (b2.trans a2), .inr ⟨_, rfl, hp _ _ _ _ _⟩, by simp⟩
        · exact ⟨b1.trans a1, b4.trans a4, .inr (.inl rfl), .inr ⟨_, rfl, hp _ _ _ _ _⟩, by simp⟩
        · exact ⟨b1.trans a1, b4.trans a4, .inr (.inr (.inl rfl)), .inr ⟨_, rfl, hp _ _ _ _ _⟩, by simp⟩

theorem runNew_keeps (C : Crypto) (env : ClientEnv) (c : Client) (p : CaProfile) (id : Name) :
    c.Keeps p (runNew C env c p id) := by
  unfold runNew
  obtain ⟨ls, h⟩ := captureValidity_same 3 c
  split
  · next c1 hc =>
    rw [hc] at h
    dsimp only at h
    subst h
    exact ⟨rfl, rfl, .inl rfl, .inl rfl, by simp⟩
  · next hr c1 hc =>
    rw [hc] at h
    dsimp only at h
    subst h
    obtain ⟨h1, h2, h3, h4, h5⟩ := runNewWith_keeps C env { c with stdin := ls } p id hr
    exact ⟨h1, h2, h3, h4, h5⟩

theorem select_profile (r : Request) (ty : Bytes) : (selectOrContinueChallenge r ty).1.profile = r.profile := by
  unfold selectOrContinueChallenge
  split <;> rfl

theorem genChallenge_profile (C : Crypto) (r : Request) (m : MMap) (rnd : Bytes) :
    (genChallengeInterest C r m rnd).1.profile = r.profile := by
  unfold genChallengeInterest
  split
  · rfl
  · split
    · rfl
    · split
      · rfl
      · rfl
      · dsimp only
        split
        · rfl
        · rfl
        · split <;> rfl

theorem challengeParams_same (c : Client) (r : Request) (ty : Bytes) (keys : List Bytes) :
    ∃ ls, (challengeParams c r ty keys).1 = { c with stdin := ls } := by
  unfold challengeParams
  split
  · exact ⟨c.stdin, rfl⟩
  · split
    · split
      · exact ⟨c.stdin, rfl⟩
      · split
        · exact ⟨c.stdin, rfl⟩
        · split <;> exact ⟨c.stdin, rfl⟩
    · exact captureValues_same _ _

theorem runChallenge_keeps (C : Crypto) (env : ClientEnv) (c : Client) (r : Request) (ty : Bytes) :
    c.Keeps r.profile (runChallenge C env c r ty) := by
  unfold runChallenge
  dsimp only
  have h1 := select_profile r ty
  generalize selectOrContinueChallenge r ty = x at *
  split
  · exact ⟨rfl, rfl, .inl rfl, .inr ⟨_, rfl, h1⟩, by simp⟩
  · exact ⟨rfl, rfl, .inl rfl, .inr ⟨_, rfl, h1⟩, by simp⟩
  · next keys hk =>
    obtain ⟨ls, h2⟩ := challengeParams_same { c with request := some x.1 } x.1 ty keys
    generalize challengeParams { c with request := some x.1 } x.1 ty keys = y at *
    split
    · rw [h2]; exact ⟨rfl, rfl, .inl rfl, .inr ⟨_, rfl, h1⟩, by simp⟩
    · rw [h2]; exact ⟨rfl, rfl, .inl rfl, .inr ⟨_, rfl, h1⟩, by simp⟩
    · next m hm =>
      have h3 := genChallenge_profile C x.1 m env.rnd
      generalize genChallengeInterest C x.1 m env.rnd = z at *
      split
      · rw [h2]; exact ⟨rfl, rfl, .inl rfl, .inr ⟨_, rfl, h3.trans h1⟩, by simp⟩
      · rw [h2]; exact ⟨rfl, rfl, .inl rfl, .inr ⟨_, rfl, h3.trans h1⟩, by simp⟩
      · rw [h2]; exact ⟨rfl, rfl, .inr (.inr (.inr (.inl rfl))), .inr ⟨_, rfl, h3.trans h1⟩, by simp [h3, h1]⟩

/-- chaining: an update of the request before -/
theorem Client.Keeps.of_request {c : Client} {r : Request} {p : CaProfile} {ls : List Bytes} {o : ClientOut}
    (hp : r.profile = p) (h : Client.Keeps { c with request := some r, stdin := ls } p o) : c.Keeps p o := by
  obtain ⟨h1, h2, h3, h4, h5⟩ := h
  refine ⟨h1, h2, h3, ?_, h5⟩
  rcases h4 with h4 | h4
  · exact .inr ⟨r, h4, hp⟩
  · exact .inr h4

theorem onNew_profile (C : Crypto) (r : Request) (d : Data) (s : Bytes) : (onNewResponse C r d s).1.profile = r.profile := by
  unfold onNewResponse
  split
  · rfl
  · rfl
  · dsimp only
    split
    · rfl
    · rfl
    · split <;> rfl

theorem newCb_keeps (C : Crypto) (env : ClientEnv) (c : Client) (r : Request) (d : Data) :
    c.Keeps r.profile (newCb C env c r d) := by
  unfold newCb
  dsimp only
  have h1 := onNew_profile C r d env.stack
  generalize onNewResponse C r d env.stack = x at *
  have hself : ∀ e, c.Keeps r.profile { st := { c with request := some x.1 }, ended := e } := fun e =>
    ⟨rfl, rfl, .inl rfl, .inr ⟨_, rfl, h1⟩, by simp⟩
  split
  · exact hself _
  · exact hself _
  · next cs hcs =>
    split
    · exact hself _
    · split
      · have h2 := runChallenge_keeps C env { c with request := some x.1 } x.1 (bytes! "email")
        rw [h1] at h2
        exact .of_request (ls := c.stdin) h1 h2
      · obtain ⟨ls, h2⟩ := captureIndex_same cs.length 3 { c with request := some x.1 }
        split
        · next c2 hc =>
          rw [hc] at h2
          dsimp only at h2
          subst h2
          exact ⟨rfl, rfl, .inl rfl, .inr ⟨_, rfl, h1⟩, by simp⟩
        · next i c2 hc =>
          rw [hc] at h2
          dsimp only at h2
          subst h2
          have h3 := runChallenge_keeps C env { c with request := some x.1, stdin := ls } x.1 (cs[i]?.getD [])
          rw [h1] at h3
          exact .of_request (ls := ls) h1 h3

/-- what the decoder of CHALLENGE replies leaves alone -/
structure Request.Frame (r r' : Request) : Prop where
  profile : r'.profile = r.profile
  challengeType : r'.challengeType = r.challengeType
  keyPair : r'.keyPair = r.keyPair

theorem challengeStep_frame {es : List Block} {now : Time} {a a' : ChalDecAcc} {item : Block}
    (h : challengeStep es now a item = .ok a') : a.req.Frame a'.req := by
  unfold challengeStep at h
  split at h
  · split at h
    · rw [Res.bind_eq_ok] at h
      obtain ⟨b, _, h⟩ := h
      rw [Res.bind_eq_ok] at h
      obtain ⟨s, _, h⟩ := h
      injection h with h; subst h; exact ⟨rfl, rfl, rfl⟩
    · split at h
      · injection h with h; subst h; exact ⟨rfl, rfl, rfl⟩
      · split at h
        · rw [Res.bind_eq_ok] at h
          obtain ⟨b, _, h⟩ := h
          injection h with h; subst h; exact ⟨rfl, rfl, rfl⟩
        · split at h
          · rw [Res.bind_eq_ok] at h
            obtain ⟨b, _, h⟩ := h
            rw [Res.bind_eq_ok] at h
            obtain ⟨s, _, h⟩ := h
            injection h with h; subst h; exact ⟨rfl, rfl, rfl⟩
          · split at h
            · rw [Res.bind_eq_ok] at h
              obtain ⟨b, _, h⟩ := h
              rw [Res.bind_eq_ok] at h
              obtain ⟨s, _, h⟩ := h
              injection h with h; subst h; exact ⟨rfl, rfl, rfl⟩
            · split at h
              · rw [Res.bind_eq_ok] at h
                obtain ⟨b, _, h⟩ := h
                rw [Res.bind_eq_ok] at h
                obtain ⟨s, _, h⟩ := h
                injection h with h; subst h; exact ⟨rfl, rfl, rfl⟩
              · split at h
                · split at h
                  · injection h with h; subst h; exact ⟨rfl, rfl, rfl⟩
                  · cases h
                · split at h
                  · cases h
                  · injection h with h; subst h; exact ⟨rfl, rfl, rfl⟩
  · split at h
    · split at h
      · cases h
      · injection h with h; subst h; exact ⟨rfl, rfl, rfl⟩
    · cases h

theorem challengeLoop_frame (es0 : List Block) (now : Time) (es : List Block) (a : ChalDecAcc) :
    a.req.Frame (loopRes (challengeStep es0 now) a es).1.req := by
  induction es generalizing a with
  | nil => exact ⟨rfl, rfl, rfl⟩
  | cons e es ih =>
    unfold loopRes
    split
    · next a' h =>
      have h1 := challengeStep_frame h
      have h2 := ih a'
      exact ⟨h2.1.trans h1.1, h2.2.trans h1.2, h2.3.trans h1.3⟩
    · exact ⟨rfl, rfl, rfl⟩
    · exact ⟨rfl, rfl, rfl⟩

theorem onChallengeResponse_frame (C : Crypto) (r : Request) (d : Data) (now : Time) :
    r.Frame (onChallengeResponse C r d now).1 := by
  unfold onChallengeResponse
  split
  · exact ⟨rfl, rfl, rfl⟩
  · exact ⟨rfl, rfl, rfl⟩
  · unfold challengeDecode
    dsimp only
    split
    · exact ⟨rfl, rfl, rfl⟩
    · exact ⟨rfl, rfl, rfl⟩
    · split
      · exact ⟨rfl, rfl, rfl⟩
      · exact ⟨rfl, rfl, rfl⟩
      · next es _ =>
        have h := challengeLoop_frame es now es ({ req := { r with decryptionIv := (decodeAes C d.content r.aesKey r.requestId r.decryptionIv r.encryptionIv).1 } } : ChalDecAcc)
        exact ⟨h.1, h.2, h.3⟩

theorem challengeCb_keeps (C : Crypto) (env : ClientEnv) (c : Client) (r : Request) (d : Data) :
    c.Keeps r.profile (challengeCb C env c r d) := by
  unfold challengeCb
  dsimp only
  have h1 := (onChallengeResponse_frame C r d env.now).1
  generalize onChallengeResponse C r d env.now = x at *
  split
  · exact ⟨rfl, rfl, .inl rfl, .inr ⟨_, rfl, h1⟩, by simp⟩
  · exact ⟨rfl, rfl, .inl rfl, .inr ⟨_, rfl, h1⟩, by simp⟩
  · split
    · exact ⟨rfl, rfl, .inr (.inr (.inr (.inr rfl))), .inr ⟨_, rfl, h1⟩, by simp⟩
    · have h2 := runChallenge_keeps C env { c with request := some x.1 } x.1 x.1.challengeType
      rw [h1] at h2
      exact .of_request (ls := c.stdin) h1 h2

/-! ## Trust -/

theorem Did.mono {h h' : List ClientStep} {a : Act} (hd : Did h a) : Did (h ++ h') a :=
  let ⟨n, hn, ha⟩ := hd
  ⟨n, List.mem_append_left _ hn, ha⟩

theorem Received.mono {h h' : List ClientStep} {d : Data} (hd : Received h d) : Received (h ++ h') d :=
  let ⟨n, hn, ha⟩ := hd
  ⟨n, List.mem_append_left _ hn, ha⟩

theorem TrustedProfile.mono {C : Crypto} {known : Profiles} {h h' : List ClientStep} {p : CaProfile}
    (ht : TrustedProfile C known h p) : TrustedProfile C known (h ++ h') p := by
  induction ht with
  | configured a b c d e => exact .configured a.mono b c d e
  | user a b => exact .user a.mono b
  | redirected _ b c d e f g i j k l ih => exact .redirected ih b.mono c.mono d e f g i.mono j k l

/-- the full name of a certificate announced by a trusted CA -/
def Announced (C : Crypto) (known : Profiles) (h : List ClientStep) (full : Name) : Prop :=
  ∃ q i d t names redirects, TrustedProfile C known h q ∧ Did h (.probe q i) ∧ Received h d ∧ q.cert = some t ∧
    C.verifyData d t = true ∧ probeDecode d.content [] [] = .ok (names, redirects) ∧ full ∈ redirects

theorem Announced.mono {C : Crypto} {known : Profiles} {h h' : List ClientStep} {full : Name} (ha : Announced C known h full) :
    Announced C known (h ++ h') full := by
  obtain ⟨q, i, d, t, names, redirects, h1, h2, h3, h4⟩ := ha
  exact ⟨q, i, d, t, names, redirects, h1.mono, h2.mono, h3.mono, h4⟩

/-- invariant of the runs -/
structure TrustInv (C : Crypto) (known : Profiles) (h : List ClientStep) (c : Client) : Prop where
  probe : ∀ p, c.pending = some (.probe p) → TrustedProfile C known h p ∧ ∃ i, Did h (.probe p i)
  first : (c.pending = some (.discovery []) ∨ c.pending = some (.info [])) → ∀ t, c.trusted = some t → ∃ q ∈ known, q.cert = some t
  later : ∀ full, full ≠ [] → (c.pending = some (.discovery full) ∨ c.pending = some (.info full)) → Announced C known h full
  request : ∀ r, c.request = some r → TrustedProfile C known h r.profile

/-- steps that keep the CA keep the invariant -/
theorem TrustInv.keeps {C : Crypto} {known : Profiles} {h : List ClientStep} {c : Client} (hi : TrustInv C known h c)
    {p : CaProfile} (hp : TrustedProfile C known h p) {o : ClientOut} (hk : c.Keeps p o) (n : ClientStep) (hn : n.acts = o.acts) :
    TrustInv C known (h ++ [n]) o.st ∧ ∀ a ∈ n.acts, ∀ q, a.ca = some q → TrustedProfile C known (h ++ [n]) q := by
  obtain ⟨h1, h2, h3, h4, h5⟩ := hk
  have hpend : ∀ w, o.st.pending = some w → c.pending = some w ∨ w = .new ∨ w = .challenge ∨ w = .fetch := by
    intro w hw
    rw [hw] at h3
    rcases h3 with h | h | h | h | h
    · exact .inl h.symm
    · cases h
    · injection h with h; exact .inr (.inl h)
    · injection h with h; exact .inr (.inr (.inl h))
    · injection h with h; exact .inr (.inr (.inr h))
  refine ⟨⟨?_, ?_, ?_, ?_⟩, ?_⟩
  · intro q hq
    rcases hpend _ hq with h | h | h | h
    · obtain ⟨a, i, b⟩ := hi.probe q h
      exact ⟨a.mono, i, b.mono⟩
    all_goals cases h
  · rintro hq t ht
    rw [h1] at ht
    refine hi.first ?_ t ht
    rcases hq with hq | hq
    · rcases hpend _ hq with h | h | h | h
      · exact .inl h
      all_goals cases h
    · rcases hpend _ hq with h | h | h | h
      · exact .inr h
      all_goals cases h
  · rintro full hf hq
    refine (hi.later full hf ?_).mono
    rcases hq with hq | hq
    · rcases hpend _ hq with h | h | h | h
      · exact .inl h
      all_goals cases h
    · rcases hpend _ hq with h | h | h | h
      · exact .inr h
      all_goals cases h
  · intro r hr
    rcases h4 with h4 | ⟨r', h4, h6⟩
    · exact (hi.request r (h4 ▸ hr)).mono
    · rw [h4] at hr
      injection hr with hr
      subst hr
      rw [h6]
      exact hp.mono
  · intro a ha q hq
    rw [hn] at ha
    rcases h5 a ha with ⟨i, rfl⟩ | ⟨i, rfl⟩ | ⟨m, x, rfl⟩
    · injection hq with hq; subst hq; exact hp.mono
    · injection hq with hq; subst hq; exact hp.mono
    · cases hq

/-- steps that change nothing that matters -/
theorem TrustInv.idle {C : Crypto} {known : Profiles} {h : List ClientStep} {c c' : Client} (hi : TrustInv C known h c)
    (ht : c'.trusted = c.trusted) (hp : c'.pending = c.pending ∨ c'.pending = none) (hr : c'.request = c.request) (n : ClientStep) :
    TrustInv C known (h ++ [n]) c' := by
  have hpend : ∀ w, c'.pending = some w → c.pending = some w := by
    intro w hw
    rcases hp with h | h
    · rw [← h]; exact hw
    · rw [h] at hw; cases hw
  refine ⟨?_, ?_, ?_, ?_⟩
  · intro q hq
    obtain ⟨a, i, b⟩ := hi.probe q (hpend _ hq)
    exact ⟨a.mono, i, b.mono⟩
  · rintro hq t ht'
    exact hi.first (hq.imp (hpend _) (hpend _)) t (ht ▸ ht')
  · intro full hf hq
    exact (hi.later full hf (hq.imp (hpend _) (hpend _))).mono
  · intro r hr'
    exact (hi.request r (hr ▸ hr')).mono

theorem probeParams_same (c : Client) (p : CaProfile) : (probeParams c p).2.trusted = c.trusted ∧
    (probeParams c p).2.request = c.request ∧ (probeParams c p).2.captured = some (probeParams c p).1 := by
  unfold probeParams
  split
  · next m hm => exact ⟨rfl, rfl, hm⟩
  · obtain ⟨ls, h⟩ := captureValues_same (p.probeParameterKeys.foldl (fun m k => mmInsert k [] m) []) c
    unfold captureKeys
    dsimp only
    rw [h]
    exact ⟨rfl, rfl, rfl⟩

/-- starting PROBE with a trusted profile -/
theorem TrustInv.runProbe {C : Crypto} {known : Profiles} {h : List ClientStep} {c : Client}
    (hr : ∀ r, c.request = some r → TrustedProfile C known h r.profile) {p : CaProfile} (n : ClientStep)
    (hp : TrustedProfile C known (h ++ [n]) p) (hn : ∀ a ∈ (runProbe C c p).acts, a ∈ n.acts) :
    TrustInv C known (h ++ [n]) (runProbe C c p).st := by
  obtain ⟨h1, h2, h3⟩ := probeParams_same c p
  refine ⟨?_, ?_, ?_, ?_⟩
  · intro q hq
    injection hq with hq
    injection hq with hq
    subst hq
    exact ⟨hp, genProbeInterest C p (probeParams c p).1, n, by simp, hn _ (by simp [Ndncert.runProbe])⟩
  · rintro (hq | hq) <;> cases hq
  · rintro full hf (hq | hq) <;> cases hq
  · intro r hr'
    exact (hr r (h2 ▸ hr')).mono

theorem isValidCertName_ne {n : Name} (h : isValidCertName n = true) : n ≠ [] := by
  rintro rfl
  simp [isValidCertName] at h

theorem chooseRedirect_spec (c : Client) (rs : List Name) : (∃ ls, (chooseRedirect c rs).1 = { c with stdin := ls }) ∧
    ∀ n, (chooseRedirect c rs).2 = .inr n → n ∈ rs := by
  unfold chooseRedirect
  split
  · exact ⟨⟨c.stdin, rfl⟩, by simp⟩
  · exact ⟨⟨c.stdin, rfl⟩, by simp⟩
  · split
    · exact ⟨⟨c.stdin, rfl⟩, by simp⟩
    · rw [getline_eq]
      dsimp only
      split
      · exact ⟨⟨_, rfl⟩, by simp⟩
      · split
        · exact ⟨⟨_, rfl⟩, by simp⟩
        · next n hn =>
          refine ⟨⟨_, rfl⟩, ?_⟩
          intro n' h'
          injection h' with h'
          subst h'
          exact List.mem_of_getElem? hn

theorem chooseName_same (c : Client) (ns : List (Name × Int)) : ∃ ls, (chooseName c ns).1 = { c with stdin := ls } := by
  unfold chooseName
  split
  · exact ⟨c.stdin, rfl⟩
  · exact ⟨c.stdin, rfl⟩
  · rw [getline_eq]
    dsimp only
    split <;> exact ⟨_, rfl⟩

theorem onCaProfileResponse_ok {C : Crypto} {d : Data} {p : CaProfile} (h : onCaProfileResponse C d = .ok p) :
    infoDecode C d.content = .ok p ∧ ∃ c, p.cert = some c ∧ C.verifyData d c = true := by
  unfold onCaProfileResponse at h
  rw [Res.bind_eq_ok] at h
  obtain ⟨p', h1, h2⟩ := h
  split at h2
  · cases h2
  · next c hc =>
    split at h2
    · next hv =>
      injection h2 with h2
      subst h2
      exact ⟨h1, c, hc, hv⟩
    · cases h2

theorem afterRedirection_ok {C : Crypto} {d : Data} {full : Name} {p : CaProfile}
    (h : onCaProfileResponseAfterRedirection C d full = .ok p) :
    infoDecode C d.content = .ok p ∧ ∃ c, p.cert = some c ∧ c.fullName = full ∧ C.verifyData d c = true := by
  unfold onCaProfileResponseAfterRedirection at h
  rw [Res.bind_eq_ok] at h
  obtain ⟨p', h1, h2⟩ := h
  split at h2
  · cases h2
  · next c hc =>
    split at h2
    · cases h2
    · next hne =>
      obtain ⟨h3, c', h4, h5⟩ := onCaProfileResponse_ok h2
      rw [h1] at h3
      injection h3 with h3
      subst h3
      rw [hc] at h4
      injection h4 with h4
      subst h4
      exact ⟨h1, c, hc, Classical.byContradiction hne, h5⟩

theorem onProbeResponse_ok {C : Crypto} {d : Data} {p : CaProfile} {x : List (Name × Int) × List Name}
    (h : onProbeResponse C d p [] [] = .ok x) :
    (∃ t, p.cert = some t ∧ C.verifyData d t = true) ∧ probeDecode d.content [] [] = .ok x := by
  unfold onProbeResponse at h
  rw [Res.bind_eq_ok] at h
  obtain ⟨_, h1, h2⟩ := h
  refine ⟨?_, h2⟩
  unfold checkReply at h1
  split at h1
  · cases h1
  · next t ht =>
    split at h1
    · next hv => exact ⟨t, ht, hv⟩
    · cases h1

theorem runDiscovery_inv {C : Crypto} {known : Profiles} {h : List ClientStep} {c : Client} (n : ClientStep)
    (hi : TrustInv C known h c) (caName full : Name)
    (hfull : full ≠ [] → Announced C known (h ++ [n]) full)
    (hnil : full = [] → ∀ t, c.trusted = some t → ∃ q ∈ known, q.cert = some t) :
    TrustInv C known (h ++ [n]) (runDiscovery c caName full).st ∧ ∀ a ∈ (runDiscovery c caName full).acts, a.ca = none := by
  unfold runDiscovery
  split
  · refine ⟨⟨?_, ?_, ?_, ?_⟩, by simp [Act.ca]⟩
    · intro q hq; cases hq
    · rintro (hq | hq) t ht
      · injection hq with hq; injection hq with hq
        exact hnil hq t ht
      · cases hq
    · rintro f hf (hq | hq)
      · injection hq with hq; injection hq with hq
        subst hq
        exact hfull hf
      · cases hq
    · intro r hr
      exact (hi.request r hr).mono
  · exact ⟨hi.idle rfl (.inl rfl) rfl n, by simp⟩
  · exact ⟨hi.idle rfl (.inl rfl) rfl n, by simp⟩

theorem TrustInv.stdin {C : Crypto} {known : Profiles} {h : List ClientStep} {c : Client} (hi : TrustInv C known h c)
    (ls : List Bytes) : TrustInv C known h { c with stdin := ls } := ⟨hi.probe, hi.first, hi.later, hi.request⟩

theorem Client.Keeps.stdin {c : Client} {ls : List Bytes} {p : CaProfile} {o : ClientOut}
    (h : Client.Keeps { c with stdin := ls } p o) : c.Keeps p o := ⟨h.1, h.2, h.3, h.4, h.5⟩

/-- every callback keeps the invariant and addresses only trusted CAs -/
theorem TrustInv.step {C : Crypto} {known : Profiles} {h : List ClientStep} {c : Client} (hi : TrustInv C known h c)
    (e : ClientEvent) (env : ClientEnv) :
    TrustInv C known (h ++ [⟨e, env, (c.step C env e).acts, (c.step C env e).ended⟩]) (c.step C env e).st ∧
    ∀ a ∈ (c.step C env e).acts, ∀ q, a.ca = some q →
      TrustedProfile C known (h ++ [⟨e, env, (c.step C env e).acts, (c.step C env e).ended⟩]) q := by
  have hidle : ∀ (n : ClientStep) (o : ClientOut), o.st.trusted = c.trusted → (o.st.pending = c.pending ∨ o.st.pending = none) →
      o.st.request = c.request → (∀ a ∈ o.acts, a.ca = none) → TrustInv C known (h ++ [n]) o.st ∧
      ∀ a ∈ o.acts, ∀ q, a.ca = some q → TrustedProfile C known (h ++ [n]) q := by
    intro n o h1 h2 h3 h4
    refine ⟨hi.idle h1 h2 h3 n, ?_⟩
    intro a ha q hq
    rw [h4 a ha] at hq
    cases hq
  cases e with
  | signal =>
    show _ ∧ _
    refine hidle _ (handleSignal c) ?_ ?_ ?_ ?_ <;>
    · unfold handleSignal
      split
      · simp
      · split
        · split <;> simp
        · split
          · split
            · split <;> simp
            · simp
            · simp
          · simp
  | nack =>
    have hs : c.step C env .nack = if c.pending = none then { st := c } else { st := c, ended := .exit 1 } := rfl
    rw [hs]
    split
    · exact hidle _ _ rfl (.inl rfl) rfl (by simp)
    · exact hidle _ _ rfl (.inl rfl) rfl (by simp)
  | timeout => exact hidle _ _ rfl (.inr rfl) rfl (by simp [Client.step])
  | reply d w =>
    have hrec : ∀ x y, Received (h ++ [⟨.reply d w, env, x, y⟩]) d := fun x y =>
      ⟨⟨.reply d w, env, x, y⟩, by simp, w, rfl⟩
    cases hpend : c.pending with
    | none =>
      have hs : c.step C env (.reply d w) = { st := c } := by unfold Client.step; rw [hpend]
      rw [hs]
      exact hidle _ _ rfl (.inl rfl) rfl (by simp)
    | some aw =>
      cases aw with
      | discovery full =>
        have hs : c.step C env (.reply d w) = discoveryCb c full d := by unfold Client.step; rw [hpend]
        rw [hs]
        generalize hn : (⟨.reply d w, env, (discoveryCb c full d).acts, (discoveryCb c full d).ended⟩ : ClientStep) = n
        clear hn
        unfold discoveryCb
        split
        · refine ⟨⟨?_, ?_, ?_, ?_⟩, by simp [Act.ca]⟩
          · intro q hq; cases hq
          · rintro (hq | hq) t ht
            · cases hq
            · injection hq with hq; injection hq with hq
              subst hq
              exact hi.first (.inl hpend) t ht
          · rintro f hf (hq | hq)
            · cases hq
            · injection hq with hq; injection hq with hq
              subst hq
              exact (hi.later _ hf (.inl hpend)).mono
          · intro r hr
            exact (hi.request r hr).mono
        · exact hidle _ _ rfl (.inl rfl) rfl (by simp)
        · exact hidle _ _ rfl (.inl rfl) rfl (by simp)
      | info full =>
        have hs : c.step C env (.reply d w) = infoCb C c full d := by unfold Client.step; rw [hpend]
        rw [hs]
        have hr := hrec (infoCb C c full d).acts (infoCb C c full d).ended
        have hd : ∀ a ∈ (infoCb C c full d).acts,
            Did (h ++ [⟨.reply d w, env, (infoCb C c full d).acts, (infoCb C c full d).ended⟩]) a :=
          fun a ha => ⟨⟨.reply d w, env, (infoCb C c full d).acts, (infoCb C c full d).ended⟩, by simp, ha⟩
        have hn : ∀ a ∈ (infoCb C c full d).acts,
          a ∈ (⟨.reply d w, env, (infoCb C c full d).acts, (infoCb C c full d).ended⟩ : ClientStep).acts := fun a ha => ha
        generalize (⟨.reply d w, env, (infoCb C c full d).acts, (infoCb C c full d).ended⟩ : ClientStep) = n at *
        have htr : ∀ p, acceptProfile C c full d = .ok p → c.trusted ≠ none → TrustedProfile C known (h ++ [n]) p := by
          intro p hp hne
          unfold acceptProfile at hp
          split at hp
          · next hf =>
            subst hf
            split at hp
            · next t ht =>
              split at hp
              · next hv =>
                obtain ⟨q, hq, hqc⟩ := hi.first (.inr hpend) t ht
                exact .configured hr hq hqc hv (onCaProfileResponse_ok hp).1
              · cases hp
            · next ht => exact absurd ht hne
          · next hf =>
            obtain ⟨h1, cc, h2, h3, h4⟩ := afterRedirection_ok hp
            obtain ⟨q, i, d', t, names, rs, a1, a2, a3, a4, a5, a6, a7⟩ := (hi.later full hf (.inr hpend)).mono (h' := [n])
            exact .redirected a1 a2 a3 a4 a5 a6 (show cc.fullName ∈ rs from h3 ▸ a7) hr h1 h2 h4
        unfold infoCb at *
        split
        · exact hidle _ _ rfl (.inr rfl) rfl (by simp)
        · exact hidle _ _ rfl (.inl rfl) rfl (by simp)
        · next p hp =>
          rw [hp] at hd hn
          dsimp only at hd hn
          split
          · next hnone =>
            by_cases hsh : canShow C d p = true
            case neg => rw [if_neg hsh]; exact hidle _ _ rfl (.inl rfl) rfl (by simp)
            rw [if_pos hnone, if_pos hsh, getline_eq] at hd hn
            rw [if_pos hsh, getline_eq]
            dsimp only at hd hn ⊢
            split
            · next hyes =>
              rw [if_pos hyes] at hd hn
              have hT : TrustedProfile C known (h ++ [n]) p :=
                .user (hd (.asked p (c.stdin.headD [])) (by simp [ClientOut.after])) hyes
              constructor
              · refine TrustInv.runProbe (c := { c with stdin := c.stdin.tail, trusted := p.cert }) hi.request n hT ?_
                intro a ha
                exact hn a (by simp only [ClientOut.after]; exact List.mem_append_right _ ha)
              · intro a ha q hq
                simp only [ClientOut.after, Ndncert.runProbe, List.mem_append, List.mem_singleton] at ha
                rcases ha with rfl | rfl
                · cases hq
                · injection hq with hq; subst hq; exact hT
            · exact hidle _ _ rfl (.inl rfl) rfl (by simp [Act.ca])
          · next hsome =>
            rw [if_neg hsome] at hd hn
            have hT := htr p hp hsome
            constructor
            · exact TrustInv.runProbe hi.request n hT hn
            · intro a ha q hq
              simp only [Ndncert.runProbe, List.mem_singleton] at ha
              subst ha
              injection hq with hq; subst hq; exact hT
      | probe p =>
        have hs : c.step C env (.reply d w) = probeCb C env c p d := by unfold Client.step; rw [hpend]
        rw [hs]
        obtain ⟨hpT, i, hsent⟩ := hi.probe p hpend
        have hr := hrec (probeCb C env c p d).acts (probeCb C env c p d).ended
        have hn : (⟨.reply d w, env, (probeCb C env c p d).acts, (probeCb C env c p d).ended⟩ : ClientStep).acts =
          (probeCb C env c p d).acts := rfl
        generalize (⟨.reply d w, env, (probeCb C env c p d).acts, (probeCb C env c p d).ended⟩ : ClientStep) = n at *
        unfold probeCb at *
        split
        · exact hidle _ _ rfl (.inl rfl) rfl (by simp)
        · exact hidle _ _ rfl (.inl rfl) rfl (by simp)
        · next names rs hok =>
          obtain ⟨⟨t, ht, hv⟩, hdec⟩ := onProbeResponse_ok hok
          rw [hok] at hn
          dsimp only at hn
          split
          · next hrs =>
            rw [if_pos hrs] at hn
            obtain ⟨⟨ls, hl⟩, hmem⟩ := chooseRedirect_spec c rs
            split
            · next c1 x hc =>
              rw [hc] at hl
              dsimp only at hl
              subst hl
              exact hidle _ _ rfl (.inl rfl) rfl (by simp)
            · next c1 full hc =>
              rw [hc] at hl hmem
              dsimp only at hl hmem
              subst hl
              split
              · next id hid =>
                have hne : full ≠ [] := by
                  rintro rfl
                  simp [identityOfCertName, Name.parent, isValidCertName] at hid
                have ha : Announced C known (h ++ [n]) full :=
                  ⟨p, i, d, t, names, rs, hpT.mono, hsent.mono, hr, ht, hv, hdec, hmem full rfl⟩
                obtain ⟨h1, h2⟩ := runDiscovery_inv n (hi.stdin ls) id full (fun _ => ha) (fun h => absurd h hne)
                refine ⟨h1, ?_⟩
                intro a ha' q hq
                rw [h2 a ha'] at hq
                cases hq
              · exact hidle _ _ rfl (.inl rfl) rfl (by simp)
              · exact hidle _ _ rfl (.inl rfl) rfl (by simp)
          · next hrs =>
            rw [if_neg hrs] at hn
            obtain ⟨ls, hl⟩ := chooseName_same c names
            split
            · next c1 hc =>
              rw [hc] at hl
              dsimp only at hl
              subst hl
              exact hidle _ _ rfl (.inl rfl) rfl (by simp)
            · next c1 nm hc =>
              rw [hc] at hl hn
              dsimp only at hl hn
              subst hl
              have := hi.keeps hpT (Client.Keeps.stdin (runNew_keeps C env { c with stdin := ls } p nm)) n hn
              rw [hn] at this
              exact this
      | new =>
        cases hreq : c.request with
        | none =>
          have hs : c.step C env (.reply d w) = { st := c, ended := .ub .nullDeref } := by unfold Client.step; rw [hpend, hreq]
          rw [hs]
          exact hidle _ _ rfl (.inl rfl) rfl (by simp)
        | some r =>
          have hs : c.step C env (.reply d w) = newCb C env c r d := by unfold Client.step; rw [hpend, hreq]
          rw [hs]
          exact hi.keeps (hi.request r hreq) (newCb_keeps C env c r d) _ rfl
      | challenge =>
        cases hreq : c.request with
        | none =>
          have hs : c.step C env (.reply d w) = { st := c, ended := .ub .nullDeref } := by unfold Client.step; rw [hpend, hreq]
          rw [hs]
          exact hidle _ _ rfl (.inl rfl) rfl (by simp)
        | some r =>
          have hs : c.step C env (.reply d w) = challengeCb C env c r d := by unfold Client.step; rw [hpend, hreq]
          rw [hs]
          exact hi.keeps (hi.request r hreq) (challengeCb_keeps C env c r d) _ rfl
      | fetch =>
        have hs : c.step C env (.reply d w) = certFetchCb C c w := by unfold Client.step; rw [hpend]
        rw [hs]
        refine hidle _ _ ?_ ?_ ?_ ?_ <;>
        · unfold certFetchCb
          split
          · simp
          · simp
          · split <;> simp [Act.ca]

end Ndncert
