import Verif.Lemmas.ClientApply

/-! # Lemmas about the CHALLENGE Interests of the client -/

namespace Ndncert

variable {C : Crypto}

/-! ## The challenges offered -/

theorem requestLoop_challenges (es : List Block) (a : ReqDataAcc) (hok : (loopRes requestStep a es).2 = .ok ()) :
    (loopRes requestStep a es).1.challenges = a.challenges ++ (es.filter (fun e => e.typ == T.Challenge)).map Block.val := by
  induction es generalizing a with
  | nil => simp [loopRes]
  | cons e es ih =>
    unfold loopRes at hok ⊢
    split at hok
    · next a' h =>
      rw [ih a' hok]
      unfold requestStep at h
      split at h
      · next ht =>
        injection h with h
        subst h
        simp [ht, readString]
      · next ht =>
        have : List.filter (fun e => e.typ == T.Challenge) (e :: es) = List.filter (fun e => e.typ == T.Challenge) es := by
          rw [List.filter_cons, if_neg (by simpa using ht)]
        rw [this]
        have : a'.challenges = a.challenges := by
          split at h
          · injection h with h; subst h; rfl
          · split at h
            · rw [Res.bind_eq_ok] at h
              obtain ⟨s, _, h⟩ := h
              injection h with h; subst h; rfl
            · split at h
              · rw [Res.bind_eq_ok] at h
                obtain ⟨s, _, h⟩ := h
                injection h with h; subst h; rfl
              · split at h
                · cases h
                · injection h with h; subst h; rfl
        rw [this]
    · cases hok
    · cases hok

theorem onNewResponse_offers {r : Request} {d : Data} {stack : Bytes} {cs : List Bytes} (h : (onNewResponse C r d stack).2 = .ok cs) :
    Offers d cs ∧ (∃ t, r.profile.cert = some t ∧ C.verifyData d t = true) := by
  unfold onNewResponse at h
  split at h
  · cases h
  · cases h
  · next hc =>
    refine ⟨?_, ?_⟩
    · dsimp only at h
      split at h
      · cases h
      · cases h
      · next pub cs' hd =>
        split at h
        · cases h
        · injection h with h
          subst h
          unfold requestDecode at hd
          split at hd
          · cases hd
          · cases hd
          · next es hes =>
            dsimp only at hd
            have := requestLoop_challenges es { salt := stack, requestId := r.requestId }
            generalize loopRes requestStep ({ salt := stack, requestId := r.requestId } : ReqDataAcc) es = x at *
            split at hd
            · cases hd
            · cases hd
            · next hx =>
              split at hd
              · cases hd
              · injection hd with hd
                injection hd with _ hd
                refine ⟨es, hes, ?_⟩
                rw [← hd, this hx]
                simp
    · unfold checkReply at hc
      split at hc
      · cases hc
      · next t ht =>
        split at hc
        · next hv => exact ⟨t, ht, hv⟩
        · cases hc

/-! ## The challenge picked -/

theorem captureIndex_picked (cs : List Bytes) (t : Nat) (c : Client) {i : Nat} {c2 : Client} (h : captureIndex cs.length t c = (some i, c2)) :
    ∃ skipped line rest, c.stdin = skipped ++ line :: rest ∧ c2 = { c with stdin := rest } ∧ skipped.length < t ∧ stoul line = some i ∧
      i < cs.length ∧ ∀ l ∈ skipped, ∀ k, stoul l = some k → cs[k]? = none := by
  induction t generalizing c with
  | zero => cases h
  | succ t ih =>
    unfold captureIndex at h
    rw [getline_eq] at h
    dsimp only at h
    cases hl : c.stdin with
    | nil =>
      rw [hl] at h
      simp only [List.headD_nil, stoul_nil] at h
      obtain ⟨skipped, line, rest, h1, _⟩ := ih _ h
      simp at h1
    | cons l ls =>
      rw [hl] at h
      dsimp only [List.headD_cons, List.tail_cons] at h
      have next : captureIndex cs.length t { c with stdin := ls } = (some i, c2) → (∀ k, stoul l = some k → cs[k]? = none) →
          ∃ skipped line rest, l :: ls = skipped ++ line :: rest ∧ c2 = { c with stdin := rest } ∧ skipped.length < t + 1 ∧ stoul line = some i ∧
            i < cs.length ∧ ∀ l ∈ skipped, ∀ k, stoul l = some k → cs[k]? = none := by
        intro h' hno
        obtain ⟨skipped, line, rest, h1, h2, h3, h4, h5, h6⟩ := ih _ h'
        refine ⟨l :: skipped, line, rest, by simp [← h1], by rw [h2], by simp; omega, h4, h5, ?_⟩
        intro x hx
        rcases List.mem_cons.mp hx with rfl | hx
        · exact hno
        · exact h6 x hx
      split at h
      · next n hn =>
        split at h
        · next hle =>
          refine next h ?_
          intro k hk
          have : k = n := Option.some.inj (hk.symm.trans hn)
          subst this
          exact List.getElem?_eq_none hle
        · next hlt =>
          injection h with h1 h2
          injection h1 with h1
          subst h1
          exact ⟨[], l, ls, rfl, h2.symm, by simp, hn, by omega, by simp⟩
      · next hn =>
        exact next h (by intro k hk; rw [hn] at hk; cases hk)

/-! ## What is said -/

theorem genCodeTlv_ok {k : ChalKind} {v : Bytes} {es : List Block} (h : genCodeTlv k [(KEY_CODE, v)] = .ok es) :
    es = [binBlock T.SelectedChallenge k.chalType, binBlock T.ParameterKey KEY_CODE, binBlock T.ParameterValue v] := by
  have : mmFind [(KEY_CODE, v)] KEY_CODE = some v := by simp [mmFind]
  unfold genCodeTlv at h
  rw [if_neg (by simp), this] at h
  injection h with h
  exact h.symm

/-- one key: the line typed -/
theorem challengeParams_line {c : Client} {r : Request} {ty key : Bytes} {m : MMap} (hst : ¬(r.status = .beforeChallenge ∧ ty = (bytes! "email")))
    (hp : (challengeParams c r ty [key]).2 = .ok m) : m = [(key, c.stdin.headD [])] := by
  unfold challengeParams at hp
  rw [if_neg (by simp), if_neg hst] at hp
  simp only [List.map_cons, List.map_nil, captureValues, getline_eq] at hp
  injection hp with hp
  exact hp.symm

/-- the address given to PROBE -/
theorem challengeParams_email {c : Client} {r : Request} {m : MMap} (hst : r.status = .beforeChallenge)
    (hp : (challengeParams c r (bytes! "email") [bytes! "email"]).2 = .ok m) :
    ∃ a x, c.captured = some a ∧ (bytes! "email", x) ∈ a ∧ m = [(bytes! "email", x)] := by
  unfold challengeParams at hp
  rw [if_neg (by simp), if_pos ⟨hst, rfl⟩] at hp
  split at hp
  · cases hp
  · next a ha =>
    split at hp
    · cases hp
    · next v hv =>
      split at hp
      · cases hp
      · next j hj =>
        have hj0 : j = 0 := by
          simp at hj
          exact hj.symm
        subst hj0
        injection hp with hp
        refine ⟨a, v, ha, ?_, by rw [← hp]; rfl⟩
        unfold mmFind at hv
        rw [Option.map_eq_some_iff] at hv
        obtain ⟨⟨e1, e2⟩, h1, rfl⟩ := hv
        have h2 := List.find?_some h1
        have h3 := List.mem_of_find?_eq_some h1
        simp only [beq_iff_eq] at h2
        subst h2
        exact h3

theorem said {k : ChalKind} {ty : Bytes} (hty : ty = k.regName) {st : Status} {cs : Bytes} {keys : List Bytes} (hkeys : requestedParams k st cs = .ok keys)
    {c : Client} {r : Request} (hst : r.status = st) {m : MMap} (hp : (challengeParams c r ty keys).2 = .ok m) {es : List Block}
    (hes : genChallengeTlv k st cs m = .ok es) : Says st cs c.stdin c.captured k es := by
  subst hst
  have hcode : ∀ k', (k' = ChalKind.pin ∨ k' = .email) → r.status = .challenge → (cs = NEED_CODE ∨ cs = WRONG_CODE) → keys = [KEY_CODE] →
      genCodeTlv k' m = .ok es → Says r.status cs c.stdin c.captured k' es := by
    intro k' hk' h1 h2 h3 h4
    subst h3
    have hm := challengeParams_line (by rw [h1]; simp) hp
    subst hm
    rw [genCodeTlv_ok h4]
    have : k'.chalType = k'.regName := by rcases hk' with rfl | rfl <;> rfl
    rw [this]
    exact .code hk' h1 h2
  cases k with
  | pin =>
    unfold requestedParams at hkeys
    unfold genChallengeTlv at hes
    dsimp only at hkeys hes
    by_cases h1 : r.status = .beforeChallenge
    · rw [if_pos h1] at hes
      injection hes with hes
      subst hes
      exact .pin h1
    · rw [if_neg h1] at hkeys hes
      split at hes
      · next h2 =>
        refine hcode .pin (.inl rfl) h2.1 h2.2 ?_ hes
        split at hkeys
        · injection hkeys with hkeys; exact hkeys.symm
        · split at hkeys
          · injection hkeys with hkeys; exact hkeys.symm
          · cases hkeys
      · cases hes
  | email =>
    unfold requestedParams at hkeys
    unfold genChallengeTlv at hes
    dsimp only at hkeys hes
    by_cases h1 : r.status = .beforeChallenge
    · rw [if_pos h1] at hes
      have hk : keys = [KEY_EMAIL] := by
        split at hkeys
        · injection hkeys with hkeys; exact hkeys.symm
        · rw [h1] at hkeys
          simp at hkeys
      subst hk
      subst hty
      obtain ⟨a, x, g1, g2, g3⟩ := challengeParams_email h1 hp
      subst g3
      have : mmFind [((bytes! "email"), x)] KEY_EMAIL = some x := by
        unfold mmFind
        have : List.find? (fun e : Bytes × Bytes => e.1 == KEY_EMAIL) [((bytes! "email"), x)] = some ((bytes! "email"), x) :=
          List.find?_cons_of_pos (by show ((bytes! "email") == KEY_EMAIL) = true; decide)
        rw [this]
        rfl
      rw [if_neg (by simp), this] at hes
      injection hes with hes
      subst hes
      exact .email h1 g1 g2
    · rw [if_neg h1] at hes
      split at hes
      · next h2 =>
        refine hcode .email (.inr rfl) h2.1 h2.2 ?_ hes
        split at hkeys
        · next h => exact absurd h.1 h1
        · split at hkeys
          · injection hkeys with hkeys; exact hkeys.symm
          · split at hkeys
            · injection hkeys with hkeys; exact hkeys.symm
            · cases hkeys
      · cases hes
  | possession =>
    unfold requestedParams at hkeys
    unfold genChallengeTlv at hes
    dsimp only at hkeys hes
    have hne : ¬(r.status = .beforeChallenge ∧ ty = (bytes! "email")) := by
      rintro ⟨_, h⟩
      rw [hty] at h
      revert h
      decide
    by_cases h1 : r.status = .beforeChallenge
    · rw [if_pos h1] at hkeys hes
      injection hkeys with hkeys
      subst hkeys
      have hm := challengeParams_line hne hp
      subst hm
      dsimp only at hes
      rw [if_pos rfl, Res.bind_eq_ok] at hes
      obtain ⟨b, hb, hes⟩ := hes
      injection hes with hes
      subst hes
      exact .credential h1 hb
    · rw [if_neg h1] at hkeys hes
      split at hkeys
      · next h2 =>
        injection hkeys with hkeys
        subst hkeys
        have hm := challengeParams_line hne hp
        subst hm
        rw [if_pos h2] at hes
        dsimp only at hes
        rw [if_pos rfl] at hes
        injection hes with hes
        subst hes
        exact .proof h2.1 h2.2
      · cases hkeys

theorem runChallenge_says {env : ClientEnv} {c : Client} {r : Request} {ty : Bytes} {q : CaProfile} {i : Interest}
    (h : .challenge q i ∈ (runChallenge C env c r ty).acts) :
    ∃ k es r', ty = k.regName ∧ Says r.status r.challengeStatus c.stdin c.captured k es ∧
      (runChallenge C env c r ty).st.request = some r' ∧ r'.status = r.status ∧ r'.challengeStatus = r.challengeStatus ∧
      r'.challengeType = ty ∧ r.SameCert r' ∧ q = r'.profile ∧ SentFor C r' i es := by
  unfold runChallenge at h ⊢
  dsimp only at h ⊢
  cases hk : createChallenge ty with
  | none =>
    have : selectOrContinueChallenge r ty = (r, .exc .runtime) := by unfold selectOrContinueChallenge; rw [hk]
    rw [this] at h
    simp at h
  | some k =>
    have hsel : selectOrContinueChallenge r ty = ({ r with challengeType := ty }, requestedParams k r.status r.challengeStatus) := by
      unfold selectOrContinueChallenge; rw [hk]
    rw [hsel] at h ⊢
    dsimp only at h ⊢
    have hty := createChallenge_some hk
    split at h
    · simp at h
    · simp at h
    · next keys hkeys =>
      generalize hy : challengeParams { c with request := some { r with challengeType := ty } } { r with challengeType := ty } ty keys = y at *
      split at h
      · simp at h
      · simp at h
      · next m hm =>
        generalize hz : genChallengeInterest C { r with challengeType := ty } m env.rnd = z at *
        split at h
        · simp at h
        · simp at h
        · next i' hi' =>
          simp only [List.mem_singleton, Act.challenge.injEq] at h
          obtain ⟨rfl, rfl⟩ := h
          obtain ⟨z1, z2⟩ := z
          dsimp only at hi'
          subst hi'
          unfold genChallengeInterest at hz
          dsimp only at hz
          split at hz
          · cases hz
          · rw [hk] at hz
            dsimp only at hz
            split at hz
            · cases hz
            · cases hz
            · next es hes =>
              generalize he : encodeAes C T.ApplicationParameters r.aesKey (encodeAll es) r.requestId r.encryptionIv env.rnd = x at *
              obtain ⟨iv, res⟩ := x
              dsimp only at hz
              split at hz
              · cases hz
              · cases hz
              · next b =>
                split at hz
                · cases hz
                · next kp hkp =>
                  injection hz with hz1 hz2
                  injection hz2 with hz2
                  subst hz1
                  obtain ⟨g1, _, g3⟩ := encodeAes_ok he
                  refine ⟨k, es, _, hty, ?_, rfl, rfl, rfl, rfl, ⟨rfl, rfl, rfl, rfl⟩, rfl, ?_, ?_⟩
                  · -- what is said
                    have := said hty hkeys (c := { c with request := some { r with challengeType := ty } }) (r := { r with challengeType := ty }) rfl
                      (m := m) (by rw [hy]; exact hm) hes
                    exact this
                  · subst hz2
                    exact ⟨_, by simp only [signedInterest, caComp, challengeComp, List.append_assoc, List.cons_append, List.nil_append]; rfl⟩
                  · subst hz2
                    refine ⟨_, g1, ?_⟩
                    rw [← g3]
                    rfl

end Ndncert
