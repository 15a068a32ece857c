import Verif.Lemmas.ClientSays

/-! # Lemmas about when the client sends what -/

namespace Ndncert

variable {C : Crypto}

/-- an act that is no PROBE, NEW, CHALLENGE or fetch -/
def Act.Quiet : Act → Prop
  | .probe _ _ => False
  | .new _ _ => False
  | .challenge _ _ => False
  | .fetch _ _ => False
  | _ => True

/-- a callback that leaves the request and the answers alone -/
structure QuietStep (c : Client) (o : ClientOut) : Prop where
  captured : o.st.captured = c.captured
  request : o.st.request = c.request
  pending : o.st.pending = c.pending ∨ (o.st.pending ≠ some .new ∧ o.st.pending ≠ some .challenge)
  acts : ∀ a ∈ o.acts, a.Quiet

theorem QuietStep.stop {c c' : Client} (h1 : c'.captured = c.captured) (h2 : c'.request = c.request) (h3 : c'.pending = c.pending) (x : Ended) :
    QuietStep c { st := c', ended := x } := ⟨h1, h2, .inl h3, by simp⟩

theorem runDiscovery_quiet {c c' : Client} (h1 : c'.captured = c.captured) (h2 : c'.request = c.request) (h3 : c'.pending = c.pending) (n full : Name) :
    QuietStep c (runDiscovery c' n full) := by
  unfold runDiscovery
  split
  · exact ⟨h1, h2, .inr (by simp), by simp [Act.Quiet]⟩
  · exact .stop h1 h2 h3 _
  · exact .stop h1 h2 h3 _

/-- what a callback is -/
inductive StepCase (C : Crypto) (env : ClientEnv) (c : Client) (e : ClientEvent) : Prop
  | quiet (h : QuietStep c (c.step C env e))
  | probe {d : Data} {w : Block} {full : Name} {p : CaProfile} {ls : List Bytes} {t : Option Cert} {acts : List Act} (event : e = .reply d w)
      (pending : c.pending = some (.info full))
      (out : c.step C env e = (runProbe C { c with stdin := ls, trusted := t } p).after acts) (quiet : ∀ a ∈ acts, a.Quiet)
  | new {d : Data} {w : Block} {q : CaProfile} {ls : List Bytes} {nm : Name} (event : e = .reply d w) (pending : c.pending = some (.probe q))
      (out : c.step C env e = runNew C env { c with stdin := ls } q nm)
  | newCb {d : Data} {w : Block} {r : Request} (event : e = .reply d w) (pending : c.pending = some .new) (request : c.request = some r)
      (out : c.step C env e = newCb C env c r d)
  | challengeCb {d : Data} {w : Block} {r : Request} (event : e = .reply d w) (pending : c.pending = some .challenge) (request : c.request = some r)
      (out : c.step C env e = challengeCb C env c r d)

theorem step_case (env : ClientEnv) (c : Client) (e : ClientEvent) : StepCase C env c e := by
  cases e with
  | signal =>
    refine .quiet ?_
    have hs : c.step C env .signal = handleSignal c := rfl
    rw [hs]
    unfold handleSignal
    split
    · exact ⟨rfl, rfl, .inl rfl, by simp⟩
    · split
      · split <;> exact ⟨rfl, rfl, .inl rfl, by simp⟩
      · split
        · split
          · split <;> exact ⟨rfl, rfl, .inl rfl, by simp⟩
          · exact ⟨rfl, rfl, .inl rfl, by simp⟩
          · exact ⟨rfl, rfl, .inl rfl, by simp⟩
        · exact ⟨rfl, rfl, .inl rfl, by simp⟩
  | nack =>
    refine .quiet ?_
    have hs : c.step C env .nack = if c.pending = Option.none then { st := c } else { st := c, ended := .exit 1 } := rfl
    rw [hs]
    split <;> exact ⟨rfl, rfl, .inl rfl, by simp⟩
  | timeout => exact .quiet ⟨rfl, rfl, .inr (by simp [Client.step]), by simp [Client.step]⟩
  | reply d w =>
    cases hpend : c.pending with
    | none =>
      have hs : c.step C env (.reply d w) = { st := c } := by unfold Client.step; rw [hpend]
      exact .quiet (hs ▸ ⟨rfl, rfl, .inl rfl, by simp⟩)
    | some aw =>
      cases aw with
      | discovery full =>
        have hs : c.step C env (.reply d w) = discoveryCb c full d := by unfold Client.step; rw [hpend]
        refine .quiet ?_
        rw [hs]
        unfold discoveryCb
        split
        · exact ⟨rfl, rfl, .inr (by simp), by simp [Act.Quiet]⟩
        · exact ⟨rfl, rfl, .inl rfl, by simp⟩
        · exact ⟨rfl, rfl, .inl rfl, by simp⟩
      | info full =>
        have hs : c.step C env (.reply d w) = infoCb C c full d := by unfold Client.step; rw [hpend]
        cases ha : acceptProfile C c full d with
        | exc x =>
          refine .quiet ?_
          rw [hs]
          unfold infoCb
          rw [ha]
          exact ⟨rfl, rfl, .inr (by simp), by simp⟩
        | ub x =>
          refine .quiet ?_
          rw [hs]
          unfold infoCb
          rw [ha]
          exact ⟨rfl, rfl, .inl rfl, by simp⟩
        | ok p =>
          by_cases ht : c.trusted = none
          · by_cases hsh : canShow C d p = true
            case neg =>
              refine .quiet ?_
              rw [hs]
              unfold infoCb
              rw [ha]
              dsimp only
              rw [if_pos ht, if_neg hsh]
              exact ⟨rfl, rfl, .inl rfl, by simp⟩
            by_cases hy : toLower (c.stdin.headD []) = (bytes! "yes")
            · refine .probe (p := p) (ls := c.stdin.tail) (t := p.cert) (acts := [.asked p (c.stdin.headD [])]) rfl hpend ?_ (by simp [Act.Quiet])
              rw [hs]
              unfold infoCb
              rw [ha]
              dsimp only
              rw [if_pos ht, if_pos hsh, getline_eq]
              dsimp only
              rw [if_pos hy]
            · refine .quiet ?_
              rw [hs]
              unfold infoCb
              rw [ha]
              dsimp only
              rw [if_pos ht, if_pos hsh, getline_eq]
              dsimp only
              rw [if_neg hy]
              exact ⟨rfl, rfl, .inl rfl, by simp [Act.Quiet]⟩
          · refine .probe (p := p) (ls := c.stdin) (t := c.trusted) (acts := []) rfl hpend ?_ (by simp)
            rw [hs]
            unfold infoCb
            rw [ha]
            dsimp only
            rw [if_neg ht]
            rfl
      | probe q =>
        have hs : c.step C env (.reply d w) = probeCb C env c q d := by unfold Client.step; rw [hpend]
        cases ho : onProbeResponse C d q [] [] with
        | exc x =>
          refine .quiet ?_
          rw [hs]
          unfold probeCb
          rw [ho]
          exact ⟨rfl, rfl, .inl rfl, by simp⟩
        | ub x =>
          refine .quiet ?_
          rw [hs]
          unfold probeCb
          rw [ho]
          exact ⟨rfl, rfl, .inl rfl, by simp⟩
        | ok x =>
          obtain ⟨names, rs⟩ := x
          by_cases hrs : rs ≠ []
          · refine .quiet ?_
            rw [hs]
            unfold probeCb
            rw [ho]
            dsimp only
            rw [if_pos hrs]
            obtain ⟨⟨ls, hl⟩, _⟩ := chooseRedirect_spec c rs
            split
            · next c1 x hc =>
              rw [hc] at hl
              dsimp only at hl
              subst hl
              exact ⟨rfl, rfl, .inl rfl, by simp⟩
            · next c1 full hc =>
              rw [hc] at hl
              dsimp only at hl
              subst hl
              split
              · exact runDiscovery_quiet (c := c) (c' := { c with stdin := ls }) rfl rfl rfl _ _
              · exact ⟨rfl, rfl, .inl rfl, by simp⟩
              · exact ⟨rfl, rfl, .inl rfl, by simp⟩
          · obtain ⟨ls, hl⟩ := chooseName_same c names
            cases hn : chooseName c names with
            | mk c1 o =>
              rw [hn] at hl
              dsimp only at hl
              subst hl
              cases o with
              | none =>
                refine .quiet ?_
                rw [hs]
                unfold probeCb
                rw [ho]
                dsimp only
                rw [if_neg hrs, hn]
                exact ⟨rfl, rfl, .inl rfl, by simp⟩
              | some nm =>
                refine .new (q := q) (ls := ls) (nm := nm) rfl hpend ?_
                rw [hs]
                unfold probeCb
                rw [ho]
                dsimp only
                rw [if_neg hrs, hn]
      | new =>
        cases hreq : c.request with
        | none =>
          have hs : c.step C env (.reply d w) = { st := c, ended := .ub .nullDeref } := by unfold Client.step; rw [hpend, hreq]
          exact .quiet (hs ▸ ⟨rfl, rfl, .inl rfl, by simp⟩)
        | some r => exact .newCb rfl hpend hreq (by unfold Client.step; rw [hpend, hreq])
      | challenge =>
        cases hreq : c.request with
        | none =>
          have hs : c.step C env (.reply d w) = { st := c, ended := .ub .nullDeref } := by unfold Client.step; rw [hpend, hreq]
          exact .quiet (hs ▸ ⟨rfl, rfl, .inl rfl, by simp⟩)
        | some r => exact .challengeCb rfl hpend hreq (by unfold Client.step; rw [hpend, hreq])
      | fetch =>
        have hs : c.step C env (.reply d w) = certFetchCb C c w := by unfold Client.step; rw [hpend]
        refine .quiet ?_
        rw [hs]
        unfold certFetchCb
        split
        · exact ⟨rfl, rfl, .inl rfl, by simp⟩
        · exact ⟨rfl, rfl, .inl rfl, by simp⟩
        · split
          · exact ⟨rfl, rfl, .inr (by simp), by simp [Act.Quiet]⟩
          · exact ⟨rfl, rfl, .inl rfl, by simp⟩

theorem runNew_acts (env : ClientEnv) (c : Client) (p : CaProfile) (id : Name) : ∀ a ∈ (runNew C env c p id).acts, ∃ q i, a = .new q i := by
  unfold runNew
  split
  · simp
  · unfold runNewWith
    dsimp only
    split
    · simp
    · next c2 e k _ =>
      generalize (if c2.newIdentity = [] then captureKeyName c2 e env.keyIds2 else (c2, Sum.inr k)) = y
      split
      · simp
      · split
        · simp
        · split
          · simp
          · simp
          · simp
          · simp

/-- CHALLENGE is sent when a NEW or CHALLENGE reply arrives -/
theorem step_challenge {env : ClientEnv} {c : Client} {e : ClientEvent} {p : CaProfile} {i : Interest} (h : .challenge p i ∈ (c.step C env e).acts) :
    ∃ d w r, e = .reply d w ∧ c.request = some r ∧
      ((c.pending = some .new ∧ .challenge p i ∈ (newCb C env c r d).acts) ∨
       (c.pending = some .challenge ∧ .challenge p i ∈ (challengeCb C env c r d).acts)) := by
  cases step_case (C := C) env c e with
  | quiet hq => exact absurd (hq.acts _ h) (by simp [Act.Quiet])
  | probe _ _ out quiet =>
    rw [out] at h
    simp only [ClientOut.after, runProbe, List.mem_append, List.mem_singleton] at h
    rcases h with h | h
    · exact absurd (quiet _ h) (by simp [Act.Quiet])
    · cases h
  | @new d w q ls nm _ _ out =>
    rw [out] at h
    obtain ⟨_, _, h⟩ := runNew_acts _ _ _ _ _ h
    cases h
  | newCb h1 h2 h3 out => exact ⟨_, _, _, h1, h3, .inl ⟨h2, out ▸ h⟩⟩
  | challengeCb h1 h2 h3 out => exact ⟨_, _, _, h1, h3, .inr ⟨h2, out ▸ h⟩⟩

/-- a certificate is fetched when a CHALLENGE reply arrives -/
theorem step_fetch {env : ClientEnv} {c : Client} {e : ClientEvent} {n : Name} {hint : Option Name} (h : .fetch n hint ∈ (c.step C env e).acts) :
    ∃ d w r, e = .reply d w ∧ c.pending = some .challenge ∧ c.request = some r ∧ (onChallengeResponse C r d env.now).2 = .ok () ∧
      (onChallengeResponse C r d env.now).1.status = .success ∧ n = (onChallengeResponse C r d env.now).1.issuedCertName := by
  cases step_case (C := C) env c e with
  | quiet hq => exact absurd (hq.acts _ h) (by simp [Act.Quiet])
  | probe _ _ out quiet =>
    rw [out] at h
    simp only [ClientOut.after, runProbe, List.mem_append, List.mem_singleton] at h
    rcases h with h | h
    · exact absurd (quiet _ h) (by simp [Act.Quiet])
    · cases h
  | @new d w q ls nm _ _ out =>
    rw [out] at h
    obtain ⟨_, _, h⟩ := runNew_acts _ _ _ _ _ h
    cases h
  | newCb _ _ _ out =>
    rw [out] at h
    obtain ⟨_, _, h⟩ := newCb_acts _ _ _ _ _ h
    cases h
  | @challengeCb d w r h1 h2 h3 out =>
    refine ⟨d, w, r, h1, h2, h3, ?_⟩
    rw [out] at h
    unfold Ndncert.challengeCb at h
    dsimp only at h
    generalize onChallengeResponse C r d env.now = x at *
    split at h
    · simp at h
    · simp at h
    · next hx =>
      split at h
      · next hst =>
        refine ⟨hx, hst, ?_⟩
        simp only [genCertFetchInterest, List.mem_singleton, Act.fetch.injEq] at h
        exact h.1
      · obtain ⟨_, _, h⟩ := runChallenge_acts _ _ _ _ _ h
        cases h

/-! ## What is said in CHALLENGE -/

theorem onNew_status (C : Crypto) (r : Request) (d : Data) (s : Bytes) : (onNewResponse C r d s).1.status = r.status := by
  unfold onNewResponse
  split
  · rfl
  · rfl
  · dsimp only
    split
    · rfl
    · rfl
    · split <;> rfl

theorem newCb_says {env : ClientEnv} {c : Client} {r : Request} {d : Data} {q : CaProfile} {i : Interest} (h : .challenge q i ∈ (newCb C env c r d).acts) :
    ∃ offered k lines es r', Offers d offered ∧ (∃ t, r.profile.cert = some t ∧ C.verifyData d t = true) ∧ Picked offered c.stdin k.regName lines ∧
      Says r'.status r'.challengeStatus lines c.captured k es ∧ (newCb C env c r d).st.request = some r' ∧ r'.status = r.status ∧
      r'.profile = r.profile ∧ q = r'.profile ∧ SentFor C r' i es := by
  unfold newCb at h ⊢
  dsimp only at h ⊢
  have hp := onNew_profile C r d env.stack
  have hst := onNew_status C r d env.stack
  have ho := @onNewResponse_offers C r d env.stack
  generalize onNewResponse C r d env.stack = x at *
  obtain ⟨r1, res⟩ := x
  dsimp only at h hp ho hst ⊢
  cases res with
  | exc e => simp at h
  | ub u => simp at h
  | ok offered =>
    obtain ⟨ho, hv⟩ := ho rfl
    dsimp only at h ⊢
    split at h
    · simp at h
    · next hne =>
      rw [if_neg hne]
      split at h
      · next hem =>
        rw [if_pos hem]
        obtain ⟨k, es, r', g1, g2, g3, g4, g5, g6, g7, g8, g9⟩ := runChallenge_says h
        have hmem : (bytes! "email") ∈ offered := List.contains_iff_mem.mp hem
        exact ⟨offered, k, c.stdin, es, r', ho, hv, g1 ▸ .email hmem, by rw [g4, g5]; exact g2, g3, g4.trans hst, g7.profile.trans hp, g8, g9⟩
      · next hem =>
        rw [if_neg hem]
        split at h
        · simp at h
        · next j c2 hc =>
          obtain ⟨skipped, line, rest, k1, k2, k3, k4, k5, k6⟩ := captureIndex_picked offered 3 { c with request := some r1 } hc
          subst k2
          obtain ⟨k, es, r', g1, g2, g3, g4, g5, g6, g7, g8, g9⟩ := runChallenge_says h
          have hmem : (bytes! "email") ∉ offered := fun hm => hem (List.contains_iff_mem.mpr hm)
          refine ⟨offered, k, rest, es, r', ho, hv, .typed hmem k1 (by omega) ((stoul_iff _ _).mp k4) ?_ (fun l hl k hk => k6 l hl k ((stoul_iff _ _).mpr hk)), by rw [g4, g5]; exact g2, g3, g4.trans hst, g7.profile.trans hp, g8, g9⟩
          rw [← g1, List.getElem?_eq_getElem k5]
          rfl

theorem challengeCb_says {env : ClientEnv} {c : Client} {r : Request} {d : Data} {q : CaProfile} {i : Interest} (h : .challenge q i ∈ (challengeCb C env c r d).acts) :
    ∃ k es r', (onChallengeResponse C r d env.now).2 = .ok () ∧ r'.status = (onChallengeResponse C r d env.now).1.status ∧ r'.status ≠ .success ∧
      r.challengeType = k.regName ∧
      Says r'.status r'.challengeStatus c.stdin c.captured k es ∧ (challengeCb C env c r d).st.request = some r' ∧
      r'.profile = r.profile ∧ r'.aesKey = r.aesKey ∧ r'.requestId = r.requestId ∧ q = r'.profile ∧ SentFor C r' i es := by
  unfold challengeCb at h ⊢
  dsimp only at h ⊢
  have hf := onChallengeResponse_frame C r d env.now
  have he := onChallengeResponse_effect C r d env.now
  generalize onChallengeResponse C r d env.now = x at *
  obtain ⟨r1, res⟩ := x
  dsimp only at h hf he ⊢
  cases res with
  | exc e => simp at h
  | ub u => simp at h
  | ok u =>
    dsimp only at h ⊢
    rcases he with ⟨_, he⟩ | ⟨_, _, _, _, _, _, _, he⟩
    · exact absurd rfl (he u)
    split at h
    · simp at h
    · next hns =>
      rw [if_neg hns]
      obtain ⟨k, es, r', g1, g2, g3, g4, g5, g6, g7, g8, g9⟩ := runChallenge_says h
      exact ⟨k, es, r', rfl, g4, by rw [g4]; exact hns, hf.challengeType ▸ g1, by rw [g4, g5]; exact g2, g3, g7.profile.trans he.profile,
        g7.aesKey.trans he.aesKey, g7.requestId.trans he.requestId, g8, g9⟩

/-! ## Invariant of the runs -/

/-- the answers are those sent in a PROBE, and a request for which NEW was sent is not in a challenge -/
structure TalkInv (h : List ClientStep) (c : Client) : Prop where
  captured : ∀ m, c.captured = some m → ∃ q j, Did h (.probe q j) ∧ CarriesAnswers j m
  fresh : c.pending = some .new → ∀ r, c.request = some r → r.status = .beforeChallenge

theorem genNew_status (C : Crypto) (r : Request) (k : Name) (nb na : Time) (v : Block) :
    (genNewInterest C r k nb na v).1.status = r.status := by
  unfold genNewInterest
  split
  · rfl
  · split
    · rfl
    · split
      · rfl
      · rfl
      · split <;> rfl

theorem runNew_fresh {env : ClientEnv} {c : Client} {p : CaProfile} {id : Name} (hp : c.pending ≠ some .new)
    (h : (runNew C env c p id).st.pending = some .new) {r : Request} (hr : (runNew C env c p id).st.request = some r) : r.status = .beforeChallenge := by
  unfold runNew at h hr
  obtain ⟨ls, hl⟩ := captureValidity_same 3 c
  generalize captureValidity 3 c = x at *
  obtain ⟨o, c1⟩ := x
  dsimp only at hl
  subst hl
  cases o with
  | none => exact absurd h hp
  | some hrs =>
    dsimp only at h hr
    unfold runNewWith at h hr
    dsimp only at h hr
    generalize hpk : prepareKey _ id env.keyIds = y at *
    cases y with
    | none => exact absurd h hp
    | some y =>
      obtain ⟨c2, e, k⟩ := y
      have a3 := (prepareKey_like hpk).1
      dsimp only at h hr
      have hb : ∃ c3 chosen, (if c2.newIdentity = [] then captureKeyName c2 e env.keyIds2 else (c2, Sum.inr k)) = (c3, chosen) ∧
          c3.pending = c2.pending := by
        split
        · exact ⟨(captureKeyName c2 e env.keyIds2).1, (captureKeyName c2 e env.keyIds2).2, rfl, (captureKeyName_like _ _ _).1.2.1⟩
        · exact ⟨_, _, rfl, rfl⟩
      obtain ⟨c3, chosen, heq, b3⟩ := hb
      rw [heq] at h hr
      dsimp only at h hr
      have hp3 : c3.pending ≠ some .new := by rw [b3, a3.2.1]; exact hp
      cases chosen with
      | inl x => exact absurd h hp3
      | inr key =>
        dsimp only at h hr
        cases hah : addHours env.now hrs with
        | none => rw [hah] at h; exact absurd h hp3
        | some na =>
          rw [hah] at h hr
          dsimp only at h hr
          have hst := genNew_status C { profile := p, type := .new, requestId := env.memId, ecdhPriv := env.ecdhPriv, aesKey := env.memKey, nonce := env.memNonce }
            key env.now na env.version
          generalize genNewInterest C _ key env.now na env.version = z at *
          obtain ⟨r1, res⟩ := z
          dsimp only at h hr hst
          cases res with
          | exc x => exact absurd h hp3
          | ub x => exact absurd h hp3
          | ok o =>
            cases o with
            | none => cases h
            | some i =>
              injection hr with hr
              subst hr
              exact hst

theorem genChallenge_status (C : Crypto) (r : Request) (m : MMap) (rnd : Bytes) : (genChallengeInterest C r m rnd).1.status = r.status := by
  unfold genChallengeInterest
  split
  · rfl
  · split
    · rfl
    · split
      · rfl
      · rfl
      · dsimp only
        split
        · rfl
        · rfl
        · split <;> rfl

theorem select_status (r : Request) (ty : Bytes) : (selectOrContinueChallenge r ty).1.status = r.status := by
  unfold selectOrContinueChallenge
  split <;> rfl

theorem runChallenge_fresh {env : ClientEnv} {c : Client} {r : Request} {ty : Bytes} (hst : r.status = .beforeChallenge)
    (h : (runChallenge C env c r ty).st.pending = some .new) {r' : Request} (hr : (runChallenge C env c r ty).st.request = some r') :
    r'.status = .beforeChallenge := by
  unfold runChallenge at h hr
  dsimp only at h hr
  have h1 := select_status r ty
  generalize selectOrContinueChallenge r ty = x at *
  obtain ⟨r1, res⟩ := x
  dsimp only at h hr h1
  have stop : some r1 = some r' → r'.status = .beforeChallenge := by
    intro e
    injection e with e
    rw [← e, h1, hst]
  cases res with
  | exc e => exact stop hr
  | ub e => exact stop hr
  | ok keys =>
    dsimp only at h hr
    obtain ⟨ls, h2⟩ := challengeParams_same { c with request := some r1 } r1 ty keys
    generalize challengeParams { c with request := some r1 } r1 ty keys = y at *
    obtain ⟨c2, res⟩ := y
    dsimp only at h hr h2
    subst h2
    cases res with
    | exc e => exact stop hr
    | ub e => exact stop hr
    | ok m =>
      dsimp only at h hr
      have h3 := genChallenge_status C r1 m env.rnd
      generalize genChallengeInterest C r1 m env.rnd = z at *
      obtain ⟨r2, res⟩ := z
      dsimp only at h hr h3
      have stop2 : some r2 = some r' → r'.status = .beforeChallenge := by
        intro e
        injection e with e
        rw [← e, h3, h1, hst]
      cases res with
      | exc e => exact stop2 hr
      | ub e => exact stop2 hr
      | ok i => exact stop2 hr

theorem newCb_fresh {env : ClientEnv} {c : Client} {r : Request} {d : Data} (hst : r.status = .beforeChallenge)
    (h : (newCb C env c r d).st.pending = some .new) {r' : Request} (hr : (newCb C env c r d).st.request = some r') :
    r'.status = .beforeChallenge := by
  unfold newCb at h hr
  dsimp only at h hr
  have h1 := onNew_status C r d env.stack
  generalize onNewResponse C r d env.stack = x at *
  obtain ⟨r1, res⟩ := x
  dsimp only at h hr h1
  have stop : some r1 = some r' → r'.status = .beforeChallenge := by
    intro e
    injection e with e
    rw [← e, h1, hst]
  cases res with
  | exc e => exact stop hr
  | ub e => exact stop hr
  | ok cs =>
    dsimp only at h hr
    by_cases h0 : cs = []
    · rw [if_pos h0] at hr
      exact stop hr
    · rw [if_neg h0] at h hr
      split at h
      · next he =>
        rw [if_pos he] at hr
        exact runChallenge_fresh (h1.trans hst) h hr
      · next he =>
        rw [if_neg he] at hr
        obtain ⟨ls, h2⟩ := captureIndex_same cs.length 3 { c with request := some r1 }
        generalize captureIndex cs.length 3 { c with request := some r1 } = y at *
        obtain ⟨o, c2⟩ := y
        dsimp only at h hr h2
        subst h2
        cases o with
        | none => exact stop hr
        | some j => exact runChallenge_fresh (h1.trans hst) h hr

theorem TalkInv.step {h : List ClientStep} {c : Client} (hi : TalkInv h c) (e : ClientEvent) (env : ClientEnv) :
    TalkInv (h ++ [⟨e, env, (c.step C env e).acts, (c.step C env e).ended⟩]) (c.step C env e).st := by
  have hcap : ∀ m, c.captured = some m → ∃ q j, Did (h ++ [⟨e, env, (c.step C env e).acts, (c.step C env e).ended⟩]) (.probe q j) ∧ CarriesAnswers j m := by
    intro m hm
    obtain ⟨q, j, h1, h2⟩ := hi.captured m hm
    exact ⟨q, j, h1.mono, h2⟩
  cases step_case (C := C) env c e with
  | quiet hq =>
    refine ⟨hq.captured ▸ hcap, ?_⟩
    rw [hq.request]
    rcases hq.pending with h | h
    · rw [h]; exact hi.fresh
    · exact fun h' => absurd h' h.1
  | @probe d w full p ls t acts _ hpend out _ =>
    rw [out]
    refine ⟨?_, by simp [ClientOut.after, runProbe]⟩
    intro m hm
    have h3 := (probeParams_same { c with stdin := ls, trusted := t } p).2.2
    have hm' : (probeParams { c with stdin := ls, trusted := t } p).2.captured = some m := hm
    rw [h3] at hm'
    injection hm' with hm'
    refine ⟨p, genProbeInterest C p m, ⟨_, List.mem_append_right _ (List.mem_singleton.mpr rfl), ?_⟩, rfl⟩
    simp only [ClientOut.after, runProbe, hm', List.mem_append, List.mem_singleton, or_true]
  | @new d w q ls nm _ hpend out =>
    rw [out]
    have hk := runNew_keeps C env { c with stdin := ls } q nm
    refine ⟨?_, ?_⟩
    · rw [hk.captured, ← out]; exact hcap
    · exact fun hp r hr => runNew_fresh (by rw [hpend]; simp) hp hr
  | @newCb d w r _ hpend hreq out =>
    rw [out]
    have hk := newCb_keeps C env c r d
    refine ⟨?_, ?_⟩
    · rw [hk.captured, ← out]; exact hcap
    · intro hp r' hr'
      exact newCb_fresh (hi.fresh hpend r hreq) hp hr'
  | @challengeCb d w r _ hpend hreq out =>
    rw [out]
    have hk := challengeCb_keeps C env c r d
    refine ⟨?_, ?_⟩
    · rw [hk.captured, ← out]; exact hcap
    · intro hp r' hr'
      obtain ⟨_, _, _, (g | g) | ⟨g, _⟩⟩ := challengeCb_fetch C env c r d
      · rw [g, hpend] at hp; cases hp
      · rw [g] at hp; cases hp
      · rw [g] at hp; cases hp

variable {T : TextIO} {file : Bytes} {pib : Pib} {stdin : List Bytes}

theorem ClientRun.talkInv {first : List Act} {h : List ClientStep} {c : Client} {x : Ended} (run : ClientRun C T file pib stdin first h c x) :
    TalkInv h c := by
  induction run with
  | start o e =>
    have hs := e ▸ selectCaProfile_started T file { pib := pib, stdin := stdin }
    refine ⟨?_, ?_⟩
    · intro m hm
      rw [hs.captured] at hm
      cases hm
    · intro _ r hr
      rw [hs.request] at hr
      cases hr
  | step e env run o eo ih => exact eo ▸ ih.step e env

end Ndncert
