import Verif.Lemmas.Tools
import Verif.Lemmas.ClientSays
import Verif.Lemmas.ClientFetch

namespace Ndncert

variable {σ : Type} {C : Crypto} {S : StoreI σ} {Inv : σ → Prop} {cfg : CaConfig}

theorem challengeTurn_inv {x y : Session σ} {sel typed : Bytes} {t : Turn} (h : challengeTurn C S cfg x sel typed t = some y) :
    ∃ q1 keys q2 i s' es d q3, selectOrContinueChallenge x.requester sel = (q1, .ok keys) ∧
      genChallengeInterest C q1 (keys.map fun k => (k, typed)) t.rnd = (q2, .ok i) ∧
      answer C S cfg (serve C S cfg x.ca t.others) (.challenge i) t.env = some (s', es, d) ∧
      onChallengeResponse C q2 d t.clock = (q3, .ok ()) ∧ y = ⟨q3, s', x.done ++ es⟩ := by
  unfold challengeTurn at h
  dsimp only at h
  split at h
  · next q keys hsel =>
    split at h
    · next q' i hgen =>
      split at h
      · next s' es d hans =>
        split at h
        · next q'' hresp =>
          cases h
          exact ⟨_, _, _, _, _, _, _, _, hsel, hgen, hans, hresp, rfl⟩
        · cases h
      · cases h
    · cases h
  · cases h

theorem newTurn_inv {x y : Session σ} {key : Name} {nb na : Time} {version : Block} {stack : Bytes} {t : Turn} {offered : List Bytes}
    (h : newTurn C S cfg x key nb na version stack t = some (y, offered)) :
    ∃ q i s' es d q', genNewInterest C x.requester key nb na version = (q, .ok (some i)) ∧
      answer C S cfg (serve C S cfg x.ca t.others) (.new i) t.env = some (s', es, d) ∧
      onNewResponse C q d stack = (q', .ok offered) ∧ y = ⟨q', s', x.done ++ es⟩ := by
  unfold newTurn at h
  dsimp only at h
  split at h
  · next q i hgen =>
    split at h
    · next s' es d hans =>
      split at h
      · next q'' o hresp =>
        cases h
        exact ⟨_, _, _, _, _, _, hgen, hans, hresp, rfl⟩
      · cases h
    · cases h
  · cases h

theorem select_eq {q q1 : Request} {sel : Bytes} {keys : List Bytes} (h : selectOrContinueChallenge q sel = (q1, .ok keys)) :
    q1 = { q with challengeType := sel } := by
  unfold selectOrContinueChallenge at h
  split at h
  · cases h
  · injection h with h1 _; exact h1.symm

theorem genChallenge_eq {q q2 : Request} {m : MMap} {rnd : Bytes} {i : Interest} (h : genChallengeInterest C q m rnd = (q2, .ok i)) :
    (∃ iv, q2 = { q with encryptionIv := iv }) ∧ ∃ d, i.name = q.profile.caPrefix ++ [caComp, challengeComp, gcomp q.requestId, ⟨2, d⟩] := by
  unfold genChallengeInterest at h
  split at h
  · cases h
  split at h
  · cases h
  split at h
  · cases h
  · cases h
  dsimp only at h
  split at h
  · cases h
  · cases h
  split at h
  · cases h
  · injection h with h1 h2
    injection h2 with h2
    refine ⟨⟨_, h1.symm⟩, ?_⟩
    rw [← h2]
    unfold signedInterest
    exact ⟨_, by dsimp only; rw [List.append_assoc]; rfl⟩

/-- `challengeTurn` seen from the client: its CHALLENGE, the answer and the callback -/
theorem exchange_challenge {x : Tools σ} {e : Exchange} {prev : ClientEnv} {c c2 : Client} {q : Request} {sel typed : Bytes} {y : Session σ}
    (hl : survives C S cfg x.ca e.others = true) (hm : Marked x.server) {v : Block} (hv : v.typ = 54)
    (hp : x.server.profile.name = profileDataName cfg.profile v) (hpre : q.profile.caPrefix = cfg.profile.caPrefix) (hid : q.requestId.length = 8)
    (hout : x.out = runChallenge C prev c q sel)
    (hpar : ∀ keys, (selectOrContinueChallenge q sel).2 = .ok keys →
      challengeParams { c with request := some { q with challengeType := sel } } { q with challengeType := sel } sel keys =
        (c2, .ok (keys.map fun k => (k, typed))))
    (ht : challengeTurn C S cfg ⟨q, x.ca, x.done⟩ sel typed (e.turn prev) = some y) :
    ∃ es x' c3, exchange C S cfg x e = .ok x' ∧ x'.ca = y.ca ∧ x'.done = y.done ∧ y.done = x.done ++ es ∧ Marked x'.server ∧
      x'.server.profile = x.server.profile ∧ x'.server = (listen C S cfg x.ca x.server e.others).hears es ∧
      c3.stdin = c2.stdin ∧ c3.pib = c2.pib ∧ c3.captured = c2.captured ∧ y.requester.challengeType = sel ∧
      x'.out = (if y.requester.status = .success then
          { st := { c3 with pending := some .fetch }, acts := [.fetch (genCertFetchInterest y.requester).1 (genCertFetchInterest y.requester).2] }
        else runChallenge C e.client c3 y.requester y.requester.challengeType) := by
  obtain ⟨q1, keys, q2, i, s', es, d, q3, h1, h2, h3, h4, rfl⟩ := challengeTurn_inv ht
  dsimp only at h1
  have hq1 := select_eq h1
  subst hq1
  have hout' : x.out = { st := { { c2 with request := some q2 } with pending := some .challenge }, acts := [.challenge q2.profile i] } := by
    rw [hout]
    unfold runChallenge
    dsimp only
    rw [h1]
    dsimp only
    rw [hpar keys (by rw [h1])]
    dsimp only
    have h2' : genChallengeInterest C { q with challengeType := sel } (keys.map fun k => (k, typed)) prev.rnd = (q2, .ok i) := h2
    rw [h2']
  obtain ⟨⟨iv, hq2⟩, dg, hname⟩ := genChallenge_eq h2
  have hdisp : dispatch cfg.profile i.name = [.challenge] := by
    refine dispatch_of ⟨[gcomp q.requestId, ⟨2, dg⟩], ?_⟩
    rw [hname, hpre]
    simp [Handler.words, caComp, challengeComp]
  have hown : Own i := by
    refine ⟨q.profile.caPrefix ++ [caComp, challengeComp], gcomp q.requestId, dg, by rw [hname]; simp, ?_⟩
    intro h
    have : (gcomp q.requestId).val.length = ndncertComponent.val.length := congrArg (fun b => b.val.length) h
    have h7 : ndncertComponent.val.length = 7 := by decide
    rw [h7] at this
    simp only [gcomp] at this
    omega
  have hex := exchange_of (C := C) (S := S) (cfg := cfg) (x := x) (e := e) (i := i) (a := .challenge q2.profile i) (h := .challenge) (m := .challenge i)
    (s' := s') (es := es) (d := d) hl hm hv hp (by rw [hout']) (by rw [hout']; rfl) (by intro n; simp) rfl hown hdisp rfl h3
  obtain ⟨l1, l2⟩ := listen_marked (C := C) (S := S) (cfg := cfg) e.others x.ca hm
  obtain ⟨_, _, _, hes, _⟩ := handle_named h3
  refine ⟨es, _, { c2 with request := some q3, pending := some .challenge }, hex, rfl, rfl, rfl, ?_, (hears_cache _ _).2.trans l2, rfl, rfl, rfl, rfl, ?_, ?_⟩
  · show Marked (Server.hears _ es)
    rw [hes]
    exact hears_marked l1 _ _ _
  · have h5 := (onChallengeResponse_frame C q2 d e.client.now).challengeType
    have h4' : onChallengeResponse C q2 d e.client.now = (q3, .ok ()) := h4
    rw [h4', hq2] at h5
    exact h5
  · show Client.step C e.client x.out.st (.reply d e.packet) = _
    rw [hout']
    show challengeCb C e.client _ q2 d = _
    unfold challengeCb
    dsimp only
    have h4' : onChallengeResponse C q2 d e.client.now = (q3, .ok ()) := h4
    rw [h4']

/-- the index is read if it is typed in time -/
theorem captureIndex_typed (n : Nat) {line : Bytes} {rest : List Bytes} {j : Nat} (hj : stoul line = some j) (hn : j < n)
    (skipped : List Bytes) (t : Nat) (c : Client) (hs : c.stdin = skipped ++ line :: rest) (ht : skipped.length < t)
    (hno : ∀ l ∈ skipped, ∀ k, stoul l = some k → n ≤ k) : captureIndex n t c = (some j, { c with stdin := rest }) := by
  induction skipped generalizing t c with
  | nil =>
    obtain ⟨t, rfl⟩ : ∃ t', t = t' + 1 := ⟨t - 1, by simp at ht; omega⟩
    unfold captureIndex
    rw [getline_eq, hs]
    dsimp only [List.nil_append, List.headD_cons, List.tail_cons]
    rw [hj]
    dsimp only
    rw [if_neg (by omega)]
  | cons l skipped ih =>
    obtain ⟨t, rfl⟩ : ∃ t', t = t' + 1 := ⟨t - 1, by simp at ht; omega⟩
    have ih := ih t { c with stdin := skipped ++ line :: rest } rfl (by simp at ht; omega) (fun l hl => hno l (List.mem_cons_of_mem _ hl))
    unfold captureIndex
    rw [getline_eq, hs]
    dsimp only [List.cons_append, List.headD_cons, List.tail_cons]
    cases hk : stoul l with
    | some k =>
      dsimp only
      rw [if_pos (hno l (List.mem_cons_self ..) k hk)]
      exact ih
    | none => exact ih

/-- `newTurn` seen from the client -/
theorem exchange_new {x : Tools σ} {e : Exchange} {q q1 : Request} {key : Name} {nb na : Time} {version : Block} {y : Session σ} {offered : List Bytes}
    {i : Interest} {p : CaProfile} {rest : List Bytes} {ty : Bytes}
    (hl : survives C S cfg x.ca e.others = true) (hm : Marked x.server) {v : Block} (hv : v.typ = 54)
    (hp : x.server.profile.name = profileDataName cfg.profile v) (hpre : q.profile.caPrefix = cfg.profile.caPrefix) {t : Turn}
    (hte : t.env = e.env) (hto : t.others = e.others)
    (ht : newTurn C S cfg ⟨q, x.ca, x.done⟩ key nb na version e.client.stack t = some (y, offered))
    (hgen : genNewInterest C q key nb na version = (q1, .ok (some i)))
    (hg : x.out.ended = .going) (ha : x.out.acts = [.new p i]) (hpend : x.out.st.pending = some .new) (hreq : x.out.st.request = some q1)
    (hpick : Picked offered x.out.st.stdin ty rest) :
    ∃ es x' c3, exchange C S cfg x e = .ok x' ∧ x'.ca = y.ca ∧ x'.done = y.done ∧ y.done = x.done ++ es ∧ Marked x'.server ∧
      x'.server.profile = x.server.profile ∧
      c3.stdin = rest ∧ c3.pib = x.out.st.pib ∧ c3.captured = x.out.st.captured ∧
      x'.out = runChallenge C e.client c3 y.requester ty := by
  obtain ⟨q', i', s', es, d, q2, h1, h2, h3, rfl⟩ := newTurn_inv ht
  dsimp only at h1 h2
  rw [hgen] at h1
  cases h1
  rw [hto, hte] at h2
  obtain ⟨_, _, _, _, _, _, hi⟩ := genNewInterest_ok hgen
  have hname : ∃ dg, i.name = cfg.profile.caPrefix ++ [caComp, newComp, ⟨2, dg⟩] := by
    rw [hi, ← hpre]
    unfold signedInterest
    exact ⟨_, by dsimp only; rw [List.append_assoc]; rfl⟩
  obtain ⟨dg, hname⟩ := hname
  have hdisp : dispatch cfg.profile i.name = [.new] := by
    refine dispatch_of ⟨[⟨2, dg⟩], ?_⟩
    rw [hname]
    simp [Handler.words, caComp, newComp]
  have hown : Own i := ⟨cfg.profile.caPrefix ++ [caComp], newComp, dg, by rw [hname]; simp, by decide⟩
  have hex := exchange_of (C := C) (S := S) (cfg := cfg) (x := x) (e := e) (i := i) (a := .new p i) (h := .new) (m := .new i)
    (s' := s') (es := es) (d := d) hl hm hv hp hg (by rw [ha]; rfl) (by intro n; simp) rfl hown hdisp rfl h2
  obtain ⟨l1, l2⟩ := listen_marked (C := C) (S := S) (cfg := cfg) e.others x.ca hm
  obtain ⟨_, _, _, hes, _⟩ := handle_named h2
  refine ⟨es, _, { x.out.st with
      request := some q2, stdin := rest }, hex, rfl, rfl, rfl, ?_, (hears_cache _ _).2.trans l2, rfl, rfl, rfl, ?_⟩
  · show Marked (Server.hears _ es)
    rw [hes]
    exact hears_marked l1 _ _ _
  · show Client.step C e.client x.out.st (.reply d e.packet) = _
    generalize x.out.st = c at *
    obtain ⟨tr, cap, rq, ni, nk, pib, stdin, pend⟩ := c
    dsimp only at hpend hreq hpick ⊢
    subst hpend
    subst hreq
    show newCb C e.client _ q1 d = _
    unfold newCb
    dsimp only
    rw [h3]
    dsimp only
    cases hpick with
    | email hoff =>
      rw [if_neg (by intro h0; rw [h0] at hoff; cases hoff), if_pos (by simpa using hoff)]
    | @typed skipped rest line ty j hno hnext htries hnum hoff hsk =>
      have hj : j < offered.length := by
        rcases Nat.lt_or_ge j offered.length with h0 | h0
        · exact h0
        · rw [List.getElem?_eq_none h0] at hoff; cases hoff
      rw [if_neg (by intro h0; rw [h0] at hj; exact absurd hj (by simp)), if_neg (by simpa using hno)]
      rw [captureIndex_typed offered.length ((stoul_iff _ _).mpr hnum) hj skipped 3 ⟨tr, cap, some q2, ni, nk, pib, stdin, some .new⟩ hnext (by omega) (fun l hl k hk => by
        have := hsk l hl k ((stoul_iff _ _).mp hk)
        rcases Nat.lt_or_ge k offered.length with h0 | h0
        · rw [List.getElem?_eq_getElem h0] at this; cases this
        · exact h0)]
      dsimp only
      rw [hoff]
      rfl

/-! ## The code -/

theorem params_code {c : Client} {q : Request} {sel typed : Bytes} {rest : List Bytes} {k : ChalKind} (hk : k = .pin ∨ k = .email) (hsel : sel = k.regName)
    (hq : q.status = .challenge) (hcs : q.challengeStatus = NEED_CODE ∨ q.challengeStatus = WRONG_CODE) (hs : c.stdin = typed :: rest) {keys : List Bytes}
    (h : (selectOrContinueChallenge q sel).2 = .ok keys) :
    challengeParams { c with request := some { q with challengeType := sel } } { q with challengeType := sel } sel keys =
      ({ { c with request := some { q with challengeType := sel } } with stdin := rest }, .ok (keys.map fun k => (k, typed))) := by
  have h1 := (code_prompts hk (typed := typed) hcs).1
  unfold selectOrContinueChallenge at h
  rw [hsel, createChallenge_regName] at h
  dsimp only at h
  rw [hq, h1] at h
  injection h with h
  subst h
  unfold challengeParams
  rw [if_neg (by simp), if_neg (by dsimp only; rw [hq]; simp)]
  simp only [List.map_cons, List.map_nil, captureValues, getline_eq, hs, List.headD_cons, List.tail_cons]

theorem hears_head (sv : Server) {c : Cert} {id : RequestId} {d : Data} {r2 : RequestState} (h1 : r2.cert = c) (h2 : r2.status = .success) (h3 : r2.requestType = .new) :
    ∃ cs, (sv.hears [.issue c, .dbDelete id, .put d, .callback r2]).cache = c :: cs := by
  show ∃ cs, (Server.onStatus false sv r2).cache = c :: cs
  unfold Server.onStatus
  rw [if_pos ⟨h2, h3⟩]
  simp only [Bool.false_eq_true, if_false]
  rw [h1]
  split
  · next h =>
    cases hc : sv.cache with
    | nil => rw [hc] at h; simp [maxCached] at h
    | cons a l => exact ⟨_, rfl⟩
  · exact ⟨_, rfl⟩

theorem exchanges_cons {x y : Tools σ} {e : Exchange} {es : List Exchange} (h : exchange C S cfg x e = .ok y) :
    exchanges C S cfg x (e :: es) = exchanges C S cfg y es := by
  rw [exchanges, h]

theorem exchanges_dead {x : Tools σ} {e : Exchange} {es : List Exchange} (h : ¬ survives C S cfg x.ca e.others = true) :
    exchanges C S cfg x (e :: es) = .died := by
  have : exchange C S cfg x e = .died := by unfold exchange; rw [if_neg h]
  rw [exchanges, this]

theorem exchanges_append {x y : Tools σ} {es es' : List Exchange} (h : exchanges C S cfg x es = .ok y) :
    exchanges C S cfg x (es ++ es') = exchanges C S cfg y es' := by
  induction es generalizing x with
  | nil => rw [exchanges] at h; cases h; rfl
  | cons e es ih =>
    rw [exchanges] at h
    rw [List.cons_append, exchanges]
    split at h
    · exact ih h
    · cases h
    · cases h

theorem exchanges_append_dead {x : Tools σ} {es es' : List Exchange} (h : exchanges C S cfg x es = .died) :
    exchanges C S cfg x (es ++ es') = .died := by
  induction es generalizing x with
  | nil => rw [exchanges] at h; cases h
  | cons e es ih =>
    rw [exchanges] at h
    rw [List.cons_append, exchanges]
    split at h
    · exact ih h
    · cases h
    · rfl

/-- the client has been told that it has a certificate, which the server has, and asks for it -/
structure Fetching (C : Crypto) (cfg : CaConfig) (x y : Tools σ) (pib : Pib) (key : Name) (version : Block) (pub : Bytes) (v : Time × Time) (c : Cert) : Prop where
  going : y.out.ended = .going
  asks : ∃ hint, y.out.acts = [.fetch c.name hint]
  pending : y.out.st.pending = some .fetch
  pib : y.out.st.pib = pib
  cached : ∃ cs, y.server.cache = c :: cs
  profile : y.server.profile = x.server.profile
  issued : issued y.done = issued x.done ++ [c]
  mailed : mailed y.done = mailed x.done
  name : c.name = key ++ [ndncertComponent, version]
  content : c.content = some pub
  validity : c.validity = some v
  signed : ∃ env r1, issueCertificate C cfg env r1 = .ok c

/-- wrong codes, then the right one, typed into the client -/
theorem tools_guesses (hC : C.Honest) (hS : LawfulStore C S Inv) (hcfg : NameFits cfg.profile.caPrefix) {k : ChalKind} (hk : k = .pin ∨ k = .email)
    {pub code : Bytes} (hcode : code.length ≤ 8800) {key : Name} {v : Time × Time} {el : Exchange} {rest : List Bytes} {pv : Block} (hpv : pv.typ = 54)
    (hsz : (nameBlock (key ++ [ndncertComponent, el.env.version])).encode.length + (nameBlock cfg.profile.forwardingHint).encode.length ≤ 2 ^ 32)
    (hw : Name.Wf (key ++ [ndncertComponent, el.env.version])) (hwh : Name.Wf cfg.profile.forwardingHint)
    (wrong : List (Bytes × Exchange)) (x : Tools σ) (prev : ClientEnv) (c : Client) (q : Request) (r : RequestState) (n tries : Nat) (env : Env)
    (hout : x.out = runChallenge C prev c q k.regName) (hin : c.stdin = wrong.map (·.1) ++ code :: rest)
    (hm : Marked x.server) (hp : x.server.profile.name = profileDataName cfg.profile pv)
    (w : Waiting C S Inv cfg ⟨q, x.ca, x.done⟩ r pub n code tries env.nowStore) (ht : wrong.length < tries) (ht3 : tries ≤ 3) (hn : n + tries * 1000 ≤ 4000)
    (hall : ∀ w ∈ wrong, w.1 ≠ code ∧ w.1.length ≤ 8800) (htime : InTime C cfg pub k env (turnsOf prev (wrong.map (·.2) ++ [el])))
    (hty : r.requestType = .new) (hkn : r.cert.keyName = key) (hval : r.cert.validity = some v) :
    exchanges C S cfg x (wrong.map (·.2) ++ [el]) = .died ∨
      ∃ y c', exchanges C S cfg x (wrong.map (·.2) ++ [el]) = .ok y ∧ Fetching C cfg x y c.pib key el.env.version pub v c' := by
  induction wrong generalizing x prev c q r n tries env with
  | nil =>
    simp only [List.map_nil, List.nil_append] at hin htime ⊢
    obtain ⟨i1, i2, i3, _, i5, _⟩ := htime
    rw [← lifetime_ns] at i5
    by_cases hl : survives C S cfg x.ca el.others = true
    case neg => exact .inl (exchanges_dead hl)
    obtain ⟨y, c', t1, _, t3, t4, t5, t6, t7, t8, t9, t10, t11, t12, d, r2, t13, t14, t15, t16⟩ :=
      turn_right hC hS hcfg w (by omega) hk hcode i1 i2 i3 i5 hty hval (by rw [hkn]; exact hsz) (by rw [hkn]; exact hw) hwh
    obtain ⟨es, x', c3, u1, u2, u3, u4, u5, u6, u7, u8, u9, u10, u11, u12⟩ :=
      exchange_challenge (c := c) (c2 := { { c with request := some { q with challengeType := k.regName } } with stdin := rest }) (q := q) (typed := code)
        hl hm hpv hp w.linked.pre (by rw [w.linked.id]; exact w.linked.len) hout
        (fun keys h => params_code hk rfl w.qStatus w.qChal hin h) t1
    rw [if_pos t4] at u12
    rw [u4] at t13
    have hes := List.append_cancel_left t13
    subst hes
    refine .inr ⟨x', c', by rw [exchanges_cons u1]; rfl, ?_⟩
    exact
      { going := by rw [u12]
        asks := ⟨(genCertFetchInterest y.requester).2, by rw [u12, ← t5]; rfl⟩
        pending := by rw [u12]
        pib := by rw [u12]; exact u9
        cached := by rw [u7]; exact hears_head _ t14 t15 t16
        profile := u6
        issued := by rw [u3]; exact t7
        mailed := by rw [u3]; exact t8
        name := by rw [t9, hkn]; rfl
        content := t10
        validity := t11
        signed := ⟨_, t12⟩ }
  | cons g wrong ih =>
    obtain ⟨g, e⟩ := g
    simp only [List.map_cons, List.cons_append] at hin htime ⊢
    unfold turnsOf InTime at htime
    obtain ⟨i1, i2, i3, i4, i5, i6⟩ := htime
    rw [← lifetime_ns] at i5
    obtain ⟨a1, a2⟩ := hall _ (List.mem_cons_self ..)
    have hlt : wrong.length + 1 < tries := ht
    obtain ⟨m, rfl⟩ : ∃ m, tries = m + 2 := ⟨tries - 2, by omega⟩
    by_cases hl : survives C S cfg x.ca e.others = true
    case neg => exact .inl (exchanges_dead hl)
    obtain ⟨y, r', t1, t2, t3, t4, t5⟩ := turn_wrong hC hS hcfg w ht3 (by omega) hk a1 a2 i1 i2 i3 i4 i5
    obtain ⟨es, x', c3, u1, u2, u3, u4, u5, u6, u7, u8, u9, u10, u11, u12⟩ :=
      exchange_challenge (c := c) (c2 := { { c with request := some { q with challengeType := k.regName } } with stdin := wrong.map (·.1) ++ code :: rest }) (q := q) (typed := g)
        hl hm hpv hp w.linked.pre (by rw [w.linked.id]; exact w.linked.len) hout
        (fun keys h => params_code hk rfl w.qStatus w.qChal hin h) t1
    rw [if_neg (by rw [t2.qStatus]; simp), u11] at u12
    have l1 : wrong.length < m + 1 := by omega
    have l2 : m + 1 ≤ 3 := by omega
    have l3 : n + 1000 + (m + 1) * 1000 ≤ 4000 := by omega
    have t2' : Waiting C S Inv cfg ⟨y.requester, x'.ca, x'.done⟩ r' pub (n + 1000) code (m + 1) e.env.nowStore := by
      rw [u2, u3]; exact t2
    rw [exchanges_cons u1]
    rcases ih x' e.client c3 y.requester r' (n + 1000) (m + 1) e.env u12 u8 u5 (by rw [u6]; exact hp) t2' l1 l2 l3
      (fun w hw => hall w (List.mem_cons_of_mem _ hw)) i6 (by rw [← t3.2.2.1]; exact hty) (by rw [← t3.2.2.2.1]; exact hkn) (by rw [← t3.2.2.2.1]; exact hval)
      with u | ⟨z, c', v1, v2⟩
    · exact .inl u
    · refine .inr ⟨z, c', v1, { v2 with
        pib := v2.pib.trans u9, profile := v2.profile.trans u6, issued := by rw [v2.issued, u3, t4], mailed := by rw [v2.mailed, u3, t5] }⟩

end Ndncert
