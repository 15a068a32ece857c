import Verif.Lemmas.ToolsStart
import Verif.Props.Session
import Verif.Props.Client

/-! # The two command line tools together: C91 -/

namespace Ndncert.Props

variable {σ : Type} {C : Crypto} {S : StoreI σ} {Inv : σ → Prop} {cfg : CaConfig}

/-- A run of the client as its user and the network see it: what is on the user's computer, what the user types, what is chosen
by it, and the exchanges with the CA. -/
structure Plan where
  /-- the client's configuration file -/
  file : Bytes
  pib : Pib
  /-- the line for the CA, and the answers to its questions -/
  caLine : Bytes
  answers : List Bytes
  /-- the lines typed after the answers, after the validity period, and after the key was chosen -/
  afterAnswers : List Bytes
  afterHours : List Bytes
  afterKey : List Bytes
  /-- the profile of the CA as received, and the answers as a multimap -/
  received : CaProfile
  params : MMap
  /-- the names assigned by the CA, the identity chosen among them, the validity period, and the key -/
  names : List Name
  id : Name
  hours : Int
  keyId : Block
  pub : Bytes
  discovery : Exchange
  profile : Exchange
  probe : Exchange
  new : Exchange
  start : Exchange
  /-- wrong codes typed -/
  wrong : List (Bytes × Exchange)
  right : Exchange
  fetch : Exchange
  /-- lines typed after the right code -/
  unread : List Bytes

/-- everything typed -/
def Plan.stdin (p : Plan) : List Bytes := p.caLine :: (p.answers ++ p.afterAnswers)
/-- the code the CA draws -/
def Plan.code (p : Plan) : Bytes := secretCode p.start.env.word32
def Plan.exchanges (p : Plan) : List Exchange :=
  [p.discovery, p.profile] ++ ([p.probe, p.new, p.start] ++ ((p.wrong.map (·.2) ++ [p.right]) ++ [p.fetch]))
/-- when the client applies, and until when it asks the certificate to be valid -/
def Plan.now (p : Plan) : Time := p.probe.client.now
def Plan.until (p : Plan) : Time := p.now + p.hours * 3600 * 1000000000
/-- the client's request before NEW -/
def Plan.request (p : Plan) : Request :=
  { profile := p.received, type := .new, requestId := p.probe.client.memId, ecdhPriv := p.probe.client.ecdhPriv,
    aesKey := p.probe.client.memKey, nonce := p.probe.client.memNonce }
/-- the name of the certificate -/
def Plan.certName (p : Plan) : Name := p.id ++ [keyComponent, p.keyId, ndncertComponent, p.right.env.version]

/-- What is asked of a run with challenge `k` for it to end well. -/
structure Plan.Fits (C : Crypto) (T : TextIO) (S : StoreI σ) (cfg : CaConfig) (s : CaState σ) (sv : Server) (p : Plan) (k : ChalKind) : Prop where
  /-- the user's configuration names this CA, with a certificate that carries the CA's key, and the user types its number -/
  known : ∃ ks j q t, loadProfiles T p.file = .ok ks ∧ StandsFor p.caLine j ∧ ks[j]? = some q ∧ q.caPrefix = cfg.profile.caPrefix ∧
    q.cert = some t ∧ t.content = some (C.idPub cfg.profile.caPrefix)
  notNone : toLower p.caLine ≠ (bytes! "none")
  /-- the server serves the CA's profile, with the CA's certificate -/
  serves : ∃ caCert version, getCaProfileData C cfg.profile caCert version = .ok sv.profile ∧ C.decodeCert caCert.wire = some caCert ∧
    caCert.content = some (C.idPub cfg.profile.caPrefix) ∧ version.typ = 54 ∧ NameFits (cfg.profile.caPrefix ++ [caComp, infoComp, version])
  received : infoDecode C sv.profile.content = .ok p.received
  /-- the CA's prefix does not end in `CA` (C71), and no certificate in the server's cache is in the way of the metadata (C85) -/
  prefixEnd : ∃ last, cfg.profile.caPrefix.getLast? = some last ∧ last.val ≠ (bytes! "CA")
  cache : ∀ c ∈ sv.cache, ¬ cfg.profile.caPrefix ++ [caComp, infoComp, metadataComp] <+: fullNameOf c
  /-- the questions are answered; the CA assigns names for the answers and does not redirect -/
  answered : Typed cfg.profile.probeParameterKeys p.answers p.params
  assigned : Assigns C cfg.assignments p.params p.probe.env.rand64 p.names
  here : redirects cfg p.params = []
  /-- one of the names is chosen, then a validity period, then a key -/
  chosen : Chosen ((p.names.map (cfg.profile.caPrefix ++ ·)).map (fun n => (n, ((cfg.profile.maxSuffixLength.getD 0 : Nat) : Int)))) p.afterAnswers p.id
  hours : Hours (if p.names.length = 1 then p.afterAnswers else p.afterAnswers.tail) p.hours p.afterHours
  keyed : Keyed p.pib p.id p.probe.client.keyIds p.probe.client.keyIds2 p.afterHours p.keyId p.afterKey
  /-- the CA's policy admits the application -/
  admissible : Admissible C S cfg ⟨p.request, s, []⟩ p.id p.keyId p.pub p.now p.until p.probe.client.version p.new.env
  clock : p.until < 2 ^ 63
  /-- the challenge is offered and taken, and the wrong codes and the right one are typed -/
  picked : Picked cfg.profile.supportedChallenges p.afterKey k.regName (p.wrong.map (·.1) ++ p.code :: p.unread)
  tries : p.wrong.length ≤ 2 ∧ ∀ w ∈ p.wrong, w.1 ≠ p.code ∧ w.1.length ≤ 8800
  inTime : InTime C cfg p.pub k p.start.env (turnsOf p.start.client (p.wrong.map (·.2) ++ [p.right]))
  /-- others may talk to the CA while the challenge goes on -/
  others : p.discovery.others = [] ∧ p.profile.others = [] ∧ p.probe.others = [] ∧ p.new.others = [] ∧ p.fetch.others = [] ∧ Foreign C cfg p.pub p.start.others
  random : p.new.env.Wf ∧ p.start.env.Wf ∧ (p.start.turn p.new.client).Wf ∧ p.new.client.rnd ≠ p.start.env.ivRnd ∧ p.new.client.stack.length = 32
  /-- the certificate is not named like a message to the CA -/
  plain : ∀ w : Handler, ¬ w.For cfg.profile p.certName
  /-- sizes and component types -/
  names : ∀ n ∈ p.names, Name.Wf (cfg.profile.caPrefix ++ n)
  wellFormed : Name.Wf cfg.profile.caPrefix ∧ Name.Wf p.certName ∧ Name.Wf cfg.profile.forwardingHint ∧ NameFits p.certName
  numbers : -(2 ^ 63) ≤ cfg.profile.maxValidityPeriod ∧ cfg.profile.maxValidityPeriod < 2 ^ 63 ∧ ∀ n, cfg.profile.maxSuffixLength = some n → n < 2 ^ 31
  sizes : sv.profile.content.val.length < 2 ^ 64 ∧ (probeParamsEncode p.params).val.length < 2 ^ 64 ∧
    (probeEncode (p.names.map (cfg.profile.caPrefix ++ ·)) cfg.profile.maxSuffixLength []).val.length < 2 ^ 64 ∧
    (nameBlock p.certName).encode.length + (nameBlock cfg.profile.forwardingHint).encode.length ≤ 2 ^ 32
  certSize : ∀ v, NameFits (C.signCert cfg.profile.caPrefix p.certName p.pub v).2.1 ∧ (C.signCert cfg.profile.caPrefix p.certName p.pub v).1.val.length < 2 ^ 64

/-- the two tools when the client has been started -/
def Plan.begin (T : TextIO) (s : CaState σ) (sv : Server) (p : Plan) : Tools σ :=
  { out := selectCaProfile T p.file { pib := p.pib, stdin := p.stdin }, ca := s, server := sv }

theorem hours_fit' {now d : Int} (h0 : 0 ≤ now) (h1 : now + 2 * 1000000000 ≤ now + d) (h2 : now + d < 2 ^ 63) :
    -(2 ^ 63) ≤ d ∧ d < 2 ^ 63 ∧ -(2 ^ 63) ≤ now + d ∧ now + d < 2 ^ 63 := by omega

theorem hours_fit {now h : Int} (h0 : 0 ≤ now) (h1 : now + 2 * 1000000000 ≤ now + h * 3600 * 1000000000) (h2 : now + h * 3600 * 1000000000 < 2 ^ 63) :
    addHours now h = some (now + h * 3600 * 1000000000) := by
  unfold addHours
  have e : nsPerSec = 1000000000 := rfl
  rw [e]
  dsimp only
  rw [if_pos (hours_fit' h0 h1 h2)]

/-- up to the selection of the challenge -/
theorem tools_begin (hC : C.Honest) (hS : LawfulStore C S Inv) (hcfg : NameFits cfg.profile.caPrefix) {T : TextIO} {s : CaState σ} {sv : Server} {p : Plan} {k : ChalKind}
    (f : p.Fits C T S cfg s sv k) (hm : Marked sv) (hi : Inv s.store) :
    ∃ x c y r v, exchanges C S cfg (p.begin T s sv) ([p.discovery, p.profile] ++ [p.probe, p.new]) = .ok x ∧ v.typ = 54 ∧
      x.server.profile.name = profileDataName cfg.profile v ∧ Marked x.server ∧
      x.out = runChallenge C p.new.client c y k.regName ∧ c.stdin = p.wrong.map (·.1) ++ p.code :: p.unread ∧ c.captured = some p.params ∧
      c.pib.has p.id (p.id ++ [keyComponent, p.keyId]) = true ∧ Ready C S Inv cfg ⟨y, x.ca, x.done⟩ r p.pub ∧
      r.requestType = .new ∧ r.caPrefix = cfg.profile.caPrefix ∧ r.cert.name = p.id ++ [keyComponent, p.keyId] ++ [gcomp (bytes! "cert-request"), p.probe.client.version] ∧
      r.cert.validity = some (roundPeriod p.now p.until) ∧ issued x.done = [] ∧ mailed x.done = [] := by
  obtain ⟨ks, j, q0, t, k1, k2, k3, k4, k5, k6⟩ := f.known
  obtain ⟨caCert, v, s1, s2, s3, s4, s5⟩ := f.serves
  obtain ⟨last, l1, l2⟩ := f.prefixEnd
  obtain ⟨o1, o2, o3, o4, o5, o6⟩ := f.others
  obtain ⟨r1, r2, r3, r4, r5⟩ := f.random
  obtain ⟨z1, z2, z3, z4⟩ := f.sizes
  obtain ⟨hname, q, q1, q2, q3, _, q5⟩ := C71_profile_received hC cfg.profile caCert v sv.profile s2 s3 f.wellFormed.1 f.numbers.1 f.numbers.2.1 s1 z1
  have hq : q = p.received := by
    have h := q1
    unfold onCaProfileResponse at h
    rw [f.received] at h
    simp only [Res.bind_ok] at h
    split at h
    · cases h
    · split at h
      · injection h with h; exact h.symm
      · cases h
  subst hq
  have hver : C.verifyData sv.profile t = true := by
    have h := s1
    unfold getCaProfileData at h
    obtain ⟨b, _, h⟩ := Res.bind_eq_ok.mp h
    injection h with h
    rw [← h]
    exact hC.data_verifies _ _ _ _ k6
  -- the question which CA
  have hsel : (p.begin T s sv).out = runDiscovery { pib := p.pib, stdin := p.answers ++ p.afterAnswers, trusted := some t } cfg.profile.caPrefix [] := by
    unfold Plan.begin Plan.stdin selectCaProfile
    dsimp only
    rw [k1]
    simp only [getline_eq, List.headD_cons, List.tail_cons]
    rw [if_neg f.notNone, (stoul_iff _ _).mpr k2]
    dsimp only
    rw [k3]
    dsimp only
    rw [k4, k5]
  have hex1 := exchanges_profile (C := C) (S := S) (cfg := cfg) (x := p.begin T s sv) (e1 := p.discovery) (e2 := p.profile) (t := t) (v := v) (last := last) (q := p.received)
    o1 o2 hsel rfl s4 l1 l2 hname s5 f.cache hver q1
  -- NEW
  have ha : Admissible C S cfg ⟨p.request, s, []⟩ p.id p.keyId p.pub p.now p.until p.probe.client.version p.new.env := f.admissible
  have hgen : ∃ i, (genNewInterest C p.request (p.id ++ [keyComponent, p.keyId]) p.now p.until p.probe.client.version).2 = .ok (some i) :=
    (C66_new_some (C := C) p.request (p.id ++ [keyComponent, p.keyId]) p.now p.until p.probe.client.version).mpr
      ⟨by rw [show p.request.profile.caPrefix = cfg.profile.caPrefix from ha.pre]; exact ha.below.1.trans (List.prefix_append ..), ⟨p.id, p.keyId, rfl⟩, p.pub, ha.key⟩
  obtain ⟨i, hgen⟩ := hgen
  have hgen' : genNewInterest C p.request (p.id ++ [keyComponent, p.keyId]) p.now p.until p.probe.client.version =
      ((genNewInterest C p.request (p.id ++ [keyComponent, p.keyId]) p.now p.until p.probe.client.version).1, .ok (some i)) := Prod.ext rfl hgen
  have hcp : cfg.profile.caPrefix ≠ [] := by intro h; rw [h] at l1; cases l1
  have hid : p.id ≠ [] := by
    intro h
    have := ha.below.2.1
    rw [h] at this
    exact absurd this (by simp)
  obtain ⟨c', d, e1, e2, e3, e4, e5, e6⟩ := exchange_probe (C := C) (S := S) (cfg := cfg) hC
    (x := ⟨runProbe C { pib := p.pib, stdin := p.answers ++ p.afterAnswers, trusted := some t, pending := some (.info []) } p.received, s, sv, []⟩) (e := p.probe)
    (c := { pib := p.pib, stdin := p.answers ++ p.afterAnswers, trusted := some t, pending := some (.info []) }) (q := p.received) (caCert := caCert) (answers := p.answers) (l1 := p.afterAnswers) (l2 := p.afterHours) (l3 := p.afterKey) (m := p.params) (names := p.names)
    (id := p.id) (keyId := p.keyId) (hours := p.hours) (na := p.until) s4 hm hname o3 rfl rfl rfl rfl (by rw [q3]; exact f.answered) q2 q5 s3 f.assigned f.here hcp f.names
    f.numbers.2.2 z3 z2 f.chosen hid
    (by
      have h := f.hours
      unfold hoursLines offered
      rw [List.length_map, List.length_map]
      exact h)
    f.keyed (hours_fit ha.period.1 ha.period.2.2.1 f.clock) hgen'
  have ha' : Admissible C S cfg ⟨p.request, s, [.put d]⟩ p.id p.keyId p.pub p.now p.until p.probe.client.version p.new.env :=
    ⟨ha.pre, ha.caKey, ha.fresh, ha.key, ha.below, ha.period, ha.caValid, ha.notPending, ha.keySize, ha.certSize, ha.newSize, ha.replySize⟩
  obtain ⟨y, r, a1, a2, a3, a4, a5, a6, a7, a8, a9⟩ := turn_new (t := { env := p.new.env }) hC hS hcfg hi ha' r1 rfl r5
  obtain ⟨es, x4, c3, b1, b2, b3, b4, b5, b6, b7, b8, b9, b10⟩ := exchange_new (C := C) (S := S) (cfg := cfg)
    (x := ⟨{ st := c', acts := [.new p.received i] }, s, sv, [.put d]⟩) (e := p.new) (q := p.request) (v := v) (t := { env := p.new.env })
    (by rw [o4]; rfl) hm s4 hname ha.pre rfl o4.symm a1 hgen' rfl rfl e2 e3 (by rw [show c'.stdin = p.afterKey from e4]; exact f.picked)
  refine ⟨x4, c3, y.requester, r, v, ?_, s4, by rw [b6]; exact hname, b5, b10, b7, b9.trans e5, by rw [b8]; exact e6, ?_, a3, a4, a6, a7, ?_, ?_⟩
  · rw [exchanges_append hex1]
    have e1' : exchange C S cfg ⟨runProbe C { pib := p.pib, stdin := p.answers ++ p.afterAnswers, trusted := some t, pending := some (.info []) } p.received,
      (p.begin T s sv).ca, (p.begin T s sv).server, (p.begin T s sv).done⟩ p.probe = .ok ⟨{ st := c', acts := [.new p.received i] }, s, sv, [.put d]⟩ := e1
    show exchanges C S cfg ⟨runProbe C { pib := p.pib, stdin := p.answers ++ p.afterAnswers, trusted := some t, pending := some (.info []) } p.received,
      (p.begin T s sv).ca, (p.begin T s sv).server, (p.begin T s sv).done⟩ [p.probe, p.new] = _
    rw [exchanges_cons e1', exchanges_cons b1]
    rfl
  · rw [b2, b3]; exact a2
  · rw [b3, a8]; rfl
  · rw [b3, a9]; rfl

/-- The client ended with exit code 0. The last thing it did was to put the certificate `c` into the user's KeyChain: a
certificate for the name, key and period chosen, the only one the CA issued for this client. -/
structure Plan.Ends (p : Plan) (y : Tools σ) (c : Cert) : Prop where
  exit : y.out.ended = .exit 0
  installed : y.out.acts = [.install c]
  issued : issued y.done = [c]
  name : c.name = p.id ++ [keyComponent, p.keyId, ndncertComponent, p.right.env.version]
  content : c.content = some p.pub
  period : ∃ v, c.validity = some v ∧ SecondsInside p.now (p.now + p.hours * 3600 * 1000000000) v

/-- from the first code typed to the end -/
theorem tools_end (hC : C.Honest) (hS : LawfulStore C S Inv) (hcfg : NameFits cfg.profile.caPrefix) {T : TextIO} {s : CaState σ} {sv : Server} {p : Plan} {k : ChalKind}
    (f : p.Fits C T S cfg s sv k) (hk : k = .pin ∨ k = .email) {x : Tools σ} {c : Client} {q : Request} {r : RequestState} {v : Block} (hv : v.typ = 54)
    (hout : x.out = runChallenge C p.start.client c q k.regName) (hin : c.stdin = p.wrong.map (·.1) ++ p.code :: p.unread)
    (hm : Marked x.server) (hp : x.server.profile.name = profileDataName cfg.profile v)
    (hpib : c.pib.has p.id (p.id ++ [keyComponent, p.keyId]) = true)
    (w : Waiting C S Inv cfg ⟨q, x.ca, x.done⟩ r p.pub 1000 p.code 3 p.start.env.nowStore)
    (hty : r.requestType = .new) (hname : r.cert.name = p.id ++ [keyComponent, p.keyId] ++ [gcomp (bytes! "cert-request"), p.probe.client.version])
    (hval : r.cert.validity = some (roundPeriod p.now p.until)) (hno : Ndncert.issued x.done = []) :
    exchanges C S cfg x ((p.wrong.map (·.2) ++ [p.right]) ++ [p.fetch]) = .died ∨
      ∃ y c', exchanges C S cfg x ((p.wrong.map (·.2) ++ [p.right]) ++ [p.fetch]) = .ok y ∧ p.Ends y c' ∧ mailed y.done = mailed x.done := by
  have hkn : r.cert.keyName = p.id ++ [keyComponent, p.keyId] := by
    unfold Cert.keyName
    rw [hname, List.take_left' (by simp)]
  have ecn : p.id ++ [keyComponent, p.keyId] ++ [ndncertComponent, p.right.env.version] = p.certName := by
    unfold Plan.certName; simp
  rcases tools_guesses hC hS hcfg hk (code_short f.random.2.1) (key := p.id ++ [keyComponent, p.keyId]) (el := p.right) (rest := p.unread) hv
    (by rw [ecn]; exact f.sizes.2.2.2) (by rw [ecn]; exact f.wellFormed.2.1) f.wellFormed.2.2.1 p.wrong x p.start.client c q r 1000 3 p.start.env hout hin hm hp w
    (by have := f.tries.1; omega) (by omega) (by decide) f.tries.2 f.inTime hty hkn hval with u | ⟨y, c', u1, u2⟩
  · exact .inl (exchanges_append_dead u)
  obtain ⟨hint, a1⟩ := u2.asks
  obtain ⟨cs, a2⟩ := u2.cached
  have hcn : c'.name = p.certName := u2.name.trans ecn
  have ha := f.admissible
  have hlen : cfg.profile.caPrefix.length + 5 ≤ c'.name.length := by
    rw [hcn]
    have := ha.below.2.1
    unfold Plan.certName
    simp only [List.length_append, List.length_cons, List.length_nil]
    omega
  have hpre : cfg.profile.caPrefix <+: c'.name := by
    rw [hcn]
    exact ha.below.1.trans (List.prefix_append ..)
  have hex := exchange_fetch (C := C) (S := S) (cfg := cfg) (x := y) (e := p.fetch) f.others.2.2.2.2.1 u2.going (by rw [a1]; rfl) (by rw [u2.profile]; exact hp) a2 hpre hlen
    (by rw [hcn]; exact f.plain)
  obtain ⟨p1, p2, p3, p4, p5⟩ := ha.period
  have hdec : C.decodeCert c'.wire = some c' := by
    obtain ⟨env, r1, h⟩ := u2.signed
    unfold issueCertificate at h
    split at h
    · next v0 content hv0 hc0 =>
      injection h with h
      have hn : c'.name = r1.cert.keyName ++ [ndncertComponent, env.version] := by rw [← h]
      have hct : content = p.pub := by
        have := u2.content
        rw [← h] at this
        simpa using this
      have hvt : v0 = roundPeriod p.now p.until := by
        have := u2.validity
        rw [← h] at this
        simpa using this
      rw [← hn, hcn, hct, hvt] at h
      have hd := hC.issued_decodes cfg.profile.caPrefix p.certName p.pub (roundPeriod p.now p.until) (f.certSize _).1 f.wellFormed.2.2.2
        (by unfold isValidCertName Plan.certName; simp)
        (roundPeriod_fits p1 (ends_late p1 p3) (round_bounds p1 p3 p5).2 p5) (f.certSize _).2
      rw [← h]
      exact hd
    · cases h
  have hstep : Client.step C p.fetch.client y.out.st (.reply ⟨c'.name, ⟨Ndncert.T.Content, c'.content.getD []⟩, []⟩ c'.wire) =
      { st := { y.out.st with pending := none }, acts := [.install c'], ended := .exit 0 } := by
    have hpend := u2.pending
    have hb := u2.pib
    generalize y.out.st = cl at *
    obtain ⟨tr, cap, rq, ni, nk, pib, stdin, pend⟩ := cl
    dsimp only at hpend hb
    subst hpend
    subst hb
    show certFetchCb C _ c'.wire = _
    unfold certFetchCb onCertFetchResponse
    rw [hdec]
    have hid : c'.identity = p.id := by unfold Cert.identity; rw [hcn]; unfold Plan.certName; simp
    have hkey : c'.keyName = p.id ++ [keyComponent, p.keyId] := by
      unfold Cert.keyName
      rw [u2.name, List.take_left' (by simp)]
    show (if _ then _ else _) = _
    rw [hid, hkey, if_pos ⟨hpib, by rw [ha.key, u2.content], by rw [u2.content]; simp⟩]
  refine .inr ⟨⟨{ st := { y.out.st with pending := none }, acts := [.install c'], ended := .exit 0 }, y.ca, y.server, y.done⟩, c',
    by rw [exchanges_append u1, exchanges_cons hex, hstep]; rfl, ?_, u2.mailed⟩
  refine ⟨rfl, rfl, by rw [show Ndncert.issued y.done = _ from u2.issued, hno]; rfl, hcn, u2.content, _, u2.validity, ?_⟩
  exact roundPeriod_inwards p1 (ends_late p1 p3)

/-- **C91** The user of the client chooses a CA of the configuration file, answers its questions, chooses one of the names it assigns, a
validity period and a key, and takes the pin challenge. At most two wrong codes are typed, then the code the CA drew, in time. The CA
server was started at some time and may have handled anything before; it may handle messages of others while the challenge goes on.
Unless one of these ends the CA process, every Interest of the client is answered by exactly one Data that satisfies it, and
the client ends with exit code 0, having put a certificate for the name, key and period chosen into the KeyChain: the
only one the CA issued for it. -/
theorem C91_pin_tools (hC : C.Honest) (hS : LawfulStore C S Inv) (hcfg : NameFits cfg.profile.caPrefix) {T : TextIO} {h : List (Step σ)} {s : CaState σ}
    (hx : Exec C S cfg h s) (first : Data) (next : Step σ → Data) {p : Plan} (f : p.Fits C T S cfg s (Server.after false first next h) .pin) :
    exchanges C S cfg (p.begin T s (Server.after false first next h)) p.exchanges = .died ∨
      ∃ y c, exchanges C S cfg (p.begin T s (Server.after false first next h)) p.exchanges = .ok y ∧ p.Ends y c ∧ mailed y.done = [] := by
  have hm := after_marked hC.toLawful hS hcfg hx first next
  obtain ⟨x, c, y, r, v, a1, a2, a3, a4, a5, a6, a7, a8, a9, a10, a11, a12, a13, a14, a15⟩ := tools_begin hC hS hcfg f hm (Exec.life hC.toLawful hS hcfg hx).1
  have hpe : p.exchanges = ([p.discovery, p.profile] ++ [p.probe, p.new]) ++ (p.start :: ((p.wrong.map (·.2) ++ [p.right]) ++ [p.fetch])) := by
    unfold Plan.exchanges; simp
  rw [hpe, exchanges_append a1]
  by_cases hl : survives C S cfg x.ca p.start.others = true
  case neg => exact .inl (exchanges_dead hl)
  obtain ⟨_, b2, b3, b4, _⟩ := f.random
  obtain ⟨z, r', t1, t2, t3, t4, t5⟩ := turn_start_pin (t := p.start.turn p.new.client) hC hS hcfg a9 f.others.2.2.2.2.2 b2 b3 b4 []
  obtain ⟨es, x', c3, u1, u2, u3, u4, u5, u6, u7, u8, u9, u10, u11, u12⟩ :=
    exchange_challenge (C := C) (S := S) (cfg := cfg) (x := x) (e := p.start) (prev := p.new.client) (c := c)
      (c2 := { c with request := some { y with challengeType := ChalKind.pin.regName } }) (q := y) (typed := [])
      hl a4 a2 a3 a9.linked.pre (by rw [a9.linked.id]; exact a9.linked.len) a5
      (fun keys hk => by
        have hk' : selectOrContinueChallenge y ChalKind.pin.regName = ({ y with challengeType := ChalKind.pin.regName }, .ok []) := by
          have hq : y.status = .beforeChallenge := a9.qStatus
          unfold selectOrContinueChallenge
          rw [createChallenge_regName]
          dsimp only
          rw [hq]
          rfl
        rw [hk'] at hk
        cases hk
        rfl) t1
  rw [if_neg (by rw [t2.qStatus]; simp), u11] at u12
  rw [exchanges_cons u1]
  have hsame := t3
  rcases tools_end hC hS hcfg f (.inl rfl) a2 u12 (u8.trans a6) u5 (by rw [u6]; exact a3) (by rw [u9]; exact a8) (r := r') (by rw [u2, u3]; exact t2)
    (by rw [← t3.2.2.1]; exact a10) (by rw [← t3.2.2.2.1]; exact a12) (by rw [← t3.2.2.2.1]; exact a13) (by rw [u3, t4]; exact a14) with e | ⟨y', c', e1, e2, e3⟩
  · exact .inl e
  · exact .inr ⟨y', c', e1, e2, by rw [e3, u3, t5]; exact a15⟩

/-- C91, the email challenge: the mail goes to the address given for PROBE (in lower case). -/
theorem C91_email_tools (hC : C.Honest) (hS : LawfulStore C S Inv) (hcfg : NameFits cfg.profile.caPrefix) {T : TextIO} {h : List (Step σ)} {s : CaState σ}
    (hx : Exec C S cfg h s) (first : Data) (next : Step σ → Data) {p : Plan} (f : p.Fits C T S cfg s (Server.after false first next h) .email)
    {address : Bytes} (haddr : FirstValue p.params (bytes! "email") address) (hlen : address.length ≤ 8800) (hscript : p.start.env.spawnOk = true) :
    exchanges C S cfg (p.begin T s (Server.after false first next h)) p.exchanges = .died ∨
      ∃ y c, exchanges C S cfg (p.begin T s (Server.after false first next h)) p.exchanges = .ok y ∧ p.Ends y c ∧
        mailed y.done = [⟨address, p.code, cfg.profile.caPrefix, p.id ++ [keyComponent, p.keyId, gcomp (bytes! "cert-request"), p.probe.client.version]⟩] := by
  have hm := after_marked hC.toLawful hS hcfg hx first next
  obtain ⟨x, c, y, r, v, a1, a2, a3, a4, a5, a6, a7, a8, a9, a10, a11, a12, a13, a14, a15⟩ := tools_begin hC hS hcfg f hm (Exec.life hC.toLawful hS hcfg hx).1
  have hpe : p.exchanges = ([p.discovery, p.profile] ++ [p.probe, p.new]) ++ (p.start :: ((p.wrong.map (·.2) ++ [p.right]) ++ [p.fetch])) := by
    unfold Plan.exchanges; simp
  rw [hpe, exchanges_append a1]
  by_cases hl : survives C S cfg x.ca p.start.others = true
  case neg => exact .inl (exchanges_dead hl)
  obtain ⟨_, b2, b3, b4, _⟩ := f.random
  have hid : r.cert.identity ≠ [] := by
    have h1 : r.cert.identity = p.id := by unfold Cert.identity; rw [a12]; simp
    rw [h1]
    intro h2
    have := f.admissible.below.2.1
    rw [h2] at this
    exact absurd this (by simp)
  obtain ⟨z, r', t1, t2, t3, t4, t5⟩ := turn_start_email (t := p.start.turn p.new.client) hC hS hcfg a9 f.others.2.2.2.2.2 b2 b3 b4 hscript hid hlen
  obtain ⟨es, x', c3, u1, u2, u3, u4, u5, u6, u7, u8, u9, u10, u11, u12⟩ :=
    exchange_challenge (C := C) (S := S) (cfg := cfg) (x := x) (e := p.start) (prev := p.new.client) (c := c)
      (c2 := { c with request := some { y with challengeType := ChalKind.email.regName } }) (q := y) (typed := address)
      hl a4 a2 a3 a9.linked.pre (by rw [a9.linked.id]; exact a9.linked.len) a5
      (fun keys hk => by
        have hq : y.status = .beforeChallenge := a9.qStatus
        have hqc : y.challengeStatus = [] := a9.qChal
        have hk' : selectOrContinueChallenge y ChalKind.email.regName = ({ y with challengeType := ChalKind.email.regName }, .ok [KEY_EMAIL]) := by
          unfold selectOrContinueChallenge
          rw [createChallenge_regName]
          dsimp only
          rw [hq, hqc]
          rfl
        rw [hk'] at hk
        cases hk
        unfold challengeParams
        rw [if_neg (by simp), if_pos ⟨hq, rfl⟩]
        dsimp only
        rw [a7]
        dsimp only
        rw [mmFind_some.mpr haddr]
        rfl) t1
  rw [if_neg (by rw [t2.qStatus]; simp), u11] at u12
  rw [exchanges_cons u1]
  rcases tools_end hC hS hcfg f (.inr rfl) a2 u12 (u8.trans a6) u5 (by rw [u6]; exact a3) (by rw [u9]; exact a8) (r := r') (by rw [u2, u3]; exact t2)
    (by rw [← t3.2.2.1]; exact a10) (by rw [← t3.2.2.2.1]; exact a12) (by rw [← t3.2.2.2.1]; exact a13) (by rw [u3, t4]; exact a14) with e | ⟨y', c', e1, e2, e3⟩
  · exact .inl e
  · refine .inr ⟨y', c', e1, e2, ?_⟩
    rw [e3, u3, t5, show mailed x.done = [] from a15, a11, a12]
    simp [Plan.code, Exchange.turn]

/-! ## The hypotheses of C91 hold of a concrete run

The CA of the fixtures asks for an email address and a name, assigns /ndn/alice and /ndn/guest, and offers the challenge `k`. The user
types a line that is no number before the one hour; another NEW arrives before the challenge is selected; one wrong code is typed. -/

def exToolsCfg (k : ChalKind) : CaConfig :=
  { profile := { Fix.profile with probeParameterKeys := [bytes! "name", bytes! "email"], supportedChallenges := [k.regName] },
    assignments := [.param [bytes! "name"], .param [bytes! "\"guest\""]] }

def exToolsData (k : ChalKind) : Data :=
  match getCaProfileData Fix.C (exToolsCfg k).profile exNdnCert ⟨54, [9]⟩ with | .ok d => d | _ => ⟨[], ⟨0, []⟩, []⟩

def exToolsExchange (t : Int) : Exchange := { env := Fix.env t, client := clientEnv t }

/-- after the key was chosen: the number of the challenge unless it is email, two codes, and one line more -/
def exAfterKey (k : ChalKind) : List Bytes :=
  (if k = .pin then [bytes! "0"] else []) ++ [bytes! "000000", secretCode (Fix.env 1004).word32, bytes! "more"]

def exPlan (k : ChalKind) : Plan where
  file := []
  pib := []
  caLine := bytes! "0"
  answers := [bytes! "Alice@Example.com", bytes! "alice"]
  afterAnswers := bytes! "0" :: bytes! "one" :: bytes! "1" :: exAfterKey k
  afterHours := exAfterKey k
  afterKey := exAfterKey k
  received := match infoDecode Fix.C (exToolsData k).content with | .ok p => p | _ => {}
  params := [(bytes! "email", bytes! "alice@example.com"), (bytes! "name", bytes! "alice")]
  names := [[gcomp (bytes! "alice")], [gcomp (bytes! "guest")]]
  id := exAlice
  hours := 1
  keyId := gcomp [107]
  pub := exPub
  discovery := exToolsExchange 1000
  profile := exToolsExchange 1001
  probe := exToolsExchange 1002
  new := exToolsExchange 1003
  start := { exToolsExchange 1004 with others := [(.new Fix.newInterest, Fix.env 1004)] }
  wrong := [(bytes! "000000", exToolsExchange 1005)]
  right := exToolsExchange 1006
  fetch := exToolsExchange 1007
  unread := [bytes! "more"]

def exToolsServer (k : ChalKind) : Server := Server.after (σ := Mem) false (exToolsData k) (fun _ => exToolsData k) []

def exToolsNewOk (k : ChalKind) : Bool :=
  match (genNewInterest Fix.C (exPlan k).request (exAlice ++ [keyComponent, gcomp [107]]) (exPlan k).now (exPlan k).until (exPlan k).probe.client.version).2 with
  | .ok (some i) => i.params.all fun b => decide (b.val.length < 2 ^ 64)
  | _ => false

theorem exToolsNewOk_true (k : ChalKind) (hk : k = .pin ∨ k = .email) : exToolsNewOk k = true := by
  rcases hk with rfl | rfl <;> decide +kernel

theorem exToolsAdmissible (k : ChalKind) (hk : k = .pin ∨ k = .email) :
    Admissible Fix.C Fix.S (exToolsCfg k) ⟨(exPlan k).request, Fix.st0, []⟩ (exPlan k).id (exPlan k).keyId (exPlan k).pub (exPlan k).now (exPlan k).until
      (exPlan k).probe.client.version (exPlan k).new.env where
  pre := by rcases hk with rfl | rfl <;> decide +kernel
  caKey := ⟨exNdnCert, by rcases hk with rfl | rfl <;> decide +kernel, by rcases hk with rfl | rfl <;> decide +kernel⟩
  fresh := by rcases hk with rfl | rfl <;> decide +kernel
  key := by rcases hk with rfl | rfl <;> decide +kernel
  below := ⟨List.prefix_append .., by rcases hk with rfl | rfl <;> decide +kernel, by
    intro j hj
    have : (exToolsCfg k).profile.maxSuffixLength = some 1 := rfl
    rw [this] at hj
    cases hj
    rcases hk with rfl | rfl <;> decide +kernel⟩
  period := by rcases hk with rfl | rfl <;> decide +kernel
  caValid := ⟨0, 10 ^ 18, rfl, by rcases hk with rfl | rfl <;> decide +kernel, by rcases hk with rfl | rfl <;> decide +kernel⟩
  notPending := by rcases hk with rfl | rfl <;> decide +kernel
  keySize := by rcases hk with rfl | rfl <;> decide +kernel
  certSize := by rcases hk with rfl | rfl <;> decide +kernel
  newSize := by
    intro i b hi hb
    have h := exToolsNewOk_true k hk
    unfold exToolsNewOk at h
    change (genNewInterest Fix.C (exPlan k).request (exAlice ++ [keyComponent, gcomp [107]]) (exPlan k).now (exPlan k).until (exPlan k).probe.client.version).2 = _ at hi
    rw [hi] at h
    dsimp only at h
    rw [hb] at h
    simpa using h
  replySize := by
    intro rid hr
    have a1 := encode_length_small (b := binBlock T.RequestId rid) (by simp [T.RequestId])
    have a2 : (binBlock T.EcdhPub (Fix.C.ecdhPub (exPlan k).new.env.ecdhPriv)).encode.length ≤ 1000 := by rcases hk with rfl | rfl <;> decide +kernel
    have a3 : (binBlock T.Salt (exPlan k).new.env.salt).encode.length ≤ 1000 := by rcases hk with rfl | rfl <;> decide +kernel
    have a4 : (encodeAll ((exToolsCfg k).profile.supportedChallenges.map (binBlock T.Challenge))).length ≤ 1000 := by rcases hk with rfl | rfl <;> decide +kernel
    have a5 : (requestEncode (Fix.C.ecdhPub (exPlan k).new.env.ecdhPriv) (exPlan k).new.env.salt rid (exToolsCfg k).profile.supportedChallenges).val.length =
        (binBlock T.EcdhPub (Fix.C.ecdhPub (exPlan k).new.env.ecdhPriv)).encode.length + ((binBlock T.Salt (exPlan k).new.env.salt).encode.length +
          ((binBlock T.RequestId rid).encode.length + (encodeAll ((exToolsCfg k).profile.supportedChallenges.map (binBlock T.Challenge))).length)) := by
      unfold requestEncode
      simp only [mkBlock, encodeAll, List.cons_append, List.nil_append, List.flatMap_cons, List.length_append]
    rw [a5]
    simp only [binBlock_val] at a1
    omega

theorem exTools_fits (k : ChalKind) (hk : k = .pin ∨ k = .email) : (exPlan k).Fits Fix.C (clientText exStore) Fix.S (exToolsCfg k) Fix.st0 (exToolsServer k) k where
  known := by
    refine ⟨[(match loadProfiles (clientText exStore) [] with | .ok l => l.headD {} | _ => {})], 0, (match loadProfiles (clientText exStore) [] with | .ok l => l.headD {} | _ => {}),
      exNdnCert, ?_⟩
    rcases hk with rfl | rfl <;>
    exact ⟨by decide +kernel, by decide +kernel, rfl, by decide +kernel, by decide +kernel, by decide +kernel⟩
  notNone := by rcases hk with rfl | rfl <;> decide +kernel
  serves := ⟨exNdnCert, ⟨54, [9]⟩, by rcases hk with rfl | rfl <;> decide +kernel, by rcases hk with rfl | rfl <;> decide +kernel, by rcases hk with rfl | rfl <;> decide +kernel, rfl, by rcases hk with rfl | rfl <;> decide +kernel⟩
  received := by rcases hk with rfl | rfl <;> decide +kernel
  prefixEnd := ⟨gcomp (bytes! "ndn"), rfl, by decide⟩
  cache := by intro c hc; cases hc
  answered := by
    refine ⟨by rw [inOrder_iff]; unfold MMap.Sorted; rcases hk with rfl | rfl <;> decide +kernel, by rcases hk with rfl | rfl <;> decide +kernel, rfl, ?_⟩
    intro j e l he hl
    match j with
    | 0 => cases he; cases hl; rcases hk with rfl | rfl <;> decide +kernel
    | 1 => cases he; cases hl; rcases hk with rfl | rfl <;> decide +kernel
    | j + 2 => cases he
  assigned := by
    refine ⟨[[[gcomp (bytes! "alice")]], [[gcomp (bytes! "guest")]]], rfl, rfl, ?_⟩
    intro j a l ha hl
    match j with
    | 0 => cases ha; cases hl; rcases hk with rfl | rfl <;> decide +kernel
    | 1 => cases ha; cases hl; rcases hk with rfl | rfl <;> decide +kernel
    | j + 2 => cases ha
  here := rfl
  chosen := .typed (j := 0) (by rcases hk with rfl | rfl <;> decide +kernel) rfl (by rcases hk with rfl | rfl <;> decide +kernel) rfl
  hours := .typed (n := 1) (skipped := [bytes! "one"]) rfl (by decide) (by decide +kernel) (by decide) (fun l hl => (stoul_none l).mp (by rw [List.mem_singleton.mp hl]; decide +kernel))
  keyed := .identity rfl rfl
  admissible := exToolsAdmissible k hk
  clock := by rcases hk with rfl | rfl <;> decide +kernel
  picked := by
    rcases hk with rfl | rfl
    · exact .typed (j := 0) (skipped := []) (by decide +kernel) rfl (by decide) (by decide +kernel) rfl (by intro l hl; cases hl)
    · exact .email (by decide +kernel)
  tries := ⟨by show 1 ≤ 2; decide, by
    intro w hw
    simp only [exPlan, List.mem_singleton] at hw
    subst hw
    rcases hk with rfl | rfl <;> decide +kernel⟩
  inTime := by
    have h0 : Foreign Fix.C (exToolsCfg k) (exPlan k).pub [] := by intro x hx; cases hx
    rcases hk with rfl | rfl <;>
    exact ⟨h0, Fix.env_wf .., by unfold Turn.Wf; decide +kernel, by decide +kernel, by decide +kernel, h0, Fix.env_wf .., by unfold Turn.Wf; decide +kernel, by decide +kernel, by decide +kernel, trivial⟩
  others := by
    refine ⟨rfl, rfl, rfl, rfl, rfl, ?_⟩
    intro x hx
    simp only [exPlan, List.mem_singleton] at hx
    subst hx
    exact ⟨msgOk_wf (by rcases hk with rfl | rfl <;> decide +kernel), Fix.env_wf .., by intro i h; cases h⟩
  random := ⟨Fix.env_wf .., Fix.env_wf .., by unfold Turn.Wf; rcases hk with rfl | rfl <;> decide +kernel, by show List.replicate 8 (1 : UInt8) ≠ List.replicate 8 77; decide, by rcases hk with rfl | rfl <;> decide +kernel⟩
  plain := by
    rintro w ⟨rest, h⟩
    have h1 : (Fix.ca ++ [gcomp (bytes! "CA")] ++ w.words ++ rest)[1]? = (exPlan k).certName[1]? := by rw [← h]; rfl
    have h2 : some (gcomp (bytes! "CA")) = some (gcomp (bytes! "alice")) := h1
    exact absurd h2 (by decide)
  names := by
    intro n hn
    simp only [exPlan, List.mem_cons, List.not_mem_nil, or_false] at hn
    rcases hn with rfl | rfl <;> (unfold Name.Wf; rcases hk with rfl | rfl <;> decide +kernel)
  wellFormed := by unfold Name.Wf; rcases hk with rfl | rfl <;> exact ⟨by decide +kernel, by decide +kernel, by decide +kernel, by decide +kernel⟩
  numbers := ⟨by rcases hk with rfl | rfl <;> decide +kernel, by rcases hk with rfl | rfl <;> decide +kernel, by
    intro n hn
    have : (exToolsCfg k).profile.maxSuffixLength = some 1 := rfl
    rw [this] at hn
    cases hn
    decide⟩
  sizes := by rcases hk with rfl | rfl <;> exact ⟨by decide +kernel, by decide +kernel, by decide +kernel, by decide +kernel⟩
  certSize := by
    intro v
    have h0 : (exToolsCfg k).profile.caPrefix = Fix.ca := rfl
    have h1 : (exPlan k).certName = exAlice ++ [keyComponent, gcomp [107], ndncertComponent, ⟨54, [3]⟩] := rfl
    have h2 : (exPlan k).pub = exPub := rfl
    rw [h0, h1, h2]
    refine ⟨?_, ?_⟩
    · show NameFits (Fix.ca ++ [keyComponent, gcomp [1]])
      decide +kernel
    · show (Toy.wire (exAlice ++ [keyComponent, gcomp [107], ndncertComponent, ⟨54, [3]⟩]) (some exPub) (some (Fix.ca ++ [keyComponent, gcomp [1]])) (some v) (Toy.idPub Fix.ca)).val.length < _
      have a1 : (nameBlock (exAlice ++ [keyComponent, gcomp [107], ndncertComponent, ⟨54, [3]⟩])).encode.length ≤ 1000 := by decide +kernel
      have a2 : (binBlock 21 exPub).encode.length ≤ 1000 := by decide +kernel
      have a3 : (nestedBlock 28 (nameBlock (Fix.ca ++ [keyComponent, gcomp [1]]))).encode.length ≤ 1000 := by decide +kernel
      have a4 : (binBlock 23 (Toy.idPub Fix.ca)).encode.length ≤ 1000 := by decide +kernel
      have a5 : (Toy.periodBytes v).length = 16 := by simp [Toy.periodBytes]
      have a6 : (binBlock 253 (Toy.periodBytes v)).encode.length = 20 := by
        unfold Block.encode
        rw [binBlock_val, a5]
        simp [a5, varNumber]
      unfold Toy.wire
      simp only [mkBlock, encodeAll, List.cons_append, List.nil_append, List.flatMap_cons, List.flatMap_nil, List.length_append, List.length_nil]
      omega

/-- the CA survives the NEW of somebody else -/
def exToolsSurvives (k : ChalKind) : Bool :=
  match exchanges Fix.C Fix.S (exToolsCfg k) ((exPlan k).begin (clientText exStore) Fix.st0 (exToolsServer k)) (exPlan k).exchanges with
  | .died => false
  | _ => true

theorem exToolsSurvives_true (k : ChalKind) (hk : k = .pin ∨ k = .email) : exToolsSurvives k = true := by
  rcases hk with rfl | rfl <;> decide +kernel

theorem exTools_cfg_fits (k : ChalKind) : NameFits (exToolsCfg k).profile.caPrefix := Fix.cfg_fits

/-- the pin run ends with /ndn/alice's certificate in the KeyChain -/
example : ∃ y c, exchanges Fix.C Fix.S (exToolsCfg .pin) ((exPlan .pin).begin (clientText exStore) Fix.st0 (exToolsServer .pin)) (exPlan .pin).exchanges = .ok y ∧
    (exPlan .pin).Ends y c ∧ mailed y.done = [] := by
  rcases C91_pin_tools Toy.honest (memStore_lawful Fix.C) (exTools_cfg_fits .pin) (T := clientText exStore) (.init Fix.idKey) (exToolsData .pin) (fun _ => exToolsData .pin)
    (p := exPlan .pin) (exTools_fits .pin (.inl rfl)) with h | h
  · have h' := exToolsSurvives_true .pin (.inl rfl)
    unfold exToolsSurvives at h'
    change exchanges Fix.C Fix.S (exToolsCfg .pin) ((exPlan .pin).begin (clientText exStore) Fix.st0 (exToolsServer .pin)) (exPlan .pin).exchanges = _ at h
    rw [h] at h'
    cases h'
  · exact h

/-- so does the email run; the mail goes to the address typed, in lower case -/
example : ∃ y c, exchanges Fix.C Fix.S (exToolsCfg .email) ((exPlan .email).begin (clientText exStore) Fix.st0 (exToolsServer .email)) (exPlan .email).exchanges = .ok y ∧
    (exPlan .email).Ends y c ∧ (mailed y.done).map (·.address) = [bytes! "alice@example.com"] := by
  rcases C91_email_tools Toy.honest (memStore_lawful Fix.C) (exTools_cfg_fits .email) (T := clientText exStore) (.init Fix.idKey) (exToolsData .email) (fun _ => exToolsData .email)
    (p := exPlan .email) (exTools_fits .email (.inr rfl)) (address := bytes! "alice@example.com") ⟨[], _, rfl, by simp⟩ (by decide) rfl with h | ⟨y, c, h1, h2, h3⟩
  · have h' := exToolsSurvives_true .email (.inr rfl)
    unfold exToolsSurvives at h'
    change exchanges Fix.C Fix.S (exToolsCfg .email) ((exPlan .email).begin (clientText exStore) Fix.st0 (exToolsServer .email)) (exPlan .email).exchanges = _ at h
    rw [h] at h'
    cases h'
  · exact ⟨y, c, h1, h2, by rw [h3]; rfl⟩

end Ndncert.Props
