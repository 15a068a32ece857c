import Verif.Lemmas.Requester
import Verif.Props.Encoding
import Verif.Spec.Run

/-! # The requester (C63 to C67, C69, C71) -/

namespace Ndncert.Props

variable {C : Crypto}

/-! ## C63 -/

/-- C63: a reply that does not verify under the certificate in the CA profile makes each handler throw, and changes
nothing. -/
theorem C63_unverified_reply (ca : CaProfile) (c : Cert) (d : Data) (hc : ca.cert = some c) (hv : C.verifyData d c = false) :
    (∀ names cas, ∃ e, onProbeResponse C d ca names cas = .exc e) ∧
    (∀ (r : Request) stack, r.profile = ca → ∃ e, onNewResponse C r d stack = (r, .exc e)) ∧
    (∀ (r : Request) now, r.profile = ca → ∃ e, onChallengeResponse C r d now = (r, .exc e)) := by
  have h : checkReply C ca d = .exc .runtime := by
    unfold checkReply
    rw [hc]
    simp [hv]
  refine ⟨fun names cas => ⟨.runtime, ?_⟩, fun r stack hr => ⟨.runtime, ?_⟩, fun r now hr => ⟨.runtime, ?_⟩⟩
  · unfold onProbeResponse
    rw [h]
    rfl
  · unfold onNewResponse
    rw [hr, h]
  · unfold onChallengeResponse
    rw [hr, h]

/-- C63, the other way round: whatever a handler returns or changes is due to a reply that verifies and is not an
error reply. -/
theorem C63_effect_needs_signature (r : Request) (d : Data) (c : Cert) (hc : r.profile.cert = some c) :
    (∀ names cas p, onProbeResponse C d r.profile names cas = .ok p → C.verifyData d c = true ∧ (errorDecode d.content).1 = 0) ∧
    (∀ stack, (onNewResponse C r d stack).1 ≠ r ∨ (∃ chs, (onNewResponse C r d stack).2 = .ok chs) →
      C.verifyData d c = true ∧ (errorDecode d.content).1 = 0) ∧
    (∀ now, (onChallengeResponse C r d now).1 ≠ r ∨ (onChallengeResponse C r d now).2 = .ok () →
      C.verifyData d c = true ∧ (errorDecode d.content).1 = 0) := by
  have key : checkReply C r.profile d = .ok () → C.verifyData d c = true ∧ (errorDecode d.content).1 = 0 := by
    intro h
    unfold checkReply at h
    rw [hc] at h
    dsimp only at h
    split at h
    · rename_i hv
      refine ⟨hv, ?_⟩
      unfold processIfError at h
      dsimp only at h
      split at h
      · assumption
      · cases h
    · cases h
  refine ⟨fun names cas p h => ?_, fun stack h => ?_, fun now h => ?_⟩
  · unfold onProbeResponse at h
    obtain ⟨_, h1, _⟩ := Res.bind_eq_ok.mp h
    exact key h1
  · cases hk : checkReply C r.profile d with
    | ok _ => exact key hk
    | exc e =>
      have : onNewResponse C r d stack = (r, .exc e) := by unfold onNewResponse; rw [hk]
      rw [this] at h
      rcases h with h | ⟨_, h⟩
      · exact absurd rfl h
      · cases h
    | ub u =>
      have : onNewResponse C r d stack = (r, .ub u) := by unfold onNewResponse; rw [hk]
      rw [this] at h
      rcases h with h | ⟨_, h⟩
      · exact absurd rfl h
      · cases h
  · cases hk : checkReply C r.profile d with
    | ok _ => exact key hk
    | exc e =>
      have : onChallengeResponse C r d now = (r, .exc e) := by unfold onChallengeResponse; rw [hk]
      rw [this] at h
      rcases h with h | h
      · exact absurd rfl h
      · cases h
    | ub u =>
      have : onChallengeResponse C r d now = (r, .ub u) := by unfold onChallengeResponse; rw [hk]
      rw [this] at h
      rcases h with h | h
      · exact absurd rfl h
      · cases h

/-- a reply with a wrong signature, and the same reply with the CA's -/
example : ∃ d d' : Data, d.content = d'.content ∧ Fix.C.verifyData d Fix.caCert = false ∧ Fix.C.verifyData d' Fix.caCert = true ∧
    Fix.requester.profile.cert = some Fix.caCert ∧
    ∃ chs, (onNewResponse Fix.C Fix.requester d' (List.replicate 32 0)).2 = .ok chs := by
  refine ⟨⟨Fix.ca, requestEncode (Fix.C.ecdhPub [9]) (List.replicate 32 3) (List.replicate 8 4) [bytes! "pin"], []⟩,
    mkData Fix.C Fix.ca Fix.ca (requestEncode (Fix.C.ecdhPub [9]) (List.replicate 32 3) (List.replicate 8 4) [bytes! "pin"]), rfl, by decide +kernel, by decide +kernel, rfl,
    [bytes! "pin"], by decide +kernel⟩

/-! ## C64, C65 -/

/-- C64: after a redirection a profile is only returned if its certificate has exactly the announced full name, and the
reply verifies under it. -/
theorem C64_redirected_profile (reply : Data) (fullName : Name) (p : CaProfile)
    (h : onCaProfileResponseAfterRedirection C reply fullName = .ok p) :
    ∃ c, p.cert = some c ∧ fullNameOf c = fullName ∧ C.verifyData reply c = true := by
  unfold onCaProfileResponseAfterRedirection at h
  obtain ⟨q, h1, h⟩ := Res.bind_eq_ok.mp h
  split at h
  · cases h
  rename_i c hc
  split at h
  · cases h
  rename_i hn
  unfold onCaProfileResponse at h
  obtain ⟨q', h2, h⟩ := Res.bind_eq_ok.mp h
  rw [h1] at h2
  cases h2
  rw [hc] at h
  dsimp only at h
  split at h
  · rename_i hv
    cases h
    exact ⟨c, hc, (show c.fullName = fullName by simpa using hn), hv⟩
  · cases h

/-- C64 the other way round: a reply that decodes to a profile with the announced certificate and verifies under it is
accepted. -/
theorem C64_accepts (reply : Data) (p : CaProfile) (c : Cert) (hd : infoDecode C reply.content = .ok p) (hc : p.cert = some c)
    (hv : C.verifyData reply c = true) : onCaProfileResponseAfterRedirection C reply (fullNameOf c) = .ok p := by
  show onCaProfileResponseAfterRedirection C reply c.fullName = .ok p
  simp [onCaProfileResponseAfterRedirection, onCaProfileResponse, hd, hc, hv]

/-- C65, what is returned: the reply verified under the certificate of the profile. -/
theorem C65_profile_verified (reply : Data) (p : CaProfile) (h : onCaProfileResponse C reply = .ok p) :
    infoDecode C reply.content = .ok p ∧ ∃ c, p.cert = some c ∧ C.verifyData reply c = true := by
  unfold onCaProfileResponse at h
  obtain ⟨q, h1, h⟩ := Res.bind_eq_ok.mp h
  split at h
  · cases h
  rename_i c hc
  split at h
  · rename_i hv
    cases h
    exact ⟨h1, c, hc, hv⟩
  · cases h

/-- C65 is false of the code: a profile without a certificate makes it dereference a null pointer. -/
theorem C65_false : ∃ reply : Data, ∀ C, onCaProfileResponse C reply = .ub .nullDeref ∧
    ∀ fullName, onCaProfileResponseAfterRedirection C reply fullName = .ub .nullDeref :=
  ⟨⟨[], mkBlock T.Content [binBlock T.CaInfo (bytes! "hello")], []⟩, fun C => ⟨rfl, fun _ => rfl⟩⟩

/-- C65, what is missing: the behaviour is undefined exactly if the reply decodes to a profile without certificate. -/
theorem C65_undefined_iff_partial (reply : Data) :
    (∃ u, onCaProfileResponse C reply = .ub u) ↔ ∃ p, infoDecode C reply.content = .ok p ∧ p.cert = none := by
  constructor
  · rintro ⟨u, h⟩
    unfold onCaProfileResponse at h
    rcases Res.of_bind_ub h with h | ⟨p, h1, h⟩
    · exact absurd h (infoDecode_no_ub _ _)
    · split at h
      · exact ⟨p, h1, by assumption⟩
      · split at h <;> cases h
  · rintro ⟨p, h1, h2⟩
    refine ⟨.nullDeref, ?_⟩
    simp [onCaProfileResponse, h1, h2]

/-- C65 for every reply whose content has a certificate element: a verified profile or an exception. -/
theorem C65_with_certificate_partial (reply : Data) (es : List Block) (hp : parse reply.content.val = .ok es)
    (hc : ∃ e ∈ es, e.typ = T.CaCertificate) :
    (∃ p c, onCaProfileResponse C reply = .ok p ∧ p.cert = some c ∧ C.verifyData reply c = true) ∨
      ∃ e, onCaProfileResponse C reply = .exc e := by
  cases h : onCaProfileResponse C reply with
  | ok p =>
    obtain ⟨_, c, h1, h2⟩ := C65_profile_verified reply p h
    exact .inl ⟨p, c, rfl, h1, h2⟩
  | exc e => exact .inr ⟨e, rfl⟩
  | ub u =>
    obtain ⟨p, h1, h2⟩ := (C65_undefined_iff_partial reply).mp ⟨u, h⟩
    unfold infoDecode at h1
    have : reply.content.elements = .ok es := hp
    rw [this] at h1
    exact absurd h2 (infoLoop_cert h1 (.inr hc))

/-! ## C66 -/

/-- C66, when nothing is generated for NEW -/
theorem C66_new_null (r : Request) (k : Name) (nb na : Time) (v : Block) :
    (genNewInterest C r k nb na v).2 = .ok none ↔ ¬ (r.profile.caPrefix <+: k) ∨ k = [] := by
  rw [← isPrefixOf_iff]
  unfold genNewInterest
  by_cases h1 : isPrefixOf r.profile.caPrefix k = false
  · rw [if_pos h1]; simp [h1]
  · rw [if_neg h1]
    by_cases h2 : k = []
    · rw [if_pos h2]; simp [h2]
    · rw [if_neg h2]
      have h1' : isPrefixOf r.profile.caPrefix k = true := by simpa using h1
      simp only [h1', h2, not_true_eq_false, or_self, iff_false]
      cases identityOfKeyName k with
      | ok id => cases C.keyPub k <;> simp
      | exc e => simp
      | ub u => simp

/-- C66, when an Interest is generated: for keys of the key chain below the CA prefix -/
theorem C66_new_some (r : Request) (k : Name) (nb na : Time) (v : Block) :
    (∃ i, (genNewInterest C r k nb na v).2 = .ok (some i)) ↔
      r.profile.caPrefix <+: k ∧ (∃ id c, k = id ++ [keyComponent, c]) ∧ ∃ pub, C.keyPub k = some pub := by
  constructor
  · rintro ⟨i, h⟩
    obtain ⟨id, pub, h1, h2, h3, _⟩ := genNewInterest_ok (r' := (genNewInterest C r k nb na v).1) (Prod.ext rfl h)
    exact ⟨(isPrefixOf_iff _ _).mp h1, ⟨id, identityOfKeyName_ok.mp h2⟩, pub, h3⟩
  · rintro ⟨h1, ⟨id, c, h2⟩, pub, h3⟩
    have e1 := (isPrefixOf_iff _ _).mpr h1
    have e2 := identityOfKeyName_ok.mpr ⟨c, h2⟩
    have e3 : k ≠ [] := by rw [h2]; simp
    unfold genNewInterest
    rw [if_neg (by simp [e1]), if_neg e3, e2]
    dsimp only
    rw [h3]
    exact ⟨_, rfl⟩

theorem roundPeriod_fits {nb na : Time} (h1 : 0 ≤ nb) (h2 : 0 ≤ na) (h3 : nb + nsPerSec < 2 ^ 37 * nsPerSec) (h4 : na < 2 ^ 37 * nsPerSec) :
    PeriodFits (roundPeriod nb na) := by
  unfold PeriodFits roundPeriod
  have e : nsPerSec = 1000000000 := rfl
  rw [e] at *
  refine ⟨((nb + (1000000000 - 1)) / 1000000000).toNat, (na / 1000000000).toNat, ?_, ?_, ?_⟩
  · have : ∀ x : Int, 0 ≤ x → x + 1000000000 < 2 ^ 37 * 1000000000 → ((x + (1000000000 - 1)) / 1000000000).toNat < 2 ^ 37 := by
      intro x _ _; omega
    exact this nb h1 h3
  · have : ∀ x : Int, 0 ≤ x → x < 2 ^ 37 * 1000000000 → (x / 1000000000).toNat < 2 ^ 37 := by
      intro x _ _; omega
    exact this na h2 h4
  · have : ∀ x : Int, 0 ≤ x → x.tdiv 1000000000 = ((x / 1000000000).toNat : Int) := by
      intro x hx
      rw [Int.tdiv_eq_ediv_of_nonneg hx]; omega
    have hb : ∀ x : Int, 0 ≤ x → 0 ≤ x + (1000000000 - 1) := by intro x _; omega
    rw [this _ (hb nb h1), this _ h2]

/-- a whole number of seconds is kept -/
theorem roundPeriod_whole {a b : Nat} : roundPeriod (a * nsPerSec) (b * nsPerSec) = (a * nsPerSec, b * nsPerSec) := by
  unfold roundPeriod
  have e : nsPerSec = 1000000000 := rfl
  rw [e]
  have h1 : ∀ x : Nat, ((x : Int) * 1000000000 + (1000000000 - 1)).tdiv 1000000000 = x := by
    intro x
    rw [Int.tdiv_eq_ediv_of_nonneg (by omega)]; omega
  have h2 : ∀ x : Nat, ((x : Int) * 1000000000).tdiv 1000000000 = x := by
    intro x
    rw [Int.tdiv_eq_ediv_of_nonneg (by omega)]; omega
  rw [h1, h2]

theorem new_request (hC : C.Honest) (r : Request) (k : Name) (nb na : Time) (v : Block) (i : Interest)
    (h : (genNewInterest C r k nb na v).2 = .ok (some i))
    (hk : NameFits k) (hn : NameFits (k ++ [gcomp (bytes! "cert-request"), v]))
    (h1 : 0 ≤ nb) (h2 : 0 ≤ na) (h3 : nb + nsPerSec < 2 ^ 37 * nsPerSec) (h4 : na < 2 ^ 37 * nsPerSec)
    (hl : ∀ b, i.params = some b → b.val.length < 2 ^ 64) :
    ∃ pub cert, C.keyPub k = some pub ∧ r.profile.caPrefix ++ [caComp, newComp] <+: i.name ∧
      requestParamsDecode C i.params .new = .ok (C.ecdhPub r.ecdhPriv, cert) ∧
      cert.name = k ++ [gcomp (bytes! "cert-request"), v] ∧ cert.content = some pub ∧ cert.validity = some (roundPeriod nb na) ∧
      C.verifyInterest i cert = true ∧ C.verifyCert cert cert = true := by
  obtain ⟨id, pub, g1, g2, g3, _, rfl⟩ := genNewInterest_ok (r' := (genNewInterest C r k nb na v).1) (Prod.ext rfl h)
  obtain ⟨kc, hkc⟩ := identityOfKeyName_ok.mp g2
  have hl' := hl _ rfl
  have hper := roundPeriod_fits h1 h2 h3 h4
  have hvalid : isValidCertName (k ++ [gcomp (bytes! "cert-request"), v]) = true := by
    rw [hkc]; simp [isValidCertName]
  have hwlen : (C.keySignCert k (k ++ [gcomp (bytes! "cert-request"), v]) pub (roundPeriod nb na)).1.val.length < 2 ^ 64 := by
    have m : nestedBlock T.CertRequest (keySignedCert C k (k ++ [gcomp (bytes! "cert-request"), v]) pub (roundPeriod nb na)).wire ∈
      [binBlock T.EcdhPub (C.ecdhPub r.ecdhPriv), nestedBlock T.CertRequest (keySignedCert C k (k ++ [gcomp (bytes! "cert-request"), v]) pub (roundPeriod nb na)).wire] := by simp
    have m1 := mem_encodeAll_length m
    have m2 : (keySignedCert C k (k ++ [gcomp (bytes! "cert-request"), v]) pub (roundPeriod nb na)).wire.val.length ≤
      (nestedBlock T.CertRequest (keySignedCert C k (k ++ [gcomp (bytes! "cert-request"), v]) pub (roundPeriod nb na)).wire).val.length := encode_length_ge _
    have m3 : (encodeAll [binBlock T.EcdhPub (C.ecdhPub r.ecdhPriv), nestedBlock T.CertRequest (keySignedCert C k (k ++ [gcomp (bytes! "cert-request"), v]) pub (roundPeriod nb na)).wire]).length < 2 ^ 64 := hl'
    exact Nat.lt_of_le_of_lt (Nat.le_trans m2 m1) m3
  have hdec := hC.cert_decodes k _ pub _ hk hn hvalid hper hwlen
  refine ⟨pub, _, g3, ?_, C03_params_roundtrip C .new _ _ (.inl rfl) hdec (hC.decode_wire _ _ hdec).2 hl', rfl, rfl, rfl,
    hC.interest_verifies k pub _ _ _ g3 rfl, hC.cert_verifies k pub _ pub _ _ g3 rfl hk hn hwlen⟩
  simp [signedInterest]

/-- C66, what is generated: an Interest below `<CA prefix>/CA/NEW` whose parameters decode, at the CA, to the requester's
ECDH key and to a self-signed certificate named `<key name>/cert-request/<version>` with the caller's public key and
validity period (rounded to seconds inside the period), and whose signature verifies under that certificate. -/
theorem C66_new_request (hC : C.Honest) (r : Request) (k : Name) (nb na : Time) (v : Block) (i : Interest)
    (h : (genNewInterest C r k nb na v).2 = .ok (some i))
    (hk : NameFits k) (hn : NameFits (k ++ [gcomp (bytes! "cert-request"), v]))
    (h1 : 0 ≤ nb) (h2 : 0 ≤ na) (h3 : nb + nsPerSec < 2 ^ 37 * nsPerSec) (h4 : na < 2 ^ 37 * nsPerSec)
    (hl : ∀ b, i.params = some b → b.val.length < 2 ^ 64) :
    ∃ pub cert, C.keyPub k = some pub ∧ r.profile.caPrefix ++ [caComp, newComp] <+: i.name ∧
      requestParamsDecode C i.params .new = .ok (C.ecdhPub r.ecdhPriv, cert) ∧
      cert.name = k ++ [gcomp (bytes! "cert-request"), v] ∧ cert.content = some pub ∧ (∃ p, cert.validity = some p ∧ SecondsInside nb na p) ∧
      C.verifyInterest i cert = true ∧ C.verifyCert cert cert = true := by
  obtain ⟨pub, cert, g1, g2, g3, g4, g5, g6, g7⟩ := new_request hC r k nb na v i h hk hn h1 h2 h3 h4 hl
  exact ⟨pub, cert, g1, g2, g3, g4, g5, ⟨_, g6, roundPeriod_inwards h1 h2⟩, g7⟩

/-- the hypotheses hold in the concrete run -/
example : (genNewInterest Fix.C Fix.requester Fix.key (1000 * nsPerSec) (4600 * nsPerSec) ⟨54, [2]⟩).2 = .ok (some Fix.newInterest) ∧
    NameFits Fix.key ∧ NameFits (Fix.key ++ [gcomp (bytes! "cert-request"), ⟨54, [2]⟩]) ∧
    (∃ b, Fix.newInterest.params = some b ∧ b.val.length < 2 ^ 64) ∧ Fix.C.Honest :=
  ⟨by decide +kernel, by decide +kernel, by decide +kernel, ⟨(Fix.newInterest.params.getD ⟨0, []⟩), by decide +kernel, by decide +kernel⟩, Toy.honest⟩

/-- nothing is generated for a key that is not below the CA prefix -/
example : (genNewInterest Fix.C Fix.requester [gcomp (bytes! "com"), keyComponent, gcomp [1]] 0 0 ⟨54, [2]⟩).2 = .ok none := by decide +kernel

/-- C66 for REVOKE: nothing is generated exactly for certificates outside the CA prefix; otherwise the Interest is
named below `<CA prefix>/CA/REVOKE` and decodes, at the CA, to the requester's ECDH key and the certificate. -/
theorem C66_revoke (hC : C.Lawful) (r : Request) (cert : Cert) :
    (genRevokeInterest C r cert = none ↔ ¬ (r.profile.caPrefix <+: cert.name)) ∧
    ∀ i, genRevokeInterest C r cert = some i → C.decodeCert cert.wire = some cert → (∀ b, i.params = some b → b.val.length < 2 ^ 64) →
      r.profile.caPrefix ++ [caComp, revokeComp] <+: i.name ∧ requestParamsDecode C i.params .revoke = .ok (C.ecdhPub r.ecdhPriv, cert) := by
  rw [← isPrefixOf_iff]
  unfold genRevokeInterest
  refine ⟨by split <;> simp_all, fun i h hd hl => ?_⟩
  split at h
  · cases h
  · cases h
    exact ⟨by simp [plainInterest], C03_params_roundtrip C .revoke _ _ (.inr rfl) hd (hC.decode_wire _ _ hd).2 (hl _ rfl)⟩

example : ∃ i, genRevokeInterest Fix.C Fix.requester Fix.revCert = some i ∧ Fix.C.decodeCert Fix.revCert.wire = some Fix.revCert ∧
    ∀ b, i.params = some b → b.val.length < 2 ^ 64 := by
  refine ⟨(genRevokeInterest Fix.C Fix.requester Fix.revCert).getD Fix.blankInterest, by decide +kernel, by decide +kernel, ?_⟩
  have : ((genRevokeInterest Fix.C Fix.requester Fix.revCert).getD Fix.blankInterest).params.all (fun b => decide (b.val.length < 2 ^ 64)) = true := by
    decide +kernel
  intro b hb
  rw [hb] at this
  simpa using this

/-! ## C67 -/

/-- the states of an honest requester: no challenge started yet, or the CA waits for a code -/
def Prompting (st : Status) (chalStatus : Bytes) : Prop :=
  (st = .beforeChallenge ∧ chalStatus = []) ∨ (st = .challenge ∧ (chalStatus = bytes! "need-code" ∨ chalStatus = bytes! "wrong-code"))

theorem singleton_of_keys {params : MMap} {k : Bytes} (h : params.map (·.1) = [k]) : ∃ v, params = [(k, v)] := by
  match params, h with
  | [(a, v)], h => simp only [List.map_cons, List.map_nil, List.cons.injEq, and_true] at h; exact ⟨v, by rw [h]⟩

theorem keys_of_find {params : MMap} {k v : Bytes} (hl : params.length = 1) (h : mmFind params k = some v) : params.map (·.1) = [k] := by
  match params, hl with
  | [(a, w)], _ =>
    rcases Classical.em (a = k) with rfl | hne
    · rfl
    · simp [mmFind, hne] at h

/-- C67, first half: for pin and email, in each state, filling in exactly the parameters that were asked for is accepted;
when something is asked for, nothing else is. -/
theorem C67_prompts (k : ChalKind) (hk : k = .pin ∨ k = .email) (st : Status) (cs : Bytes) (hs : Prompting st cs) :
    ∃ keys, requestedParams k st cs = .ok keys ∧
      (keys = if st ≠ .beforeChallenge then [bytes! "code"] else if k = .email then [bytes! "email"] else []) ∧
      (∀ params : MMap, params.map (·.1) = keys → ∃ es, genChallengeTlv k st cs params = .ok es) ∧
      (keys ≠ [] → ∀ params es, genChallengeTlv k st cs params = .ok es → params.map (·.1) = keys) := by
  have hcode : ∀ k, (∀ params : MMap, params.map (·.1) = [KEY_CODE] → ∃ es, genCodeTlv k params = .ok es) ∧
      ∀ params es, genCodeTlv k params = .ok es → params.map (·.1) = [KEY_CODE] := by
    intro k
    refine ⟨fun params h => ?_, fun params es h => ?_⟩
    · obtain ⟨v, rfl⟩ := singleton_of_keys h
      exact ⟨_, rfl⟩
    · unfold genCodeTlv at h
      split at h
      · cases h
      rename_i hl
      split at h
      · cases h
      rename_i v hv
      exact keys_of_find (by simpa using hl) hv
  have ne : Status.challenge ≠ Status.beforeChallenge := by decide
  rcases hk with rfl | rfl
  · rcases hs with ⟨rfl, rfl⟩ | ⟨rfl, hc⟩
    · exact ⟨[], rfl, by decide, fun params _ => ⟨_, rfl⟩, fun h => absurd rfl h⟩
    · have hc : cs = NEED_CODE ∨ cs = WRONG_CODE := hc
      refine ⟨[KEY_CODE], ?_, by decide, ?_, fun _ => ?_⟩
      · rcases hc with rfl | rfl <;> rfl
      · intro params hp
        obtain ⟨es, he⟩ := (hcode .pin).1 params hp
        exact ⟨es, by simp [genChallengeTlv, hc, he]⟩
      · intro params es h
        refine (hcode .pin).2 params es ?_
        simpa [genChallengeTlv, hc] using h
  · rcases hs with ⟨rfl, rfl⟩ | ⟨rfl, hc⟩
    · refine ⟨[KEY_EMAIL], rfl, by decide, fun params hp => ?_, fun _ params es h => ?_⟩
      · obtain ⟨v, rfl⟩ := singleton_of_keys hp
        exact ⟨_, rfl⟩
      · unfold genChallengeTlv at h
        dsimp only at h
        rw [if_pos rfl] at h
        split at h
        · cases h
        rename_i hl
        split at h
        · cases h
        rename_i v hv
        exact keys_of_find (by simpa using hl) hv
    · have hc : cs = NEED_CODE ∨ cs = WRONG_CODE := hc
      refine ⟨[KEY_CODE], ?_, by decide, ?_, fun _ => ?_⟩
      · rcases hc with rfl | rfl <;> rfl
      · intro params hp
        obtain ⟨es, he⟩ := (hcode .email).1 params hp
        exact ⟨es, by simp [genChallengeTlv, hc, he]⟩
      · intro params es h
        refine (hcode .email).2 params es ?_
        simpa [genChallengeTlv, hc] using h

/-- C67, second half, first message: the CA's module of the same type starts the challenge; the email goes to the address
that was typed in. -/
theorem C67_start_understood (env : Env) (r : RequestState) (hr : r.status = .beforeChallenge) :
    (∀ params es, genChallengeTlv .pin .beforeChallenge [] params = .ok es →
      Picks es .pin ∧ ∃ out cs, handleChallenge C .pin env es r = .ok out ∧ out.code = 0 ∧ out.req.status = .challenge ∧
        out.req.challengeState = some cs ∧ cs.challengeStatus = bytes! "need-code" ∧ out.mails = []) ∧
    (∀ addr es, genChallengeTlv .email .beforeChallenge [] [(bytes! "email", addr)] = .ok es → identityOf r.cert.name ≠ [] → env.spawnOk = true →
      Picks es .email ∧ ∃ out cs, handleChallenge C .email env es r = .ok out ∧ out.code = 0 ∧ out.req.status = .challenge ∧
        out.req.challengeState = some cs ∧ cs.challengeStatus = bytes! "need-code" ∧ out.mails.map (·.address) = [addr]) := by
  refine ⟨fun params es h => ?_, fun addr es h hid hsp => ?_⟩
  · cases h
    refine ⟨⟨_, rfl, rfl⟩, ?_⟩
    unfold handleChallenge handlePin
    dsimp only
    rw [if_pos hr]
    exact ⟨_, _, rfl, rfl, rfl, rfl, rfl, rfl⟩
  · cases h
    refine ⟨⟨_, rfl, rfl⟩, ?_⟩
    unfold handleChallenge handleEmail
    dsimp only
    rw [if_pos hr]
    have e : getElem [binBlock T.SelectedChallenge ChalKind.email.chalType, binBlock T.ParameterKey KEY_EMAIL,
      binBlock T.ParameterValue addr] T.ParameterValue = .ok (binBlock T.ParameterValue addr) := rfl
    rw [e]
    simp only [Res.bind_ok]
    have hid : r.cert.identity ≠ [] := hid
    rw [if_neg hid, if_neg (by simp [hsp])]
    exact ⟨_, _, rfl, rfl, rfl, rfl, rfl, rfl⟩

/-- C67, second half, later messages: the code that was typed in is the one the CA's module of the same type compares
with the code it waits for. -/
theorem C67_code_understood (k : ChalKind) (hk : k = .pin ∨ k = .email) (cs : Bytes) (hs : cs = bytes! "need-code" ∨ cs = bytes! "wrong-code")
    (typed : Bytes) (es : List Block) (h : genChallengeTlv k .challenge cs [(bytes! "code", typed)] = .ok es)
    (env : Env) (r : RequestState) (hr : r.status ≠ .beforeChallenge) (c : ChallengeState) (code : Bytes) (hc : AwaitsCode r c code)
    (ht : env.now - c.timestamp < secretLifetime k) :
    Picks es k ∧ ∃ out, handleChallenge C k env es r = .ok out ∧
      (typed = code → out.code = 0 ∧ out.req.status = .pending) ∧
      (typed ≠ code → 1 < c.remainingTries → out.code = 0 ∧ out.req.status = .challenge ∧
        ∃ c', out.req.challengeState = some c' ∧ c'.challengeStatus = bytes! "wrong-code" ∧ c'.remainingTries = c.remainingTries - 1 ∧ c'.secrets = c.secrets) ∧
      (typed ≠ code → c.remainingTries ≤ 1 → out.code = ErrorCode.OUT_OF_TRIES ∧ out.req.status = .failure) := by
  have hs : cs = NEED_CODE ∨ cs = WRONG_CODE := hs
  have hes : es = [binBlock T.SelectedChallenge k.chalType, binBlock T.ParameterKey KEY_CODE, binBlock T.ParameterValue typed] := by
    have ne : Status.challenge ≠ Status.beforeChallenge := by decide
    have hg : genCodeTlv k [(KEY_CODE, typed)] = .ok es := by
      have h : genChallengeTlv k .challenge cs [(KEY_CODE, typed)] = .ok es := h
      rcases hk with rfl | rfl <;> simpa [genChallengeTlv, hs] using h
    cases hg
    rfl
  have hcode : handleChallenge C k env es r = handleCode k env es r := by
    rcases hk with rfl | rfl
    · unfold handleChallenge handlePin; dsimp only; rw [if_neg hr]
    · unfold handleChallenge handleEmail; dsimp only; rw [if_neg hr]
  obtain ⟨h1, h2, h3⟩ := hc
  have h2 : c.challengeStatus = NEED_CODE ∨ c.challengeStatus = WRONG_CODE := h2
  have h3 : secretGet c.secrets KEY_CODE = .ok code := h3
  subst hes
  refine ⟨⟨_, rfl, by rcases hk with rfl | rfl <;> rfl⟩, ?_⟩
  rw [hcode]
  unfold handleCode
  rw [h1]
  dsimp only
  rw [if_pos h2]
  have e : getElem [binBlock T.SelectedChallenge k.chalType, binBlock T.ParameterKey KEY_CODE,
      binBlock T.ParameterValue typed] T.ParameterValue = .ok (binBlock T.ParameterValue typed) := rfl
  rw [e]
  simp only [Res.bind_ok]
  have ht' : ¬ (k.lifetime * nsPerSec ≤ env.now - c.timestamp) := by rw [lifetime_ns]; exact Int.not_le.mpr ht
  rw [if_neg ht', h3]
  simp only [Res.bind_ok]
  rcases Classical.em (readString (binBlock T.ParameterValue typed) = code) with he | he
  · rw [if_pos he]
    exact ⟨_, rfl, fun _ => ⟨rfl, rfl⟩, fun h => absurd he h, fun h => absurd he h⟩
  · rw [if_neg he]
    rcases Classical.em (c.remainingTries > 1) with hn | hn
    · rw [if_pos hn]
      exact ⟨_, rfl, fun h => absurd h he, fun _ _ => ⟨rfl, rfl, _, rfl, rfl, rfl, rfl⟩, fun _ h => absurd hn (by omega)⟩
    · rw [if_neg hn]
      exact ⟨_, rfl, fun h => absurd h he, fun _ h => absurd h hn, fun _ _ => ⟨rfl, rfl⟩⟩

def exWaiting : RequestState :=
  { caPrefix := Fix.ca, requestId := List.replicate 8 1, requestType := .new, status := .challenge, cert := exCert,
    encryptionKey := List.replicate 16 9, challengeType := bytes! "pin"
    challengeState := some { challengeStatus := NEED_CODE, timestamp := 1001 * nsPerSec, remainingTries := 3, remainingTime := 3600,
                             secrets := [(KEY_CODE, bytes! "123456")] } }

example : ∃ r c code, r.status ≠ Status.beforeChallenge ∧ AwaitsCode r c code ∧
    (Fix.env 1002).now - c.timestamp < secretLifetime .pin ∧ 1 < c.remainingTries ∧
    ∃ es, genChallengeTlv .pin .challenge NEED_CODE [(KEY_CODE, code)] = .ok es :=
  ⟨exWaiting, _, bytes! "123456", by decide, ⟨rfl, .inl rfl, rfl⟩, by decide, by decide, _, rfl⟩

/-! ## C69 -/

/-- C69 as stated: a certificate is only returned if it is signed with the CA's key -/
def FetchesVerified : Prop := ∀ (C : Crypto) (caCert : Cert) (wire : Block) (cert : Cert), C.Honest →
  onCertFetchResponse C wire = .ok cert → C.verifyCert cert caCert = true

/-- C69 is false of the code: the signature of the fetched certificate is not checked. -/
theorem C69_false : ¬ FetchesVerified := by
  intro H
  have h := H Fix.C Fix.caCert (Toy.wire (Fix.key ++ [gcomp (bytes! "evil"), gcomp [1]]) (some [7]) (some Fix.key) (some (0, nsPerSec)) [6, 6, 6])
    ((Fix.C.decodeCert (Toy.wire (Fix.key ++ [gcomp (bytes! "evil"), gcomp [1]]) (some [7]) (some Fix.key) (some (0, nsPerSec)) [6, 6, 6])).getD Fix.caCert)
    Toy.honest (by decide +kernel)
  revert h
  decide +kernel

/-- C69, what remains: the packet is returned as it is, and has the name of a certificate. -/
theorem C69_unchanged_partial (hC : C.Lawful) (wire : Block) (cert : Cert) (h : onCertFetchResponse C wire = .ok cert) :
    cert.wire = wire ∧ IsCertName cert.name := by
  unfold onCertFetchResponse at h
  cases hd : C.decodeCert wire with
  | none => rw [hd] at h; cases h
  | some c =>
    rw [hd] at h
    cases h
    exact ⟨(hC.decode_wire _ _ hd).1, (isCertName_iff _).mp (hC.decode_name _ _ hd)⟩

/-! ## C71 -/

theorem nameFits_prefix {a b : Name} (h : NameFits (a ++ b)) : NameFits a := by
  refine ⟨fun c hc => h.1 c (List.mem_append_left _ hc), ?_⟩
  have := h.2
  rw [show encodeAll (a ++ b) = encodeAll a ++ encodeAll b by simp [encodeAll]] at this
  rw [List.length_append] at this
  omega

/-- C71, first half: from the CA's metadata reply the requester derives exactly the name of the profile Data. -/
theorem C71_profile_name (p : CaProfile) (version metaVersion : Block) (hf : NameFits (p.caPrefix ++ [caComp, infoComp, version])) :
    genProfileName (onCaProfileDiscovery C p (profileDataName p version) metaVersion) = .ok (profileDataName p version) := by
  have hv : (profileDataName p version).take ((profileDataName p version).length - 1) = p.caPrefix ++ [caComp, infoComp, version] := by
    have : profileDataName p version = (p.caPrefix ++ [caComp, infoComp, version]) ++ [segmentZero] := by simp [profileDataName]
    rw [this]
    rw [List.length_append, List.take_left' (by simp)]
  unfold genProfileName onCaProfileDiscovery mkData
  dsimp only
  rw [hv, elements_mkBlock _ _ (by simpa using nameBlock_fits _ hf)]
  simp only [Res.bind_ok]
  have e : getElem [nameBlock (p.caPrefix ++ [caComp, infoComp, version])] T.Name = .ok (nameBlock (p.caPrefix ++ [caComp, infoComp, version])) := rfl
  rw [e]
  simp only [Res.bind_ok]
  rw [nameOfBlock_nameBlock _ hf.1]
  simp [profileDataName]

/-- C71, second half as stated: the discovery Interest matches the CA's filter and the CA's metadata reply satisfies it,
whether the requester was given the CA's prefix or the prefix followed by `CA`. -/
def DiscoveryReaches (C : Crypto) (p : CaProfile) : Prop :=
  ∀ name, name = p.caPrefix ∨ name = p.caPrefix ++ [gcomp (bytes! "CA")] →
    ∃ n, genDiscoveryName name = .ok n ∧ discoveryFilter p <+: n ∧
      ∀ version metaVersion, n <+: (onCaProfileDiscovery C p (profileDataName p version) metaVersion).name

/-- C71 is false of the code for CA prefixes that end in `CA`: no further `CA` is appended. -/
theorem C71_false : ∃ p : CaProfile, p.caPrefix ≠ [] ∧ ¬ DiscoveryReaches Fix.C p := by
  refine ⟨{ Fix.profile with caPrefix := [gcomp (bytes! "ndn"), caComp] }, by simp, ?_⟩
  intro H
  obtain ⟨n, h, hp, _⟩ := H _ (.inl rfl)
  rw [← isPrefixOf_iff] at hp
  cases h
  revert hp
  decide

/-- C71, second half, for all other prefixes -/
theorem C71_discovery_partial (p : CaProfile) (c : Block) (hc : p.caPrefix.getLast? = some c) (hn : c.val ≠ bytes! "CA") : DiscoveryReaches C p := by
  have hname : ∀ version metaVersion, discoveryFilter p <+: (onCaProfileDiscovery C p (profileDataName p version) metaVersion).name := by
    intro version metaVersion
    have h : (profileDataName p version).take ((profileDataName p version).length - 2) = p.caPrefix ++ [caComp, infoComp] := by
      have : profileDataName p version = (p.caPrefix ++ [caComp, infoComp]) ++ [version, segmentZero] := by simp [profileDataName]
      rw [this, List.length_append, List.take_left' (by simp)]
    refine ⟨[metaVersion, segmentZero], ?_⟩
    show _ = (profileDataName p version).take ((profileDataName p version).length - 2) ++ [metadataComp] ++ [metaVersion, segmentZero]
    rw [h]
    simp [discoveryFilter]
  rintro name (rfl | rfl)
  · refine ⟨discoveryFilter p, ?_, List.prefix_rfl, hname⟩
    unfold genDiscoveryName
    rw [hc]
    dsimp only
    rw [if_neg (show ¬ readString c = bytes! "CA" from hn)]
    simp [discoveryFilter]
  · refine ⟨discoveryFilter p, ?_, List.prefix_rfl, hname⟩
    unfold genDiscoveryName
    rw [List.getLast?_append]
    simp [caComp, gcomp, readString, discoveryFilter]

example : ∃ c, Fix.profile.caPrefix.getLast? = some c ∧ c.val ≠ bytes! "CA" := ⟨gcomp (bytes! "ndn"), rfl, by decide⟩

/-- C71, to the end: what a requester decodes from the CA's profile Data is the CA's profile, and it is accepted. -/
theorem C71_profile_received (hC : C.Honest) (p : CaProfile) (c : Cert) (version : Block) (d : Data)
    (hdec : C.decodeCert c.wire = some c) (hpub : c.content = some (C.idPub p.caPrefix)) (hw : Name.Wf p.caPrefix)
    (hmv : -(2 ^ 63) ≤ p.maxValidityPeriod) (hmv2 : p.maxValidityPeriod < 2 ^ 63)
    (hd : getCaProfileData C p c version = .ok d) (hl : d.content.val.length < 2 ^ 64) :
    d.name = profileDataName p version ∧ ∃ q, onCaProfileResponse C d = .ok q ∧ q.caPrefix = p.caPrefix ∧
      q.probeParameterKeys = p.probeParameterKeys ∧ q.maxValidityPeriod = p.maxValidityPeriod ∧ q.cert = some c := by
  unfold getCaProfileData at hd
  obtain ⟨b, hb, hd⟩ := Res.bind_eq_ok.mp hd
  cases hd
  refine ⟨rfl, ?_⟩
  obtain ⟨q, h1, h2, h3, h4, h5, _⟩ := C09_profile_roundtrip C p c b hdec (hC.decode_wire _ _ hdec).2 hw hmv hmv2 hb hl
  refine ⟨q, ?_, h2, h3, h4, h5⟩
  have hv : C.verifyData (mkData C p.caPrefix (profileDataName p version) b) c = true := hC.data_verifies p.caPrefix (profileDataName p version) b c hpub
  have hcont : (mkData C p.caPrefix (profileDataName p version) b).content = b := rfl
  unfold onCaProfileResponse
  rw [hcont, h1]
  simp only [Res.bind_ok]
  rw [h5]
  dsimp only
  rw [if_pos hv]

/-- a CA certificate that can be sent and received -/
def exNdnWire : Block :=
  Toy.wire (Fix.ca ++ [keyComponent, gcomp [1], gcomp (bytes! "self"), gcomp [1]]) (some (Toy.idPub Fix.ca)) (some Fix.ca) (some (0, 1000 * nsPerSec)) [1]
def exNdnCert : Cert := (Fix.C.decodeCert exNdnWire).getD Fix.caCert
def exProfileData : Data :=
  match getCaProfileData Fix.C Fix.profile exNdnCert ⟨54, [9]⟩ with | .ok d => d | _ => ⟨[], ⟨0, []⟩, []⟩

/-- the hypotheses of `C71_profile_name` and `C71_profile_received` hold for it -/
example : NameFits (Fix.profile.caPrefix ++ [caComp, infoComp, ⟨54, [9]⟩]) ∧ Fix.C.Honest ∧ Fix.C.decodeCert exNdnCert.wire = some exNdnCert ∧
    exNdnCert.content = some (Fix.C.idPub Fix.profile.caPrefix) ∧ Name.Wf Fix.profile.caPrefix ∧ -(2 ^ 63) ≤ Fix.profile.maxValidityPeriod ∧
    Fix.profile.maxValidityPeriod < 2 ^ 63 ∧ getCaProfileData Fix.C Fix.profile exNdnCert ⟨54, [9]⟩ = .ok exProfileData ∧
    exProfileData.content.val.length < 2 ^ 64 := by
  refine ⟨by decide +kernel, Toy.honest, by decide +kernel, by decide +kernel, ?_, by decide, by decide, by decide +kernel, by decide +kernel⟩
  simp [Name.Wf, Fix.profile, Fix.ca, gcomp]

/-- it is accepted after a redirection that announced its certificate, and refused after one that announced another -/
example : (∃ p, onCaProfileResponseAfterRedirection Fix.C exProfileData (fullNameOf exNdnCert) = .ok p) ∧
    onCaProfileResponseAfterRedirection Fix.C exProfileData (fullNameOf Fix.caCert) = .exc .runtime ∧
    (∃ es, parse exProfileData.content.val = .ok es ∧ ∃ e ∈ es, e.typ = T.CaCertificate) := by
  refine ⟨⟨_, C64_accepts exProfileData (match infoDecode Fix.C exProfileData.content with | .ok p => p | _ => {}) exNdnCert
    (by decide +kernel) (by decide +kernel) (by decide +kernel)⟩, by decide +kernel,
    (match parse exProfileData.content.val with | .ok es => es | _ => []), by decide +kernel, by decide +kernel⟩

end Ndncert.Props
