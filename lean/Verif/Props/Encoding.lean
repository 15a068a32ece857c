import Verif.Lemmas.Probe
import Verif.Lemmas.Order
import Verif.Spec.Toy

/-! # Properties C01 - C10, C12: the wire formats -/

namespace Ndncert.Props

/-- NDN packet format: types 0..31 and odd types are critical -/
def Critical (t : Nat) : Prop := t ≤ 31 ∨ t % 2 = 1

theorem critical_iff (t : Nat) : isCriticalType t = true ↔ Critical t := by
  simp [isCriticalType, Critical]

theorem not_critical_iff (t : Nat) : isCriticalType t = false ↔ ¬ Critical t := by
  rw [← critical_iff]; simp

/-! ## C01 -/

/-- C01, first part: encoding an error and decoding it gives the same code and description. -/
theorem C01_error_roundtrip (code : Nat) (info : Bytes) (hc : code < 2 ^ 64) (hi : info.length < 2 ^ 64) :
    errorDecode (errorEncode code info) = (code, info) := by
  have he : (errorEncode code info).elements = .ok [nniBlock T.ErrorCode code, binBlock T.ErrorInfo info] := by
    apply elements_mkBlock
    intro b hb
    simp at hb
    rcases hb with rfl | rfl
    · exact nniBlock_fits _ _ (by decide) (by decide)
    · exact binBlock_fits _ _ (by decide) (by decide) hi
  have h1 : readNni (nniBlock T.ErrorCode code) = .ok code := readNni_nniBlock_of_lt _ _ hc
  simp only [T.ErrorCode] at h1
  simp [errorDecode, errorDecodeBody, he, errorStep, getElem, h1]

/-- what the requester keeps across an error reply: everything -/
theorem C01_probe_error (C : Crypto) (ca : CaProfile) (cert : Cert) (d : Data) (code : Nat) (info : Bytes)
    (names : List (Name × Int)) (cas : List Name)
    (hcert : ca.cert = some cert) (hv : C.verifyData d cert = true) (hd : d.content = errorEncode code info)
    (h0 : code ≠ 0) (hc : code < 2 ^ 64) (hi : info.length < 2 ^ 64) :
    onProbeResponse C d ca names cas = .exc (.caError code info) := by
  have := C01_error_roundtrip code info hc hi
  simp [onProbeResponse, checkReply, hcert, hv, processIfError, hd, this, h0]

/-- C01, NEW/REVOKE replies: the call throws with the code and description, and the requester state is unchanged. -/
theorem C01_new_error (C : Crypto) (r : Request) (cert : Cert) (d : Data) (code : Nat) (info stack : Bytes)
    (hcert : r.profile.cert = some cert) (hv : C.verifyData d cert = true) (hd : d.content = errorEncode code info)
    (h0 : code ≠ 0) (hc : code < 2 ^ 64) (hi : info.length < 2 ^ 64) :
    onNewResponse C r d stack = (r, .exc (.caError code info)) := by
  have := C01_error_roundtrip code info hc hi
  simp [onNewResponse, checkReply, hcert, hv, processIfError, hd, this, h0]

/-- C01, CHALLENGE replies. -/
theorem C01_challenge_error (C : Crypto) (r : Request) (cert : Cert) (d : Data) (code : Nat) (info : Bytes)
    (now : Time) (hcert : r.profile.cert = some cert) (hv : C.verifyData d cert = true)
    (hd : d.content = errorEncode code info) (h0 : code ≠ 0) (hc : code < 2 ^ 64) (hi : info.length < 2 ^ 64) :
    onChallengeResponse C r d now = (r, .exc (.caError code info)) := by
  have := C01_error_roundtrip code info hc hi
  simp [onChallengeResponse, checkReply, hcert, hv, processIfError, hd, this, h0]

/-- non-vacuity: a concrete requester, CA certificate and signed error reply -/
def exCaCert : Cert :=
  { wire := ⟨6, []⟩, name := [gcomp [65]], content := some (Toy.idPub [gcomp [65]]), keyLocator := none,
    validity := some (0, 1000000000000000000), digest := [] }
def exProfile : CaProfile := { caPrefix := [gcomp [65]], cert := some exCaCert, maxValidityPeriod := 86400 }
def exRequester : Request :=
  { profile := exProfile, type := .new, requestId := List.replicate 8 0, ecdhPriv := [1, 2], aesKey := List.replicate 16 0,
    nonce := List.replicate 16 0 }

example : ∃ (C : Crypto) (r : Request) (cert : Cert) (d : Data), r.profile.cert = some cert ∧
    C.verifyData d cert = true ∧ d.content = errorEncode 6 (bytes! "bad") := by
  refine ⟨Toy.crypto, exRequester, exCaCert,
    mkData Toy.crypto [gcomp [65]] [gcomp [66]] (errorEncode 6 (bytes! "bad")), rfl, ?_, rfl⟩
  exact Toy.honest.data_verifies _ _ _ _ rfl

/-! ## C02 -/

/-- C02: PROBE replies of the CA are never classified as errors. -/
theorem C02_probe_not_error (ids : List Name) (ms : Option Nat) (reds : List Name)
    (hl : (probeEncode ids ms reds).val.length < 2 ^ 64) (name : Name) (sig : Bytes) :
    processIfError ⟨name, probeEncode ids ms reds, sig⟩ = .ok () := by
  have he : (probeEncode ids ms reds).elements = .ok _ := elements_mkBlock _ _ (fits_of_total (by
      intro e he
      simp at he
      rcases he with ⟨_, _, rfl⟩ | ⟨_, _, rfl⟩ <;> simp [probeNameBlock]) hl)
  have := errorDecode_none he (by
    intro e he
    simp at he
    rcases he with ⟨_, _, rfl⟩ | ⟨_, _, rfl⟩ <;> simp [probeNameBlock])
  simp [processIfError, this]

/-- C02: NEW/REVOKE replies of the CA are never classified as errors. -/
theorem C02_request_not_error (pub salt : Bytes) (id : RequestId) (chs : List Bytes)
    (hl : (requestEncode pub salt id chs).val.length < 2 ^ 64) (name : Name) (sig : Bytes) :
    processIfError ⟨name, requestEncode pub salt id chs, sig⟩ = .ok () := by
  have he : (requestEncode pub salt id chs).elements = .ok _ := elements_mkBlock _ _ (fits_of_total (by
      intro e he
      simp at he
      rcases he with rfl | rfl | rfl | ⟨_, _, rfl⟩ <;> simp) hl)
  have := errorDecode_none he (by
    intro e he
    simp at he
    rcases he with rfl | rfl | rfl | ⟨_, _, rfl⟩ <;> simp)
  simp [processIfError, this]

/-- C02: CHALLENGE replies of the CA are never classified as errors. -/
theorem C02_challenge_not_error (C : Crypto) (r r' : RequestState) (issued hint : Name) (rnd : Bytes) (b : Block)
    (h : challengeEncode C r issued hint rnd = (r', .ok b)) (hl : b.val.length < 2 ^ 64) (name : Name) (sig : Bytes) :
    processIfError ⟨name, b, sig⟩ = .ok () := by
  unfold challengeEncode at h
  split at h
  · simp at h
  · simp at h
  · rename_i es _
    simp only [Prod.mk.injEq] at h
    obtain ⟨_, h⟩ := h
    have hb : ∃ iv tag ct, b = mkBlock T.Content [binBlock T.InitializationVector iv,
        binBlock T.AuthenticationTag tag, binBlock T.EncryptedPayload ct] := by
      unfold encodeAes at h
      dsimp only at h
      split at h
      · simp at h
      · split at h
        · simp only [Res.ok.injEq] at h
          exact ⟨_, _, _, h.symm⟩
        · simp at h
        · simp at h
    obtain ⟨iv, tag, ct, rfl⟩ := hb
    have he := elements_mkBlock T.Content [binBlock T.InitializationVector iv, binBlock T.AuthenticationTag tag,
      binBlock T.EncryptedPayload ct] (fits_of_total (by
        intro e he; simp at he
        rcases he with rfl | rfl | rfl <;> simp) hl)
    have := errorDecode_none he (by
      intro e he; simp at he
      rcases he with rfl | rfl | rfl <;> simp)
    simp [processIfError, this]

example : (probeEncode [[gcomp [65], gcomp [66]]] (some 2) [[gcomp [67]]]).val.length < 2 ^ 64 := by decide
example : (requestEncode [4, 1] (List.replicate 32 7) (List.replicate 8 9) [bytes! "pin"]).val.length < 2 ^ 64 := by
  decide
def exSuccess : RequestState :=
  { caPrefix := [gcomp [65]], requestId := List.replicate 8 1, cert := exCaCert,
    encryptionKey := List.replicate 16 2, status := .success }
example : ∃ r' b, challengeEncode Toy.crypto exSuccess [gcomp [65]] [] (List.replicate 8 3) = (r', .ok b) ∧
      b.val.length < 2 ^ 64 := by
  have h : (Toy.okOpt (challengeEncode Toy.crypto exSuccess [gcomp [65]] [] (List.replicate 8 3)).2).map
    (fun b => decide (b.val.length < 2 ^ 64)) = some true := by decide +kernel
  cases hb : challengeEncode Toy.crypto exSuccess [gcomp [65]] [] (List.replicate 8 3) with
  | mk r' res =>
    rw [hb] at h
    cases res with
    | ok b => exact ⟨r', b, rfl, by simpa [Toy.okOpt] using h⟩
    | exc e => simp [Toy.okOpt] at h
    | ub u => simp [Toy.okOpt] at h

/-! ## C03 -/

/-- C03: NEW and REVOKE parameters decode to what was encoded. -/
theorem C03_params_roundtrip (C : Crypto) (ty : RequestType) (pub : Bytes) (cert : Cert)
    (hty : ty = .new ∨ ty = .revoke)
    (hdec : C.decodeCert cert.wire = some cert) (hdata : cert.wire.typ = T.Data)
    (hl : (requestParamsEncode ty pub cert).val.length < 2 ^ 64) :
    requestParamsDecode C (some (requestParamsEncode ty pub cert)) ty = .ok (pub, cert) := by
  rw [requestParamsDecode_ok_iff]
  have hw : ∀ t, (nestedBlock t cert.wire).val.length < 2 ^ 64 → cert.wire.Fits := fun t h =>
    ⟨by rw [hdata]; decide, by rw [hdata]; decide, Nat.lt_of_le_of_lt (encode_length_ge _) h⟩
  rcases hty with rfl | rfl
  · have hfits := fits_of_total (es := [binBlock T.EcdhPub pub, nestedBlock T.CertRequest cert.wire])
      (by intro e he; simp at he; rcases he with rfl | rfl <;> simp) hl
    refine ⟨_, elements_mkBlock _ _ hfits, by simp, ⟨nestedBlock T.CertRequest cert.wire, by simp [certElemType], ?_⟩,
      by simp [certElemType]⟩
    have hf : (nestedBlock T.CertRequest cert.wire).Fits := hfits _ (by simp)
    have := elements_nested T.CertRequest cert.wire (hw _ hf.2.2)
    simp [certOfItem, this, getElem, hdata, certOfBlock, hdec]
  · have hfits := fits_of_total (es := [binBlock T.EcdhPub pub, nestedBlock T.CertToRevoke cert.wire])
      (by intro e he; simp at he; rcases he with rfl | rfl <;> simp) hl
    refine ⟨_, elements_mkBlock _ _ hfits, by simp, ⟨nestedBlock T.CertToRevoke cert.wire, by simp [certElemType], ?_⟩,
      by simp [certElemType]⟩
    have hf : (nestedBlock T.CertToRevoke cert.wire).Fits := hfits _ (by simp)
    have := elements_nested T.CertToRevoke cert.wire (hw _ hf.2.2)
    simp [certOfItem, this, getElem, hdata, certOfBlock, hdec]

/-- a concrete decodable certificate -/
def exKey : Name := [gcomp [65], gcomp [66], keyComponent, gcomp [1]]
def exCert : Cert :=
  keySignedCert Toy.crypto exKey (exKey ++ [gcomp (bytes! "cert-request"), ⟨54, [9]⟩]) [7, 7, 7] (1000000000, 5000000000)

example : Toy.crypto.decodeCert exCert.wire = some exCert ∧ exCert.wire.typ = T.Data ∧
    (requestParamsEncode .new [4, 5] exCert).val.length < 2 ^ 64 := by decide +kernel

/-! ## C04 -/

/-- the element types of the certificate for each request type, from the protocol specification -/
def certType : RequestType → Option Nat
  | .new => some 147
  | .revoke => some 177
  | _ => none

/-- C04: decoding returns `(pub, cert)` exactly when the parameters are a sequence of TLV elements with exactly one
ECDH-PUB element, whose value is `pub`, exactly one certificate element of the right kind, which contains a Data
element that decodes to `cert`, and no other critical element. -/
theorem C04_params_strict (C : Crypto) (ty : RequestType) (b : Block) (pub : Bytes) (cert : Cert) :
    requestParamsDecode C (some b) ty = .ok (pub, cert) ↔
    ∃ es e inner d, parse b.val = .ok es ∧
      (es.filter (fun x => x.typ = 145)).map Block.val = [pub] ∧
      es.filter (fun x => some x.typ = certType ty) = [e] ∧
      parse e.val = .ok inner ∧ inner.find? (fun x => x.typ == 6) = some d ∧ C.decodeCert d = some cert ∧
      (∀ x ∈ es, x.typ ≠ 145 → some x.typ ≠ certType ty → ¬ Critical x.typ) := by
  have hct : certElemType ty = certType ty := by cases ty <;> rfl
  rw [requestParamsDecode_ok_iff, hct]
  have hfl : ∀ es : List Block, es.filter (fun e => decide (certType ty = some e.typ)) =
      es.filter (fun x => decide (some x.typ = certType ty)) := by
    intro es; congr 1; funext x; simp [eq_comm]
  constructor
  · rintro ⟨es, h1, h2, ⟨e, h3, h4⟩, h5⟩
    unfold certOfItem at h4
    rw [Res.bind_eq_ok] at h4
    obtain ⟨inner, h6, h4⟩ := h4
    rw [Res.bind_eq_ok] at h4
    obtain ⟨d, h7, h4⟩ := h4
    rw [hfl] at h3
    exact ⟨es, e, inner, d, h1, h2, h3, h6, by simpa [getElem] using h7,
      by simpa [certOfBlock] using h4,
      fun x hx ha hb => (not_critical_iff _).mp (h5 x hx ha (fun h => hb h.symm))⟩
  · rintro ⟨es, e, inner, d, h1, h2, h3, h4, h5, h6, h7⟩
    refine ⟨es, h1, h2, ⟨e, by rw [hfl]; exact h3, ?_⟩,
      fun x hx ha hb => (not_critical_iff _).mpr (h7 x hx ha (fun h => hb h.symm))⟩
    have h4' : e.elements = .ok inner := h4
    simp [certOfItem, h4', getElem, h5, certOfBlock, h6]

/-- C04: an Interest without parameters, and RENEW parameters, never decode. -/
theorem C04_no_params (C : Crypto) (ty : RequestType) (r : Bytes × Cert) : requestParamsDecode C none ty ≠ .ok r := by
  simp [requestParamsDecode]

theorem C04_renew_never (C : Crypto) (b : Block) (r : Bytes × Cert) : requestParamsDecode C (some b) .renew ≠ .ok r := by
  intro h
  obtain ⟨_, e, _, _, _, _, h3, _⟩ := (C04_params_strict C .renew b r.1 r.2).mp h
  have : e ∈ [e] := by simp
  rw [← h3] at this
  simp [certType] at this

/-- both directions are used: a decodable message, and a message refused because of a doubled key -/
example : requestParamsDecode Toy.crypto (some (requestParamsEncode .new [4, 5] exCert)) .new = .ok ([4, 5], exCert) := by
  decide +kernel
example : requestParamsDecode Toy.crypto (some (mkBlock 36 [binBlock 145 [4], binBlock 145 [4],
    nestedBlock 147 exCert.wire])) .new = .exc .runtime := by decide +kernel

/-! ## C05 -/

theorem loopRes_challenges (a : ReqDataAcc) (chs : List Bytes) :
    loopRes requestStep a (chs.map (binBlock T.Challenge)) = ({ a with challenges := a.challenges ++ chs }, .ok ()) := by
  induction chs generalizing a with
  | nil => simp [loopRes]
  | cons c cs ih =>
    simp only [List.map_cons, loopRes, requestStep, binBlock_typ, if_true, readString_binBlock]
    rw [ih]; simp

/-- C05: NEW/REVOKE replies decode to what was encoded, into any 32-octet salt and 8-octet id. -/
theorem C05_reply_roundtrip (pub salt : Bytes) (id : RequestId) (chs : List Bytes) (salt0 : Bytes) (id0 : RequestId)
    (hs : salt.length = 32) (hid : id.length = 8) (hs0 : salt0.length = 32) (hid0 : id0.length = 8)
    (hl : (requestEncode pub salt id chs).val.length < 2 ^ 64) :
    requestDecode (requestEncode pub salt id chs) salt0 id0 = ((salt, id), .ok (pub, chs)) := by
  have he : (requestEncode pub salt id chs).elements = .ok _ := elements_mkBlock _ _ (fits_of_total (by
      intro e he
      simp at he
      rcases he with rfl | rfl | rfl | ⟨_, _, rfl⟩ <;> simp) hl)
  unfold requestDecode
  rw [he]
  simp only [List.cons_append, List.nil_append]
  have h1 : memcpyInto salt0 salt = .ok salt := by simp [memcpyInto, hs, hs0]
  have h2 : memcpyInto id0 id = .ok id := by simp [memcpyInto, hid, hid0]
  simp [loopRes, requestStep, h1, h2, loopRes_challenges]

example : (List.replicate 32 (7 : UInt8)).length = 32 ∧
    (requestEncode [4, 1] (List.replicate 32 7) (List.replicate 8 9) [bytes! "pin", bytes! "email"]).val.length < 2 ^ 64 := by
  decide

/-! ## C06 (false of the code) -/

/-- C06 is false: a Salt element of 33 octets is copied over the end of the 32-octet array. -/
theorem C06_false : ¬ ∀ (content : Block) (salt : Bytes) (id : RequestId), salt.length = 32 → id.length = 8 →
    (requestDecode content salt id).2 ≠ .ub .overflow := by
  intro h
  exact h (mkBlock 21 [binBlock T.Salt (List.replicate 33 0)]) (List.replicate 32 0) (List.replicate 8 0)
    (by decide) (by decide) (by decide)

/-- the same for the request id: one octet too many suffices -/
theorem C06_false_id : (requestDecode (mkBlock 21 [binBlock T.RequestId (List.replicate 9 0)])
    (List.replicate 32 0) (List.replicate 8 0)).2 = .ub .overflow := by decide

theorem requestLoop_safe {es : List Block} (a : ReqDataAcc)
    (hs : ∀ e ∈ es, e.typ = T.Salt → e.val.length ≤ a.salt.length)
    (hi : ∀ e ∈ es, e.typ = T.RequestId → e.val.length ≤ a.requestId.length) :
    (∀ u, (loopRes requestStep a es).2 ≠ .ub u) ∧
      (loopRes requestStep a es).1.salt.length = a.salt.length ∧
      (loopRes requestStep a es).1.requestId.length = a.requestId.length := by
  induction es generalizing a with
  | nil => simp [loopRes]
  | cons e es ih =>
    have key : (∃ x, requestStep a e = .exc x) ∨ ∃ a', requestStep a e = .ok a' ∧ a'.salt.length = a.salt.length ∧
        a'.requestId.length = a.requestId.length := by
      unfold requestStep
      split
      · exact .inr ⟨_, rfl, rfl, rfl⟩
      split
      · exact .inr ⟨_, rfl, rfl, rfl⟩
      split
      · rename_i h
        have hle := hs e (by simp) h
        simp only [memcpyInto, if_neg (Nat.not_lt.mpr hle), Res.bind_ok]
        refine .inr ⟨_, rfl, ?_, rfl⟩
        simp; omega
      split
      · rename_i h
        have hle := hi e (by simp) h
        simp only [memcpyInto, if_neg (Nat.not_lt.mpr hle), Res.bind_ok]
        refine .inr ⟨_, rfl, rfl, ?_⟩
        simp; omega
      split
      · exact .inl ⟨_, rfl⟩
      · exact .inr ⟨_, rfl, rfl, rfl⟩
    rcases key with ⟨x, hx⟩ | ⟨a', ha, h1, h2⟩
    · simp [loopRes, hx]
    · have := ih a' (fun e h => by rw [h1]; exact hs e (by simp [h])) (fun e h => by rw [h2]; exact hi e (by simp [h]))
      simp only [loopRes, ha]
      rw [h1, h2] at this
      exact this

/-- C06, the part that holds: without a Salt element longer than 32 octets and a RequestId element longer than 8
nothing is written out of bounds. Missing for the full property: the length checks in the code. -/
theorem C06_partial (content : Block) (salt : Bytes) (id : RequestId) (hs : salt.length = 32) (hid : id.length = 8)
    (h : ∀ es, parse content.val = .ok es → ∀ e ∈ es,
      (e.typ = T.Salt → e.val.length ≤ 32) ∧ (e.typ = T.RequestId → e.val.length ≤ 8)) :
    (∀ u, (requestDecode content salt id).2 ≠ .ub u) ∧
      (requestDecode content salt id).1.1.length = 32 ∧ (requestDecode content salt id).1.2.length = 8 := by
  unfold requestDecode
  cases he : content.elements with
  | exc e => simp [hs, hid]
  | ub u => exact absurd he (parse_no_ub _ _)
  | ok es =>
    have hh := h es he
    have := requestLoop_safe (es := es) { salt := salt, requestId := id }
      (fun e h => by simpa [hs] using (hh e h).1) (fun e h => by simpa [hid] using (hh e h).2)
    obtain ⟨h1, h2, h3⟩ := this
    refine ⟨?_, by simpa [hs] using h2, by simpa [hid] using h3⟩
    intro u
    dsimp only
    cases hr : (loopRes requestStep { salt := salt, requestId := id } es).2 with
    | exc e => simp
    | ub v => exact absurd hr (h1 v)
    | ok _ => dsimp only; split <;> simp

/-- C06: exactly when the out-of-bounds write happens: some Salt or RequestId element is too long, and no
unrecognised critical element comes before it. -/
theorem C06_overflow_iff (content : Block) (salt : Bytes) (id : RequestId) (hs : salt.length = 32) (hid : id.length = 8) :
    (∃ u, (requestDecode content salt id).2 = .ub u) ↔
    ∃ pre e post, parse content.val = .ok (pre ++ e :: post) ∧
      ((e.typ = T.Salt ∧ 32 < e.val.length) ∨ (e.typ = T.RequestId ∧ 8 < e.val.length)) ∧
      ∀ x ∈ pre, Critical x.typ → x.typ = T.EcdhPub ∨ x.typ = T.Salt ∨ x.typ = T.RequestId ∨ x.typ = T.Challenge := by
  have main : ∀ (es : List Block) (a : ReqDataAcc), a.salt.length = 32 → a.requestId.length = 8 →
      ((∃ u, (loopRes requestStep a es).2 = .ub u) ↔ ∃ pre e post, es = pre ++ e :: post ∧
        ((e.typ = T.Salt ∧ 32 < e.val.length) ∨ (e.typ = T.RequestId ∧ 8 < e.val.length)) ∧
        ∀ x ∈ pre, Critical x.typ → x.typ = T.EcdhPub ∨ x.typ = T.Salt ∨ x.typ = T.RequestId ∨ x.typ = T.Challenge) := by
    intro es
    induction es with
    | nil => intro a _ _; simp [loopRes]
    | cons e es ih =>
      intro a h1 h2
      -- either the step overflows, or it throws on an unknown critical element, or it goes on
      have key : ((∃ u, requestStep a e = .ub u) ∧
            ((e.typ = T.Salt ∧ 32 < e.val.length) ∨ (e.typ = T.RequestId ∧ 8 < e.val.length))) ∨
          ((∃ x, requestStep a e = .exc x) ∧ Critical e.typ ∧
            ¬ (e.typ = T.EcdhPub ∨ e.typ = T.Salt ∨ e.typ = T.RequestId ∨ e.typ = T.Challenge)) ∨
          (∃ a', requestStep a e = .ok a' ∧ a'.salt.length = 32 ∧ a'.requestId.length = 8 ∧
            ¬ ((e.typ = T.Salt ∧ 32 < e.val.length) ∨ (e.typ = T.RequestId ∧ 8 < e.val.length)) ∧
            (Critical e.typ → e.typ = T.EcdhPub ∨ e.typ = T.Salt ∨ e.typ = T.RequestId ∨ e.typ = T.Challenge)) := by
        unfold requestStep
        split
        · rename_i h; exact .inr (.inr ⟨_, rfl, h1, h2, by simp [h], fun _ => by simp [h]⟩)
        split
        · rename_i h; exact .inr (.inr ⟨_, rfl, h1, h2, by simp [h], fun _ => by simp [h]⟩)
        split
        · rename_i h
          by_cases hl : a.salt.length < e.val.length
          · simp only [memcpyInto, if_pos hl]
            exact .inl ⟨⟨_, rfl⟩, .inl ⟨h, by omega⟩⟩
          · simp only [memcpyInto, if_neg hl, Res.bind_ok]
            refine .inr (.inr ⟨_, rfl, ?_, h2, ?_, fun _ => by simp [h]⟩)
            · simp; omega
            · simp [h]; omega
        split
        · rename_i h
          by_cases hl : a.requestId.length < e.val.length
          · simp only [memcpyInto, if_pos hl]
            exact .inl ⟨⟨_, rfl⟩, .inr ⟨h, by omega⟩⟩
          · simp only [memcpyInto, if_neg hl, Res.bind_ok]
            refine .inr (.inr ⟨_, rfl, h1, ?_, ?_, fun _ => by simp [h]⟩)
            · simp; omega
            · simp [h]; omega
        split
        · rename_i c1 c2 c3 c4 hc
          exact .inr (.inl ⟨⟨_, rfl⟩, (critical_iff _).mp hc, by simp_all⟩)
        · rename_i c1 c2 c3 c4 hc
          refine .inr (.inr ⟨_, rfl, h1, h2, ?_, fun h => absurd ((critical_iff _).mpr h) hc⟩)
          rintro (⟨h, _⟩ | ⟨h, _⟩)
          · exact c3 h
          · exact c4 h
      rcases key with ⟨⟨u, hu⟩, hbad⟩ | ⟨⟨x, hx⟩, hcr, hnot⟩ | ⟨a', ha, h3, h4, hgood, hk⟩
      · constructor
        · intro _; exact ⟨[], e, es, rfl, hbad, by simp⟩
        · intro _; exact ⟨u, by simp [loopRes, hu]⟩
      · constructor
        · rintro ⟨u, h⟩; simp [loopRes, hx] at h
        · rintro ⟨pre, e', post, heq, hbad, hpre⟩
          exfalso
          cases pre with
          | nil =>
            simp only [List.nil_append, List.cons.injEq] at heq
            obtain ⟨rfl, _⟩ := heq
            apply hnot
            rcases hbad with ⟨h, _⟩ | ⟨h, _⟩
            · exact .inr (.inl h)
            · exact .inr (.inr (.inl h))
          | cons p pre =>
            simp only [List.cons_append, List.cons.injEq] at heq
            obtain ⟨rfl, _⟩ := heq
            exact hnot (hpre _ (by simp) hcr)
      · have := ih a' h3 h4
        have hl : loopRes requestStep a (e :: es) = loopRes requestStep a' es := by simp [loopRes, ha]
        rw [hl, this]
        constructor
        · rintro ⟨pre, e', post, rfl, hb, hp⟩
          refine ⟨e :: pre, e', post, rfl, hb, ?_⟩
          intro x hx hcx
          rcases List.mem_cons.mp hx with rfl | hx
          · exact hk hcx
          · exact hp x hx hcx
        · rintro ⟨pre, e', post, heq, hb, hp⟩
          cases pre with
          | nil =>
            simp only [List.nil_append, List.cons.injEq] at heq
            obtain ⟨rfl, _⟩ := heq
            exact absurd hb hgood
          | cons p pre =>
            simp only [List.cons_append, List.cons.injEq] at heq
            obtain ⟨rfl, rfl⟩ := heq
            exact ⟨pre, e', post, rfl, hb, fun x hx => hp x (by simp [hx])⟩
  unfold requestDecode
  cases he : content.elements with
  | exc e =>
    have he' : parse content.val = .exc e := he
    simp [he']
  | ub u => exact absurd he (parse_no_ub _ _)
  | ok es =>
    have he' : parse content.val = .ok es := he
    have hm := main es { salt := salt, requestId := id } hs hid
    rw [he']
    dsimp only
    generalize loopRes requestStep { salt := salt, requestId := id } es = q at hm ⊢
    have e1 : (∃ u, (match q.2 with
        | .exc e => Res.exc e
        | .ub u => .ub u
        | .ok () => if q.1.pubCount ≠ 1 ∨ q.1.saltCount ≠ 1 ∨ q.1.idCount ≠ 1 then .exc .runtime
          else .ok (q.1.pub, q.1.challenges) : Res (Bytes × List Bytes)) = .ub u) ↔ ∃ u, q.2 = .ub u := by
      cases q.2 with
      | exc e => simp
      | ub v => simp
      | ok _ => dsimp only; split <;> simp
    refine Iff.trans e1 (Iff.trans hm ?_)
    constructor
    · rintro ⟨pre, e, post, rfl, h⟩; exact ⟨pre, e, post, rfl, h⟩
    · rintro ⟨pre, e, post, h0, h⟩; cases h0; exact ⟨pre, e, post, rfl, h⟩

example : ∀ es, parse (requestEncode [4, 1] (List.replicate 32 7) (List.replicate 8 9) [bytes! "pin"]).val = .ok es →
    ∀ e ∈ es, (e.typ = T.Salt → e.val.length ≤ 32) ∧ (e.typ = T.RequestId → e.val.length ≤ 8) := by
  have h : parse (requestEncode [4, 1] (List.replicate 32 7) (List.replicate 8 9) [bytes! "pin"]).val =
      .ok [binBlock 145 [4, 1], binBlock 149 (List.replicate 32 7), binBlock 151 (List.replicate 8 9),
        binBlock 153 (bytes! "pin")] := by decide +kernel
  intro es hes
  rw [h] at hes
  cases hes
  decide

/-! ## C07 -/

/-- C07: PROBE parameters decode to the same multimap. `InOrder` holds of every `std::multimap`. -/
theorem C07_probe_params_roundtrip (m : MMap) (hm : m.InOrder) (hl : (probeParamsEncode m).val.length < 2 ^ 64) :
    probeParamsDecode (probeParamsEncode m) = .ok m := by
  have hm := (inOrder_iff _).mp hm
  have he : (probeParamsEncode m).elements = .ok _ := elements_mkBlock _ _ (fits_of_total (by
      intro e he
      simp only [List.mem_flatMap, List.mem_cons, List.not_mem_nil, or_false] at he
      obtain ⟨x, _, rfl | rfl⟩ := he <;> simp) hl)
  have := foldl_mmInsert (m := m) (acc := []) (by simpa using hm)
  simp [probeParamsDecode, he, probeParamsLoop_pairs, this]

/-- repeated keys, an empty value and non-ASCII octets -/
example : MMap.InOrder [(bytes! "a", [0, 255]), (bytes! "email", []), (bytes! "email", bytes! "x@y"), ([200], [1])] ∧
    (probeParamsEncode [(bytes! "a", [0, 255]), (bytes! "email", []), (bytes! "email", bytes! "x@y"),
      ([200], [1])]).val.length < 2 ^ 64 := by
  constructor
  · rw [inOrder_iff]; unfold MMap.Sorted; decide
  · decide

/-! ## C08 -/

theorem probeName_decode (ms : Option Nat) (n : Name) (hn : n ≠ []) (hw : Name.Wf n)
    (hms : ∀ k, ms = some k → k < 2 ^ 31) (hl : (probeNameBlock ms n).val.length < 2 ^ 64)
    (acc : List (Name × Int) × List Name) :
    probeStep acc (probeNameBlock ms n) = .ok (acc.1 ++ [(n, ((ms.getD 0 : Nat) : Int))], acc.2) := by
  have hfit : (encodeAll n).length < 2 ^ 64 :=
    Nat.lt_of_le_of_lt (mem_encodeAll_length (b := nameBlock n) (List.mem_cons_self ..)) hl
  have hnb := nameOfBlock_nameBlock n (nameFits_of_wf hw hfit).1
  cases ms with
  | none =>
    have he : (probeNameBlock none n).elements = .ok [nameBlock n] := elements_mkBlock _ _ (fits_of_total (by
      intro e he; simp at he; subst he; simp) hl)
    simp [probeStep, probeNameBlock] at he ⊢
    simp [he, hnb, hn, probeNameStep]
  | some k =>
    have hk : k < 2 ^ 31 := hms k rfl
    have he : (probeNameBlock (some k) n).elements = .ok [nameBlock n, nniBlock T.MaxSuffixLength k] :=
      elements_mkBlock _ _ (fits_of_total (by
        intro e he; simp at he; rcases he with rfl | rfl <;> simp) hl)
    have hr : readNni (nniBlock T.MaxSuffixLength k) = .ok k := readNni_nniBlock_of_lt _ _ (by omega)
    simp [probeStep, probeNameBlock] at he hr ⊢
    simp [he, hnb, hn, hr, probeNameStep, toInt32_small hk]

/-- C08: PROBE replies decode to exactly the encoded names (with the max suffix length, 0 if none) and
redirections, appended to the caller's lists. -/
theorem C08_probe_reply_roundtrip (ids : List Name) (ms : Option Nat) (reds : List Name)
    (names : List (Name × Int)) (cas : List Name)
    (hne : ∀ n ∈ ids, n ≠ []) (hw : ∀ n ∈ ids, Name.Wf n) (hwr : ∀ n ∈ reds, Name.Wf n)
    (hms : ∀ k, ms = some k → k < 2 ^ 31) (hl : (probeEncode ids ms reds).val.length < 2 ^ 64) :
    probeDecode (probeEncode ids ms reds) names cas =
      .ok (names ++ ids.map (fun n => (n, ((ms.getD 0 : Nat) : Int))), cas ++ reds) := by
  have hfits := fits_of_total (es := ids.map (probeNameBlock ms) ++ reds.map (fun n => nestedBlock T.ProbeRedirect (nameBlock n)))
    (by
      intro e he
      simp at he
      rcases he with ⟨_, _, rfl⟩ | ⟨_, _, rfl⟩ <;> simp [probeNameBlock]) hl
  have he : (probeEncode ids ms reds).elements = .ok _ := elements_mkBlock _ _ hfits
  have h1 : ∀ (ids : List Name) (acc : List (Name × Int) × List Name), (∀ n ∈ ids, n ≠ []) → (∀ n ∈ ids, Name.Wf n) →
      (∀ n ∈ ids, (probeNameBlock ms n).val.length < 2 ^ 64) →
      (ids.map (probeNameBlock ms)).foldlM probeStep acc =
        .ok (acc.1 ++ ids.map (fun n => (n, ((ms.getD 0 : Nat) : Int))), acc.2) := by
    intro ids
    induction ids with
    | nil => intro acc _ _ _; simp
    | cons n ids ih =>
      intro acc a1 a2 a3
      simp only [List.map_cons, List.foldlM_cons]
      rw [probeName_decode ms n (a1 n (by simp)) (a2 n (by simp)) hms (a3 n (by simp))]
      simp only [Res.bind_ok]
      rw [ih _ (fun n h => a1 n (by simp [h])) (fun n h => a2 n (by simp [h])) (fun n h => a3 n (by simp [h]))]
      simp
  have h2 : ∀ (reds : List Name) (acc : List (Name × Int) × List Name), (∀ n ∈ reds, Name.Wf n) →
      (∀ n ∈ reds, (nestedBlock T.ProbeRedirect (nameBlock n)).val.length < 2 ^ 64) →
      (reds.map (fun n => nestedBlock T.ProbeRedirect (nameBlock n))).foldlM probeStep acc =
        .ok (acc.1, acc.2 ++ reds) := by
    intro reds
    induction reds with
    | nil => intro acc _ _; simp
    | cons n reds ih =>
      intro acc a1 a2
      have hfit : (encodeAll n).length < 2 ^ 64 :=
        Nat.lt_of_le_of_lt (encode_length_ge (nameBlock n)) (a2 n (by simp))
      have hnf := nameFits_of_wf (a1 n (by simp)) hfit
      have hnb := nameOfBlock_nameBlock n hnf.1
      have hbv := blockFromValue_nested T.ProbeRedirect (nameBlock n) (nameBlock_fits n hnf)
      simp only [List.map_cons, List.foldlM_cons]
      have : probeStep acc (nestedBlock T.ProbeRedirect (nameBlock n)) = .ok (acc.1, acc.2 ++ [n]) := by
        unfold probeStep
        rw [if_neg (by simp), if_pos (by simp), hbv]
        simp [hnb]
      rw [this]
      simp only [Res.bind_ok]
      rw [ih _ (fun n h => a1 n (by simp [h])) (fun n h => a2 n (by simp [h]))]
      simp
  simp only [probeDecode, he, Res.bind_ok]
  rw [foldlM_append, h1 ids _ hne hw (fun n hn => (hfits _ (by
    simp only [List.mem_append, List.mem_map]; exact .inl ⟨n, hn, rfl⟩)).2.2)]
  simp only [Res.bind_ok]
  rw [h2 reds _ hwr (fun n hn => (hfits _ (by
    simp only [List.mem_append, List.mem_map]; exact .inr ⟨n, hn, rfl⟩)).2.2)]

example : (∀ n ∈ [[gcomp [65], gcomp [66]], [gcomp [65]]], n ≠ []) ∧
    (∀ n ∈ [[gcomp [65], gcomp [66]], [gcomp [65]]], Name.Wf n) ∧
    (probeEncode [[gcomp [65], gcomp [66]], [gcomp [65]]] (some 2) [[gcomp [67]]]).val.length < 2 ^ 64 := by
  refine ⟨by decide, ?_, by decide⟩
  simp [Name.Wf, gcomp]

/-! ## C09 -/

/-- C09: the CA profile decodes to the same prefix, info text, probe keys, validity limit and certificate. When the
profile has no info text the text is "Issued by " followed by the URI of the certificate's key locator. -/
theorem C09_profile_roundtrip (C : Crypto) (p : CaProfile) (c : Cert) (b : Block)
    (hdec : C.decodeCert c.wire = some c) (hdata : c.wire.typ = T.Data) (hw : Name.Wf p.caPrefix)
    (hmv : -(2 ^ 63) ≤ p.maxValidityPeriod) (hmv2 : p.maxValidityPeriod < 2 ^ 63)
    (henc : infoEncode p c = .ok b) (hl : b.val.length < 2 ^ 64) :
    ∃ q, infoDecode C b = .ok q ∧ q.caPrefix = p.caPrefix ∧ q.probeParameterKeys = p.probeParameterKeys ∧
      q.maxValidityPeriod = p.maxValidityPeriod ∧ q.cert = some c ∧
      (p.caInfo ≠ [] → q.caInfo = p.caInfo) ∧
      (p.caInfo = [] → ∃ kl, c.keyLocator = some kl ∧ q.caInfo = bytes! "Issued by " ++ nameUri kl) := by
  unfold infoEncode at henc
  rw [Res.bind_eq_ok] at henc
  obtain ⟨info, hinfo, henc⟩ := henc
  simp only [Res.ok.injEq] at henc
  subst henc
  have hfits := fits_of_total (by
    intro e he
    simp at he
    rcases he with rfl | rfl | ⟨_, _, rfl⟩ | rfl | rfl <;> simp) hl
  have he := elements_mkBlock T.Content _ hfits
  have hnb : (nestedBlock T.CaPrefix (nameBlock p.caPrefix)).Fits := hfits _ (by simp)
  have hnf := nameFits_of_wf hw (Nat.lt_of_le_of_lt (encode_length_ge (nameBlock p.caPrefix)) hnb.2.2)
  have hwf : c.wire.Fits := ⟨by rw [hdata]; decide, by rw [hdata]; decide,
    Nat.lt_of_le_of_lt (encode_length_ge _) (hfits (nestedBlock T.CaCertificate c.wire) (by simp)).2.2⟩
  have e1 := elements_nested T.CaPrefix (nameBlock p.caPrefix) (nameBlock_fits _ hnf)
  have e2 := nameOfBlock_nameBlock p.caPrefix hnf.1
  have e3 := elements_nested T.CaCertificate c.wire hwf
  have hmod : (p.maxValidityPeriod % 2 ^ 64).toNat < 2 ^ 64 := by omega
  have e4 : readNni (nniBlock T.MaxValidityPeriod (p.maxValidityPeriod % 2 ^ 64).toNat) =
      .ok (p.maxValidityPeriod % 2 ^ 64).toNat := readNni_nniBlock_of_lt _ _ hmod
  have hback : toInt64 (p.maxValidityPeriod % 2 ^ 64).toNat = p.maxValidityPeriod := toInt64_back hmv hmv2
  have hk : ∀ (ks : List Bytes) (q : CaProfile), (ks.map (binBlock T.ParameterKey)).foldlM (infoStep C) q =
      .ok { q with probeParameterKeys := q.probeParameterKeys ++ ks } := by
    intro ks
    induction ks with
    | nil => intro q; simp
    | cons k ks ih =>
      intro q
      simp only [List.map_cons, List.foldlM_cons]
      have : infoStep C q (binBlock T.ParameterKey k) =
          .ok { q with probeParameterKeys := q.probeParameterKeys ++ [k] } := by simp [infoStep]
      rw [this]; simp only [Res.bind_ok]; rw [ih]; simp
  refine ⟨{ caPrefix := p.caPrefix, caInfo := info, probeParameterKeys := p.probeParameterKeys,
            maxValidityPeriod := p.maxValidityPeriod, cert := some c }, ?_, rfl, rfl, rfl, rfl, ?_, ?_⟩
  · simp only [infoDecode]
    rw [he]
    simp only [Res.bind_ok, List.cons_append, List.nil_append, List.foldlM_cons]
    have s1 : infoStep C {} (nestedBlock T.CaPrefix (nameBlock p.caPrefix)) = .ok { caPrefix := p.caPrefix } := by
      unfold infoStep
      rw [if_pos (by simp), e1]
      simp [getElem, e2]
    rw [s1]
    simp only [Res.bind_ok]
    have s2 : infoStep C { caPrefix := p.caPrefix } (binBlock T.CaInfo info) =
        .ok { caPrefix := p.caPrefix, caInfo := info } := by simp [infoStep]
    rw [s2]
    simp only [Res.bind_ok]
    rw [foldlM_append, hk]
    simp only [Res.bind_ok, List.foldlM_cons, List.foldlM_nil]
    have s3 : ∀ q, infoStep C q (nniBlock T.MaxValidityPeriod (p.maxValidityPeriod % 2 ^ 64).toNat) =
        .ok { q with maxValidityPeriod := p.maxValidityPeriod } := by
      intro q
      unfold infoStep
      rw [if_neg (by simp), if_neg (by simp), if_neg (by simp), if_pos (by simp), e4]
      simp only [Res.bind_ok, hback]
    have s4 : ∀ q, infoStep C q (nestedBlock T.CaCertificate c.wire) = .ok { q with cert := some c } := by
      intro q
      unfold infoStep
      rw [if_neg (by simp), if_neg (by simp), if_neg (by simp), if_neg (by simp), if_pos (by simp), e3]
      simp [getElem, hdata, certOfBlock, hdec]
    rw [s3]; simp only [Res.bind_ok]; rw [s4]; simp
  · intro hne
    simp only [caInfoText, if_neg hne, Res.ok.injEq] at hinfo
    exact hinfo.symm
  · intro h0
    simp only [caInfoText, if_pos h0] at hinfo
    cases hkl : c.keyLocator with
    | none => simp [hkl] at hinfo
    | some kl =>
      simp only [hkl, Res.ok.injEq] at hinfo
      exact ⟨kl, rfl, hinfo.symm⟩

example : ∃ b, infoEncode { caPrefix := [gcomp [65]], probeParameterKeys := [bytes! "email"], maxValidityPeriod := 864000 }
    exCert = .ok b ∧ b.val.length < 2 ^ 64 ∧ Toy.crypto.decodeCert exCert.wire = some exCert ∧
    exCert.wire.typ = T.Data := ⟨_, rfl, by decide +kernel, by decide +kernel, by decide +kernel⟩

/-! ## C10 -/

/-- the recognised element types of each decoder -/
def knownRequestParams : RequestType → List Nat
  | .new => [145, 147]
  | .revoke => [145, 177]
  | _ => [145]
def knownRequestReply : List Nat := [145, 149, 151, 153]
def knownProbeParams : List Nat := [133, 135]
def knownProbeReply : List Nat := [141, 179]
def knownInfo : List Nat := [129, 131, 133, 137, 139]

/-- C10, non-critical elements: decoders are not affected by one inserted anywhere. `b` and `b'` are two
messages, `b'` having the extra element `x`. -/
theorem C10_ignored_request_params (C : Crypto) (ty : RequestType) (b b' : Block) (pre post : List Block) (x : Block)
    (hb : parse b.val = .ok (pre ++ post)) (hb' : parse b'.val = .ok (pre ++ x :: post)) (hx : ¬ Critical x.typ) :
    requestParamsDecode C (some b') ty = requestParamsDecode C (some b) ty := by
  have hxc := (not_critical_iff _).mpr hx
  have hb1 : b.elements = .ok _ := hb
  have hb2 : b'.elements = .ok _ := hb'
  simp only [requestParamsDecode, hb1, hb2, Res.bind_ok]
  rw [foldlM_insert]
  intro s
  rw [requestParamsStep_eq, if_neg, if_neg, if_neg (by simp [hxc])]
  · intro h
    cases ty <;> simp [certElemType] at h <;> (rw [← h] at hxc; exact absurd hxc (by decide))
  · intro h; rw [h] at hxc; exact absurd hxc (by decide)

theorem C10_ignored_request_reply (b b' : Block) (pre post : List Block) (x : Block) (salt : Bytes) (id : RequestId)
    (hb : parse b.val = .ok (pre ++ post)) (hb' : parse b'.val = .ok (pre ++ x :: post)) (hx : ¬ Critical x.typ) :
    requestDecode b' salt id = requestDecode b salt id := by
  have hxc := (not_critical_iff _).mpr hx
  have hb1 : b.elements = .ok _ := hb
  have hb2 : b'.elements = .ok _ := hb'
  simp only [requestDecode, hb1, hb2]
  rw [loopRes_insert]
  intro s
  unfold requestStep
  repeat rw [if_neg (by intro h; rw [h] at hxc; exact absurd hxc (by decide))]

theorem C10_ignored_probe_reply (b b' : Block) (pre post : List Block) (x : Block) (names : List (Name × Int))
    (cas : List Name)
    (hb : parse b.val = .ok (pre ++ post)) (hb' : parse b'.val = .ok (pre ++ x :: post)) (hx : ¬ Critical x.typ) :
    probeDecode b' names cas = probeDecode b names cas := by
  have hxc := (not_critical_iff _).mpr hx
  have hb1 : b.elements = .ok _ := hb
  have hb2 : b'.elements = .ok _ := hb'
  simp only [probeDecode, hb1, hb2, Res.bind_ok]
  rw [foldlM_insert]
  intro s
  unfold probeStep
  repeat rw [if_neg (by intro h; rw [h] at hxc; exact absurd hxc (by decide))]

theorem C10_ignored_info (C : Crypto) (b b' : Block) (pre post : List Block) (x : Block)
    (hb : parse b.val = .ok (pre ++ post)) (hb' : parse b'.val = .ok (pre ++ x :: post)) (hx : ¬ Critical x.typ) :
    infoDecode C b' = infoDecode C b := by
  have hxc := (not_critical_iff _).mpr hx
  have hb1 : b.elements = .ok _ := hb
  have hb2 : b'.elements = .ok _ := hb'
  simp only [infoDecode, hb1, hb2, Res.bind_ok]
  rw [foldlM_insert]
  intro s
  unfold infoStep
  repeat rw [if_neg (by intro h; rw [h] at hxc; exact absurd hxc (by decide))]

/-- PROBE parameters: between key/value pairs (`m`: the pairs before the inserted element). -/
theorem C10_ignored_probe_params (b b' : Block) (m : MMap) (post : List Block) (x : Block)
    (hb : parse b.val = .ok (m.flatMap (fun e => [binBlock 133 e.1, binBlock 135 e.2]) ++ post))
    (hb' : parse b'.val = .ok (m.flatMap (fun e => [binBlock 133 e.1, binBlock 135 e.2]) ++ x :: post))
    (hx : ¬ Critical x.typ) : probeParamsDecode b' = probeParamsDecode b := by
  have hxc := (not_critical_iff _).mpr hx
  have hb1 : b.elements = .ok _ := hb
  have hb2 : b'.elements = .ok _ := hb'
  simp only [probeParamsDecode, hb1, hb2, Res.bind_ok]
  have h1 := probeParamsLoop_pairs_append m [] post
  have h2 := probeParamsLoop_pairs_append m [] (x :: post)
  simp only [T.ParameterKey, T.ParameterValue] at h1 h2
  rw [h1, h2, probeParamsLoop_skip _ _ hxc]

/-- C10, critical elements: the presence of an unrecognised one makes every decoder fail. -/
theorem C10_rejected_request_params (C : Crypto) (ty : RequestType) (b : Block) (es : List Block) (x : Block)
    (hb : parse b.val = .ok es) (hmem : x ∈ es) (hx : Critical x.typ) (hk : x.typ ∉ knownRequestParams ty)
    (r : Bytes × Cert) : requestParamsDecode C (some b) ty ≠ .ok r := by
  have hxc := (critical_iff _).mpr hx
  have hb1 : b.elements = .ok _ := hb
  simp only [requestParamsDecode, hb1, Res.bind_ok]
  intro h
  rw [Res.bind_eq_ok] at h
  obtain ⟨a, ha, _⟩ := h
  refine foldlM_reject _ x ?_ hmem _ _ ha
  intro s s'
  rw [requestParamsStep_eq, if_neg, if_neg, if_pos hxc]
  · simp
  · intro h; cases ty <;> simp [certElemType, knownRequestParams] at h hk <;> omega
  · intro h; cases ty <;> simp [knownRequestParams] at h hk <;> omega

theorem C10_rejected_request_reply (b : Block) (es : List Block) (x : Block) (salt : Bytes) (id : RequestId)
    (hb : parse b.val = .ok es) (hmem : x ∈ es) (hx : Critical x.typ) (hk : x.typ ∉ knownRequestReply)
    (r : Bytes × List Bytes) : (requestDecode b salt id).2 ≠ .ok r := by
  have hxc := (critical_iff _).mpr hx
  have hb1 : b.elements = .ok _ := hb
  have hl : (loopRes requestStep { salt := salt, requestId := id } es).2 ≠ .ok () := by
    refine loopRes_reject _ x ?_ hmem _
    intro s s'
    simp [knownRequestReply] at hk
    unfold requestStep
    rw [if_neg (by simp; omega), if_neg (by simp; omega), if_neg (by simp; omega), if_neg (by simp; omega), if_pos hxc]
    simp
  simp only [requestDecode, hb1]
  cases hr : (loopRes requestStep { salt := salt, requestId := id } es).2 with
  | exc e => simp
  | ub u => simp
  | ok u => exact absurd hr hl

theorem C10_rejected_probe_reply (b : Block) (es : List Block) (x : Block) (names : List (Name × Int)) (cas : List Name)
    (hb : parse b.val = .ok es) (hmem : x ∈ es) (hx : Critical x.typ) (hk : x.typ ∉ knownProbeReply)
    (r : List (Name × Int) × List Name) : probeDecode b names cas ≠ .ok r := by
  have hxc := (critical_iff _).mpr hx
  have hb1 : b.elements = .ok _ := hb
  simp only [probeDecode, hb1, Res.bind_ok]
  refine foldlM_reject _ x ?_ hmem _ _
  intro s s'
  simp [knownProbeReply] at hk
  unfold probeStep
  rw [if_neg (by simp; omega), if_neg (by simp; omega), if_pos hxc]
  simp

theorem C10_rejected_info (C : Crypto) (b : Block) (es : List Block) (x : Block)
    (hb : parse b.val = .ok es) (hmem : x ∈ es) (hx : Critical x.typ) (hk : x.typ ∉ knownInfo)
    (r : CaProfile) : infoDecode C b ≠ .ok r := by
  have hxc := (critical_iff _).mpr hx
  have hb1 : b.elements = .ok _ := hb
  simp only [infoDecode, hb1, Res.bind_ok]
  refine foldlM_reject _ x ?_ hmem _ _
  intro s s'
  simp [knownInfo] at hk
  unfold infoStep
  rw [if_neg (by simp; omega), if_neg (by simp; omega), if_neg (by simp; omega), if_neg (by simp; omega),
    if_neg (by simp; omega), if_pos hxc]
  simp

theorem C10_rejected_probe_params (b : Block) (es : List Block) (x : Block)
    (hb : parse b.val = .ok es) (hmem : x ∈ es) (hx : Critical x.typ) (hk : x.typ ∉ knownProbeParams)
    (r : MMap) : probeParamsDecode b ≠ .ok r := by
  have hxc := (critical_iff _).mpr hx
  have hb1 : b.elements = .ok _ := hb
  simp only [probeParamsDecode, hb1, Res.bind_ok]
  simp [knownProbeParams] at hk
  have main : ∀ (n : Nat) (es : List Block) (acc : MMap), es.length ≤ n → x ∈ es → probeParamsLoop acc es ≠ .ok r := by
    intro n
    induction n with
    | zero => intro es acc hn hm; cases es <;> simp at hn hm
    | succ n ih =>
      intro es acc hn hm
      match es with
      | [] => cases hm
      | [a] =>
        simp at hm; subst hm
        simp [probeParamsLoop, hxc]
      | a :: c :: rest =>
        rw [probeParamsLoop]
        simp only [List.length_cons] at hn
        split
        · rename_i h
          apply ih rest _ (by omega)
          simp only [List.mem_cons] at hm
          rcases hm with rfl | rfl | hm
          · simp only [T.ParameterKey] at h; omega
          · simp only [T.ParameterValue] at h; omega
          · exact hm
        · split
          · simp
          · rename_i hcr
            apply ih (c :: rest) _ (by simp only [List.length_cons]; omega)
            rcases List.mem_cons.mp hm with rfl | hm
            · exact absurd hxc hcr
            · exact hm
  exact main _ es [] (Nat.le_refl _) hmem

/-- both situations occur: the two messages of the first theorem, and a message with an unknown critical element -/
example : parse (mkBlock 36 [binBlock 145 [4], nestedBlock 147 exCert.wire]).val =
      .ok ([binBlock 145 [4]] ++ [nestedBlock 147 exCert.wire]) ∧
    parse (mkBlock 36 [binBlock 145 [4], binBlock 200 [1], nestedBlock 147 exCert.wire]).val =
      .ok ([binBlock 145 [4]] ++ binBlock 200 [1] :: [nestedBlock 147 exCert.wire]) ∧ ¬ Critical 200 ∧ Critical 201 ∧
      201 ∉ knownInfo := by
  refine ⟨by decide +kernel, by decide +kernel, by unfold Critical; decide, by unfold Critical; decide, by decide⟩

/-! ## C12 (false of the code) -/

/-- the statuses defined by the protocol: 0 .. 4 -/
def definedStatus (s : Status) : Prop :=
  s = .beforeChallenge ∨ s = .challenge ∨ s = .pending ∨ s = .success ∨ s = .failure

/-- C12 is false: status 5 (and 6) is accepted and is none of the defined values. -/
theorem C12_false : ¬ ∀ b s, statusFromBlock b = .ok s → definedStatus s := by
  intro h
  have := h (nniBlock T.Status 5) (.other 5) (by decide)
  simp [definedStatus] at this

/-- C12, the part that holds: exactly the values 0..6 are accepted, and 0..4 give the defined statuses.
Missing: 5 and 6 should be refused. -/
theorem C12_partial (b : Block) (s : Status) :
    statusFromBlock b = .ok s ↔ ∃ n, readNni b = .ok n ∧
      ((n = 0 ∧ s = .beforeChallenge) ∨ (n = 1 ∧ s = .challenge) ∨ (n = 2 ∧ s = .pending) ∨ (n = 3 ∧ s = .success) ∨
       (n = 4 ∧ s = .failure) ∨ (n = 5 ∧ s = .other 5) ∨ (n = 6 ∧ s = .other 6)) := by
  unfold statusFromBlock
  rw [Res.bind_eq_ok]
  constructor
  · rintro ⟨n, hn, h⟩
    refine ⟨n, hn, ?_⟩
    split at h
    · cases h
    · rename_i h6
      simp only [Res.ok.injEq] at h
      have : n = 0 ∨ n = 1 ∨ n = 2 ∨ n = 3 ∨ n = 4 ∨ n = 5 ∨ n = 6 := by omega
      rcases this with rfl | rfl | rfl | rfl | rfl | rfl | rfl <;> simp [← h, Status.ofNat]
  · rintro ⟨n, hn, h⟩
    refine ⟨n, hn, ?_⟩
    rcases h with ⟨rfl, rfl⟩ | ⟨rfl, rfl⟩ | ⟨rfl, rfl⟩ | ⟨rfl, rfl⟩ | ⟨rfl, rfl⟩ | ⟨rfl, rfl⟩ | ⟨rfl, rfl⟩ <;> rfl

/-- every status the CA writes is read back -/
theorem C12_roundtrip (s : Status) (h : definedStatus s) : statusFromBlock (nniBlock T.Status s.toNat) = .ok s := by
  rcases h with rfl | rfl | rfl | rfl | rfl <;> decide

end Ndncert.Props
