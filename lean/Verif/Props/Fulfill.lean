import Verif.Model.Fulfill
import Verif.Props.Possession
import Verif.Spec.Assign

/-! # The requester's side of the possession challenge: C94 -/

namespace Ndncert.Props

/-- what a parameter becomes: the certificate, the signature, or what it was -/
def Filled (wire : Bytes) (sig : Option Bytes) (before after : Bytes × Bytes) : Prop :=
  after.1 = before.1 ∧
    (before.1 = (bytes! "issued-cert") → after.2 = wire) ∧
    (before.1 = (bytes! "proof") → sig = some after.2) ∧
    (before.1 ≠ (bytes! "issued-cert") → before.1 ≠ (bytes! "proof") → after.2 = before.2)

theorem fillParams_filled {wire : Bytes} {sig : Option Bytes} : ∀ {m m' : MMap}, fillParams wire sig m = .ok m' → Each (Filled wire sig) m m'
  | [], m', h => by cases h; exact .nil
  | (k, v) :: rest, m', h => by
    unfold fillParams at h
    have hne : (bytes! "issued-cert") ≠ (bytes! "proof") := by decide
    split at h
    · next hk =>
      rw [Res.bind_eq_ok] at h
      obtain ⟨r, h1, h2⟩ := h
      cases h2
      exact .cons ⟨rfl, fun _ => rfl, fun hp => absurd (hk.symm.trans hp) hne, fun hn => absurd hk hn⟩ (fillParams_filled h1)
    · next hk =>
      split at h
      · next hp =>
        cases hs : sig with
        | none => rw [hs] at h; cases h
        | some s =>
          rw [hs] at h
          dsimp only at h
          rw [Res.bind_eq_ok] at h
          obtain ⟨r, h1, h2⟩ := h
          cases h2
          exact .cons ⟨rfl, fun hc => absurd hc hk, fun _ => rfl, fun _ hn => absurd hp hn⟩ (fillParams_filled (sig := some s) h1)
      · next hp =>
        rw [Res.bind_eq_ok] at h
        obtain ⟨r, h1, h2⟩ := h
        cases h2
        exact .cons ⟨rfl, fun hc => absurd hc hk, fun hc => absurd hc hp, fun _ _ => rfl⟩ (fillParams_filled h1)

/-- C94. The parameters are filled in place: each credential with the certificate named, each proof with a signature over the nonce made with the key
of this certificate, and nothing else is changed. -/
theorem C94_filled (K : KeyStore) {params filled : MMap} {identity : Name} {keyId issuer version : Block} {nonce : Bytes}
    (h : fulfillParameters K params (identity ++ [keyComponent, keyId, issuer, version]) nonce = .ok filled) :
    ∃ c, K.cert (identity ++ [keyComponent, keyId, issuer, version]) = some c ∧
      Each (Filled c.wire.encode (K.sign (identity ++ [keyComponent, keyId]) nonce)) params filled := by
  unfold fulfillParameters at h
  split at h
  · cases h
  · split at h
    · cases h
    · next c hc =>
      have e : (identity ++ [keyComponent, keyId, issuer, version]).take ((identity ++ [keyComponent, keyId, issuer, version]).length - 2) = identity ++ [keyComponent, keyId] := by
        have : (identity ++ [keyComponent, keyId, issuer, version]) = (identity ++ [keyComponent, keyId]) ++ [issuer, version] := by simp
        rw [this]
        exact List.take_left' (by simp)
      rw [e] at h
      exact ⟨c, hc, fillParams_filled h⟩

/-- C94, the only undefined case: a proof is asked for and the key is not in the TPM. -/
theorem C94_undefined_iff (K : KeyStore) {params : MMap} {identity : Name} {keyId issuer version : Block} {nonce : Bytes} :
    (∃ u, fulfillParameters K params (identity ++ [keyComponent, keyId, issuer, version]) nonce = .ub u) ↔
      (∃ c, K.cert (identity ++ [keyComponent, keyId, issuer, version]) = some c) ∧ K.sign (identity ++ [keyComponent, keyId]) nonce = none ∧
        (bytes! "proof") ∈ params.map (·.1) := by
  have e : (identity ++ [keyComponent, keyId, issuer, version]).take ((identity ++ [keyComponent, keyId, issuer, version]).length - 2) = identity ++ [keyComponent, keyId] := by
    have : (identity ++ [keyComponent, keyId, issuer, version]) = (identity ++ [keyComponent, keyId]) ++ [issuer, version] := by simp
    rw [this]
    exact List.take_left' (by simp)
  have key : ∀ (w : Bytes) (s : Option Bytes) (m : MMap), (∃ u, fillParams w s m = .ub u) ↔ s = none ∧ (bytes! "proof") ∈ m.map (·.1) := by
    intro w s m
    induction m with
    | nil => simp [fillParams]
    | cons p rest ih =>
      obtain ⟨k, v⟩ := p
      have step : ∀ x : Bytes, (∃ u, (do let rest ← fillParams w s rest; Res.ok ((k, x) :: rest) : Res MMap) = .ub u) ↔ ∃ u, fillParams w s rest = .ub u := by
        intro x
        cases fillParams w s rest <;> simp [Bind.bind, Res.bind]
      unfold fillParams
      split
      · next hk =>
        rw [step, ih]
        have : (bytes! "proof") ≠ k := by rw [hk]; decide
        simp [this]
      · split
        · next hp =>
          cases s with
          | none => exact ⟨fun _ => ⟨rfl, by rw [hp]; exact List.mem_cons_self⟩, fun _ => ⟨_, rfl⟩⟩
          | some s => dsimp only; rw [step, ih]; simp
        · next hp =>
          rw [step, ih]
          have : (bytes! "proof") ≠ k := fun h => hp h.symm
          simp [this]
  unfold fulfillParameters
  rw [if_neg (by unfold isValidCertName; simp), e]
  cases hc : K.cert (identity ++ [keyComponent, keyId, issuer, version]) with
  | none => simp
  | some c =>
    dsimp only
    rw [key]
    simp

/-- C94, the two halves of the challenge module fit together: who holds a certificate with a key that a trust anchor certified, fills in
the parameters asked for with this helper, and passes what the library makes of them to the module, is asked to prove
possession, and passes with the nonce handed out. -/
theorem C94_holder_passes {C : Crypto} (hC : C.Lawful) (K : KeyStore) {cred : Cert} {identity : Name} {keyId issuer version : Block}
    (hname : K.cert (identity ++ [keyComponent, keyId, issuer, version]) = some cred)
    (hdec : C.decodeCert cred.wire = some cred) (hfit : cred.wire.Fits) (hload : C.loadKey (cred.content.getD []) = true) (hcon : cred.content.isSome = true)
    (hsig : ∀ nonce, ∃ s, K.sign (identity ++ [keyComponent, keyId]) nonce = some s ∧ s ≠ [] ∧ C.verifyRaw nonce s (cred.content.getD []) = true)
    {env env2 : Env} {anchors anchors2 : List Cert} (ha : env.anchors = .ok anchors) (hcert : Certified C anchors cred) (ha2 : env2.anchors = .ok anchors2)
    {r : RequestState} (hr : r.status = .beforeChallenge) (anyNonce : Bytes) :
    ∃ p1 es1 out1 cs, requestedParams .possession .beforeChallenge [] = .ok (p1.map (·.1)) ∧
      fulfillParameters K (p1.map fun p => (p.1, [])) (identity ++ [keyComponent, keyId, issuer, version]) anyNonce = .ok p1 ∧
      genChallengeTlv .possession .beforeChallenge [] p1 = .ok es1 ∧ handleChallenge C .possession env es1 r = .ok out1 ∧
      out1.code = 0 ∧ out1.req.status = .challenge ∧ AwaitsProof C out1.req cs cred env.nonce ∧
      ∃ p2 es2 out2, requestedParams .possession .challenge cs.challengeStatus = .ok (p2.map (·.1)) ∧
        fulfillParameters K (p2.map fun p => (p.1, [])) (identity ++ [keyComponent, keyId, issuer, version]) env.nonce = .ok p2 ∧
        genChallengeTlv .possession .challenge cs.challengeStatus p2 = .ok es2 ∧ handleChallenge C .possession env2 es2 out1.req = .ok out2 ∧
        out2.code = 0 ∧ out2.req.status = .pending := by
  have e : (identity ++ [keyComponent, keyId, issuer, version]).take ((identity ++ [keyComponent, keyId, issuer, version]).length - 2) = identity ++ [keyComponent, keyId] := by
    have : (identity ++ [keyComponent, keyId, issuer, version]) = (identity ++ [keyComponent, keyId]) ++ [issuer, version] := by simp
    rw [this]
    exact List.take_left' (by simp)
  have hval : isValidCertName (identity ++ [keyComponent, keyId, issuer, version]) = true := by unfold isValidCertName; simp
  have fill : ∀ (m : MMap) (nonce : Bytes), fulfillParameters K m (identity ++ [keyComponent, keyId, issuer, version]) nonce =
      fillParams cred.wire.encode (K.sign (identity ++ [keyComponent, keyId]) nonce) m := by
    intro m nonce
    unfold fulfillParameters
    rw [if_neg (by rw [hval]; simp), hname, e]
  obtain ⟨sg, s1, s2, s3⟩ := hsig env.nonce
  obtain ⟨a, ham, kl, hkl, hnm, hver⟩ := hcert
  have hnm : a.keyName = kl ∨ a.name = kl := hnm
  have hany : anchors.any (fun a => (a.keyName == kl || a.name == kl) && C.verifyCert cred a) = true := by
    rw [List.any_eq_true]
    refine ⟨a, ham, ?_⟩
    rw [Bool.and_eq_true, Bool.or_eq_true]
    exact ⟨hnm.imp (by simp) (by simp), hver⟩
  have hscan : possessionScan C [binBlock T.SelectedChallenge ChalKind.possession.chalType, binBlock T.ParameterKey KEY_CREDENTIAL, mkBlock T.ParameterValue [cred.wire]] (none, none) =
      some (some cred, none) := by
    simp only [possessionScan]
    rw [if_neg (by simp [binBlock, T.SelectedChallenge, T.ParameterKey]), if_pos (by simp [binBlock, mkBlock]), if_pos (by rfl)]
    have hb : (mkBlock T.ParameterValue [cred.wire]).blockFromValue = .ok cred.wire := by
      have := blockFromValue_nested T.ParameterValue cred.wire hfit
      simpa [nestedBlock, mkBlock, encodeAll] using this
    rw [hb]
    simp only [Res.bind_ok, dataOfBlock]
    rw [hC.data_of_cert _ _ hdec]
    simp only [Res.ofOption_some]
  have hscan2 : possessionScan C [binBlock T.ParameterKey KEY_PROOF, binBlock T.ParameterValue sg] (none, none) = some (none, some sg) := by
    simp only [possessionScan]
    rw [if_pos (by simp [binBlock]), if_neg (by simp [readString, binBlock]; decide), if_pos (by rfl)]
    rfl
  refine ⟨[(KEY_CREDENTIAL, cred.wire.encode)], [binBlock T.SelectedChallenge ChalKind.possession.chalType, binBlock T.ParameterKey KEY_CREDENTIAL, mkBlock T.ParameterValue [cred.wire]],
    returnWithNewStatus .possession env r NEED_PROOF [(KEY_NONCE, toHex env.nonce), (KEY_CREDENTIAL, toHex cred.wire.encode)] ChalKind.possession.maxTries ChalKind.possession.lifetime,
    _, rfl, ?_, ?_, ?_, rfl, rfl, ⟨rfl, rfl, ⟨cred.wire.encode, cred.wire, fromHex_toHex _, blockOfBytes_encode _ hfit, hdec⟩, fromHex_toHex _⟩, ?_⟩
  · rw [fill]
    rfl
  · unfold genChallengeTlv
    dsimp only
    rw [if_pos rfl, if_pos rfl, blockOfBytes_encode _ hfit]
    rfl
  · show handlePossession C env _ r = _
    unfold handlePossession
    rw [if_neg (by simp), ha]
    dsimp only
    rw [hscan]
    dsimp only
    rw [if_pos hr, if_neg (by simp [credHasContent, hcon]), hkl]
    dsimp only
    rw [if_neg (by rw [hload]; simp), if_pos hany]
  refine ⟨[(KEY_PROOF, sg)], [binBlock T.ParameterKey KEY_PROOF, binBlock T.ParameterValue sg], returnWithSuccess .possession (returnWithNewStatus .possession env r NEED_PROOF [(KEY_NONCE, toHex env.nonce), (KEY_CREDENTIAL, toHex cred.wire.encode)] ChalKind.possession.maxTries ChalKind.possession.lifetime).req, rfl, ?_, rfl, ?_, rfl, rfl⟩
  · rw [fill, s1]
    rfl
  · show handlePossession C env2 _ _ = _
    unfold handlePossession
    rw [if_neg (by simp), ha2]
    dsimp only
    rw [hscan2]
    dsimp only [returnWithNewStatus]
    have hl : sg.length ≠ 0 := by simpa using s2
    have f1 : fromHex (secretGetD [(KEY_NONCE, toHex env.nonce), (KEY_CREDENTIAL, toHex cred.wire.encode)] KEY_CREDENTIAL) = .ok cred.wire.encode := fromHex_toHex _
    have f2 : fromHex (secretGetD [(KEY_NONCE, toHex env.nonce), (KEY_CREDENTIAL, toHex cred.wire.encode)] KEY_NONCE) = .ok env.nonce := fromHex_toHex _
    have hc : ¬ (credHasContent none = true ∨ ((some sg).getD []).length = 0) := by
      rintro (h | h)
      · cases h
      · exact hl h
    refine (if_neg (show ¬ (Status.challenge = Status.beforeChallenge) by decide)).trans ((if_pos rfl).trans ((if_neg hc).trans ?_))
    simp only [f1]
    simp only [Res.bind_ok, blockOfBytes_encode _ hfit, certOfBlock, hdec, Res.ofOption_some, f2, Option.getD_some]
    exact (if_neg (by rw [hload]; simp)).trans (if_pos s3)

/-- a KeyChain with the fixture's certificate and key -/
def exKeyStore : KeyStore where
  cert n := if n = Fix.revCert.name then some Fix.revCert else none
  sign _ nonce := some (nonce ++ Fix.revCert.content.getD [])

/-- the hypotheses of C94 are met -/
example : fulfillParameters exKeyStore [(bytes! "issued-cert", []), (bytes! "other", [1]), (bytes! "proof", [2])] Fix.revCert.name [5, 6] =
      .ok [(bytes! "issued-cert", Fix.revCert.wire.encode), (bytes! "other", [1]), (bytes! "proof", [5, 6] ++ Fix.revCert.content.getD [])] ∧
    exKeyStore.cert Fix.revCert.name = some Fix.revCert ∧ Fix.C.decodeCert Fix.revCert.wire = some Fix.revCert ∧ Fix.revCert.wire.Fits ∧
    Fix.C.loadKey (Fix.revCert.content.getD []) = true ∧ Fix.revCert.content.isSome = true ∧
    (∀ nonce, ∃ s, exKeyStore.sign (Fix.revCert.name.take (Fix.revCert.name.length - 2)) nonce = some s ∧ s ≠ [] ∧ Fix.C.verifyRaw nonce s (Fix.revCert.content.getD []) = true) := by
  refine ⟨by decide +kernel, by decide +kernel, by decide +kernel, by unfold Block.Fits; decide +kernel, by decide +kernel, by decide +kernel, ?_⟩
  intro nonce
  refine ⟨_, rfl, ?_, ?_⟩
  · have h : Fix.revCert.content.getD [] ≠ [] := by decide +kernel
    intro h'
    exact h (List.append_eq_nil_iff.mp h').2
  · show (_ == _) = true
    simp

/-- and so are those about the holder of a certified key: the theorem applies -/
example {r : RequestState} (hr : r.status = .beforeChallenge) :
    ∃ p1 es1 out1, fulfillParameters exKeyStore (p1.map fun p => (p.1, [])) Fix.revCert.name [] = .ok p1 ∧
      genChallengeTlv .possession .beforeChallenge [] p1 = .ok es1 ∧ handleChallenge Fix.C .possession Fix.env2 es1 r = .ok out1 ∧ out1.code = 0 := by
  have hname : Fix.revCert.name = (Fix.ca ++ [gcomp (bytes! "alice")]) ++ [keyComponent, gcomp [107], ndncertComponent, ⟨54, [3]⟩] := by decide +kernel
  have hcert : Certified Fix.C [Fix.caCert] Fix.revCert := by
    refine ⟨Fix.caCert, by simp, Fix.revCert.keyLocator.getD [], ?_, .inl ?_, ?_⟩ <;> decide +kernel
  obtain ⟨p1, es1, out1, cs, _, h1, h2, h3, h4, _⟩ := C94_holder_passes Toy.lawful exKeyStore (cred := Fix.revCert) (identity := Fix.ca ++ [gcomp (bytes! "alice")])
    (keyId := gcomp [107]) (issuer := ndncertComponent) (version := ⟨54, [3]⟩) (by decide +kernel) (by decide +kernel) (by unfold Block.Fits; decide +kernel)
    (by decide +kernel) (by decide +kernel) (by
      intro nonce
      refine ⟨_, rfl, ?_, ?_⟩
      · have h : Fix.revCert.content.getD [] ≠ [] := by decide +kernel
        intro h'
        exact h (List.append_eq_nil_iff.mp h').2
      · show (_ == _) = true
        simp) (env := Fix.env2) (env2 := Fix.env3) (anchors := [Fix.caCert]) (anchors2 := [Fix.caCert]) rfl hcert rfl hr []
  rw [← hname] at h1
  exact ⟨p1, es1, out1, h1, h2, h3, h4⟩

end Ndncert.Props
