import Verif.Spec.Rekey
import Verif.Lemmas.Face
import Verif.Props.Requester
import Verif.Props.CaHistory

/-! # The certificate in the CA's profile and the replies of the CA: C107 -/

namespace Ndncert.Props

open Ndncert

variable {σ : Type} {C : Crypto} {S : StoreI σ} {cfg : CaConfig}

/-! ## Replies, while the key stays -/

theorem put_signed {s : CaState σ} {m : Msg} {env : Env} {d : Data} (h : Effect.put d ∈ (handle C S cfg s m env).effects) :
    d = mkData C cfg.profile.caPrefix m.interest.name d.content := by
  have hnew : ∀ ty, (ty = RequestType.new ∨ ty = .revoke) → ∀ i,
      Effect.put d ∈ (onNewRenewRevoke C S cfg s.idKey s.store ty i env).effects → d = mkData C cfg.profile.caPrefix i.name d.content := by
    intro ty hty i h
    have hc := onNew_cases C S cfg s.idKey s.store ty hty i env
    generalize onNewRenewRevoke C S cfg s.idKey s.store ty i env = o at hc h
    cases hc <;> simp [acceptOutcome] at h <;> subst h <;> rfl
  cases m with
  | probe i =>
    have h' : Effect.put d ∈ (onProbe C cfg i env).effects := h
    show d = mkData C cfg.profile.caPrefix i.name d.content
    unfold onProbe at h'
    split at h'
    · simp at h'
    · simp at h'
    · dsimp only at h'
      split at h'
      · simp at h'
      · simp at h'
      · split at h' <;> simp [replyError] at h' <;> subst h' <;> rfl
  | new i => exact hnew .new (.inl rfl) i h
  | revoke i => exact hnew .revoke (.inr rfl) i h
  | challenge i =>
    have h' : Effect.put d ∈ (onChallenge C S cfg s.store i env).effects := h
    show d = mkData C cfg.profile.caPrefix i.name d.content
    have hc := onChallenge_cases C S cfg s.store i env
    generalize onChallenge C S cfg s.store i env = o at hc h'
    cases hc <;> simp at h' <;> subst h' <;> rfl

/-- C107 (part): whatever the CA sends in answer to a message, in any state, carries the name of the Interest and
verifies under every certificate for the key the CA has then. -/
theorem C107_replies_partial (hC : C.Honest) (s : CaState σ) (m : Msg) (env : Env) (d : Data) (t : Cert)
    (ht : t.content = some (C.idPub cfg.profile.caPrefix)) (h : Effect.put d ∈ (handle C S cfg s m env).effects) :
    d.name = m.interest.name ∧ C.verifyData d t = true := by
  rw [put_signed h]
  exact ⟨rfl, hC.data_verifies _ _ _ _ ht⟩

/-! ## The profile is made once -/

/-- C107 (part): the profile served by a process is the one made by the first call that did not throw. Every later call
returns the very same Data, whatever key and certificate the CA then has. -/
theorem C107_kept_partial (p : CaProfile) (calls : List (Crypto × Cert × Block)) (i : Nat) (d : Data)
    (h : (profileCalls p none calls)[i]? = some (.ok d)) :
    (∀ j, i ≤ j → j < calls.length → (profileCalls p none calls)[j]? = some (.ok d)) ∧
    ∃ k, k ≤ i ∧ ∃ C t v, calls[k]? = some (C, t, v) ∧ getCaProfileData C p t v = .ok d := by
  have kept : ∀ (calls : List (Crypto × Cert × Block)) (d : Data) (j : Nat), j < calls.length →
      (profileCalls p (some d) calls)[j]? = some (.ok d) := by
    intro calls d
    induction calls with
    | nil => intro j hj; simp at hj
    | cons c calls ih =>
      intro j hj
      obtain ⟨C, t, v⟩ := c
      cases j with
      | zero => rfl
      | succ j => exact ih j (by simpa using hj)
  induction calls generalizing i with
  | nil => simp [profileCalls] at h
  | cons c calls ih =>
    obtain ⟨C, t, v⟩ := c
    have hcons : profileCalls p none ((C, t, v) :: calls) =
        (cachedProfileData C p none t v).1 :: profileCalls p (cachedProfileData C p none t v).2 calls := rfl
    rw [hcons] at h ⊢
    unfold cachedProfileData at h ⊢
    dsimp only at h ⊢
    have later : ∀ (e : Res Data) (hne : ∀ d, e ≠ .ok d), (e :: profileCalls p none calls)[i]? = some (.ok d) →
        (∀ j, i ≤ j → j < ((C, t, v) :: calls).length → (e :: profileCalls p none calls)[j]? = some (.ok d)) ∧
        ∃ k, k ≤ i ∧ ∃ C' t' v', ((C, t, v) :: calls)[k]? = some (C', t', v') ∧ getCaProfileData C' p t' v' = .ok d := by
      intro e hne h
      cases i with
      | zero =>
        simp at h
        exact absurd h (hne d)
      | succ i =>
        obtain ⟨h1, k, hk, h2⟩ := ih i h
        refine ⟨?_, k + 1, by omega, h2⟩
        intro j hj hl
        cases j with
        | zero => omega
        | succ j => exact h1 j (by omega) (by simpa using hl)
    cases hg : getCaProfileData C p t v with
    | ok d0 =>
      rw [hg] at h
      dsimp only at h ⊢
      have hall : ∀ j, j < ((C, t, v) :: calls).length → ((.ok d0 : Res Data) :: profileCalls p (some d0) calls)[j]? = some (.ok d0) := by
        intro j hj
        cases j with
        | zero => rfl
        | succ j => exact kept calls d0 j (by simpa using hj)
      have hi : i < ((C, t, v) :: calls).length := by
        refine Decidable.byContradiction (fun hn => ?_)
        have hlen : ∀ (c : Option Data) (l : List (Crypto × Cert × Block)), (profileCalls p c l).length = l.length := by
          intro c l
          induction l generalizing c with
          | nil => rfl
          | cons x l ih => obtain ⟨a, b, e⟩ := x; simpa [profileCalls] using ih _
        rw [List.getElem?_eq_none (by simp [hlen]; simp at hn; omega)] at h
        cases h
      have e := hall i hi
      rw [h] at e
      cases e
      exact ⟨fun j _ hj => hall j hj, 0, by omega, C, t, v, rfl, hg⟩
    | exc e =>
      rw [hg] at h
      exact later _ (by simp) h
    | ub u =>
      rw [hg] at h
      exact later _ (by simp) h

/-- C107 (part): as long as the CA keeps its key, a requester accepts the profile the CA serves, however late it asks, and
whatever the CA signs verifies under the certificate in it. -/
theorem C107_same_key_partial (hC : C.Honest) (p : CaProfile) (certs : List (Cert × Block)) (hw : Name.Wf p.caPrefix)
    (hmv : -(2 ^ 63) ≤ p.maxValidityPeriod) (hmv2 : p.maxValidityPeriod < 2 ^ 63)
    (hcerts : ∀ c ∈ certs, C.decodeCert c.1.wire = some c.1 ∧ c.1.content = some (C.idPub p.caPrefix))
    (d : Data) (hd : Res.ok d ∈ profileCalls p none (certs.map (fun c => (C, c.1, c.2)))) (hl : d.content.val.length < 2 ^ 64) :
    ServesCurrentKey C p d := by
  obtain ⟨i, hi⟩ := List.mem_iff_getElem?.mp hd
  obtain ⟨_, k, _, C', t, v, hk, hg⟩ := C107_kept_partial p _ i d hi
  have hm := List.mem_of_getElem? hk
  rw [List.mem_map] at hm
  obtain ⟨c, hc, e⟩ := hm
  cases e
  obtain ⟨hdec, hpub⟩ := hcerts c hc
  obtain ⟨_, q, h1, _, _, _, h2⟩ := C71_profile_received hC p c.1 c.2 d hdec hpub hw hmv hmv2 hg hl
  exact ⟨q, c.1, h1, h2, fun name content => hC.data_verifies p.caPrefix name content c.1 hpub⟩

example : (∀ c ∈ [(exNdnCert, (⟨54, [9]⟩ : Block))], Fix.C.decodeCert c.1.wire = some c.1 ∧ c.1.content = some (Fix.C.idPub Fix.profile.caPrefix)) ∧
    Res.ok exProfileData ∈ profileCalls Fix.profile none ([(exNdnCert, (⟨54, [9]⟩ : Block))].map (fun c => (Fix.C, c.1, c.2))) ∧
    exProfileData.content.val.length < 2 ^ 64 := by
  have hg : getCaProfileData Fix.C Fix.profile exNdnCert ⟨54, [9]⟩ = .ok exProfileData := by decide +kernel
  refine ⟨?_, ?_, by decide +kernel⟩
  · intro c hc
    simp at hc
    subst hc
    exact ⟨by decide +kernel, by decide +kernel⟩
  · simp [profileCalls, cachedProfileData, hg]

/-! ## After the key is replaced -/

/-- the KeyChain of the examples with other keys -/
def exRekeyed : Crypto :=
  { Fix.C with
    idPub := fun n => 3 :: Toy.idPub n
    signData := fun id _ _ => 3 :: Toy.idPub id
    signCert := fun id n c v => Toy.signCert (3 :: Toy.idPub id) (id ++ [keyComponent, gcomp [2]]) n c v }

theorem exRekeyed_honest : exRekeyed.Honest where
  decode_wire := Toy.honest.decode_wire
  decode_name := Toy.honest.decode_name
  data_wire := Toy.honest.data_wire
  data_of_cert := Toy.honest.data_of_cert
  hmac_length := Toy.honest.hmac_length
  hkdf_length := Toy.honest.hkdf_length
  sha256_length := Toy.honest.sha256_length
  aes_length := Toy.honest.aes_length
  aes_correct := Toy.honest.aes_correct
  ecdh_agree := Toy.honest.ecdh_agree
  ecdh_total := Toy.honest.ecdh_total
  ecdh_pub_ne := Toy.honest.ecdh_pub_ne
  interest_verifies := Toy.honest.interest_verifies
  cert_verifies := Toy.honest.cert_verifies
  cert_decodes := Toy.honest.cert_decodes
  issued_decodes ca n content v hk hn hv hp hf := by
    have hpar := Toy.wire_parse n content (ca ++ [keyComponent, gcomp [2]]) v (3 :: Toy.idPub ca) ⟨(by decide : 0 < T.Data), (by decide : T.Data < 2 ^ 32), hf⟩
    have e1 := nameOfBlock_nameBlock n hn.1
    have hk' : NameFits (ca ++ [keyComponent, gcomp [2]]) := hk
    have e2 := nameOfBlock_nameBlock (ca ++ [keyComponent, gcomp [2]]) hk'.1
    have e3 := blockFromValue_nested 28 (nameBlock (ca ++ [keyComponent, gcomp [2]])) (nameBlock_fits _ hk')
    show Toy.decodeCert (Toy.wire n (some content) (some (ca ++ [keyComponent, gcomp [2]])) (some v) (3 :: Toy.idPub ca)) = _
    have ht : (Toy.wire n (some content) (some (ca ++ [keyComponent, gcomp [2]])) (some v) (3 :: Toy.idPub ca)).typ = T.Data := rfl
    unfold Toy.decodeCert
    rw [if_pos ht, hpar]
    simp [Toy.find, Toy.okOpt, e1, e2, e3, hv, exRekeyed, Toy.signCert, Toy.period_roundtrip v hp]
  data_verifies ca n content c hc := by
    have hc' : c.content = some (3 :: Toy.idPub ca) := hc
    show (some (mkData exRekeyed ca n content).sig == c.content) = true
    simp [mkData, hc', exRekeyed]

def exRekeyedWire : Block :=
  Toy.wire (Fix.ca ++ [keyComponent, gcomp [2], gcomp (bytes! "self"), gcomp [1]]) (some (3 :: Toy.idPub Fix.ca)) (some Fix.ca) (some (0, 1000 * nsPerSec)) [1]
def exRekeyedCert : Cert := (Fix.C.decodeCert exRekeyedWire).getD Fix.caCert

/-- C107 is false: the CA made its profile and then its key and certificate were replaced. It still serves the old profile,
so a requester that fetches the profile now takes the old certificate for that of the CA, and whatever the CA
answers to a message, it does not verify under it, so that NEW and CHALLENGE throw. -/
theorem C107_false : ∃ (C' : Crypto) (t t' : Cert) (v v' : Block) (d : Data),
    Fix.C.Honest ∧ C'.Honest ∧ Fix.C.Rekeyed C' ∧
    (Fix.C.decodeCert t.wire = some t ∧ t.content = some (Fix.C.idPub Fix.profile.caPrefix)) ∧
    (C'.decodeCert t'.wire = some t' ∧ t'.content = some (C'.idPub Fix.profile.caPrefix)) ∧
    profileCalls Fix.profile none [(Fix.C, t, v), (C', t', v')] = [.ok d, .ok d] ∧
    ¬ ServesCurrentKey C' Fix.profile d ∧
    ∃ q, onCaProfileResponse C' d = .ok q ∧ q.cert = some t ∧
      ∀ (σ : Type) (S : StoreI σ) (s : CaState σ) (m : Msg) (env : Env) (reply : Data),
        Effect.put reply ∈ (handle C' S Fix.cfg s m env).effects →
        C'.verifyData reply t' = true ∧
        (∀ names cas, ∃ e, onProbeResponse C' reply q names cas = .exc e) ∧
        (∀ (r : Request) stack, r.profile = q → ∃ e, onNewResponse C' r reply stack = (r, .exc e)) ∧
        (∀ (r : Request) now, r.profile = q → ∃ e, onChallengeResponse C' r reply now = (r, .exc e)) := by
  have hg : getCaProfileData Fix.C Fix.profile exNdnCert ⟨54, [9]⟩ = .ok exProfileData := by decide +kernel
  have hdec : Fix.C.decodeCert exNdnCert.wire = some exNdnCert := by decide +kernel
  have hpub : exNdnCert.content = some (Fix.C.idPub Fix.profile.caPrefix) := by decide +kernel
  obtain ⟨_, q, h1, _, _, _, h2⟩ := C71_profile_received Toy.honest Fix.profile exNdnCert ⟨54, [9]⟩ exProfileData hdec hpub
    (by simp [Name.Wf, Fix.profile, Fix.ca, gcomp]) (by decide) (by decide) hg (by decide +kernel)
  have h1' : onCaProfileResponse exRekeyed exProfileData = .ok q := h1
  have hno : ∀ name content, exRekeyed.verifyData (mkData exRekeyed Fix.profile.caPrefix name content) exNdnCert = false := by
    intro name content
    show (some (3 :: Toy.idPub Fix.profile.caPrefix) == exNdnCert.content) = false
    rw [hpub]
    decide +kernel
  have hpub' : exRekeyedCert.content = some (exRekeyed.idPub Fix.profile.caPrefix) := by decide +kernel
  refine ⟨exRekeyed, exNdnCert, exRekeyedCert, ⟨54, [9]⟩, ⟨54, [10]⟩, exProfileData, Toy.honest, exRekeyed_honest, ⟨_, _, _, rfl⟩,
    ⟨hdec, hpub⟩, ⟨by decide +kernel, hpub'⟩, by simp [profileCalls, cachedProfileData, hg], ?_, q, h1', h2, ?_⟩
  · rintro ⟨q', t, h3, h4, h5⟩
    rw [h1'] at h3
    cases h3
    rw [h2] at h4
    cases h4
    have := h5 [] ⟨0, []⟩
    have hn := hno [] ⟨0, []⟩
    unfold mkData at hn
    rw [hn] at this
    cases this
  · intro σ S s m env reply hr
    have hsig := put_signed hr
    have hv : exRekeyed.verifyData reply exNdnCert = false := by rw [hsig]; exact hno _ _
    exact ⟨(C107_replies_partial exRekeyed_honest s m env reply exRekeyedCert hpub' hr).2,
      C63_unverified_reply (C := exRekeyed) q exNdnCert reply h2 hv⟩

/-- the replies spoken of exist: a CHALLENGE for no stored request is answered -/
example : ∃ d, Effect.put d ∈ (handle exRekeyed Fix.S Fix.cfg ⟨Fix.S.empty, []⟩ (.challenge ⟨[], none, []⟩) (Fix.env 0)).effects := by
  refine ⟨errorData exRekeyed Fix.cfg.profile.caPrefix [] ErrorCode.INVALID_PARAMETER (bytes! "No certificate request state can be found."), ?_⟩
  simp [handle, onChallenge, getCertificateRequest, replyError]

end Ndncert.Props
