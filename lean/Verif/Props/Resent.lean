import Verif.Lemmas.Replay
import Verif.Props.CaHistory
import Verif.Props.CaChallenge

/-! # A CHALLENGE that arrives again (C144) -/

namespace Ndncert.Props

/-- C144 in full: a CHALLENGE Interest that was answered leaves the request as it is when it arrives again -/
def ArrivesAgain {σ : Type} (C : Crypto) (S : StoreI σ) (cfg : CaConfig) : Prop :=
  ∀ h s, Exec C S cfg h s → ∀ h1 n h2, h = h1 ++ n :: h2 → ∀ i env r, n.Handles (.challenge i) env → Authentic C S cfg n.pre.store i env r →
    sent n.effects ≠ [] → ∀ env', (Event.msg (.challenge i) env').Wf cfg →
    S.view ((Event.msg (.challenge i) env').run C S cfg s).2.store r.requestId = S.view s.store r.requestId

/-- C144 is false of the code: the start of a PIN challenge, received a second time, removes the request -/
theorem C144_false : ¬ ArrivesAgain Fix.C Fix.S Fix.cfg := by
  intro H
  have hx := exec_of_runs (C := Fix.C) (S := Fix.S) (cfg := Fix.cfg) (idKey := Fix.idKey) (es := [Fix.ev1, Fix.ev2]) (by decide +kernel)
  have hau : Authentic Fix.C Fix.S Fix.cfg Fix.st1.store Fix.chal1 Fix.env2 (Fix.stored Fix.st1) := authenticOk_sound (by decide +kernel)
  have hsent : (sent (Fix.ev2.run Fix.C Fix.S Fix.cfg Fix.st1).1).length = 1 := by decide +kernel
  have hb : Fix.S.view ((Event.msg (.challenge Fix.chal1) Fix.env3).run Fix.C Fix.S Fix.cfg (runs Fix.C Fix.S Fix.cfg ⟨Fix.S.empty, Fix.idKey⟩ [Fix.ev1, Fix.ev2]).2).2.store (Fix.stored Fix.st1).requestId = none ∧
      Fix.S.view (runs Fix.C Fix.S Fix.cfg ⟨Fix.S.empty, Fix.idKey⟩ [Fix.ev1, Fix.ev2]).2.store (Fix.stored Fix.st1).requestId ≠ none := by constructor <;> decide +kernel
  have hwf : (Event.msg (.challenge Fix.chal1) Fix.env3).Wf Fix.cfg := eventOk_wf (by decide +kernel)
  have := H _ _ hx [⟨Fix.st0, Fix.ev1, (Fix.ev1.run Fix.C Fix.S Fix.cfg Fix.st0).1⟩] ⟨Fix.st1, Fix.ev2, (Fix.ev2.run Fix.C Fix.S Fix.cfg Fix.st1).1⟩ []
    (by unfold Fix.st1; rfl)
    Fix.chal1 Fix.env2 (Fix.stored Fix.st1) rfl hau (by intro h; rw [h] at hsent; cases hsent) Fix.env3 hwf
  exact hb.2 (this.symm.trans hb.1)

section
variable {σ : Type} {C : Crypto} {S : StoreI σ} {Inv : σ → Prop} {cfg : CaConfig}

/-- the certificate of a request stays -/
theorem cert_stays (hC : C.Lawful) (hS : LawfulStore C S Inv) (hcfg : NameFits cfg.profile.caPrefix)
    {h : List (Step σ)} {s : CaState σ} (hx : Exec C S cfg h s) {h1 h2 : List (Step σ)} {n : Step σ} (hh : h = h1 ++ n :: h2)
    {r : RequestState} (hr : S.view n.pre.store r.requestId = some r)
    (hno : ∀ x ∈ h2, ∀ r', Effect.dbAdd r' ∈ x.effects → r'.requestId ≠ r.requestId)
    {r' : RequestState} (hr' : S.view s.store r.requestId = some r') : r'.cert = r.cert := by
  obtain ⟨hx1, hwf, _, heff, _⟩ := hx.split _ _ _ hh
  have hinv := (hx1.life hC hS hcfg).1
  obtain ⟨hinv', hvc⟩ := step_view hC hS hcfg hinv hwf heff
  obtain ⟨_, hview⟩ := run_view (cfg := cfg) hS heff hinv'
  have upd : ∀ {n : Step σ} {i env k es out ra rb rc}, UpdatedBy C S cfg n i env k es out ra rb → SameStored rb rc → rc.cert = ra.cert := by
    intro n i env k es out ra rb rc hu hs
    obtain ⟨div, _, hmc⟩ := hu.module
    obtain ⟨payload, henc⟩ := hu.encode
    obtain ⟨_, iv, _, hr2, _⟩ := challengeEncode_ok henc
    rw [← hs.fields.2.2.2.1, hr2]
    cases hmc <;> rfl
  refine hx.preserve (id := r.requestId) (P := fun r' => r'.cert = r.cert) hC hS hcfg ?_ h1 n h2 hh ?_ hno r' hr'
  · rintro h0 n0 i0 env0 k0 es0 out0 ra rb rc hx0 hu hva hid hs hp
    rw [upd hu hs]
    exact hp
  · intro rr hrr
    have hrr' : S.view (n.afterStore S) r.requestId = some rr := by
      rcases hview with h | h
      · rw [← h]; exact hrr
      · rw [h] at hrr; cases hrr
    cases hvc with
    | same h0 hsame => rw [hsame, hr] at hrr'; cases hrr'; rfl
    | deleted i' env' r'' hd' he' hv' _ hvw =>
      rw [hvw] at hrr'
      split at hrr'
      · cases hrr'
      · rw [hr] at hrr'; cases hrr'; rfl
    | added ty i0 env0 r0 hd ha h0 hvw =>
      rw [hvw] at hrr'
      split at hrr'
      · rename_i heq; rw [← heq, hr] at h0; cases h0
      · rw [hr] at hrr'; cases hrr'; rfl
    | updated i0 env0 k0 es out r0 r1 rx hd hu h0 hs hvw =>
      rw [hvw] at hrr'
      split at hrr'
      · rename_i heq
        cases hrr'
        rw [← heq, hr] at h0
        cases h0
        exact upd hu hs
      · rw [hr] at hrr'; cases hrr'; rfl

/-- an authentic CHALLENGE with an old counter removes the request -/
theorem stale_removed {st : σ} {i : Interest} {env : Env} {r : RequestState} (hv : Verified C S cfg st i env r) (hiv : IvsOk r)
    (hst : ∃ iv, ivOf i = some iv ∧ ivCounter iv < ivCounter r.decryptionIv ∧ r.decryptionIv.length = 12) :
    ∃ code d, IsErrorReply C cfg i code d ∧ onChallenge C S cfg st i env = ⟨[.dbDelete r.requestId, .put d], .done⟩ := by
  obtain ⟨iv, g1, g2, g3⟩ := hst
  unfold onChallenge
  rw [hv.found]
  dsimp only
  rw [if_neg (by rw [hv.sig]; simp)]
  rcases hdec : decodeAes C (i.params.getD ⟨0, []⟩) r.encryptionKey r.requestId r.decryptionIv r.encryptionIv with ⟨div, res⟩
  dsimp only
  cases res with
  | exc e => exact ⟨_, _, ⟨by decide, _, rfl⟩, rfl⟩
  | ub u => exact absurd (congrArg Prod.snd hdec) (decodeAes_no_ub (by rcases hiv.dec with h | h <;> simp [h]) (by rcases hiv.enc with h | h <;> simp [h]) u)
  | ok pt =>
    exfalso
    obtain ⟨es0, ct, iv', tag, p1, p2, p3, p4, p5, p6, p7, p8, p9, p10, p11⟩ := decodeAes_ok hdec
    have : ivOf i = some iv'.val := by unfold ivOf; rw [p1]; dsimp only; rw [p3]
    rw [g1] at this
    cases this
    have := (p8 (by intro h; rw [h] at g3; cases g3)).2.1
    omega

/-- C144, what holds instead: a CHALLENGE that was answered without error, when it arrives again, whoever sent it and in whatever surroundings,
is answered with an error. If its request is still pending, it is always removed; if not, nothing happens. No other request is touched. -/
theorem C144_removed_partial (hC : C.Lawful) (hS : LawfulStore C S Inv) (hcfg : NameFits cfg.profile.caPrefix)
    {h : List (Step σ)} {s : CaState σ} (hx : Exec C S cfg h s) {h1 h2 : List (Step σ)} {n : Step σ} (hh : h = h1 ++ n :: h2)
    {i : Interest} {env : Env} {r : RequestState} (hm : n.Handles (.challenge i) env) (hau : Authentic C S cfg n.pre.store i env r)
    {d : Data} (hd : d ∈ sent n.effects) (hne : ¬ ∃ code, IsErrorReply C cfg i code d)
    (hno : ∀ x ∈ h2, ∀ r', .dbAdd r' ∈ x.effects → r'.requestId ≠ r.requestId)
    {env' : Env} (he' : env'.Wf) (hn : Names cfg env' i r.requestId) :
    ∃ code d', IsErrorReply C cfg i code d' ∧
      (∀ r', S.view s.store r.requestId = some r' → onChallenge C S cfg s.store i env' = ⟨[.dbDelete r.requestId, .put d'], .done⟩) ∧
      (S.view s.store r.requestId = none → onChallenge C S cfg s.store i env' = ⟨[.put d'], .done⟩) ∧
      S.view (applyEffects S s.store (onChallenge C S cfg s.store i env').effects) r.requestId = none ∧
      ∀ id, id ≠ r.requestId → S.view (applyEffects S s.store (onChallenge C S cfg s.store i env').effects) id = S.view s.store id := by
  obtain ⟨hx1, hwf, _, heff, _⟩ := hx.split _ _ _ hh
  obtain ⟨hmw, hew⟩ := hwf _ _ hm
  have hinv := (hx.life hC hS hcfg).1
  have hid := idFits_of_wf hmw
  have hother : ∀ id, id ≠ r.requestId → S.view (applyEffects S s.store (onChallenge C S cfg s.store i env').effects) id = S.view s.store id := by
    intro id hne'
    have := C29_isolation C S cfg s.store i env' hC hS hcfg hinv hmw he' (onChallenge C S cfg s.store i env').effects.length (id := id) (fun h => hne' (Names.unique h hn))
    rwa [List.take_length] at this
  rcases hv : S.view s.store r.requestId with _ | r'
  · obtain ⟨code, d', g1, g2⟩ := C28_unauthentic_no_effect C S cfg s.store i env' hS hinv hid he' (fun r' h5 h6 => by
      rw [h6.unique hn, hv] at h5; cases h5)
    refine ⟨code, d', g1, fun r' h => (by cases h), fun _ => g2, ?_, hother⟩
    rw [g2]
    exact hv
  · have hcert := cert_stays hC hS hcfg hx hh hau.pending hno hv
    have hid' := hS.get_id _ _ _ hinv hv
    have hau' : Authentic C S cfg s.store i env' r' := ⟨by rw [hid']; exact hv, by rw [hid']; exact hn, by rw [hcert]; exact hau.sig⟩
    have hver := (verified_authentic hS hinv hid he'.stack).mpr hau'
    obtain ⟨code, d', g1, g2⟩ := stale_removed hver (hx.ivsOk hC hS hcfg hv) (replay_counter hC hS hcfg hx hh hm hau hd hne hno hv)
    rw [hid'] at g2
    refine ⟨code, d', g1, fun _ _ => g2, fun h => (by cases h), ?_, hother⟩
    rw [g2]
    show S.view (S.delete s.store r.requestId) r.requestId = none
    rw [hS.delete_view _ _ hinv, if_pos rfl]

end

/-- a request whose PIN challenge was started, and the Interest that started it: the hypotheses of `C144_removed_partial` hold, and the request is
pending -/
example : ∃ h1 n h2 d, (runs Fix.C Fix.S Fix.cfg ⟨Fix.S.empty, Fix.idKey⟩ [Fix.ev1, Fix.ev2]).1 = h1 ++ n :: h2 ∧
    n.Handles (.challenge Fix.chal1) Fix.env2 ∧ Authentic Fix.C Fix.S Fix.cfg n.pre.store Fix.chal1 Fix.env2 (Fix.stored Fix.st1) ∧
    d ∈ sent n.effects ∧ (¬ ∃ code, IsErrorReply Fix.C Fix.cfg Fix.chal1 code d) ∧ h2 = [] ∧
    Names Fix.cfg Fix.env3 Fix.chal1 (Fix.stored Fix.st1).requestId ∧
    Fix.S.view (runs Fix.C Fix.S Fix.cfg ⟨Fix.S.empty, Fix.idKey⟩ [Fix.ev1, Fix.ev2]).2.store (Fix.stored Fix.st1).requestId ≠ none := by
  have hau : Authentic Fix.C Fix.S Fix.cfg Fix.st1.store Fix.chal1 Fix.env2 (Fix.stored Fix.st1) := authenticOk_sound (by decide +kernel)
  refine ⟨[⟨Fix.st0, Fix.ev1, (Fix.ev1.run Fix.C Fix.S Fix.cfg Fix.st0).1⟩], ⟨Fix.st1, Fix.ev2, (Fix.ev2.run Fix.C Fix.S Fix.cfg Fix.st1).1⟩, [],
    Fix.reply2, by unfold Fix.st1; rfl, rfl, hau, by decide +kernel, ?_, rfl, ?_, by decide +kernel⟩
  · rintro ⟨code, _, info, h⟩
    have h1 : (errorEncode code info).val.head? ≠ Fix.reply2.content.val.head? := by
      have h2 : Fix.reply2.content.val.head? ≠ some 171 := by decide +kernel
      intro h3
      exact h2 h3.symm
    apply h1
    rw [h]
  · have hs : Fix.env3.stack = Fix.env2.stack := rfl
    have := hau.names
    unfold Names at this ⊢
    rw [hs]
    exact this

end Ndncert.Props
