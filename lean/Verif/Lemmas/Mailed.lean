import Verif.Lemmas.Mails
import Verif.Lemmas.Authentic

namespace Ndncert

variable {σ : Type} {C : Crypto} {S : StoreI σ} {Inv : σ → Prop} {cfg : CaConfig}

/-- what is mailed by a step that starts a challenge and stores that -/
theorem starts_mails (hS : LawfulStore C S Inv) {n : Step σ} (hi : Inv n.pre.store) (wf : n.event.Wf cfg)
    (he : n.effects = (n.event.run C S cfg n.pre).1) {i : Interest} {env : Env} {r : RequestState} {k : ChalKind}
    (hst : StartsChallenge C S cfg n i env r k) :
    (k = .email → ∃ es addr, Challenges C S cfg n i env r es .email ∧ Gives es addr ∧
      mailed n.effects = [{ address := addr, code := secretCode env.word32, caPrefix := r.caPrefix, certName := r.cert.name }]) ∧
    (k ≠ .email → mailed n.effects = []) := by
  obtain ⟨⟨es0, hch⟩, hbef, r1, hup, _, hty⟩ := hst
  have hwf := wf _ _ hch.handles
  rcases run_effects C S cfg n.pre n.event with ⟨_, h⟩ | ⟨m, env', k', hm, h⟩
  · rw [he, h] at hup; cases hup
  · have hsame : some (m, env') = some (Msg.challenge i, env) := hm.symm.trans hch.handles
    cases hsame
    rw [← he] at h
    have hh : handle C S cfg n.pre (.challenge i) env = onChallenge C S cfg n.pre.store i env := rfl
    rw [hh] at h
    have hc := onChallenge_cases C S cfg n.pre.store i env
    have hup' : Effect.dbUpdate r1 ∈ (onChallenge C S cfg n.pre.store i env).effects := by
      rw [h] at hup
      exact List.mem_of_mem_take hup
    generalize onChallenge C S cfg n.pre.store i env = o at hc h hup'
    cases hc with
    | continued r' div es k0 out r2 payload hv ho hmc hst henc =>
      have hr : r' = r := ((verified_authentic hS hi (idFits_of_wf hwf.1) hwf.2.stack).mp hv).unique hch.authentic
      subst hr
      have hr1 : r1 = r2 := by simpa using hup'
      subst hr1
      obtain ⟨_, iv, _, hr2, _⟩ := challengeEncode_ok henc
      cases hmc with
      | error => cases hst
      | start cstat secrets mails hs hsc =>
        have hk : k0 = k := by
          rw [hr2] at hty
          have hty : k0.chalType = k.chalType := hty
          cases k <;> cases k0 <;> first | rfl | (revert hty; decide)
        subst hk
        cases hsc with
        | pin =>
          refine ⟨fun h => (by cases h), fun _ => ?_⟩
          rw [List.eq_nil_iff_forall_not_mem]
          intro m hm'
          have := mem_mailed.mp hm'
          rw [h] at this
          have := List.mem_of_mem_take this
          simp at this
        | possession =>
          refine ⟨fun h => (by cases h), fun _ => ?_⟩
          rw [List.eq_nil_iff_forall_not_mem]
          intro m hm'
          have := mem_mailed.mp hm'
          rw [h] at this
          have := List.mem_of_mem_take this
          simp at this
        | email addr hg hid hsp =>
          refine ⟨fun _ => ⟨es, addr, ⟨hch.handles, hch.authentic, ho.selects⟩, hg, ?_⟩, fun h => absurd rfl h⟩
          rw [h] at hup ⊢
          match k' with
          | 0 => cases hup
          | 1 => simp at hup
          | 2 => rfl
          | 3 => rfl
          | k' + 4 => simp only [List.map_cons, List.map_nil, List.cons_append, List.nil_append, List.take_succ_cons, List.take_nil]; rfl
      | wrong _ _ _ hs => exact absurd hbef hs
      | code _ _ hs => exact absurd hbef hs
      | proof _ _ _ _ hs => exact absurd hbef hs
    | contThrew => simp at hup'
    | _ => simp at hup'

/-- an email is only sent for a request with no challenge yet -/
theorem mailsFor_before (hS : LawfulStore C S Inv) {n : Step σ} (hi : Inv n.pre.store) (wf : n.event.Wf cfg)
    (hp : n.event.Possible C S cfg n.pre) (he : n.effects = (n.event.run C S cfg n.pre).1) {id : RequestId} (h : MailsFor C S cfg id n) :
    ∃ r, S.view n.pre.store id = some r ∧ r.status = .beforeChallenge := by
  obtain ⟨hne, i, env, r, hhd, hau, rfl⟩ := h
  obtain ⟨m, hm⟩ := List.exists_mem_of_ne_nil _ hne
  obtain ⟨i', env', r', hhd', hv, hs, _, hd⟩ := mail_step he hp (mem_mailed.mp hm)
  have hsame : some (Msg.challenge i', env') = some (Msg.challenge i, env) := hhd'.symm.trans hhd
  cases hsame
  have hr : r' = r := ((verified_authentic hS hi (idFits_of_wf (wf _ _ hhd).1) (wf _ _ hhd).2.stack).mp hv).unique hau
  subst hr
  exact ⟨r', hau.pending, hs⟩

end Ndncert
