import Verif.Lemmas.Count
import Verif.Lemmas.Issue
import Verif.Spec.Mails

namespace Ndncert

variable {σ : Type} {C : Crypto} {S : StoreI σ} {Inv : σ → Prop} {cfg : CaConfig}

theorem mem_mailed {es : List Effect} {m : Mail} : m ∈ mailed es ↔ Effect.mail m ∈ es := by
  induction es with
  | nil => simp [mailed]
  | cons e es ih => cases e <;> simp [mailed, ih]

theorem modCase_mails {k : ChalKind} {env : Env} {es : List Block} {r : RequestState} {out : ChalOut} (h : ModCase C k env es r out) :
    out.mails = [] ∨ r.status = .beforeChallenge ∧ ∃ m, out.mails = [m] := by
  cases h with
  | error => exact .inl rfl
  | start cstat secrets mails hs hst =>
    cases hst with
    | pin => exact .inl rfl
    | email => exact .inr ⟨hs, _, rfl⟩
    | possession => exact .inl rfl
  | wrong => exact .inl rfl
  | code => exact .inl rfl
  | proof => exact .inl rfl

/-- when an email is sent -/
theorem mail_effects {s : CaState σ} {msg : Msg} {env : Env} {m : Mail} (h : Effect.mail m ∈ (handle C S cfg s msg env).effects) :
    ∃ i r, msg = .challenge i ∧ Verified C S cfg s.store i env r ∧ r.status = .beforeChallenge ∧
      ((∃ r1 d rc, (handle C S cfg s msg env).effects = [.mail m, .dbUpdate r1, .put d, .callback rc] ∧ r1.requestId = r.requestId) ∨
       ((handle C S cfg s msg env).effects = [.mail m] ∧ (handle C S cfg s msg env).term ≠ .done)) := by
  have newcase : ∀ ty i, (ty = .new ∨ ty = .revoke) →
      handle C S cfg s msg env = onNewRenewRevoke C S cfg s.idKey s.store ty i env → False := by
    intro ty i hty hh
    have hc := onNew_cases C S cfg s.idKey s.store ty hty i env
    rw [← hh] at hc
    generalize handle C S cfg s msg env = o at hc h
    cases hc <;> simp [acceptOutcome] at h
  cases msg with
  | probe i =>
    exfalso
    have hh : handle C S cfg s (.probe i) env = onProbe C cfg i env := rfl
    rw [hh] at h
    unfold onProbe at h
    split at h
    · cases h
    · cases h
    · dsimp only at h
      split at h
      · cases h
      · cases h
      · split at h <;> simp [replyError] at h
  | new i => exact (newcase .new i (.inl rfl) rfl).elim
  | revoke i => exact (newcase .revoke i (.inr rfl) rfl).elim
  | challenge i =>
    have hc := onChallenge_cases C S cfg s.store i env
    have hh : handle C S cfg s (.challenge i) env = onChallenge C S cfg s.store i env := rfl
    rw [← hh] at hc
    generalize handle C S cfg s (.challenge i) env = o at hc h
    cases hc with
    | continued r div es k out r2 payload hv ho hmc hst henc =>
      refine ⟨i, r, rfl, hv, ?_⟩
      rcases modCase_mails hmc with h0 | ⟨h0, m', h1⟩
      · simp [h0] at h
      · simp [h1] at h
        subst h
        refine ⟨h0, .inl ⟨r2, _, r2, by simp only [h1]; rfl, ?_⟩⟩
        obtain ⟨_, iv, _, hr2, _⟩ := challengeEncode_ok henc
        rw [hr2]
        rcases hmc.fixed with hf | hf
        · rw [h1] at hf; simp at hf
        · exact hf.2.1
    | contThrew r div es k out t hv ho hmc hst ht =>
      refine ⟨i, r, rfl, hv, ?_⟩
      rcases modCase_mails hmc with h0 | ⟨h0, m', h1⟩
      · simp [h0] at h
      · simp [h1] at h
        subst h
        exact ⟨h0, .inr ⟨by simp only [h1]; rfl, ht⟩⟩
    | _ => simp at h

/-- a step that sends an email sends one, and stores that the challenge was started unless the process died -/
theorem mail_step {n : Step σ} (he : n.effects = (n.event.run C S cfg n.pre).1) (hp : n.event.Possible C S cfg n.pre) {m : Mail}
    (hm : Effect.mail m ∈ n.effects) :
    ∃ i env r, n.Handles (.challenge i) env ∧ Verified C S cfg n.pre.store i env r ∧ r.status = .beforeChallenge ∧ mailed n.effects = [m] ∧
      (n.died = true ∨ ∃ r1, dbOps n.effects = [.dbUpdate r1] ∧ r1.requestId = r.requestId) := by
  obtain ⟨pre, event, effects⟩ := n
  cases event with
  | msg msg env =>
    have he : effects = (handle C S cfg pre msg env).effects := he
    have hm : Effect.mail m ∈ effects := hm
    rw [he] at hm
    obtain ⟨i, r, rfl, hv, hs, ⟨r1, d, rc, h1, h2⟩ | ⟨h1, h2⟩⟩ := mail_effects hm
    · refine ⟨i, env, r, rfl, hv, hs, ?_, .inr ⟨r1, ?_, h2⟩⟩
      · show mailed effects = _
        rw [he, h1]; rfl
      · show dbOps effects = _
        rw [he, h1]; rfl
    · exact absurd hp h2
  | crash msg env k newKey =>
    have he : effects = (handle C S cfg pre msg env).effects.take k := he
    have hm : Effect.mail m ∈ effects := hm
    rw [he] at hm
    obtain ⟨i, r, rfl, hv, hs, ⟨r1, d, rc, h1, h2⟩ | ⟨h1, h2⟩⟩ := mail_effects (List.mem_of_mem_take hm)
    · rw [h1] at he hm
      match k with
      | 0 => cases hm
      | 1 => exact ⟨i, env, r, rfl, hv, hs, by rw [he]; rfl, .inl (by rw [he]; rfl)⟩
      | 2 => exact ⟨i, env, r, rfl, hv, hs, by rw [he]; rfl, .inr ⟨r1, by rw [he]; rfl, h2⟩⟩
      | 3 => exact ⟨i, env, r, rfl, hv, hs, by rw [he]; rfl, .inr ⟨r1, by rw [he]; rfl, h2⟩⟩
      | k + 4 => exact ⟨i, env, r, rfl, hv, hs, by rw [he]; simp only [List.take_succ_cons, List.take_nil]; rfl, .inr ⟨r1, by rw [he]; simp only [List.take_succ_cons, List.take_nil]; rfl, h2⟩⟩
    · rw [h1] at he hm
      match k with
      | 0 => cases hm
      | k + 1 => exact ⟨i, env, r, rfl, hv, hs, by rw [he]; simp [mailed], .inl (by rw [he]; simp [Step.died, sent])⟩
  | restart newKey =>
    have he : effects = [] := he
    have hm : Effect.mail m ∈ effects := hm
    rw [he] at hm
    cases hm

/-- requests for which an email may still be sent -/
theorem Exec.mails (hC : C.Lawful) (hS : LawfulStore C S Inv) (hcfg : NameFits cfg.profile.caPrefix)
    {h : List (Step σ)} {s : CaState σ} (hx : Exec C S cfg h s) :
    ∃ l : List RequestId, (∀ id r, S.view s.store id = some r → r.status = .beforeChallenge → id ∈ l) ∧
      (allMails h).length + l.length ≤ (h.filter Step.accepts).length + (h.filter Step.died).length := by
  induction hx with
  | init idKey =>
    refine ⟨[], ?_, by simp [allMails]⟩
    intro id r h
    dsimp only at h
    rw [hS.empty_view] at h
    cases h
  | @step h s e prev wf possible ih =>
    obtain ⟨l, hl, hle⟩ := ih
    have hi := (prev.life hC hS hcfg).1
    generalize hn : (⟨s, e, (e.run C S cfg s).1⟩ : Step σ) = n
    have hpre : n.pre = s := by rw [← hn]
    have hev : n.event = e := by rw [← hn]
    have he : n.effects = (n.event.run C S cfg n.pre).1 := by rw [← hn]
    rw [← hpre, ← hev] at possible ⊢
    rw [← hev] at wf
    rw [← hpre] at hi hl
    obtain ⟨hinv, hvc⟩ := step_view hC hS hcfg hi wf he
    obtain ⟨_, hview⟩ := run_view (cfg := cfg) hS he hinv
    suffices hsuff : ∃ l : List RequestId, (∀ id r, S.view (n.afterStore S) id = some r → r.status = .beforeChallenge → id ∈ l) ∧
        (allMails (h ++ [n])).length + l.length ≤ ((h ++ [n]).filter Step.accepts).length + ((h ++ [n]).filter Step.died).length by
      obtain ⟨l', h1, h2⟩ := hsuff
      refine ⟨l', ?_, h2⟩
      intro id r hv
      rcases hview with h3 | h3
      · rw [h3] at hv; exact h1 id r hv
      · rw [h3] at hv; cases hv
    have hall : (allMails (h ++ [n])).length = (allMails h).length + (mailed n.effects).length := by
      unfold allMails
      rw [List.flatMap_append, List.length_append]
      simp
    rw [hall, List.filter_append, List.filter_append, List.length_append, List.length_append]
    -- what the step costs
    have hcost : mailed n.effects = [] ∨ (mailed n.effects).length = 1 ∧ (([n].filter Step.died).length = 1 ∨
        ∃ r r1, S.view n.pre.store r.requestId = some r ∧ r.status = .beforeChallenge ∧ dbOps n.effects = [.dbUpdate r1] ∧ r1.requestId = r.requestId) := by
      cases hml : mailed n.effects with
      | nil => exact .inl rfl
      | cons m ms =>
        right
        obtain ⟨i, env, r, _, hv, hs, h1, h2⟩ := mail_step he possible (m := m) (mem_mailed.mp (by rw [hml]; exact List.mem_cons_self))
        rw [hml] at h1
        rw [h1]
        refine ⟨rfl, ?_⟩
        rcases h2 with h2 | ⟨r1, h2, h3⟩
        · left
          rw [List.filter_cons_of_pos h2]
          rfl
        · exact .inr ⟨r, r1, (getCertificateRequest_some hS hi hv.found).1, hs, h2, h3⟩
    cases hvc with
    | same h0 hsame =>
      refine ⟨l, fun id r hv ht => hl id r (by rw [← hsame]; exact hv) ht, ?_⟩
      rcases hcost with h1 | ⟨h1, h2 | ⟨r, r1, _, _, h2, _⟩⟩
      · rw [h1]; simp only [List.length_nil]; omega
      · omega
      · rw [h0] at h2; cases h2
    | deleted i' env' r'' hd' _ _ _ hvw =>
      refine ⟨l, fun id r hv ht => ?_, ?_⟩
      · rw [hvw] at hv
        split at hv
        · cases hv
        · exact hl _ _ hv ht
      · rcases hcost with h1 | ⟨h1, h2 | ⟨r, r1, _, _, h2, _⟩⟩
        · rw [h1]; simp only [List.length_nil]; omega
        · omega
        · rw [hd'] at h2; cases h2
    | updated i env k es out r0 r1 r' hd hu h0 hs hvw =>
      have hst : r'.status = .challenge := by
        obtain ⟨payload, henc⟩ := hu.encode
        obtain ⟨_, iv, _, hr1, _⟩ := challengeEncode_ok henc
        rw [← hs.fields.2.2.2.2.2.2.2.1, hr1]
        exact hu.status
      refine ⟨l.erase r1.requestId, fun id r hv ht => ?_, ?_⟩
      · rw [hvw] at hv
        split at hv
        · cases hv
          rw [hst] at ht
          cases ht
        · rename_i hne
          exact (List.mem_erase_of_ne hne).mpr (hl _ _ hv ht)
      · have hsh : (l.erase r1.requestId).length ≤ l.length := (List.erase_sublist ..).length_le
        rcases hcost with h1 | ⟨h1, h2 | ⟨r, r2, h2, h3, h4, h5⟩⟩
        · rw [h1]; simp only [List.length_nil]; omega
        · omega
        · rw [hd] at h4
          simp only [List.cons.injEq, Effect.dbUpdate.injEq, and_true] at h4
          subst h4
          have hmem := hl _ _ h2 h3
          rw [← h5] at hmem
          have := List.length_pos_of_mem hmem
          rw [List.length_erase_of_mem hmem]
          omega
    | added ty i env r0 hd ha h0 hvw =>
      have hacc : n.accepts = true := by
        unfold Step.accepts
        rw [List.any_eq_true]
        exact ⟨_, ha.effect, rfl⟩
      refine ⟨r0.requestId :: l, ?_, ?_⟩
      · intro id r hv ht
        rw [hvw] at hv
        split at hv
        · rename_i heq; rw [heq]; simp
        · exact List.mem_cons_of_mem _ (hl _ _ hv ht)
      · rw [List.filter_cons_of_pos hacc]
        simp only [List.length_cons, List.filter_nil, List.length_nil]
        rcases hcost with h1 | ⟨h1, h2 | ⟨r, r1, _, _, h2, _⟩⟩
        · rw [h1]; simp only [List.length_nil]; omega
        · omega
        · rw [hd] at h2; cases h2

/-- once its challenge was started, a request does not go back, unless it is created again -/
theorem started_stays (hC : C.Lawful) (hS : LawfulStore C S Inv) (hcfg : NameFits cfg.profile.caPrefix)
    {h : List (Step σ)} {s : CaState σ} (hx : Exec C S cfg h s) {h1 h2 : List (Step σ)} {n : Step σ} (hh : h = h1 ++ n :: h2)
    {r1 : RequestState} (hup : Effect.dbUpdate r1 ∈ n.effects) (hno : ∀ m ∈ h2, ∀ r, Effect.dbAdd r ∈ m.effects → r.requestId ≠ r1.requestId)
    {r : RequestState} (hv : S.view s.store r1.requestId = some r) : r.status ≠ .beforeChallenge := by
  induction hx generalizing h2 r with
  | init idKey => simp at hh
  | @step h s e prev wf possible ih =>
    have hi := (prev.life hC hS hcfg).1
    generalize hx : (⟨s, e, (e.run C S cfg s).1⟩ : Step σ) = x at hh
    have hpre : x.pre = s := by rw [← hx]
    have hev : x.event = e := by rw [← hx]
    have he : x.effects = (x.event.run C S cfg x.pre).1 := by rw [← hx]
    rw [← hev] at wf hv
    rw [← hpre] at hi hv
    obtain ⟨hinv, hvc⟩ := step_view hC hS hcfg hi wf he
    obtain ⟨_, hview⟩ := run_view (cfg := cfg) hS he hinv
    have hv : S.view (x.afterStore S) r1.requestId = some r := by
      rcases hview with h3 | h3
      · rw [← h3]; exact hv
      · rw [h3] at hv; cases hv
    -- the request before the step
    have hbefore : x = n ∨ ((∀ r, S.view x.pre.store r1.requestId = some r → r.status ≠ .beforeChallenge) ∧
        ∀ r, Effect.dbAdd r ∈ x.effects → r.requestId ≠ r1.requestId) := by
      rcases List.eq_nil_or_concat h2 with rfl | ⟨h2', y, rfl⟩
      · left
        exact (List.append_inj_right' hh rfl |> List.cons.inj).1
      · right
        have hh' : h ++ [x] = (h1 ++ n :: h2') ++ [y] := by rw [hh]; simp
        obtain ⟨ha, hb⟩ := List.append_inj' hh' rfl
        have hxy : x = y := (List.cons.inj hb).1
        refine ⟨?_, fun r hr => hno x (by rw [hxy]; simp) r hr⟩
        intro r hr
        rw [hpre] at hr
        exact ih ha (fun m hm => hno m (by simp [hm])) hr
    cases hvc with
    | same h0 hsame =>
      rcases hbefore with rfl | ⟨hb, _⟩
      · have := (mem_dbOps (e := .dbUpdate r1) rfl).mpr hup
        rw [h0] at this
        cases this
      · rw [hsame] at hv
        exact hb _ hv
    | deleted i' env' r'' hd' _ _ _ hvw =>
      rcases hbefore with rfl | ⟨hb, _⟩
      · have := (mem_dbOps (e := .dbUpdate r1) rfl).mpr hup
        rw [hd'] at this
        simp at this
      · rw [hvw] at hv
        split at hv
        · cases hv
        · exact hb _ hv
    | updated i env k es out r0 r1' r' hd hu h0 hs hvw =>
      have hst : r'.status = .challenge := by
        obtain ⟨payload, henc⟩ := hu.encode
        obtain ⟨_, iv, _, hr1, _⟩ := challengeEncode_ok henc
        rw [← hs.fields.2.2.2.2.2.2.2.1, hr1]
        exact hu.status
      rw [hvw] at hv
      split at hv
      · cases hv
        rw [hst]
        simp
      · rename_i hne
        rcases hbefore with rfl | ⟨hb, _⟩
        · have := (mem_dbOps (e := .dbUpdate r1) rfl).mpr hup
          rw [hd] at this
          simp only [List.mem_singleton, Effect.dbUpdate.injEq] at this
          rw [this] at hne
          exact absurd rfl hne
        · exact hb _ hv
    | added ty i env r0 hd ha h0 hvw =>
      rcases hbefore with rfl | ⟨hb, hna⟩
      · have := (mem_dbOps (e := .dbUpdate r1) rfl).mpr hup
        rw [hd] at this
        simp at this
      · rw [hvw] at hv
        split at hv
        · rename_i heq
          exact absurd heq.symm (hna _ ha.effect)
        · exact hb _ hv

end Ndncert
