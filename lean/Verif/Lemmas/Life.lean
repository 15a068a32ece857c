import Verif.Lemmas.Exec

namespace Ndncert

variable {σ : Type} {C : Crypto} {S : StoreI σ} {Inv : σ → Prop} {cfg : CaConfig}

/-- the life of a request that is stored, as `r`, after the history -/
inductive Life (C : Crypto) (S : StoreI σ) (cfg : CaConfig) : List (Step σ) → RequestState → Prop where
  | added {h : List (Step σ)} {n : Step σ} {ty : RequestType} {i : Interest} {env : Env} {r : RequestState}
      (hd : dbOps n.effects = [.dbAdd r]) (ha : AddedBy C S cfg n ty i env r) : Life C S cfg (h ++ [n]) r
  | kept {h : List (Step σ)} {n : Step σ} {r : RequestState} (hl : Life C S cfg h r)
      (hk : n.touches r.requestId = false) : Life C S cfg (h ++ [n]) r
  | updated {h : List (Step σ)} {n : Step σ} {i : Interest} {env : Env} {k : ChalKind} {es : List Block} {out : ChalOut}
      {r0 r1 r : RequestState} (hl : Life C S cfg h r0) (hd : dbOps n.effects = [.dbUpdate r1])
      (hu : UpdatedBy C S cfg n i env k es out r0 r1)
      (hsr : SameRequest r0 r1) (hs : SameStored r1 r) : Life C S cfg (h ++ [n]) r

theorem touches_of_dbOps {n : Step σ} {id : RequestId} : n.touches id = (dbOps n.effects).any (Effect.touches id) := by
  unfold Step.touches dbOps
  rw [List.any_filter]
  congr 1
  funext e
  cases e <;> simp [Effect.touches, Effect.isDb]

theorem SameStored.fields {a b : RequestState} (h : SameStored a b) :
    a.requestId = b.requestId ∧ a.caPrefix = b.caPrefix ∧ a.requestType = b.requestType ∧ a.cert = b.cert ∧
    a.encryptionKey = b.encryptionKey ∧ a.encryptionIv = b.encryptionIv ∧ a.decryptionIv = b.decryptionIv ∧
    a.status = b.status ∧ a.challengeType = b.challengeType := by
  rcases h with ⟨_, _, rfl⟩ | ⟨ca, cb, _, _, h, _⟩
  · exact ⟨rfl, rfl, rfl, rfl, rfl, rfl, rfl, rfl, rfl⟩
  · simp only [RequestState.mk.injEq] at h
    obtain ⟨h1, h2, h3, h4, h5, h6, h7, h8, h9, _⟩ := h
    exact ⟨h2, h1, h3, h5, h6, h7, h8, h4, h9⟩

theorem SameStored.sameRequest {a b : RequestState} (h : SameStored a b) : SameRequest a b := by
  obtain ⟨h1, h2, h3, h4, h5, _⟩ := h.fields
  exact ⟨h1, h2, h3, h4, h5⟩

/-- what is kept of the challenge state -/
theorem SameStored.chal {a b : RequestState} (h : SameStored a b) {cs : ChallengeState} (ha : a.challengeState = some cs) :
    ∃ cs', b.challengeState = some cs' ∧ cs'.challengeStatus = cs.challengeStatus ∧ cs'.remainingTries = cs.remainingTries ∧
      cs'.secrets = cs.secrets ∧ cs.timestamp - 1000 < cs'.timestamp ∧ cs'.timestamp < cs.timestamp + 1000 := by
  rcases h with ⟨h1, _, _⟩ | ⟨ca, cb, h1, h2, _, h3, h4, h5⟩
  · rw [ha] at h1; cases h1
  · rw [ha] at h1; cases h1
    simp only [ChallengeState.mk.injEq] at h3
    exact ⟨cb, h2, h3.1.symm, h3.2.2.1.symm, h3.2.2.2.2.symm, h4, h5⟩

theorem SameRequest.trans {a b c : RequestState} (h : SameRequest a b) (h' : SameRequest b c) : SameRequest a c := by
  obtain ⟨h1, h2, h3, h4, h5⟩ := h
  obtain ⟨g1, g2, g3, g4, g5⟩ := h'
  exact ⟨h1.trans g1, h2.trans g2, h3.trans g3, h4.trans g4, h5.trans g5⟩

theorem SameRequest.refl (a : RequestState) : SameRequest a a := ⟨rfl, rfl, rfl, rfl, rfl⟩

/-- the state after an event: its views are those after its effects, or none at all -/
theorem run_view (hS : LawfulStore C S Inv) {n : Step σ} (he : n.effects = (n.event.run C S cfg n.pre).1)
    (hi : Inv (n.afterStore S)) : Inv (n.event.run C S cfg n.pre).2.store ∧
    ((∀ id, S.view (n.event.run C S cfg n.pre).2.store id = S.view (n.afterStore S) id) ∨
      (∀ id, S.view (n.event.run C S cfg n.pre).2.store id = none)) := by
  unfold Step.afterStore at *
  rw [he] at hi ⊢
  rcases run_store C S cfg n.pre n.event with h | h
  · rw [h]; exact ⟨hi, .inl (fun _ => rfl)⟩
  · rw [h]; exact ⟨hS.reopen_inv _ hi, hS.reopen_view _ hi⟩

theorem Exec.life (hC : C.Lawful) (hS : LawfulStore C S Inv) (hcfg : NameFits cfg.profile.caPrefix)
    {h : List (Step σ)} {s : CaState σ} (hx : Exec C S cfg h s) :
    Inv s.store ∧ ∀ id r, S.view s.store id = some r → Life C S cfg h r := by
  induction hx with
  | init idKey =>
    refine ⟨hS.empty_inv, ?_⟩
    intro id r h
    dsimp only at h
    rw [hS.empty_view] at h
    cases h
  | @step h s e prev wf possible ih =>
    obtain ⟨hi, ih⟩ := ih
    have he : (⟨s, e, (e.run C S cfg s).1⟩ : Step σ).effects = (e.run C S cfg s).1 := rfl
    generalize hn : (⟨s, e, (e.run C S cfg s).1⟩ : Step σ) = n at *
    have hpre : n.pre = s := by rw [← hn]
    have hev : n.event = e := by rw [← hn]
    rw [← hpre, ← hev] at he ⊢
    have hi' : Inv n.pre.store := by rw [hpre]; exact hi
    obtain ⟨hinv, hvc⟩ := step_view hC hS hcfg hi' (by rw [hev]; exact wf) he
    obtain ⟨hinv', hview⟩ := run_view (cfg := cfg) hS he hinv
    refine ⟨hinv', ?_⟩
    intro id r hr
    have hr' : S.view (n.afterStore S) id = some r := by
      rcases hview with h1 | h1
      · rw [← h1]; exact hr
      · rw [h1] at hr; cases hr
    clear hview hr
    have ih' : ∀ id r, S.view n.pre.store id = some r → r.requestId = id ∧ Life C S cfg h r := by
      intro id r hv
      exact ⟨hS.get_id _ _ _ hi' hv, ih id r (by rw [← hpre]; exact hv)⟩
    cases hvc with
    | same h0 hsame =>
      rw [hsame] at hr'
      obtain ⟨hid, hl⟩ := ih' _ _ hr'
      exact .kept hl (by rw [touches_of_dbOps, h0]; rfl)
    | added ty i env r0 hd ha h0 hv =>
      rw [hv] at hr'
      split at hr'
      · cases hr'; exact .added hd ha
      · rename_i hne
        obtain ⟨hid, hl⟩ := ih' _ _ hr'
        refine .kept hl ?_
        rw [touches_of_dbOps, hd]
        simp only [List.any_cons, Effect.touches, List.any_nil, Bool.or_false, beq_eq_false_iff_ne]
        rw [hid]
        exact fun h => hne h.symm
    | updated i env k es out r0 r1 r' hd hu h0 hs hv =>
      rw [hv] at hr'
      split at hr'
      · cases hr'
        obtain ⟨hid, hl⟩ := ih' _ _ h0
        obtain ⟨div, ho, hm⟩ := hu.module
        obtain ⟨payload, henc⟩ := hu.encode
        exact .updated hl hd hu (sameRequest_challenge hm hu.status henc) hs
      · rename_i hne
        obtain ⟨hid, hl⟩ := ih' _ _ hr'
        refine .kept hl ?_
        rw [touches_of_dbOps, hd]
        simp only [List.any_cons, Effect.touches, List.any_nil, Bool.or_false, beq_eq_false_iff_ne]
        rw [hid]
        exact fun h => hne h.symm
    | deleted i env r0 hd hev' hv' h0 hv =>
      rw [hv] at hr'
      split at hr'
      · cases hr'
      · rename_i hne
        obtain ⟨hid, hl⟩ := ih' _ _ hr'
        refine .kept hl ?_
        rw [touches_of_dbOps, hd]
        simp only [List.any_cons, Effect.touches, List.any_nil, Bool.or_false, beq_eq_false_iff_ne]
        rw [hid]
        exact fun h => hne h.symm

/-! ## What a life tells -/

/-- the request was created by an accepted NEW or REVOKE and never removed or recreated since -/
theorem Life.origin {h : List (Step σ)} {r : RequestState} (hl : Life C S cfg h r) :
    ∃ h1 n h2 ty i env r0, h = h1 ++ n :: h2 ∧ AddedBy C S cfg n ty i env r0 ∧ SameRequest r0 r ∧
      (∀ m ∈ h2, Effect.dbDelete r.requestId ∉ m.effects ∧ ∀ r', Effect.dbAdd r' ∈ m.effects → r'.requestId ≠ r.requestId) := by
  induction hl with
  | @added h n ty i env r hd ha => exact ⟨h, n, [], ty, i, env, r, rfl, ha, .refl _, by simp⟩
  | @kept h n r hl hk ih =>
    obtain ⟨h1, m, h2, ty, i, env, r0, rfl, ha, hs, hn⟩ := ih
    refine ⟨h1, m, h2 ++ [n], ty, i, env, r0, by simp, ha, hs, ?_⟩
    intro x hx
    rcases List.mem_append.mp hx with hx | hx
    · exact hn x hx
    · simp only [List.mem_singleton] at hx
      subst hx
      unfold Step.touches at hk
      rw [List.any_eq_false] at hk
      constructor
      · intro hmem; exact hk _ hmem (by simp [Effect.touches])
      · intro r' hmem heq; exact hk _ hmem (by simp [Effect.touches, heq])
  | @updated h n i env k es out r0 r1 r hl hd hu hsr hs ih =>
    obtain ⟨h1, m, h2, ty, i', env', r00, rfl, ha, hs0, hn⟩ := ih
    have hid : r0.requestId = r.requestId := hsr.1.trans hs.fields.1
    refine ⟨h1, m, h2 ++ [n], ty, i', env', r00, by simp, ha, (hs0.trans hsr).trans hs.sameRequest, ?_⟩
    intro x hx
    rcases List.mem_append.mp hx with hx | hx
    · rw [← hid]; exact hn x hx
    · simp only [List.mem_singleton] at hx
      subst hx
      constructor
      · intro hmem
        have : Effect.dbDelete r.requestId ∈ dbOps x.effects := (mem_dbOps rfl).mpr hmem
        rw [hd] at this; simp at this
      · intro r' hmem
        have : Effect.dbAdd r' ∈ dbOps x.effects := (mem_dbOps rfl).mpr hmem
        rw [hd] at this; simp at this

/-- a request without challenge -/
def Fresh (r : RequestState) : Prop :=
  r.status = .beforeChallenge ∧ r.challengeState = none ∧ r.challengeType = [] ∧ r.encryptionIv = [] ∧ r.decryptionIv = []

/-- the module that holds the request's secret was started by a CHALLENGE in the history -/
structure StartedBy (C : Crypto) (S : StoreI σ) (cfg : CaConfig) (n : Step σ) (r : RequestState) (secrets : List (Bytes × Bytes))
    (cstat : Bytes) (k : ChalKind) (env : Env) : Prop where
  started : ∃ i es r0 mails, n.event.msg? = some (.challenge i, env) ∧ Verified C S cfg n.pre.store i env r0 ∧
    Selects C i r0 es k ∧ SameRequest r0 r ∧ r0.status = .beforeChallenge ∧
    StartCase C env es { r0 with decryptionIv := [] } k cstat secrets mails
  wf : env.Wf

theorem startCase_iv {C : Crypto} {env : Env} {es : List Block} {r r' : RequestState} {k : ChalKind} {cstat : Bytes}
    {secrets : List (Bytes × Bytes)} {mails : List Mail} (h1 : r.cert = r'.cert) (h2 : r.caPrefix = r'.caPrefix)
    (h : StartCase C env es r k cstat secrets mails) : StartCase C env es r' k cstat secrets mails := by
  cases h with
  | pin => exact .pin
  | email addr hg hid hs =>
    rw [h2, h1]
    exact .email addr hg (by rw [← h1]; exact hid) hs
  | possession c anchors ha hg hc hk hcert => exact .possession c anchors ha hg hc hk hcert

end Ndncert
