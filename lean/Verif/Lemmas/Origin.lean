import Verif.Lemmas.Issue

namespace Ndncert

variable {σ : Type} {C : Crypto} {S : StoreI σ} {Inv : σ → Prop} {cfg : CaConfig}

theorem keyName_of {c : Cert} {n : Name} {a b : Block} (h : c.name = n ++ [a, b]) : c.keyName = n := by
  unfold Cert.keyName
  rw [h]
  simp

theorem identity_of {c c' : Cert} {a b : Block} (h : c.name = c'.keyName ++ [a, b]) (hl : 2 ≤ c'.name.length) : c.identity = c'.identity := by
  unfold Cert.identity
  rw [h]
  unfold Cert.keyName
  simp only [List.length_append, List.length_take, List.length_cons, List.length_nil]
  have h1 : min (c'.name.length - 2) c'.name.length + (0 + 1 + 1) - 4 = c'.name.length - 4 := by omega
  rw [h1, List.take_append_of_le_length (by simp; omega), List.take_take]
  congr 1
  omega

theorem Reissues.facts {version : Block} {cert c : Cert} (h : Reissues C cfg version cert c) :
    c.keyName = cert.keyName ∧ c.content = cert.content ∧ c.validity = cert.validity ∧ (2 ≤ cert.name.length → c.identity = cert.identity) := by
  obtain ⟨h1, content, period, h2, h3, h4, h5, _, _⟩ := h
  exact ⟨keyName_of h1, by rw [h2, h3], by rw [h4, h5], identity_of h1⟩

theorem namePolicy_length {p : CaProfile} {c : Cert} (h : NamePolicy p c) : 4 < c.name.length := by
  have h1 := h.2.2.1
  unfold identityOf at h1
  simp at h1
  omega

/-- everything a stored request can look like -/
theorem Exec.waiting (hC : C.Lawful) (hS : LawfulStore C S Inv) (hcfg : NameFits cfg.profile.caPrefix)
    {h : List (Step σ)} {s : CaState σ} (hx : Exec C S cfg h s) {id : RequestId} {r : RequestState}
    (hv : S.view s.store id = some r) :
    Fresh r ∨ ∃ k env cs, InChallenge C r k env cs := by
  obtain ⟨h1, n, h2, ty, i, env, r0, _, _, _, _, h | ⟨ha, m, hb, k, env', cs, _, _, h, _⟩⟩ := hx.pending hC hS hcfg hv
  · exact .inl h
  · exact .inr ⟨k, env', cs, h⟩

theorem Exec.ivsOk (hC : C.Lawful) (hS : LawfulStore C S Inv) (hcfg : NameFits cfg.profile.caPrefix)
    {h : List (Step σ)} {s : CaState σ} (hx : Exec C S cfg h s) {id : RequestId} {r : RequestState}
    (hv : S.view s.store id = some r) : IvsOk r := by
  rcases hx.waiting hC hS hcfg hv with h | ⟨k, env, cs, h⟩
  · exact ⟨.inl h.2.2.2.1, .inl h.2.2.2.2⟩
  · exact ⟨.inr h.encIv, .inr h.decIv⟩

/-- the step that created a stored request is the last one that added its id -/
theorem origin (hC : C.Lawful) (hS : LawfulStore C S Inv) (hcfg : NameFits cfg.profile.caPrefix)
    {h : List (Step σ)} {s : CaState σ} (hx : Exec C S cfg h s) {ha hb : List (Step σ)} {m : Step σ} (hh : h = ha ++ m :: hb)
    {r0 r : RequestState} (hadd : Effect.dbAdd r0 ∈ m.effects) (hk : Kept r0.requestId hb) (hv : S.view s.store r0.requestId = some r) :
    SameRequest r0 r ∧ ∃ ty i env, AddedBy C S cfg m ty i env r0 := by
  have hid : r.requestId = r0.requestId := by
    have := hS.get_id _ _ _ (hx.life hC hS hcfg).1 hv
    exact this
  obtain ⟨ha', m', hb', ty, i, env, r1, rfl, hadd', hsame, hkept, _⟩ := hx.pending hC hS hcfg hv
  rw [hid] at hkept
  obtain ⟨rfl, rfl, rfl⟩ := origin_unique hh hadd'.effect (hsame.1.trans hid) hkept hadd rfl hk
  obtain ⟨_, hwf, _, heff, _⟩ := hx.split _ _ _ rfl
  obtain rfl := add_unique hwf heff hadd hadd'.effect
  exact ⟨hsame, ty, i, env, hadd'⟩

/-- a request that was removed and not created again is not stored -/
theorem gone (hC : C.Lawful) (hS : LawfulStore C S Inv) (hcfg : NameFits cfg.profile.caPrefix)
    {h : List (Step σ)} {s : CaState σ} (hx : Exec C S cfg h s) {h1 h2 : List (Step σ)} {n : Step σ} (hh : h = h1 ++ n :: h2)
    {id : RequestId} (hdel : Effect.dbDelete id ∈ n.effects) (hno : ∀ m ∈ h2, ∀ r, Effect.dbAdd r ∈ m.effects → r.requestId ≠ id) :
    S.view s.store id = none := by
  cases hv : S.view s.store id with
  | none => rfl
  | some r =>
    exfalso
    have hid := hS.get_id _ _ _ (hx.life hC hS hcfg).1 hv
    obtain ⟨ha, m, hb, ty, i, env, r0, h3, hadd, hsame, hkept, _⟩ := hx.pending hC hS hcfg hv
    rw [hid] at hkept
    rw [hh] at h3
    obtain ⟨_, hwf, _, heff, _⟩ := hx.split _ _ _ hh
    rcases List.append_eq_append_iff.mp h3 with ⟨l, h4, h5⟩ | ⟨l, h4, h5⟩
    · cases l with
      | nil =>
        simp at h5
        obtain ⟨rfl, rfl⟩ := h5
        have hdb := step_db C S cfg n hwf heff
        have h6 := (mem_dbOps (e := .dbAdd r0) rfl).mpr hadd.effect
        have h7 := (mem_dbOps (e := .dbDelete id) rfl).mpr hdel
        generalize dbOps n.effects = d at hdb h6 h7
        cases hdb <;> simp at h6 h7
      | cons x l =>
        simp only [List.cons_append, List.cons.injEq] at h5
        exact hno m (by rw [h5.2]; simp) r0 hadd.effect (hsame.1.trans hid)
    · cases l with
      | nil =>
        simp at h5
        obtain ⟨rfl, rfl⟩ := h5
        have hdb := step_db C S cfg m hwf heff
        have h6 := (mem_dbOps (e := .dbAdd r0) rfl).mpr hadd.effect
        have h7 := (mem_dbOps (e := .dbDelete id) rfl).mpr hdel
        generalize dbOps m.effects = d at hdb h6 h7
        cases hdb <;> simp at h6 h7
      | cons x l =>
        simp only [List.cons_append, List.cons.injEq] at h5
        exact (hkept n (by rw [h5.2]; simp)).1 hdel

/-- storage effects only concern requests before or in their challenge -/
theorem stores_status {n : Step σ} (hwf : n.event.Wf cfg) (he : n.effects = (n.event.run C S cfg n.pre).1) {r : RequestState} :
    (Effect.dbAdd r ∈ n.effects → r.status = .beforeChallenge) ∧ (Effect.dbUpdate r ∈ n.effects → r.status = .challenge) := by
  have hdb := step_db C S cfg n hwf he
  constructor
  · intro h
    have h1 := (mem_dbOps (e := .dbAdd r) rfl).mpr h
    generalize dbOps n.effects = d at hdb h1
    cases hdb <;> simp at h1
    rename_i ha
    subst h1
    exact (fresh_of_added ha).1
  · intro h
    have h1 := (mem_dbOps (e := .dbUpdate r) rfl).mpr h
    generalize dbOps n.effects = d at hdb h1
    cases hdb <;> simp at h1
    rename_i hu
    subst h1
    obtain ⟨payload, henc⟩ := hu.encode
    obtain ⟨es', iv, _, h2, _⟩ := challengeEncode_ok henc
    rw [h2]
    exact hu.status

/-- what a CHALLENGE handler that signs nothing can do for a REVOKE request -/
theorem revoke_cases (hS : LawfulStore C S Inv) {st : σ} (hi : Inv st) {i : Interest} {env : Env} (hm : IdFits cfg i) (he : env.Wf)
    {r : RequestState} (ha : Authentic C S cfg st i env r) (hty : r.requestType = .revoke) :
    issued (onChallenge C S cfg st i env).effects = [] ∧
    (Effect.dbDelete r.requestId ∈ (onChallenge C S cfg st i env).effects →
      ∀ d ∈ sent (onChallenge C S cfg st i env).effects, (∃ code, IsErrorReply C cfg i code d) ∨
        ∃ r', (onChallenge C S cfg st i env).effects = [.dbDelete r.requestId, .put d, .callback r']) := by
  have hv := (verified_authentic (cfg := cfg) (i := i) hS hi hm he.stack).mpr ha
  have hsame : ∀ {r'}, Verified C S cfg st i env r' → r' = r := by
    intro r' h
    have h1 := h.found
    rw [hv.found] at h1
    cases h1; rfl
  have issued_mail : ∀ ms : List Mail, issued (ms.map Effect.mail) = [] := by
    intro ms; induction ms with
    | nil => rfl
    | cons m ms ih => simpa [issued] using ih
  have issued_mail' : ∀ (ms : List Mail) l, issued (ms.map Effect.mail ++ l) = issued l := by
    intro ms l; induction ms with
    | nil => rfl
    | cons m ms ih => simpa [issued] using ih
  have hc := onChallenge_cases C S cfg st i env
  generalize onChallenge C S cfg st i env = o at hc
  cases hc with
  | undefined u h => rw [hv.found] at h; cases h
  | noRequest info h => rw [hv.found] at h; cases h
  | badSig r' info h h' =>
    have h1 := hv.sig
    rw [hv.found] at h; cases h
    rw [h1] at h'; cases h'
  | reject r' code info hv' hcode =>
    refine ⟨rfl, fun _ d hd => .inl ⟨code, hcode, info, ?_⟩⟩
    simp only [sent, List.mem_singleton] at hd
    exact hd
  | early r' t _ _ => exact ⟨rfl, fun h => by cases h⟩
  | continued r' div es k' out r2 payload hv' ho hmc hst henc =>
    refine ⟨by rw [issued_mail']; rfl, fun h => ?_⟩
    simp at h
  | contThrew r' div es k' out t hv' ho hmc hst ht =>
    refine ⟨issued_mail _, fun h => ?_⟩
    simp at h
  | issued r' div es k' out c r2 payload hv' ho hmc hst hty' hiss henc =>
    obtain rfl := hsame hv'
    rcases hty' with h | h <;> rw [hty] at h <;> cases h
  | issueThrew r' div es k' out c t hv' ho hmc hst hty' hiss ht =>
    obtain rfl := hsame hv'
    rcases hty' with h | h <;> rw [hty] at h <;> cases h
  | revoked r' div es k' out r2 payload hv' ho hmc hst hty' henc =>
    obtain rfl := hsame hv'
    refine ⟨rfl, fun _ d hd => .inr ⟨r2, ?_⟩⟩
    simp [sent] at hd
    rw [hd]
  | revokeThrew r' div es k' out t hv' ho hmc hst hty' ht => exact ⟨rfl, fun _ d hd => by cases hd⟩

end Ndncert
