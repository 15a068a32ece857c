import Verif.Lemmas.Origin

namespace Ndncert

variable {σ : Type} {C : Crypto} {S : StoreI σ} {Inv : σ → Prop} {cfg : CaConfig}

theorem mem_issued {es : List Effect} {c : Cert} : c ∈ issued es ↔ Effect.issue c ∈ es := by
  induction es with
  | nil => simp [issued]
  | cons e es ih => cases e <;> simp [issued, ih]

theorem mem_sent {es : List Effect} {d : Data} : d ∈ sent es ↔ Effect.put d ∈ es := by
  induction es with
  | nil => simp [sent]
  | cons e es ih => cases e <;> simp [sent, ih]

theorem issued_append (a b : List Effect) : issued (a ++ b) = issued a ++ issued b := by
  induction a with
  | nil => rfl
  | cons e es ih => cases e <;> simp [issued, ih]

theorem issued_sublist {a b : List Effect} (h : List.Sublist a b) : List.Sublist (issued a) (issued b) := by
  have : ∀ es, issued es = es.filterMap (fun e => match e with | .issue c => some c | _ => none) := by
    intro es
    induction es with
    | nil => rfl
    | cons e es ih => cases e <;> simp [issued, ih]
  rw [this, this]
  exact h.filterMap _

/-- the effects of a step that signs a certificate are a prefix of: sign, remove, reply, call back -/
theorem issue_effects {n : Step σ} (he : n.effects = (n.event.run C S cfg n.pre).1) {c : Cert} (hc : Effect.issue c ∈ n.effects) :
    ∃ i env r k rest, n.Handles (.challenge i) env ∧ Verified C S cfg n.pre.store i env r ∧ (r.requestType = .new ∨ r.requestType = .renew) ∧
      n.effects = (.issue c :: .dbDelete r.requestId :: rest : List Effect).take k ∧
      (rest = [] ∨ ∃ d r2, rest = [.put d, .callback r2]) := by
  rcases run_effects C S cfg n.pre n.event with ⟨_, h⟩ | ⟨m, env, k, hm, h⟩
  · rw [he, h] at hc; cases hc
  rw [he, h] at hc ⊢
  obtain ⟨i, r, div, es, kk, out, rfl, hv, ho, hmc, hst, hty, hiss⟩ := issue_case (List.mem_of_mem_take hc)
  have hcs := onChallenge_cases C S cfg n.pre.store i env
  have hh : handle C S cfg n.pre (.challenge i) env = onChallenge C S cfg n.pre.store i env := rfl
  rw [hh] at hc ⊢
  have hsame : ∀ {r'}, Verified C S cfg n.pre.store i env r' → r' = r := by
    intro r' h
    have h1 := h.found
    rw [hv.found] at h1
    cases h1; rfl
  refine ⟨i, env, r, k, ?_⟩
  have hc' := List.mem_of_mem_take hc
  generalize onChallenge C S cfg n.pre.store i env = o at hcs hc'
  cases hcs with
  | issued r' div es k' out c' r2 payload hv' ho hmc hst hty hiss henc =>
    obtain rfl := hsame hv'
    simp at hc'
    subst hc'
    exact ⟨_, hm, hv', hty, rfl, .inr ⟨_, _, rfl⟩⟩
  | issueThrew r' div es k' out c' t hv' ho hmc hst hty hiss ht =>
    obtain rfl := hsame hv'
    simp at hc'
    subst hc'
    exact ⟨_, hm, hv', hty, rfl, .inl rfl⟩
  | _ => simp at hc'

/-- a certificate was signed and a reply sent: the request was removed in between -/
theorem issue_sent {n : Step σ} (he : n.effects = (n.event.run C S cfg n.pre).1) {c : Cert} (hc : Effect.issue c ∈ n.effects)
    {d : Data} (hd : Effect.put d ∈ n.effects) :
    ∃ i env r post, n.Handles (.challenge i) env ∧ Verified C S cfg n.pre.store i env r ∧ (r.requestType = .new ∨ r.requestType = .renew) ∧
      n.effects = [.issue c, .dbDelete r.requestId] ++ .put d :: post ∧ (post = [] ∨ ∃ r2, post = [.callback r2]) := by
  obtain ⟨i, env, r, k, rest, h1, h2, h3, h4, h5⟩ := issue_effects he hc
  refine ⟨i, env, r, ?_⟩
  rw [h4] at hd ⊢
  rcases h5 with rfl | ⟨d', r2, rfl⟩
  · exact absurd (List.mem_of_mem_take hd) (by simp)
  · have hd' : d' = d := by
      have := List.mem_of_mem_take hd
      simp at this
      exact this.symm
    subst hd'
    match k with
    | 0 => cases hd
    | 1 => simp at hd
    | 2 => simp at hd
    | 3 => exact ⟨[], h1, h2, h3, rfl, .inl rfl⟩
    | k + 4 => exact ⟨[.callback r2], h1, h2, h3, by simp, .inr ⟨r2, rfl⟩⟩

theorem handedOut_append (h : List (Step σ)) (n : Step σ) :
    (handedOut (h ++ [n])).length = (handedOut h).length + (if sent n.effects ≠ [] then (issued n.effects).length else 0) := by
  unfold handedOut
  rw [List.filter_append, List.flatMap_append, List.length_append]
  congr 1
  by_cases hs : sent n.effects = []
  · rw [List.filter_cons_of_neg (by simp [hs]), if_neg (by simp [hs])]; rfl
  · rw [List.filter_cons_of_pos (by simp [hs]), if_pos hs]; simp

/-- at most one certificate is signed in a step -/
theorem issued_le_one {n : Step σ} (he : n.effects = (n.event.run C S cfg n.pre).1) : (issued n.effects).length ≤ 1 := by
  cases h : issued n.effects with
  | nil => simp
  | cons c cs =>
    have hc : Effect.issue c ∈ n.effects := mem_issued.mp (by rw [h]; simp)
    obtain ⟨i, env, r, k, rest, _, _, _, h4, h5⟩ := issue_effects he hc
    have h6 := (issued_sublist (List.take_sublist k (.issue c :: .dbDelete r.requestId :: rest : List Effect))).length_le
    rw [← h4, h] at h6
    rcases h5 with rfl | ⟨d, r2, rfl⟩ <;> simpa [issued] using h6

/-- one step more: requests that can still lead to a certificate -/
theorem count_step (hC : C.Lawful) (hS : LawfulStore C S Inv) (hcfg : NameFits cfg.profile.caPrefix) {e : Event} (wf : e.Wf cfg)
    {s : CaState σ} (hi : Inv s.store) {h : List (Step σ)} {l : List RequestId}
    (hl : ∀ id r, S.view s.store id = some r → r.requestType = .new → id ∈ l)
    (hpend : ∀ id r, S.view s.store id = some r → r.requestType = .new ∨ r.requestType = .revoke)
    (hle : (handedOut h).length + l.length ≤ (h.filter Step.acceptsNew).length) :
    ∃ l : List RequestId, (∀ id r, S.view (e.run C S cfg s).2.store id = some r → r.requestType = .new → id ∈ l) ∧
      (handedOut (h ++ [(⟨s, e, (e.run C S cfg s).1⟩ : Step σ)])).length + l.length ≤
        ((h ++ [(⟨s, e, (e.run C S cfg s).1⟩ : Step σ)]).filter Step.acceptsNew).length := by
  have he : (⟨s, e, (e.run C S cfg s).1⟩ : Step σ).effects = (e.run C S cfg s).1 := rfl
  generalize hn : (⟨s, e, (e.run C S cfg s).1⟩ : Step σ) = n at *
  have hpre : n.pre = s := by rw [← hn]
  have hev : n.event = e := by rw [← hn]
  rw [← hpre, ← hev] at he
  rw [← hpre, ← hev]
  rw [← hpre] at hi hl hpend
  obtain ⟨hinv, hvc⟩ := step_view hC hS hcfg hi (by rw [hev]; exact wf) he
  obtain ⟨_, hview⟩ := run_view (cfg := cfg) hS he hinv
  -- it is enough to look at the storage before a restart
  suffices hsuff : ∃ l : List RequestId, (∀ id r, S.view (n.afterStore S) id = some r → r.requestType = .new → id ∈ l) ∧
      (handedOut (h ++ [n])).length + l.length ≤ ((h ++ [n]).filter Step.acceptsNew).length by
    obtain ⟨l', h1, h2⟩ := hsuff
    refine ⟨l', ?_, h2⟩
    intro id r hv
    rcases hview with h3 | h3
    · rw [h3] at hv; exact h1 id r hv
    · rw [h3] at hv; cases hv
  rw [handedOut_append, List.filter_append, List.length_append]
  by_cases hho : sent n.effects ≠ [] ∧ issued n.effects ≠ []
  · -- a certificate is handed out
    obtain ⟨hs1, hs2⟩ := hho
    obtain ⟨c, cs, hcs⟩ := List.exists_cons_of_ne_nil hs2
    obtain ⟨d, ds, hds⟩ := List.exists_cons_of_ne_nil hs1
    have hc : Effect.issue c ∈ n.effects := mem_issued.mp (by rw [hcs]; simp)
    have hd : Effect.put d ∈ n.effects := mem_sent.mp (by rw [hds]; simp)
    obtain ⟨i, env, r, post, _, hv, hty, heff, hpost⟩ := issue_sent he hc hd
    have hstored := (getCertificateRequest_some hS hi hv.found).1
    have htn : r.requestType = .new := by
      rcases hty with h1 | h1
      · exact h1
      · rcases hpend _ _ hstored with h2 | h2
        · exact h2
        · rw [h1] at h2; cases h2
    have hmem := hl _ _ hstored htn
    have hdb : dbOps n.effects = [.dbDelete r.requestId] := by
      rw [heff]
      rcases hpost with rfl | ⟨r2, rfl⟩ <;> rfl
    have hone := issued_le_one (C := C) (S := S) (cfg := cfg) he
    refine ⟨l.erase r.requestId, ?_, ?_⟩
    · intro id r' hv' ht'
      cases hvc with
      | same h0 _ => rw [hdb] at h0; cases h0
      | added _ _ _ _ h0 _ _ _ => rw [hdb] at h0; cases h0
      | updated _ _ _ _ _ _ _ _ h0 _ _ _ _ => rw [hdb] at h0; cases h0
      | deleted i' env' r'' hd' _ _ _ hvw =>
        rw [hdb] at hd'
        simp only [List.cons.injEq, Effect.dbDelete.injEq, and_true] at hd'
        rw [hvw] at hv'
        split at hv'
        · cases hv'
        · rename_i hne
          rw [← hd'] at hne
          exact (List.mem_erase_of_ne hne).mpr (hl _ _ hv' ht')
    · rw [if_pos hs1, List.length_erase_of_mem hmem]
      have := List.length_pos_of_mem hmem
      omega
  · -- no certificate is handed out
    have hz : (if sent n.effects ≠ [] then (issued n.effects).length else 0) = 0 := by
      split
      · rename_i h1
        rw [List.length_eq_zero_iff]
        exact Classical.byContradiction (fun h2 => hho ⟨h1, h2⟩)
      · rfl
    rw [hz]
    cases hvc with
    | same h0 hsame => exact ⟨l, fun id r hv ht => hl id r (by rw [← hsame]; exact hv) ht, by omega⟩
    | deleted i' env' r'' hd' _ _ _ hvw =>
      refine ⟨l, fun id r hv ht => ?_, by omega⟩
      rw [hvw] at hv
      split at hv
      · cases hv
      · exact hl _ _ hv ht
    | updated i env k es out r0 r1 r' hd hu h0 hs hvw =>
      refine ⟨l, fun id r hv ht => ?_, by omega⟩
      rw [hvw] at hv
      split at hv
      · rename_i heq
        cases hv
        obtain ⟨div, ho, hm⟩ := hu.module
        obtain ⟨payload, henc⟩ := hu.encode
        have hsr := sameRequest_challenge hm hu.status henc
        rw [heq]
        refine hl _ _ h0 ?_
        rw [hsr.2.2.1, hs.fields.2.2.1]
        exact ht
      · exact hl _ _ hv ht
    | added ty i env r0 hd ha h0 hvw =>
      rcases ha.type with rfl | rfl
      · -- an accepted NEW
        have hacc : n.acceptsNew = true := by
          obtain ⟨m, hm, hmr⟩ := ha.event
          cases m <;> simp [Msg.request?] at hmr
          unfold Step.acceptsNew
          rw [hm]
          dsimp only
          rw [List.any_eq_true]
          exact ⟨_, ha.effect, rfl⟩
        refine ⟨r0.requestId :: l, ?_, ?_⟩
        · intro id r hv ht
          rw [hvw] at hv
          split at hv
          · rename_i heq; rw [heq]; simp
          · exact List.mem_cons_of_mem _ (hl _ _ hv ht)
        · rw [List.filter_cons_of_pos hacc]
          simp only [List.length_cons, List.filter_nil, List.length_nil]
          omega
      · refine ⟨l, fun id r hv ht => ?_, by omega⟩
        rw [hvw] at hv
        split at hv
        · cases hv
          obtain ⟨secret, hr0⟩ := ha.state
          rw [hr0] at ht
          cases ht
        · exact hl _ _ hv ht

/-- requests that can still lead to a certificate -/
theorem Exec.count (hC : C.Lawful) (hS : LawfulStore C S Inv) (hcfg : NameFits cfg.profile.caPrefix)
    {h : List (Step σ)} {s : CaState σ} (hx : Exec C S cfg h s) :
    ∃ l : List RequestId, (∀ id r, S.view s.store id = some r → r.requestType = .new → id ∈ l) ∧
      (handedOut h).length + l.length ≤ (h.filter Step.acceptsNew).length := by
  induction hx with
  | init idKey =>
    refine ⟨[], ?_, by simp [handedOut]⟩
    intro id r h
    dsimp only at h
    rw [hS.empty_view] at h
    cases h
  | @step h s e prev wf possible ih =>
    obtain ⟨l, hl, hle⟩ := ih
    have hi := (prev.life hC hS hcfg).1
    have hpend : ∀ id r, S.view s.store id = some r → r.requestType = .new ∨ r.requestType = .revoke := by
      intro id r hv
      obtain ⟨_, _, _, ty, _, _, r0, _, hadd, hsame, _⟩ := prev.pending hC hS hcfg hv
      obtain ⟨secret, hr0⟩ := hadd.state
      have h1 : r0.requestType = ty := by rw [hr0]; rfl
      rw [← hsame.2.2.1, h1]
      exact hadd.type
    exact count_step hC hS hcfg wf hi hl hpend hle

end Ndncert
