import Verif.Lemmas.Count

namespace Ndncert

variable {σ : Type} {C : Crypto} {S : StoreI σ} {Inv : σ → Prop} {cfg : CaConfig}

/-- attempts left for a request -/
def left : Option RequestState → Nat
  | none => 0
  | some r => match r.challengeState with
    | none => 3
    | some cs => cs.remainingTries

/-- the effects of a step that handles a CHALLENGE -/
theorem handles_effects {n : Step σ} (he : n.effects = (n.event.run C S cfg n.pre).1) {i : Interest} {env : Env}
    (hm : n.Handles (.challenge i) env) : ∃ k, n.effects = (onChallenge C S cfg n.pre.store i env).effects.take k := by
  rcases run_effects C S cfg n.pre n.event with ⟨h1, _⟩ | ⟨m, env', k, h1, h2⟩
  · unfold Step.Handles at hm; rw [hm] at h1; cases h1
  · unfold Step.Handles at hm
    rw [hm] at h1
    cases h1
    exact ⟨k, by rw [he, h2]; rfl⟩

theorem Exec.left_le (hC : C.Lawful) (hS : LawfulStore C S Inv) (hcfg : NameFits cfg.profile.caPrefix)
    {h : List (Step σ)} {s : CaState σ} (hx : Exec C S cfg h s) (id : RequestId) : left (S.view s.store id) ≤ 3 := by
  cases hv : S.view s.store id with
  | none => simp [left]
  | some r =>
    rcases hx.waiting hC hS hcfg hv with h | ⟨k, env, cs, h⟩
    · simp only [left, h.2.1]; omega
    · simp only [left, h.state]; exact h.tries.2

/-- the number of attempts left does not grow, and each attempt that is answered takes one -/
theorem left_step (hC : C.Lawful) (hS : LawfulStore C S Inv) (hcfg : NameFits cfg.profile.caPrefix)
    {h : List (Step σ)} {n : Step σ} (hx : Exec C S cfg h n.pre) (hwf : n.event.Wf cfg)
    (he : n.effects = (n.event.run C S cfg n.pre).1) {id : RequestId}
    (hno : ∀ r, Effect.dbAdd r ∈ n.effects → r.requestId ≠ id) :
    left (S.view (n.event.run C S cfg n.pre).2.store id) ≤ left (S.view n.pre.store id) ∧
    (AnswersAttempt C S cfg id n → left (S.view (n.event.run C S cfg n.pre).2.store id) + 1 ≤ left (S.view n.pre.store id)) := by
  have hi := (hx.life hC hS hcfg).1
  obtain ⟨hinv, hvc⟩ := step_view hC hS hcfg hi hwf he
  obtain ⟨_, hview⟩ := run_view (cfg := cfg) hS he hinv
  have hafter : left (S.view (n.event.run C S cfg n.pre).2.store id) ≤ left (S.view (n.afterStore S) id) := by
    rcases hview with h | h
    · rw [h]; exact Nat.le_refl _
    · rw [h]; simp [left]
  refine ⟨Nat.le_trans hafter ?_, ?_⟩
  · cases hvc with
    | same h0 hsame => rw [hsame]; exact Nat.le_refl _
    | deleted i' env' r'' hd' _ _ _ hvw =>
      rw [hvw]
      split
      · simp [left]
      · exact Nat.le_refl _
    | added ty i env r0 hd ha h0 hvw =>
      rw [hvw, if_neg (fun heq => hno r0 ha.effect heq.symm)]
      exact Nat.le_refl _
    | updated i env k es out r0 r1 r' hd hu h0 hs hvw =>
      rw [hvw]
      split
      · rename_i heq
        rw [heq, h0]
        obtain ⟨div, ho, hm⟩ := hu.module
        obtain ⟨payload, henc⟩ := hu.encode
        rcases hx.waiting hC hS hcfg h0 with hf | ⟨k', env'', cs, hin⟩
        · obtain ⟨cs, hc, _⟩ := start_inChallenge hu.wf hf ho hm hu.status henc hs
          simp only [left, hf.2.1, hc.state]
          exact hc.tries.2
        · obtain ⟨cs', hc, htr, _⟩ := again_inChallenge hu.wf hin ho hm hu.status henc hs
          simp only [left, hin.state, hc.state]
          omega
      · exact Nat.le_refl _
  · rintro ⟨i, env, r, hm, hau, rfl, hst, hsent⟩
    obtain ⟨k, hk⟩ := handles_effects (C := C) (S := S) (cfg := cfg) he hm
    obtain ⟨hmw, hew⟩ := hwf _ _ hm
    obtain ⟨d, ds, hd⟩ := List.exists_cons_of_ne_nil hsent
    have hd' : d ∈ sent ((onChallenge C S cfg n.pre.store i env).effects.take k) := by rw [← hk, hd]; simp
    have hr := reply_facts hC hS hcfg hi hmw hew hau hd'
    have has : n.afterStore S = applyEffects S n.pre.store ((onChallenge C S cfg n.pre.store i env).effects.take k) := by
      unfold Step.afterStore; rw [hk]
    rw [← has] at hr
    refine Nat.le_trans (Nat.add_le_add_right hafter 1) ?_
    rw [hau.pending]
    have hpos : 1 ≤ left (some r) := by
      rcases hx.waiting hC hS hcfg hau.pending with hf | ⟨k', env'', cs, hin⟩
      · exact absurd hf.1 hst
      · simp only [left, hin.state]; exact hin.tries.1
    rcases hr with ⟨_, h⟩ | ⟨_, _, h⟩ | ⟨_, r', cs, h, h1, _, h2⟩
    · rw [h]; exact hpos
    · rw [h]; exact hpos
    · obtain ⟨cs0, h3, h4⟩ := h2 hst
      rw [h]
      simp only [left, h1, h3]
      omega

theorem attempts (hC : C.Lawful) (hS : LawfulStore C S Inv) (hcfg : NameFits cfg.profile.caPrefix) {id : RequestId}
    {h : List (Step σ)} {s : CaState σ} (hx : Exec C S cfg h s) : ∀ h1 h2, h = h1 ++ h2 →
    (∀ x ∈ h2, ∀ r, Effect.dbAdd r ∈ x.effects → r.requestId ≠ id) →
    ∀ l, List.Sublist l h2 → (∀ n ∈ l, AnswersAttempt C S cfg id n) → l.length + left (S.view s.store id) ≤ 3 := by
  induction hx with
  | init idKey =>
    intro h1 h2 hh _ l hl _
    have : h2 = [] := by
      have := hh.symm
      simp at this
      exact this.2
    subst this
    rw [List.sublist_nil.mp hl]
    dsimp only
    rw [hS.empty_view]
    simp [left]
  | @step h s e prev wf possible ih =>
    intro h1 h2 hh hno l hl hat
    rcases List.eq_nil_or_concat h2 with rfl | ⟨h2', y, rfl⟩
    · rw [List.sublist_nil.mp hl]
      have := (Exec.step e prev wf possible).left_le hC hS hcfg id
      simpa using this
    · have heq' : h ++ [⟨s, e, (e.run C S cfg s).1⟩] = (h1 ++ h2') ++ [y] := by rw [hh]; simp
      obtain ⟨h3, h4⟩ := List.append_inj' heq' rfl
      simp only [List.cons.injEq, and_true] at h4
      have he : y.effects = (y.event.run C S cfg y.pre).1 := by rw [← h4]
      have hx' : Exec C S cfg h y.pre := by rw [← h4]; exact prev
      have hwf' : y.event.Wf cfg := by rw [← h4]; exact wf
      obtain ⟨g1, g2⟩ := left_step hC hS hcfg hx' hwf' he (hno y (by simp))
      have hs : (e.run C S cfg s).2 = (y.event.run C S cfg y.pre).2 := by rw [← h4]
      rw [hs]
      have hps : y.pre = s := by rw [← h4]
      rw [hps] at g1 g2
      rw [List.concat_eq_append] at hl
      obtain ⟨l1, l2, rfl, hl1, hl2⟩ := List.sublist_append_iff.mp hl
      have hi := ih h1 h2' h3 (fun x hx => hno x (by simp [hx])) l1 hl1 (fun n hn => hat n (by simp [hn]))
      generalize hyy : ([y] : List (Step σ)) = yy at hl2
      cases hl2 with
      | slnil => cases hyy
      | cons a hl3 =>
        cases hyy
        rw [List.sublist_nil.mp hl3]
        rw [hps]
        simp only [List.append_nil]
        omega
      | cons_cons a hl3 =>
        cases hyy
        rw [List.sublist_nil.mp hl3] at hat ⊢
        have := g2 (hat y (by simp))
        rw [hps]
        simp only [List.length_append, List.length_cons, List.length_nil]
        omega

end Ndncert
