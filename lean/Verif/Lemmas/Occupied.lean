import Verif.Lemmas.Files
import Verif.Lemmas.Opens

namespace Ndncert

variable {σ : Type} {C : Crypto} {S : StoreI σ} {Inv : σ → Prop} {cfg : CaConfig}

/-- one step: a request stays unless it is removed or the process restarts -/
theorem Exec.keeps_one (hC : C.Lawful) (hS : LawfulStore C S Inv) (hcfg : NameFits cfg.profile.caPrefix) {h : List (Step σ)} {s : CaState σ}
    (prev : Exec C S cfg h s) {m : Msg} {env : Env} (wf : (Event.msg m env).Wf cfg) {id : RequestId} (hv : S.view s.store id ≠ none)
    (hd : .dbDelete id ∉ ((Event.msg m env).run C S cfg s).1) : S.view ((Event.msg m env).run C S cfg s).2.store id ≠ none := by
  have hi := (prev.life hC hS hcfg).1
  obtain ⟨_, hvc⟩ := step_view hC hS hcfg (n := ⟨s, .msg m env, ((Event.msg m env).run C S cfg s).1⟩) hi wf rfl
  show S.view (Step.afterStore S (⟨s, .msg m env, ((Event.msg m env).run C S cfg s).1⟩ : Step σ)) id ≠ none
  cases hvc with
  | same h0 h => rw [h]; exact hv
  | added ty i env r hd ha h0 h =>
    rw [h]
    split
    · simp
    · exact hv
  | updated i env k es out r0 r1 r hd hu h0 hs h =>
    rw [h]
    split
    · simp
    · exact hv
  | deleted i env r hd' he hv' h0 h =>
    rw [h]
    split
    · rename_i hid
      subst hid
      exact absurd ((mem_dbOps (e := .dbDelete r.requestId) rfl).mp (by rw [hd']; exact List.mem_singleton_self _)) hd
    · exact hv

/-- a request that was added is there until it is removed or the process restarts -/
theorem Exec.keeps (hC : C.Lawful) (hS : LawfulStore C S Inv) (hcfg : NameFits cfg.profile.caPrefix) {h : List (Step σ)} {s : CaState σ}
    (hx : Exec C S cfg h s) : ∀ {h1 h2 : List (Step σ)} {n : Step σ}, h = h1 ++ n :: h2 → (∀ x ∈ n :: h2, ∃ msg env, x.event = .msg msg env) →
    ∀ {r : RequestState}, .dbAdd r ∈ n.effects → (∀ x ∈ h2, .dbDelete r.requestId ∉ x.effects) → S.view s.store r.requestId ≠ none := by
  induction hx with
  | init idKey => intro h1 h2 n hh; simp at hh
  | @step h s e prev wf possible ih =>
    intro h1 h2 n hh hup r hadd hdel
    rcases List.eq_nil_or_concat h2 with rfl | ⟨h2', l, rfl⟩
    · obtain ⟨rfl, hn⟩ : h = h1 ∧ (⟨s, e, (e.run C S cfg s).1⟩ : Step σ) = n := by
        have := List.append_inj' hh rfl
        simpa using this
      subst hn
      obtain ⟨m, env, he⟩ := hup _ (List.mem_singleton_self _)
      dsimp only at he
      subst he
      have hi := (prev.life hC hS hcfg).1
      obtain ⟨_, hvc⟩ := step_view hC hS hcfg (n := ⟨s, .msg m env, ((Event.msg m env).run C S cfg s).1⟩) hi wf rfl
      show S.view (Step.afterStore S (⟨s, .msg m env, ((Event.msg m env).run C S cfg s).1⟩ : Step σ)) r.requestId ≠ none
      have hmem := (mem_dbOps (e := .dbAdd r) rfl).mpr hadd
      cases hvc with
      | same h0 h => rw [h0] at hmem; cases hmem
      | added ty i env r' hd ha h0 h =>
        rw [hd, List.mem_singleton, Effect.dbAdd.injEq] at hmem
        subst hmem
        rw [h, if_pos rfl]
        simp
      | updated i env k es out r0 r1 r hd hu h0 hs h => rw [hd, List.mem_singleton] at hmem; cases hmem
      | deleted i env r hd' he hv' h0 h => rw [hd', List.mem_singleton] at hmem; cases hmem
    · rw [List.concat_eq_append, ← List.cons_append, ← List.append_assoc] at hh
      have := List.append_inj' hh rfl
      simp only [List.cons.injEq, and_true] at this
      obtain ⟨rfl, rfl⟩ := this
      obtain ⟨m, env, he⟩ := hup ⟨s, e, (e.run C S cfg s).1⟩ (by simp)
      dsimp only at he
      subst he
      refine Exec.keeps_one hC hS hcfg prev wf ?_ (hdel ⟨s, .msg m env, ((Event.msg m env).run C S cfg s).1⟩ (by simp))
      refine ih rfl (fun x hx => ?_) hadd ?_
      · rcases List.mem_cons.mp hx with rfl | hx
        · exact hup _ (List.mem_cons_self ..)
        · exact hup _ (List.mem_cons_of_mem _ (by simp [hx]))
      · exact (fun x hx => hdel x (by simp [hx]))

/-- what a REVOKE leads to does not depend on the signature of the Interest -/
theorem revoke_unsigned (C : Crypto) (S : StoreI σ) (cfg : CaConfig) (idKey : Bytes) (st : σ) (i : Interest) (sig : Bytes) (env : Env) :
    onNewRenewRevoke C S cfg idKey st .revoke { i with sig := sig } env = onNewRenewRevoke C S cfg idKey st .revoke i env := by
  unfold onNewRenewRevoke
  rfl

end Ndncert
