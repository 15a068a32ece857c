import Verif.Model.Lifecycle
import Verif.Lemmas.Face
import Verif.Spec.Lifecycle

namespace Ndncert

/-- how things stand is what happened -/
structure ModuleInv (p : CaProfile) (es : List ModuleEvent) (l : ModuleLife) : Prop where
  alive : l.alive = true ↔ ModuleEvent.destroy ∉ es
  asked : l.registration = .asked ↔ ModuleEvent.confirm ∉ es ∧ ModuleEvent.refuse ∉ es
  confirmed : l.registration = .confirmed ↔ ModuleEvent.confirm ∈ es
  filters : l.filters = if l.alive = true ∧ l.registration = .confirmed then Ndncert.filters p else []

theorem ModuleRuns.inv {p : CaProfile} {h : List (ModuleEvent × ModuleResult)} {l : ModuleLife} (hl : ModuleRuns p h l) : ModuleInv p (h.map (·.1)) l := by
  induction hl with
  | constructed => exact ⟨by simp [ModuleLife.begin], by simp [ModuleLife.begin], by simp [ModuleLife.begin], by simp [ModuleLife.begin]⟩
  | @step h l e prev can ih =>
    obtain ⟨h1, h2, h3, h4⟩ := ih
    rw [List.map_append, List.map_cons, List.map_nil]
    generalize h.map (·.1) = es at *
    cases e with
    | confirm =>
      have ha := h2.mp can
      unfold ModuleLife.step
      dsimp only
      split
      · rename_i hal
        refine ⟨?_, ?_, ?_, ?_⟩
        · simp [h1]
        · simp
        · simp
        · simp [hal]
      · rename_i hal
        refine ⟨?_, ?_, ?_, ?_⟩
        · simp [h1]
        · simp
        · simp
        · rw [h4]; simp [hal]
    | refuse =>
      have ha := h2.mp can
      have hc : l.registration ≠ .confirmed := by rw [show l.registration = .asked from can]; decide
      unfold ModuleLife.step
      dsimp only
      split
      · refine ⟨?_, ?_, ?_, ?_⟩
        · simp [h1]
        · simp
        · simp [ha.1]
        · rw [h4]; simp [hc]
      · refine ⟨?_, ?_, ?_, ?_⟩
        · simp [h1]
        · simp
        · simp [ha.1]
        · rw [h4]; simp [hc]
    | interest name =>
      have hs : (l.step p (.interest name)).2 = l := by
        unfold ModuleLife.step
        dsimp only
        split <;> rfl
      rw [hs]
      exact ⟨by simpa using h1, by simpa using h2, by simpa using h3, h4⟩
    | destroy =>
      unfold ModuleLife.step
      exact ⟨by simp, by simpa using h2, by simpa using h3, by simp⟩

/-- what happened at one moment came of how things stood then -/
theorem ModuleRuns.split {p : CaProfile} {h : List (ModuleEvent × ModuleResult)} {l : ModuleLife} (hl : ModuleRuns p h l) :
    ∀ {h1 h2 : List (ModuleEvent × ModuleResult)} {e : ModuleEvent} {r : ModuleResult}, h = h1 ++ (e, r) :: h2 →
      ∃ l1, ModuleRuns p h1 l1 ∧ l1.admits e ∧ r = (l1.step p e).1 := by
  induction hl with
  | constructed => intro h1 h2 e r he; simp at he
  | @step h l e prev can ih =>
    intro h1 h2 e' r' he
    rcases List.eq_nil_or_concat h2 with rfl | ⟨h3, x, rfl⟩
    · have := List.append_inj' he rfl
      obtain ⟨rfl, hx⟩ := this
      simp only [List.cons.injEq, Prod.mk.injEq, and_true] at hx
      obtain ⟨rfl, rfl⟩ := hx
      exact ⟨l, prev, can, rfl⟩
    · rw [List.concat_eq_append, ← List.cons_append, ← List.append_assoc] at he
      exact ih (List.append_inj' he rfl).1

/-- the storage matters only if all checks were passed -/
theorem onNew_storage (C : Crypto) (cfg : CaConfig) (idKey : Bytes) (ty : RequestType) (i : Interest) (env : Env) :
    (∃ cert secret, ∀ {σ : Type} (S : StoreI σ) (st : σ),
      onNewRenewRevoke C S cfg idKey st ty i env = acceptRequest C S cfg idKey st ty i env cert secret) ∨
    (∃ o : Outcome, (∀ r, Effect.dbAdd r ∉ o.effects) ∧ ∀ {σ : Type} (S : StoreI σ) (st : σ), onNewRenewRevoke C S cfg idKey st ty i env = o) := by
  have err : ∀ code info, ∀ r, Effect.dbAdd r ∉ (replyError C cfg i [] code info).effects := by
    intro code info r hr
    simp [replyError] at hr
  have nil : ∀ t, ∀ r, Effect.dbAdd r ∉ (⟨[], t⟩ : Outcome).effects := by
    intro t r hr
    simp at hr
  unfold onNewRenewRevoke
  cases certIsValid env.caCert env.nowCa with
  | exc e => exact .inr ⟨_, nil _, fun _ _ => rfl⟩
  | ub u => exact .inr ⟨_, nil _, fun _ _ => rfl⟩
  | ok b =>
    cases b with
    | false => exact .inr ⟨_, err _ _, fun _ _ => rfl⟩
    | true =>
      cases requestParamsDecode C i.params ty with
      | exc e => exact .inr ⟨_, err _ _, fun _ _ => rfl⟩
      | ub u => exact .inr ⟨_, nil _, fun _ _ => rfl⟩
      | ok x =>
        obtain ⟨pub, cert⟩ := x
        dsimp only
        by_cases hp : pub = []
        · exact .inr ⟨_, err _ _, fun _ _ => if_pos hp⟩
        simp only [if_neg hp]
        cases C.ecdhDerive env.ecdhPriv pub with
        | none => exact .inr ⟨_, err _ _, fun _ _ => rfl⟩
        | some secret =>
          dsimp only
          by_cases hn : nameRejected cfg.profile cert = true
          · exact .inr ⟨_, err _ _, fun _ _ => if_pos hn⟩
          simp only [if_neg hn]
          by_cases ht : ty = .new
          · simp only [if_pos ht]
            cases cert.validity with
            | none => exact .inr ⟨_, nil _, fun _ _ => rfl⟩
            | some v =>
              dsimp only
              by_cases h1 : validityRejected cfg.profile v.1 v.2 env.now = true
              · exact .inr ⟨_, err _ _, fun _ _ => if_pos h1⟩
              simp only [if_neg h1]
              by_cases h2 : C.verifyCert cert cert = false
              · exact .inr ⟨_, err _ _, fun _ _ => if_pos h2⟩
              simp only [if_neg h2]
              by_cases h3 : C.verifyInterest i cert = false
              · exact .inr ⟨_, err _ _, fun _ _ => if_pos h3⟩
              simp only [if_neg h3]
              exact .inl ⟨cert, secret, fun _ _ => rfl⟩
          · simp only [if_neg ht]
            by_cases hr : ty = .revoke
            · simp only [if_pos hr]
              by_cases h2 : C.verifyCert cert env.caCert = false
              · exact .inr ⟨_, err _ _, fun _ _ => if_pos h2⟩
              simp only [if_neg h2]
              exact .inl ⟨cert, secret, fun _ _ => rfl⟩
            · simp only [if_neg hr]
              exact .inl ⟨cert, secret, fun _ _ => rfl⟩

/-- without storage, a NEW or REVOKE that passes all checks dereferences null, and another one is answered as ever -/
theorem onNew_null (C : Crypto) (cfg : CaConfig) (idKey : Bytes) (ty : RequestType) (i : Interest) (env : Env) :
    (Accepted (onNewRenewRevoke C memStore cfg idKey [] ty i env) → onNewRenewRevoke C nullStore cfg idKey () ty i env = ⟨[], .undefined .nullDeref⟩) ∧
    (¬ Accepted (onNewRenewRevoke C memStore cfg idKey [] ty i env) →
      onNewRenewRevoke C nullStore cfg idKey () ty i env = onNewRenewRevoke C memStore cfg idKey [] ty i env) := by
  rcases onNew_storage C cfg idKey ty i env with ⟨cert, secret, h⟩ | ⟨o, h1, h2⟩
  · rw [h, h]
    refine ⟨fun _ => rfl, fun hn => absurd ⟨newRequestState C cfg idKey ty cert secret env.salt, ?_⟩ hn⟩
    simp [acceptRequest, memStore, memFind]
  · rw [h2, h2]
    exact ⟨fun ⟨r, hr⟩ => absurd hr (h1 r), fun _ => rfl⟩

end Ndncert
