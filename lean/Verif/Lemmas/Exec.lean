import Verif.Lemmas.CaChallenge
import Verif.Lemmas.CaNewOutcome

namespace Ndncert

/-! ## Splitting executions -/

theorem Exec.split {σ : Type} {C : Crypto} {S : StoreI σ} {cfg : CaConfig} {h : List (Step σ)} {s : CaState σ}
    (hx : Exec C S cfg h s) : ∀ h1 n h2, h = h1 ++ n :: h2 →
    Exec C S cfg h1 n.pre ∧ n.event.Wf cfg ∧ n.event.Possible C S cfg n.pre ∧
      n.effects = (n.event.run C S cfg n.pre).1 ∧ Exec C S cfg (h1 ++ [n]) (n.event.run C S cfg n.pre).2 := by
  induction hx with
  | init idKey => intro h1 n h2 h; simp at h
  | @step h s e prev wf possible ih =>
    intro h1 n h2 heq
    rcases List.eq_nil_or_concat h2 with rfl | ⟨h2', y, rfl⟩
    · have := List.append_inj' (s₁ := h) (t₁ := [⟨s, e, (e.run C S cfg s).1⟩]) (s₂ := h1) (t₂ := [n]) heq rfl
      obtain ⟨rfl, h3⟩ := this
      cases h3
      exact ⟨prev, wf, possible, rfl, .step e prev wf possible⟩
    · have heq' : h ++ [⟨s, e, (e.run C S cfg s).1⟩] = (h1 ++ n :: h2') ++ [y] := by rw [heq]; simp
      obtain ⟨h3, _⟩ := List.append_inj' heq' rfl
      exact ih h1 n h2' h3

/-- the last state of a prefix of the history is the state before the next step -/
theorem Exec.last {σ : Type} {C : Crypto} {S : StoreI σ} {cfg : CaConfig} {h : List (Step σ)} {s : CaState σ}
    (hx : Exec C S cfg h s) : (h = [] ∧ s.store = S.empty) ∨ ∃ h' n, h = h' ++ [n] ∧ s = (n.event.run C S cfg n.pre).2 := by
  cases hx with
  | init idKey => exact .inl ⟨rfl, rfl⟩
  | step e prev wf possible => exact .inr ⟨_, _, rfl, rfl⟩

/-! ## Storage operations among the effects -/

/-- effects that concern the storage -/
def Effect.isDb : Effect → Bool
  | .dbAdd _ => true
  | .dbUpdate _ => true
  | .dbDelete _ => true
  | _ => false

def dbOps (es : List Effect) : List Effect := es.filter Effect.isDb

theorem applyEffects_dbOps {σ : Type} (S : StoreI σ) (es : List Effect) : ∀ st, applyEffects S st es = applyEffects S st (dbOps es) := by
  induction es with
  | nil => intro st; rfl
  | cons e es ih =>
    intro st
    unfold applyEffects dbOps at *
    rw [List.filter_cons, List.foldl_cons, ih]
    cases e <;> rfl

theorem mem_dbOps {es : List Effect} {e : Effect} (h : e.isDb = true) : e ∈ dbOps es ↔ e ∈ es := by
  simp [dbOps, h]

/-- an effect that changes the request with this id -/
def Effect.touches (id : RequestId) : Effect → Bool
  | .dbAdd r => r.requestId == id
  | .dbUpdate r => r.requestId == id
  | .dbDelete id' => id' == id
  | _ => false

def Step.touches {σ : Type} (id : RequestId) (n : Step σ) : Bool := n.effects.any (Effect.touches id)

theorem touches_isDb {id : RequestId} {e : Effect} (h : e.touches id = true) : e.isDb = true := by
  cases e <;> simp_all [Effect.touches, Effect.isDb]

/-! ## The effects of one event -/

/-- the message and its surroundings for NEW and REVOKE -/
def Msg.request? : Msg → Option (RequestType × Interest)
  | .new i => some (.new, i)
  | .revoke i => some (.revoke, i)
  | _ => none

/-- the step accepted a NEW or REVOKE and added `r` -/
structure AddedBy {σ : Type} (C : Crypto) (S : StoreI σ) (cfg : CaConfig) (n : Step σ) (ty : RequestType) (i : Interest)
    (env : Env) (r : RequestState) : Prop where
  event : ∃ m, n.event.msg? = some (m, env) ∧ m.request? = some (ty, i)
  effect : Effect.dbAdd r ∈ n.effects
  submits : ∃ pub, Submits C ty i pub r.cert
  name : NamePolicy cfg.profile r.cert
  new : ty = .new → ValidityPolicy cfg.profile r.cert env.now ∧ C.verifyCert r.cert r.cert = true ∧
    C.verifyInterest i r.cert = true
  revoke : ty = .revoke → C.verifyCert r.cert env.caCert = true
  type : ty = .new ∨ ty = .revoke
  state : ∃ secret, r = newRequestState C cfg n.pre.idKey ty r.cert secret env.salt

/-- the step processed a CHALLENGE for `r0` and stored `r1` -/
structure UpdatedBy {σ : Type} (C : Crypto) (S : StoreI σ) (cfg : CaConfig) (n : Step σ) (i : Interest) (env : Env)
    (k : ChalKind) (es : List Block) (out : ChalOut) (r0 r1 : RequestState) : Prop where
  event : n.event.msg? = some (.challenge i, env)
  effect : Effect.dbUpdate r1 ∈ n.effects
  verified : Verified C S cfg n.pre.store i env r0
  module : ∃ div, Opened C i r0 div es k ∧ ModCase C k env es { r0 with decryptionIv := div } out
  status : out.req.status = .challenge
  encode : ∃ payload, challengeEncode C out.req [] [] env.ivRnd = (r1, .ok payload)
  mwf : (Msg.challenge i).Wf cfg
  wf : env.Wf

theorem challengeEncode_ok {C : Crypto} {r r2 : RequestState} {issued hint : Name} {rnd : Bytes} {payload : Block}
    (h : challengeEncode C r issued hint rnd = (r2, .ok payload)) :
    ∃ es iv, challengeElems r issued hint = .ok es ∧ r2 = { r with encryptionIv := iv } ∧
      encodeAes C T.Content r.encryptionKey (encodeAll es) r.requestId r.encryptionIv rnd = (iv, .ok payload) := by
  unfold challengeEncode at h
  split at h
  · cases h
  · cases h
  · rename_i es he
    simp only [Prod.mk.injEq] at h
    refine ⟨es, _, he, h.1.symm, ?_⟩
    exact Prod.ext rfl h.2

theorem chalType_ne (k : ChalKind) : k.chalType ≠ [] := by cases k <;> simp [ChalKind.chalType]

theorem maxTries_pos (k : ChalKind) : 1 ≤ k.maxTries := by cases k <;> decide

theorem maxTries_le (k : ChalKind) : k.maxTries ≤ 3 := by cases k <;> decide

/-- what a module that continues has done to the request -/
theorem ModCase.challenge {C : Crypto} {k : ChalKind} {env : Env} {es : List Block} {r : RequestState} {out : ChalOut}
    (h : ModCase C k env es r out) (hst : out.req.status = .challenge) :
    ∃ cs, out.req = { r with status := .challenge, challengeType := k.chalType, challengeState := some cs } ∧
      cs.timestamp = env.nowStore ∧ (cs.challengeStatus = NEED_CODE ∨ cs.challengeStatus = WRONG_CODE ∨ cs.challengeStatus = NEED_PROOF) ∧
      (cs.remainingTries ≤ 3 ∨ ∃ cs0, r.challengeState = some cs0 ∧ cs.remainingTries < cs0.remainingTries) ∧ 1 ≤ cs.remainingTries := by
  cases h with
  | error code info hcode => cases hst
  | start cstat secrets mails hs hsc =>
    refine ⟨_, rfl, rfl, ?_, .inl (maxTries_le k), maxTries_pos k⟩
    cases hsc with
    | pin => exact .inl rfl
    | email => exact .inl rfl
    | possession => exact .inr (.inr rfl)
  | wrong cs code given hs hk ha hg hne ht htr time =>
    exact ⟨_, rfl, rfl, .inr (.inl rfl), .inr ⟨cs, ha.1, by dsimp only; omega⟩, by dsimp only; omega⟩
  | code cs code hs hk ha hg ht => cases hst
  | proof cs cred nonce p hs hk ha hg hl hv => cases hst

theorem sameRequest_challenge {C : Crypto} {k : ChalKind} {env : Env} {es : List Block} {r : RequestState} {div : Bytes}
    {out : ChalOut} {issued hint : Name} {r2 : RequestState} {payload : Block}
    (hm : ModCase C k env es { r with decryptionIv := div } out) (hst : out.req.status = .challenge)
    (henc : challengeEncode C out.req issued hint env.ivRnd = (r2, .ok payload)) : SameRequest r r2 := by
  obtain ⟨cs, h1, _⟩ := hm.challenge hst
  obtain ⟨es', iv, _, h2, _⟩ := challengeEncode_ok henc
  rw [h2, h1]
  exact ⟨rfl, rfl, rfl, rfl, rfl⟩

theorem storable_challenge {C : Crypto} {k : ChalKind} {env : Env} {es : List Block} {r : RequestState} {div : Bytes}
    {out : ChalOut} {issued hint : Name} {r2 : RequestState} {payload : Block} (hr : Storable C r)
    (hm : ModCase C k env es { r with decryptionIv := div } out) (hst : out.req.status = .challenge)
    (henc : challengeEncode C out.req issued hint env.ivRnd = (r2, .ok payload)) : Storable C r2 := by
  obtain ⟨cs, h1, _, _, h4, _⟩ := hm.challenge hst
  obtain ⟨es', iv, _, h2, _⟩ := challengeEncode_ok henc
  rw [h2, h1]
  exact
    { cert := hr.cert, certFits := hr.certFits, caFits := hr.caFits, key := hr.key
      status := by intro n h; cases h
      chal := ⟨fun h => absurd h (chalType_ne k), fun h => by cases h⟩
      chalFits := by
        intro cs' h
        cases h
        rcases h4 with h4 | ⟨cs0, h5, h6⟩
        · omega
        · have := hr.chalFits cs0 h5
          omega }

/-- a request found by a CHALLENGE Interest is stored under its id -/
theorem getCertificateRequest_some {σ : Type} {C : Crypto} {S : StoreI σ} {Inv : σ → Prop} (hS : LawfulStore C S Inv)
    {cfg : CaConfig} {st : σ} (hi : Inv st) {i : Interest} {env : Env} {r : RequestState}
    (h : getCertificateRequest S cfg st i env = .ok (some r)) :
    S.view st r.requestId = some r ∧ ∃ comp, idComponent cfg i = some comp ∧ memcpyInto env.stack comp.val = .ok r.requestId := by
  unfold getCertificateRequest at h
  unfold idComponent
  split at h
  · cases h
  · rename_i comp hc
    split at h
    · cases h
    · cases h
    · rename_i id hid
      split at h
      · rename_i r' hr
        cases h
        have hv : S.view st id = some r := by unfold StoreI.view; rw [hr]
        have := hS.get_id st id r hi hv
        rw [this]
        exact ⟨hv, comp, hc, hid⟩
      · cases h
      · cases h

/-! ## One event on a lawful storage -/

/-- what an event does to the storage -/
inductive DbCase {σ : Type} (C : Crypto) (S : StoreI σ) (cfg : CaConfig) (n : Step σ) : List Effect → Prop where
  | none : DbCase C S cfg n []
  | add (ty : RequestType) (i : Interest) (env : Env) (r : RequestState) (h : AddedBy C S cfg n ty i env r) : DbCase C S cfg n [.dbAdd r]
  | update (i : Interest) (env : Env) (k : ChalKind) (es : List Block) (out : ChalOut) (r0 r1 : RequestState)
      (h : UpdatedBy C S cfg n i env k es out r0 r1) : DbCase C S cfg n [.dbUpdate r1]
  | delete (i : Interest) (env : Env) (r : RequestState) (h : n.event.msg? = some (.challenge i, env))
      (hv : Verified C S cfg n.pre.store i env r) : DbCase C S cfg n [.dbDelete r.requestId]

/-- the effects of an event are a prefix of the handler's -/
theorem run_effects {σ : Type} (C : Crypto) (S : StoreI σ) (cfg : CaConfig) (s : CaState σ) (e : Event) :
    (e.msg? = none ∧ (e.run C S cfg s).1 = []) ∨
    ∃ m env k, e.msg? = some (m, env) ∧ (e.run C S cfg s).1 = (handle C S cfg s m env).effects.take k := by
  cases e with
  | msg m env => exact .inr ⟨m, env, (handle C S cfg s m env).effects.length, rfl, by simp [Event.run]⟩
  | crash m env k newKey => exact .inr ⟨m, env, k, rfl, rfl⟩
  | restart newKey => exact .inl ⟨rfl, rfl⟩

theorem dbOps_mail (ms : List Mail) : dbOps (ms.map Effect.mail) = [] := by
  induction ms with
  | nil => rfl
  | cons m ms ih => simp [dbOps, Effect.isDb]

theorem dbOps_take_single {es : List Effect} {e : Effect} (h : dbOps es = [e]) (k : Nat) :
    dbOps (es.take k) = [] ∨ dbOps (es.take k) = [e] := by
  have hsub : List.Sublist (dbOps (es.take k)) (dbOps es) := (List.take_sublist k es).filter _
  rw [h] at hsub
  generalize dbOps (es.take k) = l at hsub ⊢
  cases hsub with
  | cons _ h => cases h; exact .inl rfl
  | cons_cons _ h => cases h; exact .inr rfl

theorem dbOps_take_nil {es : List Effect} (h : dbOps es = []) (k : Nat) : dbOps (es.take k) = [] := by
  have hsub : List.Sublist (dbOps (es.take k)) (dbOps es) := (List.take_sublist k es).filter _
  rw [h] at hsub
  exact List.sublist_nil.mp hsub

theorem onProbe_dbOps (C : Crypto) (cfg : CaConfig) (i : Interest) (env : Env) : dbOps (onProbe C cfg i env).effects = [] := by
  unfold onProbe
  split
  · rfl
  · rfl
  · dsimp only
    split
    · rfl
    · rfl
    · split <;> rfl

theorem step_db {σ : Type} (C : Crypto) (S : StoreI σ) (cfg : CaConfig) (n : Step σ)
    (hwf : n.event.Wf cfg) (he : n.effects = (n.event.run C S cfg n.pre).1) : DbCase C S cfg n (dbOps n.effects) := by
  rcases run_effects C S cfg n.pre n.event with ⟨_, h⟩ | ⟨m, env, k, hm, h⟩
  · rw [he, h]; exact .none
  obtain ⟨hw1, hw2⟩ := hwf m env hm
  have hef : n.effects = (handle C S cfg n.pre m env).effects.take k := by rw [he, h]
  have single : ∀ e, dbOps (handle C S cfg n.pre m env).effects = [e] → e.isDb = true →
      (e ∈ n.effects → DbCase C S cfg n [e]) → DbCase C S cfg n (dbOps n.effects) := by
    intro e h1 hd h2
    rw [hef]
    rcases dbOps_take_single h1 k with h3 | h3
    · rw [h3]; exact .none
    · rw [h3]
      apply h2
      rw [hef, ← mem_dbOps hd, h3]
      simp
  have empty : dbOps (handle C S cfg n.pre m env).effects = [] → DbCase C S cfg n (dbOps n.effects) := by
    intro h1
    rw [hef, dbOps_take_nil h1]
    exact .none
  have newcase : ∀ ty i, (ty = .new ∨ ty = .revoke) → m.request? = some (ty, i) →
      handle C S cfg n.pre m env = onNewRenewRevoke C S cfg n.pre.idKey n.pre.store ty i env →
      DbCase C S cfg n (dbOps n.effects) := by
    intro ty i hty hmr hh
    have hc := onNew_cases C S cfg n.pre.idKey n.pre.store ty hty i env
    rw [← hh] at hc
    generalize hg : handle C S cfg n.pre m env = o at hc
    cases hc with
    | accept pub cert secret st' h1 h2 h3 h4 h5 h6 h7 h8 =>
      refine single (.dbAdd _) (by rw [hg]; rfl) rfl ?_
      intro hmem
      refine .add ty i env _ ⟨⟨m, hm, hmr⟩, hmem, ⟨pub, h1⟩, h5, h6, h7, hty, secret, rfl⟩
    | error code info _ => exact empty (by rw [hg]; rfl)
    | threwCa e _ => exact empty (by rw [hg]; rfl)
    | threw pub cert _ _ _ e => exact empty (by rw [hg]; rfl)
    | undefined r u _ => exact empty (by rw [hg]; rfl)
  cases m with
  | probe i => exact empty (onProbe_dbOps C cfg i env)
  | new i => exact newcase .new i (.inl rfl) rfl rfl
  | revoke i => exact newcase .revoke i (.inr rfl) rfl rfl
  | challenge i =>
    have hc := onChallenge_cases C S cfg n.pre.store i env
    have hh : handle C S cfg n.pre (.challenge i) env = onChallenge C S cfg n.pre.store i env := rfl
    rw [← hh] at hc
    generalize hg : handle C S cfg n.pre (.challenge i) env = o at hc
    cases hc with
    | undefined u _ => exact empty (by rw [hg]; rfl)
    | noRequest info _ => exact empty (by rw [hg]; rfl)
    | badSig r info _ _ => exact empty (by rw [hg]; rfl)
    | reject r code info hv _ =>
      exact single (.dbDelete r.requestId) (by rw [hg]; rfl) rfl (fun _ => .delete i env r hm hv)
    | early r t _ _ => exact empty (by rw [hg]; rfl)
    | continued r div es k' out r2 payload hv ho hmc hst henc =>
      refine single (.dbUpdate r2) ?_ rfl ?_
      · rw [hg]
        show dbOps (_ ++ _) = _
        unfold dbOps
        rw [List.filter_append]
        have := dbOps_mail out.mails
        unfold dbOps at this
        rw [this]
        rfl
      · intro hmem
        exact .update i env k' es out r r2 ⟨hm, hmem, hv, ⟨div, ho, hmc⟩, hst, ⟨payload, henc⟩, hw1, hw2⟩
    | contThrew r div es k' out t hv ho hmc hst ht => exact empty (by rw [hg]; exact dbOps_mail _)
    | issued r div es k' out c r2 payload hv ho hmc hst hty hiss henc =>
      exact single (.dbDelete r.requestId) (by rw [hg]; rfl) rfl (fun _ => .delete i env r hm hv)
    | issueThrew r div es k' out c t hv ho hmc hst hty hiss ht =>
      exact single (.dbDelete r.requestId) (by rw [hg]; rfl) rfl (fun _ => .delete i env r hm hv)
    | revoked r div es k' out r2 payload hv ho hmc hst hty henc =>
      exact single (.dbDelete r.requestId) (by rw [hg]; rfl) rfl (fun _ => .delete i env r hm hv)
    | revokeThrew r div es k' out t hv ho hmc hst hty ht =>
      exact single (.dbDelete r.requestId) (by rw [hg]; rfl) rfl (fun _ => .delete i env r hm hv)

/-- the state before a possible restart at the end of the event -/
def Step.afterStore {σ : Type} (S : StoreI σ) (n : Step σ) : σ := applyEffects S n.pre.store n.effects

theorem run_store {σ : Type} (C : Crypto) (S : StoreI σ) (cfg : CaConfig) (s : CaState σ) (e : Event) :
    (e.run C S cfg s).2.store = applyEffects S s.store (e.run C S cfg s).1 ∨
    (e.run C S cfg s).2.store = S.reopen (applyEffects S s.store (e.run C S cfg s).1) := by
  cases e with
  | msg m env => exact .inl rfl
  | crash m env k newKey => exact .inr rfl
  | restart newKey => exact .inr rfl

/-- how the storage after the effects looks like -/
inductive ViewCase {σ : Type} (C : Crypto) (S : StoreI σ) (cfg : CaConfig) (n : Step σ) (st' : σ) : Prop where
  | same (h0 : dbOps n.effects = []) (h : ∀ id, S.view st' id = S.view n.pre.store id)
  | added (ty : RequestType) (i : Interest) (env : Env) (r : RequestState) (hd : dbOps n.effects = [.dbAdd r]) (ha : AddedBy C S cfg n ty i env r)
      (h0 : S.view n.pre.store r.requestId = none)
      (h : ∀ id, S.view st' id = if id = r.requestId then some r else S.view n.pre.store id)
  | updated (i : Interest) (env : Env) (k : ChalKind) (es : List Block) (out : ChalOut) (r0 r1 r : RequestState)
      (hd : dbOps n.effects = [.dbUpdate r1]) (hu : UpdatedBy C S cfg n i env k es out r0 r1)
      (h0 : S.view n.pre.store r1.requestId = some r0) (hs : SameStored r1 r)
      (h : ∀ id, S.view st' id = if id = r1.requestId then some r else S.view n.pre.store id)
  | deleted (i : Interest) (env : Env) (r : RequestState) (hd : dbOps n.effects = [.dbDelete r.requestId])
      (he : n.event.msg? = some (.challenge i, env))
      (hv : Verified C S cfg n.pre.store i env r) (h0 : S.view n.pre.store r.requestId = some r)
      (h : ∀ id, S.view st' id = if id = r.requestId then none else S.view n.pre.store id)

theorem step_view {σ : Type} {C : Crypto} {S : StoreI σ} {Inv : σ → Prop} {cfg : CaConfig} (hC : C.Lawful)
    (hS : LawfulStore C S Inv) (hcfg : NameFits cfg.profile.caPrefix) {n : Step σ} (hi : Inv n.pre.store)
    (hwf : n.event.Wf cfg) (he : n.effects = (n.event.run C S cfg n.pre).1) :
    Inv (n.afterStore S) ∧ ViewCase C S cfg n (n.afterStore S) := by
  have hdb := step_db C S cfg n hwf he
  unfold Step.afterStore
  rw [applyEffects_dbOps]
  generalize hd : dbOps n.effects = d at hdb ⊢
  cases hdb with
  | none => exact ⟨hi, .same hd (fun _ => rfl)⟩
  | add ty i env r ha =>
    obtain ⟨secret, hr⟩ := ha.state
    obtain ⟨pub, hsub⟩ := ha.submits
    have hstor : Storable C r := by rw [hr]; exact newRequestState_storable hC hcfg hsub _ _ _
    -- the handler's own add succeeded
    have hok : ∃ st', S.add n.pre.store r = .ok st' := by
      obtain ⟨m, hm, hmr⟩ := ha.event
      rcases run_effects C S cfg n.pre n.event with ⟨h1, _⟩ | ⟨m', env', k, hm', h2⟩
      · rw [hm] at h1; cases h1
      · rw [hm] at hm'
        cases hm'
        have hmem : Effect.dbAdd r ∈ (handle C S cfg n.pre m env).effects := by
          have := ha.effect
          rw [he, h2] at this
          exact List.mem_of_mem_take this
        cases m with
        | probe j => cases hmr
        | challenge j => cases hmr
        | new j =>
          obtain ⟨_, _, st', _, _, _, _, _, _, _, _, h9, _⟩ := added_case C S cfg _ _ j env (.inl rfl) hmem
          exact ⟨st', h9⟩
        | revoke j =>
          obtain ⟨_, _, st', _, _, _, _, _, _, _, _, h9, _⟩ := added_case C S cfg _ _ j env (.inr rfl) hmem
          exact ⟨st', h9⟩
    have hnone := (add_iff hS hi hstor).mp hok
    obtain ⟨st', r', h1, h2, h3, h4⟩ := hS.add_absent _ r hi hstor hnone
    have hrr : r' = r := by
      rcases h3 with ⟨_, _, h⟩ | ⟨ca, cb, h, _⟩
      · exact h.symm
      · rw [hr] at h; cases h
    subst hrr
    have happ : applyEffects S n.pre.store [Effect.dbAdd r'] = st' := by
      simp [applyEffects, applyEffect, h1]
    rw [happ]
    exact ⟨h2, .added ty i env r' hd ha hnone h4⟩
  | update i env k es out r0 r1 hu =>
    obtain ⟨hv, _⟩ := getCertificateRequest_some hS hi hu.verified.found
    obtain ⟨div, ho, hm⟩ := hu.module
    obtain ⟨payload, henc⟩ := hu.encode
    have hsame := sameRequest_challenge hm hu.status henc
    have hstor := storable_challenge (hS.get_storable _ _ _ hi hv) hm hu.status henc
    have hv' : S.view n.pre.store r1.requestId = some r0 := by rw [← hsame.1]; exact hv
    obtain ⟨st', r', h1, h2, h3, h4⟩ := hS.update_present _ r1 r0 hi hstor hv' hsame
    have happ : applyEffects S n.pre.store [Effect.dbUpdate r1] = st' := by
      simp [applyEffects, applyEffect, h1]
    rw [happ]
    exact ⟨h2, .updated i env k es out r0 r1 r' hd hu hv' h3 h4⟩
  | delete i env r h hv =>
    obtain ⟨hv', _⟩ := getCertificateRequest_some hS hi hv.found
    exact ⟨hS.delete_inv _ _ hi, .deleted i env r hd h hv hv' (hS.delete_view _ _ hi)⟩

end Ndncert
