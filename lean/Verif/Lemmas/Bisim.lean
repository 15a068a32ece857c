import Verif.Lemmas.Exec
import Verif.Lemmas.StorageRun

/-! # The CA does not distinguish the two storages -/

namespace Ndncert

/-- a request without the remaining time of its challenge, which is never read back -/
def dropTime (r : RequestState) : RequestState :=
  { r with challengeState := r.challengeState.map (fun cs => { cs with remainingTime := 0 }) }

theorem dropTime_cases {r r' : RequestState} (h : dropTime r = dropTime r') :
    r = r' ∨ ∃ cs t, r.challengeState = some cs ∧ r' = { r with challengeState := some { cs with remainingTime := t } } := by
  obtain ⟨a1, a2, a3, a4, a5, a6, a7, a8, a9, a10⟩ := r
  obtain ⟨b1, b2, b3, b4, b5, b6, b7, b8, b9, b10⟩ := r'
  simp only [dropTime, RequestState.mk.injEq] at h
  obtain ⟨rfl, rfl, rfl, rfl, rfl, rfl, rfl, rfl, rfl, h⟩ := h
  cases a10 with
  | none =>
    cases b10 with
    | none => exact .inl rfl
    | some b => cases h
  | some a =>
    cases b10 with
    | none => cases h
    | some b =>
      simp only [Option.map_some, Option.some.injEq] at h
      obtain ⟨x1, x2, x3, x4, x5⟩ := a
      obtain ⟨y1, y2, y3, y4, y5⟩ := b
      simp only [ChallengeState.mk.injEq] at h
      obtain ⟨rfl, rfl, rfl, _, rfl⟩ := h
      exact .inr ⟨_, y4, rfl, rfl⟩

theorem dropTime_field {α : Type} (f : RequestState → α) (hf : ∀ (r : RequestState) (cs : ChallengeState) (t : Int), f { r with challengeState := some { cs with remainingTime := t } } = f r)
    {r r' : RequestState} (h : dropTime r = dropTime r') : f r = f r' := by
  rcases dropTime_cases h with rfl | ⟨cs, t, _, rfl⟩
  · rfl
  · exact (hf r cs t).symm

theorem handleCode_dropTime (k : ChalKind) (env : Env) (es : List Block) (r : RequestState) (cs : ChallengeState) (t : Int)
    (h : r.challengeState = some cs) :
    handleCode k env es { r with challengeState := some { cs with remainingTime := t } } = handleCode k env es r := by
  unfold handleCode
  rw [h]
  rfl

theorem handleChallenge_dropTime (C : Crypto) (k : ChalKind) (env : Env) (es : List Block) {r r' : RequestState}
    (h : dropTime r = dropTime r') : handleChallenge C k env es r = handleChallenge C k env es r' := by
  rcases dropTime_cases h with rfl | ⟨cs, t, hc, rfl⟩
  · rfl
  · cases k with
    | pin =>
      unfold handleChallenge handlePin
      dsimp only
      rw [handleCode_dropTime .pin env es r cs t hc]
      rfl
    | email =>
      unfold handleChallenge handleEmail
      dsimp only
      rw [handleCode_dropTime .email env es r cs t hc]
      rfl
    | possession =>
      unfold handleChallenge handlePossession
      dsimp only
      rw [hc]
      rfl

theorem processParams_dropTime (C : Crypto) (cfg : CaConfig) (i : Interest) (env : Env) {r r' : RequestState} (pt : Bytes)
    (h : dropTime r = dropTime r') : processParams C cfg i env r pt = processParams C cfg i env r' pt := by
  have hid : r.requestId = r'.requestId := dropTime_field RequestState.requestId (fun _ _ _ => rfl) h
  unfold processParams
  rw [hid]
  simp only [handleChallenge_dropTime C _ env _ h]

/-- two storage states between which the CA cannot tell -/
structure Alike {σ τ : Type} (S : StoreI σ) (T : StoreI τ) (s : σ) (t : τ) : Prop where
  view : ∀ id, (S.view s id).map dropTime = (T.view t id).map dropTime
  getS : ∀ id, S.view s id = none → ∃ e, S.get s id = .exc e
  getT : ∀ id, T.view t id = none → ∃ e, T.get t id = .exc e
  add : ∀ r, (∃ s' t', S.add s r = .ok s' ∧ T.add t r = .ok t') ∨ (∃ e e', S.add s r = .exc e ∧ T.add t r = .exc e')

theorem StoreI.get_of_view {σ : Type} {S : StoreI σ} {s : σ} {id : RequestId} {r : RequestState} (h : S.view s id = some r) :
    S.get s id = .ok r := by
  unfold StoreI.view at h
  split at h
  · rename_i h1
    cases h
    exact h1
  · cases h

theorem Alike.onChallenge {σ τ : Type} {S : StoreI σ} {T : StoreI τ} {s : σ} {t : τ} (h : Alike S T s t) (C : Crypto)
    (cfg : CaConfig) (i : Interest) (env : Env) : onChallenge C S cfg s i env = onChallenge C T cfg t i env := by
  have hg : (getCertificateRequest S cfg s i env = getCertificateRequest T cfg t i env) ∨
      ∃ r r', getCertificateRequest S cfg s i env = .ok (some r) ∧ getCertificateRequest T cfg t i env = .ok (some r') ∧
        dropTime r = dropTime r' := by
    unfold getCertificateRequest
    split
    · exact .inl rfl
    · split
      · exact .inl rfl
      · exact .inl rfl
      · rename_i id _
        have hv := h.view id
        cases hs : S.view s id with
        | none =>
          rw [hs] at hv
          have ht : T.view t id = none := by
            cases ht : T.view t id with
            | none => rfl
            | some x => rw [ht] at hv; cases hv
          obtain ⟨e, he⟩ := h.getS id hs
          obtain ⟨e', he'⟩ := h.getT id ht
          rw [he, he']
          exact .inl rfl
        | some r =>
          rw [hs] at hv
          cases ht : T.view t id with
          | none => rw [ht] at hv; cases hv
          | some r' =>
            rw [ht] at hv
            rw [StoreI.get_of_view hs, StoreI.get_of_view ht]
            exact .inr ⟨r, r', rfl, rfl, Option.some.inj hv⟩
  unfold Ndncert.onChallenge
  rcases hg with hg | ⟨r, r', h1, h2, h3⟩
  · rw [hg]
  · rw [h1, h2]
    dsimp only
    have e1 : r.cert = r'.cert := dropTime_field RequestState.cert (fun _ _ _ => rfl) h3
    have e2 : r.encryptionKey = r'.encryptionKey := dropTime_field RequestState.encryptionKey (fun _ _ _ => rfl) h3
    have e3 : r.requestId = r'.requestId := dropTime_field RequestState.requestId (fun _ _ _ => rfl) h3
    have e4 : r.decryptionIv = r'.decryptionIv := dropTime_field RequestState.decryptionIv (fun _ _ _ => rfl) h3
    have e5 : r.encryptionIv = r'.encryptionIv := dropTime_field RequestState.encryptionIv (fun _ _ _ => rfl) h3
    have hp : ∀ div pt, processParams C cfg i env { r with decryptionIv := div } pt =
        processParams C cfg i env { r' with decryptionIv := div } pt := by
      intro div pt
      apply processParams_dropTime
      rcases dropTime_cases h3 with rfl | ⟨cs, t, hc, rfl⟩
      · rfl
      · simp only [dropTime, hc]
        rfl
    have hdec : decodeAes C (i.params.getD ⟨0, []⟩) r.encryptionKey r.requestId r.decryptionIv r.encryptionIv =
        decodeAes C (i.params.getD ⟨0, []⟩) r'.encryptionKey r'.requestId r'.decryptionIv r'.encryptionIv := by
      rw [e2, e3, e4, e5]
    rw [hdec, show C.verifyInterest i r.cert = C.verifyInterest i r'.cert by rw [e1]]
    split
    · rfl
    · rcases decodeAes C (i.params.getD ⟨0, []⟩) r'.encryptionKey r'.requestId r'.decryptionIv r'.encryptionIv with ⟨div, res⟩
      cases res with
      | ok pt => exact hp div pt
      | exc e => dsimp only; rw [e3]
      | ub u => rfl

theorem Alike.accept {σ τ : Type} {S : StoreI σ} {T : StoreI τ} {s : σ} {t : τ} (h : Alike S T s t) (C : Crypto)
    (cfg : CaConfig) (idKey : Bytes) (ty : RequestType) (i : Interest) (env : Env) (cert : Cert) (secret : Bytes) :
    acceptRequest C S cfg idKey s ty i env cert secret = acceptRequest C T cfg idKey t ty i env cert secret := by
  unfold acceptRequest
  rcases h.add (newRequestState C cfg idKey ty cert secret env.salt) with ⟨_, _, h1, h2⟩ | ⟨_, _, h1, h2⟩
  · dsimp only; rw [h1, h2]
  · dsimp only; rw [h1, h2]

theorem Alike.handle {σ τ : Type} {S : StoreI σ} {T : StoreI τ} {s : σ} {t : τ} (h : Alike S T s t) (C : Crypto)
    (cfg : CaConfig) (idKey : Bytes) (m : Msg) (env : Env) :
    handle C S cfg ⟨s, idKey⟩ m env = handle C T cfg ⟨t, idKey⟩ m env := by
  have hn : ∀ ty i, onNewRenewRevoke C S cfg idKey s ty i env = onNewRenewRevoke C T cfg idKey t ty i env := by
    intro ty i
    unfold onNewRenewRevoke
    simp only [h.accept]
  cases m with
  | probe i => rfl
  | new i => exact hn _ _
  | revoke i => exact hn _ _
  | challenge i => exact h.onChallenge C cfg i env

/-! ## Memory and SQLite -/

theorem alike_of_views {C : Crypto} {m : Mem} {db : Db} (hm : MemOk C m) (hd : SqlInv C db)
    (hv : ∀ id, (memStore.view m id).map dropTime = ((sqlStore C).view db id).map dropTime) : Alike memStore (sqlStore C) m db where
  view := hv
  getS id h := (memStore_lawful C).get_absent m id hm h
  getT id h := (sqlStore_lawful C).get_absent db id hd h
  add r := by
    have h := hv r.requestId
    cases h1 : memStore.view m r.requestId with
    | none =>
      rw [h1] at h
      have h2 : (sqlStore C).view db r.requestId = none := by
        cases h2 : (sqlStore C).view db r.requestId with
        | none => rfl
        | some x => rw [h2] at h; cases h
      rw [memStore_view] at h1
      have h3 := (sql_view_none hd r.requestId).mp h2
      left
      refine ⟨memInsert r.requestId r m, db ++ [stateToRow r], ?_, ?_⟩
      · simp only [memStore, h1]
      · have h4 : db.find? (fun x => x.requestId == r.requestId) = none := by
          rw [List.find?_eq_none]
          intro x hx
          simpa using h3 x hx
        simp only [sqlStore, h4]
    | some x =>
      rw [h1] at h
      right
      obtain ⟨e, he⟩ := (memStore_lawful C).add_present m r hm (by rw [h1]; simp)
      obtain ⟨e', he'⟩ := (sqlStore_lawful C).add_present db r hd (by
        intro hn
        rw [hn] at h
        cases h)
      exact ⟨e, e', he, he'⟩

theorem dropTime_normState {r : RequestState} (h : ∀ cs, r.challengeState = some cs → cs.timestamp % 1000 = 0) :
    dropTime (normState r) = dropTime r := by
  unfold normState dropTime
  cases hc : r.challengeState with
  | none => rfl
  | some cs => simp only [Option.map_some, truncMicros_whole (h cs hc)]

/-- the messages of a history, between restarts -/
theorem alike_step {C : Crypto} (hC : C.Lawful) {cfg : CaConfig} (hcfg : NameFits cfg.profile.caPrefix) {m : Mem} {db : Db}
    (hm : MemOk C m) (hd : SqlInv C db)
    (hv : ∀ id, (memStore.view m id).map dropTime = ((sqlStore C).view db id).map dropTime) (idKey : Bytes) (msg : Msg)
    (env0 : Env) (hwf : (Event.msg msg env0).Wf cfg) (hus : env0.nowStore % 1000 = 0) :
    handle C memStore cfg ⟨m, idKey⟩ msg env0 = handle C (sqlStore C) cfg ⟨db, idKey⟩ msg env0 ∧
    MemOk C (applyEffects memStore m (handle C memStore cfg ⟨m, idKey⟩ msg env0).effects) ∧
    SqlInv C (applyEffects (sqlStore C) db (handle C memStore cfg ⟨m, idKey⟩ msg env0).effects) ∧
    ∀ id, (memStore.view (applyEffects memStore m (handle C memStore cfg ⟨m, idKey⟩ msg env0).effects) id).map dropTime =
      ((sqlStore C).view (applyEffects (sqlStore C) db (handle C memStore cfg ⟨m, idKey⟩ msg env0).effects) id).map dropTime := by
  have heq := (alike_of_views hm hd hv).handle C cfg idKey msg env0
  refine ⟨heq, ?_⟩
  have s1 := step_view hC (memStore_lawful C) hcfg (n := ⟨⟨m, idKey⟩, .msg msg env0, (handle C memStore cfg ⟨m, idKey⟩ msg env0).effects⟩)
    hm hwf rfl
  have s2 := step_view hC (sqlStore_lawful C) hcfg (n := ⟨⟨db, idKey⟩, .msg msg env0, (handle C memStore cfg ⟨m, idKey⟩ msg env0).effects⟩)
    hd hwf (by rw [heq]; rfl)
  obtain ⟨i1, v1⟩ := s1
  obtain ⟨i2, v2⟩ := s2
  refine ⟨i1, i2, ?_⟩
  unfold Step.afterStore at v1 v2
  dsimp only at v1 v2
  generalize hE : (handle C memStore cfg ⟨m, idKey⟩ msg env0).effects = E at *
  cases v1 with
  | same h0 h =>
    cases v2 with
    | same h0' h' => intro id; rw [h, h']; exact hv id
    | added ty i env r hd => rw [show dbOps E = [] from h0] at hd; cases hd
    | updated i env k es out r0 r1 r hd => rw [show dbOps E = [] from h0] at hd; cases hd
    | deleted i env r hd => rw [show dbOps E = [] from h0] at hd; cases hd
  | added ty i env r hd1 ha h0 h =>
    have hd1' : dbOps E = [.dbAdd r] := hd1
    cases v2 with
    | same h0' h' => rw [show dbOps E = [] from h0'] at hd1'; cases hd1'
    | added ty' i' env' r' hd2 ha' h0' h' =>
      rw [show dbOps E = [.dbAdd r'] from hd2] at hd1'
      cases hd1'
      intro id
      rw [h, h']
      split
      · rfl
      · exact hv id
    | updated i env k es out r0 r1 r hd => rw [show dbOps E = _ from hd] at hd1'; cases hd1'
    | deleted i env r hd => rw [show dbOps E = _ from hd] at hd1'; cases hd1'
  | updated i env k es out r0 r1 r hd1 hu h0 hs h =>
    have hd1' : dbOps E = [.dbUpdate r1] := hd1
    cases v2 with
    | same h0' h' => rw [show dbOps E = [] from h0'] at hd1'; cases hd1'
    | added ty i env r hd => rw [show dbOps E = _ from hd] at hd1'; cases hd1'
    | deleted i env r hd => rw [show dbOps E = _ from hd] at hd1'; cases hd1'
    | updated i' env' k' es' out' r0' r1' r' hd2 hu' h0' hs' h' =>
      rw [show dbOps E = [.dbUpdate r1'] from hd2] at hd1'
      cases hd1'
      have hd2' : dbOps E = [.dbUpdate r1] := hd2
      obtain ⟨div, ho, hmc⟩ := hu.module
      obtain ⟨div', ho', hmc'⟩ := hu'.module
      obtain ⟨payload, henc⟩ := hu.encode
      obtain ⟨payload', henc'⟩ := hu'.encode
      have henv : env0 = env := by
        have h1 : some (msg, env0) = some (Msg.challenge i, env) := hu.event
        injection h1 with h1
        injection h1
      have hwhole : ∀ cs, r1.challengeState = some cs → cs.timestamp % 1000 = 0 := by
        intro cs hcs
        obtain ⟨cs1, e1, e2, _⟩ := hmc.challenge hu.status
        obtain ⟨_, _, _, e3, _⟩ := challengeEncode_ok henc
        rw [e3, e1] at hcs
        cases hcs
        rw [e2, ← henv]
        exact hus
      have hstor : Storable C r1 := storable_challenge ((sqlStore_lawful C).get_storable _ _ _ hd
        (getCertificateRequest_some (sqlStore_lawful C) hd hu'.verified.found).1) hmc' hu'.status henc'
      obtain ⟨db', u1, _, u3⟩ := sqlStore_update_view hd hstor h0' (sameRequest_challenge hmc' hu'.status henc')
      intro id
      have a1 : applyEffects memStore m E = memAssign r1.requestId r1 m := by
        rw [applyEffects_dbOps, hd2']
        rfl
      have a2 : applyEffects (sqlStore C) db E = db' := by
        rw [applyEffects_dbOps, hd2']
        simp only [applyEffects, List.foldl_cons, List.foldl_nil, applyEffect, u1]
      rw [a1, a2, memStore_view, memFind_assign hm.1, u3]
      split
      · simp only [Option.map_some, dropTime_normState hwhole]
      · rw [← memStore_view]
        exact hv id
  | deleted i env r hd1 he hv' h0 h =>
    have hd1' : dbOps E = [.dbDelete r.requestId] := hd1
    cases v2 with
    | same h0' h' => rw [show dbOps E = [] from h0'] at hd1'; cases hd1'
    | added ty i env r hd => rw [show dbOps E = _ from hd] at hd1'; cases hd1'
    | updated i env k es out r0 r1 r hd => rw [show dbOps E = _ from hd] at hd1'; cases hd1'
    | deleted i' env' r' hd2 he' hv'' h0' h' =>
      rw [show dbOps E = [.dbDelete r'.requestId] from hd2] at hd1'
      have hid : r'.requestId = r.requestId := by
        injection hd1' with a
        injection a
      intro id
      rw [h, h', hid]
      split
      · rfl
      · exact hv id

end Ndncert
