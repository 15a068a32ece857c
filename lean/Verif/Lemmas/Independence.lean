import Verif.Spec.Independence
import Verif.Lemmas.Bisim
import Verif.Lemmas.Authentic

/-! # The CA handles each request as if it were the only one -/

namespace Ndncert

theorem memStore_exact (C : Crypto) : ExactStore C memStore (MemOk C) where
  toLawfulStore := memStore_lawful C
  update_exact := by
    refine ⟨id, id, ?_⟩
    intro st r r0 st' hi hs hv hsame hu
    have : memAssign r.requestId r st = st' := by cases hu; rfl
    rw [← this, memStore_view, memFind_assign hi.1, if_pos rfl]
    cases hc : r.challengeState with
    | none => simp only [Option.map_none]; rw [← hc]
    | some cs => simp only [Option.map_some, id]; rw [← hc]
  reopen_exact := .inr fun st _ id => rfl

theorem sqlStore_exact (C : Crypto) : ExactStore C (sqlStore C) (SqlInv C) where
  toLawfulStore := sqlStore_lawful C
  update_exact := by
    refine ⟨truncMicros, intToInt32, ?_⟩
    intro st r r0 st' hi hs hv hsame hu
    obtain ⟨db', h1, _, h2⟩ := sqlStore_update_view hi hs hv hsame
    rw [h1] at hu
    cases hu
    rw [h2, if_pos rfl]
    rfl
  reopen_exact := .inl fun st _ id => rfl

variable {σ : Type} {C : Crypto} {S : StoreI σ} {Inv : σ → Prop} {cfg : CaConfig}

/-- a step that touches the request with this id is its own -/
theorem step_own (hC : C.Lawful) (hS : LawfulStore C S Inv) (hcfg : NameFits cfg.profile.caPrefix) {n : Step σ}
    (hi : Inv n.pre.store) (hwf : n.event.Wf cfg) (he : n.effects = (n.event.run C S cfg n.pre).1) (id : RequestId)
    (hn : ¬ OwnStep C S cfg id n) : S.view (n.afterStore S) id = S.view n.pre.store id := by
  obtain ⟨_, hv⟩ := step_view hC hS hcfg hi hwf he
  cases hv with
  | same h0 h => exact h id
  | added ty i env r hd ha h0 h =>
    rw [h, if_neg]
    rintro rfl
    apply hn
    obtain ⟨m, hm, hr⟩ := ha.event
    cases m with
    | probe j => cases hr
    | challenge j => cases hr
    | new j => cases hr; exact .inr ⟨i, env, r, .inl ⟨hm, ha.effect⟩, rfl⟩
    | revoke j => cases hr; exact .inr ⟨i, env, r, .inr ⟨hm, ha.effect⟩, rfl⟩
  | updated i env k es out r0 r1 r hd hu h0 hs h =>
    rw [h, if_neg]
    rintro rfl
    apply hn
    have ha := (verified_authentic hS hi (idFits_of_wf hu.mwf) hu.wf.stack).mp hu.verified
    exact .inl ⟨i, env, r0, hu.event, ha, hS.get_id _ _ _ hi h0⟩
  | deleted i env r hd hm hv h0 h =>
    rw [h, if_neg]
    rintro rfl
    apply hn
    obtain ⟨w1, w2⟩ := hwf _ _ hm
    have ha := (verified_authentic hS hi (idFits_of_wf w1) w2.stack).mp hv
    exact .inl ⟨i, env, r, hm, ha, rfl⟩

/-- an own step concerns the request -/
theorem OwnStep.concerns {n : Step σ} (hwf : n.event.Wf cfg) (he : n.effects = (n.event.run C S cfg n.pre).1) {id : RequestId}
    (h : OwnStep C S cfg id n) : Concerns C cfg id n := by
  rcases h with ⟨i, env, r, h1, h2, rfl⟩ | ⟨i, env, r, h, rfl⟩
  · exact .inl ⟨i, env, h1, h2.names⟩
  · have hmem : Effect.dbAdd r ∈ n.effects := by
      rcases h with h | h <;> exact h.2
    have hdb := step_db C S cfg n hwf he
    have hm := (mem_dbOps (e := .dbAdd r) rfl).mpr hmem
    generalize hd : dbOps n.effects = d at hdb hm
    cases hdb with
    | none => cases hm
    | update i env k es out r0 r1 hu => rw [List.mem_singleton] at hm; cases hm
    | delete i env r' h hv => rw [List.mem_singleton] at hm; cases hm
    | add ty i' env' r' ha =>
      rw [List.mem_singleton] at hm
      cases hm
      obtain ⟨pub, hsub⟩ := ha.submits
      obtain ⟨secret, hs⟩ := ha.state
      have hid : idFor C n.pre.idKey r.cert.name = r.requestId := by rw [hs]; rfl
      obtain ⟨m, hm, hr⟩ := ha.event
      cases m with
      | probe j => cases hr
      | challenge j => cases hr
      | new j => cases hr; exact .inr (.inl ⟨i', env', pub, r.cert, hm, hsub, hid⟩)
      | revoke j => cases hr; exact .inr (.inr ⟨i', env', pub, r.cert, hm, hsub, hid⟩)

/-- what happens to a request in a step depends only on the storage operations and on what was stored for it -/
theorem step_det (hC : C.Lawful) (hS : ExactStore C S Inv) (hcfg : NameFits cfg.profile.caPrefix) {n n' : Step σ}
    (hi : Inv n.pre.store) (hi' : Inv n'.pre.store) (hwf : n.event.Wf cfg) (hwf' : n'.event.Wf cfg)
    (he : n.effects = (n.event.run C S cfg n.pre).1) (he' : n'.effects = (n'.event.run C S cfg n'.pre).1)
    (heff : n.effects = n'.effects) (id : RequestId) (hv : S.view n.pre.store id = S.view n'.pre.store id) :
    S.view (n.afterStore S) id = S.view (n'.afterStore S) id := by
  obtain ⟨_, v1⟩ := step_view hC hS.toLawfulStore hcfg hi hwf he
  obtain ⟨_, v2⟩ := step_view hC hS.toLawfulStore hcfg hi' hwf' he'
  have hupd : ∀ {m : Step σ} (_ : Inv m.pre.store) {i env k es out r0 r1} (_ : dbOps m.effects = [.dbUpdate r1])
      (_ : UpdatedBy C S cfg m i env k es out r0 r1) (_ : S.view m.pre.store r1.requestId = some r0),
      ∃ st', S.update m.pre.store r1 = .ok st' ∧ m.afterStore S = st' ∧ Storable C r1 ∧ SameRequest r0 r1 := by
    intro m hi i env k es out r0 r1 hd hu h0
    obtain ⟨div, ho, hmc⟩ := hu.module
    obtain ⟨payload, henc⟩ := hu.encode
    have hsame := sameRequest_challenge hmc hu.status henc
    have hstor := storable_challenge (hS.get_storable _ _ _ hi h0) hmc hu.status henc
    obtain ⟨st', r', h1, _⟩ := hS.update_present _ r1 r0 hi hstor h0 hsame
    refine ⟨st', h1, ?_, hstor, hsame⟩
    unfold Step.afterStore
    rw [applyEffects_dbOps, hd]
    simp [applyEffects, applyEffect, h1]
  cases v1 with
  | same h0 h =>
    rw [heff] at h0
    cases v2 with
    | same h0' h' => rw [h, h', hv]
    | added ty i env r hd => rw [h0] at hd; cases hd
    | updated i env k es out r0 r1 r hd => rw [h0] at hd; cases hd
    | deleted i env r hd => rw [h0] at hd; cases hd
  | added ty i env r hd1 ha h0 h =>
    rw [heff] at hd1
    cases v2 with
    | same h0' h' => rw [hd1] at h0'; cases h0'
    | added ty' i' env' r' hd2 ha' h0' h' => rw [hd1] at hd2; cases hd2; rw [h, h', hv]
    | updated i env k es out r0 r1 r hd => rw [hd1] at hd; cases hd
    | deleted i env r hd => rw [hd1] at hd; cases hd
  | updated i env k es out r0 r1 r hd1 hu h0 hs h =>
    obtain ⟨st1, a1, a2, a3, a4⟩ := hupd hi hd1 hu h0
    rw [heff] at hd1
    cases v2 with
    | same h0' h' => rw [hd1] at h0'; cases h0'
    | added ty i env r hd => rw [hd1] at hd; cases hd
    | deleted i env r hd => rw [hd1] at hd; cases hd
    | updated i' env' k' es' out' r0' r1' r' hd2 hu' h0' hs' h' =>
      have hd2' := hd2
      rw [hd1] at hd2'
      cases hd2'
      obtain ⟨st2, b1, b2, b3, b4⟩ := hupd hi' hd2 hu' h0'
      by_cases hid : id = r1.requestId
      · obtain ⟨f, g, hex⟩ := hS.update_exact
        have e1 := hex _ _ _ _ hi a3 h0 a4 a1
        have e2 := hex _ _ _ _ hi' b3 h0' b4 b1
        rw [hid, a2, b2, e1, e2]
      · rw [h, h', if_neg hid, if_neg hid, hv]
  | deleted i env r hd1 hm1 hv1 h0 h =>
    rw [heff] at hd1
    cases v2 with
    | same h0' h' => rw [hd1] at h0'; cases h0'
    | added ty i env r hd => rw [hd1] at hd; cases hd
    | updated i env k es out r0 r1 r hd => rw [hd1] at hd; cases hd
    | deleted i' env' r' hd2 hm2 hv2 h0' h' =>
      rw [hd1] at hd2
      have hid : r.requestId = r'.requestId := by
        injection hd2 with a
        injection a
      rw [h, h', hid, hv]

/-- an Interest about a request is handled the same in two states with the same entry for it -/
theorem handle_local (hC : C.Lawful) (hS : LawfulStore C S Inv) (hcfg : NameFits cfg.profile.caPrefix) {s s' : CaState σ}
    (hi : Inv s.store) (hi' : Inv s'.store) (hk : s.idKey = s'.idKey) {id : RequestId} (hv : S.view s.store id = S.view s'.store id)
    {m : Msg} {env : Env} (hm : m.Wf cfg) (he : env.Wf)
    (hc : match m with
      | .probe _ => True
      | .challenge i => Names cfg env i id
      | .new i => ∀ pub cert, Submits C .new i pub cert → idFor C s.idKey cert.name = id
      | .revoke i => ∀ pub cert, Submits C .revoke i pub cert → idFor C s.idKey cert.name = id) :
    handle C S cfg s m env = handle C S cfg s' m env := by
  have hn : ∀ ty i, (∀ pub cert, Submits C ty i pub cert → idFor C s.idKey cert.name = id) →
      onNewRenewRevoke C S cfg s.idKey s.store ty i env = onNewRenewRevoke C S cfg s'.idKey s'.store ty i env := by
    intro ty i hid
    have hacc : ∀ pub cert secret, requestParamsDecode C i.params ty = .ok (pub, cert) →
        acceptRequest C S cfg s.idKey s.store ty i env cert secret = acceptRequest C S cfg s'.idKey s'.store ty i env cert secret := by
      intro pub cert secret hd
      have hst : Storable C (newRequestState C cfg s.idKey ty cert secret env.salt) := newRequestState_storable hC hcfg hd _ _ _
      have hrid : (newRequestState C cfg s.idKey ty cert secret env.salt).requestId = id := hid pub cert hd
      unfold acceptRequest
      rw [← hk]
      dsimp only
      cases hx : S.view s.store id with
      | none =>
        obtain ⟨_, _, h1, _⟩ := hS.add_absent _ _ hi hst (by rw [hrid]; exact hx)
        obtain ⟨_, _, h2, _⟩ := hS.add_absent _ _ hi' hst (by rw [hrid, ← hv]; exact hx)
        rw [h1, h2]
      | some r =>
        obtain ⟨_, h1⟩ := hS.add_present _ (newRequestState C cfg s.idKey ty cert secret env.salt) hi (by rw [hrid, hx]; simp)
        obtain ⟨_, h2⟩ := hS.add_present _ (newRequestState C cfg s.idKey ty cert secret env.salt) hi' (by rw [hrid, ← hv, hx]; simp)
        rw [h1, h2]
    unfold onNewRenewRevoke
    cases hd : requestParamsDecode C i.params ty with
    | ub u => rfl
    | exc e => rfl
    | ok x =>
      obtain ⟨pub, cert⟩ := x
      simp only [hacc pub cert _ hd]
  cases m with
  | probe i => rfl
  | new i => exact hn .new i hc
  | revoke i => exact hn .revoke i hc
  | challenge i =>
    have hg : getCertificateRequest S cfg s.store i env = getCertificateRequest S cfg s'.store i env := by
      rcases lookup_cases (cfg := cfg) (i := i) hS hi (idFits_of_wf hm) he.stack with ⟨h1, h2⟩ | ⟨r, h1, h2, h3⟩
      · rcases lookup_cases (cfg := cfg) (i := i) hS hi' (idFits_of_wf hm) he.stack with ⟨h1', h2'⟩ | ⟨r', h1', h2', h3'⟩
        · rw [h1, h1']
        · have e : r'.requestId = id := h3'.unique hc
          have h0 := h2 id hc
          rw [e, ← hv, h0] at h2'
          cases h2'
      · have e : r.requestId = id := h3.unique hc
        rcases lookup_cases (cfg := cfg) (i := i) hS hi' (idFits_of_wf hm) he.stack with ⟨h1', h2'⟩ | ⟨r', h1', h2', h3'⟩
        · have h0 := h2' id hc
          rw [e, hv, h0] at h2
          cases h2
        · have e' : r'.requestId = id := h3'.unique hc
          rw [e, hv] at h2
          rw [e', h2] at h2'
          cases h2'
          rw [h1, h1']
    show onChallenge C S cfg s.store i env = onChallenge C S cfg s'.store i env
    unfold onChallenge
    rw [hg]

/-- without a message a step concerns nothing -/
theorem not_concerns {n : Step σ} (h : n.event.msg? = none) {id : RequestId} : ¬ Concerns C cfg id n := by
  unfold Concerns Step.Handles
  rw [h]
  rintro (⟨_, _, h, _⟩ | ⟨_, _, _, _, h, _⟩ | ⟨_, _, _, _, h, _⟩) <;> cases h

/-- a step that concerns the request is handled the same in a state with the same key and entry -/
theorem handle_concerns (hC : C.Lawful) (hS : LawfulStore C S Inv) (hcfg : NameFits cfg.profile.caPrefix) {n : Step σ} {s' : CaState σ}
    (hi : Inv n.pre.store) (hi' : Inv s'.store) (hk : n.pre.idKey = s'.idKey) {id : RequestId}
    (hv : S.view n.pre.store id = S.view s'.store id) {m : Msg} {env : Env} (hm : n.event.msg? = some (m, env)) (hwf : n.event.Wf cfg)
    (hc : Concerns C cfg id n) : handle C S cfg n.pre m env = handle C S cfg s' m env := by
  obtain ⟨w1, w2⟩ := hwf _ _ hm
  refine handle_local hC hS hcfg hi hi' hk hv w1 w2 ?_
  unfold Concerns Step.Handles at hc
  rw [hm] at hc
  rcases hc with ⟨i, env', h1, h2⟩ | ⟨i, env', pub, cert, h1, h2, h3⟩ | ⟨i, env', pub, cert, h1, h2, h3⟩
  · cases h1; exact h2
  · cases h1; intro pub' cert' h; rw [← (submits_unique h h2).2]; exact h3
  · cases h1; intro pub' cert' h; rw [← (submits_unique h h2).2]; exact h3

theorem exec_inv (hC : C.Lawful) (hS : LawfulStore C S Inv) (hcfg : NameFits cfg.profile.caPrefix) {h : List (Step σ)} {s : CaState σ}
    (hx : Exec C S cfg h s) : Inv s.store := by
  induction hx with
  | init k => exact hS.empty_inv
  | step e prev wf possible ih =>
    rename_i h s
    obtain ⟨hi, _⟩ := step_view (n := ⟨s, e, (e.run C S cfg s).1⟩) hC hS hcfg ih wf rfl
    rcases run_store C S cfg s e with h1 | h1
    · rw [h1]; exact hi
    · rw [h1]; exact hS.reopen_inv _ hi

theorem leftWith_append (K : Step σ → Prop) (h1 h2 : List (Step σ)) : leftWith K (h1 ++ h2) = leftWith K h1 ++ leftWith K h2 := by
  unfold leftWith
  rw [List.filterMap_append]

theorem leftWith_drop {K : Step σ → Prop} {n : Step σ} (hK : ¬ K n) : leftWith K [n] = match n.event with
    | .msg _ _ => []
    | .crash _ _ _ newKey => [(.restart newKey, [])]
    | .restart newKey => [(.restart newKey, [])] := by
  unfold leftWith
  rw [List.filterMap_cons, if_neg hK]
  cases n.event <;> rfl

/-- one can leave out the messages of others -/
theorem leave_out (hC : C.Lawful) (hS : ExactStore C S Inv) (hcfg : NameFits cfg.profile.caPrefix) (id : RequestId) (K : Step σ → Prop)
    {h : List (Step σ)} {s : CaState σ} (hx : Exec C S cfg h s) (h1 : ∀ n ∈ h, OwnStep C S cfg id n → K n)
    (h2 : ∀ n ∈ h, K n → Concerns C cfg id n) :
    ∃ h' s', Exec C S cfg h' s' ∧ h'.map (fun n => (n.event, n.effects)) = leftWith K h ∧ s'.idKey = s.idKey ∧
      S.view s'.store id = S.view s.store id := by
  induction hx with
  | init k => exact ⟨[], _, .init k, rfl, rfl, rfl⟩
  | @step h s e prev wf possible ih =>
    obtain ⟨h', s', hx', he', hk, hv⟩ := ih (fun n hn => h1 n (List.mem_append_left _ hn)) (fun n hn => h2 n (List.mem_append_left _ hn))
    have hi := exec_inv hC hS.toLawfulStore hcfg prev
    have hi' := exec_inv hC hS.toLawfulStore hcfg hx'
    generalize hn : (⟨s, e, (e.run C S cfg s).1⟩ : Step σ) = n at h1 h2 ⊢
    have hpre : n.pre = s := by rw [← hn]
    have hev : n.event = e := by rw [← hn]
    have hef : n.effects = (e.run C S cfg s).1 := by rw [← hn]
    have g1 := h1 n (by simp)
    have g2 := h2 n (by simp)
    have hwf : n.event.Wf cfg := by rw [hev]; exact wf
    have hrun : n.effects = (n.event.run C S cfg n.pre).1 := by rw [hef, hev, hpre]
    have hin : Inv n.pre.store := by rw [hpre]; exact hi
    obtain ⟨hia, _⟩ := step_view hC hS.toLawfulStore hcfg hin hwf hrun
    have haft : n.afterStore S = applyEffects S s.store (e.run C S cfg s).1 := by unfold Step.afterStore; rw [hpre, hef]
    have hreopen : ∀ st st', Inv st → Inv st' → S.view st id = S.view st' id → S.view (S.reopen st) id = S.view (S.reopen st') id := by
      intro st st' a b hab
      rcases hS.reopen_exact with hr | hr
      · rw [hr _ a, hr _ b, hab]
      · rw [hr _ a, hr _ b]
    rw [leftWith_append]
    by_cases hK : K n
    · have hcon := g2 hK
      -- the same event in the other execution
      have hhandle : ∀ m env, e.msg? = some (m, env) → handle C S cfg s m env = handle C S cfg s' m env := by
        intro m env hm
        have := handle_concerns hC hS.toLawfulStore hcfg hin hi' (by rw [hpre, hk]) (id := id) (by rw [hpre, hv]) (by rw [hev]; exact hm) hwf hcon
        rw [hpre] at this
        exact this
      have heff : (e.run C S cfg s).1 = (e.run C S cfg s').1 := by
        cases e with
        | msg m env => show (handle C S cfg s m env).effects = (handle C S cfg s' m env).effects; rw [hhandle m env rfl]
        | crash m env k nk =>
          show (handle C S cfg s m env).effects.take k = (handle C S cfg s' m env).effects.take k; rw [hhandle m env rfl]
        | restart nk => rfl
      have hposs : e.Possible C S cfg s' := by
        cases e with
        | msg m env => show (handle C S cfg s' m env).term = .done; rw [← hhandle m env rfl]; exact possible
        | crash m env k nk => trivial
        | restart nk => trivial
      refine ⟨h' ++ [⟨s', e, (e.run C S cfg s').1⟩], _, .step e hx' wf hposs, ?_, ?_, ?_⟩
      · rw [List.map_append, he']
        congr 1
        show [(e, (e.run C S cfg s').1)] = _
        unfold leftWith
        rw [List.filterMap_cons, if_pos hK, ← heff, hev, hef]
        rfl
      · cases e with
        | msg m env => exact hk
        | crash m env k nk => rfl
        | restart nk => rfl
      · have hdet := step_det hC hS hcfg (n := n) (n' := ⟨s', e, (e.run C S cfg s').1⟩) hin hi' hwf wf hrun rfl (by rw [hef, heff]) id
          (by rw [hpre, hv])
        have hia' := (step_view (n := ⟨s', e, (e.run C S cfg s').1⟩) hC hS.toLawfulStore hcfg hi' wf rfl).1
        rw [haft] at hdet hia
        cases e with
        | msg m env => exact hdet.symm
        | crash m env k nk => exact (hreopen _ _ hia hia' hdet).symm
        | restart nk => exact (hreopen _ _ hia hia' hdet).symm
    · have hown := step_own hC hS.toLawfulStore hcfg hin hwf hrun id (fun h => hK (g1 h))
      rw [haft, hpre, ← hv] at hown
      rw [haft] at hia
      rw [leftWith_drop hK, hev]
      cases e with
      | msg m env => exact ⟨h', s', hx', by simpa using he', hk, hown.symm⟩
      | crash m env k nk =>
        refine ⟨h' ++ [⟨s', .restart nk, []⟩], ⟨S.reopen s'.store, nk⟩, .step (.restart nk) hx' (by intro m env h; cases h) trivial, ?_, rfl, ?_⟩
        · rw [List.map_append, he']; rfl
        · exact (hreopen _ _ hia hi' hown).symm
      | restart nk =>
        refine ⟨h' ++ [⟨s', .restart nk, []⟩], ⟨S.reopen s'.store, nk⟩, .step (.restart nk) hx' (by intro m env h; cases h) trivial, ?_, rfl, ?_⟩
        · rw [List.map_append, he']; rfl
        · exact (hreopen _ _ hia hi' hown).symm

end Ndncert
