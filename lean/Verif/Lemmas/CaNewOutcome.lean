import Verif.Lemmas.CaNew

namespace Ndncert

variable {σ : Type} (C : Crypto) (S : StoreI σ) (cfg : CaConfig) (idKey : Bytes) (st : σ) (i : Interest) (env : Env)

/-- membership of an addition tells how the handler ended -/
theorem added_case {ty : RequestType} (hty : ty = .new ∨ ty = .revoke) {r : RequestState}
    (h : Effect.dbAdd r ∈ (onNewRenewRevoke C S cfg idKey st ty i env).effects) :
    ∃ pub secret st', Submits C ty i pub r.cert ∧ CaCertValid env ∧ pub ≠ [] ∧
      C.ecdhDerive env.ecdhPriv pub = some secret ∧ NamePolicy cfg.profile r.cert ∧
      (ty = .new → ValidityPolicy cfg.profile r.cert env.now ∧ C.verifyCert r.cert r.cert = true ∧
        C.verifyInterest i r.cert = true) ∧
      (ty = .revoke → C.verifyCert r.cert env.caCert = true) ∧
      r = newRequestState C cfg idKey ty r.cert secret env.salt ∧ S.add st r = .ok st' ∧
      onNewRenewRevoke C S cfg idKey st ty i env = acceptOutcome C cfg i env r := by
  have hc := onNew_cases C S cfg idKey st ty hty i env
  generalize onNewRenewRevoke C S cfg idKey st ty i env = o at h hc
  cases hc with
  | accept pub cert secret st' h1 h2 h3 h4 h5 h6 h7 h8 =>
    simp only [acceptOutcome, List.mem_cons, Effect.dbAdd.injEq, reduceCtorEq, List.not_mem_nil, or_false] at h
    subst h
    exact ⟨pub, secret, st', h1, h2, h3, h4, h5, h6, h7, rfl, h8, rfl⟩
  | error code info _ => simp at h
  | threwCa e _ => simp at h
  | threw pub cert _ _ _ e => simp at h
  | undefined r u _ => simp at h


section
variable {C S cfg idKey st i env} {Inv : σ → Prop}

theorem sub_iff {ty : RequestType} {pub : Bytes} {cert : Cert} (hs : Submits C ty i pub cert) (P : Bytes → Cert → Prop) :
    (∃ pub' cert', Submits C ty i pub' cert' ∧ P pub' cert') ↔ P pub cert := by
  constructor
  · rintro ⟨p, c, h1, h2⟩
    obtain ⟨rfl, rfl⟩ := submits_unique hs h1
    exact h2
  · intro h; exact ⟨pub, cert, hs, h⟩

/-- outcome of the handler in terms of the list of checks -/
theorem new_outcome (hC : C.Lawful) (hS : LawfulStore C S Inv) (hi : Inv st) (hcfg : NameFits cfg.profile.caPrefix)
    {ty : RequestType} (hty : ty = .new ∨ ty = .revoke) (hca : env.caCert.validity ≠ none) :
    ((∀ q ∈ acceptanceChecks C S cfg idKey st ty i env, q.1) ∧
      Accepted (onNewRenewRevoke C S cfg idKey st ty i env)) ∨
    (∃ code info, FirstFailing (acceptanceChecks C S cfg idKey st ty i env) code ∧
      onNewRenewRevoke C S cfg idKey st ty i env =
        { effects := [.put (errorData C cfg.profile.caPrefix i.name code info)], term := .done }) ∨
    (ty = .new ∧ (∃ pub cert, Submits C ty i pub cert ∧ cert.validity = none) ∧
      (∃ q ∈ acceptanceChecks C S cfg idKey st ty i env, ¬ q.1) ∧
      (onNewRenewRevoke C S cfg idKey st ty i env).effects = []) := by
  unfold onNewRenewRevoke
  obtain ⟨v, hv⟩ : ∃ v, env.caCert.validity = some v := by
    cases h : env.caCert.validity with
    | none => exact absurd h hca
    | some v => exact ⟨v, rfl⟩
  have hcv : certIsValid env.caCert env.nowCa = .ok (decide (v.1 ≤ env.nowCa ∧ env.nowCa ≤ v.2)) := by
    unfold certIsValid; rw [hv]
  have hce : CaCertValid env ↔ (v.1 ≤ env.nowCa ∧ env.nowCa ≤ v.2) := by
    unfold CaCertValid
    rw [hv]
    constructor
    · rintro ⟨nb, na, h, h2⟩; cases h; exact h2
    · intro h; exact ⟨v.1, v.2, rfl, h⟩
  rw [hcv]
  rcases Classical.em (¬ (v.1 ≤ env.nowCa ∧ env.nowCa ≤ v.2)) with hval | hval
  · right; left
    rw [decide_eq_false hval]
    refine ⟨_, _, ⟨[], _, _, rfl, by simp, by rw [hce]; exact hval⟩, rfl⟩
  replace hval := Classical.not_not.mp hval
  have k1 : CaCertValid env := hce.mpr hval
  rw [decide_eq_true hval]
  dsimp only
  cases hd : requestParamsDecode C i.params ty with
  | ub u => exact absurd hd (requestParamsDecode_no_ub C _ _ u)
  | exc e =>
    right; left
    refine ⟨_, _, ⟨[_], _, _, rfl, ?_, ?_⟩, rfl⟩
    · intro q hq; simp only [List.mem_singleton] at hq; subst hq; exact k1
    · rintro ⟨p, c, h⟩; unfold Submits at h; rw [hd] at h; cases h
  | ok pc =>
    obtain ⟨pub, cert⟩ := pc
    have hs : Submits C ty i pub cert := hd
    have k2 : ∃ pub cert, Submits C ty i pub cert := ⟨_, _, hs⟩
    obtain ⟨d, hdf, hdd⟩ := submits_decode hs
    have hvn := hC.decode_name d cert hdd
    dsimp only
    split
    · rename_i hp
      right; left
      refine ⟨_, _, ⟨[_, _], _, _, rfl, ?_, ?_⟩, rfl⟩
      · intro q hq
        simp only [List.mem_cons, List.not_mem_nil, or_false] at hq
        rcases hq with rfl | rfl
        · exact k1
        · exact k2
      · rw [sub_iff hs (fun p _ => p ≠ [])]; exact fun h => h hp
    rename_i hp
    have k3 : ∃ pub cert, Submits C ty i pub cert ∧ pub ≠ [] := ⟨_, _, hs, hp⟩
    cases hsec : C.ecdhDerive env.ecdhPriv pub with
    | none =>
      right; left
      refine ⟨_, _, ⟨[_, _, _], _, _, rfl, ?_, ?_⟩, rfl⟩
      · intro q hq
        simp only [List.mem_cons, List.not_mem_nil, or_false] at hq
        rcases hq with rfl | rfl | rfl
        · exact k1
        · exact k2
        · exact k3
      · rw [sub_iff hs (fun p _ => C.ecdhDerive env.ecdhPriv p ≠ none)]; exact fun h => h hsec
    | some secret =>
      have k4 : ∃ pub cert, Submits C ty i pub cert ∧ C.ecdhDerive env.ecdhPriv pub ≠ none :=
        ⟨_, _, hs, by rw [hsec]; simp⟩
      dsimp only
      cases hn : nameRejected cfg.profile cert with
      | true =>
        right; left
        refine ⟨_, _, ⟨[_, _, _, _], _, _, rfl, ?_, ?_⟩, by rw [if_pos rfl]; rfl⟩
        · intro q hq
          simp only [List.mem_cons, List.not_mem_nil, or_false] at hq
          rcases hq with rfl | rfl | rfl | rfl
          · exact k1
          · exact k2
          · exact k3
          · exact k4
        · rw [sub_iff hs (fun _ c => NamePolicy cfg.profile c), ← nameRejected_iff, hn]
          simp
      | false =>
        have k5 : ∃ pub cert, Submits C ty i pub cert ∧ NamePolicy cfg.profile cert :=
          ⟨_, _, hs, (nameRejected_iff).mp hn⟩
        rw [if_neg (by simp)]
        have hstor := newRequestState_storable hC hcfg hs idKey secret env.salt
        have hrid : (newRequestState C cfg idKey ty cert secret env.salt).requestId = requestIdOf C idKey cert.name := rfl
        -- the last check, common to both types
        have last : ∀ mid : List (Prop × ErrorCode),
            acceptanceChecks C S cfg idKey st ty i env =
              [ (CaCertValid env, ErrorCode.BAD_VALIDITY_PERIOD),
                (∃ pub cert, Submits C ty i pub cert, ErrorCode.INVALID_PARAMETER),
                (∃ pub cert, Submits C ty i pub cert ∧ pub ≠ [], ErrorCode.INVALID_PARAMETER),
                (∃ pub cert, Submits C ty i pub cert ∧ C.ecdhDerive env.ecdhPriv pub ≠ none, ErrorCode.INVALID_PARAMETER),
                (∃ pub cert, Submits C ty i pub cert ∧ NamePolicy cfg.profile cert, ErrorCode.NAME_NOT_ALLOWED)] ++ mid ++
              [(∃ pub cert, Submits C ty i pub cert ∧ S.view st (requestIdOf C idKey cert.name) = none,
                ErrorCode.INVALID_PARAMETER)] → (∀ q ∈ mid, q.1) →
            ((∀ q ∈ acceptanceChecks C S cfg idKey st ty i env, q.1) ∧
              Accepted (acceptRequest C S cfg idKey st ty i env cert secret)) ∨
            (∃ code info, FirstFailing (acceptanceChecks C S cfg idKey st ty i env) code ∧
              acceptRequest C S cfg idKey st ty i env cert secret =
                { effects := [.put (errorData C cfg.profile.caPrefix i.name code info)], term := .done }) := by
          intro mid hmid hq
          have hpre : ∀ q ∈ [ (CaCertValid env, ErrorCode.BAD_VALIDITY_PERIOD),
                (∃ pub cert, Submits C ty i pub cert, ErrorCode.INVALID_PARAMETER),
                (∃ pub cert, Submits C ty i pub cert ∧ pub ≠ [], ErrorCode.INVALID_PARAMETER),
                (∃ pub cert, Submits C ty i pub cert ∧ C.ecdhDerive env.ecdhPriv pub ≠ none, ErrorCode.INVALID_PARAMETER),
                (∃ pub cert, Submits C ty i pub cert ∧ NamePolicy cfg.profile cert, ErrorCode.NAME_NOT_ALLOWED)] ++ mid,
                q.1 := by
            intro q hm
            rcases List.mem_append.mp hm with hm | hm
            · simp only [List.mem_cons, List.not_mem_nil, or_false] at hm
              rcases hm with rfl | rfl | rfl | rfl | rfl
              · exact k1
              · exact k2
              · exact k3
              · exact k4
              · exact k5
            · exact hq q hm
          unfold acceptRequest
          dsimp only
          cases hview : S.view st (requestIdOf C idKey cert.name) with
          | none =>
            obtain ⟨st', _, h1, _⟩ := hS.add_absent st _ hi hstor (by rw [hrid]; exact hview)
            rw [h1]
            left
            refine ⟨?_, ⟨_, List.mem_cons_self ..⟩⟩
            rw [hmid]
            intro q hm
            rcases List.mem_append.mp hm with hm | hm
            · exact hpre q hm
            · simp only [List.mem_singleton] at hm
              subst hm
              exact ⟨_, _, hs, hview⟩
          | some r0 =>
            obtain ⟨e, he⟩ := hS.add_present st (newRequestState C cfg idKey ty cert secret env.salt) hi
              (by rw [hrid, hview]; simp)
            rw [he]
            right
            refine ⟨_, _, ⟨_, _, [], hmid, hpre, ?_⟩, rfl⟩
            rw [sub_iff hs (fun _ c => S.view st (requestIdOf C idKey c.name) = none), hview]
            simp
        rcases hty with rfl | rfl
        · rw [if_pos rfl]
          cases hvv : cert.validity with
          | none =>
            right; right
            refine ⟨rfl, ⟨_, _, hs, hvv⟩, ?_, rfl⟩
            refine ⟨(∃ pub cert, Submits C .new i pub cert ∧ ValidityPolicy cfg.profile cert env.now,
              ErrorCode.BAD_VALIDITY_PERIOD), by simp [acceptanceChecks], ?_⟩
            rw [sub_iff hs (fun _ c => ValidityPolicy cfg.profile c env.now)]
            rintro ⟨nb, na, h, _⟩
            rw [hvv] at h; cases h
          | some vv =>
            dsimp only
            have hvp : ValidityPolicy cfg.profile cert env.now ↔ validityRejected cfg.profile vv.1 vv.2 env.now = false := by
              rw [validityRejected_iff]
              unfold ValidityPolicy
              rw [hvv]
              constructor
              · rintro ⟨nb, na, h, h2⟩; cases h; exact h2
              · intro h; exact ⟨vv.1, vv.2, rfl, h⟩
            cases hvr : validityRejected cfg.profile vv.1 vv.2 env.now with
            | true =>
              right; left
              refine ⟨_, _, ⟨[_, _, _, _, _], _, _, rfl, ?_, ?_⟩, by rw [if_pos rfl]; rfl⟩
              · intro q hm
                simp only [List.mem_cons, List.not_mem_nil, or_false] at hm
                rcases hm with rfl | rfl | rfl | rfl | rfl
                · exact k1
                · exact k2
                · exact k3
                · exact k4
                · exact k5
              · rw [sub_iff hs (fun _ c => ValidityPolicy cfg.profile c env.now), hvp, hvr]; simp
            | false =>
              have k6 : ∃ pub cert, Submits C .new i pub cert ∧ ValidityPolicy cfg.profile cert env.now :=
                ⟨_, _, hs, hvp.mpr hvr⟩
              rw [if_neg (by simp)]
              cases hself : C.verifyCert cert cert with
              | false =>
                right; left
                refine ⟨_, _, ⟨[_, _, _, _, _, _], _, _, rfl, ?_, ?_⟩, by rw [if_pos rfl]; rfl⟩
                · intro q hm
                  simp only [List.mem_cons, List.not_mem_nil, or_false] at hm
                  rcases hm with rfl | rfl | rfl | rfl | rfl | rfl
                  · exact k1
                  · exact k2
                  · exact k3
                  · exact k4
                  · exact k5
                  · exact k6
                · rw [sub_iff hs (fun _ c => C.verifyCert c c = true), hself]; simp
              | true =>
                have k7 : ∃ pub cert, Submits C .new i pub cert ∧ C.verifyCert cert cert = true := ⟨_, _, hs, hself⟩
                rw [if_neg (by simp)]
                cases hint : C.verifyInterest i cert with
                | false =>
                  right; left
                  refine ⟨_, _, ⟨[_, _, _, _, _, _, _], _, _, rfl, ?_, ?_⟩, by rw [if_pos rfl]; rfl⟩
                  · intro q hm
                    simp only [List.mem_cons, List.not_mem_nil, or_false] at hm
                    rcases hm with rfl | rfl | rfl | rfl | rfl | rfl | rfl
                    · exact k1
                    · exact k2
                    · exact k3
                    · exact k4
                    · exact k5
                    · exact k6
                    · exact k7
                  · rw [sub_iff hs (fun _ c => C.verifyInterest i c = true), hint]; simp
                | true =>
                  have k8 : ∃ pub cert, Submits C .new i pub cert ∧ C.verifyInterest i cert = true := ⟨_, _, hs, hint⟩
                  rw [if_neg (by simp)]
                  rcases last _ rfl (by
                    intro q hm
                    simp only [List.mem_cons, List.not_mem_nil, or_false] at hm
                    rcases hm with rfl | rfl | rfl
                    · exact k6
                    · exact k7
                    · exact k8) with h | h
                  · exact .inl h
                  · exact .inr (.inl h)
        · rw [if_neg (by simp), if_pos rfl]
          cases hself : C.verifyCert cert env.caCert with
          | false =>
            right; left
            refine ⟨_, _, ⟨[_, _, _, _, _], _, _, rfl, ?_, ?_⟩, by rw [if_pos rfl]; rfl⟩
            · intro q hm
              simp only [List.mem_cons, List.not_mem_nil, or_false] at hm
              rcases hm with rfl | rfl | rfl | rfl | rfl
              · exact k1
              · exact k2
              · exact k3
              · exact k4
              · exact k5
            · rw [sub_iff hs (fun _ c => C.verifyCert c env.caCert = true), hself]; simp
          | true =>
            have k6 : ∃ pub cert, Submits C .revoke i pub cert ∧ C.verifyCert cert env.caCert = true := ⟨_, _, hs, hself⟩
            rw [if_neg (by simp)]
            rcases last _ rfl (by
              intro q hm
              simp only [List.mem_cons, List.not_mem_nil, or_false] at hm
              rcases hm with rfl
              exact k6) with h | h
            · exact .inl h
            · exact .inr (.inl h)

end
end Ndncert
