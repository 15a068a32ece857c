import Verif.Lemmas.CaReply
import Verif.Lemmas.Replay
import Verif.Spec.Told
import Verif.Props.Resent

/-! # No request is lost in silence (C145) -/

namespace Ndncert.Props

section
variable {σ : Type} {C : Crypto} {S : StoreI σ} {Inv : σ → Prop} {cfg : CaConfig}

theorem sent_append (a b : List Effect) : sent (a ++ b) = sent a ++ sent b := by
  induction a with
  | nil => rfl
  | cons e a ih => cases e <;> simp [sent, ih]

/-- a step that removes a request tells so -/
theorem ends_told (hC : C.Lawful) (hS : LawfulStore C S Inv) (hcfg : NameFits cfg.profile.caPrefix) {n : Step σ} (hi : Inv n.pre.store)
    (wf : n.event.Wf cfg) (hp : n.event.Possible C S cfg n.pre) (he : n.effects = (n.event.run C S cfg n.pre).1) {i : Interest} {env : Env}
    {r : RequestState} (hh : n.Handles (.challenge i) env) (ha : Authentic C S cfg n.pre.store i env r)
    (hd : dbOps n.effects = [.dbDelete r.requestId]) (hv : S.view (n.afterStore S) r.requestId = none) : EndsTold C S cfg n i env r := by
  refine ⟨hh, ha, (mem_dbOps (e := .dbDelete r.requestId) rfl).mp (by rw [hd]; exact List.mem_cons_self), ?_⟩
  obtain ⟨hmw, hew⟩ := wf _ _ hh
  obtain ⟨k, hk⟩ := handles_effects (C := C) (S := S) (cfg := cfg) he hh
  cases hsent : sent n.effects with
  | nil =>
    left
    refine ⟨?_, rfl⟩
    obtain ⟨pre, event, effects⟩ := n
    cases event with
    | msg m env' =>
      exfalso
      have hsame : some (m, env') = some (Msg.challenge i, env) := hh
      cases hsame
      have he : effects = (handle C S cfg pre (.challenge i) env).effects := he
      have hp : (handle C S cfg pre (.challenge i) env).term = .done := hp
      have hsent : sent effects = [] := hsent
      rcases C42_callback C S cfg env pre (.challenge i) with ⟨_, h2⟩ | ⟨p, d, r', _, h2, _⟩
      · rcases h2 hp with ⟨_, h3⟩ | ⟨_, d, _, h3⟩
        · cases h3
        · rw [he, h3] at hsent; cases hsent
      · rw [he, h2, sent_append] at hsent
        simp [sent] at hsent
    | crash => rfl
    | restart => rfl
  | cons d ds =>
    right
    refine ⟨d, List.mem_cons_self, ?_⟩
    have hd' : d ∈ sent ((onChallenge C S cfg n.pre.store i env).effects.take k) := by
      rw [← hk, hsent]; exact List.mem_cons_self
    unfold Step.afterStore at hv
    rcases reply_facts hC hS hcfg hi hmw hew ha hd' with ⟨h, _⟩ | ⟨_, h, _⟩ | ⟨_, r', _, h, _⟩
    · exact .inl h
    · exact .inr h
    · rw [← hk, hv] at h; cases h

/-- the certificate in a stored request is not changed by an update -/
theorem updated_cert {n : Step σ} {i : Interest} {env : Env} {k : ChalKind} {es : List Block} {out : ChalOut} {ra rb rc : RequestState}
    (hu : UpdatedBy C S cfg n i env k es out ra rb) (hs : SameStored rb rc) : rc.cert = ra.cert := by
  obtain ⟨div, _, hmc⟩ := hu.module
  obtain ⟨payload, henc⟩ := hu.encode
  obtain ⟨_, iv, _, hr2, _⟩ := challengeEncode_ok henc
  rw [← hs.fields.2.2.2.1, hr2]
  cases hmc <;> rfl

theorem told_or_pending (hC : C.Lawful) (hS : LawfulStore C S Inv) (hper : ∀ st, S.reopen st = st) (hcfg : NameFits cfg.profile.caPrefix)
    {h : List (Step σ)} {s : CaState σ} (hx : Exec C S cfg h s) {h1 h2 : List (Step σ)} {n0 : Step σ} (hh : h = h1 ++ n0 :: h2)
    {r : RequestState} (hr : S.view n0.pre.store r.requestId = some r) :
    (∃ r', S.view s.store r.requestId = some r' ∧ r'.cert = r.cert) ∨
    ∃ ha n hb i env r', n0 :: h2 = ha ++ n :: hb ∧ r'.requestId = r.requestId ∧ r'.cert = r.cert ∧ EndsTold C S cfg n i env r' := by
  induction hx generalizing h2 with
  | init idKey => simp at hh
  | @step h s e prev wf possible ih =>
    have hi := (prev.life hC hS hcfg).1
    generalize hx : (⟨s, e, (e.run C S cfg s).1⟩ : Step σ) = x at hh
    have hpre : x.pre = s := by rw [← hx]
    have hev : x.event = e := by rw [← hx]
    have he : x.effects = (x.event.run C S cfg x.pre).1 := by rw [← hx]
    rw [← hev] at wf possible ⊢
    rw [← hpre] at hi possible ⊢
    obtain ⟨hinv, hvc⟩ := step_view hC hS hcfg hi wf he
    have hview : (x.event.run C S cfg x.pre).2.store = x.afterStore S := by
      unfold Step.afterStore
      rw [he]
      rcases run_store C S cfg x.pre x.event with h | h
      · exact h
      · rw [h, hper]
    rw [hview]
    have hbefore : (∃ ha, n0 :: h2 = ha ++ [x]) ∧ ((∃ r', S.view x.pre.store r.requestId = some r' ∧ r'.cert = r.cert) ∨
        ∃ ha n hb i env r', n0 :: h2 = ha ++ n :: hb ∧ r'.requestId = r.requestId ∧ r'.cert = r.cert ∧ EndsTold C S cfg n i env r') := by
      rcases List.eq_nil_or_concat h2 with rfl | ⟨h2', y, rfl⟩
      · have hxn : x = n0 := (List.append_inj_right' hh rfl |> List.cons.inj).1
        exact ⟨⟨[], by rw [hxn]; rfl⟩, .inl ⟨r, by rw [hxn]; exact hr, rfl⟩⟩
      · have hh' : h ++ [x] = (h1 ++ n0 :: h2') ++ [y] := by rw [hh]; simp
        obtain ⟨ha, hb⟩ := List.append_inj' hh' rfl
        have hxy : x = y := (List.cons.inj hb).1
        refine ⟨⟨n0 :: h2', by rw [hxy]; simp⟩, ?_⟩
        rcases ih ha with h3 | ⟨p, n, q, i, env, r', h3, h4⟩
        · left; rw [hpre]; exact h3
        · right
          exact ⟨p, n, q ++ [y], i, env, r', by rw [List.concat_eq_append, ← List.cons_append, h3]; simp, h4⟩
    obtain ⟨⟨p, hp⟩, ⟨r', h3, h4⟩ | h3⟩ := hbefore
    · have hid := hS.get_id _ _ _ hi h3
      cases hvc with
      | same h0 hsame => exact .inl ⟨r', by rw [hsame]; exact h3, h4⟩
      | deleted i env r'' hd' hmsg hv h0 hvw =>
        by_cases heq : r.requestId = r''.requestId
        · right
          have hr'' : r' = r'' := by rw [heq, h0] at h3; exact (Option.some.inj h3).symm
          subst hr''
          have hau := (verified_authentic hS hi (idFits_of_wf (wf _ _ hmsg).1) (wf _ _ hmsg).2.stack).mp hv
          exact ⟨p, x, [], i, env, r', hp, hid, h4, ends_told hC hS hcfg hi wf possible he hmsg hau hd' (by rw [hvw, if_pos rfl])⟩
        · exact .inl ⟨r', by rw [hvw, if_neg heq]; exact h3, h4⟩
      | added ty i env r0 hd ha h0 hvw =>
        by_cases heq : r.requestId = r0.requestId
        · rw [← heq, h3] at h0; cases h0
        · exact .inl ⟨r', by rw [hvw, if_neg heq]; exact h3, h4⟩
      | updated i env k es out r0 r1 rx hd hu h0 hs hvw =>
        by_cases heq : r.requestId = r1.requestId
        · rw [← heq, h3] at h0
          cases h0
          exact .inl ⟨rx, by rw [hvw, if_pos heq], by rw [updated_cert hu hs, h4]⟩
        · exact .inl ⟨r', by rw [hvw, if_neg heq]; exact h3, h4⟩
    · exact .inr h3

/-- C145: with a storage that survives restarts, when a request was pending before some step and no longer is, there was a step in between that
removed it, in which a CHALLENGE signed with the key of the request was answered with an error or with success, or in which the process died
before it could reply. -/
theorem C145_told (hC : C.Lawful) (hS : LawfulStore C S Inv) (hper : ∀ st, S.reopen st = st) (hcfg : NameFits cfg.profile.caPrefix)
    {h : List (Step σ)} {s : CaState σ} (hx : Exec C S cfg h s) {h1 h2 : List (Step σ)} {n0 : Step σ} (hh : h = h1 ++ n0 :: h2)
    {r : RequestState} (hr : S.view n0.pre.store r.requestId = some r) (hgone : S.view s.store r.requestId = none) :
    ∃ ha n hb i env r', n0 :: h2 = ha ++ n :: hb ∧ r'.requestId = r.requestId ∧ r'.cert = r.cert ∧ EndsTold C S cfg n i env r' := by
  rcases told_or_pending hC hS hper hcfg hx hh hr with ⟨r', h3, _⟩ | h3
  · rw [hgone] at h3; cases h3
  · exact h3

/-- C145 for the SQLite storage -/
theorem C145_told_sqlite (hC : C.Lawful) (hcfg : NameFits cfg.profile.caPrefix) {h : List (Step Db)} {s : CaState Db}
    (hx : Exec C (sqlStore C) cfg h s) {h1 h2 : List (Step Db)} {n0 : Step Db} (hh : h = h1 ++ n0 :: h2)
    {r : RequestState} (hr : (sqlStore C).view n0.pre.store r.requestId = some r) (hgone : (sqlStore C).view s.store r.requestId = none) :
    ∃ ha n hb i env r', n0 :: h2 = ha ++ n :: hb ∧ r'.requestId = r.requestId ∧ r'.cert = r.cert ∧ EndsTold C (sqlStore C) cfg n i env r' :=
  C145_told hC (sqlStore_lawful C) (fun _ => rfl) hcfg hx hh hr hgone

end

/-! ## The run of the fixtures, on SQLite -/

def exSqlAt (es : List Event) : CaState Db := (runs Fix.C (sqlStore Fix.C) Fix.cfg ⟨(sqlStore Fix.C).empty, Fix.idKey⟩ es).2

/-- after NEW the request is pending, after the right code it is gone -/
example : runsOk Fix.C (sqlStore Fix.C) Fix.cfg ⟨(sqlStore Fix.C).empty, Fix.idKey⟩ Fix.pinRun = true ∧
    (sqlStore Fix.C).view (exSqlAt [Fix.ev1]).store (Fix.stored Fix.st1).requestId = some (Fix.stored Fix.st1) ∧
    (sqlStore Fix.C).view (exSqlAt Fix.pinRun).store (Fix.stored Fix.st1).requestId = none :=
  ⟨by decide +kernel, by decide +kernel, by decide +kernel⟩

end Ndncert.Props
