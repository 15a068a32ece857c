import Verif.Lemmas.Shared
import Verif.Spec.Shared
import Verif.Lemmas.Sqlite

/-! # Several CAs on one database: C108 -/

namespace Ndncert.Props

section
variable {σ : Type} {C : Crypto} {S : StoreI σ} {Inv : σ → Prop}

/-! ## C108 -/

/-- C108 as far as it is true: whichever CAs worked on the database, with whatever configurations, a certificate that one of them (`n`) issues
is for a request that was accepted before, by one of them (`m`), under the policy that one had then; since then the request was neither
removed nor replaced, its challenge was started (by `m2`), and the CHALLENGE that `n` processed is signed with the key of the request,
decrypts under the request's secret and answers that challenge; the certificate is the submitted one, reissued by `n`.
Missing: the policy of `n` itself (`C108_false`). -/
theorem C108_accepted_before_partial (hC : C.Lawful) (hS : LawfulStore C S Inv) {h : List (Served σ)} {st : σ} (hx : SharedExec C S h st)
    {h1 h2 : List (Served σ)} {n : Served σ} (hh : h = h1 ++ n :: h2) {c : Cert} (hc : .issue c ∈ n.step.effects) :
    ∃ ha m hb1 m2 hb2 i0 env0 r0 i2 env2 r2 k i env r es k', h1 = ha ++ m :: (hb1 ++ m2 :: hb2) ∧
      AcceptsNew m.step i0 env0 r0 ∧ NewPolicy C m.cfg i0 env0 r0.cert ∧
      StartsChallenge C S m2.cfg m2.step i2 env2 r2 k ∧ r2.requestId = r0.requestId ∧ r2.cert = r0.cert ∧
      Kept r0.requestId (steps (hb1 ++ m2 :: hb2)) ∧
      Challenges C S n.cfg n.step i env r es k' ∧ r.requestId = r0.requestId ∧ r.cert = r0.cert ∧ Answered C env2 k es ∧
      Reissues C n.cfg env.version r0.cert c := by
  obtain ⟨i, env, r, es, k', ha, m, hb1, m2, hb2, i0, env0, r0, i2, env2, r2, k, h1, h2, h3, h4, h5, h6, h7, h8, h9, h10, h11⟩ :=
    shared_issued_by hC hS hx hh hc
  refine ⟨ha, m, hb1, m2, hb2, i0, env0, r0, i2, env2, r2, k, i, env, r, es, k', h2, h3, h4, h7, h8.trans h5.1.symm, ?_, ?_, h1, h5.1.symm, ?_, h10, ?_⟩
  · rw [h9, h5.2.2.2.1]
  · rw [h5.1]; exact h6
  · exact h5.2.2.2.1.symm
  · rw [h5.2.2.2.1]; exact h11

/-- C108, for one CA: if all that worked on the database before had the prefix of the issuing CA and did not admit longer names than it
does, then the certificates it issues are for identities its own configuration admits. -/
theorem C108_same_prefix_partial (hC : C.Lawful) (hS : LawfulStore C S Inv) {h : List (Served σ)} {st : σ} (hx : SharedExec C S h st)
    {h1 h2 : List (Served σ)} {n : Served σ} (hh : h = h1 ++ n :: h2)
    (hp : ∀ m ∈ h1, m.cfg.profile.caPrefix = n.cfg.profile.caPrefix)
    (hl : ∀ m ∈ h1, ∀ k, n.cfg.profile.maxSuffixLength = some k → ∃ j, m.cfg.profile.maxSuffixLength = some j ∧ j ≤ k)
    {c : Cert} (hc : .issue c ∈ n.step.effects) :
    n.cfg.profile.caPrefix <+: identityOf c.name ∧ n.cfg.profile.caPrefix.length < (identityOf c.name).length ∧
    ∀ k, n.cfg.profile.maxSuffixLength = some k → (identityOf c.name).length ≤ n.cfg.profile.caPrefix.length + k := by
  obtain ⟨i, env, r, es, k', ha, m, hb1, m2, hb2, i0, env0, r0, i2, env2, r2, k, _, h2, _, h4, h5, _, _, _, _, _, h11⟩ :=
    shared_issued_by hC hS hx hh hc
  have hm : m ∈ h1 := by rw [h2]; simp
  obtain ⟨_, g2, g3, g4⟩ := h4.name
  have hcert : r.cert = r0.cert := h5.2.2.2.1.symm
  have hlen := namePolicy_length h4.name
  have hid : identityOf c.name = identityOf r0.cert.name := by
    have e := h11.1
    rw [hcert] at e
    rw [e]
    unfold identityOf keyNameOf
    simp only [List.length_append, List.length_take, List.length_cons, List.length_nil]
    have e1 : min (r0.cert.name.length - 2) r0.cert.name.length + (0 + 1 + 1) - 4 = r0.cert.name.length - 4 := by omega
    rw [e1, List.take_append_of_le_length (by simp; omega), List.take_take]
    congr 1
    omega
  rw [hid, ← hp m hm]
  refine ⟨g2, g3, ?_⟩
  intro k hk
  obtain ⟨j, hj, hjk⟩ := hl m hm k hk
  have := g4 j hj
  omega

/-- C108, count: all CAs on a database together hand out at most as many certificates as they accepted NEW Interests. -/
theorem C108_at_most_one_partial (hC : C.Lawful) (hS : LawfulStore C S Inv) {h : List (Served σ)} {st : σ} (hx : SharedExec C S h st) :
    (handedOut (steps h)).length ≤ ((steps h).filter Step.acceptsNew).length := by
  obtain ⟨l, _, hle⟩ := hx.count hC hS
  show (handedOut (h.map Served.step)).length ≤ _
  unfold steps
  omega

/-- C108, one each: if one of the CAs hands out a certificate and later one of them signs another one for a request with the same id, then
in between one of them accepted a NEW that created this request. -/
theorem C108_one_each_partial (hC : C.Lawful) (hS : LawfulStore C S Inv) {h : List (Served σ)} {st : σ} (hx : SharedExec C S h st)
    {h1 h2 h3 : List (Served σ)} {n n' : Served σ} (hh : h = h1 ++ n :: (h2 ++ n' :: h3)) {c c' : Cert} (hc : .issue c ∈ n.step.effects)
    {d : Data} (hd : .put d ∈ n.step.effects) (hc' : .issue c' ∈ n'.step.effects) :
    ∃ i env r i' env' r', n.step.Handles (.challenge i) env ∧ Authentic C S n.cfg n.step.pre.store i env r ∧
      n'.step.Handles (.challenge i') env' ∧ Authentic C S n'.cfg n'.step.pre.store i' env' r' ∧
      (r.requestId = r'.requestId → ∃ m ∈ h2, ∃ i0 env0 r0, AcceptsNew m.step i0 env0 r0 ∧ r0.requestId = r'.requestId) := by
  obtain ⟨hx1, hwf, hcfg, heff⟩ := hx.split _ _ _ hh
  obtain ⟨i, env, r, post, g1, g2, _, g4, _⟩ := issue_sent heff hc hd
  obtain ⟨hmw, hew⟩ := hwf _ _ g1
  have ha := (verified_authentic hS (hx1.pending hC hS).1 (idFits_of_wf hmw) hew.stack).mp g2
  obtain ⟨i', env', r', es, k', ha', m, hb1, m2, hb2, i0, env0, r0, i2, env2, r2, k, e1, e2, e3, e4, e5, e6, e7, e8, e9, e10, e11⟩ :=
    shared_issued_by hC hS hx (h1 := h1 ++ n :: h2) (h2 := h3) (by rw [hh]; simp) hc'
  refine ⟨i, env, r, i', env', r', g1, ha, e1.handles, e1.authentic, fun hid => ⟨m, ?_, i0, env0, r0, e3, e5.1⟩⟩
  have hne : n ≠ m := by
    rintro rfl
    have := g1.symm.trans e3.1
    cases this
  have hnk : n ∉ hb1 ++ m2 :: hb2 := by
    intro hm
    exact (e6 n.step (List.mem_map_of_mem hm)).1 (by rw [g4, ← hid]; simp)
  rcases List.append_eq_append_iff.mp e2 with ⟨x, q1, q2⟩ | ⟨x, q1, q2⟩
  · -- the history before `n` ends before that NEW
    cases x with
    | nil =>
      rw [List.nil_append] at q2
      exact absurd (List.cons.inj q2).1 hne
    | cons y ys =>
      rw [List.cons_append] at q2
      obtain ⟨rfl, q3⟩ := List.cons.inj q2
      rw [q3]; simp
  · cases x with
    | nil =>
      rw [List.nil_append] at q2
      exact absurd (List.cons.inj q2).1.symm hne
    | cons y ys =>
      rw [List.cons_append] at q2
      obtain ⟨rfl, q3⟩ := List.cons.inj q2
      exact absurd (by rw [q3]; simp) hnk

/-- the executions of one CA are executions of this kind -/
theorem C108_one_ca_partial {cfg : CaConfig} (hcfg : NameFits cfg.profile.caPrefix) {h : List (Step σ)} {s : CaState σ}
    (hx : Exec C S cfg h s) : SharedExec C S (h.map (fun n => ⟨cfg, n⟩)) s.store := by
  induction hx with
  | init idKey => exact .init
  | @step h s e prev wf possible ih =>
    rw [List.map_append]
    exact .step cfg s.idKey e ih wf hcfg possible

end

/-- C108 is false as stated: the CAs /a/b and /a_b of one user share a database file. After NEW at /a/b, the applicant sends the CHALLENGEs to
/a_b, which issues a certificate for /a/b/alice: not below its own prefix. -/
theorem C108_false : ∃ h st, SharedExec Fix.C (sqlStore Fix.C) h st ∧
    (∀ a ∈ h, ∀ b ∈ h, dbFileName a.cfg.profile.caPrefix = dbFileName b.cfg.profile.caPrefix) ∧
    ∃ n ∈ h, ∃ c, .issue c ∈ n.step.effects ∧ ¬ n.cfg.profile.caPrefix <+: identityOf c.name := by
  refine ⟨_, _, sharedExec_of_runs Fix.crossRun_ok, ?_, ?_⟩
  · have h : ∀ m ∈ (sharedRuns Fix.C Fix.Q Fix.Q.empty Fix.crossRun).1, dbFileName m.cfg.profile.caPrefix = bytes! "_a_b.db" := by
      intro m hm
      have : m.cfg ∈ [Fix.cfgOf Fix.caA, Fix.cfgOf Fix.caB, Fix.cfgOf Fix.caB] := List.mem_map.mpr ⟨m, hm, rfl⟩
      simp only [List.mem_cons, List.not_mem_nil, or_false, or_self] at this
      rcases this with h | h <;> rw [h] <;> decide +kernel
    intro a ha b hb
    rw [h a ha, h b hb]
  · have hi : ((sharedRuns Fix.C Fix.Q Fix.Q.empty Fix.crossRun).1.any (fun n =>
        (issued n.step.effects).any (fun c => !n.cfg.profile.caPrefix.isPrefixOf (identityOf c.name)))) = true := by
      decide +kernel
    rw [List.any_eq_true] at hi
    obtain ⟨n, hn, hi⟩ := hi
    rw [List.any_eq_true] at hi
    obtain ⟨c, hc, hf⟩ := hi
    refine ⟨n, hn, c, mem_issued.mp hc, ?_⟩
    intro hp
    rw [List.isPrefixOf_iff_prefix.mpr hp] at hf
    cases hf

/-- C108 is also false for one CA: a request accepted before a restart is still served after it, although the configuration read at the
restart admits no name as long as the one in the certificate. -/
theorem C108_reconfigured_false : ∃ h st, SharedExec Fix.C (sqlStore Fix.C) h st ∧
    (∀ a ∈ h, a.cfg.profile.caPrefix = Fix.ca) ∧
    ∃ n ∈ h, ∃ c, .issue c ∈ n.step.effects ∧ ∃ k, n.cfg.profile.maxSuffixLength = some k ∧
      n.cfg.profile.caPrefix.length + k < (identityOf c.name).length := by
  refine ⟨_, _, sharedExec_of_runs Fix.reconfRun_ok, ?_, ?_⟩
  · intro m hm
    have : m.cfg ∈ [Fix.cfg, Fix.cfg, Fix.stricter, Fix.stricter, Fix.stricter] := List.mem_map.mpr ⟨m, hm, rfl⟩
    simp only [List.mem_cons, List.not_mem_nil, or_false, or_self] at this
    rcases this with h | h | h <;> rw [h] <;> rfl
  · have hi : ((sharedRuns Fix.C Fix.Q Fix.Q.empty Fix.reconfRun).1.any (fun n => (issued n.step.effects).any (fun c =>
        decide (n.cfg.profile.maxSuffixLength = some 0) && decide (n.cfg.profile.caPrefix.length + 0 < (identityOf c.name).length)))) = true := by
      decide +kernel
    rw [List.any_eq_true] at hi
    obtain ⟨n, hn, hi⟩ := hi
    rw [List.any_eq_true] at hi
    obtain ⟨c, hc, hf⟩ := hi
    rw [Bool.and_eq_true] at hf
    exact ⟨n, hn, c, mem_issued.mp hc, 0, of_decide_eq_true hf.1, of_decide_eq_true hf.2⟩

/-- the hypotheses of the partial theorems are met by the history of /a/b and /a_b, in which one NEW is accepted and one certificate handed out -/
example : SharedExec Fix.C Fix.Q (sharedRuns Fix.C Fix.Q Fix.Q.empty Fix.crossRun).1 (sharedRuns Fix.C Fix.Q Fix.Q.empty Fix.crossRun).2 ∧
    (handedOut (steps (sharedRuns Fix.C Fix.Q Fix.Q.empty Fix.crossRun).1)).length = 1 ∧
    ((steps (sharedRuns Fix.C Fix.Q Fix.Q.empty Fix.crossRun).1).filter Step.acceptsNew).length = 1 :=
  ⟨sharedExec_of_runs Fix.crossRun_ok, by decide +kernel, by decide +kernel⟩

/-- and those of `C108_one_each_partial` if all is done twice: two certificates are handed out for the same id, and two NEW were accepted -/
example : SharedExec Fix.C Fix.Q (sharedRuns Fix.C Fix.Q Fix.Q.empty (Fix.crossRun ++ Fix.crossRun)).1 (sharedRuns Fix.C Fix.Q Fix.Q.empty (Fix.crossRun ++ Fix.crossRun)).2 ∧
    (sharedRuns Fix.C Fix.Q Fix.Q.empty (Fix.crossRun ++ Fix.crossRun)).1.map (fun n => ((issued n.step.effects).length, (sent n.step.effects).length)) =
      [(0, 1), (0, 1), (1, 1), (0, 1), (0, 1), (1, 1)] :=
  ⟨sharedExec_of_runs (by decide +kernel), by decide +kernel⟩

/-- and those of `C108_same_prefix_partial` by the run of one CA with the pin challenge -/
example : SharedExec Fix.C Fix.S (Fix.pinHist.map (fun n => ⟨Fix.cfg, n⟩)) (runs Fix.C Fix.S Fix.cfg Fix.st0 Fix.pinRun).2.store ∧
    (issued (Fix.ev4.run Fix.C Fix.S Fix.cfg Fix.st3).1).length = 1 :=
  ⟨C108_one_ca_partial Fix.cfg_fits Fix.pinExec, Fix.pinRun_issues⟩

end Ndncert.Props
