import Verif.Lemmas.Race
import Verif.Lemmas.CaReply

/-! # Processes that run at the same time on one database: C109 -/

namespace Ndncert.Props

variable {C : Crypto}

/-! ## C109 -/

/-- C109 as far as it is true: whatever the processes do at the same time, and whenever they are killed or a removal fails, a certificate that one
of them signs is for a request that one of them accepted before, under the policy that one had then; the challenge was started before, for a
request with this id; and the CHALLENGE that led to the certificate is signed with the key of the request, decrypts under its secret
and answers that challenge. Missing: that this happens only once (`C109_false`). -/
theorem C109_accepted_before_partial (hC : C.Lawful) {log : List Done} {s : RaceState} (hx : RaceExec C log s)
    {l1 l2 : List Done} {d : Done} (hl : log = l1 ++ d :: l2) {c : Cert} (hc : d.effect = .issue c) :
    ∃ a ∈ l1, ∃ i0 r0, a.AcceptsNew i0 r0 ∧ NewPolicy C a.cfg i0 a.env r0.cert ∧
    ∃ i r es k', d.Challenges C i r es k' ∧ r.requestId = r0.requestId ∧ r.cert = r0.cert ∧ r.encryptionKey = r0.encryptionKey ∧
    Reissues C d.cfg d.env.version r0.cert c ∧
    ∃ b ∈ l1, ∃ i2 r2 k, b.Starts C i2 r2 k ∧ r2.requestId = r0.requestId ∧ Answered C b.env k es := by
  obtain ⟨_, i, r, es, k', h1, h2, ⟨a, ha, i0, r0, h3, h4, h5⟩, b, hb, i2, r2, k, h6, h7, h8⟩ := ((hx.inv hC).signed l1 d l2 c hl hc).1
  obtain ⟨s1, s2, s3, s4, s5⟩ := h5
  refine ⟨a, ha, i0, r0, h3, h4, i, r, es, k', h1, s1.symm, s4.symm, s5.symm, ?_, b, hb, i2, r2, k, h6, h7.trans s1.symm, h8⟩
  rw [s4]; exact h2

/-- C109 for one process: once it has removed a request, it signs no certificate for it any more, whatever the others do, unless a request
with the same id is created again in between. -/
theorem C109_removed_partial (hC : C.Lawful) {log : List Done} {s : RaceState} (hx : RaceExec C log s) {l1 l2 l3 : List Done} {a d : Done}
    (hl : log = l1 ++ a :: (l2 ++ d :: l3)) {id : RequestId} (ha : a.effect = .dbDelete id) (hp : d.proc = a.proc)
    {c : Cert} (hc : d.effect = .issue c) {i : Interest} {r : RequestState} {es : List Block} {k : ChalKind} (hd : d.Challenges C i r es k)
    (hid : r.requestId = id) : ∃ b ∈ l2, ∃ r', b.effect = .dbAdd r' ∧ r'.requestId = id := by
  apply Classical.byContradiction
  intro hno
  have hg : Gone (l1 ++ a :: l2) d.proc id :=
    ⟨l1, a, l2, rfl, hp.symm, ha, fun m hm r' hr' he => hno ⟨m, hm, r', hr', he⟩⟩
  have hv := ((hx.inv hC).signed (l1 ++ a :: l2) d l3 c (by rw [hl]; simp) hc).2 id hg
  have := hd.authentic.pending
  rw [hid, hv] at this
  cases this

/-- what is in the database is a request that was accepted, at every moment -/
theorem C109_stored_partial (hC : C.Lawful) {log : List Done} {s : RaceState} (hx : RaceExec C log s) {id : RequestId} {r : RequestState}
    (hr : (sqlStore C).view s.db id = some r) :
    ∃ a ∈ log, ∃ r0, a.effect = .dbAdd r0 ∧ r0.requestId = id ∧ r0.cert = r.cert ∧ r0.encryptionKey = r.encryptionKey ∧
      r0.requestType = r.requestType ∧ r0.caPrefix = r.caPrefix := by
  have hi := hx.inv hC
  obtain ⟨⟨a, ha, _, _, r0, h1, _, h2⟩, _⟩ := hi.rows.past id r hr
  have hid := (sqlStore_lawful C).get_id _ _ _ hi.rows.inv hr
  exact ⟨a, ha, r0, h1, h2.1.trans hid, h2.2.2.2.1, h2.2.2.2.2, h2.2.2.1, h2.2.1⟩

theorem moves_some {C : Crypto} {s : RaceState} {ms : List Move} (hs : RaceExec C [] s) (f : List Done × RaceState → Bool)
    (h : ((moves C [] s ms).map f) = some true) : ∃ log s', RaceExec C log s' ∧ f (log, s') = true := by
  cases hm : moves C [] s ms with
  | none => rw [hm] at h; cases h
  | some x =>
    rw [hm] at h
    exact ⟨x.1, x.2, moves_exec ms hs hm, by simpa using h⟩

/-- C109 is false: two processes of a CA receive the right code at the same time. Both have read the request before one of them
removes it. Both sign a certificate, and both finish as usual, for one request that was created. -/
theorem C109_false : ∃ log s, RaceExec Fix.C log s ∧ (∀ x ∈ s.procs, x.work.isNone) ∧
    (created log).length = 1 ∧ (signedCerts log).length = 2 := by
  obtain ⟨log, s, hx, h⟩ := moves_some Fix.twins_exec (ms := Fix.doubleMoves) (fun x => x.2.procs.all (fun y => y.work.isNone) &&
    decide ((created x.1).length = 1) && decide ((signedCerts x.1).length = 2)) (by decide +kernel)
  simp only [Bool.and_eq_true, decide_eq_true_eq, List.all_eq_true] at h
  exact ⟨log, s, hx, h.1.1, h.1.2, h.2⟩

/-- C109 is false with one process too: the statement that removes the request fails, because another program (ndncert-ca-status, say) has
locked the file; nobody notices, and the same code yields a second certificate. -/
theorem C109_lost_false : ∃ log s, RaceExec Fix.C log s ∧ (∀ d ∈ log, d.proc = 0) ∧ (∀ x ∈ s.procs, x.work.isNone) ∧
    (created log).length = 1 ∧ (signedCerts log).length = 2 := by
  obtain ⟨log, s, hx, h⟩ := moves_some Fix.twins_exec (ms := Fix.lostMoves) (fun x => x.2.procs.all (fun y => y.work.isNone) &&
    decide ((created x.1).length = 1) && decide ((signedCerts x.1).length = 2) && x.1.all (fun d => decide (d.proc = 0))) (by decide +kernel)
  simp only [Bool.and_eq_true, decide_eq_true_eq, List.all_eq_true] at h
  exact ⟨log, s, hx, h.2, h.1.1.1, h.1.1.2, h.1.2⟩

/-- decides `Done.ChecksCode` for the Interests made by `Fix.guess` -/
def checksOk (C : Crypto) (d : Done) (code : Bytes) : Bool :=
  match d.msg, d.effect with
  | .challenge i, .put _ =>
    match i.name[d.cfg.profile.caPrefix.length + 2]? with
    | some c =>
      match (sqlStore C).view d.seen (c.val ++ d.env.stack.drop c.val.length) with
      | some r =>
        decide (r.requestId = c.val ++ d.env.stack.drop c.val.length) && C.verifyInterest i r.cert &&
        decryptsOk C i r (encodeAll (Fix.guessed code)) &&
        (match parse (encodeAll (Fix.guessed code)) with | .ok es => decide (es = Fix.guessed code) | _ => false) &&
        (match r.challengeState with
          | some cs => decide (cs.challengeStatus = NEED_CODE ∨ cs.challengeStatus = WRONG_CODE) &&
            (match secretGet cs.secrets KEY_CODE with | .ok _ => true | _ => false)
          | none => false)
      | none => false
    | none => false
  | _, _ => false

theorem checksOk_sound {d : Done} {code : Bytes} (h : checksOk C d code = true) : Done.ChecksCode C d code := by
  unfold checksOk at h
  split at h
  case h_2 => cases h
  rename_i i reply hm he
  split at h
  case h_2 => cases h
  rename_i c hc
  split at h
  case h_2 => cases h
  rename_i r hr
  simp only [Bool.and_eq_true, decide_eq_true_eq] at h
  obtain ⟨⟨⟨⟨h1, h2⟩, h3⟩, h4⟩, h5⟩ := h
  split at h4
  case h_2 => cases h4
  rename_i es hes
  have h4 := of_decide_eq_true h4
  subst h4
  split at h5
  case h_2 => cases h5
  rename_i cs hcs
  rw [Bool.and_eq_true] at h5
  obtain ⟨h5, h6⟩ := h5
  split at h6
  case h_2 => cases h6
  rename_i right hright
  refine ⟨i, r, Fix.guessed code, .pin, cs, right, ⟨hm, ⟨by rw [h1]; exact hr, ⟨c, hc, h1⟩, h2⟩, ?_⟩, ⟨hcs, of_decide_eq_true h5, hright⟩, ?_, reply, he⟩
  · exact ⟨encodeAll (Fix.guessed code), binBlock T.SelectedChallenge (bytes! "pin"), decryptsOk_sound h3,
      by intro h0; simp [Fix.guessed, encodeAll, binBlock, Block.encode] at h0, hes, rfl, rfl⟩
  · exact ⟨binBlock T.ParameterValue code, rfl, rfl⟩

/-- C109 is false for the number of codes: two processes answer six codes for one request, in the lifetime of one challenge. -/
theorem C109_codes_false : ∃ log s, RaceExec Fix.C log s ∧ (created log).length = 1 ∧
    (∃ codes : List Bytes, codes.length = 6 ∧ codes.Nodup ∧ ∀ code ∈ codes, ∃ d ∈ log, Done.ChecksCode Fix.C d code) := by
  obtain ⟨log, s, hx, h⟩ := moves_some Fix.twins_exec (ms := Fix.sixMoves) (fun x => decide ((created x.1).length = 1) &&
    Fix.sixCodes.all (fun code => x.1.any (fun d => checksOk Fix.C d code))) (by decide +kernel)
  simp only [Bool.and_eq_true, decide_eq_true_eq, List.all_eq_true, List.any_eq_true] at h
  refine ⟨log, s, hx, h.1, Fix.sixCodes, by decide, by decide, ?_⟩
  intro code hcode
  obtain ⟨d, hd, hok⟩ := h.2 code hcode
  exact ⟨d, hd, checksOk_sound hok⟩

/-- the hypotheses of the partial theorems are met: in the execution with two certificates, the first process signs one and then removes the
request -/
example : ∃ log s, RaceExec Fix.C log s ∧ (∃ d ∈ log, ∃ c, d.effect = .issue c) ∧ ∃ d ∈ log, ∃ id, d.effect = .dbDelete id := by
  obtain ⟨log, s, hx, h⟩ := moves_some Fix.twins_exec (ms := Fix.doubleMoves) (fun x =>
    x.1.any (fun d => match d.effect with | .issue _ => true | _ => false) &&
    x.1.any (fun d => match d.effect with | .dbDelete _ => true | _ => false)) (by decide +kernel)
  simp only [Bool.and_eq_true, List.any_eq_true] at h
  obtain ⟨⟨d1, m1, h1⟩, d2, m2, h2⟩ := h
  refine ⟨log, s, hx, ⟨d1, m1, ?_⟩, d2, m2, ?_⟩
  · split at h1
    · rename_i c hc; exact ⟨c, hc⟩
    · cases h1
  · split at h2
    · rename_i c hc; exact ⟨c, hc⟩
    · cases h2

end Ndncert.Props
