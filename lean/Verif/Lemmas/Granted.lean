import Verif.Spec.Granted
import Verif.Lemmas.CaReply
import Verif.Lemmas.Opens
import Verif.Lemmas.Safe
import Verif.Lemmas.Revoked

namespace Ndncert

variable {σ : Type} {C : Crypto} {S : StoreI σ} {Inv : σ → Prop} {cfg : CaConfig}

theorem challengeElems_terms {r : RequestState} {issued hint : Name} {es : List Block} {cs : ChallengeState}
    (h : challengeElems r issued hint = .ok es) (hcs : r.challengeState = some cs) :
    ∃ rest, es = nniBlock T.Status r.status.toNat :: binBlock T.ChallengeStatus cs.challengeStatus ::
      nniBlock T.RemainingTries cs.remainingTries :: nniBlock T.RemainingTime (cs.remainingTime % 2 ^ 64).toNat :: rest := by
  unfold challengeElems at h
  rw [hcs] at h
  rw [Res.bind_eq_ok] at h
  obtain ⟨st, h1, h⟩ := h
  cases h
  unfold challengeStateElems at h1
  dsimp only at h1
  split at h1
  · rw [Res.bind_eq_ok] at h1
    obtain ⟨nonce, _, h1⟩ := h1
    cases h1
    exact ⟨_, rfl⟩
  · cases h1
    exact ⟨_, rfl⟩

theorem tellsTerms {r r0 r2 : RequestState} {issued hint : Name} {rnd : Bytes} {payload : Block} {name : Name}
    (h : challengeEncode C r issued hint rnd = (r2, .ok payload)) (h1 : r.encryptionKey = r0.encryptionKey)
    (h2 : r.requestId = r0.requestId) (h3 : r.status = .challenge) {cs : ChallengeState} (h4 : r.challengeState = some cs) :
    TellsTerms C r0 (mkData C cfg.profile.caPrefix name payload) cs.challengeStatus cs.remainingTries (cs.remainingTime % 2 ^ 64).toNat := by
  obtain ⟨es, he, hen⟩ := challengeEncode_encloses (cfg := cfg) (name := name) h
  obtain ⟨rest, rfl⟩ := challengeElems_terms he h4
  rw [h3] at hen
  exact ⟨rest, encloses_congr h1 h2 hen⟩

/-- the time announced after a wrong code -/
theorem seconds_eq {l n t : Int} (h1 : n - t < l) (h2 : t ≤ n) (h3 : l ≤ 3600 * 1000000000) :
    ((l - (n - t)).tdiv 1000000000 % 2 ^ 64).toNat = ((t + l - n) / 1000000000).toNat ∧
      (((t + l - n) / 1000000000).toNat : Int) * 1000000000 ≤ l := by
  have h4 : (l - (n - t)).tdiv 1000000000 = (t + l - n) / 1000000000 := by
    rw [Int.tdiv_eq_ediv_of_nonneg (by omega)]
    congr 1
    omega
  rw [h4]
  omega

theorem in_time {now t0 ts l : Int} {n : Nat} (h : now + 1000 ≤ t0 + n * 1000000000) (h1 : (n : Int) * 1000000000 ≤ l) (h2 : t0 - 1000 < ts) :
    now - ts < l := by omega

/-- a step that continues a challenge -/
theorem continues (hC : C.Lawful) (hS : LawfulStore C S Inv) (hcfg : NameFits cfg.profile.caPrefix)
    {h : List (Step σ)} {s : CaState σ} (hx : Exec C S cfg h s) {h1 h2 : List (Step σ)} {n : Step σ} (hh : h = h1 ++ n :: h2)
    {i : Interest} {env : Env} (hn : n.Handles (.challenge i) env) {r r1 : RequestState} (ha : Authentic C S cfg n.pre.store i env r)
    (hup : .dbUpdate r1 ∈ n.effects) {d : Data} (hd : .put d ∈ n.effects) :
    ∃ div es k out payload rr, Opened C i r div es k ∧ ModCase C k env es { r with decryptionIv := div } out ∧
      out.req.status = .challenge ∧ challengeEncode C out.req [] [] env.ivRnd = (r1, .ok payload) ∧
      d = mkData C cfg.profile.caPrefix i.name payload ∧ SameStored r1 rr ∧ r1.requestId = r.requestId ∧
      S.view (n.afterStore S) r.requestId = some rr := by
  obtain ⟨hx1, hwf, _, heff, _⟩ := hx.split _ _ _ hh
  have hi := (hx1.life hC hS hcfg).1
  obtain ⟨hmw, hew⟩ := hwf _ _ hn
  have hv := (verified_authentic (cfg := cfg) (i := i) hS hi (idFits_of_wf hmw) hew.stack).mpr ha
  have hin : ∀ {x}, x ∈ n.effects → x ∈ (onChallenge C S cfg n.pre.store i env).effects := by
    intro x hx
    obtain ⟨m, env', hm, hmem⟩ := effects_handle heff hx
    unfold Step.Handles at hn hm
    rw [hn] at hm
    cases hm
    exact hmem
  have hu' := hin hup
  have hd' := hin hd
  have hc := onChallenge_cases C S cfg n.pre.store i env
  generalize onChallenge C S cfg n.pre.store i env = o at hu' hd' hc
  cases hc <;> try (simp at hu'; done)
  rename_i r' div es k out r2 payload hv' ho hmc hst henc
  have hrr : r' = r := by
    have h1 := hv'.found
    rw [hv.found] at h1
    cases h1; rfl
  subst hrr
  simp only [List.mem_append, List.mem_map, List.mem_cons, List.not_mem_nil, or_false, reduceCtorEq, and_false, exists_false, false_or, Effect.dbUpdate.injEq] at hu'
  simp only [List.mem_append, List.mem_map, List.mem_cons, List.not_mem_nil, or_false, reduceCtorEq, and_false, exists_false, false_or, Effect.put.injEq] at hd'
  subst hu' hd'
  obtain ⟨hk1, hk2⟩ := hmc.req
  obtain ⟨es', iv, _, hr2, _⟩ := challengeEncode_ok henc
  have hid : r1.requestId = r'.requestId := by rw [hr2]; exact hk2
  obtain ⟨_, hview⟩ := step_view (cfg := cfg) hC hS hcfg hi hwf heff
  have hmem := (mem_dbOps (e := .dbUpdate r1) rfl).mpr hup
  cases hview with
  | same h0 _ => rw [h0] at hmem; cases hmem
  | added ty i' env' rr hd' _ _ _ => rw [hd'] at hmem; simp at hmem
  | deleted i' env' rr hd' _ _ _ _ => rw [hd'] at hmem; simp at hmem
  | updated i' env' kk es1 out1 r0 r1' rr hd' hu h0 hsm hvw =>
    rw [hd'] at hmem
    simp only [List.mem_singleton, Effect.dbUpdate.injEq] at hmem
    subst hmem
    exact ⟨div, es, k, out, payload, rr, ho, hmc, hst, henc, rfl, hsm, hid, by rw [hvw, if_pos hid.symm]⟩

/-- what nothing is stored over stays as it is, or is removed -/
theorem nothingStored (hC : C.Lawful) (hS : LawfulStore C S Inv) (hcfg : NameFits cfg.profile.caPrefix)
    {h1 : List (Step σ)} {n : Step σ} {id : RequestId} : ∀ (h2 : List (Step σ)) {s : CaState σ}, Exec C S cfg (h1 ++ n :: h2) s →
    NothingStored id h2 → S.view s.store id = none ∨ S.view s.store id = S.view (n.afterStore S) id := by
  intro h2
  generalize hl : h2.length = l
  induction l generalizing h2 with
  | zero =>
    intro s hx _
    obtain rfl := List.length_eq_zero_iff.mp hl
    obtain ⟨hx1, hwf, _, heff, hx2⟩ := hx.split _ _ _ rfl
    obtain ⟨hinv, _⟩ := step_view (cfg := cfg) hC hS hcfg (hx1.life hC hS hcfg).1 hwf heff
    obtain ⟨_, hr⟩ := run_view hS heff hinv
    have hs := exec_ends hx
    rw [hs]
    rcases hr with h | h
    · exact .inr (h id)
    · exact .inl (h id)
  | succ l ih =>
    intro s hx hno
    rcases List.eq_nil_or_concat h2 with rfl | ⟨h2', y, rfl⟩
    · cases hl
    have hx' : Exec C S cfg ((h1 ++ n :: h2') ++ [y]) s := by
      have : h1 ++ n :: h2'.concat y = (h1 ++ n :: h2') ++ [y] := by simp
      rw [← this]; exact hx
    obtain ⟨hx1, hwf, _, heff, hx2⟩ := hx'.split _ _ _ rfl
    obtain ⟨hinv, hview⟩ := step_view (cfg := cfg) hC hS hcfg (hx1.life hC hS hcfg).1 hwf heff
    obtain ⟨_, hr⟩ := run_view hS heff hinv
    rw [exec_ends hx']
    have hprev := ih h2' (by simpa using hl) hx1 (fun m hm => hno m (by simp [hm]))
    have hy := hno y (by simp)
    rcases hr with h | h
    · rw [h id]
      cases hview with
      | same h0 hv => rw [hv]; exact hprev
      | added ty i' env' rr hd' _ _ hv =>
        rw [hv, if_neg]
        · exact hprev
        · intro he
          exact hy rr (.inl ((mem_dbOps (e := .dbAdd rr) rfl).mp (by rw [hd']; simp))) he.symm
      | updated i' env' kk es1 out1 r0 r1 rr hd' hu h0 hsm hv =>
        rw [hv, if_neg]
        · exact hprev
        · intro he
          exact hy r1 (.inr hu.effect) he.symm
      | deleted i' env' rr hd' _ _ _ hv =>
        rw [hv]
        split
        · exact .inl rfl
        · exact hprev
    · exact .inl (h id)

/-- the comparison of a code in time -/
theorem handleCode_in_time {k : ChalKind} {env : Env} {es : List Block} {q : RequestState} {cs : ChallengeState} {code : Bytes} {b : Block}
    (h1 : q.challengeState = some cs) (h2 : cs.challengeStatus = NEED_CODE ∨ cs.challengeStatus = WRONG_CODE)
    (h3 : secretGet cs.secrets KEY_CODE = .ok code) (hb : getElem es T.ParameterValue = .ok b) (ht : env.now - cs.timestamp < secretLifetime k) :
    (b.val = code → handleCode k env es q = .ok (returnWithSuccess k q)) ∧
    (b.val ≠ code → 1 < cs.remainingTries → handleCode k env es q = .ok (returnWithNewStatus k env q WRONG_CODE cs.secrets (cs.remainingTries - 1)
      ((k.lifetime * nsPerSec - (env.now - cs.timestamp)).tdiv nsPerSec))) := by
  unfold handleCode
  split
  · rename_i h; rw [h1] at h; cases h
  · rename_i cs' h
    rw [h1] at h
    cases h
    rw [if_pos h2, hb]
    simp only [Res.bind_ok]
    rw [lifetime_ns, if_neg (Int.not_le.mpr ht), h3]
    simp only [Res.bind_ok]
    refine ⟨fun hv => ?_, fun hv htr => ?_⟩
    · rw [if_pos (c := readString b = code) hv]
    · rw [if_neg (c := readString b = code) hv, if_pos htr]

/-- how a request whose challenge was passed is finished -/
theorem finish_passed {i : Interest} {env : Env} {q r : RequestState} (hst : q.status = .pending) (hty : q.requestType = .new ∨ q.requestType = .revoke)
    (h1 : q.encryptionKey = r.encryptionKey) (h2 : q.requestId = r.requestId) (hdone : (finishChallenge C cfg i env [] q).term = .done) :
    (∃ d, sent (finishChallenge C cfg i env [] q).effects = [d] ∧ TellsStatus C r d .success) ∧
      (q.requestType = .new → ∃ c, .issue c ∈ (finishChallenge C cfg i env [] q).effects) := by
  unfold finishChallenge at hdone ⊢
  rw [if_pos hst] at hdone ⊢
  by_cases hnew : q.requestType = .new
  · rw [if_pos (.inl hnew)] at hdone ⊢
    generalize hc : issueCertificate C cfg env q = x at hdone ⊢
    cases x with
    | exc e => cases hdone
    | ub u => cases hdone
    | ok c =>
      dsimp only at hdone ⊢
      generalize hen : challengeEncode C _ _ _ _ = p at hdone ⊢
      obtain ⟨r2, res⟩ := p
      cases res with
      | ok payload =>
        have hs := tellsStatus (cfg := cfg) (name := i.name) (r0 := r) hen h1 h2
        refine ⟨⟨mkData C cfg.profile.caPrefix i.name payload, by simp [sendChallengeReply, sent], hs⟩, fun _ => ⟨c, ?_⟩⟩
        simp [sendChallengeReply]
      | exc e => cases hdone
      | ub u => cases hdone
  · have hrev : q.requestType = .revoke := by rcases hty with h | h; exact absurd h hnew; exact h
    rw [if_neg (by rw [hrev]; simp), if_pos hrev] at hdone ⊢
    dsimp only at hdone ⊢
    generalize hen : challengeEncode C _ _ _ _ = p at hdone ⊢
    obtain ⟨r2, res⟩ := p
    cases res with
    | ok payload =>
      have hs := tellsStatus (cfg := cfg) (name := i.name) (r0 := r) hen h1 h2
      exact ⟨⟨mkData C cfg.profile.caPrefix i.name payload, by simp [sendChallengeReply, sent], hs⟩, fun h => absurd h hnew⟩
    | exc e => cases hdone
    | ub u => cases hdone

/-- how a challenge goes on after a wrong code -/
theorem finish_wrong {i : Interest} {env : Env} {q r : RequestState} {cs : ChallengeState} (hst : q.status = .challenge)
    (hcs : q.challengeState = some cs) (hw : cs.challengeStatus = WRONG_CODE) (he : env.Wf)
    (hiv : q.encryptionIv = [] ∨ q.encryptionIv.length = 12) (hctr : (if q.encryptionIv = [] then 0 else ivCounter q.encryptionIv) ≤ 12)
    (h1 : q.encryptionKey = r.encryptionKey) (h2 : q.requestId = r.requestId) :
    ∃ d r2, finishChallenge C cfg i env [] q = ⟨[.dbUpdate r2, .put d, .callback r2], .done⟩ ∧
      TellsTerms C r d WRONG_CODE cs.remainingTries (cs.remainingTime % 2 ^ 64).toNat := by
  have hes : ∃ es', challengeElems q [] [] = .ok es' := by
    unfold challengeElems challengeStateElems
    rw [hcs]
    dsimp only
    rw [if_neg (by rw [hw]; decide)]
    exact ⟨_, rfl⟩
  obtain ⟨es', hes⟩ := hes
  have hlen := (reply_length hst hcs (.inl (.inr hw)) hes).1
  obtain ⟨r2, payload, henc⟩ := challengeEncode_some (C := C) (rnd := env.ivRnd) hes hiv he.ivRnd (by omega)
  refine ⟨mkData C cfg.profile.caPrefix i.name payload, r2, ?_, ?_⟩
  · unfold finishChallenge
    rw [if_neg (by rw [hst]; simp), henc]
    rfl
  · have := tellsTerms (cfg := cfg) (name := i.name) (r0 := r) henc h1 h2 hst hcs
    rw [hw] at this
    exact this

theorem lifetime_seconds (k : ChalKind) : ((k.lifetime % 2 ^ 64).toNat : Int) * 1000000000 ≤ secretLifetime k := by cases k <;> decide

/-- the challenge state of a request whose challenge goes on -/
theorem announced_state {k : ChalKind} {env : Env} {es : List Block} {q : RequestState} {out : ChalOut} (hm : ModCase C k env es q out)
    (hst : out.req.status = .challenge) (hclock : ∀ cs, q.challengeState = some cs → cs.timestamp ≤ env.now ∧ cs.remainingTries ≤ 3) :
    ∃ c : ChallengeState, out.req.challengeState = some c ∧ 1 ≤ c.remainingTries ∧ c.remainingTries ≤ 3 ∧ c.timestamp = env.nowStore ∧
      ((c.remainingTime % 2 ^ 64).toNat : Int) * 1000000000 ≤ secretLifetime k := by
  cases hm with
  | error code info hcode => cases hst
  | code cs code hs hk ha' hg ht => cases hst
  | proof cs cred nonce p hs hk ha' hg hl hv => cases hst
  | start cstat secrets mails hs hsc => exact ⟨_, rfl, maxTries_pos k, maxTries_le k, rfl, lifetime_seconds k⟩
  | wrong cs code given hs hk ha' hg hne ht htr time htm =>
    have hcs := hclock cs ha'.1
    refine ⟨_, rfl, by dsimp only; omega, by dsimp only; omega, rfl, ?_⟩
    dsimp only
    rw [lifetime_ns] at ht htm
    have hl : secretLifetime k ≤ 3600 * 1000000000 := by cases k <;> decide
    have := seconds_eq ht hcs.1 hl
    rw [htm]
    have h1 := this.1
    unfold nsPerSec
    rw [h1]
    exact this.2

end Ndncert
