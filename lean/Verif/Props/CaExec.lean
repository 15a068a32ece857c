import Verif.Lemmas.Origin
import Verif.Lemmas.StorageRun
import Verif.Spec.Run

/-! # Executions of the CA (C30, C31, C34, C36, C40, C41)

All theorems are about any lawful storage; `memStore_lawful` and `sqlStore_lawful` are the two in the code. -/

namespace Ndncert.Props

section
variable {σ : Type} {C : Crypto} {S : StoreI σ} {Inv : σ → Prop} {cfg : CaConfig}

/-! ## C30 -/

/-- C30: whenever the CA signs a certificate `c` in a step `n`,
* an earlier step `m` accepted a NEW for a certificate `r0.cert` with the key name, public key and validity period of
  `c`, and that NEW satisfied the policies then;
* the request was neither removed nor replaced since;
* a later step `m2` started a challenge `k` for it;
* `n` processed a CHALLENGE Interest that names this request, verifies under its key, and whose decrypted parameters
  answer the challenge as started in `m2`. -/
theorem C30_issued_only_after (hC : C.Lawful) (hS : LawfulStore C S Inv) (hcfg : NameFits cfg.profile.caPrefix)
    {h : List (Step σ)} {s : CaState σ} (hx : Exec C S cfg h s) {h1 h2 : List (Step σ)} {n : Step σ} (hh : h = h1 ++ n :: h2)
    {c : Cert} (hc : .issue c ∈ n.effects) :
    ∃ ha m hb i0 env0 r0, h1 = ha ++ m :: hb ∧ AcceptsNew m i0 env0 r0 ∧ NewPolicy C cfg i0 env0 r0.cert ∧
      keyNameOf c.name = keyNameOf r0.cert.name ∧ c.content = r0.cert.content ∧ c.validity = r0.cert.validity ∧
      Kept r0.requestId hb ∧
      ∃ hb1 m2 hb2 i2 env2 r2 k, hb = hb1 ++ m2 :: hb2 ∧ StartsChallenge C S cfg m2 i2 env2 r2 k ∧
        r2.requestId = r0.requestId ∧ r2.cert = r0.cert ∧
        ∃ i env r es k', Challenges C S cfg n i env r es k' ∧ r.requestId = r0.requestId ∧ r.cert = r0.cert ∧
          Answered C env2 k es := by
  obtain ⟨i, env, r, es, k', ha, m, hb1, m2, hb2, i0, env0, r0, i2, env2, r2, k, hi⟩ := issued_by hC hS hcfg hx hh hc
  have hid : r.requestId = r0.requestId := hi.same.1.symm
  have hcert : r.cert = r0.cert := hi.same.2.2.2.1.symm
  obtain ⟨f1, f2, f3, _⟩ := hi.reissues.facts
  rw [hcert] at f1 f2 f3
  refine ⟨ha, m, _, i0, env0, r0, hi.split, hi.accepts, hi.policy, f1, f2, f3, ?_, hb1, m2, hb2, i2, env2, r2, k, rfl, hi.starts, ?_, ?_, i, env, r, es, k', hi.challenges, hid, hcert, hi.answered⟩
  · rw [← hid]; exact hi.kept
  · rw [hi.id2, hid]
  · rw [hi.cert2, hcert]

/-- the fourth step of the run of the fixtures issues a certificate -/
example : ∃ h1 n h2 c, Fix.pinHist = h1 ++ n :: h2 ∧ Effect.issue c ∈ n.effects ∧ h1.length = 3 := by
  have h : (issued (Fix.ev4.run Fix.C Fix.S Fix.cfg Fix.st3).1) ≠ [] := by
    intro h
    have := Fix.pinRun_issues
    rw [h] at this
    cases this
  refine ⟨Fix.pinHist.take 3, ⟨Fix.st3, Fix.ev4, (Fix.ev4.run Fix.C Fix.S Fix.cfg Fix.st3).1⟩, [], (issued (Fix.ev4.run Fix.C Fix.S Fix.cfg Fix.st3).1).head h, ?_, ?_, rfl⟩
  · unfold Fix.pinHist Fix.pinRun
    simp only [runs, List.take, List.cons_append, List.nil_append]
    congr 3
    unfold Fix.st3 Fix.st2 Fix.st1
    rfl
  · have : ∀ es (h : issued es ≠ []), Effect.issue ((issued es).head h) ∈ es := by
      intro es
      induction es with
      | nil => intro h; exact absurd rfl h
      | cons e es ih =>
        intro h
        cases e with
        | issue c => simp [issued]
        | _ => exact List.mem_cons_of_mem _ (ih h)
    exact this _ h

/-- C30 holds for both storages of the code -/
example (hC : C.Lawful) (hcfg : NameFits cfg.profile.caPrefix) {h : List (Step Mem)} {s : CaState Mem} (hx : Exec C memStore cfg h s) :=
  fun h1 h2 n hh c hc => C30_issued_only_after hC (memStore_lawful C) hcfg hx (h1 := h1) (h2 := h2) (n := n) hh (c := c) hc

example (hC : C.Lawful) (hcfg : NameFits cfg.profile.caPrefix) {h : List (Step Db)} {s : CaState Db} (hx : Exec C (sqlStore C) cfg h s) :=
  fun h1 h2 n hh c hc => C30_issued_only_after hC (sqlStore_lawful C) hcfg hx (h1 := h1) (h2 := h2) (n := n) hh (c := c) hc

/-! ## C31 -/

/-- C31: a certificate the CA signs is the one submitted with the request the CHALLENGE Interest names, reissued (named
<key name>/NDNCERT/<version>, same public key, same validity period, signed by the CA identity), and its identity is
strictly below the CA prefix and within max-suffix-length. -/
theorem C31_issued_content (hC : C.Lawful) (hS : LawfulStore C S Inv) (hcfg : NameFits cfg.profile.caPrefix)
    {h : List (Step σ)} {s : CaState σ} (hx : Exec C S cfg h s) {h1 h2 : List (Step σ)} {n : Step σ} (hh : h = h1 ++ n :: h2)
    {c : Cert} (hc : .issue c ∈ n.effects) :
    ∃ i env r, n.Handles (.challenge i) env ∧ Authentic C S cfg n.pre.store i env r ∧
      Reissues C cfg env.version r.cert c ∧ NamePolicy cfg.profile c := by
  obtain ⟨i, env, r, es, k', ha, m, hb1, m2, hb2, i0, env0, r0, i2, env2, r2, k, hi⟩ := issued_by hC hS hcfg hx hh hc
  refine ⟨i, env, r, hi.challenges.handles, hi.challenges.authentic, hi.reissues, ?_⟩
  have hcert : r.cert = r0.cert := hi.same.2.2.2.1.symm
  have hn := hi.policy.name
  rw [← hcert] at hn
  have hl := namePolicy_length hn
  have := hi.reissues.facts.2.2.2 (by omega)
  unfold NamePolicy
  rw [identityOf_eq, this]
  refine ⟨?_, hn.2⟩
  obtain ⟨a, b, d, e, hcn⟩ := hn.1
  obtain ⟨hname, _⟩ := hi.reissues
  refine ⟨a, b, gcomp (bytes! "NDNCERT"), env.version, ?_⟩
  rw [hname, hcn]
  unfold keyNameOf
  rw [show a ++ [gcomp (bytes! "KEY"), b, d, e] = (a ++ [gcomp (bytes! "KEY"), b]) ++ [d, e] by simp]
  rw [List.take_append_of_le_length (by simp), List.take_of_length_le (by simp)]
  simp

/-! ## C40 -/

/-- C40: every stored request is before its challenge, without challenge state, or in its challenge, with one to three
remaining tries and a recognised challenge status. -/
theorem C40_stored_waiting (hC : C.Lawful) (hS : LawfulStore C S Inv) (hcfg : NameFits cfg.profile.caPrefix)
    {h : List (Step σ)} {s : CaState σ} (hx : Exec C S cfg h s) {id : RequestId} {r : RequestState}
    (hv : S.view s.store id = some r) :
    r.requestId = id ∧ IvsOk r ∧
    ((r.status = .beforeChallenge ∧ r.challengeState = none) ∨
     (r.status = .challenge ∧ ∃ cs, r.challengeState = some cs ∧ 1 ≤ cs.remainingTries ∧ cs.remainingTries ≤ 3 ∧
       (cs.challengeStatus = bytes! "need-code" ∨ cs.challengeStatus = bytes! "wrong-code" ∨ cs.challengeStatus = bytes! "need-proof"))) := by
  refine ⟨hS.get_id _ _ _ (hx.life hC hS hcfg).1 hv, hx.ivsOk hC hS hcfg hv, ?_⟩
  rcases hx.waiting hC hS hcfg hv with h | ⟨k, env, cs, h⟩
  · exact .inl ⟨h.1, h.2.1⟩
  · refine .inr ⟨h.status, cs, h.state, h.tries.1, h.tries.2, ?_⟩
    cases h.secret with
    | code _ _ _ h _ => exact h.elim .inl (fun h => .inr (.inl h))
    | proof _ _ _ h => exact .inr (.inr h)

/-- C40: no step of an execution writes another status to the storage. -/
theorem C40_never_stores {h : List (Step σ)} {s : CaState σ} (hx : Exec C S cfg h s) {n : Step σ} (hn : n ∈ h) (r : RequestState) :
    (.dbAdd r ∈ n.effects → r.status = .beforeChallenge) ∧ (.dbUpdate r ∈ n.effects → r.status = .challenge) := by
  obtain ⟨h1, h2, hh⟩ := List.append_of_mem hn
  obtain ⟨_, hwf, _, heff, _⟩ := hx.split _ _ _ hh
  exact stores_status hwf heff

/-- after the second and the third step of the run of the fixtures there is a request in its challenge -/
example : (Fix.S.view (runs Fix.C Fix.S Fix.cfg Fix.st0 [Fix.ev1]).2.store Fix.req1.requestId).isSome = true ∧
    (Fix.S.view (runs Fix.C Fix.S Fix.cfg Fix.st0 [Fix.ev1, Fix.ev2, Fix.ev3]).2.store Fix.req1.requestId).any
      (fun r => decide (r.status = .challenge)) = true := by
  decide +kernel

/-! ## C41 -/

/-- C41: once a REVOKE has created a request, no CHALLENGE Interest naming it leads to a signed certificate, whatever
happened in between; and if one removes the request and is not answered with an error, then removing it, replying and
calling the status callback is all the CA does. -/
theorem C41_revoke_never_issues (hC : C.Lawful) (hS : LawfulStore C S Inv) (hcfg : NameFits cfg.profile.caPrefix)
    {h : List (Step σ)} {s : CaState σ} (hx : Exec C S cfg h s) {ha hb : List (Step σ)} {m : Step σ} (hh : h = ha ++ m :: hb)
    {i0 : Interest} {env0 : Env} {r0 : RequestState} (hr : AcceptsRevoke m i0 env0 r0) (hk : Kept r0.requestId hb)
    {i : Interest} {env : Env} (hid : IdFits cfg i) (he : env.Wf) (hn : Names cfg env i r0.requestId) :
    (∀ c, .issue c ∉ (onChallenge C S cfg s.store i env).effects) ∧
    (.dbDelete r0.requestId ∈ (onChallenge C S cfg s.store i env).effects →
      ∀ d ∈ sent (onChallenge C S cfg s.store i env).effects, (∃ code, IsErrorReply C cfg i code d) ∨
        ∃ r', (onChallenge C S cfg s.store i env).effects = [.dbDelete r0.requestId, .put d, .callback r']) := by
  have hinv := (hx.life hC hS hcfg).1
  have mem_issued : ∀ (es : List Effect) c, Effect.issue c ∈ es → c ∈ issued es := by
    intro es c
    induction es with
    | nil => intro h; cases h
    | cons e es ih =>
      intro h
      cases h with
      | head => simp [issued]
      | tail _ h => cases e <;> simp [issued, ih h]
  rcases Classical.em (∃ r, Authentic C S cfg s.store i env r) with ⟨r, hau⟩ | hno
  · have hrid : r.requestId = r0.requestId := hau.names.unique hn
    have hv := hau.pending
    rw [hrid] at hv
    obtain ⟨hsame, ty, i', env', hadd⟩ := origin hC hS hcfg hx hh hr.2 hk hv
    have hty : r.requestType = .revoke := by
      rw [← hsame.2.2.1]
      obtain ⟨secret, hr0⟩ := hadd.state
      have h1 : r0.requestType = ty := by rw [hr0]; rfl
      rw [h1]
      obtain ⟨mm, h2, h3⟩ := hadd.event
      have h4 := hr.1
      unfold Step.Handles at h4
      rw [h2] at h4
      cases h4
      cases h3
      rfl
    obtain ⟨h1, h2⟩ := revoke_cases hS hinv hid he hau hty
    rw [hrid] at h2
    refine ⟨?_, h2⟩
    intro c hc
    have := mem_issued _ _ hc
    rw [h1] at this
    cases this
  · have : ∃ code d, IsErrorReply C cfg i code d ∧ onChallenge C S cfg s.store i env = ⟨[.put d], .done⟩ := by
      unfold onChallenge
      rcases lookup_cases (cfg := cfg) (i := i) hS hinv hid he.stack with ⟨h1, _⟩ | ⟨r, h1, h2, h3⟩
      · rw [h1]
        exact ⟨_, _, ⟨by decide, _, rfl⟩, rfl⟩
      · rw [h1]
        dsimp only
        have : C.verifyInterest i r.cert = false := by
          cases hb : C.verifyInterest i r.cert with
          | false => rfl
          | true => exact absurd ⟨r, h2, h3, hb⟩ hno
        rw [if_pos this]
        exact ⟨_, _, ⟨by decide, _, rfl⟩, rfl⟩
    obtain ⟨code, d, _, h⟩ := this
    rw [h]
    exact ⟨fun c hc => by simp at hc, fun hd => by simp at hd⟩

/-- a REVOKE run: the request is accepted, the pin challenge is started, and the right code only removes the request -/
example : Exec Fix.C Fix.S Fix.cfg (runs Fix.C Fix.S Fix.cfg Fix.st0 Fix.revRun).1 (runs Fix.C Fix.S Fix.cfg Fix.st0 Fix.revRun).2 ∧
    ((Fix.rev1.run Fix.C Fix.S Fix.cfg Fix.st0).1.any (fun e => match e with | .dbAdd _ => true | _ => false)) = true ∧
    (match (onChallenge Fix.C Fix.S Fix.cfg (runs Fix.C Fix.S Fix.cfg Fix.st0 Fix.revRun).2.store Fix.rchal2 Fix.env3).effects with
      | [.dbDelete _, .put _, .callback r] => decide (r.status = .success)
      | _ => false) = true :=
  ⟨exec_of_runs Fix.revRun_ok, by decide +kernel, by decide +kernel⟩

/-! ## C34 -/

/-- C34 in full: when a certificate is issued on a code, the code was generated less than its lifetime ago. -/
def CodesExpire (C : Crypto) (S : StoreI σ) (cfg : CaConfig) : Prop :=
  ∀ h s, Exec C S cfg h s → ∀ h1 m2 hb n h2, h = h1 ++ m2 :: (hb ++ n :: h2) →
    ∀ i2 env2 r2 k, StartsChallenge C S cfg m2 i2 env2 r2 k → (k = .pin ∨ k = .email) → Kept r2.requestId hb →
    ∀ i env r, n.Handles (.challenge i) env → Authentic C S cfg n.pre.store i env r → r.requestId = r2.requestId →
    ∀ c, .issue c ∈ n.effects → env.now - env2.nowStore < secretLifetime k

end

theorem hist_cons {σ : Type} (C : Crypto) (S : StoreI σ) (cfg : CaConfig) (s : CaState σ) (e : Event) (es : List Event) :
    (runs C S cfg s (e :: es)).1 = ⟨s, e, (e.run C S cfg s).1⟩ :: (runs C S cfg (e.run C S cfg s).2 es).1 := rfl

/-- decides `Selects` for the given plaintext -/
theorem selects_of {C : Crypto} {i : Interest} {r : RequestState} {es : List Block} {k : ChalKind} {pt : Bytes}
    (h1 : decryptsOk C i r pt = true) (h2 : pt ≠ []) (h3 : parse pt = .ok es)
    (h4 : (match getElem es T.SelectedChallenge with | .ok sel => decide (sel.val = k.regName) | _ => false) = true) :
    Selects C i r es k := by
  split at h4
  · rename_i sel hsel
    exact ⟨pt, sel, decryptsOk_sound h1, h2, h3, hsel, of_decide_eq_true h4⟩
  · cases h4

/-- an update among the effects -/
theorem updates_of {es : List Effect} {id : RequestId} {t : Bytes}
    (h : es.any (fun e => match e with | .dbUpdate r => decide (r.requestId = id) && decide (r.challengeType = t) | _ => false) = true) :
    ∃ r1, Effect.dbUpdate r1 ∈ es ∧ r1.requestId = id ∧ r1.challengeType = t := by
  rw [List.any_eq_true] at h
  obtain ⟨x, hx, hm⟩ := h
  cases x with
  | dbUpdate r =>
    rw [Bool.and_eq_true] at hm
    exact ⟨r, hx, of_decide_eq_true hm.1, of_decide_eq_true hm.2⟩
  | _ => cases hm

theorem issues_of {es : List Effect} (h : issued es ≠ []) : ∃ c, Effect.issue c ∈ es := by
  induction es with
  | nil => exact absurd rfl h
  | cons e es ih =>
    cases e with
    | issue c => exact ⟨c, by simp⟩
    | _ => obtain ⟨c, hc⟩ := ih h; exact ⟨c, List.mem_cons_of_mem _ hc⟩

/-- the second step of the runs starts the pin challenge -/
theorem fix_starts : StartsChallenge Fix.C Fix.S Fix.cfg ⟨(Fix.ev1.run Fix.C Fix.S Fix.cfg Fix.st0).2, Fix.ev2, (Fix.ev2.run Fix.C Fix.S Fix.cfg (Fix.ev1.run Fix.C Fix.S Fix.cfg Fix.st0).2).1⟩
    Fix.chal1 Fix.env2 (Fix.stored Fix.st1) .pin where
  challenges := ⟨[binBlock T.SelectedChallenge (bytes! "pin")], rfl, authenticOk_sound (by decide +kernel),
    selects_of (pt := encodeAll [binBlock T.SelectedChallenge (bytes! "pin")]) (by decide +kernel) (by decide +kernel) (by decide +kernel) (by decide +kernel)⟩
  before := by decide +kernel
  stored := updates_of (by decide +kernel)

/-- C34 is false of the code: the age of a code is counted from the last wrong try. Here the code is generated at
1001 s, a wrong code is submitted at 4000 s, and the right one is accepted at 7000 s, with a lifetime of 3600 s. -/
theorem C34_false : ¬ CodesExpire Fix.C Fix.S Fix.cfg := by
  intro H
  have hx := exec_of_runs Fix.lateRun_ok
  have hh : (runs Fix.C Fix.S Fix.cfg Fix.st0 Fix.lateRun).1 = _ := rfl
  unfold Fix.lateRun at hh
  rw [hist_cons, hist_cons, hist_cons, hist_cons] at hh
  obtain ⟨c, hc⟩ := issues_of (es := ((Event.msg (.challenge Fix.chal3) (Fix.env 7000)).run Fix.C Fix.S Fix.cfg
      ((Event.msg (.challenge Fix.chal2) (Fix.env 4000)).run Fix.C Fix.S Fix.cfg (Fix.ev2.run Fix.C Fix.S Fix.cfg
        (Fix.ev1.run Fix.C Fix.S Fix.cfg Fix.st0).2).2).2).1) (by decide +kernel)
  have := H _ _ hx [_] _ [_] _ [] hh Fix.chal1 Fix.env2 (Fix.stored Fix.st1) .pin fix_starts (.inl rfl) ?_
    Fix.chal3 (Fix.env 7000)
    (Fix.stored ((Event.msg (.challenge Fix.chal2) (Fix.env 4000)).run Fix.C Fix.S Fix.cfg (Fix.ev2.run Fix.C Fix.S Fix.cfg
        (Fix.ev1.run Fix.C Fix.S Fix.cfg Fix.st0).2).2).2) rfl (authenticOk_sound (by decide +kernel)) (by decide +kernel) c hc
  · revert this
    decide +kernel
  · intro n hn
    rw [List.mem_singleton] at hn
    subst hn
    constructor
    · have : ((Event.msg (.challenge Fix.chal2) (Fix.env 4000)).run Fix.C Fix.S Fix.cfg (Fix.ev2.run Fix.C Fix.S Fix.cfg
          (Fix.ev1.run Fix.C Fix.S Fix.cfg Fix.st0).2).2).1.any (fun e => match e with | .dbDelete _ => true | .dbAdd _ => true | _ => false) = false := by
        decide +kernel
      intro hd
      rw [List.any_eq_false] at this
      exact absurd rfl (this _ hd)
    · have : ((Event.msg (.challenge Fix.chal2) (Fix.env 4000)).run Fix.C Fix.S Fix.cfg (Fix.ev2.run Fix.C Fix.S Fix.cfg
          (Fix.ev1.run Fix.C Fix.S Fix.cfg Fix.st0).2).2).1.any (fun e => match e with | .dbDelete _ => true | .dbAdd _ => true | _ => false) = false := by
        decide +kernel
      intro r hd
      rw [List.any_eq_false] at this
      exact absurd rfl (this _ hd)

/-- a bound on the age of a code from the lifetimes of its tries -/
theorem age_bound {now ts t0 l d : Int} {n : Nat} (h1 : now - ts < l) (hl : l ≤ 3600 * 1000000000)
    (h2 : ts < t0 + 1000 + (3 - n) * (3600 * 1000000000 + 1000 + d)) (hn : 1 ≤ n) (hd : 0 ≤ d) :
    now - t0 < 3 * (3600 * 1000000000 + 1000) + 2 * d := by
  have h3 : ((3 : Int) - n) * (3600 * 1000000000 + 1000 + d) ≤ 2 * (3600 * 1000000000 + 1000 + d) :=
    Int.mul_le_mul_of_nonneg_right (by omega) (by omega)
  omega

theorem age_last {now ts t0 l : Int} (h1 : now - ts < l) (h2 : ts < t0 + 1000) : now - t0 < l + 1000 := by omega

/-- C34, the part that holds. If a certificate is issued on a code generated in step `m2` (at `env2.nowStore`), then
* it was submitted within the lifetime of a code challenge (3600 s for pin, 300 s for email, plus 1 µs for the resolution
  of the stored time) after the last CHALLENGE that was answered for this request: the start of the challenge if no wrong
  code was submitted since;
* it was submitted less than three times 3600 s (plus 1 µs each) after it was generated, if no handler takes longer than
  `d` between its two clock readings, plus `2 d`.
Missing: the lifetime counted from the generation of the code when wrong codes were submitted in between (`C34_false`). -/
theorem C34_bounded_partial {σ : Type} {C : Crypto} {S : StoreI σ} {Inv : σ → Prop} {cfg : CaConfig}
    (hC : C.Lawful) (hS : LawfulStore C S Inv) (hcfg : NameFits cfg.profile.caPrefix)
    {h : List (Step σ)} {s : CaState σ} (hx : Exec C S cfg h s) {h1 h2 : List (Step σ)} {n : Step σ} (hh : h = h1 ++ n :: h2)
    {c : Cert} (hc : .issue c ∈ n.effects) :
    ∃ ha m2 hb i2 env2 r2 k i env r es k', h1 = ha ++ m2 :: hb ∧ StartsChallenge C S cfg m2 i2 env2 r2 k ∧
      Challenges C S cfg n i env r es k' ∧ r2.requestId = r.requestId ∧ r2.cert = r.cert ∧ Kept r.requestId hb ∧
      ((k = .pin ∨ k = .email) →
        (∃ env3, LastUpdate r.requestId (m2 :: hb) env3 ∧ env.now - env3.nowStore < secretLifetime k' + 1000) ∧
        ∀ d, 0 ≤ d → Quick d hb → env.now - env2.nowStore < 3 * (3600 * 1000000000 + 1000) + 2 * d) := by
  obtain ⟨i, env, r, es, k', ha, m, hb1, m2, hb2, i0, env0, r0, i2, env2, r2, k, hi⟩ := issued_by hC hS hcfg hx hh hc
  refine ⟨ha ++ m :: hb1, m2, hb2, i2, env2, r2, k, i, env, r, es, k', by rw [hi.split]; simp, hi.starts, hi.challenges, hi.id2, hi.cert2,
    fun x hx => hi.kept x (by simp [hx]), ?_⟩
  intro hk
  obtain ⟨cs, _, ht, hb, htr, env3, hl, hts⟩ := hi.time hk
  refine ⟨⟨env3, hl, age_last (by rw [← lifetime_ns]; exact ht) hts⟩, ?_⟩
  intro d h0 hq
  exact age_bound ht (by cases k' <;> decide) (hb d h0 hq) htr h0

/-- the late run issues a certificate, and its handlers take no time -/
example : (issued ((runs Fix.C Fix.S Fix.cfg Fix.st0 Fix.lateRun).1.flatMap Step.effects)).length = 1 ∧
    Quick 0 (runs Fix.C Fix.S Fix.cfg Fix.st0 Fix.lateRun).1 := by
  refine ⟨by decide +kernel, ?_⟩
  unfold Fix.lateRun
  rw [hist_cons, hist_cons, hist_cons, hist_cons]
  intro n hn m env hm
  simp only [runs, List.mem_cons, List.not_mem_nil, or_false] at hn
  rcases hn with rfl | rfl | rfl | rfl <;> cases hm <;> exact Int.le_of_eq (by rfl)

/-! ## C36 -/

/-- C36 in full: the CHALLENGE that leads to issuance selects the challenge that was started. -/
def NoSwitch {σ : Type} (C : Crypto) (S : StoreI σ) (cfg : CaConfig) : Prop :=
  ∀ h s, Exec C S cfg h s → ∀ h1 m2 hb n h2, h = h1 ++ m2 :: (hb ++ n :: h2) →
    ∀ i2 env2 r2 k, StartsChallenge C S cfg m2 i2 env2 r2 k → Kept r2.requestId hb →
    ∀ i env r es k', Challenges C S cfg n i env r es k' → r.requestId = r2.requestId →
    ∀ c, .issue c ∈ n.effects → k' = k

/-- C36 is false of the code: a pin challenge is started and the code is submitted to, and accepted by, the email
challenge. -/
theorem C36_false : ¬ NoSwitch Fix.C Fix.S Fix.cfg := by
  intro H
  have hx := exec_of_runs Fix.switchRun_ok
  have hh : (runs Fix.C Fix.S Fix.cfg Fix.st0 Fix.switchRun).1 = _ := rfl
  unfold Fix.switchRun at hh
  rw [hist_cons, hist_cons, hist_cons] at hh
  obtain ⟨c, hc⟩ := issues_of (es := ((Event.msg (.challenge Fix.switched) Fix.env3).run Fix.C Fix.S Fix.cfg
      (Fix.ev2.run Fix.C Fix.S Fix.cfg (Fix.ev1.run Fix.C Fix.S Fix.cfg Fix.st0).2).2).1) (by decide +kernel)
  have := H _ _ hx [_] _ [] _ [] hh Fix.chal1 Fix.env2 (Fix.stored Fix.st1) .pin fix_starts (by intro n hn; cases hn)
    Fix.switched Fix.env3 (Fix.stored (Fix.ev2.run Fix.C Fix.S Fix.cfg (Fix.ev1.run Fix.C Fix.S Fix.cfg Fix.st0).2).2)
    [binBlock T.SelectedChallenge (bytes! "email"), binBlock T.ParameterKey KEY_CODE, binBlock T.ParameterValue (secretCode Fix.env2.word32)] .email
    ⟨rfl, authenticOk_sound (by decide +kernel), selects_of
      (pt := encodeAll [binBlock T.SelectedChallenge (bytes! "email"), binBlock T.ParameterKey KEY_CODE, binBlock T.ParameterValue (secretCode Fix.env2.word32)])
      (by decide +kernel) (by decide +kernel) (by decide +kernel) (by decide +kernel)⟩ (by decide +kernel) c hc
  cases this

/-- C36, the part that holds: a possession challenge is only passed by a proof of possession and a code challenge only
by a code. Missing: pin and email can be exchanged (`C36_false`). -/
theorem C36_kinds_partial {σ : Type} {C : Crypto} {S : StoreI σ} {Inv : σ → Prop} {cfg : CaConfig}
    (hC : C.Lawful) (hS : LawfulStore C S Inv) (hcfg : NameFits cfg.profile.caPrefix)
    {h : List (Step σ)} {s : CaState σ} (hx : Exec C S cfg h s) {h1 h2 : List (Step σ)} {n : Step σ} (hh : h = h1 ++ n :: h2)
    {c : Cert} (hc : .issue c ∈ n.effects) :
    ∃ ha m2 hb i2 env2 r2 k i env r es k', h1 = ha ++ m2 :: hb ∧ StartsChallenge C S cfg m2 i2 env2 r2 k ∧
      Challenges C S cfg n i env r es k' ∧ r2.requestId = r.requestId ∧ r2.cert = r.cert ∧ Kept r.requestId hb ∧
      Answered C env2 k es ∧
      ((k = .possession ∧ k' = .possession) ∨ ((k = .pin ∨ k = .email) ∧ (k' = .pin ∨ k' = .email))) := by
  obtain ⟨i, env, r, es, k', ha, m, hb1, m2, hb2, i0, env0, r0, i2, env2, r2, k, hi⟩ := issued_by hC hS hcfg hx hh hc
  exact ⟨ha ++ m :: hb1, m2, hb2, i2, env2, r2, k, i, env, r, es, k', by rw [hi.split]; simp, hi.starts, hi.challenges, hi.id2, hi.cert2,
    fun x hx => hi.kept x (by simp [hx]), hi.answered, hi.kinds⟩

end Ndncert.Props
