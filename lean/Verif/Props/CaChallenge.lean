import Verif.Lemmas.CaReply
import Verif.Lemmas.StorageRun
import Verif.Spec.Run

/-! # One CHALLENGE at the CA (C28, C29, C35, C37, C42-C44) -/

namespace Ndncert.Props

section
variable {σ : Type} (C : Crypto) (S : StoreI σ) {Inv : σ → Prop} (cfg : CaConfig) (st : σ) (i : Interest) (env : Env)

/-! ## C28 -/

/-- C28: a CHALLENGE Interest that names no pending request, or does not verify under the key of the one it names, has
no effect but one error reply. -/
theorem C28_unauthentic_no_effect (hS : LawfulStore C S Inv) (hi : Inv st) (hid : IdFits cfg i) (henv : env.Wf)
    (h : ∀ r, S.view st r.requestId = some r → Names cfg env i r.requestId → C.verifyInterest i r.cert = false) :
    ∃ code d, IsErrorReply C cfg i code d ∧ onChallenge C S cfg st i env = ⟨[.put d], .done⟩ := by
  unfold onChallenge
  rcases lookup_cases (cfg := cfg) (i := i) hS hi hid henv.stack with ⟨h1, _⟩ | ⟨r, h1, h2, h3⟩
  · rw [h1]
    exact ⟨_, _, ⟨by decide, _, rfl⟩, rfl⟩
  · rw [h1]
    dsimp only
    rw [if_pos (h r h2 h3)]
    exact ⟨_, _, ⟨by decide, _, rfl⟩, rfl⟩

/-- the wrong key: the CHALLENGE of the fixtures with another signature -/
example : (∀ r, Fix.S.view Fix.st1.store r.requestId = some r → Names Fix.cfg Fix.env2 { Fix.chal1 with sig := [1] } r.requestId →
    Fix.C.verifyInterest { Fix.chal1 with sig := [1] } r.cert = false) ∧ IdFits Fix.cfg Fix.chal1 ∧
    (Fix.S.view Fix.st1.store Fix.req1.requestId).isSome = true := by
  refine ⟨?_, ?_, by decide +kernel⟩
  · rintro r h1 ⟨c, h2, h3⟩
    have h4 : some (c.val ++ Fix.env2.stack.drop c.val.length) = some Fix.req1.requestId := by
      have : (Fix.chal1.name[Fix.cfg.profile.caPrefix.length + 2]?).map (fun c => c.val ++ Fix.env2.stack.drop c.val.length) =
        some Fix.req1.requestId := by decide +kernel
      have h2' : Fix.chal1.name[Fix.cfg.profile.caPrefix.length + 2]? = some c := h2
      rw [h2'] at this
      exact this
    rw [Option.some.inj h4] at h3
    have h5 : (match Fix.S.view Fix.st1.store Fix.req1.requestId with
      | some r => Fix.C.verifyInterest { Fix.chal1 with sig := [1] } r.cert
      | none => false) = false := by decide +kernel
    rw [← h3, h1] at h5
    exact h5
  · intro c hc
    have : (Fix.chal1.name[Fix.cfg.profile.caPrefix.length + 2]?).all (fun c => decide (c.val.length ≤ 8)) = true := by decide +kernel
    rw [hc] at this
    simpa using this

/-! ## C29 -/

/-- C29: at every point of the handling of a CHALLENGE Interest, every request it does not name is as it was. -/
theorem C29_isolation (hC : C.Lawful) (hS : LawfulStore C S Inv) (hcfg : NameFits cfg.profile.caPrefix) (hi : Inv st)
    (hm : (Msg.challenge i).Wf cfg) (he : env.Wf) (k : Nat) {id : RequestId} (hn : ¬ Names cfg env i id) :
    S.view (applyEffects S st ((onChallenge C S cfg st i env).effects.take k)) id = S.view st id :=
  cut_other hC hS hcfg hi hm he k hn

/-! ## C37 -/

/-- C37: when the CA answers an authentic CHALLENGE Interest with an error, the request is gone. -/
theorem C37_error_removes (hC : C.Lawful) (hS : LawfulStore C S Inv) (hcfg : NameFits cfg.profile.caPrefix) (hi : Inv st)
    (hm : (Msg.challenge i).Wf cfg) (he : env.Wf) {r : RequestState} (ha : Authentic C S cfg st i env r)
    {k : Nat} {d : Data} (hd : d ∈ sent ((onChallenge C S cfg st i env).effects.take k)) {code : ErrorCode}
    (herr : IsErrorReply C cfg i code d) :
    S.view (applyEffects S st ((onChallenge C S cfg st i env).effects.take k)) r.requestId = none := by
  rcases reply_facts hC hS hcfg hi hm he ha hd with ⟨_, h⟩ | ⟨h, _⟩ | ⟨h, _⟩
  · exact h
  · exact absurd ⟨code, herr⟩ h
  · exact absurd ⟨code, herr⟩ h

/-- a CHALLENGE of the fixtures with the unknown challenge type foo, encrypted with the right key -/
def exFoo : Interest := Fix.sealed Fix.req1 [binBlock T.SelectedChallenge (bytes! "foo")]

/-- the hypotheses are met -/
example : Authentic Fix.C Fix.S Fix.cfg Fix.st1.store exFoo Fix.env2 (Fix.stored Fix.st1) ∧
    (onChallenge Fix.C Fix.S Fix.cfg Fix.st1.store exFoo Fix.env2).effects.any
      (fun e => match e with | .put d => (errorDecode d.content).1 == 4 | _ => false) = true :=
  ⟨authenticOk_sound (by decide +kernel), by decide +kernel⟩

/-! ## C35 -/

/-- the full claim of C35: a selected challenge that is not supported is refused with an error -/
def SupportedOnly : Prop :=
  ∀ (C : Crypto) (cfg : CaConfig) (st : Mem) (i : Interest) (env : Env) (r : RequestState) (es : List Block) (sel : Block) (pt : Bytes),
    Authentic C memStore cfg st i env r → Decrypts C i r pt → parse pt = .ok es →
    getElem es T.SelectedChallenge = .ok sel → sel.val ∉ cfg.profile.supportedChallenges →
    ∃ code d, IsErrorReply C cfg i code d ∧ sent (onChallenge C memStore cfg st i env).effects = [d]

/-- a CHALLENGE that selects email, although the CA of the fixtures only supports pin -/
def exEmailElems : List Block :=
  [binBlock T.SelectedChallenge (bytes! "email"), binBlock T.ParameterKey KEY_EMAIL, binBlock T.ParameterValue (bytes! "eve@x.org")]

def exEmail : Interest := Fix.sealed Fix.req1 exEmailElems

/-- C35 is false: with supported-challenges = [pin], a CHALLENGE selecting email starts the email challenge and sends an
email. The CA never looks at its list of supported challenges when it processes a CHALLENGE. -/
theorem C35_false : ¬ SupportedOnly := by
  intro h
  have h1 : Authentic Fix.C Fix.S Fix.cfg Fix.st1.store exEmail Fix.env2 (Fix.stored Fix.st1) :=
    authenticOk_sound (by decide +kernel)
  have h2 : Decrypts Fix.C exEmail (Fix.stored Fix.st1) (encodeAll exEmailElems) := by
    exact decryptsOk_sound (by decide +kernel)
  obtain ⟨code, d, herr, hs⟩ := h Fix.C Fix.cfg Fix.st1.store exEmail Fix.env2 (Fix.stored Fix.st1) exEmailElems
    (binBlock T.SelectedChallenge (bytes! "email")) _ h1 h2 (by decide +kernel) (by decide +kernel) (by decide +kernel)
  have h3 : (callbacks (onChallenge Fix.C Fix.S Fix.cfg Fix.st1.store exEmail Fix.env2).effects).length = 1 := by decide +kernel
  rcases callback_cases Fix.C Fix.S Fix.cfg Fix.st1 (.challenge exEmail) Fix.env2 with ⟨h4, _⟩ | ⟨pre, d', r, _, h5, _, h6, h7, _⟩
  · have h4' : callbacks (onChallenge Fix.C Fix.S Fix.cfg Fix.st1.store exEmail Fix.env2).effects = [] := h4
    rw [h4'] at h3
    cases h3
  · have h5' : (onChallenge Fix.C Fix.S Fix.cfg Fix.st1.store exEmail Fix.env2).effects = _ := h5
    rw [h5', sent_append, h6] at hs
    cases hs
    exact h7 ⟨code, herr⟩

/-- C35, the part that holds: a selected challenge that is not one of the registered ones (pin, email, possession) is
refused with INVALID_PARAMETER and the request is removed. Missing: challenges that are registered but not in the CA's
supported-challenges list (`C35_false`). The IV lengths are those of every request in a reachable state (C40). -/
theorem C35_registered_partial (hS : LawfulStore C S Inv) (hi : Inv st) (hid : IdFits cfg i) (henv : env.Wf)
    {r : RequestState} (ha : Authentic C S cfg st i env r) (hiv : IvsOk r) {pt : Bytes} (hd : Decrypts C i r pt)
    {es : List Block} (hp : parse pt = .ok es) {sel : Block} (hsel : getElem es T.SelectedChallenge = .ok sel)
    (hk : sel.val ≠ bytes! "pin" ∧ sel.val ≠ bytes! "email" ∧ sel.val ≠ bytes! "possession") :
    ∃ d, IsErrorReply C cfg i ErrorCode.INVALID_PARAMETER d ∧
      onChallenge C S cfg st i env = ⟨[.dbDelete r.requestId, .put d], .done⟩ := by
  have hv := (verified_authentic hS hi hid henv.stack).mpr ha
  unfold onChallenge
  rw [hv.found]
  dsimp only
  rw [if_neg (by rw [hv.sig]; simp)]
  rcases hdec : decodeAes C (i.params.getD ⟨0, []⟩) r.encryptionKey r.requestId r.decryptionIv r.encryptionIv with ⟨div, res⟩
  dsimp only
  cases res with
  | exc e => exact ⟨_, ⟨by decide, _, rfl⟩, rfl⟩
  | ub u => exact absurd (congrArg Prod.snd hdec) (decodeAes_no_ub (by rcases hiv.dec with h | h <;> simp [h]) (by rcases hiv.enc with h | h <;> simp [h]) u)
  | ok pt' =>
    have hpt : pt' = pt := (decodeAes_decrypts hdec).unique hd
    subst hpt
    dsimp only
    unfold processParams
    split
    · exact ⟨_, ⟨by decide, _, rfl⟩, rfl⟩
    · rw [hp]
      dsimp only
      rw [hsel]
      dsimp only
      have : createChallenge (readString sel) = none := by
        unfold createChallenge readString
        rw [if_neg (c := sel.val = ChalKind.pin.regName) hk.1, if_neg (c := sel.val = ChalKind.email.regName) hk.2.1, if_neg (c := sel.val = ChalKind.possession.regName) hk.2.2]
      rw [this]
      exact ⟨_, ⟨by decide, _, rfl⟩, rfl⟩

example : Authentic Fix.C Fix.S Fix.cfg Fix.st1.store exFoo Fix.env2 (Fix.stored Fix.st1) ∧ IvsOk (Fix.stored Fix.st1) ∧
    Decrypts Fix.C exFoo (Fix.stored Fix.st1) (encodeAll [binBlock T.SelectedChallenge (bytes! "foo")]) ∧
    parse (encodeAll [binBlock T.SelectedChallenge (bytes! "foo")]) = .ok [binBlock T.SelectedChallenge (bytes! "foo")] :=
  ⟨authenticOk_sound (by decide +kernel), ⟨by decide +kernel, by decide +kernel⟩, decryptsOk_sound (by decide +kernel), by decide +kernel⟩

/-! ## C42 -/

/-- C42: for every Interest, either the status callback is not called (and the Interest was a PROBE, was answered with
an error only, or the handler did not finish), or the handler finished, did not refuse the Interest, and called the
callback exactly once, as its last action, directly after the one reply, with the state it has stored or, after success,
with the state of the request it has removed. -/
theorem C42_callback (s : CaState σ) (m : Msg) :
    (callbacks (handle C S cfg s m env).effects = [] ∧
      ((handle C S cfg s m env).term = .done →
        (∃ i, m = .probe i) ∨ ∃ code d, IsErrorReply C cfg m.interest code d ∧ sent (handle C S cfg s m env).effects = [d])) ∨
    (∃ pre d r, (handle C S cfg s m env).term = .done ∧ (handle C S cfg s m env).effects = pre ++ [.put d, .callback r] ∧
      callbacks pre = [] ∧ sent pre = [] ∧ ¬ (∃ code, IsErrorReply C cfg m.interest code d) ∧ (∀ i, m ≠ .probe i) ∧
      (.dbAdd r ∈ pre ∨ .dbUpdate r ∈ pre ∨ (.dbDelete r.requestId ∈ pre ∧ r.status = .success))) :=
  callback_cases C S cfg s m env

/-- both cases occur: an accepted NEW, and one refused because the request is already pending -/
example : (callbacks (handle Fix.C Fix.S Fix.cfg Fix.st0 (.new Fix.newInterest) Fix.env1).effects).length = 1 ∧
    (handle Fix.C Fix.S Fix.cfg Fix.st1 (.new Fix.newInterest) Fix.env1).term = .done ∧
    callbacks (handle Fix.C Fix.S Fix.cfg Fix.st1 (.new Fix.newInterest) Fix.env1).effects = [] := by decide +kernel

/-! ## C43 -/

/-- C43: kill the CA after any number of effects of a CHALLENGE handler and restart it on its persistent storage. If a
reply has left the CA, storage agrees with it: after an error the request is gone; after success it is gone; otherwise
the request is stored with exactly the challenge status and the remaining tries that were told, one try less than before
(unless the challenge was just started). Every other request is untouched, whether or not a reply was sent. -/
theorem C43_crash (hC : C.Lawful) (hS : LawfulStore C S Inv) (hp : ∀ st, S.reopen st = st)
    (hcfg : NameFits cfg.profile.caPrefix) (hi : Inv st)
    (hm : (Msg.challenge i).Wf cfg) (he : env.Wf) (k : Nat) (newKey : Bytes) :
    (∀ idKey, ((Event.crash (.challenge i) env k newKey).run C S cfg ⟨st, idKey⟩).1 = (onChallenge C S cfg st i env).effects.take k) ∧
    (∀ idKey id, ¬ Names cfg env i id →
      S.view ((Event.crash (.challenge i) env k newKey).run C S cfg ⟨st, idKey⟩).2.store id = S.view st id) ∧
    (∀ idKey r d, Authentic C S cfg st i env r →
      d ∈ sent ((Event.crash (.challenge i) env k newKey).run C S cfg ⟨st, idKey⟩).1 →
      let after := S.view ((Event.crash (.challenge i) env k newKey).run C S cfg ⟨st, idKey⟩).2.store r.requestId
      ((∃ code, IsErrorReply C cfg i code d) ∧ after = none) ∨
      (TellsStatus C r d .success ∧ after = none) ∨
      (∃ r' cs, after = some r' ∧ r'.challengeState = some cs ∧ TellsTries C r d cs.challengeStatus cs.remainingTries ∧
        (r.status ≠ .beforeChallenge → ∃ cs0, r.challengeState = some cs0 ∧ cs.remainingTries + 1 = cs0.remainingTries))) := by
  have hst : ∀ idKey, ((Event.crash (.challenge i) env k newKey).run C S cfg ⟨st, idKey⟩).2.store =
      applyEffects S st ((onChallenge C S cfg st i env).effects.take k) := fun idKey => hp _
  refine ⟨fun _ => rfl, ?_, ?_⟩
  · intro idKey id hn
    rw [hst]
    exact cut_other hC hS hcfg hi hm he k hn
  · intro idKey r d ha hd
    dsimp only
    rw [hst]
    rcases reply_facts hC hS hcfg hi hm he ha hd with h | ⟨_, h⟩ | ⟨_, h⟩
    · exact .inl h
    · exact .inr (.inl h)
    · exact .inr (.inr h)

/-- C43 for the SQLite storage -/
theorem C43_crash_sqlite (hC : C.Lawful) (db : Db) (hcfg : NameFits cfg.profile.caPrefix) (hi : SqlInv C db)
    (hm : (Msg.challenge i).Wf cfg) (he : env.Wf) (k : Nat) (newKey idKey : Bytes) (r : RequestState) (d : Data)
    (ha : Authentic C (sqlStore C) cfg db i env r)
    (hd : d ∈ sent ((Event.crash (.challenge i) env k newKey).run C (sqlStore C) cfg ⟨db, idKey⟩).1) :
      let after := (sqlStore C).view ((Event.crash (.challenge i) env k newKey).run C (sqlStore C) cfg ⟨db, idKey⟩).2.store r.requestId
      ((∃ code, IsErrorReply C cfg i code d) ∧ after = none) ∨
      (TellsStatus C r d .success ∧ after = none) ∨
      (∃ r' cs, after = some r' ∧ r'.challengeState = some cs ∧ TellsTries C r d cs.challengeStatus cs.remainingTries ∧
        (r.status ≠ .beforeChallenge → ∃ cs0, r.challengeState = some cs0 ∧ cs.remainingTries + 1 = cs0.remainingTries)) :=
  (C43_crash C (sqlStore C) cfg db i env hC (sqlStore_lawful C) (fun _ => rfl) hcfg hi hm he k newKey).2.2 idKey r d ha hd

/-- the wrong code of the fixtures, killed between the reply and the callback -/
example : Authentic Fix.C Fix.S Fix.cfg Fix.st2.store Fix.chal2 Fix.env3 (Fix.stored Fix.st2) ∧
    (sent ((onChallenge Fix.C Fix.S Fix.cfg Fix.st2.store Fix.chal2 Fix.env3).effects.take 2)).length = 1 ∧
    (Fix.stored Fix.st2).status = .challenge :=
  ⟨authenticOk_sound (by decide +kernel), by decide +kernel, by decide +kernel⟩

/-! ## C44 -/

/-- events that concern pending requests: CHALLENGE and PROBE Interests and restarts in between -/
def Event.plain : Event → Prop
  | .msg (.challenge _) _ => True
  | .msg (.probe _) _ => True
  | .restart _ => True
  | _ => False

def Event.isRestart : Event → Bool
  | .restart _ => true
  | _ => false

/-- C44: with a persistent storage, restarting the CA any number of times before, between and after CHALLENGE (and
PROBE) Interests changes neither what the CA does with any of them nor the storage. -/
theorem C44_restart (hp : ∀ st, S.reopen st = st) : ∀ (evs : List Event) (s s' : CaState σ), (∀ e ∈ evs, Event.plain e) →
    s.store = s'.store →
    ((runs C S cfg s evs).1.filter (fun n => !Event.isRestart n.event)).map Step.effects =
      (runs C S cfg s' (evs.filter (fun e => !Event.isRestart e))).1.map Step.effects ∧
    (runs C S cfg s evs).2.store = (runs C S cfg s' (evs.filter (fun e => !Event.isRestart e))).2.store := by
  intro evs
  induction evs with
  | nil => intro s s' _ h; exact ⟨rfl, h⟩
  | cons e evs ih =>
    intro s s' hpl hst
    have hpl' : ∀ x ∈ evs, Event.plain x := fun x hx => hpl x (List.mem_cons_of_mem _ hx)
    have he := hpl e (List.mem_cons_self ..)
    have msgcase : ∀ m env', e = .msg m env' → handle C S cfg s m env' = handle C S cfg s' m env' →
        ((runs C S cfg s (e :: evs)).1.filter (fun n => !Event.isRestart n.event)).map Step.effects =
          (runs C S cfg s' ((e :: evs).filter (fun e => !Event.isRestart e))).1.map Step.effects ∧
        (runs C S cfg s (e :: evs)).2.store = (runs C S cfg s' ((e :: evs).filter (fun e => !Event.isRestart e))).2.store := by
      rintro m env' rfl hh
      have hnext : ((Event.msg m env').run C S cfg s).2.store = ((Event.msg m env').run C S cfg s').2.store := by
        simp only [Event.run]
        rw [hh, hst]
      obtain ⟨i1, i2⟩ := ih _ _ hpl' hnext
      rw [List.filter_cons_of_pos (by rfl)]
      show List.map Step.effects (List.filter (fun n => !Event.isRestart n.event) (⟨s, .msg m env', ((Event.msg m env').run C S cfg s).1⟩ ::
          (runs C S cfg ((Event.msg m env').run C S cfg s).2 evs).1)) =
        List.map Step.effects (⟨s', .msg m env', ((Event.msg m env').run C S cfg s').1⟩ ::
          (runs C S cfg ((Event.msg m env').run C S cfg s').2 (evs.filter (fun e => !Event.isRestart e))).1) ∧ _
      rw [List.filter_cons_of_pos (by rfl), List.map_cons, List.map_cons, i1]
      refine ⟨?_, i2⟩
      simp only [Event.run, hh]
    cases e with
    | msg m env' =>
      cases m with
      | challenge j => exact msgcase _ _ rfl (by simp only [handle, hst])
      | probe j => exact msgcase _ _ rfl rfl
      | new j => exact he.elim
      | revoke j => exact he.elim
    | crash m env' k key => exact he.elim
    | restart key =>
      have hnext : ((Event.restart key).run C S cfg s).2.store = s'.store := by simp only [Event.run, hp]; exact hst
      obtain ⟨i1, i2⟩ := ih _ s' hpl' hnext
      rw [List.filter_cons_of_neg (by simp [Event.isRestart])]
      show List.map Step.effects (List.filter (fun n => !Event.isRestart n.event) (⟨s, .restart key, ((Event.restart key).run C S cfg s).1⟩ ::
          (runs C S cfg ((Event.restart key).run C S cfg s).2 evs).1)) = _ ∧ _
      rw [List.filter_cons_of_neg (by simp [Event.isRestart])]
      exact ⟨i1, i2⟩

/-- C44 for the SQLite storage -/
theorem C44_restart_sqlite (evs : List Event) (s : CaState Db) (h : ∀ e ∈ evs, Event.plain e) :
    ((runs C (sqlStore C) cfg s evs).1.filter (fun n => !Event.isRestart n.event)).map Step.effects =
      (runs C (sqlStore C) cfg s (evs.filter (fun e => !Event.isRestart e))).1.map Step.effects ∧
    (runs C (sqlStore C) cfg s evs).2.store = (runs C (sqlStore C) cfg s (evs.filter (fun e => !Event.isRestart e))).2.store :=
  C44_restart C (sqlStore C) cfg (fun _ => rfl) evs s s h rfl

/-- the run of the fixtures on the SQLite storage, with restarts: the certificate is still issued -/
example : (runs Fix.C (sqlStore Fix.C) Fix.cfg ⟨(sqlStore Fix.C).empty, Fix.idKey⟩
      [Fix.ev1, .restart [1], Fix.ev2, .restart [2], .restart [3], Fix.ev3, Fix.ev4]).1.any
    (fun n => n.effects.any (fun e => match e with | .issue _ => true | _ => false)) = true := by decide +kernel

end
end Ndncert.Props
