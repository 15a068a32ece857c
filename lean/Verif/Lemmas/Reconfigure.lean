import Verif.Lemmas.Origin
import Verif.Spec.Reconfigure

/-! # An execution with changing configurations, seen as one with a single, liberal configuration -/

namespace Ndncert

variable {σ : Type} {C : Crypto} {S : StoreI σ} {Inv : σ → Prop}

/-! ## Effects that last -/

/-- effects other than packets sent and calls of the callback -/
def Effect.lasts : Effect → Bool
  | .put _ => false
  | .callback _ => false
  | _ => true

/-- the effects that last -/
def lasting (es : List Effect) : List Effect := es.filter Effect.lasts

theorem mem_lasting {es : List Effect} {e : Effect} (h : e.lasts = true) : e ∈ lasting es ↔ e ∈ es := by simp [lasting, h]

theorem lasting_append (a b : List Effect) : lasting (a ++ b) = lasting a ++ lasting b := by simp [lasting]

theorem applyEffects_lasting (S : StoreI σ) (es : List Effect) : ∀ st, applyEffects S st es = applyEffects S st (lasting es) := by
  induction es with
  | nil => intro st; rfl
  | cons e es ih =>
    intro st
    unfold applyEffects lasting at *
    rw [List.filter_cons, List.foldl_cons, ih]
    cases e <;> rfl

/-- the same effects, up to packets and calls of the callback at the end -/
def SameLasting (a b : List Effect) : Prop := ∃ p a' b', a = p ++ a' ∧ b = p ++ b' ∧ lasting a' = [] ∧ lasting b' = []

theorem SameLasting.refl (es : List Effect) : SameLasting es es := ⟨es, [], [], by simp, by simp, rfl, rfl⟩

theorem lasting_take_nil {es : List Effect} (h : lasting es = []) (k : Nat) : lasting (es.take k) = [] := by
  unfold lasting at *
  rw [List.filter_eq_nil_iff] at *
  intro e he
  exact h e (List.mem_of_mem_take he)

theorem SameLasting.take {a b : List Effect} (h : SameLasting a b) (k : Nat) : lasting (a.take k) = lasting (b.take k) := by
  obtain ⟨p, a', b', rfl, rfl, ha, hb⟩ := h
  rw [List.take_append, List.take_append, lasting_append, lasting_append, lasting_take_nil ha, lasting_take_nil hb]

theorem SameLasting.all {a b : List Effect} (h : SameLasting a b) : lasting a = lasting b := by
  obtain ⟨p, a', b', rfl, rfl, ha, hb⟩ := h
  rw [lasting_append, lasting_append, ha, hb]

/-! ## The liberal configuration -/

/-- `L` admits whatever `c` admits -/
structure Admits (L c : CaConfig) : Prop where
  ca : c.profile.caPrefix = L.profile.caPrefix
  names : L.profile.maxSuffixLength = none
  period : c.profile.maxValidityPeriod ≤ L.profile.maxValidityPeriod

theorem replyError_same {L c : CaConfig} (h : Admits L c) (i : Interest) (pre : List Effect) (code : ErrorCode) (info : Bytes) :
    replyError C c i pre code info = replyError C L i pre code info := by
  unfold replyError
  rw [h.ca]

theorem finishChallenge_same {L c : CaConfig} (h : Admits L c) (i : Interest) (env : Env) (pre : List Effect) (r : RequestState) :
    SameLasting (finishChallenge C c i env pre r).effects (finishChallenge C L i env pre r).effects := by
  have h3 : issueCertificate C c env r = issueCertificate C L env r := by
    unfold issueCertificate
    rw [h.ca]
  have h4 : ∀ pre r payload, sendChallengeReply C c i pre r payload = sendChallengeReply C L i pre r payload := by
    intro pre r payload
    unfold sendChallengeReply
    rw [h.ca]
  unfold finishChallenge
  rw [h3]
  by_cases hp : r.status = .pending
  · rw [if_pos hp, if_pos hp]
    by_cases ht : r.requestType = .new ∨ r.requestType = .renew
    · rw [if_pos ht, if_pos ht]
      cases issueCertificate C L env r with
      | exc e => exact .refl _
      | ub u => exact .refl _
      | ok cert =>
        dsimp only
        have key : ∀ (cfg : CaConfig) (x : RequestState × Res Block), ∃ rest, lasting rest = [] ∧
            (match x.2 with
              | .ok payload => sendChallengeReply C cfg i (pre ++ [Effect.issue cert, Effect.dbDelete r.requestId]) x.1 payload
              | e => abort (pre ++ [Effect.issue cert, Effect.dbDelete r.requestId]) e).effects = pre ++ [Effect.issue cert, Effect.dbDelete r.requestId] ++ rest := by
          intro cfg x
          obtain ⟨r2, res⟩ := x
          cases res with
          | ok b => exact ⟨_, rfl, rfl⟩
          | exc e => exact ⟨[], rfl, by simp [abort]⟩
          | ub u => exact ⟨[], rfl, by simp [abort]⟩
        obtain ⟨ra, ha1, ha2⟩ := key c (challengeEncode C { r with cert := cert, status := .success } cert.name c.profile.forwardingHint env.ivRnd)
        obtain ⟨rb, hb1, hb2⟩ := key L (challengeEncode C { r with cert := cert, status := .success } cert.name L.profile.forwardingHint env.ivRnd)
        exact ⟨_, ra, rb, ha2, hb2, ha1, hb1⟩
    · rw [if_neg ht, if_neg ht]
      simp only [h4]
      exact .refl _
  · rw [if_neg hp, if_neg hp]
    simp only [h4]
    exact .refl _

theorem onChallenge_same {L c : CaConfig} (h : Admits L c) (st : σ) (i : Interest) (env : Env) :
    SameLasting (onChallenge C S c st i env).effects (onChallenge C S L st i env).effects := by
  have h1 : getCertificateRequest S c st i env = getCertificateRequest S L st i env := by
    unfold getCertificateRequest
    rw [h.ca]
  have h5 : ∀ r pt, SameLasting (processParams C c i env r pt).effects (processParams C L i env r pt).effects := by
    intro r pt
    unfold processParams
    by_cases hp : pt = []
    · rw [if_pos hp, if_pos hp, replyError_same h]; exact .refl _
    · rw [if_neg hp, if_neg hp]
      cases parse pt with
      | exc e => exact .refl _
      | ub u => exact .refl _
      | ok es =>
        dsimp only
        cases getElem es T.SelectedChallenge with
        | exc e => exact .refl _
        | ub u => exact .refl _
        | ok sel =>
          dsimp only
          cases createChallenge (readString sel) with
          | none => dsimp only; rw [replyError_same h]; exact .refl _
          | some k =>
            dsimp only
            cases handleChallenge C k env es r with
            | exc e => exact .refl _
            | ub u => exact .refl _
            | ok out =>
              dsimp only
              by_cases hc : out.code ≠ 0
              · rw [if_pos hc, if_pos hc, replyError_same h]; exact .refl _
              · rw [if_neg hc, if_neg hc]
                exact finishChallenge_same h i env _ _
  unfold onChallenge
  rw [h1]
  cases getCertificateRequest S L st i env with
  | exc e => exact .refl _
  | ub u => exact .refl _
  | ok x =>
    cases x with
    | none => dsimp only; rw [replyError_same h]; exact .refl _
    | some r =>
      dsimp only
      by_cases hv : C.verifyInterest i r.cert = false
      · rw [if_pos hv, if_pos hv, replyError_same h]; exact .refl _
      · rw [if_neg hv, if_neg hv]
        cases (decodeAes C (i.params.getD ⟨0, []⟩) r.encryptionKey r.requestId r.decryptionIv r.encryptionIv).2 with
        | exc e => dsimp only; rw [replyError_same h]; exact .refl _
        | ub u => exact .refl _
        | ok pt => exact h5 _ _

theorem acceptRequest_same {L c : CaConfig} (h : Admits L c) (idKey : Bytes) (st : σ) (ty : RequestType) (i : Interest) (env : Env) (cert : Cert)
    (secret : Bytes) :
    SameLasting (acceptRequest C S c idKey st ty i env cert secret).effects (acceptRequest C S L idKey st ty i env cert secret).effects := by
  have h1 : newRequestState C c idKey ty cert secret env.salt = newRequestState C L idKey ty cert secret env.salt := by
    unfold newRequestState
    rw [h.ca]
  unfold acceptRequest
  rw [h1]
  dsimp only
  cases S.add st (newRequestState C L idKey ty cert secret env.salt) with
  | exc e => dsimp only; rw [replyError_same h]; exact .refl _
  | ub u => exact .refl _
  | ok s => exact ⟨[_], _, _, rfl, rfl, rfl, rfl⟩

theorem nameRejected_admits {L c : CaConfig} (h : Admits L c) {cert : Cert} (hr : nameRejected c.profile cert = false) :
    nameRejected L.profile cert = false := by
  unfold nameRejected at *
  rw [h.ca] at hr
  rw [h.names]
  simp only [Bool.or_eq_false_iff] at *
  exact ⟨hr.1, trivial⟩

theorem validityRejected_admits {L c : CaConfig} (h : Admits L c) {nb na now : Time} (hr : validityRejected c.profile nb na now = false) :
    validityRejected L.profile nb na now = false := by
  unfold validityRejected at *
  have hp := h.period
  have hm : c.profile.maxValidityPeriod * nsPerSec ≤ L.profile.maxValidityPeriod * nsPerSec := Int.mul_le_mul_of_nonneg_right hp (by decide)
  simp only [decide_eq_false_iff_not, not_or] at *
  obtain ⟨a1, a2, a3⟩ := hr
  refine ⟨a1, ?_, a3⟩
  intro hgt
  exact a2 (Int.lt_of_le_of_lt (Int.add_le_add_left hm now) hgt)

/-- a request is refused under `c`, without any effect but a packet, or the same happens under both -/
theorem onNew_same {L c : CaConfig} (h : Admits L c) (idKey : Bytes) (st : σ) (ty : RequestType) (i : Interest) (env : Env) :
    lasting (onNewRenewRevoke C S c idKey st ty i env).effects = [] ∨
    SameLasting (onNewRenewRevoke C S c idKey st ty i env).effects (onNewRenewRevoke C S L idKey st ty i env).effects := by
  unfold onNewRenewRevoke
  cases certIsValid env.caCert env.nowCa with
  | exc e => exact .inl rfl
  | ub u => exact .inl rfl
  | ok b =>
    cases b with
    | false => exact .inl rfl
    | true =>
      dsimp only
      cases requestParamsDecode C i.params ty with
      | exc e => exact .inl rfl
      | ub u => exact .inl rfl
      | ok x =>
        obtain ⟨pub, cert⟩ := x
        dsimp only
        by_cases hp : pub = []
        · rw [if_pos hp]; exact .inl rfl
        · rw [if_neg hp, if_neg hp]
          cases C.ecdhDerive env.ecdhPriv pub with
          | none => exact .inl rfl
          | some secret =>
            dsimp only
            cases hn : nameRejected c.profile cert with
            | true => exact .inl rfl
            | false =>
              rw [nameRejected_admits h hn]
              simp only [Bool.false_eq_true, if_false]
              have hacc := acceptRequest_same (C := C) (S := S) h idKey st ty i env cert secret
              by_cases ht : ty = .new
              · rw [if_pos ht, if_pos ht]
                cases cert.validity with
                | none => exact .inl rfl
                | some v =>
                  obtain ⟨nb, na⟩ := v
                  dsimp only
                  cases hv : validityRejected c.profile nb na env.now with
                  | true => exact .inl rfl
                  | false =>
                    rw [validityRejected_admits h hv]
                    simp only [Bool.false_eq_true, if_false]
                    by_cases h1 : C.verifyCert cert cert = false
                    · rw [if_pos h1]; exact .inl rfl
                    · rw [if_neg h1, if_neg h1]
                      by_cases h2 : C.verifyInterest i cert = false
                      · rw [if_pos h2]; exact .inl rfl
                      · rw [if_neg h2, if_neg h2]
                        exact .inr hacc
              · rw [if_neg ht, if_neg ht]
                by_cases ht2 : ty = .revoke
                · rw [if_pos ht2, if_pos ht2]
                  by_cases h1 : C.verifyCert cert env.caCert = false
                  · rw [if_pos h1]; exact .inl rfl
                  · rw [if_neg h1, if_neg h1]
                    exact .inr hacc
                · rw [if_neg ht2, if_neg ht2]
                  exact .inr hacc

theorem onProbe_quiet (c : CaConfig) (i : Interest) (env : Env) : lasting (onProbe C c i env).effects = [] := by
  unfold onProbe
  split
  · rfl
  · rfl
  · dsimp only
    split
    · rfl
    · rfl
    · split <;> rfl

theorem handle_admits {L c : CaConfig} (h : Admits L c) (s : CaState σ) (m : Msg) (env : Env) :
    lasting (handle C S c s m env).effects = [] ∨ SameLasting (handle C S c s m env).effects (handle C S L s m env).effects := by
  cases m with
  | probe i => exact .inl (onProbe_quiet c i env)
  | new i => exact onNew_same h s.idKey s.store .new i env
  | revoke i => exact onNew_same h s.idKey s.store .revoke i env
  | challenge i => exact .inr (onChallenge_same h s.store i env)

/-! ## The same step under the liberal configuration -/

/-- an Interest to which the CA does not react -/
def ignored : Msg := .probe { name := [], params := some ⟨36, [133]⟩, sig := [] }

theorem ignored_run (c : CaConfig) (s : CaState σ) (env : Env) : handle C S c s ignored env = ⟨[], .done⟩ := by
  have h : probeParamsDecode ⟨36, [133]⟩ = .exc .tlv := by rfl
  unfold handle ignored onProbe
  dsimp only
  rw [h]

/-- the event in the execution with one configuration: what has no lasting effect is replaced by an Interest without any; a message is replaced by a
crash after its lasting effects that keeps the key -/
def shadowEvent (n : Step σ) : Event :=
  match n.event with
  | .msg m env => .crash (if lasting n.effects = [] then ignored else m) env n.effects.length n.pre.idKey
  | .crash m env k nk => .crash (if lasting n.effects = [] then ignored else m) env k nk
  | .restart nk => .restart nk

/-- the step in the execution with the configuration `L` -/
def shadow (C : Crypto) (S : StoreI σ) (L : CaConfig) (x : CaConfig × Step σ) : Step σ :=
  ⟨x.2.pre, shadowEvent x.2, ((shadowEvent x.2).run C S L x.2.pre).1⟩

theorem SameLasting.take_length {a b : List Effect} (h : SameLasting a b) : lasting (b.take a.length) = lasting a := by
  obtain ⟨p, a', b', rfl, rfl, ha, hb⟩ := h
  rw [List.take_append, lasting_append, lasting_append, lasting_take_nil hb, ha, List.take_of_length_le (by simp)]

theorem ignored_wf (L : CaConfig) : Msg.Wf L ignored := ⟨by intro b hb; cases hb; decide, by intro i hi; cases hi⟩

/-- one step -/
theorem shadow_run (hr : ∀ d, S.reopen d = d) {L c : CaConfig} (h : Admits L c) (s : CaState σ) (e : Event) (hwf : e.Wf c) :
    (shadowEvent ⟨s, e, (e.run C S c s).1⟩).Wf L ∧ (shadowEvent ⟨s, e, (e.run C S c s).1⟩).Possible C S L s ∧
    ((shadowEvent ⟨s, e, (e.run C S c s).1⟩).run C S L s).2 = (e.run C S c s).2 ∧
    lasting ((shadowEvent ⟨s, e, (e.run C S c s).1⟩).run C S L s).1 = lasting (e.run C S c s).1 := by
  have hmwf : ∀ m : Msg, m.Wf c → m.Wf L := by
    intro m hm
    refine ⟨hm.1, fun i hi comp hc => hm.2 i hi comp ?_⟩
    unfold idComponent at *
    rw [h.ca]
    exact hc
  have key : ∀ (m : Msg) (env : Env) (k : Nat) (es : List Effect), es = (handle C S c s m env).effects.take k →
      lasting ((handle C S L s (if lasting es = [] then ignored else m) env).effects.take k) = lasting es := by
    intro m env k es hes
    by_cases hq : lasting es = []
    · rw [if_pos hq, ignored_run, hq]
      simp [lasting]
    · rw [if_neg hq]
      rcases handle_admits (C := C) (S := S) h s m env with hh | hh
      · rw [hes] at hq
        exact absurd (lasting_take_nil hh k) hq
      · rw [hes, hh.take]
  cases e with
  | msg m env =>
    have hk := key m env (handle C S c s m env).effects.length _ (List.take_length).symm
    refine ⟨?_, trivial, ?_, ?_⟩
    · intro m' env' hm
      cases hm
      refine ⟨?_, (hwf m env rfl).2⟩
      split
      · exact ignored_wf L
      · exact hmwf m (hwf m env rfl).1
    · show ({ store := S.reopen (applyEffects S s.store _), idKey := s.idKey } : CaState σ) = ⟨applyEffects S s.store (handle C S c s m env).effects, s.idKey⟩
      rw [hr, applyEffects_lasting S (handle C S c s m env).effects, applyEffects_lasting]
      congr 2
    · exact hk
  | crash m env k nk =>
    have hk := key m env k _ rfl
    refine ⟨?_, trivial, ?_, ?_⟩
    · intro m' env' hm
      cases hm
      refine ⟨?_, (hwf m env rfl).2⟩
      split
      · exact ignored_wf L
      · exact hmwf m (hwf m env rfl).1
    · show ({ store := S.reopen (applyEffects S s.store _), idKey := nk } : CaState σ) =
        ⟨S.reopen (applyEffects S s.store ((handle C S c s m env).effects.take k)), nk⟩
      rw [hr, hr, applyEffects_lasting S ((handle C S c s m env).effects.take k), applyEffects_lasting]
      congr 2
    · exact hk
  | restart nk => exact ⟨fun m' env' hm => (by cases hm), trivial, rfl, rfl⟩

/-! ## Whole executions -/

/-- the facts about each step of such an execution -/
theorem Reconfigured.steps {ca : Name} {h : List (CaConfig × Step σ)} {cfg : CaConfig} {s : CaState σ} (hx : Reconfigured C S ca h cfg s) :
    cfg.profile.caPrefix = ca ∧
    ∀ x ∈ h, x.1.profile.caPrefix = ca ∧ x.2.event.Wf x.1 ∧ x.2.event.Possible C S x.1 x.2.pre ∧
      x.2.effects = (x.2.event.run C S x.1 x.2.pre).1 := by
  induction hx with
  | init cfg idKey h1 => exact ⟨h1, fun x hx => by cases hx⟩
  | @step h cfg s e prev wf possible ih =>
    obtain ⟨h1, h3⟩ := ih
    refine ⟨h1, fun x hx => ?_⟩
    rcases List.mem_append.mp hx with hx | hx
    · exact h3 x hx
    · rw [List.mem_singleton] at hx
      subst hx
      exact ⟨h1, wf, possible, rfl⟩
  | @reconfigure h cfg s cfg' idKey prev p1 ih =>
    obtain ⟨h1, h3⟩ := ih
    refine ⟨p1, fun x hx => ?_⟩
    rcases List.mem_append.mp hx with hx | hx
    · exact h3 x hx
    · rw [List.mem_singleton] at hx
      subst hx
      exact ⟨p1, fun m env hm => (by cases hm), trivial, rfl⟩

/-- the execution with the one configuration -/
theorem Reconfigured.shadow {ca : Name} {L : CaConfig} {h : List (CaConfig × Step σ)} {cfg : CaConfig} {s : CaState σ}
    (hr : ∀ d, S.reopen d = d) (hx : Reconfigured C S ca h cfg s) (hL : ∀ x ∈ h, Admits L x.1) : Exec C S L (h.map (Ndncert.shadow C S L)) s := by
  induction hx with
  | init cfg idKey h1 => exact .init idKey
  | @step h cfg s e prev wf possible ih =>
    have ih := ih (fun x hx => hL x (by simp [hx]))
    obtain ⟨a1, a2, a3, a4⟩ := shadow_run (C := C) hr (hL (cfg, ⟨s, e, (e.run C S cfg s).1⟩) (by simp)) s e wf
    have := Exec.step _ ih a1 a2
    rw [a3] at this
    rw [List.map_append]
    exact this
  | @reconfigure h cfg s cfg' idKey prev p1 ih =>
    have ih := ih (fun x hx => hL x (by simp [hx]))
    have := Exec.step (.restart idKey) ih (fun m env hm => by cases hm) trivial
    rw [List.map_append]
    exact this

/-- what a step and its shadow have in common -/
theorem shadow_facts (hr : ∀ d, S.reopen d = d) {L : CaConfig} {x : CaConfig × Step σ} (hL : Admits L x.1) (hwf : x.2.event.Wf x.1)
    (he : x.2.effects = (x.2.event.run C S x.1 x.2.pre).1) :
    (shadow C S L x).pre = x.2.pre ∧ (∀ e, e.lasts = true → (e ∈ (shadow C S L x).effects ↔ e ∈ x.2.effects)) ∧
    ((∃ e, e.lasts = true ∧ e ∈ x.2.effects) → (shadow C S L x).event.msg? = x.2.event.msg?) := by
  obtain ⟨c, ⟨s, e, es⟩⟩ := x
  dsimp only at hL hwf he
  subst he
  obtain ⟨_, _, _, a4⟩ := shadow_run (C := C) hr hL s e hwf
  refine ⟨rfl, fun e' he' => ?_, ?_⟩
  · rw [← mem_lasting he', ← mem_lasting (es := (e.run C S c s).1) he']
    show e' ∈ lasting ((shadowEvent ⟨s, e, (e.run C S c s).1⟩).run C S L s).1 ↔ _
    rw [a4]
  · rintro ⟨e', he', hm⟩
    have hq : ¬ lasting (e.run C S c s).1 = [] := by
      intro hq
      have := (mem_lasting he').mpr hm
      rw [hq] at this
      cases this
    show (shadowEvent _).msg? = e.msg?
    unfold shadowEvent
    dsimp only
    cases e with
    | msg m env => dsimp only [Event.msg?]; rw [if_neg hq]
    | crash m env k nk => dsimp only [Event.msg?]; rw [if_neg hq]
    | restart nk => rfl

/-- there is a configuration that admits whatever those of the history admit -/
theorem admits_all (ca : Name) (h : List (CaConfig × Step σ)) (hh : ∀ x ∈ h, x.1.profile.caPrefix = ca) :
    ∃ L : CaConfig, L.profile.caPrefix = ca ∧ ∀ x ∈ h, Admits L x.1 := by
  have hb : ∃ k : Int, ∀ x ∈ h, x.1.profile.maxValidityPeriod ≤ k := by
    clear hh
    induction h with
    | nil => exact ⟨0, fun x hx => by cases hx⟩
    | cons y h ih =>
      obtain ⟨k, hk⟩ := ih
      refine ⟨max k y.1.profile.maxValidityPeriod, fun x hx => ?_⟩
      rcases List.mem_cons.mp hx with rfl | hx
      · omega
      · have := hk x hx
        omega
  obtain ⟨k, hk⟩ := hb
  exact ⟨{ profile := { caPrefix := ca, maxValidityPeriod := k } }, rfl, fun x hx => ⟨hh x hx, rfl, hk x hx⟩⟩

end Ndncert
