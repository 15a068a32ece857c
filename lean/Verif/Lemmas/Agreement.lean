import Verif.Spec.Agreement
import Verif.Lemmas.Origin
import Verif.Lemmas.CaReply
import Verif.Lemmas.ClientApply
import Verif.Lemmas.RequestObject
import Verif.Lemmas.ChallengeWire
import Verif.Lemmas.Face
import Verif.Props.ChallengeWire
import Verif.Props.KeyAgreement

/-! # Lemmas for the agreement of program and CA (C132) -/

namespace Ndncert

variable {σ : Type} {C : Crypto} {S : StoreI σ} {Inv : σ → Prop} {cfg : CaConfig}

/-- what an object reads from a reply that encloses these elements -/
theorem opened_reply (hC : C.Lawful) {r : RequestState} {d : Data} {es : List Block} (hen : Encloses C r d es) (hsz : d.content.val.length < 2 ^ 32)
    {key div eiv pt : Bytes} {id : RequestId} (hdec : (decodeAes C d.content key id div eiv).2 = .ok pt)
    (hown : ∀ iv p, C.aesDec key iv id (C.aesEnc r.encryptionKey iv r.requestId p).1 (C.aesEnc r.encryptionKey iv r.requestId p).2 ≠ none →
      r.encryptionKey = key ∧ r.requestId = id) :
    r.encryptionKey = key ∧ r.requestId = id ∧ pt = encodeAll es ∧ (encodeAll es).length < 2 ^ 32 := by
  obtain ⟨iv, hiv, hc⟩ := hen
  obtain ⟨els, ct, iv', tag, h1, h2, h3, h4, h5, h6, _, _, h7, _⟩ := decodeAes_ok (Prod.ext rfl hdec)
  have hl := hC.aes_length r.encryptionKey (iv.take 12) r.requestId (encodeAll es)
  have s1 := mem_encodeAll_length (es := [binBlock T.InitializationVector iv, binBlock T.AuthenticationTag (C.aesEnc r.encryptionKey (iv.take 12) r.requestId (encodeAll es)).2,
    binBlock T.EncryptedPayload (C.aesEnc r.encryptionKey (iv.take 12) r.requestId (encodeAll es)).1]) (b := binBlock T.InitializationVector iv) (by simp)
  have s2 := mem_encodeAll_length (es := [binBlock T.InitializationVector iv, binBlock T.AuthenticationTag (C.aesEnc r.encryptionKey (iv.take 12) r.requestId (encodeAll es)).2,
    binBlock T.EncryptedPayload (C.aesEnc r.encryptionKey (iv.take 12) r.requestId (encodeAll es)).1])
    (b := binBlock T.EncryptedPayload (C.aesEnc r.encryptionKey (iv.take 12) r.requestId (encodeAll es)).1) (by simp)
  rw [hc] at hsz h1
  have hsz' : (encodeAll [binBlock T.InitializationVector iv, binBlock T.AuthenticationTag (C.aesEnc r.encryptionKey (iv.take 12) r.requestId (encodeAll es)).2,
    binBlock T.EncryptedPayload (C.aesEnc r.encryptionKey (iv.take 12) r.requestId (encodeAll es)).1]).length < 2 ^ 32 := hsz
  simp only [binBlock_val] at s1 s2
  rw [aes_elements _ _ _ _ (by omega) (by omega) (by omega)] at h1
  cases h1
  cases h2
  cases h3
  cases h4
  simp only [binBlock_val] at h5 h6 h7
  have hfin : (encodeAll es).length < 2 ^ 32 := by omega
  rw [List.take_of_length_le (by omega)] at h7
  obtain ⟨e1, e2⟩ := hown iv (encodeAll es) (by rw [h7]; simp)
  refine ⟨e1, e2, ?_, hfin⟩
  rw [← e1, ← e2, hC.aes_correct] at h7
  simpa using h7.symm

theorem challengeElems_typ {r : RequestState} {issued hint : Name} {es : List Block} (h : challengeElems r issued hint = .ok es) :
    ∀ e ∈ es, 0 < e.typ ∧ e.typ < 2 ^ 32 := by
  obtain ⟨st, hst1, hes'⟩ := challengeElems_ok h
  intro e he
  rw [hes'] at he
  simp only [List.mem_cons, List.mem_append] at he
  rcases he with rfl | he | he
  · simp
  · cases hc : r.challengeState with
    | none => rw [hc] at hst1; simp at hst1; subst hst1; simp at he
    | some cs =>
      rw [hc] at hst1
      dsimp only at hst1
      unfold challengeStateElems at hst1
      dsimp only at hst1
      split at hst1
      · rw [Res.bind_eq_ok] at hst1
        obtain ⟨n, _, hst1⟩ := hst1
        simp only [Res.ok.injEq] at hst1
        subst hst1
        simp at he
        rcases he with rfl | rfl | rfl | rfl | rfl <;> simp
      · simp only [Res.ok.injEq] at hst1
        subst hst1
        simp at he
        rcases he with rfl | rfl | rfl <;> simp
  · split at he
    · simp at he
    · simp at he
      rcases he with rfl | rfl <;> simp

/-- the object after a reply that was accepted -/
theorem accepted_loop {q : Request} {d : Data} {now : Time} (hok : (onChallengeResponse C q d now).2 = .ok ()) {es : List Block}
    (hp : ∀ pt, (decodeAes C d.content q.aesKey q.requestId q.decryptionIv q.encryptionIv).2 = .ok pt → parse pt = .ok es) :
    ∃ div, (onChallengeResponse C q d now).1 = (loopRes (challengeStep es now) { req := { q with decryptionIv := div } } es).1.req ∧
      (loopRes (challengeStep es now) { req := { q with decryptionIv := div } } es).2 = .ok () := by
  unfold onChallengeResponse at hok ⊢
  split at hok
  · cases hok
  · cases hok
  · unfold challengeDecode at hok ⊢
    dsimp only at hok ⊢
    split at hok
    · cases hok
    · cases hok
    · next pt hpt =>
      rw [hp pt hpt] at hok ⊢
      dsimp only at hok ⊢
      refine ⟨_, rfl, ?_⟩
      split at hok
      · cases hok
      · cases hok
      · next hx => exact hx

/-- elements that say nothing about challenge status and tries leave them -/
theorem challengeStep_rest {es : List Block} {now : Time} {a a' : ChalDecAcc} {item : Block} (h : challengeStep es now a item = .ok a')
    (h1 : item.typ ≠ T.ChallengeStatus) (h2 : item.typ ≠ T.RemainingTries) :
    a'.req.challengeStatus = a.req.challengeStatus ∧ a'.req.remainingTries = a.req.remainingTries := by
  unfold challengeStep at h
  split at h
  · split at h
    · rw [Res.bind_eq_ok] at h
      obtain ⟨b, hb, h⟩ := h
      rw [Res.bind_eq_ok] at h
      obtain ⟨s, hs, h⟩ := h
      injection h with h; subst h; exact ⟨rfl, rfl⟩
    · split at h
      · rw [Res.bind_eq_ok] at h
        obtain ⟨b, _, h⟩ := h
        rw [Res.bind_eq_ok] at h
        obtain ⟨s, _, h⟩ := h
        injection h with h; subst h; exact ⟨rfl, rfl⟩
      · split at h
        · rw [Res.bind_eq_ok] at h
          obtain ⟨b, hb, h⟩ := h
          rw [Res.bind_eq_ok] at h
          obtain ⟨s, hs, h⟩ := h
          injection h with h; subst h; exact ⟨rfl, rfl⟩
        · split at h
          · rw [Res.bind_eq_ok] at h
            obtain ⟨b, _, h⟩ := h
            rw [Res.bind_eq_ok] at h
            obtain ⟨s, _, h⟩ := h
            injection h with h; subst h; exact ⟨rfl, rfl⟩
          · split at h
            · split at h
              · injection h with h; subst h; exact ⟨rfl, rfl⟩
              · cases h
            · split at h
              · cases h
              · injection h with h; subst h; exact ⟨rfl, rfl⟩
  · split at h
    · split at h
      · cases h
      · injection h with h; subst h; exact ⟨rfl, rfl⟩
    · cases h

theorem challengeLoop_rest (es0 : List Block) (now : Time) (es : List Block) {a : ChalDecAcc}
    (ht : ∀ e ∈ es, e.typ ≠ T.ChallengeStatus ∧ e.typ ≠ T.RemainingTries) (hok : (loopRes (challengeStep es0 now) a es).2 = .ok ()) :
    (loopRes (challengeStep es0 now) a es).1.req.challengeStatus = a.req.challengeStatus ∧
      (loopRes (challengeStep es0 now) a es).1.req.remainingTries = a.req.remainingTries := by
  induction es generalizing a with
  | nil => exact ⟨rfl, rfl⟩
  | cons e es ih =>
    unfold loopRes at hok ⊢
    split at hok
    · next a' h =>
      have h1 := ih (fun x hx => ht x (by simp [hx])) hok
      have h2 := challengeStep_rest h (ht e (by simp)).1 (ht e (by simp)).2
      exact ⟨h1.1.trans h2.1, h1.2.trans h2.2⟩
    · cases hok
    · cases hok

/-- what an object knows after a reply in which the challenge goes on -/
theorem continued_loop {r : RequestState} {cs : ChallengeState} {es : List Block} {now : Time} {a : ChalDecAcc} (hes : challengeElems r [] [] = .ok es)
    (hst : r.status = .challenge) (hcs : r.challengeState = some cs) (htr : cs.remainingTries < 2 ^ 31) (hl : a.lookingForNonce = false)
    (hok : (loopRes (challengeStep es now) a es).2 = .ok ()) :
    (loopRes (challengeStep es now) a es).1.req.challengeStatus = cs.challengeStatus ∧
      (loopRes (challengeStep es now) a es).1.req.remainingTries = cs.remainingTries := by
  obtain ⟨st, h1, h2⟩ := challengeElems_ok hes
  rw [hcs] at h1
  dsimp only at h1
  rw [if_pos rfl, List.append_nil] at h2
  have hrest : ∃ rest, st = binBlock T.ChallengeStatus cs.challengeStatus :: nniBlock T.RemainingTries cs.remainingTries :: rest ∧
      ∀ e ∈ rest, e.typ ≠ T.ChallengeStatus ∧ e.typ ≠ T.RemainingTries := by
    unfold challengeStateElems at h1
    dsimp only at h1
    split at h1
    · rw [Res.bind_eq_ok] at h1
      obtain ⟨n, _, h1⟩ := h1
      injection h1 with h1
      refine ⟨_, h1.symm, ?_⟩
      intro e he
      simp at he
      rcases he with rfl | rfl | rfl <;> simp
    · injection h1 with h1
      refine ⟨_, h1.symm, ?_⟩
      intro e he
      simp at he
      subst he
      simp
  obtain ⟨rest, rfl, hty⟩ := hrest
  have hsb : statusFromBlock (nniBlock T.Status r.status.toNat) = .ok r.status := by rw [hst]; rfl
  have s1 : ∀ a : ChalDecAcc, a.lookingForNonce = false →
      challengeStep es now a (binBlock T.ChallengeStatus cs.challengeStatus) =
        .ok { a with req := { a.req with challengeStatus := cs.challengeStatus } } := by
    intro a hl
    unfold challengeStep
    rw [if_pos hl, if_neg (by simp), if_pos (by simp)]; rfl
  have s2 : ∀ a : ChalDecAcc, a.lookingForNonce = false →
      challengeStep es now a (nniBlock T.RemainingTries cs.remainingTries) =
        .ok { a with req := { a.req with remainingTries := cs.remainingTries } } := by
    intro a hl
    unfold challengeStep
    rw [if_pos hl, if_neg (by simp), if_neg (by simp), if_pos (by simp),
      readNni_nniBlock_of_lt _ _ (by omega)]
    simp only [Res.bind_ok, toInt32_small htr]
  have hloop : loopRes (challengeStep es now) a es = loopRes (challengeStep es now)
      { a with req := { a.req with status := r.status, challengeStatus := cs.challengeStatus, remainingTries := cs.remainingTries }, numStatus := a.numStatus + 1 } rest := by
    have s0 : challengeStep es now a (nniBlock T.Status r.status.toNat) =
        .ok { a with req := { a.req with status := r.status }, numStatus := a.numStatus + 1 } := by
      rw [h2]
      exact challengeStep_status _ hsb _ _ _ hl
    generalize challengeStep es now = f at *
    rw [h2]
    simp only [loopRes, s0]
    rw [s1 _ (by exact hl)]
    dsimp only
    rw [s2 _ (by exact hl)]
  rw [hloop] at hok ⊢
  exact challengeLoop_rest es now rest hty hok

/-- what an object knows after a reply that reports success -/
theorem success_loop {r : RequestState} {issued hint : Name} {es : List Block} {now : Time} {a : ChalDecAcc} (hes : challengeElems r issued hint = .ok es)
    (hst : r.status = .success) (hcs : r.challengeState = none) (hl : a.lookingForNonce = false) (hi : Name.Wf issued) (hh : Name.Wf hint)
    (hsz : (encodeAll es).length < 2 ^ 32) :
    (loopRes (challengeStep es now) a es).1.req.status = .success ∧
      (issued ≠ [] → (loopRes (challengeStep es now) a es).1.req.issuedCertName = issued ∧
        (loopRes (challengeStep es now) a es).1.req.forwardingHint = hint) := by
  obtain ⟨st, h1, h2⟩ := challengeElems_ok hes
  rw [hcs] at h1
  dsimp only at h1
  injection h1 with h1
  subst h1
  rw [List.nil_append] at h2
  have hsb : statusFromBlock (nniBlock T.Status r.status.toNat) = .ok r.status := by rw [hst]; rfl
  have s0 : challengeStep es now a (nniBlock T.Status r.status.toNat) =
      .ok { a with req := { a.req with status := r.status }, numStatus := a.numStatus + 1 } := by
    rw [h2]
    exact challengeStep_status _ hsb _ _ _ hl
  by_cases hne : issued = []
  · rw [if_pos hne] at h2
    have : loopRes (challengeStep es now) a es = ({ a with req := { a.req with status := r.status }, numStatus := a.numStatus + 1 }, .ok ()) := by
      generalize challengeStep es now = f at *
      rw [h2]
      simp only [loopRes, s0]
    rw [this]
    exact ⟨hst, fun h => absurd hne h⟩
  · rw [if_neg hne] at h2
    have m1 : nestedBlock T.IssuedCertName (nameBlock issued) ∈ es := by rw [h2]; simp
    have m2 : nestedBlock T.ForwardingHint (nameBlock hint) ∈ es := by rw [h2]; simp
    have l1 : (nameBlock issued).encode.length ≤ (encodeAll es).length := mem_encodeAll_length m1
    have l2 : (nameBlock hint).encode.length ≤ (encodeAll es).length := mem_encodeAll_length m2
    have k1 : (encodeAll issued).length ≤ (nameBlock issued).encode.length := encode_length_ge (nameBlock issued)
    have k2 : (encodeAll hint).length ≤ (nameBlock hint).encode.length := encode_length_ge (nameBlock hint)
    have hloop := challengeLoop_tail es now issued hint (nameFits_of_wf hi (by omega)) (nameFits_of_wf hh (by omega))
      { a with req := { a.req with status := r.status }, numStatus := a.numStatus + 1 } hl
    have : loopRes (challengeStep es now) a es = loopRes (challengeStep es now)
        { a with req := { a.req with status := r.status }, numStatus := a.numStatus + 1 }
        [nestedBlock T.IssuedCertName (nameBlock issued), nestedBlock T.ForwardingHint (nameBlock hint)] := by
      generalize challengeStep es now = f at *
      rw [h2]
      rw [loopRes, s0]
    rw [this, hloop]
    exact ⟨hst, fun _ => ⟨rfl, rfl⟩⟩

/-- a step in which something was sent handled a message, to the end or not -/
theorem handled_step {h : List (Step σ)} {s : CaState σ} (hx : Exec C S cfg h s) {n : Step σ} (hn : n ∈ h) {d : Data} (hd : d ∈ sent n.effects) :
    ∃ h1 h2 m env k, h = h1 ++ n :: h2 ∧ Exec C S cfg h1 n.pre ∧ n.Handles m env ∧ n.effects = (handle C S cfg n.pre m env).effects.take k ∧
      m.Wf cfg ∧ env.Wf := by
  obtain ⟨h1, h2, rfl⟩ := List.append_of_mem hn
  obtain ⟨hp, hwf, _, he, _⟩ := hx.split h1 n h2 rfl
  unfold Step.Handles
  cases hev : n.event with
  | msg m env =>
    rw [hev] at he hwf
    exact ⟨h1, h2, m, env, (handle C S cfg n.pre m env).effects.length, rfl, hp, rfl, by rw [he, List.take_length]; rfl, (hwf m env rfl).1, (hwf m env rfl).2⟩
  | crash m env k newKey =>
    rw [hev] at he hwf
    exact ⟨h1, h2, m, env, k, rfl, hp, rfl, he, (hwf m env rfl).1, (hwf m env rfl).2⟩
  | restart newKey =>
    rw [hev] at he
    rw [he] at hd
    cases hd

/-- what precedes a reply was done before it -/
theorem sent_before {pre post : List Effect} {d d' : Data} (hpre : sent pre = []) (hpost : sent post = []) {k : Nat}
    (h : d ∈ sent ((pre ++ .put d' :: post).take k)) : d = d' ∧ ∀ e ∈ pre, e ∈ (pre ++ .put d' :: post).take k := by
  by_cases hk : k ≤ pre.length
  · rw [List.take_append_of_le_length hk] at h
    have : List.Sublist (sent (pre.take k)) (sent pre) := by
      rw [sent_eq, sent_eq]
      exact (List.take_sublist k pre).filterMap _
    rw [hpre] at this
    rw [List.sublist_nil.mp this] at h
    cases h
  · refine ⟨?_, ?_⟩
    · have : List.Sublist (sent ((pre ++ .put d' :: post).take k)) (sent (pre ++ .put d' :: post)) := by
        rw [sent_eq, sent_eq]
        exact (List.take_sublist k _).filterMap _
      have h1 := this.subset h
      rw [sent_append, hpre] at h1
      have h2 : sent (.put d' :: post) = [d'] := by
        show d' :: sent post = [d']
        rw [hpost]
      rw [h2] at h1
      simpa using h1
    · intro e he
      rw [List.take_append]
      rw [List.take_of_length_le (by omega)]
      exact List.mem_append_left _ he

/-- an error reply does not decrypt -/
theorem error_not_opened {code : ErrorCode} {info : Bytes} {b : Block} (hb : b = errorEncode code info) (hsz : b.val.length < 2 ^ 64) {key div eiv pt : Bytes}
    {id : RequestId} : (decodeAes C b key id div eiv).2 ≠ .ok pt := by
  intro h
  obtain ⟨els, ct, iv', tag, h1, h2, _⟩ := decodeAes_ok (Prod.ext rfl h)
  have he : b.elements = .ok [nniBlock T.ErrorCode code, binBlock T.ErrorInfo info] := by
    subst hb
    refine elements_mkBlock _ _ (fits_of_total ?_ hsz)
    intro e he
    simp at he
    rcases he with rfl | rfl <;> simp
  unfold Block.elements at he
  rw [he] at h1
  cases h1
  cases h2

/-- an error reply is not a reply to NEW or REVOKE -/
theorem error_not_reply {code : ErrorCode} {info : Bytes} {b : Block} (hb : b = errorEncode code info) (hsz : b.val.length < 2 ^ 64) (salt : Bytes)
    (id : RequestId) (x : Bytes × List Bytes) : (requestDecode b salt id).2 ≠ .ok x := by
  have he : b.elements = .ok [nniBlock T.ErrorCode code, binBlock T.ErrorInfo info] := by
    subst hb
    refine elements_mkBlock _ _ (fits_of_total ?_ hsz)
    intro e he
    simp at he
    rcases he with rfl | rfl <;> simp
  unfold requestDecode
  rw [he]
  have hs : requestStep { salt := salt, requestId := id } (nniBlock T.ErrorCode code) = .exc .runtime := by
    unfold requestStep
    simp [isCriticalType]
  simp only [loopRes, hs]
  intro h
  cases h

/-- which callback saw an Interest -/
theorem dispatched_name {m : Msg} (hd : m.Dispatched cfg) {w : Block} {rest : List Block} (hn : m.interest.name = cfg.profile.caPrefix ++ gcomp (bytes! "CA") :: w :: rest) :
    (w = gcomp (bytes! "CHALLENGE") → m = .challenge m.interest) ∧ (w = gcomp (bytes! "NEW") → m = .new m.interest) ∧
      (w = gcomp (bytes! "REVOKE") → m = .revoke m.interest) := by
  obtain ⟨hd, h1, h2⟩ := hd
  unfold Handler.For at h2
  rw [hn, show cfg.profile.caPrefix ++ [gcomp (bytes! "CA")] ++ hd.words = cfg.profile.caPrefix ++ (gcomp (bytes! "CA") :: hd.words) by simp,
    List.prefix_append_right_inj, List.cons_prefix_cons] at h2
  have h2 := h2.2
  generalize m.interest = i at *
  cases hd with
  | discovery => cases h1
  | probe =>
    simp only [Handler.words, List.cons_prefix_cons] at h2
    refine ⟨fun h => ?_, fun h => ?_, fun h => ?_⟩ <;> (rw [h] at h2; exact absurd h2.1 (by decide))
  | new =>
    simp only [Handler.words, List.cons_prefix_cons] at h2
    refine ⟨fun h => ?_, fun h => ?_, fun h => ?_⟩
    · rw [h] at h2; exact absurd h2.1 (by decide)
    · injection h1 with h1; exact h1.symm
    · rw [h] at h2; exact absurd h2.1 (by decide)
  | challenge =>
    simp only [Handler.words, List.cons_prefix_cons] at h2
    refine ⟨fun h => ?_, fun h => ?_, fun h => ?_⟩
    · injection h1 with h1; exact h1.symm
    · rw [h] at h2; exact absurd h2.1 (by decide)
    · rw [h] at h2; exact absurd h2.1 (by decide)
  | revoke =>
    simp only [Handler.words, List.cons_prefix_cons] at h2
    refine ⟨fun h => ?_, fun h => ?_, fun h => ?_⟩
    · rw [h] at h2; exact absurd h2.1 (by decide)
    · rw [h] at h2; exact absurd h2.1 (by decide)
    · injection h1 with h1; exact h1.symm

/-- the object accepted a reply the CA made in this step -/
theorem answered_challenge (hC : C.Lawful) (hS : LawfulStore C S Inv) (hcfg : NameFits cfg.profile.caPrefix) {h : List (Step σ)} {s : CaState σ}
    (hx : Exec C S cfg h s) {n : Step σ} (hn : n ∈ h) {d : Data} (hd : d ∈ sent n.effects) {j : Interest} {env : Env} (hh : n.Handles (.challenge j) env)
    {q : Request} {now : Time} (hok : (onChallengeResponse C q d now).2 = .ok ()) (hsz : d.content.val.length < 2 ^ 32)
    (hown : OpensOnlyOwn C h q.aesKey q.requestId) (hnames : ∀ n ∈ h, ∀ c, .issue c ∈ n.effects → Name.Wf c.name) (hhint : Name.Wf cfg.profile.forwardingHint) :
    ∃ r, Authentic C S cfg n.pre.store j env r ∧ r.encryptionKey = q.aesKey ∧ r.requestId = q.requestId ∧
      SameOutcome C cfg n env r (onChallengeResponse C q d now).1 := by
  obtain ⟨h1, h2, m, env', k, rfl, hp, hh', heff, hmw, hew⟩ := handled_step hx hn hd
  unfold Step.Handles at hh hh'
  rw [hh] at hh'
  injection hh' with hh'
  injection hh' with e1 e2
  subst e1 e2
  have hi := (hp.life hC hS hcfg).1
  obtain ⟨t, pt, es0, ht1, ht2, hdec, hpar, htells⟩ := onChallengeResponse_told hok
  have key : ∀ {r : RequestState} {r1 r2 : RequestState} {issued hint : Name} {payload : Block}, Verified C S cfg n.pre.store j env r →
      r1.encryptionKey = r.encryptionKey → r1.requestId = r.requestId → challengeEncode C r1 issued hint env.ivRnd = (r2, .ok payload) →
      d = mkData C cfg.profile.caPrefix j.name payload →
      Authentic C S cfg n.pre.store j env r ∧ r.encryptionKey = q.aesKey ∧ r.requestId = q.requestId ∧
        ∃ es, challengeElems r1 issued hint = .ok es ∧ es0 = es ∧ (encodeAll es).length < 2 ^ 32 := by
    intro r r1 r2 issued hint payload hv k1 k2 henc hdd
    have ha := (verified_authentic hS hi (idFits_of_wf hmw) hew.stack).mp hv
    obtain ⟨ha1, ma, hb, ty, i0, env0, r0, rfl, hadd, hsame, _, _⟩ := hp.pending hC hS hcfg ha.pending
    obtain ⟨es, hes, hen⟩ := challengeEncode_encloses (cfg := cfg) (name := j.name) henc
    rw [← hdd] at hen
    have hen' : Encloses C r0 d es := encloses_congr (by rw [k1]; exact hsame.2.2.2.2.symm) (by rw [k2]; exact hsame.1.symm) hen
    obtain ⟨g1, g2, g3, g4⟩ := opened_reply hC hen' hsz hdec (hown ma (by simp) r0 hadd.effect)
    refine ⟨ha, by rw [← hsame.2.2.2.2]; exact g1, by rw [← hsame.1]; exact g2, es, hes, ?_, g4⟩
    rw [g3, parse_encodeAll es (fits_of_total (challengeElems_typ hes) (by omega))] at hpar
    injection hpar with hpar
    exact hpar.symm
  have hacc := accepted_loop hok (es := es0) (fun pt' h' => by rw [hdec] at h'; injection h' with h'; subst h'; exact hpar)
  have herr : ∀ code info, d = errorData C cfg.profile.caPrefix j.name code info → False := by
    intro code info hdd
    have : d.content = errorEncode code info := by rw [hdd]; rfl
    exact error_not_opened (C := C) this (by omega) hdec
  have hc := onChallenge_cases C S cfg n.pre.store j env
  have heff' : n.effects = (onChallenge C S cfg n.pre.store j env).effects.take k := heff
  rw [heff'] at hd
  generalize onChallenge C S cfg n.pre.store j env = o at hd hc heff'
  have hnil : sent o.effects = [] → False := by
    intro h
    have : List.Sublist (sent (o.effects.take k)) (sent o.effects) := by
      rw [sent_eq, sent_eq]
      exact (List.take_sublist _ _).filterMap _
    rw [h] at this
    rw [List.sublist_nil.mp this] at hd
    cases hd
  cases hc with
  | undefined u _ => exact (hnil rfl).elim
  | noRequest info h => exact (herr _ _ (sent_before (pre := []) (post := []) rfl rfl hd).1).elim
  | badSig r' info h h' => exact (herr _ _ (sent_before (pre := []) (post := []) rfl rfl hd).1).elim
  | reject r' code info hv' hcode => exact (herr _ _ (sent_before (pre := [.dbDelete r'.requestId]) (post := []) rfl rfl hd).1).elim
  | early r' t' hv' ht => exact (hnil rfl).elim
  | continued r div es k' out r2 payload hv ho hm hst henc =>
    obtain ⟨b1, b2⟩ := sent_before (pre := out.mails.map .mail ++ [.dbUpdate r2]) (post := [.callback r2])
      (d' := mkData C cfg.profile.caPrefix j.name payload) (by rw [sent_append, sent_mail]; rfl) rfl (by simpa using hd)
    obtain ⟨hq1, hq2⟩ := hm.req
    obtain ⟨a1, a2, a3, els, a4, rfl, a5⟩ := key hv hq1 hq2 henc b1
    obtain ⟨_, iv, _, hr2, _⟩ := challengeEncode_ok henc
    have hcs : ∃ cs, out.req.challengeState = some cs ∧ cs.remainingTries ≤ 3 := by
      cases hm with
      | error code info hcode => cases hst
      | start cstat secrets mails hs hstc => exact ⟨_, rfl, by show k'.maxTries ≤ 3; cases k' <;> decide⟩
      | wrong cs code given hs hk ha hg hne ht htr time =>
        refine ⟨_, rfl, ?_⟩
        rcases hp.waiting hC hS hcfg a1.pending with hf | ⟨k0, env0, cs0, hin⟩
        · exact absurd hf.1 hs
        · have h1 : r.challengeState = some cs := ha.1
          rw [hin.state] at h1
          injection h1 with h1
          subst h1
          have := hin.tries.2
          dsimp only
          omega
      | code cs code hs hk ha hg ht => cases hst
      | proof cs cred nonce p hs hk ha hg hl hv => cases hst
    obtain ⟨cs, hcs, htr⟩ := hcs
    obtain ⟨div', l1, l2⟩ := hacc
    obtain ⟨c1, c2⟩ := continued_loop a4 hst hcs (by omega) rfl l2
    refine ⟨r, a1, a2, a3, .continued r2 cs ?_ ?_ ?_ ?_ ?_ ?_ ?_⟩
    · rw [heff']
      have := b2 (.dbUpdate r2) (by simp)
      simpa using this
    · rw [hr2]; exact hq2
    · rw [hr2]; exact hst
    · rw [hr2]; exact hcs
    · obtain ⟨b, t1, t2⟩ := htells
      obtain ⟨rest, rfl⟩ := challengeElems_status a4
      have : b = nniBlock T.Status out.req.status.toNat := by
        rw [List.filter_cons, if_pos (by simp)] at t1
        injection t1 with t1
        exact t1.symm
      rw [this, hst] at t2
      have h3 : statusFromBlock (nniBlock T.Status Status.challenge.toNat) = .ok .challenge := rfl
      rw [h3] at t2
      injection t2 with t2
      exact t2.symm
    · rw [l1]; exact c1
    · rw [l1]; exact c2
  | contThrew r div es k' out t hv ho hm hst ht => exact (hnil (sent_mail _)).elim
  | issued r div es k' out c r2 payload hv ho hm hst hty hiss henc =>
    obtain ⟨b1, b2⟩ := sent_before (pre := [.issue c, .dbDelete r.requestId]) (post := [.callback r2])
      (d' := mkData C cfg.profile.caPrefix j.name payload) rfl rfl hd
    obtain ⟨hq1, hq2⟩ := hm.req
    obtain ⟨a1, a2, a3, els, a4, rfl, a5⟩ := key (r1 := { out.req with cert := c, status := .success }) hv hq1 hq2 henc b1
    obtain ⟨div', l1, l2⟩ := hacc
    have hcn : out.req.challengeState = none ∧ out.req.cert = r.cert := by
      cases hm with
      | error code info hcode => cases hst
      | start cstat secrets mails hs hstc => cases hst
      | wrong cs code given hs hk ha hg hne ht htr time => cases hst
      | code cs code hs hk ha hg ht => exact ⟨rfl, rfl⟩
      | proof cs cred nonce p hs hk ha hg hl hv => exact ⟨rfl, rfl⟩
    have hsig : Effect.issue c ∈ n.effects := by
      rw [heff']
      exact b2 _ (by simp)
    have hre := issueCertificate_reissues hiss
    rw [hcn.2] at hre
    have hne : c.name ≠ [] := by rw [hre.1]; simp
    obtain ⟨c1, c2⟩ := success_loop (a := { req := { q with decryptionIv := div' } }) (now := now) a4 rfl hcn.1 rfl (hnames n hn c hsig) hhint a5
    rw [← l1] at c1 c2
    refine ⟨r, a1, a2, a3, .issued c (by rcases hty with h | h <;> rw [h] <;> simp) hsig hre c1 (c2 hne).1 (c2 hne).2⟩
  | issueThrew r div es k' out c t hv ho hm hst hty hiss ht => exact (hnil rfl).elim
  | revoked r div es k' out r2 payload hv ho hm hst hty henc =>
    obtain ⟨b1, b2⟩ := sent_before (pre := [.dbDelete r.requestId]) (post := [.callback r2])
      (d' := mkData C cfg.profile.caPrefix j.name payload) rfl rfl hd
    obtain ⟨hq1, hq2⟩ := hm.req
    obtain ⟨a1, a2, a3, els, a4, rfl, a5⟩ := key (r1 := { out.req with status := .success }) hv hq1 hq2 henc b1
    obtain ⟨div', l1, l2⟩ := hacc
    have hcn : out.req.challengeState = none := by
      cases hm with
      | error code info hcode => cases hst
      | start cstat secrets mails hs hstc => cases hst
      | wrong cs code given hs hk ha hg hne ht htr time => cases hst
      | code cs code hs hk ha hg ht => rfl
      | proof cs cred nonce p hs hk ha hg hl hv => rfl
    obtain ⟨c1, c2⟩ := success_loop (a := { req := { q with decryptionIv := div' } }) (now := now) a4 rfl hcn rfl (by unfold Name.Wf; simp) (by unfold Name.Wf; simp) a5
    rw [← l1] at c1
    refine ⟨r, a1, a2, a3, .revoked hty ?_ c1⟩
    rw [heff']
    exact b2 _ (by simp)
  | revokeThrew r div es k' out t hv ho hm hst hty ht => exact (hnil rfl).elim

/-- the step that sent the reply to `j` handled `j` -/
theorem answered_by {h : List (Step σ)} {s : CaState σ} (hx : Exec C S cfg h s) {cert : Cert} {j : Interest} {d : Data}
    (hnet : Delivered C cfg h cert j d) {k : Step σ} (hk : k ∈ h) (hd : d ∈ sent k.effects) :
    ∃ m env, k.Handles m env ∧ m.interest = j := by
  obtain ⟨_, _, m', env, kk, _, _, hh, heff, _⟩ := handled_step hx hk hd
  refine ⟨m', env, hh, hnet.digest k hk m' env hh ?_⟩
  rw [← hnet.named]
  have hsub : List.Sublist (sent k.effects) (sent (handle C S cfg k.pre m' env).effects) := by
    rw [heff, sent_eq, sent_eq]
    exact (List.take_sublist _ _).filterMap _
  rcases handle_sent (C := C) (S := S) (cfg := cfg) k.pre m' env with h0 | ⟨d', h0, h1⟩
  · rw [h0] at hsub
    rw [List.sublist_nil.mp hsub] at hd
    cases hd
  · rw [h0] at hsub
    have := hsub.subset hd
    rw [List.mem_singleton] at this
    rw [this, h1]

/-- the object accepted a reply the CA made to its NEW or REVOKE in this step -/
theorem answered_new {ty : RequestType} (hty : ty = .new ∨ ty = .revoke) (hC : C.Honest) {idKey : Bytes} {st : σ} {env : Env} (he : env.Wf)
    {q : Request} (hq : Props.Trusts C cfg q) (hid : q.requestId.length = 8) {i : Interest} {cert : Cert}
    (hi : i.params = some (requestParamsEncode ty (C.ecdhPub q.ecdhPriv) cert))
    (hl : (requestParamsEncode ty (C.ecdhPub q.ecdhPriv) cert).val.length < 2 ^ 64) {k : Nat} {d : Data}
    (hd : d ∈ sent ((onNewRenewRevoke C S cfg idKey st ty i env).effects.take k)) (hsz : d.content.val.length < 2 ^ 64)
    {stack : Bytes} (hs : stack.length = 32) {l : List Bytes} (hok : (onNewResponse C q d stack).2 = .ok l) :
    ∃ rs, Effect.dbAdd rs ∈ (onNewRenewRevoke C S cfg idKey st ty i env).effects.take k ∧
      (onNewResponse C q d stack).1.requestId = rs.requestId ∧ (onNewResponse C q d stack).1.aesKey = rs.encryptionKey ∧
      l = cfg.profile.supportedChallenges := by
  have hc := onNew_cases C S cfg idKey st ty hty i env
  have hag := fun rs hacc hsz' => Props.agree (S := S) (idKey := idKey) (st := st) (rs := rs) (stack := stack) hty hC he hq hid hi hl hacc hs hsz'
  generalize onNewRenewRevoke C S cfg idKey st ty i env = o at hd hc hag ⊢
  cases hc with
  | accept pub cert' secret st' h1 h2 h3 h4 h5 h6 h7 h8 =>
    obtain ⟨b1, b2⟩ := sent_before (pre := [.dbAdd (newRequestState C cfg idKey ty cert' secret env.salt)])
      (post := [.callback (newRequestState C cfg idKey ty cert' secret env.salt)])
      (d' := mkData C cfg.profile.caPrefix i.name (requestEncode (C.ecdhPub env.ecdhPriv) env.salt
        (newRequestState C cfg idKey ty cert' secret env.salt).requestId cfg.profile.supportedChallenges)) rfl rfl hd
    refine ⟨newRequestState C cfg idKey ty cert' secret env.salt, b2 _ (List.mem_singleton.mpr rfl), ?_⟩
    obtain ⟨d', g1, g2⟩ := hag (newRequestState C cfg idKey ty cert' secret env.salt) (by simp [acceptOutcome]) (by
      intro x hx
      have hx' : x ∈ [mkData C cfg.profile.caPrefix i.name (requestEncode (C.ecdhPub env.ecdhPriv) env.salt
        (newRequestState C cfg idKey ty cert' secret env.salt).requestId cfg.profile.supportedChallenges)] := hx
      rw [List.mem_singleton, ← b1] at hx'
      rw [hx']
      exact hsz)
    have hdd : d' = d := by
      have g1' : [mkData C cfg.profile.caPrefix i.name (requestEncode (C.ecdhPub env.ecdhPriv) env.salt
        (newRequestState C cfg idKey ty cert' secret env.salt).requestId cfg.profile.supportedChallenges)] = [d'] := g1
      injection g1' with g1'
      rw [← g1', b1]
    rw [hdd] at g2
    rw [g2] at hok ⊢
    injection hok with hok
    exact ⟨rfl, rfl, hok.symm⟩
  | error code info _ =>
    exfalso
    have hdd := (sent_before (pre := []) (post := []) rfl rfl hd).1
    have hcont : d.content = errorEncode code info := by rw [hdd]; rfl
    unfold onNewResponse at hok
    split at hok
    · cases hok
    · cases hok
    · have hne := fun x => error_not_reply hcont hsz stack q.requestId x
      rcases hrd : requestDecode d.content stack q.requestId with ⟨⟨salt, id'⟩, res⟩
      rw [hrd] at hok hne
      dsimp only at hok hne
      cases res with
      | exc e => cases hok
      | ub u => cases hok
      | ok x => exact hne x rfl
  | threwCa e _ => simp [sent] at hd
  | threw pub cert _ _ _ e => simp [sent] at hd
  | undefined r u _ => simp [sent] at hd

end Ndncert
