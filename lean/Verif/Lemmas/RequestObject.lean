import Verif.Spec.RequestObject
import Verif.Lemmas.ClientCrash
import Verif.Lemmas.Session
import Verif.Lemmas.CaIv

/-! # Lemmas about the calls on a `Request` object -/

namespace Ndncert

variable {C : Crypto}

/-! ## What a call leaves alone -/

/-- what the decoder of CHALLENGE replies leaves alone, besides `Request.Frame` -/
structure Request.Core (r r' : Request) : Prop where
  profile : r'.profile = r.profile
  priv : r'.ecdhPriv = r.ecdhPriv
  key : r'.aesKey = r.aesKey
  pair : r'.keyPair = r.keyPair
  id : r'.requestId = r.requestId
  enc : r'.encryptionIv = r.encryptionIv

theorem Request.Core.rfl' {r : Request} : r.Core r := ⟨rfl, rfl, rfl, rfl, rfl, rfl⟩

theorem Request.Core.trans {a b c : Request} (h : a.Core b) (g : b.Core c) : a.Core c :=
  ⟨g.1.trans h.1, g.2.trans h.2, g.3.trans h.3, g.4.trans h.4, g.5.trans h.5, g.6.trans h.6⟩

theorem challengeStep_core {es : List Block} {now : Time} {a a' : ChalDecAcc} {item : Block}
    (h : challengeStep es now a item = .ok a') : a.req.Core a'.req := by
  unfold challengeStep at h
  have fin : ∀ {x : ChalDecAcc}, (Res.ok x : Res ChalDecAcc) = .ok a' → a.req.Core x.req → a.req.Core a'.req := by
    intro x hx hc
    injection hx with hx
    subst hx
    exact hc
  split at h
  · split at h
    · rw [Res.bind_eq_ok] at h
      obtain ⟨b, _, h⟩ := h
      rw [Res.bind_eq_ok] at h
      obtain ⟨s, _, h⟩ := h
      exact fin h ⟨rfl, rfl, rfl, rfl, rfl, rfl⟩
    split at h
    · exact fin h ⟨rfl, rfl, rfl, rfl, rfl, rfl⟩
    split at h
    · rw [Res.bind_eq_ok] at h
      obtain ⟨b, _, h⟩ := h
      exact fin h ⟨rfl, rfl, rfl, rfl, rfl, rfl⟩
    split at h
    · rw [Res.bind_eq_ok] at h
      obtain ⟨b, _, h⟩ := h
      rw [Res.bind_eq_ok] at h
      obtain ⟨s, _, h⟩ := h
      exact fin h ⟨rfl, rfl, rfl, rfl, rfl, rfl⟩
    split at h
    · rw [Res.bind_eq_ok] at h
      obtain ⟨b, _, h⟩ := h
      rw [Res.bind_eq_ok] at h
      obtain ⟨s, _, h⟩ := h
      exact fin h ⟨rfl, rfl, rfl, rfl, rfl, rfl⟩
    split at h
    · rw [Res.bind_eq_ok] at h
      obtain ⟨b, _, h⟩ := h
      rw [Res.bind_eq_ok] at h
      obtain ⟨s, _, h⟩ := h
      exact fin h ⟨rfl, rfl, rfl, rfl, rfl, rfl⟩
    split at h
    · split at h
      · exact fin h ⟨rfl, rfl, rfl, rfl, rfl, rfl⟩
      · cases h
    split at h
    · cases h
    · exact fin h ⟨rfl, rfl, rfl, rfl, rfl, rfl⟩
  · split at h
    · split at h
      · cases h
      · exact fin h ⟨rfl, rfl, rfl, rfl, rfl, rfl⟩
    · cases h

theorem challengeLoop_core (es0 : List Block) (now : Time) (es : List Block) (a : ChalDecAcc) :
    a.req.Core (loopRes (challengeStep es0 now) a es).1.req := by
  induction es generalizing a with
  | nil => exact .rfl'
  | cons e es ih =>
    unfold loopRes
    split
    · next a' h => exact (challengeStep_core h).trans (ih a')
    · exact .rfl'
    · exact .rfl'

theorem onChallengeResponse_core (C : Crypto) (r : Request) (d : Data) (now : Time) : r.Core (onChallengeResponse C r d now).1 := by
  unfold onChallengeResponse
  split
  · exact .rfl'
  · exact .rfl'
  unfold challengeDecode
  dsimp only
  split
  · exact ⟨rfl, rfl, rfl, rfl, rfl, rfl⟩
  · exact ⟨rfl, rfl, rfl, rfl, rfl, rfl⟩
  split
  · exact ⟨rfl, rfl, rfl, rfl, rfl, rfl⟩
  · exact ⟨rfl, rfl, rfl, rfl, rfl, rfl⟩
  next es hes =>
    have := challengeLoop_core es now es ({ req := { r with decryptionIv := (decodeAes C d.content r.aesKey r.requestId r.decryptionIv r.encryptionIv).1 } } : ChalDecAcc)
    exact ⟨this.1, this.2, this.3, this.4, this.5, this.6⟩

theorem genChallengeInterest_frame (C : Crypto) (r : Request) (m : MMap) (rnd : Bytes) :
    ∃ iv, (genChallengeInterest C r m rnd).1 = { r with encryptionIv := iv } := by
  unfold genChallengeInterest
  split
  · exact ⟨r.encryptionIv, rfl⟩
  split
  · exact ⟨r.encryptionIv, rfl⟩
  split
  · exact ⟨r.encryptionIv, rfl⟩
  · exact ⟨r.encryptionIv, rfl⟩
  dsimp only
  split
  · exact ⟨_, rfl⟩
  · exact ⟨_, rfl⟩
  split <;> exact ⟨_, rfl⟩

/-- `profile`, the ECDH key, and what each call may change -/
theorem run_frame (C : Crypto) (r : Request) (c : ReqCall) :
    (c.run C r).1.profile = r.profile ∧ (c.run C r).1.ecdhPriv = r.ecdhPriv ∧
    ((∀ m rnd, c ≠ .genChallenge m rnd) → (c.run C r).1.encryptionIv = r.encryptionIv) ∧
    ((∀ k nb na v, c ≠ .genNew k nb na v) → (c.run C r).1.keyPair = r.keyPair) ∧
    ((∀ d s, c ≠ .onNew d s) → (c.run C r).1.aesKey = r.aesKey ∧ (c.run C r).1.requestId = r.requestId) := by
  cases c with
  | genNew key nb na v =>
    unfold ReqCall.run genNewInterest
    dsimp only
    split
    · exact ⟨rfl, rfl, fun _ => rfl, fun _ => rfl, fun _ => ⟨rfl, rfl⟩⟩
    split
    · exact ⟨rfl, rfl, fun _ => rfl, fun _ => rfl, fun _ => ⟨rfl, rfl⟩⟩
    split
    · exact ⟨rfl, rfl, fun _ => rfl, fun _ => rfl, fun _ => ⟨rfl, rfl⟩⟩
    · exact ⟨rfl, rfl, fun _ => rfl, fun _ => rfl, fun _ => ⟨rfl, rfl⟩⟩
    split
    · exact ⟨rfl, rfl, fun _ => rfl, fun _ => rfl, fun _ => ⟨rfl, rfl⟩⟩
    · exact ⟨rfl, rfl, fun _ => rfl, fun h => absurd rfl (h key nb na v), fun _ => ⟨rfl, rfl⟩⟩
  | genRevoke cert => exact ⟨rfl, rfl, fun _ => rfl, fun _ => rfl, fun _ => ⟨rfl, rfl⟩⟩
  | onNew d s =>
    unfold ReqCall.run onNewResponse
    dsimp only
    have hn : (∀ d' s', ReqCall.onNew d s ≠ .onNew d' s') → False := fun h => h d s rfl
    split
    · exact ⟨rfl, rfl, fun _ => rfl, fun _ => rfl, fun h => (hn h).elim⟩
    · exact ⟨rfl, rfl, fun _ => rfl, fun _ => rfl, fun h => (hn h).elim⟩
    split
    · exact ⟨rfl, rfl, fun _ => rfl, fun _ => rfl, fun h => (hn h).elim⟩
    · exact ⟨rfl, rfl, fun _ => rfl, fun _ => rfl, fun h => (hn h).elim⟩
    split <;> exact ⟨rfl, rfl, fun _ => rfl, fun _ => rfl, fun h => (hn h).elim⟩
  | select ty =>
    unfold ReqCall.run selectOrContinueChallenge
    dsimp only
    split <;> exact ⟨rfl, rfl, fun _ => rfl, fun _ => rfl, fun _ => ⟨rfl, rfl⟩⟩
  | genChallenge m rnd =>
    obtain ⟨iv, h⟩ := genChallengeInterest_frame C r m rnd
    show (genChallengeInterest C r m rnd).1.profile = _ ∧ (genChallengeInterest C r m rnd).1.ecdhPriv = _ ∧
      (_ → (genChallengeInterest C r m rnd).1.encryptionIv = _) ∧ (_ → (genChallengeInterest C r m rnd).1.keyPair = _) ∧
      (_ → (genChallengeInterest C r m rnd).1.aesKey = _ ∧ (genChallengeInterest C r m rnd).1.requestId = _)
    rw [h]
    exact ⟨rfl, rfl, fun h => absurd rfl (h m rnd), fun _ => rfl, fun _ => ⟨rfl, rfl⟩⟩
  | onChallenge d now =>
    have h := onChallengeResponse_core C r d now
    exact ⟨h.1, h.2, fun _ => h.6, fun _ => h.4, fun _ => ⟨h.3, h.5⟩⟩

/-- `genNewInterest` sets the key pair exactly when it returns an Interest -/
theorem genNew_pair (C : Crypto) (r : Request) (key : Name) (nb na : Time) (v : Block) :
    (∃ i, (genNewInterest C r key nb na v).2 = .ok (some i)) ∨ (genNewInterest C r key nb na v).1.keyPair = r.keyPair := by
  unfold genNewInterest
  split
  · exact .inr rfl
  split
  · exact .inr rfl
  split
  · exact .inr rfl
  · exact .inr rfl
  split
  · exact .inr rfl
  · exact .inl ⟨_, rfl⟩

/-- the key changes only when a reply is accepted -/
theorem onNew_key (C : Crypto) (r : Request) (d : Data) (s : Bytes) :
    (∃ l, (onNewResponse C r d s).2 = .ok l) ∨ (onNewResponse C r d s).1.aesKey = r.aesKey := by
  unfold onNewResponse
  split
  · exact .inr rfl
  · exact .inr rfl
  dsimp only
  split
  · exact .inr rfl
  · exact .inr rfl
  split
  · exact .inr rfl
  · exact .inl ⟨_, rfl⟩

theorem Res.as_ok {α β : Type} {f : α → β} {x : Res α} {b : β} (h : x.as f = .ok b) : ∃ a, x = .ok a ∧ f a = b := by
  cases x with
  | ok a => injection h with h; exact ⟨a, rfl, h⟩
  | exc e => cases h
  | ub u => cases h

theorem Res.as_ub {α β : Type} {f : α → β} {x : Res α} {u : Ub} (h : x.as f = .ub u) : x = .ub u := by
  cases x with
  | ok a => cases h
  | exc e => cases h
  | ub u => injection h with h; rw [h]

/-! ## Runs -/

theorem ReqRun.snoc {r0 r : Request} {h : List Called} {n : Called} (hx : ReqRun C r0 (h ++ [n]) r) :
    ∃ r', ReqRun C r0 h r' ∧ n.call.Wf ∧ n.result = (n.call.run C r').2 ∧ (∀ u, n.result ≠ .ub u) ∧ r = (n.call.run C r').1 := by
  generalize hg : h ++ [n] = g at hx
  cases hx with
  | init => simp at hg
  | @call h' r' c prev wf defined =>
    have := List.append_inj' hg rfl
    obtain ⟨h1, h2⟩ := this
    injection h2 with h2 _
    subst h1 h2
    exact ⟨r', prev, wf, rfl, defined, rfl⟩

/-- a run up to one of its calls, that call, and what follows -/
theorem ReqRun.split {r0 r : Request} {h : List Called} (hx : ReqRun C r0 h r) : ∀ {h1 h2 : List Called} {n : Called}, h = h1 ++ n :: h2 →
    ∃ r1, ReqRun C r0 h1 r1 ∧ n.call.Wf ∧ n.result = (n.call.run C r1).2 ∧ ReqRun C (n.call.run C r1).1 h2 r := by
  induction hx with
  | init => intro h1 h2 n hh; simp at hh
  | @call h' r' c prev wf defined ih =>
    intro h1 h2 n hh
    rcases List.eq_nil_or_concat h2 with rfl | ⟨l, m, rfl⟩
    · obtain ⟨e1, e2⟩ := List.append_inj' hh rfl
      injection e2 with e2 _
      subst e1 e2
      exact ⟨r', prev, wf, rfl, .init⟩
    · have hh' : h' ++ [(⟨c, (c.run C r').2⟩ : Called)] = (h1 ++ n :: l) ++ [m] := by rw [hh]; simp
      obtain ⟨e1, e2⟩ := List.append_inj' hh' rfl
      injection e2 with e2 _
      subst e2
      obtain ⟨r1, p, q, s, t⟩ := ih e1
      refine ⟨r1, p, q, s, ?_⟩
      simpa using ReqRun.call c t wf defined

theorem ReqRun.frame {r0 r : Request} {h : List Called} (hx : ReqRun C r0 h r) : r.profile = r0.profile ∧ r.ecdhPriv = r0.ecdhPriv := by
  induction hx with
  | init => exact ⟨rfl, rfl⟩
  | call c prev wf defined ih =>
    obtain ⟨h1, h2, _⟩ := run_frame C _ c
    exact ⟨h1.trans ih.1, h2.trans ih.2⟩

/-- without a successful NEW Interest there is no key pair -/
theorem ReqRun.noPair {r0 r : Request} {h : List Called} (hx : ReqRun C r0 h r) (h0 : r0.keyPair = none)
    (hn : ∀ n ∈ h, ¬ n.MakesNew) : r.keyPair = none := by
  induction hx with
  | init => exact h0
  | @call h' r' c prev wf defined ih =>
    have ih' := ih (fun n hm => hn n (by simp [hm]))
    have hl := hn ⟨c, (c.run C r').2⟩ (by simp)
    cases c with
    | genNew key nb na v =>
      rcases genNew_pair C r' key nb na v with ⟨i, hi⟩ | h
      · exact absurd ⟨⟨key, nb, na, v, rfl⟩, i, by show (genNewInterest C r' key nb na v).2.as ReqReturn.ofOption = _; rw [hi]; rfl⟩ hl
      · exact h.trans ih'
    | genRevoke cert => exact ih'
    | onNew d s => exact ((run_frame C r' (.onNew d s)).2.2.2.1 (by simp)).trans ih'
    | select ty => exact ((run_frame C r' (.select ty)).2.2.2.1 (by simp)).trans ih'
    | genChallenge m rnd => exact ((run_frame C r' (.genChallenge m rnd)).2.2.2.1 (by simp)).trans ih'
    | onChallenge d now => exact ((run_frame C r' (.onChallenge d now)).2.2.2.1 (by simp)).trans ih'

/-- the key before any reply was accepted -/
theorem ReqRun.oldKey {r0 r : Request} {h : List Called} (hx : ReqRun C r0 h r) (hn : ∀ n ∈ h, ∀ d, ¬ n.AcceptsReply d) : r.aesKey = r0.aesKey := by
  induction hx with
  | init => rfl
  | @call h' r' c prev wf defined ih =>
    have ih' := ih (fun n hm => hn n (by simp [hm]))
    have hl := hn ⟨c, (c.run C r').2⟩ (by simp)
    cases c with
    | genNew key nb na v => exact ((run_frame C r' (.genNew key nb na v)).2.2.2.2 (by simp)).1.trans ih'
    | genRevoke cert => exact ih'
    | onNew d s =>
      rcases onNew_key C r' d s with ⟨l, h⟩ | h
      · exact absurd ⟨⟨s, rfl⟩, l, by show (onNewResponse C r' d s).2.as ReqReturn.challenges = _; rw [h]; rfl⟩ (hl d)
      · exact h.trans ih'
    | select ty => exact ((run_frame C r' (.select ty)).2.2.2.2 (by simp)).1.trans ih'
    | genChallenge m rnd => exact ((run_frame C r' (.genChallenge m rnd)).2.2.2.2 (by simp)).1.trans ih'
    | onChallenge d now => exact ((run_frame C r' (.onChallenge d now)).2.2.2.2 (by simp)).1.trans ih'

/-- key and request id while no reply to NEW or REVOKE is passed to the object -/
theorem ReqRun.sameKey {r0 r : Request} {h : List Called} (hx : ReqRun C r0 h r) (hn : ∀ n ∈ h, ∀ d s, n.call ≠ .onNew d s) :
    r.aesKey = r0.aesKey ∧ r.requestId = r0.requestId := by
  induction hx with
  | init => exact ⟨rfl, rfl⟩
  | @call h' r' c prev wf defined ih =>
    obtain ⟨i1, i2⟩ := ih (fun n hm => hn n (by simp [hm]))
    obtain ⟨g1, g2⟩ := (run_frame C r' c).2.2.2.2 (fun d s => hn ⟨c, (c.run C r').2⟩ (by simp) d s)
    exact ⟨g1.trans i1, g2.trans i2⟩

/-! ## Sizes -/

theorem varNumber_le (n : Nat) : (varNumber n).length ≤ 9 := by
  unfold varNumber
  split
  · simp
  split
  · simp
  split <;> simp

theorem encode_le (b : Block) : b.encode.length ≤ b.val.length + 18 := by
  unfold Block.encode
  have h1 := varNumber_le b.typ
  have h2 := varNumber_le b.val.length
  simp only [List.length_append]
  omega

theorem encode_pos (b : Block) : 0 < b.encode.length := by
  unfold Block.encode varNumber
  simp only [List.length_append]
  split
  · simp; omega
  split
  · simp; omega
  split <;> (simp; omega)

theorem mmFind_mem {m : MMap} {k v : Bytes} (h : mmFind m k = some v) : ∃ e ∈ m, e.2 = v := by
  unfold mmFind at h
  rw [Option.map_eq_some_iff] at h
  obtain ⟨e, he, rfl⟩ := h
  exact ⟨e, List.mem_of_find?_eq_some he, rfl⟩

theorem chalType_le (k : ChalKind) : k.chalType.length ≤ 10 := by cases k <;> decide

/-- the plaintext of a CHALLENGE Interest is not empty and, with parameters of less than 2^32 octets, far from the limit of GCM -/
theorem genChallengeTlv_size {k : ChalKind} {st : Status} {cs : Bytes} {m : MMap} {es : List Block}
    (hm : ∀ e ∈ m, e.2.length < 2 ^ 32) (h : genChallengeTlv k st cs m = .ok es) : 0 < (encodeAll es).length ∧ (encodeAll es).length ≤ 2 ^ 36 - 16 := by
  have three : ∀ {a b c : Block}, a.val.length ≤ 2 ^ 33 → b.val.length ≤ 2 ^ 33 → c.val.length ≤ 2 ^ 33 →
      0 < (encodeAll [a, b, c]).length ∧ (encodeAll [a, b, c]).length ≤ 2 ^ 36 - 16 := by
    intro a b c h1 h2 h3
    have e1 := encode_le a
    have e2 := encode_le b
    have e3 := encode_le c
    have e4 := encode_pos a
    simp only [encodeAll, List.flatMap_cons, List.flatMap_nil, List.length_append, List.length_nil]
    omega
  have two : ∀ {a b : Block}, a.val.length ≤ 2 ^ 33 → b.val.length ≤ 2 ^ 33 →
      0 < (encodeAll [a, b]).length ∧ (encodeAll [a, b]).length ≤ 2 ^ 36 - 16 := by
    intro a b h1 h2
    have e1 := encode_le a
    have e2 := encode_le b
    have e4 := encode_pos a
    simp only [encodeAll, List.flatMap_cons, List.flatMap_nil, List.length_append, List.length_nil]
    omega
  have ct : (binBlock T.SelectedChallenge k.chalType).val.length ≤ 2 ^ 33 := by
    have := chalType_le k
    simp only [binBlock]
    omega
  have code : ∀ {es}, genCodeTlv k m = .ok es → 0 < (encodeAll es).length ∧ (encodeAll es).length ≤ 2 ^ 36 - 16 := by
    intro es h
    unfold genCodeTlv at h
    split at h
    · cases h
    split at h
    · cases h
    next v hv =>
      injection h with h
      subst h
      obtain ⟨e, he, rfl⟩ := mmFind_mem hv
      have := hm e he
      exact three ct (by decide) (by simp only [binBlock]; omega)
  unfold genChallengeTlv at h
  split at h
  · split at h
    · injection h with h
      subst h
      have e1 := encode_le (binBlock T.SelectedChallenge ChalKind.pin.chalType)
      have e4 := encode_pos (binBlock T.SelectedChallenge ChalKind.pin.chalType)
      simp only [encodeAll, List.flatMap_cons, List.flatMap_nil, List.length_append, List.length_nil]
      omega
    split at h
    · exact code h
    · cases h
  · split at h
    · split at h
      · cases h
      split at h
      · cases h
      next v hv =>
        injection h with h
        subst h
        obtain ⟨e, he, rfl⟩ := mmFind_mem hv
        have := hm e he
        exact three ct (by decide) (by simp only [binBlock]; omega)
    split at h
    · exact code h
    · cases h
  · split at h
    · split at h
      · next key v =>
        split at h
        · rw [Res.bind_eq_ok] at h
          obtain ⟨b, hb, h⟩ := h
          injection h with h
          subst h
          have hv := hm (key, v) (by simp)
          have hp : parse v = .ok [b] := blockFromValue_iff.mp hb
          have hl := parse_val_le hp b (by simp)
          have e1 := encode_le b
          refine three ct (by decide) ?_
          simp only [mkBlock, encodeAll, List.flatMap_cons, List.flatMap_nil, List.length_append, List.length_nil]
          dsimp only at hv
          omega
        · cases h
      · cases h
    split at h
    · split at h
      · next key v =>
        split at h
        · injection h with h
          subst h
          have hv := hm (key, v) (by simp)
          exact two (by decide) (by simp only [binBlock]; dsimp only at hv; omega)
        · cases h
      · cases h
    · cases h

/-! ## IVs -/

theorem create_full (p : CaProfile) (ty : RequestType) (priv : Bytes) {id : RequestId} (hid : id.length = 8) : (Request.create p ty priv id).IvsFull :=
  ⟨.inl rfl, .inl rfl, hid⟩

theorem run_full {r : Request} {c : ReqCall} (hr : r.IvsFull) (wf : c.Wf) (hd : ∀ u, (c.run C r).2 ≠ .ub u) : (c.run C r).1.IvsFull := by
  cases c with
  | genNew key nb na v => exact genNew_full hr key nb na v
  | genRevoke cert => exact hr
  | onNew d s =>
    by_cases hp : r.profile.cert = none
    · exact absurd (by show (onNewResponse C r d s).2.as ReqReturn.challenges = .ub .nullDeref; unfold onNewResponse checkReply; rw [hp]; rfl) (hd .nullDeref)
    · exact (onNewResponse_full hr hp d wf).1
  | select ty => exact (selectOrContinue_full hr ty).2.1
  | genChallenge m rnd => exact (genChallengeInterest_full hr wf.1).2
  | onChallenge d now =>
    by_cases hp : r.profile.cert = none
    · exact absurd (by show (onChallengeResponse C r d now).2.as _ = .ub .nullDeref; unfold onChallengeResponse checkReply; rw [hp]; rfl) (hd .nullDeref)
    · exact (onChallengeResponse_full hr hp d now).2

theorem ReqRun.full {r0 r : Request} {h : List Called} (hx : ReqRun C r0 h r) (h0 : r0.IvsFull) : r.IvsFull := by
  induction hx with
  | init => exact h0
  | call c prev wf defined ih => exact run_full ih wf defined

/-- a CHALLENGE Interest and the IV in it -/
theorem sends_iv (hC : C.Lawful) {r : Request} (hr : r.IvsFull) {m : MMap} {rnd : Bytes} (wf : (ReqCall.genChallenge m rnd).Wf) {i : Interest}
    (hi : ((ReqCall.genChallenge m rnd).run C r).2 = .ok (.interest i)) :
    ∃ iv tag ct es, i.CarriesSealed iv tag ct ∧ iv = startIv r.encryptionIv rnd ∧ iv.length = 12 ∧ 0 < ct.length ∧
      (∃ k, createChallenge r.challengeType = some k ∧ genChallengeTlv k r.status r.challengeStatus m = .ok es) ∧
      C.aesDec r.aesKey iv r.requestId ct tag = some (encodeAll es) ∧
      ((ReqCall.genChallenge m rnd).run C r).1.encryptionIv.length = 12 ∧
      ivPrefix ((ReqCall.genChallenge m rnd).run C r).1.encryptionIv = ivPrefix iv ∧
      ivCounter ((ReqCall.genChallenge m rnd).run C r).1.encryptionIv = ivCounter iv + blocksOf ct.length ∧
      ∃ digest, i.name = r.profile.caPrefix ++ [⟨8, bytes! "CA"⟩, ⟨8, bytes! "CHALLENGE"⟩, ⟨8, r.requestId⟩, ⟨2, digest⟩] := by
  obtain ⟨i', hi', e⟩ := Res.as_ok hi
  injection e with e
  subst e
  rcases hg : genChallengeInterest C r m rnd with ⟨r', res⟩
  have h1 : ((ReqCall.genChallenge m rnd).run C r).1 = r' := by show (genChallengeInterest C r m rnd).1 = r'; rw [hg]
  rw [hg] at hi'
  dsimp only at hi'
  subst hi'
  obtain ⟨k, es, iv, b, kp, g1, g2, g3, g4, g5, g6⟩ := genChallengeInterest_ok hg
  obtain ⟨_, u1, u2⟩ := encodeAes_ok g3
  obtain ⟨s1, s2⟩ := genChallengeTlv_size wf.2 g2
  have hl := startIv_length hr.enc wf.1
  obtain ⟨v1, v2, v3, _⟩ := updateIv_ok hl s2 u1
  rw [h1, g5]
  have ht : (startIv r.encryptionIv rnd).take 12 = startIv r.encryptionIv rnd := List.take_of_length_le (by omega)
  rw [ht] at u2
  obtain ⟨c1, c2⟩ := hC.aes_length r.aesKey (startIv r.encryptionIv rnd) r.requestId (encodeAll es)
  refine ⟨startIv r.encryptionIv rnd, (C.aesEnc r.aesKey (startIv r.encryptionIv rnd) r.requestId (encodeAll es)).2,
    (C.aesEnc r.aesKey (startIv r.encryptionIv rnd) r.requestId (encodeAll es)).1, es, ?_, rfl, hl, by omega, ⟨k, g1, g2⟩, hC.aes_correct .., v1, v2, ?_, ?_⟩
  · refine ⟨b, [binBlock T.InitializationVector (startIv r.encryptionIv rnd),
        binBlock T.AuthenticationTag (C.aesEnc r.aesKey (startIv r.encryptionIv rnd) r.requestId (encodeAll es)).2,
        binBlock T.EncryptedPayload (C.aesEnc r.aesKey (startIv r.encryptionIv rnd) r.requestId (encodeAll es)).1], by rw [g6]; rfl, ?_, rfl, rfl⟩
    rw [u2]
    exact aes_elements _ _ _ _ (by omega) (by omega) (by omega)
  · rw [c1]; exact v3
  · rw [g6]
    exact ⟨C.paramsDigest (r.profile.caPrefix ++ [caComp, challengeComp, gcomp r.requestId]) b
      (C.keySignInterest kp.name (r.profile.caPrefix ++ [caComp, challengeComp, gcomp r.requestId]) b),
      by simp only [signedInterest, List.append_assoc, List.cons_append, List.nil_append]; rfl⟩

/-- once there is an IV, it only moves forward -/
theorem ReqRun.iv_mono {r0 r : Request} {h : List Called} (hx : ReqRun C r0 h r) (h12 : r0.encryptionIv.length = 12) :
    r.encryptionIv.length = 12 ∧ ivPrefix r.encryptionIv = ivPrefix r0.encryptionIv ∧ ivCounter r0.encryptionIv ≤ ivCounter r.encryptionIv := by
  induction hx with
  | init => exact ⟨h12, rfl, Nat.le_refl _⟩
  | @call h' r' c prev wf defined ih =>
    obtain ⟨i1, i2, i3⟩ := ih
    have other : (∀ m rnd, c ≠ .genChallenge m rnd) → (c.run C r').1.encryptionIv.length = 12 ∧
        ivPrefix (c.run C r').1.encryptionIv = ivPrefix r0.encryptionIv ∧ ivCounter r0.encryptionIv ≤ ivCounter (c.run C r').1.encryptionIv := by
      intro hn
      rw [(run_frame C r' c).2.2.1 hn]
      exact ⟨i1, i2, i3⟩
    cases c with
    | genNew key nb na v => exact other (by simp)
    | genRevoke cert => exact other (by simp)
    | onNew d s => exact other (by simp)
    | select ty => exact other (by simp)
    | onChallenge d now => exact other (by simp)
    | genChallenge m rnd =>
      show (genChallengeInterest C r' m rnd).1.encryptionIv.length = 12 ∧ ivPrefix (genChallengeInterest C r' m rnd).1.encryptionIv = _ ∧
        _ ≤ ivCounter (genChallengeInterest C r' m rnd).1.encryptionIv
      unfold genChallengeInterest
      split
      · exact ⟨i1, i2, i3⟩
      split
      · exact ⟨i1, i2, i3⟩
      split
      · exact ⟨i1, i2, i3⟩
      · exact ⟨i1, i2, i3⟩
      next es hes =>
      have hs := startIv_full (rnd := rnd) i1
      obtain ⟨e1, e2, e3⟩ := encodeAes_iv (C := C) (t := T.ApplicationParameters) (key := r'.aesKey) (aad := r'.requestId) (iv := r'.encryptionIv)
        (rnd := rnd) (payload := encodeAll es) (by rw [hs]; exact i1) (genChallengeTlv_size wf.2 hes).2
      rw [hs] at e2 e3
      dsimp only
      split
      · exact ⟨e1, e2.trans i2, Nat.le_trans i3 e3⟩
      · exact ⟨e1, e2.trans i2, Nat.le_trans i3 e3⟩
      split <;> exact ⟨e1, e2.trans i2, Nat.le_trans i3 e3⟩

end Ndncert
