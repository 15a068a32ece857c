import Verif.Lemmas.Number
import Verif.Lemmas.Client
import Verif.Lemmas.Config
import Verif.Lemmas.Iv

/-! # Undefined behaviour in the command line client -/

namespace Ndncert

/-! ## Requester functions -/

theorem genProfileName_no_ub (d : Data) (u : Ub) : genProfileName d ≠ .ub u := by
  unfold genProfileName
  intro h
  rcases Res.of_bind_ub h with h | ⟨es, _, h⟩
  · exact elements_no_ub _ _ h
  rcases Res.of_bind_ub h with h | ⟨nb, _, h⟩
  · exact getElem_no_ub _ _ _ h
  rcases Res.of_bind_ub h with h | ⟨nb, _, h⟩
  · exact nameOfBlock_no_ub _ _ h
  · cases h

theorem genDiscoveryName_no_ub (n : Name) (u : Ub) : genDiscoveryName n ≠ .ub u := by
  unfold genDiscoveryName
  split <;> simp

theorem readNni_no_ub (b : Block) (u : Ub) : readNni b ≠ .ub u := by
  unfold readNni
  split <;> simp

theorem blockFromValue_no_ub (b : Block) (u : Ub) : b.blockFromValue ≠ .ub u := by
  unfold Block.blockFromValue
  intro h
  rcases Res.of_bind_ub h with h | ⟨x, _, h⟩
  · exact readElement_no_ub _ _ h
  · dsimp only at h
    split at h <;> cases h

theorem probeNameStep_no_ub (a : Name × Int) (b : Block) (u : Ub) : probeNameStep a b ≠ .ub u := by
  unfold probeNameStep
  intro h
  split at h
  · split at h
    · cases h
    · rcases Res.of_bind_ub h with h | ⟨_, _, h⟩
      · exact nameOfBlock_no_ub _ _ h
      · cases h
  · split at h
    · rcases Res.of_bind_ub h with h | ⟨_, _, h⟩
      · exact readNni_no_ub _ _ h
      · cases h
    · split at h <;> cases h

theorem foldlM_no_ub {α β : Type} {f : α → β → Res α} {u : Ub} (hf : ∀ a b, f a b ≠ .ub u) :
    ∀ (l : List β) (a : α), l.foldlM f a ≠ .ub u
  | [], a, h => by cases h
  | b :: l, a, h => by
    rw [List.foldlM_cons] at h
    rcases Res.of_bind_ub h with h | ⟨a', _, h⟩
    · exact hf _ _ h
    · exact foldlM_no_ub hf l a' h

theorem probeStep_no_ub (a : List (Name × Int) × List Name) (b : Block) (u : Ub) : probeStep a b ≠ .ub u := by
  unfold probeStep
  intro h
  split at h
  · rcases Res.of_bind_ub h with h | ⟨_, _, h⟩
    · exact elements_no_ub _ _ h
    rcases Res.of_bind_ub h with h | ⟨_, _, h⟩
    · exact foldlM_no_ub (fun a b => probeNameStep_no_ub a b u) _ _ h
    · split at h <;> cases h
  · split at h
    · rcases Res.of_bind_ub h with h | ⟨_, _, h⟩
      · exact blockFromValue_no_ub _ _ h
      rcases Res.of_bind_ub h with h | ⟨_, _, h⟩
      · exact nameOfBlock_no_ub _ _ h
      · cases h
    · split at h <;> cases h

theorem probeDecode_no_ub (b : Block) (ns : List (Name × Int)) (rs : List Name) (u : Ub) : probeDecode b ns rs ≠ .ub u := by
  unfold probeDecode
  intro h
  rcases Res.of_bind_ub h with h | ⟨_, _, h⟩
  · exact elements_no_ub _ _ h
  · exact foldlM_no_ub (fun a b => probeStep_no_ub a b u) _ _ h

theorem checkReply_no_ub {C : Crypto} {p : CaProfile} (hp : p.cert ≠ none) (d : Data) (u : Ub) : checkReply C p d ≠ .ub u := by
  unfold checkReply
  split
  · next h => exact absurd h hp
  · split
    · unfold processIfError
      dsimp only
      split <;> simp
    · simp

theorem onProbeResponse_no_ub {C : Crypto} {p : CaProfile} (hp : p.cert ≠ none) (d : Data) (ns : List (Name × Int))
    (rs : List Name) (u : Ub) : onProbeResponse C d p ns rs ≠ .ub u := by
  unfold onProbeResponse
  intro h
  rcases Res.of_bind_ub h with h | ⟨_, _, h⟩
  · exact checkReply_no_ub hp _ _ h
  · exact probeDecode_no_ub _ _ _ _ h

theorem acceptProfile_ub {C : Crypto} {c : Client} {full : Name} {d : Data} {u : Ub} (h : acceptProfile C c full d = .ub u) :
    u = .nullDeref ∧ ∃ p, infoDecode C d.content = .ok p ∧ p.cert = none := by
  have hr : ∀ {u}, onCaProfileResponse C d = .ub u → u = .nullDeref ∧ ∃ p, infoDecode C d.content = .ok p ∧ p.cert = none := by
    intro u h
    unfold onCaProfileResponse at h
    rcases Res.of_bind_ub h with h | ⟨p, hp, h⟩
    · exact absurd h (infoDecode_no_ub _ _)
    · split at h
      · next hc =>
        injection h with h
        exact ⟨h.symm, p, hp, hc⟩
      · split at h <;> cases h
  unfold acceptProfile at h
  split at h
  · split at h
    · split at h
      · exact hr h
      · cases h
    · exact hr h
  · unfold onCaProfileResponseAfterRedirection at h
    rcases Res.of_bind_ub h with h | ⟨p, hp, h⟩
    · exact absurd h (infoDecode_no_ub _ _)
    · split at h
      · next hc =>
        injection h with h
        exact ⟨h.symm, p, hp, hc⟩
      · split at h
        · cases h
        · exact hr h

theorem acceptProfile_cert {C : Crypto} {c : Client} {full : Name} {d : Data} {p : CaProfile}
    (h : acceptProfile C c full d = .ok p) : p.cert ≠ none := by
  unfold acceptProfile at h
  split at h
  · split at h
    · split at h
      · obtain ⟨_, c, hc, _⟩ := onCaProfileResponse_ok h
        simp [hc]
      · cases h
    · obtain ⟨_, c, hc, _⟩ := onCaProfileResponse_ok h
      simp [hc]
  · obtain ⟨_, c, hc, _⟩ := afterRedirection_ok h
    simp [hc]

theorem genNewInterest_no_ub (C : Crypto) (r : Request) (k : Name) (nb na : Time) (v : Block) (u : Ub) :
    (genNewInterest C r k nb na v).2 ≠ .ub u := by
  unfold genNewInterest
  split
  · simp
  · split
    · simp
    · split
      · simp
      · next h =>
        unfold identityOfKeyName at h
        split at h <;> cases h
      · split <;> simp

theorem requestedParams_no_ub (k : ChalKind) (st : Status) (cs : Bytes) (u : Ub) : requestedParams k st cs ≠ .ub u := by
  unfold requestedParams
  split
  · split <;> (try split) <;> (try split) <;> simp
  · split <;> (try split) <;> (try split) <;> simp
  · split <;> (try split) <;> simp

theorem genCodeTlv_no_ub (k : ChalKind) (m : MMap) (u : Ub) : genCodeTlv k m ≠ .ub u := by
  unfold genCodeTlv
  split
  · simp
  · split <;> simp

theorem genChallengeTlv_no_ub (k : ChalKind) (st : Status) (cs : Bytes) (m : MMap) (u : Ub) : genChallengeTlv k st cs m ≠ .ub u := by
  unfold genChallengeTlv
  split
  · split
    · simp
    · split
      · exact genCodeTlv_no_ub _ _ _
      · simp
  · split
    · split
      · simp
      · split <;> simp
    · split
      · exact genCodeTlv_no_ub _ _ _
      · simp
  · split
    · split
      · split
        · intro h
          rcases Res.of_bind_ub h with h | ⟨_, _, h⟩
          · exact blockOfBytes_no_ub _ _ h
          · cases h
        · simp
      · simp
    · split
      · split
        · split <;> simp
        · simp
      · simp

/-- IVs are absent or complete -/
structure Request.IvsFull (r : Request) : Prop where
  enc : r.encryptionIv = [] ∨ r.encryptionIv.length = 12
  dec : r.decryptionIv = [] ∨ r.decryptionIv.length = 12
  id : r.requestId.length = 8

theorem updateIv_full {iv iv' : Bytes} {n : Nat} (h12 : iv.length = 12) (h : updateIv iv n = .ok iv') : iv'.length = 12 := by
  unfold updateIv at h
  dsimp only at h
  split at h
  · cases h
  · injection h with h
    subst h
    simp [h12]

theorem encodeAes_full {C : Crypto} {t : Nat} {key payload aad iv rnd : Bytes} (hiv : iv = [] ∨ iv.length = 12)
    (hr : rnd.length = 8) (u : Ub) : (encodeAes C t key payload aad iv rnd).2 ≠ .ub u ∧
    (encodeAes C t key payload aad iv rnd).1.length = 12 := by
  have h0 : (startIv iv rnd).length = 12 := by
    unfold startIv
    split
    · simp [hr]
    · rcases hiv with h | h
      · contradiction
      · exact h
  unfold encodeAes
  dsimp only
  rw [if_neg (by omega)]
  split
  · next h => exact ⟨by simp, updateIv_full h0 h⟩
  · exact ⟨by simp, h0⟩
  · next h => exact absurd h (updateIv_no_ub _ _ _)

theorem genChallengeInterest_full {C : Crypto} {r : Request} {m : MMap} {rnd : Bytes} (hr : r.IvsFull) (hrnd : rnd.length = 8) :
    (∀ u, (genChallengeInterest C r m rnd).2 ≠ .ub u) ∧ (genChallengeInterest C r m rnd).1.IvsFull := by
  unfold genChallengeInterest
  split
  · exact ⟨by simp, hr⟩
  · split
    · exact ⟨by simp, hr⟩
    · split
      · exact ⟨by simp, hr⟩
      · next h => exact absurd h (genChallengeTlv_no_ub _ _ _ _ _)
      · next es _ =>
        dsimp only
        have h := fun u => encodeAes_full (C := C) (t := T.ApplicationParameters) (key := r.aesKey) (payload := encodeAll es)
          (aad := r.requestId) hr.enc hrnd u
        generalize encodeAes C T.ApplicationParameters r.aesKey (encodeAll es) r.requestId r.encryptionIv rnd = x at *
        have hf : ({ r with encryptionIv := x.1 } : Request).IvsFull := ⟨.inr (h .overflow).2, hr.dec, hr.id⟩
        split
        · exact ⟨by simp, hf⟩
        · next u hu => exact absurd hu (h u).1
        · split
          · exact ⟨by simp, hf⟩
          · exact ⟨by simp, hf⟩

theorem selectOrContinue_full {r : Request} (hr : r.IvsFull) (ty : Bytes) :
    (∀ u, (selectOrContinueChallenge r ty).2 ≠ .ub u) ∧ (selectOrContinueChallenge r ty).1.IvsFull ∧
    (selectOrContinueChallenge r ty).1.status = r.status := by
  unfold selectOrContinueChallenge
  split
  · exact ⟨by simp, hr, rfl⟩
  · exact ⟨fun u => requestedParams_no_ub _ _ _ _, ⟨hr.enc, hr.dec, hr.id⟩, rfl⟩

theorem challengeStep_full {es : List Block} {now : Time} {a a' : ChalDecAcc} {item : Block}
    (h : challengeStep es now a item = .ok a') : a'.req.encryptionIv = a.req.encryptionIv ∧
    a'.req.decryptionIv = a.req.decryptionIv ∧ a'.req.requestId = a.req.requestId := by
  unfold challengeStep at h
  split at h
  · split at h
    · rw [Res.bind_eq_ok] at h
      obtain ⟨b, _, h⟩ := h
      rw [Res.bind_eq_ok] at h
      obtain ⟨s, _, h⟩ := h
      injection h with h; subst h; exact ⟨rfl, rfl, rfl⟩
    · split at h
      · injection h with h; subst h; exact ⟨rfl, rfl, rfl⟩
      · split at h
        · rw [Res.bind_eq_ok] at h
          obtain ⟨b, _, h⟩ := h
          injection h with h; subst h; exact ⟨rfl, rfl, rfl⟩
        · split at h
          · rw [Res.bind_eq_ok] at h
            obtain ⟨b, _, h⟩ := h
            rw [Res.bind_eq_ok] at h
            obtain ⟨s, _, h⟩ := h
            injection h with h; subst h; exact ⟨rfl, rfl, rfl⟩
          · split at h
            · rw [Res.bind_eq_ok] at h
              obtain ⟨b, _, h⟩ := h
              rw [Res.bind_eq_ok] at h
              obtain ⟨s, _, h⟩ := h
              injection h with h; subst h; exact ⟨rfl, rfl, rfl⟩
            · split at h
              · rw [Res.bind_eq_ok] at h
                obtain ⟨b, _, h⟩ := h
                rw [Res.bind_eq_ok] at h
                obtain ⟨s, _, h⟩ := h
                injection h with h; subst h; exact ⟨rfl, rfl, rfl⟩
              · split at h
                · split at h
                  · injection h with h; subst h; exact ⟨rfl, rfl, rfl⟩
                  · cases h
                · split at h
                  · cases h
                  · injection h with h; subst h; exact ⟨rfl, rfl, rfl⟩
  · split at h
    · split at h
      · cases h
      · injection h with h; subst h; exact ⟨rfl, rfl, rfl⟩
    · cases h

theorem readNni_lt {b : Block} {n : Nat} (h : readNni b = .ok n) : n < 2 ^ 64 := by
  unfold readNni at h
  split at h
  · injection h with h
    subst h
    have := beVal_lt b.val
    next hl =>
      have h1 : 256 ^ b.val.length ≤ 2 ^ 64 := by
        rcases hl with hl | hl | hl | hl <;> rw [hl] <;> decide
      omega
  · cases h

theorem addSeconds_ub {now : Time} {n : Nat} {u : Ub} (hn : n < 2 ^ 64) (h : addSeconds now n = .ub u) : u = .signedOverflow ∧ ¬ DeadlineFits now n := by
  unfold addSeconds at h
  dsimp only at h
  split at h
  · cases h
  · next hno =>
    injection h with h
    refine ⟨h.symm, ?_⟩
    rintro ⟨s, hs, hb⟩
    apply hno
    have e : toInt64 n = s := by
      unfold toInt64
      have : n % 2 ^ 64 = n := Nat.mod_eq_of_lt hn
      dsimp only
      rw [this]
      rcases hs with ⟨h1, h2⟩ | ⟨h1, h2⟩
      · rw [if_pos h2, h1]
      · rw [if_neg (by omega), h1]
    rw [e]
    exact hb

/-- the only undefined behaviour in reading an element of a CHALLENGE reply -/
theorem challengeStep_ub (es : List Block) (now : Time) (a : ChalDecAcc) (item : Block) (u : Ub) (h : challengeStep es now a item = .ub u) :
    u = .signedOverflow ∧ item.typ = T.RemainingTime ∧ ∃ n, readNni item = .ok n ∧ ¬ DeadlineFits now n := by
  unfold challengeStep at h
  split at h
  · split at h
    · rcases Res.of_bind_ub h with h | ⟨_, _, h⟩
      · exact absurd h (getElem_no_ub _ _ _)
      rcases Res.of_bind_ub h with h | ⟨_, _, h⟩
      · unfold statusFromBlock at h
        rcases Res.of_bind_ub h with h | ⟨_, _, h⟩
        · exact absurd h (readNni_no_ub _ _)
        · split at h <;> cases h
      · cases h
    · split at h
      · cases h
      · split at h
        · rcases Res.of_bind_ub h with h | ⟨_, _, h⟩
          · exact absurd h (readNni_no_ub _ _)
          · cases h
        · split at h
          · next ht =>
            rcases Res.of_bind_ub h with h | ⟨n, hn, h⟩
            · exact absurd h (readNni_no_ub _ _)
            rcases Res.of_bind_ub h with h | ⟨_, _, h⟩
            · obtain ⟨g1, g2⟩ := addSeconds_ub (readNni_lt hn) h
              exact ⟨g1, ht, n, hn, g2⟩
            · cases h
          · split at h
            · rcases Res.of_bind_ub h with h | ⟨_, _, h⟩
              · exact absurd h (blockFromValue_no_ub _ _)
              rcases Res.of_bind_ub h with h | ⟨_, _, h⟩
              · exact absurd h (nameOfBlock_no_ub _ _)
              · cases h
            · split at h
              · rcases Res.of_bind_ub h with h | ⟨_, _, h⟩
                · exact absurd h (blockFromValue_no_ub _ _)
                rcases Res.of_bind_ub h with h | ⟨_, _, h⟩
                · exact absurd h (nameOfBlock_no_ub _ _)
                · cases h
              · split at h
                · split at h <;> cases h
                · split at h <;> cases h
  · split at h
    · split at h <;> cases h
    · cases h

theorem challengeLoop_full (es0 : List Block) (now : Time) (es : List Block) (a : ChalDecAcc) :
    (∀ u, (loopRes (challengeStep es0 now) a es).2 = .ub u →
      u = .signedOverflow ∧ ∃ e ∈ es, e.typ = T.RemainingTime ∧ ∃ n, readNni e = .ok n ∧ ¬ DeadlineFits now n) ∧
    (loopRes (challengeStep es0 now) a es).1.req.encryptionIv = a.req.encryptionIv ∧
    (loopRes (challengeStep es0 now) a es).1.req.decryptionIv = a.req.decryptionIv ∧
    (loopRes (challengeStep es0 now) a es).1.req.requestId = a.req.requestId := by
  induction es generalizing a with
  | nil => exact ⟨by simp [loopRes], rfl, rfl, rfl⟩
  | cons e es ih =>
    unfold loopRes
    split
    · next a' h =>
      obtain ⟨h1, h2, h3⟩ := challengeStep_full h
      obtain ⟨h0, h4, h5, h6⟩ := ih a'
      refine ⟨fun u hu => ?_, h4.trans h1, h5.trans h2, h6.trans h3⟩
      obtain ⟨g1, x, g2, g3⟩ := h0 u hu
      exact ⟨g1, x, List.mem_cons_of_mem _ g2, g3⟩
    · exact ⟨by simp, rfl, rfl, rfl⟩
    · next h =>
      obtain ⟨g1, g2, g3⟩ := challengeStep_ub _ _ _ _ _ h
      refine ⟨fun u hu => ?_, rfl, rfl, rfl⟩
      injection hu with hu
      subst hu
      exact ⟨g1, e, List.mem_cons_self .., g2, g3⟩

/-- the decryption IV left by `decodeAes` is absent or complete -/
theorem decodeAes_iv {C : Crypto} {b : Block} {key aad div encIv : Bytes} (hd : div = [] ∨ div.length = 12) :
    (decodeAes C b key aad div encIv).1 = [] ∨ (decodeAes C b key aad div encIv).1.length = 12 := by
  unfold decodeAes
  split
  · exact hd
  · exact hd
  · next ct obs tag h =>
    have hobs : obs.length = 12 := by
      rw [Res.bind_eq_ok] at h
      obtain ⟨es, _, h⟩ := h
      rw [Res.bind_eq_ok] at h
      obtain ⟨x, _, h⟩ := h
      rw [Res.bind_eq_ok] at h
      obtain ⟨y, _, h⟩ := h
      rw [Res.bind_eq_ok] at h
      obtain ⟨z, _, h⟩ := h
      split at h
      · cases h
      · next hn =>
        injection h with h
        injection h with h1 h2
        injection h2 with h2 h3
        subst h2
        rw [not_or] at hn
        exact Classical.byContradiction hn.1
    split
    · exact hd
    · split
      · exact hd
      · split
        · exact hd
        · split
          · exact hd
          · split
            · exact .inr hobs
            · split
              · exact .inr hobs
              · split
                · next h => exact .inr (updateIv_full hobs h)
                · exact .inr hobs
                · exact .inr hobs

/-- a CHALLENGE reply signed by the CA whose remaining time is out of range -/
def LateDeadline (C : Crypto) (r : Request) (d : Data) (now : Time) : Prop :=
  (∃ t, r.profile.cert = some t ∧ C.verifyData d t = true) ∧
  ∃ pt es, (decodeAes C d.content r.aesKey r.requestId r.decryptionIv r.encryptionIv).2 = .ok pt ∧ parse pt = .ok es ∧
    ∃ e ∈ es, e.typ = T.RemainingTime ∧ ∃ n, readNni e = .ok n ∧ ¬ DeadlineFits now n

theorem checkReply_verified {C : Crypto} {p : CaProfile} {d : Data} (h : checkReply C p d = .ok ()) : ∃ t, p.cert = some t ∧ C.verifyData d t = true := by
  unfold checkReply at h
  split at h
  · cases h
  · next t ht =>
    split at h
    · next hv => exact ⟨t, ht, hv⟩
    · cases h

theorem onChallengeResponse_full {C : Crypto} {r : Request} (hr : r.IvsFull) (hp : r.profile.cert ≠ none) (d : Data) (now : Time) :
    (∀ u, (onChallengeResponse C r d now).2 = .ub u → u = .signedOverflow ∧ LateDeadline C r d now) ∧ (onChallengeResponse C r d now).1.IvsFull := by
  unfold onChallengeResponse
  split
  · exact ⟨by simp, hr⟩
  · next h => exact absurd h (checkReply_no_ub hp _ _)
  · next hck =>
    have hver := checkReply_verified hck
    unfold LateDeadline
    unfold challengeDecode
    dsimp only
    have h1 := decodeAes_iv (C := C) (b := d.content) (key := r.aesKey) (aad := r.requestId) (encIv := r.encryptionIv) hr.dec
    have h2 := fun u => decodeAes_no_ub (C := C) (b := d.content) (key := r.aesKey) (aad := r.requestId)
      (div := r.decryptionIv) (encIv := r.encryptionIv) (hr.dec.imp id (fun h => by omega)) (hr.enc.imp id (fun h => by omega)) u
    generalize decodeAes C d.content r.aesKey r.requestId r.decryptionIv r.encryptionIv = x at *
    split
    · exact ⟨by simp, hr.enc, h1, hr.id⟩
    · next u hu => exact absurd hu (h2 u)
    · split
      · exact ⟨by simp, hr.enc, h1, hr.id⟩
      · next h => exact absurd h (parse_no_ub _ _)
      · next es hes =>
        obtain ⟨h3, h4, h5, h6⟩ := challengeLoop_full es now es ({ req := { r with decryptionIv := x.1 } } : ChalDecAcc)
        refine ⟨?_, ⟨?_, ?_, ?_⟩⟩
        · intro u hu
          dsimp only at hu
          split at hu
          · cases hu
          · next u' hu' =>
            injection hu with hu
            subst hu
            obtain ⟨k1, k2⟩ := h3 u' hu'
            exact ⟨k1, hver, _, es, by assumption, hes, k2⟩
          · split at hu <;> cases hu
        · rw [h4]; exact hr.enc
        · rw [h5]; exact h1
        · rw [h6]; exact hr.id

/-! ## NEW replies -/

theorem memcpyInto_length {dst src out : Bytes} (h : memcpyInto dst src = .ok out) : out.length = dst.length := by
  unfold memcpyInto at h
  split at h
  · cases h
  · injection h with h
    subst h
    simp
    omega

theorem requestStep_full {a : ReqDataAcc} {e : Block} (hs : a.salt.length = 32) (hi : a.requestId.length = 8) :
    (∀ a', requestStep a e = .ok a' → a'.salt.length = 32 ∧ a'.requestId.length = 8) ∧
    (∀ u, requestStep a e = .ub u → u = .overflow ∧ TooLong e) := by
  unfold requestStep
  split
  · exact ⟨fun a' h => by injection h with h; subst h; exact ⟨hs, hi⟩, by simp⟩
  · split
    · exact ⟨fun a' h => by injection h with h; subst h; exact ⟨hs, hi⟩, by simp⟩
    · split
      · next ht =>
        constructor
        · intro a' h
          rw [Res.bind_eq_ok] at h
          obtain ⟨s, h1, h⟩ := h
          injection h with h; subst h
          exact ⟨(memcpyInto_length h1).trans hs, hi⟩
        · intro u h
          rcases Res.of_bind_ub h with h | ⟨_, _, h⟩
          · unfold memcpyInto at h
            split at h
            · next hl => injection h with h; exact ⟨h.symm, .inl ⟨ht, by omega⟩⟩
            · cases h
          · cases h
      · split
        · next ht =>
          constructor
          · intro a' h
            rw [Res.bind_eq_ok] at h
            obtain ⟨s, h1, h⟩ := h
            injection h with h; subst h
            exact ⟨hs, (memcpyInto_length h1).trans hi⟩
          · intro u h
            rcases Res.of_bind_ub h with h | ⟨_, _, h⟩
            · unfold memcpyInto at h
              split at h
              · next hl => injection h with h; exact ⟨h.symm, .inr ⟨ht, by omega⟩⟩
              · cases h
            · cases h
        · split
          · exact ⟨by simp, by simp⟩
          · exact ⟨fun a' h => by injection h with h; subst h; exact ⟨hs, hi⟩, by simp⟩

theorem requestLoop_full (es : List Block) (a : ReqDataAcc) (hs : a.salt.length = 32) (hi : a.requestId.length = 8) :
    (loopRes requestStep a es).1.requestId.length = 8 ∧
    (∀ u, (loopRes requestStep a es).2 = .ub u → u = .overflow ∧ ∃ e ∈ es, TooLong e) := by
  induction es generalizing a with
  | nil => exact ⟨hi, by simp [loopRes]⟩
  | cons e es ih =>
    obtain ⟨h1, h2⟩ := requestStep_full (e := e) hs hi
    unfold loopRes
    split
    · next a' h =>
      obtain ⟨g1, g2⟩ := ih a' (h1 a' h).1 (h1 a' h).2
      refine ⟨g1, ?_⟩
      intro u hu
      obtain ⟨k1, e', k2, k3⟩ := g2 u hu
      exact ⟨k1, e', List.mem_cons_of_mem _ k2, k3⟩
    · exact ⟨hi, by simp⟩
    · next u h =>
      refine ⟨hi, ?_⟩
      intro u' hu
      injection hu with hu
      subst hu
      obtain ⟨k1, k2⟩ := h2 u h
      exact ⟨k1, e, by simp, k2⟩

theorem onNewResponse_full {C : Crypto} {r : Request} (hr : r.IvsFull) (hp : r.profile.cert ≠ none) (d : Data) {stack : Bytes}
    (hs : stack.length = 32) : (onNewResponse C r d stack).1.IvsFull ∧ (onNewResponse C r d stack).1.status = r.status ∧
    (∀ u, (onNewResponse C r d stack).2 = .ub u → u = .overflow ∧ (∃ t, r.profile.cert = some t ∧ C.verifyData d t = true) ∧
      ∃ es, d.content.elements = .ok es ∧ ∃ e ∈ es, TooLong e) := by
  unfold onNewResponse
  split
  · exact ⟨hr, rfl, by simp⟩
  · next h => exact absurd h (checkReply_no_ub hp _ _)
  · next hck =>
    have hv : ∃ t, r.profile.cert = some t ∧ C.verifyData d t = true := by
      unfold checkReply at hck
      split at hck
      · cases hck
      · next t ht =>
        split at hck
        · next hv => exact ⟨t, ht, hv⟩
        · cases hck
    have hdec : (requestDecode d.content stack r.requestId).1.2.length = 8 ∧
        ∀ u, (requestDecode d.content stack r.requestId).2 = .ub u → u = .overflow ∧
          ∃ es, d.content.elements = .ok es ∧ ∃ e ∈ es, TooLong e := by
      unfold requestDecode
      split
      · exact ⟨hr.id, by simp⟩
      · next h => exact absurd h (elements_no_ub _ _)
      · next es hes =>
        obtain ⟨g1, g2⟩ := requestLoop_full es ({ salt := stack, requestId := r.requestId } : ReqDataAcc) hs hr.id
        refine ⟨g1, ?_⟩
        intro u hu
        dsimp only at hu
        split at hu
        · cases hu
        · next u' hu' =>
          injection hu with hu
          subst hu
          obtain ⟨k1, k2⟩ := g2 _ hu'
          exact ⟨k1, es, hes, k2⟩
        · split at hu <;> cases hu
    generalize requestDecode d.content stack r.requestId = x at *
    obtain ⟨⟨salt, id⟩, res⟩ := x
    dsimp only at hdec ⊢
    split
    · exact ⟨⟨hr.enc, hr.dec, hdec.1⟩, rfl, by simp⟩
    · refine ⟨⟨hr.enc, hr.dec, hdec.1⟩, rfl, ?_⟩
      intro u' hu
      injection hu with hu
      subst hu
      exact ⟨(hdec.2 _ rfl).1, hv, (hdec.2 _ rfl).2⟩
    · split
      · exact ⟨⟨hr.enc, hr.dec, hdec.1⟩, rfl, by simp⟩
      · exact ⟨⟨hr.enc, hr.dec, hdec.1⟩, rfl, by simp⟩

/-! ## Callbacks -/

theorem createChallenge_email : createChallenge (bytes! "email") = some .email := by decide +kernel

theorem runChallenge_safe {C : Crypto} {env : ClientEnv} (he : env.Wf) (c : Client) {r : Request} (hr : r.IvsFull) (ty : Bytes)
    (hcap : c.captured ≠ none) :
    (∀ r', (runChallenge C env c r ty).st.request = some r' → r'.IvsFull) ∧
    (runChallenge C env c r ty).st.request ≠ none ∧
    (∀ u, (runChallenge C env c r ty).ended = .ub u → u = .endDeref ∧ ty = (bytes! "email") ∧ r.status = .beforeChallenge ∧
      ∃ m, c.captured = some m ∧ mmFind m (bytes! "email") = none) := by
  unfold runChallenge
  dsimp only
  obtain ⟨h1, h2, h3⟩ := selectOrContinue_full hr ty
  have hkeys : ty = (bytes! "email") → r.status = .beforeChallenge → ∀ ks, (selectOrContinueChallenge r ty).2 = .ok ks →
      ks ≠ [] → ks = [bytes! "email"] := by
    intro ht hst ks hks hne
    subst ht
    unfold selectOrContinueChallenge at hks
    rw [createChallenge_email] at hks
    simp only [requestedParams, hst] at hks
    split at hks
    · injection hks with hks; exact hks.symm
    · split at hks
      · next h => cases h.1
      · split at hks
        · next h => cases h.1
        · cases hks
  generalize selectOrContinueChallenge r ty = x at *
  have hself : ∀ (e : Ended) (cl : Client), (∃ ls, cl = { c with request := some x.1, stdin := ls }) → (∀ u, e ≠ .ub u) →
      (∀ r', (({ st := cl, ended := e } : ClientOut)).st.request = some r' → r'.IvsFull) ∧
      (({ st := cl, ended := e } : ClientOut)).st.request ≠ none ∧
      (∀ u, (({ st := cl, ended := e } : ClientOut)).ended = .ub u → u = .endDeref ∧ ty = (bytes! "email") ∧
        r.status = .beforeChallenge ∧ ∃ m, c.captured = some m ∧ mmFind m (bytes! "email") = none) := by
    rintro e cl ⟨ls, rfl⟩ hne
    refine ⟨?_, by simp, ?_⟩
    · intro r' hr'
      injection hr' with hr'
      subst hr'
      exact h2
    · intro u hu
      exact absurd hu (hne u)
  split
  · exact hself _ _ ⟨_, rfl⟩ (by simp)
  · next u hu => exact absurd hu (h1 u)
  · next keys hk =>
    obtain ⟨ls, hls⟩ := challengeParams_same { c with request := some x.1 } x.1 ty keys
    have hub : ∀ u, (challengeParams { c with request := some x.1 } x.1 ty keys).2 = .ub u → u = .endDeref ∧ ty = (bytes! "email") ∧
        r.status = .beforeChallenge ∧ ∃ m, c.captured = some m ∧ mmFind m (bytes! "email") = none := by
      intro u hu
      unfold challengeParams at hu
      split at hu
      · cases hu
      · next hne =>
        split at hu
        · next hcond =>
          rw [h3] at hcond
          split at hu
          · next hnone => exact absurd hnone hcap
          · next m hm =>
            split at hu
            · next hf =>
              injection hu with hu
              exact ⟨hu.symm, hcond.2, hcond.1, m, hm, hf⟩
            · split at hu
              · next hf =>
                have hks := hkeys hcond.2 hcond.1 keys hk hne
                rw [hks, hcond.2] at hf
                simp at hf
              · cases hu
        · cases hu
    have hexc : ∀ e, (challengeParams { c with request := some x.1 } x.1 ty keys).2 ≠ .exc e := by
      intro e he
      unfold challengeParams at he
      split at he
      · cases he
      · split at he
        · split at he
          · cases he
          · split at he
            · cases he
            · split at he <;> cases he
        · cases he
    generalize challengeParams { c with request := some x.1 } x.1 ty keys = y at *
    split
    · next e he => exact absurd he (hexc e)
    · next u hu =>
      refine ⟨?_, by simp [hls], ?_⟩
      · intro r' hr'
        rw [hls] at hr'
        injection hr' with hr'
        subst hr'
        exact h2
      · intro u' hu'
        injection hu' with hu'
        subst hu'
        exact hub _ hu
    · next m hm =>
      obtain ⟨g1, g2⟩ := genChallengeInterest_full (C := C) (m := m) h2 he.rnd
      generalize genChallengeInterest C x.1 m env.rnd = z at *
      split
      · refine ⟨?_, by simp, by simp⟩
        intro r' hr'
        injection hr' with hr'
        subst hr'
        exact g2
      · next u hu => exact absurd hu (g1 u)
      · refine ⟨?_, by simp, by simp⟩
        intro r' hr'
        injection hr' with hr'
        subst hr'
        exact g2

theorem stoul_nil : stoul [] = none := by decide

/-- the number of hours is typed -/
theorem captureValidity_typed (t : Nat) (c : Client) {x : Int} (h : (captureValidity t c).1 = some x) :
    ∃ l ∈ c.stdin, ∃ n, stoul l = some n ∧ x = toInt32 n := by
  induction t generalizing c with
  | zero => cases h
  | succ t ih =>
    unfold captureValidity at h
    rw [getline_eq] at h
    dsimp only at h
    split at h
    · next n hn =>
      injection h with h
      cases hs : c.stdin with
      | nil => rw [hs] at hn; rw [List.headD_nil, stoul_nil] at hn; cases hn
      | cons l ls => rw [hs] at hn; exact ⟨l, by simp, n, hn, h.symm⟩
    · obtain ⟨l, h1, h2⟩ := ih { c with stdin := c.stdin.tail } h
      exact ⟨l, List.mem_of_mem_tail h1, h2⟩

theorem genNew_full {C : Crypto} {r : Request} (hr : r.IvsFull) (k : Name) (nb na : Time) (v : Block) :
    (genNewInterest C r k nb na v).1.IvsFull := by
  unfold genNewInterest
  split
  · exact hr
  · split
    · exact hr
    · split
      · exact hr
      · exact hr
      · split <;> exact ⟨hr.enc, hr.dec, hr.id⟩

theorem captureKeyName_not_ub (c : Client) (e : IdEntry) (ds : List Block) (u : Ub) : (captureKeyName c e ds).2 ≠ .inl (.ub u) := by
  unfold captureKeyName
  rw [getline_eq]
  dsimp only
  split
  · split <;> simp
  · split
    · simp
    · split <;> simp

theorem runNewWith_safe {C : Crypto} {env : ClientEnv} (he : env.Wf) (c : Client) (p : CaProfile) (id : Name) (hours : Int) :
    (∀ r', (runNewWith C env c p id hours).st.request = some r' → r'.IvsFull) ∧
    (runNewWith C env c p id hours).st.request ≠ none ∧
    (∀ u, (runNewWith C env c p id hours).ended = .ub u → u = .signedOverflow ∧ addHours env.now hours = none) := by
  unfold runNewWith
  dsimp only
  have hr : (⟨p, .new, [], env.memId, .beforeChallenge, [], [], 0, 0, [], [], env.ecdhPriv, env.memKey, [], [], env.memNonce,
    none⟩ : Request).IvsFull := ⟨.inl rfl, .inl rfl, he.memId⟩
  split
  · refine ⟨?_, by simp, by simp⟩
    intro r' hr'
    injection hr' with hr'
    subst hr'
    exact hr
  · next c2 e k hp =>
    obtain ⟨⟨a1, a2, a3⟩, a4⟩ := prepareKey_like hp
    have hb : ∃ c3 chosen, (if c2.newIdentity = [] then captureKeyName c2 e env.keyIds2 else (c2, Sum.inr k)) = (c3, chosen) ∧
        c2.Like c3 ∧ ∀ u, chosen ≠ .inl (.ub u) := by
      split
      · exact ⟨_, _, rfl, (captureKeyName_like _ _ _).1, captureKeyName_not_ub _ _ _⟩
      · exact ⟨_, _, rfl, .refl _, by simp⟩
    obtain ⟨c3, chosen, heq, ⟨b1, b2, b3⟩, b4⟩ := hb
    rw [heq]
    dsimp only at a3 ⊢
    have hreq := b3.trans a3
    split
    · next x =>
      refine ⟨?_, by simp [hreq], ?_⟩
      · intro r' hr'
        rw [hreq] at hr'
        injection hr' with hr'
        subst hr'
        exact hr
      · intro u hu
        exact absurd (by rw [← hu]) (b4 u)
    · next key =>
      split
      · next hov =>
        refine ⟨?_, by simp [hreq], ?_⟩
        · intro r' hr'
          rw [hreq] at hr'
          injection hr' with hr'
          subst hr'
          exact hr
        · intro u hu
          injection hu with hu
          exact ⟨hu.symm, hov⟩
      · next na _ =>
        have g1 := genNew_full (C := C) hr key env.now na env.version
        have g2 := genNewInterest_no_ub C (⟨p, .new, [], env.memId, .beforeChallenge, [], [], 0, 0, [], [], env.ecdhPriv, env.memKey, [], [], env.memNonce,
    none⟩ : Request) key env.now na env.version
        generalize genNewInterest C _ key env.now na env.version = z at *
        split
        · refine ⟨?_, by simp, by simp⟩
          intro r' hr'
          injection hr' with hr'
          subst hr'
          exact g1
        · next u hu => exact absurd hu (g2 u)
        · refine ⟨?_, by simp, by simp⟩
          intro r' hr'
          injection hr' with hr'
          subst hr'
          exact g1
        · refine ⟨?_, by simp, by simp⟩
          intro r' hr'
          injection hr' with hr'
          subst hr'
          exact g1

theorem runNew_safe {C : Crypto} {env : ClientEnv} (he : env.Wf) (c : Client) (hc : ∀ r, c.request = some r → r.IvsFull)
    (p : CaProfile) (id : Name) :
    (∀ r', (runNew C env c p id).st.request = some r' → r'.IvsFull) ∧
    ((runNew C env c p id).st.request = none → c.request = none ∧ (runNew C env c p id).st.pending = c.pending) ∧
    (∀ u, (runNew C env c p id).ended = .ub u → u = .signedOverflow ∧ ∃ l ∈ c.stdin, ∃ n, stoul l = some n ∧
      addHours env.now (toInt32 n) = none) := by
  obtain ⟨ls, h⟩ := captureValidity_same 3 c
  unfold runNew
  split
  · next c1 hcv =>
    rw [hcv] at h
    dsimp only at h
    subst h
    exact ⟨hc, fun h => ⟨h, rfl⟩, by simp⟩
  · next hr c1 hcv =>
    rw [hcv] at h
    dsimp only at h
    subst h
    obtain ⟨g1, g2, g3⟩ := runNewWith_safe (C := C) he { c with stdin := ls } p id hr
    refine ⟨g1, fun h => absurd h g2, fun u hu => ⟨(g3 u hu).1, ?_⟩⟩
    obtain ⟨l, k1, n, k2, k3⟩ := captureValidity_typed 3 c (x := hr) (by rw [hcv])
    exact ⟨l, k1, n, k2, k3 ▸ (g3 u hu).2⟩

/-- the reason for undefined behaviour in the challenge step: the address for the email challenge was never asked for -/
def NoAddress (c : Client) : Prop := ∃ m, c.captured = some m ∧ mmFind m (bytes! "email") = none

theorem newCb_safe {C : Crypto} {env : ClientEnv} (he : env.Wf) (c : Client) {r : Request} (hr : r.IvsFull)
    (hp : r.profile.cert ≠ none) (hcap : c.captured ≠ none) (d : Data) :
    (∀ r', (newCb C env c r d).st.request = some r' → r'.IvsFull) ∧ (newCb C env c r d).st.request ≠ none ∧
    (∀ u, (newCb C env c r d).ended = .ub u → (u = .endDeref ∧ NoAddress c) ∨
      (u = .overflow ∧ (∃ t, r.profile.cert = some t ∧ C.verifyData d t = true) ∧
        ∃ es, d.content.elements = .ok es ∧ ∃ e ∈ es, TooLong e)) := by
  unfold newCb
  dsimp only
  obtain ⟨h1, h2, h3⟩ := onNewResponse_full (C := C) hr hp d he.stack
  generalize onNewResponse C r d env.stack = x at *
  have hself : ∀ (e : Ended) (ls : List Bytes), (∀ u, e ≠ .ub u) →
      (∀ r', (({ st := { c with request := some x.1, stdin := ls }, ended := e } : ClientOut)).st.request = some r' → r'.IvsFull) ∧
      (({ st := { c with request := some x.1, stdin := ls }, ended := e } : ClientOut)).st.request ≠ none ∧
      (∀ u, (({ st := { c with request := some x.1, stdin := ls }, ended := e } : ClientOut)).ended = .ub u →
        (u = .endDeref ∧ NoAddress c) ∨
        (u = .overflow ∧ (∃ t, r.profile.cert = some t ∧ C.verifyData d t = true) ∧
        ∃ es, d.content.elements = .ok es ∧ ∃ e ∈ es, TooLong e)) := by
    intro e ls hne
    refine ⟨?_, by simp, fun u hu => absurd hu (hne u)⟩
    intro r' hr'
    injection hr' with hr'
    subst hr'
    exact h1
  split
  · exact hself _ c.stdin (by simp)
  · next u hu =>
    refine ⟨(hself .going c.stdin (by simp)).1, by simp, ?_⟩
    intro u' hu'
    injection hu' with hu'
    subst hu'
    exact .inr (h3 _ hu)
  · next cs hcs =>
    split
    · exact hself _ c.stdin (by simp)
    · split
      · obtain ⟨g1, g2, g3⟩ := runChallenge_safe (C := C) he { c with request := some x.1 } h1 (bytes! "email") hcap
        exact ⟨g1, g2, fun u hu => .inl ⟨(g3 u hu).1, (g3 u hu).2.2.2⟩⟩
      · obtain ⟨ls, h4⟩ := captureIndex_same cs.length 3 { c with request := some x.1 }
        split
        · next c2 hc =>
          rw [hc] at h4
          dsimp only at h4
          subst h4
          exact hself _ ls (by simp)
        · next i c2 hc =>
          rw [hc] at h4
          dsimp only at h4
          subst h4
          obtain ⟨g1, g2, g3⟩ := runChallenge_safe (C := C) he { c with request := some x.1, stdin := ls } h1 (cs[i]?.getD []) hcap
          exact ⟨g1, g2, fun u hu => .inl ⟨(g3 u hu).1, (g3 u hu).2.2.2⟩⟩

theorem challengeCb_safe {C : Crypto} {env : ClientEnv} (he : env.Wf) (c : Client) {r : Request} (hr : r.IvsFull)
    (hp : r.profile.cert ≠ none) (hcap : c.captured ≠ none) (d : Data) :
    (∀ r', (challengeCb C env c r d).st.request = some r' → r'.IvsFull) ∧ (challengeCb C env c r d).st.request ≠ none ∧
    (∀ u, (challengeCb C env c r d).ended = .ub u → u = .endDeref ∧ NoAddress c ∨ u = .signedOverflow ∧ LateDeadline C r d env.now) := by
  unfold challengeCb
  dsimp only
  obtain ⟨h1, h2⟩ := onChallengeResponse_full (C := C) hr hp d env.now
  generalize onChallengeResponse C r d env.now = x at *
  have hreq : ∀ r', (some x.1 : Option Request) = some r' → r'.IvsFull := by
    intro r' hr'
    injection hr' with hr'
    subst hr'
    exact h2
  split
  · exact ⟨hreq, by simp, by simp⟩
  · next u hu =>
    refine ⟨hreq, by simp, fun v hv => .inr ?_⟩
    injection hv with hv
    subst hv
    exact h1 u hu
  · split
    · exact ⟨hreq, by simp, by simp⟩
    · obtain ⟨g1, g2, g3⟩ := runChallenge_safe (C := C) he { c with request := some x.1 } h2 x.1.challengeType hcap
      exact ⟨g1, g2, fun u hu => .inl ⟨(g3 u hu).1, (g3 u hu).2.2.2⟩⟩

/-! ## Runs -/

theorem firstProbe_append (h : List ClientStep) (n : ClientStep) :
    firstProbe (h ++ [n]) = (firstProbe h).or (n.acts.findSome? Act.probed) := by
  unfold firstProbe
  rw [List.flatMap_append, List.findSome?_append]
  simp

theorem firstProbe_stays {h : List ClientStep} {p : CaProfile} (hf : firstProbe h = some p) (n : ClientStep) :
    firstProbe (h ++ [n]) = some p := by
  rw [firstProbe_append, hf]
  rfl

theorem mmInsert_keys (k v : Bytes) (m : MMap) (x : Bytes) : x ∈ (mmInsert k v m).map (·.1) ↔ x = k ∨ x ∈ m.map (·.1) := by
  induction m with
  | nil => simp [mmInsert]
  | cons e es ih =>
    unfold mmInsert
    split
    · simp
    · rw [List.map_cons, List.mem_cons, ih, List.map_cons, List.mem_cons]
      constructor
      · rintro (h | h | h)
        · exact .inr (.inl h)
        · exact .inl h
        · exact .inr (.inr h)
      · rintro (h | h | h)
        · exact .inr (.inl h)
        · exact .inl h
        · exact .inr (.inr h)

theorem insertAll_keys (ks : List Bytes) (m : MMap) (x : Bytes) :
    x ∈ (ks.foldl (fun m k => mmInsert k [] m) m).map (·.1) ↔ x ∈ ks ∨ x ∈ m.map (·.1) := by
  induction ks generalizing m with
  | nil => simp
  | cons k ks ih =>
    rw [List.foldl_cons, ih, mmInsert_keys, List.mem_cons]
    constructor
    · rintro (h | h | h)
      · exact .inl (.inr h)
      · exact .inl (.inl h)
      · exact .inr h
    · rintro ((h | h) | h)
      · exact .inr (.inl h)
      · exact .inl h
      · exact .inr (.inr h)

theorem modify_keys (m : MMap) (i : Nat) (f : Bytes → Bytes) :
    (m.modify i (fun e => (e.1, f e.2))).map (·.1) = m.map (·.1) := by
  induction m generalizing i with
  | nil => cases i <;> rfl
  | cons e es ih => cases i <;> simp [ih]

/-- the answers kept have exactly the keys the first CA asked for -/
theorem probeParams_keys (c : Client) (p : CaProfile) (hc : c.captured = none) (x : Bytes) :
    x ∈ (probeParams c p).1.map (·.1) ↔ x ∈ p.probeParameterKeys := by
  unfold probeParams
  rw [hc]
  dsimp only
  have hk : ∀ y, y ∈ (captureKeys p.probeParameterKeys c).1.map (·.1) ↔ y ∈ p.probeParameterKeys := by
    intro y
    unfold captureKeys
    rw [captureValues_keys, insertAll_keys]
    simp
  split
  · rw [modify_keys]
    exact hk x
  · exact hk x

theorem mmFind_absent {m : MMap} {k : Bytes} : mmFind m k = none ↔ k ∉ m.map (·.1) := by
  unfold mmFind
  rw [Option.map_eq_none_iff, List.find?_eq_none]
  simp only [List.mem_map, not_exists, not_and, beq_iff_eq]

/-- invariant of the runs -/
structure SafeInv (h : List ClientStep) (c : Client) : Prop where
  probe : ∀ p, c.pending = some (.probe p) → p.cert ≠ none ∧ c.captured ≠ none
  request : ∀ r, c.request = some r → r.IvsFull ∧ r.profile.cert ≠ none ∧ c.captured ≠ none
  active : c.pending = some .new ∨ c.pending = some .challenge → c.request ≠ none
  captured : ∀ m, c.captured = some m → ∃ p, firstProbe h = some p ∧ ∀ k, k ∈ m.map (·.1) ↔ k ∈ p.probeParameterKeys
  none : c.captured = none → firstProbe h = none

theorem SafeInv.captured_next {h : List ClientStep} {c : Client} (hi : SafeInv h c) (n : ClientStep) :
    ∀ m, c.captured = some m → ∃ p, firstProbe (h ++ [n]) = some p ∧ ∀ k, k ∈ m.map (·.1) ↔ k ∈ p.probeParameterKeys := by
  intro m hm
  obtain ⟨p, h1, h2⟩ := hi.captured m hm
  exact ⟨p, firstProbe_stays h1 n, h2⟩

theorem SafeInv.idle {h : List ClientStep} {c c' : Client} (hi : SafeInv h c) (hc : c'.captured = c.captured)
    (hp : c'.pending = c.pending ∨ (∀ p, c'.pending ≠ some (.probe p)) ∧ c'.pending ≠ some .new ∧ c'.pending ≠ some .challenge)
    (hr : c'.request = c.request) (n : ClientStep) (hn : ∀ a ∈ n.acts, a.ca = Option.none) : SafeInv (h ++ [n]) c' := by
  have hpend : ∀ w, c'.pending = some w → (c.pending = some w ∨ (∀ p, w ≠ .probe p) ∧ w ≠ .new ∧ w ≠ .challenge) := by
    intro w hw
    rcases hp with h | h
    · exact .inl (h ▸ hw)
    · rw [hw] at h
      exact .inr ⟨fun p hp => h.1 p (by rw [hp]), fun hp => h.2.1 (by rw [hp]), fun hp => h.2.2 (by rw [hp])⟩
  refine ⟨?_, ?_, ?_, ?_, ?_⟩
  · intro p hp'
    rcases hpend _ hp' with h | h
    · rw [hc]; exact hi.probe p h
    · exact absurd rfl (h.1 p)
  · rw [hr, hc]; exact hi.request
  · rw [hr]
    rintro (hp' | hp')
    · rcases hpend _ hp' with h | h
      · exact hi.active (.inl h)
      · exact absurd rfl h.2.1
    · rcases hpend _ hp' with h | h
      · exact hi.active (.inr h)
      · exact absurd rfl h.2.2
  · rw [hc]; exact hi.captured_next n
  · rw [hc]
    intro h
    rw [firstProbe_append, hi.none h, Option.none_or, List.findSome?_eq_none_iff]
    intro a ha
    have := hn a ha
    cases a <;> first | rfl | cases this

theorem Client.Keeps.no_probe {c : Client} {p : CaProfile} {o : ClientOut} (hk : c.Keeps p o) :
    o.acts.findSome? Act.probed = Option.none := by
  rw [List.findSome?_eq_none_iff]
  intro a ha
  rcases hk.acts a ha with ⟨i, rfl⟩ | ⟨i, rfl⟩ | ⟨m, x, rfl⟩ <;> rfl

theorem SafeInv.keeps {h : List ClientStep} {c : Client} (hi : SafeInv h c) {p : CaProfile} (hp : p.cert ≠ Option.none)
    (hcap : c.captured ≠ Option.none) {o : ClientOut} (hk : c.Keeps p o) (hfull : ∀ r, o.st.request = some r → r.IvsFull)
    (hreq : o.st.request = Option.none → c.request = Option.none ∧ o.st.pending = c.pending) (n : ClientStep) (hn : n.acts = o.acts) :
    SafeInv (h ++ [n]) o.st := by
  refine ⟨?_, ?_, ?_, ?_, ?_⟩
  · intro q hq
    rw [hk.captured]
    rcases hk.pending with h | h | h | h | h
    · exact hi.probe q (h ▸ hq)
    all_goals rw [h] at hq; cases hq
  · intro r hr
    refine ⟨hfull r hr, ?_, by rw [hk.captured]; exact hcap⟩
    rcases hk.request with h | ⟨r', h1, h2⟩
    · exact (hi.request r (h ▸ hr)).2.1
    · rw [h1] at hr
      injection hr with hr
      subst hr
      rw [h2]
      exact hp
  · intro hq hnone
    obtain ⟨h1, h2⟩ := hreq hnone
    rw [h2] at hq
    exact hi.active hq h1
  · rw [hk.captured]; exact hi.captured_next n
  · rw [hk.captured]
    intro h
    exact absurd h hcap

theorem SafeInv.runProbe {C : Crypto} {h : List ClientStep} {c c' : Client} (hi : SafeInv h c) (hc : c'.captured = c.captured)
    (hr : c'.request = c.request) {p : CaProfile} (hp : p.cert ≠ Option.none) (n : ClientStep) (pre : List Act)
    (hpre : ∀ a ∈ pre, a.ca = Option.none) (hn : n.acts = pre ++ (runProbe C c' p).acts) :
    SafeInv (h ++ [n]) (runProbe C c' p).st := by
  obtain ⟨h1, h2, h3⟩ := probeParams_same c' p
  have hcap : (Ndncert.runProbe C c' p).st.captured = some (probeParams c' p).1 := h3
  refine ⟨?_, ?_, ?_, ?_, ?_⟩
  · intro q hq
    injection hq with hq
    injection hq with hq
    subst hq
    exact ⟨hp, by rw [hcap]; simp⟩
  · intro r hr'
    have : c.request = some r := hr ▸ h2 ▸ hr'
    exact ⟨(hi.request r this).1, (hi.request r this).2.1, by rw [hcap]; simp⟩
  · rintro (hq | hq) <;> cases hq
  · rw [hcap]
    intro m hm
    injection hm with hm
    subst hm
    cases hcc : c'.captured with
    | some m0 =>
      have : (probeParams c' p).1 = m0 := by
        unfold probeParams
        rw [hcc]
      rw [this]
      exact hi.captured_next n m0 (hc ▸ hcc)
    | none =>
      refine ⟨p, ?_, fun k => probeParams_keys c' p hcc k⟩
      rw [firstProbe_append, hi.none (hc ▸ hcc), Option.none_or, hn, List.findSome?_append]
      have : pre.findSome? Act.probed = Option.none := by
        rw [List.findSome?_eq_none_iff]
        intro a ha
        have := hpre a ha
        cases a <;> first | rfl | cases this
      rw [this]
      rfl
  · rw [hcap]
    intro h
    cases h


theorem runDiscovery_safe (c : Client) (n full : Name) : (runDiscovery c n full).st.captured = c.captured ∧
    (runDiscovery c n full).st.request = c.request ∧ ((runDiscovery c n full).st.pending = c.pending ∨
      (runDiscovery c n full).st.pending = some (.discovery full)) ∧ (∀ a ∈ (runDiscovery c n full).acts, a.ca = none) ∧
    (∀ u, (runDiscovery c n full).ended ≠ .ub u) := by
  unfold runDiscovery
  split
  · exact ⟨rfl, rfl, .inr rfl, by simp [Act.ca], by simp⟩
  · exact ⟨rfl, rfl, .inl rfl, by simp, by simp⟩
  · next h => exact absurd h (genDiscoveryName_no_ub _ _)

theorem chooseRedirect_not_ub (c : Client) (rs : List Name) (u : Ub) : (chooseRedirect c rs).2 ≠ .inl (.ub u) := by
  unfold chooseRedirect
  split
  · simp
  · simp
  · split
    · simp
    · rw [getline_eq]
      dsimp only
      split
      · simp
      · split <;> simp

theorem chooseName_lines (c : Client) (ns : List (Name × Int)) : (chooseName c ns).1 = c ∨
    (chooseName c ns).1 = { c with stdin := c.stdin.tail } := by
  unfold chooseName
  split
  · exact .inl rfl
  · exact .inl rfl
  · rw [getline_eq]
    dsimp only
    split <;> exact .inr rfl

/-- every callback keeps the invariant, and undefined behaviour has one of the known causes -/
theorem SafeInv.step {C : Crypto} {h : List ClientStep} {c : Client} (hi : SafeInv h c) (e : ClientEvent) {env : ClientEnv}
    (hw : env.Wf) :
    SafeInv (h ++ [⟨e, env, (c.step C env e).acts, (c.step C env e).ended⟩]) (c.step C env e).st ∧
    ∀ u, (c.step C env e).ended = .ub u → ∃ d w, e = .reply d w ∧ UbCause C env h c d u := by
  have hidle : ∀ (o : ClientOut), o.st.captured = c.captured → (o.st.pending = c.pending ∨ (∀ p, o.st.pending ≠ some (.probe p)) ∧
      o.st.pending ≠ some .new ∧ o.st.pending ≠ some .challenge) → o.st.request = c.request → (∀ a ∈ o.acts, a.ca = Option.none) →
      (∀ u, o.ended ≠ .ub u) → SafeInv (h ++ [⟨e, env, o.acts, o.ended⟩]) o.st ∧
      ∀ u, o.ended = .ub u → ∃ d w, e = .reply d w ∧ UbCause C env h c d u := by
    intro o h1 h2 h3 h4 h5
    exact ⟨hi.idle h1 h2 h3 _ h4, fun u hu => absurd hu (h5 u)⟩
  cases e with
  | signal =>
    refine hidle (handleSignal c) ?_ ?_ ?_ ?_ ?_ <;>
    · unfold handleSignal
      split
      · simp
      · split
        · split <;> simp
        · split
          · split
            · split <;> simp
            · simp
            · next h =>
              unfold identityOfKeyName at h
              split at h <;> cases h
          · simp
  | nack =>
    have hs : c.step C env .nack = if c.pending = Option.none then { st := c } else { st := c, ended := .exit 1 } := rfl
    rw [hs]
    split
    · exact hidle _ rfl (.inl rfl) rfl (by simp) (by simp)
    · exact hidle _ rfl (.inl rfl) rfl (by simp) (by simp)
  | timeout => exact hidle _ rfl (.inr (by simp [Client.step])) rfl (by simp [Client.step]) (by simp [Client.step])
  | reply d w =>
    cases hpend : c.pending with
    | none =>
      have hs : c.step C env (.reply d w) = { st := c } := by unfold Client.step; rw [hpend]
      rw [hs]
      exact hidle _ rfl (.inl rfl) rfl (by simp) (by simp)
    | some aw =>
      cases aw with
      | discovery full =>
        have hs : c.step C env (.reply d w) = discoveryCb c full d := by unfold Client.step; rw [hpend]
        rw [hs]
        refine hidle _ ?_ ?_ ?_ ?_ ?_ <;>
        · unfold discoveryCb
          split
          · simp [Act.ca]
          · simp
          · next h => exact absurd h (genProfileName_no_ub _ _)
      | info full =>
        have hs : c.step C env (.reply d w) = infoCb C c full d := by unfold Client.step; rw [hpend]
        rw [hs]
        unfold infoCb
        split
        · exact hidle _ rfl (.inr (by simp)) rfl (by simp) (by simp)
        · next u hu =>
          obtain ⟨h1, p, h2, h3⟩ := acceptProfile_ub hu
          subst h1
          refine ⟨hi.idle rfl (.inl rfl) rfl _ (by simp), ?_⟩
          intro u' hu'
          injection hu' with hu'
          subst hu'
          exact ⟨d, w, rfl, .noCertificate hpend h2 h3⟩
        · next p hp =>
          have hcert := acceptProfile_cert hp
          split
          · split
            · rw [getline_eq]
              dsimp only
              split
              · refine ⟨?_, ?_⟩
                · exact SafeInv.runProbe (C := C) (c' := { c with stdin := c.stdin.tail, trusted := p.cert }) hi rfl rfl hcert _
                    [.asked p (c.stdin.headD [])] (by simp [Act.ca]) rfl
                · intro u hu
                  cases hu
              · exact hidle _ rfl (.inl rfl) rfl (by simp [Act.ca]) (by simp)
            · exact hidle _ rfl (.inl rfl) rfl (by simp) (by simp)
          · refine ⟨?_, ?_⟩
            · exact SafeInv.runProbe (C := C) hi rfl rfl hcert _ [] (by simp) rfl
            · intro u hu
              cases hu
      | probe p =>
        have hs : c.step C env (.reply d w) = probeCb C env c p d := by unfold Client.step; rw [hpend]
        rw [hs]
        obtain ⟨hcert, hcap⟩ := hi.probe p hpend
        unfold probeCb
        split
        · exact hidle _ rfl (.inl rfl) rfl (by simp) (by simp)
        · next h => exact absurd h (onProbeResponse_no_ub hcert _ _ _ _)
        · next names rs hok =>
          split
          · obtain ⟨⟨ls, hl⟩, _⟩ := chooseRedirect_spec c rs
            have hnu := chooseRedirect_not_ub c rs
            split
            · next c1 x hc =>
              rw [hc] at hl hnu
              dsimp only at hl hnu
              subst hl
              exact hidle _ rfl (.inl rfl) rfl (by simp) (fun u hu => hnu u (by rw [← hu]))
            · next c1 full hc =>
              rw [hc] at hl
              dsimp only at hl
              subst hl
              split
              · next id hid =>
                obtain ⟨h1, h2, h3, h4, h5⟩ := runDiscovery_safe { c with stdin := ls } id full
                refine hidle _ h1 ?_ h2 h4 h5
                rcases h3 with h3 | h3
                · exact .inl h3
                · exact .inr (by rw [h3]; simp)
              · exact hidle _ rfl (.inl rfl) rfl (by simp) (by simp)
              · next h =>
                unfold identityOfCertName at h
                split at h <;> cases h
          · have hl := chooseName_lines c names
            have hl' : ∃ ls, (chooseName c names).1 = { c with stdin := ls } ∧ ∀ l ∈ ls, l ∈ c.stdin := by
              rcases hl with hl | hl
              · exact ⟨c.stdin, hl, fun l h => h⟩
              · exact ⟨_, hl, fun l h => List.mem_of_mem_tail h⟩
            obtain ⟨ls, hl, hsub⟩ := hl'
            split
            · next c1 hc =>
              rw [hc] at hl
              dsimp only at hl
              subst hl
              exact hidle _ rfl (.inl rfl) rfl (by simp) (by simp)
            · next c1 nm hc =>
              rw [hc] at hl
              dsimp only at hl
              subst hl
              obtain ⟨g1, g2, g3⟩ := runNew_safe (C := C) hw { c with stdin := ls } (fun r hr => (hi.request r hr).1) p nm
              refine ⟨hi.keeps hcert hcap (Client.Keeps.stdin (runNew_keeps C env { c with stdin := ls } p nm)) g1 g2 _ rfl, ?_⟩
              intro u hu
              obtain ⟨k1, l, k2, n, k3, k4⟩ := g3 u hu
              subst k1
              exact ⟨d, w, rfl, .hours hpend (hsub l k2) ((stoul_iff l n).mp k3) (addHours_none k4)⟩
      | new =>
        cases hreq : c.request with
        | none => exact absurd hreq (hi.active (.inl hpend))
        | some r =>
          have hs : c.step C env (.reply d w) = newCb C env c r d := by unfold Client.step; rw [hpend, hreq]
          rw [hs]
          obtain ⟨f1, f2, f3⟩ := hi.request r hreq
          obtain ⟨g1, g2, g3⟩ := newCb_safe (C := C) hw c f1 f2 f3 d
          refine ⟨hi.keeps f2 f3 (newCb_keeps C env c r d) g1 (fun h => absurd h g2) _ rfl, ?_⟩
          intro u hu
          rcases g3 u hu with ⟨k1, m, k2, k3⟩ | ⟨k1, ⟨t, k2, k3⟩, es, k4, x, k5, k6⟩
          · subst k1
            obtain ⟨p, q1, q2⟩ := hi.captured m k2
            exact ⟨d, w, rfl, .noAddress (.inl hpend) q1 (fun hk => mmFind_absent.mp k3 ((q2 _).mpr hk))⟩
          · subst k1
            exact ⟨d, w, rfl, .tooLong hpend hreq k2 k3 k4 k5 k6⟩
      | challenge =>
        cases hreq : c.request with
        | none => exact absurd hreq (hi.active (.inr hpend))
        | some r =>
          have hs : c.step C env (.reply d w) = challengeCb C env c r d := by unfold Client.step; rw [hpend, hreq]
          rw [hs]
          obtain ⟨f1, f2, f3⟩ := hi.request r hreq
          obtain ⟨g1, g2, g3⟩ := challengeCb_safe (C := C) hw c f1 f2 f3 d
          refine ⟨hi.keeps f2 f3 (challengeCb_keeps C env c r d) g1 (fun h => absurd h g2) _ rfl, ?_⟩
          intro u hu
          rcases g3 u hu with ⟨k1, m, k2, k3⟩ | ⟨k1, ⟨t, k2, k3⟩, pt, es, k4, k5, x, k6, k7, n, k8, k9⟩
          · subst k1
            obtain ⟨p, q1, q2⟩ := hi.captured m k2
            exact ⟨d, w, rfl, .noAddress (.inr hpend) q1 (fun hk => mmFind_absent.mp k3 ((q2 _).mpr hk))⟩
          · subst k1
            exact ⟨d, w, rfl, .deadline hpend hreq k2 k3 k4 k5 k6 k7 k8 k9⟩
      | fetch =>
        have hs : c.step C env (.reply d w) = certFetchCb C c w := by unfold Client.step; rw [hpend]
        rw [hs]
        refine hidle _ ?_ ?_ ?_ ?_ ?_ <;>
        · unfold certFetchCb
          split
          · simp
          · next h =>
            unfold onCertFetchResponse Res.ofOption at h
            split at h <;> cases h
          · split <;> simp [Act.ca]

end Ndncert
