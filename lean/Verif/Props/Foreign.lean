import Verif.Spec.Foreign
import Verif.Lemmas.ClientSafe
import Verif.Lemmas.Iv
import Verif.Props.RequestObject

/-! # A reply that belongs to another request (C146) -/

namespace Ndncert.Props

/-- C146 in full: a packet of the CA that is not for this request, given to the object, does not keep it from taking a reply of the CA it
would take otherwise -/
def ForeignHarmless {σ : Type} (C : Crypto) (S : StoreI σ) (cfg : CaConfig) : Prop :=
  ∀ h s, Exec C S cfg h s → ∀ p ty priv id, id.length = 8 → ∀ before q, ReqRun C (.create p ty priv id) before q →
    ∀ n ∈ h, ∀ d ∈ sent n.effects, ∀ m ∈ h, ∀ d0 ∈ sent m.effects, ¬ OpensWith C d0 q.aesKey q.requestId →
    ∀ now, q.takes C d now → (q.given C d0 now).takes C d now

/-! ## Two requests at one CA -/

/-- /ndn/bob/KEY/k -/
def bobKey : Name := Fix.ca ++ [gcomp (bytes! "bob"), keyComponent, gcomp [107]]

/-- the other requester -/
def bob0 : Request := .create Fix.profile .new [1, 3] (List.replicate 8 0)
def bobGen : Request × Res (Option Interest) := genNewInterest Fix.C bob0 bobKey (1000 * nsPerSec) (4600 * nsPerSec) ⟨54, [2]⟩
def bobEv1 : Event := .msg (.new (Fix.interestOf bobGen.2)) (Fix.env 1001 6)
def bobSt1 : CaState Mem := (bobEv1.run Fix.C Fix.S Fix.cfg Fix.st2).2
def bobReply1 : Data := Fix.firstData (bobEv1.run Fix.C Fix.S Fix.cfg Fix.st2).1
def bob1 : Request := (onNewResponse Fix.C bobGen.1 bobReply1 (List.replicate 32 0)).1
def bobChal : Interest :=
  Fix.interestOf' (genChallengeInterest Fix.C (selectOrContinueChallenge bob1 (bytes! "pin")).1 [] (List.replicate 8 4)).2
def bobEv2 : Event := .msg (.challenge bobChal) { Fix.env 1001 6 with ivRnd := List.replicate 8 78 }
/-- the reply of the CA to the other requester -/
def bobReply2 : Data := Fix.firstData (bobEv2.run Fix.C Fix.S Fix.cfg bobSt1).1

/-- the first requester after its first CHALLENGE, waiting for the reply -/
def waiting : Request := (calls Fix.C exObject (exObjectCalls.take 4)).2

theorem waiting_run : ReqRun Fix.C exObject (calls Fix.C exObject (exObjectCalls.take 4)).1 waiting :=
  run_of_calls (cs := exObjectCalls.take 4) (r := exObject) (C := Fix.C) .init (by decide +kernel)

/-- whether `OpensWith` holds -/
def foreignOpens (C : Crypto) (d : Data) (key : Bytes) (id : RequestId) : Bool :=
  match parse d.content.val with
  | .ok es =>
    match es.find? (fun e => e.typ == T.EncryptedPayload), es.find? (fun e => e.typ == T.InitializationVector), es.find? (fun e => e.typ == T.AuthenticationTag) with
    | some ct, some iv, some tag => (C.aesDec key iv.val id ct.val tag.val).isSome
    | _, _, _ => false
  | _ => false

theorem foreignOpens_of {C : Crypto} {d : Data} {key : Bytes} {id : RequestId} (h : OpensWith C d key id) : foreignOpens C d key id = true := by
  obtain ⟨es, ct, iv, tag, pt, h1, h2, h3, h4, h5⟩ := h
  unfold foreignOpens
  rw [h1]
  dsimp only
  rw [h2, h3, h4]
  dsimp only
  rw [h5]
  rfl

theorem of_foreignOpens {C : Crypto} {d : Data} {key : Bytes} {id : RequestId} (h : foreignOpens C d key id = true) : OpensWith C d key id := by
  unfold foreignOpens at h
  split at h
  · rename_i es h1
    split at h
    · rename_i ct iv tag h2 h3 h4
      obtain ⟨pt, h5⟩ := Option.isSome_iff_exists.1 h
      exact ⟨es, ct, iv, tag, pt, h1, h2, h3, h4, h5⟩
    · cases h
  · cases h

/-- C146 is false of the code: an object that waits for its first CHALLENGE reply and is given the CA's reply to another requester refuses its
own reply afterwards -/
theorem C146_false : ¬ ForeignHarmless Fix.C Fix.S Fix.cfg := by
  intro H
  have hx := exec_of_runs (C := Fix.C) (S := Fix.S) (cfg := Fix.cfg) (idKey := Fix.idKey) (es := [Fix.ev1, Fix.ev2, bobEv1, bobEv2]) (by decide +kernel)
  have hb : ¬ OpensWith Fix.C bobReply2 waiting.aesKey waiting.requestId := by
    intro h
    have h1 := foreignOpens_of h
    have h2 : foreignOpens Fix.C bobReply2 waiting.aesKey waiting.requestId = false := by decide +kernel
    rw [h2] at h1
    cases h1
  have h1 : Fix.reply2 ∈ sent (Fix.ev2.run Fix.C Fix.S Fix.cfg Fix.st1).1 := by decide +kernel
  have h2 : bobReply2 ∈ sent (bobEv2.run Fix.C Fix.S Fix.cfg bobSt1).1 := by decide +kernel
  have ht : waiting.takes Fix.C Fix.reply2 (1001 * nsPerSec) := by unfold Request.takes; decide +kernel
  have hn : ¬ (waiting.given Fix.C bobReply2 (1001 * nsPerSec)).takes Fix.C Fix.reply2 (1001 * nsPerSec) := by unfold Request.takes; decide +kernel
  have e : (runs Fix.C Fix.S Fix.cfg ⟨Fix.S.empty, Fix.idKey⟩ [Fix.ev1, Fix.ev2, bobEv1, bobEv2]).1 =
      [⟨Fix.st0, Fix.ev1, (Fix.ev1.run Fix.C Fix.S Fix.cfg Fix.st0).1⟩, ⟨Fix.st1, Fix.ev2, (Fix.ev2.run Fix.C Fix.S Fix.cfg Fix.st1).1⟩,
       ⟨Fix.st2, bobEv1, (bobEv1.run Fix.C Fix.S Fix.cfg Fix.st2).1⟩, ⟨bobSt1, bobEv2, (bobEv2.run Fix.C Fix.S Fix.cfg bobSt1).1⟩] := by
    unfold bobSt1 Fix.st2 Fix.st1; rfl
  rw [e] at hx
  have m1 := H _ _ hx Fix.profile .new [1, 2] (List.replicate 8 0) rfl _ waiting waiting_run
  generalize Fix.ev1.run Fix.C Fix.S Fix.cfg Fix.st0 = x1 at m1
  generalize Fix.ev2.run Fix.C Fix.S Fix.cfg Fix.st1 = x2 at m1 h1
  generalize bobEv1.run Fix.C Fix.S Fix.cfg Fix.st2 = x3 at m1
  generalize bobEv2.run Fix.C Fix.S Fix.cfg bobSt1 = x4 at m1 h2
  generalize 1001 * nsPerSec = t at ht hn
  exact hn (m1 ⟨_, _, x2.1⟩ (.tail _ (.head _)) Fix.reply2 h1 ⟨_, _, x4.1⟩ (.tail _ (.tail _ (.tail _ (.head _)))) bobReply2 h2 hb t ht)

section
variable {C : Crypto}

/-- decryption fails if nothing opens -/
theorem decodeAes_foreign {d : Data} {key id div encIv : Bytes} (h : ¬ OpensWith C d key id) (pt : Bytes) :
    (decodeAes C d.content key id div encIv).2 ≠ .ok pt := by
  intro hok
  rcases hd : decodeAes C d.content key id div encIv with ⟨v, res⟩
  rw [hd] at hok
  dsimp only at hok
  rw [hok] at hd
  obtain ⟨es, ct, iv, tag, h1, h2, h3, h4, _, _, _, _, h9, _⟩ := decodeAes_ok hd
  have key : ∀ {t : Nat} {b : Block}, getElem es t = .ok b → es.find? (fun e => e.typ == t) = some b := by
    intro t b hg
    unfold getElem Res.ofOption at hg
    split at hg
    · rename_i x hx
      cases hg
      exact hx
    · cases hg
  exact h ⟨es, ct, iv, tag, pt, h1, key h2, key h3, key h4, h9⟩

/-- C146, what holds: a packet that is not for this request is refused, and nothing but the record of the CA's IV may change: the status, the
tries, the time, the key, the request id and the names are as before, and the object makes the same CHALLENGE Interests as before, for any
answer. -/
theorem C146_kept_partial (q : Request) (d0 : Data) (now : Time) (h : ¬ OpensWith C d0 q.aesKey q.requestId) :
    ¬ q.takes C d0 now ∧ (∃ v, q.given C d0 now = { q with decryptionIv := v }) ∧
    ∀ kind params rnd, ((ReqCall.genChallenge params rnd).run C ((ReqCall.select kind).run C (q.given C d0 now)).1).2 =
      ((ReqCall.genChallenge params rnd).run C ((ReqCall.select kind).run C q).1).2 := by
  have hd : ∃ v, q.given C d0 now = { q with decryptionIv := v } ∧ ¬ q.takes C d0 now := by
    unfold Request.given Request.takes ReqCall.run onChallengeResponse
    dsimp only
    cases hc : checkReply C q.profile d0 with
    | exc e => exact ⟨q.decryptionIv, rfl, by simp [Res.as]⟩
    | ub u => exact ⟨q.decryptionIv, rfl, by simp [Res.as]⟩
    | ok _ =>
      dsimp only
      unfold challengeDecode
      have hno := decodeAes_foreign (div := q.decryptionIv) (encIv := q.encryptionIv) h
      rcases hdec : decodeAes C d0.content q.aesKey q.requestId q.decryptionIv q.encryptionIv with ⟨v, res⟩
      rw [hdec] at hno
      cases res with
      | exc e => exact ⟨v, rfl, by simp [Res.as]⟩
      | ub u => exact ⟨v, rfl, by simp [Res.as]⟩
      | ok pt => exact absurd rfl (hno pt)
  obtain ⟨v, h1, h2⟩ := hd
  refine ⟨h2, ⟨v, h1⟩, ?_⟩
  intro kind params rnd
  rw [h1]
  have hsel : ((ReqCall.select kind).run C { q with decryptionIv := v }).1 = { ((ReqCall.select kind).run C q).1 with decryptionIv := v } := by
    unfold ReqCall.run selectOrContinueChallenge
    dsimp only
    cases createChallenge kind <;> rfl
  rw [hsel]
  generalize ((ReqCall.select kind).run C q).1 = q1
  unfold ReqCall.run genChallengeInterest
  dsimp only
  split
  · rfl
  · cases createChallenge q1.challengeType with
    | none => rfl
    | some k =>
      dsimp only
      cases genChallengeTlv k q1.status q1.challengeStatus params with
      | exc e => rfl
      | ub u => rfl
      | ok es =>
        dsimp only
        rcases encodeAes C T.ApplicationParameters q1.aesKey (encodeAll es) q1.requestId q1.encryptionIv rnd with ⟨iv, res⟩
        cases res with
        | exc e => rfl
        | ub u => rfl
        | ok b =>
          dsimp only
          cases q1.keyPair <;> rfl

/-- C146, what holds: once the object has taken a reply, a packet with other random octets in its IV changes nothing at all, so each reply is
taken as if the packet had not come. -/
theorem C146_after_first_partial (q : Request) {d1 d0 : Data} {now1 now0 : Time} (ht : q.takes C d1 now1) {v1 : Bytes} (hv1 : carriedIv d1.content = some v1)
    (hl : d1.content.val.length < 2 ^ 32) (hv0 : ∀ v0, carriedIv d0.content = some v0 → ivPrefix v0 ≠ ivPrefix v1) :
    (q.given C d1 now1).given C d0 now0 = q.given C d1 now1 ∧ ¬ (q.given C d1 now1).takes C d0 now0 := by
  have hiv : (q.given C d1 now1).decryptionIv.length = 12 ∧ ivPrefix (q.given C d1 now1).decryptionIv = ivPrefix v1 := by
    unfold Request.takes ReqCall.run onChallengeResponse at ht
    unfold Request.given ReqCall.run onChallengeResponse
    dsimp only at ht ⊢
    cases hc : checkReply C q.profile d1 with
    | exc e => rw [hc] at ht; simp [Res.as] at ht
    | ub u => rw [hc] at ht; simp [Res.as] at ht
    | ok _ =>
      rw [hc] at ht
      dsimp only at ht ⊢
      unfold challengeDecode at ht ⊢
      rcases hdec : decodeAes C d1.content q.aesKey q.requestId q.decryptionIv q.encryptionIv with ⟨v, res⟩
      rw [hdec] at ht
      cases res with
      | exc e => simp [Res.as] at ht
      | ub u => simp [Res.as] at ht
      | ok pt =>
        dsimp only at ht ⊢
        obtain ⟨es, ct, iv, tag, h1, h2, h3, h4, h5, _, _, _, h9, h10, h11⟩ := decodeAes_ok hdec
        have hct := getElem_val_le h1 h2
        obtain ⟨g1, g2, _, _⟩ := updateIv_ok h5 (by omega) h11
        have hvv : iv.val = v1 := by
          unfold carriedIv at hv1
          rw [h1] at hv1
          dsimp only at hv1
          unfold getElem Res.ofOption at h3
          split at h3
          · rename_i x hx
            cases h3
            rw [hx] at hv1
            simpa using hv1
          · cases h3
        cases hp : parse pt with
        | exc e => rw [hp] at ht; simp [Res.as] at ht
        | ub u => rw [hp] at ht; simp [Res.as] at ht
        | ok es' =>
          dsimp only
          rw [(challengeLoop_full es' now1 es' _).2.2.1]
          exact ⟨g1, g2.trans (by rw [hvv])⟩
  generalize q.given C d1 now1 = q1 at hiv ⊢
  unfold Request.given Request.takes ReqCall.run onChallengeResponse
  dsimp only
  cases hc : checkReply C q1.profile d0 with
  | exc e => exact ⟨rfl, by simp [Res.as]⟩
  | ub u => exact ⟨rfl, by simp [Res.as]⟩
  | ok _ =>
    dsimp only
    unfold challengeDecode
    have hdec : ∃ e, decodeAes C d0.content q1.aesKey q1.requestId q1.decryptionIv q1.encryptionIv = (q1.decryptionIv, e) ∧ ∀ pt, e ≠ .ok pt := by
      have hne : q1.decryptionIv ≠ [] := by intro h; rw [h] at hiv; cases hiv.1
      unfold decodeAes
      split
      · exact ⟨_, rfl, by simp⟩
      · exact ⟨_, rfl, by simp⟩
      · rename_i ct obs tag hd
        have hobs : carriedIv d0.content = some obs := by
          rw [Res.bind_eq_ok] at hd
          obtain ⟨es, h1, hd⟩ := hd
          rw [Res.bind_eq_ok] at hd
          obtain ⟨c, h2, hd⟩ := hd
          rw [Res.bind_eq_ok] at hd
          obtain ⟨i, h3, hd⟩ := hd
          rw [Res.bind_eq_ok] at hd
          obtain ⟨g, h4, hd⟩ := hd
          split at hd
          · cases hd
          · simp only [Res.ok.injEq, Prod.mk.injEq] at hd
            obtain ⟨rfl, rfl, rfl⟩ := hd
            unfold carriedIv
            have h1' : parse d0.content.val = .ok es := h1
            rw [h1']
            unfold getElem at h3
            rw [Res.ofOption_eq_ok] at h3
            simp only [h3, Option.map_some]
        split
        · exact ⟨_, rfl, by simp⟩
        split
        · exact ⟨_, rfl, by simp⟩
        split
        · exact ⟨_, rfl, by simp⟩
        rw [if_pos ⟨hne, .inr (by rw [hiv.2]; exact hv0 _ hobs)⟩]
        exact ⟨_, rfl, by simp⟩
    obtain ⟨e, h1, h2⟩ := hdec
    rw [h1]
    cases e with
    | exc e => exact ⟨rfl, by simp [Res.as]⟩
    | ub u => exact ⟨rfl, by simp [Res.as]⟩
    | ok pt => exact absurd rfl (h2 pt)

end

/-- the hypotheses are met: the object waits, and the packet is the reply to the other requester, which the CA signed -/
example : ¬ OpensWith Fix.C bobReply2 waiting.aesKey waiting.requestId ∧ Fix.C.verifyData bobReply2 Fix.caCert = true ∧
    OpensWith Fix.C bobReply2 bob1.aesKey bob1.requestId := by
  refine ⟨fun h => ?_, by decide +kernel, of_foreignOpens (by decide +kernel)⟩
  have h1 := foreignOpens_of h
  have h2 : foreignOpens Fix.C bobReply2 waiting.aesKey waiting.requestId = false := by decide +kernel
  rw [h2] at h1
  cases h1

/-- the record of the IV does change -/
example : (waiting.given Fix.C bobReply2 (1001 * nsPerSec)).decryptionIv ≠ waiting.decryptionIv := by decide +kernel

/-- the object took its first reply, and the reply to the other requester has other random octets -/
example : waiting.takes Fix.C Fix.reply2 (1001 * nsPerSec) ∧ (∃ v1 v0, carriedIv Fix.reply2.content = some v1 ∧ carriedIv bobReply2.content = some v0 ∧ ivPrefix v0 ≠ ivPrefix v1) ∧
    Fix.reply2.content.val.length < 2 ^ 32 := by
  refine ⟨by unfold Request.takes; decide +kernel, ⟨List.replicate 8 77 ++ [0, 0, 0, 0], List.replicate 8 78 ++ [0, 0, 0, 0], ?_, ?_, ?_⟩, ?_⟩ <;> decide +kernel

end Ndncert.Props
