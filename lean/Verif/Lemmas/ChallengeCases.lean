import Verif.Spec.Challenge
import Verif.Lemmas.Encoders

namespace Ndncert

theorem lifetime_ns (k : ChalKind) : k.lifetime * nsPerSec = secretLifetime k := by cases k <;> rfl

/-- how a challenge module starts -/
inductive StartCase (C : Crypto) (env : Env) (es : List Block) (r : RequestState) :
    ChalKind → Bytes → List (Bytes × Bytes) → List Mail → Prop where
  | pin : StartCase C env es r .pin NEED_CODE [(KEY_CODE, secretCode env.word32)] []
  | email (addr : Bytes) (hg : Gives es addr) (hid : r.cert.identity ≠ []) (hs : env.spawnOk = true) :
      StartCase C env es r .email NEED_CODE [(KEY_CODE, secretCode env.word32)]
        [{ address := addr, code := secretCode env.word32, caPrefix := r.caPrefix, certName := r.cert.name }]
  | possession (c : Cert) (anchors : List Cert) (ha : env.anchors = .ok anchors) (hg : GivesCredential C es c)
      (hc : c.content.isSome = true) (hk : C.loadKey (c.content.getD []) = true) (hcert : Certified C anchors c) :
      StartCase C env es r .possession NEED_PROOF [(KEY_NONCE, toHex env.nonce), (KEY_CREDENTIAL, toHex c.wire.encode)] []

/-- what a challenge module can return -/
inductive ModCase (C : Crypto) (k : ChalKind) (env : Env) (es : List Block) (r : RequestState) : ChalOut → Prop where
  | error (code : ErrorCode) (info : Bytes) (hcode : code ≠ 0) : ModCase C k env es r (returnWithError r code info)
  | start (cstat : Bytes) (secrets : List (Bytes × Bytes)) (mails : List Mail) (hs : r.status = .beforeChallenge)
      (hst : StartCase C env es r k cstat secrets mails) :
      ModCase C k env es r { returnWithNewStatus k env r cstat secrets k.maxTries k.lifetime with mails := mails }
  | wrong (cs : ChallengeState) (code given : Bytes) (hs : r.status ≠ .beforeChallenge) (hk : k = .pin ∨ k = .email)
      (ha : AwaitsCode r cs code) (hg : Gives es given) (hne : given ≠ code)
      (ht : env.now - cs.timestamp < k.lifetime * nsPerSec) (htr : 1 < cs.remainingTries) (time : Int)
      (htm : time = (k.lifetime * nsPerSec - (env.now - cs.timestamp)).tdiv nsPerSec) :
      ModCase C k env es r (returnWithNewStatus k env r WRONG_CODE cs.secrets (cs.remainingTries - 1) time)
  | code (cs : ChallengeState) (code : Bytes) (hs : r.status ≠ .beforeChallenge) (hk : k = .pin ∨ k = .email)
      (ha : AwaitsCode r cs code) (hg : Gives es code) (ht : env.now - cs.timestamp < k.lifetime * nsPerSec) :
      ModCase C k env es r (returnWithSuccess k r)
  | proof (cs : ChallengeState) (cred : Cert) (nonce p : Bytes) (hs : r.status ≠ .beforeChallenge) (hk : k = .possession)
      (ha : AwaitsProof C r cs cred nonce) (hg : GivesProof es p) (hl : C.loadKey (cred.content.getD []) = true)
      (hv : C.verifyRaw nonce p (cred.content.getD []) = true) :
      ModCase C k env es r (returnWithSuccess .possession r)

theorem handleCode_cases (C : Crypto) {k : ChalKind} (hk : k = .pin ∨ k = .email) {env : Env} {es : List Block}
    {r : RequestState} (hs : r.status ≠ .beforeChallenge) {out : ChalOut} (h : handleCode k env es r = .ok out) :
    ModCase C k env es r out := by
  unfold handleCode at h
  cases hcs : r.challengeState with
  | none => rw [hcs] at h; cases h; exact .error _ _ (by decide)
  | some cs =>
    rw [hcs] at h
    dsimp only at h
    split at h
    · rename_i hstat
      rw [Res.bind_eq_ok] at h
      obtain ⟨g, hg, h⟩ := h
      split at h
      · cases h; exact .error _ _ (by decide)
      · rename_i ht
        rw [Res.bind_eq_ok] at h
        obtain ⟨code, hcode, h⟩ := h
        have hti : env.now - cs.timestamp < k.lifetime * nsPerSec := Int.not_le.mp ht
        split at h
        · rename_i heq
          cases h
          exact .code cs code hs hk ⟨hcs, hstat, hcode⟩ ⟨g, hg, heq⟩ hti
        · rename_i hne
          split at h
          · rename_i htr
            cases h
            exact .wrong cs code _ hs hk ⟨hcs, hstat, hcode⟩ ⟨g, hg, rfl⟩ hne hti htr _ rfl
          · cases h
            exact .error _ _ (by decide)
    · cases h; exact .error _ _ (by decide)

theorem possessionScan_spec (C : Crypto) : ∀ (es : List Block) (acc acc' : Option Cert × Option Bytes),
    possessionScan C es acc = some acc' →
    (acc'.1 = acc.1 ∨ ∃ c, acc'.1 = some c ∧ GivesCredential C es c) ∧
    (acc'.2 = acc.2 ∨ ∃ v, acc'.2 = some v ∧ GivesProof es v) := by
  intro es
  induction es with
  | nil => intro acc acc' h; simp only [possessionScan, Option.some.injEq] at h; subst h; exact ⟨.inl rfl, .inl rfl⟩
  | cons a es ih =>
    intro acc acc' h
    cases es with
    | nil => simp only [possessionScan, Option.some.injEq] at h; subst h; exact ⟨.inl rfl, .inl rfl⟩
    | cons b rest =>
      have liftC : ∀ c, GivesCredential C (b :: rest) c → GivesCredential C (a :: b :: rest) c := by
        rintro c ⟨x, y, d, pre, post, h1, h2⟩
        exact ⟨x, y, d, a :: pre, post, by rw [h1]; rfl, h2⟩
      have liftP : ∀ v, GivesProof (b :: rest) v → GivesProof (a :: b :: rest) v := by
        rintro v ⟨x, y, pre, post, h1, h2⟩
        exact ⟨x, y, a :: pre, post, by rw [h1]; rfl, h2⟩
      have lift : ∀ acc1, possessionScan C (b :: rest) acc1 = some acc' →
          (acc1.1 = acc.1 ∨ ∃ c, acc1.1 = some c ∧ GivesCredential C (a :: b :: rest) c) →
          (acc1.2 = acc.2 ∨ ∃ v, acc1.2 = some v ∧ GivesProof (a :: b :: rest) v) →
          (acc'.1 = acc.1 ∨ ∃ c, acc'.1 = some c ∧ GivesCredential C (a :: b :: rest) c) ∧
          (acc'.2 = acc.2 ∨ ∃ v, acc'.2 = some v ∧ GivesProof (a :: b :: rest) v) := by
        intro acc1 h1 hc hp
        obtain ⟨i1, i2⟩ := ih acc1 acc' h1
        refine ⟨?_, ?_⟩
        · rcases i1 with i1 | ⟨c, i1, g⟩
          · rw [i1]; exact hc
          · exact .inr ⟨c, i1, liftC c g⟩
        · rcases i2 with i2 | ⟨v, i2, g⟩
          · rw [i2]; exact hp
          · exact .inr ⟨v, i2, liftP v g⟩
      simp only [possessionScan] at h
      split at h
      · rename_i ht
        split at h
        · rename_i hk
          split at h
          · rename_i c hc
            rw [Res.bind_eq_ok] at hc
            obtain ⟨d, hd, hc⟩ := hc
            refine lift _ h (.inr ⟨c, rfl, a, b, d, [], rest, rfl, ht.1, hk, ht.2, hd, ?_⟩) (.inl rfl)
            simpa [dataOfBlock] using hc
          · cases h
        · split at h
          · rename_i hk
            exact lift _ h (.inl rfl) (.inr ⟨b.val, rfl, a, b, [], rest, rfl, ht.1, hk, ht.2, rfl⟩)
          · exact lift _ h (.inl rfl) (.inl rfl)
      · exact lift _ h (.inl rfl) (.inl rfl)

theorem handlePossession_cases (C : Crypto) {env : Env} {es : List Block} {r : RequestState} {out : ChalOut}
    (h : handlePossession C env es r = .ok out) : ModCase C .possession env es r out := by
  unfold handlePossession at h
  split at h
  · cases h
  split at h
  · cases h
  · cases h
  rename_i anchors ha
  split at h
  · cases h; exact .error _ _ (by decide)
  rename_i cred proof hscan
  obtain ⟨sc, sp⟩ := possessionScan_spec C _ _ _ hscan
  dsimp only at h sc sp
  split at h
  · rename_i hs
    split at h
    · cases h; exact .error _ _ (by decide)
    rename_i hcond
    split at h
    · cases h
    rename_i c
    split at h
    · cases h
    rename_i kl hkl
    split at h
    · cases h
    rename_i hload
    split at h
    · rename_i hany
      cases h
      have hg : GivesCredential C es c := by
        rcases sc with sc | ⟨c', sc, g⟩
        · cases sc
        · cases sc; exact g
      rw [List.any_eq_true] at hany
      obtain ⟨a, ham, hav⟩ := hany
      simp only [Bool.and_eq_true, Bool.or_eq_true, beq_iff_eq] at hav
      refine .start NEED_PROOF _ [] hs (.possession c anchors ha hg ?_ (by simpa using hload) ⟨a, ham, kl, hkl, hav.1, hav.2⟩)
      simp only [not_or, credHasContent, Bool.not_eq_false] at hcond
      exact hcond.1
    · cases h; exact .error _ _ (by decide)
  · rename_i hs
    split at h
    · rename_i cs hcs
      split at h
      · rename_i hstat
        split at h
        · cases h; exact .error _ _ (by decide)
        rename_i hcond
        rw [Res.bind_eq_ok] at h
        obtain ⟨cw, hcw, h⟩ := h
        rw [Res.bind_eq_ok] at h
        obtain ⟨cb, hcb, h⟩ := h
        rw [Res.bind_eq_ok] at h
        obtain ⟨c, hc, h⟩ := h
        rw [Res.bind_eq_ok] at h
        obtain ⟨nonce, hnonce, h⟩ := h
        split at h
        · cases h
        rename_i hload
        split at h
        · rename_i hver
          cases h
          refine .proof cs c nonce (proof.getD []) hs rfl ⟨hcs, hstat, ⟨cw, cb, hcw, hcb, by simpa [certOfBlock] using hc⟩, hnonce⟩ ?_
            (by simpa using hload) hver
          rcases sp with sp | ⟨v, sp, g⟩
          · rw [sp] at hcond; simp at hcond
          · rw [sp]; exact g
        · cases h; exact .error _ _ (by decide)
      · cases h; exact .error _ _ (by decide)
    · cases h; exact .error _ _ (by decide)

theorem handleChallenge_cases (C : Crypto) {k : ChalKind} {env : Env} {es : List Block} {r : RequestState} {out : ChalOut}
    (h : handleChallenge C k env es r = .ok out) : ModCase C k env es r out := by
  unfold handleChallenge at h
  cases k with
  | pin =>
    dsimp only at h
    unfold handlePin at h
    split at h
    · rename_i hs; cases h; exact .start NEED_CODE _ [] hs .pin
    · rename_i hs; exact handleCode_cases C (.inl rfl) hs h
  | email =>
    dsimp only at h
    unfold handleEmail at h
    split at h
    · rename_i hs
      rw [Res.bind_eq_ok] at h
      obtain ⟨addr, ha, h⟩ := h
      split at h
      · cases h
      rename_i hid
      split at h
      · cases h
      rename_i hsp
      cases h
      exact .start NEED_CODE _ _ hs (.email _ ⟨addr, ha, rfl⟩ hid (by simpa using hsp))
    · rename_i hs; exact handleCode_cases C (.inr rfl) hs h
  | possession => exact handlePossession_cases C h

theorem getElem_no_ub (es : List Block) (t : Nat) (u : Ub) : getElem es t ≠ .ub u := by
  unfold getElem
  cases es.find? (fun e => e.typ == t) <;> simp

theorem fromHex_no_ub : ∀ (bs : Bytes) (u : Ub), fromHex bs ≠ .ub u
  | [], u => by simp [fromHex]
  | [_], u => by simp [fromHex]
  | a :: b :: rest, u => by
    unfold fromHex
    split
    · cases h : fromHex rest with
      | ok x => simp
      | exc e => simp
      | ub w => exact absurd h (fromHex_no_ub rest w)
    · simp

end Ndncert
