import Verif.Lemmas.Encoders
import Verif.Lemmas.Probe
import Verif.Lemmas.IvRuns

namespace Ndncert

theorem hexVal_hexDigit {d : Nat} (h : d < 16) : hexVal (hexDigit d) = some d := by
  have : ∀ d : Fin 16, hexVal (hexDigit d.val) = some d.val := by decide
  exact this ⟨d, h⟩

theorem fromHex_toHex (bs : Bytes) : fromHex (toHex bs) = .ok bs := by
  induction bs with
  | nil => rfl
  | cons b bs ih =>
    have h1 : b.toNat / 16 < 16 := by have := b.toNat_lt; omega
    have h2 : b.toNat % 16 < 16 := by omega
    have e : toHex (b :: bs) = hexDigit (b.toNat / 16) :: hexDigit (b.toNat % 16) :: toHex bs := rfl
    rw [e]
    unfold fromHex
    rw [hexVal_hexDigit h1, hexVal_hexDigit h2]
    dsimp only
    rw [ih]
    simp only [Res.bind_ok]
    have : UInt8.ofNat (16 * (b.toNat / 16) + b.toNat % 16) = b := by
      rw [Nat.div_add_mod]
      simp
    rw [this]

theorem challengeElems_ok {r : RequestState} {issued hint : Name} {es : List Block}
    (h : challengeElems r issued hint = .ok es) :
    ∃ st, (match r.challengeState with | some cs => challengeStateElems cs | none => .ok []) = .ok st ∧
      es = nniBlock T.Status r.status.toNat :: (st ++ (if issued = [] then []
       else [nestedBlock T.IssuedCertName (nameBlock issued), nestedBlock T.ForwardingHint (nameBlock hint)])) := by
  unfold challengeElems at h
  cases hc : r.challengeState with
  | none =>
    rw [hc] at h
    simp only [Res.bind_ok, Res.ok.injEq] at h
    exact ⟨[], rfl, by rw [← h]; simp⟩
  | some cs =>
    rw [hc] at h
    dsimp only at h ⊢
    rw [Res.bind_eq_ok] at h
    obtain ⟨st, h1, h2⟩ := h
    simp only [Res.ok.injEq] at h2
    exact ⟨st, h1, by rw [← h2]; simp⟩

/-- status element: first in the list -/
theorem challengeStep_status (s : Status) (hs : statusFromBlock (nniBlock T.Status s.toNat) = .ok s)
    (rest : List Block) (now : Time) (a : ChalDecAcc) (hl : a.lookingForNonce = false) :
    challengeStep (nniBlock T.Status s.toNat :: rest) now a (nniBlock T.Status s.toNat) =
      .ok { a with req := { a.req with status := s }, numStatus := a.numStatus + 1 } := by
  unfold challengeStep
  rw [if_pos hl, if_pos (by simp)]
  have : getElem (nniBlock T.Status s.toNat :: rest) T.Status = .ok (nniBlock T.Status s.toNat) := rfl
  rw [this]
  simp only [Res.bind_ok, hs]

theorem deadline_fits {now s : Int} (h0 : 0 ≤ s) (h : s * 1000000000 < 2 ^ 63 ∧ -(2 ^ 63) ≤ now + s * 1000000000 ∧ now + s * 1000000000 < 2 ^ 63) :
    -(2 ^ 63) ≤ s * nsPerSec ∧ s * nsPerSec < 2 ^ 63 ∧ -(2 ^ 63) ≤ now + s * nsPerSec ∧ now + s * nsPerSec < 2 ^ 63 := by
  unfold nsPerSec
  omega

theorem challengeLoop_state (es : List Block) (now : Time) (cs : ChallengeState) (st : List Block) (nonce : Bytes)
    (hst : challengeStateElems cs = .ok st)
    (htr : cs.remainingTries < 2 ^ 31) (ht0 : 0 ≤ cs.remainingTime) (ht1 : cs.remainingTime * 1000000000 < 2 ^ 63 ∧ -(2 ^ 63) ≤ now + cs.remainingTime * 1000000000 ∧ now + cs.remainingTime * 1000000000 < 2 ^ 63)
    (hn : cs.challengeStatus = NEED_PROOF → secretGetD cs.secrets KEY_NONCE = toHex nonce ∧ nonce.length = 16)
    (a : ChalDecAcc) (hl : a.lookingForNonce = false) :
    loopRes (challengeStep es now) a st =
      ({ a with req := { a.req with
          challengeStatus := cs.challengeStatus
          remainingTries := cs.remainingTries
          freshBefore := now + cs.remainingTime * nsPerSec
          nonce := if cs.challengeStatus = NEED_PROOF then nonce else a.req.nonce } }, .ok ()) := by
  have s1 : ∀ a : ChalDecAcc, a.lookingForNonce = false →
      challengeStep es now a (binBlock T.ChallengeStatus cs.challengeStatus) =
        .ok { a with req := { a.req with challengeStatus := cs.challengeStatus } } := by
    intro a hl
    unfold challengeStep
    rw [if_pos hl, if_neg (by simp), if_pos (by simp)]; rfl
  have s2 : ∀ a : ChalDecAcc, a.lookingForNonce = false →
      challengeStep es now a (nniBlock T.RemainingTries cs.remainingTries) =
        .ok { a with req := { a.req with remainingTries := cs.remainingTries } } := by
    intro a hl
    unfold challengeStep
    rw [if_pos hl, if_neg (by simp), if_neg (by simp), if_pos (by simp),
      readNni_nniBlock_of_lt _ _ (by omega)]
    simp only [Res.bind_ok, toInt32_small htr]
  have s3 : ∀ a : ChalDecAcc, a.lookingForNonce = false →
      challengeStep es now a (nniBlock T.RemainingTime (cs.remainingTime % 2 ^ 64).toNat) =
        .ok { a with req := { a.req with freshBefore := now + cs.remainingTime * nsPerSec } } := by
    intro a hl
    unfold challengeStep
    rw [if_pos hl, if_neg (by simp), if_neg (by simp), if_neg (by simp), if_pos (by simp),
      readNni_nniBlock_of_lt _ _ (by omega)]
    have : ((cs.remainingTime % 2 ^ 64).toNat : Int) = cs.remainingTime := by omega
    have e2 : addSeconds now (cs.remainingTime % 2 ^ 64).toNat = .ok (now + cs.remainingTime * nsPerSec) := by
      unfold addSeconds
      rw [toInt64_small (by omega), this]
      exact if_pos (deadline_fits ht0 ht1)
    simp only [Res.bind_ok, e2]
  have s4 : ∀ a : ChalDecAcc, a.lookingForNonce = false →
      challengeStep es now a (binBlock T.ParameterKey KEY_NONCE) = .ok { a with lookingForNonce := true } := by
    intro a hl
    unfold challengeStep
    rw [if_pos hl, if_neg (by simp), if_neg (by simp), if_neg (by simp), if_neg (by simp), if_neg (by simp),
      if_neg (by simp), if_pos (by simp), if_pos (by simp)]
  have s5 : ∀ a : ChalDecAcc, a.lookingForNonce = true → nonce.length = 16 →
      challengeStep es now a (binBlock T.ParameterValue nonce) =
        .ok { a with req := { a.req with nonce := nonce }, lookingForNonce := false } := by
    intro a hl hn
    unfold challengeStep
    rw [if_neg (by simp [hl]), if_pos (by simp), if_neg (by simp [hn])]; rfl
  unfold challengeStateElems at hst
  dsimp only at hst
  split at hst
  · rename_i hnp
    obtain ⟨h1, h2⟩ := hn hnp
    rw [h1, fromHex_toHex] at hst
    simp only [Res.bind_ok, Res.ok.injEq] at hst
    subst hst
    simp only [List.cons_append, List.nil_append, loopRes, s1 a hl]
    rw [s2 _ (by exact hl)]
    dsimp only
    rw [s3 _ (by exact hl)]
    dsimp only
    rw [s4 _ (by exact hl)]
    dsimp only
    rw [s5 _ rfl h2]
    simp only [hnp, if_true, hl]
  · rename_i hnp
    simp only [Res.ok.injEq] at hst
    subst hst
    simp only [loopRes, s1 a hl]
    rw [s2 _ (by exact hl)]
    dsimp only
    rw [s3 _ (by exact hl)]
    simp only [hnp, if_false]

theorem challengeLoop_tail (es : List Block) (now : Time) (issued hint : Name) (hi : NameFits issued) (hh : NameFits hint)
    (a : ChalDecAcc) (hl : a.lookingForNonce = false) :
    loopRes (challengeStep es now) a
      [nestedBlock T.IssuedCertName (nameBlock issued), nestedBlock T.ForwardingHint (nameBlock hint)] =
      ({ a with req := { a.req with issuedCertName := issued, forwardingHint := hint } }, .ok ()) := by
  have s1 : challengeStep es now a (nestedBlock T.IssuedCertName (nameBlock issued)) =
      .ok { a with req := { a.req with issuedCertName := issued } } := by
    unfold challengeStep
    rw [if_pos hl, if_neg (by simp), if_neg (by simp), if_neg (by simp), if_neg (by simp), if_pos (by simp),
      blockFromValue_nested _ _ (nameBlock_fits _ hi)]
    simp only [Res.bind_ok, nameOfBlock_nameBlock _ hi.1]
  have s2 : ∀ a : ChalDecAcc, a.lookingForNonce = false →
      challengeStep es now a (nestedBlock T.ForwardingHint (nameBlock hint)) =
        .ok { a with req := { a.req with forwardingHint := hint } } := by
    intro a hl
    unfold challengeStep
    rw [if_pos hl, if_neg (by simp), if_neg (by simp), if_neg (by simp), if_neg (by simp), if_neg (by simp),
      if_pos (by simp), blockFromValue_nested _ _ (nameBlock_fits _ hh)]
    simp only [Res.bind_ok, nameOfBlock_nameBlock _ hh.1]
  simp only [loopRes, s1]
  rw [s2 _ (by exact hl)]

end Ndncert
