import Verif.Lemmas.RequestObject

/-! # Nothing depends on the type a Request object was made for -/

namespace Ndncert

variable {C : Crypto}

/-- the object with another type -/
def Request.retype (r : Request) (ty : RequestType) : Request := { r with type := ty }

theorem genNew_retype (r : Request) (ty : RequestType) (key : Name) (nb na : Time) (v : Block) :
    genNewInterest C (r.retype ty) key nb na v = ((genNewInterest C r key nb na v).1.retype ty, (genNewInterest C r key nb na v).2) := by
  have e : (r.retype ty).profile = r.profile := rfl
  have e2 : (r.retype ty).ecdhPriv = r.ecdhPriv := rfl
  unfold genNewInterest
  rw [e, e2]
  split
  · rfl
  split
  · rfl
  split
  · rfl
  · rfl
  split <;> rfl

theorem genRevoke_retype (r : Request) (ty : RequestType) (cert : Cert) : genRevokeInterest C (r.retype ty) cert = genRevokeInterest C r cert := rfl

theorem onNew_retype (r : Request) (ty : RequestType) (d : Data) (stack : Bytes) :
    onNewResponse C (r.retype ty) d stack = ((onNewResponse C r d stack).1.retype ty, (onNewResponse C r d stack).2) := by
  have e : (r.retype ty).profile = r.profile := rfl
  have e2 : (r.retype ty).ecdhPriv = r.ecdhPriv := rfl
  have e3 : (r.retype ty).requestId = r.requestId := rfl
  unfold onNewResponse
  rw [e, e2, e3]
  split
  · rfl
  · rfl
  dsimp only
  split
  · rfl
  · rfl
  split <;> rfl

theorem select_retype (r : Request) (ty : RequestType) (ch : Bytes) :
    selectOrContinueChallenge (r.retype ty) ch = ((selectOrContinueChallenge r ch).1.retype ty, (selectOrContinueChallenge r ch).2) := by
  unfold selectOrContinueChallenge
  split <;> rfl

theorem genChallenge_retype (r : Request) (ty : RequestType) (m : MMap) (rnd : Bytes) :
    genChallengeInterest C (r.retype ty) m rnd = ((genChallengeInterest C r m rnd).1.retype ty, (genChallengeInterest C r m rnd).2) := by
  have e1 : (r.retype ty).challengeType = r.challengeType := rfl
  have e2 : (r.retype ty).status = r.status := rfl
  have e3 : (r.retype ty).challengeStatus = r.challengeStatus := rfl
  have e4 : (r.retype ty).aesKey = r.aesKey := rfl
  have e5 : (r.retype ty).requestId = r.requestId := rfl
  have e6 : (r.retype ty).encryptionIv = r.encryptionIv := rfl
  have e7 : (r.retype ty).keyPair = r.keyPair := rfl
  have e8 : (r.retype ty).profile = r.profile := rfl
  unfold genChallengeInterest
  rw [e1, e2, e3, e4, e5, e6, e8]
  split
  · rfl
  split
  · rfl
  split
  · rfl
  · rfl
  dsimp only
  split
  · rfl
  · rfl
  rw [e7]
  split <;> rfl

/-- the loop state with another type -/
def ChalDecAcc.retype (a : ChalDecAcc) (ty : RequestType) : ChalDecAcc := { a with req := a.req.retype ty }

theorem challengeStep_retype (es : List Block) (now : Time) (a : ChalDecAcc) (ty : RequestType) (b : Block) :
    challengeStep es now (a.retype ty) b = (challengeStep es now a b).as (ChalDecAcc.retype · ty) := by
  have e : (a.retype ty).lookingForNonce = a.lookingForNonce := rfl
  unfold challengeStep
  rw [e]
  split
  · split
    · cases getElem es T.Status with
      | ok x =>
        show (statusFromBlock x >>= _) = Res.as _ (statusFromBlock x >>= _)
        cases statusFromBlock x <;> rfl
      | _ => rfl
    split
    · rfl
    split
    · cases readNni b <;> rfl
    split
    · cases readNni b with
      | ok n =>
        show (addSeconds now n >>= _) = Res.as _ (addSeconds now n >>= _)
        cases addSeconds now n <;> rfl
      | _ => rfl
    split
    · cases b.blockFromValue with
      | ok n =>
        show (nameOfBlock n >>= _) = Res.as _ (nameOfBlock n >>= _)
        cases nameOfBlock n <;> rfl
      | _ => rfl
    split
    · cases b.blockFromValue with
      | ok n =>
        show (nameOfBlock n >>= _) = Res.as _ (nameOfBlock n >>= _)
        cases nameOfBlock n <;> rfl
      | _ => rfl
    split
    · split <;> rfl
    split <;> rfl
  · split
    · split <;> rfl
    · rfl

theorem challengeLoop_retype (all : List Block) (now : Time) (ty : RequestType) : ∀ (es : List Block) (a : ChalDecAcc),
    loopRes (challengeStep all now) (a.retype ty) es =
      ((loopRes (challengeStep all now) a es).1.retype ty, (loopRes (challengeStep all now) a es).2)
  | [], _ => rfl
  | b :: es, a => by
    unfold loopRes
    rw [challengeStep_retype]
    cases challengeStep all now a b with
    | ok a' => exact challengeLoop_retype all now ty es a'
    | _ => rfl

theorem onChallenge_retype (r : Request) (ty : RequestType) (d : Data) (now : Time) :
    onChallengeResponse C (r.retype ty) d now = ((onChallengeResponse C r d now).1.retype ty, (onChallengeResponse C r d now).2) := by
  have e : (r.retype ty).profile = r.profile := rfl
  have e4 : (r.retype ty).aesKey = r.aesKey := rfl
  have e5 : (r.retype ty).requestId = r.requestId := rfl
  have e6 : (r.retype ty).encryptionIv = r.encryptionIv := rfl
  have e7 : (r.retype ty).decryptionIv = r.decryptionIv := rfl
  unfold onChallengeResponse
  rw [e]
  split
  · rfl
  · rfl
  unfold challengeDecode
  rw [e4, e5, e6, e7]
  dsimp only
  split
  · rfl
  · rfl
  split
  · rfl
  · rfl
  rename_i es _
  have := challengeLoop_retype es now ty es
    { req := { r with decryptionIv := (decodeAes C d.content r.aesKey r.requestId r.decryptionIv r.encryptionIv).1 } }
  simp only [Request.retype, ChalDecAcc.retype] at this ⊢
  simp only [this]

theorem run_retype (r : Request) (ty : RequestType) (c : ReqCall) : c.run C (r.retype ty) = ((c.run C r).1.retype ty, (c.run C r).2) := by
  cases c with
  | genNew key nb na v => simp only [ReqCall.run, genNew_retype]
  | genRevoke cert => rfl
  | onNew d s => simp only [ReqCall.run, onNew_retype]
  | select ch => simp only [ReqCall.run, select_retype]
  | genChallenge m rnd => simp only [ReqCall.run, genChallenge_retype]
  | onChallenge d now => simp only [ReqCall.run, onChallenge_retype]

theorem ReqRun.retype {r0 r : Request} {h : List Called} (hx : ReqRun C r0 h r) (ty : RequestType) : ReqRun C (r0.retype ty) h (r.retype ty) := by
  induction hx with
  | init => exact .init
  | call c _ wf df ih =>
    have := ReqRun.call c ih wf (by rw [run_retype]; exact df)
    rw [run_retype] at this
    exact this

end Ndncert
