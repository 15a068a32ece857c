import Verif.Spec.SecretKeys
import Verif.Lemmas.RequestType
import Verif.Lemmas.Opens
import Verif.Lemmas.CaNewOutcome

/-! # Runs with other secret keys -/

namespace Ndncert

/-! ## What does not touch secret keys -/

section
variable (C : Crypto) (K : KeyOps)

theorem keyed_collectNames (params : MMap) (rand : Nat → Nat) : ∀ (as : List Assignment) (n : Nat),
    collectNames (C.keyed K) params rand n as = collectNames C params rand n as
  | [], _ => rfl
  | a :: as, n => by
    have e : Assignment.assignName (C.keyed K) a params (rand n) = Assignment.assignName C a params (rand n) := rfl
    unfold collectNames
    rw [e, keyed_collectNames params rand as (n + 1)]

theorem keyed_onProbe (cfg : CaConfig) (i : Interest) (env : Env) : onProbe (C.keyed K) cfg i env = onProbe C cfg i env := by
  unfold onProbe
  simp only [keyed_collectNames]
  rfl

theorem keyed_possessionScan : ∀ (es : List Block) (acc : Option Cert × Option Bytes),
    possessionScan (C.keyed K) es acc = possessionScan C es acc
  | [], _ => rfl
  | [_], _ => rfl
  | a :: b :: rest, acc => by
    unfold possessionScan
    have e : ∀ d, dataOfBlock (C.keyed K) d = dataOfBlock C d := fun _ => rfl
    simp only [keyed_possessionScan (b :: rest), e]

theorem keyed_requestParams (p : Option Block) (ty : RequestType) : requestParamsDecode (C.keyed K) p ty = requestParamsDecode C p ty := rfl

theorem keyed_rowToState (r : Row) : rowToState (C.keyed K) r = rowToState C r := rfl

end

/-! ## The challenge modules -/

def ChalOut.otherKeys (f : OtherKeys) (o : ChalOut) : ChalOut := { o with req := o.req.otherKeys f }

variable {C : Crypto} {K : KeyOps} {f : OtherKeys}

theorem handleCode_keys (k : ChalKind) (env : Env) (es : List Block) (r : RequestState) :
    handleCode k (env.otherKeys f) es (r.otherKeys f) = (handleCode k env es r).as (ChalOut.otherKeys f) := by
  have e : (r.otherKeys f).challengeState = r.challengeState := rfl
  unfold handleCode
  rw [e]
  split
  · rfl
  split
  · cases getElem es T.ParameterValue with
    | ok g =>
      show (if _ then _ else _) = Res.as _ (if _ then _ else _)
      split
      · rename_i h
        rw [if_pos (show k.lifetime * nsPerSec ≤ env.now - _ from h)]
        rfl
      · rename_i h
        rw [if_neg (show ¬ k.lifetime * nsPerSec ≤ env.now - _ from h)]
        cases secretGet _ KEY_CODE with
        | ok code =>
          show (if _ then _ else if _ then _ else _) = Res.as _ (if _ then _ else if _ then _ else _)
          split
          · rfl
          split <;> rfl
        | _ => rfl
    | _ => rfl
  · rfl

theorem handlePossession_keys (env : Env) (es : List Block) (r : RequestState) :
    handlePossession (C.keyed K) (env.otherKeys f) es (r.otherKeys f) = (handlePossession C env es r).as (ChalOut.otherKeys f) := by
  have e : (r.otherKeys f).challengeState = r.challengeState := rfl
  have e1 : (r.otherKeys f).status = r.status := rfl
  have e2 : (env.otherKeys f).anchors = env.anchors := rfl
  unfold handlePossession
  rw [e, e1, e2]
  simp only [keyed_possessionScan]
  split
  · rfl
  split
  · rfl
  · rfl
  split
  · rfl
  split
  · split
    · rfl
    split
    · rfl
    split
    · rfl
    have e5 : ∀ b, (C.keyed K).loadKey b = C.loadKey b := fun _ => rfl
    have e6 : ∀ a b, (C.keyed K).verifyCert a b = C.verifyCert a b := fun _ _ => rfl
    simp only [e5, e6]
    split
    · rfl
    split <;> rfl
  · split
    · split
      · split
        · rfl
        · rename_i cs _ _ _
          have e5 : ∀ b, (C.keyed K).loadKey b = C.loadKey b := fun _ => rfl
          have e6 : ∀ a b c, (C.keyed K).verifyRaw a b c = C.verifyRaw a b c := fun _ _ _ => rfl
          have e7 : ∀ b, certOfBlock (C.keyed K) b = certOfBlock C b := fun _ => rfl
          simp only [e5, e6, e7]
          cases fromHex (secretGetD cs.secrets KEY_CREDENTIAL) with
          | ok cw =>
            simp only [Res.bind_ok]
            cases blockOfBytes cw with
            | ok cb =>
              simp only [Res.bind_ok]
              cases certOfBlock C cb with
              | ok c =>
                simp only [Res.bind_ok]
                cases fromHex (secretGetD cs.secrets KEY_NONCE) with
                | ok nonce =>
                  simp only [Res.bind_ok]
                  split
                  · rfl
                  split <;> rfl
                | _ => rfl
              | _ => rfl
            | _ => rfl
          | _ => rfl
      · rfl
    · rfl

theorem handleChallenge_keys (k : ChalKind) (env : Env) (es : List Block) (r : RequestState) :
    handleChallenge (C.keyed K) k (env.otherKeys f) es (r.otherKeys f) = (handleChallenge C k env es r).as (ChalOut.otherKeys f) := by
  have e1 : (r.otherKeys f).status = r.status := rfl
  have e2 : (r.otherKeys f).cert = r.cert := rfl
  have e3 : (env.otherKeys f).spawnOk = env.spawnOk := rfl
  cases k with
  | pin =>
    show handlePin _ _ _ = Res.as _ (handlePin _ _ _)
    unfold handlePin
    rw [e1]
    split
    · rfl
    · exact handleCode_keys _ _ _ _
  | email =>
    show handleEmail _ _ _ = Res.as _ (handleEmail _ _ _)
    unfold handleEmail
    rw [e1, e2, e3]
    split
    · cases getElem es T.ParameterValue with
      | ok a =>
        show (if _ then _ else if _ then _ else _) = Res.as _ (if _ then _ else if _ then _ else _)
        split
        · rfl
        split <;> rfl
      | _ => rfl
    · exact handleCode_keys _ _ _ _
  | possession => exact handlePossession_keys _ _ _

/-! ## The handlers of the CA -/

def Effect.otherKeys (f : OtherKeys) : Effect → Effect
  | .dbAdd r => .dbAdd (r.otherKeys f)
  | .dbUpdate r => .dbUpdate (r.otherKeys f)
  | .callback r => .callback (r.otherKeys f)
  | e => e

def Outcome.otherKeys (f : OtherKeys) (o : Outcome) : Outcome := { o with effects := o.effects.map (Effect.otherKeys f) }

/-- a storage does not look at the keys in it: `ren` exchanges them -/
structure KeyBlind {σ : Type} (S S' : StoreI σ) (f : OtherKeys) (ren : σ → σ) (Ok : σ → Prop) : Prop where
  empty : ren S.empty = S'.empty ∧ Ok S.empty
  reopen : ∀ s, Ok s → ren (S.reopen s) = S'.reopen (ren s) ∧ Ok (S.reopen s)
  get : ∀ s id, Ok s → S'.get (ren s) id = (S.get s id).as (RequestState.otherKeys f)
  add : ∀ s r, Ok s → r.encryptionKey.length = 16 → S'.add (ren s) (r.otherKeys f) = (S.add s r).as ren ∧ ∀ s', S.add s r = .ok s' → Ok s'
  update : ∀ s r, Ok s → S'.update (ren s) (r.otherKeys f) = (S.update s r).as ren ∧ ∀ s', S.update s r = .ok s' → Ok s'
  delete : ∀ s id, Ok s → S'.delete (ren s) id = ren (S.delete s id) ∧ Ok (S.delete s id)

theorem mem_keyBlind (f : OtherKeys) : KeyBlind memStore memStore f (List.map (fun e => (e.1, e.2.otherKeys f))) (fun _ => True) := by
  have hfind : ∀ (m : Mem) id, memFind (m.map (fun e => (e.1, e.2.otherKeys f))) id = (memFind m id).map (RequestState.otherKeys f) := by
    intro m id
    unfold memFind
    rw [List.find?_map, Option.map_map, Option.map_map]
    rfl
  have hins : ∀ (id : RequestId) (r : RequestState) (m : Mem), memInsert id (r.otherKeys f) (m.map (fun e => (e.1, e.2.otherKeys f))) =
      (memInsert id r m).map (fun e => (e.1, e.2.otherKeys f)) := by
    intro id r m
    induction m with
    | nil => rfl
    | cons e m ih =>
      show (if bytesLt id e.1 then _ else _) = List.map _ (if bytesLt id e.1 then _ else _)
      split
      · rfl
      · rw [ih]; rfl
  refine ⟨⟨rfl, trivial⟩, fun _ _ => ⟨rfl, trivial⟩, ?_, ?_, ?_, ?_⟩
  · intro m id _
    show Res.ofOption _ (memFind _ id) = _
    rw [hfind]
    show _ = Res.as _ (Res.ofOption _ (memFind m id))
    cases memFind m id <;> rfl
  · intro m r _ _
    refine ⟨?_, fun _ _ => trivial⟩
    show (match memFind _ r.requestId with | some _ => _ | none => _) = Res.as _ (match memFind m r.requestId with | some _ => _ | none => _)
    rw [hfind]
    cases memFind m r.requestId with
    | some _ => rfl
    | none => exact congrArg Res.ok (hins _ _ _)
  · intro m r _
    refine ⟨?_, fun _ _ => trivial⟩
    refine congrArg Res.ok ?_
    show memAssign r.requestId _ _ = List.map _ (memAssign r.requestId r m)
    unfold memAssign
    rw [hfind]
    cases memFind m r.requestId with
    | some _ =>
      dsimp only [Option.map]
      rw [List.map_map, List.map_map]
      apply List.map_congr_left
      intro e _
      dsimp only [Function.comp]
      split <;> rfl
    | none => exact hins _ _ _
  · intro m id _
    refine ⟨?_, trivial⟩
    show List.filter _ _ = List.map _ (List.filter _ m)
    rw [List.filter_map]
    rfl

def Row.otherKeys (f : OtherKeys) (r : Row) : Row := { r with encryptionKey := f.aes r.encryptionKey }

theorem memcpy_full {k : Bytes} (h : k.length = 16) : memcpyInto (List.replicate 16 0) k = .ok k := by
  unfold memcpyInto
  rw [if_neg (by simp [h]), List.drop_eq_nil_of_le (by simp [h]), List.append_nil]

theorem rowToState_keys (hK : K.Mirror C f) (r : Row) (h : r.encryptionKey.length = 16) :
    rowToState (C.keyed K) (r.otherKeys f) = (rowToState C r).as (RequestState.otherKeys f) := by
  rw [keyed_rowToState]
  have e : (r.otherKeys f).encryptionKey = f.aes r.encryptionKey := rfl
  unfold rowToState
  rw [e, memcpy_full h, memcpy_full (hK.size _ h)]
  show (blockOfBytes r.caName >>= _) = Res.as _ (blockOfBytes r.caName >>= _)
  cases blockOfBytes r.caName with
  | ok nb =>
    simp only [Res.bind_ok]
    cases nameOfBlock nb with
    | ok ca =>
      simp only [Res.bind_ok]
      show (blockOfBytes r.certRequest >>= _) = Res.as _ (blockOfBytes r.certRequest >>= _)
      cases blockOfBytes r.certRequest with
      | ok cb =>
        simp only [Res.bind_ok]
        cases certOfBlock C cb with
        | ok cert =>
          simp only [Res.bind_ok]
          have e2 : (r.otherKeys f).challengeType = r.challengeType := rfl
          have e3 : (r.otherKeys f).challengeTp = r.challengeTp := rfl
          have e4 : (r.otherKeys f).challengeSecrets = r.challengeSecrets := rfl
          rw [e2, e3, e4]
          split
          · cases readTp r.challengeTp with
            | ok tp =>
              simp only [Res.bind_ok]
              cases readJson r.challengeSecrets with
              | ok js => rfl
              | _ => rfl
            | _ => rfl
          · rfl
        | _ => rfl
      | _ => rfl
    | _ => rfl
  | _ => rfl

theorem stateToRow_keys (s : RequestState) : stateToRow (s.otherKeys f) = (stateToRow s).otherKeys f := by
  obtain ⟨a, b, c, d, e, g, h, j, k, cs⟩ := s
  unfold stateToRow
  cases cs <;> simp only [RequestState.otherKeys, Row.otherKeys]

theorem updateRow_without (s : RequestState) (r : Row) (h : s.challengeState = none) : updateRow s r = { r with
    status := intToInt32 s.status.toNat, challengeType := some s.challengeType, encryptionIv := s.encryptionIv, decryptionIv := s.decryptionIv, challengeStatus := some [],
      challengeSecrets := some .empty,
      challengeTp := some .empty,
      remainingTries := some 0,
      remainingTime := some 0 } := by
  unfold updateRow
  dsimp only
  rw [h]
theorem updateRow_with (s : RequestState) (r : Row) (cs) (h : s.challengeState = some cs) : updateRow s r = { r with
    status := intToInt32 s.status.toNat, challengeType := some s.challengeType, encryptionIv := s.encryptionIv, decryptionIv := s.decryptionIv, challengeStatus := some cs.challengeStatus,
      challengeSecrets := some (.obj cs.secrets),
      challengeTp := some (isoText cs.timestamp),
      remainingTries := some (toInt32 cs.remainingTries),
      remainingTime := some (intToInt32 cs.remainingTime) } := by
  unfold updateRow
  dsimp only
  rw [h]
theorem updateRow_keys (s : RequestState) (r : Row) : updateRow (s.otherKeys f) (r.otherKeys f) = (updateRow s r).otherKeys f := by
  have e2 : (s.otherKeys f).status = s.status := rfl
  have e3 : (s.otherKeys f).challengeType = s.challengeType := rfl
  have e4 : (s.otherKeys f).encryptionIv = s.encryptionIv := rfl
  have e5 : (s.otherKeys f).decryptionIv = s.decryptionIv := rfl
  cases h : s.challengeState with
  | none =>
    rw [updateRow_without s r h, updateRow_without (s.otherKeys f) _ h]
    rw [e2, e3, e4, e5]
    generalize intToInt32 s.status.toNat = n
    rfl
  | some cs =>
    rw [updateRow_with s r cs h, updateRow_with (s.otherKeys f) _ cs h]
    rw [e2, e3, e4, e5]
    generalize intToInt32 s.status.toNat = n
    rfl
theorem stateToRow_key (s : RequestState) : (stateToRow s).encryptionKey = s.encryptionKey := by
  obtain ⟨a, b, c, d, e, g, h, j, k, cs⟩ := s
  unfold stateToRow
  cases cs <;> simp only

theorem updateRow_key (s : RequestState) (r : Row) : (updateRow s r).encryptionKey = r.encryptionKey := by
  unfold updateRow
  dsimp only
  split <;> rfl

theorem sql_keyBlind (hK : K.Mirror C f) :
    KeyBlind (sqlStore C) (sqlStore (C.keyed K)) f (List.map (Row.otherKeys f)) (fun db => ∀ r ∈ db, r.encryptionKey.length = 16) := by
  have hfind : ∀ (db : Db) (id : RequestId), (db.map (Row.otherKeys f)).find? (fun r => r.requestId == id) =
      (db.find? (fun r => r.requestId == id)).map (Row.otherKeys f) := by
    intro db id
    rw [List.find?_map]
    rfl
  refine ⟨⟨rfl, by intro r h; cases h⟩, fun s h => ⟨rfl, h⟩, ?_, ?_, ?_, ?_⟩
  · intro db id hok
    show (match List.find? (fun r : Row => r.requestId == id) _ with | some r => rowToState (C.keyed K) r | none => .exc .runtime) =
      Res.as _ (match List.find? (fun r : Row => r.requestId == id) _ with | some r => rowToState C r | none => .exc .runtime)
    rw [hfind]
    cases h : db.find? (fun r => r.requestId == id) with
    | some r => exact rowToState_keys hK r (hok r (List.mem_of_find?_eq_some h))
    | none => rfl
  · intro db s hok hlen
    constructor
    · show (match List.find? (fun r : Row => r.requestId == s.requestId) _ with | some _ => Res.exc .runtime | none => Res.ok (_ ++ [stateToRow _])) =
        Res.as _ (match List.find? (fun r : Row => r.requestId == s.requestId) _ with | some _ => Res.exc .runtime | none => Res.ok (_ ++ [stateToRow _]))
      rw [hfind]
      cases db.find? (fun r => r.requestId == s.requestId) with
      | some r => rfl
      | none =>
        refine congrArg Res.ok ?_
        rw [stateToRow_keys, List.map_append]
        rfl
    · intro db' h r hr
      have h : (match db.find? (fun r => r.requestId == s.requestId) with
        | some _ => (Res.exc Exc.runtime : Res Db)
        | none => Res.ok (db ++ [stateToRow s])) = .ok db' := h
      split at h
      · cases h
      · injection h with h
        subst h
        rcases List.mem_append.mp hr with h | h
        · exact hok r h
        · rw [List.mem_singleton.mp h]
          rw [stateToRow_key]
          exact hlen
  · intro db s hok
    constructor
    · refine congrArg Res.ok ?_
      show List.map (fun r : Row => if r.requestId == s.requestId then updateRow (s.otherKeys f) r else r) _ = List.map _ (List.map _ db)
      rw [List.map_map, List.map_map]
      apply List.map_congr_left
      intro r _
      show (if r.requestId == s.requestId then updateRow (s.otherKeys f) (r.otherKeys f) else r.otherKeys f) =
        Row.otherKeys f (if r.requestId == s.requestId then updateRow s r else r)
      split
      · exact updateRow_keys s r
      · rfl
    · intro db' h r hr
      have h : Res.ok (db.map (fun r => if r.requestId == s.requestId then updateRow s r else r)) = .ok db' := h
      injection h with h
      subst h
      obtain ⟨r0, h0, rfl⟩ := List.mem_map.mp hr
      split
      · rw [updateRow_key]
        exact hok r0 h0
      · exact hok r0 h0
  · intro db id hok
    constructor
    · show List.filter _ _ = List.map _ (List.filter _ db)
      rw [List.filter_map]
      rfl
    · intro r hr
      exact hok r ((List.mem_filter.mp hr).1)

theorem encodeAes_keys (hK : K.Mirror C f) (t : Nat) (key payload aad iv rnd : Bytes) :
    encodeAes (C.keyed K) t (f.aes key) payload aad iv rnd = encodeAes C t key payload aad iv rnd := by
  have e : ∀ a b c, (C.keyed K).aesEnc (f.aes key) a b c = C.aesEnc key a b c := fun a b c => hK.enc key a b c
  unfold encodeAes
  simp only [e]

theorem decodeAes_keys (hK : K.Mirror C f) (b : Block) (key aad div eiv : Bytes) :
    decodeAes (C.keyed K) b (f.aes key) aad div eiv = decodeAes C b key aad div eiv := by
  have e : ∀ a b c d, (C.keyed K).aesDec (f.aes key) a b c d = C.aesDec key a b c d := fun a b c d => hK.dec key a b c d
  unfold decodeAes
  simp only [e]

theorem challengeEncode_keys (hK : K.Mirror C f) (r : RequestState) (issued hint : Name) (rnd : Bytes) :
    challengeEncode (C.keyed K) (r.otherKeys f) issued hint rnd =
      ((challengeEncode C r issued hint rnd).1.otherKeys f, (challengeEncode C r issued hint rnd).2) := by
  have e : challengeElems (r.otherKeys f) issued hint = challengeElems r issued hint := rfl
  unfold challengeEncode
  rw [e]
  cases challengeElems r issued hint with
  | ok es =>
    dsimp only
    have := encodeAes_keys hK T.Content r.encryptionKey (encodeAll es) r.requestId r.encryptionIv rnd
    show (Prod.mk _ (encodeAes (C.keyed K) T.Content (f.aes r.encryptionKey) (encodeAll es) r.requestId r.encryptionIv rnd).2) = _
    rw [this]
    simp only [RequestState.otherKeys]
    rw [this]
  | _ => rfl

theorem replyError_keys (cfg : CaConfig) (i : Interest) (pre : List Effect) (code : ErrorCode) (info : Bytes) :
    replyError (C.keyed K) cfg i (pre.map (Effect.otherKeys f)) code info = (replyError C cfg i pre code info).otherKeys f := by
  unfold replyError Outcome.otherKeys
  rw [List.map_append]
  rfl

theorem abort_keys {α : Type} (pre : List Effect) (x : Res α) : abort (pre.map (Effect.otherKeys f)) x = (abort pre x).otherKeys f := by
  cases x <;> rfl

theorem sendReply_keys (cfg : CaConfig) (i : Interest) (pre : List Effect) (r : RequestState) (b : Block) :
    sendChallengeReply (C.keyed K) cfg i (pre.map (Effect.otherKeys f)) (r.otherKeys f) b = (sendChallengeReply C cfg i pre r b).otherKeys f := by
  unfold sendChallengeReply Outcome.otherKeys
  rw [List.map_append]
  rfl

theorem finish_keys (hK : K.Mirror C f) (cfg : CaConfig) (i : Interest) (env : Env) (pre : List Effect) (r : RequestState) :
    finishChallenge (C.keyed K) cfg i (env.otherKeys f) (pre.map (Effect.otherKeys f)) (r.otherKeys f) = (finishChallenge C cfg i env pre r).otherKeys f := by
  have e1 : (r.otherKeys f).status = r.status := rfl
  have e2 : (r.otherKeys f).requestType = r.requestType := rfl
  have e3 : issueCertificate (C.keyed K) cfg (env.otherKeys f) (r.otherKeys f) = issueCertificate C cfg env r := rfl
  have e4 : (env.otherKeys f).ivRnd = env.ivRnd := rfl
  have e5 : (r.otherKeys f).requestId = r.requestId := rfl
  unfold finishChallenge
  rw [e1, e2, e3, e4, e5]
  split
  · split
    · cases issueCertificate C cfg env r with
      | ok c =>
        dsimp only
        have := challengeEncode_keys hK { r with cert := c, status := .success } c.name cfg.profile.forwardingHint env.ivRnd
        dsimp only [RequestState.otherKeys] at this ⊢
        rw [this]
        have hpre : pre.map (Effect.otherKeys f) ++ [Effect.issue c, .dbDelete r.requestId] =
          (pre ++ [Effect.issue c, .dbDelete r.requestId]).map (Effect.otherKeys f) := by rw [List.map_append]; rfl
        rw [hpre]
        dsimp only
        split
        · exact sendReply_keys ..
        · exact abort_keys ..
      | exc e => exact abort_keys ..
      | ub u => exact abort_keys ..
    split
    · have := challengeEncode_keys hK { r with status := .success } [] [] env.ivRnd
      dsimp only [RequestState.otherKeys] at this ⊢
      rw [this]
      have hpre : pre.map (Effect.otherKeys f) ++ [Effect.dbDelete r.requestId] =
        (pre ++ [Effect.dbDelete r.requestId]).map (Effect.otherKeys f) := by rw [List.map_append]; rfl
      rw [hpre]
      dsimp only
      split
      · exact sendReply_keys ..
      · exact abort_keys ..
    · exact abort_keys ..
  · dsimp only
    rw [challengeEncode_keys hK]
    have hpre : pre.map (Effect.otherKeys f) ++ [Effect.dbUpdate ((challengeEncode C r [] [] env.ivRnd).1.otherKeys f)] =
        (pre ++ [Effect.dbUpdate (challengeEncode C r [] [] env.ivRnd).1]).map (Effect.otherKeys f) := by rw [List.map_append]; rfl
    dsimp only
    rw [hpre]
    split
    · exact sendReply_keys ..
    · exact abort_keys ..

theorem processParams_keys (hK : K.Mirror C f) (cfg : CaConfig) (i : Interest) (env : Env) (r : RequestState) (pt : Bytes) :
    processParams (C.keyed K) cfg i (env.otherKeys f) (r.otherKeys f) pt = (processParams C cfg i env r pt).otherKeys f := by
  unfold processParams
  split
  · exact replyError_keys cfg i [.dbDelete r.requestId] _ _
  cases parse pt with
  | ok es =>
    dsimp only
    cases getElem es T.SelectedChallenge with
    | ok sel =>
      dsimp only
      cases createChallenge (readString sel) with
      | none => exact replyError_keys cfg i [.dbDelete r.requestId] _ _
      | some k =>
        dsimp only
        rw [handleChallenge_keys]
        cases handleChallenge C k env es r with
        | ok out =>
          dsimp only [Res.as]
          have hm : out.mails.map Effect.mail = (out.mails.map Effect.mail).map (Effect.otherKeys f) := by rw [List.map_map]; rfl
          have e1 : (out.otherKeys f).code = out.code := rfl
          have e2 : (out.otherKeys f).mails = out.mails := rfl
          have e3 : (out.otherKeys f).req = out.req.otherKeys f := rfl
          have e4 : (out.otherKeys f).info = out.info := rfl
          rw [e1, e2, e3, e4]
          split
          · have : out.mails.map Effect.mail ++ [Effect.dbDelete (out.req.otherKeys f).requestId] =
              (out.mails.map Effect.mail ++ [Effect.dbDelete out.req.requestId]).map (Effect.otherKeys f) := by
              rw [List.map_append, ← hm]; rfl
            rw [this]
            exact replyError_keys ..
          · have := finish_keys hK cfg i env (out.mails.map Effect.mail) out.req
            rw [← hm] at this
            exact this
        | exc e => exact abort_keys [] _
        | ub u => exact abort_keys [] _
    | exc e => exact abort_keys [] _
    | ub u => exact abort_keys [] _
  | exc e => exact abort_keys [] _
  | ub u => exact abort_keys [] _

variable {σ : Type} {S S' : StoreI σ} {ren : σ → σ} {Ok : σ → Prop}

theorem onChallenge_keys (hK : K.Mirror C f) (hB : KeyBlind S S' f ren Ok) (cfg : CaConfig) {st : σ} (hst : Ok st) (i : Interest) (env : Env) :
    onChallenge (C.keyed K) S' cfg (ren st) i (env.otherKeys f) = (onChallenge C S cfg st i env).otherKeys f := by
  have hget : getCertificateRequest S' cfg (ren st) i (env.otherKeys f) = (getCertificateRequest S cfg st i env).as (Option.map (RequestState.otherKeys f)) := by
    have e : (env.otherKeys f).stack = env.stack := rfl
    unfold getCertificateRequest
    rw [e]
    split
    · rfl
    cases memcpyInto env.stack _ with
    | ok id =>
      dsimp only
      rw [hB.get _ _ hst]
      cases S.get st id <;> rfl
    | _ => rfl
  unfold onChallenge
  rw [hget]
  cases getCertificateRequest S cfg st i env with
  | ok o =>
    cases o with
    | none => exact replyError_keys cfg i [] _ _
    | some r =>
      dsimp only [Res.as, Option.map]
      have e1 : (C.keyed K).verifyInterest i (r.otherKeys f).cert = C.verifyInterest i r.cert := rfl
      rw [e1]
      split
      · exact replyError_keys cfg i [] _ _
      · have := decodeAes_keys hK (i.params.getD ⟨0, []⟩) r.encryptionKey r.requestId r.decryptionIv r.encryptionIv
        have e2 : decodeAes (C.keyed K) (i.params.getD ⟨0, []⟩) (r.otherKeys f).encryptionKey (r.otherKeys f).requestId (r.otherKeys f).decryptionIv
          (r.otherKeys f).encryptionIv = decodeAes C (i.params.getD ⟨0, []⟩) r.encryptionKey r.requestId r.decryptionIv r.encryptionIv := this
        rw [e2]
        split
        · exact replyError_keys cfg i [.dbDelete r.requestId] _ _
        · rfl
        · exact processParams_keys hK cfg i env
            { r with decryptionIv := (decodeAes C (i.params.getD ⟨0, []⟩) r.encryptionKey r.requestId r.decryptionIv r.encryptionIv).1 } _
  | _ => rfl

theorem onNew_keys (hK : K.Mirror C f) (hC : C.Lawful) (hB : KeyBlind S S' f ren Ok) (cfg : CaConfig) (idKey : Bytes) {st : σ} (hst : Ok st) (ty : RequestType)
    (i : Interest) (env : Env) :
    onNewRenewRevoke (C.keyed K) S' cfg (f.mac idKey) (ren st) ty i (env.otherKeys f) = (onNewRenewRevoke C S cfg idKey st ty i env).otherKeys f := by
  have hacc : ∀ cert secret, acceptRequest (C.keyed K) S' cfg (f.mac idKey) (ren st) ty i (env.otherKeys f) cert (f.shared secret) =
      (acceptRequest C S cfg idKey st ty i env cert secret).otherKeys f := by
    intro cert secret
    have hid : requestIdOf (C.keyed K) (f.mac idKey) cert.name = requestIdOf C idKey cert.name := by
      unfold requestIdOf
      exact congrArg (List.take 8) (hK.mac _ _)
    have hrs : newRequestState (C.keyed K) cfg (f.mac idKey) ty cert (f.shared secret) (env.otherKeys f).salt =
        (newRequestState C cfg idKey ty cert secret env.salt).otherKeys f := by
      unfold newRequestState RequestState.otherKeys
      dsimp only
      rw [hid]
      have : (C.keyed K).hkdf (f.shared secret) (env.otherKeys f).salt (requestIdOf C idKey cert.name) = f.aes (C.hkdf secret env.salt (requestIdOf C idKey cert.name)) :=
        hK.hkdf _ _ _
      rw [this]
    unfold acceptRequest
    dsimp only
    rw [hrs, (hB.add st _ hst (hC.hkdf_length _ _ _)).1]
    cases S.add st (newRequestState C cfg idKey ty cert secret env.salt) with
    | ok s' =>
      dsimp only [Res.as, Outcome.otherKeys, List.map, Effect.otherKeys]
      have : (C.keyed K).ecdhPub (env.otherKeys f).ecdhPriv = C.ecdhPub env.ecdhPriv := hK.pub _
      rw [this]
      rfl
    | exc e => exact replyError_keys cfg i [] _ _
    | ub u => rfl
  have e1 : (env.otherKeys f).caCert = env.caCert := rfl
  have e2 : (env.otherKeys f).nowCa = env.nowCa := rfl
  have e3 : (env.otherKeys f).now = env.now := rfl
  have e4 : ∀ p, (C.keyed K).ecdhDerive (env.otherKeys f).ecdhPriv p = (C.ecdhDerive env.ecdhPriv p).map f.shared := fun p => hK.derive _ _
  have e5 : ∀ a b, (C.keyed K).verifyCert a b = C.verifyCert a b := fun _ _ => rfl
  have e6 : ∀ a b, (C.keyed K).verifyInterest a b = C.verifyInterest a b := fun _ _ => rfl
  unfold onNewRenewRevoke
  rw [e1, e2, e3, keyed_requestParams]
  simp only [e4, e5, e6]
  cases certIsValid env.caCert env.nowCa with
  | ok b =>
    cases b with
    | false => exact replyError_keys cfg i [] _ _
    | true =>
      dsimp only
      cases requestParamsDecode C i.params ty with
      | ok x =>
        dsimp only
        split
        · exact replyError_keys cfg i [] _ _
        cases C.ecdhDerive env.ecdhPriv x.1 with
        | none => exact replyError_keys cfg i [] _ _
        | some secret =>
          dsimp only [Option.map]
          split
          · exact replyError_keys cfg i [] _ _
          split
          · split
            · rfl
            split
            · exact replyError_keys cfg i [] _ _
            split
            · exact replyError_keys cfg i [] _ _
            split
            · exact replyError_keys cfg i [] _ _
            · exact hacc _ _
          split
          · split
            · exact replyError_keys cfg i [] _ _
            · exact hacc _ _
          · exact hacc _ _
      | exc e => exact replyError_keys cfg i [] _ _
      | ub u => rfl
  | _ => rfl

theorem handle_keys (hK : K.Mirror C f) (hC : C.Lawful) (hB : KeyBlind S S' f ren Ok) (cfg : CaConfig) {s : CaState σ} (hst : Ok s.store) (m : Msg) (env : Env) :
    handle (C.keyed K) S' cfg ⟨ren s.store, f.mac s.idKey⟩ m (env.otherKeys f) = (handle C S cfg s m env).otherKeys f := by
  cases m with
  | probe i =>
    show onProbe (C.keyed K) cfg i (env.otherKeys f) = _
    rw [keyed_onProbe]
    show onProbe C cfg i env = (onProbe C cfg i env).otherKeys f
    unfold onProbe
    split
    · rfl
    · rfl
    dsimp only
    split
    · rfl
    · rfl
    split <;> rfl
  | new i => exact onNew_keys hK hC hB cfg s.idKey hst .new i env
  | revoke i => exact onNew_keys hK hC hB cfg s.idKey hst .revoke i env
  | challenge i => exact onChallenge_keys hK hB cfg hst i env

/-! ## Runs of the CA -/

theorem applyEffects_keys (hB : KeyBlind S S' f ren Ok) : ∀ (es : List Effect) {st : σ}, Ok st → (∀ r, .dbAdd r ∈ es → r.encryptionKey.length = 16) →
    applyEffects S' (ren st) (es.map (Effect.otherKeys f)) = ren (applyEffects S st es) ∧ Ok (applyEffects S st es)
  | [], _, hok, _ => ⟨rfl, hok⟩
  | e :: es, st, hok, hlen => by
    have hstep : applyEffect S' (ren st) (e.otherKeys f) = ren (applyEffect S st e) ∧ Ok (applyEffect S st e) := by
      cases e with
      | dbAdd r =>
        obtain ⟨h1, h2⟩ := hB.add st r hok (hlen r (List.mem_cons_self ..))
        show (match S'.add (ren st) (r.otherKeys f) with | .ok s => s | _ => _) = ren (match S.add st r with | .ok s => s | _ => st) ∧
          Ok (match S.add st r with | .ok s => s | _ => st)
        rw [h1]
        cases h : S.add st r with
        | ok s' => exact ⟨rfl, h2 _ h⟩
        | _ => exact ⟨rfl, hok⟩
      | dbUpdate r =>
        obtain ⟨h1, h2⟩ := hB.update st r hok
        show (match S'.update (ren st) (r.otherKeys f) with | .ok s => s | _ => _) = ren (match S.update st r with | .ok s => s | _ => st) ∧
          Ok (match S.update st r with | .ok s => s | _ => st)
        rw [h1]
        cases h : S.update st r with
        | ok s' => exact ⟨rfl, h2 _ h⟩
        | _ => exact ⟨rfl, hok⟩
      | dbDelete id => exact hB.delete st id hok
      | _ => exact ⟨rfl, hok⟩
    have := applyEffects_keys hB es (st := applyEffect S st e) hstep.2 (fun r h => hlen r (List.mem_cons_of_mem _ h))
    show applyEffects S' (applyEffect S' (ren st) (e.otherKeys f)) (es.map (Effect.otherKeys f)) = _ ∧ _
    rw [hstep.1]
    exact this

theorem sent_keys : ∀ es : List Effect, sent (es.map (Effect.otherKeys f)) = sent es
  | [] => rfl
  | e :: es => by cases e <;> simp only [List.map, Effect.otherKeys, sent, sent_keys es]

theorem issued_keys : ∀ es : List Effect, issued (es.map (Effect.otherKeys f)) = issued es
  | [] => rfl
  | e :: es => by cases e <;> simp only [List.map, Effect.otherKeys, issued, issued_keys es]

theorem mailed_keys : ∀ es : List Effect, mailed (es.map (Effect.otherKeys f)) = mailed es
  | [] => rfl
  | e :: es => by cases e <;> simp only [List.map, Effect.otherKeys, mailed, mailed_keys es]

theorem callbacks_keys : ∀ es : List Effect, callbacks (es.map (Effect.otherKeys f)) = (callbacks es).map (RequestState.otherKeys f)
  | [] => rfl
  | e :: es => by cases e <;> simp only [List.map, Effect.otherKeys, callbacks, callbacks_keys es]

/-- requests that are added have a key of 16 octets -/
theorem added_key (hC : C.Lawful) (cfg : CaConfig) (s : CaState σ) (e : Event) (hwf : e.Wf cfg) (r : RequestState) (h : .dbAdd r ∈ (e.run C S cfg s).1) :
    r.encryptionKey.length = 16 := by
  have hdb := step_db C S cfg ⟨s, e, (e.run C S cfg s).1⟩ hwf rfl
  have h6 := (mem_dbOps (e := .dbAdd r) rfl).mpr h
  dsimp only at hdb
  generalize dbOps (e.run C S cfg s).1 = d at hdb h6
  cases hdb with
  | add ty i env r' ha =>
    simp only [List.mem_singleton, Effect.dbAdd.injEq] at h6
    subst h6
    obtain ⟨secret, hst⟩ := ha.state
    rw [hst]
    exact hC.hkdf_length _ _ _
  | _ => simp at h6

theorem run_keys (hK : K.Mirror C f) (hC : C.Lawful) (hB : KeyBlind S S' f ren Ok) (cfg : CaConfig) {s : CaState σ} (hst : Ok s.store) (e : Event) (hwf : e.Wf cfg) :
    (e.otherKeys f).run (C.keyed K) S' cfg ⟨ren s.store, f.mac s.idKey⟩ =
      ((e.run C S cfg s).1.map (Effect.otherKeys f), ⟨ren (e.run C S cfg s).2.store, f.mac (e.run C S cfg s).2.idKey⟩) ∧ Ok (e.run C S cfg s).2.store := by
  have hadd := added_key (S := S) hC cfg s e hwf
  cases e with
  | msg m env =>
    have hh := handle_keys hK hC hB cfg hst m env
    have ha := applyEffects_keys hB (handle C S cfg s m env).effects hst hadd
    refine ⟨?_, ha.2⟩
    show (Prod.mk _ _) = _
    rw [hh]
    show (Prod.mk ((handle C S cfg s m env).effects.map (Effect.otherKeys f))
      (⟨applyEffects S' (ren s.store) ((handle C S cfg s m env).effects.map (Effect.otherKeys f)), f.mac s.idKey⟩ : CaState σ)) = _
    rw [ha.1]
    rfl
  | crash m env k nk =>
    have hh := handle_keys hK hC hB cfg hst m env
    have ha := applyEffects_keys hB ((handle C S cfg s m env).effects.take k) hst hadd
    have hr := hB.reopen _ ha.2
    refine ⟨?_, hr.2⟩
    show (Prod.mk _ _) = _
    rw [hh]
    show (Prod.mk (((handle C S cfg s m env).effects.map (Effect.otherKeys f)).take k)
      (⟨S'.reopen (applyEffects S' (ren s.store) (((handle C S cfg s m env).effects.map (Effect.otherKeys f)).take k)), f.mac nk⟩ : CaState σ)) = _
    rw [← List.map_take, ha.1, ← hr.1]
    rfl
  | restart nk =>
    have hr := hB.reopen _ hst
    refine ⟨?_, hr.2⟩
    show (Prod.mk [] (⟨S'.reopen (ren s.store), f.mac nk⟩ : CaState σ)) = _
    rw [← hr.1]
    rfl

theorem Each.snocKeys {α β : Type} {R : α → β → Prop} {a : α} {b : β} (h : R a b) : ∀ {l : List α} {l' : List β}, Each R l l' → Each R (l ++ [a]) (l' ++ [b])
  | _, _, .nil => .cons h .nil
  | _, _, .cons h1 h2 => .cons h1 (Each.snocKeys h h2)

theorem Exec.keys (hK : K.Mirror C f) (hC : C.Lawful) (hB : KeyBlind S S' f ren Ok) {cfg : CaConfig} {h : List (Step σ)} {s : CaState σ} (hx : Exec C S cfg h s) :
    Ok s.store ∧ ∃ h', Exec (C.keyed K) S' cfg h' ⟨ren s.store, f.mac s.idKey⟩ ∧ Each (SameButKeys C (C.keyed K) S S' cfg f) h h' := by
  induction hx with
  | init idKey =>
    refine ⟨hB.empty.2, [], ?_, .nil⟩
    show Exec (C.keyed K) S' cfg [] ⟨ren S.empty, f.mac idKey⟩
    rw [hB.empty.1]
    exact .init _
  | @step h s e prev wf possible ih =>
    obtain ⟨hok, h', hx', heach⟩ := ih
    obtain ⟨hrun, hok2⟩ := run_keys hK hC hB cfg hok e wf
    have hhandle : ∀ m env, (handle (C.keyed K) S' cfg ⟨ren s.store, f.mac s.idKey⟩ m (env.otherKeys f)).term = (handle C S cfg s m env).term := by
      intro m env
      rw [handle_keys hK hC hB cfg hok m env]
      rfl
    have hwf : (e.otherKeys f).Wf cfg := by
      intro m env hm
      cases e with
      | msg m0 env0 =>
        cases hm
        obtain ⟨h1, h2⟩ := wf _ _ rfl
        exact ⟨h1, ⟨h2.salt, h2.ivRnd, h2.word, h2.nonce, h2.stack, h2.anchors⟩⟩
      | crash m0 env0 _ _ =>
        cases hm
        obtain ⟨h1, h2⟩ := wf _ _ rfl
        exact ⟨h1, ⟨h2.salt, h2.ivRnd, h2.word, h2.nonce, h2.stack, h2.anchors⟩⟩
      | restart _ => cases hm
    have hposs : (e.otherKeys f).Possible (C.keyed K) S' cfg ⟨ren s.store, f.mac s.idKey⟩ := by
      cases e with
      | msg m env => exact (hhandle m env).trans possible
      | _ => trivial
    refine ⟨hok2, h' ++ [⟨⟨ren s.store, f.mac s.idKey⟩, e.otherKeys f, ((e.otherKeys f).run (C.keyed K) S' cfg ⟨ren s.store, f.mac s.idKey⟩).1⟩], ?_, ?_⟩
    · have := Exec.step (e.otherKeys f) hx' hwf hposs
      rw [hrun] at this ⊢
      exact this
    · refine Each.snocKeys ⟨rfl, ?_, ?_, ?_, ?_, ?_⟩ heach
      · dsimp only; rw [hrun]; exact sent_keys _
      · dsimp only; rw [hrun]; exact issued_keys _
      · dsimp only; rw [hrun]; exact mailed_keys _
      · dsimp only; rw [hrun]; exact callbacks_keys _
      · cases e with
        | msg m env => exact congrArg some (hhandle m env)
        | crash m env k nk => exact congrArg some (hhandle m env)
        | restart nk => rfl

/-! ## A Request object -/

/-- the loop state with other keys -/
def ChalDecAcc.otherKeys (f : OtherKeys) (a : ChalDecAcc) : ChalDecAcc := { a with req := a.req.otherKeys f }

theorem challengeStep_keys (es : List Block) (now : Time) (a : ChalDecAcc) (b : Block) :
    challengeStep es now (a.otherKeys f) b = (challengeStep es now a b).as (ChalDecAcc.otherKeys f) := by
  have e : (a.otherKeys f).lookingForNonce = a.lookingForNonce := rfl
  unfold challengeStep
  rw [e]
  split
  · split
    · cases getElem es T.Status with
      | ok x =>
        show (statusFromBlock x >>= _) = Res.as _ (statusFromBlock x >>= _)
        cases statusFromBlock x <;> rfl
      | _ => rfl
    split
    · rfl
    split
    · cases readNni b <;> rfl
    split
    · cases readNni b with
      | ok n =>
        show (addSeconds now n >>= _) = Res.as _ (addSeconds now n >>= _)
        cases addSeconds now n <;> rfl
      | _ => rfl
    split
    · cases b.blockFromValue with
      | ok n =>
        show (nameOfBlock n >>= _) = Res.as _ (nameOfBlock n >>= _)
        cases nameOfBlock n <;> rfl
      | _ => rfl
    split
    · cases b.blockFromValue with
      | ok n =>
        show (nameOfBlock n >>= _) = Res.as _ (nameOfBlock n >>= _)
        cases nameOfBlock n <;> rfl
      | _ => rfl
    split
    · split <;> rfl
    split <;> rfl
  · split
    · split <;> rfl
    · rfl

theorem challengeLoop_keys (all : List Block) (now : Time) : ∀ (es : List Block) (a : ChalDecAcc),
    loopRes (challengeStep all now) (a.otherKeys f) es =
      ((loopRes (challengeStep all now) a es).1.otherKeys f, (loopRes (challengeStep all now) a es).2)
  | [], _ => rfl
  | b :: es, a => by
    unfold loopRes
    rw [challengeStep_keys]
    cases challengeStep all now a b with
    | ok a' => exact challengeLoop_keys all now es a'
    | _ => rfl

theorem reqCall_keys (hK : K.Mirror C f) (r : Request) (c : ReqCall) :
    c.run (C.keyed K) (r.otherKeys f) = ((c.run C r).1.otherKeys f, (c.run C r).2) := by
  have e1 : (r.otherKeys f).profile = r.profile := rfl
  have e3 : (r.otherKeys f).requestId = r.requestId := rfl
  have e4 : (C.keyed K).ecdhPub (r.otherKeys f).ecdhPriv = C.ecdhPub r.ecdhPriv := hK.pub _
  cases c with
  | genNew key nb na v =>
    have : genNewInterest (C.keyed K) (r.otherKeys f) key nb na v = ((genNewInterest C r key nb na v).1.otherKeys f, (genNewInterest C r key nb na v).2) := by
      unfold genNewInterest
      rw [e1, e4]
      split
      · rfl
      split
      · rfl
      split
      · rfl
      · rfl
      have e : (C.keyed K).keyPub key = C.keyPub key := rfl
      rw [e]
      split <;> rfl
    simp only [ReqCall.run, this]
  | genRevoke cert =>
    have : genRevokeInterest (C.keyed K) (r.otherKeys f) cert = genRevokeInterest C r cert := by
      unfold genRevokeInterest
      rw [e1, e4]
      rfl
    simp only [ReqCall.run, this]
  | onNew d stack =>
    have : onNewResponse (C.keyed K) (r.otherKeys f) d stack = ((onNewResponse C r d stack).1.otherKeys f, (onNewResponse C r d stack).2) := by
      have e : checkReply (C.keyed K) r.profile d = checkReply C r.profile d := rfl
      have e5 : ∀ p, (C.keyed K).ecdhDerive (r.otherKeys f).ecdhPriv p = (C.ecdhDerive r.ecdhPriv p).map f.shared := fun p => hK.derive _ _
      have e6 : ∀ s t i, (C.keyed K).hkdf (f.shared s) t i = f.aes (C.hkdf s t i) := hK.hkdf
      unfold onNewResponse
      rw [e1, e3, e]
      split
      · rfl
      · rfl
      dsimp only
      split
      · rfl
      · rfl
      rw [e5]
      cases C.ecdhDerive r.ecdhPriv _ with
      | none => rfl
      | some s =>
        dsimp only [Option.map]
        rw [e6]
        rfl
    simp only [ReqCall.run, this]
  | select ch =>
    have : selectOrContinueChallenge (r.otherKeys f) ch = ((selectOrContinueChallenge r ch).1.otherKeys f, (selectOrContinueChallenge r ch).2) := by
      unfold selectOrContinueChallenge
      split <;> rfl
    simp only [ReqCall.run, this]
  | genChallenge params rnd =>
    have : genChallengeInterest (C.keyed K) (r.otherKeys f) params rnd =
        ((genChallengeInterest C r params rnd).1.otherKeys f, (genChallengeInterest C r params rnd).2) := by
      have e5 : (r.otherKeys f).challengeType = r.challengeType := rfl
      have e6 : (r.otherKeys f).status = r.status := rfl
      have e7 : (r.otherKeys f).challengeStatus = r.challengeStatus := rfl
      have e8 : (r.otherKeys f).encryptionIv = r.encryptionIv := rfl
      have e9 : (r.otherKeys f).aesKey = f.aes r.aesKey := rfl
      have e10 : (r.otherKeys f).keyPair = r.keyPair := rfl
      unfold genChallengeInterest
      rw [e1, e3, e5, e6, e7, e8, e9]
      split
      · rfl
      split
      · rfl
      split
      · rfl
      · rfl
      rw [encodeAes_keys hK]
      dsimp only
      split
      · rfl
      · rfl
      rw [e10]
      split <;> rfl
    simp only [ReqCall.run, this]
  | onChallenge d now =>
    have : onChallengeResponse (C.keyed K) (r.otherKeys f) d now = ((onChallengeResponse C r d now).1.otherKeys f, (onChallengeResponse C r d now).2) := by
      have e : checkReply (C.keyed K) r.profile d = checkReply C r.profile d := rfl
      have e4 : (r.otherKeys f).aesKey = f.aes r.aesKey := rfl
      have e6 : (r.otherKeys f).encryptionIv = r.encryptionIv := rfl
      have e7 : (r.otherKeys f).decryptionIv = r.decryptionIv := rfl
      unfold onChallengeResponse
      rw [e1, e]
      split
      · rfl
      · rfl
      unfold challengeDecode
      rw [e3, e4, e6, e7, decodeAes_keys hK]
      dsimp only
      split
      · rfl
      · rfl
      split
      · rfl
      · rfl
      rename_i es _
      have := challengeLoop_keys (f := f) es now es
        { req := { r with decryptionIv := (decodeAes C d.content r.aesKey r.requestId r.decryptionIv r.encryptionIv).1 } }
      simp only [Request.otherKeys, ChalDecAcc.otherKeys] at this ⊢
      simp only [this]
    simp only [ReqCall.run, this]

end Ndncert
