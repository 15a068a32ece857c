import Verif.Model.JsonText
import Verif.Model.TimeText
import Verif.Model.Storage

/-! # CaSqlite with the texts in its columns

`sqlStore` (Model/Storage.lean) keeps the secrets of a challenge and its time stamp as values. Here they are the texts the code writes. -/

namespace Ndncert

/-- a row of table RequestStates (ca-sqlite.cpp:56-77) with texts where `Row` has values -/
structure TextRow where
  requestId : Bytes
  caName : Bytes
  requestType : Nat
  status : Int
  certRequest : Bytes
  challengeType : Option Bytes := none
  challengeStatus : Option Bytes := none
  challengeSecrets : Option Bytes := none
  challengeTp : Option Bytes := none
  remainingTries : Option Int := none
  remainingTime : Option Int := none
  encryptionKey : Bytes
  encryptionIv : Bytes
  decryptionIv : Bytes
  deriving DecidableEq, Repr

/-- the tree of a list of secrets (`JsonSection`, filled by `add` in the challenge modules) -/
def secretTree (kv : List (Bytes × Bytes)) : PTree := .node [] (kv.map (fun e => (e.1, PTree.leaf e.2)))

/-- `convertJson2String` (ca-sqlite.cpp:39-45) -/
def secretText (kv : List (Bytes × Bytes)) : Res Bytes := .ofOption .runtime (writeJsonText (secretTree kv))

/-- `convertString2Json` (ca-sqlite.cpp:47-54). Simplification: of the tree that is read only the first level is kept; the texts the CA writes
have no other. -/
def readSecrets (text : Bytes) : Res (List (Bytes × Bytes)) :=
  .ofOption .runtime ((readJsonText text).map (fun t => t.kids.map (fun e => (e.1, e.2.data))))

/-- `time::toIsoString`: boost's posix_time has microseconds, the rest is truncated towards zero -/
def timeText (t : Time) : Res Bytes := .ofOption .runtime (toIsoText (t.tdiv 1000))

/-- `time::fromIsoString` -/
def readTime (text : Bytes) : Res Time := .ofOption .runtime ((fromIsoText text).map (· * 1000))

/-- conversion of a row to a RequestState (ca-sqlite.cpp:140-157, 237-255, 271-289) -/
def textRowToState (C : Crypto) (r : TextRow) : Res RequestState := do
  let nb ← blockOfBytes r.caName
  let ca ← nameOfBlock nb
  let cb ← blockOfBytes r.certRequest
  let cert ← certOfBlock C cb
  let key ← memcpyInto (List.replicate 16 0) r.encryptionKey
  let ct := r.challengeType.getD []
  let cs ← (if ct ≠ [] then do
      let tp ← readTime (r.challengeTp.getD [])
      let js ← readSecrets (r.challengeSecrets.getD [])
      .ok (some { challengeStatus := r.challengeStatus.getD [],
                  timestamp := tp,
                  remainingTries := (intCol r.remainingTries % 2 ^ 64).toNat,
                  remainingTime := intCol r.remainingTime,
                  secrets := js : ChallengeState })
    else .ok none : Res (Option ChallengeState))
  .ok { caPrefix := ca, requestId := r.requestId, requestType := RequestType.ofCode r.requestType,
        status := Status.ofNat (r.status % 2 ^ 16).toNat, cert := cert, encryptionKey := key,
        encryptionIv := r.encryptionIv, decryptionIv := r.decryptionIv,
        challengeType := ct, challengeState := cs }

/-- the row written by `INSERT` (ca-sqlite.cpp:173-188) -/
def stateToTextRow (s : RequestState) : Res TextRow :=
  let base : TextRow :=
    { requestId := s.requestId, caName := (nameBlock s.caPrefix).encode,
      requestType := s.requestType.code, status := intToInt32 s.status.toNat,
      certRequest := s.cert.wire.encode, encryptionKey := s.encryptionKey,
      encryptionIv := s.encryptionIv, decryptionIv := s.decryptionIv }
  match s.challengeState with
  | none => .ok base
  | some cs => do
    let js ← secretText cs.secrets
    let tp ← timeText cs.timestamp
    .ok { base with
      challengeType := some s.challengeType
      challengeStatus := some cs.challengeStatus
      challengeSecrets := some js
      challengeTp := some tp
      remainingTries := some (toInt32 cs.remainingTries)
      remainingTime := some (intToInt32 cs.remainingTime) }

/-- the columns set by `UPDATE` (ca-sqlite.cpp:203-220); the texts are made before the statement is run -/
def updateTextRow (s : RequestState) : Res (TextRow → TextRow) :=
  let base : TextRow → TextRow := fun r => { r with
    status := intToInt32 s.status.toNat
    challengeType := some s.challengeType
    encryptionIv := s.encryptionIv
    decryptionIv := s.decryptionIv }
  match s.challengeState with
  | none => .ok (fun r => { base r with
      challengeStatus := some []
      challengeSecrets := some []
      challengeTp := some []
      remainingTries := some 0
      remainingTime := some 0 })
  | some cs => do
    let js ← secretText cs.secrets
    let tp ← timeText cs.timestamp
    .ok (fun r => { base r with
      challengeStatus := some cs.challengeStatus
      challengeSecrets := some js
      challengeTp := some tp
      remainingTries := some (toInt32 cs.remainingTries)
      remainingTime := some (intToInt32 cs.remainingTime) })

/-- `CaSqlite` (ca-sqlite.cpp:128-300), as `sqlStore`. Simplification: a refused insertion throws before the texts are made. -/
def textStore (C : Crypto) : StoreI (List TextRow) where
  empty := []
  reopen db := db
  get db id := match db.find? (fun r => r.requestId == id) with
    | some r => textRowToState C r
    | none => .exc .runtime
  add db s := match db.find? (fun r => r.requestId == s.requestId) with
    | some _ => .exc .runtime
    | none => do
      let row ← stateToTextRow s
      .ok (db ++ [row])
  update db s := do
    let f ← updateTextRow s
    .ok (db.map (fun r => if r.requestId == s.requestId then f r else r))
  delete db id := db.filter (fun r => !(r.requestId == id))
  list db := mapRes (textRowToState C) db
  listFor db ca := mapRes (textRowToState C) (db.filter (fun r => r.caName == (nameBlock ca).encode))

end Ndncert
