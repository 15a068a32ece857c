import Verif.Model.Encoders

/-! # CA storage (src/detail/ca-memory.cpp, src/detail/ca-sqlite.cpp) -/

namespace Ndncert

/-- the interface `CaStorage` (src/detail/ca-storage.hpp:34-77), with the state after construction on a clean system and
what a newly started process finds in the storage left by the previous one -/
structure StoreI (σ : Type) where
  empty : σ
  reopen : σ → σ
  get : σ → RequestId → Res RequestState
  add : σ → RequestState → Res σ
  update : σ → RequestState → Res σ
  delete : σ → RequestId → σ
  list : σ → Res (List RequestState)
  listFor : σ → Name → Res (List RequestState)

/-! ## Memory -/

/-- `std::map<RequestId, RequestState>`: entries in key order (ca-memory.hpp) -/
abbrev Mem := List (RequestId × RequestState)

/-- `std::map::find` -/
def memFind (m : Mem) (id : RequestId) : Option RequestState := (m.find? (fun e => e.1 == id)).map (·.2)

/-- position-preserving insertion of a key known to be absent -/
def memInsert (id : RequestId) (r : RequestState) : Mem → Mem
  | [] => [(id, r)]
  | e :: es => if bytesLt id e.1 then (id, r) :: e :: es else e :: memInsert id r es

/-- `std::map::insert_or_assign` -/
def memAssign (id : RequestId) (r : RequestState) (m : Mem) : Mem :=
  match memFind m id with
  | some _ => m.map (fun e => if e.1 == id then (e.1, r) else e)
  | none => memInsert id r m

/-- `CaMemory` (ca-memory.cpp:33-84) -/
def memStore : StoreI Mem where
  empty := []                                                            -- ca-memory.hpp: member `m_requests`
  reopen _ := []                                                         -- nothing survives the process
  get m id := .ofOption .runtime (memFind m id)                          -- ca-memory.cpp:33-41
  add m r := match memFind m r.requestId with                            -- ca-memory.cpp:43-50
    | some _ => .exc .runtime
    | none => .ok (memInsert r.requestId r m)
  update m r := .ok (memAssign r.requestId r m)                          -- ca-memory.cpp:52-56
  delete m id := m.filter (fun e => !(e.1 == id))                        -- ca-memory.cpp:58-62
  list m := .ok (m.map (·.2))                                            -- ca-memory.cpp:64-72
  listFor m ca := .ok ((m.map (·.2)).filter (fun r => r.caPrefix == ca)) -- ca-memory.cpp:74-84

/-! ## SQLite -/

/-- a TEXT column that holds an ISO time stamp: NULL, the empty string, or a time in microseconds
(`time::toIsoString`, resolution of boost posix_time); the text is in Model/TextStore.lean -/
inductive IsoText where
  | empty
  | micros (us : Int)
  deriving DecidableEq, Repr

/-- a TEXT column that holds JSON: the empty string or a flat object. The text itself is in
Model/TextStore.lean; here `read_json` of `write_json` is the identity on flat trees of strings. C104 proves that the CA cannot tell. -/
inductive JsonText where
  | empty
  | obj (kv : List (Bytes × Bytes))
  deriving DecidableEq, Repr

/-- a row of table RequestStates (ca-sqlite.cpp:56-77); `none` is NULL. The rowid is implicit: rows are kept in
rowid order and new rows get the largest rowid. -/
structure Row where
  requestId : Bytes
  caName : Bytes
  requestType : Nat
  status : Int
  certRequest : Bytes
  challengeType : Option Bytes := none
  challengeStatus : Option Bytes := none
  challengeSecrets : Option JsonText := none
  challengeTp : Option IsoText := none
  remainingTries : Option Int := none
  remainingTime : Option Int := none
  encryptionKey : Bytes
  encryptionIv : Bytes
  decryptionIv : Bytes
  deriving DecidableEq, Repr

abbrev Db := List Row

/-- `static_cast<int>(RequestType)` and back -/
def RequestType.code : RequestType → Nat
  | notInitialized => 0 | new => 1 | renew => 2 | revoke => 3
def RequestType.ofCode : Nat → RequestType
  | 1 => new | 2 => renew | 3 => revoke | _ => notInitialized

/-- conversion of a 64-bit signed value to `int` -/
def intToInt32 (x : Int) : Int :=
  let m := x % 4294967296
  if m < 2147483648 then m else m - 4294967296

/-- `time::fromIsoString(getString(col))`; NULL reads as the empty string, which does not parse -/
def readTp : Option IsoText → Res Time
  | some (.micros us) => .ok (us * 1000)
  | _ => .exc .runtime

/-- `convertString2Json(getString(col))` -/
def readJson : Option JsonText → Res (List (Bytes × Bytes))
  | some (.obj kv) => .ok kv
  | _ => .exc .runtime

/-- `sqlite3_column_int` of a NULL is 0 -/
def intCol (o : Option Int) : Int := o.getD 0

/-- conversion of a row to a RequestState (ca-sqlite.cpp:140-157, 237-255, 271-289: the three copies are the same) -/
def rowToState (C : Crypto) (r : Row) : Res RequestState := do
  let nb ← blockOfBytes r.caName
  let ca ← nameOfBlock nb
  let cb ← blockOfBytes r.certRequest
  let cert ← certOfBlock C cb
  let key ← memcpyInto (List.replicate 16 0) r.encryptionKey
  let ct := r.challengeType.getD []
  let cs ← (if ct ≠ [] then do
      let tp ← readTp r.challengeTp
      let js ← readJson r.challengeSecrets
      .ok (some { challengeStatus := r.challengeStatus.getD [],
                  timestamp := tp,
                  remainingTries := (intCol r.remainingTries % 2 ^ 64).toNat,
                  remainingTime := intCol r.remainingTime,
                  secrets := js : ChallengeState })
    else .ok none : Res (Option ChallengeState))
  .ok { caPrefix := ca, requestId := r.requestId, requestType := RequestType.ofCode r.requestType,
        status := Status.ofNat (r.status % 2 ^ 16).toNat, cert := cert, encryptionKey := key,
        encryptionIv := r.encryptionIv, decryptionIv := r.decryptionIv,
        challengeType := ct, challengeState := cs }

/-- `time::toIsoString`: microseconds, truncated towards zero -/
def isoText (t : Time) : IsoText := .micros (t.tdiv 1000)

/-- the row written by `INSERT` (ca-sqlite.cpp:173-188): the challenge columns, including the type, stay NULL
without a challenge state -/
def stateToRow (s : RequestState) : Row :=
  let base : Row :=
    { requestId := s.requestId, caName := (nameBlock s.caPrefix).encode,
      requestType := s.requestType.code, status := intToInt32 s.status.toNat,
      certRequest := s.cert.wire.encode, encryptionKey := s.encryptionKey,
      encryptionIv := s.encryptionIv, decryptionIv := s.decryptionIv }
  match s.challengeState with
  | none => base
  | some cs => { base with
      challengeType := some s.challengeType
      challengeStatus := some cs.challengeStatus
      challengeSecrets := some (.obj cs.secrets)
      challengeTp := some (isoText cs.timestamp)
      remainingTries := some (toInt32 cs.remainingTries)
      remainingTime := some (intToInt32 cs.remainingTime) }

/-- the columns set by `UPDATE` (ca-sqlite.cpp:203-220) -/
def updateRow (s : RequestState) (r : Row) : Row :=
  let base := { r with
    status := intToInt32 s.status.toNat
    challengeType := some s.challengeType
    encryptionIv := s.encryptionIv
    decryptionIv := s.decryptionIv }
  match s.challengeState with
  | none => { base with
      challengeStatus := some []
      challengeSecrets := some .empty
      challengeTp := some .empty
      remainingTries := some 0
      remainingTime := some 0 }
  | some cs => { base with
      challengeStatus := some cs.challengeStatus
      challengeSecrets := some (.obj cs.secrets)
      challengeTp := some (isoText cs.timestamp)
      remainingTries := some (toInt32 cs.remainingTries)
      remainingTime := some (intToInt32 cs.remainingTime) }

/-- a list of results, first failure wins -/
def mapRes {α β : Type} (f : α → Res β) : List α → Res (List β)
  | [] => .ok []
  | a :: as => do
    let b ← f a
    let bs ← mapRes f as
    .ok (b :: bs)

/-- `CaSqlite` (ca-sqlite.cpp:128-300). Errors of the database itself (disk full, locked) are not modelled.
`UPDATE` of an absent row succeeds without effect (`sqlite3_step` returns SQLITE_DONE), so
the `addRequest` fallback in `updateRequest` is never taken. -/
def sqlStore (C : Crypto) : StoreI Db where
  empty := []                                                            -- ca-sqlite.cpp:56-77
  reopen db := db                                                        -- ca-sqlite.cpp:79-122: same file, CREATE TABLE IF NOT EXISTS
  get db id := match db.find? (fun r => r.requestId == id) with          -- ca-sqlite.cpp:128-162
    | some r => rowToState C r
    | none => .exc .runtime
  add db s := match db.find? (fun r => r.requestId == s.requestId) with  -- ca-sqlite.cpp:164-193
    | some _ => .exc .runtime
    | none => .ok (db ++ [stateToRow s])
  update db s :=                                                         -- ca-sqlite.cpp:195-226
    .ok (db.map (fun r => if r.requestId == s.requestId then updateRow s r else r))
  delete db id := db.filter (fun r => !(r.requestId == id))              -- ca-sqlite.cpp:293-300
  list db := mapRes (rowToState C) db                                    -- ca-sqlite.cpp:228-257
  listFor db ca :=                                                       -- ca-sqlite.cpp:259-291
    mapRes (rowToState C) (db.filter (fun r => r.caName == (nameBlock ca).encode))

end Ndncert
