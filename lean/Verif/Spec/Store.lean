import Verif.Model.Storage

/-! # Specification of a request storage: a finite map -/

namespace Ndncert

/-- what a storage answers for an id -/
def StoreI.view {σ : Type} (S : StoreI σ) (st : σ) (id : RequestId) : Option RequestState :=
  match S.get st id with
  | .ok r => some r
  | _ => none

/-- equal up to what a storage may lose: the part of the challenge's time stamp below a microsecond, and the remaining
time (which is only shown to the requester when it is computed and never read back) -/
def SameStored (a b : RequestState) : Prop :=
  (a.challengeState = none ∧ b.challengeState = none ∧ a = b) ∨
  ∃ ca cb, a.challengeState = some ca ∧ b.challengeState = some cb ∧
    { a with challengeState := none } = { b with challengeState := none } ∧
    { ca with timestamp := 0, remainingTime := 0 } = { cb with timestamp := 0, remainingTime := 0 } ∧
    ca.timestamp - 1000 < cb.timestamp ∧ cb.timestamp < ca.timestamp + 1000

/-- the fields of a request that never change while it is pending -/
def SameRequest (a b : RequestState) : Prop :=
  a.requestId = b.requestId ∧ a.caPrefix = b.caPrefix ∧ a.requestType = b.requestType ∧ a.cert = b.cert ∧
  a.encryptionKey = b.encryptionKey

/-- request states as the CA creates them: the certificate decodes from its wire form, sizes are within the
types' ranges, a challenge type is present exactly with a challenge state -/
structure Storable (C : Crypto) (r : RequestState) : Prop where
  cert : C.decodeCert r.cert.wire = some r.cert
  certFits : r.cert.wire.Fits
  caFits : NameFits r.caPrefix
  key : r.encryptionKey.length = 16
  status : ∀ n, r.status ≠ .other n
  chal : r.challengeType = [] ↔ r.challengeState = none
  chalFits : ∀ cs, r.challengeState = some cs → cs.remainingTries < 2 ^ 31

/-- A storage that behaves like a finite map from request ids to request states, in the internal states that satisfy
`Inv`, up to `SameStored`. Nothing is said about updating an absent request or about changing
the fixed fields of a request: the CA never does either. -/
structure LawfulStore {σ : Type} (C : Crypto) (S : StoreI σ) (Inv : σ → Prop) : Prop where
  empty_inv : Inv S.empty
  empty_view : ∀ id, S.view S.empty id = none
  reopen_inv : ∀ st, Inv st → Inv (S.reopen st)
  /-- a restart keeps everything or loses everything -/
  reopen_view : ∀ st, Inv st → (∀ id, S.view (S.reopen st) id = S.view st id) ∨ (∀ id, S.view (S.reopen st) id = none)
  get_absent : ∀ st id, Inv st → S.view st id = none → ∃ e, S.get st id = .exc e
  get_id : ∀ st id r, Inv st → S.view st id = some r → r.requestId = id
  get_storable : ∀ st id r, Inv st → S.view st id = some r → Storable C r
  add_present : ∀ st r, Inv st → S.view st r.requestId ≠ none → ∃ e, S.add st r = .exc e
  add_absent : ∀ st r, Inv st → Storable C r → S.view st r.requestId = none →
    ∃ st' r', S.add st r = .ok st' ∧ Inv st' ∧ SameStored r r' ∧
      ∀ id, S.view st' id = if id = r.requestId then some r' else S.view st id
  update_present : ∀ st r r0, Inv st → Storable C r → S.view st r.requestId = some r0 → SameRequest r0 r →
    ∃ st' r', S.update st r = .ok st' ∧ Inv st' ∧ SameStored r r' ∧
      ∀ id, S.view st' id = if id = r.requestId then some r' else S.view st id
  delete_inv : ∀ st id, Inv st → Inv (S.delete st id)
  delete_view : ∀ st id, Inv st → ∀ id', S.view (S.delete st id) id' = if id' = id then none else S.view st id'

/-! ## Sequences of operations -/

/-- modifying operations of `CaStorage` -/
inductive StoreOp where
  | add (r : RequestState)
  | update (r : RequestState)
  | delete (id : RequestId)

/-- one operation; `false` if it threw, which leaves the storage as it was -/
def StoreI.step {σ : Type} (S : StoreI σ) (st : σ) : StoreOp → σ × Bool
  | .add r => match S.add st r with | .ok st' => (st', true) | _ => (st, false)
  | .update r => match S.update st r with | .ok st' => (st', true) | _ => (st, false)
  | .delete id => (S.delete st id, true)

/-- a sequence of operations: the final state and which of them succeeded -/
def StoreI.run {σ : Type} (S : StoreI σ) : σ → List StoreOp → σ × List Bool
  | st, [] => (st, [])
  | st, op :: ops =>
    let (st', b) := S.step st op
    let (st'', bs) := S.run st' ops
    (st'', b :: bs)

/-- a finite map -/
abbrev IdMap := RequestId → Option RequestState

/-- what each operation means for a finite map -/
def mapStep (m : IdMap) : StoreOp → IdMap × Bool
  | .add r => if m r.requestId = none then (fun id => if id = r.requestId then some r else m id, true) else (m, false)
  | .update r => (fun id => if id = r.requestId then some r else m id, true)
  | .delete id => (fun id' => if id' = id then none else m id', true)

def mapRun : IdMap → List StoreOp → IdMap × List Bool
  | m, [] => (m, [])
  | m, op :: ops =>
    let (m', b) := mapStep m op
    let (m'', bs) := mapRun m' ops
    (m'', b :: bs)

/-! ## Answers of a storage, compared with a map -/

/-- how the result of `getRequest` has to look for a given map -/
def getSpec (m : IdMap) (id : RequestId) (res : Res RequestState) : Prop :=
  match m id with
  | some r => res = .ok r
  | none => ∃ e, res = .exc e

/-- how the result of `listAllRequests` (restricted by `p`) has to look for a given map: each stored request that
satisfies `p` exactly once -/
def listSpec (m : IdMap) (p : RequestState → Prop) (res : Res (List RequestState)) : Prop :=
  ∃ l, res = .ok l ∧ l.Nodup ∧ ∀ r, r ∈ l ↔ (m r.requestId = some r ∧ p r)

/-- the storage answers every query as the map does -/
structure Answers {σ : Type} (S : StoreI σ) (st : σ) (m : IdMap) : Prop where
  get : ∀ id, getSpec m id (S.get st id)
  list : listSpec m (fun _ => True) (S.list st)
  listFor : ∀ ca, NameFits ca → listSpec m (fun r => r.caPrefix = ca) (S.listFor st ca)

/-- the whole state fits the columns of the SQLite storage: additionally to `Storable`, whole-microsecond time stamps
and a 32-bit remaining time -/
def Representable (C : Crypto) (r : RequestState) : Prop :=
  Storable C r ∧ ∀ cs, r.challengeState = some cs →
    cs.timestamp % 1000 = 0 ∧ -2 ^ 31 ≤ cs.remainingTime ∧ cs.remainingTime < 2 ^ 31

/-- the states passed to add/update are representable, and every update is of a request that is present and keeps its
fixed fields -/
def WellUsed (C : Crypto) : IdMap → List StoreOp → Prop
  | _, [] => True
  | m, op :: ops =>
    (match op with
     | .add r => Representable C r
     | .update r => Representable C r ∧ ∃ r0, m r.requestId = some r0 ∧ SameRequest r0 r
     | .delete _ => True) ∧
    WellUsed C (mapStep m op).1 ops

end Ndncert
