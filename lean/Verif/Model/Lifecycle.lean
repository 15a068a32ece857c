import Verif.Model.Config
import Verif.Model.Face

/-! # Construction, registration and destruction of a CA module (src/ca-module.cpp:46-113, 517-521, src/detail/ca-storage.cpp)

`ndn::Face` is not in /repo. What is used of it: `registerPrefix` asks the forwarder and later calls one of its two callbacks, once;
`setInterestFilter` takes effect at once; a cancelled filter calls nobody; `RegisteredPrefixHandle::unregister` does not withdraw the two
callbacks of a registration that was not answered yet. -/

namespace Ndncert

/-! ## Construction -/

/-- the registered storages (ca-memory.cpp:25-26, ca-sqlite.cpp:36-37) -/
inductive StorageKind where
  | memory | sqlite
  deriving DecidableEq, Repr

/-- `STORAGE_TYPE` (ca-memory.cpp:25, ca-sqlite.cpp:36) -/
def StorageKind.typeName : StorageKind → Bytes
  | memory => bytes! "ca-storage-memory"
  | sqlite => bytes! "ca-storage-sqlite3"

/-- `CaStorage::createCaStorage` (ca-storage.cpp:25-31): `none` is the null pointer -/
def createCaStorage (ty : Bytes) : Option StorageKind :=
  if ty = StorageKind.memory.typeName then some .memory
  else if ty = StorageKind.sqlite.typeName then some .sqlite
  else none

/-- the members of `CaModule` after its constructor -/
structure Constructed where
  config : LoadedConfig
  storage : Option StorageKind
  idKey : Bytes

/-- the constructor of `CaModule` (ca-module.cpp:46-62), except for `registerPrefix`. `opens`: the database file can be opened and
initialised (ca-sqlite.cpp:99-121); the memory storage needs none. -/
def constructCa (T : TextIO) (file storageType : Bytes) (opens : Bool) (idKey : Bytes) : Res Constructed := do
  let l ← loadConfig T file
  let k := createCaStorage storageType
  if k = some .sqlite ∧ opens = false then .exc .runtime
  else .ok ⟨l, k, idKey⟩

/-- each use of a null `std::unique_ptr<CaStorage>` is undefined -/
def nullStore : StoreI Unit where
  empty := ()
  reopen := id
  get _ _ := .ub .nullDeref
  add _ _ := .ub .nullDeref
  update _ _ := .ub .nullDeref
  delete _ _ := ()
  list _ := .ub .nullDeref
  listFor _ _ := .ub .nullDeref

/-- the storage behind `m_storage` -/
def storageOf (C : Crypto) : Option StorageKind → (σ : Type) × StoreI σ
  | some .memory => ⟨Mem, memStore⟩
  | some .sqlite => ⟨Db, sqlStore C⟩
  | none => ⟨Unit, nullStore⟩

/-! ## Registration and destruction -/

/-- what the forwarder answered to the registration of the prefix -/
inductive Registration where
  | asked | confirmed | refused
  deriving DecidableEq, Repr

/-- a module in its surroundings: whether the object exists, how its registration stands, and the filters on the face that call it -/
structure ModuleLife where
  alive : Bool
  registration : Registration
  filters : List (Name × Handler)

/-- after the constructor (ca-module.cpp:61, 73-113): the forwarder was asked -/
def ModuleLife.begin : ModuleLife := ⟨true, .asked, []⟩

/-- what can happen to a module: the forwarder confirms or refuses its prefix, an Interest comes in, the object is destroyed -/
inductive ModuleEvent where
  | confirm
  | refuse
  | interest (name : Name)
  | destroy
  deriving DecidableEq

/-- what comes of it: these callbacks run; or a member of an object is used that exists no more -/
inductive ModuleResult where
  | calls (hs : List Handler)
  | usedAfterDestruction
  deriving DecidableEq

/-- can it happen? The forwarder answers once; an object is destroyed once. -/
def ModuleLife.admits (l : ModuleLife) : ModuleEvent → Prop
  | .confirm => l.registration = .asked
  | .refuse => l.registration = .asked
  | .interest _ => True
  | .destroy => l.alive = true

/-- the callbacks of the registration (ca-module.cpp:81-111; 112 and 517-521), the Interest filters, and the destructor
(ca-module.cpp:64-72) -/
def ModuleLife.step (p : CaProfile) (l : ModuleLife) : ModuleEvent → ModuleResult × ModuleLife
  | .confirm =>
    if l.alive then (.calls [], { l with registration := .confirmed, filters := Ndncert.filters p })
    else (.usedAfterDestruction, { l with registration := .confirmed })
  | .refuse =>
    if l.alive then (.calls [], { l with registration := .refused })
    else (.usedAfterDestruction, { l with registration := .refused })
  | .interest name =>
    let hs := (l.filters.filter (fun f => isPrefixOf f.1 name)).map (·.2)
    if l.alive ∨ hs = [] then (.calls hs, l) else (.usedAfterDestruction, l)
  | .destroy => (.calls [], { l with alive := false, filters := [] })

/-- the life of a module: what happened, oldest first, with what came of it, and how things stand -/
inductive ModuleRuns (p : CaProfile) : List (ModuleEvent × ModuleResult) → ModuleLife → Prop where
  | constructed : ModuleRuns p [] ModuleLife.begin
  | step {h : List (ModuleEvent × ModuleResult)} {l : ModuleLife} (e : ModuleEvent) (prev : ModuleRuns p h l) (can : l.admits e) :
      ModuleRuns p (h ++ [(e, (l.step p e).1)]) (l.step p e).2

end Ndncert
