import Verif.Model.Options
import Verif.Model.Lifecycle
import Verif.Model.Report
import Verif.Model.Uri

/-! # The programs ndncert-ca-server and ndncert-ca-status from their command line on (tools/ndncert-ca-server.cpp:80-164,
tools/ndncert-ca-status.cpp:32-75)

Not modelled: which of several files in the same place a path means, and that a process can be ended by a signal while it starts. A signal later
on ends the process between two events (ndncert-ca-server.cpp:60-78): this is `Event.restart`. -/

namespace Ndncert

/-- what becomes of a start of the server: the process exits, ends by an exception or undefined behaviour, or serves with this CA module, this repo
(host and port) if there is one, and this packet with its profile -/
inductive ServerRun where
  | exits (status : Nat)
  | threw (e : Exc)
  | undefined (u : Ub)
  | serves (m : Constructed) (repo : Option (Bytes × Bytes)) (profile : Data)

/-- what there is around the server when it is started. `files`: what can be read at a path; `opens`: the database can be opened and initialised;
`idKey`: the key for request ids that is drawn (ca-module.cpp:55); `identity`: the default certificate of an identity in the KeyChain, if it has
one; `version`: the time stamp in the name of the profile -/
structure ServerSurroundings where
  files : Bytes → Option Bytes
  opens : Bool
  idKey : Bytes
  identity : Name → Option Cert
  version : Block

/-- `main` from the creation of the CA to the event loop (ndncert-ca-server.cpp:119-145). The storage type is the default of the constructor
(ca-module.hpp:47). A file that cannot be read is an exception of `read_json` (ca-configuration.cpp:33-38), a missing identity one of the
KeyChain (ca-module.cpp:125-126). -/
def serverCreate (C : Crypto) (T : TextIO) (w : ServerSurroundings) (config host port : Bytes) : Res (Constructed × Option (Bytes × Bytes) × Data) := do
  let text ← Res.ofOption .runtime (w.files config)
  let m ← constructCa T text (bytes! "ca-storage-sqlite3") w.opens w.idKey
  let cert ← Res.ofOption .runtime (w.identity m.config.profile.caPrefix)
  let profile ← getCaProfileData C m.config.profile cert w.version
  .ok (m, if host = [] then none else some (host, port), profile)

/-- `main` of ndncert-ca-server up to the event loop (ndncert-ca-server.cpp:80-161) -/
def serverMain (C : Crypto) (T : TextIO) (sysconf : Bytes) (w : ServerSurroundings) (args : List Bytes) : ServerRun :=
  match serverOptions sysconf args with
  | .exit n => .exits n
  | .run config host port =>
    match serverCreate C T w config host port with
    | .ok (m, repo, d) => .serves m repo d
    | .exc e => .threw e
    | .ub u => .undefined u

/-- what becomes of ndncert-ca-status: the status it exits with and what it printed, if it came to that; or an exception, undefined behaviour -/
inductive StatusRun where
  | exits (status : Nat)
  | prints (text : Bytes)
  | threw (e : Exc)
  | undefined (u : Ub)

/-- the databases of a user: the directory `.ndncert` (ca-sqlite.cpp:91-99) -/
abbrev Databases := Bytes → Option Db

/-- the constructor of `CaSqlite` without a path (ca-sqlite.cpp:83-121): the database of a CA is opened, or made if there is none (`SQLITE_OPEN_CREATE`).
The database, and all of them afterwards. -/
def openDatabase (C : Crypto) (disk : Databases) (ca : Name) : Db × Databases :=
  let db := match disk (dbFileName ca) with
    | some db => (sqlStore C).reopen db
    | none => (sqlStore C).empty
  (db, fun f => if f = dbFileName ca then some db else disk f)

/-- `main` of ndncert-ca-status (ndncert-ca-status.cpp:32-75), and the databases afterwards. `Name(std::string)` may throw. Whether the database can
be opened is not part of the model here. -/
def statusMain (C : Crypto) (T : TextIO) (certLines : Cert → List Bytes) (disk : Databases) (args : List Bytes) : StatusRun × Databases :=
  match statusOptions args with
  | .exit n => (.exits n, disk)
  | .list ca =>
    match T.nameOfUri ca with
    | none => (.threw .runtime, disk)
    | some n =>
      let (db, disk') := openDatabase C disk n
      (match (do let rs ← (sqlStore C).list db; statusListing certLines rs : Res Bytes) with
        | .ok text => .prints text
        | .exc e => .threw e
        | .ub u => .undefined u, disk')

end Ndncert
