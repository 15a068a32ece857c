import Verif.Model.Config

/-! # Files of the CA: the database (src/detail/ca-sqlite.cpp), its listing (tools/ndncert-ca-status.cpp), the trust anchors of the
possession challenge (src/challenge/challenge-possession.cpp) -/

namespace Ndncert

/-- name of the database file when no path is given (ca-sqlite.cpp:87-89); the directory is the same for every CA of a user -/
def dbFileName (ca : Name) : Bytes := (nameUri ca).map (fun b => if b = 47 then 95 else b) ++ bytes! ".db"

/-- what `ndncert-ca-status` prints (ndncert-ca-status.cpp:64-73): it opens the database as the CA does and lists it. The text itself is in
Model/Report.lean. -/
def caStatus (C : Crypto) (db : Db) : Res (List RequestState) := (sqlStore C).list ((sqlStore C).reopen db)

/-- the loop over the anchor list (challenge-possession.cpp:70-78) -/
def loadAnchors (T : TextIO) : List (Bytes × PTree) → List Cert
  | [] => []
  | e :: es =>
    match T.loadCert (e.2.getStr (bytes! "certificate") []) with
    | none => loadAnchors T es
    | some c => c :: loadAnchors T es

/-- `ChallengePossession::parseConfigFile` (challenge-possession.cpp:53-79). `file`: the contents of the configuration file, `none` if
it cannot be read. Called for each CHALLENGE, since the module is created anew each time. -/
def parseAnchors (T : TextIO) (file : Option Bytes) : Res (List Cert) :=
  match file with
  | none => .exc .runtime
  | some text =>
    match T.readJson text with
    | none => .exc .runtime
    | some config =>
      if config.kids = [] then .exc .runtime
      else match config.child (bytes! "anchor-list") with
        | none => .exc .runtime
        | some list => .ok (loadAnchors T list.kids)

end Ndncert
