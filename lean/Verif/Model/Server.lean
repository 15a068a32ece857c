import Verif.Model.Ca

/-! # The CA server (tools/ndncert-ca-server.cpp)

Options are in `Model/Options.lean`, `main` in `Model/Main.lean`; a signal while the server serves is `Event.restart`. A write to the repo is here the attempt to write; `Model/Repo.lean` adds what becomes of it. -/

namespace Ndncert

/-- what the server puts on the face or writes to the repo -/
inductive Packet where
  | profile (d : Data)
  | cert (c : Cert)
  deriving DecidableEq

/-- the variables of `main` (ndncert-ca-server.cpp:125-126), and everything written to the repo so far, which outlives the process -/
structure Server where
  profile : Data
  cache : List Cert
  written : List Packet

/-- `MAX_CACHED_CERT_NUM` (ndncert-ca-server.cpp:42) -/
def maxCached : Nat := 100

/-- start of the process (ndncert-ca-server.cpp:124-129) -/
def Server.start (repo : Bool) (profile : Data) (written : List Packet) : Server :=
  ⟨profile, [], if repo then written ++ [.profile profile] else written⟩

/-- the status callback with repo (ndncert-ca-server.cpp:130-134) and without (137-144) -/
def Server.onStatus (repo : Bool) (sv : Server) (r : RequestState) : Server :=
  if r.status = .success ∧ r.requestType = .new then
    if repo then { sv with written := sv.written ++ [.cert r.cert] }
    else
      let cache := r.cert :: sv.cache
      { sv with cache := if cache.length > maxCached then cache.dropLast else cache }
  else sv

/-- the Interest filter on the CA prefix, without repo (ndncert-ca-server.cpp:145-159) -/
def Server.onInterest (sv : Server) (name : Name) : Option Packet :=
  if isPrefixOf name sv.profile.name then some (.profile sv.profile)
  else (sv.cache.find? (fun c => isPrefixOf name c.fullName)).map .cert

/-- the process ends in this event -/
def Event.stops : Event → Bool
  | .msg _ _ => false
  | _ => true

/-- one step of the CA as the server sees it: it calls back for the `callback` effects; if the process ended, a new one
starts, with the profile packet `next` -/
def Server.step (repo : Bool) (next : Data) (sv : Server) (e : Event) (effects : List Effect) : Server :=
  let sv' := effects.foldl (fun sv x => match x with | .callback r => sv.onStatus repo r | _ => sv) sv
  if e.stops then Server.start repo next sv'.written else sv'

/-- the server after a history of the CA; `next n` is the profile packet of the process started after step `n` -/
def Server.after {σ : Type} (repo : Bool) (first : Data) (next : Step σ → Data) (h : List (Step σ)) : Server :=
  h.foldl (fun sv n => sv.step repo (next n) n.event n.effects) (Server.start repo first [])

end Ndncert
