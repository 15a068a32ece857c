import Verif.Model.Server

/-! # The connection of the CA server to the repo (tools/ndncert-ca-server.cpp:44-59)

`Model/Server.lean` records which packets the server tries to write. Here each attempt has an outcome, drawn by the network. A repo
stores a packet if it got all octets of it; what a repo does with part of a packet is not modelled. -/

namespace Ndncert

/-- what becomes of one attempt: no connection within five seconds; a connection that breaks or times out before the last octet; or
all octets arrive -/
inductive Link where
  | refused
  | cut
  | whole
  deriving DecidableEq

/-- the repo as far as this server feeds it, the number of connections tried so far, and the error lines on the standard error of the
server -/
structure Repo where
  attempts : Nat
  held : List Packet
  complaints : Nat

/-- a repo no one wrote to -/
def Repo.empty : Repo := ⟨0, [], 0⟩

/-- `writeDataToRepo` (ndncert-ca-server.cpp:44-59): one connection, one packet. A failed connection is reported on standard error
(50-54); the state of the stream after `write` is not looked at (55-57). The Boolean is the result, which no caller uses. -/
def writeDataToRepo (net : Nat → Link) (r : Repo) (p : Packet) : Repo × Bool :=
  match net r.attempts with
  | .refused => ({ r with attempts := r.attempts + 1, complaints := r.complaints + 1 }, false)
  | .cut => ({ r with attempts := r.attempts + 1 }, true)
  | .whole => ({ r with attempts := r.attempts + 1, held := r.held ++ [p] }, true)

/-- the server with its repo -/
structure Publisher where
  server : Server
  repo : Repo

/-- start of the process (ndncert-ca-server.cpp:124-129) -/
def Publisher.start (repo : Bool) (net : Nat → Link) (profile : Data) (written : List Packet) (r : Repo) : Publisher :=
  ⟨Server.start repo profile written, if repo then (writeDataToRepo net r (.profile profile)).1 else r⟩

/-- the status callback (ndncert-ca-server.cpp:130-134, 137-144) -/
def Publisher.onStatus (repo : Bool) (net : Nat → Link) (p : Publisher) (r : RequestState) : Publisher :=
  ⟨p.server.onStatus repo r,
    if repo ∧ r.status = .success ∧ r.requestType = .new then (writeDataToRepo net p.repo (.cert r.cert)).1 else p.repo⟩

/-- Interests under the CA prefix: only without repo does the server set a filter that answers them (ndncert-ca-server.cpp:145) -/
def Publisher.onInterest (repo : Bool) (p : Publisher) (name : Name) : Option Packet :=
  if repo then none else p.server.onInterest name

/-- one step of the CA as the server sees it, as in `Server.step` -/
def Publisher.step (repo : Bool) (net : Nat → Link) (next : Data) (p : Publisher) (e : Event) (effects : List Effect) : Publisher :=
  let p' := effects.foldl (fun p x => match x with | .callback r => p.onStatus repo net r | _ => p) p
  if e.stops then Publisher.start repo net next p'.server.written p'.repo else p'

/-- the server after a history of the CA, as in `Server.after` -/
def Publisher.after {σ : Type} (repo : Bool) (net : Nat → Link) (first : Data) (next : Step σ → Data) (h : List (Step σ)) : Publisher :=
  h.foldl (fun p n => p.step repo net (next n) n.event n.effects) (Publisher.start repo net first [] Repo.empty)

end Ndncert
