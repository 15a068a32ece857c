import Verif.Model.Requester
import Verif.Model.Server

/-! # Which handler sees an Interest (src/ca-module.cpp:71-113, tools/ndncert-ca-server.cpp:145-159)

`ndn::Face` calls the callback of every Interest filter whose prefix is a prefix of the Interest's name. Registration with the
forwarder is not modelled. -/

namespace Ndncert

/-- the callbacks `CaModule` sets -/
inductive Handler where
  | discovery | probe | new | challenge | revoke
  deriving DecidableEq, Repr

/-- the Interest filters (ca-module.cpp:82-109), in the order they are set -/
def filters (p : CaProfile) : List (Name × Handler) :=
  let pre := p.caPrefix ++ [caComp]
  [(pre ++ [infoComp, metadataComp], .discovery), (pre ++ [probeComp], .probe), (pre ++ [newComp], .new),
   (pre ++ [challengeComp], .challenge), (pre ++ [revokeComp], .revoke)]

/-- the callbacks called for an Interest with this name -/
def dispatch (p : CaProfile) (name : Name) : List Handler :=
  ((filters p).filter (fun f => isPrefixOf f.1 name)).map (·.2)

/-- a Data packet on the face: a certificate is one, too -/
inductive Reply where
  | data (d : Data)
  | cert (c : Cert)
  deriving DecidableEq, Repr

def Packet.reply : Packet → Reply
  | .profile d => .data d
  | .cert c => .cert c

/-- the message a callback other than that for discovery gets -/
def Handler.msg (i : Interest) : Handler → Option Msg
  | .discovery => none
  | .probe => some (.probe i)
  | .new => some (.new i)
  | .challenge => some (.challenge i)
  | .revoke => some (.revoke i)

/-- the Data among the effects -/
def putsOf (es : List Effect) : List Data := es.filterMap (fun e => match e with | .put d => some d | _ => none)

/-- what a callback sends for an Interest. `profileName`: name of the profile Data; `metaVersion`: version of the metadata. -/
def Handler.sends {σ : Type} (C : Crypto) (S : StoreI σ) (cfg : CaConfig) (s : CaState σ) (profileName : Name) (metaVersion : Block)
    (i : Interest) (env : Env) (h : Handler) : List Data :=
  match h.msg i with
  | none => [onCaProfileDiscovery C cfg.profile profileName metaVersion]
  | some m => putsOf (handle C S cfg s m env).effects

/-- everything a CA server without repo sends for one Interest: the filter of the server on the CA prefix
(ndncert-ca-server.cpp:146), which was set first, and the callbacks of the CA module -/
def serverSends {σ : Type} (C : Crypto) (S : StoreI σ) (cfg : CaConfig) (s : CaState σ) (sv : Server) (metaVersion : Block)
    (i : Interest) (env : Env) : List Reply :=
  (if isPrefixOf cfg.profile.caPrefix i.name then (sv.onInterest i.name).toList.map Packet.reply else []) ++
  ((dispatch cfg.profile i.name).flatMap (fun h => h.sends C S cfg s sv.profile.name metaVersion i env)).map .data

/-! ## Packet size

`Face::put` of ndn-cxx hands the packet to the event loop, which throws `OversizedPacketError` if it does not fit: the exception leaves
`Face::processEvents` after the handler has returned. `CaModule` and the tools do not catch it. -/

/-- `ndn::MAX_NDN_PACKET_SIZE` -/
def maxPacketSize : Nat := 8800

/-- octets of a name in a packet -/
def nameOctets (n : Name) : Nat := (nameBlock n).encode.length

/-- octets of a Data packet: name, content, and `extra` for what is not modelled (header, meta information, signature) -/
def Data.octets (extra : Nat) (d : Data) : Nat := nameOctets d.name + d.content.encode.length + extra

/-- the effect is a packet that the face refuses -/
def Effect.tooBig (extra : Nat) : Effect → Bool
  | .put d => decide (maxPacketSize < d.octets extra)
  | _ => false

/-- what a handler and the face do together: packets that are too big are not sent, and the process ends -/
def onFace (extra : Nat) (o : Outcome) : Outcome :=
  if o.effects.any (Effect.tooBig extra) then ⟨o.effects.filter (fun e => !e.tooBig extra), .threw .runtime⟩ else o

end Ndncert
