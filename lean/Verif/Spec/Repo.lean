import Verif.Spec.Server
import Verif.Model.Repo

/-! # What a server with a repo is to deliver -/

namespace Ndncert

variable {σ : Type}

/-- the packets to be published over a history, in order: the profile when the process starts, each certificate announced, and the
profile each time the process is started again -/
def toPublish (first : Data) (next : Step σ → Data) (h : List (Step σ)) : List Packet :=
  .profile first :: h.flatMap (fun n => n.announces.map .cert ++ if n.event.stops then [.profile (next n)] else [])

/-- a certificate can be had: from the server under its name, or from the repo -/
def Fetchable (repo : Bool) (p : Publisher) (c : Cert) : Prop :=
  p.onInterest repo c.name = some (.cert c) ∨ .cert c ∈ p.repo.held

end Ndncert
