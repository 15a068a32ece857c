import Verif.Model.Server
import Verif.Spec.History

/-! # What the CA server publishes -/

namespace Ndncert

variable {σ : Type}

/-- the certificates issued in a step that ran to its status callback -/
def Step.announces (n : Step σ) : List Cert := if callbacks n.effects = [] then [] else issued n.effects

/-- the steps since the process was last started -/
def sinceStart (h : List (Step σ)) : List (Step σ) := (h.reverse.takeWhile (fun n => !n.event.stops)).reverse

/-- the certificates issued since the process was last started, newest first -/
def recent (h : List (Step σ)) : List Cert := ((sinceStart h).flatMap Step.announces).reverse

end Ndncert
