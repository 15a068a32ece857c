import Verif.Spec.History
import Verif.Model.Server

/-! # The end of a request (C145) -/

namespace Ndncert

variable {σ : Type}

/-- The step removed the request of `r`. It handled a CHALLENGE Interest that verifies under the key of the certificate of `r`, and it answered this
Interest with an error or with success, unless the process died in this step before it replied. -/
structure EndsTold (C : Crypto) (S : StoreI σ) (cfg : CaConfig) (n : Step σ) (i : Interest) (env : Env) (r : RequestState) : Prop where
  handles : n.Handles (.challenge i) env
  authentic : Authentic C S cfg n.pre.store i env r
  removes : .dbDelete r.requestId ∈ n.effects
  told : (n.event.stops = true ∧ sent n.effects = []) ∨
    ∃ d ∈ sent n.effects, (∃ code, IsErrorReply C cfg i code d) ∨ TellsStatus C r d .success

end Ndncert
