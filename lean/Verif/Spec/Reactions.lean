import Verif.Model.Ca

/-! # What a CA does with a sequence of messages -/

namespace Ndncert

/-- The reactions to the messages, one after the other, until a handler does not return: for each message the effects
(database operations, emails, issued certificates, replies, callbacks) and how its handler ended. -/
def reactions {σ : Type} (C : Crypto) (S : StoreI σ) (cfg : CaConfig) : CaState σ → List (Msg × Env) → List Outcome
  | _, [] => []
  | s, (m, env) :: rest =>
    let o := handle C S cfg s m env
    o :: (if o.term = .done then reactions C S cfg { s with store := applyEffects S s.store o.effects } rest else [])

/-- the same for events, crashes and restarts included -/
def eventEffects {σ : Type} (C : Crypto) (S : StoreI σ) (cfg : CaConfig) : CaState σ → List Event → List (List Effect)
  | _, [] => []
  | s, e :: rest => (e.run C S cfg s).1 :: eventEffects C S cfg (e.run C S cfg s).2 rest

/-- the clock reading stored with a challenge is a whole number of microseconds -/
def Env.wholeMicros (env : Env) : Prop := env.nowStore % 1000 = 0

end Ndncert
