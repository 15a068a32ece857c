import Verif.Spec.History
import Verif.Spec.Assign

/-! # Vocabulary for comparing executions of the CA -/

namespace Ndncert

variable {σ : Type}

/-- A storage of which it is known exactly what it gives back: a written request comes back as it is, except for the clock
reading and the remaining time of its challenge, which may come back rounded (always in the same way); a restart
always keeps everything or always loses everything. -/
structure ExactStore (C : Crypto) (S : StoreI σ) (Inv : σ → Prop) : Prop extends LawfulStore C S Inv where
  update_exact : ∃ (f : Time → Time) (g : Int → Int), ∀ st r r0 st', Inv st → Storable C r → S.view st r.requestId = some r0 →
    SameRequest r0 r → S.update st r = .ok st' →
    S.view st' r.requestId = some { r with challengeState := r.challengeState.map (fun cs =>
      { cs with timestamp := f cs.timestamp, remainingTime := g cs.remainingTime }) }
  reopen_exact : (∀ st, Inv st → ∀ id, S.view (S.reopen st) id = S.view st id) ∨ (∀ st, Inv st → ∀ id, S.view (S.reopen st) id = none)

/-- the step processes an Interest that is about the request with this id: a CHALLENGE that names it, or a NEW or REVOKE
that submits a certificate to which the CA gives this id -/
def Concerns (C : Crypto) (cfg : CaConfig) (id : RequestId) (n : Step σ) : Prop :=
  (∃ i env, n.Handles (.challenge i) env ∧ Names cfg env i id) ∨
  (∃ i env pub cert, n.Handles (.new i) env ∧ Submits C .new i pub cert ∧ idFor C n.pre.idKey cert.name = id) ∨
  (∃ i env pub cert, n.Handles (.revoke i) env ∧ Submits C .revoke i pub cert ∧ idFor C n.pre.idKey cert.name = id)

/-- the step processes an Interest of the requester with this id: a CHALLENGE signed with the key of the
pending request, or a NEW or REVOKE that is accepted under this id -/
def OwnStep (C : Crypto) (S : StoreI σ) (cfg : CaConfig) (id : RequestId) (n : Step σ) : Prop :=
  (∃ i env r, n.Handles (.challenge i) env ∧ Authentic C S cfg n.pre.store i env r ∧ r.requestId = id) ∨
  (∃ i env r, (AcceptsNew n i env r ∨ AcceptsRevoke n i env r) ∧ r.requestId = id)

/-- what is left of a history when all Interests but those of the steps in `K` are taken away: events and their effects.
If the process was killed while it processed an Interest that is taken away, it is killed while idle. -/
noncomputable def leftWith (K : Step σ → Prop) (h : List (Step σ)) : List (Event × List Effect) :=
  open Classical in h.filterMap (fun n =>
    if K n then some (n.event, n.effects)
    else match n.event with
      | .msg _ _ => none
      | .crash _ _ _ newKey => some (.restart newKey, [])
      | .restart newKey => some (.restart newKey, []))

/-! ## Secrecy of the code -/

/-- a list of secrets with the value of the code left out -/
def hideCode (secrets : List (Bytes × Bytes)) : List (Bytes × Bytes) :=
  secrets.map (fun e => if e.1 = bytes! "code" then (e.1, []) else e)

/-- a request with the code it waits for left out; everything else is there -/
def RequestState.hidden (r : RequestState) : RequestState :=
  { r with challengeState := r.challengeState.map (fun cs => { cs with secrets := hideCode cs.secrets }) }

/-- an email with the code left out -/
def Mail.hidden (m : Mail) : Mail := { m with code := [] }

/-- the same event, but the random source may give another word for a secret code -/
inductive OtherCode : Event → Event → Prop where
  | msg (m : Msg) (env : Env) (w : Nat) : OtherCode (.msg m env) (.msg m { env with word32 := w })
  | crash (m : Msg) (env : Env) (w k : Nat) (newKey : Bytes) : OtherCode (.crash m env k newKey) (.crash m { env with word32 := w } k newKey)
  | restart (newKey : Bytes) : OtherCode (.restart newKey) (.restart newKey)

/-- in none of these steps the right code is given for a request whose id is in `P`: no authentic CHALLENGE for the pin
or email challenge carries the code that such a request waits for -/
def NoRightCode (C : Crypto) (S : StoreI σ) (cfg : CaConfig) (P : RequestId → Prop) (h : List (Step σ)) : Prop :=
  ∀ n ∈ h, ∀ i env r es k cs code, P r.requestId → Challenges C S cfg n i env r es k → k = .pin ∨ k = .email → AwaitsCode r cs code → ¬ Gives es code

/-- the key with which the process of this execution was first started -/
def startKey (h : List (Step σ)) (s : CaState σ) : Bytes :=
  match h with
  | [] => s.idKey
  | n :: _ => n.pre.idKey

/-- how the step ends, or would have ended had it not been killed -/
def Step.ends (C : Crypto) (S : StoreI σ) (cfg : CaConfig) (n : Step σ) : Option Term :=
  n.event.msg?.map (fun x => (handle C S cfg n.pre x.1 x.2).term)

/-- the two steps do the same, except for the code in an email, in the storage and in what is passed to the callback -/
structure SameButCode (C : Crypto) (S : StoreI σ) (cfg : CaConfig) (n n' : Step σ) : Prop where
  sent : sent n.effects = sent n'.effects
  issued : issued n.effects = issued n'.effects
  mailed : (mailed n.effects).map Mail.hidden = (mailed n'.effects).map Mail.hidden
  callbacks : (callbacks n.effects).map RequestState.hidden = (callbacks n'.effects).map RequestState.hidden
  ends : n.ends C S cfg = n'.ends C S cfg

end Ndncert
