import Verif.Model.Race
import Verif.Spec.History
import Verif.Spec.Run

/-! # Vocabulary and concrete executions for processes that run at the same time -/

namespace Ndncert

/-- the effect is the acceptance of the NEW Interest `i`, which created the pending request `r` -/
def Done.AcceptsNew (d : Done) (i : Interest) (r : RequestState) : Prop := d.msg = .new i ∧ d.effect = .dbAdd r

/-- the process had this effect because of a CHALLENGE Interest, authentic for the request `r` it had found in the database, whose
parameters decrypt to the elements `es` and select the challenge `k` -/
structure Done.Challenges (C : Crypto) (d : Done) (i : Interest) (r : RequestState) (es : List Block) (k : ChalKind) : Prop where
  handles : d.msg = .challenge i
  authentic : Authentic C (sqlStore C) d.cfg d.seen i d.env r
  selects : Selects C i r es k

/-- the effect is the storing of challenge `k`, started for the request `r` that had none -/
structure Done.Starts (C : Crypto) (d : Done) (i : Interest) (r : RequestState) (k : ChalKind) : Prop where
  challenges : ∃ es, d.Challenges C i r es k
  before : r.status = .beforeChallenge
  stored : ∃ r1, d.effect = .dbUpdate r1 ∧ r1.requestId = r.requestId ∧ r1.challengeType = k.chalType

/-- a process answered a CHALLENGE Interest with this code, for a request that was waiting for one -/
def Done.ChecksCode (C : Crypto) (d : Done) (code : Bytes) : Prop :=
  ∃ i r es k cs right, d.Challenges C i r es k ∧ AwaitsCode r cs right ∧ Gives es code ∧ ∃ reply, d.effect = .put reply

/-- the certificates signed -/
def signedCerts (log : List Done) : List Cert := log.filterMap (fun d => match d.effect with | .issue c => some c | _ => none)

/-- the requests created -/
def created (log : List Done) : List RequestState := log.filterMap (fun d => match d.effect with | .dbAdd r => some r | _ => none)

/-! ## Running a list of moves -/

inductive Move where
  | start (p : Nat) (m : Msg) (env : Env)
  | act (p : Nat)
  | lost (p : Nat)
  | finish (p : Nat)

/-- one move, if it is possible -/
def move (C : Crypto) (log : List Done) (s : RaceState) : Move → Option (List Done × RaceState)
  | .start p m env =>
    match s.procs[p]? with
    | some x =>
      if x.work.isNone && msgOk x.cfg m && envOk env then
        some (log ++ (atOnce m (handle C (sqlStore C) x.cfg ⟨s.db, x.idKey⟩ m env)).map (fun e => ⟨p, x.cfg, x.idKey, m, env, s.db, e⟩),
          s.set p { x with work := some ⟨m, env, s.db, later m (handle C (sqlStore C) x.cfg ⟨s.db, x.idKey⟩ m env),
              (handle C (sqlStore C) x.cfg ⟨s.db, x.idKey⟩ m env).term⟩ }
            (applyEffects (sqlStore C) s.db (atOnce m (handle C (sqlStore C) x.cfg ⟨s.db, x.idKey⟩ m env))))
      else none
    | none => none
  | .act p =>
    match s.procs[p]? with
    | some x => match x.work with
      | some w => match w.todo with
        | e :: es => some (log ++ [⟨p, x.cfg, x.idKey, w.msg, w.env, w.seen, e⟩],
            s.set p { x with work := some { w with todo := es } } (applyEffect (sqlStore C) s.db e))
        | [] => none
      | none => none
    | none => none
  | .lost p =>
    match s.procs[p]? with
    | some x => match x.work with
      | some w => match w.todo with
        | .dbDelete _ :: es => some (log, s.set p { x with work := some { w with todo := es } } s.db)
        | _ => none
      | none => none
    | none => none
  | .finish p =>
    match s.procs[p]? with
    | some x => match x.work with
      | some w => if w.todo.isEmpty && decide (w.term = .done) then some (log, s.set p { x with work := none } s.db) else none
      | none => none
    | none => none

def moves (C : Crypto) : List Done → RaceState → List Move → Option (List Done × RaceState)
  | log, s, [] => some (log, s)
  | log, s, m :: ms => match move C log s m with
    | some (log', s') => moves C log' s' ms
    | none => none

theorem move_exec {C : Crypto} {log log' : List Done} {s s' : RaceState} {m : Move} (hx : RaceExec C log s)
    (h : move C log s m = some (log', s')) : RaceExec C log' s' := by
  cases m with
  | start p m env =>
    unfold move at h
    dsimp only at h
    split at h
    · rename_i x hp
      split at h
      · rename_i hc
        simp only [Bool.and_eq_true, Option.isNone_iff_eq_none] at hc
        simp only [Option.some.injEq, Prod.mk.injEq] at h
        obtain ⟨rfl, rfl⟩ := h
        exact .start p x m env hx hp hc.1.1 (msgOk_wf hc.1.2) (envOk_wf hc.2)
      · cases h
    · cases h
  | act p =>
    unfold move at h
    dsimp only at h
    split at h
    · rename_i x hp
      split at h
      · rename_i w hw
        split at h
        · rename_i e es ht
          simp only [Option.some.injEq, Prod.mk.injEq] at h
          obtain ⟨rfl, rfl⟩ := h
          exact .act p x w e es hx hp hw ht
        · cases h
      · cases h
    · cases h
  | lost p =>
    unfold move at h
    dsimp only at h
    split at h
    · rename_i x hp
      split at h
      · rename_i w hw
        split at h
        · rename_i id es ht
          simp only [Option.some.injEq, Prod.mk.injEq] at h
          obtain ⟨rfl, rfl⟩ := h
          exact .lost p x w id es hx hp hw ht
        · cases h
      · cases h
    · cases h
  | finish p =>
    unfold move at h
    dsimp only at h
    split at h
    · rename_i x hp
      split at h
      · rename_i w hw
        split at h
        · rename_i hc
          simp only [Bool.and_eq_true, List.isEmpty_iff, decide_eq_true_eq] at hc
          simp only [Option.some.injEq, Prod.mk.injEq] at h
          obtain ⟨rfl, rfl⟩ := h
          exact .finish p x w hx hp hw hc.1 hc.2
        · cases h
      · cases h
    · cases h

theorem moves_exec {C : Crypto} : ∀ (ms : List Move) {log log' : List Done} {s s' : RaceState}, RaceExec C log s →
    moves C log s ms = some (log', s') → RaceExec C log' s'
  | [], log, log', s, s', hx, h => by
    simp only [moves, Option.some.injEq, Prod.mk.injEq] at h
    obtain ⟨rfl, rfl⟩ := h
    exact hx
  | m :: ms, log, log', s, s', hx, h => by
    unfold moves at h
    split at h
    · rename_i log1 s1 h1
      exact moves_exec ms (move_exec hx h1) h
    · cases h

namespace Fix

/-- two processes of one CA -/
def twins : RaceState := ⟨[], [⟨cfg, idKey, none⟩, ⟨cfg, List.replicate 32 9, none⟩]⟩

theorem twins_exec : RaceExec C [] twins :=
  .init _ (by intro x hx; simp only [List.mem_cons, List.not_mem_nil, or_false] at hx; rcases hx with rfl | rfl <;> exact cfg_fits)
    (by intro x hx; simp only [List.mem_cons, List.not_mem_nil, or_false] at hx; rcases hx with rfl | rfl <;> rfl)

/-- a handler from its beginning to its end, `n` effects after the first look at the database -/
def whole (p : Nat) (m : Msg) (env : Env) (n : Nat) : List Move := .start p m env :: List.replicate n (.act p) ++ [.finish p]

/-- NEW, start of the pin challenge, wrong code: all at the first process; then the right code reaches both at once -/
def doubleMoves : List Move :=
  whole 0 (.new newInterest) env1 0 ++ whole 0 (.challenge chal1) env2 3 ++ whole 0 (.challenge chal2) env3 3 ++
    [.start 0 (.challenge chal3) env4, .start 1 (.challenge chal3) (env 1004)] ++ List.replicate 4 (.act 0) ++ List.replicate 4 (.act 1) ++
    [.finish 0, .finish 1]

/-- the elements that give a code for the pin challenge -/
def guessed (code : Bytes) : List Block :=
  [binBlock T.SelectedChallenge (bytes! "pin"), binBlock T.ParameterKey KEY_CODE, binBlock T.ParameterValue code]

/-- a code for the pin challenge, sent with the secrets of the requester in this state -/
def guess (r : Request) (code : Bytes) : Interest := sealed r (guessed code)

/-- two Interests handled at the same time, each with `n` effects -/
def both (a b : Interest) (env : Env) (n : Nat) : List Move :=
  [.start 0 (.challenge a) env, .start 1 (.challenge b) env] ++ List.replicate n (.act 0) ++ List.replicate n (.act 1) ++ [.finish 0, .finish 1]

/-- six codes, two at a time -/
def sixMoves : List Move :=
  whole 0 (.new newInterest) env1 0 ++ whole 0 (.challenge chal1) env2 3 ++
    both (guess req2 (bytes! "000001")) (guess req2 (bytes! "000002")) env3 3 ++
    both (guess req3 (bytes! "000003")) (guess req3 (bytes! "000004")) env4 3 ++
    both (guess req4 (bytes! "000005")) (guess req4 (bytes! "000006")) (env 1004) 2

def sixCodes : List Bytes := [bytes! "000001", bytes! "000002", bytes! "000003", bytes! "000004", bytes! "000005", bytes! "000006"]

/-- one process; the statement that removes the request fails, and the right code is sent once more -/
def lostMoves : List Move :=
  whole 0 (.new newInterest) env1 0 ++ whole 0 (.challenge chal1) env2 3 ++ whole 0 (.challenge chal2) env3 3 ++
    [.start 0 (.challenge chal3) env4, .act 0, .lost 0, .act 0, .act 0, .finish 0] ++ whole 0 (.challenge chal3) (env 1004) 4

end Fix
end Ndncert
