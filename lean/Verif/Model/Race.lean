import Verif.Model.Ca

/-! # CA processes that run at the same time on one database

Nothing keeps a second process from opening the database of a CA (src/detail/ca-sqlite.cpp:79-122 takes no lock), so a CA can be started twice.
Each statement is atomic, a handler is not. `onChallenge` reads the request at its beginning (src/ca-module.cpp:375) and updates or deletes
it later (ca-module.cpp:416-458); in between the other processes go on.

Statements fail when another process holds the lock of the file (SQLITE_BUSY). `deleteRequest` does not look at the result of its statement
(ca-sqlite.cpp:293-300): that is `lost` below. An UPDATE that fails is followed by an INSERT, which fails too, and the exception ends the process
(ca-sqlite.cpp:223-225): that is `kill`. Simplified: SELECT and INSERT do not fail for this reason. -/

namespace Ndncert

/-- a handler at work: the Interest it handles, its surroundings, the database when it read it, what it has still to do, and how it will end -/
structure Work where
  msg : Msg
  env : Env
  seen : Db
  todo : List Effect
  term : Term

/-- a CA process: its configuration, its key for request ids, and the handler it executes. A process has one thread. -/
structure Proc where
  cfg : CaConfig
  idKey : Bytes
  work : Option Work := none

structure RaceState where
  db : Db
  procs : List Proc

/-- one effect that happened: which process had it, and what it was doing -/
structure Done where
  proc : Nat
  cfg : CaConfig
  idKey : Bytes
  msg : Msg
  env : Env
  seen : Db
  effect : Effect

/-- `onChallenge` reads the database before its effects. The other handlers have at most one statement for the database, the insertion of a
new request, on whose success they depend (ca-module.cpp:343-350). -/
def Msg.readsFirst : Msg → Bool
  | .challenge _ => true
  | _ => false

/-- the effects a handler has in the moment in which it looks at the database -/
def atOnce (m : Msg) (o : Outcome) : List Effect := if m.readsFirst then [] else o.effects

/-- the effects a handler has later -/
def later (m : Msg) (o : Outcome) : List Effect := if m.readsFirst then o.effects else []

/-- a process of this number is told what it does from now on -/
def RaceState.set (s : RaceState) (p : Nat) (x : Proc) (db : Db) : RaceState := ⟨db, s.procs.set p x⟩

/-- Executions of processes on one database that was empty at first: all effects that happened, in this order, and the state reached. -/
inductive RaceExec (C : Crypto) : List Done → RaceState → Prop where
  | init (procs : List Proc) (fits : ∀ x ∈ procs, NameFits x.cfg.profile.caPrefix) (idle : ∀ x ∈ procs, x.work = none) :
      RaceExec C [] ⟨[], procs⟩
  /-- an idle process begins to handle an Interest -/
  | start {log : List Done} {s : RaceState} (p : Nat) (x : Proc) (m : Msg) (env : Env) (prev : RaceExec C log s)
      (here : s.procs[p]? = some x) (idle : x.work = none) (wf : m.Wf x.cfg) (ewf : env.Wf) :
      RaceExec C (log ++ (atOnce m (handle C (sqlStore C) x.cfg ⟨s.db, x.idKey⟩ m env)).map (fun e => ⟨p, x.cfg, x.idKey, m, env, s.db, e⟩))
        (s.set p { x with work := some ⟨m, env, s.db, later m (handle C (sqlStore C) x.cfg ⟨s.db, x.idKey⟩ m env),
            (handle C (sqlStore C) x.cfg ⟨s.db, x.idKey⟩ m env).term⟩ }
          (applyEffects (sqlStore C) s.db (atOnce m (handle C (sqlStore C) x.cfg ⟨s.db, x.idKey⟩ m env))))
  /-- a handler goes on with its next effect -/
  | act {log : List Done} {s : RaceState} (p : Nat) (x : Proc) (w : Work) (e : Effect) (es : List Effect) (prev : RaceExec C log s)
      (here : s.procs[p]? = some x) (busy : x.work = some w) (next : w.todo = e :: es) :
      RaceExec C (log ++ [⟨p, x.cfg, x.idKey, w.msg, w.env, w.seen, e⟩])
        (s.set p { x with work := some { w with todo := es } } (applyEffect (sqlStore C) s.db e))
  /-- the statement that removes a request fails, unnoticed -/
  | lost {log : List Done} {s : RaceState} (p : Nat) (x : Proc) (w : Work) (id : RequestId) (es : List Effect) (prev : RaceExec C log s)
      (here : s.procs[p]? = some x) (busy : x.work = some w) (next : w.todo = .dbDelete id :: es) :
      RaceExec C log (s.set p { x with work := some { w with todo := es } } s.db)
  /-- a handler returns -/
  | finish {log : List Done} {s : RaceState} (p : Nat) (x : Proc) (w : Work) (prev : RaceExec C log s)
      (here : s.procs[p]? = some x) (busy : x.work = some w) (last : w.todo = []) (term : w.term = .done) :
      RaceExec C log (s.set p { x with work := none } s.db)
  /-- a process dies, at whatever point, and is started again with another key for request ids and perhaps another configuration -/
  | kill {log : List Done} {s : RaceState} (p : Nat) (x : Proc) (cfg : CaConfig) (idKey : Bytes) (prev : RaceExec C log s)
      (here : s.procs[p]? = some x) (fits : NameFits cfg.profile.caPrefix) :
      RaceExec C log (s.set p { cfg := cfg, idKey := idKey } s.db)

end Ndncert
