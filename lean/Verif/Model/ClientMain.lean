import Verif.Model.Options
import Verif.Model.Client
import Verif.Model.Uri

/-! # ndncert-client from its command line on (tools/ndncert-client.cpp:619-654) -/

namespace Ndncert

/-- `main` of ndncert-client up to the event loop (ndncert-client.cpp:627-651); `files`: what can be read at a path. A file that cannot be read is an
exception of `read_json`, which `selectCaProfile` catches (ndncert-client.cpp:429-435, profile-storage.cpp:30-35). -/
def clientMain (T : TextIO) (sysconf : Bytes) (files : Bytes → Option Bytes) (args : List Bytes) (c : Client) : ClientOut :=
  match clientOptions sysconf args with
  | .exit n => { st := c, ended := .exit n }
  | .run config =>
    match files config with
    | none => { st := c, ended := .exit 1 }
    | some file => selectCaProfile T file c

/-- A run of the program: `main` with a command line, and then the callbacks as long as the program runs (ndncert-client.cpp:619-654). -/
inductive ClientProgram (C : Crypto) (T : TextIO) (sysconf : Bytes) (files : Bytes → Option Bytes) (args : List Bytes) (pib : Pib) (stdin : List Bytes) :
    List Act → List ClientStep → Client → Ended → Prop
  | start (o : ClientOut) (eq : clientMain T sysconf files args { pib := pib, stdin := stdin } = o) :
      ClientProgram C T sysconf files args pib stdin o.acts [] o.st o.ended
  | step {first : List Act} {h : List ClientStep} {c : Client} (e : ClientEvent) (env : ClientEnv)
      (run : ClientProgram C T sysconf files args pib stdin first h c .going) (o : ClientOut) (eq : c.step C env e = o) :
      ClientProgram C T sysconf files args pib stdin first (h ++ [⟨e, env, o.acts, o.ended⟩]) o.st o.ended

end Ndncert
