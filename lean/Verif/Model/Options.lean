import Verif.Model.Assign

/-! # The command lines of the tools (tools/ndncert-ca-server.cpp:76-122, tools/ndncert-ca-status.cpp:34-63, tools/ndncert-client.cpp:627-649)

`boost::program_options` is not in /repo. Modelled is what its `cmdline`, `store` and `notify` do in the default style of `parse_command_line`
and `command_line_parser` (long options with `=` or a separate value, unambiguous beginnings of long names, short options with adjacent or
separate value, grouped short options, `--`), for options without value (`po::options_description::add_options()("help,h", …)`) and with one
string value. Every error it throws is `none`: the tools print its text and exit. -/

namespace Ndncert

/-- a described option: its long name, its short one, and whether it has a value -/
structure OptDesc where
  long : Bytes
  short : Option UInt8
  value : Bool

/-- `option_description::match`: the name is the long name, or the short one with its dash -/
def OptDesc.full (d : OptDesc) (n : Bytes) : Bool := n == d.long || d.short.any (fun c => n == [45, c])

/-- `option_description::match` with `approx`: the long name begins with it -/
def OptDesc.near (d : OptDesc) (n : Bytes) : Bool := n.isPrefixOf d.long

/-- `options_description::find_nothrow` with guessing; `none`: nothing matches, or more than one -/
def optLookup (ds : List OptDesc) (n : Bytes) : Option OptDesc :=
  match ds.filter (·.full n) with
  | [d] => some d
  | [] =>
    match ds.filter (·.near n) with
    | [d] => some d
    | _ => none
  | _ => none

/-- an option as found on the command line: its name, and its values; a word that is no option has the empty name -/
abbrev RawOpt := Bytes × List Bytes

/-- `cmdline::parse_short_option`: what follows an option without value is taken for further ones -/
def shortLoop (ds : List OptDesc) (c : UInt8) : Bytes → List RawOpt
  | [] => [([45, c], [])]
  | a :: rest =>
    match ds.find? (·.full [45, c]) with
    | some d => if d.value then [([45, c], [a :: rest])] else ([45, c], []) :: shortLoop ds a rest
    | none => [([45, c], [a :: rest])]

/-- what the style parsers make of one token: no option; an error; options; or the end of all options -/
inductive TokenShape where
  | word
  | bad
  | opts (os : List RawOpt)
  | stop

/-- `parse_long_option`, `parse_short_option` and `parse_terminator`, in this order -/
def tokenShape (ds : List OptDesc) (t : Bytes) : TokenShape :=
  match t with
  | 45 :: 45 :: [] => .stop
  | 45 :: 45 :: n =>
    match splitFirst 61 n with
    | some (n, v) => if v = [] then .bad else .opts [(n, [v])]
    | none => .opts [(n, [])]
  | 45 :: c :: adj => .opts (shortLoop ds c adj)
  | _ => .word

/-- `cmdline::finish_option`, its first half: the option is known and its value, if any, is allowed. `.inr`: it needs the next token. -/
def finishOption (ds : List OptDesc) (o : RawOpt) : Option (RawOpt ⊕ Bytes) :=
  if o.1 = [] then some (.inl o)
  else
    match optLookup ds o.1 with
    | none => none
    | some d =>
      if d.value then (if o.2 = [] then some (.inr d.long) else some (.inl (d.long, o.2)))
      else (if o.2 = [] then some (.inl (d.long, [])) else none)

/-- the options of one token (`cmdline::run`): only the last one may take the next token -/
def finishAll (ds : List OptDesc) : List RawOpt → Option (List RawOpt × Option Bytes)
  | [] => some ([], none)
  | [o] =>
    match finishOption ds o with
    | some (.inl o) => some ([o], none)
    | some (.inr k) => some ([], some k)
    | none => none
  | o :: os =>
    match finishOption ds o with
    | some (.inl o) => (finishAll ds os).map (fun r => (o :: r.1, r.2))
    | _ => none

/-- `cmdline::finish_option`, its second half: a token that looks like an option and is a known one is no value -/
def takesValue (ds : List OptDesc) (t : Bytes) : Bool :=
  match tokenShape ds t with
  | .bad => false
  | .opts _ => !(ds.any (fun d => d.full t || d.near t))
  | _ => true

/-- `cmdline::run`: `wait` is the option that needs the next token -/
def parseArgs (ds : List OptDesc) : (wait : Option Bytes) → List Bytes → Option (List RawOpt)
  | none, [] => some []
  | some _, [] => none
  | some k, t :: ts => if takesValue ds t then (parseArgs ds none ts).map ((k, [t]) :: ·) else none
  | none, t :: ts =>
    match tokenShape ds t with
    | .word => (parseArgs ds none ts).map (([], [t]) :: ·)
    | .bad => none
    | .stop => some (ts.map (fun w => ([], [w])))
    | .opts os =>
      match finishAll ds os with
      | none => none
      | some (done, wait) => (parseArgs ds wait ts).map (done ++ ·)

/-- the words that are no options get the name of the positional option, if there is one; `none`: too many of them -/
def namePositional : (names : List Bytes) → List RawOpt → Option (List RawOpt)
  | _, [] => some []
  | names, o :: os =>
    if o.1 = [] then
      match names with
      | [] => none
      | k :: names => (namePositional names os).map ((k, o.2) :: ·)
    else (namePositional names os).map (o :: ·)

/-- `po::store`: words without a name are ignored, and an option may be given once -/
def storeOpts : (vm : List (Bytes × Bytes)) → List RawOpt → Option (List (Bytes × Bytes))
  | vm, [] => some vm
  | vm, o :: os =>
    if o.1 = [] then storeOpts vm os
    else if vm.any (fun e => e.1 == o.1) then none
    else storeOpts (vm ++ [(o.1, o.2.headD [])]) os

/-- a variable after `po::notify`: the value given, or the default -/
def optValue (vm : List (Bytes × Bytes)) (key dflt : Bytes) : Bytes := ((vm.find? (fun e => e.1 == key)).map (·.2)).getD dflt

/-- `vm.count(key)` -/
def optGiven (vm : List (Bytes × Bytes)) (key : Bytes) : Bool := vm.any (fun e => e.1 == key)

/-! ## ndncert-ca-server -/

/-- the options of the server (ndncert-ca-server.cpp:87-94) -/
def serverDescs : List OptDesc :=
  [⟨bytes! "help", some 104, false⟩, ⟨bytes! "config-file", some 99, true⟩, ⟨bytes! "repo-host", some 72, true⟩,
   ⟨bytes! "repo-port", some 80, true⟩]

/-- what `main` of the server goes on with: an exit status, or the path of the configuration file and the address of the repo -/
inductive ServerChoice where
  | exit (status : Nat)
  | run (configFile repoHost repoPort : Bytes)
  deriving DecidableEq

/-- `main` of the server until the CA is created (ndncert-ca-server.cpp:83-122); `sysconf` is `NDNCERT_SYSCONFDIR` -/
def serverOptions (sysconf : Bytes) (args : List Bytes) : ServerChoice :=
  match (parseArgs serverDescs none args).bind (storeOpts []) with
  | none => .exit 2
  | some vm =>
    if optGiven vm (bytes! "help") then .exit 0
    else .run (optValue vm (bytes! "config-file") (sysconf ++ bytes! "/ndncert/ca.conf")) (optValue vm (bytes! "repo-host") [])
      (optValue vm (bytes! "repo-port") (bytes! "7376"))

/-! ## ndncert-ca-status -/

/-- the options of the status tool (ndncert-ca-status.cpp:42-44) -/
def statusDescs : List OptDesc := [⟨bytes! "help", some 104, false⟩, ⟨bytes! "caName", none, true⟩]

/-- what `main` of the status tool goes on with: an exit status, or the name of the CA -/
inductive StatusChoice where
  | exit (status : Nat)
  | list (caName : Bytes)
  deriving DecidableEq

/-- `main` of the status tool until the storage is opened (ndncert-ca-status.cpp:37-63) -/
def statusOptions (args : List Bytes) : StatusChoice :=
  match ((parseArgs statusDescs none args).bind (namePositional [bytes! "caName"])).bind (storeOpts []) with
  | none => .exit 1
  | some vm =>
    if optGiven vm (bytes! "help") then .exit 0
    else if optGiven vm (bytes! "caName") then .list (optValue vm (bytes! "caName") [])
    else .exit 2

/-! ## ndncert-client -/

/-- the options of the client (ndncert-client.cpp:629-633) -/
def clientDescs : List OptDesc := [⟨bytes! "help", some 104, false⟩, ⟨bytes! "config-file", some 99, true⟩]

/-- what `main` of the client goes on with: an exit status, or the path of the configuration file -/
inductive ClientChoice where
  | exit (status : Nat)
  | run (configFile : Bytes)
  deriving DecidableEq

/-- `main` of the client until a CA is selected (ndncert-client.cpp:627-649); there are no positional options, so a word is a mistake -/
def clientOptions (sysconf : Bytes) (args : List Bytes) : ClientChoice :=
  match ((parseArgs clientDescs none args).bind (namePositional [])).bind (storeOpts []) with
  | none => .exit 1
  | some vm =>
    if optGiven vm (bytes! "help") then .exit 0
    else .run (optValue vm (bytes! "config-file") (sysconf ++ bytes! "/ndncert/client.conf"))

end Ndncert
