import Verif.Spec.Session
import Verif.Spec.Order
import Verif.Spec.Client
import Verif.Model.Face

/-! # The command line client and the CA server talking to each other

Each exchange is the Interest which the client's last callback expressed, everything the CA server (without repo) does and sends for
it, and the client's callback for the Data that satisfies the Interest. The network delivers every packet once. -/

namespace Ndncert

variable {σ : Type}

/-- the two programs: the client after its last callback, the CA module and the server around it, and what the CA did for
this client so far -/
structure Tools (σ : Type) where
  out : ClientOut
  ca : CaState σ
  server : Server
  done : List Effect := []

/-- what an exchange depends on besides the states of the two programs -/
structure Exchange where
  /-- messages of other parties which the CA handles before the client's Interest -/
  others : List (Msg × Env) := []
  /-- surroundings of the CA's handler -/
  env : Env
  /-- version of the metadata, if they are asked for -/
  metaVersion : Block := ⟨54, [1]⟩
  /-- the packet that carries a reply other than a certificate -/
  packet : Block := ⟨6, []⟩
  /-- surroundings of the client's callback -/
  client : ClientEnv

/-- the Interest the client expresses -/
def Act.interest : Act → Option Interest
  | .discovery n => some ⟨n, none, []⟩
  | .profile n => some ⟨n, none, []⟩
  | .fetch n _ => some ⟨n, none, []⟩
  | .probe _ i => some i
  | .new _ i => some i
  | .challenge _ i => some i
  | .asked _ _ => none
  | .install _ => none

/-- the Data satisfies the Interest `i` expressed by this act: it has the name of the Interest or, for the metadata
(CanBePrefix), a longer one. A certificate may also be asked for by its full name. -/
def Act.satisfied (a : Act) (i : Interest) (r : Reply) : Bool :=
  match a, r with
  | .discovery _, .data d => isPrefixOf i.name d.name
  | .discovery _, .cert c => isPrefixOf i.name (fullNameOf c)
  | _, .data d => decide (i.name = d.name)
  | _, .cert c => decide (i.name = c.name) || decide (i.name = (fullNameOf c))

/-- how the client gets the Data -/
def Reply.event (packet : Block) : Reply → ClientEvent
  | .data d => .reply d packet
  | .cert c => .reply ⟨c.name, ⟨T.Content, c.content.getD []⟩, []⟩ c.wire

/-- the status callbacks among the effects of a handler reach the server (without repo) -/
def Server.hears (sv : Server) (es : List Effect) : Server :=
  es.foldl (fun sv x => match x with | .callback r => sv.onStatus false r | _ => sv) sv

/-- the server after the CA handled messages one after the other -/
def listen (C : Crypto) (S : StoreI σ) (cfg : CaConfig) (s : CaState σ) (sv : Server) : List (Msg × Env) → Server
  | [] => sv
  | (m, env) :: ms => listen C S cfg { s with store := applyEffects S s.store (handle C S cfg s m env).effects }
      (sv.hears (handle C S cfg s m env).effects) ms

/-- the handlers called for the Interest, except that for discovery, and how each ends -/
def handlings (C : Crypto) (S : StoreI σ) (cfg : CaConfig) (s : CaState σ) (i : Interest) (env : Env) : List Outcome :=
  (dispatch cfg.profile i.name).filterMap (fun h => (h.msg i).map (fun m => handle C S cfg s m env))

/-- one exchange; it fails if the client ended or expressed no Interest, if the CA process does not survive the Interest, and
if it does not send exactly one Data that satisfies it -/
def exchange (C : Crypto) (S : StoreI σ) (cfg : CaConfig) (x : Tools σ) (e : Exchange) : Ran (Tools σ) :=
  if survives C S cfg x.ca e.others then
    let s := serve C S cfg x.ca e.others
    let sv := listen C S cfg x.ca x.server e.others
    match x.out.ended, x.out.acts.getLast? with
    | .going, some a =>
      match a.interest with
      | some i =>
        let os := handlings C S cfg s i e.env
        let es := os.flatMap (·.effects)
        match os.all (fun o => decide (o.term = .done)), (serverSends C S cfg s sv e.metaVersion i e.env).filter (a.satisfied i) with
        | true, [r] => .ok { out := x.out.st.step C e.client (r.event e.packet), ca := { s with store := applyEffects S s.store es },
                             server := sv.hears es, done := x.done ++ es }
        | _, _ => .failed
      | none => .failed
    | _, _ => .failed
  else .died

/-- several exchanges -/
def exchanges (C : Crypto) (S : StoreI σ) (cfg : CaConfig) : Tools σ → List Exchange → Ran (Tools σ)
  | x, [] => .ok x
  | x, e :: es =>
    match exchange C S cfg x e with
    | .ok y => exchanges C S cfg y es
    | .failed => .failed
    | .died => .died

/-- The answers to the questions of a CA that asks for `keys`, given the lines typed: the questions come in the order of a
multimap, and the answer to the first one called email is put in lower case. -/
structure Typed (keys lines : List Bytes) (m : MMap) : Prop where
  sorted : m.InOrder
  keys : (m.map (·.1)).Perm keys
  count : lines.length = m.length
  values : ∀ (j : Nat) (e : Bytes × Bytes) (l : Bytes), m[j]? = some e → lines[j]? = some l →
    e.2 = if e.1 = (bytes! "email") ∧ (bytes! "email") ∉ (m.take j).map (·.1) then toLower l else l

/-- the validity period in hours: the number typed in one of the next three lines, the lines before it being no numbers; `rest` are the
lines left -/
inductive Hours (lines : List Bytes) : Int → List Bytes → Prop
  | typed {skipped rest : List Bytes} {line : Bytes} {n : Nat} (next : lines = skipped ++ line :: rest) (tries : skipped.length ≤ 2)
      (number : StandsFor line n) (small : n < 2 ^ 31) (no : ∀ l ∈ skipped, ∀ k, ¬ StandsFor l k) : Hours lines n rest

/-- The key to apply with is `<id>/KEY/<key id>`: the key of a new identity, or an existing key of an identity whose number is
typed, or a new key of this identity. `draws` and `draws2` are the key ids drawn at random, `rest` the lines left. -/
inductive Keyed (pib : Pib) (id : Name) (draws draws2 : List Block) : List Bytes → Block → List Bytes → Prop
  | identity {keyId : Block} {rest : List Bytes} (absent : pib.get id = none) (drawn : draws.head? = some keyId) :
      Keyed pib id draws draws2 rest keyId rest
  | own {e : IdEntry} {keyId : Block} {d : Name} {line : Bytes} {rest : List Bytes} {j : Nat} (present : pib.get id = some e) (dflt : e.dflt = some d)
      (notNew : toLower line ≠ (bytes! "new")) (number : StandsFor line j) (key : e.keys[j]? = some (id ++ [keyComponent, keyId])) :
      Keyed pib id draws draws2 (line :: rest) keyId rest
  | new {e : IdEntry} {keyId : Block} {d : Name} {line : Bytes} {rest : List Bytes} (present : pib.get id = some e) (dflt : e.dflt = some d)
      (asked : toLower line = (bytes! "new")) (drawn : draws2.head? = some keyId) (unused : id ++ [keyComponent, keyId] ∉ e.keys) :
      Keyed pib id draws draws2 (line :: rest) keyId rest

/-- the turn of the requester behind an exchange; the client draws its random octets in the callback before it -/
def Exchange.turn (prev : ClientEnv) (e : Exchange) : Turn := { others := e.others, env := e.env, rnd := prev.rnd, clock := e.client.now }

/-- the turns behind exchanges that follow one upon another -/
def turnsOf : ClientEnv → List Exchange → List Turn
  | _, [] => []
  | prev, e :: es => e.turn prev :: turnsOf e.client es

end Ndncert
