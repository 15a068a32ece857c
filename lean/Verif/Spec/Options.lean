import Verif.Model.Options

/-! # What a command line says -/

namespace Ndncert

/-- two dashes -/
def dashes : Bytes := [45, 45]

/-- the name stands for the option: it is its long name, or its short one with the dash, or the beginning of its long name and of no other -/
def OptNamed (ds : List OptDesc) (n : Bytes) (d : OptDesc) : Prop :=
  d ∈ ds ∧ (n = d.long ∨ (∃ c, d.short = some c ∧ n = [45, c]) ∨ n <+: d.long ∧ ∀ e ∈ ds, n <+: e.long → e = d)

/-- the word is no option: it does not begin with a dash, or is nothing but a dash -/
def NoOption (w : Bytes) : Prop := w.head? ≠ some 45 ∨ w = [45]

/-- the word can be the value of the option before it: it is not one of the short options, nor a long one with an empty value -/
def CanBeValue (ds : List OptDesc) (w : Bytes) : Prop :=
  (∀ d ∈ ds, ∀ c, d.short = some c → w ≠ [45, c]) ∧ ∀ n : Bytes, (61 : UInt8) ∉ n → w ≠ dashes ++ n ++ [61]

/-- The command line `args` gives these options with these values, in order, and besides these words. -/
inductive LineSays (ds : List OptDesc) : List Bytes → List (Bytes × Bytes) → List Bytes → Prop where
  | nil : LineSays ds [] [] []
  /-- `-- word word` -/
  | rest (ws : List Bytes) : LineSays ds (dashes :: ws) [] ws
  /-- `word` -/
  | word {w : Bytes} {args os ws} : NoOption w → LineSays ds args os ws → LineSays ds (w :: args) os (w :: ws)
  /-- `--=word` -/
  | anonymous {w : Bytes} {args os ws} : w ≠ [] → LineSays ds args os ws → LineSays ds ((dashes ++ 61 :: w) :: args) os (w :: ws)
  /-- `--name` -/
  | flag {n : Bytes} {d : OptDesc} {args os ws} : OptNamed ds n d → d.value = false → n ≠ [] → (61 : UInt8) ∉ n → LineSays ds args os ws →
      LineSays ds ((dashes ++ n) :: args) ((d.long, []) :: os) ws
  /-- `-n` -/
  | short {c : UInt8} {d : OptDesc} {args os ws} : d ∈ ds → d.short = some c → d.value = false → LineSays ds args os ws →
      LineSays ds ([45, c] :: args) ((d.long, []) :: os) ws
  /-- `-nxyz` is `-n -xyz` -/
  | group {c x : UInt8} {xs : Bytes} {d : OptDesc} {args os ws} : d ∈ ds → d.short = some c → d.value = false → x ≠ 45 →
      LineSays ds ((45 :: x :: xs) :: args) os ws → LineSays ds ((45 :: c :: x :: xs) :: args) ((d.long, []) :: os) ws
  /-- `--name=value` -/
  | joined {n v : Bytes} {d : OptDesc} {args os ws} : OptNamed ds n d → d.value = true → n ≠ [] → (61 : UInt8) ∉ n → v ≠ [] →
      LineSays ds args os ws → LineSays ds ((dashes ++ n ++ 61 :: v) :: args) ((d.long, v) :: os) ws
  /-- `--name value` -/
  | apart {n v : Bytes} {d : OptDesc} {args os ws} : OptNamed ds n d → d.value = true → n ≠ [] → (61 : UInt8) ∉ n → CanBeValue ds v →
      LineSays ds args os ws → LineSays ds ((dashes ++ n) :: v :: args) ((d.long, v) :: os) ws
  /-- `-nvalue` -/
  | shortJoined {c : UInt8} {v : Bytes} {d : OptDesc} {args os ws} : d ∈ ds → d.short = some c → d.value = true → v ≠ [] →
      LineSays ds args os ws → LineSays ds ((45 :: c :: v) :: args) ((d.long, v) :: os) ws
  /-- `-n value` -/
  | shortApart {c : UInt8} {v : Bytes} {d : OptDesc} {args os ws} : d ∈ ds → d.short = some c → d.value = true → CanBeValue ds v →
      LineSays ds args os ws → LineSays ds ([45, c] :: v :: args) ((d.long, v) :: os) ws

/-- descriptions whose names can be told apart -/
structure OptsDistinct (ds : List OptDesc) : Prop where
  long : ∀ d ∈ ds, ∃ b bs, d.long = b :: bs ∧ b ≠ 45
  short : ∀ d ∈ ds, ∀ c, d.short = some c → c ≠ 45
  longs : (ds.map (·.long)).Nodup
  shorts : (ds.filterMap (·.short)).Nodup

/-- the value of the option, or the default if it is not given -/
def OptGives (os : List (Bytes × Bytes)) (key dflt v : Bytes) : Prop := (key, v) ∈ os ∨ (v = dflt ∧ ∀ w, (key, w) ∉ os)

/-- the documented options of ndncert-ca-server: `-h`, `-c`, `-H` and `-P` -/
def serverLine : List OptDesc :=
  [⟨bytes! "help", some 104, false⟩, ⟨bytes! "config-file", some 99, true⟩, ⟨bytes! "repo-host", some 72, true⟩,
   ⟨bytes! "repo-port", some 80, true⟩]

/-- the documented options of ndncert-ca-status: `-h`; the name of the CA may also be given as `--caName` -/
def statusLine : List OptDesc := [⟨bytes! "help", some 104, false⟩, ⟨bytes! "caName", none, true⟩]

/-- the command line can be understood: it says something, and no option twice -/
def Understood (args : List Bytes) (os : List (Bytes × Bytes)) : Prop :=
  (∃ ws, LineSays serverLine args os ws) ∧ (os.map (·.1)).Nodup

/-- the command line of the server asks it to run, and gives this configuration file, repo host and repo port -/
def ServerAsked (sysconf : Bytes) (args : List Bytes) (config host port : Bytes) : Prop :=
  ∃ os, Understood args os ∧ (∀ v, (bytes! "help", v) ∉ os) ∧ OptGives os (bytes! "config-file") (sysconf ++ bytes! "/ndncert/ca.conf") config ∧
    OptGives os (bytes! "repo-host") [] host ∧ OptGives os (bytes! "repo-port") (bytes! "7376") port

/-- the same for the status tool, for which a word is the name of the CA -/
def UnderstoodStatus (args : List Bytes) (os : List (Bytes × Bytes)) : Prop :=
  (∃ given ws, LineSays statusLine args given ws ∧ os = given ++ ws.map (fun w => (bytes! "caName", w))) ∧ (os.map (·.1)).Nodup

/-- the command line of the status tool asks about the CA whose name is written like this -/
def StatusAsked (args : List Bytes) (ca : Bytes) : Prop :=
  ∃ os, UnderstoodStatus args os ∧ (∀ v, (bytes! "help", v) ∉ os) ∧ (bytes! "caName", ca) ∈ os

/-- the documented options of ndncert-client: `-h` and `-c` -/
def clientLine : List OptDesc := [⟨bytes! "help", some 104, false⟩, ⟨bytes! "config-file", some 99, true⟩]

/-- the same for the client, for which words that are no options are a mistake -/
def UnderstoodClient (args : List Bytes) (os : List (Bytes × Bytes)) : Prop := LineSays clientLine args os [] ∧ (os.map (·.1)).Nodup

/-- the command line of the client asks it to run, and means this configuration file -/
def ClientAsked (sysconf : Bytes) (args : List Bytes) (config : Bytes) : Prop :=
  ∃ os, UnderstoodClient args os ∧ (∀ v, (bytes! "help", v) ∉ os) ∧ OptGives os (bytes! "config-file") (sysconf ++ bytes! "/ndncert/client.conf") config

end Ndncert
