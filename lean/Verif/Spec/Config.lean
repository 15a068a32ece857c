import Verif.Model.Config
import Verif.Spec.Code
import Verif.Spec.Ca

/-! # What configuration documents mean -/

namespace Ndncert

/-- `read_json` reads what `write_json` wrote, or refuses it -/
def TextIO.JsonFaithful (T : TextIO) : Prop := ∀ t file, T.writeJson t = some file → T.readJson file = some t ∨ T.readJson file = none

/-- the name can be written as a URI and read back -/
def TextIO.NameReadable (T : TextIO) (n : Name) : Prop := T.nameOfUri (T.uriOfName n) = some n

/-- the certificate can be saved and loaded again -/
def TextIO.CertReadable (T : TextIO) (c : Cert) : Prop := T.saveCert c ≠ [] ∧ T.loadCert (T.saveCert c) = some c

/-- the texts with this key in the unnamed lists of a JSON object, in order -/
def PTree.listed (t : PTree) (key : Bytes) : List Bytes :=
  (t.kids.filter (fun e => e.1 = [])).flatMap (fun e => e.2.kids.filterMap (fun i => (i.2.child key).map (·.data)))

/-- the object or list has an entry with this key, and this is the value of the first one -/
def PTree.FirstEntry (t : PTree) (key : Bytes) (v : PTree) : Prop :=
  ∃ pre post, t.kids = pre ++ (key, v) :: post ∧ ∀ e ∈ pre, e.1 ≠ key

/-- the parameter of a "param" redirection: empty, or every piece between ampersands has an equals sign -/
def PolicyParamOk (s : Bytes) : Prop := s = [] ∨ ∀ piece ∈ splitAll 38 s, (61 : UInt8) ∈ piece

/-- an item of "redirect-to" that can be used -/
structure RedirectItemOk (T : TextIO) (t : PTree) : Prop where
  /-- it has a certificate -/
  cert : t.getStr (bytes! "certificate") [] ≠ []
  /-- for the stated prefix, if any -/
  ca : t.getStr (bytes! "ca-prefix") [] = [] ∨
    ∃ c, T.loadCert (t.getStr (bytes! "certificate") []) = some c ∧
      T.nameOfUri (t.getStr (bytes! "ca-prefix") []) = some (identityOf c.name)
  /-- and a known policy with its parameter -/
  policy : t.getStr (bytes! "policy-type") [] = bytes! "email" ∨
    (t.getStr (bytes! "policy-type") [] = bytes! "param" ∧ PolicyParamOk (t.getStr (bytes! "policy-param") []))

/-- a configuration document a CA can be started from -/
structure ConfigOk (T : TextIO) (t : PTree) : Prop where
  ca : ∃ n, T.nameOfUri (t.getStr (bytes! "ca-prefix") []) = some n ∧ n ≠ []
  hint : ∃ n, T.nameOfUri (t.getStr (bytes! "forwarding-hint") []) = some n
  keys : ∀ item ∈ t.items (bytes! "probe-parameters"), item.2.getStr (bytes! "probe-parameter-key") [] ≠ []
  some_challenge : t.items (bytes! "supported-challenges") ≠ []
  challenges : ∀ item ∈ t.items (bytes! "supported-challenges"),
    toLower (item.2.getStr (bytes! "challenge") []) ∈ [bytes! "pin", bytes! "email", bytes! "possession"]
  redirections : ∀ item ∈ t.items (bytes! "redirect-to"), RedirectItemOk T item.2
  assignments : ∀ item ∈ t.items (bytes! "name-assignment"),
    item.1 ∈ [bytes! "random", bytes! "param", bytes! "hash", bytes! "email"]

/-- The text is a decimal number, perhaps with a sign, and with white space around it: `minus` tells whether the sign is a minus, `n` is
the magnitude. -/
def Numeral (s : Bytes) (minus : Bool) (n : Nat) : Prop :=
  ∃ left sign digits right : Bytes, s = left ++ sign ++ digits ++ right ∧ (∀ b ∈ left ++ right, b = 32 ∨ 9 ≤ b.toNat ∧ b.toNat ≤ 13) ∧
    (sign = (if minus then [45] else []) ∨ minus = false ∧ sign = [43]) ∧
    digits ≠ [] ∧ (∀ b ∈ digits, 48 ≤ b.toNat ∧ b.toNat ≤ 57) ∧ n = digits.foldl (fun v b => 10 * v + (b.toNat - 48)) 0

/-- no upper-case letter -/
def LowerCase (s : Bytes) : Prop := ∀ b ∈ s, ¬ (65 ≤ b.toNat ∧ b.toNat ≤ 90)

/-- an operation on a profile store -/
inductive ProfileOp where
  | add (p : CaProfile)
  | remove (n : Name)

/-- the store after an operation -/
def ProfileOp.run (ps : Profiles) : ProfileOp → Profiles
  | add p => addProfile ps p
  | remove n => removeProfile ps n

/-- The map the operations describe: the profile of each prefix. -/
def ProfileOp.map (m : Name → Option CaProfile) : ProfileOp → Name → Option CaProfile
  | add p => fun n => if n = p.caPrefix then some p else m n
  | remove r => fun n => if n = r then none else m n

/-- the profile of a prefix in the list of known profiles -/
def profileOf (ps : Profiles) (n : Name) : Option CaProfile := ps.find? (fun p => p.caPrefix == n)

/-! ## Concrete text operations, to show that the assumptions can be met -/

namespace ToyText

/-- a text such that no other one continues it -/
def esc : Bytes → Bytes
  | [] => [0]
  | b :: s => 1 :: b :: esc s

mutual
/-- a text for a tree -/
def encTree : PTree → Bytes
  | .node d ks => esc d ++ encKids ks
def encKids : List (Bytes × PTree) → Bytes
  | [] => [0]
  | (k, t) :: r => 2 :: (esc k ++ (encTree t ++ encKids r))
end

open Classical in
/-- names as plain URIs of generic components; `cert` is the only certificate with a text; trees as `encTree` -/
noncomputable def text (cert : Cert) : TextIO where
  nameOfUri s := some (((splitAll 47 s).filter (· ≠ [])).map gcomp)
  uriOfName n := (n.map (fun c => 47 :: c.val)).flatten
  loadCert s := if s = bytes! "CERT" then some cert else none
  saveCert c := if c = cert then bytes! "CERT" else []
  readJson file := if h : ∃ t, encTree t = file then some (choose h) else none
  writeJson t := some (encTree t)

end ToyText

end Ndncert
