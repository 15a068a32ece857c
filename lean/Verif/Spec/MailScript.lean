import Verif.Model.MailScript
import Verif.Spec.Email

/-! # Vocabulary for the email script -/

namespace Ndncert.MailScript

/-- a piece of a template: text, or a place for one of the three values -/
inductive Piece where
  | text (t : Bytes)
  | code
  | caName
  | certName

/-- how a piece is written in the configuration file: braces in the text are doubled -/
def Piece.written : Piece → Bytes
  | .text t => t.flatMap (fun b => if b = 123 ∨ b = 125 then [b, b] else [b])
  | .code => bytes! "{0}"
  | .caName => bytes! "{1}"
  | .certName => bytes! "{2}"

/-- the template as written in the configuration file -/
def written (t : List Piece) : Bytes := t.flatMap Piece.written

/-- the template written with places that have no number: `{}` for each of the values -/
def writtenBlank (t : List Piece) : Bytes := t.flatMap (fun p => match p with | .text t => Piece.written (.text t) | _ => bytes! "{}")

/-- the values a template asks for, in the order of their places -/
def places (t : List Piece) : List Nat :=
  t.flatMap (fun p => match p with
    | .text _ => []
    | .code => [0]
    | .caName => [1]
    | .certName => [2])

/-- the two ways to write a template: with numbered places, or, if the values are used in their order, with places without numbers -/
def WrittenAs (t : List Piece) (s : Bytes) : Prop := s = written t ∨ (s = writtenBlank t ∧ places t <+: [0, 1, 2])

/-- the template with the values filled in -/
def filled (code caName certName : Bytes) (t : List Piece) : Bytes :=
  t.flatMap (fun p => match p with
    | .text t => t
    | .code => code
    | .caName => caName
    | .certName => certName)

/-- the messages that were handed to the mail server -/
def handedOver (w : Surroundings) : List Smtp → List (Bytes × Message)
  | [] => []
  | .sendmail a b m :: rest => (if w.fails (.sendmail a b m) then [] else [(b, m)]) ++ handedOver w rest
  | _ :: rest => handedOver w rest

/-- an address that comes through and does not look like an option -/
def PlainAddress (a : Bytes) : Prop := ComesThrough a ∧ a.head? ≠ some 45

/-- text that means the same in HTML: none of `<`, `>`, `&`, `"` in it -/
def NoMarkup (t : Bytes) : Prop := ∀ b ∈ t, b ≠ 60 ∧ b ≠ 62 ∧ b ≠ 38 ∧ b ≠ 34

end Ndncert.MailScript
