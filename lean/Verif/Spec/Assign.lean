import Verif.Model.Assign

/-! # Vocabulary for redirection and name assignment -/

namespace Ndncert

/-- `s` is the pieces joined by the separator, which occurs in none of them -/
def SplitsInto (sep : UInt8) (s : Bytes) (pieces : List Bytes) : Prop :=
  pieces ≠ [] ∧ (∀ p ∈ pieces, sep ∉ p) ∧ s = [sep].intercalate pieces

/-- `v` is the value of the first entry of key `k` -/
def FirstValue (params : MMap) (k v : Bytes) : Prop :=
  ∃ pre post, params = pre ++ (k, v) :: post ∧ ∀ e ∈ pre, e.1 ≠ k

/-- a piece `key=value`, split at its first '=' -/
def KeyValue (piece k v : Bytes) : Prop := piece = k ++ 61 :: v ∧ (61 : UInt8) ∉ k

/-- an item in quotes -/
def Literal (item w : Bytes) : Prop := item = 34 :: (w ++ [34])

/-- an email address: the text before and after its last '@' -/
def LastAt (s user domain : Bytes) : Prop := s = user ++ 64 :: domain ∧ (64 : UInt8) ∉ domain

/-- the lists have the same length and are related item by item -/
inductive Each {α β : Type} (R : α → β → Prop) : List α → List β → Prop
  | nil : Each R [] []
  | cons {a : α} {b : β} {as : List α} {bs : List β} : R a b → Each R as bs → Each R (a :: as) (b :: bs)

/-- the text that an item of the param format stands for: what is between the quotes, or the first value of
the parameter, which must not be empty -/
def ItemText (params : MMap) (item v : Bytes) : Prop :=
  Literal item v ∨ ((∀ w, ¬ Literal item w) ∧ FirstValue params item v ∧ v ≠ [])

/-- The labels that remain when the format labels are dropped in order: a label equal to the next format label that is not yet used
is dropped. -/
def dropLabels : List Bytes → List Bytes → List Bytes
  | _, [] => []
  | [], ls => ls
  | f :: fs, l :: ls => if l = f then dropLabels fs ls else l :: dropLabels (f :: fs) ls

end Ndncert
