import Verif.Model.Basic

/-! # The check of email addresses (src/challenge/challenge-email.cpp:152-158)

`ChallengeEmail::isValidEmailAddress` is a public static function. Nothing in src/ or tools/ calls it. -/

namespace Ndncert

/-- Regular expressions over octets, as far as the pattern needs them. A `std::regex` has no other outcome than matching or not; the limits on
recursion of an implementation (a long string overflows the stack of libstdc++'s backtracking) are not modelled. -/
inductive Regex where
  /-- matches nothing -/
  | never
  /-- matches the empty string -/
  | eps
  /-- one octet of a set: a bracket expression, a character or the dot -/
  | one (p : UInt8 → Bool)
  | seq (a b : Regex)
  | alt (a b : Regex)
  | star (a : Regex)

/-- whether the empty string matches -/
def Regex.nullable : Regex → Bool
  | .never => false
  | .eps => true
  | .one _ => false
  | .seq a b => a.nullable && b.nullable
  | .alt a b => a.nullable || b.nullable
  | .star _ => true

/-- what has to match the rest after the octet `c` -/
def Regex.after (c : UInt8) : Regex → Regex
  | .never => .never
  | .eps => .never
  | .one p => if p c then .eps else .never
  | .seq a b => if a.nullable then .alt (.seq (a.after c) b) (b.after c) else .seq (a.after c) b
  | .alt a b => .alt (a.after c) (b.after c)
  | .star a => .seq (a.after c) (.star a)

/-- `std::regex_match`: the whole string matches -/
def Regex.matches (r : Regex) (s : Bytes) : Bool := (s.foldl (fun r c => r.after c) r).nullable

/-- `r+` -/
def Regex.plus (r : Regex) : Regex := .seq r (.star r)

/-- `a-zA-Z0-9` in brackets -/
def isAlnum (c : UInt8) : Bool := decide ((97 ≤ c ∧ c ≤ 122) ∨ (65 ≤ c ∧ c ≤ 90) ∨ (48 ≤ c ∧ c ≤ 57))

/-- the dot of the ECMAScript grammar: anything but a line terminator -/
def isDotChar (c : UInt8) : Bool := decide (c ≠ 10 ∧ c ≠ 13)

/-- `(^[a-zA-Z0-9_.+-]+@[a-zA-Z0-9-]+.[a-zA-Z0-9\-\.]+$)` (challenge-email.cpp:155). The anchors and the group make no difference for
`std::regex_match`. -/
def emailPattern : Regex :=
  .seq (.plus (.one fun c => isAlnum c || c == 95 || c == 46 || c == 43 || c == 45))
    (.seq (.one fun c => c == 64)
      (.seq (.plus (.one fun c => isAlnum c || c == 45))
        (.seq (.one isDotChar) (.plus (.one fun c => isAlnum c || c == 45 || c == 46)))))

/-- `ChallengeEmail::isValidEmailAddress` (challenge-email.cpp:152-158) -/
def isValidEmailAddress (address : Bytes) : Bool := emailPattern.matches address

end Ndncert
