import Verif.Model.TimeText

/-! # The calendar -/

namespace Ndncert

/-- a year with a 29 February -/
def LeapYear (y : Nat) : Prop := 4 ∣ y ∧ (¬ 100 ∣ y ∨ 400 ∣ y)

instance (y : Nat) : Decidable (LeapYear y) := inferInstanceAs (Decidable (_ ∧ _))

/-- the number of days of the months from January to December -/
def monthDays (y : Nat) : List Nat := [31, if LeapYear y then 29 else 28, 31, 30, 31, 30, 31, 31, 30, 31, 30, 31]

/-- the date of the following day -/
def nextDate : Nat × Nat × Nat → Nat × Nat × Nat
  | (y, m, d) => if some d ≠ (monthDays y)[m - 1]? then (y, m, d + 1) else if m = 12 then (y + 1, 1, 1) else (y, m + 1, 1)

/-- dates, counted from 1 January 1400 -/
def dateAfter : Nat → Nat × Nat × Nat
  | 0 => (1400, 1, 1)
  | n + 1 => nextDate (dateAfter n)

end Ndncert
