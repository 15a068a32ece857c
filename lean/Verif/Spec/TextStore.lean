import Verif.Spec.JsonText
import Verif.Spec.TimeText
import Verif.Model.TextStore
import Verif.Model.Ca
import Verif.Spec.Code

/-! # Texts in the database -/

namespace Ndncert

/-- keys and values are UTF-8 -/
def SecretsUtf8 (kv : List (Bytes × Bytes)) : Prop := ∀ e ∈ kv, Utf8 e.1 ∧ Utf8 e.2

/-- The clock reads a number of nanoseconds that `int64_t` can hold: `system_clock::time_point` has no other values. (From the year 1677 to
the year 2262.) -/
def Env.ClockFits (env : Env) : Prop := -2 ^ 63 ≤ env.nowStore ∧ env.nowStore < 2 ^ 63

/-- in every message handling of the event -/
def Event.ClockFits (e : Event) : Prop := ∀ m env, e.msg? = some (m, env) → env.ClockFits

/-- the number of microseconds from 1 January 1400 to 1 January 1970 -/
def usFrom1400 : Int := 208188 * 86400000000

/-- decimal digits, `n` of them -/
def Digits (n : Nat) (s : Bytes) : Prop := s.length = n ∧ ∀ c ∈ s, 48 ≤ c.toNat ∧ c.toNat ≤ 57

/-- `text` is the time `us`, in microseconds since 1 January 1970, in the form `YYYYMMDDTHHMMSS` or `YYYYMMDDTHHMMSS.ffffff` -/
def SaysTime (us : Int) (text : Bytes) : Prop :=
  ∃ (Y M D h m s f : Bytes) (days frac : Nat), Digits 4 Y ∧ Digits 2 M ∧ Digits 2 D ∧ Digits 2 h ∧ Digits 2 m ∧ Digits 2 s ∧
    text = Y ++ M ++ D ++ [84] ++ h ++ m ++ s ++ f ∧ (f = [] ∧ frac = 0 ∨ ∃ g, f = 46 :: g ∧ Digits 6 g ∧ frac = digitsVal g ∧ frac ≠ 0) ∧
    (digitsVal Y, digitsVal M, digitsVal D) = dateAfter days ∧ digitsVal h < 24 ∧ digitsVal m < 60 ∧ digitsVal s < 60 ∧
    us + usFrom1400 = days * 86400000000 + ((digitsVal h * 60 + digitsVal m) * 60 + digitsVal s) * 1000000 + frac

end Ndncert
