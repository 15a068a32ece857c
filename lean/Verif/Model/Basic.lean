/-!
# Basic vocabulary of the model

Bytes, outcomes of a C++ call, byte-string literals.
-/

namespace Ndncert

/-- `std::string`, `std::vector<uint8_t>`, `ndn::Buffer`, `std::array<uint8_t, N>`: a sequence of octets. -/
abbrev Bytes := List UInt8

open Lean in
/-- `bytes! "abc"` is the explicit byte list of an ASCII string literal. -/
macro "bytes! " s:str : term => do
  let elems ← (s.getString.toUTF8.toList.mapM fun b =>
    `(term| ($(quote b.toNat) : UInt8)) : MacroM (List (TSyntax `term)))
  `(([$(elems.toArray),*] : List UInt8))

/-- Exceptions, by the kind a caller can distinguish.
`caError` is the `std::runtime_error` built by `Request::processIfError`
(src/requester-request.cpp:273-285) from a CA error reply; it carries the code and description. -/
inductive Exc where
  /-- a `std::runtime_error` -/
  | runtime
  /-- `ndn::tlv::Error`, which is a `std::runtime_error` -/
  | tlv
  /-- `ndn::Name::Error` and others that are a `std::invalid_argument` -/
  | name
  | caError (code : Nat) (info : Bytes)
  deriving DecidableEq, Repr

/-- Kinds of undefined behaviour the modelled code can reach. -/
inductive Ub where
  /-- `memcpy` past the end of a fixed size array -/
  | overflow
  /-- dereference of a null `shared_ptr` -/
  | nullDeref
  /-- dereference of an `end()` iterator -/
  | endDeref
  /-- overflow of a signed integer -/
  | signedOverflow
  deriving DecidableEq, Repr

/-- Outcome of a C++ function: normal return, exception, undefined behaviour. -/
inductive Res (α : Type) where
  | ok (a : α)
  | exc (e : Exc)
  | ub (u : Ub)
  deriving DecidableEq, Repr

namespace Res

def bind {α β : Type} (x : Res α) (f : α → Res β) : Res β :=
  match x with
  | ok a => f a
  | exc e => exc e
  | ub u => ub u

instance : Monad Res where
  pure := ok
  bind := Res.bind

@[simp] theorem pure_eq {α : Type} (a : α) : (pure a : Res α) = ok a := rfl
@[simp] theorem bind_ok {α β : Type} (a : α) (f : α → Res β) : (ok a >>= f) = f a := rfl
@[simp] theorem bind_exc {α β : Type} (e : Exc) (f : α → Res β) : ((exc e : Res α) >>= f) = exc e := rfl
@[simp] theorem bind_ub {α β : Type} (u : Ub) (f : α → Res β) : ((ub u : Res α) >>= f) = ub u := rfl

theorem bind_eq_ok {α β : Type} {x : Res α} {f : α → Res β} {b : β} :
    (x >>= f) = ok b ↔ ∃ a, x = ok a ∧ f a = ok b := by
  cases x <;> simp

/-- `isOk` is true when the call returns normally. -/
def isOk {α : Type} : Res α → Bool
  | ok _ => true
  | _ => false

/-- turn an `Option` into a result, throwing `e` for `none` -/
def ofOption {α : Type} (e : Exc) : Option α → Res α
  | some a => ok a
  | none => exc e

@[simp] theorem ofOption_some {α : Type} (e : Exc) (a : α) : ofOption e (some a) = ok a := rfl
@[simp] theorem ofOption_none {α : Type} (e : Exc) : ofOption e (none : Option α) = exc e := rfl
@[simp] theorem ofOption_eq_ok {α : Type} {e : Exc} {o : Option α} {a : α} :
    ofOption e o = ok a ↔ o = some a := by cases o <;> simp

end Res

/-- `system_clock::time_point` and durations: integer nanoseconds (unbounded; where the
code adds to a clock reading an amount that comes from outside, 64-bit overflow is modelled at that place). -/
abbrev Time := Int

/-- nanoseconds per second -/
def nsPerSec : Int := 1000000000

end Ndncert
