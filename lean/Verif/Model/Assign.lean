import Verif.Model.Challenge

/-! # Redirection policies and name assignment (src/redirection/*, src/name-assignment/*) -/

namespace Ndncert

/-! ## String helpers (the `std::string` and boost operations used) -/

/-- `boost::split(_, s, is_any_of("<sep>"))`: the pieces between separators, empty ones included -/
def splitAll (sep : UInt8) : Bytes → List Bytes
  | [] => [[]]
  | b :: bs =>
    if b = sep then [] :: splitAll sep bs
    else match splitAll sep bs with
      | p :: ps => (b :: p) :: ps
      | [] => [[b]]

/-- `s.find(sep)`: split at the first separator -/
def splitFirst (sep : UInt8) : Bytes → Option (Bytes × Bytes)
  | [] => none
  | b :: bs =>
    if b = sep then some ([], bs)
    else (splitFirst sep bs).map (fun p => (b :: p.1, p.2))

/-- `s.rfind(sep)`: split at the last separator -/
def splitLast (sep : UInt8) : Bytes → Option (Bytes × Bytes)
  | [] => none
  | b :: bs =>
    match splitLast sep bs with
    | some p => some (b :: p.1, p.2)
    | none => if b = sep then some ([], bs) else none

/-- a `const char*`: up to the first NUL -/
def cstr (s : Bytes) : Bytes := s.takeWhile (· ≠ 0)

/-! ## Redirection -/

/-- a configured redirection policy: `email` with its domain, `param` with its format map -/
inductive Redirection where
  | email (domain : Bytes)
  | param (format : List (Bytes × Bytes))
  deriving DecidableEq, Repr

/-- insertion into `std::map` by `emplace`: an existing key wins. Iteration order is not modelled (the map is
only used in a conjunction over its entries). -/
def mapEmplace (m : List (Bytes × Bytes)) (k v : Bytes) : List (Bytes × Bytes) :=
  if m.any (fun e => e.1 == k) then m else m ++ [(k, v)]

/-- loop of the constructor `RedirectionParam` (redirection-param.cpp:38-44) -/
def paramFormatStep (m : List (Bytes × Bytes)) (piece : Bytes) : Res (List (Bytes × Bytes)) :=
  match splitFirst 61 piece with
  | none => .exc .runtime
  | some (k, v) => .ok (mapEmplace m k v)

/-- constructor `RedirectionParam` (redirection-param.cpp:30-45) -/
def mkRedirectionParam (format : Bytes) : Res Redirection :=
  if format = [] then .ok (.param [])
  else do
    let m ← (splitAll 38 format).foldlM paramFormatStep []
    .ok (.param m)

/-- constructor `RedirectionEmail` (redirection-email.cpp:27-30) -/
def mkRedirectionEmail (format : Bytes) : Res Redirection := .ok (.email format)

/-- iteration `for (it = params.find(k); it != end && it->first == k; ++it)`: the values of key `k`, in order -/
def valuesOf (params : MMap) (k : Bytes) : List Bytes :=
  ((params.dropWhile (fun e => !(e.1 == k))).takeWhile (fun e => e.1 == k)).map (·.2)

/-- `isRedirecting` (redirection-email.cpp:32-42, redirection-param.cpp:47-63) -/
def Redirection.isRedirecting (p : Redirection) (params : MMap) : Bool :=
  match p with
  | .email domain =>
    (valuesOf params KEY_EMAIL).any (fun v =>
      match splitLast 64 v with
      | some (_, d) => d == domain
      | none => false)
  | .param format => format.all (fun e => (valuesOf params e.1).any (· == e.2))

/-! ## Name assignment -/

/-- a configured name assignment function with its format components -/
inductive Assignment where
  | random
  | param (format : List Bytes)
  | hash (format : List Bytes)
  | email (format : List Bytes)
  deriving DecidableEq, Repr

/-- constructor `NameAssignmentFunc` (assignment-func.cpp:25-38): pieces between '/', empty ones dropped. -/
def nameFormat (format : Bytes) : List Bytes := (splitAll 47 format).filter (· ≠ [])

/-- one item of the param assignment (assignment-param.cpp:38-49): what is appended, `none` if the parameter is missing -/
def paramItem (C : Crypto) (params : MMap) (item : Bytes) : Res (Option Name) :=
  if 2 ≤ item.length ∧ item.head? = some 34 ∧ item.getLast? = some 34 then do
    let n ← .ofOption .name (C.stringName ((item.drop 1).take (item.length - 2)))
    .ok (some n)
  else match mmFind params item with
    | some v =>
      if v ≠ [] then do
        let n ← .ofOption .name (C.stringName v)
        .ok (some n)
      else .ok none
    | none => .ok none

/-- one item of the hash assignment (assignment-hash.cpp:40-49) -/
def hashItem (C : Crypto) (params : MMap) (item : Bytes) : Res (Option Name) :=
  match mmFind params item with
  | some v => do
    let n ← .ofOption .name (C.stringName (toHex (C.sha256 v)))
    .ok (some n)
  | none => .ok none

/-- the loops over the format: names are appended until an item is missing -/
def appendItems (f : Bytes → Res (Option Name)) : Name → List Bytes → Res (Option Name)
  | acc, [] => .ok (some acc)
  | acc, item :: rest => do
    match ← f item with
    | some n => appendItems f (acc ++ n) rest
    | none => .ok none

/-- `AssignmentParam::assignName` (assignment-param.cpp:32-53) -/
def assignParam (C : Crypto) (format : List Bytes) (params : MMap) : Res (List Name) := do
  let n ← appendItems (paramItem C params) [] format
  .ok n.toList

/-- `AssignmentHash::assignName` (assignment-hash.cpp:34-52) -/
def assignHash (C : Crypto) (format : List Bytes) (params : MMap) : Res (List Name) := do
  let n ← appendItems (hashItem C params) [] format
  .ok n.toList

/-- the domain loop of `AssignmentEmail::assignName` (assignment-email.cpp:44-54); `fuel` bounds the number of
iterations (each one shortens `domain`) -/
def emailLoop : Nat → Bytes → List Bytes → Name → Name
  | 0, _, _, acc => acc
  | n + 1, domain, fmt, acc =>
    match splitLast 46 domain with
    | none => acc
    | some (before, label) =>
      match fmt with
      | f :: fs =>
        if label = f then emailLoop n before fs acc
        else emailLoop n before fmt (acc ++ [gcomp (cstr label)])
      | [] => emailLoop n before fmt (acc ++ [gcomp (cstr label)])

/-- `AssignmentEmail::assignName` (assignment-email.cpp:32-60). Note `params.begin()->second`: the first entry of
the multimap, whatever its key. -/
def assignEmail (format : List Bytes) (params : MMap) : List Name :=
  if format ≠ [] ∧ params.any (fun e => e.1 == KEY_EMAIL) then
    match params with
    | [] => []
    | (_, email) :: _ =>
      match splitLast 64 email with
      | none => []
      | some (user, after) =>
        if user = [] then []
        else
          let domain := 46 :: after
          [emailLoop (domain.length + 1) domain format [] ++ [gcomp (cstr user)]]
  else []

/-- `assignName`; `rand` is the random word drawn by the random assignment (assignment-random.cpp:34-38) -/
def Assignment.assignName (C : Crypto) (a : Assignment) (params : MMap) (rand : Nat) : Res (List Name) :=
  match a with
  | .random => .ok [[gcomp (decDigits rand)]]
  | .param f => assignParam C f params
  | .hash f => assignHash C f params
  | .email f => .ok (assignEmail f params)

end Ndncert
