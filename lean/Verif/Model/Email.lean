import Verif.Model.Challenge

/-! # Running the email script (src/challenge/challenge-email.cpp:160-177)

The command line is a string; `boost::process::child` splits it into arguments. The splitting is that of Boost.Process (v1),
`boost/process/detail/posix/cmd.hpp`, `build_args`; it is not part of /repo and is modelled from its documentation and source. -/

namespace Ndncert

/-- ` "` argument `"` -/
def quotedArg (a : Bytes) : Bytes := 32 :: 34 :: (a ++ [34])

/-- the command line (challenge-email.cpp:164-167) -/
def mailCommand (script : Bytes) (m : Mail) : Bytes :=
  script ++ quotedArg m.address ++ quotedArg m.code ++ quotedArg (nameUri m.caPrefix) ++ quotedArg (nameUri m.certName)

/-- `boost::replace_all(data, "\\\"", "\"")` -/
def unescapeQuotes : Bytes → Bytes
  | [] => []
  | [b] => [b]
  | a :: b :: rest => if a = 92 ∧ b = 34 then 34 :: unescapeQuotes rest else a :: unescapeQuotes (b :: rest)

/-- `make_entry`: quotes around the whole part are stripped. A part that is a single quote makes
`assign(begin + 1, end - 1)` with a reversed range, which is undefined. -/
def argEntry (part : Bytes) : Res Bytes :=
  if part = [34] then .ub .overflow
  else if part.head? = some 34 ∧ part.getLast? = some 34 then .ok (unescapeQuotes (part.drop 1).dropLast)
  else .ok (unescapeQuotes part)

/-- the loop of `build_args`: `inQuote`, the preceding character, and the text since `part_beg` -/
def splitArgs (inQuote : Bool) (prev : Option UInt8) (part : Bytes) : Bytes → Res (List Bytes)
  | [] => if part = [] then .ok [] else do let e ← argEntry part; .ok [e]
  | c :: rest =>
    let inQuote := if c = 34 then !inQuote else inQuote
    if inQuote = false ∧ c = 32 then
      if prev ≠ none ∧ prev ≠ some 32 then do
        let e ← argEntry part
        let es ← splitArgs inQuote (some c) [] rest
        .ok (e :: es)
      else splitArgs inQuote (some c) [] rest
    else splitArgs inQuote (some c) (part ++ [c]) rest

/-- what the started program sees: C strings, so each argument ends at its first NUL (`c_str()`, `execve`) -/
def execArgs (args : List Bytes) : List Bytes := args.map (fun a => a.takeWhile (· ≠ 0))

/-- `argv` of the script for an email -/
def mailArgv (script : Bytes) (m : Mail) : Res (List Bytes) := do
  let args ← splitArgs false none [] (mailCommand script m)
  .ok (execArgs args)

end Ndncert
