import Verif.Model.Config

/-! # The JSON text of property trees

`CaSqlite` keeps the secrets of a challenge as text (`convertJson2String`, `convertString2Json`, ca-sqlite.cpp:39-54), and the
configuration files are read and written with `read_json` and `write_json` (ca-configuration.cpp:31-38, profile-storage.cpp:28-66). Both
are functions of boost::property_tree (1.71), modelled here octet by octet as far as they are reached: `char` streams, `pretty = true`. -/

namespace Ndncert

/-- a digit of `"0123456789ABCDEF"` -/
def upperHexDigit (n : Nat) : UInt8 := UInt8.ofNat (if n < 10 then 48 + n else 55 + n)

/-- `create_escapes` for one octet (boost json_parser_write.hpp) -/
def jsonEscape (b : UInt8) : Bytes :=
  if b == 0x20 || b == 0x21 || (0x23 ≤ b && b ≤ 0x2E) || (0x30 ≤ b && b ≤ 0x5B) || 0x5D ≤ b then [b]
  else if b == 8 then [92, 98] else if b == 12 then [92, 102] else if b == 10 then [92, 110] else if b == 13 then [92, 114]
  else if b == 9 then [92, 116] else if b == 47 then [92, 47] else if b == 34 then [92, 34] else if b == 92 then [92, 92]
  else [92, 117, 48, 48, upperHexDigit (b.toNat / 16), upperHexDigit (b.toNat % 16)]

/-- a string with its quotes -/
def jsonString (s : Bytes) : Bytes := 34 :: s.flatMap jsonEscape ++ [34]

/-- `4 * n` spaces -/
def jsonIndent (n : Nat) : Bytes := List.replicate (4 * n) 32

mutual
/-- `write_json_helper` (json_parser_write.hpp); `depth` is its parameter `indent`. `pt.count("") == pt.size()` holds if all keys are empty. -/
def jsonNode (depth : Nat) : PTree → Bytes
  | .node data kids =>
    if depth > 0 ∧ kids.isEmpty then jsonString data
    else if depth > 0 ∧ kids.all (fun e => e.1.isEmpty) then
      91 :: 10 :: jsonElements depth kids ++ jsonIndent depth ++ [93]
    else 123 :: 10 :: jsonMembers depth kids ++ jsonIndent depth ++ [125]
/-- the elements of an array, each on a line of its own -/
def jsonElements (depth : Nat) : List (Bytes × PTree) → Bytes
  | [] => []
  | (_, v) :: es => jsonIndent (depth + 1) ++ jsonNode (depth + 1) v ++ (if es.isEmpty then [] else [44]) ++ [10] ++ jsonElements depth es
/-- the members of an object -/
def jsonMembers (depth : Nat) : List (Bytes × PTree) → Bytes
  | [] => []
  | (k, v) :: es => jsonIndent (depth + 1) ++ jsonString k ++ [58, 32] ++ jsonNode (depth + 1) v ++ (if es.isEmpty then [] else [44]) ++ [10] ++
      jsonMembers depth es
end

mutual
/-- `verify_json` below the root: no node has both data and children -/
def jsonWritable : PTree → Bool
  | .node data kids => (data.isEmpty || kids.isEmpty) && jsonWritables kids
def jsonWritables : List (Bytes × PTree) → Bool
  | [] => true
  | (_, v) :: es => jsonWritable v && jsonWritables es
end

/-- `write_json(stream, tree)`; `none` = throws (`verify_json`: the root has no data) -/
def writeJsonText (t : PTree) : Option Bytes :=
  if t.data.isEmpty && jsonWritable t then some (jsonNode 0 t ++ [10]) else none

/-! ## Reading

`read_json_internal` with the parser of boost 1.59 and later (json_parser/detail/parser.hpp). Every function gets the rest of the input and
returns what it read and the rest after it; `none` = throws `json_parser_error`. -/

/-- `Encoding::is_ws` -/
def jsonIsWs (b : UInt8) : Bool := b == 32 || b == 9 || b == 10 || b == 13

/-- `skip_ws` -/
def jsonSkip (s : Bytes) : Bytes := s.dropWhile jsonIsWs

/-- `decode_hexdigit` -/
def jsonHexDigit (b : UInt8) : Option Nat :=
  if 48 ≤ b && b ≤ 57 then some (b.toNat - 48)
  else if 65 ≤ b && b ≤ 70 then some (b.toNat - 55)
  else if 97 ≤ b && b ≤ 102 then some (b.toNat - 87)
  else none

/-- `parse_hex_quad` -/
def jsonHexQuad : Bytes → Option (Nat × Bytes)
  | a :: b :: c :: d :: s => do
    let a ← jsonHexDigit a
    let b ← jsonHexDigit b
    let c ← jsonHexDigit c
    let d ← jsonHexDigit d
    some (((a * 16 + b) * 16 + c) * 16 + d, s)
  | _ => none

/-- `utf8_utf8_encoding::feed_codepoint` -/
def utf8Octets (n : Nat) : Bytes :=
  if n < 0x80 then [UInt8.ofNat n]
  else if n < 0x800 then [UInt8.ofNat (0xC0 + n / 64), UInt8.ofNat (0x80 + n % 64)]
  else if n < 0x10000 then [UInt8.ofNat (0xE0 + n / 4096), UInt8.ofNat (0x80 + n / 64 % 64), UInt8.ofNat (0x80 + n % 64)]
  else [UInt8.ofNat (0xF0 + n / 262144), UInt8.ofNat (0x80 + n / 4096 % 64), UInt8.ofNat (0x80 + n / 64 % 64), UInt8.ofNat (0x80 + n % 64)]

/-- `parse_codepoint_ref`, after `\u`: a code point, perhaps written as two surrogates -/
def jsonCodepoint (s : Bytes) : Option (Bytes × Bytes) := do
  let (u, s) ← jsonHexQuad s
  if 0xDC00 ≤ u ∧ u ≤ 0xDFFF then none
  else if 0xD800 ≤ u ∧ u ≤ 0xDBFF then
    match s with
    | 92 :: 117 :: s => do
      let (v, s) ← jsonHexQuad s
      if 0xDC00 ≤ v ∧ v ≤ 0xDFFF then some (utf8Octets (0x10000 + (u - 0xD800) * 0x400 + (v - 0xDC00)), s) else none
    | _ => none
  else some (utf8Octets u, s)

/-- `parse_escape`, after the backslash -/
def jsonUnescape : Bytes → Option (Bytes × Bytes)
  | 34 :: s => some ([34], s)
  | 92 :: s => some ([92], s)
  | 47 :: s => some ([47], s)
  | 98 :: s => some ([8], s)
  | 102 :: s => some ([12], s)
  | 110 :: s => some ([10], s)
  | 114 :: s => some ([13], s)
  | 116 :: s => some ([9], s)
  | 117 :: s => jsonCodepoint s
  | _ => none

/-- number of octets that follow the first one of a character in UTF-8; `none` = cannot be a first octet
(`utf8_utf8_encoding::trail_table`) -/
def utf8Trail (b : UInt8) : Option Nat :=
  if b < 0x80 then some 0 else if b < 0xC0 then none else if b < 0xE0 then some 1 else if b < 0xF0 then some 2
  else if b < 0xF8 then some 3 else none

/-- the following octets of a character (`transcode_codepoint`); overlong forms are not refused -/
def utf8Rest : Nat → Bytes → Option (Bytes × Bytes)
  | 0, s => some ([], s)
  | n + 1, b :: s => if 0x80 ≤ b && b < 0xC0 then (utf8Rest n s).map (fun x => (b :: x.1, x.2)) else none
  | _ + 1, [] => none

/-- one character or escape sequence of a string -/
def jsonChar : Bytes → Option (Bytes × Bytes)
  | [] => none
  | b :: s =>
    if b == 92 then jsonUnescape s
    else (utf8Trail b).bind (fun n => (utf8Rest n s).map (fun x => (b :: x.1, x.2)))

/-- `parse_string` after the opening quote. `fuel` is at least the length of the input in every use: each character takes an octet. -/
def jsonChars : Nat → Bytes → Option (Bytes × Bytes)
  | _, 34 :: s => some ([], s)
  | 0, _ => none
  | fuel + 1, s => do
    let (c, s) ← jsonChar s
    let (cs, s) ← jsonChars fuel s
    some (c ++ cs, s)

/-- `parse_string`: `none` = no string here, `some none` = throws -/
def jsonParseString (s : Bytes) : Option (Option (Bytes × Bytes)) :=
  match jsonSkip s with
  | 34 :: s => some (jsonChars s.length s)
  | _ => none

def jsonIsDigit (b : UInt8) : Bool := 48 ≤ b && b ≤ 57

/-- an optional minus -/
def jsonMinus : Bytes → Bytes × Bytes
  | 45 :: s => ([45], s)
  | s => ([], s)

/-- `parse_int_part`: a zero, or digits of which the first is not a zero; `none` = neither -/
def jsonInt : Bytes → Option (Bytes × Bytes)
  | 48 :: s => some ([48], s)
  | b :: s => if jsonIsDigit b then some (b :: s.takeWhile jsonIsDigit, s.dropWhile jsonIsDigit) else none
  | [] => none

/-- `parse_frac_part`: nothing, or a point and digits; `none` = throws -/
def jsonFrac : Bytes → Option (Bytes × Bytes)
  | 46 :: s => if (s.takeWhile jsonIsDigit).isEmpty then none else some (46 :: s.takeWhile jsonIsDigit, s.dropWhile jsonIsDigit)
  | s => some ([], s)

/-- an optional sign -/
def jsonSign : Bytes → Bytes × Bytes
  | [] => ([], [])
  | c :: s => if c == 43 || c == 45 then ([c], s) else ([], c :: s)

/-- `parse_exp_part`: nothing, or `e`, an optional sign and digits; `none` = throws -/
def jsonExp : Bytes → Option (Bytes × Bytes)
  | [] => some ([], [])
  | b :: s =>
    if b == 101 || b == 69 then
      if ((jsonSign s).2.takeWhile jsonIsDigit).isEmpty then none
      else some (b :: ((jsonSign s).1 ++ (jsonSign s).2.takeWhile jsonIsDigit), (jsonSign s).2.dropWhile jsonIsDigit)
    else some ([], b :: s)

/-- `parse_number`: the text is kept as it is. Outer `none` = no number here, `some none` = throws. -/
def jsonParseNumber (s : Bytes) : Option (Option (Bytes × Bytes)) :=
  match jsonInt (jsonMinus s).2 with
  | none => if (jsonMinus s).1.isEmpty then none else some none
  | some (int, s2) =>
    match jsonFrac s2 with
    | none => some none
    | some (frac, s3) =>
      match jsonExp s3 with
      | none => some none
      | some (exp, s4) => some (some ((jsonMinus s).1 ++ int ++ frac ++ exp, s4))

/-- `parse_boolean`, `parse_null`: the word is kept as the text -/
def jsonParseWord (s : Bytes) : Option (Bytes × Bytes) :=
  if (bytes! "true").isPrefixOf s then some (bytes! "true", s.drop 4)
  else if (bytes! "false").isPrefixOf s then some (bytes! "false", s.drop 5)
  else if (bytes! "null").isPrefixOf s then some (bytes! "null", s.drop 4)
  else none

mutual
/-- `parse_value` with the callbacks of `standard_callbacks`: texts become the data of a node, elements of arrays children with empty keys.
`fuel`: see `readJsonText`. -/
def jsonValue : Nat → Bytes → Option (PTree × Bytes)
  | 0, _ => none
  | fuel + 1, s =>
    match jsonSkip s with
    | 123 :: s =>
      match jsonSkip s with
      | 125 :: s => some (.node [] [], s)
      | s => (jsonParseMembers fuel s).map (fun x => (.node [] x.1, x.2))
    | 91 :: s =>
      match jsonSkip s with
      | 93 :: s => some (.node [] [], s)
      | s => (jsonParseElements fuel s).map (fun x => (.node [] x.1, x.2))
    | s =>
      match jsonParseString s with
      | some r => r.map (fun x => (.leaf x.1, x.2))
      | none =>
        match jsonParseWord s with
        | some x => some (.leaf x.1, x.2)
        | none =>
          match jsonParseNumber s with
          | some r => r.map (fun x => (.leaf x.1, x.2))
          | none => none
/-- the members of an object up to the closing brace (`parse_object`) -/
def jsonParseMembers : Nat → Bytes → Option (List (Bytes × PTree) × Bytes)
  | 0, _ => none
  | fuel + 1, s =>
    match jsonParseString s with
    | some (some (key, s)) =>
      match jsonSkip s with
      | 58 :: s =>
        match jsonValue fuel s with
        | none => none
        | some (v, s) =>
          match jsonSkip s with
          | 44 :: s => (jsonParseMembers fuel s).map (fun x => ((key, v) :: x.1, x.2))
          | 125 :: s => some ([(key, v)], s)
          | _ => none
      | _ => none
    | _ => none
/-- the elements of an array up to the closing bracket (`parse_array`) -/
def jsonParseElements : Nat → Bytes → Option (List (Bytes × PTree) × Bytes)
  | 0, _ => none
  | fuel + 1, s =>
    match jsonValue fuel s with
    | none => none
    | some (v, s) =>
      match jsonSkip s with
      | 44 :: s => (jsonParseElements fuel s).map (fun x => (([], v) :: x.1, x.2))
      | 93 :: s => some ([([], v)], s)
      | _ => none
end

/-- `read_json(stream, tree)`; `none` = throws. A byte order mark is skipped (`skip_introduction`); after the value only white space may follow
(`finish`). The parser's recursion is bounded by twice the length of the input plus one: before each second nested call an octet is read, so
that the bound is never met (`jsonValue_fuel`). -/
def readJsonText (s : Bytes) : Option PTree :=
  let s := if ([0xEF, 0xBB, 0xBF] : Bytes).isPrefixOf s then s.drop 3 else s
  match jsonValue (2 * s.length + 1) s with
  | some (t, rest) => if (jsonSkip rest).isEmpty then some t else none
  | none => none

end Ndncert
