import Verif.Model.Ca

/-! # Configuration files: CA profiles, the CA configuration and the client's profile store
(src/detail/ca-profile.cpp, src/detail/ca-configuration.cpp, src/detail/profile-storage.cpp)

The text formats themselves (JSON, name URIs, the base64 certificate files of ndn-cxx) are the operations of `TextIO`, arbitrary here;
`libText` in Model/Uri.lean gives those of JSON and URIs. The property tree and what the code reads from it and writes to it are
modelled. -/

namespace Ndncert

/-- `boost::property_tree::ptree` (`JsonSection`): a string and an ordered list of children with keys -/
inductive PTree where
  | node (data : Bytes) (kids : List (Bytes × PTree))

/-- `ptree::data` -/
def PTree.data : PTree → Bytes
  | node d _ => d

/-- the children, `begin()` to `end()` -/
def PTree.kids : PTree → List (Bytes × PTree)
  | node _ ks => ks

/-- `get_child_optional(key)` for a key without dots: the first child with this key -/
def PTree.child (t : PTree) (key : Bytes) : Option PTree := (t.kids.find? (fun e => e.1 == key)).map (·.2)

/-- `get(key, dflt)` for strings: the data of the first child with this key -/
def PTree.getStr (t : PTree) (key dflt : Bytes) : Bytes :=
  match t.child key with
  | some c => c.data
  | none => dflt

/-- Text operations of ndn-cxx and boost. -/
structure TextIO where
  /-- `Name(std::string)`, reading a URI; `none` = throws -/
  nameOfUri : Bytes → Option Name
  /-- `Name::toUri` -/
  uriOfName : Name → Bytes
  /-- `ndn::io::load<Certificate>`; `none` = null pointer -/
  loadCert : Bytes → Option Cert
  /-- `ndn::io::save` -/
  saveCert : Cert → Bytes
  /-- `read_json`; `none` = throws -/
  readJson : Bytes → Option PTree
  /-- `write_json`; `none` = throws -/
  writeJson : PTree → Option Bytes

/-- a tree that is only a text -/
def PTree.leaf (s : Bytes) : PTree := .node s []

/-! ## Numbers in the property tree

`get<int>` and `get_optional<size_t>` go through boost's `stream_translator`: `istream >> value`, then white space, then the end. -/

/-- white space of the "C" locale -/
def isSpace (b : UInt8) : Bool := b == 32 || (9 ≤ b && b ≤ 13)

/-- value of a non-empty string of decimal digits -/
def readDigits (s : Bytes) : Option Nat :=
  if s = [] then none
  else if s.all (fun b => 48 ≤ b && b ≤ 57) then some (s.foldl (fun n b => 10 * n + (b.toNat - 48)) 0)
  else none

/-- the text without leading and trailing white space -/
def trim (s : Bytes) : Bytes := ((s.dropWhile isSpace).reverse.dropWhile isSpace).reverse

/-- an optionally signed decimal number surrounded by white space: sign (`true` = minus) and magnitude -/
def readNumber (s : Bytes) : Option (Bool × Nat) :=
  match trim s with
  | 43 :: ds => (readDigits ds).map (fun n => (false, n))
  | 45 :: ds => (readDigits ds).map (fun n => (true, n))
  | ds => (readDigits ds).map (fun n => (false, n))

/-- `get_value_optional<int>`: fails on overflow -/
def readInt (s : Bytes) : Option Int :=
  match readNumber s with
  | some (false, n) => if n < 2 ^ 31 then some n else none
  | some (true, n) => if n ≤ 2 ^ 31 then some (-n) else none
  | none => none

/-- `get_value_optional<size_t>`: fails on overflow; a minus sign is accepted and the value negated modulo 2^64 -/
def readSize (s : Bytes) : Option Nat :=
  match readNumber s with
  | some (false, n) => if n < 2 ^ 64 then some n else none
  | some (true, n) => if n < 2 ^ 64 then some ((2 ^ 64 - n) % 2 ^ 64) else none
  | none => none

/-- `operator<<` for a signed integer -/
def intDigits (i : Int) : Bytes := if i < 0 then 45 :: decDigits i.natAbs else decDigits i.natAbs

/-! ## CaProfile -/

/-- `boost::algorithm::to_lower_copy` in the "C" locale -/
def lowerByte (b : UInt8) : UInt8 := if 65 ≤ b && b ≤ 90 then b + 32 else b

/-- `boost::algorithm::to_lower_copy` -/
def toLower (s : Bytes) : Bytes := s.map lowerByte

/-- a loop that pushes one result per item and stops at the first exception -/
def forEach {α β : Type} (f : α → Res β) : List α → Res (List β)
  | [] => .ok []
  | a :: as => do
    let b ← f a
    let bs ← forEach f as
    .ok (b :: bs)

/-- the items of an optional section -/
def PTree.items (t : PTree) (key : Bytes) : List (Bytes × PTree) :=
  match t.child key with
  | some c => c.kids
  | none => []

/-- one item of "probe-parameters" (ca-profile.cpp:58-63) -/
def probeKeyOfItem (item : Bytes × PTree) : Res Bytes :=
  let key := toLower (item.2.getStr (bytes! "probe-parameter-key") [])
  if key = [] then .exc .runtime else .ok key

/-- `ChallengeModule::isChallengeSupported` (challenge-module.cpp:37-42) -/
def isChallengeSupported (ty : Bytes) : Bool := (createChallenge ty).isSome

/-- one item of "supported-challenges" (ca-profile.cpp:71-79) -/
def challengeOfItem (item : Bytes × PTree) : Res Bytes :=
  let ty := toLower (item.2.getStr (bytes! "challenge") [])
  if ty = [] then .exc .runtime
  else if !isChallengeSupported ty then .exc .runtime
  else .ok ty

/-- `Name(json.get(key, ""))` -/
def nameField (T : TextIO) (t : PTree) (key : Bytes) : Res Name := .ofOption .name (T.nameOfUri (t.getStr key []))

/-- the optional certificate (ca-profile.cpp:83-88) -/
def certField (T : TextIO) (t : PTree) : Option Cert :=
  let s := t.getStr (bytes! "certificate") []
  if s ≠ [] then T.loadCert s else none

/-- `json.get(CONFIG_MAX_VALIDITY_PERIOD, 86400)` (ca-profile.cpp:46) -/
def validityField (t : PTree) : Int :=
  match (t.child (bytes! "max-validity-period")).bind (fun c => readInt c.data) with
  | some v => v
  | none => 86400

/-- `json.get_optional<size_t>(CONFIG_MAX_SUFFIX_LENGTH)` (ca-profile.cpp:48-52) -/
def suffixField (t : PTree) : Option Nat := (t.child (bytes! "max-suffix-length")).bind (fun c => readSize c.data)

/-- `CaProfile::fromJson` (ca-profile.cpp:29-90) -/
def profileFromJson (T : TextIO) (t : PTree) : Res CaProfile := do
  let caPrefix ← nameField T t (bytes! "ca-prefix")
  if caPrefix = [] then .exc .runtime
  else do
    let hint ← nameField T t (bytes! "forwarding-hint")
    let keys ← forEach probeKeyOfItem (t.items (bytes! "probe-parameters"))
    let challenges ← forEach challengeOfItem (t.items (bytes! "supported-challenges"))
    .ok ⟨caPrefix, if hint = [] then caPrefix ++ [gcomp (bytes! "CA")] else hint, t.getStr (bytes! "ca-info") [], keys,
      validityField t, suffixField t, challenges, certField T t⟩

/-- the tree of a list of texts, each as the only child of an unnamed child (ca-profile.cpp:103-108, 112-117) -/
def listTree (key : Bytes) (l : List Bytes) : PTree :=
  .node [] (l.map (fun s => ([], PTree.node [] [(key, PTree.leaf s)])))

/-- `CaProfile::toJson` (ca-profile.cpp:92-126). The two lists are added under the EMPTY key; the forwarding hint is not written.
(`add_child("", _)` asserts in debug builds of boost that the path is not empty; the release behaviour is modelled.) -/
def profileToJson (T : TextIO) (p : CaProfile) : PTree :=
  .node [] (
    [(bytes! "ca-prefix", .leaf (T.uriOfName p.caPrefix)), (bytes! "ca-info", .leaf p.caInfo),
     (bytes! "max-validity-period", .leaf (intDigits p.maxValidityPeriod))]
    ++ (match p.maxSuffixLength with
        | some n => [(bytes! "max-suffix-length", .leaf (decDigits n))]
        | none => [])
    ++ (if p.probeParameterKeys ≠ [] then [([], listTree (bytes! "probe-parameter-key") p.probeParameterKeys)] else [])
    ++ (if p.supportedChallenges ≠ [] then [([], listTree (bytes! "challenge") p.supportedChallenges)] else [])
    ++ (match p.cert with
        | some c => [(bytes! "certificate", .leaf (T.saveCert c))]
        | none => []))

/-! ## CaConfig -/

/-- `CaConfig` as `load` leaves it (ca-configuration.hpp:52-75); the certificate of a redirection may be a null pointer -/
structure LoadedConfig where
  profile : CaProfile
  redirection : List (Option Cert × Redirection)
  assignments : List Assignment

/-- `RedirectionPolicy::createPolicyFunc` (redirection-policy.cpp:25-31) with the registered policies
(redirection-email.cpp:25, redirection-param.cpp:28); `none` = null -/
def createPolicy (ty param : Bytes) : Res (Option Redirection) :=
  if ty = bytes! "email" then do
    let r ← mkRedirectionEmail param
    .ok (some r)
  else if ty = bytes! "param" then do
    let r ← mkRedirectionParam param
    .ok (some r)
  else .ok none

/-- `NameAssignmentFunc::createNameAssignmentFunc` (assignment-func.cpp:40-46) with the registered functions
(assignment-random.cpp:27, assignment-param.cpp:25, assignment-hash.cpp:27, assignment-email.cpp:25) -/
def createAssignment (ty format : Bytes) : Option Assignment :=
  if ty = bytes! "random" then some .random
  else if ty = bytes! "param" then some (.param (nameFormat format))
  else if ty = bytes! "hash" then some (.hash (nameFormat format))
  else if ty = bytes! "email" then some (.email (nameFormat format))
  else none

/-- the comparison of the stated prefix with the certificate (ca-configuration.cpp:60-62): `caCert` is dereferenced without a null check -/
def checkRedirectPrefix (T : TextIO) (uri : Bytes) (cert : Option Cert) : Res Unit :=
  if uri = [] then .ok ()
  else do
    let n ← .ofOption .name (T.nameOfUri uri)
    match cert with
    | none => .ub .nullDeref
    | some c => if n ≠ c.identity then .exc .runtime else .ok ()

/-- one item of "redirect-to" (ca-configuration.cpp:53-73) -/
def redirectionOfItem (T : TextIO) (item : Bytes × PTree) : Res (Option Cert × Redirection) :=
  let uri := item.2.getStr (bytes! "ca-prefix") []
  let certText := item.2.getStr (bytes! "certificate") []
  if certText = [] then .exc .runtime
  else do
    let cert := T.loadCert certText
    checkRedirectPrefix T uri cert
    let ty := item.2.getStr (bytes! "policy-type") []
    let param := item.2.getStr (bytes! "policy-param") []
    if ty = [] then .exc .runtime
    else do
      match ← createPolicy ty param with
      | none => .exc .runtime
      | some p => .ok (cert, p)

/-- one item of "name-assignment" (ca-configuration.cpp:81-87) -/
def assignmentOfItem (item : Bytes × PTree) : Res Assignment :=
  match createAssignment item.1 item.2.data with
  | none => .exc .runtime
  | some a => .ok a

/-- `CaConfig::load` after `read_json` (ca-configuration.cpp:40-88) -/
def loadTree (T : TextIO) (t : PTree) : Res LoadedConfig :=
  if t.kids = [] then .exc .runtime
  else do
    let profile ← profileFromJson T t
    if profile.supportedChallenges = [] then .exc .runtime
    else do
      let redirection ← forEach (redirectionOfItem T) (t.items (bytes! "redirect-to"))
      let assignments ← forEach assignmentOfItem (t.items (bytes! "name-assignment"))
      .ok ⟨profile, redirection, assignments⟩

/-- `CaConfig::load` (ca-configuration.cpp:29-89) on the contents of the file -/
def loadConfig (T : TextIO) (file : Bytes) : Res LoadedConfig :=
  match T.readJson file with
  | none => .exc .runtime
  | some t => loadTree T t

/-- the name assignment functions of a running CA (constructor of `CaModule`, ca-module.cpp:57-59) -/
def moduleAssignments (l : LoadedConfig) : List Assignment :=
  if l.assignments = [] then [.random] else l.assignments

/-- the configuration of a running CA, if no redirection has a null certificate -/
def LoadedConfig.toCaConfig (l : LoadedConfig) : Option CaConfig :=
  (l.redirection.mapM (fun (e : Option Cert × Redirection) => e.1.map (fun c => (c, e.2)))).map (fun r => ⟨l.profile, r, moduleAssignments l⟩)

/-! ## ProfileStorage -/

/-- the profiles `ProfileStorage` knows, in order -/
abbrev Profiles := List CaProfile

/-- one item of "ca-list" (profile-storage.cpp:49-53) -/
def storedProfileOfItem (T : TextIO) (item : Bytes × PTree) : Res CaProfile := do
  let p ← profileFromJson T item.2
  if p.cert = none then .exc .runtime else .ok p

/-- `ProfileStorage::load(JsonSection)` (profile-storage.cpp:43-55); `get_child` throws if there is no such child -/
def loadProfilesTree (T : TextIO) (t : PTree) : Res Profiles :=
  match t.child (bytes! "ca-list") with
  | none => .exc .runtime
  | some c => forEach (storedProfileOfItem T) c.kids

/-- `ProfileStorage::load(fileName)` (profile-storage.cpp:27-41) on the contents of the file -/
def loadProfiles (T : TextIO) (file : Bytes) : Res Profiles :=
  match T.readJson file with
  | none => .exc .runtime
  | some t => if t.kids = [] then .exc .runtime else loadProfilesTree T t

/-- the tree `ProfileStorage::save` writes (profile-storage.cpp:60-63) -/
def profilesTree (T : TextIO) (ps : Profiles) : PTree := .node [] (ps.map (fun p => ([], profileToJson T p)))

/-- `ProfileStorage::save` (profile-storage.cpp:57-68): the contents of the file; `none` = throws -/
def saveProfiles (T : TextIO) (ps : Profiles) : Option Bytes := T.writeJson (profilesTree T ps)

/-- `ProfileStorage::removeCaProfile` (profile-storage.cpp:70-74) -/
def removeProfile (ps : Profiles) (caName : Name) : Profiles := ps.filter (fun p => !(p.caPrefix == caName))

/-- `ProfileStorage::addCaProfile` (profile-storage.cpp:76-86) -/
def addProfile : Profiles → CaProfile → Profiles
  | [], p => [p]
  | q :: qs, p => if q.caPrefix = p.caPrefix then p :: qs else q :: addProfile qs p

end Ndncert
