# Formal model of named-data/ndncert in Lean 4

## 1. Layout

* `properties.jsonl` - the English properties C01..; generated by `tools/mkprops.py`.
* `lean/Verif/Model/*.lean` - the model, function by function; every definition cites the file and
  lines of `/repo` it models and says what it simplifies.
* `lean/Verif/Spec/*.lean` - small specifications, written without using the model's helpers
  (only its data types), in which the property theorems are phrased.
* `lean/Verif/Lemmas/*.lean` - helper lemmas.
* `lean/Verif/Props/*.lean` - one theorem (or a few) per property, named `Cnn_...`; beside each one an
  `example` (or `_nonvacuous` theorem) showing that its hypotheses are met by a concrete non-trivial case.
* `MANIFEST.json` - property -> theorem names. `seeded/LOG.jsonl` - wrong programs the theorems were tried on.

## 2. Modelling decisions

* A byte is `UInt8`; `std::string`, `Buffer`, etc. are byte lists. A TLV `Block` is a type number and value
  bytes. The ndn-cxx TLV functions used by the code (`readVarNumber`, `Block::parse`,
  `readNonNegativeInteger`, `makeStringBlock`, ...) are modelled concretely at byte level.
* A C++ call has three outcomes (`Res`): normal return, exception, undefined behaviour. Undefined behaviour
  (out-of-bounds `memcpy`, null dereference) and an exception that leaves an Interest callback are
  distinct outcomes, never totalised away.
* A CA handler is a function from (configuration, storage, Interest, environment readings) to an
  *ordered list of effects* (storage operation, email, certificate issuance, Data sent, callback) plus a termination kind.
  A crash inside the handler is a prefix of that list.
* Clock readings and random draws are inputs of the step, chosen arbitrarily (by the adversary) unless
  a theorem says otherwise. Time is an integer number of nanoseconds.
  The clock type is a signed 64-bit count of nanoseconds. Overflow of it is undefined behaviour and is modelled
  where an amount from outside is added: the hours typed at the client (`addHours`) and the remaining time in a
  CHALLENGE reply (`addSeconds`). Sums of a clock reading and a configured constant are taken not to overflow.
* Cryptography (signatures, ECDH, HMAC-SHA256, HKDF, SHA-256, AES-GCM, certificate wire decoding) is a
  structure of *operations* passed as a parameter. Laws (e.g. decrypt after encrypt gives the plaintext,
  both sides of ECDH agree) are explicit hypotheses of the theorems that need them, never axioms, and
  a concrete instance satisfying all of them is given. No unforgeability is assumed anywhere:
  theorems say "the signature verified", not "the holder signed".
* Two storages: memory (`std::map`) and SQLite (rows with columns, nullable, truncated clocks).

## 3. Plan per property

| id | what is modelled | how it is proved |
|---|---|---|
| C01 | error encoder/decoder, requester reply handlers | byte-level TLV round trip; case analysis of the handlers |
| C02 | error decoder on the other encoders' output | element types written by each encoder |
| C03-C06 | request encoder/decoder | round trip; inversion of the decoder loop; C06 is false of the code (unchecked `memcpy`): negation by witness, plus exact characterisation as partial |
| C07-C09 | probe/info encoders | round trip by induction over lists |
| C10 | all decoders' element loops | induction over the element list |
| C11 | challenge encoder/decoder + AES-GCM block format | round trip under the AEAD law |
| C12 | `statusFromBlock` | false (accepts 5 and 6): witness; partial bound |
| C13-C17 | IV state machine | invariants by induction over call sequences |
| C18-C24, C26 | `onNewRenewRevoke` | inversion of the handler; equivalence with a declarative policy |
| C25 | same + storages | reachable-state invariant (id = HMAC of name) |
| C27 | CA + requester | composition, ECDH law |
| C28, C29, C31, C37, C39, C42 | `onChallenge` | case analysis of the handler; C39 false (missing element, oversized id): witnesses + partial |
| C30, C32, C33, C34, C40, C41 | transition system of the CA over events, crashes, restarts | inductive invariants over histories; C34 false as stated (clock restarts on each wrong try): witness + partial bound 3x |
| C35, C36 | `onChallenge` | false: witnesses + partial (only registered modules) |
| C38 | IV window in stored state | history invariant |
| C43, C44 | effect prefixes, restart | case analysis on prefixes |
| C45 | `generateSecretCode` | arithmetic, counting of preimages |
| C46-C48 | possession module | case analysis; C47, C48 false: witnesses + partial |
| C49, C50 | email module, command line quoting as done by boost::process | false: witnesses + partial |
| C51-C53 | storages | refinement to `id -> Option state`, bisimulation |
| C54-C59 | redirection policies, assignment functions on byte strings | equivalence with declarative specs; C58, C59 false in general: witnesses + partial |
| C60, C61 | `onProbe` | equivalence with spec; C61 false: witness + partial |
| C62 | CA + requester composed; outcome `died` if a message of somebody else ends the CA process | symbolic execution with laws |
| C63-C67 | requester | case analysis; C65 false (null certificate): witness + partial |
| C68-C70 | client tool | transition system; C69, C70 false: witnesses + partial |
| C71 | discovery names | name algebra |
| C72-C74 | profile storage, configuration | induction; C73 false: proof that load after save always fails |
| C75, C76 | CA server main (status callback, cache, repo output) | induction over the CA's histories |
| C77 | CA histories, IV state of pending requests | invariant over histories: counter intervals increase |
| C78 | CA + requester composed, email | symbolic execution with laws, others' messages interleaved |
| C79 | client tool | invariant over runs; every cause shown to occur |
| C80 | client tool, KeyChain contents | invariant over runs; second half false: witness + partial |
| C81 | client tool | invariant over runs |
| C82 | client tool | symbolic execution; false: witness + partial |
| C83 | `onNewRenewRevoke`, request ids | invariant over histories; injectivity of the name encoding |
| C84 | Interest filters of the CA module, dispatch by prefix | name algebra |
| C85 | dispatch and the filter of the CA server | invariant over histories; false: witness + partial |
| C86 | `CaSqlite` constructor's file name, `Name::toUri` | URI is injective; false: witness + partial |
| C87 | `ndncert-ca-status` on the database | invariant over histories |
| C88 | `parseConfigFile` over an abstract JSON reader | case analysis; C30 for histories |
| C89 | client tool, names and keys | invariant over runs |
| C90 | client tool, challenges and input lines | invariant over runs |
| C91 | client tool and server tool (without repo) in one model `Spec/Tools.lean`; the network delivers every packet once and gives the client the one Data that satisfies its Interest; excluded by hypothesis: CA prefix ending in `CA` (C71), a cached certificate in the way of the metadata (C85), redirection, a certificate named like a message to the CA | simulation of the requester session of C62/C78 by the client program, induction over the wrong codes; `.died` if a message of somebody else ends the CA process |
| C92, C93 | the OpenSSL wrappers of crypto-helpers.cpp call by call; each call may fail, with any return value that the manual pages allow | case analysis over all patterns of failures; both are false of the code (unchecked results): witnesses + what is detected; without failures the wrappers are shown to satisfy the laws assumed of `Crypto` |
| C94 | `fulfillParameters` with a KeyChain given by two functions | induction over the parameters; composition with requester and CA side of the module |
| C95 | `Face::put` with its limit of 8800 octets (`onFace`) on top of the handlers | false: for every CA an Interest is constructed whose error reply does not fit; bounds of the encoders' output give the partial theorems. Liveness theorems (C39, C62, C78, C91) are about handlers; with the face they need replies that fit |
| C96 | runs of the client as for C68 | classification of what each callback can do (`Shape`), and induction over the run |
| C97 | the same; a client without outstanding Interest stays in its event loop, since it waits for signals | false: a timeout; the classification gives the three causes |
| C98 | Two executions of `Exec` compared step by step (Spec/Independence: `OtherCode`, `NoRightCode`, `SameButCode`). Proof: the handlers on two requests that differ in the code have outcomes that differ in the code (Lemmas/Secrecy), then induction over both executions. Needs `ExactStore`, proved for both storages. Random words are compared, not probabilities: how likely a guess is right follows from C45 and C33. The clock readings are the same in both; timing of the comparison is not modelled. |
| C99 | `leftWith` takes the other Interests out of a history; induction over the execution builds the execution that is left (Lemmas/Independence). A kill while another's Interest was processed remains as a kill while idle. |
| C100 | The script as a function from the command line, the configuration and the failing calls to the calls of `smtplib` (Model/MailScript); `str.format` on templates given as pieces, the command line from C50. False of addresses with quotes or a leading hyphen: witnesses + partial. |
| C101 | The calls made are a prefix of the session; in it STARTTLS or a TLS connection comes before the login. False of other values of ENCRYPT_MODE: witness + partial. |
| C102 | Invariant over the runs of the client: which CA's profile is being looked for, and the step that led there (Lemmas/ClientTurn). |
| C103 | Reading of numbers by boost::property_tree against a grammar of numerals (Spec/Config), by case analysis on the text; composed with the policy checks of NEW and REVOKE (C18, C19). |
| C104 | JSON text and ISO times octet by octet (Model/JsonText, TimeText), the storage with texts in its rows (Model/TextStore). Structural induction on trees and strings; the calendar by induction on days; simulation between the two storages step by step. |
| C105 | JSON grammar as an inductive predicate (Spec/JsonGrammar), apart from the recursive-descent reader (Model/JsonText); soundness and completeness by induction on fuel and on derivations. URIs octet by octet (Model/Uri), round trip by induction on the name. The result replaces the abstract `TextIO` in `CaConfig::load` and `fromJson`. |
| C106 | The text printed, octet by octet (Model/Report); unique reading field by field: each ends at the first line feed, the JSON object where its parser ends, the certificate at the first line that is not indented. Induction on the list; composed with C87. |
| C107 | `getCaProfileData` with its cache, over all sequences of calls; replacing keys is a change of the `Crypto` parameter in its signing fields only (Spec/Rekey). Case analysis over the handlers: every Data put is signed with the current key. False of the code, two calls with different keys are the witness |
| C108 | Executions of any number of CAs, each with its own configuration and id key, on one storage (Model/Shared); the single-step lemmas of C30–C32 are about one step of one CA and are used again in an induction over such executions. False of the code: two histories on the SQLite storage are the witnesses |
| C109 | `Model/Race.lean`: processes on one SQLite database, each with at most one handler at work. A handler of CHALLENGE keeps the database it read and has its effects one at a time; the others have theirs at once. Processes die at any point; a DELETE may fail unnoticed. Invariant over all interleavings (`Lemmas/Race.lean`): every row, and every row some handler read, was accepted and is fresh or in a challenge that was started; what an UPDATE does to a row that has changed or gone (`sql_update_any`). False for the count of certificates and of codes; concrete schedules in `Spec/Race.lean` |
| C110 | Equivalences between the outcome of each decoder (Model/Encoders) and a description of the element list in Spec/Strict that runs no decoder: `LastSays`, `EachSays`, `Pairs`, `NonceAfterKey`, `Unseals`. Each decoder's step is turned into an inductive case list, the loops are handled by general lemmas on what a fold does to one field (Lemmas/Strict). |
| C111 | The connection to the repo (Model/Repo): each attempt has an outcome drawn by the network. Refinement of the server of C75/C76; the content of the repo as a filter of the packets C76 lists, by induction on the history. |
| C112 | `AssignmentRandom` (Model/Assign) in the PROBE handler; decimal numerals described by their digits (Spec/Random `DecimalOf`); the reply from C60, injectivity from the value of a numeral. |
| C113 | The client model of C68 with `Ended.threw` for exceptions outside the try blocks; causes in Spec/ClientCrash `CrashCause`; one lemma per callback saying when it throws, with two invariants (a request going on has its key; what was created is in the KeyChain). False: proved with a witness. |
| C114 | Model/Lifecycle: object alive or not, state of the registration, filters on the face; events confirm, refuse, Interest, destroy in any order that the face allows. Invariant: how things stand is determined by which events happened. False: proved with a witness; when exactly the dead object is used is proved. |
| C115 | Model/Lifecycle: the constructor over `loadConfig` and the storage factory; a null storage as a `StoreI` whose operations are `.ub .nullDeref`. False for unknown storage types. |
| C116 | Histories of Model/Ca: policy (C21) and duplicates (C25) over all executions, `Exec.keeps` in Lemmas/Occupied (a request stays until removed or restart). False: an unsigned REVOKE of somebody else comes first. |
| C117 | The same machinery; the witness is the pin run followed by the same NEW Interest. False: replays are accepted after the request is removed. |
| C118 | As C116; the time limit is universally quantified in the negation, the CA's certificate being renewed in the witness. False: requests have no lifetime. |
| C119 | Two parts: runs of a `Request` object (`ReqRun`, any calls in any order) for the impossibility; the session of C62 and C78 with a REVOKE turn (`Spec/Revoke.lean`) for what happens once the key pair is set. False: no key pair is set by `genRevokeInterest`, and the CA has no code that revokes. |
| C120 | Induction over the run of a `Request` object; between two CHALLENGE Interests the counter of the IV only grows (`ReqRun.iv_mono`). IVs are read from the bytes of the Interests. |
| C121 | As C120; the key and id are followed from the accepted reply to the Interest, both read from the bytes of the packets. False before a reply and after a refused one. |
| C122 | Case analysis on the call, with the invariant that key, nonce and id have their sizes; `ReqUb` lists the causes in terms of packets. |
| C123 | Runs of a `Request` object as in C120; simulation between objects of different types, and the names of the Interests returned. False: the type is never read. |
| C124 | Exceptions have kinds in the model (`Exc`); each function is followed to its throwing points. |
| C125 | The pattern as a regular expression, matched with derivatives (Model/EmailCheck), proved equal to the textbook meaning; the characters in words (Spec/Email). False of the code (the dot is not escaped, and nothing calls the check): witnesses + partial. |
| C126 | Parametricity: the operations on secret keys are replaced by others that do the same with other keys (Spec/SecretKeys), and every handler and method is shown to commute with the exchange of keys; over all executions and call sequences. For what is typed: two runs with encryptions that give the same ciphertext. Not covered: timing, log output, memory contents. |
| C127 | The parser of boost::program_options, word by word (Model/Options), proved equal to an inductive description of command lines (Spec/Options), both ways; then what `main` makes of the options. |
| C128 | `main` of ndncert-ca-server up to the event loop (Model/Main), from C127, C105, C115 for the start and C74, C01, C03, C04 for the executions; sizes of names bounded by the size of the file. |
| C129 | `main` of ndncert-ca-status with a directory of databases (Model/Main), from C127 and C106. False: shared file names, databases made by asking. |
| C130 | Executions in which the configuration changes at restarts (Spec/Reconfigure), for the same prefix. Proved by simulation: the same storage changes, certificates and mails happen in an execution with one configuration that admits all that any of them admits (Lemmas/Reconfigure), to which C30 applies. False for what is issued: requests accepted before keep their terms. |
| C131 | `main` of ndncert-client (Model/Options, Model/ClientMain): its command line with the grammar of C127, then the runs of C68, C96, C102 on the file it means. |
| C132 | Executions of the CA (C30) and runs of a Request object (C120) side by side, with any reply passed to the object (Spec/Agreement). What a network cannot do are hypotheses: forge the CA's signature, find two Interests with one digest, open what was sealed with another key. The reply is traced to the step that sent it, and the decoders of the requester are run on what that step encoded. |
| C133 | `io::save` and `io::load` as base64 functions on octets (Model/Base64), against the groups of RFC 4648 (Spec/Base64), by induction on groups and lines; then C105 with these in place of arbitrary operations. |
| C134 | Data and Interest packets as octets (Model/Packet): encoding, decoding, signed ranges, made into the operations of `Crypto` over an arbitrary signature scheme | parsing a prefix of the elements gives injectivity of the signed octets; round trips by the TLV lemmas; C31 for issued packets |
| C135 | Text of the exception octet by octet (Model/Messages); unique reading: the names of the codes have no blank, numbers of unknown codes end at `>`. One pass over all handlers collects the error replies with the branch they come from (Lemmas/Messages); over executions with the lemmas of C30–C33. |
| C136 | executions of the CA; its certificate and the clock readings are part of the surroundings of each step | false: a run in which the certificate expires between NEW and the right code (both parts); partial from C30 and the check at acceptance |
| C137 | the same; a completed revocation is a step with an authentic CHALLENGE that removes a request of type REVOKE and sends a reply that is no error (Spec/Revoked) | case analysis of the handler and the invariant over executions behind C30 |
| C138 | the same with the server's variables (Model/Server) | false: a run in which a certificate is issued, revoked and still served, and revoked again; partial: the status callback; a general theorem that nothing changes |
| C139 | the reply of the step that continues a challenge, what the storage keeps of it, and the comparison in the next CHALLENGE (no new model) | case analysis of the announcing step; induction over the steps in between; the time stamp is kept to a microsecond and the announced seconds are at most the lifetime |
| C140 | the decoder of Model/Packet; the format of a certificate is a specification of its own (Spec/Formed: order and number of elements, content type, SignatureInfo, validity period) | the decoder accepts nothing else, by induction over the elements; digests in the names of Interests from the definitions of the generators |
| C141 | executions of the CA; the version in a name is a component in the surroundings of each step, taken from a clock of any unit | false: a run with two requests for one key, completed within a millisecond; partial from C31 for both certificates and the number read back from the version |
| C142 | executions of the CA with restarts and crashes; the emails among the effects of each step | invariant: emails sent plus requests without a challenge ≤ accepted requests plus deaths before a reply; a request whose challenge was started stays so until it is created again; both bounds reached by examples |
| C143 | the same executions | from C30 and C137, which give the step that started the challenge; the emails of that step from the cases of the CHALLENGE handler; no later email from C142's invariant of started challenges |
| C144 | executions of the CA, then the same Interest once more | false: the start of a PIN challenge received twice removes the request; partial, for every history: from the counters of C38, the request is always removed, with an error reply, and no other request is touched (C28, C29) |
| C145 | executions of the CA on a storage whose content survives reopening | induction over the execution: a request stays pending with its certificate until the first step whose storage operation is its removal; the reply of that step from the facts about replies behind C37 and C43 and from C42 |
| C146 | executions of the CA and sequences of calls on a Request object, then a packet that does not open under its key | false: the CA's reply to another requester makes a waiting object refuse its own reply; partial: case analysis of the decryption and of the code that makes Interests: only the record of the IV may change, and not even that after a first reply |
| C147 | executions of the CA and sequences of calls on a Request object, then any packet as a reply to NEW, then its own reply | false: the reply to another requester's NEW is taken; partial: only the request id and the key depend on earlier replies, and the own reply replaces both (from the exact description of accepted replies, C110) |

Not modelled at all: logging, `operator<<` of `RequestType` (used in logging only), the moments of the start at which a signal may end `ndncert-ca-server`, the SQL engine itself (only the
statements' meaning), DNS/NDNLP, terminal output and its formatting.

## 4. Trusted base

**Proof checker.** Lean 4.33.0's kernel. Every theorem of the manifest depends on at most `propext`, `Classical.choice` and
`Quot.sound` (checked with `#print axioms`). There are no axioms of our own, no `sorry`, `native_decide` or `bv_decide`. Examples use
`decide` or `decide +kernel`, both accepted by the kernel.

**Correspondence of model and code.** The model was written by reading `/repo`; nothing was compiled or run. Each definition names
the lines it stands for.

| code | modelled | left out |
|---|---|---|
| src/detail/*-encoder.cpp, error-encoder | every function, bytes in and out | |
| src/detail/crypto-helpers.cpp | IV and block format at byte level; the wrappers call by call (`Model/OpenSsl.lean`) | that memory is freed |
| src/ca-module.cpp | all handlers, construction, registration, destruction, dispatch, effects in order | log text |
| src/challenge/* | the modules pin, email, possession and the factory, CA and requester side, `fulfillParameters`, `isValidEmailAddress` | text of prompts |
| ndncert-send-email-challenge.py | arguments, settings, templates, the calls to the mail server in order | MIME encoding, time-outs, the help option's status |
| src/detail/ca-memory, ca-sqlite | every operation; rows and columns | SQL engine, file locking |
| src/detail/ca-configuration, profile-storage, ca-profile | JSON documents as trees; JSON text for `read_json` and `write_json` of boost 1.71 (Model/JsonText), base64 (Model/Base64) | |
| src/name-assignment/*, src/redirection/* | all functions | |
| src/requester-request.cpp | all functions; the object under any order of calls (`Model/RequestObject.lean`) | |
| tools/ndncert-client.cpp | the whole program as a reaction to input lines, packets, timeouts and signals | texts printed; `exit` handlers |
| tools/ndncert-ca-server.cpp | `main` from the command line to the event loop, cache, repo writes, prefix handling; a signal while it serves is a restart | signals during the start |
| tools/ndncert-ca-status.cpp | `main`, what it lists, and the text | the text ndn-cxx prints for a certificate is arbitrary lines |

**Meaning given to libraries** (assumed, not proved):

* ndn-cxx: TLV functions at byte level; `Name`, `Certificate`, `Interest` and `Data` as records; `InterestFilter` by prefix; the face
  delivers to a callback only a Data that satisfies its Interest (used by C81 and C91); the validator of trust anchors as in
  `Model/Files.lean`; `Name::append` of a string taken to append one generic component; the canonical URI spelling only, with
  alternate spellings (`v=5`, `sha256digest=`) outside the model; reading URIs as in `Model/Uri.lean`. In C72 to C74, C88 and C103 the
  conversions of URI, JSON and certificate texts are arbitrary operations, with laws as hypotheses where needed; C105 puts in the
  modelled readers. The base64 text of certificates is an arbitrary operation
  except in C133, which puts in the modelled one (the filter of OpenSSL taken to leave out blanks; what it does with lines that are not base64 is not modelled).
* Cryptography: operations of the structure `Crypto`, with laws `Crypto.Lawful` (functional: decryption inverts encryption, ECDH
  commutes, sizes) and `Crypto.Honest` (signatures made are verified, issued certificates can be decoded) as hypotheses of the theorems
  that need them; `Spec/Toy.lean` gives an instance satisfying all. Nothing is assumed about what an adversary can compute, except
  where a theorem says so (C92 derives the AEAD part of the laws from those of `OpenSsl.Prims`, C134 the part about certificates, replies
  and Interests from the packet format and `KeyRing.Lawful`; there SignatureNonce and SignatureTime are left out).
* ndn-cxx: the constructor of `Certificate` checks the name and format, `wireDecode` (inherited from `Data`) does not; should a version
  check in both places, `decodeData` is `decodeCert` and only `C39_false_credential` is lost.
* ndn-cxx: `getKeyLocator()` throws for a signature without one (`Crypto.hasLocator` says which packets have one), and printing a
  certificate without validity period throws; all else the client prints is taken not to throw.
* OpenSSL: per the 1.1.1 manual pages, a failing call returns 0 or a negative value and leaves its output unchanged.
* boost: `program_options` with its default style (long names with and without `=`, abbreviations, short names with joined or following value, groups, `--`), as in its source; `process::child` with arguments as the words of the command line; `property_tree` as a tree, `get` with default as documented.
* C++: `std::regex_match` decides membership in the language of its pattern (C125); its recursion limit is not modelled.
* Python: `argparse`, `configparser` (values as strings after interpolation), `str.format`, `email.mime` and `smtplib` as documented.
* SQLite: statements act on rows as written; each statement is atomic and durable once executed.
* C++: integer widths as on x86-64 Linux; undefined behaviour ends a run in the model, so that theorems say nothing of what follows it.

**Outcomes.** A handler ends `done`, by an exception that leaves the callback (ends the process), or in undefined behaviour. In the
session theorems (C62, C78, C91) the outcome `.died` is allowed only if a message of somebody else ended the CA process.

## 5. Properties that are false of the code

Each is kept in full as a definition or as the negated statement of a theorem `Cnn_false`, proved with a concrete witness; the
part that holds is proved as `Cnn_..._partial` (or a theorem saying exactly when it holds). The manifest's notes name the cause. All
claims with status `partial` are of this kind.
