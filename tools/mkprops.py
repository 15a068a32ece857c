#!/usr/bin/env python3
# Generates /verif/properties.jsonl
import json
P=[]
def p(title, statement, quantifier, why, *anchors):
    P.append(dict(id="C%02d"%(len(P)+1), title=title, statement=statement,
      quantifier=quantifier, why_tests_cant=why, anchors=list(anchors)))

# --- wire formats -----------------------------------------------------------
p("Error replies survive the wire",
  "For every error code and every description, errortlv::decodefromDataContent applied to the block produced by errortlv::encodeDataContent returns exactly that code and description; and a requester that receives a correctly signed error reply with a non-zero code (to PROBE, NEW/REVOKE or CHALLENGE) always throws carrying that code and description and never updates its status, challenge, request id, key or nonce.",
  "all 64-bit error codes, all byte-string descriptions, all requester states, all three reply handlers",
  "the space of codes, descriptions and requester states is unbounded; the unit test checks one literal pair",
  "src/detail/error-encoder.cpp:encodeDataContent","src/detail/error-encoder.cpp:decodefromDataContent","src/requester-request.cpp:Request::processIfError")
p("Successful replies are never mistaken for errors",
  "A reply content built by the CA for a successful PROBE, NEW/REVOKE or CHALLENGE is always classified as NO_ERROR by the requester's error check, whatever names, keys, challenges or ciphertext it carries.",
  "all successful reply contents the CA encoders can produce",
  "depends on every possible ciphertext / name / challenge list, which tests sample",
  "src/detail/error-encoder.cpp:decodefromDataContent","src/detail/request-encoder.cpp:encodeDataContent","src/detail/probe-encoder.cpp:encodeDataContent","src/detail/crypto-helpers.cpp:encodeBlockWithAesGcm128")
p("NEW/REVOKE parameters survive the wire",
  "For NEW and for REVOKE, requesttlv::decodeApplicationParameters applied to requesttlv::encodeApplicationParameters(type, pub, cert) yields exactly pub and cert, for every public key byte string and every decodable certificate.",
  "all ECDH public key byte strings, all certificates, both request types",
  "unbounded inputs; only REVOKE with one key is exercised",
  "src/detail/request-encoder.cpp:encodeApplicationParameters","src/detail/request-encoder.cpp:decodeApplicationParameters")
p("NEW/REVOKE parameter decoding is strict",
  "requesttlv::decodeApplicationParameters returns normally only if the parameters contain exactly one ECDH-PUB element and exactly one certificate element of the kind that belongs to the request type (containing a decodable certificate), and no other element of a critical type; and whenever it does return, the returned key and certificate are the ones in those elements.",
  "all byte strings an attacker can put into ApplicationParameters",
  "arbitrary attacker controlled bytes",
  "src/detail/request-encoder.cpp:decodeApplicationParameters")
p("NEW/REVOKE replies survive the wire",
  "requesttlv::decodeDataContent applied to requesttlv::encodeDataContent(pub, salt, id, challenges) returns the same public key, salt, request id and the challenges in the same order.",
  "all public keys, all 32-byte salts, all 8-byte ids, all challenge lists",
  "unbounded list of challenge names and key bytes",
  "src/detail/request-encoder.cpp:encodeDataContent","src/detail/request-encoder.cpp:decodeDataContent")
p("Decoding a NEW/REVOKE reply is memory safe",
  "requesttlv::decodeDataContent never writes outside the caller's 32-byte salt and 8-byte request id, whatever content it is given.",
  "all content blocks",
  "memory safety over all malformed inputs; a unit test only runs inputs someone thought of",
  "src/detail/request-encoder.cpp:decodeDataContent")
p("PROBE parameters survive the wire",
  "probetlv::decodeApplicationParameters applied to probetlv::encodeApplicationParameters(m) returns the multimap m, including repeated keys and their order, empty strings and arbitrary bytes.",
  "all finite multimaps of byte strings",
  "unbounded multimaps; the unit test uses two entries with distinct keys",
  "src/detail/probe-encoder.cpp:encodeApplicationParameters","src/detail/probe-encoder.cpp:decodeApplicationParameters")
p("PROBE replies survive the wire",
  "probetlv::decodeDataContent applied to probetlv::encodeDataContent(names, maxSuffixLength, redirects) appends exactly the given names in order (each with the given max suffix length, 0 if none) and exactly the given redirections in order, for non-empty names and a max suffix length below 2^31.",
  "all lists of non-empty names, all optional max suffix lengths, all redirection lists",
  "unbounded lists; the test uses two names",
  "src/detail/probe-encoder.cpp:encodeDataContent","src/detail/probe-encoder.cpp:decodeDataContent")
p("CA profile survives the wire",
  "infotlv::decodeDataContent applied to infotlv::encodeDataContent(profile, cert) returns the same CA prefix, CA info (or the documented 'Issued by ...' text when the info is empty), probe keys in order, max validity period and certificate.",
  "all CA profiles and certificates",
  "unbounded profiles",
  "src/detail/info-encoder.cpp:encodeDataContent","src/detail/info-encoder.cpp:decodeDataContent")
p("Unknown elements: critical rejected, non-critical ignored",
  "In the PROBE-parameter, PROBE-reply, NEW/REVOKE-parameter, NEW/REVOKE-reply and INFO decoders, inserting an element of an unrecognised non-critical type at any top-level position (for PROBE parameters: at any position between key/value pairs) does not change the outcome, and the presence of an unrecognised element of a critical type makes decoding throw.",
  "all element lists, all insertion positions, all unrecognised types",
  "every position and every type number",
  "src/detail/probe-encoder.cpp","src/detail/request-encoder.cpp","src/detail/info-encoder.cpp")
p("CHALLENGE replies survive the wire",
  "A CHALLENGE reply encoded by the CA from a request state and decoded by the requester holding the same AES key and request id gives the requester exactly the CA's status, and, when present, the challenge status, remaining tries, remaining time (as a deadline relative to the requester's clock), the 16-byte nonce for need-proof, the issued certificate name and the forwarding hint.",
  "all CA request states with encodable fields, all requester states whose IV window admits the reply",
  "unbounded state space on both ends",
  "src/detail/challenge-encoder.cpp:encodeDataContent","src/detail/challenge-encoder.cpp:decodeDataContent")
p("Only defined statuses are accepted from the wire",
  "statusFromBlock returns normally only for the five defined status values 0..4.",
  "all status blocks",
  "all 64-bit integers and malformed encodings",
  "src/detail/ca-request-state.cpp:statusFromBlock")

# --- AES-GCM channel --------------------------------------------------------
p("No IV is ever reused for encryption",
  "In any sequence of successful calls of encodeBlockWithAesGcm128 that share one encryption IV state and use non-empty payloads, the IVs carried in the produced blocks are pairwise distinct, and they all share the 8-byte random prefix of the first.",
  "all sequences of calls of any length, all payload sizes (within the AES-GCM limit of 2^36-32 bytes), all random prefixes, failed calls interleaved",
  "needs all interleavings and lengths up to 2^32 blocks",
  "src/detail/crypto-helpers.cpp:encodeBlockWithAesGcm128","src/detail/crypto-helpers.cpp:updateIv")
p("The block counter never wraps",
  "encodeBlockWithAesGcm128 and decodeBlockWithAesGcm128 either advance the 32-bit counter of the IV by exactly the number of 16-byte blocks of the payload, without wrapping, or throw.",
  "all counters, all payload sizes within the AES-GCM limit of 2^36-32 bytes",
  "boundary at 2^32-1 after billions of blocks",
  "src/detail/crypto-helpers.cpp:updateIv")
p("Replayed ciphertext is rejected",
  "Once decodeBlockWithAesGcm128 has accepted a block with non-empty plaintext, it throws on that same block, and on any block whose IV counter is not beyond the blocks consumed, at any later time with the same IV state, whatever was accepted or rejected in between.",
  "all sequences of blocks presented to one decryption state",
  "arbitrary adversarial schedules of deliveries",
  "src/detail/crypto-helpers.cpp:decodeBlockWithAesGcm128")
p("Reflected ciphertext is rejected",
  "decodeBlockWithAesGcm128 throws on any block whose IV has the same random prefix as the party's own encryption IV; in particular on every block the party itself produced.",
  "all blocks, all histories of own encryptions",
  "adversarial reflection of any earlier message",
  "src/detail/crypto-helpers.cpp:decodeBlockWithAesGcm128")
p("Lossy in-order delivery always decrypts",
  "If the blocks produced by one party's successful calls of encodeBlockWithAesGcm128 are delivered to the peer in order, with an arbitrary subset lost, each delivered block is accepted and yields exactly its plaintext (same key and associated data, distinct prefixes).",
  "all message sequences, all loss patterns",
  "all subsets of all sequences",
  "src/detail/crypto-helpers.cpp:encodeBlockWithAesGcm128","src/detail/crypto-helpers.cpp:decodeBlockWithAesGcm128")

# --- CA: NEW / REVOKE -------------------------------------------------------
p("Name policy for NEW and REVOKE",
  "Whenever the CA accepts a NEW or REVOKE (adds a pending request), the identity in the submitted certificate is strictly below the CA prefix and exceeds it by at most max-suffix-length components when that is configured.",
  "all Interests, configurations, clocks, storage contents",
  "arbitrary attacker chosen names",
  "src/ca-module.cpp:CaModule::onNewRenewRevoke")
p("Validity policy for NEW",
  "Whenever the CA accepts a NEW, the requested period satisfies notBefore >= now-120s, notAfter <= now+max-validity-period and notBefore < notAfter.",
  "all Interests, configurations, clocks",
  "all pairs of times and boundary values",
  "src/ca-module.cpp:CaModule::onNewRenewRevoke")
p("Proof of key possession for NEW, CA origin for REVOKE",
  "Whenever the CA accepts a NEW, the submitted certificate verifies under its own key and the Interest signature verifies under that key; whenever it accepts a REVOKE, the submitted certificate verifies under the CA's current certificate.",
  "all Interests and signature oracles",
  "all forgeries",
  "src/ca-module.cpp:CaModule::onNewRenewRevoke")
p("NEW/REVOKE acceptance is exactly the policy",
  "A NEW/REVOKE Interest is accepted if and only if: the CA certificate is currently valid, the parameters decode to a non-empty ECDH key for which a shared secret can be derived, the name policy holds, (NEW) the certificate states a validity period satisfying the policy and both signatures verify, (REVOKE) the certificate verifies under the CA certificate, and no request with the same derived id is pending. Each refused Interest is answered with the error code of the first failing check in that order.",
  "all Interests, configurations, clocks, storage contents",
  "completeness and error priority over all combinations",
  "src/ca-module.cpp:CaModule::onNewRenewRevoke")
p("Expired CA certificate stops NEW and REVOKE",
  "While the CA's own certificate states a validity period that does not contain the present, every NEW and REVOKE is answered with BAD_VALIDITY_PERIOD and changes nothing.",
  "all Interests, all storage contents",
  "all inputs",
  "src/ca-module.cpp:CaModule::onNewRenewRevoke")
p("A refused NEW/REVOKE leaves no trace",
  "If a NEW/REVOKE is not accepted, storage is unchanged, no status callback fires, and nothing but at most one error Data is sent.",
  "all Interests, all storage contents",
  "all failing paths",
  "src/ca-module.cpp:CaModule::onNewRenewRevoke")
p("An accepted NEW/REVOKE creates exactly one fresh request",
  "If a NEW/REVOKE is accepted, storage gains exactly one request whose id was not present before, in status 'before challenge', of the right type, holding the submitted certificate, no challenge and empty IVs; every other pending request is untouched; exactly one reply is sent, carrying that id.",
  "all Interests, all storage contents",
  "frame condition over all storage contents",
  "src/ca-module.cpp:CaModule::onNewRenewRevoke","src/detail/ca-memory.cpp:addRequest")
p("Duplicate submissions do not disturb a pending request",
  "While a request is pending, submitting again a certificate of the same name to the same CA instance is refused with INVALID_PARAMETER and the pending request is unchanged.",
  "all histories leaving a request pending",
  "all histories",
  "src/ca-module.cpp:CaModule::onNewRenewRevoke","src/detail/ca-memory.cpp:addRequest","src/detail/ca-sqlite.cpp:addRequest")
p("Every NEW/REVOKE Interest gets exactly one reply",
  "For every NEW/REVOKE Interest the CA sends exactly one Data, whose name equals the Interest name, and keeps running.",
  "all Interests",
  "all malformed inputs",
  "src/ca-module.cpp:CaModule::onNewRenewRevoke")
p("Both ends agree on the AES key and request id",
  "If the CA accepts a NEW generated by a requester, then the requester processing the CA's reply ends with the same request id and AES key the CA stored, and the CA's supported challenges in order.",
  "all key pairs, salts, certificates, configurations",
  "all random draws",
  "src/ca-module.cpp:CaModule::onNewRenewRevoke","src/requester-request.cpp:Request::onNewRenewRevokeResponse")

# --- CA: CHALLENGE ----------------------------------------------------------
p("Only the holder of the request key can affect a pending request",
  "A CHALLENGE Interest (with a request-id component of at most eight octets; see C39 for longer ones) that names no pending request, or whose signature does not verify under the key of the named pending request's certificate, changes nothing in storage, triggers no email and no callback, issues nothing, and is answered with an error.",
  "all Interests, all storage contents",
  "all forgeries",
  "src/ca-module.cpp:CaModule::onChallenge","src/ca-module.cpp:CaModule::getCertificateRequest")
p("Requests are isolated from each other",
  "Processing a CHALLENGE Interest (with a request-id component of at most eight octets) for one request never changes, removes or adds any other request, at any point of the handler.",
  "all Interests, all storage contents",
  "frame condition over all storage contents",
  "src/ca-module.cpp:CaModule::onChallenge")
p("Certificates are only issued after the policy checks and a passed challenge",
  "In every execution of the CA (any sequence of Interests, crashes and restarts, with either storage), whenever a certificate is issued there is an earlier accepted NEW in the same execution whose submitted certificate has the same key name, public key and validity period, that NEW satisfied the name, validity and possession policies when it was accepted, and the CHALLENGE Interest that triggered the issuance verified under that key and carried either the exact secret code the CA generated for that request or a valid signature, under a credential certified by a configured trust anchor, over the nonce the CA generated for it.",
  "all event histories of any length from an empty storage, all clocks, all random draws",
  "histories of unbounded length with adversarial messages",
  "src/ca-module.cpp","src/challenge/challenge-pin.cpp","src/challenge/challenge-email.cpp","src/challenge/challenge-possession.cpp")
p("Issued certificates say exactly what was requested",
  "An issued certificate is named <requested key name>/NDNCERT/<version>, carries the requested public key and the requested validity period, and is signed by the CA identity; its identity is strictly below the CA prefix.",
  "all pending requests",
  "all names, keys and periods",
  "src/ca-module.cpp:CaModule::issueCertificate")
p("At most one certificate per accepted request",
  "In every execution, the number of certificates handed out in CHALLENGE replies never exceeds the number of accepted NEW requests, even when the process is killed at arbitrary points; a request that led to issuance is removed from storage before the reply is sent, and further CHALLENGE Interests for its id are answered with an error until a new NEW recreates it.",
  "all event histories including crashes at any point inside a handler",
  "all histories and crash points",
  "src/ca-module.cpp:CaModule::onChallenge")
p("At most three guesses per secret",
  "In every execution, for one accepted request at most three CHALLENGE Interests carrying a wrong code are answered, i.e. an attacker learns the outcome of at most three guesses; with the third wrong one the request is removed with OUT_OF_TRIES and its secret can never be used again.",
  "all event histories",
  "all interleavings of guesses, restarts and other traffic",
  "src/challenge/challenge-pin.cpp:handleChallengeRequest","src/challenge/challenge-email.cpp:handleChallengeRequest")
p("Secrets expire after their advertised lifetime",
  "A code is accepted only within the challenge's secret lifetime (3600 s for pin, 300 s for email) after it was generated.",
  "all event histories and clocks",
  "all schedules",
  "src/challenge/challenge-pin.cpp:handleChallengeRequest","src/challenge/challenge-email.cpp:handleChallengeRequest","src/challenge/challenge-module.cpp:returnWithNewChallengeStatus")
p("Only configured challenges are accepted",
  "A CHALLENGE Interest selecting a challenge that is not in the CA's supported-challenges list is refused.",
  "all configurations and Interests",
  "all configurations",
  "src/ca-module.cpp:CaModule::onChallenge")
p("The challenge type cannot be switched midway",
  "Once a request has started one challenge type, its code is only ever checked by that challenge's rules.",
  "all event histories",
  "all histories",
  "src/ca-module.cpp:CaModule::onChallenge")
p("A failed challenge removes the request",
  "Whenever the CA answers a CHALLENGE Interest (with a request-id component of at most eight octets) that verified under the request's key with an error, the request is gone from storage.",
  "all Interests, all storage contents",
  "all failing paths",
  "src/ca-module.cpp:CaModule::onChallenge")
p("A replayed CHALLENGE Interest never makes progress",
  "A CHALLENGE Interest that the CA already answered without error, presented again in any later state of the same request, is answered with an error; it never issues a certificate, never sends an email and never advances the challenge (like any failed challenge it removes the request).",
  "all event histories",
  "adversarial replays at any later time",
  "src/ca-module.cpp:CaModule::onChallenge","src/detail/crypto-helpers.cpp:decodeBlockWithAesGcm128")
p("The CA survives every CHALLENGE Interest",
  "For every CHALLENGE Interest the CA handler returns normally (no escaped exception, no undefined behaviour) and sends exactly one Data named as the Interest.",
  "all Interests",
  "all malformed inputs",
  "src/ca-module.cpp:CaModule::onChallenge","src/ca-module.cpp:CaModule::getCertificateRequest")
p("Stored requests are always waiting",
  "In every execution every stored request is in status 'before challenge' (and then has no challenge state) or 'challenge' (and then has a challenge state with between one and three remaining tries and a recognised challenge status); the CA never stores pending, success or failure.",
  "all event histories",
  "invariant over all histories",
  "src/ca-module.cpp","src/challenge/challenge-module.cpp")
p("REVOKE never issues a certificate",
  "No CHALLENGE Interest for a request created by REVOKE ever leads to an issued certificate; its success only removes the request.",
  "all event histories",
  "all histories",
  "src/ca-module.cpp:CaModule::onChallenge")
p("Status callback mirrors the protocol",
  "The status callback fires exactly once for each successfully processed NEW/REVOKE/CHALLENGE, after the reply was sent, with the state after processing, and never for a refused one.",
  "all Interests, all storage contents",
  "all paths",
  "src/ca-module.cpp:CaModule::onNewRenewRevoke","src/ca-module.cpp:CaModule::onChallenge")
p("Crash safety of the CHALLENGE handler",
  "If the CA process is killed at any point inside the handling of a CHALLENGE Interest, then after restart from the persistent storage: no reply that left the CA is contradicted by storage (a disclosed wrong-code reply has its guess consumed, a disclosed success has its request removed), and every other request is untouched.",
  "all crash points in all handler executions",
  "every crash point",
  "src/ca-module.cpp:CaModule::onChallenge","src/detail/ca-sqlite.cpp")
p("Pending requests survive a restart",
  "With persistent storage, restarting the CA does not change how any pending request's CHALLENGE Interests are answered.",
  "all storage contents, all subsequent Interests",
  "all states",
  "src/ca-module.cpp:CaModule::CaModule","src/detail/ca-sqlite.cpp")

# --- challenges -------------------------------------------------------------
p("Secret codes are six digits and uniform",
  "generateSecretCode always returns exactly six decimal digits, and among the accepted 32-bit random words every code 000000..999999 is produced by exactly the same number of words.",
  "all 2^32 random words",
  "exhaustive distribution statement",
  "src/challenge/challenge-module.cpp:generateSecretCode")
p("Possession challenge accepts only certified credentials",
  "The possession module starts a challenge only for a credential that verifies under a configured trust anchor named by its key locator, and reports success only if the presented proof verifies, under that stored credential's key, over the 16-byte nonce handed out.",
  "all parameters, anchors, states",
  "all forgeries",
  "src/challenge/challenge-possession.cpp:handleChallengeRequest")
p("The possession challenge can be completed with the library's own requester",
  "A requester using Request/ChallengePossession with a credential certified by the CA's trust anchor can complete the possession challenge at the CA.",
  "all honest runs",
  "the unit test bypasses CaModule and the type string",
  "src/challenge/challenge-possession.cpp","src/requester-request.cpp:genChallengeInterest","src/ca-module.cpp:CaModule::onChallenge")
p("Possession proofs expire",
  "A possession proof is only accepted within the module's 60 s secret lifetime after the nonce was handed out.",
  "all clocks",
  "all schedules",
  "src/challenge/challenge-possession.cpp:handleChallengeRequest")
p("The emailed code goes to the address in the requested name",
  "The email challenge sends the secret only to the address equal to the last component of the requested identity.",
  "all requests and parameters",
  "all inputs",
  "src/challenge/challenge-email.cpp:handleChallengeRequest")
p("The email script is invoked with exactly four arguments",
  "sendEmail runs the configured script with exactly the four arguments address, code, CA prefix URI and certificate name URI, whatever address the requester supplied.",
  "all byte strings as address",
  "injection over all strings",
  "src/challenge/challenge-email.cpp:sendEmail")

# --- storage ----------------------------------------------------------------
p("In-memory storage behaves like a map",
  "Under any sequence of add/update/delete/get/list calls the memory storage behaves like a finite map from request id to request state: add fails iff present, get returns the latest value or throws, delete is idempotent, listAllRequests returns each entry exactly once, listAllRequests(ca) exactly those of that CA.",
  "all operation sequences",
  "all histories",
  "src/detail/ca-memory.cpp")
p("SQLite storage behaves like a map",
  "Under any sequence of add/update/delete/get/list calls with representable states the SQLite storage behaves like the same finite map.",
  "all operation sequences",
  "all histories",
  "src/detail/ca-sqlite.cpp")
p("The two storages are interchangeable for the CA",
  "Started empty and driven by the same messages (clock readings on whole microseconds) without a restart in between, a CA with SQLite storage and a CA with memory storage produce identical replies, emails, callbacks and issued certificates.",
  "all sequences of messages, clock readings and random draws between two restarts",
  "bisimulation over all histories",
  "src/detail/ca-memory.cpp","src/detail/ca-sqlite.cpp","src/ca-module.cpp")

# --- probe ------------------------------------------------------------------
p("Email redirection matches exactly the domain",
  "The email redirection policy redirects iff some 'email' parameter's text after its last '@' equals the configured domain.",
  "all parameter multimaps, all domains",
  "all strings",
  "src/redirection/redirection-email.cpp:isRedirecting")
p("Parameter redirection requires every listed pair",
  "The param redirection policy, configured with k1=v1&k2=v2&..., redirects iff for each configured key (first occurrence wins) the PROBE parameters contain that key with that value; construction fails iff some non-empty format has a piece without '='.",
  "all formats and parameter multimaps",
  "all strings",
  "src/redirection/redirection-param.cpp")
p("Parameter name assignment substitutes faithfully",
  "The param assignment returns one name made, in order, of what the NDN library appends for the quoted literals and for the first value of each named parameter (one component each where strings are appended as components), and returns nothing iff some named parameter is missing or empty.",
  "all formats and parameter multimaps",
  "all strings",
  "src/name-assignment/assignment-param.cpp","src/name-assignment/assignment-func.cpp")
p("Hash name assignment",
  "The hash assignment returns one name with one component per format item, the hex SHA-256 of the first value of that parameter, and nothing iff a parameter is missing.",
  "all formats and parameter multimaps",
  "all strings",
  "src/name-assignment/assignment-hash.cpp")
p("Email name assignment uses the email parameter",
  "The email assignment derives its name from the value of the 'email' PROBE parameter: domain labels from the right with the configured format labels dropped in order, followed by the local part; nothing iff the format is empty, there is no email parameter or it has no non-empty local part before the last '@'.",
  "all formats and parameter multimaps",
  "all strings and all other parameters present",
  "src/name-assignment/assignment-email.cpp:assignName")
p("Different email addresses get different names",
  "Two different email addresses are never assigned the same name by the email assignment.",
  "all pairs of addresses, all formats",
  "all pairs",
  "src/name-assignment/assignment-email.cpp:assignName")
p("PROBE replies list exactly the policy's results",
  "For decodable parameters the CA's PROBE reply contains, in configuration order, the CA prefix extended by each assigned name and the full certificate name of each matching redirection; it is an error reply iff both lists are empty; undecodable parameters get no reply; PROBE never changes storage.",
  "all parameters and configurations",
  "all inputs",
  "src/ca-module.cpp:CaModule::onProbe")
p("Names offered by PROBE are acceptable to NEW",
  "Every name offered in a PROBE reply passes the CA's own name policy for NEW.",
  "all parameters and configurations",
  "all inputs",
  "src/ca-module.cpp:CaModule::onProbe","src/ca-module.cpp:CaModule::onNewRenewRevoke")

# --- requester / tools -------------------------------------------------------
p("Honest PIN run obtains the certificate",
  "For every key, name within policy, validity period within policy and random draws (distinct IV prefixes), an honest requester following NEW, select pin, and submitting the right code (after at most two wrong ones, within the lifetime) ends in status success with the name of the certificate the CA issued for its key, whatever messages of others the CA handles in between, unless one of these ends the CA process.",
  "all keys, names, periods, random draws, wrong codes and clocks within lifetime",
  "end-to-end liveness over all parameters",
  "src/requester-request.cpp","src/ca-module.cpp","src/challenge/challenge-pin.cpp")
p("The requester acts only on replies signed by its CA",
  "onProbeResponse, onNewRenewRevokeResponse and onChallengeResponse throw and leave the requester state unchanged when the reply does not verify under the CA certificate in the profile.",
  "all replies, all requester states",
  "all forgeries",
  "src/requester-request.cpp")
p("A redirected profile is accepted only with the announced certificate",
  "onCaProfileResponseAfterRedirection returns a profile only if the certificate in it has exactly the full name announced by the original CA and the reply verifies under it.",
  "all replies and announced names",
  "all forgeries",
  "src/requester-request.cpp:onCaProfileResponseAfterRedirection")
p("Malformed CA profiles are rejected safely",
  "onCaProfileResponse either returns a profile whose reply verified under the certificate it contains, or throws; it never dereferences a missing certificate.",
  "all replies",
  "all malformed inputs",
  "src/requester-request.cpp:onCaProfileResponse","src/detail/info-encoder.cpp:decodeDataContent")
p("Requests are only generated below the CA prefix",
  "genNewInterest returns null iff the CA prefix is not a prefix of the key name (or the key name is empty); otherwise the certificate request it embeds is named <key name>/cert-request/<version> and decodes at the CA to the caller's key and period. genRevokeInterest returns null iff the CA prefix is not a prefix of the certificate name.",
  "all key names, periods and CA prefixes",
  "all names",
  "src/requester-request.cpp:genNewInterest","src/requester-request.cpp:genRevokeInterest")
p("Client challenge prompts match what the CA expects",
  "For pin and email, in each state the requester can be in, filling in exactly the parameters requested by selectOrContinueChallenge is accepted by genChallengeInterest (and, when any are requested, nothing else is), and the resulting plaintext is understood by the CA module of the same type in the corresponding state.",
  "all parameter values and states",
  "all values",
  "src/challenge/challenge-pin.cpp","src/challenge/challenge-email.cpp")
p("The client tool only talks to trusted CAs",
  "In every run of ndncert-client a CA profile is used for PROBE/NEW only if its reply verified under the configured CA certificate, or the user typed yes, or its certificate's full name was announced in a reply that verified under a profile already in use.",
  "all runs, all replies, all user inputs",
  "all histories",
  "tools/ndncert-client.cpp:infoCb","tools/ndncert-client.cpp:probeCb")
p("Only CA-signed certificates are installed",
  "onCertFetchResponse returns a certificate only if it is signed by the CA.",
  "all replies",
  "all forgeries",
  "src/requester-request.cpp:onCertFetchResponse","tools/ndncert-client.cpp:certFetchCb")
p("The client's challenge step is safe",
  "runChallenge never dereferences a missing parameter, whatever probe parameters the CA asked for and whatever challenges it offers.",
  "all CA profiles and challenge lists",
  "all configurations",
  "tools/ndncert-client.cpp:runChallenge")
p("Profile discovery leads to the profile",
  "The Interest generated by genCaProfileInterestFromDiscoveryResponse from the CA's metadata reply has exactly the name of the CA's profile Data; discovery interests produced by genCaProfileDiscoveryInterest for the CA prefix (with or without trailing CA) match the CA's discovery filter and are satisfied by the CA's metadata reply.",
  "all CA prefixes, versions",
  "all names",
  "src/ca-module.cpp:getCaProfileData","src/ca-module.cpp:onCaProfileDiscovery","src/requester-request.cpp")
p("Profile store behaves like a map",
  "In a ProfileStorage built by addCaProfile/removeCaProfile, there is at most one profile per CA prefix, adding replaces in place, and removing removes exactly the profiles of that prefix, preserving the order of the others.",
  "all operation sequences",
  "all histories",
  "src/detail/profile-storage.cpp")
p("Saved CA profiles can be loaded again",
  "Loading a file written by ProfileStorage::save yields the saved profiles.",
  "all profile stores",
  "all stores",
  "src/detail/profile-storage.cpp:save","src/detail/profile-storage.cpp:load","src/detail/ca-profile.cpp:toJson")
p("Accepted CA configurations are usable",
  "CaConfig::load succeeds only with a non-empty CA prefix, at least one supported challenge each being a registered lower-case type, non-empty lower-case probe keys, a non-empty forwarding hint, only known assignment functions and redirection policies, and redirections with a decoded certificate whose identity equals the stated prefix, if one is stated; every other document is refused with an exception; after CaModule construction there is at least one name assignment function.",
  "all configuration documents",
  "all JSON documents",
  "src/detail/ca-configuration.cpp","src/detail/ca-profile.cpp","src/ca-module.cpp:CaModule::CaModule")
p("Issued certificates stay fetchable",
  "In ndncert-ca-server without repo, the cache never exceeds 100 certificates, a certificate issued since the process started can be fetched by its name (or any prefix of its full name not matching a newer certificate or the profile) until 100 newer ones were issued, and the most recent match is returned.",
  "all issuance/fetch sequences",
  "all histories",
  "tools/ndncert-ca-server.cpp:main")
p("Repo publication happens once per issued certificate",
  "In ndncert-ca-server with repo output, exactly the profile and each newly issued certificate are written, never a revocation, pending or failed request.",
  "all event histories",
  "all histories",
  "tools/ndncert-ca-server.cpp:main")
p("The CA never encrypts two replies of a request under the same IV",
  "In every history of the CA, for every pending request, the encrypted CHALLENGE replies the CA sends for it under its AES key carry pairwise different initialization vectors and non-overlapping counter ranges, from its acceptance until it is removed, over crashes and restarts between messages.",
  "all histories, all storage back ends, all interleavings with other requests",
  "nonce uniqueness is a property of all histories",
  "src/ca-module.cpp:onChallenge","src/detail/crypto-helpers.cpp:encodeBlockWithAesGcm128","src/detail/challenge-encoder.cpp")
p("Honest email run obtains the certificate",
  "For every key, name and period within policy, address and random draws (distinct IV prefixes), an honest requester following NEW, select email with that address, and submitting the right code (after at most two wrong ones, within the lifetime) ends in status success with the name of the one certificate the CA issued for its key, and exactly one mail was sent, to that address and with that code, whatever messages of others the CA handles in between, unless one of these ends the CA process.",
  "all keys, names, periods, addresses, random draws, wrong codes, messages of others and clocks within lifetime",
  "end-to-end liveness over all parameters",
  "src/requester-request.cpp","src/ca-module.cpp","src/challenge/challenge-email.cpp")
p("Undefined behaviour of the client tool is confined to five known causes",
  "In every run of ndncert-client, undefined behaviour happens only in the callback of a reply and only if (a) a CA profile without certificate is received, (b) a NEW reply verified under the CA's certificate contains a salt of more than 32 or a request id of more than 8 octets, (c) a CA offers the email challenge although the first CA probed did not ask for an address, (d) the number of hours typed overflows the clock, or (e) a CHALLENGE reply verified under the CA's certificate and decrypted with the key of the request gives a remaining time beyond the range of the clock.",
  "all runs: configuration files, KeyChains, typed lines, replies, Nacks, timeouts, signals",
  "memory safety over all runs",
  "tools/ndncert-client.cpp","src/requester-request.cpp","src/detail/request-encoder.cpp:decodeDataContent","src/detail/challenge-encoder.cpp:decodeDataContent")
p("The client tool never harms existing keys and cleans up after an interrupt",
  "In every run of ndncert-client the identities and keys that were in the KeyChain at the start stay there with their default keys; and if the run is ended by SIGINT or SIGTERM, the KeyChain is exactly as it was at the start.",
  "all runs, all KeyChains, all interrupt points",
  "all interrupt points of all runs",
  "tools/ndncert-client.cpp:handleSignal","tools/ndncert-client.cpp:runNew","tools/ndncert-client.cpp:captureKeyName")
p("The client tool installs only what it fetched under the announced name, for a key it owns",
  "In every run of ndncert-client a certificate is added to the KeyChain only if it is the packet received in answer to an Interest for the certificate name the request holds, that name was announced in a CHALLENGE reply that verified under the certificate of a trusted CA and was decrypted with the key of the request (or is empty, if the CA announced none), and the certificate carries the public key of the key in the KeyChain that its name refers to. The certificate is fetched only when such a reply of the CA says that the request succeeded.",
  "all runs and replies",
  "all histories",
  "tools/ndncert-client.cpp:certFetchCb","tools/ndncert-client.cpp:challengeCb")
p("The client tool requests the validity period that was typed",
  "The NEW Interest of ndncert-client requests a certificate valid from the current time (rounded up to a second) for the number of hours the user typed.",
  "all typed lines, all clocks",
  "all inputs",
  "tools/ndncert-client.cpp:captureValidityPeriod","tools/ndncert-client.cpp:runNew","src/requester-request.cpp:genNewInterest")
p("Request ids identify certificate names",
  "The id of every request the CA accepts is the first eight octets of the HMAC, under a key secret to the running process, of the wire format of the submitted certificate's name; so two requests accepted by one process for different certificate names share an id only if that truncated HMAC collides.",
  "all histories, all pairs of accepted requests",
  "all pairs of requests",
  "src/ca-module.cpp:onNewRenewRevoke","src/ca-module.cpp:CaModule")
p("Every Interest reaches at most one handler, the right one",
  "The CA handles exactly the Interests named PREFIX/CA/INFO/metadata/..., PREFIX/CA/PROBE/..., PREFIX/CA/NEW/..., PREFIX/CA/CHALLENGE/... and PREFIX/CA/REVOKE/..., each with one handler; every PROBE, NEW, REVOKE and CHALLENGE Interest the requester generates for the CA's profile reaches the handler of that name and no other, and the component of a CHALLENGE that the CA takes the request id from holds the requester's request id.",
  "all CA prefixes, all Interest names, all requests",
  "all names and prefixes, also prefixes that contain CA, NEW and so on",
  "src/ca-module.cpp:registerPrefix","src/requester-request.cpp")
p("The CA server sends at most one Data for an Interest",
  "ndncert-ca-server without repo sends, for every Interest, at most one Data packet: the reply of a handler of the CA, the profile, or a cached certificate.",
  "all histories of the CA, all Interests",
  "all histories and names",
  "tools/ndncert-ca-server.cpp:main","src/ca-module.cpp:registerPrefix")
p("CAs with different prefixes use different database files",
  "Two CAs of one user with different prefixes and no explicit database path keep their requests in different files.",
  "all pairs of CA prefixes",
  "all pairs of names",
  "src/detail/ca-sqlite.cpp:CaSqlite")
p("ndncert-ca-status lists exactly the pending requests",
  "After every history of a CA on the SQLite storage, including crashes and restarts, ndncert-ca-status lists each request that was accepted and since then not removed exactly once, with the id, certificate, type and key it was accepted with, and nothing else; every listed request waits for a challenge to be selected or answered.",
  "all histories of the CA, all crash points between storage operations",
  "all histories",
  "tools/ndncert-ca-status.cpp:main","src/detail/ca-sqlite.cpp:listAllRequests")
p("Trust anchors are exactly the listed certificates",
  "The possession challenge trusts exactly the certificates listed in its configuration file; entries that are no certificate are skipped; a file that cannot be read or has no list is an error. A certificate issued for a possession challenge went to someone whose credential verifies under a certificate that was listed when the challenge was started, and who signed the nonce with the key of that credential.",
  "all configuration files, all histories of the CA",
  "all files and histories",
  "src/challenge/challenge-possession.cpp:parseConfigFile","src/challenge/challenge-possession.cpp:handleChallengeRequest")
p("The client applies for the name the user chose",
  "Whenever the command line client sends a NEW Interest, a PROBE reply just arrived that verifies under the certificate of the CA probed and names no other CA. The Interest goes to that CA and applies for a certificate for a key of the name the user chose: the only name the reply offers, or the one whose number was typed. The certificate request in it is named <chosen name>/KEY/<key id>/cert-request/<version>, carries the public key of that key and is signed with it.",
  "every configuration file, KeyChain whose keys are named after their identities, input typed, and sequence of replies, Nacks, timeouts and signals",
  "An off-by-one in the list of names or a stale default key shows only for particular combinations of replies, KeyChain contents and typed lines",
  "tools/ndncert-client.cpp probeCb", "tools/ndncert-client.cpp runNew", "tools/ndncert-client.cpp captureKeyName", "src/requester-request.cpp genNewInterest")
p("The client says to the CA what the user typed, for the challenge offered",
  "Whenever the command line client sends a CHALLENGE Interest, a NEW or CHALLENGE reply signed by the trusted CA of the request just arrived. The Interest goes to that CA for that request. After NEW it starts a challenge that the reply offers: email if offered, otherwise the one whose number the user typed within three lines. Later it continues the same challenge in the status that the decrypted reply tells. A code or proof sent is the line typed next, a credential is the packet typed, and an e-mail address is one the user gave as a PROBE parameter. Nothing else is in the encrypted content. A PROBE Interest carries the lines typed as the answers to the questions of the first CA, in their order, with only the email address put in lower case; later PROBE Interests carry the same answers.",
  "every configuration file, KeyChain, input typed, and sequence of replies, Nacks, timeouts and signals",
  "Which line ends up in which parameter depends on the whole history of prompts and replies",
  "tools/ndncert-client.cpp newCb", "tools/ndncert-client.cpp challengeCb", "tools/ndncert-client.cpp runChallenge", "src/requester-request.cpp selectOrContinueChallenge", "src/requester-request.cpp genChallengeInterest")

p("The two tools together yield the certificate asked for",
  "If the user of ndncert-client chooses a configured CA, answers its questions, chooses one of the names it assigns, an admissible validity period and a key, takes the pin or email challenge and types the CA's code in time after at most two wrong ones, then the client ends with exit code 0 after installing a certificate for exactly that name, key and period, issued by ndncert-ca-server, which issues no other one for this client. With the email challenge one mail is sent, to the address given as PROBE parameter. This holds for every history of the server, and with other parties sending messages during the challenge, unless such a message ends the CA process.",
  "all histories of the CA server, configurations, KeyChains, typed input, codes, wrong guesses, keys, times and messages of others during the challenge",
  "it composes the client program, the server program, the library on both sides, cryptography and storage; the combinations of histories and inputs are unbounded",
  "tools/ndncert-client.cpp", "tools/ndncert-ca-server.cpp", "src/ca-module.cpp", "src/requester-request.cpp")

p("Decryption returns only authenticated text, whichever OpenSSL call fails",
  "The AES-GCM decryption helper returns a plaintext only if the tag is right for the whole ciphertext and the associated data under the given key and IV, also when OpenSSL calls inside it fail (out of memory, provider errors); otherwise it throws. The encryption helper returns only a ciphertext with a tag over all of it. When no call fails, decryption succeeds exactly on authentic input and inverts encryption.",
  "all keys, IVs, texts, tags and all patterns of failing OpenSSL calls",
  "Unit tests cannot make individual OpenSSL calls fail, and never with all patterns",
  "src/detail/crypto-helpers.cpp aesGcm128Encrypt", "src/detail/crypto-helpers.cpp aesGcm128Decrypt")
p("A derived secret or key is the right one, whichever OpenSSL call fails",
  "ECDHState::deriveSecret returns only the secret shared with the holder of the peer's key, hkdf fills its output only with the key derived from secret, salt and info, hmacSha256 only with the digest, and the ECDHState constructor returns only with a generated key; if an OpenSSL call inside fails they throw. When no call fails a valid peer key gives the shared secret and an invalid one an exception.",
  "all keys, secrets, salts, infos and all patterns of failing OpenSSL calls",
  "Unit tests cannot make individual OpenSSL calls fail, and never with all patterns",
  "src/detail/crypto-helpers.cpp ECDHState::deriveSecret", "src/detail/crypto-helpers.cpp hkdf", "src/detail/crypto-helpers.cpp ECDHState::ECDHState")
p("The possession helper fills in what the possession challenge accepts",
  "ChallengePossession::fulfillParameters sets every credential parameter to the certificate named, every proof parameter to a signature over the given nonce made with the key of this certificate, and changes nothing else. Whoever holds a certificate that a trust anchor certified, fills in the parameters asked for with this helper and passes the result of genChallengeRequestTLV to the challenge module is asked for a proof, and with the nonce handed out passes the challenge. Behaviour is undefined exactly if a proof is asked for and the TPM lacks the key.",
  "all parameter multimaps, certificates, nonces, KeyChains, trust anchors and times",
  "It must hold for every certificate, key and nonce, not only the generated ones of a test",
  "src/challenge/challenge-possession.cpp fulfillParameters", "src/challenge/challenge-possession.cpp genChallengeRequestTLV", "src/challenge/challenge-possession.cpp handleChallengeRequest")

p("Every reply of the CA fits into a network packet, so that no Interest ends the CA process by its size",
 "The face refuses Data packets of more than 8800 octets with an exception that the CA does not catch. For every Interest that itself fits into a packet, the CA's reply fits, whatever the state of the CA.",
 "all configurations, states, Interests and sizes of the unmodelled packet fields",
 "Tests use short names; the reply repeats the name of the Interest, so that the limit is reached only near the maximal packet size.",
 "src/ca-module.cpp:onProbe","src/ca-module.cpp:onNewRenewRevoke","src/ca-module.cpp:onChallenge","src/ca-module.cpp:generateErrorDataPacket")
p("The exit code of the client tells whether a certificate was installed",
 "When ndncert-client ends by itself, its exit code is 0 if and only if a certificate was added to the KeyChain, or the user was asked whether to trust the CA and did not answer yes. Otherwise the exit code is 1.",
 "all configuration files, inputs, KeyChains, and sequences of replies, Nacks, timeouts and signals",
 "Scripts rely on the exit code, but it depends on the whole run: on every reply, every line typed, and where they fail.",
 "tools/ndncert-client.cpp:certFetchCb","tools/ndncert-client.cpp:infoCb","tools/ndncert-client.cpp:main")
p("The client never waits for nothing",
 "At every point of a run, ndncert-client has ended or an Interest it sent is outstanding: after each reply, Nack or timeout it either sends exactly one Interest or ends.",
 "all configuration files, inputs, KeyChains, and sequences of replies, Nacks, timeouts and signals",
 "A hang shows only after a timeout or a particular bad reply at one of many points of the dialogue.",
 "tools/ndncert-client.cpp:timeoutCb","tools/ndncert-client.cpp:infoCb","tools/ndncert-client.cpp:probeCb","tools/ndncert-client.cpp:runNew")

p("What the CA sends does not depend on a secret code before that code is given",
  "Take two executions of the CA that get the same Interests with the same clock readings and the same random values, except for the random words from which PIN and email codes are made. As long as no requester gives the right code in either of them, the CA sends the same Data, signs the same certificates, sends emails that differ in the code at most and ends each handler in the same way. The same holds for a chosen set of requests, whatever codes are given for the others.",
  "all pairs of executions (histories of Interests, crashes and restarts) that differ in the random words for codes only; all sets of request ids; both storages",
  "a leak of the code is a difference between two runs; tests compare one run with expected values and cannot range over all pairs of codes and all histories",
  "src/challenge/challenge-pin.cpp:ChallengePin::handleChallengeRequest", "src/challenge/challenge-email.cpp:ChallengeEmail::handleChallengeRequest", "src/detail/challenge-encoder.cpp:challengetlv::encodeDataContent", "src/ca-module.cpp:CaModule::onChallenge")

p("What others send has no influence on how the CA handles a request",
  "Take any execution of the CA and the id of a request, and leave out all Interests that are not authentic Interests of that requester: CHALLENGEs with another signature, NEW and REVOKE that are not accepted under this id, all Interests for other ids, and PROBEs. What is left is again an execution of the CA, in which each remaining Interest has the same effects (replies, certificates, emails, callbacks), and which leaves the same stored state for the request. Likewise when every Interest that names the request is kept.",
  "all executions with any interleaving of any number of requesters and attackers, crashes and restarts included; all request ids; both storages",
  "the property compares each interleaved history with its restriction; tests run a few scripted clients",
  "src/ca-module.cpp:CaModule::onChallenge", "src/ca-module.cpp:CaModule::onNewRenewRevoke", "src/detail/ca-sqlite.cpp:CaSqlite", "src/detail/ca-memory.cpp:CaMemory")

p("The email that is sent carries the code drawn and the names of the request, and goes to the address given",
  "With the script that comes with the CA: for every email that the email challenge sends, what is handed to the mail server is one message for the address in the request, with the text and HTML of the configured templates in which the code drawn, the CA's prefix and the requested certificate name are filled in; and if the settings are there and no call fails, it is handed over. What is filled in has no HTML markup.",
  "all addresses, codes, names, configured templates and settings, and all patterns of failing mail server calls",
  "addresses are chosen by the applicant; tests do not run the script, and use ordinary addresses",
  "ndncert-send-email-challenge.py", "src/challenge/challenge-email.cpp:ChallengeEmail::sendEmail")

p("The password of the mail account is sent over an encrypted connection only, unless the configuration says none",
  "In every run of the email script with an ENCRYPT_MODE other than none, the login comes after a connection made with TLS or after STARTTLS succeeded.",
  "all configurations, command lines and patterns of failing calls",
  "the order of calls in every configuration and failure pattern; there are no tests for the script",
  "ndncert-send-email-challenge.py")

p("The client turns to the CA the user chose",
  "The client first looks for the profile of the configured CA whose number was typed, or of the CA whose name was typed. It sends the first PROBE only to the CA of a profile in a reply that verifies under its own certificate and under the certificate configured for the chosen CA, or, if none is configured, after the user said yes to that profile. Each later PROBE follows a redirection in a verified PROBE reply: the only one announced, or the one whose number was typed. It goes to the CA with exactly the announced certificate.",
  "all configuration files, inputs, KeyChains, and sequences of replies, Nacks, timeouts and signals",
  "which CA is asked depends on the whole dialogue of lines and replies; the tool has no tests",
  "tools/ndncert-client.cpp:selectCaProfile", "tools/ndncert-client.cpp:infoCb", "tools/ndncert-client.cpp:probeCb", "src/requester-request.cpp:Request::onCaProfileResponseAfterRedirection")

p("The limits in the configuration file are the limits the CA applies",
  "If CaConfig::load accepts a document that has max-suffix-length or max-validity-period, the text given is a number, and the CA takes up a request only for an identity at most that many components longer than its prefix, and a NEW only with an end of validity at most that many seconds from now; without max-suffix-length there is no limit on the length, without max-validity-period the limit is one day.",
  "all configuration documents, all request Interests and times",
  "all texts a limit can have, and all requests checked against it",
  "src/detail/ca-profile.cpp:fromJson", "src/ca-module.cpp:onNewRenewRevoke")

p("What the SQLite storage keeps as text it reads back",
  "The secrets of a challenge and its time stamp are kept as texts (JSON and ISO 8601). Every time from the year 1400 to 9999 has a text that says its date in the Gregorian calendar and its time of day, and reads back as the same microsecond. Secrets read back unchanged exactly if they are UTF-8, and otherwise the request and the list of all requests cannot be read. The CA stores UTF-8 only: in every execution, crashes and restarts included, it acts and answers as if the columns held the values themselves.",
  "all property trees, all times, all executions of the CA with a clock of 64 bits",
  "texts are escaped and dates computed for every octet and every day; tests store a few codes on the day they are run",
  "src/detail/ca-sqlite.cpp:convertJson2String", "src/detail/ca-sqlite.cpp:convertString2Json", "src/detail/ca-sqlite.cpp:CaSqlite::getRequest", "src/detail/ca-sqlite.cpp:CaSqlite::addRequest", "src/detail/ca-sqlite.cpp:CaSqlite::updateRequest")

p("Configuration files mean what their text says",
  "A text is accepted as JSON exactly if it is a JSON document by the grammar of RFC 8259 (a byte order mark allowed), and what is read is the one tree the document stands for. A name written as a URI is read as the same name, and /a/b/c typed in plain characters as the name with the components a, b, c. Two configuration files with the same members, in whatever order and layout, configure a CA in the same way, and a file that is no JSON document is refused. A profile written to a file reads back with the same prefix, info, limits and certificate.",
  "all texts, trees, names and profiles",
  "all texts, nested to any depth and with any escapes; tests read a few well-formed files",
  "src/detail/ca-configuration.cpp:CaConfig::load", "src/detail/ca-profile.cpp:fromJson", "src/detail/ca-profile.cpp:toJson", "src/detail/profile-storage.cpp:ProfileStorage::load")

p("The listing of pending requests can be read in one way only",
  "After every history of a CA, ndncert-ca-status prints a listing. The text determines, request by request, the CA name, request id, status, challenge type, challenge state and secrets, and the printed certificate: nothing an applicant puts into a certificate request can be mistaken for another request or for a field of one, and the requests read off the listing are exactly those pending.",
  "all executions of the CA on the SQLite storage with a clock of 64 bits, all texts ndn-cxx prints for certificates",
  "names and certificates are chosen by applicants; there are no tests of the listing",
  "tools/ndncert-ca-status.cpp:main", "src/detail/ca-request-state.cpp:operator<<", "src/detail/ca-request-state.cpp:statusToString")
p("Replies verify under the certificate in the profile the CA serves",
  "At any time in the life of a CA process, a requester that fetches the CA's profile accepts it, and every reply the CA sends then verifies under the certificate in that profile, also after the key and certificate of the CA's identity were replaced.",
  "all sequences of profile requests with any keys and certificates in between, all messages in all states",
  "what is served depends on what happened earlier in the process; tests ask for the profile once and never replace a key",
  "src/ca-module.cpp:CaModule::getCaProfileData", "src/ca-module.cpp:CaModule::onProbe", "src/ca-module.cpp:CaModule::onNewRenewRevoke", "src/ca-module.cpp:CaModule::onChallenge", "src/requester-request.cpp:Request::onCaProfileResponse")
p("A CA issues only what its own configuration admits, also on a shared database",
  "Several CAs can keep their pending requests in one database: CAs of one user whose prefixes give the same file name, or one CA restarted with another configuration. Every certificate a CA issues is then still for an identity its own configuration admits: below its own prefix and within its own max-suffix-length; it was applied for and its challenge answered; and no request leads to more than one certificate.",
  "all histories of any number of CAs with any configurations on one storage, crashes and restarts included",
  "tests run one CA with one configuration on a database of its own",
  "src/ca-module.cpp:CaModule::onChallenge", "src/ca-module.cpp:CaModule::getCertificateRequest", "src/detail/ca-sqlite.cpp:CaSqlite::CaSqlite", "src/detail/ca-sqlite.cpp:CaSqlite::getRequest")
p("Processes of a CA that run at the same time on one database",
  "When several processes serve the requests of one database at the same time, or another program has it open, then still: every certificate that is signed is for a request accepted before and for an answered challenge; one accepted NEW yields at most one certificate; and at most three codes are checked for one challenge.",
  "all numbers of processes, configurations, Interests, interleavings of their effects, deaths of processes at any point, and removals that fail because the file is locked",
  "The schedules are unbounded; a test runs one process and one handler after the other.",
  "src/ca-module.cpp CaModule::onChallenge", "src/ca-module.cpp CaModule::getCertificateRequest", "src/detail/ca-sqlite.cpp CaSqlite::updateRequest",
  "src/detail/ca-sqlite.cpp CaSqlite::deleteRequest")

p("A message is accepted exactly if it is well formed, and is read as its elements say",
  "For the content of INFO, PROBE, NEW/REVOKE, CHALLENGE and error replies and for PROBE parameters: the decoder returns normally exactly if the octets are a sequence of TLV elements, each element of a type the decoder knows can be read as a value of its kind, the elements that must occur once do, keys are followed by their values, and every other element may be skipped. The values returned are then those of the elements: lists in the order of the message, single fields from the last element of their type, fields without an element as they were (a reply counts as an error exactly if it has one non-zero error code and one description). Nothing else is returned, and a requester's other fields do not change. CHALLENGE replies must moreover open under the key and id of the request with an acceptable IV.",
  "all octet strings as message content, all requester states, all clock readings, any cryptography",
  "every octet string is an input, and the claim is an equivalence: tests can neither show that nothing else is accepted nor that nothing is added",
  "src/detail/info-encoder.cpp:decodeDataContent", "src/detail/probe-encoder.cpp:decodeDataContent", "src/detail/probe-encoder.cpp:decodeApplicationParameters", "src/detail/request-encoder.cpp:decodeDataContent", "src/detail/challenge-encoder.cpp:decodeDataContent", "src/detail/error-encoder.cpp:decodefromDataContent")

p("An issued certificate can be fetched",
  "Once the CA has told a requester that its certificate was issued, the certificate can be had, over any later history, from ndncert-ca-server or from the repo it was started with; a packet that could not be published is reported or tried again.",
  "all histories of the CA with crashes and restarts, all outcomes of all connections to the repo",
  "depends on what the network does at the moment of issuance and on everything that happens later; the server has no tests",
  "tools/ndncert-ca-server.cpp:writeDataToRepo", "tools/ndncert-ca-server.cpp:main")

p("Names by the random assignment",
  "A CA that lists no name assignment, or only the random one, answers every PROBE with readable parameters by exactly one offered name: the CA prefix and one component, the decimal numeral (no leading zeros, at most 20 digits) of a 64-bit number drawn for this PROBE, whatever the parameters say. Two PROBEs are offered the same name exactly if the same number was drawn for both. The name passes the CA's own policy for NEW unless the CA allows no suffix at all.",
  "all configurations, PROBE parameters and numbers drawn",
  "tests draw a few numbers and check only that a name comes back; they cannot show that no two numbers give one name or that parameters never matter",
  "src/name-assignment/assignment-random.cpp:AssignmentRandom::assignName", "src/ca-module.cpp:CaModule::onProbe", "src/ca-module.cpp:CaModule::CaModule")

p("No reply ends the client by an uncaught exception",
  "Whatever packets arrive, whatever is typed, and whether Interests time out, are refused or the user interrupts, ndncert-client ends by an exit code of its own and never because an exception reaches the top of the program.",
  "all KeyChains, profile files, lines typed, and all sequences of replies, Nacks, timeouts and signals",
  "every packet content at every point of the conversation is an input; the client has no tests",
  "tools/ndncert-client.cpp:discoveryCb", "tools/ndncert-client.cpp:infoCb", "tools/ndncert-client.cpp:probeCb", "tools/ndncert-client.cpp:newCb", "tools/ndncert-client.cpp:challengeCb", "tools/ndncert-client.cpp:certFetchCb", "tools/ndncert-client.cpp:handleSignal", "src/requester-request.cpp:Request::genCaProfileInterestFromDiscoveryResponse")

p("A CA module listens from the confirmation of its prefix to its destruction, and can be destroyed at any time",
  "From the moment the forwarder confirms its prefix until it is destroyed, a CaModule gets every Interest for one of its five handlers, by that handler only, and no other; before and after that it gets none. Whenever it is destroyed, nothing uses it afterwards.",
  "all sequences of registration answers, Interests and destruction",
  "depends on the order of events at the face: a test that destroys the module before the forwarder answers needs a schedule the test face never produces",
  "src/ca-module.cpp:CaModule::registerPrefix", "src/ca-module.cpp:CaModule::~CaModule", "src/ca-module.cpp:CaModule::onRegisterFailed")

p("A CA module that could be constructed has a storage that can be used",
  "The constructor of CaModule succeeds exactly if the configuration is understood and the storage named by its storage type exists and can be opened; then the module has the configuration of the file and that storage. Otherwise it throws.",
  "all configuration files, storage types, and databases that can or cannot be opened",
  "every string is a storage type; tests use the two that exist",
  "src/ca-module.cpp:CaModule::CaModule", "src/detail/ca-storage.cpp:CaStorage::createCaStorage", "src/detail/ca-sqlite.cpp:CaSqlite::CaSqlite")

p("Nobody but the holder of a key can keep its holder from revoking the certificate",
  "A REVOKE Interest that passes all checks of the CA (well-formed parameters, usable ECDH key, allowed name, certificate signed by the CA) is accepted unless a request for the same certificate name was made earlier by an Interest signed with the key of the certificate.",
  "all configurations, both storages, all histories of the CA including crashes and restarts, all Interests",
  "whoever has the public certificate can send Interests at any point of any history; the tests revoke once, with the holder as the only party",
  "src/ca-module.cpp:CaModule::onNewRenewRevoke", "src/detail/ca-storage.hpp:CaStorage::addRequest")

p("A NEW Interest is accepted at most once",
  "An Interest that the CA has accepted as NEW is not accepted again when it is sent again, by anybody and at any later time.",
  "all configurations, both storages, all histories, all times of the repetition",
  "a replay may come at any later point of any history; the tests send each Interest once",
  "src/ca-module.cpp:CaModule::onNewRenewRevoke", "src/ca-module.cpp:CaModule::onChallenge")

p("A request that was given up makes way",
  "There is a time after which a pending request, if its requester sends nothing more about it, no longer keeps an application (NEW or REVOKE) with a certificate of the same name from being accepted.",
  "all time limits, configurations, both storages, all histories of the CA and all Interests",
  "no test waits; the question is about every length of time and everything that may happen meanwhile",
  "src/ca-module.cpp:CaModule::onNewRenewRevoke", "src/ca-module.cpp:CaModule::onChallenge", "src/detail/ca-memory.cpp:CaMemory::addRequest", "src/detail/ca-sqlite.cpp:CaSqlite::addRequest")

p("A revocation can be carried through with the library",
  "A requester who holds a certificate issued by the CA and its key, and who makes a Request object for a revocation, sends the REVOKE Interest, selects a challenge and answers it correctly, ends with status success and a certificate that is revoked.",
  "all certificates and keys the policy admits, both storages, the challenges pin and email, all codes typed, all messages of others in between, all orders of calls on the object",
  "the tests set members of the object by hand and stop at the reply to REVOKE; what every order of calls can reach is not a test",
  "src/requester-request.cpp:Request::genRevokeInterest", "src/requester-request.cpp:Request::genChallengeInterest", "src/ca-module.cpp:CaModule::onChallenge")

p("A Request object never uses an IV twice, whatever the order of calls",
  "Of two CHALLENGE Interests returned by the same Request object the later has a larger block counter, starting after the last block of the earlier, and the same eight random octets; no IV occurs twice, whatever methods are called between, in whatever order, successful or not.",
  "all CA profiles, request types, keys, sequences of calls with any arguments, replies, random octets and clock readings",
  "the number and order of calls is unbounded, and replies between them can be anything signed or not signed by the CA",
  "src/requester-request.cpp:Request::genChallengeInterest", "src/detail/crypto-helpers.cpp:encodeBlockWithAesGcm128")

p("CHALLENGE Interests are sealed with the key agreed with the CA, for the request the CA named",
  "Every CHALLENGE Interest a Request object returns is encrypted with the key derived from the ECDH exchange in the reply to NEW, RENEW or REVOKE that the object accepted, and is addressed to the request id of that reply.",
  "all CA profiles, keys, sequences of calls with any arguments and replies, in any order",
  "needs every order of calls, with refused replies in between",
  "src/requester-request.cpp:Request::onNewRenewRevokeResponse", "src/requester-request.cpp:Request::genChallengeInterest")

p("Undefined behaviour of a Request object is confined to known causes",
  "Whatever calls a program makes on a Request object, undefined behaviour occurs only if the profile has no CA certificate, or in a reply whose signature verifies under the CA's certificate: a salt longer than 32 octets or a request id longer than 8 in the reply to NEW, or a remaining time in a reply to CHALLENGE that overflows the clock.",
  "all CA profiles, keys, sequences of calls with any arguments, replies and clock readings",
  "every order of calls and every reply; a test sees one of each",
  "src/requester-request.cpp:Request::onNewRenewRevokeResponse", "src/requester-request.cpp:Request::onChallengeResponse", "src/detail/new-renew-revoke-encoder.cpp:decodeDataContent")

p("The type given to a Request object decides what it asks for",
  "A Request object constructed for NEW makes only NEW requests, one for RENEW only RENEW requests and one for REVOKE only REVOKE requests.",
  "all CA profiles, types, keys, and all calls in any order; all Interests for the part on the CA",
  "an absence over all orders of calls; tests make one request per type they know of",
  "src/requester-request.hpp:Request::m_type", "src/requester-request.cpp:Request::genNewInterest", "src/requester-request.cpp:Request::genRevokeInterest", "src/ca-module.cpp:CaModule::registerPrefix")

p("The requester library reports problems by std::runtime_error",
  "Whatever a reply contains, the functions that read it return or throw a std::runtime_error, as documented (the undefined behaviour they can have is the subject of C06, C65 and C122); so do the functions that make Interests, except for genNewInterest given a name that is not one of a key.",
  "all replies, all states of the object, all arguments",
  "a caller that catches the documented exception relies on it for every reply anybody could have made",
  "src/requester-request.hpp:Request", "src/requester-request.cpp:Request::onNewRenewRevokeResponse", "src/requester-request.cpp:Request::onChallengeResponse", "src/requester-request.cpp:Request::onProbeResponse")

p("Emails go to well-formed addresses only",
  "ChallengeEmail::isValidEmailAddress accepts a text exactly if it is a user name, an @ and a host name with a dot in it, made of the characters that its pattern lists; and the email challenge runs the script only for texts that it accepts, so that whatever the script gets is one address.",
  "all texts, all CHALLENGE messages, in every reachable state of the CA",
  "a test has three addresses and cannot show what else the pattern accepts or that no message gets round the check",
  "src/challenge/challenge-email.cpp: isValidEmailAddress, handleChallengeRequest, sendEmail")
p("Secret keys never leave the process, and what the user types leaves it only encrypted",
  "No packet, return value, exception, email or certificate of either side depends on a private ECDH key, on the shared secret, on the AES key of a request or on the CA's key for request ids, except through the public ECDH key, the ciphertexts and tags, and the request ids: if all of these keys were others that work alike, everything visible would be the same. A code, an email address or a proof given to a Request object appears in its Interest only inside the ciphertext.",
  "all sequences of calls on a Request object; all executions of a CA, crashes and restarts included, with either storage; all keys; all parameter values",
  "a test that looks for a key in a packet finds the places it looks at for the key it uses; it cannot show that no octet, error or choice of branch depends on one",
  "src/requester-request.cpp: genNewInterest, genRevokeInterest, onNewRenewRevokeResponse, genChallengeInterest, onChallengeResponse", "src/ca-module.cpp: onNewRenewRevoke, onChallenge", "src/detail/crypto-helpers.cpp: ECDHState, encodeBlockWithAesGcm128, decodeBlockWithAesGcm128", "src/detail/ca-memory.cpp", "src/detail/ca-sqlite.cpp")
p("The CA tools do what their command line says",
  "Every command line of ndncert-ca-server and of ndncert-ca-status has at most one reading in the usual notation (--name value, --name=value, -n value, -nvalue, unambiguous abbreviations, -- before plain words). The server runs with the configuration file, repo host and repo port given, or the documented defaults, exactly if the command line can be read and does not ask for help; the status tool lists the requests of exactly the CA that is named, as a word or with --caName. Otherwise they exit with status 0 for help, and 2 or 1 for a mistake, having done nothing.",
  "all lists of arguments of any length and content",
  "unit tests do not reach main at all, and the ways of writing options cannot be enumerated",
  "tools/ndncert-ca-server.cpp: main", "tools/ndncert-ca-status.cpp: main")
p("From the configuration file to the certificates",
  "ndncert-ca-server serves exactly if its command line asks for it, the configuration file that the command line means can be read, is a JSON document and loads, the database opens and the KeyChain has a certificate for the CA prefix; it then serves with what is written in that file. Every certificate it issues in its life, crashes and restarts included, is for a name strictly below the prefix written in the file, by at most the number of components written there, carries the key and period of a NEW accepted before, whose period ends at most as many seconds after that moment as are written there (a day if none), and follows the right answer to a challenge.",
  "all command lines, configuration files, surroundings of the process, and all executions with the database, crashes and restarts included",
  "an operator relies on the limits in the file for every file and for the whole life of the server; unit tests do not reach main",
  "tools/ndncert-ca-server.cpp: main", "src/detail/ca-configuration.cpp: CaConfig::load", "src/ca-module.cpp: CaModule, onNewRenewRevoke, onChallenge")
p("The status tool lists the pending requests of the CA it is asked about and changes nothing",
  "ndncert-ca-status, asked about a CA in any notation of its name, prints a listing of exactly the requests pending at that CA, which can be read in one way only, and leaves all databases as they are; asked about a CA that does not exist it lists nothing and makes nothing. In all other cases it exits with the documented status, or by an exception if the name is no name, and nothing has changed.",
  "all command lines, all executions of the CA, all contents of the directory of databases",
  "needs every history of the CA and every other database on the machine",
  "tools/ndncert-ca-status.cpp: main", "src/detail/ca-sqlite.cpp: CaSqlite, listAllRequests")
p("A stricter configuration takes effect",
  "If the server is restarted with another configuration file for the same prefix, from then on every request it accepts and every certificate it issues meets the limits in the new file, however often the file changes; and no change of the file lets a certificate be issued without an accepted NEW and the right answer to its challenge.",
  "all executions with the database, crashes and restarts included, and all configuration files in force between the restarts",
  "needs every history across every sequence of configurations; a test restarts once with one pair of files",
  "src/detail/ca-configuration.cpp: CaConfig::load", "src/ca-module.cpp: CaModule, onNewRenewRevoke, onChallenge", "src/detail/ca-sqlite.cpp")
p("The client starts with the file its command line means and talks only to CAs that this file vouches for",
  "Every command line of ndncert-client has at most one reading. The client starts exactly if its command line can be read, does not ask for help, and the configuration file it means (or the default one) can be read, is a JSON document and lists CAs that can all be used, and the user chooses one of them by number or another one by name; it then looks for the profile of that CA. PROBE, NEW and CHALLENGE Interests go only to CAs whose profile verified under a certificate in that file, or to which the user said yes, or which such a CA announced. The exit status is 0 exactly if help was asked for, a certificate was installed or the user declined a CA; otherwise it is 1.",
  "all command lines, files, KeyChains, typed lines, replies, Nacks, timeouts and signals",
  "unit tests do not reach main, and neither command lines, files nor the order of replies can be enumerated",
  "tools/ndncert-client.cpp: main, selectCaProfile", "src/detail/profile-storage.cpp: load", "src/detail/ca-profile.cpp: fromJson")
p("What a program is told is what the CA did, whatever the network does",
  "If a Request object accepts a reply to a NEW, REVOKE or CHALLENGE Interest it made, the CA handled exactly that Interest and sent that reply. After NEW or REVOKE both have the same request id and key, and the program is told the challenges the CA offers. After CHALLENGE the object has the outcome the CA stored in that step: the name of a certificate the CA issued, a completed revocation, or the challenge status and tries of a challenge that goes on. A program told that it succeeded with NEW can rely on a certificate under the name it has, for its own key, after a right answer to the challenge.",
  "all executions of the CA, crashes and restarts included, all sequences of calls on the object, and all networks that lose, repeat, delay, reorder and invent packets",
  "needs every interleaving of every history of the CA with every sequence of calls and every behaviour of the network",
  "src/requester-request.cpp: onNewRenewRevokeResponse, onChallengeResponse, genChallengeInterest", "src/ca-module.cpp: onNewRenewRevoke, onChallenge", "src/detail/challenge-encoder.cpp", "src/detail/request-encoder.cpp")
p("Certificates in files survive",
  "A certificate that the library writes into a profile file is read back as the same certificate, also if the lines were broken in another way; different certificates have different texts; a text is read as a certificate exactly if it is base64 text of a certificate packet. A profile with any certificate, written and read again, has the same prefix, info, limits and certificate, and every CA the client reads from its file has the certificate whose text is in its entry.",
  "all certificates, texts, profiles and files",
  "round trips must hold for every length and content of the packet; tests use one certificate",
  "src/detail/ca-profile.cpp: fromJson, toJson", "src/detail/ca-configuration.cpp: load", "src/detail/profile-storage.cpp: load", "src/challenge/challenge-possession.cpp: parseConfigFile")
p("What is signed is what is read",
  "The signature of a certificate is for octets that determine its name, public key, KeyLocator and validity period as they are read; so if a key signed only some certificates, every certificate that verifies with it has the contents of one of them. In the same way the signature of a reply is for its name and content, and that of an Interest for its name and parameters. Two certificates with one full name are the same packet, or SHA-256 has a collision. The packet of every issued certificate has the submitted public key and validity period, content type KEY, freshness one hour, the CA's KeyLocator, and a signature that verifies. Everything the other properties take for granted of certificates, replies and signed Interests holds of this packet format with every signature scheme whose signatures verify.",
  "all packets, keys, signature schemes and executions of the CA",
  "needs all pairs of packets with one signed text; a test has a few packets",
  "src/ca-module.cpp: issueCertificate, onNewRenewRevoke, onChallenge", "src/requester-request.cpp: genNewInterest, genRevokeInterest, genChallengeInterest, onNewRenewRevokeResponse")
p("A program is told which error the CA reported, and why",
  "Every error reply the CA sends in its life has one of the documented error codes. A requester that gets it, from whichever handler, throws an exception whose text gives the name of the code and the description the CA sent, and from the text of such an exception (of any CA, if the description has no NUL) code and description can be told. The code says why: PROBE is refused with INVALID_PARAMETER only; CHALLENGE with BAD_SIGNATURE only if the Interest does not verify under the certificate of the request it names, with OUT_OF_TIME only if the code had expired, with OUT_OF_TRIES only if a wrong code was given on the last try, with BAD_INTEREST_FORMAT only in the possession challenge, otherwise with INVALID_PARAMETER (for NEW and REVOKE see C21).",
  "all histories of a CA with crashes, all replies, all codes and descriptions",
  "An error code mixed up in one branch, or a text that is ambiguous for one pair of codes, shows only in that branch or pair",
  "src/detail/ndncert-common.cpp: operator<<(ErrorCode)", "src/requester-request.cpp: processIfError", "src/ca-module.cpp: generateErrorDataPacket", "src/challenge/challenge-module.cpp: returnWithError")
p("Issued certificates are backed by a valid certificate of the CA",
  "Whenever the CA signs a certificate, its own certificate is valid, and the certificate it signs is not valid longer than its own.",
  "all histories of the CA with any messages, clocks, crashes and restarts; all validity periods of the CA's certificate",
  "The CA's certificate may expire at any moment between NEW and the last CHALLENGE; a test fixes these moments",
  "src/ca-module.cpp: onNewRenewRevoke, onChallenge, issueCertificate")
p("A revocation is only completed after the policy checks and a passed challenge",
  "Whenever the CA answers a CHALLENGE of a revocation without error and removes the request, there is an earlier accepted REVOKE in the same execution for the same certificate, which was within the name policy and verified under the CA's own valid certificate at that time; the CHALLENGE verified under the key of the certificate, and it carried the code the CA generated for this request or a valid proof of possession. The reply then says success, and removing the request, the reply and the status callback are all the effects.",
  "all event histories of any length, with crashes and restarts, all clocks and random draws, both storages",
  "The REVOKE and the CHALLENGE that completes it may be separated by any messages of any requesters and by restarts",
  "src/ca-module.cpp: onNewRenewRevoke, onChallenge", "src/challenge/challenge-module.cpp: handleChallengeRequest")
p("A completed revocation takes effect",
  "After the CA reported the success of a revocation, the CA server no longer hands out the revoked certificate, a further REVOKE for it is refused, and the program around the CA was told which certificate was revoked.",
  "all histories with a completed revocation, all Interests afterwards, server with and without repo",
  "The effect must last through all later messages, and a test of the CA module does not include the server",
  "src/ca-module.cpp: onChallenge", "tools/ndncert-ca-server.cpp: main")
p("The tries and the time a reply announces are granted",
  "A reply that starts a challenge announces three tries within an hour for a PIN, three within five minutes for an emailed code, one within a minute for a proof of possession; a reply to a wrong code announces one try less and the whole seconds left of the lifetime of the code. Until the next CHALLENGE of the request is accepted, whatever other messages, crashes and restarts come in between (as long as the request is not lost with a memory storage), a code given in the same challenge within the announced seconds is judged by its value only: the right one is answered with success (and a NEW gets its certificate), a wrong one costs one try, and only a wrong one on the last announced try removes the request.",
  "all histories with crashes and restarts, all storages that keep times to the microsecond, all clocks that were not set back behind the time the code was set, all messages in between",
  "The announced time is computed by one handler and enforced by a later one from what the storage kept in between; tests use fixed, short intervals",
  "src/challenge/challenge-module.cpp: returnWithNewChallengeStatus", "src/challenge/challenge-pin.cpp: handleChallengeRequest", "src/challenge/challenge-email.cpp: handleChallengeRequest", "src/detail/challenge-encoder.cpp: encodeDataContent", "src/detail/ca-sqlite.cpp: updateRequest, getRequest")
p("Only packets of the certificate format are read as certificates, and signed Interests end in a digest of their parameters",
 "If octets are read as a certificate (in a NEW or REVOKE request, as proof of possession, as the issued certificate), they are a Data packet whose elements are the name, then MetaInfo, Content, SignatureInfo and SignatureValue in this order and at most once each, with other elements only where they may be ignored. MetaInfo says content type KEY. SignatureInfo has one SignatureType, then at most one KeyLocator. The name, public key, KeyLocator and validity period that are used are those in the packet. An Interest is taken as signed only if it has parameters and its name ends in a component for their digest; each Interest with parameters that the requester makes ends in the SHA-256 digest of its parameters and signature.",
 "all octets, all certificates, all Interests, all signature schemes and keys",
 "decoders accept or reject arbitrary octets; tests decode a few packets",
 "src/ca-module.cpp: onNewRenewRevoke, onChallenge", "src/detail/request-encoder.cpp: decodeApplicationParameters", "src/requester-request.cpp: genNewInterest, genRevokeInterest, genChallengeInterest, onCertFetchResponse")
p("Issued certificates have names of their own",
 "Two certificates that the CA issues at different times have different names, so that each can be named and fetched.",
 "all histories of the CA with crashes and restarts, all clocks that go forward, both storages",
 "a collision needs two requests for one key that are completed close to each other; tests issue one certificate at a time",
 "src/ca-module.cpp: issueCertificate")
p("One email per request",
  "A requester cannot make the CA flood a mailbox: over any history of messages, restarts and crashes the CA sends at most one email for each NEW or REVOKE that it accepted, plus one for each time its process died while handling a CHALLENGE before sending the reply. Two emails for one request id are sent only if the process died in the first of the two steps or the request was created again in between.",
  "every history of messages, restarts and crashes, every storage, every configuration",
  "it is a bound over whole histories: a test can only send some CHALLENGEs in some order, and cannot stop the process between the email and the write to the database",
  "src/challenge/challenge-email.cpp: handleChallengeRequest, sendEmail", "src/ca-module.cpp: onChallenge")

p("Who passes the email challenge returns the code that was mailed",
  "Whenever the CA signs a certificate or completes a revocation, the challenge of this request was started by an earlier CHALLENGE. If that was the email challenge, exactly one email was sent in that step, for the name of the certificate in question and to the address given there, no other email was sent for the request afterwards, and the message that led to the certificate or revocation gave the code in this email. If it was another challenge, no email was sent.",
  "every history of messages, restarts and crashes, every storage, every configuration, all random draws",
  "it relates the step that issues to an earlier one for all histories in between, with lost processes and messages of others; a test can only run some of these",
  "src/challenge/challenge-email.cpp: handleChallengeRequest, sendEmail", "src/ca-module.cpp: onChallenge, issueCertificate")

p("A CHALLENGE that arrives again does no harm",
  "A CHALLENGE Interest that the CA already answered, when it arrives a second time (resent after a lost reply, duplicated by the network, or recorded and replayed by somebody who does not hold the key of the request), leaves the pending request as it is.",
  "every history of messages, restarts and crashes, every later moment, every storage, all surroundings",
  "the second arrival may be at any later point of any history; tests send each Interest once",
  "src/ca-module.cpp: onChallenge", "src/detail/crypto-helpers.cpp: decodeBlockWithAesGcm128")

p("No request is lost in silence",
  "With a storage that survives restarts (SQLite), when a request was pending at some time and later is not, a step in between removed it. In this step the CA handled a CHALLENGE that verifies under the key of the request's certificate, and it answered with an error or with success, unless the process died in this step before it had replied.",
  "every history of messages, restarts and crashes, every two moments of it, every configuration",
  "the request may disappear in any step of any history, also by a message of somebody else or by a crash; tests look at single steps",
  "src/ca-module.cpp: onChallenge", "src/detail/ca-sqlite.cpp: deleteRequest")

p("A reply to somebody else does no harm",
  "A packet that the CA sent for another request, given to a Request object as a reply to CHALLENGE (misdelivered, or replayed by somebody on the path who holds no key), is refused and does not keep the object from taking its own reply. Status, tries, time, key, request id and certificate name of the object stay as they were, and it makes the same CHALLENGE Interests as before.",
  "every history of the CA, every sequence of calls on the object, every packet of the CA that does not open under the key of the object",
  "it ranges over all pairs of a packet and a state of the object; tests give an object only its own replies",
  "src/requester-request.cpp: onChallengeResponse", "src/detail/challenge-encoder.cpp: decodeDataContent", "src/detail/crypto-helpers.cpp: decodeBlockWithAesGcm128")

p("A reply to the NEW of somebody else is refused, or does no lasting harm",
  "A Request object refuses the reply of the CA to a NEW Interest that it did not make. At least, whatever packet was given to it before, it takes its own reply and is then in the same state as if the other packet had not come.",
  "every history of the CA, every sequence of calls on the object, every packet given before its own reply",
  "it ranges over all pairs of a packet and a state of the object; tests give an object only its own replies",
  "src/requester-request.cpp: onNewRenewRevokeResponse", "src/detail/request-encoder.cpp: decodeDataContent")

with open('/verif/properties.jsonl','w') as f:
    for o in P: f.write(json.dumps(o)+"\n")
print(len(P))
for o in P: print(o['id'],o['title'])
