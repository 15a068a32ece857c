{
 "claims": [
  {
   "property": "C01",
   "status": "proved",
   "theorems": [
    "Ndncert.Props.C01_error_roundtrip",
    "Ndncert.Props.C01_probe_error",
    "Ndncert.Props.C01_new_error",
    "Ndncert.Props.C01_challenge_error"
   ],
   "note": ""
  },
  {
   "property": "C02",
   "status": "proved",
   "theorems": [
    "Ndncert.Props.C02_probe_not_error",
    "Ndncert.Props.C02_request_not_error",
    "Ndncert.Props.C02_challenge_not_error"
   ],
   "note": ""
  },
  {
   "property": "C03",
   "status": "proved",
   "theorems": [
    "Ndncert.Props.C03_params_roundtrip"
   ],
   "note": ""
  },
  {
   "property": "C04",
   "status": "proved",
   "theorems": [
    "Ndncert.Props.C04_params_strict",
    "Ndncert.Props.C04_no_params",
    "Ndncert.Props.C04_renew_never"
   ],
   "note": ""
  },
  {
   "property": "C05",
   "status": "proved",
   "theorems": [
    "Ndncert.Props.C05_reply_roundtrip"
   ],
   "note": ""
  },
  {
   "property": "C06",
   "status": "partial",
   "theorems": [
    "Ndncert.Props.C06_false",
    "Ndncert.Props.C06_false_id",
    "Ndncert.Props.C06_partial",
    "Ndncert.Props.C06_overflow_iff"
   ],
   "note": "False of the code: memcpy with the length from the wire (request-encoder.cpp). C06_false / C06_false_id give concrete contents; C06_partial and C06_overflow_iff say exactly which contents are safe."
  },
  {
   "property": "C07",
   "status": "proved",
   "theorems": [
    "Ndncert.Props.C07_probe_params_roundtrip"
   ],
   "note": ""
  },
  {
   "property": "C08",
   "status": "proved",
   "theorems": [
    "Ndncert.Props.C08_probe_reply_roundtrip"
   ],
   "note": ""
  },
  {
   "property": "C09",
   "status": "proved",
   "theorems": [
    "Ndncert.Props.C09_profile_roundtrip"
   ],
   "note": ""
  },
  {
   "property": "C10",
   "status": "proved",
   "theorems": [
    "Ndncert.Props.C10_ignored_request_params",
    "Ndncert.Props.C10_ignored_request_reply",
    "Ndncert.Props.C10_ignored_probe_reply",
    "Ndncert.Props.C10_ignored_info",
    "Ndncert.Props.C10_ignored_probe_params",
    "Ndncert.Props.C10_rejected_request_params",
    "Ndncert.Props.C10_rejected_request_reply",
    "Ndncert.Props.C10_rejected_probe_reply",
    "Ndncert.Props.C10_rejected_info",
    "Ndncert.Props.C10_rejected_probe_params",
    "Ndncert.Props.C10_rejected_throws"
   ],
   "note": ""
  },
  {
   "property": "C11",
   "status": "proved",
   "theorems": [
    "Ndncert.Props.C11_challenge_reply_roundtrip"
   ],
   "note": ""
  },
  {
   "property": "C12",
   "status": "partial",
   "theorems": [
    "Ndncert.Props.C12_false",
    "Ndncert.Props.C12_partial",
    "Ndncert.Props.C12_roundtrip"
   ],
   "note": "False of the code: statusFromBlock also accepts 5 and 6 (C12_false). C12_partial: never anything above 6; C12_roundtrip: the five defined ones are decoded correctly."
  },
  {
   "property": "C13",
   "status": "proved",
   "theorems": [
    "Ndncert.Props.C13_no_iv_reuse"
   ],
   "note": ""
  },
  {
   "property": "C14",
   "status": "proved",
   "theorems": [
    "Ndncert.Props.C14_encode_counter",
    "Ndncert.Props.C14_decode_counter"
   ],
   "note": ""
  },
  {
   "property": "C15",
   "status": "proved",
   "theorems": [
    "Ndncert.Props.C15_replay_rejected",
    "Ndncert.Props.C15_empty_plaintext_replays"
   ],
   "note": ""
  },
  {
   "property": "C16",
   "status": "proved",
   "theorems": [
    "Ndncert.Props.C16_reflection_rejected",
    "Ndncert.Props.C16_own_blocks_rejected"
   ],
   "note": ""
  },
  {
   "property": "C17",
   "status": "proved",
   "theorems": [
    "Ndncert.Props.C17_lossy_delivery"
   ],
   "note": ""
  },
  {
   "property": "C18",
   "status": "proved",
   "theorems": [
    "Ndncert.Props.C18_name_policy"
   ],
   "note": ""
  },
  {
   "property": "C19",
   "status": "proved",
   "theorems": [
    "Ndncert.Props.C19_validity_policy"
   ],
   "note": ""
  },
  {
   "property": "C20",
   "status": "proved",
   "theorems": [
    "Ndncert.Props.C20_new_possession",
    "Ndncert.Props.C20_revoke_origin"
   ],
   "note": ""
  },
  {
   "property": "C21",
   "status": "partial",
   "theorems": [
    "Ndncert.Props.C21_accepted_iff_policy",
    "Ndncert.Props.C21_first_failing_check_partial",
    "Ndncert.Props.C21_false"
   ],
   "note": "First half (accepted iff policy) proved in full. Second half false of the code for certificates without a ValidityPeriod (C21_false: exception, no reply); proved for all others."
  },
  {
   "property": "C22",
   "status": "proved",
   "theorems": [
    "Ndncert.Props.C22_expired_ca"
   ],
   "note": ""
  },
  {
   "property": "C23",
   "status": "proved",
   "theorems": [
    "Ndncert.Props.C23_refused_no_trace"
   ],
   "note": ""
  },
  {
   "property": "C24",
   "status": "proved",
   "theorems": [
    "Ndncert.Props.C24_accepted_one_fresh_request"
   ],
   "note": ""
  },
  {
   "property": "C25",
   "status": "proved",
   "theorems": [
    "Ndncert.Props.C25_duplicate_refused",
    "Ndncert.Props.C25_next_instance"
   ],
   "note": ""
  },
  {
   "property": "C26",
   "status": "partial",
   "theorems": [
    "Ndncert.Props.C26_one_reply_partial",
    "Ndncert.Props.C26_false"
   ],
   "note": "False of the code for certificates without a ValidityPeriod (C26_false: exception leaves the handler); proved for all others."
  },
  {
   "property": "C27",
   "status": "proved",
   "theorems": [
    "Ndncert.Props.C27_new_agreement",
    "Ndncert.Props.C27_revoke_agreement"
   ],
   "note": ""
  },
  {
   "property": "C28",
   "status": "proved",
   "theorems": [
    "Ndncert.Props.C28_unauthentic_no_effect"
   ],
   "note": ""
  },
  {
   "property": "C29",
   "status": "proved",
   "theorems": [
    "Ndncert.Props.C29_isolation"
   ],
   "note": ""
  },
  {
   "property": "C30",
   "status": "proved",
   "theorems": [
    "Ndncert.Props.C30_issued_only_after"
   ],
   "note": ""
  },
  {
   "property": "C31",
   "status": "proved",
   "theorems": [
    "Ndncert.Props.C31_issued_content"
   ],
   "note": ""
  },
  {
   "property": "C32",
   "status": "proved",
   "theorems": [
    "Ndncert.Props.C32_at_most_one",
    "Ndncert.Props.C32_removed_before_reply",
    "Ndncert.Props.C32_then_error"
   ],
   "note": ""
  },
  {
   "property": "C33",
   "status": "proved",
   "theorems": [
    "Ndncert.Props.C33_three_attempts",
    "Ndncert.Props.C33_last_try",
    "Ndncert.Props.C33_third_wrong"
   ],
   "note": ""
  },
  {
   "property": "C34",
   "status": "partial",
   "theorems": [
    "Ndncert.Props.C34_false",
    "Ndncert.Props.C34_bounded_partial"
   ],
   "note": "False of the code: the age of a code restarts with each wrong try (C34_false). C34_bounded_partial: bounded by the lifetime since the last answered CHALLENGE, and by three lifetimes in all."
  },
  {
   "property": "C35",
   "status": "partial",
   "theorems": [
    "Ndncert.Props.C35_false",
    "Ndncert.Props.C35_registered_partial"
   ],
   "note": "False of the code: supported-challenges is never consulted for CHALLENGE (C35_false: email started although only pin is supported). Proved: unregistered challenge types are refused and the request removed."
  },
  {
   "property": "C36",
   "status": "partial",
   "theorems": [
    "Ndncert.Props.C36_false",
    "Ndncert.Props.C36_kinds_partial"
   ],
   "note": "False of the code: pin and email can be exchanged in the middle of a challenge (C36_false). C36_kinds_partial: codes and proofs cannot be exchanged, and the answer is always to the challenge that was started."
  },
  {
   "property": "C37",
   "status": "proved",
   "theorems": [
    "Ndncert.Props.C37_error_removes"
   ],
   "note": ""
  },
  {
   "property": "C38",
   "status": "proved",
   "theorems": [
    "Ndncert.Props.C38_replay"
   ],
   "note": ""
  },
  {
   "property": "C39",
   "status": "partial",
   "theorems": [
    "Ndncert.Props.C39_false",
    "Ndncert.Props.C39_false_overflow",
    "Ndncert.Props.C39_false_exception",
    "Ndncert.Props.C39_defined_partial",
    "Ndncert.Props.C39_answered_partial",
    "Ndncert.Props.C39_false_credential"
   ],
   "note": "False of the code: a request id component of more than eight octets overflows a buffer (C39_false, C39_false_overflow) and a plaintext without SelectedChallenge ends the process with an exception (C39_false_exception), and so does the proof for a credential that is a Data packet signed by a trust anchor but not a certificate, which Data::wireDecode accepted before (C39_false_credential). C39_defined_partial: otherwise the behaviour is always defined and a returning handler sent exactly one Data; C39_answered_partial: which Interests are answered."
  },
  {
   "property": "C40",
   "status": "proved",
   "theorems": [
    "Ndncert.Props.C40_stored_waiting",
    "Ndncert.Props.C40_never_stores"
   ],
   "note": ""
  },
  {
   "property": "C41",
   "status": "proved",
   "theorems": [
    "Ndncert.Props.C41_revoke_never_issues"
   ],
   "note": ""
  },
  {
   "property": "C42",
   "status": "proved",
   "theorems": [
    "Ndncert.Props.C42_callback"
   ],
   "note": ""
  },
  {
   "property": "C43",
   "status": "proved",
   "theorems": [
    "Ndncert.Props.C43_crash",
    "Ndncert.Props.C43_crash_sqlite"
   ],
   "note": ""
  },
  {
   "property": "C44",
   "status": "proved",
   "theorems": [
    "Ndncert.Props.C44_restart",
    "Ndncert.Props.C44_restart_sqlite"
   ],
   "note": ""
  },
  {
   "property": "C45",
   "status": "proved",
   "theorems": [
    "Ndncert.Props.C45_six_digits",
    "Ndncert.Props.C45_uniform",
    "Ndncert.Props.C45_first_accepted"
   ],
   "note": ""
  },
  {
   "property": "C46",
   "status": "proved",
   "theorems": [
    "Ndncert.Props.C46_start",
    "Ndncert.Props.C46_success"
   ],
   "note": ""
  },
  {
   "property": "C47",
   "status": "partial",
   "theorems": [
    "Ndncert.Props.C47_false",
    "Ndncert.Props.C47_start_partial",
    "Ndncert.Props.C47_proof_partial"
   ],
   "note": "False of the code for every run (C47_false): the requester's possession messages name the challenge 'Possession', or no challenge at all, and the CA knows only 'possession'. C47_start_partial / C47_proof_partial: the CA's half works for a requester that sends what the CA expects."
  },
  {
   "property": "C48",
   "status": "partial",
   "theorems": [
    "Ndncert.Props.C48_false_any_time",
    "Ndncert.Props.C48_once_partial",
    "Ndncert.Props.C48_false"
   ],
   "note": "False of the code: the 60 s limit is never checked (C48_false, C48_false_any_time). C48_once_partial: every answered proof ends the request."
  },
  {
   "property": "C49",
   "status": "partial",
   "theorems": [
    "Ndncert.Props.C49_false",
    "Ndncert.Props.C49_asked_partial"
   ],
   "note": "False of the code: a mismatch is only logged (C49_false). C49_asked_partial: mail goes only to the address in an authentic CHALLENGE that starts the email challenge, with the stored code."
  },
  {
   "property": "C50",
   "status": "partial",
   "theorems": [
    "Ndncert.Props.C50_four_arguments_partial",
    "Ndncert.Props.C50_exact_partial",
    "Ndncert.Props.C50_false_injection",
    "Ndncert.Props.C50_false"
   ],
   "note": "False of the code: an address with a quote is split into several arguments (C50_false, C50_false_injection). C50_four_arguments_partial: true for every address without quotes and NUL. C50_exact_partial: the exact addresses for which it holds, an equivalence (no NUL, no backslash directly before a quote, an even number of quotes in all and in front of every space)."
  },
  {
   "property": "C51",
   "status": "proved",
   "theorems": [
    "Ndncert.Props.C51_memory_storage_is_map"
   ],
   "note": ""
  },
  {
   "property": "C52",
   "status": "partial",
   "theorems": [
    "Ndncert.Props.C52_sqlite_storage_is_map_partial",
    "Ndncert.Props.C52_false"
   ],
   "note": "False for updates of absent requests or of fixed columns (C52_false); proved for all sequences the CA can produce."
  },
  {
   "property": "C53",
   "status": "proved",
   "theorems": [
    "Ndncert.Props.C53_interchangeable",
    "Ndncert.Props.C53_restart_differs",
    "Ndncert.Props.C53_submicrosecond_differs"
   ],
   "note": ""
  },
  {
   "property": "C54",
   "status": "proved",
   "theorems": [
    "Ndncert.Props.C54_email_redirection"
   ],
   "note": ""
  },
  {
   "property": "C55",
   "status": "proved",
   "theorems": [
    "Ndncert.Props.C55_param_construction",
    "Ndncert.Props.C55_param_redirection",
    "Ndncert.Props.C55_param_empty"
   ],
   "note": ""
  },
  {
   "property": "C56",
   "status": "proved",
   "theorems": [
    "Ndncert.Props.C56_param_assignment",
    "Ndncert.Props.C56_param_components",
    "Ndncert.Props.C56_param_nothing"
   ],
   "note": "For either reading of Name::append(std::string) in ndn-cxx (Crypto.stringName); one component per item when it appends a component."
  },
  {
   "property": "C57",
   "status": "proved",
   "theorems": [
    "Ndncert.Props.C57_hash_assignment"
   ],
   "note": "For either reading of Name::append(std::string) in ndn-cxx (Crypto.stringName); one component per item when it appends a component."
  },
  {
   "property": "C58",
   "status": "partial",
   "theorems": [
    "Ndncert.Props.C58_false",
    "Ndncert.Props.C58_email_assignment_partial",
    "Ndncert.Props.C58_email_nothing_partial"
   ],
   "note": "False of the code: the address is the value of the first parameter in key order, not of 'email' (C58_false). The rest is proved for parameter maps whose first key is 'email'."
  },
  {
   "property": "C59",
   "status": "partial",
   "theorems": [
    "Ndncert.Props.C59_false",
    "Ndncert.Props.C59_email_injective_partial"
   ],
   "note": "False of the code (C59_false): labels of the configured domain are dropped one by one. Proved: injective on the addresses below the configured domain."
  },
  {
   "property": "C60",
   "status": "proved",
   "theorems": [
    "Ndncert.Props.C60_throwing",
    "Ndncert.Props.C60_undecodable",
    "Ndncert.Props.C60_no_results",
    "Ndncert.Props.C60_probe_reply",
    "Ndncert.Props.C60_no_effects",
    "Ndncert.Props.C60_params_sorted"
   ],
   "note": ""
  },
  {
   "property": "C61",
   "status": "partial",
   "theorems": [
    "Ndncert.Props.C61_false",
    "Ndncert.Props.C61_false_empty",
    "Ndncert.Props.C61_offers_partial"
   ],
   "note": "False of the code (C61_false: a name longer than maxSuffixLength allows via redirected configuration; C61_false_empty: the bare CA prefix). C61_offers_partial: names are always below the CA prefix, and acceptable when the formats fit the suffix limit."
  },
  {
   "property": "C62",
   "status": "proved",
   "theorems": [
    "Ndncert.Props.C62_pin_run"
   ],
   "note": ""
  },
  {
   "property": "C63",
   "status": "proved",
   "theorems": [
    "Ndncert.Props.C63_unverified_reply",
    "Ndncert.Props.C63_effect_needs_signature"
   ],
   "note": ""
  },
  {
   "property": "C64",
   "status": "proved",
   "theorems": [
    "Ndncert.Props.C64_redirected_profile",
    "Ndncert.Props.C64_accepts"
   ],
   "note": ""
  },
  {
   "property": "C65",
   "status": "partial",
   "theorems": [
    "Ndncert.Props.C65_profile_verified",
    "Ndncert.Props.C65_false",
    "Ndncert.Props.C65_undefined_iff_partial",
    "Ndncert.Props.C65_with_certificate_partial"
   ],
   "note": "False of the code: a profile without certificate element dereferences a null pointer (C65_false). Proved: undefined exactly in that case, otherwise an exception or a verified profile."
  },
  {
   "property": "C66",
   "status": "proved",
   "theorems": [
    "Ndncert.Props.C66_new_null",
    "Ndncert.Props.C66_new_some",
    "Ndncert.Props.C66_new_request",
    "Ndncert.Props.C66_revoke"
   ],
   "note": ""
  },
  {
   "property": "C67",
   "status": "proved",
   "theorems": [
    "Ndncert.Props.C67_prompts",
    "Ndncert.Props.C67_start_understood",
    "Ndncert.Props.C67_code_understood"
   ],
   "note": ""
  },
  {
   "property": "C68",
   "status": "proved",
   "theorems": [
    "Ndncert.Props.C68_trusted"
   ],
   "note": ""
  },
  {
   "property": "C69",
   "status": "partial",
   "theorems": [
    "Ndncert.Props.C69_false",
    "Ndncert.Props.C69_unchanged_partial"
   ],
   "note": "False of the code: the fetched certificate's signature is never checked (C69_false)."
  },
  {
   "property": "C70",
   "status": "partial",
   "theorems": [
    "Ndncert.Props.C70_false",
    "Ndncert.Props.C70_address_partial"
   ],
   "note": "False of the code (C70_false): a CA that offers the email challenge without having asked for an address makes the client dereference an end iterator. C70_address_partial: true when the first CA probed asks for the address."
  },
  {
   "property": "C71",
   "status": "partial",
   "theorems": [
    "Ndncert.Props.C71_profile_name",
    "Ndncert.Props.C71_false",
    "Ndncert.Props.C71_discovery_partial",
    "Ndncert.Props.C71_profile_received"
   ],
   "note": "First half proved. Second half false for CA prefixes that end in the component CA (C71_false); proved for all others."
  },
  {
   "property": "C72",
   "status": "proved",
   "theorems": [
    "Ndncert.Props.C72_map",
    "Ndncert.Props.C72_add",
    "Ndncert.Props.C72_remove"
   ],
   "note": ""
  },
  {
   "property": "C73",
   "status": "partial",
   "theorems": [
    "Ndncert.Props.C73_false",
    "Ndncert.Props.C73_profile_partial",
    "Ndncert.Props.C73_entries_partial",
    "Ndncert.Props.C73_load_partial"
   ],
   "note": "False of the code for every store (C73_false): the list is written without the key under which load looks for it. C73_profile_partial: what of a single profile survives toJson and fromJson; C73_load_partial: what load does with a file in the layout it expects."
  },
  {
   "property": "C74",
   "status": "partial",
   "theorems": [
    "Ndncert.Props.C74_lookup_partial",
    "Ndncert.Props.C74_accepted_iff_partial",
    "Ndncert.Props.C74_content_partial",
    "Ndncert.Props.C74_module_partial",
    "Ndncert.Props.C74_defined_partial",
    "Ndncert.Props.C74_false",
    "Ndncert.Props.C74_lenient_partial",
    "Ndncert.Props.C74_lower_case"
   ],
   "note": "False of the code in one point (C74_false): an undecodable redirection certificate is dereferenced as a null pointer, or kept if no prefix is stated. Everything else is proved, for all documents (C74_accepted_iff_partial, C74_content_partial, C74_defined_partial). The URI, JSON and certificate text formats are abstract operations."
  },
  {
   "property": "C75",
   "status": "proved",
   "theorems": [
    "Ndncert.Props.C75_cache",
    "Ndncert.Props.C75_fetch",
    "Ndncert.Props.C75_by_name"
   ],
   "note": ""
  },
  {
   "property": "C76",
   "status": "proved",
   "theorems": [
    "Ndncert.Props.C76_written",
    "Ndncert.Props.C76_announced"
   ],
   "note": ""
  },
  {
   "property": "C77",
   "status": "proved",
   "theorems": [
    "Ndncert.Props.C77_no_reuse"
   ],
   "note": ""
  },
  {
   "property": "C78",
   "status": "proved",
   "theorems": [
    "Ndncert.Props.C78_email_run"
   ],
   "note": ""
  },
  {
   "property": "C79",
   "status": "proved",
   "theorems": [
    "Ndncert.Props.C79_causes"
   ],
   "note": ""
  },
  {
   "property": "C80",
   "status": "partial",
   "theorems": [
    "Ndncert.Props.C80_kept",
    "Ndncert.Props.C80_restored_partial",
    "Ndncert.Props.C80_false"
   ],
   "note": "First half proved for all runs (C80_kept). Second half false of the code (C80_false): with an identity that has no default key and a user who asks for a new key, the first of two created keys is left behind. C80_restored_partial: exact restoration if every identity had a default key and no CA assigned the empty name."
  },
  {
   "property": "C81",
   "status": "proved",
   "theorems": [
    "Ndncert.Props.C81_installed",
    "Ndncert.Props.C81_fetched_on_success"
   ],
   "note": "That the packet delivered to the callback has the name of the Interest is the task of the face and is not part of the model; the packet is whatever answers that Interest."
  },
  {
   "property": "C82",
   "status": "partial",
   "theorems": [
    "Ndncert.Props.C82_period",
    "Ndncert.Props.C82_hours_partial",
    "Ndncert.Props.C82_false"
   ],
   "note": "False of the code for numbers of 2^31 and above (C82_false). C82_period: what is asked for, for every typed line; C82_hours_partial: the hours typed, below 2^31."
  },
  {
   "property": "C83",
   "status": "proved",
   "theorems": [
    "Ndncert.Props.C83_id_of_name",
    "Ndncert.Props.C83_shared_id"
   ],
   "note": ""
  },
  {
   "property": "C84",
   "status": "proved",
   "theorems": [
    "Ndncert.Props.C84_one_handler",
    "Ndncert.Props.C84_requests_arrive",
    "Ndncert.Props.C84_request_names",
    "Ndncert.Props.C84_handled"
   ],
   "note": ""
  },
  {
   "property": "C85",
   "status": "partial",
   "theorems": [
    "Ndncert.Props.C85_one_reply_partial",
    "Ndncert.Props.C85_short_names",
    "Ndncert.Props.C85_false"
   ],
   "note": "False of the code (C85_false): the Interest for a certificate of an identity below PREFIX/CA/PROBE is also handled as a PROBE. C85_one_reply_partial: true if no issued certificate has such a name; C85_short_names: always true if max-suffix-length is at most one."
  },
  {
   "property": "C86",
   "status": "partial",
   "theorems": [
    "Ndncert.Props.C86_false",
    "Ndncert.Props.C86_files_differ_partial"
   ],
   "note": "False of the code: /a/b and /a_b share a file (C86_false). C86_files_differ_partial: true of prefixes without underscores."
  },
  {
   "property": "C87",
   "status": "proved",
   "theorems": [
    "Ndncert.Props.C87_lists_pending"
   ],
   "note": ""
  },
  {
   "property": "C88",
   "status": "proved",
   "theorems": [
    "Ndncert.Props.C88_listed",
    "Ndncert.Props.C88_issued",
    "Ndncert.Props.C88_missing_file"
   ],
   "note": "C88_missing_file shows what the error for an unreadable file leads to: the exception leaves the CHALLENGE handler."
  },
  {
   "property": "C89",
   "status": "proved",
   "theorems": [
    "Ndncert.Props.C89_chosen_name"
   ],
   "note": ""
  },
  {
   "property": "C90",
   "status": "proved",
   "theorems": [
    "Ndncert.Props.C90_asks",
    "Ndncert.Props.C90_says"
   ],
   "note": ""
  },
  {
   "property": "C91",
   "status": "proved",
   "theorems": [
    "Ndncert.Props.C91_pin_tools",
    "Ndncert.Props.C91_email_tools"
   ],
   "note": ""
  },
  {
   "property": "C92",
   "status": "partial",
   "theorems": [
    "Ndncert.Props.C92_false",
    "Ndncert.Props.C92_checked_partial",
    "Ndncert.Props.C92_decrypts",
    "Ndncert.Props.C92_encrypted_partial",
    "Ndncert.Props.C92_encrypts",
    "Ndncert.Props.C92_laws"
   ],
   "note": "False of the code (C92_false): the results of EVP_EncryptUpdate/EVP_DecryptUpdate are ignored, so that a failing call drops the associated data or the text from what is authenticated. C92_checked_partial and C92_encrypted_partial: what is authenticated, for every pattern of failing calls. C92_decrypts, C92_encrypts, C92_laws: without failing calls the full statement holds, and the laws assumed of the cryptography elsewhere follow."
  },
  {
   "property": "C93",
   "status": "partial",
   "theorems": [
    "Ndncert.Props.C93_false",
    "Ndncert.Props.C93_secret_partial",
    "Ndncert.Props.C93_peer",
    "Ndncert.Props.C93_key_partial",
    "Ndncert.Props.C93_keygen",
    "Ndncert.Props.C93_hmac"
   ],
   "note": "False of the code (C93_false): only the value 0 of the last call counts as failure, so that a context that cannot be initialised gives an empty secret and an AES key that is whatever was in the buffer. C93_secret_partial, C93_key_partial: which failures are detected. C93_keygen, C93_hmac: the constructor and hmacSha256 detect all; C93_peer: the statement without failing calls."
  },
  {
   "property": "C94",
   "status": "proved",
   "theorems": [
    "Ndncert.Props.C94_filled",
    "Ndncert.Props.C94_undefined_iff",
    "Ndncert.Props.C94_holder_passes"
   ],
   "note": "At the level of the challenge module. Through the CA and the requester library the challenge cannot succeed, because the proof message lacks the selected challenge: see C47."
  },
  {
   "property": "C95",
   "status": "partial",
   "theorems": [
    "Ndncert.Props.C95_limit",
    "Ndncert.Props.C95_false",
    "Ndncert.Props.C95_fits_partial",
    "Ndncert.Props.C95_probe_partial",
    "Ndncert.Props.C95_probe_any_partial"
   ],
   "note": "False of every CA (C95_false): an Interest without parameters whose name nearly fills a packet gets an error reply that does not fit, and the exception of the face ends the process. C95_fits_partial: true for NEW, REVOKE and CHALLENGE if the name leaves the room stated; C95_probe_any_partial: the same for PROBE in terms of the names offered and the redirections; C95_probe_partial: in the default configuration the name of the Interest, the CA prefix and 100 octets are enough."
  },
  {
   "property": "C96",
   "status": "proved",
   "theorems": [
    "Ndncert.Props.C96_exit_code"
   ],
   "note": ""
  },
  {
   "property": "C97",
   "status": "partial",
   "theorems": [
    "Ndncert.Props.C97_false",
    "Ndncert.Props.C97_started",
    "Ndncert.Props.C97_progress_partial"
   ],
   "note": "False of the code (C97_false): after a timeout the client stays in its event loop, which waits for signals, and does nothing more. C97_progress_partial: this happens only after a timeout, a profile that cannot be used, or a name outside the CA's prefix; otherwise each callback ends the program or sends exactly one Interest."
  },
  {
   "property": "C98",
   "status": "proved",
   "theorems": [
    "Ndncert.Props.C98_replies_hide_code",
    "Ndncert.Props.C98_replies_hide_code_of",
    "Ndncert.Props.C98_storages"
   ],
   "note": ""
  },
  {
   "property": "C99",
   "status": "proved",
   "theorems": [
    "Ndncert.Props.C99_others_irrelevant",
    "Ndncert.Props.C99_other_requests_irrelevant"
   ],
   "note": ""
  },
  {
   "property": "C100",
   "status": "partial",
   "theorems": [
    "Ndncert.Props.C100_right_partial",
    "Ndncert.Props.C100_sent_partial",
    "Ndncert.Props.C100_no_markup",
    "Ndncert.Props.C100_false_hyphen",
    "Ndncert.Props.C100_false",
    "Ndncert.Props.C100_false_sent"
   ],
   "note": "False of the code: three quotes in the address and the applicant decides who gets the mail and what stands in the place of code and names (C100_false); mails to addresses that begin with a hyphen are never sent (C100_false_hyphen, C100_false_sent). C100_right_partial, C100_sent_partial: both halves for addresses that come through the command line (C50_exact_partial) and do not begin with a hyphen, for templates with the fields {0}, {1}, {2} and doubled braces. C100_no_markup: code and names have no markup."
  },
  {
   "property": "C101",
   "status": "partial",
   "theorems": [
    "Ndncert.Props.C101_encrypted_partial",
    "Ndncert.Props.C101_false"
   ],
   "note": "False of the code (C101_false): every value other than ssl and tls, such as TLS, gives an unencrypted connection. C101_encrypted_partial: true of ssl and tls."
  },
  {
   "property": "C102",
   "status": "proved",
   "theorems": [
    "Ndncert.Props.C102_first",
    "Ndncert.Props.C102_redirected"
   ],
   "note": ""
  },
  {
   "property": "C103",
   "status": "partial",
   "theorems": [
    "Ndncert.Props.C103_false",
    "Ndncert.Props.C103_limits_partial",
    "Ndncert.Props.C103_requests_partial"
   ],
   "note": "False of the code (C103_false): a limit that is not a number, or too large a number, is accepted and replaced by no limit (suffix length) or one day (validity period), and a negative suffix length is taken modulo 2^64. C103_limits_partial and C103_requests_partial: true of non-negative numbers that fit, and of missing limits."
  },
  {
   "property": "C104",
   "status": "proved",
   "theorems": [
    "Ndncert.Props.C104_json",
    "Ndncert.Props.C104_time",
    "Ndncert.Props.C104_secrets",
    "Ndncert.Props.C104_same",
    "Ndncert.Props.C104_utf8_matters"
   ],
   "note": ""
  },
  {
   "property": "C105",
   "status": "proved",
   "theorems": [
    "Ndncert.Props.C105_json",
    "Ndncert.Props.C105_one_meaning",
    "Ndncert.Props.C105_uri",
    "Ndncert.Props.C105_typed",
    "Ndncert.Props.C105_config",
    "Ndncert.Props.C105_profile"
   ],
   "note": ""
  },
  {
   "property": "C106",
   "status": "proved",
   "theorems": [
    "Ndncert.Props.C106_one_reading",
    "Ndncert.Props.C106_listing"
   ],
   "note": ""
  },
  {
   "property": "C107",
   "status": "partial",
   "theorems": [
    "Ndncert.Props.C107_replies_partial",
    "Ndncert.Props.C107_kept_partial",
    "Ndncert.Props.C107_same_key_partial",
    "Ndncert.Props.C107_false"
   ],
   "note": "False of the code (C107_false): the profile Data is made once per process (m_profileData), so after the key of the CA's identity is replaced the CA serves a profile with the old certificate and requesters refuse all its replies. C107_kept_partial: which Data is served; C107_same_key_partial: true while the key stays, whatever certificates for it come and go; C107_replies_partial: every reply verifies under a certificate for the key the CA has then."
  },
  {
   "property": "C108",
   "status": "partial",
   "theorems": [
    "Ndncert.Props.C108_accepted_before_partial",
    "Ndncert.Props.C108_same_prefix_partial",
    "Ndncert.Props.C108_at_most_one_partial",
    "Ndncert.Props.C108_one_each_partial",
    "Ndncert.Props.C108_one_ca_partial",
    "Ndncert.Props.C108_false",
    "Ndncert.Props.C108_reconfigured_false"
   ],
   "note": "False of the code: a CHALLENGE is served by request id alone and the CA prefix kept with the request is never compared, so of two CAs that share a database file (C86_false) each completes requests accepted by the other and issues certificates outside its own prefix (C108_false); and requests accepted before a restart are completed after it whatever the new configuration says (C108_reconfigured_false). C108_accepted_before_partial: a certificate is issued only for a request some CA on the database accepted under its policy then, whose challenge was answered; C108_one_each_partial: CAs that share a database sign at most once per accepted NEW; C108_same_prefix_partial: the policy of the issuing CA holds if the others had its prefix and no larger max-suffix-length; C108_at_most_one_partial: not more certificates than accepted requests; C108_one_ca_partial: executions of one CA are a special case. Handlers of different processes are not interleaved in this model."
  },
  {
   "property": "C109",
   "status": "partial",
   "theorems": [
    "Ndncert.Props.C109_accepted_before_partial",
    "Ndncert.Props.C109_removed_partial",
    "Ndncert.Props.C109_stored_partial",
    "Ndncert.Props.C109_false",
    "Ndncert.Props.C109_lost_false",
    "Ndncert.Props.C109_codes_false"
   ],
   "note": "False as stated. C109_false: two processes that have both read the request before one removes it both sign a certificate. C109_codes_false: two processes answer six codes for one challenge, since each overwrites the count of the other. C109_lost_false: with one process, deleteRequest does not look at the result of its statement, so a removal that fails because the file is locked (by ndncert-ca-status, say) leaves the request behind, and the same code yields a second certificate. Proved for all interleavings: every certificate is for a request accepted before and for an answered challenge (C109_accepted_before_partial), everything in the database was accepted (C109_stored_partial), and a process that has removed a request signs nothing more for it (C109_removed_partial)."
  },
  {
   "property": "C110",
   "status": "proved",
   "theorems": [
    "Ndncert.Props.C110_profile",
    "Ndncert.Props.C110_probe_reply",
    "Ndncert.Props.C110_error",
    "Ndncert.Props.C110_new_reply",
    "Ndncert.Props.C110_probe_params",
    "Ndncert.Props.C110_challenge_reply"
   ],
   "note": ""
  },
  {
   "property": "C111",
   "status": "partial",
   "theorems": [
    "Ndncert.Props.C111_exact_partial",
    "Ndncert.Props.C111_delivered_partial",
    "Ndncert.Props.C111_one_attempt_partial",
    "Ndncert.Props.C111_false"
   ],
   "note": "False of the code (C111_false): the result of writeDataToRepo is ignored and the state of the stream after the write is not looked at, so a certificate issued while the repo is unreachable is lost (one error line) and one whose connection breaks is lost silently; without repo a restart empties the cache. C111_exact_partial: what the repo holds, for every behaviour of the network; C111_delivered_partial: true if all connections go through; C111_one_attempt_partial: a certificate is in the repo exactly if the one connection tried when it was issued went through."
  },
  {
   "property": "C112",
   "status": "proved",
   "theorems": [
    "Ndncert.Props.C112_default",
    "Ndncert.Props.C112_offered",
    "Ndncert.Props.C112_distinct",
    "Ndncert.Props.C112_acceptable"
   ],
   "note": ""
  },
  {
   "property": "C113",
   "status": "partial",
   "theorems": [
    "Ndncert.Props.C113_causes_partial",
    "Ndncert.Props.C113_anyone_partial",
    "Ndncert.Props.C113_false"
   ],
   "note": "False of the code (C113_false): a metadata packet without a name in it, which anybody can send, makes genCaProfileInterestFromDiscoveryResponse throw outside any try block. C113_causes_partial: every uncaught exception is due to the empty name typed for the CA or to one of eight causes in the reply just received (CrashCause); Nacks, timeouts and signals never do it. C113_anyone_partial: the three causes that need no key of a CA, as equivalences (metadata, profile of an unknown CA that cannot be shown, fetched packet not the certificate of a key in the KeyChain). Of the eight, noKey and counter are only upper bounds: no run with them is exhibited."
  },
  {
   "property": "C114",
   "status": "partial",
   "theorems": [
    "Ndncert.Props.C114_interests",
    "Ndncert.Props.C114_destroyed_partial",
    "Ndncert.Props.C114_false"
   ],
   "note": "False of the code (C114_false): the destructor cancels the Interest filters and unregisters the prefix, but the two callbacks of a registration not yet answered stay with the face and capture this; if the answer comes after the destruction they use the dead object. C114_interests (true without restriction): which Interests reach the module, and when. C114_destroyed_partial: the dead object is used exactly if the forwarder answers after the destruction. ndn::Face is modelled as described in Model/Lifecycle."
  },
  {
   "property": "C115",
   "status": "partial",
   "theorems": [
    "Ndncert.Props.C115_known_partial",
    "Ndncert.Props.C115_unknown",
    "Ndncert.Props.C115_without_storage",
    "Ndncert.Props.C115_false"
   ],
   "note": "False of the code (C115_false): createCaStorage returns null for an unknown storage type and the constructor does not look at it. C115_known_partial: the property for the two types that exist. C115_unknown, C115_without_storage: with any other type the constructor succeeds, and exactly the Interests that need the storage (NEW/REVOKE that pass all checks, CHALLENGE with an id) dereference null."
  },
  {
   "property": "C116",
   "status": "partial",
   "theorems": [
    "Ndncert.Props.C116_anyone",
    "Ndncert.Props.C116_signature_ignored",
    "Ndncert.Props.C116_reason_partial",
    "Ndncert.Props.C116_false"
   ],
   "note": "False of the code (C116_false): REVOKE Interests need no signature (C116_signature_ignored), so anybody who has the public certificate can make a REVOKE for it pending and the holder's is then refused as a duplicate. C116_anyone: an Interest of anybody with the certificate and a usable ECDH key is accepted whenever the holder's would be, and blocks every NEW or REVOKE with a certificate of that name until the request is removed or the process restarts. C116_reason_partial: an application that passes all other checks is refused only because of a pending request that was accepted earlier and not removed; if a NEW made it, its Interest was signed with the key."
  },
  {
   "property": "C117",
   "status": "partial",
   "theorems": [
    "Ndncert.Props.C117_removed_partial",
    "Ndncert.Props.C117_again",
    "Ndncert.Props.C117_false"
   ],
   "note": "False of the code (C117_false): nothing in the Interest (no nonce, time or sequence number of the signature) is checked for freshness, so the Interest is accepted again once the request is gone. C117_removed_partial: not before the process has removed the request. C117_again: while the period asked for is admissible and the CA's certificate valid, a NEW accepted once is accepted again exactly if no request with its id is pending."
  },
  {
   "property": "C118",
   "status": "partial",
   "theorems": [
    "Ndncert.Props.C118_stays",
    "Ndncert.Props.C118_removed_partial",
    "Ndncert.Props.C118_false"
   ],
   "note": "False of the code for every limit (C118_false): pending requests have no lifetime. C118_stays: a request is removed only by a CHALLENGE signed with its key, so as long as the process runs a request that was given up keeps every NEW and REVOKE with a certificate of its name from being accepted, whatever the time; since the name of an issued certificate is fixed, a client that loses its state after REVOKE cannot start the revocation again. C118_removed_partial: once the request was removed, applications that pass the checks are accepted."
  },
  {
   "property": "C119",
   "status": "partial",
   "theorems": [
    "Ndncert.Props.C119_no_challenge",
    "Ndncert.Props.C119_false",
    "Ndncert.Props.C119_pin_partial",
    "Ndncert.Props.C119_email_partial"
   ],
   "note": "False of the code (C119_false): genRevokeInterest leaves the key pair of the object empty, so that after the CA has accepted the REVOKE the object throws when the first CHALLENGE Interest is to be made; C119_no_challenge: on an object on which no NEW Interest was made this is so for every order of calls. C119_pin_partial, C119_email_partial: with the key pair set (by a NEW Interest made on the same object and not sent) the exchange ends with status success, and the CA then only deletes the request: it signs nothing and keeps no record of the revocation, as ca-module.cpp:449-454 says in a TODO."
  },
  {
   "property": "C120",
   "status": "proved",
   "theorems": [
    "Ndncert.Props.C120_iv_fresh",
    "Ndncert.Props.C120_one_iv"
   ],
   "note": ""
  },
  {
   "property": "C121",
   "status": "partial",
   "theorems": [
    "Ndncert.Props.C121_agreed_partial",
    "Ndncert.Props.C121_zero_key",
    "Ndncert.Props.C121_false",
    "Ndncert.Props.C121_false_replaced"
   ],
   "note": "False of the code: a CHALLENGE Interest made before a reply was accepted is encrypted with sixteen zero octets, so that anybody can read the address or code in it (C121_false, and C121_zero_key for all such calls); and a reply that is refused has by then replaced the request id, so that later Interests go to another request (C121_false_replaced). C121_agreed_partial: the property for every CHALLENGE Interest between which and the accepted reply no other reply to NEW was handed in, if salt and id have 32 and 8 octets."
  },
  {
   "property": "C122",
   "status": "proved",
   "theorems": [
    "Ndncert.Props.C122_causes",
    "Ndncert.Props.C122_defined"
   ],
   "note": ""
  },
  {
   "property": "C123",
   "status": "partial",
   "theorems": [
    "Ndncert.Props.C123_false",
    "Ndncert.Props.C123_ignored",
    "Ndncert.Props.C123_method_partial",
    "Ndncert.Props.C123_no_renewal",
    "Ndncert.Props.C123_not_handled"
   ],
   "note": "False of the code (C123_false): the type is stored and never read, so that an object made for a revocation makes a NEW Interest which the CA accepts. C123_ignored: what one object does, an object of any other type does. C123_no_renewal, C123_not_handled: no object asks for a renewal and no CA handles such an Interest. C123_method_partial: the method called decides, genNewInterest asks for NEW and genRevokeInterest for REVOKE."
  },
  {
   "property": "C124",
   "status": "proved",
   "theorems": [
    "Ndncert.Props.C124_replies",
    "Ndncert.Props.C124_calls"
   ],
   "note": ""
  },
  {
   "property": "C125",
   "status": "partial",
   "theorems": [
    "Ndncert.Props.C125_accepts_partial",
    "Ndncert.Props.C125_well_formed_partial",
    "Ndncert.Props.C125_false_check",
    "Ndncert.Props.C125_false",
    "Ndncert.Props.C125_safe_partial"
   ],
   "note": "False of the code: the dot in the pattern is not escaped, so alice@localhost and a@b\"c are accepted (C125_false_check), and nothing calls the function, so the script is run for any text (C125_false). C125_accepts_partial: exactly what the function accepts; C125_well_formed_partial: every well-formed address among them; C125_safe_partial: a well-formed address reaches the script unchanged."
  },
  {
   "property": "C126",
   "status": "proved",
   "theorems": [
    "Ndncert.Props.C126_requester",
    "Ndncert.Props.C126_ca_memory",
    "Ndncert.Props.C126_ca_sqlite",
    "Ndncert.Props.C126_typed"
   ],
   "note": "for runs of Request objects and of CAs with memory or SQLite storage. The SQLite file holds the AES keys in the clear and the status callback gets them: both are inside the process or its machine. Log output at TRACE level and timing are not modelled."
  },
  {
   "property": "C127",
   "status": "proved",
   "theorems": [
    "Ndncert.Props.C127_one_reading",
    "Ndncert.Props.C127_server",
    "Ndncert.Props.C127_status"
   ],
   "note": "boost::program_options in its default style is modelled from its documentation and source (Model/Options); the grammar it accepts is stated apart (Spec/Options). Noted: -- is the only way to give the status tool a CA name beginning with a dash as a word; a long option with an empty value (--name=) is a mistake."
  },
  {
   "property": "C128",
   "status": "proved",
   "theorems": [
    "Ndncert.Props.C128_starts",
    "Ndncert.Props.C128_serves_iff",
    "Ndncert.Props.C128_ends",
    "Ndncert.Props.C128_issued"
   ],
   "note": "the configuration is the same after every restart; how a certificate is written in a redirection is an arbitrary function load here (C133 puts the base64 text in); numbers of components are those below 2^64 without sign (others: C103_false), a number of seconds beyond int is read as one day; 2^56 octets bounds the size of the file, so that lengths in TLVs do not overflow. C128_ends: how a start can end otherwise; undefined behaviour only from a redirection with a prefix but no certificate (C74)."
  },
  {
   "property": "C129",
   "status": "partial",
   "theorems": [
    "Ndncert.Props.C129_lists_partial",
    "Ndncert.Props.C129_otherwise",
    "Ndncert.Props.C129_false",
    "Ndncert.Props.C129_false_creates"
   ],
   "note": "False of the code: /a_b and /a/b mean the same database, so asked about the one the tool lists the other's requests (C129_false), and asked about a CA that has no database it makes one (C129_false_creates). C129_lists_partial: for a CA that was started with ndncert-ca-server the listing is as claimed and nothing changes; C129_otherwise: all other command lines."
  },
  {
   "property": "C130",
   "status": "partial",
   "theorems": [
    "Ndncert.Props.C130_accepted",
    "Ndncert.Props.C130_issued_partial",
    "Ndncert.Props.C130_unchanged",
    "Ndncert.Props.C130_files_partial",
    "Ndncert.Props.C130_false"
   ],
   "note": "False of the code for what is issued (C130_false): a request accepted before the restart is completed under the old terms, and the certificate has a longer name and a longer period than the file in force allows. C130_accepted: every NEW accepted meets the limits in force. C130_issued_partial: every certificate goes back to a NEW that met the limits in force when it was accepted, and to the right answer to a challenge, however often the configuration changed. C130_files_partial: the same with what is written in the files. C130_unchanged: executions with one configuration are a special case."
  },
  {
   "property": "C131",
   "status": "proved",
   "theorems": [
    "Ndncert.Props.C131_line",
    "Ndncert.Props.C131_trusted",
    "Ndncert.Props.C131_exit",
    "Ndncert.Props.C131_starts"
   ],
   "note": "how a certificate is written in the file is an arbitrary function load here (C133 puts the base64 text in). The program can also end by an exception (an empty name typed at the start: C131_starts; later ones: C113) or go on for ever (C97)."
  },
  {
   "property": "C132",
   "status": "proved",
   "theorems": [
    "Ndncert.Props.C132_challenge_agreement",
    "Ndncert.Props.C132_new_agreement",
    "Ndncert.Props.C132_told_success"
   ],
   "note": "signatures of the CA on names that end with a digest are taken to be replies of its callbacks, names with equal digests to be of the same Interest, and what is sealed with one key not to open with another (Spec/Agreement: Delivered, OpensOnlyOwn); C132_told_success also takes the signature of an Interest to verify with one public key only."
  },
  {
   "property": "C133",
   "status": "proved",
   "theorems": [
    "Ndncert.Props.C133_written",
    "Ndncert.Props.C133_read",
    "Ndncert.Props.C133_survives",
    "Ndncert.Props.C133_distinct",
    "Ndncert.Props.C133_profile",
    "Ndncert.Props.C133_client_file"
   ],
   "note": ""
  },
  {
   "property": "C134",
   "status": "proved",
   "theorems": [
    "Ndncert.Props.C134_laws",
    "Ndncert.Props.C134_certificate",
    "Ndncert.Props.C134_only_signed",
    "Ndncert.Props.C134_reply_verifies",
    "Ndncert.Props.C134_reply",
    "Ndncert.Props.C134_interest_verifies",
    "Ndncert.Props.C134_interest",
    "Ndncert.Props.C134_full_name",
    "Ndncert.Props.C134_issued"
   ],
   "note": "ndn-cxx's packet format is modelled from its documentation and source as known; it is not part of /repo. Replies and Interests are taken to have the elements the library writes; the name of the Interest must have no component of the type of ApplicationParameters, which is then the mark where the parameters begin. SignatureNonce and SignatureTime are left out. Whether signatures can be forged is a hypothesis of C134_only_signed."
  },
  {
   "property": "C135",
   "status": "proved",
   "theorems": [
    "Ndncert.Props.C135_text",
    "Ndncert.Props.C135_told",
    "Ndncert.Props.C135_reason"
   ],
   "note": "replies of at least 2^64 octets are left out. The text of an exception that the CA appends to the description of an unreadable credential is not modelled; it is a C string, so it has no NUL."
  },
  {
   "property": "C136",
   "status": "partial",
   "theorems": [
    "Ndncert.Props.C136_false",
    "Ndncert.Props.C136_false_longer",
    "Ndncert.Props.C136_backed_partial"
   ],
   "note": "false of the code: the certificate of the CA is checked only when NEW or REVOKE comes in (C136_false), and the period requested is checked against max-validity-period, not against the certificate of the CA (C136_false_longer). What holds: it was valid when the request was accepted, so nothing outlives it by more than max-validity-period."
  },
  {
   "property": "C137",
   "status": "proved",
   "theorems": [
    "Ndncert.Props.C137_revoked_only_after"
   ],
   "note": ""
  },
  {
   "property": "C138",
   "status": "partial",
   "theorems": [
    "Ndncert.Props.C138_false",
    "Ndncert.Props.C138_false_again",
    "Ndncert.Props.C138_told_partial",
    "Ndncert.Props.C138_no_effect"
   ],
   "note": "false of the code ('TODO: where is the code to revoke?', ca-module.cpp:451): the server still serves the certificate (C138_false) and the REVOKE is accepted again (C138_false_again); C138_no_effect shows this for every completed revocation. What holds: the status callback tells the program around the CA."
  },
  {
   "property": "C139",
   "status": "proved",
   "theorems": [
    "Ndncert.Props.C139_announced",
    "Ndncert.Props.C139_granted"
   ],
   "note": ""
  },
  {
   "property": "C140",
   "status": "proved",
   "theorems": [
    "Ndncert.Props.C140_certificate",
    "Ndncert.Props.C140_interest",
    "Ndncert.Props.C140_made"
   ],
   "note": ""
  },
  {
   "property": "C141",
   "status": "partial",
   "theorems": [
    "Ndncert.Props.C141_names_partial",
    "Ndncert.Props.C141_apart_partial",
    "Ndncert.Props.C141_false"
   ],
   "note": "False of the code (C141_false): the name is <key name>/NDNCERT/<version> with the time as version, and nothing looks for a certificate of that name. Two requests for one key that are completed within one unit of the clock (0.4 ms apart in the witness, with a clock in milliseconds) give two certificates of one name. Proved: the names are equal exactly if the key names are and the readings fall into the same unit, for any unit; so they differ if a unit passes in between."
  },
  {
   "property": "C142",
   "status": "proved",
   "theorems": [
    "Ndncert.Props.C142_bounded",
    "Ndncert.Props.C142_once"
   ],
   "note": ""
  },
  {
   "property": "C143",
   "status": "proved",
   "theorems": [
    "Ndncert.Props.C143_issued",
    "Ndncert.Props.C143_revoked"
   ],
   "note": ""
  },
  {
   "property": "C144",
   "status": "partial",
   "theorems": [
    "Ndncert.Props.C144_false",
    "Ndncert.Props.C144_removed_partial"
   ],
   "note": "False of the code (C144_false): the IV of an Interest seen before fails the counter check, onChallenge treats this like any failed decryption and deletes the request (ca-module.cpp, catch around decodeBlockWithAesGcm128). So whoever records a CHALLENGE Interest of somebody else can end that request by sending it again, without any key. C144_removed_partial proves that this always happens, in every later state in which the request is pending, and that this is all: an error reply, no other request touched, nothing at all if the request is not pending."
  },
  {
   "property": "C145",
   "status": "proved",
   "theorems": [
    "Ndncert.Props.C145_told",
    "Ndncert.Props.C145_told_sqlite"
   ],
   "note": ""
  },
  {
   "property": "C146",
   "status": "partial",
   "theorems": [
    "Ndncert.Props.C146_false",
    "Ndncert.Props.C146_kept_partial",
    "Ndncert.Props.C146_after_first_partial"
   ],
   "note": "False of the code (C146_false): decodeBlockWithAesGcm128 stores the IV it observes before the authentication tag is checked (crypto-helpers.cpp, decryptionIv = observedDecryptionIv). A Request object that waits for its first CHALLENGE reply and is given the CA's reply to another requester throws, but keeps the random octets of that IV, and then refuses its own reply. onChallengeResponse does not compare the Data name with the Interest. C146_kept_partial proves that nothing else of the object changes and that the Interests it makes are the same; C146_after_first_partial proves that once a first reply was taken, such a packet changes nothing."
  },
  {
   "property": "C147",
   "status": "partial",
   "theorems": [
    "Ndncert.Props.C147_false",
    "Ndncert.Props.C147_recovers_partial"
   ],
   "note": "The first sentence is false of the code (C147_false): onNewRenewRevokeResponse checks the signature of the CA but nothing that ties the reply to the Interest, neither the name nor the requester's public key, so an object takes the reply to another requester, and its request id and key are then useless. C147_recovers_partial proves the second sentence for all packets whose handling is defined (C122 lists the exceptions) and own replies with an id of eight octets, as the CA sends them."
  }
 ]
}