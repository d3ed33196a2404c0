{
 "claims": [
  {
   "property": "C01",
   "status": "proved",
   "theorems": [
    "Verif.Cbor.C01_array_roundtrip"
   ],
   "note": "Full round trip for any nesting depth, any trailing input, both build profiles."
  },
  {
   "property": "C02",
   "status": "partial",
   "theorems": [
    "Verif.Cbor.C02_parse_sound",
    "Verif.Cbor.C02_parse_sound_partial",
    "Verif.Cbor.C02_parse_sound_violated",
    "Verif.Cbor.C02_parse_prefix_free"
   ],
   "note": "Proved in full for overflow-checked builds (C02_parse_sound) together with prefix-freeness; false for release builds, where the doubled map length wraps (witness in C02_parse_sound_violated); the partial theorem states exactly what release builds accept."
  },
  {
   "property": "C03",
   "status": "partial",
   "theorems": [
    "Verif.Cbor.C03_header_roundtrip_partial",
    "Verif.Cbor.C03_header_violated"
   ],
   "note": "Holds up to 65535; for every larger value the writer panics (C03_header_violated)."
  },
  {
   "property": "C04",
   "status": "partial",
   "theorems": [
    "Verif.Cbor.C04_no_panic_violated",
    "Verif.Cbor.C04_no_panic_partial"
   ],
   "note": "False: the stream 0x98 panics. The partial theorem bounds the panicking inputs to truncated length fields and announced lengths of 2^63 or more."
  },
  {
   "property": "C05",
   "status": "partial",
   "theorems": [
    "Verif.CApi.C05_vouchers_concat",
    "Verif.CApi.C05_hollow_violated",
    "Verif.CApi.C05_vouchers_sound_partial",
    "Verif.Cbor.C05_many_concat",
    "Verif.Cbor.C05_many_sound",
    "Verif.Cbor.C05_many_truncated"
   ],
   "note": "Concatenation read back in order, soundness, and every truncation point of the last item. For vouchers: concatenation read back in order; a voucher with an empty header ends the list silently (C05_hollow_violated), and that is the only way to lose input (C05_vouchers_sound_partial)."
  },
  {
   "property": "C06",
   "status": "partial",
   "theorems": [
    "Verif.Voucher.C06_extend_partial",
    "Verif.Voucher.C06_extend_sequence_partial",
    "Verif.Voucher.C06_extend_violated"
   ],
   "note": "One step and any sequence of owners, up to 65535 entries; at 65535 entries the next extend aborts the process (C06_extend_violated)."
  },
  {
   "property": "C07",
   "status": "proved",
   "theorems": [
    "Verif.Voucher.C07_only_owner_extends",
    "Verif.Voucher.C07_non_owner_error"
   ],
   "note": "Failure and unchanged voucher for every non-matching key; the error is NonOwnerKey for a well-formed voucher."
  },
  {
   "property": "C08",
   "status": "partial",
   "theorems": [
    "Verif.Voucher.C08_tamper_evident_partial",
    "Verif.Voucher.C08_tamper_evident_violated"
   ],
   "note": "Entries and header are tamper evident without proviso; the HMAC only if the header byte strings have no trailing bytes or the HMAC elements have equal length. C08_tamper_evident_violated: two readable, verifying vouchers with equal entries and equal hashed bytes but different HMACs. No-collision is an explicit hypothesis about the concerned byte strings."
  },
  {
   "property": "C09",
   "status": "proved",
   "theorems": [
    "Verif.Voucher.C09_signature_chain",
    "Verif.Voucher.C09_valid_chain_accepted"
   ],
   "note": "Soundness of the iterator for every prefix, and completeness: every valid chain is delivered. Signature verification itself is a parameter."
  },
  {
   "property": "C10",
   "status": "proved",
   "theorems": [
    "Verif.Voucher.C10_iteration_shape",
    "Verif.Voucher.C10_collect_agrees"
   ],
   "note": "Shape of every poll sequence; agreement of collecting and polling. The model makes the panic of Hash comparison explicit as one possible end."
  },
  {
   "property": "C11",
   "status": "partial",
   "theorems": [
    "Verif.Voucher.C11_new_roundtrip_partial",
    "Verif.Voucher.C11_extended_roundtrip_partial",
    "Verif.Voucher.C11_absent_chain_violated",
    "Verif.Voucher.C11_from_parts_violated",
    "Verif.Voucher.C11_absent_chain_hash_violated"
   ],
   "note": "Round trip for vouchers with chain hash and certificate chain, also after any number of extends; false for every voucher without chain (new, from_parts) and every header without chain hash."
  },
  {
   "property": "C12",
   "status": "partial",
   "theorems": [
    "Verif.Voucher.C12_device_info_partial",
    "Verif.Voucher.C12_device_info_violated",
    "Verif.Voucher.C12_new_unchecked_violated"
   ],
   "note": "Proved for device info of 8-bit characters; false from U+0100 on (low byte only is checked), and assembling a voucher does not check."
  },
  {
   "property": "C13",
   "status": "partial",
   "theorems": [
    "Verif.Credential.C13_storage_partial",
    "Verif.Credential.C13_storage_violated",
    "Verif.Types.C13_compare_partial",
    "Verif.Types.C13_compare_violated",
    "Verif.Types.C13_type_ignored_violated",
    "Verif.Types.C13_verify_hmac_partial"
   ],
   "note": "Same-length values: the comparison decides equality of bytes. The full claim is false: it aborts exactly on different lengths and ignores the type; the device's HMAC check is characterised for every received value. The credential's own HMAC check aborts for TPM keys of the other digest size (C13_storage_violated) and is characterised otherwise."
  },
  {
   "property": "C14",
   "status": "proved",
   "theorems": [
    "Verif.Types.C14_from_digest",
    "Verif.Types.C14_from_data",
    "Verif.Types.C14_from_text",
    "Verif.Types.C14_from_text_accepts"
   ],
   "note": "Constructors from raw digests, from data and from text, in full; the digest primitive is a parameter with its output length as hypothesis."
  },
  {
   "property": "C15",
   "status": "partial",
   "theorems": [
    "Verif.Types.C15_ueid_partial",
    "Verif.Types.C15_ueid_violated"
   ],
   "note": "Round trip and wrong prefix proved; the empty string aborts and lengths are not checked (violated)."
  },
  {
   "property": "C16",
   "status": "partial",
   "theorems": [
    "Verif.Types.C16_ecdh_partial",
    "Verif.Types.C16_truncated_violated"
   ],
   "note": "Exact characterisation of successful decoding and trailing bytes; every truncated encoding aborts (violated)."
  },
  {
   "property": "C17",
   "status": "proved",
   "theorems": [
    "Verif.Types.C17_same_key",
    "Verif.Types.C17_roles_matter"
   ],
   "note": "For every commutative primitive and every suite; curve, DH and KDF are parameters with laws KexLaws (satisfied by a toy instance)."
  },
  {
   "property": "C18",
   "status": "partial",
   "theorems": [
    "Verif.Rendezvous.C18_interpretation_partial",
    "Verif.Rendezvous.C18_dropped",
    "Verif.Rendezvous.C18_order",
    "Verif.Rendezvous.C18_urls",
    "Verif.Rendezvous.C18_urls_none",
    "Verif.Rendezvous.C18_bypass_violated"
   ],
   "note": "Full meaning of interpreted directives, order and URLs; the clause 'bypass directives are dropped' holds for the owner only (violated for the device, where the directive is yielded with its bypass flag)."
  },
  {
   "property": "C19",
   "status": "proved",
   "theorems": [
    "Verif.Rendezvous.C19_path_to_root",
    "Verif.Rendezvous.C19_bag",
    "Verif.Rendezvous.C19_digest",
    "Verif.Rendezvous.C19_never_empty",
    "Verif.Rendezvous.C19_path_accepted"
   ],
   "note": "Soundness for bag, digest and insecure verification, non-emptiness, and the converse; X.509 operations are parameters."
  },
  {
   "property": "C20",
   "status": "partial",
   "theorems": [
    "Verif.Types.C20_iteration",
    "Verif.Types.C20_added_partial",
    "Verif.Types.C20_colon_violated",
    "Verif.Types.C20_values_violated"
   ],
   "note": "Iteration characterised for every received list; added entries come back for all known modules; false for unsupported modules with a colon in the name, and `values` keeps the colon in the key."
  },
  {
   "property": "C21",
   "status": "proved",
   "theorems": [
    "Verif.Types.C21_module_names"
   ],
   "note": "All modules, all strings."
  },
  {
   "property": "C22",
   "status": "proved",
   "theorems": [
    "Verif.Http.C22_message_order",
    "Verif.Http.C22_out_of_order_rejected",
    "Verif.Http.C22_reject_keeps_sessions"
   ],
   "note": "Every history of requests, session expiries and outside changes from an empty session store; per session the exchanges that reach a handler are a path of the protocol graph written in Spec/Protocol.lean. Hypothesis: ids of new sessions are unused (random cookies)."
  },
  {
   "property": "C23",
   "status": "proved",
   "theorems": [
    "Verif.Http.C23_requests",
    "Verif.Http.C23_responses"
   ],
   "note": "Requests and responses of the generic server filter with the encryption requirement of every message type; the AEAD is a parameter."
  },
  {
   "property": "C24",
   "status": "proved",
   "theorems": [
    "Verif.Http.C24_other_sessions_unchanged",
    "Verif.Http.C24_other_sessions_irrelevant",
    "Verif.Http.C24_fresh_session"
   ],
   "note": "Writes touch only the addressed or the created session; replies depend on no other session; unknown or missing tokens get an empty session and a new cookie."
  },
  {
   "property": "C25",
   "status": "partial",
   "theorems": [
    "Verif.Http.C25_accepts_only_awaited_partial",
    "Verif.Http.C25_null_keys_violated",
    "Verif.Http.C25_auth_header_violated",
    "Verif.Http.C25_error_status"
   ],
   "note": "Partial: full claim fails when the caller passes Some(unencrypted) as new keys, and a non-ASCII Authorization header aborts the client; both shown as _violated. Everything else proved for all replies."
  },
  {
   "property": "C26",
   "status": "partial",
   "theorems": [
    "Verif.Http.C26_no_replay_partial",
    "Verif.Http.C26_history_partial",
    "Verif.Http.C26_token_dead_violated"
   ],
   "note": "Partial: after a final response no request under the token reaches any handler. The token is not treated as unknown, because the session is stored despite destroy(): shown as _violated."
  },
  {
   "property": "C27",
   "status": "proved",
   "theorems": [
    "Verif.Store.C27_map_with_expiry",
    "Verif.Store.C27_latest_value",
    "Verif.Store.C27_absent",
    "Verif.Store.C27_expiring_value"
   ],
   "note": "Directory store: after every history of operations (with interrupted stores, any listing order, any write pieces) a load returns what a map with expiry returns. Keys are GUIDs or session ids (Good), times within year 9999."
  },
  {
   "property": "C28",
   "status": "proved",
   "theorems": [
    "Verif.Store.C28_crash_atomic"
   ],
   "note": "A store operation stopped after any number of its system calls leaves the old value visible; completed gives the new value."
  },
  {
   "property": "C29",
   "status": "partial",
   "theorems": [
    "Verif.Store.C29_distinct_files_partial",
    "Verif.Store.C29_guid",
    "Verif.Store.C29_session_ids",
    "Verif.Store.C29_violated",
    "Verif.Store.C29_tmp_violated"
   ],
   "note": "Proved for GUID keys and base64 session ids; C29_violated and C29_tmp_violated show that arbitrary keys can collide (separator replaced by underscore; a key spelled like a temporary file)."
  },
  {
   "property": "C30",
   "status": "partial",
   "theorems": [
    "Verif.Store.C30_load_expired",
    "Verif.Store.C30_maintenance_partial",
    "Verif.Store.C30_reachable_readable",
    "Verif.Store.C30_maintenance_violated",
    "Verif.Store.C30_boundary"
   ],
   "note": "Load side full for readable directories, which all reachable ones are. Maintenance: proved when every expiry attribute is readable; C30_maintenance_violated: one malformed attribute stops the run. C30_boundary: at the very expiry instant load and maintenance disagree."
  },
  {
   "property": "C31",
   "status": "partial",
   "theorems": [
    "Verif.Store.C31_directory_partial",
    "Verif.Store.C31_leftover_violated",
    "Verif.Store.C31_database",
    "Verif.Store.C31_parameter_violated",
    "Verif.Store.C31_backends_agree_partial"
   ],
   "note": "Database full. Directory partial: a leftover temporary file of an interrupted store is returned by the query (C31_leftover_violated). C31_parameter_violated: the second database query ignores its flag. Back ends agree on careful histories."
  },
  {
   "property": "C32",
   "status": "partial",
   "theorems": [
    "Verif.Store.C32_like_directory_partial",
    "Verif.Store.C32_replace_violated",
    "Verif.Store.C32_missing_violated",
    "Verif.Store.C32_clear_violated",
    "Verif.Store.C32_expired_violated"
   ],
   "note": "Partial: the claim is false in general; storing under an existing key fails, loading a missing key panics, clearing one metadata key clears both, expired rows are still returned. Proved for careful histories which avoid these."
  },
  {
   "property": "C33",
   "status": "proved",
   "theorems": [
    "Verif.RvServer.C33_sound_store",
    "Verif.RvServer.C33_directory",
    "Verif.RvServer.C33_database"
   ],
   "note": "For every history of requests, session expiries and maintenance runs, with both back ends: what the store holds for a device was put there by a request that was authentic for the nonce handed out in its session. External: signature verification, digests, certificate checks, serde of leaf values."
  },
  {
   "property": "C34",
   "status": "proved",
   "theorems": [
    "Verif.RvServer.C34_only_to_device",
    "Verif.RvServer.C34_other_answers",
    "Verif.RvServer.C34_authentic_blob"
   ],
   "note": "For every history: a redirect answers a token signed by the stored device key over the nonce of that session's HelloRV, and carries the stored blob; no other answer depends on the blob. The token's GUID is not compared with the one in HelloRV (the code does not do so either)."
  },
  {
   "property": "C35",
   "status": "partial",
   "theorems": [
    "Verif.RvServer.C35_database_maintained_partial",
    "Verif.RvServer.Toy.C35_served_later_violated",
    "Verif.RvServer.C35_told",
    "Verif.RvServer.C35_not_served_later_partial",
    "Verif.RvServer.C35_stopped_violated",
    "Verif.RvServer.C35_database_violated"
   ],
   "note": "Partial: the owner is told the capped lifetime (full); with the directory store nothing is served after it provided the server is not stopped between the two store operations; with the database only up to the next maintenance. C35_stopped_violated, C35_database_violated and C35_served_later_violated show both failures."
  },
  {
   "property": "C36",
   "status": "partial",
   "theorems": [
    "Verif.RvServer.C36_database_partial",
    "Verif.RvServer.Toy.C36_not_replaced_violated",
    "Verif.RvServer.C36_directory",
    "Verif.RvServer.C36_device_gets_newest",
    "Verif.RvServer.C36_database_violated"
   ],
   "note": "Directory store: full, for every further history not naming the device (C36_directory). Database stores: the first registration is kept in the same way (C36_database_partial). Violated: every re-registration is refused while the old row exists (C36_database_violated, witness C36_not_replaced_violated)."
  },
  {
   "property": "C37",
   "status": "proved",
   "theorems": [
    "Verif.OwnerServer.C37_service_info"
   ],
   "note": "Full, for every history, store and oracle: whenever service info is sent, the device of the voucher held for g proved itself in that session (token signed with the voucher's device key over the session's nonce), the message is encrypted under the keys of that proof, and its content is what the service info API answers for g. The service info API and serde are parameters."
  },
  {
   "property": "C38",
   "status": "proved",
   "theorems": [
    "Verif.OwnerServer.C38_sound_store",
    "Verif.OwnerServer.C38_reply",
    "Verif.OwnerServer.C38_directory",
    "Verif.OwnerServer.C38_database",
    "Verif.OwnerServer.C38_directory_marked",
    "Verif.OwnerServer.C38_database_marked",
    "Verif.OwnerServer.C38_directory_stays",
    "Verif.OwnerServer.C38_database_stays"
   ],
   "note": "Full for every store with sound marks and for both stores: a mark implies a Done in a proven session with the session's nonce; the reply returns the device's nonce and the mark is set and stays (directory: until the voucher is imported again)."
  },
  {
   "property": "C39",
   "status": "partial",
   "theorems": [
    "Verif.OwnerServer.Toy.C39_example_violated",
    "Verif.OwnerServer.C39_rounds_partial",
    "Verif.OwnerServer.C39_session_partial",
    "Verif.OwnerServer.C39_finish",
    "Verif.OwnerServer.C39_maximum_violated"
   ],
   "note": "The device is told to finish after the first answered round (full: C39_finish). Rounds per session are bounded, but by 1001 and only as long as no HelloDevice restarts the session (C39_rounds_partial, C39_session_partial); C39_maximum_violated and C39_example_violated show that 1001 rounds are served although the maximum is 1000."
  },
  {
   "property": "C40",
   "status": "partial",
   "theorems": [
    "Verif.OwnerServer.C40_entry_partial",
    "Verif.OwnerServer.C40_same_signature",
    "Verif.OwnerServer.C40_extended",
    "Verif.OwnerServer.C40_replies",
    "Verif.OwnerServer.C40_answered",
    "Verif.OwnerServer.C40_out_of_range_violated",
    "Verif.OwnerServer.Toy.C40_entry_violated"
   ],
   "note": "Entries in shortest form (all that extend writes: C40_extended) are served verbatim, others with the same signature and payload but other bytes (C40_same_signature, C40_entry_violated). Every reply is the entry of the voucher held for the session's device (C40_replies, C40_answered). Out of range requests panic (C40_out_of_range_violated)."
  },
  {
   "property": "C41",
   "status": "partial",
   "theorems": [
    "Verif.OwnerServer.C41_renewed_partial",
    "Verif.OwnerServer.C41_accepted_partial",
    "Verif.OwnerServer.C41_short_violated",
    "Verif.OwnerServer.C41_late_violated",
    "Verif.OwnerServer.C41_directory_violated",
    "Verif.OwnerServer.C41_onboarded_directory",
    "Verif.OwnerServer.C41_onboarded_database",
    "Verif.OwnerServer.C41_never_again_directory",
    "Verif.OwnerServer.C41_never_again_database"
   ],
   "note": "Second half (onboarded devices are not registered again): full for both stores and all histories, given that imported vouchers are read back from the store as written. First half: database store, grants longer than a minute, answers within the allowed delay; violated for short grants, for late answers with the default window, and for the directory store."
  },
  {
   "property": "C42",
   "status": "proved",
   "theorems": [
    "Verif.MfgServer.C42_directory",
    "Verif.MfgServer.C42_database",
    "Verif.MfgServer.C42_admitted"
   ],
   "note": "Every history of requests, expirations and maintenance runs, any store which only holds what was put there (shown for the directory and the database store). The key store's answer and the certificate builder are parameters."
  },
  {
   "property": "C43",
   "status": "proved",
   "theorems": [
    "Verif.MfgServer.Toy.C43_example",
    "Verif.MfgServer.C43_kept",
    "Verif.MfgServer.C43_consistent"
   ],
   "note": "Contents of every stored voucher for every history, and (C43_kept) an acknowledged voucher can be read back after every further history, given that session ids and GUIDs drawn are fresh and written headers are shorter than 2^63 bytes."
  },
  {
   "property": "C44",
   "status": "partial",
   "theorems": [
    "Verif.MfgClient.C44_complete_partial",
    "Verif.MfgClient.Toy.C44_example",
    "Verif.MfgClient.Toy.C44_violated"
   ],
   "note": "Proved for every run of the client that succeeds, against the modelled server over a network that may lose messages (C44_complete_partial), including that the device accepts the voucher's HMAC and, with DIUN, that the voucher's device certificate is for the device's key. Violated at the crash point between writing the credential and SetHMAC (C44_violated)."
  },
  {
   "property": "C45",
   "status": "proved",
   "theorems": [
    "Verif.MfgServer.C45_paired",
    "Verif.MfgServer.C45_unpaired_aborts",
    "Verif.MfgServer.C45_no_abort",
    "Verif.MfgServer.C45_owner_times"
   ],
   "note": "Pairing for every configuration that starts; AppStart and SetHMAC never abort in any reachable state; unpaired settings would abort (C45_unpaired_aborts). Other panics (short key exchange value in DIUN Connect) are outside the claim."
  },
  {
   "property": "C46",
   "status": "proved",
   "theorems": [
    "Verif.Device.C46_vetted",
    "Verif.Device.C46_service_info",
    "Verif.Device.C46_sealed"
   ],
   "note": "Every weighty deed of every run of the client's main (host operations of service info, file changes, ProveDevice and later messages), whatever its surroundings answer, is preceded in the same attempt by the complete vetting of the owner (C46_vetted); service info runs under the key agreed on with the owner vetted (C46_service_info) and later messages are sent under it (C46_sealed). The chain is the one of C09. That the entries are numbered as asked is part of it."
  },
  {
   "property": "C47",
   "status": "partial",
   "theorems": [
    "Verif.Device.C47_entries_partial",
    "Verif.Device.C47_entries_violated"
   ],
   "note": "Violated: the number of the entry asked for is cut to one byte, so with an honest server fetching more than 256 entries always fails (C47_entries_violated), although the announced count goes up to 65535. Proved: up to 256 entries are fetched and are precisely the server's (C47_entries_partial)."
  },
  {
   "property": "C48",
   "status": "partial",
   "theorems": [
    "Verif.Device.C48_ends_partial",
    "Verif.Device.C48_unacknowledged_violated",
    "Verif.Device.C48_complete_partial"
   ],
   "note": "Violated: the marker is written and the credential deactivated before Done is sent (C48_unacknowledged_violated). Proved: files are changed only after the vetted owner's server declared service info complete under the session's key (C48_complete_partial), and the client ends successfully only if it was not to be onboarded or the owner's server acknowledged with the device's nonce (C48_ends_partial)."
  },
  {
   "property": "C49",
   "status": "proved",
   "theorems": [
    "Verif.SiClient.C49_only_active",
    "Verif.SiClient.C49_inactive_aborts"
   ],
   "note": "For every message, every outcome of what is done and every cut-off point. Effects are marked in the model with the module on whose behalf they are done."
  },
  {
   "property": "C50",
   "status": "partial",
   "theorems": [
    "Verif.SiClient.C50_files_partial",
    "Verif.SiClient.C50_sensible",
    "Verif.SiClient.C50_numbers_violated",
    "Verif.SiClient.C50_atomic_violated"
   ],
   "note": "Every deployment is that of a file announced by the message, complete and in order, at every cut-off point. Violated: numbers are cut to 64 and 32 bits, and a deployment that fails half way leaves an emptied or incomplete file."
  },
  {
   "property": "C51",
   "status": "partial",
   "theorems": [
    "Verif.SiClient.C51_commands",
    "Verif.SiClient.C51_abort_partial",
    "Verif.SiClient.C51_abort_violated",
    "Verif.SiClient.C51_report_violated"
   ],
   "note": "Commands, arguments, flags, order, stopping at failures and reports are proved for every message, outcome and cut-off point. Violated: some messages abort the client, failing commands are never reported, a command that cannot be started is not allowed to fail. C51_abort_partial names all reasons for aborting."
  },
  {
   "property": "C52",
   "status": "partial",
   "theorems": [
    "Verif.SiPipeline.C52_keys_partial",
    "Verif.SiPipeline.C52_separator_violated",
    "Verif.SiPipeline.C52_empty_violated"
   ],
   "note": "Proved across service info server, owner server and device for non-empty key lists without semicolons: keys are added in order, unchanged, to the user's authorized_keys in a phase in which no program runs. Violated for keys with a semicolon (split in two) and for an empty list (an empty key is installed)."
  },
  {
   "property": "C53",
   "status": "partial",
   "theorems": [
    "Verif.SiPipeline.C53_succeeds_partial",
    "Verif.SiPipeline.C53_answered_partial",
    "Verif.SiPipeline.C53_additional_violated",
    "Verif.SiPipeline.C53_bare_user_violated",
    "Verif.SiPipeline.C53_files_partial",
    "Verif.SiPipeline.C53_commands_partial"
   ],
   "note": "Composition of the service info server, the owner server and the device; values are assumed to be readable after writing (met by CBOR, see C01) and the query to be unescaped properly. C53_files_partial and C53_commands_partial hold for every configuration whose additional service info is not for these modules; C53_additional_violated shows that this is needed, as such additions are free-form instructions. C53_succeeds_partial: without additional service info, the device fails only right after an answer of its host that is trouble (files must have absolute paths; C53_bare_user_violated shows that the user needs a password or keys). C53_answered_partial: the owner server gets and can convert the reply."
  },
  {
   "property": "C54",
   "status": "proved",
   "theorems": [
    "Verif.Device.C54_reboot_only",
    "Verif.SiClient.C54_message",
    "Verif.SiClient.C54_reboot"
   ],
   "note": "The value returned by the service info exchange (C54_reboot), and main: a reboot happens only at the end of a successful attempt with such an instruction (C54_reboot_only); that it does happen then is in C48_ends_partial."
  },
  {
   "property": "C55",
   "status": "proved",
   "theorems": [
    "Verif.Credential.C55_merge",
    "Verif.Credential.C55_merge_injective",
    "Verif.Credential.C55_sign"
   ],
   "note": "All halves; distinct pairs of numbers give distinct signatures; the algorithm identifier and digest follow the curve."
  },
  {
   "property": "C56",
   "status": "proved",
   "theorems": [
    "Verif.MfgClient.C56_first",
    "Verif.MfgClient.C56_none",
    "Verif.MfgClient.C56_selection",
    "Verif.MfgClient.C56_provided"
   ],
   "note": "First usable storage of the allowed list, failure if there is none, also for the key actually sent (C56_provided)."
  },
  {
   "property": "C57",
   "status": "proved",
   "theorems": [
    "Verif.SiApi.C57_admin",
    "Verif.SiApi.C57_stored",
    "Verif.SiApi.C57_admin_accepted",
    "Verif.SiApi.C57_info",
    "Verif.SiApi.C57_info_accepted"
   ],
   "note": "For every configuration, header and history. The comparison of the header is that of strings."
  },
  {
   "property": "C58",
   "status": "partial",
   "theorems": [
    "Verif.CApi.C58_pointers",
    "Verif.CApi.C58_voucher",
    "Verif.CApi.C58_list",
    "Verif.CApi.C58_last_error_partial",
    "Verif.CApi.C58_parse_error",
    "Verif.CApi.C58_last_error_violated",
    "Verif.CApi.C58_null_violated",
    "Verif.CApi.C58_data_violated",
    "Verif.CApi.C58_no_abort_partial"
   ],
   "note": "Every history of calls with valid pointers is free of undefined behaviour, vouchers and lists show the parsed data. Violated: fdo_get_last_error aborts when there is no error, NULL getters do not set the error, truncated data abort. The partial theorem says these are the only aborts."
  },
  {
   "property": "C59",
   "status": "partial",
   "theorems": [
    "Verif.Device.C59_completes_partial",
    "Verif.Device.C59_long_message_violated",
    "Verif.Device.C59_exactly_partial",
    "Verif.Device.C59_large_output_violated",
    "Verif.Device.Toy.C59_form_violated"
   ],
   "note": "Client and owner server of the models talking to each other: with a valid voucher of 1 to 255 entries, working cryptography, codecs and surroundings, and every message delivered, TO2 ends successfully, the server has recorded the onboarding, what the device did on its host is precisely following the instructions given by the service info API, and the report about it reached the server (C59_completes_partial). C59_exactly_partial: TO2 succeeds just if every message is answered and at most 16 KiB long. Where the full claim fails in the code: a message longer than 16 KiB makes TO2 fail whatever the server (C59_long_message_violated), hence a command which is to return more than 16 KiB of output does (C59_large_output_violated); a valid voucher with an entry before the last one not in shortest CBOR form makes TO2 fail, because server and device write entries anew (C59_form_violated, concrete run)."
  },
  {
   "property": "C60",
   "status": "partial",
   "theorems": [
    "Verif.Text.C60_exists",
    "Verif.Text.C60_lookup_partial",
    "Verif.Text.C60_total_partial",
    "Verif.Text.C60_short_violated"
   ],
   "note": "Lookup and absence for every file content; total for files whose matching line has enough fields. Short lines abort (C60_short_violated)."
  },
  {
   "property": "C61",
   "status": "proved",
   "theorems": [
    "Verif.Credential.C61_precedence",
    "Verif.Credential.C61_policy",
    "Verif.Credential.C61_deactivated"
   ],
   "note": "Every environment, file system and configured location; the deactivated credential differs in the flag only. The assumption about the codec is met by the form of data-formats (C86)."
  },
  {
   "property": "C62",
   "status": "proved",
   "theorems": [
    "Verif.OwnerTool.C62_never_lost",
    "Verif.OwnerTool.C62_success",
    "Verif.OwnerTool.C62_readable"
   ],
   "note": "Every prefix of every run, with any file operation failing, also partial writes; renaming is atomic. C62_readable adds that the file can be read and verifies up to the new owner."
  },
  {
   "property": "C63",
   "status": "partial",
   "theorems": [
    "Verif.RvServer.Toy.C63_chain_hash_unchecked_violated",
    "Verif.RvServer.C63_device_key_from_chain_violated"
   ],
   "note": "Violated: the hash in the header is never compared with the chain; any chain the configured roots accept is taken."
  },
  {
   "property": "C64",
   "status": "proved",
   "theorems": [
    "Verif.MfgClient.C64_authenticated"
   ],
   "note": "For every server and network: a ProvideKey request is preceded by an Accept that verifies, for the nonce drawn, and is encrypted under the key derived from that exchange. That no one else can sign or derive the key is outside the model."
  },
  {
   "property": "C65",
   "status": "partial",
   "theorems": [
    "Verif.Credential.C65_interrupted_violated",
    "Verif.Credential.C65_interrupted_partial"
   ],
   "note": "The credential is truncated before it is written again, so an interruption loses it (C65_interrupted_violated). Partial: an interruption elsewhere, and locations with the policy to remove."
  },
  {
   "property": "C66",
   "status": "partial",
   "theorems": [
    "Verif.OwnerTool.C66_forms_partial",
    "Verif.OwnerTool.C66_single_violated",
    "Verif.OwnerTool.C66_total_partial"
   ],
   "note": "Both forms of every voucher that can be written are read back to the same voucher. A one-byte file aborts; otherwise reading aborts only where CBOR parsing does (C04)."
  },
  {
   "property": "C67",
   "status": "proved",
   "theorems": [
    "Verif.OwnerTool.C67_no_overwrite",
    "Verif.OwnerTool.C67_matching"
   ],
   "note": "Every run, including interrupted ones, touches only the two files and neither if one existed; a successful run leaves a matching pair. Certificate building and key generation are inputs."
  },
  {
   "property": "C68",
   "status": "partial",
   "theorems": [
    "Verif.SiApi.C68_tokenless_violated",
    "Verif.SiApi.C68_any_token_partial"
   ],
   "note": "Violated: the route requires an Authorization header even when no token is configured, and the owner server sends none without a token (C68_tokenless_violated). With any token configured on the owner server it works (C68_any_token_partial)."
  },
  {
   "property": "C69",
   "status": "partial",
   "theorems": [
    "Verif.SiApi.C69_device_specific_violated"
   ],
   "note": "Violated: what is stored never changes any answer (C69_device_specific_violated); the per-device settings are read from YAML files instead."
  },
  {
   "property": "C70",
   "status": "partial",
   "theorems": [
    "Verif.SiPipeline.C70_created_partial",
    "Verif.SiPipeline.C70_only",
    "Verif.SiPipeline.C70_openssl_violated",
    "Verif.SiPipeline.C70_existing_violated"
   ],
   "note": "Proved: on success the user was found or created by a successful useradd with the configured password or what openssl printed for it; and no other user is touched, also on failure. Violated: the exit status of openssl is ignored (account with empty password), and the password of an existing user is dropped."
  },
  {
   "property": "C71",
   "status": "proved",
   "theorems": [
    "Verif.MfgClient.C71_untouched"
   ],
   "note": "Every trace of the client."
  },
  {
   "property": "C72",
   "status": "proved",
   "theorems": [
    "Verif.MfgClient.C72_crash"
   ],
   "note": "Every trace of the client; the write itself is not atomic, so that a part of the credential may be left."
  },
  {
   "property": "C73",
   "status": "partial",
   "theorems": [
    "Verif.To0.C73_registers_partial",
    "Verif.To0.C73_long_voucher_violated",
    "Verif.To0.C73_refusal_violated",
    "Verif.To0.C73_finds_partial",
    "Verif.To0.C73_meets_partial"
   ],
   "note": "Owner, rendezvous server and device of the models talking to each other: the registration is accepted (C73_registers_partial), and with any store that keeps registrations the device later gets the blob signed by the owner (C73_meets_partial); such stores are the directory (dir_keeping) and the databases without a row for the device (db_keeping). Violated: a voucher whose registration message exceeds 16 KiB can never be registered (C73_long_voucher_violated); after a refusal by the first server which answers, no other URL is tried (C73_refusal_violated); with databases a second registration is refused (C36_database_violated)."
  },
  {
   "property": "C74",
   "status": "partial",
   "theorems": [
    "Verif.Disk.C74_unlocked",
    "Verif.Disk.C74_kept",
    "Verif.Disk.C74_rebound_partial",
    "Verif.Disk.C74_possible",
    "Verif.Disk.C74_retry_violated",
    "Verif.Disk.C74_index_violated",
    "Verif.Disk.C74_leftover_violated",
    "Verif.Disk.C74_second_slot_violated",
    "Verif.Disk.C74_reported"
   ],
   "note": "Over a model of LUKS2 headers stating what libcryptsetup and clevis are assumed to do (Spec/Disk). Violated: an attempt that failed after the new binding was added can never be repeated (C74_retry_violated); tokens with an index of ten or more are not seen (C74_index_violated, C74_leftover_violated); of a token for several keyslots only the first is removed (C74_second_slot_violated)."
  },
  {
   "property": "C75",
   "status": "partial",
   "theorems": [
    "Verif.Disk.C75_resumed_partial",
    "Verif.Disk.C75_others_violated",
    "Verif.Disk.C75_initiated",
    "Verif.Device.C75_quiet"
   ],
   "note": "Violated: the first failure ends it for all devices after it (C75_others_violated)."
  },
  {
   "property": "C76",
   "status": "partial",
   "theorems": [
    "Verif.Import.C76_imported_partial",
    "Verif.Import.C76_kept",
    "Verif.Import.C76_due",
    "Verif.Import.C76_possible",
    "Verif.Import.C76_status_violated",
    "Verif.Import.C76_abort_violated",
    "Verif.Import.C76_trailing_violated",
    "Verif.Import.C76_exported_partial",
    "Verif.Import.C76_refusal_violated",
    "Verif.Import.C76_lost_violated",
    "Verif.Import.C76_transferred"
   ],
   "note": "Violated: failures do not show in the exit status (C76_status_violated); a file of one byte ends the import (C76_abort_violated); what follows the first voucher in a file is lost without notice (C76_trailing_violated); a refusal is written as if it were the voucher (C76_refusal_violated); a failing request destroys what was exported before (C76_lost_violated)."
  },
  {
   "property": "C77",
   "status": "partial",
   "theorems": [
    "Verif.Config.C77_converted",
    "Verif.Config.C77_tag_violated",
    "Verif.Config.C77_accepted",
    "Verif.Config.C77_configured_partial",
    "Verif.Config.C77_usable",
    "Verif.Config.C77_tool",
    "Verif.Config.C77_port_violated",
    "Verif.Config.C77_reach_violated",
    "Verif.Config.C77_url_violated",
    "Verif.Config.C77_marker_violated"
   ],
   "note": "Acceptance exactly characterised; what is interpreted is what was configured (both sides, order, all settings); interpretation succeeds for complete directives; the tool's file is read as the server's. Not everything accepted can be interpreted: negative or too large ports, directives without a usable port (violations proved; each makes the whole list unusable). Ports above 65535 get into URLs, a marker set to false counts as set, a tag inside a mapping aborts the program (violations proved). Parsing of addresses and CBOR encoding of values are parameters with laws."
  },
  {
   "property": "C78",
   "status": "partial",
   "theorems": [
    "Verif.Life.C78_voucher",
    "Verif.Life.C78_onboards_partial"
   ],
   "note": "C78_voucher: the voucher made in manufacturing and transferred any number (up to 254) of times is one with which device, owner and rendezvous server can work. C78_onboards_partial composes C44, C73 and C59 with the device client's main program, for directory and database stores. Missing: messages of at most 16 KiB (longer ones make the code fail: C59_long_message_violated, C73_long_voucher_violated), a database has no row for the device before; only the first directive and first address are followed (the others: C79)."
  },
  {
   "property": "C79",
   "status": "partial",
   "theorems": [
    "Verif.Life.C79_retries_partial"
   ],
   "note": "C79_retries_partial: composition of C78_voucher, C73 and C59 with the device client's loops over addresses, directives and rounds; every conversation in which something is lost fails with an error and the next one is tried. Directory and database stores. Missing: messages of at most 16 KiB (longer ones make the code fail, see C59), a database has no row for the device before."
  },
  {
   "property": "C80",
   "status": "partial",
   "theorems": [
    "Verif.Url.C80_rendezvous_urls_partial",
    "Verif.Url.C80_owner_urls_partial",
    "Verif.Url.C80_ipv6_violated",
    "Verif.Url.C80_owner_ipv6_violated",
    "Verif.Url.C80_ipv6_device_violated",
    "Verif.Url.Toy.C80_example"
   ],
   "note": "Proved: URLs have one reading (Names.unique); for DNS names without delimiters and IPv4 addresses the URLs are exactly those of the directive or redirect, in order. Violated for IPv6: addresses are written without brackets, so no such URL names any server, and a device made with IPv6 rendezvous addresses only never onboards, however many rounds it makes (C80_ipv6_device_violated, over all runs of the device client in which what is no URL is not answered). Assumed: how Display of std::net::IpAddr writes addresses (Spec/Url: Shows)."
  },
  {
   "property": "C81",
   "status": "partial",
   "theorems": [
    "Verif.Aio.C81_success",
    "Verif.Aio.C81_untouched",
    "Verif.Aio.C81_record",
    "Verif.Aio.C81_started",
    "Verif.Aio.C81_settings_partial",
    "Verif.Aio.C81_settings_violated",
    "Verif.Aio.C81_unreachable_violated",
    "Verif.Aio.C81_unreachable_device_violated",
    "Verif.Aio.C81_times_violated",
    "Verif.Aio.C81_default_times",
    "Verif.Aio.C81_listen_violated",
    "Verif.Aio.C81_resume_violated"
   ],
   "note": "Proved over all traces, including those cut off: the record that makes a directory count as configured is written last, and then settings, keys, certificates, tokens, stores, ports and addresses fit together and are read so by the other programs (C81_record, composed with C77 and C80's URLs); success means that it was written (C81_success); a directory that was configured or is not empty is left alone (C81_untouched); each server is started with its file (C81_started), whose settings count if there is no file for it in /usr/share/fdo (C81_settings_partial). Violated: a file in /usr/share/fdo overrides the generated one; without an interface address and name generation succeeds with settings in which nobody finds a server; renewal times with which the owner onboarding server refuses to start are accepted; --listen-ip-address is ignored; after an interruption no later generation in this directory succeeds. Addresses of IPv6 interfaces are used too, with URLs that name no server (C80). Contents of certificates and the YAML of the files are not modelled."
  },
  {
   "property": "C82",
   "status": "partial",
   "theorems": [
    "Verif.Settings.C82_last_word",
    "Verif.Settings.C82_starts",
    "Verif.Settings.C82_named_file_overridden_violated",
    "Verif.Settings.C82_named_file_missing_violated",
    "Verif.Settings.C82_directory_violated",
    "Verif.Settings.Toy.C82_variables"
   ],
   "note": "Proved: when settings are found (C82_starts, both directions) and that each has the last word said about it, for any nested maps (C82_last_word). Violated: /usr/share/fdo/<component>.yml is merged last, so what it says overrides the file named in the environment and the one in /etc (C82_named_file_overridden_violated); a named file that does not exist is passed over silently (C82_named_file_missing_violated); the variable for the directory is used as a pattern, so naming a directory makes the start fail (C82_directory_violated). Trusted: reading of the config crate 0.13.4's merge, glob, YAML parsing; deserialisation into structures is not modelled."
  },
  {
   "property": "C83",
   "status": "partial",
   "theorems": [
    "Verif.Wire.C83_item",
    "Verif.Wire.C83_item_exact",
    "Verif.Wire.C83_value_partial",
    "Verif.Wire.C83_voucher_partial",
    "Verif.Wire.C83_to0",
    "Verif.Wire.C83_to1",
    "Verif.Wire.C83_to2",
    "Verif.Wire.C83_mfg",
    "Verif.Wire.C83_mfg_reads",
    "Verif.Wire.C83_announces",
    "Verif.Wire.C83_error_partial",
    "Verif.Wire.C83_error_violated",
    "Verif.Wire.C83_extra_violated",
    "Verif.Wire.C83_value_violated",
    "Verif.Wire.C83_life"
   ],
   "note": "CBOR as ciborium writes and serde_cbor reads it, and the serde implementations of data-formats for the parts of vouchers and for the messages of DI, DIUN, TO0, TO1 and TO2 and errors. Proved: an item with integers of 64 bits nested less than 128 deep is read as it was written, and no item at all is read as something else; the codec assumptions of the other claims (CodecLaws, LeafLaws, Device.Wire, To0.Wire, To0.Wire1, MfgClient.Wire, Announces) follow for every environment with these codecs, up to the sizes that occur and with header maps written in any order. With C86 all assumptions about codecs in C78 and C79 follow (C83_life): there remain those about certificates, keys, key exchange and encryption. Violated: the error messages of devices carry a random UUID of 128 bits and can never be read; entries with extra data under a key of more than 64 bits cannot be read; integers of more than 64 bits are read as byte strings. Assumed: what the two CBOR libraries and derived serde code do for these types, OpenSSL's encodings of keys and certificates."
  },
  {
   "property": "C84",
   "status": "partial",
   "theorems": [
    "Verif.AioRun.C84_started",
    "Verif.AioRun.C84_ready_partial",
    "Verif.AioRun.C84_stopped",
    "Verif.AioRun.C84_success",
    "Verif.AioRun.C84_failure_violated",
    "Verif.AioRun.C84_wait",
    "Verif.AioRun.C84_bound",
    "Verif.AioRun.C84_foreign_violated",
    "Verif.AioRun.C84_terminated_violated"
   ],
   "note": "Proved over all traces, including those cut off: a server is started only after all seven programs were found in one directory and a configuration was read, with its own program, settings and working directory, and not while it runs (C84_started); the tool gets to waiting for an end only when all four servers were started, not killed since, and something has answered on each port after that (C84_ready_partial); success of running means that this point was reached (C84_success); when the tool comes to an end by itself no server is left (C84_stopped); it sleeps at most 2.5 s (C84_wait, for a clock that counts the time slept), so the bound of the model on attempts is no restriction (C84_bound). Violated: readiness is taken from anything that answers on the ports, without ever looking at the processes (C84_foreign_violated); the failure of a server is reported as success (C84_failure_violated); if the tool is ended by anything but an interrupt, all four servers are left (C84_terminated_violated). Requests have no time limit, so waiting for an answer is not bounded."
  },
  {
   "property": "C85",
   "status": "partial",
   "theorems": [
    "Verif.AioRun.C85_commands",
    "Verif.AioRun.C85_only",
    "Verif.AioRun.C85_authenticated_partial",
    "Verif.AioRun.C85_files",
    "Verif.AioRun.C85_info",
    "Verif.AioRun.C85_manufactured_partial",
    "Verif.AioRun.C85_plain_violated",
    "Verif.AioRun.C85_elsewhere_violated",
    "Verif.AioRun.C85_onboarded_partial",
    "Verif.AioRun.C85_nothing_violated",
    "Verif.AioRun.C85_again_violated",
    "Verif.AioRun.C85_other_violated",
    "Verif.AioRun.C85_firmware_violated"
   ],
   "note": "Proved: success means that exactly the right commands were run and succeeded (C85_commands, C85_only); in surroundings with the variables of these commands, the manufacturing client sends its key only to a server authenticated against keys/diun_cert.pem unless USE_PLAIN_DI is inherited (C85_authenticated_partial), changes no file but the wanted one, at every point (C85_files), sends the wanted device information (C85_info), and leaves an active credential there if there was none before (C85_manufactured_partial); the client onboards with the wanted credential if it exists, there is no marker and none in the firmware (C85_onboarded_partial, composed with C48 and C61). Violated: USE_PLAIN_DI in the tool's environment switches authentication off; an active credential in /etc makes manufacturing a success that does nothing; without a credential, or with the marker of an earlier device at the same place, onboarding that does nothing is reported as completed; without a credential at the place that of the machine is used, and one of the firmware is always preferred."
  },
  {
   "property": "C86",
   "status": "proved",
   "theorems": [
    "Verif.Wire.C86_credential",
    "Verif.Wire.C86_again",
    "Verif.Wire.C86_flag",
    "Verif.Wire.C86_deactivated",
    "Verif.Wire.C86_tool"
   ],
   "note": "Every credential with a version, GUID and rendezvous variables there are is read as it was written (C86_credential); any file that is read as a credential gives such a one, which can be written again, in no more bytes for its rendezvous information, and read (C86_again); the active flag is the second byte and nothing else depends on it (C86_flag); C61's and C67's assumptions about the codec hold for it (C86_deactivated, C86_tool). Assumed: ciborium and serde_cbor, and derived serde code, as for C83; sizes below 2^64."
  },
  {
   "property": "C87",
   "status": "partial",
   "theorems": [
    "Verif.PublicKey.C87_parts",
    "Verif.PublicKey.C87_read_back",
    "Verif.PublicKey.C87_differ",
    "Verif.PublicKey.C87_of_certificate",
    "Verif.PublicKey.C87_of_chain",
    "Verif.PublicKey.C87_type_partial",
    "Verif.PublicKey.C87_not_read",
    "Verif.PublicKey.C87_forms",
    "Verif.PublicKey.C87_type_violated",
    "Verif.PublicKey.C87_declared_violated"
   ],
   "note": "Key and certificates of every public key are those of its data (C87_parts); it is read as it was written (C87_read_back) and differs from others in its bytes (C87_differ); keys made of certificates and chains are theirs, with the right type, and exist iff there is a type (C87_of_certificate, C87_of_chain). C87_forms discharges what C83 assumes of keys and chains. Violated: the declared type of a key that is read is not looked at (C87_type_violated, C87_declared_violated): an RSA key of 1024 bits is read as key on P-384; nothing in the repository relies on the type of a key it read. Assumed: OpenSSL reads keys and certificates as it wrote them, writing does not fail; CBOR as in C83; keys of less than 2^32 bytes."
  },
  {
   "property": "C88",
   "status": "partial",
   "theorems": [
    "Verif.Http.C88_alone",
    "Verif.Http.C88_requests",
    "Verif.Http.C88_responses",
    "Verif.Http.C88_isolated",
    "Verif.Http.C88_order_partial",
    "Verif.Http.C88_finished_partial",
    "Verif.Http.C88_order_violated",
    "Verif.Http.C88_reopened_violated",
    "Verif.RvServer.Toy.C88_lifetime_violated",
    "Verif.MfgServer.Toy.C88_overwritten_violated",
    "Verif.MfgServer.C88_vouchers",
    "Verif.OwnerServer.C88_service_info",
    "Verif.OwnerServer.C88_marks",
    "Verif.OwnerServer.C88_confirmations",
    "Verif.RvServer.C88_rendezvous_alone",
    "Verif.RvServer.C88_registrations",
    "Verif.RvServer.C88_redirects"
   ],
   "note": "For all servers: C88_alone (the sequential model is the uninterrupted case), C88_requests and C88_responses (encryption), C88_isolated (sessions), C88_order_partial and C88_finished_partial (order and end of a session, if requests of that session are not served at the same time; other sessions do what they like). Rendezvous server: C88_rendezvous_alone, C88_registrations, C88_redirects for any sound store. Owner server: C88_service_info, C88_marks, C88_confirmations. Manufacturing server: C88_vouchers (C42 and C43). Violated, as neither sessions nor entries of stores are locked: two requests of one session served at the same time are both answered (C88_order_violated), a slow request sets a finished session back (C88_reopened_violated), a second SetHMAC replaces the voucher after Done was sent (C88_overwritten_violated), and of two registrations of one device the item of one can stay with the lifetime of the other (C88_lifetime_violated). Operations on stores are taken as atomic."
  },
  {
   "property": "C89",
   "status": "proved",
   "theorems": [
    "Verif.To0.C89_trusted",
    "Verif.To0.C89_contacts",
    "Verif.To0.C89_sends",
    "Verif.To0.C89_granted",
    "Verif.To0.C89_untrusted"
   ],
   "note": "C89_trusted, C89_contacts, C89_sends, C89_granted and C89_untrusted hold for each run of the modelled report_ov_to_rendezvous, with any answers. That a chain is a path of signatures rests on the certificate operations of the trusted base (see C19); validity periods of certificates are not checked by the code."
  },
  {
   "property": "C90",
   "status": "partial",
   "theorems": [
    "Verif.Startup.C90_rendezvous",
    "Verif.Startup.C90_owner",
    "Verif.Startup.C90_files",
    "Verif.Startup.C90_registrations",
    "Verif.Startup.C90_reports",
    "Verif.Startup.C90_empty_file",
    "Verif.Startup.C90_misspelt_violated",
    "Verif.Startup.Toy.C90_open_violated",
    "Verif.Startup.Toy.C90_owner_keys_violated"
   ],
   "note": "C90_rendezvous, C90_owner: from the merged settings to the trusted certificates; C90_files: from the configuration files (with C82); C90_registrations, C90_reports: through to what the started server holds and does (with C33, C89); C90_empty_file. Violated: unknown settings are ignored, so a misspelt name leaves the server open to all (C90_misspelt_violated, C90_open_violated), and the owner server starts with a certificate that does not belong to its key (C90_owner_keys_violated). Reading scalars (config crate), files, PEM and DER are parameters; all other settings and the stores are one condition."
  },
  {
   "property": "C91",
   "status": "partial",
   "theorems": [
    "Verif.Voucher.C91_parted_partial",
    "Verif.Voucher.C91_sold_twice_violated",
    "Verif.Life.C91_former_violated"
   ],
   "note": "C91_parted_partial: two verified vouchers with the same header and HMAC and different owners part at a party that owns the device by both, which signed every entry by which they differ; so only former and present owners can make a second owner. Violated: whoever owns a device can sell it twice (C91_sold_twice_violated, for all vouchers, owners and buyers), and a former owner's voucher stays valid for the device, the owner's server and the rendezvous server (C91_former_violated; with C73, C59 and C78 the former owner registers and onboards). The protocol knows no revocation."
  },
  {
   "property": "C92",
   "status": "partial",
   "theorems": [
    "Verif.Url.C92_own_guid",
    "Verif.Url.C92_reply",
    "Verif.Url.C92_modules_partial",
    "Verif.Url.C92_names_violated",
    "Verif.OwnerServer.C92_service_info"
   ],
   "note": "The device part holds in full: C92_own_guid (whatever is announced, a query that is taken is taken for this GUID and version 1: a second field of the same name is an error), C92_reply (the reply is the one for this GUID, with the user set for it), C92_service_info (through the owner server, in all histories). The modules part: C92_modules_partial for names of modules that exist. Violated for names with characters that mean something in queries (C92_names_violated): modules get lost, the query is refused, or one name stands for two modules."
  },
  {
   "property": "C93",
   "status": "partial",
   "theorems": [
    "Verif.Startup.C93_owner",
    "Verif.Startup.C93_rendezvous",
    "Verif.Startup.C93_told",
    "Verif.Startup.C93_not_served_later_partial",
    "Verif.Startup.C93_short_violated",
    "Verif.Startup.C93_registers_partial",
    "Verif.Startup.Toy.C93_zero_violated"
   ],
   "note": "C93_owner and C93_rendezvous: the times of a server that starts are those of its settings or the defaults, and 60 < window < period. C93_told: every accepted registration is answered with the smaller of the requested time and the maximum, in all histories. C93_registers_partial: with both servers' settings, for honest owner and server and messages that arrive (as C73). C93_not_served_later_partial: directory store, no stop in the middle of a registration (C35 has the violations). Violated: the rendezvous server starts with every maximum, also 0 (C93_short_violated, C93_zero_violated)."
  },
  {
   "property": "C94",
   "status": "partial",
   "theorems": [
    "Verif.Errors.C94_refused",
    "Verif.Errors.C94_reported",
    "Verif.Errors.C94_nothing_else",
    "Verif.Errors.C94_names_partial",
    "Verif.Errors.C94_parse_violated",
    "Verif.Errors.C94_done_violated"
   ],
   "note": "C94_refused (a reason exists just if the request is refused), C94_reported (the client sees an error it can read, keys and token unchanged) and C94_nothing_else (one of a fixed list of outcomes for the type of message) hold for all servers, states and requests; what handlers refuse with is taken from a table of all their errors (`handlerErrors`); handlers that panic give no reply at all. The message refused is named except after parse and HTTP errors and for six messages (C94_names_partial). Violated: C94_parse_violated (a message that cannot be parsed is not named), C94_done_violated (each refusal of TO2.Done by its handler names another message)."
  },
  {
   "property": "C95",
   "status": "partial",
   "theorems": [
    "Verif.Errors.C95_start",
    "Verif.Errors.C95_hmac",
    "Verif.Errors.C95_manufacturing",
    "Verif.Errors.C95_di",
    "Verif.Errors.C95_in_order",
    "Verif.Errors.C95_key_violated",
    "Verif.Errors.C95_rendezvous_order",
    "Verif.Errors.C95_owner_order",
    "Verif.Errors.C95_proof",
    "Verif.Errors.C95_owner_partial",
    "Verif.Errors.C95_to2_partial",
    "Verif.Errors.C95_signature_violated",
    "Verif.Errors.C95_filter",
    "Verif.Errors.C95_after",
    "Verif.Errors.C95_registration",
    "Verif.Errors.C95_rendezvous_partial",
    "Verif.Errors.C95_nothing_stored",
    "Verif.Errors.C95_answered_partial",
    "Verif.Errors.C95_store_violated",
    "Verif.Errors.C95_commitment_violated"
   ],
   "note": "Proved for the request filter of all servers (C95_filter, C95_after: against the protocol graph and the lists of encrypted messages of Spec/Protocol), for the handlers of the rendezvous server (C95_registration against signature chains, certificate paths and commitments; C95_rendezvous_partial; C95_answered_partial for requests to the whole server; C95_nothing_stored), of the owner server (C95_proof, C95_owner_partial, C95_to2_partial) and of the manufacturing server (C95_start, C95_hmac, C95_manufacturing, C95_di; C95_in_order: in no history do its handlers report messages out of order, which the filter does before). For whole histories: the owner server's handlers never report a sequence failure (C95_owner_order), those of the rendezvous server just when the store failed (C95_rendezvous_order). Violated: a device whose registration the store cannot read is told that it sent messages out of order (C95_store_violated); registration data that do not match the redirect blob, and tokens that the device did not sign, are reported as internal errors of the server (C95_commitment_violated, C95_signature_violated, C95_key_violated), as are data that cannot be read and keys that are not supported (constructors unreadable, payload, key)."
  },
  {
   "property": "C96",
   "status": "partial",
   "theorems": [
    "Verif.Startup.C96_files_partial",
    "Verif.Startup.C96_protocols",
    "Verif.Startup.C96_last_word",
    "Verif.Startup.C96_admitted_partial",
    "Verif.Startup.C96_closed",
    "Verif.Startup.C96_owned",
    "Verif.Startup.C96_key_store_violated",
    "Verif.Startup.C96_mismatch",
    "Verif.Startup.MfgToy.C96_keys_violated",
    "Verif.Startup.MfgToy.C96_storage_violated"
   ],
   "note": "Proved: keys, certificates and owner are those of the files named (C96_files_partial), protocols and key store those configured (C96_protocols), from the merged files on (C96_last_word); through to what is done: every voucher was issued by a protocol the settings enable (C96_admitted_partial), none if there is none (C96_closed), and belongs to the owner named (C96_owned). Violated: without the setting for the key store, documented as optional, the server does not start (C96_key_store_violated); the allowed key storages are told to the device but not enforced (C96_storage_violated); a server whose key does not belong to its certificate starts, but can never issue a voucher (C96_keys_violated, from C96_mismatch). Rendezvous information is a parameter here (its reading is in Model/Config)."
  },
  {
   "property": "C97",
   "status": "partial",
   "theorems": [
    "Verif.Startup.C97_settings_partial",
    "Verif.Startup.C97_starts",
    "Verif.Startup.C97_misspelt_partial",
    "Verif.Startup.C97_admin",
    "Verif.Startup.C97_token_partial",
    "Verif.Startup.C97_served",
    "Verif.Startup.C97_files_partial",
    "Verif.Startup.C97_commands_partial",
    "Verif.Startup.C97_token_violated",
    "Verif.Startup.C97_permissions_violated",
    "Verif.Startup.C97_documented_violated",
    "Verif.Startup.C97_source_violated"
   ],
   "note": "Proved: a server that starts was prepared from what its section says (C97_settings), and it starts if and only if the section can be read, has known names only, and its files can be served (C97_starts); an unknown name in the section keeps it from starting (C97_misspelt); tokens over all histories (C97_admin, C97_token), replies to the rightful owner server (C97_served), through to the files and commands on the device (C97_files and C97_commands, on top of C53). Violated: a misspelt token is overlooked and the server open to everybody (C97_token_violated), as are misspelt permissions of a file (C97_permissions_violated); the documented setting additional_service_info keeps the server from starting, as the code calls it additional_serviceinfo (C97_documented_violated); sources of files need not be under /var/lib/fdo (C97_source_violated). How the config crate reads scalars and arrays is a parameter."
  },
  {
   "property": "C98",
   "status": "partial",
   "theorems": [
    "Verif.Startup.C98_own_partial",
    "Verif.Startup.C98_default",
    "Verif.Startup.C98_others",
    "Verif.Startup.C98_malformed_violated",
    "Verif.Startup.C98_reply_partial",
    "Verif.Startup.C98_only_user_violated"
   ],
   "note": "Proved: a usable file for a device decides its initial user (C98_own), without a file the general settings do (C98_default), files for other devices never matter (C98_others, for all GUIDs and directories), through to the reply of a server that was started from the files, after any requests (C98_reply). Violated: a file that cannot be parsed, or has an unknown name, is overlooked and the general user made (C98_malformed_violated); everything but the initial user in the file is ignored, such as files, commands and reboot (C98_only_user_violated). If reading the directory of configuration files panics, the request is modelled as if there were no settings for the device."
  },
  {
   "property": "C99",
   "status": "partial",
   "theorems": [
    "Verif.Startup.C99_starts",
    "Verif.Startup.C99_request_partial",
    "Verif.Startup.C99_served",
    "Verif.Startup.C99_asks",
    "Verif.Startup.C99_refused",
    "Verif.Startup.C99_tokenless_violated",
    "Verif.Startup.C99_characters_violated",
    "Verif.Startup.C99_query_violated"
   ],
   "note": "Proved: exactly which settings make which client (C99_starts), every request goes to the host and path in the settings with the token in them or none (C99_request), with the token of the service info server's settings the reply is given after any requests (C99_served), with another one never (C99_refused); with a token it asks as in the theorems about the query and the reply, C92 (C99_asks). Violated: with `None` or a client certificate in the settings there is never a reply, although the documentation offers both (C99_tokenless_violated); tokens with characters outside printable ASCII let both servers start but never work (C99_characters_violated); a query in the URL is dropped (C99_query_violated). URL parsing, PKCS#12 and the network are parameters."
  },
  {
   "property": "C100",
   "status": "partial",
   "theorems": [
    "Verif.Startup.C100_starts",
    "Verif.Startup.C100_urls_partial",
    "Verif.Startup.C100_malformed",
    "Verif.Startup.C100_transports_violated",
    "Verif.Startup.C100_both_violated"
   ],
   "note": "Proved: exactly which settings give which addresses, in their order (C100_starts); with an IP address that cannot be parsed there is no start (C100_malformed); the URLs of a device that is told the addresses are those of the settings, in order (C100_urls). Violated: the documented transports tcp, tls, coap and coaps are accepted, but devices never try them, so that a server with these only is never found (C100_transports_violated); of an address with both an IP address and a name, the name is overlooked (C100_both_violated). The encoding of the addresses between the servers and the device is serde's (a parameter)."
  },
  {
   "property": "C101",
   "status": "partial",
   "theorems": [
    "Verif.Startup.C101_setting",
    "Verif.Startup.C101_disabled_partial",
    "Verif.Startup.C101_enabled",
    "Verif.Startup.C101_elsewhere",
    "Verif.Startup.C101_maintenance_violated",
    "Verif.Startup.C101_position",
    "Verif.Startup.C101_history_enabled",
    "Verif.Startup.C101_history_disabled"
   ],
   "note": "Proved: the setting is mandatory and read as it is (C101_setting); if it says no, no history of requests reports anything (C101_disabled_partial); if it says yes, a request goes through exactly the vouchers due (C101_enabled); other requests report nothing (C101_elsewhere); in any history with rounds of maintenance, the store is that of the reports asked for and the rounds, or of the rounds alone, as the setting says (C101_history_enabled, C101_history_disabled, C101_position). Violated: by HOWTO.md the setting is about reporting as such, but it only guards the endpoint; every round of maintenance reports whatever it says (C101_maintenance_violated). Routes other than this one are in Model/OwnerServer and do nothing here."
  },
  {
   "property": "C102",
   "status": "partial",
   "theorems": [
    "Verif.Startup.C102_stores",
    "Verif.Startup.C102_rendezvous",
    "Verif.Startup.C102_owner",
    "Verif.Startup.C102_manufacturing_partial",
    "Verif.Startup.C102_relative",
    "Verif.Startup.C102_reports",
    "Verif.Startup.C102_type_violated"
   ],
   "note": "Proved: exactly which settings give which stores, for each server (C102_stores, C102_rendezvous, C102_owner, C102_manufacturing_partial, which leaves out the optional store for public keys: see C96); with a relative path there is no start (C102_relative); an owner server finds vouchers to report exactly in directories and in databases of type Owner (C102_reports). Violated: the type of server in the settings is not compared with the server itself, so that an owner server with another type starts and never reports a voucher (C102_type_violated). Creating directories, canonical paths and pools of connections are parameters; that the queries then work on the store opened is in Model/Store, not linked here."
  }
 ]
}