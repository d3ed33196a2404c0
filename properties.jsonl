{"id": "C01", "title": "CBOR array wrapper round-trips", "statement": "Serializing a parsed array (fixed size or dynamic, with or without a tag) whose elements are complete CBOR items and reading the bytes back yields the same tag and byte-identical elements, and leaves any following bytes unread.", "quantifier": "every element count up to 65535, every tag up to 65535, every list of complete CBOR items of any nesting depth without simple/float values, every trailing input", "why_tests_cant": "nesting depth, element count and item sizes are unbounded; the reader is an explicit-stack loop whose bookkeeping must be right for every shape", "anchors": ["data-formats/src/cborparser.rs: ParsedArray::deserialize_from_reader, ParsedArray::serialize_to_writer, encode_item_start, read_len"]}
{"id": "C02", "title": "Successful array parse consumes exactly one well-formed item", "statement": "Whenever reading an array from a byte stream succeeds, the bytes taken from the stream are precisely the optional tag header, the array header and the concatenation of the returned elements; every returned element is exactly one complete CBOR item; the number of elements is the announced number; nothing after the array is consumed.", "quantifier": "every byte stream", "why_tests_cant": "arbitrary attacker-chosen byte streams; unbounded nesting", "anchors": ["data-formats/src/cborparser.rs: ParsedArray::deserialize_from_reader"]}
{"id": "C03", "title": "CBOR item header encoding is inverted by the reader", "statement": "For every major type and every length up to 65535 the header written for an item is read back to the same major type and length; longer lengths must not abort the process.", "quantifier": "all eight major types and all 64-bit lengths", "why_tests_cant": "2^64 lengths; the abort above 65535 is only hit by inputs no test builds", "anchors": ["data-formats/src/cborparser.rs: encode_item_start, read_len, MajorType"]}
{"id": "C04", "title": "Array reader never aborts the process", "statement": "Reading an array from arbitrary bytes returns a value or an error, never aborts the process.", "quantifier": "every byte stream", "why_tests_cant": "absence of aborts over all inputs", "anchors": ["data-formats/src/cborparser.rs: read_len, deserialize_from_reader"]}
{"id": "C05", "title": "Concatenated vouchers are read back in order", "statement": "Reading many items from a stream that is the concatenation of serialized arrays returns exactly those arrays in order; a stream ending inside an item is an error and never yields a truncated list.", "quantifier": "every list of serializable arrays, every stream", "why_tests_cant": "unbounded number of items and every truncation point", "anchors": ["data-formats/src/serializable.rs: DeserializableMany::deserialize_many_from_reader", "data-formats/src/cborparser.rs: deserialize_from_reader", "data-formats/src/ownershipvoucher.rs: DeserializableMany"]}
{"id": "C06", "title": "Extending a voucher hands ownership to the named next owner", "statement": "Starting from any voucher whose entry chain verifies, an extend by the current owner's private key succeeds and yields a voucher whose complete entry chain verifies, has exactly one more entry, keeps header, HMAC and earlier entries unchanged, and whose last verified entry names the new owner; after any sequence of extends the verified last owner is the last named one.", "quantifier": "every voucher, every sequence of owners and extends", "why_tests_cant": "history of unbounded length; hash chain must be right at every position", "anchors": ["data-formats/src/ownershipvoucher.rs: OwnershipVoucher::extend, iter_entries, EntryIter::process_element"]}
{"id": "C07", "title": "Only the current owner can extend a voucher", "statement": "An extend with a private key that does not match the current owner (manufacturer key if there are no entries, last entry's key otherwise) fails and leaves the voucher unchanged.", "quantifier": "every voucher, every key", "why_tests_cant": "universal over keys and vouchers", "anchors": ["data-formats/src/ownershipvoucher.rs: OwnershipVoucher::extend"]}
{"id": "C08", "title": "A verified voucher is tamper evident", "statement": "If two vouchers both verify end to end and carry the same last entry bytes, then (absent a hash collision among the concerned byte strings) they have the same number of entries, byte-identical entries, header and header HMAC; hence dropping, inserting, reordering or modifying anything is detected by iterating the entries.", "quantifier": "every pair of vouchers", "why_tests_cant": "all modifications at all positions of chains of any length", "anchors": ["data-formats/src/ownershipvoucher.rs: EntryIter::process_element, hdr_hash, get_hdr_info_hash"]}
{"id": "C09", "title": "Verified entries form an unbroken signature chain from the manufacturer", "statement": "If iterating a voucher yields entries without an error then the first entry carries a valid signature of the manufacturer key and each later entry carries a valid signature of the public key named by its predecessor, and every entry commits to the header info and to the previous entry.", "quantifier": "every voucher, every prefix of the iteration", "why_tests_cant": "chains of any length", "anchors": ["data-formats/src/ownershipvoucher.rs: EntryIter"]}
{"id": "C10", "title": "Entry iteration stops at the first invalid entry", "statement": "Iterating voucher entries yields the valid entries in order, each at most once, then at most one error, and nothing afterwards, however often it is polled.", "quantifier": "every voucher, every number of polls", "why_tests_cant": "unbounded polling", "anchors": ["data-formats/src/ownershipvoucher.rs: EntryIter (Iterator::next)"]}
{"id": "C11", "title": "A voucher built from parts serializes and reads back", "statement": "Any voucher assembled from a header, header HMAC, optional device certificate chain and entries can be serialized and read back to the same header, HMAC, chain and entries.", "quantifier": "every header, HMAC, optional chain and entry list", "why_tests_cant": "all optional-field combinations and sizes", "anchors": ["data-formats/src/ownershipvoucher.rs: OwnershipVoucher::from_parts, new, deserialize_from_reader", "data-formats/src/cborparser.rs: ParsedArray"]}
{"id": "C12", "title": "Device info in a voucher header is printable ASCII", "statement": "A header whose device info contains a character outside printable ASCII can neither be read nor written; accepted headers therefore only carry printable ASCII device info.", "quantifier": "every string", "why_tests_cant": "all Unicode strings", "anchors": ["data-formats/src/ownershipvoucher.rs: OwnershipVoucherHeader::check_device_info, new, serialize_to_writer, deserialize_from_reader"]}
{"id": "C13", "title": "Digest comparison is total and exact", "statement": "Comparing received digests (hash of data, header HMAC) returns success exactly if type and bytes are the same and otherwise reports a mismatch, and never aborts, whatever the remote sent.", "quantifier": "every pair of digests, every type and length a peer can send", "why_tests_cant": "attacker chosen lengths and types", "anchors": ["data-formats/src/types.rs: Hash::compare, Hash::compare_data, PartialEq for Hash", "data-formats/src/devicecredential/file.rs: verify_hmac"]}
{"id": "C14", "title": "Hash textual and digest constructors enforce the digest length", "statement": "A digest value constructed from a raw digest always has exactly the length belonging to its algorithm; one computed from data verifies against that data.", "quantifier": "every byte string, every algorithm", "why_tests_cant": "all inputs", "anchors": ["data-formats/src/types.rs: Hash::from_digest, from_data, compare_data", "data-formats/src/constants/mod.rs: HashType::digest_size"]}
{"id": "C15", "title": "Device GUID and UEID convert back and forth", "statement": "Converting a GUID to an EAT UEID and back gives the same GUID; every other byte string (wrong prefix, wrong length, empty) is rejected with an error.", "quantifier": "every GUID, every byte string", "why_tests_cant": "all byte strings", "anchors": ["data-formats/src/types.rs: Guid::as_ueid, Guid::from_ueid"]}
{"id": "C16", "title": "ECDH parameter encoding round-trips and rejects malformed input", "statement": "Decoding the encoding of (x, y, random) returns the same triple for all components shorter than 65536 bytes; input with trailing bytes or missing bytes is rejected with an error.", "quantifier": "every triple of byte strings; every malformed string", "why_tests_cant": "all lengths, all truncation points", "anchors": ["data-formats/src/types.rs: KeyExchange::encode_ecdh_bstr, decode_ecdh_bstr"]}
{"id": "C17", "title": "Both ends derive the same session key", "statement": "After exchanging key exchange parameters over the same suite, device and owner service derive the same session key (for a commutative Diffie-Hellman primitive), of the length the cipher suite needs; the two roles cannot be swapped without changing the KDF input.", "quantifier": "every pair of key exchange parameters, every suite", "why_tests_cant": "all parameters", "anchors": ["data-formats/src/types.rs: KeyExchange::derive_key_ecdh, derive_key, KexSuite, CipherSuite"]}
{"id": "C18", "title": "Rendezvous directives are interpreted per role", "statement": "Interpreting rendezvous info for a device never yields directives marked owner-only and vice versa, bypass directives are dropped, order is kept, ports and protocol default as specified, and each yielded directive produces only http/https URLs, DNS name first and then addresses, on the port for that role.", "quantifier": "every list of directives with any order/duplication of variables", "why_tests_cant": "all combinations and orders of variables", "anchors": ["data-formats/src/enhanced_types.rs: RendezvousInterpretedDirective::from_rv_directive, get_urls, RendezvousInfo::to_interpreted"]}
{"id": "C19", "title": "Certificate chain acceptance implies a path to a trusted root", "statement": "When verifying a certificate chain against a set of trusted roots succeeds, the returned certificate is the chain's leaf and there is an initial segment of the chain in which each certificate is issued and signed by the next one, ending in an issuer which is trusted; verification never succeeds with an empty chain.", "quantifier": "every chain and every trust set", "why_tests_cant": "chains of every length", "anchors": ["data-formats/src/publickey.rs: X5Chain::verify, verify_from_x5bag, verify_from_digest, insecure_verify"]}
{"id": "C20", "title": "Service info values added are the values iterated", "statement": "Service info entries added with (module, key, value) are iterated back in order as the same triples; iteration over a received list never yields anything after a malformed entry and never aborts.", "quantifier": "every sequence of adds; every received list", "why_tests_cant": "all lists and key strings", "anchors": ["data-formats/src/types.rs: ServiceInfo::add, add_extra, iter, values, ServiceInfoIter"]}
{"id": "C21", "title": "Service info module names round-trip", "statement": "Every module the implementation knows is printed to a name which parses back to the same module, distinct modules have distinct names, and unknown names are kept verbatim.", "quantifier": "every module value, every string", "why_tests_cant": "all strings", "anchors": ["data-formats/src/constants/serviceinfo_names.rs: FromStr, Display, ServiceInfoModule"]}
{"id": "C22", "title": "Server enforces protocol message order per session", "statement": "In every session the sequence of requests that reach a handler is a path in the protocol graph: a request is only processed directly after the response the protocol prescribes; everything else is rejected without changing the session.", "quantifier": "every history of requests on every number of sessions, arbitrary order and bodies", "why_tests_cant": "unbounded adversarial histories", "anchors": ["http-wrapper/src/server.rs: parse_request, fdo_request_filter, store_session", "data-formats/src/messages/v11: ClientMessage/ServerMessage is_valid_previous_message"]}
{"id": "C23", "title": "Messages that must be encrypted are never handled or sent in clear", "statement": "A request type that must be encrypted reaches its handler only if the session has established keys and the body decrypted under those; a response type that must be encrypted is only put on the wire encrypted under session keys; types which must not be encrypted are refused once keys exist.", "quantifier": "every history of requests", "why_tests_cant": "all orders of key establishment and requests", "anchors": ["http-wrapper/src/server.rs: parse_request, encrypt_and_generate_response, set_encryption_keys", "http-wrapper/src/lib.rs: EncryptionKeys", "data-formats/src/messages/v11: encryption_requirement"]}
{"id": "C24", "title": "Sessions are isolated", "statement": "Processing a request for one session token never changes the stored state of any other session, and a request without a valid token runs in a fresh session.", "quantifier": "every history, every pair of sessions", "why_tests_cant": "unbounded histories", "anchors": ["http-wrapper/src/server.rs: fdo_request_filter, store_session, SessionStore"]}
{"id": "C25", "title": "Client only accepts the response belonging to its request", "statement": "The client's send function returns a message only if it is of the type awaited, allowed after the request, and protected as its type requires; every other reply (wrong type, error, unencrypted) is returned as an error.", "quantifier": "every sequence of calls and server replies", "why_tests_cant": "adversarial server", "anchors": ["http-wrapper/src/client.rs: ServiceClient::send_request"]}
{"id": "C26", "title": "A finished onboarding session cannot be replayed", "statement": "After a session was completed by the Done exchange its token is no longer usable: later requests under it behave as in a new session.", "quantifier": "every history after Done", "why_tests_cant": "all later requests", "anchors": ["owner-onboarding-server/src/handlers.rs: done", "http-wrapper/src/server.rs: store_session"]}
{"id": "C27", "title": "Directory store behaves like a map with expiry", "statement": "For every sequence of store, load, delete, metadata and maintenance operations with a nondecreasing clock, a load returns the value most recently stored under that key if it was not deleted and is not expired, and nothing otherwise; operations on one key do not influence others.", "quantifier": "every sequence of operations on every key, every clock", "why_tests_cant": "unbounded operation histories", "anchors": ["store/src/directory.rs: DirectoryStore store_data, load_data, destroy_data, store_metadata, destroy_metadata, perform_maintenance"]}
{"id": "C28", "title": "Directory store write is crash atomic", "statement": "If the process stops at any point during a store operation, a later load under that key returns either the complete old value or the complete new one, and other keys are unaffected.", "quantifier": "every crash point, every old and new value", "why_tests_cant": "crash points between all file operations", "anchors": ["store/src/directory.rs: store_data"]}
{"id": "C29", "title": "Distinct keys never share an entry", "statement": "Two different keys are stored in different files.", "quantifier": "every pair of keys", "why_tests_cant": "all string pairs", "anchors": ["store/src/directory.rs: get_path"]}
{"id": "C30", "title": "Expired data is never returned and maintenance removes exactly the expired entries", "statement": "A load at a time past the entry's expiry returns nothing; a maintenance run removes the entries whose expiry has been reached and no others, and entries without expiry are kept forever.", "quantifier": "every store content and clock value", "why_tests_cant": "all contents and times", "anchors": ["store/src/directory.rs: load_data, perform_maintenance, ttl_from_disk"]}
{"id": "C31", "title": "Pending-voucher query selects exactly vouchers due for registration", "statement": "The query used for reporting to the rendezvous server returns exactly the vouchers whose onboarding is not recorded as performed and whose registration wait time is unset or passed, for every storage backend.", "quantifier": "every set of vouchers and metadata, every time, both backends", "why_tests_cant": "all contents; backends must agree", "anchors": ["store/src/directory.rs: DirectoryStoreFilterType::query", "store/src/sqlite.rs: query_ovs_db, query_ovs_db_to2_performed_to0_less_than", "db/src/sqlite.rs: select_ov_to2_performed_and_ov_to0_less_than", "owner-onboarding-server/src/main.rs: report_to_rendezvous"]}
{"id": "C32", "title": "Database store behaves like the directory store", "statement": "Storing under an existing key replaces the value, loading a missing key returns nothing, and clearing one metadata key leaves the others, for the database backends as for the directory backend.", "quantifier": "every sequence of operations", "why_tests_cant": "unbounded histories; backends only differ in corner cases", "anchors": ["store/src/sqlite.rs: ManufacturerOVStore/OwnerOVStore/RendezvousOVStore", "db/src/sqlite.rs", "migrations/*/up.sql"]}
{"id": "C33", "title": "Rendezvous registrations are authentic", "statement": "Every registration a rendezvous server holds was made in a request whose voucher chain verified up from a trusted manufacturer key, whose redirect blob was signed by that voucher's current owner and matches the registration data, which carried the nonce handed out in the same session, and whose device certificate chain verified; the stored device key is that chain's leaf key.", "quantifier": "every history of TO0/TO1 requests from any number of clients", "why_tests_cant": "unbounded adversarial histories", "anchors": ["rendezvous-server/src/handlers_to0.rs: hello, ownersign"]}
{"id": "C34", "title": "Redirect blobs are released only to the device", "statement": "The rendezvous server answers a ProveToRV request with the registered blob only if the request is signed by the device key registered for the GUID named in the HelloRV of that session and contains the nonce issued in that session.", "quantifier": "every history of requests", "why_tests_cant": "unbounded adversarial histories", "anchors": ["rendezvous-server/src/handlers_to1.rs: hello_rv, prove_to_rv"]}
{"id": "C35", "title": "Registration lifetime is bounded by the server's maximum", "statement": "The accepted wait time is the smaller of the requested and the configured maximum, it is what the owner is told, and the registration is not served after that time has passed.", "quantifier": "every requested wait, configuration and time", "why_tests_cant": "all values", "anchors": ["rendezvous-server/src/handlers_to0.rs: ownersign", "store/src/directory.rs: load_data"]}
{"id": "C36", "title": "Re-registering a device replaces its redirect blob", "statement": "A later valid registration for the same device replaces the earlier one with every storage backend, so a device asking afterwards gets the newest blob.", "quantifier": "every history of registrations", "why_tests_cant": "backend-dependent behaviour in histories", "anchors": ["rendezvous-server/src/handlers_to0.rs: ownersign", "store/src/sqlite.rs: RendezvousOVStore::store_data", "db/src/sqlite.rs: insert_ov"]}
{"id": "C37", "title": "Service info only goes to proven devices", "statement": "The owner onboarding server builds and sends service info (users, keys, files, commands) only in sessions in which a device proved possession of the private key of the voucher's device certificate over the nonce of that session; the info is built for the GUID of that voucher.", "quantifier": "every history of TO2 requests over any number of sessions", "why_tests_cant": "unbounded adversarial histories", "anchors": ["owner-onboarding-server/src/handlers.rs: hello_device, prove_device, device_service_info_ready, device_service_info, done"]}
{"id": "C38", "title": "Onboarding is recorded only after a proven device finished", "statement": "A voucher is marked as onboarded only by a Done request, in a session in which the device of that voucher proved itself, carrying that session's nonce; the reply returns the nonce chosen by the device.", "quantifier": "every history of TO2 requests", "why_tests_cant": "unbounded adversarial histories", "anchors": ["owner-onboarding-server/src/handlers.rs: done"]}
{"id": "C39", "title": "Service info exchange terminates", "statement": "In every session the number of service info rounds served is bounded by the configured maximum and the device is told to finish after the first non-empty round.", "quantifier": "every history of requests in a session", "why_tests_cant": "loop bound across requests", "anchors": ["owner-onboarding-server/src/handlers.rs: device_service_info, perform_service_info", "client-linuxapp/src/serviceinfo.rs: perform_to2_serviceinfos"]}
{"id": "C40", "title": "Voucher entries are served verbatim", "statement": "Asking for entry number i of the voucher returns precisely the i-th raw entry for every i below the announced count, and an out-of-range request is answered by an error.", "quantifier": "every voucher and index", "why_tests_cant": "all indices", "anchors": ["owner-onboarding-server/src/handlers.rs: get_ov_next_entry", "data-formats/src/ownershipvoucher.rs: entry, num_entries", "client-linuxapp/src/main.rs: get_ov_entries"]}
{"id": "C41", "title": "Owner re-registers vouchers before the registration lapses", "statement": "With every accepted configuration, an un-onboarded voucher whose registration succeeded is selected for re-registration before the registration expires at the rendezvous server, as long as maintenance runs at its interval; vouchers of onboarded devices are not registered again.", "quantifier": "every accepted configuration, every accepted wait and clock", "why_tests_cant": "timing arithmetic over all configurations", "anchors": ["owner-onboarding-server/src/main.rs: check_registration_window, report_to_rendezvous, report_ov_to_rendezvous, perform_maintenance, main"]}
{"id": "C42", "title": "Manufacturing server only issues vouchers to admitted devices", "statement": "If plain DI is disabled, every voucher the server stores was created in a session which completed the DIUN key exchange, and certifies the key provided there; if it is enabled, the certified key comes from that session's DIUN or from the configured key store under the device's manufacturing string.", "quantifier": "every history of requests", "why_tests_cant": "unbounded adversarial histories", "anchors": ["manufacturing-server/src/handlers/di.rs: app_start, set_hmac, fail_if_no_di_and_not_from_diun", "manufacturing-server/src/handlers/diun.rs"]}
{"id": "C43", "title": "Issued vouchers are consistent", "statement": "Every voucher stored by the manufacturing server is stored under its own GUID, carries the header sent to the device and the HMAC the device returned, a device certificate chain whose hash is in the header, and, if an owner is configured, verifies with that owner as its last owner.", "quantifier": "every history of requests and configuration", "why_tests_cant": "unbounded histories", "anchors": ["manufacturing-server/src/handlers/di.rs: app_start, set_hmac, create_device_cert_chain"]}
{"id": "C44", "title": "Manufacturing leaves device and server consistent at every crash point", "statement": "If the device has an active credential then the manufacturing server holds the matching voucher.", "quantifier": "every crash point of the DI exchange", "why_tests_cant": "crash points between network messages and file writes", "anchors": ["manufacturing-client/src/main.rs: perform_di, save_to_credential"]}
{"id": "C45", "title": "Startup configuration checks rule out later aborts", "statement": "A manufacturing server which started has either both or none of manufacturer key and owner certificate, so that issuing a voucher never aborts for a missing owner certificate; an owner server which started has a registration window strictly below the period and above the maintenance interval.", "quantifier": "every configuration", "why_tests_cant": "all configurations", "anchors": ["manufacturing-server/src/main.rs: main", "manufacturing-server/src/handlers/di.rs: set_hmac", "owner-onboarding-server/src/main.rs: main"]}
{"id": "C46", "title": "Device only takes instructions from the voucher's owner", "statement": "The client processes service info only after it checked, in that run, that the voucher header carries this device's HMAC, that the manufacturer key matches the credential, that the whole entry chain verifies, and that the server's proof and the redirect blob are signed by the last owner and echo the device's nonce.", "quantifier": "every server behaviour", "why_tests_cant": "adversarial servers", "anchors": ["client-linuxapp/src/main.rs: perform_hellodevice, get_and_verify_ov_header_signature, get_ov_entries, perform_to2"]}
{"id": "C47", "title": "Device onboards vouchers with any number of entries", "statement": "With an honest server, fetching the entries of a voucher succeeds for every number of entries the announced count can express.", "quantifier": "every entry count up to 65535", "why_tests_cant": "counts above 255 never occur in tests", "anchors": ["client-linuxapp/src/main.rs: get_ov_entries", "data-formats/src/messages/v11/to2.rs: GetOVNextEntry, OVNextEntry"]}
{"id": "C48", "title": "Device and owner agree on the outcome of onboarding", "statement": "A device marks itself onboarded and deactivates its credential only if the owner server acknowledged completion.", "quantifier": "every interleaving of failures in the TO2 exchange", "why_tests_cant": "failures between any two steps", "anchors": ["client-linuxapp/src/main.rs: perform_to2, perform_done, mark_device_onboarding_executed"]}
{"id": "C49", "title": "Only activated modules act", "statement": "A service info instruction only has an effect on the device (user, key, file, command, encryption, reboot, subscription) if the same message activated its module earlier and the module is supported; any instruction to an inactive module aborts processing.", "quantifier": "every received service info list", "why_tests_cant": "all instruction sequences", "anchors": ["client-linuxapp/src/serviceinfo.rs: process_serviceinfo_in"]}
{"id": "C50", "title": "Files are deployed complete and verified or not at all", "statement": "Every file the client deploys has contents which are the concatenation of the received data chunks in order, exactly the announced length, and a digest equal to the announced one, at the announced absolute path with the announced mode (0600 by default); no other file is deployed.", "quantifier": "every received service info list, every chunking", "why_tests_cant": "all interleavings of instructions", "anchors": ["client-linuxapp/src/serviceinfo.rs: process_serviceinfo_in, BinaryFileInProgress"]}
{"id": "C51", "title": "Command results are reported and failures stop onboarding", "statement": "Each command is run with exactly the command, arguments and flags sent since the previous execution; its exit code is always reported and its output only if requested; a failing command stops processing unless declared allowed to fail; no instruction sequence aborts the client process.", "quantifier": "every received service info list and every command outcome", "why_tests_cant": "all sequences", "anchors": ["client-linuxapp/src/serviceinfo.rs: CommandInProgress, process_serviceinfo_in"]}
{"id": "C52", "title": "Configured initial user and keys arrive on the device unchanged", "statement": "The SSH keys configured for a device are installed one by one, in order and unchanged, for the configured user.", "quantifier": "every configured list of keys", "why_tests_cant": "all key strings including separators", "anchors": ["owner-onboarding-server/src/handlers.rs: perform_service_info", "client-linuxapp/src/serviceinfo.rs: process_serviceinfo_in, install_ssh_key", "serviceinfo-api-server/src/main.rs: serviceinfo_handler"]}
{"id": "C53", "title": "Configured files and commands arrive on the device unchanged", "statement": "For every configuration of the service info server, a device supporting the modules deploys exactly the configured files with the configured contents and permissions and runs exactly the configured commands, in order.", "quantifier": "every configuration, every module set", "why_tests_cant": "composition of three programs over all configurations", "anchors": ["serviceinfo-api-server/src/main.rs: serviceinfo_handler, add_extra, from_settings", "owner-onboarding-server/src/handlers.rs: perform_service_info", "client-linuxapp/src/serviceinfo.rs: process_serviceinfo_in"]}
{"id": "C54", "title": "A requested reboot is remembered", "statement": "The client reboots after onboarding exactly if some processed service info message's last reboot instruction asked for it.", "quantifier": "every sequence of messages", "why_tests_cant": "all sequences", "anchors": ["client-linuxapp/src/serviceinfo.rs: process_serviceinfo_in, perform_to2_serviceinfos", "client-linuxapp/src/main.rs: main"]}
{"id": "C55", "title": "TPM signatures are converted to fixed-size COSE signatures", "statement": "Merging the two halves of an EC signature yields twice the key length and both halves can be recovered as numbers.", "quantifier": "all halves up to the key length", "why_tests_cant": "leading zero bytes occur with probability 1/256", "anchors": ["data-formats/src/devicecredential/file.rs: TpmCoseSigner::merge_ec_signature"]}
{"id": "C56", "title": "Key storage selection honours the server's order and restrictions", "statement": "The manufacturing client creates its key in the first allowed storage type which is usable on the device, only uses an allowed one, and fails if none is usable.", "quantifier": "every list of allowed types and every device capability", "why_tests_cant": "all lists", "anchors": ["manufacturing-client/src/main.rs: KeyReference::get_new_key"]}
{"id": "C57", "title": "Admin and service info endpoints require their tokens", "statement": "The admin endpoint is refused unless an admin token is configured and the request carries exactly it; with a service info token configured, device info is only returned to requests carrying it.", "quantifier": "every configuration and header", "why_tests_cant": "all strings", "anchors": ["serviceinfo-api-server/src/main.rs: admin_auth_handler, serviceinfo_auth_handler"]}
{"id": "C58", "title": "C API reports errors without aborting", "statement": "Asking for the last error returns NULL if the last call succeeded and the message otherwise, and list access returns NULL exactly when out of range; no call sequence with valid pointers aborts the process.", "quantifier": "every sequence of C API calls", "why_tests_cant": "all call sequences", "anchors": ["libfdo-data/src/lib.rs: fdo_get_last_error, set_last_error", "libfdo-data/src/ownershipvoucher.rs"]}
{"id": "C59", "title": "An honest end-to-end run onboards the device", "statement": "With an honest owner server holding a valid voucher with between 1 and 255 entries and an honest device holding the matching credential, the TO2 exchange reaches completion: the server records the onboarding and the device processed precisely the server's service info.", "quantifier": "every voucher chain, key material, nonces and service info", "why_tests_cant": "all parameters of a composed protocol", "anchors": ["owner-onboarding-server/src/handlers.rs", "client-linuxapp/src/main.rs: perform_to2", "http-wrapper/src/server.rs", "http-wrapper/src/client.rs"]}
{"id": "C60", "title": "User database lookups are total", "statement": "Looking up a user in the system's user database returns the record of the first line with that name, reports absence otherwise, and never aborts on malformed lines.", "quantifier": "every file content and user name", "why_tests_cant": "all contents", "anchors": ["util/src/passwd_shadow.rs"]}
{"id": "C61", "title": "Device credential lookup follows its documented precedence and deactivation policy", "statement": "The credential is taken from the first existing location in order (firmware, environment, /etc); finishing onboarding deactivates or deletes the credential only according to the location's policy, and a deactivated credential differs from the original only in the active flag.", "quantifier": "every environment and file system state", "why_tests_cant": "all combinations", "anchors": ["util/src/device_credential_locations.rs"]}
{"id": "C62", "title": "Voucher extension tool never loses a voucher", "statement": "If the owner tool stops at any point while extending a voucher file, the file holds either the complete old or the complete extended voucher.", "quantifier": "every crash point", "why_tests_cant": "crash points between file operations", "anchors": ["owner-tool/src/main.rs: extend_voucher"]}
{"id": "C63", "title": "A registered device key belongs to the voucher's device", "statement": "The rendezvous server stores, for a voucher's GUID, the device key of the certificate chain that the voucher's header commits to by hash; a voucher whose certificate chain does not match that hash is refused.", "quantifier": "every registration request", "why_tests_cant": "quantifies over all vouchers and chains, including ones made by a malicious owner", "anchors": ["rendezvous-server/src/handlers_to0.rs: ownersign", "data-formats/src/ownershipvoucher.rs:232,525"]}
{"id": "C64", "title": "The manufacturing server is authenticated before a device key is provided", "statement": "In unauthenticated device initialisation (DIUN) the device sends its public key only after the server proved possession of a key verified by the configured means (digest of the key, trusted certificates, or explicitly insecure), in a signature over the device's fresh nonce and the key exchange value, and then only encrypted under keys derived from that exchange.", "quantifier": "every server and network behaviour", "why_tests_cant": "adversarial servers", "anchors": ["manufacturing-client/src/main.rs: perform_diun"]}
{"id": "C65", "title": "Interrupting deactivation does not destroy the device credential", "statement": "If the device stops while deactivating its credential, the credential file holds the complete active or the complete deactivated credential.", "quantifier": "every crash point and failing file operation", "why_tests_cant": "crash points between file operations", "anchors": ["util/src/device_credential_locations.rs: deactivate"]}
{"id": "C66", "title": "Voucher files are read equally in PEM and raw form", "statement": "A voucher written in PEM form and in raw form is read back to the same voucher by the reader that accepts both, and reading never aborts the process.", "quantifier": "every voucher and every file content", "why_tests_cant": "all contents", "anchors": ["data-formats/src/ownershipvoucher.rs: from_pem_or_raw, to_pem"]}
{"id": "C67", "title": "Initialising a device yields a matching credential and voucher and overwrites nothing", "statement": "After the owner tool initialised a device the two files hold a voucher and a credential with the same GUID; the credential accepts the voucher's HMAC over its header and carries the digest of the voucher's manufacturer key. Existing files are never overwritten and no other file is touched.", "quantifier": "every input, file system and crash point", "why_tests_cant": "crash points, all inputs", "anchors": ["owner-tool/src/main.rs: initialize_device"]}
{"id": "C68", "title": "A service info server without a token serves owner servers without credentials", "statement": "If no service info token is configured on the service info server, then an owner server without a token gets the service info of its devices.", "quantifier": "every server configuration, query and device", "why_tests_cant": "composition of two programs over all configurations", "anchors": ["serviceinfo-api-server/src/main.rs: serviceinfo_auth_handler, main", "http-wrapper/src/client.rs: JsonClient::send_get"]}
{"id": "C69", "title": "Device-specific service info stored through the admin interface reaches the device", "statement": "What an administrator stored for a device through the admin interface becomes part of the service info of this device.", "quantifier": "every stored entry, query and history of requests", "why_tests_cant": "all histories of requests", "anchors": ["serviceinfo-api-server/src/main.rs: admin_v0_handler, serviceinfo_handler", "util/src/servers/mod.rs: settings_per_device"]}
{"id": "C70", "title": "Configured users are created as configured, and no others", "statement": "When a device has processed its instructions, the user configured for it exists with the configured password; no other user is created and no other password is encrypted, whatever fails in between.", "quantifier": "every settings, every device state and every outcome of the programs run", "why_tests_cant": "involves all failures of openssl and useradd and all states of the user database", "anchors": ["client-linuxapp/src/serviceinfo.rs: create_user, create_user_with_password, process_serviceinfo_in", "owner-onboarding-server/src/handlers.rs: perform_service_info", "serviceinfo-api-server/src/main.rs: serviceinfo_handler"]}
{"id": "C71", "title": "A manufactured device is left alone", "statement": "If a device already has an active credential, the manufacturing client sends nothing and changes no file.", "quantifier": "every command line, environment and network behaviour, and every point at which the client may be cut off", "why_tests_cant": "all interleavings and surroundings", "anchors": ["manufacturing-client/src/main.rs: main", "util/src/device_credential_locations.rs"]}
{"id": "C72", "title": "The credential is on file before the server can make a voucher", "statement": "Wherever the manufacturing client is cut off, it has changed no file other than the credential's, and has written an active credential or a part of one there; the voucher's HMAC is sent only after the whole credential was written.", "quantifier": "every crash point, every failure of a file operation, every server and network behaviour", "why_tests_cant": "crash points between file writes and network messages", "anchors": ["manufacturing-client/src/main.rs: perform_di, save_to_credential"]}
{"id": "C73", "title": "An honest owner's registration is accepted and the device finds it", "statement": "If an owner with a valid voucher reports it to a rendezvous server which trusts the manufacturer and the device's certificates, and nothing fails or gets lost, the server accepts the registration for the smaller of the requested and the maximal lifetime, and until then the voucher's device asking that server gets the blob which the owner signed; a server which refuses does not keep the owner from registering with the next one.", "quantifier": "every voucher accepted by both sides, every interleaving with other requests which do not name the device, every nonce, every configuration", "why_tests_cant": "two clients and a server with state; all vouchers, histories and sizes of messages", "anchors": ["owner-onboarding-server/src/main.rs: report_ov_to_rendezvous, report_to_rendezvous", "rendezvous-server/src/handlers_to0.rs: hello, ownersign", "rendezvous-server/src/handlers_to1.rs: hello_rv, prove_to_rv", "client-linuxapp/src/main.rs: get_to1d, perform_to1"]}
{"id": "C74", "title": "Binding a disk anew never locks the device out", "statement": "While a device replaces the Clevis binding of its disk, the disk can at every moment be opened without help, whatever fails and wherever the client is cut off; no other keyslot or token is touched; after success the requested policy is the only one, the old token and its keyslot are gone; and an attempt that failed can be repeated.", "quantifier": "every crash point, every failure of the library and of the commands, every set of tokens and keyslots on the disk", "why_tests_cant": "crash points, partial failures of external commands, all layouts of LUKS2 headers", "anchors": ["client-linuxapp/src/reencrypt/rebind.rs: rebind_clevis, get_clevis_token, get_clevis_keyslot, get_clevis_token_slot_pass, clevis_bind, delete_clevis_token_and_slot"]}
{"id": "C75", "title": "An onboarded device contacts nobody and goes on with pending re-encryptions", "statement": "Started on a device which is marked as onboarded, has no credential or a deactivated one, the client sends nothing over the network. On a marked device it goes on with the pending re-encryption of every LUKS2 device, with the passphrase unsealed from that device's binding; a failure at one device is reported and does not keep the others from it.", "quantifier": "every list of devices, every answer of library and commands", "why_tests_cant": "all combinations of devices, states and failures", "anchors": ["client-linuxapp/src/main.rs: main", "client-linuxapp/src/reencrypt/mod.rs: perform_required_reencrypts, perform_reencrypt, initiate_reencrypt"]}
{"id": "C76", "title": "Vouchers are moved from manufacturer to owner completely or with an error", "statement": "Exporting writes exactly the voucher(s) the manufacturer's server replied with, or fails and leaves what was exported before. Importing puts every voucher of every file listed into the owner's database, where it is found under its GUID and due for registration, or names the file; existing rows are never changed, whatever fails and wherever the tool is stopped; failures show in the exit status, and one bad file does not keep the others from being imported.", "quantifier": "every directory, every contents of files, every reply, every failure of files, network and database, every crash point", "why_tests_cant": "all contents of files, all combinations of failures, crash points", "anchors": ["owner-tool/src/main.rs: export_manufacturer_vouchers, import_ownership_vouchers", "db/src/sqlite.rs: insert_ov", "data-formats/src/ownershipvoucher.rs: from_pem_or_raw"]}
{"id": "C77", "title": "Configured rendezvous information is what devices and owners read", "statement": "Rendezvous information from a configuration file is accepted exactly if each entry has a known name (in any letter case) and a fitting value. Whatever is accepted can be interpreted by devices and owners, and they read exactly what was configured: the directives for their side, in the configured order, with the configured addresses, DNS name, port (or else the protocol's default), protocol, delay and network settings, and nothing else. The owner's tool and the manufacturing server read the same file in the same way; bad values are refused with an error.", "quantifier": "every configuration, both sides", "why_tests_cant": "all combinations, orders and spellings of entries and all values", "anchors": ["manufacturing-server/src/main.rs: load_rendezvous_info", "owner-tool/src/main.rs: load_rendezvous_info, yaml_to_cbor", "util/src/servers/mod.rs: yaml_to_cbor", "data-formats/src/constants/mod.rs: value_from_human_to_machine, from_str", "data-formats/src/enhanced_types.rs: from_rv_directive"]}
{"id": "C78", "title": "A device that was manufactured and sold is onboarded by its last owner", "statement": "If a device is initialised by the manufacturing client and server, its voucher is transferred from owner to owner, the last owner registers it with a rendezvous server trusted with the same manufacturer, and the device's client is then started, then all transfers and the registration succeed, the device finds the owner through the rendezvous information it was given in the factory, its client succeeds, the owner's server records the onboarding, and what the device did on its host is precisely to follow the owner's instructions.", "quantifier": "every configuration, device key, chain of owners, interleaving of other clients at all three servers, and every instruction list", "why_tests_cant": "four programs and three servers with their stores over the whole life of a device; every chain of owners and every interleaving", "anchors": ["manufacturing-client/src/main.rs: main", "manufacturing-server/src/handlers", "data-formats/src/ownershipvoucher.rs: extend", "owner-onboarding-server/src/main.rs: report_to_rendezvous", "rendezvous-server/src/handlers_to0.rs", "rendezvous-server/src/handlers_to1.rs", "client-linuxapp/src/main.rs: main, get_to1d, perform_to2", "owner-onboarding-server/src/handlers.rs"]}
{"id": "C79", "title": "Lost messages only delay onboarding", "statement": "If on the way of a manufactured and sold device to its owner messages or answers get lost, at any point of any conversation, or servers cannot be reached, the device tries the next address, the next directive and the next round; as soon as it has had more rounds than losses it is onboarded: its client succeeds, the owner's server has recorded the onboarding, and in the conversation that succeeded the device followed precisely the owner's instructions.", "quantifier": "every number and position of losses, all lists of directives and addresses, every interleaving of other clients at the servers, every instruction list", "why_tests_cant": "every position at which a message can be lost, in every combination over arbitrarily many rounds", "anchors": ["client-linuxapp/src/main.rs: main, get_to1d, perform_to1, perform_to2", "http-wrapper/src/client.rs: send", "rendezvous-server/src/handlers_to1.rs", "owner-onboarding-server/src/handlers.rs"]}
{"id": "C80", "title": "The URLs made for servers name exactly these servers", "statement": "The URLs at which devices and owners look for rendezvous servers, and devices for their owner, are one for the DNS name and one for each IP address of the directive (or redirect), with its scheme and port; each is a URL in the sense of RFC 3986 and names that host and no other, for IPv4 and IPv6 addresses alike.", "quantifier": "every directive, every list of addresses of a redirect", "why_tests_cant": "all names, addresses and ports; that a URL has one reading only", "anchors": ["data-formats/src/enhanced_types.rs: get_urls", "client-linuxapp/src/main.rs: get_to2_urls, get_client_list", "data-formats/src/types.rs: Display for IPAddress"]}
{"id": "C81", "title": "The servers of an all-in-one set-up fit together", "statement": "If a directory counts as configured by the all-in-one set-up, it holds settings for all four servers which fit together: rendezvous server and owner trust the certificates of the manufacturer and of the device authority whose keys the manufacturing server has, vouchers are passed to the key which the owner onboarding server has, that server has the token and address of the service info API, no store is used by two servers unless this was wanted, and devices and owners find the rendezvous server and the owner under the wanted addresses and ports. This also holds if generation was cut off at any point. A directory that is not empty or was configured before is not changed. Each server is started with its own settings. Options that are accepted are put into effect, and generation only succeeds if the servers can start and be found.", "quantifier": "every directory, all options, every answer of the file system, of key generation and of the network interfaces, every point where generation is cut off", "why_tests_cant": "a relation between four generated files, eight keys and certificates and the parsers of three other programs, over all options and all interruptions", "anchors": ["admin-tool/src/aio/configure.rs: generate_configs_and_keys, generate_configs, generate_rendezvous_info, generate_owner_addresses, is_valid_address, get_bind", "admin-tool/src/main.rs: generate_key_and_cert", "admin-tool/src/aio/execute.rs: start_binary, configuration_env_name, configuration_file_name"]}
{"id": "C82", "title": "The configuration file an administrator names counts", "statement": "Each setting of a server has the value that the last of the files saying something about it gives, in the order: files of the configuration directory by name, the file named in the environment (or the one in /etc/fdo); what a later file does not mention stays as earlier files have it. The file named by the administrator is not overridden, and a server does not start if it cannot be found.", "quantifier": "every set of files with any (nested) settings, every environment, every setting", "why_tests_cant": "deep merging of arbitrary nested maps; all combinations of present and missing files", "anchors": ["util/src/servers/mod.rs: settings_for, format_conf_env, format_conf_dir_env, component_env_prefix", "config crate 0.13.4: Source::collect_to, path set"]}
{"id": "C83", "title": "Messages are read as they were sent", "statement": "What one program writes, the other reads as the same value: every CBOR item, all parts of ownership vouchers, and all messages of manufacturing, registration, rendezvous and onboarding, including error messages. Nothing is ever read as something else.", "quantifier": "every item, voucher part and message of any content up to the sizes that occur; header maps in any order", "why_tests_cant": "values are arbitrary (nested, of any size), and the two directions are done by different libraries; the repository's test has one error message with a small UUID", "anchors": ["data-formats/src/serializable.rs", "data-formats/src/types.rs", "data-formats/src/publickey.rs", "data-formats/src/ownershipvoucher.rs: ExtraType, OwnershipVoucherEntryPayload", "data-formats/src/messages/v11/*.rs", "data-formats/src/constants/mod.rs", "client-linuxapp/src/main.rs:78-91", "http-wrapper/src/server.rs:100-113"]}
{"id": "C84", "title": "The all-in-one set-up runs its servers as a whole", "statement": "When the all-in-one tool runs a set-up, all programs are found in one directory before anything is started, each server is started at most once at a time with its own settings and in its own working directory, the set-up counts as ready only if all four servers run and answer on their ports, waiting for this ends after a bounded time, and when the tool ends no server is left running. Success is reported only if the set-up was ready and no server has failed.", "quantifier": "every directory and option, every answer of the file system, every behaviour of the started servers and of the network, every order of interrupts and ends of servers, every point at which the tool is stopped", "why_tests_cant": "a safety property over all interleavings of four processes, timeouts and interrupts, including those where the tool itself is cut off", "anchors": ["admin-tool/src/aio/mod.rs: run_aio_subcommand, find_binary_path, is_valid_binary_path", "admin-tool/src/aio/execute.rs: execute_aio, start_binary, wait_until_ready, wait_until_done"]}
{"id": "C85", "title": "Devices of the all-in-one set-up are manufactured and onboarded as asked", "statement": "When the all-in-one tool manufactures a device, the manufacturing client asks the manufacturing server of the set-up, which must prove that it has a key certified by the set-up, tells it the wanted device information, and writes the credential to the wanted file and to no other; success means that an active credential is there. When the tool runs a device, this is the one whose credential is at the wanted place, and success means that it was onboarded. Both are reported as successes only if the programs that were run succeeded.", "quantifier": "every directory, location, device information and environment of the tool, every file on the machine, every behaviour of the network and of the servers, every point at which a program is cut off", "why_tests_cant": "composes three programs through environment variables and files, for all environments and all behaviours of servers", "anchors": ["admin-tool/src/aio/device.rs: manufacture_device, run_device, print_device_credential, run_device_subcommand", "manufacturing-client/src/main.rs: main, get_mfg_info, save_to_credential", "client-linuxapp/src/main.rs: main", "util/src/device_credential_locations.rs: find"]}
{"id": "C86", "title": "Device credentials are read as they were written", "statement": "A device credential written by the manufacturing client or the owner tool is read by the client, and by the all-in-one tool, as the same credential: same flag, version, device information, GUID, rendezvous information, hash of the manufacturer's key and secrets, for keys in the file and in a TPM. Whatever file is accepted as a credential has a known version, a GUID of 16 bytes and known rendezvous variables, and survives being written again. Deactivation changes exactly one byte of the file as it is written by these programs, the active flag.", "quantifier": "every credential with a known version, 16 byte GUID and known rendezvous variables, every key material and text, every file of bytes that is read", "why_tests_cant": "round trips over unbounded texts, secrets, nested rendezvous directives and arbitrary input bytes in non-canonical forms; tests only see a few credentials", "anchors": ["data-formats/src/devicecredential/file.rs: FileDeviceCredential, KeyStorage", "data-formats/src/serializable.rs", "util/src/device_credential_locations.rs: read, deactivate", "data-formats/src/types.rs: Guid, RendezvousInfo"]}
{"id": "C87", "title": "Public keys keep their meaning", "statement": "Whichever way a program comes by a public key - reading it, or making it of a certificate or a certificate chain - the key it verifies with and the chain it shows are those of the data it stores and sends. Written, it is read as the same key by the next program; keys that are written alike are the same key. A key made of a certificate or of a chain is the key of that certificate or of the first certificate of the chain, and its declared type is that of the key; certificates with other keys are refused, as are empty chains and encodings without a parser. A public key that is read has the type it declares.", "quantifier": "every public key, certificate and chain, every sequence of bytes read as a public key, whatever OpenSSL accepts", "why_tests_cant": "round trips and agreement of stored, written and parsed parts over all keys, certificates, chain lengths and input bytes; tests use a few fixed keys", "anchors": ["data-formats/src/publickey.rs: PublicKey::new, parse_data, key_type_from_pkey, TryFrom<X5Chain>, TryFrom<X509>, X5Chain"]}
{"id": "C88", "title": "Requests served at the same time keep the promises", "statement": "Servers serve many requests at the same time: between reading the session, each operation of the handler on the stores, and storing the session, any other request may be served, and a request may be dropped anywhere. What the servers promise holds all the same: messages that must be encrypted are, under the keys of their session; a session is changed only by requests that carry its token; the exchanges of a session follow the protocol; a session that is finished serves nothing more; redirects are only sent to the registered device, with what an authentic registration stored, and for no longer than that registration was granted; service info and confirmations only go to the device of the voucher; vouchers are only marked as done by their device; new vouchers are issued to admitted devices, with what was sent in their session, and stay. A request that is served without interruption has the same effect as if the server served one request at a time.", "quantifier": "every interleaving of every number of requests, operations on stores, expiries, dropped requests and internal tasks", "why_tests_cant": "interleavings are unbounded in number and not under the control of a test", "anchors": ["http-wrapper/src/server.rs: fdo_request_filter, ses_from_headers, parse_request, handler, store_session, encrypt_and_generate_response", "rendezvous-server/src/handlers_to0.rs: ownersign", "rendezvous-server/src/handlers_to1.rs: prove_to_rv", "owner-onboarding-server/src/handlers.rs", "manufacturing-server/src/handlers/di.rs, diun.rs"]}
{"id": "C89", "title": "An owner reports only trusted devices, only to the voucher's rendezvous servers, and only what it signs", "statement": "When the owner server reports a voucher, whatever the rendezvous servers answer: it contacts nobody unless the voucher is of the supported version and has a device certificate chain leading to a trusted certificate (if any are configured); it turns to the URLs the voucher's rendezvous information has for the owner, in their order, each once, and to no others; it sends a Hello to each and at most one OwnerSign, as the last request, to the URL that answered with a HelloAck, under the token and with the nonce of that answer, carrying the voucher as it is, the configured lifetime, and a redirect signed by the owner's key over the digest of just that registration; and it takes the voucher as reported only if that was answered by AcceptOwner, for the seconds named there.", "quantifier": "every voucher, configuration, set of codecs and primitives, and every sequence of answers", "why_tests_cant": "the rendezvous servers' answers and the vouchers' contents are unbounded; a test sees chosen servers", "anchors": ["owner-onboarding-server/src/main.rs: report_ov_to_rendezvous", "data-formats/src/types.rs: TO0Data, TO1DataPayload, COSESign::new", "data-formats/src/publickey.rs: X5Chain::verify_from_x5bag, insecure_verify_without_root_verification"]}
{"id": "C90", "title": "Trust that is configured is enforced, or the server does not start", "statement": "If the settings of the rendezvous server name a file of trusted manufacturers or of trusted device certificates, or those of the owner server a file of trusted device certificates, then the server either does not start (the file is missing, unreadable or malformed, the path is empty, relative or not a text) or it trusts exactly the certificates of that file: from then on it holds only registrations, and reports only vouchers, whose manufacturer key or device certificate chain leads to one of them. A file without certificates means that nobody is trusted. A setting that the server does not know, and keys of the owner that do not belong together, prevent the start.", "quantifier": "all merged settings and configuration files, file contents, certificates, and all histories of the started server", "why_tests_cant": "the ways in which settings and files can be wrong are unbounded, and what they lead to shows only in the requests of a whole lifetime", "anchors": ["rendezvous-server/src/main.rs: main", "owner-onboarding-server/src/main.rs: main, load_private_key", "util/src/servers/configuration/mod.rs: AbsolutePathBuf", "util/src/servers/configuration/rendezvous_server.rs", "util/src/servers/configuration/owner_onboarding_server.rs", "data-formats/src/enhanced_types.rs: X5Bag::with_certs"]}
{"id": "C91", "title": "A device that was sold belongs to its last owner alone", "statement": "Of all vouchers for a device that verify, the last owner's is the only one by which somebody can onboard the device or register it with a rendezvous server: neither a former owner who kept the voucher, nor a second buyer, nor anybody else can.", "quantifier": "all devices, vouchers with any number of entries, owners, buyers, and sales in any order", "why_tests_cant": "it is about all pairs of vouchers anybody might produce for a device, and all places where they can part", "anchors": ["data-formats/src/ownershipvoucher.rs: OwnershipVoucher::extend, EntryIter", "client-linuxapp/src/main.rs: perform_to2", "rendezvous-server/src/handlers_to0.rs: ownersign"]}
{"id": "C92", "title": "A device gets the service info for itself and for the modules it announces", "statement": "Whatever module names a device announces, and whatever characters they contain, the owner server's query to the service info server is taken as a query for this very device and for these modules, so that a device can never obtain the instructions or the initial user meant for another device.", "quantifier": "all GUIDs, all lists of announced names of any characters, all configurations of the service info server, all histories of the owner server", "why_tests_cant": "the names come from the device and are put into the query without escaping; tests use the names of the modules that exist", "anchors": ["owner-onboarding-server/src/handlers.rs: perform_service_info", "http-wrapper/src/client.rs: JsonClient::send_get", "serviceinfo-api-server/src/main.rs: serviceinfo_handler"]}
{"id": "C93", "title": "Registrations last as long as the settings say", "statement": "A rendezvous server grants every registration the time the owner asks for, up to max_wait_seconds of its settings (30 days if not set), and does not serve it longer; an owner server asks for ov_registration_period (600 seconds) and renews ov_re_registration_window (61 seconds) before the end. Servers do not start with times with which registrations would lapse before they can be renewed.", "quantifier": "all settings, files, histories of the servers, vouchers, requested times", "why_tests_cant": "it relates the settings of two separate servers to all registrations that are ever made; tests use one set of settings", "anchors": ["rendezvous-server/src/main.rs: main", "owner-onboarding-server/src/main.rs: main", "rendezvous-server/src/handlers_to0.rs: ownersign"]}
{"id": "C94", "title": "A client whose request is refused is told so and why, and nothing else", "statement": "Whenever a server refuses a request, for whatever reason, the client gets an error message that it recognizes as failure and can read, with a code, a text, and the type of the message that was refused; its own keys and token stay as they were. What it is told does not depend on sessions, keys, stores, or the contents of the request other than by which of a fixed list of reasons applies.", "quantifier": "all servers built with the request filter, their states, all requests, all clients waiting for any message", "why_tests_cant": "there are some eighty places that refuse; tests reach few of them, and that nothing else is told is about all states", "anchors": ["http-wrapper/src/server.rs: handle_rejection, parse_request, store_session, encrypt_and_generate_response, fdo_request_filter", "http-wrapper/src/client.rs: ServiceClient::send_request", "owner-onboarding-server/src/handlers.rs", "rendezvous-server/src/handlers_to0.rs", "rendezvous-server/src/handlers_to1.rs", "manufacturing-server/src/handlers/di.rs"]}
{"id": "C95", "title": "The reason given for a refusal is the true one", "statement": "When a server refuses a request, the reason it gives is true: a client told that its message was out of order, not encrypted, could not be decrypted or parsed, or that its manufacturer, voucher, redirect blob, device certificate, nonce or token is not valid, or that the device is not known, can rely on just that being so; it is told of an internal error only if the fault is the server's; and a registration refused for a reason stores nothing.", "quantifier": "all servers built with the request filter, all their states and requests; for handlers, all requests to rendezvous, owner and manufacturing servers, with any configuration and store", "why_tests_cant": "that a reason is true is about all requests that get it; tests send one request per reason, if any", "anchors": ["http-wrapper/src/server.rs: parse_request, store_session, encrypt_and_generate_response, fdo_request_filter", "rendezvous-server/src/handlers_to0.rs: hello, ownersign", "rendezvous-server/src/handlers_to1.rs: hello_rv, prove_to_rv", "owner-onboarding-server/src/handlers.rs: hello_device, get_ov_next_entry, prove_device, device_service_info_ready, device_service_info, done", "manufacturing-server/src/handlers/di.rs: app_start, set_hmac", "manufacturing-server/src/handlers/diun.rs: connect, request_key_parameters, provide_key"]}
{"id": "C96", "title": "A manufacturing server works as its settings say, or does not start", "statement": "A manufacturing server that starts uses exactly the keys, certificates, rendezvous protocols and stores its settings name: plain device initialisation is enabled only if the settings say so, key exchange only with the configuration they describe, vouchers are extended to the owner whose certificate they name; with neither protocol enabled no voucher is ever issued; settings documented as optional may be left out; what is restricted by settings is enforced; and a server that starts is able to issue vouchers.", "quantifier": "all configuration files, all worlds of files and readers, all histories of requests to the server that was started, with any sound store", "why_tests_cant": "tests start servers with a handful of complete configuration files; that no history of requests gets a voucher by a protocol that is not enabled is about all histories", "anchors": ["manufacturing-server/src/main.rs: main, DiunConfiguration::try_from", "util/src/servers/configuration/manufacturing_server.rs", "util/src/servers/configuration/mod.rs: AbsolutePathBuf", "manufacturing-server/src/handlers/diun.rs: provide_key", "HOWTO.md: manufacturing-server.yml"]}
{"id": "C97", "title": "A service info server gives what its settings say to whom they say, or does not start", "statement": "A service info server that starts has exactly the users, files, commands, disks, additional service info, reboot and tokens its settings say, with the contents the files had at the start; whatever requests come, something is stored for a device only with the admin token of the settings, and service info is given only with the service info token of the settings if there is one; what reaches a device are the files in the settings. Settings that cannot be meant (unknown names, unreadable files, permissions that are no octal number) keep the server from starting; documented settings work and documented restrictions hold.", "quantifier": "all merged settings, all worlds of files and readers of values, all histories of requests to the server that was started, all devices", "why_tests_cant": "tests start the server with one configuration file; that reading is right for all settings, in both directions, and that no history of requests gets around the configured tokens, is about all settings and histories", "anchors": ["serviceinfo-api-server/src/main.rs: main, ServiceInfoConfiguration::from_settings", "util/src/servers/configuration/serviceinfo_api_server.rs", "data-formats/src/constants/serviceinfo_names.rs", "HOWTO.md: serviceinfo-api-server.yml"]}
{"id": "C98", "title": "Settings for a single device count for it, and for it alone", "statement": "A device for which there is a file with settings in the directory for single devices, named after its GUID, gets the service info in that file; a device without such a file gets the service info in the general settings; the files for other devices never matter; and a file that is there but cannot be used is not overlooked.", "quantifier": "all worlds of configuration files, all directories, all GUIDs, all contents of the files, all histories of requests to the server that was started", "why_tests_cant": "there is one integration test with one device and one file; that no file for another device is ever taken, for all GUIDs and directories, and what becomes of unusable files, is about all worlds of files", "anchors": ["util/src/servers/mod.rs: settings_per_device", "serviceinfo-api-server/src/main.rs: serviceinfo_handler", "store/src/lib.rs: StoreConfig", "HOWTO.md: How to use the per-device serviceinfo feature"]}
{"id": "C99", "title": "An owner server gets at the service info server its settings name, with the credentials in them", "statement": "An owner server sends every request for service info to the URL in its settings, shows the credentials in its settings and no others, and gets a reply exactly if these are the ones the settings of the service info server ask for; in particular, if both settings are without authentication, it gets one.", "quantifier": "all settings of both servers, all URLs, tokens and certificates, all histories of requests to the service info server, all queries", "why_tests_cant": "the integration tests use one token in one pair of settings; that other tokens are always refused, and which kinds of credentials can never work with any settings of the other server, is about all settings and histories", "anchors": ["http-wrapper/src/client.rs: JsonClient::new, JsonClient::send_get, JsonAuthentication", "util/src/servers/configuration/owner_onboarding_server.rs", "owner-onboarding-server/src/main.rs: main", "serviceinfo-api-server/src/main.rs: serviceinfo_auth_handler, main", "HOWTO.md: service_info_api_authentication"]}
{"id": "C100", "title": "Devices are sent to the addresses in the settings of the owner server", "statement": "If an owner server starts, its addresses are exactly those in its settings, in their order; with one that is none it does not start; a device that is told them tries onboarding at each of them, in this order and nowhere else; and a server that starts has at least one address that devices try.", "quantifier": "all settings, all lists of connections and addresses, all readers of numbers and IP addresses", "why_tests_cant": "configuration tests read one example; order, completeness and what becomes of each kind of transport and of addresses with both an IP address and a name are about all lists", "anchors": ["data-formats/src/types.rs: RemoteTransport, RemoteAddress, RemoteConnection", "owner-onboarding-server/src/main.rs: main", "util/src/servers/configuration/owner_onboarding_server.rs", "client-linuxapp/src/main.rs: get_to2_urls", "HOWTO.md: owner_addresses"]}
{"id": "C101", "title": "Vouchers are reported to rendezvous servers only if the settings enable it", "statement": "If the settings of an owner server say that reporting to rendezvous servers is not enabled, it reports no voucher, whatever is requested and however long it runs; if they say it is, a request to report goes through exactly the vouchers that are due; other requests report nothing.", "quantifier": "all settings, all histories of requests and rounds of maintenance, all stores and their contents, all answers of rendezvous servers", "why_tests_cant": "tests use one setting and a single request; that nothing is reported under any history is about all executions, including the timer of maintenance", "anchors": ["owner-onboarding-server/src/main.rs: main, perform_maintenance, report_to_rendezvous", "owner-onboarding-server/src/handlers.rs: report_to_rendezvous_handler", "util/src/servers/configuration/owner_onboarding_server.rs", "HOWTO.md: report_to_rendezvous_endpoint_enabled"]}
{"id": "C102", "title": "Servers keep what they store where their settings say, or do not start", "statement": "A server that starts has exactly the stores its settings name: for a directory, the directory of this absolute path, which is there; for a database, the one under this URL, with the tables for this type of server. With a relative path it does not start. An owner server that starts finds the vouchers it is to report.", "quantifier": "all settings, all file systems and databases, all readers of names", "why_tests_cant": "tests run with a few fixed configurations; which settings give which store is about all of them, and a store of the wrong type is only noticed much later", "anchors": ["store/src/lib.rs: StoreConfig, StoreConfig::initialize", "store/src/directory.rs: initialize", "store/src/sqlite.rs: initialize, query_data, query_ovs_db", "store/src/pg.rs: initialize, query_data, query_ovs_db", "owner-onboarding-server/src/main.rs: main, report_to_rendezvous", "HOWTO.md: ownership_voucher_store_driver, storage_driver"]}
