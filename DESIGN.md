# Formal model of fido-device-onboard-rs: design

The code under `/repo` (Rust) is read as text and modelled by hand as total
Lean 4 functions. Nothing is compiled or executed from `/repo`; the only tie
between model and code is the reading, so every model definition carries a
comment citing file and lines and naming each simplification.

## Layout

- `lean/Verif/Model/*`  model of the code, function by function
- `lean/Verif/Spec/*`   small independent specifications (grammar, abstract maps, predicates)
- `lean/Verif/Lemmas/*` helper lemmas
- `lean/Verif/Props/*`  the property theorems, one file per area, named `Cnn_*`,
  each with an `example` showing a concrete non-trivial case that meets its hypotheses
- `properties.jsonl`, `MANIFEST.json`, `seeded/LOG.jsonl`

Naming: `Cnn_…` is the full property, `Cnn_…_partial` a proved part of a
property which does not hold (or is not proved) in full, `Cnn_…_violated` a
proof that the unrestricted property is false of the code, with a concrete witness.

## Modelling conventions

- Rust panics (index out of range, `unwrap`, slice errors, `memcmp` on different
  lengths, overflow in debug builds) are an explicit outcome `Res.panic`, distinct from `Res.err`.
- `&mut` arguments become returned values; loops become structural recursion or
  recursion on a measure; integers are `Nat` with explicit ranges/truncation where the code casts.
- Bytes are `UInt8` (or `Nat` below 256 where noted), strings are `List Char` or `String`.
- External calls (cryptography, X.509 path primitives, random numbers, clock,
  file system, network, serde CBOR for leaf types) are parameters of the model.
  What is assumed about them is a hypothesis in the theorem that needs it, never an axiom.

## Trusted base

- Lean's kernel and the axioms `propext`, `Classical.choice`, `Quot.sound` (at most; checked by `#print axioms`).
- The faithfulness of the hand translation, as cited per definition.
- Not modelled: TLS/HTTP transport, tokio scheduling (each request is one atomic step,
  except for C88, where each operation on a store is), OpenSSL/TPM internals, serde derive code (its effect is modelled in `Model/Wire`),
  YAML parsing, memory safety, logging, the contents of error messages (except as in `Model/Errors`, C94).

## What is modelled

| Model file | Code | Left out |
|---|---|---|
| `Model/Cbor` | `data-formats/src/cborparser.rs` (array reader and writer) | nothing of the array path; maps and other readers unused by vouchers |
| `Model/Crypto` | `data-formats/src/types.rs` (Hash), interfaces of keys and COSE | OpenSSL, COSE library, serde of leaves: fields of `Env` |
| `Model/Voucher` | `data-formats/src/ownershipvoucher.rs` (new, from_parts, read, write, extend, entry iterator) | PEM framing |
| `Model/Types` | `data-formats/src/types.rs`, `enhanced_types.rs` (GUID, UEID, nonce, key exchange, KDF, service info) | ASYM and FIDO key exchange variants that the code does not implement |
| `Model/Rendezvous` | `data-formats/src/publickey.rs`, rendezvous directive interpretation | X.509 primitives: fields of `Certs` |
| `Model/Messages` | `data-formats/src/messages/v11/*.rs` (types, predecessors, encryption requirements), `constants` | message bodies, except where a handler needs them |
| `Model/Http` | `http-wrapper/src/server.rs`, `client.rs`, `lib.rs` | TCP/TLS, warp; each request is one step |
| `Model/Store` | `store/src/directory.rs`, `store/src/db/*`, `db/src/*` | diesel/SQL engine: a table is a list of rows |
| `Model/RvServer` | `rendezvous-server/src` | HTTP framing (in `Model/Http`), response encoding (any function) |
| `Model/ServiceInfo` | service info values, API reply and `perform_service_info` in `owner-onboarding-server/src/handlers.rs`, reply types in `util/src/servers/mod.rs` | CBOR and JSON codecs of values (parameters), order of the module names (a hash set in the code), the HTTP request to the API (a function of its query string) |
| `Model/OwnerServer` | `owner-onboarding-server/src`: TO2 handlers, reporting to rendezvous servers, maintenance, startup checks of the times | HTTP framing (in `Model/Http`), key files, the HTTP exchange with rendezvous servers (any answer), message encodings (parameters) |
| `Model/MfgServer` | `manufacturing-server/src`: DIUN and DI handlers, startup checks, voucher issue and extension to the owner, `/ov` and `/export` handlers, maintenance | X.509 certificate building, key files, the device key store's files (parameters); the device-specific store, which the code never reads |
| `Model/Prog`, `Lemmas/Hoare` | how programs with effects are modelled: a tree of effects and continuations; the world answers anything; a crash is a prefix of the trace | concurrency (see `Model/Concurrent` for servers); each effect is atomic |
| `Model/Fs` | the file operations used by the tools and the client | directories, permissions, links; being cut off inside a write leaves a prefix of it |
| `Model/Text` | `util/src/passwd_shadow.rs` | UTF-8 decoding of the files (a file is a list of characters) |
| `Model/Credential` | `data-formats/src/devicecredential/file.rs`, `util/src/device_credential_locations.rs` | HMAC, TPM, CBOR codec of the credential (parameters; the codec is modelled in `Model/Wire`) |
| `Model/OwnerTool` | `owner-tool/src/main.rs`: extending a voucher file, initialising a device; PEM framing of vouchers | argument parsing, certificate building, PEM encoding (a parameter with two laws), dumping |
| `Model/CApi` | `libfdo-data/src/lib.rs`, `libfdo-data/src/ownershipvoucher.rs`; `DeserializableMany for OwnershipVoucher` | allocation and pointer arithmetic (pointers are names), the texts of errors (a parameter), threads |
| `Model/SiClient` | `client-linuxapp/src/serviceinfo.rs` | what the host does (effects with arbitrary outcomes: files, programs, libcryptsetup and clevis), logging, error texts; `Path::parent` follows the spelling of `.` and repeated slashes only roughly |
| `Model/SiApi` | `serviceinfo-api-server/src/main.rs`, its settings, `settings_per_device`, `JsonClient::send_get` | reading YAML settings, JSON, transport, escaping in queries (parameter), order of the hash map of additional service info (any), logging |
| `Model/NetClient` | `http-wrapper/src/client.rs` as part of a larger program: each request is an effect with an arbitrary reply | as for `Model/Http` |
| `Model/MfgClient` | `manufacturing-client/src/main.rs` | OpenSSL, TPM, CBOR codecs, PEM (parameters or effects with arbitrary outcomes), parsing of the command line and of `/proc/net/route`, logging |
| `Model/Device` | `client-linuxapp/src/main.rs` (TO1, TO2, main loop), with `Model/SiClient` for service info and `Model/Credential` for the credential | OpenSSL, TPM, message codecs (parameters or effects with arbitrary outcomes), re-encryption of disks, the text of URLs (parameter for addresses), logging; the main loop is cut off after an arbitrary number of rounds |
| `Spec/Talk` | a client and a server of the models together: messages may get lost, those that arrive are unchanged, anything else may happen to the server in between except in the client's own session | forged and repeated messages (theorems about clients alone allow any reply, those about servers alone any request) |
| `Spec/Onboard` | when device and owner are honest and made for each other, and what completing TO2 means | loss of messages (every message is delivered) |
| `Model/To0` | `owner-onboarding-server/src/main.rs`: `report_ov_to_rendezvous` as a client of the rendezvous server | the texts of errors; the loop over vouchers is in `Model/OwnerServer` |
| `Spec/To0` | when an owner can register a voucher with a rendezvous server, and the device find it | loss of messages (every message is delivered) |
| `Model/Disk` | `client-linuxapp/src/reencrypt`: replacing the Clevis binding of a LUKS2 device, starting and going on with its re-encryption | which of starting, feeding and ending a command has failed; the parameters of the re-encryption status query |
| `Model/Import` | `owner-tool/src/main.rs:638-776`: exporting vouchers from a manufacturer's server, importing vouchers into the owner's database | the text of messages; the copy of an archive is one write; `Response::text` is a parameter |
| `Model/Config` | `manufacturing-server/src/main.rs:124-146`, `owner-tool/src/main.rs:171-239`, `util/src/servers/mod.rs:123-152`, `data-formats/src/constants/mod.rs:230-338`, `types.rs:428-448`: rendezvous information from configuration files | parsing YAML; `IpAddr::from_str`, CBOR encoding of values are parameters |
| `Model/Settings` | `util/src/servers/mod.rs:37-62,107-117`: which configuration files count, with the merge of the `config` crate 0.13.4 | parsing YAML, `glob`; deserialising into structures |
| `Model/Aio` | `admin-tool/src/aio/configure.rs`, `admin-tool/src/main.rs:18-96`, `aio/execute.rs:72-82,183-201`: settings, keys and directories of the all-in-one set-up; the variables its servers are started with | contents of certificates; YAML of the files; paths are UTF-8 |
| `Model/Wire` | CBOR as written by ciborium and read by serde_cbor; serde of the types and messages in `data-formats/src/{types,publickey,ownershipvoucher}.rs`, `constants/mod.rs`, `devicecredential/file.rs`, `messages/v11/*.rs` | source of the two libraries and derive macros (their documented behaviour is modelled); readers accept only what writers write; key and certificate encodings are parameters (`Forms`) |
| `Model/AioRun` | `admin-tool/src/aio/mod.rs`, `aio/execute.rs`, `aio/device.rs`: finding programs and configuration, starting, waiting for and stopping servers, commands for devices | log output; what the started programs do (their models are composed with the commands in C85); requests and polling are answered arbitrarily; attempts of waiting are bounded by a parameter, shown to be no restriction; paths are UTF-8 |
| `Model/PublicKey` | `data-formats/src/publickey.rs`: `PublicKey`, `X5Chain` (chain verification is in `Model/Rendezvous`) | OpenSSL (parameters: DER forms of keys and certificates, key of a certificate, kind of a key); `Display`; failures of writing DER |
| `Model/Concurrent` | `http-wrapper/src/server.rs` with requests served at the same time: reading the session, operations of handlers, storing the session; `ownersign` as two operations on the store; internal moves of the owner server one operation at a time | each operation on a store is atomic; storing a session and setting its lifetime are one operation |
| `Model/Startup` | start-up of the rendezvous and owner servers as far as keys, trusted certificates and times go (`main.rs` of both), `AbsolutePathBuf` in `util/src/servers/configuration/mod.rs`, serde of optional and required settings | other settings, stores, addresses and the API client (one condition); scalars of the `config` crate, PEM and DER (parameters) |
| `Model/Url` | http-wrapper/src/client.rs `JsonClient::send_get` 96-138 (the query), with `Url::set_query` of the `url` crate and the decoding of `form_urlencoded` as the URL standard defines them; serviceinfo-api-server/src/main.rs 394-423 | the rest of the URL; lossy decoding of invalid UTF-8 (parameter) |
| `Model/Errors` | http-wrapper/src/server.rs `Error` 100-131, `handle_rejection` 135-165, error paths of `parse_request`, `store_session`, `encrypt_and_generate_response`, `fdo_request_filter`; errors of all handlers as a table; `done` of the owner server with its errors | which error a handler chooses, other than `done`; how `warp` combines rejections of several routes (only one route has the path of a message) |
| `Model/ErrorsRv` | error paths of `rendezvous-server/src/handlers_to0.rs` and `handlers_to1.rs`: the checks in the order of the code, with the reason each gives |
| `Model/ErrorsOwner` | error paths of `owner-onboarding-server/src/handlers.rs`: the checks in the order of the code, with the reason each gives |
| `Model/ErrorsMfg` | error paths of `manufacturing-server/src/handlers/{di,diun}.rs` |
| `Model/StartupMfg` | start-up of the manufacturing server (`manufacturing-server/src/main.rs`), `util/src/servers/configuration/manufacturing_server.rs` | stores and addresses (one condition); how the `config` crate reads scalars, arrays and names of variants (parameters); structures given as arrays; rendezvous information (parameter, see `Model/Config`) |
| `Model/StartupSi` | start-up of the service info server (`serviceinfo-api-server/src/main.rs`), `util/src/servers/configuration/serviceinfo_api_server.rs` | store and address (one condition); how the `config` crate reads scalars and arrays (parameters); structures given as arrays; which of several failures is reported |
| `Model/PerDevice` | `settings_per_device` (`util/src/servers/mod.rs`) and its use (`serviceinfo-api-server/src/main.rs`) | settings of databases are taken to be readable; reading addresses is a parameter; a panic in `settings_for` counts as no settings for the device |
| `Model/StartupApi` | `JsonAuthentication`, `JsonClient` (`http-wrapper/src/client.rs`), their settings (`configuration/owner_onboarding_server.rs`) and use (`owner-onboarding-server/src/main.rs`) | URL parsing, PKCS#12 and making the HTTP client are parameters; a header that cannot be read as text is like none (both are refused); proxies, TLS and redirects are not modelled |
| `Model/StartupAddr` | `RemoteTransport`, `RemoteAddress`, `RemoteConnection` (`data-formats/src/types.rs`), `owner_addresses` (`owner-onboarding-server/src/main.rs`) | reading numbers and IP addresses is a parameter; structures written as arrays are not modelled |
| `Model/StartupReport` | `report_to_rendezvous_endpoint_enabled` (`owner_onboarding_server.rs`), the route (`owner-onboarding-server/src/main.rs`), `report_to_rendezvous_handler`, `perform_maintenance` | other routes do nothing here; parts of a round happen one after the other; replies of the endpoint are not modelled |
| `Model/StartupStore` | `StoreConfig`, `ServerType`, `StoreConfig::initialize` (`store/src/lib.rs`), `initialize` in `directory.rs`, `sqlite.rs`, `pg.rs`; availability of `query_data` and `query_ovs_db` | the file system and pools of connections are parameters; structures written as arrays and the manufacturing server's store for public keys are not modelled |
| `Spec/Disk` | what is assumed of LUKS2 headers, libcryptsetup and `clevis` | PBKDFs, digests, segments; tokens of other kinds |
| `Spec/Life`, `Spec/Retry` | the parties in the life of a device: factory, chain of owners, rendezvous server, owner's server, device; conversations with several servers cut out of one run (`Leg`) | servers behind a URL are always the right ones if reached at all |

Histories (`Spec/History`): a server's execution is any list of requests (with any random choices, clock
values and store outcomes), session expiries and internal moves (maintenance), from the empty server.
Theorems about servers quantify over all of them. Concurrency inside one request is not modelled.

## Plan per property

- **C01 CBOR array wrapper round-trips** — Byte-level model of the reader loop (explicit stack) and writer (`Model/Cbor`). Independent grammar `IsItem` of complete CBOR items in `Spec/Cbor`. Round trip proved by induction over the grammar: running the loop over an item started at depth k returns to depth k with the item appended.
- **C02 Successful array parse consumes exactly one well-formed item** — Converse of C01: invariant of the loop (stack of remaining counts + bytes read so far) implies the grammar; induction over the loop.
- **C03 CBOR item header encoding is inverted by the reader** — Direct computation over the five size classes; negation theorem for lengths above 65535 (buffer slice panic).
- **C04 Array reader never aborts the process** — Panic is an explicit result in the model. Negation by a two-byte witness; partial: exact characterisation of the panicking inputs (stream ends inside a length field), and no panic for other inputs.
- **C05 Concatenated vouchers are read back in order** — Model of `deserialize_many_from_reader`; induction over the list using C01/C02.
- **C06 Extending a voucher hands ownership to the named next owner** — Voucher model with abstract hash / signature functions (`Model/Crypto` parameter structure). Completeness of signing is a hypothesis. Induction over extends.
- **C07 Only the current owner can extend a voucher** — Case analysis of `extend`.
- **C08 A verified voucher is tamper evident** — Induction from the last entry backwards; hash injectivity assumed only on the byte strings that occur (hypothesis in the theorem).
- **C09 Verified entries form an unbroken signature chain from the manufacturer** — Invariant of the iterator over its prefix.
- **C10 Entry iteration stops at the first invalid entry** — Iterator as a state machine; latch invariant over any number of polls.
- **C11 A voucher built from parts serializes and reads back** — Serialization model on top of C01. The absent optional field is written as CBOR null which the reader refuses: negation witness, `_partial` for present fields.
- **C12 Device info in a voucher header is printable ASCII** — Decision function over characters; negation (char truncation), `_partial` for characters below 256.
- **C13 Digest comparison is total and exact** — Digest comparison with explicit panic; negation witnesses (length, type), `_partial` for equal lengths.
- **C14 Hash textual and digest constructors enforce the digest length** — Direct.
- **C15 Device GUID and UEID convert back and forth** — Direct; negation for the empty string (index panic).
- **C16 ECDH parameter encoding round-trips and rejects malformed input** — Byte-level codec; round trip, rejection of trailing bytes; negation for truncated input (panic).
- **C17 Both ends derive the same session key** — Key derivation with abstract DH satisfying commutativity (hypothesis) and abstract KDF; KDF input is computed concretely.
- **C18 Rendezvous directives are interpreted per role** — Function-by-function model of directive interpretation; specification as relation on the variable list.
- **C19 Certificate chain acceptance implies a path to a trusted root** — Model of `verify` with abstract issued/signature/trust relations; soundness by induction over the chain.
- **C20 Service info values added are the values iterated** — Model of ServiceInfo list and iterator.
- **C21 Service info module names round-trip** — Finite table of modules plus free strings.
- **C22 Server enforces protocol message order per session** — Transition tables of all messages (finite, transcribed) + server filter step function over a session map with arbitrary handler; invariant over histories.
- **C23 Messages that must be encrypted are never handled or sent in clear** — Same model with explicit encryption state.
- **C24 Sessions are isolated** — Frame theorem for the filter step.
- **C25 Client only accepts the response belonging to its request** — Model of send_request against an arbitrary network function.
- **C26 A finished onboarding session cannot be replayed** — The destroy flag is not consulted: negation witness; `_partial`: after Done no TO2 message is accepted except none (sequence check).
- **C27 Directory store behaves like a map with expiry** — File-system map model; refinement to an abstract map with expiry, induction over operations.
- **C28 Directory store write is crash atomic** — store_data as a list of file-system actions; crash = prefix.
- **C29 Distinct keys never share an entry** — String model of get_path; negation; `_partial` for keys without the escape string / GUID strings.
- **C30 Expired data is never returned and maintenance removes exactly the expired entries** — Same model as C27.
- **C31 Pending-voucher query selects exactly vouchers due for registration** — Filter model for both backends; equality with a specification predicate; negations where they differ.
- **C32 Database store behaves like the directory store** — Table model of the database backends; negations; `_partial` for fresh keys.
- **C33 Rendezvous registrations are authentic** — Rendezvous handlers over sessions + store; ghost log of accepted registrations; invariant over histories.
- **C34 Redirect blobs are released only to the device** — Same.
- **C35 Registration lifetime is bounded by the server's maximum** — Same, plus directory store expiry.
- **C36 Re-registering a device replaces its redirect blob** — Directory backend: proved; database backend: negation.
- **C37 Service info only goes to proven devices** — TO2 server handlers over sessions with ghost log; invariant over histories.
- **C38 Onboarding is recorded only after a proven device finished** — Same.
- **C39 Service info exchange terminates** — Same; loop counter in session, client loop by fuel-free recursion on counter.
- **C40 Voucher entries are served verbatim** — Voucher entry access; negation for out-of-range panic.
- **C41 Owner re-registers vouchers before the registration lapses** — Arithmetic over the window checks and maintenance ticks.
- **C42 Manufacturing server only issues vouchers to admitted devices** — DI/DIUN handlers over sessions with ghost log; invariant.
- **C43 Issued vouchers are consistent** — Same, using C06 for the configured owner.
- **C44 Manufacturing leaves device and server consistent at every crash point** — Client step list; negation with concrete crash point; `_partial`.
- **C45 Startup configuration checks rule out later aborts** — Startup check functions.
- **C46 Device only takes instructions from the voucher's owner** — Client TO2 as a program over an arbitrary server (oracle); effects trace; theorem on every trace.
- **C47 Device onboards vouchers with any number of entries** — Entry fetch loop with u8 cast; negation; `_partial` up to 256.
- **C48 Device and owner agree on the outcome of onboarding** — Effects trace; negation; `_partial`: onboarding markers imply all earlier checks.
- **C49 Only activated modules act** — Model of process_serviceinfo_in as a fold with an effects trace; invariant.
- **C50 Files are deployed complete and verified or not at all** — Same.
- **C51 Command results are reported and failures stop onboarding** — Same; negation for execute without command.
- **C52 Configured initial user and keys arrive on the device unchanged** — Join/split over character lists; negation; `_partial` for keys without ';' and non-empty list.
- **C53 Configured files and commands arrive on the device unchanged** — Composition of three models.
- **C54 A requested reboot is remembered** — Fold over messages.
- **C55 TPM signatures are converted to fixed-size COSE signatures** — Byte-level; big-endian value function.
- **C56 Key storage selection honours the server's order and restrictions** — Model of the loop with usability oracle.
- **C57 Admin and service info endpoints require their tokens** — Direct decision functions.
- **C58 C API reports errors without aborting** — State machine over calls; negation for fdo_get_last_error after success.
- **C59 An honest end-to-end run onboards the device** — Composition of the client model with the server model. The converse (`OnboardLimits`): success of TO2 needs every message answered with success (closed under composition), and the server answers no message above 16 KiB; so the limits are exact, and are shown as violations.
- **C60 User database lookups are total** — Line/field parser over strings; negation for short lines.
- **C61 Device credential lookup follows its documented precedence and deactivation policy** — Direct model of the location search and deactivation.
- **C62 Voucher extension tool never loses a voucher** — Crash-prefix model as in C28.
- **C63 A registered device key belongs to the voucher's device** — Same model as C33: negation, with two chains accepted under one header.
- **C64 The manufacturing server is authenticated before a device key is provided** — Manufacturing client as a program; theorem on every trace.
- **C65 Interrupting deactivation does not destroy the device credential** — Crash-prefix theorem over the file effects; negation.
- **C66 Voucher files are read equally in PEM and raw form** — Voucher codec with a PEM parameter; negation for one byte.
- **C67 Initialising a device yields a matching credential and voucher and overwrites nothing** — Hoare logic with crash invariant over the file effects.
- **C68, C69 Access to and effect of the service info server** — Model of the service info server composed with the owner server's query; histories of admin requests.
- **C70 Configured users are created as configured** — Invariant over the device's user database while instructions are processed, composed with the two servers.
- **C71 A manufactured device is left alone** — Traces of the client's program when the file found is an active credential.
- **C72 The credential is on file before the server can make a voucher** — Every prefix of every trace of the client (`Safe`), with file semantics in which writes may fail half-way.
- **C73 An honest owner's registration is accepted and the device finds it** — Composition of two client models with the server model, with C36 for what lies between; negations for long vouchers and for a refusal.
- **C74 Binding a disk anew never locks the device out** — Hoare logic with crash invariant over a model of LUKS2 headers; negations with witnesses.
- **C75 An onboarded device contacts nobody and goes on with pending re-encryptions** — Traces of the client's program and of the loop over devices; negation for a failure.
- **C76 Vouchers are moved from manufacturer to owner completely or with an error** — Hoare logic with crash invariant over files and the table; every voucher read is read back from its raw form (`Lemmas/ReadBack`); negations with witnesses.
- **C77 Configured rendezvous information is what devices and owners read** — Structural induction over values and directives, composed with C18; negations with witnesses.
- **C78 A device that was manufactured and sold is onboarded by its last owner** — Composition of C44, C73 and C59 over vouchers as issued and transferred (`Spec/Canonical`), with the traces of the device client's main program cut into its conversations (`Lemmas/Life`).
- **C79 Lost messages only delay onboarding** — A lost message makes any client program fail (`LossFails`, closed under composition); induction over addresses, directives and rounds with a count of losses; composition of C73 and C59 for the conversation without losses.
- **C80 The URLs made for servers name exactly these servers** — A URL is split at its last colon (unique reading); `Forall₂` between URLs and hosts; for IPv6 the negation for all addresses, and for all runs of the device client by induction over servers, directives and rounds.
- **C81 The servers of an all-in-one set-up fit together** — Traces of the generating program, including unfinished ones (`generate_does`, `build_record`): the list of files written is computed and no path occurs twice; composition with C77 for what devices and owners read; negations over surroundings in which nothing fails.
- **C82 The configuration file an administrator names counts** — Merging of nested maps by mutual induction (`setAll_at`: what the incoming map says, else what was there); the order of files as a list; negations for all settings of the overriding and the missing file.
- **C83 Messages are read as they were sent** — Induction over items for writing and reading (`dec_exact`, `dec_fits`); codecs compose from those of parts; the codec assumptions of other claims are derived for every environment with these codecs (`Speaks…`), and any environment can be given them (`spoken`); negations for all error messages of devices.
- **C84 The all-in-one set-up runs its servers as a whole** — Hoare triples over traces for each phase (`start_h`, `awaitOne_h`, `serve_h`, `drop_h`, with the list of running servers as ghost state), time as a second invariant (`awaitOne_c`); explicit traces for the negations.
- **C85 Devices of the all-in-one set-up are manufactured and onboarded as asked** — The commands fix variables of the surroundings in which the models of the other programs run (`Starts`); then C48, C61, C64 and C72 are instantiated, and what is sent and written is followed through the manufacturing client.
- **C86 Device credentials are read as they were written** — Codec of the credential over the CBOR model; items that were read are written in no more bytes and fit (`Lemmas/WireShort`), so that reading, changing the flag and writing composes. The assumptions of C61, C67 and C78/C79 (`C83_life`) are discharged.
- **C87 Public keys keep their meaning** — The three ways to a `PublicKey` establish an invariant (`Coherent`) from which reading back follows, as reading is a function of the data. The declared type is right for keys made of certificates and unchecked for keys read (`_violated`). Forms of keys and chains in C83 are discharged.
- **C88 Requests served at the same time keep the promises** — A request in flight carries the session as it was read and the rest of its handler (`Task`). Rely/guarantee: `Good` says that, whatever the others do (which keeps the world's invariant and only adds to history), the task ends in an answer that history explains. Order needs that requests of one session are not served at the same time (`_violated` otherwise).
- **C89 An owner reports only trusted devices, only to the voucher's rendezvous servers, and only what it signs** — All traces of the program `report` by induction over the URLs: what comes before each request (`MaySend`), the clients made (`connects`), and the last reply of a successful run. The bytes of OwnerSign are spelled out in `Registers`.
- **C90 Trust that is configured is enforced, or the server does not start** — Start-up as a function from merged settings, files and parsers to the servers' `Config`; then composition with C82 (where settings come from), C33 (registrations) and C89 (reports). Misspelt settings and keys that do not fit are `_violated`.
- **C91 A device that was sold belongs to its last owner alone** — Induction over two signature chains from the same manufacturer and header: they part at an owner common to both. That there can be two chains at all is `_violated`, by C06 (sold twice) and C78 (former owner).
- **C92 A device gets the service info for itself and for the modules it announces** — `Url.setQuery` models what the `url` crate does to a query, `Url.unescape` what `form_urlencoded` does. The first two fields of the query are the owner server's, whatever follows; fields that are there twice are errors. Names with `&`, `,` are `_violated`.
- **C93 Registrations last as long as the settings say** — From the settings through `Model/Startup` to the configuration, then C35 and C73. That a rendezvous server starts with a maximum shorter than the owner's interval is `_violated`.
- **C94 A client whose request is refused is told so and why, and nothing else** — `Model/Errors` gives the reasons for which `Model/Http` refuses, and is shown to refuse just then. What clients make of the reply is `Http.receive`, with C83 for the reading of the error. The type of message named in errors is `_violated`: parse errors, and copies of other handlers' lines.
- **C95 The reason given for a refusal is the true one** — `Cause`, `After`, `OwnerCause`, `RvCause`, `ProveCause`, `To2Cause`, `StartCause`, `HmacCause` and `DiCause` say for each reason what must be the case, in terms of the protocol graph, signature chains, certificate paths and the store; case analysis over `Model/Errors`, `Model/ErrorsRv`, `Model/ErrorsOwner` and `Model/ErrorsMfg`, with C09, C19 and their converses. Store failures, mismatched data and wrong signatures told as something else are `_violated`.
- **C96 A manufacturing server works as its settings say, or does not start** — Model of reading the settings (`Model/StartupMfg`) on top of the merge of files (C82) and `startup` (C45). `FileOf`, `Given`, `PlainDi` and `Describes` say in terms of the settings what a configuration must be; consequences for all histories by `stored_origin` (C42, C43) and C07. Optional store, allowed storages and keys that do not fit are `_violated`.
- **C97 A service info server gives what its settings say to whom they say, or does not start** — Model of reading the settings (`Model/StartupSi`), prepared by `fromSettings` (C53). `Says` and its parts describe what settings mean, independently of the functions that read them; reading is proved equivalent to it (`siSettingsOf_iff`), which gives both directions of C97_starts. Tokens by C57 over histories, files on the device by C53. Misspelt names outside the section or inside its parts, a documented name and a documented restriction are `_violated`.
- **C98 Settings for a single device count for it, and for it alone** — Model of `settings_per_device` (`Model/PerDevice`) on top of C82 and C97. `Keeps` and `PathFor` describe directory and path; merging a single file into nothing gives the file back (`setAll_self`), and paths of different GUIDs differ (`pathFor_inj`), hence C98_own and C98_others; the reply by C92. Unusable files and the ignored parts are `_violated`.
- **C99 An owner server gets at the service info server its settings name, with the credentials in them** — Model of `JsonClient` and its settings (`Model/StartupApi`). `Shows` says in terms of the settings which credentials there are; `C99_starts` is an equivalence; the two servers are put together by C97 and C57. Settings without a token, tokens that cannot be read from a header, and queries in the URL are `_violated`.
- **C100 Devices are sent to the addresses in the settings of the owner server** — Model of the readers of `RemoteConnection` (`Model/StartupAddr`), on top of `Model/Aio` for the conversion and `Device.to2Urls`. `IsConnection`, `Told` and `Leads` describe settings, addresses and URLs; the proofs are inductions over the lists. Transports devices never try and overlooked names are `_violated`.
- **C101 Vouchers are reported to rendezvous servers only if the settings enable it** — Model of the setting, the route and its handler (`Model/StartupReport`), on top of the moves of `Model/OwnerServer`. Induction over histories of requests for settings that say no; maintenance, which does not look at the setting, is `_violated`.
- **C102 Servers keep what they store where their settings say, or do not start** — Model of the readers and of `StoreConfig::initialize` (`Model/StartupStore`). `SaysStore` and `At` describe settings and stores; equivalences by induction over the names of the settings. A type of server that is not the server's own is accepted: `_violated`.
