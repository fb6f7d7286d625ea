# Formal model of ruroco: design

This document says, for each property in `properties.jsonl`, what is modelled and how it is proved (or why it cannot be),
and states the trusted base. It was written before the proofs and is updated as the model grows.

## 1. Shape of the model

All Lean code is under `lean/Verif/`:

| directory | content |
|---|---|
| `Verif/Model/` | the model: total, computable functions, one per function of the code, each citing file and lines |
| `Verif/Spec/`  | small independent specifications (CIDR blocks, abstract counters, windows, ...) used in statements; `Verif/Spec/Terms/` holds the other words that occur in claims, so that a claim can be read with `Verif/Spec/` and `Verif/Model/` alone |
| `Verif/Lemmas/`| helper lemmas; nothing here is a claim |
| `Verif/Props/` | the property theorems, one file per group, each with a non-vacuity `example` |

Conventions.

* `u8/u16/u32/u64/u128` become `BitVec n` where width or overflow matters (wire formats, counters, saturating and checked
  addition), `Nat` for durations, monotonic instants and lengths.
* `[u8; N]` and `Vec<u8>` become `List Byte`; fixed lengths appear as explicit `length` facts, never silently.
  `String` and `Path` become `List Char`.
* `&mut self` becomes state passing. A function that can fail returns the state reached at the failure as well, because
  Rust mutations made before an `Err` persist.
* Effects: `Act α := World → Out α × World` with `Out = ok | err | crash` (`Model/Sys.lean`). The world holds the file
  system, the directory entries not yet fsynced, clock readings, the umask, the acting user, and a log of observable events
  (file operations, datagrams, forwards, spawned commands, ...). System calls take their outcome from an *oracle* list: each
  call pops one `Choice` (`ok`, `err k`, `crash k`; `k` = how far a partial write got, or whether the effect happened before
  the crash). All theorems quantify over all oracle lists, i.e. over every combination of failing calls and every crash
  point, including "in the middle of a write".
* Histories: inductive relations over starts, packets, kills, power losses, other processes and (for the user interface)
  user actions: `Model/History` (server), `Model/ClientHistory` (client machine), `Model/Joint` (both over a hostile
  network), `Model/TwoServers`, `Model/Locks` and `Model/AtOnce` (any number of processes), `Model/Ui` (interface and restarts).
* A panic is an explicit error value; `crash` is the process dying (kill, panic, power) at that point.
* HashMaps become association lists with insert/lookup/remove; iteration order is the list order. Where iteration order could
  matter (serialising the replay state, seeding keys, loading keys, building the command table) the theorem is proved for
  every list order.
* Logging is modelled for the server (`Model/ServerLog`, `Model/Refusal`, `Model/DebugLog`), the commander (`Model/CommanderLog`), the client's sending (`Model/ClientLog`), the update (`Model/UpdateLog`) and the wizard (`Model/WizardLog`); elsewhere error *kinds* are modelled, not texts. `Zeroize` is not modelled.

External code becomes parameters:

* AES-256-GCM-SIV: a structure `Aead` with `enc`/`dec`; its functional correctness (`dec (enc p) = p`, tag 16 bytes, length
  preserved) is the hypothesis `Aead.Correct`, its unforgeability is an explicit hypothesis on histories, used only in the
  theorems that say so. A toy instance (`toyAead`) shows the hypotheses are satisfiable.
* Blake2b-64: an arbitrary function `hash`; injectivity on the configured names is a hypothesis where needed.
* Ed25519: an arbitrary predicate `verify key message signature`.
* Clock: each event carries an arbitrary wall-clock reading (possibly "before the epoch" = error); the monotonic clock
  readings used by the rate limiter are arbitrary non-decreasing numbers.
* Filesystem: `Path -> Option File`, with the system calls the code uses. Assumed: `rename` is atomic, a failed call other
  than `write` has no effect, other processes do not touch the files concerned except where the property is about that
  (C31, C57). For power loss: un-fsynced data may be arbitrary, un-fsynced directory entries may be any of the states since
  the last directory fsync. Simplified: a power loss does not change mode or owner; parent directories are not objects.
* DNS resolution, UDP, Unix sockets, `flock`, child processes: nondeterministic results, contract stated at the definition.
* The toml crate: parameters with the hypothesis that it reads back what it wrote (`ListCodec.Correct`). UTF-8: a parameter, for C103 with the hypothesis `Faithful`, which `Model/Utf8` (Lean's own UTF-8) meets;
  the MessagePack and base64 crates and the std parser and printer of addresses are modelled concretely.

## 2. Properties and how they are proved

| id | what is modelled | how |
|---|---|---|
| C01 | `serialize`/`deserialize`, big-endian integers, IP mapping | round-trip theorem over all fields, exception characterised exactly |
| C02 | `deserialize` on arbitrary bytes | decision theorem + injectivity up to strict byte |
| C03 | `encrypt`/`decrypt`/`encode`/`decode` over an abstract AEAD | length and round-trip laws |
| C04 | base64 STANDARD encode/decode, trim, split, length checks | concrete codec, round trip by induction over blocks; canonicity of accepted text |
| C05 | IPC message conversions | round trip, totality, injectivity up to normalisation |
| C06 | `normalize_ip`, `serialize_ip` | algebraic laws against spec relation "same host" |
| C07 | whole server: create, receive, validate, save, forward, with crash oracle and restarts | invariant over histories |
| C08 | same | invariant evaluated at each forward event |
| C09 | same | frame theorem for every rejecting outcome |
| C10 | same, `saturating_add` on u128 | decision theorem + history invariant |
| C11 | same with abstract AEAD | extraction theorem, unforgeability as hypothesis on history |
| C12, C13 | validation order and IP choice | decision theorems |
| C14 | save failing at any system call | theorem over oracle; retry theorem |
| C15 | one loop iteration | iff against an independent acceptance predicate |
| C16 | `Server::create` with existing file | monotonicity over restarts; false when stat fails: witness, `_partial` otherwise |
| C17 | same | false of the code: negation with witness; `_partial` for newly seeded keys; exact condition as an equivalence |
| C18 | `run` loop over lists of receive results and signals | induction over inputs |
| C19-C21 | rate limiter with individual clock readings, alone and inside the server loop | window invariants, counting lemmas |
| C22 | throttle | conservation law by induction, spacing of error lines |
| C23 | decision function over environment | iff per outcome; "inconsistent is refused" false when half set: witness |
| C24 | key loading over arbitrary directory listing | iff |
| C25 | effect trace of an iteration | shape of the trace |
| C26 | command table construction and lookup | membership theorem; exactness under injectivity |
| C27 | `is_routable` with octet tests of std | equals complement of CIDR list, arithmetic proof |
| C28 | poll loop with child/clock oracle | induction over polls; two corners refuted with witnesses |
| C29 | accept loop | map-fold theorem |
| C30 | listener start-up as system-call sequence with umask/mode/owner | invariant over every prefix, every failure point |
| C31 | flock as transition system with any number of processes | invariant |
| C32, C33 | counter file over the file system with crash oracle | invariant over histories |
| C34, C35 | send loop and selection | induction / decision table |
| C36 | `ensure_port` on top of a model of std's address parser | decision theorem, idempotence |
| C37, C38, C39 | composition of client, network, server, commander | composition and history invariants |
| C40 | reseed and server floor | false in general (server floor may be in the future): witness; `_partial` when reseeded late enough; exact condition as an equivalence |
| C41 | `write_atomic*` as system calls with crash oracle and power loss relation | theorem over all oracles |
| C42 | wizard file steps | frame theorem over all oracles; two failure patterns refuted; a successful run cut at the two files, with the trace of every other step (update included) free of failed looks at them, gives the exact condition |
| C43, C44 | update pipeline, swap, roll-back | frame theorem; C44 false in five patterns: witnesses, `_partial` otherwise |
| C45, C46 | version parsing, release and asset selection | order laws, find characterisation |
| C47, C48 | std `Display`/`FromStr` of IPs | character-set theorem, parse(display)=id |
| C49-C51 | UI text form, list, status map | round trip, invariants over operation sequences |
| C52 | MessagePack codec of the replay-state file, reading all forms of integers and array lengths | concrete codec, round trip |
| C53 | composition | false of the code (one counter per destination): witness; `_partial` bound; the two orders of arrival via C15 on the server left by the first |
| C54 | `take(MAX+1)` and check | arithmetic |
| C55 | `write_atomic*` and power loss | false when the directory fsync fails: witness; `_partial` when it succeeds; together an equivalence |
| C56 | receive buffer and size check | false for longer datagrams: witness; `_partial` for shorter ones |
| C57 | two server processes interleaved at system-call granularity | false: witness ending in a replay; `_partial` without interleaved datagram; exact effect for arbitrary interleavings |
| C58, C59 | modes and owners of files after wizard / updater | false: witnesses; `_partial` in the cases that work |
| C60 | execution from the UI as system calls | invariant at every call and crash point |
| C61, C62 | UI state, text and saved list over histories of actions | false: witnesses; `_partial` otherwise |
| C63 | a whole `send` with all its failure points | invariant over the event log, frame theorem for refused settings |
| C64 | server histories with a key directory that changes between starts | invariant: every forward has a key of the last start before its packet |
| C65 | a sequence of datagrams of several keys on one server | relational induction: the run restricted to one key simulates the full run |
| C66 | serde's generated field loop for both views of config.toml, on a parsed table | the loop splits into independent per-field loops; equivalence with an order-free specification |
| C67 | the same | consequence of C66 for known keys; refuted for unknown keys by a frame theorem and two witnesses; the ignored keys are shown to be exactly the unknown ones in each of the four tables |
| C68 | `resolve_path`, `get_commander_unix_socket_path`, both creations | both views agree on the shared settings by C66; case analysis on absolute paths |
| C69 | commands.toml, untagged entries, the hash map | equivalence with a specification, composed with C26 |
| C70 | the lines of the log, the regular expressions of the filter | inversion of the match; refuted for all complaints, the rest of the filter proved to fit |
| C71 | the bytes of a peer with their times, `read_exact` as single reads with one second each | induction on the bytes still to come; refuted by a peer sending one byte every 0.99 s |
| C72 | the queue of connections, each cycle with its times | bound of one cycle from C71 and the polling loop; induction on the queue |
| C73 | `update` as for C43 | case analysis from C43; refuted by an up-to-date client with old server binaries |
| C74 | `Updater::create`, the check by a temporary file, the lock, `update` | frame conditions of each part, composed |
| C75 | `update`, what the makers signed as a parameter with unforgeability | from C43; refuted by an old binary under a new tag |
| C76 | `get_conf_dir`, `get_counter_path`, lock path, `resolve_path` | case analysis on the variables; refuted by two working directories |
| C77 | start of the server with any key files and replay state, then any datagram | composition of C16, C24, C15; refuted by a history without restart |
| C78 | the commander and arbitrary connections | from C26; refuted by a message computed from the name only |
| C79 | configuration files, key files, `Run`, the socket, the commander | C66, C24, C07, C29 and C26 composed over histories; each forwarded message traced to its datagram and start |
| C80 | every step of the server, on the whole file system | frame condition of each step, induction over histories |
| C81 | frames of the graphical client, `Model/UiFrames` | invariant: tab, pending paste and key are functions of the frames; refuted by a paste button pressed with an empty clipboard |
| C82 | `write_atomic` and all its callers in the server and the client | an accounting predicate closed under sequencing: files left plus failures still to come never exceed the failures there were; refuted by a request repeated while the disk is full |
| C83 | the processes of a command, in the order of forking, and a signal to one of them | replay with and without the signal, compared by induction on the list of forks; connected to the polling loop of C28 |
| C84 | the listen queue between server and commander; the single-threaded server; the commander of C72 | instants of connecting and accepting computed request by request; invariant: connections are accepted in order; bound by the time for one connection (C72); refuted by a commander that never accepts again |
| C85 | sends, reseeds, every action and frame of the graphical client, on the whole file system and the whole trace | closure predicate (confined to some files and some events) through every call; induction over histories |
| C86 | the entries of the commander's log, computed along `serve`; the output files as the command leaves them | induction over connections; one execution computed call by call; refuted by a commander that ends while polling, by output that is not text and by a refused address |
| C87 | starting the commander, serving any connections, on the whole file system | the closure predicate of C85 with the effect of the commands as a parameter |
| C88 | `runUpdate` and `runWizard` with the programs they start as events, on the whole file system | the closure predicate of C85; the run of the wizard split at the second program it starts; uniqueness of the chosen release and of the verified bytes for the second run |
| C89 | the running server of C65 with its limiter, any datagrams before, during and after a flood | a datagram that opens under no key computed call by call; the limiter seen as in C19–C21 for the quiet second; lower bounds on the windows (own and global) by induction over the flood for the lock-out |
| C90 | the client of C32 and the server histories of C01, twice, with two keys and two AEADs | relational: two runs in the same world with related results end in the same world (`Same`), closed under bind; the server histories step by step with related servers |
| C91 | the client histories of C32 with the generator as a parameter | the draws behind the new nonces form a strictly increasing list of indices; composed over the loop, the send and the history |
| C92 | `Model/Units`: the three unit files line by line, the shipped config.toml, and what the lines permit; `Spec/Units`: permitted events, a sandbox that is enforced | the trace of every step contains permitted events only (closure predicate over the programs, induction over the history); a start elsewhere needs a call that is not permitted; paths by their components |
| C93 | `Props/Growth`: keys known to the installation; cost of an action in entries of the trace | disk invariant (the file is the initial one, or names known keys only and is as small as they allow) by induction over the history; costs add up along the program |
| C94 | `Model/Stop`: the loop with durations and a signal that interrupts blocking calls | refinement of the loop of C18, induction over the turns; two concrete refutations |
| C95 | `Model/ServerLog`: the lines written about a datagram, and their texts | case analysis of one datagram with its log, induction over the turns of the loop; unique reading of the text; concrete refutation |
| C96 | `Model/Cli`: the option tables of the three programs, clap's parsing for such tables, the client's `main` | the parser decides a grammar (`Spec/Cli`), by induction over the arguments; composition with C63, C85, C88 |
| C97 | `Model/Programs`: the `main`s of server and commander, from the command line to the running process | composition of C04, C24, C37, C66, C68, C69 and C96 with new success lemmas for start-up |
| C98 | `Spec/SharedKey`: machines with their own disks, runs of `send` in any order, delivery to one server | induction over the deliveries (`records`), then over the runs with the counter on each disk as invariant |
| C99 | `Model/Android` (frames with the clipboard and the stored key, what reaches the disk late) | a pure account of one frame (`keyFrame`), then induction over the history: what is stored is what is shown; refutations with explicit histories |
| C100 | `Model/Android`: the flag of keyboard.rs beside the real state; `updateAndroid` | invariant "flag says hidden → is hidden" by induction over the events; case analysis of the two searches |
| C101 | `Spec/SharedKey` with the server's clock at each arrival | induction over the deliveries (`recordsWithin`), of which C98 is now the case of a clock that has caught up |
| C102 | `runSend`, client histories; `Spec/Watch` says what is visible | relation between two runs whose traces differ in encrypted bytes only, closed under every step of the client; simulation over histories |
| C103 | `Ui.act`, `execWithKey`, `Model/Utf8` | every call of the execution logs only what was asked for; the sender of C37 entered with the key read back from the temporary file; then the server and commander half of C37 |
| C104 | `writeAtomicWithMode`, `Run`, `CRun` | an invariant closed under every system call: each file keeps its access or has that of a new file, and temporary files have that of a new file |
| C105 | `Run` refines `GateRun` | a simulation relation between server and gate (`Shows`), kept by every event; what the gate guarantees is then proved about the gate alone |
| C106 | units' `Restart=` and start limit, `Server.create` as a function of time | induction over starts; exact condition; witness |
| C107 | `dataToCommand`, `commandToData`, `parseClient`, `CommandData.toSend` | both parsers on the words of the line; induction over options |
| C108 | `serverMain`, `commanderMain`, `createServerUdpSocket` | inversion of every step of the start; exact reading of command line and settings (C96, C66, C69, C24) |
| C109 | `CRun` refines `StampRun` | a simulation relation between installation and stamp (`ShowsStamp`), kept by every event and every crash point; what the stamp guarantees is then proved about the stamp alone |
| C110 | `parseIp`, `parseSockAddr` against an inductive grammar | soundness and completeness of each reader of the parser (numbers, octets, groups, `::`), with what may follow each |
| C111 | `Session`, `Screen.frame` against functions of the frames (`shownCommands`, `shownForm`, `shownKey`, `keyVisible`) | induction over sessions; each action of a frame is shown to have an effect on list and text that does not depend on the world |
| C112 | `JRun` (client and server), `Commander.serve` against `asked`, `chances`, `AsAsked` | both the counters handed over (C07) and the counters sent increase, and what is handed over was sent, so it is a sublist; each datagram is paired with its send by induction (C53, C63) |
| C113 | programs as trees of single system calls, a machine with a lock and any number of processes (`Model/AtOnce`) against histories of events (`CRun`) | the client's functions are cut into steps by construction; invariant: the machine is as after a history, followed by the beginning of the holder's job; steps of others do not touch what the job looks at |
| C114 | the machine of C113 and the server of C11, interleaved (`Model/AtOnceJoint`), against histories of the two machines (`JRun`) | the invariant of C113, for histories of both machines: a step of the server during a job is put after the job, because all it needs of the client is what has been sent by then |
| C115 | `Model/Gen`: standard output as a buffer that is written at the end, errors ignored | the text has 56 characters and no line break, so it stays in the buffer; a proper prefix has fewer than 56 characters and is no key (C04) |
| C116 | `Model/Server`, `Model/RateLimiter`, `Model/Config` | invariant over all histories without a start: no datagram is acceptable, or the limiter always refuses; conversely a datagram is built and C15 applied |
| C117 | `Model/Blocklist`, `Model/Server` | induction over the entries of the file for the decoder reading a changed byte; case distinction on the forms of the number of entries; then the invariant of a start (C16) |
| C118 | `Model/History` | invariant over the second history: every stored counter is at least as large as the counters executed before the loss |
| C119 | `Model/History` | every execution is traced back to a sealed request whose destination the server lists (from C79), decryption gives one request per datagram, C07 for each machine |
| C120 | `Model/CommanderText`: the text of the journal; `Spec/ReadLog`: a reader | the reader is a left inverse of the writer, by induction over the entries and C86; refuted by an equation between texts |
| C121 | `Model/Blake2b`: the hash; `getHashToCmd` | the entry inserted last wins, and every entry can be last in some order; pigeonhole; two names found by search (about 2^33 hashes) and checked by the kernel |
| C122 | `runUpdate` | composition of C43 and C74 with the directory chosen; last components of paths |
| C123 | `ClientData.serialize`, `encode`, `CommanderData.toBytes`, `Counter.write`, `runSend` and their inverses | equivalence with a layout given by byte ranges; big-endian digits by induction; composition with C63's analysis of a send |
| C124 | `Model/Refusal`: the failure of an iteration with the values in its text, and the texts | the failure refines the verdict of `Server.iteration` (equivalence with the log of C95); truth case by case; unique readability of the texts by cutting at characters the values can not contain |
| C125 | `Model/ClientLog`: the sending functions over actions that also write lines | muting the lines gives `Model/Client`; induction over the destinations with a specification of every attempt (`Reported`, `Killed`); unique readability by cutting at the last slash or the first space |
| C126 | `Model/DebugLog`: the log of `Model/ServerLog` with the lines of the level DEBUG, and the form of a line | case analysis of one datagram (`iteration_logged`, `refusal_ends`), induction over the loop, cutting at the lines that begin a report; unique readability of lines |
| C127 | `Model/UpdateLog`: the update of `Model/Update` with the lines it writes | the lines change nothing (`C127_same_update`); case analysis of the plan, induction over the swap and the rollback with the trace of failed rollbacks; witnesses for the refutations |
| C128 | `Model/WizardLog`: the wizard of `Model/Wizard` with its lines | the lines change nothing (`C128_same_run`); the run as a list of steps, induction over it (`runSteps_cases`, `said_by`); for the files the frame lemmas of C42 |


No property of the list was found inexpressible.

## 3. Trusted base

* Lean 4.33.0 kernel. No axioms of our own; every theorem depends on at most `propext`, `Classical.choice`, `Quot.sound`
  (table below, from `#print axioms`). No `sorry`, `native_decide`, `bv_decide`; concrete examples and witnesses use
  `decide +kernel`, which the kernel evaluates.
* The reading of the Rust code (and, for std and crates, of their documented behaviour) embodied in `Verif/Model`.
* The contracts of section 1 for the operating system and for external crates.

### What is modelled

| files in `/repo/src` | model | left out |
|---|---|---|
| `common/protocol/*` | `Model/Bytes`, `Ip`, `Protocol` (complete) | - |
| `common/crypto/handler.rs`, `handler_ops.rs` | `Model/Crypto` | zeroising, OpenSSL context calls (folded into `Aead`) |
| `common/crypto/mod.rs` | `verify_ed25519` in `Model/Update`; `blake2b_u64` in `Model/Blake2b` (elsewhere the hash is a parameter) | PEM and base64 layers of the public key |
| `common/mod.rs` | `normalize_ip`, `now_nanos`, path helpers | - |
| `common/fs.rs` | `write_atomic*`, `change_file_ownership` in `Model/Sys`; `resolve_path` in `Model/Config` | - |
| `common/ipc.rs` | `Model/Protocol`, `Model/Commander` | - |
| `common/instance_lock.rs`, `client/lock.rs` | `Model/Locks`, `acquireLock` in `Model/Commander` | - |
| `common/logging.rs` | `Model/LogLine` (date with milliseconds), `Model/DebugLog` (levels, colours, `RUROCO_LOG`) | failures of writing to the streams (ignored by the code) |
| `fail2ban/filter.d/ruroco.conf` | the regular expressions | `datepattern` (anchored at the start of the line, so it matches no journal line), what `<HOST>` matches (a parameter) |
| `bin/server.rs`, `bin/commander.rs`, `bin/client.rs` | `Model/Programs`, `Model/Cli` | exit status, set-up of the log |
| `common/android/prefs.rs`, `keyboard.rs`, `keyboard_hide.rs`, `clipboard_read.rs`, `ui/android.rs` | `Model/Android` | the calls into the system (JNI): whether each works is a parameter |
| `common/android/util.rs`, `jni_util.rs`, `clipboard.rs`, `status_bar.rs`, `fuzz_api.rs`, `bin/client_ui.rs` | - | all |
| `server/listener.rs`, `handler.rs`, `signal.rs` | `Model/Server`, `Model/Run`, `Model/Stop`, `Model/ServerLog`, `Model/Refusal`, `Model/DebugLog` | text of a failure to reach the commander (a parameter) |
| `server/blocklist.rs` | `Model/Blocklist` (with the file format) | a struct written as a map of its field, and byte strings in the longer forms, are refused by the modelled decoder, accepted by the real one |
| `server/rate_limiter.rs`, `error_throttle.rs` | `Model/RateLimiter` | - |
| `server/keys.rs`, `config.rs`, `socket.rs` | `Model/Server`, `Model/Socket`, `Model/Config` | the TOML parser (a file is the table it parses to, without dates) |
| `commander/*` | `Model/Commander`, `Model/CommanderTime`, `Model/CommanderLog`, `Model/CommanderText`, `Model/Processes`, `Model/Backlog`, `Model/IpFilter`, `Model/Config` | the TOML parser; pipes and output capture are reduced to file effects; reads interrupted by a signal |
| `client/counter.rs`, `send/*`, `mod.rs` | `Model/Client`, `Model/ClientLog`, `Model/ClientHistory`, `Model/AtOnce`, `Model/Cli` | the lines before the destinations are known |
| `client/gen.rs` | `gen_key` in `Model/Crypto`, printing in `Model/Gen` | |
| `client/config/*` | `Model/Cli` (the options, and clap's parsing of them after its documentation); `get_conf_dir` in `Model/UpdateCli` | clap's messages, arguments that are not UTF-8, Android |
| `client/update/*` | `Model/Update`, `Model/UpdateCli`, `Model/UpdateLog` (what it writes) | HTTP transport (its results are arbitrary); directories (whether they exist or can be made is a parameter) |
| `client/wizard/*`, `client/util.rs` | `Model/Wizard`, `Model/WizardLog` (what it writes) | `systemctl`/`useradd` processes (their results are arbitrary) |
| `ui/command_data.rs`, `saved_command_list.rs`, `app/*`, `tabs/*.rs` | `Model/Ui` (actions), `Model/UiFrames` (frames, clipboard, key) | egui drawing, layout, colours as pixels |
| `ui/tabs/dashboard_key.rs` | reseed and key generation are the client's (C33, C04) | widgets |
| `systemd/*`, `config/config.toml` | `Model/Units` (C92), `Model/Restart` (C106: restarting and start limit), user of the service (C58) | name spaces, `/proc`, devices, memory protection; what the sandbox means for the commands themselves |

### Theorems and axioms

"all three" means `propext, Classical.choice, Quot.sound`.

| property | status | theorems (axioms) |
|---|---|---|
| C01 | proved | `C01_plaintext_round_trip`, `C01_plaintext_round_trip_exact` (all three) |
| C02 | proved | `C02_rejects_iff_version` (propext, Quot.sound); `C02_decoding_unambiguous` (all three) |
| C03 | proved | `C03_datagram_framing` (propext, Quot.sound); `C03_size_never_varies`, `C03_plaintext_size` (propext) |
| C04 | proved | `C04_key_text_round_trip`, `C04_key_accepted_iff`, `C04_base64_canonical` (propext, Quot.sound); `C04_white_space` (all three) |
| C05 | proved | `C05_ipc_round_trip`, `C05_ipc_every_message`, `C05_ipc_injective` (all three) |
| C06 | proved | `C06_normalize_idempotent`, `C06_normalize_canonical` (propext, Quot.sound); `C06_wire_form` (all three) |
| C07 | proved | `C07_counters_strictly_increase` (all three) |
| C08 | proved | `C08_persisted_before_forward` (all three) |
| C09 | proved | `C09_rejected_leaves_state`, `C09_unacceptable_is_inert`, `C09_other_keys_untouched` (all three) |
| C10 | proved | `C10_future_refused`, `C10_counters_bounded` (all three) |
| C11 | proved | `C11_only_authenticated` (all three) |
| C12 | proved | `C12_destination_pinned`, `C12_packet_for_other_server` (all three) |
| C13 | proved | `C13_source_pinning` (all three) |
| C14 | proved | `C14_failed_save_no_execution`, `C14_retry_works` (all three) |
| C15 | proved | `C15_forwards_only_if_acceptable`, `C15_forwards_iff_acceptable` (all three) |
| C16 | partial | `C16_start_preserves_counters_partial`, `C16_counters_never_decrease_partial`, `C16_stat_failure_resets`, `C16_kept_iff` (all three) |
| C17 | partial | `C17_new_key_floor_partial`, `C17_older_than_start_accepted`, `C17_accepted_iff` (all three) |
| C18 | proved | `C18_no_datagram_stops_the_loop`, `C18_loop_ends_only_on`, `C18_shutdown_is_prompt` (all three) |
| C19 | proved | `C19_own_limit_per_second`, `C19_global_limit_per_second`, `C19_own_limit_per_window`, `C19_global_limit_per_window`, `C19_server_own_limit`, `C19_server_global_limit` (all three) |
| C20 | proved | `C20_memory_bounded` (all three) |
| C21 | proved | `C21_refused_only_if_own_limit_used`, `C21_refused_only_if_global_limit_used`, `C21_other_sources_irrelevant` (propext, Quot.sound); `C21_no_other_refusal` (propext) |
| C22 | proved | `C22_lines_five_seconds_apart`, `C22_nothing_lost`, `C22_reported_when_due` (propext, Quot.sound); `C22_first_is_reported` (none); `C22_server_throttle` (all three) |
| C23 | partial | `C23_socket_priority_partial`, `C23_fd_only_if_activated`, `C23_half_set_falls_back`, `C23_refused_iff` (all three) |
| C24 | proved | `C24_keys_loaded_iff`, `C24_usable_keys` (all three) |
| C25 | proved | `C25_trace_shape` (all three) |
| C26 | proved | `C26_selected_is_configured`, `C26_unknown_hash`, `C26_configured_is_selected` (propext, Quot.sound); `C26_only_configured_run` (all three) |
| C27 | proved | `C27_refused_iff_in_block`, `C27_mapped_notation_refused`, `C27_no_command_for_refused` (all three) |
| C28 | partial | `C28_killed_only_after_deadline`, `C28_finished_not_killed_partial`, `C28_killed_iff`, `C28_no_deadline` (propext, Quot.sound); `C28_killed_although_finished` (none); `C28_status_is_genuine` (propext); `C28_deadline_enforced`, `C28_poll_failure_leaves_child`, `C28_capture_files_removed`, `C28_report_matches`, `C28_configured_limit_applies` (all three) |
| C29 | proved | `C29_keeps_serving`, `C29_connections_independent`, `C29_failures_only_omit` (all three) |
| C30 | proved | `C30_socket_never_open` (all three) |
| C31 | proved | `Locks.C31_mutual_exclusion`, `Locks.C31_refused_only_by_live_holder`, `Locks.C31_live_socket_is_own`, `Locks.C31_guarded_parts_disjoint` (propext, Quot.sound); `C31_second_commander_leaves_socket` (all three) |
| C32 | proved | `C32_counters_never_reused`, `C32_datagram_carries_counter`, `C32_disk_never_lowered` (all three) |
| C33 | proved | `C33_existing_untouched`, `C33_missing_seeded`, `C33_seed_is_now`, `C33_no_wrap`, `C33_reseed` (all three) |
| C34 | proved | `C34_every_destination_tried` (all three); `tried_wire` (propext, Quot.sound) |
| C35 | proved | `C35_only_v4`, `C35_only_v6`, `C35_no_preference`, `C35_bounds` (propext, Quot.sound); `C35_unresolved` (none) |
| C36 | proved | `C36_socket_kept`, `C36_canonical_kept`, `C36_bare_ip`, `C36_bare_host`, `C36_host_port`, `C36_accepts_iff`, `C36_result_has_port`, `C36_idempotent` (all three) |
| C37 | proved | `C37_end_to_end` (all three) |
| C38 | proved | `C38_forwards_genuine_and_distinct` (all three) |
| C39 | proved | `C39_never_locked_out` (all three) |
| C40 | partial | `C40_reseed_recovers_partial`, `C40_reseed_can_stay_below`, `C40_recovers_iff` (all three) |
| C41 | proved | `C41_atomic_replacement`, `C41_atomic_under_power_loss` (all three) |
| C42 | partial | `C42_keeps_configuration_partial`, `C42_success`, `C42_success_means_started`, `C42_kept_iff`, `C42_failed_stat_overwrites`, `C42_torn_template_kept` (all three) |
| C43 | proved | `C43_nothing_touched`, `C43_only_verified`, `C43_success` (all three) |
| C44 | partial | `C44_all_or_nothing_partial`, `C44_failed_backup_deletes_binary`, `C44_partial_backup_truncates_binary`, `C44_failed_stat_deletes_binary`, `C44_stale_backup_installed`, `C44_crash_mixes` (all three) |
| C45 | proved | `C45_comparison`, `C45_order`, `C45_text_injective`, `C45_no_downgrade`, `C45_explicit`, `C45_older_on_request` (all three) |
| C46 | proved | `C46_release`, `C46_release_unique`, `C46_asset` (propext, Quot.sound) |
| C47 | proved | `C47_chars`, `C47_injective`, `C47_no_shell_syntax` (all three) |
| C48 | proved | `C48_parse_show`, `C48_parse_show_socket` (all three) |
| C49 | proved | `C49_round_trip`, `C49_text_injective`, `C49_list_round_trip`, `C49_old_file`, `C49_space_is_lost`, `C04_white_space` (all three) |
| C50 | proved | `C50_sorted_multiset`, `C50_add_saves_the_form`, `C50_restart`, `C50_reload` (all three); `C50_stable` (propext) |
| C51 | partial | `C51_color_partial`, `C51_removed_by_text_keeps_color` (all three) |
| C52 | proved | `C52_replay_file_round_trip`, `C52_truncated_file_refused` (all three); `C52_accepted_is_well_formed` (propext, Quot.sound) |
| C53 | partial | `C53_datagrams_per_send_partial`, `C53_executions_per_send_partial`, `C53_dual_stack_executes_twice`, `C53_order_decides` (all three) |
| C54 | proved | `C54_cap` (propext, Quot.sound) |
| C55 | partial | `C55_success_survives_power_loss_partial`, `C55_success_can_be_lost`, `C55_survives_iff` (all three) |
| C56 | partial | `C56_short_rejected_partial`, `C56_longer_is_processed`, `C56_rejected_iff` (all three) |
| C57 | partial | `C57_second_start_lowers_counter`, `C57_uninterleaved_start_partial`, `C57_second_start_puts_back`, `C57_lowered_iff` (all three) |
| C58 | partial | `C58_readable_partial`, `C58_readable_iff`, `C58_fresh_install_unreadable`, `C58_run_revokes_access` (all three) |
| C59 | partial | `C59_executable_partial`, `C59_after_failure`, `C59_lost_iff`, `C59_executable_for_all`, `C59_rollback_loses_owner` (all three) |
| C60 | proved | `C60_private`, `C60_removed` (all three) |
| C61 | partial | `C61_unedited_save_partial`, `C61_unchanged_iff`, `C61_deleted_command_returns` (all three) |
| C62 | partial | `C62_preserved_partial`, `C62_whole_or_untouched`, `C62_always_lost`, `C62_unread_list_is_lost` (all three) |
| C63 | proved | `C63_datagram_says_what_was_asked`, `C63_unusable_refused` (all three) |
| C64 | proved | `C64_only_keys_of_last_start`, `C64_revoked_key_is_dead` (all three) |
| C65 | proved | `C65_keys_do_not_interfere` (all three) |
| C66 | proved | `C66_server_settings`, `C66_commander_settings`, `C66_in_force` (all three) |
| C67 | partial | `C67_known_settings_partial`, `C67_unknown_ignored`, `C67_server_ignores_iff`, `C67_commander_ignores_iff`, `C67_commands_file_ignores_iff`, `C67_command_ignores_iff`, `C67_command_line_ignored`, `C67_misspelt_limit_ignored`, `C67_misspelt_timeout_ignored` (all three) |
| C68 | proved | `C68_same_socket`, `C68_absolute`, `C68_relative_differs` (all three) |
| C69 | proved | `C69_accepted_iff`, `C69_commands` (all three) |
| C70 | partial | `C70_filter_never_matches`, `C70_rest_of_filter_partial`, `C70_suppressed_not_matched` (all three) |
| C71 | partial | `C71_read_bounded_partial` (all three); `C71_trickling_peer` (none) |
| C72 | proved | `C72_waiting_is_bounded` (all three) |
| C73 | partial | `C73_installed_partial`, `C73_installed_iff`, `C73_server_left_old` (all three) |
| C74 | proved | `C74_only_there`, `C74_unusable`, `C74_unwritable` (all three) |
| C75 | partial | `C75_signed_partial`, `C75_old_binary_under_new_tag` (all three) |
| C76 | partial | `C76_same_files_partial`, `C76_lock_beside_counter`, `C76_depends_on_directory`, `C76_same_counter_iff` (all three) |
| C77 | partial | `C77_keys_side_by_side_partial`, `C77_retired_key_keeps_counter`, `C77_needs_restart` (all three) |
| C78 | partial | `C78_hash_needed_partial`, `C78_guessed_name` (all three) |
| C79 | proved | `C79_executions_explained`, `C79_executed_at_most_once`, `C79_configured_command_runs` (all three) |
| C80 | proved | `C80_server_writes_only_state` (all three) |
| C81 | partial | `C81_key_shown`, `C81_paste_target_partial`, `C81_answered_at_once`, `C81_stray_paste` (all three) |
| C82 | partial | `C82_server_partial`, `C82_client_partial`, `C82_leftovers_grow` (all three) |
| C83 | partial | `C83_completed_shell_gone`, `C83_orphans_survive`, `C83_background_untouched` (propext); `C83_shell_gone_partial`, `C83_others_survive` (all three) |
| C84 | partial | `C84_no_stall_partial`, `C84_stall_bounded_by_limit`, `C84_hung_commander` (all three); `C84_stall_bounded` (propext, Quot.sound); `C84_stalled_for_an_hour` (propext) |
| C85 | proved | `C85_send_confined`, `C85_reseed_confined`, `C85_history_confined`, `C85_history_files`, `C85_ui_start`, `C85_ui_confined`, `C85_frame_confined` (all three) |
| C86 | partial | `C86_failures_are_errors` (propext, Quot.sound); `C86_every_execution_recorded_partial`, `C86_killed`, `C86_output_partial`, `C86_output_lost`, `C86_client_lost`, `C86_refused_said_running`, `C86_captures_private`, `C86_text_ambiguous` (all three) |
| C87 | proved | `C87_start_confined`, `C87_serving_confined` (all three) |
| C88 | proved | `C88_update_confined`, `C88_wizard_confined`, `C88_programs`, `C88_again` (all three) |
| C89 | proved | `C89_flood_leaves_no_trace`, `C89_over_after_a_second`, `C89_forged_source_locks_out`, `C89_spray_locks_everybody_out` (all three) |
| C90 | proved | `C90_send`, `C90_send_without_the_key`, `C90_server`, `C90_client` (all three) |
| C91 | proved | `C91_one_draw_each`, `C91_no_draw_used_twice`, `C91_nonces_differ`, `C91_plaintexts_differ` (all three) |
| C92 | proved | `C92_server_permitted`, `C92_outside_never_starts`, `C92_only_inherited_socket`, `C92_port`, `C92_commander_permitted`, `C92_shipped_configuration`, `C92_blocklist_dir_mandatory` (all three) |
| C93 | proved | `C93_state_bounded_by_keys`, `C93_bounded_work`, `C93_work_is_linear` (all three) |
| C94 | partial | `C94_refines_loop`, `C94_stops_in_time_partial`, `C94_flag_stops`, `C94_at_most_one_more`, `C94_interrupted_is_not_forwarded`, `C94_signal_frees`, `C94_no_service_without_timeout`, `C94_request_lost`, `C94_may_never_stop` (all three) |
| C95 | partial | `C95_forward_is_announced`, `C95_announcement_is_true`, `C95_success_is_true`, `C95_failure_is_true`, `C95_outcome_is_told_partial`, `C95_level_tells_partial`, `C95_all_accounted_for`, `C95_hidden_failure`, `C95_text_tells_all`, `C95_one_line` (all three) |
| C96 | proved | `C96_understood_iff`, `C96_client_understands`, `C96_every_request_can_be_written`, `C96_requests_are_such`, `C96_order_irrelevant`, `C96_missing_value`, `C96_missing_value_letters`, `C96_unknown_option`, `C96_twice_refused`, `C96_not_understood`, `C96_datagram_says_what_the_line_says`, `C96_programs_only_for_wizard`, `C96_server_reads`, `C96_commander_reads`, `C96_shipped_units_read_installed_files`, `C96_options_as_documented`, `C96_service_options`, `C96_help_and_version` (all three) |
| C97 | proved | `C97_set_up_works`, `C97_server_starts`, `C97_commander_starts` (all three) |
| C98 | proved | `C98_shared_key`, `C98_leader_served`, `C98_reseeded_leads`, `C98_last_sender_does_not_decide` (all three) |
| C99 | partial | `C99_key_survives_partial`, `C99_untouched_key_stays`, `C99_stores_what_it_shows`, `C99_unstored_key_is_lost`, `C99_unread_key_is_overwritten` (all three) |
| C100 | proved | `C100_keyboard_follows_focus` (propext, Quot.sound); `C100_keyboard_rests`, `C100_update_opens`, `C100_update_reports_success` (all three) |
| C101 | proved | `C101_served_by_clock`, `C101_one_user`, `C101_reseed_behind_locks_out` (all three); `C101_caught_up` (propext, Quot.sound) |
| C102 | proved | `C102_requests_look_alike`, `C102_only_encrypted`, `C102_histories_look_alike`, `C102_key_id_is_visible` (all three) |
| C103 | proved | `C103_asks_what_is_shown`, `C103_green_means_sent`, `C103_same_as_command_line`, `C103_press_runs_the_command`, `utf8_faithful` (all three) |
| C104 | partial | `C104_server_files`, `C104_client_files`, `C104_server_private_partial`, `C104_client_private_partial`, `C104_unit_umask`, `C104_start_resets`, `C104_reseed_resets`, `C104_list_resets`, `C104_start_private_iff`, `C104_reseed_private_iff`, `C104_private_file_opened` (all three) |
| C105 | proved | `C105_server_is_a_gate`, `C105_gate_increasing`, `C105_gate_open`, `C105_gate_opens` (all three) |
| C106 | partial | `C106_comes_back_partial`, `C106_comes_back_iff`, `C106_given_up`, `C106_full_disk`, `C106_policy`, `C106_five_in_ten_seconds`, `C106_never_given_up` (all three) |
| C107 | partial | `C107_line_is_command_line_iff`, `C107_line_asks`, `C107_pasted_asks`, `C107_command_line_is_line_iff`, `C107_command_line_is_line_partial`, `C107_empty_command`, `C107_pasted_line_differs` (all three) |
| C108 | proved | `C108_server_as_told`, `C108_server_untold`, `C108_no_other_socket`, `C108_commander_as_told`, `C108_commander_untold` (all three) |
| C109 | proved | `C109_client_is_a_stamp`, `C109_stamp_increasing`, `C109_stamp_no_leap`, `C109_stamp_exact`, `C109_stamp_set` (all three) |
| C110 | proved | `C110_ip_iff`, `C110_socket_iff`, `C110_unambiguous`, `C110_not_both` (all three) |
| C111 | proved | `C111_shown`, `C111_execute` (all three) |
| C112 | proved | `C112_in_order`, `C112_executed_in_order`, `C112_sole_user` (all three) |
| C113 | proved | `AtOnce.C113_one_after_another`, `AtOnce.C113_finishes`, `AtOnce.C113_counters_increase`, `AtOnce.C113_cut`, `AtOnce.C113_any_history` (all three) |
| C114 | proved | `AtOnce.C114_at_once`, `AtOnce.C114_executed_in_order`, `AtOnce.C114_any_history` (all three) |
| C115 | partial | `C115_whole_key_partial`, `C115_whole_iff`, `C115_only_key`, `C115_unnoticed`, `C115_same_run` (all three); `C115_part_refused` (propext, Quot.sound) |
| C116 | partial | `C116_reachable_partial`, `C116_deaf_iff`, `C116_accepted_but_deaf`, `C116_silently_deaf` (all three) |
| C117 | partial | `C117_one_byte_partial`, `C117_cut_short_refused`, `C117_zeros_refused`, `C117_unnoticed`, `C117_executed_again` (all three) |
| C118 | partial | `C118_nothing_twice_partial`, `C118_repeated_iff`, `C118_executed_again`, `C118_backup_executes_again` (all three) |
| C119 | proved | `C119_executed_by_one_server`, `C119_both_list_the_destination`, `C119_executed_by_both` (all three) |
| C120 | partial | `C120_read_off_partial`, `C120_executions_partial`, `C120_output_forges_entries`, `C120_forged` (all three) |
| C121 | partial | `C121_asked_is_run_iff`, `C121_asked_is_run_partial`, `C121_names_alike`, `C121_other_command_runs`, `C121_documented` (all three) |
| C122 | partial | `C122_program_replaced_partial`, `C122_other_left`, `C122_program_left_old` (all three) |
| C123 | proved | `C123_plaintext`, `C123_server_reads`, `C123_datagram`, `C123_message`, `C123_commander_reads`, `C123_counter_file`, `C123_sent` (all three); `C123_server_takes` (propext, Quot.sound) |
| C124 | partial | `C124_line_iff`, `C124_line_is_true_partial`, `C124_line_tells`, `C124_line_shape`, `C124_text_tells_all`, `C124_one_line`, `C124_not_mistaken`, `C124_sender_not_told`, `C124_sender_not_told_witness`, `C124_cause_not_told`, `C124_cause_not_told_witness` (all three) |
| C125 | proved | `C125_same_client`, `C125_every_destination_reported`, `C125_killed`, `C125_sent_is_true`, `C125_status_agrees`, `C125_send_cases`, `C125_send_status_agrees`, `C125_text_tells` (all three) |
| C126 | proved | `C126_switch`, `C126_only_adds`, `C126_fates_told`, `C126_source_told`, `C126_no_hidden_failure`, `C126_one_report_each`, `C126_line_tells`, `C126_word_shown`, `C126_text_tells` (all three) |
| C127 | partial | `C127_same_update`, `C127_already`, `C127_updated_iff`, `C127_updated`, `C127_downloads`, `C127_refused`, `C127_refused_iff`, `C127_success_lines`, `C127_rollbacks_told`, `C127_error_told`, `C127_failure_told_partial`, `C127_contradicts`, `C127_rolled_back_untrue`, `C127_both_said` (all three) |
| C128 | proved | `C128_same_run`, `C128_steps`, `C128_installed_iff`, `C128_installed`, `C128_stopped`, `C128_announced_in_time`, `C128_user_exists_iff`, `C128_creating_new` (all three) |

## 4. Findings (code or documentation disagrees with a property)

Refuted in general, with a theorem that exhibits the counterexample (the name is in the table above):

* C16, C17: if `stat` of the replay-state file fails (`Path::exists` then answers "absent"), all counters are reseeded to the
  current time; the documentation's "anything older than server start is refused" does not hold for keys with a stored counter.
* C23: with only one of `LISTEN_PID`/`LISTEN_FDS` set the server silently falls back to binding itself.
* C28: a command finishing between `try_wait` and the clock reading is reported as timed out; when `try_wait` or `kill` fails
  the child keeps running. (Also: SIGKILL reaches only `sh`; the serial loop blocks for up to the timeout.)
* C40: a counter accepted ahead of the server clock (within the allowed skew) stays above a later reseed.
* C42: if `stat` fails the wizard overwrites an existing configuration; a crash while writing the template leaves a torn file
  that later runs keep.
* C44: a failing backup copy deletes or truncates the working binary, a failing `stat` deletes it, a left-over `.old` file is
  installed by the roll-back, a crash can leave old and new binaries side by side.
* C51, C61, C62: deleting a command through the text keeps its stale colour; deleting it with the button does not refresh the text,
  so saving the unedited text brings it back; an unreadable list is overwritten by the next change although the log says
  "file preserved".
* C53: a dual-stack send executes twice (one counter per destination). Exactly: twice if the two datagrams arrive in the order of sending, once if the second overtakes the first (`C53_order_decides`), so how often the command runs is up to the network.
* C55: the directory fsync is best effort, so a reported success can be lost.
* C56: the receive buffer is exactly 94 bytes, so longer datagrams are truncated and processed.
* C57: a second server start rewrites the replay state before it fails to bind; interleaved with a running server this lowers a
  counter and admits a replay.
* C58: after a fresh install `config.toml` is 0600 and owned by the installing user; the server user cannot read it. A rerun
  turns root:ruroco 0640 into 0600.
* C59: the roll-back loses the `ruroco` ownership of the server binary: an update that fails after getting to a binary as installed (0500) always leaves a server that its user can not start.
* C67: unknown (misspelt) keys in config.toml and in a command's table are ignored, e.g. `timeout` for `timeout_sec`.
* C70: the shipped fail2ban filter matches no line the server writes: dates have milliseconds since they were added to the log, the filter expects `Z` after the seconds. Apart from that, a complaint with `(N more suppressed in the last 5s)` behind it would not match either.
* C71: the read limit of one second applies to every single read, not to the whole request of 24 bytes. A peer that sends one byte every 0.99 s keeps the commander from serving anybody else for almost 24 s, and may then connect again.
* C73: whether an update is needed is decided by the version of the *running client*. `ruroco-client update --server` with an up-to-date client reports success and leaves old server binaries in place (the wizard is not affected, it forces).
* C75: the release signature covers the bytes of a binary, not its name or version. An attacker who controls the release page, but not the signing key, can have an old signed binary (or another program) installed as the latest release; the downgrade check sees the tag only.
* C76: with neither `HOME` nor `RUROCO_CONF_DIR`, or with a relative `RUROCO_CONF_DIR`, the working directory decides which counter is used.
* C77: SECURITY.md says that keys are rotated "with no downtime" because all key files are loaded; they are loaded at the start only, so a copied key is refused until the server is restarted.
* C78: SECURITY.md says that a compromised server can only trigger commands whose hashes it observes in live traffic. The hash is an unkeyed function of the name, so any guessable name (`default`) can be triggered.
* C81: a paste button arms `paste_target`. If the clipboard is empty (no paste event comes) or the tab is changed, it stays armed, and the next Ctrl+V, whatever field it is meant for, also replaces the key (or the command text).
* C82: `write_atomic` does not remove its temporary file when a later step fails (fs.rs:32-50), and nothing else does. On a full disk every start of the server and every delivery of one valid request leaves another file (`blocklist.msgpck.<nanoseconds>.tmp`). The request is refused and rolled back, so it stays fresh, and anybody who recorded it can deliver it again; the rate limit is the only bound. The shipped unit restarts the server forever (`Restart=always`). (`docs/src/common/fs-logging.md` mentions that the file is left behind.)
* C83: at the time limit only `sh` is killed (the code says so, exec.rs:149). A command such as `sleep 3600; echo` goes on for an hour after it has been reported as "timed out … and was killed", and runs at the same time as the commands after it. `setpgid` and a signal to the group would be needed.
* C84: the comment at handler.rs:95 says that the write is bounded "so a hung commander can't stall the server's single-threaded loop". What can block is not the write (24 bytes into a new connection) but `connect`, which has no limit and waits while the commander's listen queue is full. While a command runs, authorised requests fill the queue; then the server receives nothing until the command ends, and never again if the commander hangs. (SIGTERM still ends the wait: the handlers are installed without `SA_RESTART`.)
* C86: docs/src/commander.md says "the client IP is included in every execution log line for an audit trail". The entry written before a command starts (`Running command (…) …`, mod.rs:84) has no address; the one with the address is written after the command has ended. A command that ends the commander (or outlives it) is therefore started without a record of the client: the log is the same for all clients (`C86_client_lost`). For a refused address the log says `Running command` although nothing is started. Output that is not UTF-8 is replaced by nothing (`read_to_string(..).unwrap_or_default()`), although the bytes are there. The record does not separate the two outputs (`C86_text_ambiguous`).
* C92: config.toml calls `blocklist_dir` optional with default `config_dir`. With the shipped unit it is mandatory: `/etc/ruroco` is read-only there, and since the replay state is written at each start, the server does not start at all without that line (`C92_blocklist_dir_mandatory`). docs/src/build-and-deploy.md says that the server falls back to binding `[::]` itself when `LISTEN_FDS` is absent; under the shipped unit that always fails (`SocketBindDeny=any`, only `AF_UNIX`).
* C94: the handlers are installed without `SA_RESTART`, and `UnixStream::connect` does not retry when it is interrupted. A request that waits for a place in the commander's queue when SIGTERM comes has its counter stored and is dropped with a line in the log (`C94_request_lost`); docs/src/server/socket-signal.md says that it finishes first. A signal that comes between receiving a datagram and `connect` does not interrupt that call, which has no time limit: with a hung commander the server then does not stop until it is killed (`C94_may_never_stop`). The same page says that the handlers are installed with the libc function `signal` (it is `sigaction`), and its loop leaves out `Interrupted`.
* C95: the failure to store the counter of an accepted request (full disk, wrong owner of the state directory) is handed to the error throttle (listener.rs:83-86), which reports one failure in five seconds. One datagram of garbage every five seconds, from anybody, keeps it out of the log: the log then shows "Valid data ... trying cmd" at level INFO, the command is not executed, and no error says why (`C95_hidden_failure`). The line that is written when it is due shows the outermost context only (`{e}`), so not the cause.
* * **C99.** On a phone a failure to store or to read the key is only logged (dashboard_state.rs:26-29, 48-50). A generated key that was not stored works until the application is closed and is then gone; a stored key that could not be read once is overwritten by the first edit of the apparently empty field. Proved otherwise.
* **C104** (permissions): `write_atomic` creates its temporary file with the default permissions and renames it over the old file, so the permissions and the owner that a user has given the counter, the blocklist or `commands_list.toml` last until the next save only; under umask 022 a file set to 0600 is readable for everybody afterwards. None of these files holds a key, but the list names the servers and commands. The shipped units set umask 0077, with which the property holds.
* **C106**: `Restart=always` without `RestartSec=` and `StartLimitIntervalSec=`: after five failed starts, that is half a second, systemd gives the server up, although the code relies on being brought back (`src/server/listener.rs:79-82`). `RestartSec=2` or `StartLimitIntervalSec=0` in the units would repair it (`C106_full_disk`, `C106_given_up`).
* **C107**: in the graphical client a line without `--command` is the command with the empty name, on the command line it is `default`; a delay in a line is silently dropped (`C107_pasted_line_differs`).
* **C115** (`gen`): `Generator::gen` prints the key with `print!` and nothing flushes standard output (gen.rs:13), so a failure to write it shows up only when the runtime writes the buffer at the end of the process, where errors are ignored. `ruroco-client gen > user.key` (README.md:309) on a full disk ends with exit status 0 and an empty key file (`C115_unnoticed`); a `flush()` with its error returned would repair it.
* **C116** (settings that make the server deaf): `ips = []` and `max_requests_per_second = 0` are read without complaint (config.rs:73-84 checks each address, not that there is one). The server then runs, answers nothing, as always, and hands on nothing (`C116_silently_deaf`). A global limit of 0 still lets one request per second pass.
* **C117** (damage goes unnoticed): `docs/src/server/blocklist-ratelimiter.md:42` says "a corrupted file is a hard error", and the comment at blocklist.rs:14-18 that the format fails closed. The format has no checksum: a byte of a counter that reads as zero gives a lower counter (`C117_unnoticed`), and datagrams recorded before are executed again after the next start (`C117_executed_again`).
* **C118** (deleting is safer than restoring): `seed_if_absent` never raises a counter that is in the file, so a replay state restored from a backup re-opens every request since the backup, although all are older than the start (`C118_backup_executes_again`); with no file at all only requests dated ahead of the start can be repeated (`C118_repeated_iff`).
* **C119** (the destination check distinguishes address lists, not machines): two servers that share a key and list the same address, such as the `127.0.0.1` of the shipped `config/config.toml` or the same private address in two networks, both execute a captured packet (`C119_executed_by_both`). `docs/src/server/handler.md:64-66` says a captured packet is bound to one destination host.
* **C120** (log injection): what a command prints is logged with its line breaks and without any mark at the beginning of each line, so a command whose output contains text from outside (a file listing, a web request, another log) can write entries of its own, such as an execution that never took place (`C120_forged`).
* **C121** (names of the same number): `get_hash_to_cmd` collects into a map keyed by the 64-bit hash and drops all but one of the commands whose names collide, without an error; asking for one name then runs the other's command, and which one may change with every start (iteration order of a `HashMap`). Colliding names are found in minutes on an ordinary computer, so whoever proposes two command names to an administrator can choose what they do; for names chosen without that intent the odds are negligible. A check when loading would do.
* **C122** (update of a client installed elsewhere): README.md:239 says that the directory of an update is by default that of the current binary; the code takes `$HOME/.local/bin`. A client in `/usr/bin`, `/usr/local/bin` or `~/.cargo/bin` reports success, leaves itself as it is and puts a second client into `.local/bin`; since the version compared is that of the program that runs, each later `update` of the old one downloads and installs again.
* C124: the error lines about an unknown key, a datagram that can not be opened, a replay, a request from the future or one for another host do not say where the datagram came from (`C124_sender_not_told`: the line is the same for every sender), so an operator can not tell an attacker's guesses from the mistakes of one client. And if the counter of a legitimate request can not be stored, the line is always "Could not update block list": the throttle prints the error with `{e}`, which shows only the outermost context (`C124_cause_not_told`).
* **C127**: the error of an update that failed while installing lists every binary it had touched as `rolled back`, whether or not rolling it back worked (`src/client/update/mod.rs:141-151`). After `Could not roll back ruroco-server ...` the error says `rolled back ["ruroco-commander", "ruroco-server"]`; and a binary that the rollback deleted because its safety copy was missing (C44) is said to be rolled back too. Keeping the names whose rollback succeeded, and listing only those, would make it true.


Restrictions that are part of proved statements:

* C01, C63: source address `::` is indistinguishable from "no address" on the wire.
* C13: a strict request without source address executes with the datagram's real source.
* C19: limit 0 admits one request per elapsed window; fixed windows allow twice the limit in a sliding second; a request refused
  by the global limit still consumes the sender's own budget; datagrams of wrong size bypass the limiter.
* C26: two command names with the same hash silently overwrite each other.
* C27: IPv4-mapped IPv6 addresses are refused only because the IPC decoder normalises them; 6to4, NAT64, IPv4-compatible and
  site-local addresses are not refused.
* C32, C39: after a power loss provided the directory fsync did not fail; a reseed may lower the counter if the clock did.
* C36: `host:+80` is accepted as host and port.
* C45: tags with parts above 2^64-1 or otherwise unparseable are not treated as downgrades; a leading `+` in a part and several
  leading `v` are accepted.
* C49: an address or IP containing blanks does not survive the text form.
* Documentation: the README mentions a wizard option `--force` that does not exist; the rate limiter's map is pruned although
  the docs say it never is; the wizard overwrites unit files unconditionally and does not create `/etc/ruroco`.
* Documentation in `docs/src` that differs from the code: replay floors are said to be set to "now" at each restart (C17: only for
  keys without entry); the instance lock is described as a file with a PID (it is a `flock`); the counter is said to be written with
  `File::create` and re-seeded when it can not be read (it is written atomically, and re-seeded only when it does not exist); an
  unparsable `--ip` is said to be ignored (it is refused); the suffix of temporary files is said to be a random number of 16 bits
  (it is the time in nanoseconds); the decision tree in `server/overview.md` lacks the check of counters in the future; `commander.md`
  shows a `run_command` without time limit and an old list of refused addresses; `client/wizard.md` says that exit codes of `useradd` and
  `systemctl` are not looked at (they are) and lacks `commands.toml` in the sequence; `client/update.md` says that versions are compared for
  equality only (an older one is refused unless asked for), that each binary is installed before the next is downloaded (all are verified first), that the
  old binary is moved away (it is copied, and replaced by a rename), and that the commander's binary has mode 0500 and belongs to `ruroco` (0100, root).
* The wizard ends with `systemctl start`, which does nothing to services that run already: after a second run (an upgrade) the old binaries go on running
  until the restart that the updater's message asks for. What systemd does is not part of the model.
* `docs/src/client/config.md` describes another command line than the code's (C96): `-k/--key` with the key itself (the code takes `--key-file` only; the same in `architecture/end-to-end-flow.md`, `ui/support.md`, `client/counter-lock-gen-util.md`), an `--ip` that is ignored if it can not be read (the code refuses it, C63), networks such as `::/64` for `--ip` (refused), 127.0.0.1:1234 as default address. Like README:273 it lists `wizard --force`, which is refused.
* README.md:465-468 describes two clients with one key: "whichever client sends a packet last advances the server's counter", the other one's packets are all rejected from then on. What decides is the higher counter, not who sent last, and a lagging client is served again once it has sent enough (`C98_last_sender_does_not_decide`).
* docs/src/architecture/security.md:120-121: "A large backward clock jump on the client can make its counter lag the server's floor; `reseed` fixes this" (similarly README.md:256-257). The counter does not follow the clock once it exists, so the jump alone does nothing (`C101_one_user`); it is the reseed with the clock behind that makes the counter lag (`C101_reseed_behind_locks_out`).
* docs/src/architecture/security.md:44-45: "Eavesdroppers see only random-looking bytes". The first eight bytes of each datagram are the id of the key, the same each time (`C102_key_id_is_visible`): an eavesdropper can link all requests of a user, also from changing addresses.
* `src/client/update/mod.rs:121-123` tells the user to run `systemctl restart ruroco-server ruroco-commander`; the server's unit is called `ruroco.service`, there is no `ruroco-server` unit, so the
  first half of the advice fails and the old server goes on running.
* README.md:300-305 lists the options of the commander without `--commands`, which it has (`C96_service_options`); README.md:239 gives "same as current binary" as the default of `update --bin-path` (C122).
* `docs/src/client/send.md:203-210` says that the socket is connected to the address as the operator wrote it and that the resolved address decides only the family; the code connects to the resolved address (network.rs:56), and sends to one address of each family (C34, C125).
* The variable `RUROCO_LOG`, which switches the lines of the level DEBUG on (C126), is not documented outside the source.
* `docs/src/client/wizard.md:225` shows the commander's unit without `--commands` (the default applies, so nothing changes), and the commander's help text in the README (298-303) does not list the option.
* More documentation that differs from the code: `client/overview.md` says that the lock file is removed when the client ends (it stays) and that the configuration directory is resolved once per
  invocation (once more for the path of the counter); `common/protocol.md` says that the client never claims the source 0.0.0.0 (`--ip 0.0.0.0` is accepted and sent as `::ffff:0.0.0.0`; only `::` stands for "none")
  and shows an infallible `deserialize`; `common/overview.md` says that the client takes its counter from the clock (it adds one to the stored one) and that temporary names use `get_random_range` (the time in
  nanoseconds); `security.md` says that binaries are installed with mode 0500 (the commander's with 0100).
