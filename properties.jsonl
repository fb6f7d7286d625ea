{"id": "C01", "title": "Packet plaintext round trip", "statement": "Whatever command hash, counter, strict flag, optional source IP and destination IP the client puts in a packet, the server that decrypts the packet reads back exactly the same command hash, counter and strict flag, the same source IP and the same destination IP (an IPv4-mapped IPv6 address being the same address as the IPv4 one). The only exception is a claimed source IP of '::', which is read back as 'no source IP'.", "quantifier": "all u64 hashes x all u128 counters x both flags x every optional IPv4/IPv6 source x every IPv4/IPv6 destination", "why_tests_cant": "2^600 combinations; tests try a handful of addresses and never the boundary between '::' and absent or mapped and plain IPv4", "anchors": ["src/common/protocol/client_data.rs: ClientData::serialize, ClientData::deserialize", "src/common/protocol/serialization.rs: serialize_ip, deserialize_ip"]}
{"id": "C02", "title": "Plaintext decoding is total, version-gated and unambiguous", "statement": "Every 58-byte plaintext is either rejected or interpreted, with no crash; it is rejected exactly when its first byte is not the supported protocol version; and two accepted plaintexts that decode to the same request can differ only in the (non-zero) value of the strict byte, so no field can be re-interpreted as another.", "quantifier": "all 58-byte strings, all pairs of them", "why_tests_cant": "256^58 inputs; fuzzing samples, and the absence of a second interpretation is a statement about pairs", "anchors": ["src/common/protocol/client_data.rs: ClientData::deserialize", "src/fuzz_api.rs: fuzz_server_ingest"]}
{"id": "C03", "title": "Fixed-size datagram framing", "statement": "Every datagram a client emits is exactly 94 bytes, whatever the command, IPs or counter; its first 8 bytes are the key id; and splitting and decrypting any such datagram with the same key yields the plaintext that was encrypted.", "quantifier": "all keys, key ids, IVs and plaintexts, for any AEAD with 12-byte IV, 16-byte tag and correct decryption", "why_tests_cant": "sizes and offsets have to be right for all contents; a test checks one", "anchors": ["src/common/protocol/parser.rs: DataParser::encode, DataParser::decode", "src/common/crypto/handler_ops.rs: encrypt, decrypt", "src/common/protocol/constants.rs"]}
{"id": "C04", "title": "Key text round trip and strict key loading", "statement": "The text printed by key generation, stored in a file and loaded back (with any surrounding whitespace) gives exactly the generated key id and key; and a text is accepted as a key only if it is canonical base64 of exactly 40 bytes.", "quantifier": "all 8-byte ids, all 32-byte keys, all surrounding whitespace, all texts", "why_tests_cant": "the inverse law must hold for all 2^320 keys including every padding/alphabet position; tests generate random ones", "anchors": ["src/common/crypto/handler.rs: CryptoHandler::create, CryptoHandler::gen_key"]}
{"id": "C05", "title": "Server-to-commander message round trip", "statement": "The 24-byte message the server writes to the commander socket decodes in the commander to the same command hash and the same (normalised) IP, and every 24-byte message decodes to something (no crash), distinct messages for distinct (hash, IP) pairs.", "quantifier": "all hashes and IPs; all 24-byte strings", "why_tests_cant": "unbounded value space", "anchors": ["src/common/ipc.rs: CommanderData conversions", "src/common/protocol/serialization.rs"]}
{"id": "C06", "title": "IP normalisation is canonical", "statement": "Normalising an address twice equals normalising once; two addresses normalise to the same value exactly when they denote the same host address (equal, or one is the IPv4-mapped form of the other); the wire form of an address depends only on its normal form and determines it.", "quantifier": "all IPv4 and IPv6 addresses and pairs of them", "why_tests_cant": "2^128 addresses; equality after dual-stack sockets is a pairwise statement", "anchors": ["src/common/mod.rs: normalize_ip", "src/common/protocol/serialization.rs: serialize_ip, deserialize_ip"]}
{"id": "C07", "title": "At-most-once execution per packet (replay protection)", "statement": "In any history of received datagrams, failed disk writes, process crashes at any point and server restarts, power losses (on a file system whose directory fsync works, see C55), as long as the replay-state file is not removed and can be stat'ed (see C16), the counters of the commands forwarded to the commander for one key are strictly increasing; in particular no captured packet is ever acted on twice.", "quantifier": "all histories of packets, disk failures, crash points and restarts, all keys", "why_tests_cant": "replay across restarts, crash points and failed writes cannot be enumerated; tests check one replay in one process", "anchors": ["src/server/handler.rs: validate_and_send_command, update_block_list", "src/server/blocklist.rs", "src/server/listener.rs: Server::create"]}
{"id": "C08", "title": "Persist before act", "statement": "Whenever a command is handed to the commander, the on-disk replay state already contains a counter for that key at least as large as the one in the packet; a crash immediately after can not make the packet acceptable again.", "quantifier": "all histories and all crash points between individual effects", "why_tests_cant": "requires cutting execution between every two effects", "anchors": ["src/server/handler.rs: validate_and_send_command, update_block_list", "src/common/fs.rs: write_atomic"]}
{"id": "C09", "title": "Rejected packets leave no trace in the replay state", "statement": "A datagram that is not acted upon (too short, rate-limited, unknown key, failed decryption, bad version, replayed, too far in the future, wrong destination, wrong source, failed save) leaves both the in-memory and on-disk replay state exactly as before; and a datagram for one key never changes the state of another key. Hence nobody without the key can lock a client out, and a key holder can not lock out another key.", "quantifier": "all server states, all datagrams, all sources and times", "why_tests_cant": "needs every rejection path for every state", "anchors": ["src/server/listener.rs: run_loop_iteration", "src/server/handler.rs: validate_and_send_command, update_block_list"]}
{"id": "C10", "title": "Future-dated packets are refused and can not poison a key", "statement": "A packet is only acted on if its counter is at most now + max_clock_skew_seconds; consequently, over any history, the stored counter of a key never exceeds the largest of its initial value and (clock + skew) values observed when packets were processed, without wrap-around for any skew setting.", "quantifier": "all histories, all clock readings, all skew settings including u64::MAX", "why_tests_cant": "overflow corner cases and history-wide bound", "anchors": ["src/server/handler.rs: validate_and_send_command", "src/server/config.rs: max_clock_skew_seconds"]}
{"id": "C11", "title": "Only authenticated packets for configured keys cause effects", "statement": "The server forwards a command only when the datagram has at least 94 bytes (only the first 94 are read), and these carry the id of a loaded key, decrypt under that very key, and the forwarded command hash is the one inside the decrypted plaintext. With an unforgeable cipher, every forwarded command was encrypted by a holder of that key.", "quantifier": "all datagrams, key sets and histories; any AEAD (unforgeability as an explicit hypothesis)", "why_tests_cant": "universally quantified over attacker messages", "anchors": ["src/server/listener.rs: run_loop_iteration, decrypt", "src/server/handler.rs"]}
{"id": "C12", "title": "Destination pinning", "statement": "A packet is acted on only if the destination address sealed in it is one of the addresses configured for this server; a packet addressed to a different server sharing the key is never acted on.", "quantifier": "all packets, all configured address lists, IPv4/IPv6/mapped notations", "why_tests_cant": "all pairs of servers and addresses", "anchors": ["src/server/handler.rs: validate_and_send_command", "src/server/config.rs: deserialize_ips"]}
{"id": "C13", "title": "Source-IP pinning and the IP a command sees", "statement": "In strict mode with a claimed IP, a packet is acted on only if the real (normalised) UDP source equals the claimed IP. The IP handed to the command is the claimed IP if one was given, else the real source. So in strict mode the command always sees the real source address; only a permissive packet can name a different one.", "quantifier": "all packets, real sources and notations of the same address", "why_tests_cant": "full decision table over address pairs", "anchors": ["src/common/protocol/client_data.rs: is_source_ip_invalid", "src/server/handler.rs: validate_and_send_command"]}
{"id": "C14", "title": "Failed persistence: no execution, clean roll-back, retry works", "statement": "If the replay state can not be written, the command is not forwarded, the in-memory state equals the state before the packet, and the very same packet delivered again once writing works is acted on (if still within its limits).", "quantifier": "all states, packets and points of failure of the write", "why_tests_cant": "failure injection at each write step for each state", "anchors": ["src/server/handler.rs: update_block_list"]}
{"id": "C15", "title": "Exact acceptance condition", "statement": "A received datagram leads to a forwarded command if and only if: it has at least 94 bytes (only the first 94 are read; see C56), is within the per-source and global rate limit, its key is loaded, it authenticates, has the supported version, its counter is above the stored one and at most now+skew, its destination is configured, its source condition holds, and the replay state could be saved; the forwarded hash and IP are then determined by the packet and source.", "quantifier": "all server states, datagrams, sources and clock readings", "why_tests_cant": "an iff over the whole input space; tests cover single branches", "anchors": ["src/server/listener.rs: run_loop_iteration", "src/server/handler.rs: validate_and_send_command"]}
{"id": "C16", "title": "Restart preserves replay protection", "statement": "Restarting the server never lowers the stored counter of any key (including keys whose file was temporarily removed), seeds every newly configured key with the current time, and refuses to start rather than reset when the replay-state file exists but can not be read or parsed.", "quantifier": "all replay-state files, key sets, clock readings, sequences of restarts with changing key sets", "why_tests_cant": "histories of reconfiguration", "anchors": ["src/server/listener.rs: Server::create", "src/server/blocklist.rs: create, seed_if_absent"]}
{"id": "C17", "title": "Packets older than server start are rejected after a restart", "statement": "The documentation states that the stored counters are re-seeded to 'now' on startup, so that packets older than the process start are rejected after a restart.", "quantifier": "all histories with restarts", "why_tests_cant": "a captured-but-undelivered packet delivered after a restart is a schedule no unit test plays", "anchors": ["docs/src/architecture/security.md (Replay protection)", "src/server/listener.rs: Server::create", "src/server/blocklist.rs: seed_if_absent"]}
{"id": "C18", "title": "No datagram can stop the server", "statement": "The receive loop ends only on a shutdown request or a fatal socket error; no sequence of datagrams, however malformed, and no per-packet failure ends it; after a shutdown request at most the packet already being waited for is processed.", "quantifier": "all sequences of receive results and shutdown times", "why_tests_cant": "infinite input sequences", "anchors": ["src/server/listener.rs: run, run_loop_iteration", "src/server/signal.rs"]}
{"id": "C19", "title": "Rate limit bound", "statement": "For any sequence of requests at any (monotone) times, the number of requests from one source admitted within any one-second interval is at most twice the configured per-source limit, and the number admitted overall at most twice the global limit; within one limiter window it is at most the limit itself.", "quantifier": "all request sequences, clocks, limits >= 1", "why_tests_cant": "arbitrary timing patterns; window-edge bursts", "anchors": ["src/server/rate_limiter.rs: RateLimiter::check, bump"]}
{"id": "C20", "title": "Rate limiter memory is bounded by recent traffic", "statement": "After any sequence of requests the number of source addresses remembered is at most the number of requests made within the last second, so a flood of spoofed sources can not accumulate state; no address is remembered twice.", "quantifier": "all request sequences and clocks", "why_tests_cant": "unbounded histories", "anchors": ["src/server/rate_limiter.rs: drop_old_entries, check"]}
{"id": "C21", "title": "Rate limiter fairness", "statement": "A source that has not exceeded its own limit in the current second is rejected only if the global limit is exhausted; requests rejected by the per-source limit never consume global budget; traffic from other sources never consumes a source's own budget.", "quantifier": "all interleavings of sources", "why_tests_cant": "all interleavings", "anchors": ["src/server/rate_limiter.rs: check, bump"]}
{"id": "C22", "title": "Error log throttling", "statement": "However many packets fail, at most one error line is emitted per five seconds, the first failure is always reported, and no failure is lost from the count: failures = error lines + failures reported as suppressed + currently pending.", "quantifier": "all sequences of failures and times", "why_tests_cant": "arbitrary timing", "anchors": ["src/server/error_throttle.rs: ErrorThrottle::log"]}
{"id": "C23", "title": "Listening-socket selection", "statement": "The server's listening address is chosen by the documented priority: explicit argument, then RUROCO_LISTEN_ADDRESS, then systemd activation (fd 3) exactly when LISTEN_PID is this process and LISTEN_FDS is 1, then config address, then [::]:34020; inconsistent systemd variables cause a refusal to start, never a silent fallback.", "quantifier": "all environments, pids and configurations", "why_tests_cant": "full decision table over strings", "anchors": ["src/server/socket.rs: create_server_udp_socket"]}
{"id": "C24", "title": "Key set loading is all-or-nothing", "statement": "The server starts only if the directory holds at least one .key file, every .key file is a valid key and no two carry the same id; then exactly those keys are usable, each under its own id.", "quantifier": "all directories and file contents", "why_tests_cant": "all directory contents and orders", "anchors": ["src/server/keys.rs: create_crypto_handlers, get_key_paths"]}
{"id": "C25", "title": "The server is silent and has no other effects", "statement": "Processing any datagram in any state never sends anything on the network; the only effects are writing the replay-state file, one write to the commander socket and log lines, in that order, and at most one command is forwarded per datagram.", "quantifier": "all states and datagrams", "why_tests_cant": "absence of an effect over all inputs", "anchors": ["src/server/listener.rs: run_loop_iteration", "src/server/handler.rs"]}
{"id": "C26", "title": "Only configured commands are executed", "statement": "The shell text the commander runs is always one of the texts in commands.toml, filed under a name whose 64-bit hash equals the received hash; an unknown hash runs nothing. If configured names hash injectively, a request for a configured name runs exactly that name's text with that name's timeout.", "quantifier": "all command tables, all hashes and names, any hash function", "why_tests_cant": "any table, any hash", "anchors": ["src/commander/config.rs: get_hash_to_cmd", "src/commander/mod.rs: run_cycle"]}
{"id": "C27", "title": "Non-routable client addresses are refused", "statement": "Unless explicitly allowed, no command is ever started with RUROCO_IP in a non-routable range; the refused set is exactly the union of the documented CIDR blocks (unspecified, loopback, multicast, broadcast, private, link-local, documentation, 0/8, 100.64/10, 192.0.0/24, 198.18/15, 240/4; for IPv6 ::, ::1, ff00::/8, fc00::/7, fe80::/10, 2001:db8::/32), and no routable address is refused. IPv4-mapped IPv6 notation can not bypass it.", "quantifier": "all 2^32 IPv4 and 2^128 IPv6 addresses", "why_tests_cant": "exhaustive only by proof", "anchors": ["src/commander/ip_filter.rs: is_routable", "src/commander/exec.rs: run_command, is_ip_allowed", "src/common/ipc.rs"]}
{"id": "C28", "title": "Command timeout", "statement": "A command that exits before its deadline is never killed and its status is reported; one still running at its deadline is killed and reaped at the first poll at or after the deadline, i.e. within one poll interval; the capture files are removed on every path; a timeout too large to represent means no deadline.", "quantifier": "all child behaviours, timeouts, clock readings and failure points", "why_tests_cant": "all timing behaviours of the child", "anchors": ["src/commander/exec.rs: spawn_and_wait, execute_with_timeout"]}
{"id": "C29", "title": "One bad request can not affect the next", "statement": "Whatever bytes arrive on the commander socket (too few, unknown hash, non-routable IP, failing command), the commander keeps serving, and each later connection is handled exactly as if the earlier ones had not happened.", "quantifier": "all sequences of connections", "why_tests_cant": "unbounded sequences", "anchors": ["src/commander/mod.rs: run, run_cycle, read"]}
{"id": "C30", "title": "The commander socket is never open to other users", "statement": "From the moment the socket exists until start-up completes, and at whatever step start-up fails, the socket file never grants connect (write) permission to group or others, its final mode is 0204, and the process umask is restored whether or not binding succeeds.", "quantifier": "all initial umasks, all failure points", "why_tests_cant": "intermediate states between system calls", "anchors": ["src/commander/exec.rs: create_listener"]}
{"id": "C31", "title": "Single instance", "statement": "Under any interleaving of start-ups, exits and crashes of processes using the same lock file, at most one holds the lock; a crashed holder never blocks a later start; a commander that does not get the lock does not touch the live socket.", "quantifier": "all interleavings of any number of processes", "why_tests_cant": "schedules and crash points", "anchors": ["src/common/instance_lock.rs: InstanceLock::acquire", "src/client/lock.rs", "src/client/mod.rs: run_client", "src/ui/mod.rs", "src/commander/exec.rs: create_listener"]}
{"id": "C32", "title": "Client counters are never reused", "statement": "Over any history of sends, failed writes, crashes and client restarts without an explicit reseed or deletion of the counter file, the counters put on the wire strictly increase, and each was on disk before its packet left.", "quantifier": "all histories, crash points and disk failures", "why_tests_cant": "histories and crash points", "anchors": ["src/client/counter.rs: Counter", "src/client/send/network.rs: send_data"]}
{"id": "C33", "title": "Counter file safety", "statement": "A missing counter file is seeded with the current time; an existing but unreadable or truncated one is reported and left untouched, never silently reset; a counter at its maximum is refused rather than wrapped; reseed sets exactly the given value.", "quantifier": "all file contents and counter values", "why_tests_cant": "all byte contents; u128 boundary", "anchors": ["src/client/counter.rs: create_and_init, inc, reseed"]}
{"id": "C34", "title": "Every destination is tried", "statement": "A send to several destinations attempts each exactly once in order whatever happens to the others, waits only between attempts, uses a fresh, larger counter per attempt, and reports failure if and only if there was at least one destination and all attempts failed.", "quantifier": "all destination lists and failure patterns", "why_tests_cant": "all failure subsets and lengths", "anchors": ["src/client/send/core.rs: send_to_destinations", "src/client/send/network.rs: send_data"]}
{"id": "C35", "title": "Address-family selection", "statement": "With -4 (only) the packet goes to the first resolved IPv4 address or fails; with -6 (only) to the first IPv6 address or fails; with neither or both, to the first of each family that resolved, IPv4 first; never to an address that was not resolved, never to more than two, and fails only if nothing suitable resolved.", "quantifier": "all resolver answers and flag combinations", "why_tests_cant": "arbitrary resolver answers", "anchors": ["src/client/send/network.rs: get_destination_ips"]}
{"id": "C36", "title": "Destination address normalisation", "statement": "A complete 'ip:port' or '[v6]:port' is kept as typed; a bare IP or bare host gets port 80; 'host:port' is kept; anything else is rejected; normalising a result again changes nothing.", "quantifier": "all strings", "why_tests_cant": "all strings", "anchors": ["src/client/send/core.rs: ensure_port"]}
{"id": "C37", "title": "End-to-end delivery", "statement": "If a client with a loaded key sends a configured command to a server that has the same key, whose address list contains the address the client resolved, whose stored counter is below and clock+skew not below the client's next counter, whose rate limits allow it and whose disk works, then the commander runs exactly that command's text with the proper IP, exactly once.", "quantifier": "all keys, commands, counters, IPs, IVs, server states", "why_tests_cant": "composition of all components for all values", "anchors": ["src/client/send/network.rs: send_data", "src/server/listener.rs: run_loop_iteration", "src/commander/mod.rs: run_cycle"]}
{"id": "C38", "title": "End-to-end authenticity and at-most-once", "statement": "With an unforgeable cipher, in any history in which an adversary may drop, duplicate, reorder, delay and inject datagrams and crash or restart the server, every command forwarded corresponds to a packet a key holder produced, and no two forwarded commands correspond to the same packet.", "quantifier": "all adversarial network behaviours and histories", "why_tests_cant": "adversarial schedules", "anchors": ["src/server/listener.rs", "src/server/handler.rs", "src/server/blocklist.rs"]}
{"id": "C39", "title": "A single well-behaved client never locks itself out", "statement": "If one client is the only user of its key, then whatever packets are lost, duplicated, reordered or replayed and however often client and server crash or restart, the client's next packet always carries a counter above the server's stored one (provided the server seeded the key no later than the client's counter), so it is never rejected as a replay.", "quantifier": "all network and crash schedules", "why_tests_cant": "schedules", "anchors": ["src/client/counter.rs", "src/server/blocklist.rs", "src/server/handler.rs"]}
{"id": "C40", "title": "Reseeding recovers a lagging client", "statement": "The documentation states that after reseeding, the local counter 'will be higher than any value the server has seen', so packets are accepted again.", "quantifier": "all server states and clocks", "why_tests_cant": "clock-relationship over histories", "anchors": ["src/client/mod.rs: run_client (Reseed)", "src/client/counter.rs: reseed", "README.md (troubleshooting)"]}
{"id": "C41", "title": "Atomic file replacement", "statement": "At whatever step a file write is interrupted (process crash or power loss), a reader of the target path sees either the complete old content or the complete new content, never a mixture or an empty file; if the call reports an error the old content is still there; if it reports success a later process reads the new content.", "quantifier": "all contents, all crash points, all failing steps", "why_tests_cant": "crash points between system calls and partial writes", "anchors": ["src/common/fs.rs: write_atomic, write_atomic_with_mode"]}
{"id": "C42", "title": "The wizard never overwrites operator configuration", "statement": "Running the set-up wizard any number of times leaves an existing config.toml and commands.toml byte-for-byte unchanged and ends with commands.toml readable by its owner only; a fresh install gets the shipped templates; success is reported only if the services were started.", "quantifier": "all pre-existing file systems, any number of runs, any failure point", "why_tests_cant": "arbitrary prior states", "anchors": ["src/client/wizard/core.rs: init_config_file, init_commands_file, write_data"]}
{"id": "C43", "title": "Updates are verified before anything is touched", "statement": "If any binary or signature of a release is missing, undownloadable, oversized or fails verification, no file in the installation directory is changed; every byte string installed was verified against the release key with the signature published for it.", "quantifier": "all release metadata, downloads and signatures", "why_tests_cant": "all failing combinations", "anchors": ["src/client/update/mod.rs: update", "src/client/update/filesystem.rs: download_and_verify_bin, download_bytes"]}
{"id": "C44", "title": "Updates are all-or-nothing", "statement": "If applying an update fails part-way, every binary in the installation directory is as before the update, so old and new binaries never coexist.", "quantifier": "all prior directory contents, all failure points", "why_tests_cant": "all failure points and prior states, including left-over backups", "anchors": ["src/client/update/mod.rs: swap_all", "src/client/update/filesystem.rs: save_bin, rollback_bin"]}
{"id": "C45", "title": "No implicit downgrade", "statement": "An update without --version and --force never installs a release whose version is lower than the running one when both versions are of the form vX.Y.Z with 64-bit numbers; version comparison is a strict total order on such versions; an explicit version installs exactly that release or fails; with --force or an explicit other version the running version makes no difference.", "quantifier": "all version strings and release lists", "why_tests_cant": "order laws over all numbers", "anchors": ["src/client/update/mod.rs: update, is_downgrade", "src/client/update/github.rs: get_github_api_data_from"]}
{"id": "C46", "title": "Release and asset selection", "statement": "Without --version the first non-prerelease in the list is chosen; with it the first release with exactly that tag; each downloaded asset is the one whose name is exactly prefix-tag-arch-os (and .sig), never a similarly named one.", "quantifier": "all release lists and asset names", "why_tests_cant": "all lists", "anchors": ["src/client/update/github.rs: get_github_api_data_from", "src/client/update/mod.rs: get_download_url"]}
{"id": "C47", "title": "RUROCO_IP is inert text", "statement": "The value of RUROCO_IP seen by a command is the canonical text of the IP: it is non-empty, consists only of the characters 0-9 a-f : . and identifies the address uniquely, so no client can inject shell syntax through it.", "quantifier": "all addresses", "why_tests_cant": "2^128 addresses", "anchors": ["src/commander/exec.rs: spawn_and_wait (env RUROCO_IP)", "std::net Display"]}
{"id": "C48", "title": "IP text parsing agrees with formatting", "statement": "Parsing the canonical text of any IP address yields that address, so '--ip', the server's 'ips' list and the value shown to commands agree on every address.", "quantifier": "all addresses", "why_tests_cant": "2^128 addresses; zero-run compression cases", "anchors": ["src/client/send/core.rs: Sender::create", "src/server/config.rs: deserialize_ips", "std::net FromStr/Display"]}
{"id": "C49", "title": "Saved command text round trip", "statement": "In the UI, the text line shown for a saved command parses back to the same command (all fields), provided address, command and IP contain no white space; the text shown for a whole list reads back as that list, in the same order, and a file of an older version, which holds such lines, is loaded as exactly these commands.", "quantifier": "all field values, all lists", "why_tests_cant": "all strings", "anchors": ["src/ui/command_data.rs: data_to_command, command_to_data", "src/ui/saved_command_list.rs: Display, create", "src/ui/tabs/dashboard_config.rs"]}
{"id": "C50", "title": "Saved command list behaves as a sorted multiset", "statement": "After any sequence of add, remove and set the list is sorted by (command, address), adding adds exactly one copy and loses nothing, removing removes exactly the equal entries, and reloading from disk yields the same list.", "quantifier": "all operation sequences", "why_tests_cant": "all histories", "anchors": ["src/ui/saved_command_list.rs"]}
{"id": "C51", "title": "Command status is tracked per command", "statement": "The colour of a saved command always reflects the result of the last execution of a command with the same fields since it was last deleted, and is grey if there was none; executions of other commands never change it.", "quantifier": "all sequences of executions and deletions", "why_tests_cant": "histories", "anchors": ["src/ui/app/execute_state.rs", "src/ui/tabs/execute.rs"]}
{"id": "C52", "title": "Replay-state file round trip", "statement": "The replay-state file written by the server is read back by the next start to exactly the same per-key counters, for every set of keys and counters and every iteration order of the map; a truncated file is refused, and whatever is accepted has 8-byte ids, each at most once.", "quantifier": "all maps from key ids to u128 counters", "why_tests_cant": "all maps and values", "anchors": ["src/server/blocklist.rs: save, create"]}
{"id": "C53", "title": "One send executes a command at most once", "statement": "A single user 'send' to a host that resolves to both IPv4 and IPv6 results in at most one execution of the command.", "quantifier": "all sends and resolver answers", "why_tests_cant": "end-to-end composition", "anchors": ["src/client/send/network.rs: get_destination_ips, send_data", "src/server/handler.rs"]}
{"id": "C54", "title": "Download size cap", "statement": "An update never keeps more than 100 MiB of any asset in memory beyond one extra byte, and any asset larger than that is refused, whatever the server sends; an asset of at most that size is received unmodified.", "quantifier": "all response bodies", "why_tests_cant": "all sizes including the boundary", "anchors": ["src/client/update/filesystem.rs: download_bytes"]}
{"id": "C55", "title": "A successful file write survives a power loss", "statement": "When a file write (replay state, client counter, saved commands, key file) reports success, the new content is still there after a power loss.", "quantifier": "all contents, prior states and failing steps", "why_tests_cant": "needs a power-loss model", "anchors": ["src/common/fs.rs: write_atomic_with_mode (directory fsync)"]}
{"id": "C56", "title": "Only datagrams of exactly the protocol size are processed", "statement": "A UDP datagram whose size is not exactly 94 bytes is rejected as having the wrong size and never acted upon.", "quantifier": "all datagrams", "why_tests_cant": "tests send short packets, not a valid packet with trailing bytes", "anchors": ["src/server/listener.rs: run, run_loop_iteration"]}
{"id": "C57", "title": "A second server start does not weaken replay protection", "statement": "Starting a second server process on the same state directory while one is running (which then fails to bind) never lowers a counter stored on disk.", "quantifier": "all interleavings of the file operations of two processes", "why_tests_cant": "needs interleaving two processes at system-call granularity", "anchors": ["src/server/listener.rs: Server::create", "src/server/blocklist.rs: create, save"]}
{"id": "C58", "title": "After set-up the server can read its configuration", "statement": "After the set-up wizard reports success, the user the server service runs as (User=ruroco in the installed unit) is able to read config.toml.", "quantifier": "all prior states of the machine", "why_tests_cant": "tests run as one user and never start the installed units; needs ownership and modes over all prior states", "anchors": ["src/client/wizard/core.rs: init_config_file", "systemd/ruroco.service: User"]}
{"id": "C59", "title": "A failed update leaves the server executable", "statement": "If the server's user could execute the server binary before an update, it can do so after the update, whether the update succeeded or failed.", "quantifier": "all prior directory contents, all failure points of an update", "why_tests_cant": "tests run as one user, where ownership never changes", "anchors": ["src/client/update/filesystem.rs: save_bin, rollback_bin", "src/client/update/mod.rs: swap_all"]}
{"id": "C60", "title": "The UI's temporary key file is private and short-lived", "statement": "Executing a saved command from the UI writes the key to a temporary file that at every moment, including after a crash at any point, gives no access to group or others; when the execution has returned that file is gone, unless removing it failed; apart from it and the counter's own files no file changes.", "quantifier": "all keys, commands, umasks, failing calls and crash points", "why_tests_cant": "needs the state between system calls and at crash points", "anchors": ["src/ui/tabs/execute.rs: exec_command, write_key_file"]}
{"id": "C61", "title": "Saving the unedited command text changes nothing", "statement": "In the UI, pressing save on the command text without having edited it leaves the saved list unchanged.", "quantifier": "all histories of additions, deletions, executions, edits, resets and restarts before the save", "why_tests_cant": "histories mixing two tabs of the UI; tests drive each tab alone", "anchors": ["src/ui/tabs/dashboard_config.rs", "src/ui/tabs/execute.rs: delete", "src/ui/app/mod.rs"]}
{"id": "C62", "title": "A saved command list that cannot be loaded is preserved", "statement": "If the saved command list cannot be read or parsed at start-up, the UI keeps the file (as its log message says), so that no saved command is lost.", "quantifier": "all file contents, read failures and later actions", "why_tests_cant": "needs an injected read failure followed by a history of actions", "anchors": ["src/ui/saved_command_list.rs: create, read_raw_from_path, save"]}
{"id": "C63", "title": "A datagram says what the user asked for", "statement": "Every datagram a send transmits, whatever fails or crashes during it, opens under the key in the key file to the requested command, strict unless --permissive was given, the destination it is sent to, and exactly the address given with --ip, or none. If the settings are unusable (another client is running, the address has no usable port, --ip is not an address, the key is unreadable or malformed) the send fails, sends nothing and uses up no counter.", "quantifier": "all send options, keys, host resolutions, random bytes, failing calls and crash points", "why_tests_cant": "needs the content of every datagram under every failure, not one happy path", "anchors": ["src/client/send/core.rs: Sender::create, get_data_to_encrypt", "src/client/send/network.rs: send_data", "src/client/mod.rs: run_client"]}
{"id": "C64", "title": "A revoked key is dead", "statement": "Every command the server forwards comes from a packet that authenticates under a key found in the key directory by the most recent start. So once a key's file is deleted and the server restarted, nothing sent under that key id is acted on, whatever the stored replay state says and however often the server crashes or restarts, until a start finds a key with that id again.", "quantifier": "all histories of starts with any directory contents, packets, kills, power cuts and failures", "why_tests_cant": "needs histories over restarts with changing key directories and adversarial packets", "anchors": ["src/server/keys.rs", "src/server/listener.rs: Server::create", "SECURITY.md: Key lifecycle"]}
{"id": "C65", "title": "Clients with different keys do not disturb each other", "statement": "What the server does with the packets of one key is the same whatever packets of other keys (valid, replayed or garbage) arrive in between and whatever other keys the server holds: the same commands in the same order and the same last accepted counter, as long as the rate limiter refuses nothing.", "quantifier": "all interleavings of packets of any number of keys, all clock readings, all other keys and their replay state", "why_tests_cant": "quantifies over all interleavings of several clients' traffic", "anchors": ["src/server/handler.rs", "src/server/blocklist.rs", "SECURITY.md: One key per client"]}
{"id": "C66", "title": "The settings in force are those of the file", "statement": "The server and the commander each accept config.toml exactly if every setting they know is of the right kind and range and the required one is present; they then work with the values of the file, and with the documented default for every setting the file leaves out, whatever the order of the settings.", "quantifier": "all files, all values of all settings, all orders", "why_tests_cant": "one test per setting cannot cover combinations, orders, ranges and kinds", "anchors": ["src/server/config.rs: ConfigServer::deserialize", "src/commander/config.rs: ConfigCommander::deserialize"]}
{"id": "C67", "title": "No setting is silently without effect", "statement": "Every key in config.toml and in the table of a command either takes effect or makes the program that reads the file refuse it.", "quantifier": "all files, all keys", "why_tests_cant": "quantifies over all possible keys", "anchors": ["src/server/config.rs", "src/commander/config.rs"]}
{"id": "C68", "title": "Server and commander meet at the same socket", "statement": "If both programs accept the same config.toml, the server sends to the socket the commander listens on: for absolute directories always, for relative ones if both are started in the same working directory.", "quantifier": "all files, working directories and symbolic links", "why_tests_cant": "each side is tested alone; the agreement is over all files", "anchors": ["src/common/ipc.rs: get_commander_unix_socket_path", "src/common/fs.rs: resolve_path", "src/server/keys.rs", "src/commander/mod.rs: Commander::create"]}
{"id": "C69", "title": "commands.toml means what it says", "statement": "The commander accepts commands.toml exactly if it has a table of commands in which every entry is a text or a table with a text and perhaps a time limit; each command then runs with the text and the limit given there (thirty seconds if none is given), and nothing else can be run.", "quantifier": "all files, all names, all received hashes", "why_tests_cant": "quantifies over all files and all received hashes", "anchors": ["src/commander/config.rs: ConfigCommands, CommandValue, get_hash_to_cmd", "src/commander/mod.rs: Commander::create"]}
{"id": "C70", "title": "The shipped fail2ban filter catches offenders", "statement": "Every complaint the server logs that names a sender (a datagram of the wrong size, too many datagrams) is counted by the fail2ban filter shipped with ruroco as an offence of that sender.", "quantifier": "all senders, times of day, sizes, limits, process ids, numbers of suppressed complaints", "why_tests_cant": "the filter and the program that writes the log are separate files; no test runs one against the other, and the texts vary in address, time and counts", "anchors": ["fail2ban/filter.d/ruroco.conf", "src/common/logging.rs: error, get_date_time", "src/server/error_throttle.rs", "src/server/rate_limiter.rs: check", "src/server/listener.rs: receive"]}
{"id": "C71", "title": "A connection without a request is dropped within a second", "statement": "If a connection to the commander does not deliver a complete request, the commander gives up on it after one second and turns to the next connection.", "quantifier": "all peers: everything they may send, and when", "why_tests_cant": "quantifies over all timings of all bytes a peer may send", "anchors": ["src/commander/mod.rs: run_cycle, read"]}
{"id": "C72", "title": "Waiting for other requests is bounded", "statement": "Commands run one after the other. However many connections are waiting, each is served after at most the number of those before it times a fixed time, which depends on the largest configured time limit only, whatever the peers send and whatever their commands do.", "quantifier": "all queues of connections, all timings of their bytes, all behaviours of the commands started", "why_tests_cant": "quantifies over all queues and timings", "anchors": ["src/commander/mod.rs: run, run_cycle", "src/commander/exec.rs: spawn_and_wait"]}
{"id": "C73", "title": "A successful update leaves the release installed", "statement": "If `ruroco-client update` reports success, the binaries it is for (client, or server side with --server) in the installation directory are those of the chosen release.", "quantifier": "all installations (also mixed or partly old ones), all running versions, all releases offered, all failures", "why_tests_cant": "quantifies over all combinations of running and installed versions", "anchors": ["src/client/update/mod.rs: update"]}
{"id": "C74", "title": "An update touches its directory only", "statement": "`ruroco-client update` changes files only in the directory given with --bin-path, else in /usr/local/bin with --server, else in .local/bin of the home directory, and there only the binaries with their copies and temporary files; if the directory can not be used, it fails without touching anything.", "quantifier": "all arguments, environments, file systems, failures and crash points", "why_tests_cant": "quantifies over all file systems, failures and crash points", "anchors": ["src/client/update/mod.rs: Updater::create, update", "src/client/update/filesystem.rs: check_if_writable, validate_dir_path"]}
{"id": "C75", "title": "Installed binaries are those signed for the release", "statement": "Nobody without the signing key can make an update install anything but the binary that the makers signed as that program of that release, even if they control what is offered for download.", "quantifier": "all answers of the download server, all binaries ever signed", "why_tests_cant": "quantifies over everything an attacker could serve", "anchors": ["src/client/update/filesystem.rs: download_and_verify_bin", "src/client/update/mod.rs: update", "SECURITY.md: Supply-chain"]}
{"id": "C76", "title": "One counter and one lock per user", "statement": "Wherever the client or the interface of a user is started, it uses the same counter file, and the lock that guards it.", "quantifier": "all environments and working directories", "why_tests_cant": "quantifies over all working directories and environments", "anchors": ["src/client/config/mod.rs: get_conf_dir", "src/client/send/core.rs: get_counter_path", "src/client/mod.rs: run_client", "src/ui/mod.rs: run_ui"]}
{"id": "C77", "title": "Keys can be rotated without downtime", "statement": "Copying a new key file beside the old one, switching the client, and deleting the old file needs no interruption: at every moment the key in use by the client is accepted, and the retired key is not.", "quantifier": "all keys, all replay states, all datagrams", "why_tests_cant": "quantifies over all histories of key files, restarts and datagrams", "anchors": ["SECURITY.md: Rotation", "src/server/keys.rs", "src/server/blocklist.rs"]}
{"id": "C78", "title": "A compromised server can not trigger dormant commands", "statement": "A process that can write to the commander's socket, as a compromised server can, can trigger only commands whose requests it has observed from clients, never dormant ones.", "quantifier": "all messages, all installations, all commands", "why_tests_cant": "quantifies over all strategies of an attacker and all installations", "anchors": ["SECURITY.md: Command enumeration from a compromised server", "src/commander/mod.rs: run_cycle", "src/common/crypto/mod.rs: get_blake2b_64_hash"]}
{"id": "C79", "title": "Only what was configured and asked for is executed", "statement": "In a whole installation, set up by config.toml, commands.toml and key files, every command executed is one of commands.toml, executed for a datagram that an owner of one of the key files sealed for this host and within the limits configured; the address handed to it is the one the request names, or the sender's; each request executes at most once; and a request that reaches the commander executes its command.", "quantifier": "all configuration files, key directories, histories of datagrams, crashes, power losses and restarts, and failures of commander or socket", "why_tests_cant": "joins all parts of the system over unbounded histories", "anchors": ["src/server/config.rs: ConfigServer", "src/commander/config.rs: ConfigCommander, ConfigCommands", "src/server/listener.rs: run_loop_iteration", "src/commander/mod.rs: run_cycle"]}
{"id": "C80", "title": "The server writes its state file only", "statement": "Whatever it receives and whenever it dies, the server changes no file but the replay state in the configured directory and its temporary files beside it.", "quantifier": "all configuration files with an absolute directory, all histories", "why_tests_cant": "quantifies over all datagrams and crash points", "anchors": ["src/server/blocklist.rs: save, create", "src/common/fs.rs: write_atomic", "src/server/config.rs: ConfigServer"]}
{"id": "C81", "title": "Pasted text goes where it was asked for", "statement": "In the graphical client, text from the clipboard replaces the key (or the command text) only right after its paste button was pressed; otherwise the key is what the user typed or generated, and commands are executed with the key shown.", "quantifier": "all sessions: all sequences of clicks, texts, clipboard events, restarts and crashes", "why_tests_cant": "quantifies over all interleavings of user actions and clipboard answers", "anchors": ["src/ui/tabs/dashboard.rs: render_dashboard_tab", "src/ui/tabs/dashboard_key.rs", "src/ui/tabs/dashboard_config.rs", "src/ui/app/dashboard_state.rs"]}
{"id": "C82", "title": "Temporary files do not pile up", "statement": "The server and the client never leave more than a fixed number of temporary files in their directories, whatever fails and whenever they die.", "quantifier": "all histories of starts, datagrams, sends, reseeds, failing calls and crash points", "why_tests_cant": "quantifies over unboundedly many failures and crash points", "anchors": ["src/common/fs.rs: write_atomic_with_mode", "src/server/blocklist.rs: save", "src/server/handler.rs: update_block_list", "src/client/counter.rs: write"]}
{"id": "C83", "title": "A command that has timed out is gone", "statement": "Once a command is reported as timed out and killed, none of its processes runs any more; in particular it does not overlap with the command executed next.", "quantifier": "all commands: all trees of processes they may start, all instants of starting and ending, all time limits", "why_tests_cant": "quantifies over all process trees and timings", "anchors": ["src/commander/exec.rs: spawn_and_wait, run_command"]}
{"id": "C84", "title": "A hung commander can not stall the server", "statement": "However slow the commander is, even if it hangs, handing it a request takes the server a second at most; the server goes on receiving and deciding on datagrams.", "quantifier": "all sequences of accepted requests and their instants, all queue lengths, all service times of the commander including never", "why_tests_cant": "quantifies over all schedules of requests and of the commander", "anchors": ["src/server/handler.rs: write_to_socket", "src/commander/mod.rs: run", "src/commander/exec.rs: create_listener"]}
{"id": "C85", "title": "The client touches its own files and talks to the named server only", "statement": "Sending a request changes and reads no file but the counter, the temporary file written to replace it and the lock in the configuration directory (the key is an argument), and sends datagrams only to addresses that name resolution returned for the address the user gave; reseeding sends nothing. The graphical client changes in addition the list of commands and a temporary key file in the same directory; starting it changes nothing, and it sends nothing unless the button of a command is pressed, and then only to the addresses that command names.", "quantifier": "all file systems, commands, addresses, resolver answers, actions of the user and frames; all failures and deaths at any point; all histories of sends and reseeds", "why_tests_cant": "an unwanted effect can be anywhere; quantifies over all files and addresses and over failures at every call", "anchors": ["src/client/send/core.rs: Sender", "src/client/send/network.rs: send_data", "src/client/counter.rs: Counter", "src/client/mod.rs: run_client", "src/ui/tabs/execute.rs: write_key_file", "src/ui/saved_command_list.rs: CommandsList"]}
{"id": "C86", "title": "Every execution is on record", "statement": "For every command the commander starts, its log has a record with the text of the command, the address of the client it was started for, whether it was successful, and what it printed; there is no record of a command that was not started. The output of a running command can be read by the commander's user only and is removed afterwards.", "quantifier": "all sequences of connections, all failures of system calls, deaths of the commander at every point, all outputs of commands including ones that are not text", "why_tests_cant": "quantifies over all outputs and over the points at which the commander may die", "anchors": ["src/commander/mod.rs: run_cycle", "src/commander/exec.rs: run_command", "src/commander/exec.rs: execute_with_timeout", "src/commander/exec.rs: spawn_and_wait", "systemd/ruroco-commander.service: UMask"]}
{"id": "C87", "title": "The commander itself touches its own files only", "statement": "Starting, the commander creates the directory of its socket and touches only the socket and the lock file beside it. Serving requests, it touches only the files in which it captures the output of commands, and starts, kills and reaps only the commands requested; every other file changes only if one of these commands changes it.", "quantifier": "all configurations, file systems and sequences of connections with arbitrary contents; all failures and deaths at any point; all effects of commands", "why_tests_cant": "an unwanted effect can be anywhere; quantifies over all files and over failures at every call", "anchors": ["src/commander/mod.rs: run", "src/commander/exec.rs: create_listener", "src/commander/exec.rs: execute_with_timeout", "src/common/instance_lock.rs: InstanceLock"]}
{"id": "C88", "title": "Installing touches only the installation, and starts it only when it is complete", "statement": "Updating touches no file but the lock file, the binaries in the chosen directory with their .old copies and temporary files, and the file by which writing there is tried, and runs no program. The wizard touches in addition only the three unit files and the two configuration files; it runs useradd and three systemctl calls, in this order; systemd is told to reload, enable and start only when units, binaries and configuration are all in place, and no file is touched after that. Running the wizard again changes none of these files (other than .old copies).", "quantifier": "all file systems, options, releases and downloads, results of the programs run, failures of every call and deaths at any point; all pairs of successful runs", "why_tests_cant": "an unwanted effect can be anywhere; quantifies over failures at every call", "anchors": ["src/client/update/filesystem.rs: save_bin", "src/client/update/mod.rs: swap_all", "src/client/wizard/core.rs: run", "src/client/wizard/wizard_systemd.rs: start_systemd_services", "src/client/mod.rs: run_client"]}
{"id": "C89", "title": "A flood of datagrams made without a key does no lasting harm", "statement": "Whatever number of datagrams that open under none of the server's keys arrives (any sizes, sources, times): nothing is forwarded, no file is touched, and keys, settings and replay state stay as they were. A request that arrives a second after the last of them is treated exactly as it would have been before the flood. While the flood lasts, requests can be refused: enough datagrams with the forged source address of a client lock that client out for the rest of the second, enough with distinct addresses lock everybody out, whatever the limits are.", "quantifier": "all servers, limits, floods and earlier traffic, all later requests; all (monotone) times", "why_tests_cant": "ranges over floods of any length at any times on any server state", "anchors": ["src/server/listener.rs: run_loop_iteration", "src/server/rate_limiter.rs: RateLimiter", "src/server/config.rs: ConfigServer", "SECURITY.md: Rate limiting keyed on a spoofable source IP"]}
{"id": "C90", "title": "The key is used for sealing and opening only", "statement": "What a client does with its key could be done by anybody who knows the key's id and can have bytes sealed: two sends that differ only in keys with the same id that seal alike have the same outcome, files, messages and datagrams, whatever fails and wherever the process dies. The same holds over whole histories of sends and reseeds, and for the server over whole histories (starts with changing key directories, arbitrary datagrams, failures, crashes, power losses) with keys that open alike. So the key material reaches no file, no message to the commander and no datagram in any other form.", "quantifier": "all keys, requests, environments, system-call failures, crash points, client and server histories", "why_tests_cant": "a statement about pairs of executions with different secrets, for all of them", "anchors": ["src/common/crypto/handler.rs: CryptoHandler", "src/client/send/core.rs: Sender", "src/server/keys.rs: create_crypto_handlers", "SECURITY.md: Generation"]}
{"id": "C91", "title": "Every datagram is sealed with a nonce of its own", "statement": "Over every history of sends (complete, failing or cut short), reseeds and power losses, the nonces on the wire are draws of the system's random generator, in the order of drawing, and no draw is used for two datagrams; where the generator fails, nothing is sent. So two datagrams share a nonce only if the generator returns the same twelve bytes twice. Even then no two datagrams of a client that never reseeds carry the same plaintext.", "quantifier": "all keys, requests, destinations, random draws, system-call failures, crash points and histories", "why_tests_cant": "a statement about all pairs of datagrams over all histories; a test sees the nonces of a few sends", "anchors": ["src/common/crypto/handler.rs: CryptoHandler", "src/client/send/core.rs: Sender", "SECURITY.md: Nonce"]}
{"id": "C92", "title": "The shipped systemd units permit what the programs need, and the settings fit them", "statement": "Inside the sandbox described by the shipped units, everything the server does over any history in a state directory left writable by its unit, and everything the commander does when it starts and serves, is permitted: paths, system calls, socket families, capabilities. With a state directory elsewhere no start of the server succeeds. The server starts only with the socket handed over by systemd (exactly when LISTEN_PID and LISTEN_FDS are right and RUROCO_LISTEN_ADDRESS is unset), never with the address of config.toml; its port is the client's default. The shipped config.toml is read by both programs and names a writable state directory, a read-only key directory and one socket, in the directory systemd makes for the commander.", "quantifier": "all histories of the server, all start and serving runs of the commander, all state directories, configurations, environments and working directories", "why_tests_cant": "needs all executions to be compared with what a sandbox permits; tests run outside it", "anchors": ["systemd/ruroco.service: ProtectSystem", "systemd/ruroco-commander.service: CapabilityBoundingSet", "systemd/ruroco.socket: ListenDatagram", "config/config.toml: blocklist_dir", "src/server/socket.rs: create_server_udp_socket", "src/server/blocklist.rs: Blocklist"]}
{"id": "C93", "title": "Traffic can not grow what the server keeps, nor what a datagram costs", "statement": "Over any history the server remembers no more counters than there are keys known to the installation (named by the replay state of the beginning or found by a start), and its replay state file takes at most 35 bytes per such key and 6 besides, however many datagrams arrive and whatever they contain. One datagram causes at most nine system calls that are visible outside, and a history at most nine per datagram and fifteen per start.", "quantifier": "all histories of starts, datagrams, failing calls, crashes, kills and power losses; all datagrams; all initial disks", "why_tests_cant": "growth shows only over unbounded traffic; tests send a few datagrams", "anchors": ["src/server/blocklist.rs: Blocklist", "src/server/handler.rs: validate_and_send_command", "src/server/keys.rs: create_crypto_handlers", "src/common/fs.rs: write_atomic"]}
{"id": "C94", "title": "Stopping the server is prompt and finishes what is being processed", "statement": "After SIGTERM or SIGINT the server stops within a bounded time and receives at most one more datagram; a datagram that is being processed when the signal comes is finished: if it was accepted, it is handed to the commander.", "quantifier": "all instants of the signal, all durations of waiting and processing, all sequences of datagrams, all failing system calls, all states of the commander's queue", "why_tests_cant": "the outcome depends on the instant of the signal relative to each system call", "anchors": ["src/server/signal.rs: install_signal_handlers, handle_signal", "src/server/listener.rs: run", "src/server/handler.rs: write_to_socket, send_command"]}
{"id": "C95", "title": "The server's log is true and complete", "statement": "The server's log can be relied on: whatever is handed to the commander was announced before, with the key id, the request, its counter, the counter stored so far and the address; an announcement is written only about a legitimate request; \"Successfully sent\" is written only if the whole message was handed over and the counter was on disk; a reported failure means that nothing was done; every datagram is accounted for; a failure to carry out an accepted request is logged as an error; no datagram can forge a line.", "quantifier": "all datagrams, sources, server states and histories of the receive loop, all failing system calls and crash points, all times of the throttle", "why_tests_cant": "what is written depends on which of the system calls fails, and on the failures of the last five seconds", "anchors": ["src/server/handler.rs: validate_and_send_command, send_command", "src/server/error_throttle.rs: ErrorThrottle::log", "src/server/listener.rs: run, run_loop_iteration", "src/common/logging.rs: info, error"]}
{"id": "C96", "title": "A command line means what it says, or nothing happens", "statement": "The client does what its command line says: an option counts however it is written (long, short, joined, with or without an equals sign) and in any order, what is not given has its documented default, and every request can be written. A command line with an unknown option, a repeated one, a missing value or a missing address or key file has no effect at all; in particular the next option is never taken for a missing value. A datagram leaves only for a `send`, and carries the command, the claimed address and the mode that the command line names, sealed with the key in the named file. Other programs are run only for `wizard`. Server and commander read the files named on theirs, or the defaults; the shipped units name the files that the wizard writes.", "quantifier": "all lists of arguments, all tables of flags and options with one value, all worlds, failures and crash points", "why_tests_cant": "the number of ways to write a command line is unbounded, and what matters is how the options interact", "anchors": ["src/client/config/mod.rs: CliClient, CommandsClient", "src/client/config/commands.rs: SendCommand, UpdateCommand", "src/client/mod.rs: run_client", "src/server/config.rs: CliServer", "src/commander/config.rs: CliCommander", "systemd/ruroco.service: ExecStart", "systemd/ruroco-commander.service: ExecStart"]}
{"id": "C97", "title": "Set up as documented, a request runs its command", "statement": "Put a key printed by `ruroco-client gen` into the server's key directory and into the client's key file, write a config.toml and a commands.toml, and start the three programs with command lines that name these files. Then, with working disks and sockets, the server and the commander start, the server sends to the very socket the commander made, the client sends one datagram to each address of the host, and the first of them that the server receives makes it hand over exactly one message, on which the commander runs exactly the text that commands.toml has for the command named on the client's command line, once, for the address claimed or else the sender's; the same datagram never does so again. What has to hold is only: the address is in the server's `ips`, a claimed address is the sender's unless `--permissive`, the client's counter is not below the server's clock at its start and not beyond the tolerated skew, and the commander may act for the address.", "quantifier": "all key bytes, command lines, configuration tables, key directories, hosts, clock readings, rate limits of at least one, sender addresses", "why_tests_cant": "it composes the command lines, both configuration files, key loading, start-up, the counter, sealing, all checks and the commander; tests run single combinations of them", "anchors": ["src/bin/server.rs: main", "src/bin/commander.rs: main", "src/bin/client.rs: main", "src/server/listener.rs: Server::create_from_path, run_server", "src/commander/exec.rs: run_commander", "src/commander/mod.rs: Commander::create_from_paths", "src/client/gen.rs: Generator::gen", "src/client/send/mod.rs: Sender::send", "README.md: server config, client config"]}
{"id": "C98", "title": "With a shared key the counters alone decide who is served", "statement": "Several machines use the same key, each with its own counter file, and send requests to one server in any order. The server then acts on exactly those requests whose counter is above the server's counter at first and above that of every request acted on before; each machine's requests carry its own counter, going up by one. So a machine whose counter is ahead of the server and of everything the others reach has every request served, and from its first request on nobody else is served; and a machine that is reseeded with a clock ahead of all of them becomes that machine. Who sent last does not matter, and a machine that lags behind is served again as soon as its own counter has passed.", "quantifier": "all numbers of machines, counters, orders and numbers of sends, commands, destinations per send, claimed addresses", "why_tests_cant": "the outcome depends on the interleaving of all machines' histories; the tests use one client", "anchors": ["src/client/counter.rs: Counter", "src/client/send/mod.rs: Sender::send", "src/client/mod.rs: run_client", "src/server/blocklist.rs: Blocklist", "src/server/handler.rs: validate_and_send_command, update_block_list", "README.md: server rejects packets from one client"]}
{"id": "C99", "title": "On a phone the key is there again after a restart", "statement": "On a phone the graphical client shows, after it is closed and opened again, the key that was in the field before, however it got there (typed, generated, pasted, stored earlier), whatever else the user did; also after it was killed, once the system has written what it was given. A frame in which the user does not change the key changes neither the field nor what is stored.", "quantifier": "all histories of openings, frames with any user actions, closings and deaths on a phone; all results of the system's calls", "why_tests_cant": "needs a phone; and it concerns the order of edits, stores and deaths over whole histories", "anchors": ["src/ui/app/dashboard_state.rs: DashboardState::load_persisted_key, save_key, persist_key", "src/common/android/prefs.rs: AndroidPrefs::get_string, put_string", "src/ui/tabs/dashboard_key.rs: render", "src/ui/tabs/widgets.rs: Widgets::paste_button"]}
{"id": "C100", "title": "On a phone the keyboard follows the focus, and an update opens the newest package", "statement": "On a phone the soft keyboard is on the screen after a frame if a text field has the focus and is not if none has, whatever was dismissed or failed before, provided the call of that frame works; and while nothing has the focus the system is asked to hide it at most once. \"Update Application\" opens only the address of the first `.apk` file of the newest release that is not a pre-release, and reports success only if there is one (whether the browser really opened is not reported, and the version in use is not compared).", "quantifier": "all sequences of frames, dismissals and failing calls; all answers of the release list", "why_tests_cant": "needs a phone; the state of the keyboard depends on the whole history of frames", "anchors": ["src/common/android/keyboard.rs: AndroidKeyboard::ensure_visible", "src/ui/app_frame.rs: App::ui", "src/ui/android.rs: update_android", "src/client/update/github.rs: Updater::get_github_api_data"]}
{"id": "C101", "title": "A wrong clock delays service and has no other effect", "statement": "Whatever the clocks of the clients and of the server say, also when the server's is set forth and back: a request is refused because of a clock only if its counter is further ahead of the server's clock than the tolerated skew, and such a request changes nothing for any other. If one machine alone uses the key and its counter is not behind the server's, exactly the requests not too far ahead are served; so once the server's clock has caught up every request is. The client's own clock has no influence after the counter was first set; reseeding with a clock that is behind is what locks the machine out.", "quantifier": "all sequences of requests by any number of machines with one key, all clock readings on all sides at every step", "why_tests_cant": "the tests use one clock; the effect of a wrong clock shows in later requests and depends on all earlier ones", "anchors": ["src/server/handler.rs: validate_and_send_command", "src/client/counter.rs: Counter", "src/client/mod.rs: run_client", "src/server/blocklist.rs: Blocklist", "docs/src/architecture/security.md: Clock sanity", "README.md: reseed"]}
{"id": "C102", "title": "What is asked for can not be seen", "statement": "Somebody who watches a client without having its key - its datagrams, its pauses, even everything it does with files - can not tell what it asks for: which command, for which address, strict or permissive. Number, order, destinations, key ids, nonces and sizes of the datagrams, the files left behind and the outcome do not depend on it; the request leaves the client in no form but encrypted. What does stay visible is which key is used.", "quantifier": "all pairs of requests that go to the same server with the same choice of address families and pause, all histories of such pairs with reseeds, power losses and other processes, all failing system calls and crash points", "why_tests_cant": "that something is independent of a secret is a statement about pairs of runs; a test sees one", "anchors": ["src/client/send/core.rs: Sender", "src/client/send/network.rs: send_data", "src/common/protocol/parser.rs: DataParser", "src/common/crypto/handler_ops.rs: encrypt", "docs/src/architecture/security.md: Confidentiality"]}
{"id": "C103", "title": "The Execute button does what the command line does", "statement": "Pressing the button of a saved command in the graphical client asks for what is on the screen and for nothing else: every datagram opens under the key in the key field to the shown command, strict unless shown as permissive, claiming the address in the IP field (blanks ignored) or none if that is blank, and goes to an address of the shown host, whatever fails in between. The button turns green only if a datagram was handed to the network. If nothing fails it does turn green, the datagrams are byte for byte those of the command line client with the same options, and the server and the commander run the command once.", "quantifier": "all saved commands, keys, file systems, names drawn for the temporary key file, resolver results, random bytes, failing system calls and crash points", "why_tests_cant": "the key takes a detour through a temporary file, every step of which can fail; the tests press one button in an environment where nothing does", "anchors": ["src/ui/tabs/execute.rs: exec_command", "src/ui/tabs/execute.rs: write_key_file", "src/client/send/core.rs: Sender", "src/ui/app/execute_state.rs: color_for"]}
{"id": "C104", "title": "Saving keeps a file as private as it was", "statement": "A file that its user has made private stays so: whatever the server or the client save, and wherever they fail or are killed, no file becomes accessible to group or others that was not accessible to them before.", "quantifier": "all histories of the server (starts, datagrams, kills) and of the client (sends, reseeds), all failing system calls and crash points, all permissions of the files before, all umasks", "why_tests_cant": "every save replaces the file by a new one; the permissions afterwards depend on the umask and on where the save stopped, while the tests look at the content only", "anchors": ["src/common/fs.rs: write_atomic", "src/common/fs.rs: write_atomic_with_mode", "src/server/blocklist.rs: Blocklist", "src/client/counter.rs: Counter", "src/ui/saved_command_list.rs: CommandsList"]}
{"id": "C105", "title": "The server is a gate with one number per key", "statement": "Whatever happens to an installation (starts, datagrams, failing system calls, kills at any point, power losses), seen from outside it is a gate that remembers one number per key: it lets a request through exactly if its number is larger than the one remembered (and the other conditions hold), then remembers that number; what it hands to the commander, what its file says and whether it runs are those of the gate. Files, temporary names, buffers and crash points do not show.", "quantifier": "all histories of any length of starts, datagrams, kills, power losses and unrelated activity, every failing system call and crash point, all configurations and key directories", "why_tests_cant": "tests run one order of events against one state; that every order, failure and crash point stays within the simple description is a statement about all of them", "anchors": ["src/server/listener.rs: Server::create", "src/server/listener.rs: Server::run", "src/server/listener.rs: run_loop_iteration", "src/server/handler.rs: validate_and_send_command, update_block_list", "src/server/blocklist.rs: Blocklist", "src/server/rate_limiter.rs: RateLimiter", "src/server/keys.rs: create_crypto_handlers"]}
{"id": "C106", "title": "The services come back by themselves", "statement": "Under the shipped units, a server that has ended (it gives up on a failing socket, is killed, or its start fails) comes back by itself as soon as it can be started again, without anybody doing anything.", "quantifier": "all machines whose ability to start the server changes over time in any way, all instants of failure, all durations of the processes", "why_tests_cant": "quantifies over all sequences of failures over time and over systemd's start limit, which no test of the program sees", "anchors": ["systemd/ruroco.service: Restart", "systemd/ruroco-commander.service: Restart", "src/server/listener.rs: run (comment on Restart=always)", "src/server/listener.rs: Server::create", "src/bin/server.rs: main"]}
{"id": "C107", "title": "The line of a saved command is a command line", "statement": "The line the graphical client shows for a saved command is a command line of the command-line client: with a key file added, it asks for exactly what the command's button asks for; and a `send` command line entered as a line becomes a saved command whose button asks for the same.", "quantifier": "all saved commands whose fields have no white space, all key files; all command lines whose options are written in full, in any order", "why_tests_cant": "quantifies over all texts in all fields and all orders of options", "anchors": ["src/ui/command_data.rs: data_to_command, command_to_data", "src/ui/tabs/execute.rs: exec_command", "src/client/config/commands.rs: SendCommand"]}
{"id": "C108", "title": "A service that runs, runs as it was told", "statement": "If the server runs, then its command line was understood, the file it names (or the default one) could be read and has complete and correct settings, and the server works with exactly these settings, with exactly the keys of the configured directory, on the socket that the environment or else the settings ask for. If any of this is missing, it ends with an error and has changed nothing. The same holds of the commander with its two files, its lock and the owner of its socket.", "quantifier": "all command lines, all contents of configuration files and key directories, all environments, all states of the file system, all failures of calls", "why_tests_cant": "quantifies over every command line, configuration, environment and file system; tests start the services with a few good files", "anchors": ["src/bin/server.rs: main", "src/bin/commander.rs: main", "src/server/listener.rs: create_from_path, create", "src/server/socket.rs: create_server_udp_socket", "src/server/config.rs: create_from_path", "src/commander/mod.rs: create_from_paths, create", "src/commander/exec.rs: create_listener"]}
{"id": "C109", "title": "The client is a numbering stamp", "statement": "Every history of a client (sends, reseeds, failures of any call, being killed at any point, power losses) looks from outside like the history of a stamp that shows one number: each datagram that leaves the machine carries the next number, after the stamp was safely set to it; nothing is sent only if the lock is held, the request cannot be understood, the counter file is illegible or something around the client fails; a new client begins after the time. Hence, as long as nobody reseeds, the numbers rise strictly and never fall below what the stamp showed; a send costs at most two numbers; a send without trouble gives every destination the next number and leaves the last one on the stamp; a reseed without trouble sets the stamp to the time.", "quantifier": "all histories of one client installation, all requests, keys, resolver answers, clocks, all failures and crashes at every system call, all power losses", "why_tests_cant": "an equivalence of behaviours over whole histories with crashes inside them; tests see single sends", "anchors": ["src/client/mod.rs: run_client", "src/client/send/core.rs: Sender::create, send, send_data", "src/client/counter.rs: create_and_init, inc, write, reseed", "src/client/lock.rs: acquire", "src/common/fs.rs: write_atomic"]}
{"id": "C110", "title": "Which texts are addresses", "statement": "A text (of a server address, of --ip, of a configured address) is taken as an IP address exactly if it is one by the grammar of RFC 4291: four decimal numbers below 256 without leading zeros, or eight groups of one to four hexadecimal digits in either case, with `::` for missing ones and possibly an IPv4 address for the last two. With a port it is taken exactly if it is such an address, in brackets and with an optional interface number if IPv6, then a colon and a decimal number below 65536. It is taken as the address that the text means; nothing else is accepted, with no text before or after. No text means two addresses.", "quantifier": "all texts and all addresses", "why_tests_cant": "an equivalence with a grammar over all texts; tests try a few dozen", "anchors": ["src/client/send/core.rs: ensure_port", "src/client/send/core.rs: Sender::create", "src/server/config.rs: deserialize_ips", "std: IpAddr::from_str, SocketAddr::from_str (as used by the code)"]}
{"id": "C111", "title": "What the graphical client shows is what the user did", "statement": "At every moment of a session the graphical client shows exactly what follows from the commands it read at its last start and from what the user did since, whatever happened to the disk, the network and the clock meanwhile: the tab last selected; the key last typed, pasted or generated, in clear only if the user made it so; the form as typed, without blanks in the command, and emptied but for the command by \"Add Command\"; the command text as typed or pasted, replaced by the list on \"Reset\", on \"Save\" and on \"Add Command\"; the list with the commands added, without those deleted, or as the text said when it was saved. \"Execute\" sends the command clicked with the key shown, does nothing else, and the colour tells whether that worked.", "quantifier": "all sequences of frames with any combination of clicks, typing and pastes in each, all restarts and crashes, all disks, all failures of writes and sends", "why_tests_cant": "a statement about every sequence of user actions and every failure; the tests click one button in one frame", "anchors": ["src/ui/app_frame.rs: ui", "src/ui/app/mod.rs: RurocoApp::new", "src/ui/tabs/dashboard.rs: render", "src/ui/tabs/dashboard_config.rs: render", "src/ui/tabs/dashboard_key.rs: render", "src/ui/tabs/create.rs: render", "src/ui/tabs/execute.rs: render", "src/ui/saved_command_list.rs: add, set, remove"]}
{"id": "C112", "title": "Commands are executed in the order in which they were asked for", "statement": "A user makes sends, one after the other, with a key nobody else uses; the network loses, repeats, delays and reorders the datagrams as it likes; client and server fail, are killed and restarted, lose power. Then the commands the commander executes for that key, in the order in which it executes them, belong to sends of the user in the order in which the user made them, no send being used more than once (twice, if it was not restricted to one address family: C53), and each execution is the one that send asked for: the command configured under the name given, for the address given with --ip. If the server has no other key, this accounts for everything that is executed.", "quantifier": "all histories of client, network, server and commander: any interleaving, crashes and power losses, deliveries in any order and multiplicity, any failures; excluded are forged datagrams, the cases of C16 and C55, and clocks that contradict each other at the first start or at a reseed (C39)", "why_tests_cant": "a statement about four programs and every schedule of the network; a delayed datagram of an earlier request must never be acted on after a later one", "anchors": ["src/client/send/core.rs: Sender::send", "src/client/counter.rs: Counter", "src/server/blocklist.rs: Blocklist::is_counter_replayed", "src/server/handler.rs: validate_and_send_command", "src/commander/exec.rs: run_command"]}
{"id": "C113", "title": "Clients at the same time behave like clients one after the other", "statement": "A user starts any number of clients at the same time, on the command line or graphically, in any number of windows. They are interleaved system call by system call; calls fail, processes are killed anywhere, the machine loses power, other programs run. Whenever no client is in the middle of a send or a reseed, the counter file (as it is, and as a power loss would leave it), the system calls made and the datagrams sent are exactly those of a history in which the same sends, reseeds and power losses happened one after the other, in the order in which they began. At most one client is ever in the middle of one, and it needs nobody else to finish. So what is proved of single runs, one after the other, holds of clients at the same time; in particular no counter is ever used twice.", "quantifier": "all numbers of processes, all interleavings of single system calls, all outcomes and crash points of each, all power losses, all actions of other programs on other files, all ways of cutting the client into steps", "why_tests_cant": "the number of interleavings of two sends alone is astronomical; races show only under particular schedules", "anchors": ["src/client/mod.rs: run_client", "src/client/lock.rs: ClientLock::acquire", "src/common/instance_lock.rs: InstanceLock::acquire", "src/ui/mod.rs: run_ui", "src/client/counter.rs: Counter", "src/client/send/core.rs: Sender"]}
{"id": "C114", "title": "The guarantees from client to command hold with clients at the same time", "statement": "Any number of clients of a user run at the same time, system call by system call, while the server receives datagrams, also from a client that is still in the middle of its send, from a network that loses, delays, repeats and reorders them and adds its own; processes are killed and both machines lose power. Whenever no client is in the middle of a send or reseed, both machines are as after a history in which every send and reseed happened at once, in the order in which they began, with the same events on the server in the same order: so whatever is proved of such histories holds. In particular, at every moment, what the commander executes belongs to sends in the order in which they began, none used more often than it has destinations, and is what that send asked for. Conversely every such history can happen.", "quantifier": "all numbers of client processes, all interleavings of their system calls with each other and with the server's events, all networks, all outcomes and crash points, all ways of cutting the client into steps", "why_tests_cant": "a test would have to stop clients between any two system calls and let the server act there, in all combinations", "anchors": ["src/client/mod.rs: run_client", "src/common/instance_lock.rs: InstanceLock::acquire", "src/client/send/core.rs: Sender", "src/client/counter.rs: Counter", "src/server/handler.rs: Server", "src/commander/mod.rs: Commander"]}
{"id": "C115", "title": "A key that was generated is where it was sent", "statement": "When `ruroco-client gen` reports success, whatever its standard output was sent to has received the text of the new key: 56 characters and nothing else. If it fails nothing is received. What is received in between, a part of the text, is never taken for a key by the client or the server.", "quantifier": "all random bytes, all amounts that standard output takes before writing to it fails, all outcomes of the calls before", "why_tests_cant": "a test would need a file that can take any given number of bytes only, and look at it after the process has ended", "anchors": ["src/client/gen.rs: Generator::gen", "src/client/mod.rs: run_client", "src/common/crypto/handler.rs: CryptoHandler::create", "src/bin/client.rs: main"]}
{"id": "C116", "title": "A server that runs can be reached", "statement": "When the server has started without an error, there is, for every one of its keys, every command and every sender, a datagram that makes it hand this command on: a configuration with which every request would be refused for ever is reported, not run.", "quantifier": "all configurations, keys, stored counters and outcomes of the calls during the start; all later datagrams, senders, times, crashes and changes by others", "why_tests_cant": "that nothing is ever handed on is a statement about all datagrams at all times", "anchors": ["src/server/config.rs: ConfigServer", "src/server/config.rs: deserialize_ips", "src/server/rate_limiter.rs: RateLimiter::check", "src/server/listener.rs: Server::create", "src/server/listener.rs: check_rate_limit"]}
{"id": "C117", "title": "A damaged replay-state file is noticed", "statement": "When the replay-state file was damaged since the server wrote it (a changed byte, a missing end, zeros), the next start fails with an error and leaves the file as it is; it never runs with counters other than those that were written.", "quantifier": "all replay states (for changed bytes: fewer than 65536 keys and counters below 2^64), all positions and values of the changed byte, all lengths a file can be cut to, all outcomes of the calls during the start", "why_tests_cant": "every byte of every possible file can be hit; a test tries one broken file", "anchors": ["src/server/blocklist.rs: Blocklist", "src/server/blocklist.rs: create", "src/server/blocklist.rs: save", "src/server/listener.rs: Server::create"]}
{"id": "C118", "title": "Losing the replay state lets nothing be executed again", "statement": "When the replay-state file is lost (deleted, the setting blocklist_dir changed, the disk replaced) or an older copy of it is put back, no datagram that was executed before is executed again after the next start.", "quantifier": "all histories before and after the loss, including failing calls, crashes and power losses; all datagrams", "why_tests_cant": "relates what is executed in two whole histories with arbitrary datagrams in both", "anchors": ["src/server/blocklist.rs: create", "src/server/blocklist.rs: seed_if_absent", "src/server/listener.rs: Server::create", "src/server/config.rs: blocklist_dir"]}
{"id": "C119", "title": "A captured packet works at one host only, and once", "statement": "When several servers have keys in common (one client key for a fleet) and no host is in the address lists of two of them, then whatever datagrams are delivered to which of them, in any order and as often as an adversary likes, and whatever fails, crashes or is restarted in between, every datagram is executed at most once in total: by at most one server, and there at most once.", "quantifier": "any number of servers, all histories of each with failing calls, crashes, restarts and power losses; all datagrams; all address lists without a common host, in any notation", "why_tests_cant": "ranges over tuples of whole histories with arbitrary datagrams in each", "anchors": ["src/server/handler.rs: validate_and_send_command", "src/server/config.rs: deserialize_ips", "src/server/blocklist.rs: is_counter_replayed", "src/server/keys.rs: create_crypto_handlers"]}
{"id": "C120", "title": "The executions can be read off the commander's journal", "statement": "Somebody who searches the text of the commander's journal for executions finds exactly those that took place, in order, each with the command, the address it was executed for and how it ended; nothing a command prints can look like an execution.", "quantifier": "all sequences of connections, all failures of system calls, all command texts, addresses and outputs", "why_tests_cant": "ranges over all texts a command may print and over all sequences of entries", "anchors": ["src/commander/exec.rs: run_command", "src/commander/exec.rs: execute_with_timeout", "src/common/logging.rs: info", "src/common/logging.rs: error", "src/commander/mod.rs: run_cycle"]}
{"id": "C121", "title": "The command asked for is the command run", "statement": "When a client asks for a command by its name, the command started is the one configured under that name, whatever other commands are configured and in whatever order the commander goes through its table.", "quantifier": "all names, all tables of commands and iteration orders, any hash function and in particular the one the programs use (BLAKE2b with 64 bits)", "why_tests_cant": "ranges over all names and tables; names of the same number are too rare to be met by testing, yet exist and can be found", "anchors": ["src/common/crypto/mod.rs: blake2b_u64", "src/commander/config.rs: get_hash_to_cmd", "src/common/protocol/client_data.rs: create"]}
{"id": "C122", "title": "An update replaces the program that was run", "statement": "If `ruroco-client update` had something to do and reports success, the client program that was run is the one of the chosen release afterwards (README: the directory is by default that of the current binary).", "quantifier": "all directories the program may be in, all options, all releases and downloads, all failures and crash points", "why_tests_cant": "ranges over every installation directory and every outcome of every system call; the tests install to directories of their own", "anchors": ["src/client/update/mod.rs: create", "src/client/update/filesystem.rs: save_bin", "src/client/update/filesystem.rs: validate_dir_path"]}
{"id": "C123", "title": "Bytes are where the documentation puts them", "statement": "Every datagram a client sends, every message from the server to the commander and the client's counter file have byte for byte the layout the documentation gives (order, places and sizes of the fields, most significant byte first, IPv4 addresses as IPv6-mapped ones), and nothing else in them; conversely server and commander understand whatever is built after that description. So programs of different versions, and clients written after the documentation, understand each other.", "quantifier": "all requests, keys, nonces, ciphers meeting their contract, all byte strings of the right size; all failures and crash points of a send", "why_tests_cant": "the tests write and read with the same code, which shows agreement of the two but not with the documentation; ranges over all values of all fields", "anchors": ["src/common/protocol/client_data.rs: serialize", "src/common/protocol/client_data.rs: deserialize", "src/common/protocol/serialization.rs: serialize_ip", "src/common/protocol/parser.rs: encode", "src/common/ipc.rs: CommanderData", "src/client/counter.rs: write"]}
{"id": "C124", "title": "A refusal in the server's log says why", "statement": "When the server does not act on a datagram, the error line about it (if the throttle lets one through) says why, and what it says is so: the reason, the key id, the counter, the stored counter or the limit it was compared with, the addresses, and how many earlier failures were suppressed. Two lines that read the same say the same; a line is one line and can not be taken for the announcement of an accepted request or for its outcome, whatever the datagram contains. The line also says who sent the datagram, and what went wrong if a counter could not be stored.", "quantifier": "all datagrams, source addresses and ports, server states, clock readings and failing system calls, all times of the throttle", "why_tests_cant": "a test compares a few texts; that a text is true of the state that produced it, and that no two different events give the same text, ranges over all states and all pairs of events", "anchors": ["src/server/listener.rs: run_loop_iteration", "src/server/listener.rs: decrypt", "src/server/handler.rs: validate_and_send_command", "src/server/handler.rs: update_block_list", "src/server/rate_limiter.rs: check", "src/server/error_throttle.rs: log", "src/common/crypto/handler_ops.rs: decrypt", "src/common/protocol/client_data.rs: deserialize"]}
{"id": "C125", "title": "What the client says about a send is so", "statement": "Of every destination it tries the client says, in order and once, either that the command was sent to it or that it could not be sent and why; \"Sent\" is said only after the datagram for that destination was handed to the network, and the reason of a failure is the true one: only if it names the network can a datagram have been handed over for that destination. Unless it is killed the client exits with success exactly if it has said \"Sent\" of some destination, and otherwise lists all failures. If it is killed at any point, what it had said before is still so. Two lines that read the same are about the same destination and, if they say \"Sent\", the same command.", "quantifier": "all commands, addresses, counters, outcomes of every system call, draws of randomness, points at which the process is killed", "why_tests_cant": "a test sees the output of a few sends that go well or fail in one way; agreement of output, exit status and network traffic ranges over every combination of failures and every point of death", "anchors": ["src/client/send/network.rs: send_data", "src/client/send/network.rs: socket_ctx", "src/client/send/core.rs: send", "src/client/send/core.rs: send_to_destinations", "src/client/counter.rs: inc", "src/bin/client.rs: main"]}
{"id": "C126", "title": "With debugging on, the log tells what became of every datagram", "statement": "If the variable RUROCO_LOG is the word debug (in capitals or not), and only then, the server also writes lines of the level DEBUG. They change nothing else in its log or its behaviour. With them, as long as the server runs, its standard output tells what became of each datagram, in the order of arrival: it can be cut into one report per datagram, which says that the request was passed on, or could not be passed on, or the true reason why it was refused, and begins with the address and port it came from; no refusal is held back, whatever was reported before. A line tells its level and its text, coloured or not, and the text of a DEBUG line tells source or reason.", "quantifier": "all sequences of datagrams (any bytes, any source), idle seconds, clock readings, outcomes of every system call, states of limiter, throttle and replay state; all values of the variable", "why_tests_cant": "a test looks at the output for a few datagrams; that the output of any run can be cut into reports without ambiguity, and that each report agrees with what was done, ranges over all runs and all failures of the operating system", "anchors": ["src/server/error_throttle.rs: log", "src/server/listener.rs: run_loop_iteration", "src/common/logging.rs: debug", "src/common/logging.rs: is_debug_log_level", "src/common/logging.rs: colorize"]}
{"id": "C127", "title": "What an update says is so", "statement": "The lines an update writes and the error it ends with are true. It says that a version is already in use exactly when there is nothing to do, and then does nothing. It says that the server binaries were updated, and asks for a restart, exactly when a server update that had something to do succeeded; then the verified binaries of the chosen release are in place. What it says it downloads is the file of the chosen release for this machine. If it says that it refuses a downgrade, it has changed nothing. If it fails while installing, the error names the binary it failed at, a binary that could not be rolled back is reported, and a binary listed as rolled back is what it was before.", "quantifier": "all sides, requested versions, release lists, downloads and verdicts on signatures, contents of the installation directory, outcomes of every system call", "why_tests_cant": "a test sees the output of a few updates, and of hardly any that fail halfway; that every line is true ranges over all release lists, all states of the directory and all failures of system calls", "anchors": ["src/client/update/mod.rs: update", "src/client/update/mod.rs: swap_all", "src/client/update/filesystem.rs: download_and_verify_bin", "src/client/update/filesystem.rs: rollback_bin"]}
{"id": "C128", "title": "What the wizard says is so", "statement": "The lines the wizard writes are true. It announces its steps in their order and without a gap, and no step before all earlier ones have succeeded; it says that the server side was installed successfully exactly if every step succeeded, and then the user exists, the verified binaries, the unit files and the configuration are in place, and systemd has reloaded, enabled and started the services. If it does not succeed, the step announced last is the one that went wrong. It says that the user exists exactly if useradd told so. It says that it creates the configuration or the file of commands only if that file was not there, or looking for it failed.", "quantifier": "all surroundings of a run: contents of all files, results of the four programs, release lists and downloads, outcomes of every system call, points at which the process dies", "why_tests_cant": "a test can not install a server, let alone with each step failing in each way; the statement ranges over all failures and all earlier contents of the files", "anchors": ["src/client/wizard/core.rs: run", "src/client/wizard/core.rs: init_config_file", "src/client/wizard/core.rs: write_data", "src/client/wizard/wizard_systemd.rs: create_ruroco_user", "src/client/wizard/wizard_systemd.rs: start_systemd_services"]}
