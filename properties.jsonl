{"id": "C01", "title": "All hosts finishing a lease ballot agree on the owner", "statement": "For one resource and one lease version, every host whose acquire completes the on-disk ballot and writes the ownership record writes the same owner (host id and generation) and timestamp, no matter how the sector reads and writes of the hosts interleave and which hosts stop, time out or fail in the middle, provided a host's ballots have growing (version, number) pairs, it starts no ballot for a version it has already committed, and a write that was reported failed does not reach the disk later.", "quantifier": "any number of hosts, any number of disks (majority rule), every interleaving of single-sector reads and writes, every subset of failed disk operations, every crash point", "why_tests_cant": "interleavings and crash points of n hosts on m disks are unbounded; a test runs a handful of schedules", "anchors": ["src/paxos_lease.c: run_ballot, write_dblock, paxos_lease_acquire", "src/diskio.c: majority_disks"]}
{"id": "C02", "title": "At most one host holds an exclusive lease", "statement": "At no time have two hosts both been told by acquire that they own the same resource exclusively while neither has released it nor been declared dead.", "quantifier": "all hosts, all histories of acquire/release calls, all schedules of their disk operations (including a host that is merely slow)", "why_tests_cant": "a violation needs a specific schedule of several hosts; absence needs all schedules", "anchors": ["src/paxos_lease.c: paxos_lease_acquire, write_new_leader, paxos_lease_release"]}
{"id": "C03", "title": "A live owner is not displaced", "statement": "If acquire (without force) goes on to run a ballot against a lease whose record names another host as owner, then on the basis of what it read that owner had released the lease, had re-joined with a newer generation, had its host id freed or taken over, or had not renewed its host id for longer than the host-dead time.", "quantifier": "every sequence of values read for the owner's host lease, every clock reading, every leader change during the wait", "why_tests_cant": "the wait loop runs for minutes and its exit depends on an unbounded stream of reads", "anchors": ["src/paxos_lease.c: paxos_lease_acquire lines 1647-1990"]}
{"id": "C04", "title": "Lease versions increase by one per change of ownership", "statement": "Every successful acquire returns a lease version exactly one larger than that of the record it was computed from, the record it leaves on disk carries that version with the caller's id and generation, and retries never lower it.", "quantifier": "every leader record, every ballot outcome, every number of retries", "why_tests_cant": "retries are unbounded and values range over 64-bit numbers", "anchors": ["src/paxos_lease.c: paxos_lease_acquire lines 1990-2190"]}
{"id": "C05", "title": "Release never frees somebody else's lease", "statement": "Release changes the on-disk owner to free only if the record read is at the version the caller acquired, names the caller (id and generation) as owner and is byte for byte the record the caller last saw; otherwise it writes nothing to the record.", "quantifier": "every record contents, every caller token", "why_tests_cant": "record contents range over all byte strings", "anchors": ["src/paxos_lease.c: paxos_lease_release"]}
{"id": "C06", "title": "On-disk structures survive a write and a read", "statement": "Encoding any leader record, ballot block, mode block, request record, resource-index header or entry and decoding it yields the same values field by field, independent of the host byte order, and every field lies at the documented offset within the documented length.", "quantifier": "all field values of each structure", "why_tests_cant": "2^1000s of field combinations", "anchors": ["src/ondisk.c", "src/leader.h", "src/paxos_dblock.h", "src/mode_block.h", "src/rindex_disk.h"]}
{"id": "C07", "title": "Record checksums detect corruption", "statement": "If any corruption confined to 32 consecutive bits, in particular any single-bit or single-byte error, hits the checksummed part of a leader record or ballot block, the checksum no longer matches; and a record written by the code always verifies.", "quantifier": "all record contents, all positions, all error patterns up to 32 bits long", "why_tests_cant": "number of contents times error patterns is astronomically large", "anchors": ["src/crc32c.c", "src/paxos_lease.c: leader_checksum, dblock_checksum, verify_dblock"]}
{"id": "C08", "title": "Ballot numbers of different hosts never collide", "statement": "The ballot number a host picks is larger than every ballot number it read, retries strictly increase it, and two different hosts can never pick the same number.", "quantifier": "all host ids up to the lease's maximum number of hosts, all previously seen ballot numbers, all numbers of retries", "why_tests_cant": "needs a number-theoretic argument over all 64-bit values", "anchors": ["src/paxos_lease.c: paxos_lease_acquire lines 1990-2010, 2085-2110"]}
{"id": "C09", "title": "A multi-disk lease read returns a majority value", "statement": "When reading the owner record from several disks succeeds, the returned record was read, verified, identical from a strict majority of the disks; two such reads of unchanged disks agree, and a written-to-majority record is the only one that can be returned.", "quantifier": "any number of disks, any subset unreadable, any contents", "why_tests_cant": "combinations of disks, failures and contents are unbounded", "anchors": ["src/paxos_lease.c: _leader_read_num", "src/diskio.c: majority_disks"]}
{"id": "C10", "title": "Records are accepted only for the right lockspace, resource and host", "statement": "Reading a lease succeeds only if the record has the right magic number and major version, the requested lockspace and resource name, room for the reading host, and a correct checksum; otherwise the specific documented error is returned.", "quantifier": "all 512-byte sector contents, all names", "why_tests_cant": "all sector contents", "anchors": ["src/paxos_lease.c: _verify_leader", "src/delta_lease.c: verify_leader", "src/sanlock_rv.h"]}
{"id": "C11", "title": "Lease areas are laid out without overlap", "statement": "For every supported sector and alignment size, the owner record, request record and the block of every allowed host lie in distinct sectors inside the lease area, host-lease sectors of distinct host ids are distinct and inside the area, and the size flags written by the API decode to exactly the sizes they were encoded from.", "quantifier": "all supported size combinations, all host ids up to the maximum", "why_tests_cant": "thousands of host ids times sizes; tests sample", "anchors": ["src/sizeflags.c", "src/paxos_lease.c: write_dblock, paxos_lease_init", "src/delta_lease.c: delta_lease_init"]}
{"id": "C12", "title": "Only one host wins a host id", "statement": "When several hosts try to join a lockspace with the same host id at the same time, at most one of them is told it succeeded, provided a host's write reaches the disk within the waiting time the others use.", "quantifier": "any number of hosts, any interleaving and timing of reads and writes within the stated delay bound", "why_tests_cant": "timing-dependent race between several machines", "anchors": ["src/delta_lease.c: delta_lease_acquire"]}
{"id": "C13", "title": "Host id generation strictly increases with every join", "statement": "Every successful join of a host id returns a generation one larger than the one on disk and strictly larger than any earlier successful join saw, and renewals and releases keep it.", "quantifier": "all histories of join/renew/release", "why_tests_cant": "histories are unbounded", "anchors": ["src/delta_lease.c: delta_lease_acquire, delta_lease_renew, delta_lease_release"]}
{"id": "C14", "title": "A renewal notices that the host id was taken", "statement": "If another host has overwritten the host lease (other owner, generation or host name, or any changed field after a successful renewal), the next renewal fails with the documented error and does not write.", "quantifier": "all record contents", "why_tests_cant": "all contents", "anchors": ["src/delta_lease.c: delta_lease_renew"]}
{"id": "C15", "title": "A host is reset before others treat it as dead", "statement": "If a host stops renewing its host id, then with the documented timeouts its watchdog fires no later than host-dead seconds after its last renewal, and any other host declares it dead only later than host-dead seconds after seeing that renewal; hence no other host takes its leases while it can still run. This assumes that wdmd completes each client test within a test interval of its previous keep-alive and that the I/O timeout fits the on-disk field.", "quantifier": "all io timeouts, watchdog timeouts, clock offsets between hosts, renewal histories and test-loop schedules meeting the documented bounds", "why_tests_cant": "the argument is over all real-time schedules of two daemons on two machines", "anchors": ["src/timeouts.c, src/timeouts.h", "src/lockspace.c: check_our_lease", "src/resource.c: host_live", "wdmd/main.c: test_loop, test_clients", "src/watchdog.c"]}
{"id": "C16", "title": "The watchdog is not disarmed while a client depends on it", "statement": "The watchdog device goes from armed to disarmed, and wdmd exits, only when no client holds a reference (assuming the device can be reopened); a client with a reference that dies while it has an expiry time keeps its entry, so its expiry will still make the watchdog fire.", "quantifier": "all sequences of client messages, disconnects, signals and test iterations", "why_tests_cant": "unbounded event sequences", "anchors": ["wdmd/main.c: process_connection, client_pid_dead, process_signals, test_loop"]}
{"id": "C17", "title": "The watchdog is only petted when every client test passes", "statement": "A keep-alive is written to the device only in an iteration in which every client with an expiry time is more than a test interval away from it and no script fails; from a failing test on, no keep-alive is written until a test passes again.", "quantifier": "all client tables, all clock values, all sequences of iterations", "why_tests_cant": "unbounded event sequences and 64-bit times", "anchors": ["wdmd/main.c: test_clients, test_loop"]}
{"id": "C18", "title": "Host status reports are consistent with lease takeover", "statement": "The status reported for a host (free, unknown, live, fail, dead) is exactly one value; a host reported live, fail or unknown in its current generation is treated as alive when shared leases are broken, and one reported dead is treated as dead.", "quantifier": "all combinations of timestamps, clock values and timeouts", "why_tests_cant": "64-bit times; boundary cases", "anchors": ["src/lockspace.c: get_host_flag", "src/resource.c: host_live", "src/sanlock_admin.h"]}
{"id": "C19", "title": "Lockspace names and disks are unique in the daemon", "statement": "At any time no two lockspaces being added, active or being removed have the same name or the same disk path and offset, whatever sequence of add/remove calls and completions occurred.", "quantifier": "all sequences of add, completion, remove, failure events", "why_tests_cant": "unbounded sequences", "anchors": ["src/lockspace.c: add_lockspace_start, add_lockspace_wait, rem_lockspace_start, free_lockspaces"]}
{"id": "C20", "title": "Lockspace calls return the documented codes", "statement": "add returns already-exists exactly when the identical lockspace is active, in-progress when being added, try-again when being removed, invalid on a conflicting one; inquire returns 0 exactly when the identical lockspace is active and not being shut down; remove returns no-such-entry when there is none.", "quantifier": "all daemon states reachable and all requests", "why_tests_cant": "unbounded states", "anchors": ["src/lockspace.c: add_lockspace_start, inq_lockspace, rem_lockspace_start", "src/sanlock_admin.h"]}
{"id": "C21", "title": "A resource is held by at most one process per host", "statement": "On one host, at no time do two registered processes both hold the same resource unless both hold it shared; acquire on a resource in use returns the documented error without touching the disk.", "quantifier": "all sequences of acquire, release, convert, process-death and background-release events, including several in flight", "why_tests_cant": "unbounded event sequences", "anchors": ["src/resource.c: acquire_token, release_token, convert_token"]}
{"id": "C22", "title": "Orphan acquire options behave as documented", "statement": "A persistent resource whose process died stays held as an orphan; acquire without an orphan flag is refused; with the orphan-only flag acquire either adopts the matching orphan or returns no-such-entry without acquiring anything.", "quantifier": "all flag combinations and all local resource states", "why_tests_cant": "flag and state combinations", "anchors": ["src/resource.c: acquire_token lines 1623-1800", "src/sanlock_resource.h: SANLK_ACQUIRE_ORPHAN_ONLY"]}
{"id": "C23", "title": "Shared and exclusive leases exclude each other across hosts", "statement": "A host is granted an exclusive lease only if no other live host's shared marker was on disk when it checked while owning the record, and a host granted shared wrote its marker while it owned the record; hence a shared holder and an exclusive holder never coexist.", "quantifier": "any number of hosts, all interleavings of the shared-acquire and exclusive-acquire steps", "why_tests_cant": "interleavings of several hosts", "anchors": ["src/resource.c: acquire_token lines 1800-1989, read_mode_block, clear_dead_shared, convert_sh2ex_token"]}
{"id": "C24", "title": "Mode conversion is safe", "statement": "Converting shared to exclusive succeeds only when no other local process shares the lease and no other live host does; converting exclusive to shared leaves the shared marker on disk; converting to the current mode is reported as such (-EALREADY) and changes nothing; failure leaves the caller holding a well-defined mode.", "quantifier": "all states and read results", "why_tests_cant": "state combinations and failure points", "anchors": ["src/resource.c: convert_token, convert_sh2ex_token, convert_ex2sh_token"]}
{"id": "C25", "title": "Index entries map one to one to lease areas", "statement": "For every entry number the index may contain, the lease location computed when creating a resource is the rindex start plus (number + 2) alignments, distinct entries give disjoint areas, none overlaps the index or its internal lease, and looking up that location finds the same entry.", "quantifier": "all entry numbers up to the format's maximum, all size combinations", "why_tests_cant": "tens of thousands of entries; arithmetic overflow appears only at large numbers", "anchors": ["src/rindex.c: search_entries, rindex_lookup, rindex_update, size_to_max_resources"]}
{"id": "C26", "title": "A crash during create or delete leaves a usable index", "statement": "After a crash at any point of creating or deleting a resource through the index, every name in the index points to an initialised lease of that name, and no other entry is changed.", "quantifier": "every crash point between disk writes, every prior index state", "why_tests_cant": "crash points times states", "anchors": ["src/rindex.c: rindex_create, rindex_delete, update_rindex"]}
{"id": "C27", "title": "Rebuilding the index recovers exactly the leases on disk", "statement": "After a rebuild, entry i names resource r exactly when the i-th lease area holds a valid lease r of the lockspace, for areas up to the first unreadable one or the maximum.", "quantifier": "all disk contents", "why_tests_cant": "all disk contents", "anchors": ["src/rindex.c: rindex_rebuild"]}
{"id": "C28", "title": "Index requests never touch memory or disk outside the index", "statement": "Lookup and update with any client-supplied offset read and write only inside the index.", "quantifier": "all client-supplied offsets", "why_tests_cant": "2^64 offsets", "anchors": ["src/rindex.c: rindex_lookup, rindex_update"]}
{"id": "C29", "title": "A dead process's leases are released exactly once", "statement": "When a registered process disconnects, each lease it held is released exactly once and its slot is freed, whether or not a command on its behalf is still running; leases acquired by the running command are released too.", "quantifier": "all interleavings of command start, command completion, process death, other connections targeting the process", "why_tests_cant": "thread interleavings", "anchors": ["src/main.c: client_pid_dead, client_suspend, client_resume, _client_free, process_cmd_thread_registered", "src/cmd.c: cmd_acquire, cmd_release, cmd_convert, cmd_inquire"]}
{"id": "C30", "title": "Signals sent to processes respect grace period and restrictions", "statement": "When a lockspace fails, a process using it gets its kill script or a terminate signal during the grace period and a kill signal afterwards; a process that asked not to be sent a signal is not sent it; no process not using the lockspace is signalled.", "quantifier": "all restriction flags, times and client tables", "why_tests_cant": "combinations and times", "anchors": ["src/main.c: kill_pids, client_using_space"]}
{"id": "C31", "title": "The watchdog connection of a lockspace is dropped only when nobody uses it", "statement": "A lockspace leaves the active set and stops being watched only in a state where no live registered process holds a lease in it, and from then on no process is granted a lease in it.", "quantifier": "all interleavings of acquire completion, lockspace failure, process death and the main-loop check", "why_tests_cant": "thread interleavings", "anchors": ["src/main.c: main_loop, all_pids_dead", "src/cmd.c: cmd_acquire, check_new_tokens_space"]}
{"id": "C32", "title": "A granted lease belongs to the lockspace's current membership", "statement": "When acquire reports success, the lockspace is active and the lease was taken with the host id and generation of its current membership.", "quantifier": "all interleavings of acquire with lockspace removal and re-adding", "why_tests_cant": "needs a removal and re-add inside a long-running acquire", "anchors": ["src/cmd.c: cmd_acquire, check_new_tokens_space"]}
{"id": "C33", "title": "Releasing any number of leases is memory safe", "statement": "Release, including release-all, handles every number of leases a process may hold without writing outside its arrays, and releases exactly the requested ones.", "quantifier": "all numbers of held leases and requests", "why_tests_cant": "the failing case needs more leases than tests use", "anchors": ["src/cmd.c: cmd_release, cmd_acquire", "src/sanlock.h: SANLK_MAX_RESOURCES"]}
{"id": "C34", "title": "Resource strings round-trip", "statement": "Formatting a resource as a string and parsing the string gives back the same names, disks, offsets and version or shared flag.", "quantifier": "all resources with up to the maximum number of disks, all path characters including colon and space", "why_tests_cant": "all strings", "anchors": ["src/client.c: sanlock_res_to_str, sanlock_str_to_res, sanlock_path_export, sanlock_path_import"]}
{"id": "C35", "title": "I/O buffers of timed-out disk operations are not reused or freed early", "statement": "A buffer handed to the kernel for asynchronous I/O is not freed or reused until the kernel reports completion or cancels it, and each is freed exactly once.", "quantifier": "all sequences of submissions, completions, timeouts and cancellations", "why_tests_cant": "timing-dependent", "anchors": ["src/diskio.c: do_linux_aio, find_callback_slot, read_iobuf_reap", "src/rindex.c: read_rindex"]}
{"id": "C36", "title": "Host event bits reach exactly the named host", "statement": "Setting a host's bit in the shared bitmap makes exactly that host see a change, bits of different hosts never interfere, and a set bit is cleared after its display period.", "quantifier": "all host ids up to the maximum and all bitmaps", "why_tests_cant": "2000 ids times 2^2048 bitmaps", "anchors": ["src/lockspace.c: set_id_bit, test_id_bit, create_bitmap_and_extra"]}
{"id": "C37", "title": "Lock value blocks are stored inside the lease area and read back", "statement": "A lock value block written by the exclusive holder is read back unchanged by the next holder, and its sector lies inside the lease area without overlapping a host's block.", "quantifier": "all size combinations, all values", "why_tests_cant": "size combinations; contents", "anchors": ["src/resource.c: res_set_lvb, res_get_lvb, read_lvb, write_lvb, LVB_SECTOR"]}
{"id": "C38", "title": "Owner test reports free only if no owner may be running", "statement": "Testing a resource's owners against the host list reports no failure only if every owner is missing from the host list, has a newer generation there, or is free or dead.", "quantifier": "all owner and host lists", "why_tests_cant": "all lists", "anchors": ["src/client.c: sanlock_test_resource_owners", "src/sanlock_admin.h"]}
{"id": "C39", "title": "Renewal history returns the latest renewals in order", "statement": "The history reports the most recent renewals, newest entry correct, at most the configured number, in chronological order.", "quantifier": "all numbers of renewals and history sizes", "why_tests_cant": "unbounded sequences", "anchors": ["src/lockspace.c: save_renewal_history", "src/cmd.c: cmd_renewal"]}
{"id": "C40", "title": "A lease request signals each holder at most once and only when newer", "statement": "A request for a lease is acted on by the holder at most once per requested version, never for a version it has passed, and never for a shared or released lease.", "quantifier": "all request records, tokens and repeated examinations", "why_tests_cant": "histories", "anchors": ["src/resource.c: request_token, do_request, examine_token, resource_thread_examine"]}
{"id": "C41", "title": "Kill-script arguments are passed through faithfully", "statement": "The argument string given to killpath is split at unescaped white space, escaped spaces and backslashes are kept in the argument, and the array of arguments never overflows.", "quantifier": "all argument strings", "why_tests_cant": "all strings", "anchors": ["src/helper.c: run_path"]}
{"id": "C42", "title": "Interrupted initialisation is not mistaken for a valid lockspace or lease", "statement": "If initialising a lockspace or resource is interrupted at any point, a later read of it does not return success with a partially written area.", "quantifier": "every crash point", "why_tests_cant": "crash points times prior contents", "anchors": ["src/delta_lease.c: delta_lease_init", "src/paxos_lease.c: paxos_lease_init"]}
{"id": "C43", "title": "Timeout settings keep the safety inequalities", "statement": "For every configuration, renewal interval < warning < failure < host-dead time, and host-dead time equals failure time plus watchdog time; the grace period fits into the watchdog window.", "quantifier": "all io timeouts and watchdog timeouts", "why_tests_cant": "ranges of numbers", "anchors": ["src/timeouts.c"]}
{"id": "C44", "title": "Registered processes are serialised", "statement": "At most one command is active per registered process at a time; a second one is refused as busy; and a process being killed is refused new leases.", "quantifier": "all interleavings of commands", "why_tests_cant": "thread interleavings", "anchors": ["src/main.c: process_cmd_thread_registered", "src/cmd.c"]}
{"id": "C45", "title": "Failed multi-resource acquire leaves nothing behind", "statement": "Acquire of several resources is all or nothing: on any failure every resource acquired by the call is released again and the process's set of leases is unchanged.", "quantifier": "all numbers of resources, all failing positions, process death at any time", "why_tests_cant": "positions times failures times death", "anchors": ["src/cmd.c: cmd_acquire, release_new_tokens"]}
{"id": "C46", "title": "Log messages reach the log once and in order, or are counted", "statement": "Every message of the configured priority is written to the log file exactly once and in the order in which it was logged, or is counted in a line that reports how many were dropped; a message is never altered or split, and after the program ends nothing that was accepted is missing.", "quantifier": "all numbers and lengths of messages, all interleavings of logging threads and the thread that writes", "why_tests_cant": "a queue of 4096 entries times interleavings", "anchors": ["src/log.c: log_level, _log_save_ent, log_thread_fn, write_entry"]}
{"id": "C47", "title": "The log dump shows the latest messages", "statement": "The log dump contains exactly the most recent bytes that were logged, in order, up to the size of the buffer, whatever the number and lengths of messages, and never touches memory outside the buffer.", "quantifier": "all buffer sizes, all sequences of messages", "why_tests_cant": "wrap positions times message lengths", "anchors": ["src/log.c: _log_save_dump, copy_log_dump", "src/cmd.c: cmd_log_dump"]}
{"id": "C48", "title": "Every accepted command is executed once, in order, before the daemon ends", "statement": "A command handed to the daemon's worker threads is executed exactly once; commands are started in the order of arrival; a waiting command is never forgotten while a worker sleeps; the number of workers stays within its limit; and at shutdown all accepted commands have been executed.", "quantifier": "all numbers of workers and commands, all interleavings, spurious wake-ups included", "why_tests_cant": "thread interleavings and wake-ups", "anchors": ["src/main.c: thread_pool_worker, thread_pool_add_work, thread_pool_free"]}
{"id": "C49", "title": "The list of owners of a lease names every holder", "statement": "The list of owners the daemon reports for a lease contains each host that holds it, exclusively or shared, exactly once, with the generation under which it holds it, and no host without a mark on disk; the number reported matches the list; the record it was read from passed all checks; and at most two reads are needed. In particular a caller that reads the owners and then tests them against the hosts of the lockspace is not told that the owners are gone while a live host holds the lease.", "quantifier": "all areas, sizes, numbers of hosts, and all states of the lease that hosts can reach", "why_tests_cant": "needs the set of reachable lease states combined with all contents of the area", "anchors": ["src/resource.c: read_resource_owners", "src/client.c: sanlock_read_resource_owners", "src/cmd.c: cmd_read_resource_owners"]}
{"id": "C50", "title": "Each reply belongs to its own command", "statement": "On the connection of a registered process every call returns exactly once, with the result of its own command: a call that reports success was carried out by the daemon with exactly the arguments given, an error means that it was carried out with that error or not at all, and no call is answered with the result of another one, whatever came before on the connection.", "quantifier": "all sequences of calls with all arguments, all ways in which the socket splits the messages, all results and refusals", "why_tests_cant": "message splits times refusals times earlier leftovers on the connection", "anchors": ["src/client.c: send_header, sanlock_acquire, sanlock_release, sanlock_inquire, sanlock_convert, sanlock_restrict, sanlock_killpath", "src/main.c: process_connection, client_recv_all, process_cmd_thread_registered", "src/cmd.c: cmd_acquire, cmd_release, cmd_convert, cmd_killpath"]}
{"id": "C51", "title": "A setting has the value written on its own line", "statement": "After the configuration file has been read every setting has the value of the last line that names it with a value in its range, or its default when there is none; comments, blank lines, unknown names and the settings on other lines never influence it.", "quantifier": "all files: any number and order of lines, blanks, values and comments", "why_tests_cant": "line lengths times order of lines times values", "anchors": ["src/main.c: read_config_file, get_val_int, get_val_str", "src/sanlock.8"]}
{"id": "C52", "title": "A host event reaches the hosts it was set for, and no others", "statement": "When a program sets a host event with sanlock_set_event and the call succeeds, every host named in the call that is a member and keeps renewing its lease passes exactly this event (event, data, generation given, number and generation of the sender) to every program registered with sanlock_reg_event. Conversely a program receives an event from host w only if a program on w set that event with that data for the receiving host or for all hosts; lease requests and events for other hosts do not cause it.", "quantifier": "all numbers of hosts, all interleavings of set_event with any flags, lease requests, renewals that succeed or fail, joining, leaving and dying, reads, looks and callbacks on all hosts, all times, all display periods", "why_tests_cant": "The event is written together with bits that others set and that expire at their own times; only particular timings over minutes between several hosts show a wrong or lost event.", "anchors": ["src/lockspace.c:lockspace_set_event", "src/lockspace.c:create_bitmap_and_extra", "src/lockspace.c:check_other_leases", "src/lockspace.c:send_event_callbacks", "src/lockspace.c:host_status_set_bit", "src/resource.c:add_host_event", "src/sanlock_admin.h"]}
{"id": "C53", "title": "A reset reported as done has happened", "statement": "When sanlk-reset exits with success, the watchdog of the host it was asked to reset has fired. It exits with failure only if the host has shown that it goes on, has not answered in any lockspace while renewing, leaving or dying, or nothing has come of its answer for 300 seconds; and it does exit. sanlk-resetd answers a request only after it has made the watchdog connection expire.", "quantifier": "all numbers of lockspaces, all answers and errors of the local daemon in every pass, all events from all hosts, all orders of requests on the other host, all behaviour of wdmd and its other clients, all clock offsets", "why_tests_cant": "It relates three clocks, two daemons and a hardware timer over minutes; a wrong success is a corrupted disk and shows only if the host writes in the seconds between the report and the real reset.", "anchors": ["reset/sanlk_reset.c:reset_done", "reset/sanlk_reset.c:reset_fail", "reset/sanlk_reset.c:get_events", "reset/sanlk_reset.c:main", "reset/sanlk_resetd.c:get_events", "reset/sanlk_resetd.c:watchdog_reset_self", "wdmd/main.c:test_clients", "wdmd/main.c:test_loop"]}
{"id": "C54", "title": "A shutdown ends the daemon, and only after its lockspaces", "statement": "A shutdown without force is refused while a lockspace exists, is being added or removed, and then changes nothing; an accepted one ends the daemon and its client is told so. A forced shutdown stops every lockspace and ends the daemon once no process uses them. Signals and unforced requests never stop a lockspace. When the daemon ends or reports the shutdown as done, no lockspace is left: none in use, none half added, none whose lease was not given back.", "quantifier": "all numbers of lockspaces and users, all interleavings of the main thread with workers, lockspace threads, signals and any number of shutdown requests of each kind", "why_tests_cant": "The shutdown flag is a plain variable written by a signal handler and several threads; the wrong cases need a request between two particular accesses of the main thread.", "anchors": ["src/main.c: main_loop, sigterm_handler, do_daemon", "src/cmd.c: daemon_shutdown_start, cmd_shutdown_wait, daemon_shutdown_reply, call_cmd_daemon", "src/lockspace.c: add_lockspace_wait, free_lockspaces"]}
{"id": "C55", "title": "The processes of a lost lockspace are signalled, and no others", "statement": "When a lockspace is lost, every registered process with a lease in it is sent a signal, or its program is started, through the helper process. A message is sent only for a process that has such a lease at that moment, its program is started at most once, and the helper carries out what the daemon has sent in this order and each message once. When the helper is slow or has ended, the processes are still signalled.", "quantifier": "all numbers of clients and settings, all interleavings of rounds of signals, messages of other threads, reads of the helper, the end of processes and of the helper", "why_tests_cant": "A pipe that is full, a helper that dies and a process that ends in between need particular timings over minutes on a failing host.", "anchors": ["src/main.c: send_helper_kill, kill_pids, all_pids_dead, helper_dead, close_helper", "src/helper.c: run_helper"]}
{"id": "C56", "title": "Fencing reported as done means that the host was reset", "statement": "When the fence agent reports success for a host that is running and unfenced, that host has been reset by its watchdog or had given up its fencing lease itself, whatever other agents do at the same time. A host that is asked stops renewing its watchdog connection and is reset within a fixed time; a host that is not asked is not, also while it fences others. When two hosts fence each other, the one with the lower number goes on and the other is reset. An agent can finish once the host is gone.", "quantifier": "all numbers of agents on other hosts, all interleavings of their steps with joins, crashes, resets, clean stops and the deaths of agents; all sequences of signals and passes of the daemon; all behaviour of other wdmd clients", "why_tests_cant": "A fencing race needs several hosts, shared storage, watchdogs and minutes of waiting; the harmful orders are rare.", "anchors": ["fence_sanlock/fence_sanlockd.c: main, process_signals, check_fence_agent", "fence_sanlock/fence_sanlock.in: action_off, read_leader", "wdmd/main.c: test_clients"]}
{"id": "C57", "title": "One daemon per host, and none that calms the watchdog after an unclean end", "statement": "However daemons are started, stopped and killed, at most one sanlock and at most one wdmd run on a host at a time, the lock file of sanlock names the one that runs, and clients that connect reach it. When a running wdmd is killed, no later wdmd comes up and nobody pings or stops the watchdog until the host is reset. After a clean end a new daemon can start.", "quantifier": "all numbers of processes, all interleavings of their system calls on the lock file, the shared memory object and the device, kills at any point", "why_tests_cant": "Races between a daemon that ends and others that start have windows of microseconds.", "anchors": ["src/lockfile.c: lockfile", "src/main.c: do_daemon, setup_listener", "wdmd/main.c: main, lockfile, setup_shm, close_shm", "fence_sanlock/fence_sanlockd.c: main, lockfile, read_lockfile"]}
{"id": "C58", "title": "A lease on several disks stays usable while a majority of its disks work", "statement": "When a lease is stored on several disks and more than half of them work for a host, the host can acquire the lease if it is free or its owner is gone, release it, and acquire it again, whatever happens to the other disks; and a crash of any host at any moment leaves the lease usable for the others.", "quantifier": "all numbers of disks and hosts, all sets of disks that fail, all moments of a crash", "why_tests_cant": "Tests fail one chosen disk at one chosen moment; which disk it is and between which two writes a host crashes decides the outcome.", "anchors": ["src/paxos_lease.c: paxos_lease_acquire, paxos_lease_release, _lease_read_num, _leader_read_num, run_ballot, write_new_leader"]}
{"id": "C59", "title": "A test script that does not pass gets the host reset", "statement": "While the watchdog is in use, wdmd keeps it alive only if every script in its directory has passed in the current test interval. A script that fails, hangs or is killed from some time on, while the others pass, leads to a reset of the host no later than the fire timeout after the next tests, even if all clients go away and wdmd is stopped; and when every script and every client passes, the watchdog is kept alive.", "quantifier": "all sets of scripts, all exit codes and durations, all interleavings of clients, signals and tests", "why_tests_cant": "Scripts that hang across several intervals, failed forks and changes of the directory combine in more ways than a test can try, and a reset cannot be observed by the test.", "anchors": ["wdmd/main.c: setup_scripts, add_script, run_script, test_scripts, test_loop", "wdmd/wdmd.8"]}
{"id": "C60", "title": "Resource index operations at the same time act as if done one after another", "statement": "When several hosts create, delete and look up resources through one resource index at the same time, the result is as if the creations and deletions were done one after another, in an order that agrees with which call returned before which began. A resource that was created keeps its area, which no other resource gets, until somebody deletes that name; a lookup that begins after the creation returned finds it; an answer that a name is there, or is not there, or that the index is full, was right at some time during the call.", "quantifier": "all numbers of hosts and calls, all sizes of the index, all interleavings of single sector reads and writes, crashes, failing I/O, joining and leaving of hosts", "why_tests_cant": "A lost entry needs two hosts whose reads and writes of one sector interleave; a test cannot enumerate the interleavings.", "anchors": ["src/rindex.c: rindex_create, rindex_delete, rindex_lookup, rindex_update, search_entries, update_rindex", "src/lockspace.c: lockspace_begin_rindex_op, lockspace_clear_rindex_op, rem_lockspace"]}
{"id": "C61", "title": "The daemon does not block itself", "statement": "The threads of the daemon never wait for each other in a circle: as long as some command or check has begun, some thread can go on, and every command and check that has begun can come to its end without anything new being started; then no internal lock is held. A client that does not read its answers delays nobody but the thread that serves it: the locks that the checks of leases and other commands need can always be had.", "quantifier": "all numbers of threads, clients and lockspaces, all interleavings of lock and unlock operations, thread creation and joining, all clients that stop reading at any time", "why_tests_cant": "A deadlock needs a certain order of lock operations of several threads, and a stuck client a full socket at one moment; tests meet them by chance.", "anchors": ["src/lockspace.c: spaces_mutex, sp->mutex, free_lockspaces, stop_lockspace_thread, add_lockspace_wait", "src/main.c: main_loop, client_free, client_pid_dead, kill_pids, thread_pool_add_work, thread_pool_free", "src/cmd.c: cmd_acquire, cmd_status, call_cmd_daemon", "src/resource.c: resource_mutex, resource_thread, send_state_resources", "src/log.c: log_level"]}
{"id": "C62", "title": "The memory of a lockspace is used only while it exists", "statement": "Whatever commands and threads run at the same time, no thread touches a lockspace that was not allocated or that was freed, a lockspace is freed once, when it is on no list, its thread has ended and nobody holds its lock; the lists of lockspaces are searched and changed by one thread at a time. The thread of a lockspace runs only while the lockspace exists. When nothing runs, every lockspace that was allocated is added, being removed, or freed; one that is being removed can be freed.", "quantifier": "all numbers of threads and lockspaces, all interleavings of commands that add, remove and use lockspaces with the main loop and the threads of the lockspaces", "why_tests_cant": "A use after free needs a removal at one moment of another thread's command; it is also often silent.", "anchors": ["src/lockspace.c: add_lockspace_start, add_lockspace_wait, free_lockspaces, lockspace_set_event, lockspace_set_config, lockspace_reg_event, host_status_set_bit, send_event_callbacks", "src/main.c: main_loop"]}
{"id": "C63", "title": "Python calls act on what they were given", "statement": "Every function of the Python module passes the names, paths, offsets, numbers and options of its arguments to the library exactly, with the documented defaults for the ones left out; values that the library cannot take (a name, path or number that does not fit, an undocumented alignment or sector size, a disk that is no pair of path and offset, no process for acquire) raise an exception and nothing is done.", "quantifier": "all functions of the module, all Python values of the arguments, any number of disks", "why_tests_cant": "The values are unbounded, and a cut name or a wrapped number acts silently on another lockspace; tests try a few values.", "anchors": ["python/sanlock.c: all functions up to the call of the library, convert_to_pybytes, pypath_converter, parse_disks, add_align_flag, add_sector_flag, py_killpath", "src/client.c: sanlock_killpath"]}
{"id": "C64", "title": "Python calls report what the library found", "statement": "What a function of the Python module returns is exactly what the daemon reported: every lockspace, host, resource and event once, in order, with its names, numbers and state; an exception tells the error of the library; True, False and None of inq_lockspace mean owned, not owned and in transition. A call does not end the process that makes it.", "quantifier": "all results of the library, all names, paths and states of lockspaces, hosts and resources, lists of any length", "why_tests_cant": "The results depend on names and states that only a running daemon has, of unbounded length and number.", "anchors": ["python/sanlock.c: set_sanlock_error, py_inq_lockspace, lockspaces_to_list, hosts_to_list, resources_to_list, py_inquire, py_get_event, py_read_lockspace, py_read_resource", "src/client.c: sanlock_get_lockspaces, sanlock_get_event", "src/lockspace.c: get_lockspaces"]}
{"id": "C65", "title": "Python calls give back what they took", "statement": "Wherever a call of a function of the Python module fails, and when it succeeds, every reference and every allocation it took has been given back, except the result.", "quantifier": "all functions of the module, all places where a call can fail", "why_tests_cant": "Most of the places can fail only when memory is short or the daemon answers with an error at one point.", "anchors": ["python/sanlock.c: the labels finally of all functions"]}
{"id": "C66", "title": "A library call is carried out as it was made, once or not at all, and returns what the daemon found", "statement": "Every call that the library makes on a connection of its own (adding, removing and inquiring of lockspaces, listing, reading and writing lockspaces and resources, requests, events, lock value blocks, the resource index, configuration) is carried out by the daemon exactly once with exactly the arguments of the call, and nothing else is done for it. If the calling process dies before the last byte is sent, nothing is done. The call returns exactly the result the daemon found; if the reply breaks off, the call returns an error, never part of a result; if the daemon refuses the command, the call returns the daemon's error.", "quantifier": "all 27 calls, all arguments that fit their types, any number of disks, lists of any length, every point at which request or reply may break off", "why_tests_cant": "The bytes on the connection depend on every argument and length, and the places where it may break off are all positions in the stream.", "anchors": ["src/client.c: cmd_lockspace, sanlock_get_lockspaces, sanlock_get_hosts, sanlock_set_config, sanlock_align, sanlock_read_lockspace, sanlock_read_resource, sanlock_write_lockspace, sanlock_write_resource, sanlock_read_resource_owners, sanlock_reg_event, sanlock_end_event, sanlock_set_event, sanlock_version, sanlock_request, sanlock_examine, sanlock_set_lvb, sanlock_get_lvb, sanlock_format_rindex, sanlock_rebuild_rindex, sanlock_update_rindex, sanlock_lookup_rindex, sanlock_create_resource, sanlock_delete_resource", "src/cmd.c: call_cmd_thread, call_cmd_daemon and the commands they call", "src/main.c: process_connection, send_result"]}
{"id": "C67", "title": "The reset daemon watches the lockspaces it was told to watch", "statement": "After `sanlk-reset reg x` has reported success, `sanlk-resetd` reads every reset request that arrives in lockspace x and has the watchdog reset the host, until the lockspace is taken back with `end x` or `clear all`, hangs up, or a request in it has been answered; updates and events of other lockspaces have no effect on it. After `end x` no registration for x is left, after `clear all` and after the end of the daemon none at all. A registration is never lost, closed twice or used for another lockspace. The watchdog is told to reset the host only if a request to reset was read, at most once; the host is rebooted through sysrq only if that is enabled and the configured delay has passed since a request to reboot, and is rebooted then.", "quantifier": "all lockspace names, all sequences of updates, signals, events, hang-ups and failures of the calls made, in any combination in one pass of the loop", "why_tests_cant": "The entries of the table are reused, and which updates and events meet in one pass depends on timing.", "anchors": ["reset/sanlk_resetd.c: register_ls, unregister_ls, get_events, process_update, find_ls, watchdog_reset_self, main", "reset/sanlk_reset.c: update_local_daemon", "src/client.c: sanlock_reg_event, sanlock_end_event, sanlock_get_event"]}
{"id": "C68", "title": "The direct commands show what is on the disk and do what they report", "statement": "`sanlock direct dump path[:offset[:size]]` that ends with success prints one line for every host id that has had an owner, every resource and every index in the range, with the owner, generation, timestamp and version on the disk, right behind a resource exactly the hosts that hold it shared, and nothing that is not on the disk; without -Z and -A it uses the sizes stored on the disk; it does not touch memory outside of its buffers whatever the disk holds. `next_free` prints the offset of the first area that holds no record. `release` that reports success has released the lease. `read_leader` prints the record on the disk, `write_leader` writes that record with the fields of the file replaced and a checksum that is accepted.", "quantifier": "all contents of a device, all results of reads, all arguments, both byte orders, any number of areas", "why_tests_cant": "Dumps are read by people and scripts that decide on repairs; damaged records, failing sectors and unusual sizes are what they are used for and what tests do not produce.", "anchors": ["src/direct.c: direct_dump, direct_next_free, direct_read_leader_sizes, do_paxos_action, do_delta_action", "src/main.c: read_file_leader, do_direct_read_leader, do_direct_write_leader", "src/paxos_lease.c: paxos_lease_release, paxos_lease_leader_clobber", "src/delta_lease.c: delta_lease_leader_clobber"]}
{"id": "C69", "title": "The status commands show what the daemon has", "statement": "`sanlock client status` prints one line for the daemon, for each connection in use, for each lockspace with the word for its list, and for each process with a lease, with the names, numbers, paths and versions the daemon has, and nothing else; the parts of a line that name a lockspace or a resource are arguments that name it again. With -D each line is followed by every value the daemon sends for it. Sorted, the same lines are printed, each lease below the process or lockspace it belongs to. `host_status` prints each host of a lockspace that has an owner or was seen, under its number; `renewal` and `log_dump` print all that the daemon has kept. No answer of the daemon makes the tool touch memory outside of its buffers.", "quantifier": "all numbers of connections, lockspaces, leases, tokens, disks and hosts, all names, paths and values, every place at which the answer may end", "why_tests_cant": "What is shown depends on every name and number in a running daemon; the sizes at which buffers end are not reached in tests.", "anchors": ["src/client_cmd.c: sanlock_status, status_daemon, status_client, status_lockspace, status_resource, print_debug, print_r_by_p, print_r_by_s, recv_bin, sanlock_host_status, lockspace_host_status, sanlock_renewal, sanlock_log_dump", "src/cmd.c: cmd_status, cmd_host_status, cmd_renewal, cmd_log_dump and the functions print_state and send_state", "src/resource.c: send_state_resources"]}
{"id": "C70", "title": "I/O goes to the file that was meant, and descriptors are given back", "statement": "The daemon serves many calls and lockspaces at once with one table of file descriptors. Whatever they are and however their system calls interleave and fail: what a call reads or writes for a disk goes to that disk or, if the disk could not be opened, nowhere; a call closes only descriptors it opened itself; a call that has ended has none left open, so that when no call runs just the descriptors of the daemon are open; the disks of a lease are marked as closed, so that the next call can use them. Opening the disks of a lease succeeds if and only if more than half of them could be opened, and otherwise leaves none open.", "quantifier": "all calls and lockspaces at the same time, all interleavings of their system calls, all failures, all numbers of disks, every limit on descriptors", "why_tests_cant": "A descriptor closed once too often is another thread's file only under a particular interleaving; a leak shows only after hundreds of calls.", "anchors": ["src/diskio.c: open_disk, open_disks, open_disks_fd, close_disks, majority_disks", "src/resource.c: acquire_token, release_token, convert_token, resource_thread, res_set_lvb", "src/lockspace.c: lockspace_thread, set_lockspace_max_sectors_kb", "src/watchdog.c: open_watchdog, connect_watchdog, activate_watchdog, disconnect_watchdog, close_watchdog", "src/rindex.c: rindex_format, rindex_create, rindex_delete, rindex_update, rindex_lookup, rindex_rebuild", "src/cmd.c: cmd_read_lockspace, cmd_write_lockspace, cmd_read_resource, cmd_read_resource_owners, cmd_write_resource", "src/main.c: process_listener, client_add, _client_free"]}
{"id": "C71", "title": "Sectors are read and written completely without aio", "statement": "With aio switched off a write of a sector that reports success has put the data and then zeros up to the end of the sector on the device, whatever the kernel does: short transfers, interruptions, errors in any order. No byte outside of the sector changes, in any case. A read that reports success gives the bytes of the device, all inside of it, and one that fails gives the caller nothing; it succeeds if the sectors are on the device and the kernel does not fail. What was written is what is read. A sector is at every moment, also after a crash, old or new. A transfer comes to an end.", "quantifier": "all answers of the kernel in any order, all data, sector numbers and offsets, every moment of a crash", "why_tests_cant": "Short transfers, interruptions and crashes in between cannot be provoked on a block device by a test.", "anchors": ["src/diskio.c: do_write, do_read, write_iobuf, write_sector, write_sectors, _write_sectors, read_iobuf, read_sectors"]}
{"id": "C72", "title": "Running out of memory is an error and changes nothing", "statement": "When the daemon or the library cannot get memory, the call concerned returns a negative error code, nothing is written to the disks after the failure, no data is used that was not read, and the daemon goes on. Conversely a call that reports success has done all its writes: sanlock_write_lockspace and sanlock_write_resource have written the areas, creating a resource through an index has written the lease before the entry, deleting one has removed the entry before clearing the lease, rebuilding an index has kept every lease that is there, acquire has committed what its ballot decided, and a list that was returned is there.", "quantifier": "for every operation modelled, every allocation in it that may fail, every result of every read, write and open, any number of disks, hosts, resources and steps", "why_tests_cant": "Tests do not make individual allocations fail; the failing cases depend on which of several allocations in a call fails, and what the code then uses depends on earlier steps of the same call.", "anchors": ["src/paxos_lease.c:156", "src/paxos_lease.c:489", "src/paxos_lease.c:1145", "src/paxos_lease.c:1358", "src/paxos_lease.c:1442", "src/paxos_lease.c:1690", "src/paxos_lease.c:2095", "src/paxos_lease.c:2409", "src/delta_lease.c:638", "src/delta_lease.c:834", "src/diskio.c:822", "src/diskio.c:932", "src/resource.c:156", "src/resource.c:414", "src/resource.c:1962", "src/rindex.c:187", "src/rindex.c:246", "src/rindex.c:378", "src/rindex.c:494", "src/rindex.c:624", "src/rindex.c:964", "src/cmd.c:1815", "src/cmd.c:1875", "src/client.c:205"]}
{"id": "C73", "title": "The tool does what its command line says", "statement": "The sanlock command asks the daemon for what was typed. The lockspace, resources, process, timeouts and other values given with options are the ones in the request, whatever the order of the options and whatever else is given; the last value given for an option counts and options not given leave their settings alone; offsets may be given in MiB with an M behind them for every disk; words that are not understood are refused before anything is done; a command given with -c is executed exactly as written, and only after its leases were granted; the exit status is success exactly if what was asked for was done.", "quantifier": "for every command line of any length, every content of names, paths and numbers, every result of the calls of the library and every content of uninitialised memory", "why_tests_cant": "The arguments are arbitrary texts; the failures depend on particular characters in particular fields, on the number of disks, on what is on the stack, and on the configuration of the daemon.", "anchors": ["src/main.c:1852", "src/main.c:1886", "src/main.c:1945", "src/main.c:2005", "src/main.c:2192", "src/main.c:2369", "src/main.c:2488", "src/main.c:2517", "src/main.c:2550", "src/main.c:2579", "src/main.c:3163", "src/main.c:3217", "src/main.c:3243", "src/main.c:3986", "src/cmd.c:1327"]}
{"id": "C74", "title": "A lockspace in use stays", "statement": "After sanlock_set_config has marked a lockspace as used, the lockspace is not left and the watchdog keeps watching it until it is unmarked, also when its host id is lost or its removal is asked for. A lockspace marked as used by orphans stays while there is an orphan lease in it. A removal of an unused lockspace only is refused when the lockspace is used, and no process is signalled for it. Otherwise a lockspace being removed is left as soon as no process has a lease in it.", "quantifier": "for every sequence of joins, marks, removals, lost host ids, acquires, releases and exits of any number of processes in any number of lockspaces, interleaved in every way", "why_tests_cant": "The outcome depends on commands that overlap with the steps of the main loop, over histories of any length.", "anchors": ["src/lockspace.c:1598", "src/main.c:695", "src/main.c:850", "src/cmd.c:1436", "src/resource.c:1203", "src/resource.c:1231", "src/resource.c:1158", "src/sanlock_admin.h:59", "src/sanlock_admin.h:128"]}
{"id": "C75", "title": "Programs registered for events get them", "statement": "sanlock_reg_event returns what the daemon decided, and on success the program is registered until it ends the registration, exits or the lockspace ends. Every event that arrives for the lockspace while the program is registered is returned by sanlock_get_event once and in order, nothing else is returned, and -EAGAIN means that there is no more for now. A registration is refused for lack of places only while 32 programs that have not left are registered. After sanlock_end_event the program is sent nothing more and its place is free.", "quantifier": "for every sequence of joins and ends of any number of lockspaces, registrations, events, reads, writes, ends and exits of any number of programs, interleaved in every way, and every content of the events", "why_tests_cant": "Events are sent by another thread than the one that answers the registration, into a byte stream that the program reads in pieces; what goes wrong depends on the interleaving.", "anchors": ["src/lockspace.c:1698", "src/lockspace.c:1742", "src/lockspace.c:1759", "src/lockspace.c:1887", "src/lockspace.c:608", "src/cmd.c:2945", "src/cmd.c:2977", "src/client.c:795", "src/client.c:852", "src/client.c:970", "src/sanlock_admin.h:475"]}
{"id": "C76", "title": "The list of hosts is what the leases show", "statement": "sanlock_get_hosts returns, for host id 0, every host that has been seen alive, once, in the order of the host ids, with the generation, time and I/O timeout of its lease as last read and its state; for another host id, this host alone. It fails with -ENOENT without the lockspace and with -EAGAIN until the leases have been read once, and in no other way. A program that gives the list to sanlock_test_resource_owners is never told that a resource is free while its owner has been seen alive within the time after which a host is dead.", "quantifier": "for every number of hosts up to 2000, every sequence of reads of the host leases with any content at any times, every host id asked for, every list of owners and every clock", "why_tests_cant": "The list depends on the history of all sectors of all hosts over minutes and on the time of the call; tests have a few hosts that behave.", "anchors": ["src/lockspace.c:379", "src/lockspace.c:1487", "src/lockspace.c:1533", "src/cmd.c:2889", "src/client.c:285", "src/sanlock_admin.h:84"]}
{"id": "C77", "title": "Options reach the waiting fencing daemon", "statement": "fence_sanlockd -s -p PATH -i ID makes a fence_sanlockd -w that waits go on with exactly this path and this host id, whatever other senders write afterwards; host ids outside 1 to 128 and an empty path are refused. Whatever is written to the FIFO, the waiting daemon goes on only with a path and a host id from 1 to 128, and never reads or writes outside of its buffers.", "quantifier": "for every path of any length, every host id, and every content of the FIFO", "why_tests_cant": "The text goes through a formatted print that cuts, a FIFO and a scan that splits at blanks; what goes wrong depends on the bytes and the length of the path.", "anchors": ["fence_sanlock/fence_sanlockd.c:294", "fence_sanlock/fence_sanlockd.c:358", "fence_sanlock/fence_sanlockd.c:544", "fence_sanlock/fence_sanlockd.c:590", "fence_sanlock/fence_sanlockd.c:659"]}
{"id": "C78", "title": "The request size of a lockspace disk is set as configured", "statement": "When a lockspace is joined on a device, its max_sectors_kb is set to the align size or to the number that the configuration asks for, and sanlock status shows the value set. It is never set to more than the hardware can do. With ignore no device is changed, and a regular file never is.", "quantifier": "for every configuration, every number of devices and lockspaces, every order of joins, of the helper's work and of changes by others, and every set of values that the kernel takes", "why_tests_cant": "The value is written by another process later if the daemon is not root, and depends on what the hardware and the kernel take.", "anchors": ["src/lockspace.c:51", "src/lockspace.c:664", "src/diskio.c:35", "src/diskio.c:64", "src/diskio.c:140", "src/helper.c:225", "src/sanlock.8:1371"]}
{"id": "C79", "title": "A daemon knows its own host lease by its name", "statement": "A daemon that finds the host lease held under its own name takes it at once, and a daemon with another name waits until the holder must be dead. Every name that can be set is used as it is set, and daemons that make up their names never take each other's lease at once, if their UUIDs differ.", "quantifier": "for every two host names that can be set, every UUID and node name, and every lease taken under such a name", "why_tests_cant": "Tests use a few short names; the case depends on the length of the name against three limits in three functions.", "anchors": ["src/main.c:1476", "src/main.c:2466", "src/main.c:2862", "src/delta_lease.c:367", "src/delta_lease.c:451"]}
