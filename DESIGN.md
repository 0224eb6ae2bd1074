# Formal model of sanlock: design

Source: `/repo` (C, read only, never built).  Model and proofs: Lean 4, `lean/Verif/*`.

## Trusted base

* Lean 4.33.0's kernel.
* Axioms: only Lean's standard `propext`, `Classical.choice`, `Quot.sound`.  No axioms of our
  own, no `sorry`, no `native_decide`, no `bv_decide`.  `Verif/Audit.lean` prints the axioms of every
  property theorem when it is built.
* That the Lean definitions say what the C code says.  Every definition cites the lines it
  models and its comment names each simplification.

## Method

* One module per piece of code.  Code is modelled by total computable functions (decision
  logic, codecs) or by a small-step transition relation (protocols, daemons).
* Property theorems live in modules `Verif/Props/*`, apart from the helper lemmas, are stated
  with specifications that do not mention the model's helpers where possible, and have an
  `example` beside them showing that the hypotheses can be met.
* C undefined behaviour (signed overflow, out-of-bounds access, use of freed memory) is a
  separate outcome of the model.
* Where the code does not have the property, the negation is proved with a concrete witness
  (theorem names ending in `_violated`), the theorem under the extra hypothesis is called `..._partial`,
  and the finding is listed under *Findings*.

## Plan by property

| id | what is modelled | how proved |
|----|------------------|-----------|
| C01 | `run_ballot` as per-sector read/write steps of n hosts over m disks | inductive invariant over all executions |
| C02 | acquire, release and conversion of n hosts driving the ballot, one step per sector, on one disk; exclusive leases on any number of disks | invariant over all executions under stated assumptions; an execution with two holders for each assumption that fails |
| C03 | the wait loop of `paxos_lease_acquire` as a function of a stream of reads | induction over the stream |
| C04 | the retry loop and the construction of the new leader | case analysis and induction over retries |
| C05 | `paxos_lease_release` as a function of the record read | decision logic |
| C06 | `ondisk.c` byte codecs over lists of bytes | round-trip laws |
| C07 | `crc32c.c` with its literal table | linearity and polynomial argument over GF(2) |
| C08 | ballot number arithmetic | modular arithmetic |
| C09 | `_leader_read_num` over a list of disks | majority intersection |
| C10 | `_verify_leader`, delta `verify_leader` on decoded records | decision logic, iff characterisation |
| C11 | `sizeflags.c`, sector numbers | arithmetic over all ids |
| C12 | `delta_lease_acquire` of n hosts with timed steps | invariant over timed executions |
| C13 | delta acquire/renew/release on the on-disk record | monotonicity invariant |
| C14 | `delta_lease_renew` checks | decision logic |
| C15 | renewals, wdmd tests, watchdog device, remote observer on a global time line | arithmetic over all schedules |
| C16, C17 | wdmd state machine | invariant by induction |
| C18 | `get_host_flag`, `host_live` | decision logic |
| C19, C20 | three lockspace lists | invariant by induction |
| C21, C22, C24 | local resource lists and token modes | invariant by induction |
| C23 | mode blocks and ownership steps of n hosts | invariant over interleavings |
| C25, C28 | index arithmetic in C types (`int`, `uint64_t`) | arithmetic; overflow witness |
| C26, C27 | index and lease areas as a store, writes as steps | crash prefixes |
| C29, C44 | client slots as a concurrent state machine | invariant by induction |
| C30 | `kill_pids` signal choice | decision logic |
| C31, C32 | acquire completion against lockspace teardown | invariant; witness for re-add |
| C33 | `cmd_release` token array | counting; overflow witness |
| C34 | string formatter and parser on lists of characters | round trip by induction |
| C35 | AIO slots and buffers | invariant by induction |
| C36 | bitmap bytes | bit algebra |
| C37 | LVB sector arithmetic and sector store | arithmetic |
| C38 | `sanlock_test_resource_owners` | induction over lists |
| C39 | renewal ring buffer | refinement to a list |
| C40 | request/examine decision | history invariant |
| C41 | `run_path` tokenizer | induction over the string |
| C42 | init write sequences | crash prefixes |
| C43 | timeout arithmetic | arithmetic |
| C45 | the acquire loop of `cmd_acquire` | induction over the list |
| C46 | log queue, logging threads and the thread that writes | refinement to a list, history invariant |
| C47 | log ring buffer | refinement to a list |
| C48 | pool of worker threads | invariant |
| C49 | `read_resource_owners` on the bytes of the area, with the lease states of C02, C23 | characterisation of the list, lease invariants |
| C50 | client library and daemon on one socket, byte by byte | invariant over the bytes in flight, measure for return, witnesses |
| C51 | `read_config_file` on the bytes of the file, with `fgets`, `sscanf`, `atoi` | refinement to the last value per setting |
| C52 | host events over time, all hosts of a lockspace side by side | invariants over histories; counterexamples |
| C53 | `sanlk-reset`, `sanlk-resetd` and the host's wdmd on one time line | history invariant, real-time arithmetic, witnesses |
| C54 | main thread, workers, signals and the shutdown flag, one access per step | invariants, ranking of the steps of the main thread, witnesses |
| C55 | the pipe to the helper and the rounds of signals, any order of steps | invariant over executions, witnesses |
| C56 | fencing: agents, the victim's lease and membership; the main loop of `fence_sanlockd`; the victim's wdmd | invariants over executions, real-time arithmetic, witnesses |
| C57 | processes that start, end and are killed; lock file, shared memory object, socket | invariants over executions, witnesses |
| C58 | exclusive leases on any number of disks, of which some fail | executions without interference, by induction on the disks; witnesses |
| C59 | the test scripts of wdmd on top of its state machine | invariant by induction over executions; witnesses |
| C60 | index operations of several hosts, one step per sector | invariant by induction over executions: the index is the replay of a legal log; witnesses |
| C61 | mutexes, threads, joins and waits for clients, one instruction per step; the functions that use them are programs | every program follows a lock order (weakest preconditions over programs); waiting chains end; measure on what is left to run; witnesses |
| C62 | the same with the memory of each lockspace | invariant by induction: what each thread knows of each lockspace is true; witnesses |
| C63 | each Python function as a function of its arguments to a call of the library or an exception | equations for all arguments that fit, inversion for what is refused; theorems that two arguments act alike where they are cut |
| C64 | results of the library, with structures as bytes in memory, to Python values | equivalences for names, induction on lists, composition with C34; witnesses |
| C65 | what each Python function takes and gives back | one lemma for all places of failure, checked for each function |
| C66 | each call as bytes, the daemon as programs that wait for bytes and carry out an operation | structures survive encoding; one lemma on prefixes of what a program consumes; cases over calls and results; violations for all arguments |
| C67 | the table of `sanlk-resetd`, its main loop and the datagrams of `sanlk-reset` | every pass is a sequence of single operations; invariants by induction over them; witnesses |
| C68 | `direct_dump`, `direct_next_free`, release, read_leader and write_leader of `sanlock direct` | induction over the areas of a device that answers any read with any bytes or an error; round trips; witnesses |
| C69 | the state commands: `cmd_status`, `cmd_host_status`, `cmd_renewal`, `cmd_log_dump` and what `client_cmd.c` prints | round trip over the stream of records; permutation and grouping for the sorted output; witnesses and general counterexamples |
| C70 | descriptors: `open_disks`, `close_disks` and every caller in the daemon, `lockspace_thread` with its wdmd connection and sysfs files, connections | trees of system calls run concurrently on one table; an analysis of the trees proved sound by an invariant; witnesses and a general counterexample |
| C71 | `do_write`, `do_read` and the sector functions above them, without aio | induction over the answers of the kernel; witnesses and general counterexamples |
| C72 | Running out of memory | `NoMem`: programs over allocations, writes and other operations; trace semantics; `paxos_lease_acquire` extended by failing allocations |
| C73 | The command line of the tool | `CmdLine`: words to settings to calls of the library; induction over the words; composition with C34; witnesses |
| C74 | Lockspaces in use | `Used`: marks, orphans, processes and removals, any interleaving; invariant by induction over events; witnesses |
| C75 | Programs registered for events | `Regs`: places, sockets and library calls, any interleaving; invariant over the words on every socket; witnesses |
| C76 | The list of hosts | `Hosts`: all entries of a lockspace over any reads, the loop of the command, the list in the program, composed with `OwnerTest`; witnesses |
| C77 | Options for the fencing daemon | `FenceOpts`: round trip through print, FIFO and scan on bytes; general counterexamples |
| C78 | Request size of a lockspace disk | `Sectors`: daemon, helper queue, devices with any kernel; invariant over every run; general counterexamples |
| C79 | Host names | `HostName` with `Delta`: which name takes a lease at once, for all names; general counterexamples |

## What is modelled

| module | code |
|--------|------|
| `Rv` | return codes of `sanlock_rv.h` |
| `OnDisk`, `Crc` | `ondisk.c`, the structures of `leader.h`, `paxos_dblock.h`, `mode_block.h`, `rindex_disk.h`; `crc32c.c` and the checksum functions |
| `SizeFlags` | `sizeflags.c` and all sector numbers computed from sizes |
| `Verify` | `_verify_leader`, `verify_dblock`, `_lease_read_one`, `_lease_read_num`, `_leader_read_num` (`paxos_lease.c`), `verify_leader` (`delta_lease.c`) |
| `Ballot` | `run_ballot`, `majority_disks`, any number of hosts and disks |
| `Acquire` | `paxos_lease_acquire`, `paxos_lease_release` as programs over arbitrary results of reads, writes, clock and ballot |
| `Lease` | acquire, release, conversion, clearing of dead sharers (`paxos_lease.c`, `resource.c`), any number of hosts driving `Ballot`, one disk |
| `MultiLease` | acquire and release of an exclusive lease on any number of disks, any number of hosts driving `Ballot`; of the block written on release only the released flag on the first disk; no sharing or conversion |
| `Delta` | `delta_lease_acquire`, `_renew`, `_release`, any number of hosts in real time |
| `Init` | `delta_lease_init`, `paxos_lease_init` as writes interrupted anywhere, and the reads that meet the result |
| `Lvb` | reading, writing, setting and getting lock value blocks |
| `Timing` | `timeouts.c`, the configuration of io timeouts |
| `Liveness`, `HostEvent`, `History` | `host_status` bookkeeping, `get_host_flag`, `host_live`, the host event bitmap, renewal history (`lockspace.c`, `resource.c`, `cmd.c`) |
| `Event` | `lockspace_set_event`, the bits of lease requests, renewals publishing and reading events, `check_other_leases`, the queue of the resource thread, `send_event_callbacks`, for all hosts of one lockspace (`lockspace.c`, `resource.c`); one clock for all hosts, failed writes do not reach the disk, sectors have the right magic and name |
| `Lockspace` | the three lists of lockspaces (`lockspace.c`, `main.c`) |
| `Client`, `Release`, `Kill` | the `client` array, commands for registered processes (`main.c`, `cmd.c`), the token array of `cmd_release`, `kill_pids` |
| `Resource` | the resource lists and tokens of one host (`resource.c`) |
| `Request` | lease requests and their examination (`resource.c`) |
| `Aio` | callback slots and buffers of `diskio.c`, `task.c` and of the callers that allocate them |
| `Rindex` | `rindex.c` |
| `Strings`, `HelperArgs`, `OwnerTest` | resource strings and `sanlock_test_resource_owners` (`client.c`), `run_path` (`helper.c`) |
| `Log` | `log.c`: line format, queue, ring buffer, the thread that writes |
| `Pool` | `thread_pool_*` of `main.c` |
| `Owners` | `read_resource_owners` (`resource.c`), `paxos_read_buf` |
| `Wire` | the calls of `client.c` on a registered connection, `process_connection`, `client_recv_all` (`main.c`), the reads of `cmd_acquire`, `cmd_release`, `cmd_convert`, `cmd_killpath` (`cmd.c`) |
| `Config` | `read_config_file`, `get_val_int`, `get_val_str` (`main.c`); not the two settings that only choose what is logged |
| `ResetTool` | the main loops of `reset/sanlk_reset.c` and `reset/sanlk_resetd.c` after their start, with any answers of the daemon; one clock reading per pass; with `Wdmd` in `Props/ResetHost` |
| `Shutdown` | `main_loop` from the loop over the lockspaces on, the end of `do_daemon`, `daemon_shutdown_start`, `daemon_shutdown_reply`, `SM_CMD_SHUTDOWN`, the signal handler, `add_lockspace_wait`, `free_lockspaces`; every access to `external_shutdown` is a step; lockspaces are numbers with a count of users |
| `Helper` | `send_helper_kill`, the turns of `kill_pids` and `all_pids_dead` for one lockspace, `close_helper`, the reading loop of `run_helper`; the pipe is a list of at most 128 messages; a slot of the client table is not used again; the heartbeat of the helper is left out, the daemon only reports it |
| `Fence` | `fence_sanlock/fence_sanlockd.c` after its start, one pass per step with one clock reading; `action_off` of `fence_sanlock/fence_sanlock.in` on any number of hosts against one victim, whose lease and membership are abstract (C02, C03); with `Wdmd` in `Props/Fence` |
| `Single` | the start and end of `sanlock`, `fence_sanlockd` and `wdmd`: lock file, shared memory object, socket, from boot to reset; the work of the daemon is one phase; nobody else removes the files or the object |
| `Wdmd` | `wdmd/main.c` tests, clients, device; with `Delta` and `Timing` in `Props/Reset` |
| `Scripts` | the test scripts of `wdmd/main.c`: the directory scan, the table of eight, `test_scripts` with any results of `fork` and `waitpid`, on top of `Wdmd`; test files are compiled out; `-k` is a result of `waitpid` |
| `IndexOps` | `rindex_create`, `rindex_delete`, `rindex_lookup` by name and `rindex_update` of any number of hosts, one step per sector read or written, with `rindex_op` of `lockspace.c`; the index lease is abstract, an entry is its name, an area is the name in its leader record; writes may fail, land late or not at all |
| `Locks` | every section of `spaces_mutex`, `sp->mutex`, `cl->mutex`, `resource_mutex`, `pool.mutex`, `log_mutex`, `rand_mutex`, as programs of lock, unlock, use of a lockspace, list changes, thread creation, join and waiting socket I/O; list searches, allocation and free of `struct space` |
| `Python` | the Python 3 branch of `python/sanlock.c`: conversion of arguments, the call of the library, conversion of results, references; with `sanlock_killpath`, `sanlock_get_event` and `sanlock_get_lockspaces` of `client.c`, `get_lockspaces` of `lockspace.c`; the argument parser of Python is modelled by its documented formats |
| `OneShot` | the calls of `client.c` on a connection of their own, byte by byte; `process_connection` and the parts of the commands of `cmd.c` that read the connection and reply; what an operation does is abstract; the end of the stream comes after the bytes that were sent |
| `Status` | what `cmd_status`, `cmd_host_status`, `cmd_renewal` and `cmd_log_dump` send, byte by byte, with all keys of the texts except those of the daemon, which is any text; what `sanlock_status`, `sanlock_host_status`, `sanlock_renewal` and `sanlock_log_dump` receive, sort and print; the two sizes of buffers and their overflow |
| `Descr` | every open, use and close of a descriptor by the calls of the daemon that use disks, by the thread of a lockspace and for connections, as trees of system calls that run concurrently on one table; every decision taken by data is open both ways |
| `SyncIo` | `do_write`, `do_read`, `write_sector`, `write_sectors`, `read_sectors` without aio, byte by byte, for any list of answers of the kernel |
| `NoMem` | what happens to results, writes and pointers in `diskio.c`, `paxos_lease.c`, `delta_lease.c`, `resource.c`, `rindex.c`, `cmd.c` and `client.c` when an allocation fails |
| `CmdLine` | `read_command_line`, `parse_arg_lockspace`, `parse_arg_resource`, `parse_arg_rentry`, `parse_arg_rindex`, the calls made by `do_client`, the exit status of `main` |
| `Used` | `lockspace_set_config`, `cmd_rem_lockspace`, `rem_lockspace_start`, `lockspace_is_used`, `resource_orphan_count`, `all_pids_dead`, the loop over lockspaces in `main_loop`, `release_token_async`, the steps of `cmd_acquire` that touch lockspaces |
| `Regs` | `lockspace_reg_event`, `lockspace_end_event`, `_clean_event_fds`, `send_event_callbacks`, `close_event_fds`, `cmd_reg_event`, `cmd_end_event`, `sanlock_reg_event`, `sanlock_get_event`, `sanlock_end_event` |
| `Hosts` | `check_other_leases` over all hosts, `get_hosts`, `cmd_get_hosts`, `sanlock_get_hosts` after the answer has begun |
| `FenceOpts` | `send_options`, `wait_options`, the options and the use of path and host id in `main` of `fence_sanlockd` |
| `Sectors` | `set_lockspace_max_sectors_kb`, `helper_set_max_sectors_kb`, `set_max_sectors_kb`, `read_sysfs_size`, `write_sysfs_size`, `read_sysfs_uint`, `write_sysfs_uint`, `HELPER_MSG_WRITE_SYSFS` |
| `HostName` | `setup_host_name` and the settings of the name; the comparison and the writing are in `Delta` |
| `Resetd` | `reset/sanlk_resetd.c` from its start to its end: registrations, updates, events (with `ResetTool.Daemon`), hang-ups, sysrq; `update_local_daemon` of `sanlk_reset.c`; not its option parsing and the creation of its descriptors |
| `Direct` | `src/direct.c`: `direct_read_leader_sizes`, `direct_dump` with its argument, `direct_next_free`, the actions release, release_id, read_leader, write_leader; `read_file_leader` and its callers in `src/main.c` after the text of the file has been read. What is printed is a list of records. acquire, acquire_id, renew_id and init call functions modelled in `Acquire`, `Delta` and `Init` |

## What is not modelled

Message framing of the commands that only the command line tool uses (status, log dump, renewal, shutdown), option parsing,
the Python 2 branch and the module tables of the Python bindings, the start of `fence_sanlockd`, memory exhaustion (except where a finding names it), name and path strings where
they are only compared (numbers stand for them), and the kernel's block layer below one-sector atomic reads and writes.

## Assumptions, by model

Each is stated in the module; the list collects those that are not obvious.

* A sector is read and written whole.  A sector is never damaged in `Ballot` and `Lease`; `Verify`, `Crc` and `Init` treat damaged and
  foreign contents.  Reads of more than one sector may be torn at sector boundaries.
* `Ballot`: a failed write may have reached the disk but does not reach it after the call returned.  Version and ballot numbers are natural numbers.  The caller starts a ballot with a number that it has not used for this version (`Allowed`, discharged by `ballot_number`, `Props/AcquireMore`).
* `Lease`: one disk.  Predicates `Allowed` and `AllowedX`, explained there: a host is judged gone only when it is; a leader record is not written late; a block written on release loses no vote; conversion to shared has no I/O error; for shared leases, a host that finds its proposal committed by another has looked for markers.
* `MultiLease`: predicate `Allowed`: a host is judged gone only when it is; no leader record of a later version is overwritten; a host does not win with a value of its earlier generation; the clock does not show 0; the first write of a ballot to the first disk reaches it.
* `Delta`: a bound `slack` on the time between a host's read and its write; equal io timeouts where a theorem says so.
* `Acquire`: a bound on the time between a read of the owner's host lease and the clock reading next to it.
* `Client`: a connection registers at most once.
* `Aio`: a task belongs to one thread.
* `Lvb`: exclusion between hosts (C02, C23) is a premise.
* `Locks`: a function is what it does with mutexes, lockspaces and waiting sockets; in any order, by any thread that may run it.  Disk I/O
  and messages to wdmd return.  Waiting on a condition variable and the sleeping loops (`rem_lockspace_wait`, the end of `main_loop`) are
  left out: no mutex is held in them but the one of the condition variable.  A thread that waits for a mutex may be overtaken (no
  fairness).  Any program of a thread may follow any other.  A freed lockspace's number is not used again.
* `Python`: memory can be allocated; the formats of the argument parser behave as documented; a `str` path is given by its encoding; the
  flags passed to the format "k" as `uint32_t` (undefined in C) have their value.
* `HostName`: the UUID is any 36 bytes other than zero; that UUIDs differ is a hypothesis.
* `Sectors`: a device is a number; path, `stat` and device number lead to the same device each time; the kernel takes or refuses a value as a function of the value; the queue to the helper keeps the order (C55 has the pipe).
* `FenceOpts`: a write of `PIPE_BUF` bytes to a FIFO is atomic and a read takes the first ones; `getopt`, `mkfifo`, `open` and their errors are left out; `sscanf`, `snprintf` and `atoi` are written out for the C locale.
* `Hosts`: the main thread looks at the leases and answers the command, so each is one step; times are never 0 (`monotime`); the connection does not fail (C59) and memory does not run out (`NoMem`); at most 2000 hosts (`SizeFlags`).
* `Regs`: what the daemon writes is a list of 32-bit words, a `send` takes a whole structure or fails; connections lost while a command is being read are left out; `send_event_callbacks` uses `struct space` after it has released `spaces_mutex` (`src/lockspace.c:2027` says so), here it is one step; `SIGPIPE` is a mark on the socket.
* `Used`: one token per resource, acquire of one resource at a time; lockspaces being joined and operations on an index are left out; the comparison of the host id when an acquire ends is C32; signals are a list of processes, how they are sent is C30 and C55.
* `CmdLine`: arguments are bytes without NUL; allocations succeed; `atoll(..) * 1024 * 1024` wraps; users and groups are looked up by given functions; what the status actions print is C69, what the direct actions do is C68; `sizeof(long)` is 8.
* `NoMem`: opening, reading, checking what was read and taking or giving back the lease of an index are operations with any result; a read into a null pointer fails with `EFAULT`; leaks and the contents of what is written are not modelled.
* `SyncIo`: what `write` returns has been written at the file position, and nothing else; nobody else writes to the device in between.
* `Descr`: the kernel gives the lowest free descriptor; closing an open descriptor works; what blkid opens inside `set_disk_properties`, event
  descriptors, the pipes of the helper, the log file and `shutdown_reply_fd` are not in the model.
* `Status`: the three lists do not change while each of them is sent; the header has been received; the first message of the log is not being
  written while it is copied; a receive of more bytes than a buffer has is an overflow whether or not they arrive.
* `OneShot`: a byte that was sent arrives or the connection ends; the machine is little endian with the x86-64 layout of the structures; only
  one thread uses a connection; the caller's structures do not change during the call.
* `Resetd`: `poll` reports nothing for an entry whose descriptor is -1; sanlock gives every registration a descriptor of its own; a pass reads
  at most one datagram (as the code does).
* `Direct`: the device does not change while one command runs; offsets do not wrap; one disk per resource.
* `Props/Reset`: watchdog hardware resets the host when it has not been fed for its timeout; clocks advance at the same rate on all hosts.

## Findings

Places where the code does not do what a property says.  Each is proved on the model by the theorem named, as a concrete execution or for
every input of a described kind.

Leases between hosts (`Props/Lease`, `Props/Acquire`, `Props/Ballot`, `Props/Verify`, `Props/Owners`):

* Two hosts can hold an exclusive lease without any I/O error, delay or crash: a shared acquire that loses writes its block as it was before the ballot and so erases its vote (`failed_shared_violated`); the release of a shared lease after a lost conversion does the same (`failed_convert_violated`).
* The same after a leader write that timed out but reached the disk, by the erasing block write of the retraction (`retracted_vote_violated`), and by `clear_dead_shared`, which zeroes the whole block of a dead sharer between a read and a write (`cleared_vote_violated`).
* A leader record written late, by the winner of a ballot or by a release, replaces a newer one (`stale_commit_violated`, `stale_release_violated`).
* A host can win with a value it proposed in an earlier generation and gets a lease that others consider dead (`old_generation_violated`, in `Lease` and `Acquire`).
* An exclusive lease is granted next to a shared one when an abandoned proposal is committed by another host (`unseen_marker_violated`).
* `run_ballot` returning -ENOMEM is taken as success, and a leader record with version 0 is written (`ballot_enomem_violated`).
* A slow first read of the owner's host lease starts the wait too early (`slow_first_read_violated`); hosts with different io timeouts displace each other early (`mixed_timeout_violated`).
* Agreement of a ballot needs a fresh version, and host ids beyond `max_hosts` collide (`ballot_agreement_needs_fresh_version_violated`, `mbal_distinct_beyond_max_hosts_violated`).
* A majority read of several disks compares the first 152 bytes of the records and can return a damaged record that names no owner (`majority_read_verified_violated`); an acquire fails when only the last disk cannot be read (`lease_read_last_disk_violated`).
* The list of owners misses a holder that converts its lease while the area is read (`torn_convert_up_violated`, `torn_convert_down_violated`); a leader record with more hosts than fit in the area makes the daemon read outside the buffer (`owners_outside_violated`).
* Not proved, by reading: after an acquire that ended with "committed by other", `write_host_block` may write uninitialised memory with a valid checksum; `convert_sh2ex` with live sharers releases without DBLOCK_FL_RELEASED; dblock flags are outside the checksum.

Host ids and lockspaces (`Props/Delta`, `Props/Lockspace`, `Props/Liveness`, `Props/History`, `Props/Timing`):

* Different io timeouts let two hosts get one id (`mixed_io_timeouts_violated`); a late release frees another host's id (`late_release_violated`).
* A damaged host lease makes a live host look dead (`damaged_lease_violated`); a host without a recorded io timeout is reported dead while takeover treats it as alive (`flag_consistent_violated`).
* A lockspace that is being taken down is reported as held, as existing and as removable (`inq_dying_violated`); the end of an index operation clears the mark of a newer one (`clear_rindex_other_violated`).
* A history of size one reports nothing; failure counts are stale after the ring wraps (`size_one_violated`, `counts_stale_violated`).
* An explicit kill grace time is not checked against the watchdog timeout; the sums overflow for large io timeouts (`grace_fits_violated`, `timeouts_overflow_violated`).

Watchdog (`Props/Wdmd`, `Props/Reset`):

* A client that set an expiry time without taking a reference is forgotten when it dies (`unreferenced_expiry_violated`); scripts delay the reset (`reset_deadline_scripts_violated`); the io timeout is stored in 8 bits (`io_timeout_truncated_violated`).

Processes, resources, requests (`Props/Client`, `Props/Release`, `Props/Kill`, `Props/Resource`, `Props/Request`):

* Release-all, or naming more than eight resources, writes outside an array on the stack (`release_all_overflow_violated`, `release_named_overflow_violated`).
* A convert whose message cannot be read blocks all further commands and keeps the leases after the process died (`convert_failure_refuses_violated`, `convert_failure_keeps_lease_violated`); registering twice forgets leases (`register_twice_forgets_lease_violated`); a process that dies during killpath leaks its slot (`killpath_death_leaks_slot_violated`).
* A lease can be granted for a former membership (`regrant_after_rejoin_violated`, `generation_zero_violated`).
* A process that asked for neither SIGTERM nor SIGKILL gets SIGKILL (`restriction_violated`, `restricted_violated`).
* Converting to exclusive does not look at other local sharers (`convert_shared_violated`, `two_exclusive_violated`); ORPHAN_ONLY tests a wrong bit (`orphan_only_violated`); a process that dies during a command loses its persistent leases (`persistent_in_command_violated`); a failed conversion to shared may leave the record free (`ex2sh_failure_violated`).
* A request signals more than once, for versions already passed, and with process group 0 for shared or converted leases (`repeated_violated`, `passed_version_violated`, `shared_violated`, `converted_violated`).

Storage and memory (`Props/Rindex`, `Props/Init`, `Props/Aio`, `Props/Lvb`, `Props/SizeFlags`):

* Index locations overflow a 32-bit int and can alias (`location_overflow_violated`, `location_alias_violated`); requests outside the index touch foreign memory or the header (`outside_memory_violated`, `header_overwrite_violated`); rebuild takes foreign records and loses entries on errors (`rebuild_foreign_violated`, `rebuild_error_violated`).
* Reading a half-initialised lockspace succeeds when sizes are given (`lockspace_read_given_sizes_violated`); re-initialisation can leave a joinable mixture (`lockspace_reinit_violated`); lease initialisation and clearing can be interrupted with a readable leader (`lease_init_violated`, `lease_clear_violated`).
* `io_getevents` failing, lvb timeouts and index read timeouts free or reuse buffers in flight (`getevents_error_violated`, `lvb_use_after_free_violated`, `lvb_double_free_violated`, `lvb_write_violated`, `rindex_early_free_violated`, `rindex_double_free_violated`); some paths lose a buffer (`lease_init_leak`, `renew_leak`, `reap_leak`).
* Value block: write errors are ignored, a repeated release overwrites the next holder's value, read errors give uninitialised memory, values set after a failed conversion are lost, `get` has no upper bound (`Props/Lvb`); with 4096-byte sectors and 1M, 2M or 4M areas the value block lies outside the lease area (`lvb_layout_violated`).

Connections (`Props/Wire`):

* `client_recv_all` waits 20 ms for the data of a refused command; data that arrives later is taken for headers and the next call never returns (`late_data_violated`).
* The resources that are "ignored" with SANLK_REL_ALL are not read and are taken for headers; a later acquire can return success without having been seen (`release_all_args_violated`).  Flags that need more resources than given wait for ever (`release_args_missing_violated`).
* After SANLK_RESTRICT_ALL commands are dropped without a reply, so no call returns (`restrict_all_silent`).

Configuration (`Props/Config`):

* `use_watchdog` without a number takes the number of the previous setting, or uninitialised memory (`stale_value_violated`, `no_value_violated`); `use_watchdog = yes` switches it off (`word_value_violated`); numbers are cut to 32 bits (`large_value_violated`).
* The end of a comment longer than 127 characters is read as a line: what is commented out takes effect (`long_comment_violated`).

Host events (`Props/Event`):

* The last event stays in the host's record for ever; only the bits expire.  A lease request sets the bit of the owner of the lease, and that host takes the old event, for example a reset, for its own (`stale_event_violated`).
* Two calls exactly `set_bitmap_seconds` apart, as the documentation says, can deliver the second event to the first host (`boundary_violated`); other data with the same event, clearing, and event zero get around the refusal (`same_event_violated`, `cleared_event_violated`, `zero_event_violated`).
* When renewals fail for longer than the display period (60 seconds; the host survives 80), an accepted event is never published (`lost_violated`); an event for one incarnation of a host is delivered to the next (`incarnation_violated`).

Resetting a host (`Props/ResetTool`):

* A host that was seen dead in one lockspace and has come back is reported as reset as soon as its reply arrives, up to 70 seconds before its watchdog fires (`dead_before_violated`).
* A host that joins again within 90 seconds of its reply is reported as not reset: its timestamps start anew and the unsigned difference is huge (`rejoined_reported_failed_violated`).
* When the local daemon stops answering after the reply, the last timestamp is compared with itself and the check for a watchdog that did not fire is void (`no_news_done_violated`); when it closes the connections, the program never ends (`never_ends_violated`).
* The daemon with `-w 0` replies "resetting" although nothing will happen (`no_watchdog_violated`); after one failed message to wdmd it never tries again (`never_retried_violated`).
* By reading: the short option `-t` is missing from the option string; a generation given with `-g` is neither used by the daemon of the other host nor filled in by default as the usage text says (`SANLK_SETEV_CUR_GENERATION` is set exactly when a generation was given, and ignored then).

Shutdown (`Props/Shutdown`):

* A signal that arrives after a forced shutdown, while processes are still being killed, overwrites the forced shutdown, and the main thread then drops it because a lockspace exists: the lockspaces are gone, the daemon runs on, and `sanlock client shutdown -f 1 -w 1` never returns (`forced_forgotten_violated`). Stopping the service sends such a signal.
* An unforced shutdown that a worker accepts between the two tests of `external_shutdown` in the main loop is dropped as well (`accepted_forgotten_violated`).
* A signal that is ignored because of a lockspace still makes `add_lockspace` of another one fail (`ignored_signal_violated`); by reading, also lease acquisitions that wait for a dead owner.
* A lockspace that is added just after the main thread has found none is abandoned, in use, if a signal or forced shutdown comes then too (`exit_with_lockspace_violated`).
* Only the last client that waits is answered (`one_answer_violated`), one that is accepted late not at all (`late_unanswered_violated`), and success is reported while an addition is still being undone (`answered_early_violated`).

Strings (`Props/Strings`, `Props/HelperArgs`): `no_disks_violated`, `colon_name_violated`, `backslash_path_violated`, `full_name_violated`, `long_path_violated`, `state_overflow_violated`, `truncated_violated`.

Logging and threads (`Props/Log`, `Props/Pool`):

* When all 4096 entries of the log queue are in use, head and tail are equal and the thread that writes takes the queue for empty: no line is written any more, also not the one that reports dropped messages (`log_full_violated`, `log_full_forever`, `dropped_forever_violated`).
* The wait for the workers at shutdown is not repeated after a spurious wake-up (`spurious_quit_violated`); a worker that was woken still counts as free, so a command can wait behind a long one although more workers are allowed (`shared_worker_violated`).

The helper (`Props/Helper`):

* `no_helper_violated`: once the helper has ended, no process is signalled by any means. The comment at
  `src/main.c:1600-1602` says that SIGTERM is used instead. Only the watchdog is left.
* `sigpipe_violated`: a signal sent after the helper has ended and before the main thread has seen it ends the daemon,
  because SIGPIPE is not ignored; the branch for EPIPE is never reached.
* `gives_up_violated`: attempts count also when the pipe is full; a helper that does not read for 100 seconds uses up all
  of them, and the daemon gives up on a process that was never sent anything.
* `never_killed_violated`: when the lease is renewed again after its loss, the grace period goes on; a process with a
  program has its program started once, the other attempts send nothing, and it is never killed.
* `stale_pid_violated`: a message in the pipe names a process that can have ended before the helper reads it.

Fencing (`Props/Fence`):

* `crashed_victim_violated`: a victim whose sanlock daemon is killed and started again within the watchdog's timeout joins
  with a new generation, and the agent takes this for a reset.
* `second_agent_violated`: of two agents that fence the same host, one can report failure although the host was reset: it
  sees the first one's host in the record while that one is about to release it.
* `killed_agent_violated`: an agent killed between acquire and release leaves the lease, which belongs to fence_sanlockd of
  its host, with that host. Every later attempt fails and the victim cannot unfence, as long as that host lives.
* `winner_dies_violated`: after a duel the winner clears both flags; the next signal for the same request makes it a victim
  that is not fencing, and it is reset as well. sanlock signals again whenever the request is examined again.
* `three_hosts_violated`: a host that is asked while it fences a host with a higher number ignores the request, whoever sent
  it. The agent has asked once and waits forever.

Several disks (`Props/MultiLease`):

* `stale_flag_violated`: whether the owner has released is read from the owner's block on the first disk only. A host that
  released, then lost the first disk, and acquires again with the other two leaves the released mark there. If another host
  completes its ballot and writes the leader record for it, a third host takes the lease for released: two holders, with one
  disk fault of one host.
* `last_disk_needed`, `last_disk_violated`: `_lease_read_num` returns the result of the last disk's read although it found the
  leader on a majority. A host that cannot read the last disk cannot acquire any lease.
* `no_majority_stuck`, `torn_leader_violated`: a crash between the writes of the leader record to two disks leaves two
  different records, neither on a majority, and no host can acquire the lease again without initialising it. With three disks
  the same if one disk had been missed by the write before.

Starting and ending (`Props/Single`):

* `two_fenced_violated`, `no_lockfile_violated`: fence_sanlockd removes its lock file when it ends. One that is started at
  the same time can hold a lock on the removed file; then `fence_sanlockd -1` does not find it, and sanlock's request never
  reaches it. The same race exists in wdmd, where the shared memory object keeps a second daemon out.
* `killed_probe_violated`: a `wdmd -p` that is killed leaves the shared memory object, and wdmd refuses to start until the
  next boot.

Test scripts (`Props/Scripts`):

* `start_failure_violated`: when one `fork` fails, or the file is no longer executable, the script is dropped until SIGHUP. A script
  that has only ever failed, with the reset of the host under way, is forgotten and the watchdog is opened again.
* `ninth_script_violated`: a ninth script is silently not run. `no_client_violated`: without a client no script is run, and the
  watchdog is not armed; the manual says that scripts are run every test interval.
* `short_timeout_violated`: with a fire timeout below ten seconds the test interval is one second and the time to wait for scripts
  zero; a script that passes counts as failed unless it ends before the first look.
* A failed test closes the device, which pings it once more: the reset comes up to two test intervals later than the fire timeout after
  the script last passed.

Index operations of several hosts (`Props/IndexOps`):

* `update_race_violated`: `rindex_update` does not take the index lease, but writes a whole sector that it has read before. A creation
  or deletion in that sector by another host in between is undone; the area of the created resource is then given to another one.
* `removal_race_violated`: `rem_lockspace` refuses while an index operation runs, but an operation may begin after it, until the main
  loop marks the lockspace dead, and nothing waits for it. When the host lease is released, another host may take the index lease
  while the operation still goes on, and both give out the same area.
* `same_name_violated`: `rindex_create` does not look for the name; creating a name twice gives two areas, of which a lookup finds
  the first.
* `late_write_violated`: a timed-out write of the index that lands later undoes what another host did (as for leases, C02).
* `release_lost_violated`: the result of releasing the index lease is ignored; after a failed release the call reports success and
  other hosts cannot use the index while the host lives and makes no further call.
* Not proved: `lockspace_clear_rindex_op` finds the lockspace by name, so a call that outlives its lockspace clears the flag of a
  call in the lockspace that was added again.

Mutexes and the memory of lockspaces (`Props/Locks`):

* `status_stall_violated`: `cmd_status` sends the state of every lockspace while it holds `spaces_mutex`, and the state of every lease
  while it holds `resource_mutex`, on a blocking socket.  A client that asks for the status and does not read stops the main thread
  (no lease is checked, the watchdog is not updated) and every worker that needs the mutex.
* `set_event_violated`, `set_bit_violated`, `callbacks_violated`: `lockspace_set_event` and `host_status_set_bit` run in a worker and
  `send_event_callbacks` in the resource thread; they find the lockspace, unlock `spaces_mutex` and go on using it, while the main
  thread may free it (the comment at `src/lockspace.c:1972-2045` describes the problem).

The Python bindings (`Props/Python`):

* Names longer than 48 bytes are cut, bytes after a zero byte are dropped, paths of lockspaces longer than 1023 bytes are cut, numbers
  that do not fit are reduced, all without an exception, so that the call acts on another lockspace, resource or file (`name_cut_violated`,
  `name_zero_violated`, `path_cut_violated`, `number_wrap_violated`; `python/sanlock.c:538-539` and alike).
* `killpath` accepts a path and arguments of 127 bytes, of which the library keeps 126 (`src/client.c:1094-1095`); it escapes only spaces
  and backslashes, so that tabs split arguments, and accepts characters and numbers of arguments that the helper drops
  (`killpath_violated`).
* Names need no terminator but are returned as C strings: a name of 48 bytes comes with the bytes behind it (`long_name_violated`,
  `resource_name_violated`).
* One lockspace whose path is not UTF-8 makes `get_lockspaces` raise for all (`path_hides_violated`).
* `inquire` reads through a NULL pointer when the state string cannot be read, which a resource name with colons achieves
  (`inquire_crash_violated`; `python/sanlock.c:1210-1224`).
* Events that were read are lost when the connection was closed behind them (`events_lost_violated`).
* With more than 949 lockspaces the daemon sends fewer structures than it announces, and the client fails with -1
  (`get_lockspaces_violated`; the same mismatch is in `sanlock_get_hosts`, where the buffer suffices).
* `set_lvb` never releases its data (`set_lvb_leak_violated`).
* Not proved: `resources_to_list` passes `uint32_t` for `unsigned long` to a variadic function; failing allocations lead to double
  releases there and in `lockspaces_to_list`.

Status commands (`Props/Status`, `Props/StatusMore`, `Props/StatusHosts`):

* `sanlock client status` overflows a buffer of 4096 bytes on its stack by 192 bytes if any lease in the daemon has four disks
  (`status_disks_violated`); with `-o p` or `-o s` the buffer is large enough, but more than 1024 records are not shown (`sorted_violated`).
* If the daemon ends while it answers, the lines received so far are printed and the command succeeds (`status_cut_violated`); since the
  length received is not checked in `recv_bin`, the last line may be a lockspace without name (`status_short_violated`).
* A colon in a lockspace name is printed as it is, so the line names another lockspace (`space_line_violated`).
* `host_status` cuts a name of 48 bytes to 47 and does not find the lockspace (`host_status_violated`); without a name it prints such a name
  with the first bytes of the host id behind it (`host_status_name_violated`), and writes beyond `sort_bufs` for more than 1024 lockspaces
  (`host_status_many_violated`).
* Once the log in memory is full, `log_dump` receives as many bytes as its buffer has and prints on to the next zero byte in memory
  (`log_dump_violated`).

Library calls on their own connection (`Props/OneShot`):

* `write_resource_hosts_violated`: `sanlock_write_resource` sends `max_hosts` in `data` and `num_hosts` in `data2` (`src/client.c:612-615`), the
  daemon takes `data` for the number of hosts (`src/cmd.c:1943`).  The argument documented as unused decides, and the other has no effect.
* `lvb_carried_out`: the data of a refused `set_lvb` stay on the connection and are read as headers.  A process that stores data of its
  users as a lock value block of more than 4096 bytes carries out commands they choose (`src/cmd.c:1165-1169`); a request with more than
  four disks is refused in the same way (`src/cmd.c:1006-1010`).
* `read_resource_hangs_violated`: the call waits for a structure behind a reply that has none (`src/client.c:545-560`).
* `too_many_lockspaces_violated`: -ENOSPC, for which the library has a comment, cannot reach the caller.
* Not proved: `sanlock_set_lvb` and `sanlock_get_lvb` leave the descriptor open when the header cannot be sent (`src/client.c:1463-1465`,
  `1501-1503`); the library sends without `MSG_NOSIGNAL`, so a daemon that is gone can end the caller; `sanlock_get_lvb` gives fewer bytes
  than asked for and returns 0 when the sector is smaller; the lists are returned with 0 and no memory when `malloc` fails
  (`src/client.c:255-257`); a client that stalls behind a header of `get_hosts`, `reg_event`, `end_event` or `set_config` stops the main thread.

The lockspaces that `sanlk-resetd` watches (`Props/Resetd`):

* `reg_again_violated`: the results of `poll` are used after `process_update` has replaced the registration (`reset/sanlk_resetd.c:701`,
  `720`): a hang-up of the old one ends the new one.
* `reg_full_violated`, `space_violated`: `sanlk-reset` reports what it sent, not what became of it; `sscanf` cuts the name at white space.
* `end_violated`: lockspaces of the command line are registered without looking for repetitions (`reset/sanlk_resetd.c:618-625`).
* `reset_not_retried_violated`: `we_are_resetting` is set before the message to wdmd is known to have been sent (`reset/sanlk_resetd.c:363-367`).
* `sysrq_negative_violated`: `sysrq_delay` is signed and compared with an unsigned time (`reset/sanlk_resetd.c:713`).
* `count_violated`: an entry can be removed twice in one pass; without a name this only spoils a number that is shown when debugging.

The direct commands (`Props/Direct`):

* `release_violated`: `sanlock direct release` has host id 0, so `paxos_lease_release` takes any lease that was ever acquired for another
  host's and returns 0: the tool reports success and the lease stays held (`src/direct.c:200-224`, `src/paxos_lease.c:2262`).
* `dump_read_error_violated`: the result of `read_sectors` is not looked at (`src/direct.c:705`): leases in or behind an unreadable area are
  missing from the dump, which ends with 0.
* `dump_hosts_violated`, `dump_sector_violated`, `dump_name_violated`: `num_hosts` and `sector_size` of a record whose checksum is not
  verified, and the end of a name in an index, are trusted; memory outside of the buffers is read or, for `sector_size`, cleared.
* `dump_small_size_violated`: a size below one sector is taken as no size.
* `next_free_read_violated`, `next_free_offset_violated`, `next_free_sizes_violated`: an area that cannot be read, or is behind the end
  of the device, is printed as free; with an offset in the path the number is relative to it; without `-Z` and `-A` two variables
  are used that were never set (`src/direct.c:881-886`).
* `read_leader_violated`, `write_leader_unread_violated`: `leader` of `do_paxos_action` is not set when the read fails, is copied to the
  caller, printed, and by write_leader written to the disk (`src/direct.c:129`, `255-257`).
* `write_leader_endian_violated`: for a host id the checksum is taken of the record in host byte order (`src/main.c:3576`).
* `write_leader_force_violated`: for a resource the checksum of the file is replaced although the tool says it is used.
* Not proved: `direct acquire` gives its caller the same unset `leader` (the tool does not use it); `do_delta_action` leaves the disk open
  when the record cannot be read (`src/direct.c:351`, `384`).

Descriptors (`Props/Descr`):

* `watchdog_fails_violated`, `watchdog_leak_violated`: when `open_watchdog` has connected to wdmd but wdmd cannot open the watchdog,
  `lockspace_thread` calls `disconnect_watchdog` (`src/lockspace.c:857`), which closes `sp->wd_fd`; that is still 0
  (only `activate_watchdog` sets it, `src/watchdog.c:140`). The connection stays open and descriptor 0 is closed. From then on a
  disk can be opened as descriptor 0, the next failing lockspace closes it, and I/O of one call can reach the disk of another.
* `format_leak_violated`: `rindex_format` returns without closing the disk when the size flags do not go together
  (`src/rindex.c:397-399`). Enough such requests and the daemon cannot open any disk.
* `no_slot_violated`: `process_listener` does not look at the result of `client_add` (`src/main.c:1370`).
* Not proved: `open_disks` only logs sector sizes that differ although its comment says they are verified; `daemon_shutdown_reply`
  closes `shutdown_reply_fd`, which its client slot may close again.

Synchronous I/O (`Props/SyncIo`):

* `torn_violated`: `do_write` goes on after a short write (`src/diskio.c:419-427`, where a comment asks whether it should); a sector
  may stay half written.
* `write_zero_violated`: a result of 0 from `write` is neither progress nor an error; the call does not return.
* `seek_violated`: `lseek` returns -1 for the offset 2^64-1, which is equal to the unsigned offset (`src/diskio.c:400-401`): the data
  goes to the position of the descriptor. `open_disk` does not verify the offset although its comment says so (`src/diskio.c:276-280`).
* Not proved: `off_str` is printed uninitialised when a seek fails; at the end of the device `do_read` returns -1 where aio returns
  -EMSGSIZE, so `rindex_rebuild` does not recognise the end of a device without aio.


### C72: running out of memory

`posix_memalign` returns a positive `ENOMEM`.  `run_ballot`, `_lease_read_one`, `paxos_lease_init`, `delta_lease_init`,
`paxos_read_buf`, `read_rindex`, `update_rindex` and `rindex_format` return it as it is, and their callers test `rv < 0`.

* `ballot_nomem_violated`: acquire takes the failed ballot for a success and commits its zeroed block: version 0, owner 0,
  generation 0, free.  The version of the lease goes back, and the blocks of the other hosts, which carry higher versions, make
  every later ballot end with `DBLOCK_LVER`.
* `read_nomem_violated`, `stale_nomem_violated`: acquire goes on with an unset record, or with the one read before it started
  again.
* `read_num_violated`: with several disks the record of the previous disk is counted again.
* `init_violated`, `format_violated`: initialising returns 12, or even 0, with nothing written.
* `create_violated`, `delete_violated`: the index gets an entry without a lease, or keeps the entry of a cleared lease; success is
  reported.
* `crash_violated`: all operations on an index, and reading owners, follow a null pointer.
* `rebuild_violated`: a lease that cannot be read for lack of memory (or for any other error) is left out of the rebuilt index.
* `list_violated`: the list calls of the library return success without a list.


### C73: the command line

* `resource_path_violated`: `parse_arg_resource` looks for an `M` in everything behind the third colon.  With two disks
  `LS:R:/dev/a:1048576:/dev/M:0` puts the first lease at 1 TiB instead of 1 MiB.
* `resource_second_violated`: the `M` of the second offset is not understood; `2M` is 2 bytes.
* `overflow_violated`: more than 16 characters between the third colon and an `M` (for instance
  `LS:R:/dev/a:0:/dev/mapper/vg-Mirror:0`), or none, overflow `offstr[16]` on the stack.
* `lockspace_mega_violated`, `lockspace_stack_violated`: `parse_arg_lockspace` does not clear `offstr`, nor end it, so `1M` may be read as
  17 MiB, depending on what is on the stack.
* `lockspace_path_violated`, `lockspace_colon_violated`: colons with a backslash are counted as separators there.
* `resource_dropped_violated`: the result of `parse_arg_resource` is not used.  `sanlock client command -r BAD -c CMD` executes `CMD`
  without any lease.
* `exit_violated`: `sanlock client command` exits with success when `sanlock_register` fails and when `execv` fails.
* `clear_violated`: `-z 0` acts as `-z 1`: `update -z 0`, documented to add an entry, removes it.
* `timeout_ten_violated`: `add_lockspace -o 10` does not send the timeout, so a daemon configured with another one uses that.
* `align_violated`, `io_timeout_violated`, `grace_violated`: values that are not allowed are ignored without error.
* `init_null_violated`: `init -Z 512 -r BAD` follows a null pointer.


### C74: lockspaces in use

* `unused_marked_violated`: `rem_lockspace` with UNUSED looks for leases only.  A lockspace marked as used by `set_config` is not `EBUSY`: its
  removal begins, so no lease can be acquired in it any more and it cannot be marked again, and the call hangs until the mark is removed.
* `unused_race_violated`: the check of UNUSED and the removal take different mutexes at different times.  A process that acquires a lease in
  between is killed.
* `orphans_adopt_violated`: an orphan that another process is acquiring is on neither list that `all_pids_dead` looks at.  When the host id is
  lost at this time the watchdog connection is closed although the lease is not released.
* `orphans_killed_violated`: when the lockspace fails, a process with a persistent lease is signalled, and its lease is freed instead of
  becoming an orphan.  USED_BY_ORPHANS does not keep the lockspace then.


### C75: programs registered for events

* `early_violated`: `lockspace_reg_event` puts the socket into the lockspace before `cmd_reg_event` has answered, and another thread sends the
  events.  An event sent in between comes before the answer.  Its header is as long as the answer and has 0 where the result is, so
  `sanlock_reg_event` succeeds.  The rest of the event and the answer are together as long as one event: `sanlock_get_event` returns it, with
  the sender as host id and the magic number of the protocol as event, because it does not look at the header.  The event itself is lost.
* `full_violated`: a socket without room is closed (`src/lockspace.c:1928-1932`).  The program gets -1, and `sanlock_end_event` writes to the
  closed socket without `MSG_NOSIGNAL`: instead of `-EALREADY` a program that does not ignore `SIGPIPE` is killed.  The same happens after the
  lockspace has ended.
* `ended_violated`: `_clean_event_fds` reads one value.  If it is not 1 it is ignored, and the 1 behind it is not looked at until the next time.


### C76: the list of hosts

* `seen_alive_violated`: `src/sanlock_admin.h:88` promises the hosts "that have been seen alive".  The loop looks at the time in the lease only: a
  host that died before this one joined is listed, a host that was seen alive and has left is not.
* `damaged_violated`: `check_other_leases` does not take owner and generation from a sector that is not a lease, but takes its time
  (`src/lockspace.c:461-477`, so that a host with a bad lease is not taken for dead).  A sector overwritten with zeros has time 0, which means
  that the lease is free: a host that renewed its lease twenty seconds before is reported `FREE` or left out, and
  `sanlock_test_resource_owners` says that its resource has no owner (`zero_clear`, for every history).


### C77: options for the fencing daemon

* `blank_violated`: the line is split at blanks.  With the path `P -i J` the waiting daemon goes on with path `P` and host id `J`, for every `P`
  and `J`, and the sender reports success.
* `long_violated`: `snprintf` cuts the line.  With a path of 4086 bytes, host id 12 arrives as host id 1.
* `overrun_violated`: the daemon keeps 4095 bytes of path and copies them with `sprintf` into `struct sanlk_disk`, which has 1024.
* `negative_violated`: both sides test for 0 and for more than 128.  Host id -3 is joined as 2^64 - 3, and its lease is looked for before the beginning
  of the disk.


### C78: the request size of a lockspace disk

* `number_violated`: if the number in the configuration is more than the hardware can do, 1024 is set, even if the device did more before: with 8192
  configured and hardware for 4096, a device set to 4096 is lowered to 1024.
* `helper_violated`: a daemon that is not root sends a message to the helper and takes it for done.  If the kernel refuses the value (2 is a valid
  number in the configuration, but less than a page), `sanlock status` shows it nevertheless.


### C79: host names

* `long_violated`: a name of 48 bytes is accepted (`src/main.c:2466`, 2862), but `snprintf` writes 47 of them to the lease
  (`src/delta_lease.c:451`), and `strncmp` compares 48 (367).  The daemon does not know its own lease and waits as for a dead host.  A daemon whose
  name is the first 47 bytes takes the lease of the other at once, although it is held.
* `made_up_violated`: the name that a daemon makes up is the UUID, a full stop and 11 bytes of the node name, 48 bytes if the node name has 11 or
  more.  Such a daemon never takes its own lease at once.


## Seeded bugs

`seeded/LOG.jsonl` has one line per attempt: the definition edited in a scratch copy, the edit, the claim it breaks, the theorems that
failed (`module:theorem`; `notbuilt` are the modules that import a failed one), and the theorems added or tightened because of it.
