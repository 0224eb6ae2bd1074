{
 "claims": [
  {
   "property": "C01",
   "status": "proved",
   "theorems": [
    "Sanlock.Ballot.ballot_agreement",
    "Sanlock.Ballot.ballot_agreement_won",
    "Sanlock.Ballot.ballot_owner_proposed",
    "Sanlock.Ballot.ballot_agreement_needs_fresh_version_violated"
   ],
   "note": "Any number of hosts and disks; one step is one sector read or write. The proviso of the property is the predicate Allowed; ballot_agreement_needs_fresh_version_violated shows it is needed."
  },
  {
   "property": "C02",
   "status": "partial",
   "theorems": [
    "Sanlock.Lease.exclusive_unique_partial",
    "Sanlock.Lease.exclusive_on_disk",
    "Sanlock.Lease.exclusive_alive",
    "Sanlock.Lease.ends_exclusive",
    "Sanlock.Lease.phase_other",
    "Sanlock.Lease.stale_commit_violated",
    "Sanlock.Lease.old_generation_violated",
    "Sanlock.Lease.failed_shared_violated",
    "Sanlock.Lease.stale_release_violated",
    "Sanlock.Lease.cleared_vote_violated",
    "Sanlock.Lease.retracted_vote_violated",
    "Sanlock.Lease.failed_convert_violated",
    "Sanlock.MultiLease.exclusive_disks_partial",
    "Sanlock.MultiLease.holder_alive_disks",
    "Sanlock.MultiLease.reader_sees_holder",
    "Sanlock.MultiLease.phase_other_disks",
    "Sanlock.MultiLease.ends_disks",
    "Sanlock.MultiLease.stale_flag_violated"
   ],
   "note": " Any number of hosts, one step per sector read or write, crashes, rejoining, failing writes, sharing and conversion; one disk. The assumptions are the predicate Allowed: mainly that a leader record is not written late (after another host got the lease since the writer began the second read of its ballot, or since the releaser read the record), and that a block written on release after a failed acquire or conversion loses no vote. The claim without them is false: seven executions with two exclusive holders, two of them (failed_shared_violated, failed_convert_violated) without any I/O error, delay or crash. For exclusive leases without sharing also on any number of disks, each of which may fail for some hosts some of the time (MultiLease); there one more assumption is needed, that the first write of a ballot reaches the first disk, and without it two hosts hold the lease (stale_flag_violated)."
  },
  {
   "property": "C03",
   "status": "partial",
   "theorems": [
    "Sanlock.Acquire.displace_justified_partial",
    "Sanlock.Acquire.slow_first_read_violated",
    "Sanlock.Acquire.mixed_timeout_violated"
   ],
   "note": "Proved for every execution, with the time between a read of the owner's host lease and the adjacent clock reading bounded by d and shown as slack 2d, and for owners whose I/O timeout the renewal thread recorded. Two witnesses show both conditions are needed: the wait is counted from before a slow first read, and the acquirer's own I/O timeout is used for an owner not checked yet."
  },
  {
   "property": "C04",
   "status": "partial",
   "theorems": [
    "Sanlock.Acquire.acquire_version_partial",
    "Sanlock.Acquire.written_version_partial",
    "Sanlock.Acquire.old_generation_violated",
    "Sanlock.Acquire.ballot_enomem_violated",
    "Sanlock.Acquire.retract_iff"
   ],
   "note": "Proved for every execution and number of retries, assuming the ballot returns the version it was called with and a win for the caller is for its current generation. Two witnesses show the assumption is needed: a win adopted from the caller's own earlier generation is reported as success, and an out-of-memory return (positive) is taken for a win and overwrites the record with version 0."
  },
  {
   "property": "C05",
   "status": "proved",
   "theorems": [
    "Sanlock.Acquire.release_only_own",
    "Sanlock.Acquire.release_only_own_erase",
    "Sanlock.Acquire.release_result",
    "Sanlock.Acquire.release_succeeds",
    "Sanlock.Acquire.release_refused"
   ],
   "note": "Decision and written record of release for all records and callers. The read and the write are separate disk operations; interference between them is C02."
  },
  {
   "property": "C06",
   "status": "proved",
   "theorems": [
    "Sanlock.OnDisk.leader_roundtrip",
    "Sanlock.OnDisk.request_roundtrip",
    "Sanlock.OnDisk.dblock_roundtrip",
    "Sanlock.OnDisk.modeBlock_roundtrip",
    "Sanlock.OnDisk.rindexHeader_roundtrip",
    "Sanlock.OnDisk.rindexEntry_roundtrip",
    "Sanlock.OnDisk.encodings_portable",
    "Sanlock.OnDisk.encodings_length",
    "Sanlock.OnDisk.leader_owner_at_32",
    "Sanlock.OnDisk.leader_compare_prefix"
   ],
   "note": "All six structures, both byte orders on both sides, arbitrary trailing bytes."
  },
  {
   "property": "C07",
   "status": "proved",
   "theorems": [
    "Sanlock.Crc.written_leader_verifies",
    "Sanlock.Crc.written_dblock_verifies",
    "Sanlock.Crc.leader_burst_detected",
    "Sanlock.Crc.leader_odd_detected",
    "Sanlock.Crc.leader_two_detected",
    "Sanlock.Crc.verifyDblock_sound",
    "Sanlock.Crc.dblock_burst_detected",
    "Sanlock.Crc.dblock_flags_unprotected"
   ],
   "note": "The table of crc32c.c is modelled literally. For ballot blocks detection needs mbal and lver non-zero, which holds for every block a ballot writes; an all-zero block is accepted by design. The flags word of a ballot block is outside the checksum (finding)."
  },
  {
   "property": "C08",
   "status": "proved",
   "theorems": [
    "Sanlock.Ballot.ourMbal_gt",
    "Sanlock.Ballot.mbal_increases",
    "Sanlock.Ballot.mbal_distinct",
    "Sanlock.Ballot.ourMbal64_eq",
    "Sanlock.Ballot.mbal_distinct_beyond_max_hosts_violated",
    "Sanlock.Acquire.ballot_number"
   ],
   "note": "For host ids up to max_hosts; beyond that (num_hosts is not bounded by max_hosts when set on acquire) numbers collide, see the _violated theorem. ballot_number: every number acquire uses, over any number of retries."
  },
  {
   "property": "C09",
   "status": "partial",
   "theorems": [
    "Sanlock.Verify.majority_read_sound",
    "Sanlock.Verify.majority_read_unique",
    "Sanlock.Verify.majority_reads_agree",
    "Sanlock.Verify.majority_read_verified_partial",
    "Sanlock.Verify.majority_read_verified_violated",
    "Sanlock.Verify.lease_read_last_disk_violated"
   ],
   "note": "Proved for any number of disks for owner, generation, version and all other compared fields. The record as a whole need not be verified: majority_read_verified_violated; majority_read_verified_partial has the extra hypothesis."
  },
  {
   "property": "C10",
   "status": "proved",
   "theorems": [
    "Sanlock.Verify.read_accepts_iff",
    "Sanlock.Verify.read_error_specific",
    "Sanlock.Verify.delta_read_accepts_iff"
   ],
   "note": ""
  },
  {
   "property": "C11",
   "status": "proved",
   "theorems": [
    "Sanlock.SizeFlags.supported_iff",
    "Sanlock.SizeFlags.paxos_layout",
    "Sanlock.SizeFlags.delta_layout",
    "Sanlock.SizeFlags.align_flag_roundtrip",
    "Sanlock.SizeFlags.size_flags_in_word",
    "Sanlock.SizeFlags.sizesFromFlags_sound",
    "Sanlock.SizeFlags.flag_meaning"
   ],
   "note": ""
  },
  {
   "property": "C12",
   "status": "proved",
   "theorems": [
    "Sanlock.Delta.one_holder",
    "Sanlock.Delta.winner_excludes",
    "Sanlock.Delta.mixed_io_timeouts_violated",
    "Sanlock.Delta.late_release_violated"
   ],
   "note": "Any number of hosts and any timed interleaving of the single reads and writes; Sane and Allowed state the proviso on the delay, that a dead host's writes do not land, and that stored host names differ. The _violated theorems show executions outside the proviso: mixed I/O timeouts and a delayed release write."
  },
  {
   "property": "C13",
   "status": "proved",
   "theorems": [
    "Sanlock.Delta.generations_grow",
    "Sanlock.Delta.join_generation",
    "Sanlock.Delta.joined_generation",
    "Sanlock.Delta.generation_kept"
   ],
   "note": "Same assumptions as C12."
  },
  {
   "property": "C14",
   "status": "proved",
   "theorems": [
    "Sanlock.Delta.renew_other_owner",
    "Sanlock.Delta.renew_changed",
    "Sanlock.Delta.renew_unchanged",
    "Sanlock.Delta.renew_refused"
   ],
   "note": ""
  },
  {
   "property": "C15",
   "status": "proved",
   "theorems": [
    "Sanlock.Reset.reset_deadline",
    "Sanlock.Reset.reset_before_takeover",
    "Sanlock.Reset.reset_deadline_scripts_violated",
    "Sanlock.Reset.io_timeout_truncated_violated"
   ],
   "note": "Any behaviour of wdmd, its clients and scripts after the last renewal; clocks of two hosts with any offset, truncated to seconds. The hypothesis Timely is the scheduling proviso of the property; the _violated theorems show that slow test scripts or an I/O timeout above 255 break it."
  },
  {
   "property": "C16",
   "status": "proved",
   "theorems": [
    "Sanlock.Wdmd.disarm_only_unreferenced",
    "Sanlock.Wdmd.exit_only_unreferenced",
    "Sanlock.Wdmd.dead_client_kept",
    "Sanlock.Wdmd.dead_entry_forever",
    "Sanlock.Wdmd.dead_client_noticed",
    "Sanlock.Wdmd.dead_client_fires",
    "Sanlock.Wdmd.disarm_after_reopen_failure",
    "Sanlock.Wdmd.unreferenced_expiry_violated"
   ],
   "note": "All executions of the daemon. The two extra theorems show why the provisos (device can be reopened, client holds a reference) are in the statement."
  },
  {
   "property": "C17",
   "status": "proved",
   "theorems": [
    "Sanlock.Wdmd.keepalive_only_if_tests_pass",
    "Sanlock.Wdmd.failed_round",
    "Sanlock.Wdmd.no_ping_until_pass",
    "Sanlock.Wdmd.interval_fits"
   ],
   "note": ""
  },
  {
   "property": "C18",
   "status": "partial",
   "theorems": [
    "Sanlock.Liveness.flag_documented",
    "Sanlock.Liveness.flag_consistent_partial",
    "Sanlock.Liveness.old_generation_dead",
    "Sanlock.Liveness.unknown_host_live",
    "Sanlock.Liveness.dead_only_when_silent",
    "Sanlock.Liveness.flag_consistent_violated",
    "Sanlock.Liveness.damaged_lease_violated"
   ],
   "note": "Proved for every history of reads for hosts other than the own one that recorded an I/O timeout; without a recorded timeout the property is violated."
  },
  {
   "property": "C19",
   "status": "proved",
   "theorems": [
    "Sanlock.Lockspace.lockspaces_unique",
    "Sanlock.Lockspace.add_refused_unchanged"
   ],
   "note": "Over every sequence of calls, completions, failures, index operations and shutdowns. The list updates are modelled one critical section at a time."
  },
  {
   "property": "C20",
   "status": "partial",
   "theorems": [
    "Sanlock.Lockspace.add_codes",
    "Sanlock.Lockspace.inq_codes_partial",
    "Sanlock.Lockspace.rem_codes",
    "Sanlock.Lockspace.rem_marks",
    "Sanlock.Lockspace.rem_done_gone",
    "Sanlock.Lockspace.remove_during_add",
    "Sanlock.Lockspace.rindex_one_at_a_time",
    "Sanlock.Lockspace.find_id",
    "Sanlock.Lockspace.inq_dying_violated",
    "Sanlock.Lockspace.clear_rindex_other_violated"
   ],
   "note": "add and remove codes are characterised completely. The inquire clause is false as worded: a lockspace that is being taken down is still reported as held until its processes are dead (inq_dying_violated)."
  },
  {
   "property": "C21",
   "status": "partial",
   "theorems": [
    "Sanlock.Resource.exclusive_local_partial",
    "Sanlock.Resource.acquire_in_use",
    "Sanlock.Resource.one_per_name",
    "Sanlock.Resource.no_use_after_free",
    "Sanlock.Resource.one_releaser",
    "Sanlock.Resource.convert_shared_violated",
    "Sanlock.Resource.two_exclusive_violated"
   ],
   "note": "Proved for all sequences of actions in which no conversion to exclusive succeeds while another local process shares the resource. convert_token does not check this; the two violation theorems exhibit an exclusive and a shared holder, and two exclusive holders, on one host."
  },
  {
   "property": "C22",
   "status": "partial",
   "theorems": [
    "Sanlock.Resource.persistent_orphaned_partial",
    "Sanlock.Resource.orphan_stays",
    "Sanlock.Resource.acquire_orphan",
    "Sanlock.Resource.orphan_only_enoent_partial",
    "Sanlock.Resource.orphan_only_violated",
    "Sanlock.Resource.persistent_in_command_violated"
   ],
   "note": "Orphans stay, are refused without a flag and adopted with one. Violated: ORPHAN_ONLY without the LVB flag acquires a new lease (the code tests the wrong bit), and a process that dies while one of its commands is active has its persistent leases released."
  },
  {
   "property": "C23",
   "status": "partial",
   "theorems": [
    "Sanlock.Lease.exclusive_alone_partial",
    "Sanlock.Lease.exclusive_no_sharing_partial",
    "Sanlock.Lease.granted_exclusive_partial",
    "Sanlock.Lease.shared_on_disk",
    "Sanlock.Lease.marker_written_as_owner",
    "Sanlock.Lease.ends_shared",
    "Sanlock.Lease.unseen_marker_violated",
    "Sanlock.Lease.convert_outcome",
    "Sanlock.Lease.convert_success"
   ],
   "note": "As for C02, with the additional assumptions of AllowedX. unseen_marker_violated: a host whose earlier, abandoned proposal was committed by another host gets the lease exclusively although a live host shares it."
  },
  {
   "property": "C24",
   "status": "partial",
   "theorems": [
    "Sanlock.Resource.convert_same",
    "Sanlock.Resource.convert_mode",
    "Sanlock.Resource.sh2ex_success",
    "Sanlock.Resource.sh2ex_failure",
    "Sanlock.Resource.ex2sh_success",
    "Sanlock.Resource.convert_shared_violated",
    "Sanlock.Resource.ex2sh_failure_violated",
    "Sanlock.Resource.sh2ex_given_up"
   ],
   "note": "Proved on the conversion functions with arbitrary results of the disk operations. Violated: other local sharers are not checked; a timed-out write that lands leaves the record free while the caller still has the lease as exclusive."
  },
  {
   "property": "C25",
   "status": "partial",
   "theorems": [
    "Sanlock.Rindex.format_ok",
    "Sanlock.Rindex.search_location",
    "Sanlock.Rindex.search_complete",
    "Sanlock.Rindex.search_defined_partial",
    "Sanlock.Rindex.areas_disjoint",
    "Sanlock.Rindex.lookup_location",
    "Sanlock.Rindex.location_overflow_violated",
    "Sanlock.Rindex.location_alias_violated"
   ],
   "note": "Proved wherever the C computation is defined; the code multiplies the entry number in a 32-bit int, so the claim fails for entries beyond 2 GiB (entry 2048 for 1 MiB areas, 256 for 8 MiB); witnesses are the *_violated theorems."
  },
  {
   "property": "C26",
   "status": "proved",
   "theorems": [
    "Sanlock.Rindex.create_crash",
    "Sanlock.Rindex.create_done",
    "Sanlock.Rindex.delete_crash",
    "Sanlock.Rindex.create_found"
   ],
   "note": "For every crash point of the writes of create and delete, whenever the location computation is defined (see C25). Writes to the index's internal lease are not part of the model."
  },
  {
   "property": "C27",
   "status": "partial",
   "theorems": [
    "Sanlock.Rindex.rebuild_exact_partial",
    "Sanlock.Rindex.rebuild_foreign_violated",
    "Sanlock.Rindex.rebuild_error_violated"
   ],
   "note": "The rebuilt entries are determined exactly by the magic number at each area; validity and lockspace are not checked by the code and unreadable areas lose their entry (violations proved)."
  },
  {
   "property": "C28",
   "status": "partial",
   "theorems": [
    "Sanlock.Rindex.update_inside_partial",
    "Sanlock.Rindex.lookup_location",
    "Sanlock.Rindex.misaligned_refused",
    "Sanlock.Rindex.outside_memory_violated",
    "Sanlock.Rindex.header_overwrite_violated"
   ],
   "note": "Holds for offsets of existing entries and misaligned offsets; other aligned offsets escape the buffer or hit the header (violations proved)."
  },
  {
   "property": "C29",
   "status": "partial",
   "theorems": [
    "Sanlock.Client.released_once",
    "Sanlock.Client.quiet_tokens_partial",
    "Sanlock.Client.quiet_slots_partial",
    "Sanlock.Client.stuck_only",
    "Sanlock.Client.convert_failure_keeps_lease_violated",
    "Sanlock.Client.register_twice_forgets_lease_violated",
    "Sanlock.Client.killpath_death_leaks_slot_violated",
    "Sanlock.Client.command_ends",
    "Sanlock.Client.command_can_finish"
   ],
   "note": "For all interleavings of any number of connections and commands no lease is released twice, and at rest the leases not released are those of live processes. Assumes a connection registers at most once. The full claim is false of the code: a convert whose resource is not received completely, registering twice, and a killpath that meets the death of its target each leave leases or slots behind (proved with witnesses)."
  },
  {
   "property": "C30",
   "status": "partial",
   "theorems": [
    "Sanlock.Kill.only_users",
    "Sanlock.Kill.all_users",
    "Sanlock.Kill.unrestricted",
    "Sanlock.Kill.restriction_respected_partial",
    "Sanlock.Kill.both_restricted_killed",
    "Sanlock.Kill.restriction_violated",
    "Sanlock.Kill.program_once",
    "Sanlock.Kill.keeps_signalling"
   ],
   "note": "All claims hold except for a process that asked to be sent neither signal: it is sent SIGKILL (proved for every such case)."
  },
  {
   "property": "C31",
   "status": "proved",
   "theorems": [
    "Sanlock.Client.live_leases_listed",
    "Sanlock.Client.removal_safe",
    "Sanlock.Client.grant_active_partial"
   ],
   "note": "For all interleavings. Assumes a connection registers at most once, and that the main loop looks at all slots in use."
  },
  {
   "property": "C32",
   "status": "partial",
   "theorems": [
    "Sanlock.Client.grant_active_partial",
    "Sanlock.Client.regrant_after_rejoin_violated",
    "Sanlock.Client.generation_zero_violated"
   ],
   "note": "The lockspace is listed, has not failed and has the lease's host id. The generation may differ from the current one: two witnesses."
  },
  {
   "property": "C33",
   "status": "partial",
   "theorems": [
    "Sanlock.Release.release_all_partial",
    "Sanlock.Release.release_all_overflow_violated",
    "Sanlock.Release.release_named_partial",
    "Sanlock.Release.release_named_overflow_violated",
    "Sanlock.Release.release_slots",
    "Sanlock.Release.release_all_slots"
   ],
   "note": "Safe and exact up to eight leases. With nine or more release-all always writes outside its array, and a process can hold that many; a message with nine held resources does the same."
  },
  {
   "property": "C34",
   "status": "partial",
   "theorems": [
    "Sanlock.Strings.path_roundtrip_partial",
    "Sanlock.Strings.res_roundtrip_partial",
    "Sanlock.Strings.state_roundtrip_partial",
    "Sanlock.Strings.strToRes_safe",
    "Sanlock.Strings.no_disks_violated",
    "Sanlock.Strings.colon_name_violated",
    "Sanlock.Strings.backslash_path_violated",
    "Sanlock.Strings.full_name_violated",
    "Sanlock.Strings.long_path_violated",
    "Sanlock.Strings.state_overflow_violated"
   ],
   "note": "Round trips proved for all resources with 1 to 4 disks, terminated names without colon and backslash, and paths without backslash whose escaped form fits. For every other case the claim is false of the code; witnesses are the *_violated theorems. Parsing one resource is memory safe for all strings; parsing a state string is not."
  },
  {
   "property": "C35",
   "status": "partial",
   "theorems": [
    "Sanlock.Aio.buffers_safe_partial",
    "Sanlock.Aio.freed_exactly_once_partial",
    "Sanlock.Aio.getevents_error_violated",
    "Sanlock.Aio.lvb_use_after_free_violated",
    "Sanlock.Aio.lvb_double_free_violated",
    "Sanlock.Aio.lvb_write_violated",
    "Sanlock.Aio.rindex_early_free_violated",
    "Sanlock.Aio.rindex_double_free_violated",
    "Sanlock.Aio.lease_init_leak",
    "Sanlock.Aio.renew_leak",
    "Sanlock.Aio.reap_leak"
   ],
   "note": "Proved for all operation sequences and kernel answers except: io_getevents failing with an error, lvb I/O timing out, and the index read timing out, for which the claim is false (violated theorems). Three paths lose a buffer (leak theorems)."
  },
  {
   "property": "C36",
   "status": "proved",
   "theorems": [
    "Sanlock.HostEvent.setBit_exact",
    "Sanlock.HostEvent.published",
    "Sanlock.HostEvent.setHostBit_exact",
    "Sanlock.HostEvent.notice_iff",
    "Sanlock.HostEvent.delivered"
   ],
   "note": "The bitmap of the daemon, from asking for attention to the other host noticing it. The delivery inside the other host (queue of the resource thread) is not modelled."
  },
  {
   "property": "C37",
   "status": "partial",
   "theorems": [
    "Sanlock.SizeFlags.lvb_layout_partial",
    "Sanlock.SizeFlags.lvb_layout_violated",
    "Sanlock.Lvb.value_read_back_partial",
    "Sanlock.Lvb.holder_reads_value_partial",
    "Sanlock.Lvb.get_value",
    "Sanlock.Lvb.write_error_violated",
    "Sanlock.Lvb.retry_overwrites_violated",
    "Sanlock.Lvb.read_error_violated",
    "Sanlock.Lvb.failed_convert_violated",
    "Sanlock.Lvb.get_too_long_violated",
    "Sanlock.Lvb.set_too_long"
   ],
   "note": "Layout: violated for some supported sizes (lvb_layout_violated), lvb_layout_partial states where it holds. Read-back: proved for all executions without value block I/O errors, with exclusion on disk as a premise; violated with such errors, since they are ignored by acquire, release and convert."
  },
  {
   "property": "C38",
   "status": "proved",
   "theorems": [
    "Sanlock.OwnerTest.test_clear_iff",
    "Sanlock.OwnerTest.test_live"
   ],
   "note": "For host lists with one entry per host id, which is what the daemon returns; test_live covers arbitrary lists."
  },
  {
   "property": "C39",
   "status": "partial",
   "theorems": [
    "Sanlock.History.report_recent_partial",
    "Sanlock.History.report_newest",
    "Sanlock.History.counts_partial",
    "Sanlock.History.counts_stale_violated",
    "Sanlock.History.size_one_violated"
   ],
   "note": "Proved for histories of at least two entries. Missing: size one, where nothing is ever reported (size_one_violated); the failure counts attached to entries are right until the ring wraps (counts_partial) and stale afterwards (counts_stale_violated)."
  },
  {
   "property": "C40",
   "status": "partial",
   "theorems": [
    "Sanlock.Request.request_written",
    "Sanlock.Request.request_refused",
    "Sanlock.Request.sent_to_holder",
    "Sanlock.Request.once_per_examine_partial",
    "Sanlock.Request.newer_partial",
    "Sanlock.Request.message_kind",
    "Sanlock.Request.restricted_violated",
    "Sanlock.Request.repeated_violated",
    "Sanlock.Request.passed_version_violated",
    "Sanlock.Request.shared_violated",
    "Sanlock.Request.converted_violated"
   ],
   "note": "Request records only move forward; a message goes only to the process holding the lease at that moment, at most one per examination, and for a newer version unless released and retaken meanwhile. At-most-once per version, passed versions and shared leases are violated by the code (violated theorems)."
  },
  {
   "property": "C41",
   "status": "partial",
   "theorems": [
    "Sanlock.HelperArgs.argv_words_partial",
    "Sanlock.HelperArgs.argv_roundtrip",
    "Sanlock.HelperArgs.argv_bounded",
    "Sanlock.HelperArgs.truncated_violated",
    "Sanlock.Python.killpath_arrives_partial",
    "Sanlock.Python.killpath_violated"
   ],
   "note": "Proved for strings of printable ASCII with escaped white space and backslashes. Other strings are silently cut (truncated_violated). Memory bounds hold for all strings. From Python: killpath_arrives_partial, for up to 126 bytes of printable ASCII and up to seven arguments."
  },
  {
   "property": "C42",
   "status": "partial",
   "theorems": [
    "Sanlock.Init.lockspace_init_partial",
    "Sanlock.Init.lockspace_first_record_partial",
    "Sanlock.Init.lockspace_initialised",
    "Sanlock.Init.lockspace_read_given_sizes_violated",
    "Sanlock.Init.lockspace_reinit_violated",
    "Sanlock.Init.lease_init_partial",
    "Sanlock.Init.lease_initialised",
    "Sanlock.Init.lease_init_violated",
    "Sanlock.Init.lease_clear_violated",
    "Sanlock.Init.lease_cleared",
    "Sanlock.Init.lease_area_clean"
   ],
   "note": "Proved for areas that held no lockspace (no lease) before and for reads that start at the first record. False, with witnesses for all parameters: reads of a lockspace that specify its sizes, re-initialising over a lockspace, and a resource whose first sector lands before the others. Assumes a sector is written whole or not at all."
  },
  {
   "property": "C43",
   "status": "partial",
   "theorems": [
    "Sanlock.Timing.timeouts_ordered",
    "Sanlock.Timing.grace_fits_partial",
    "Sanlock.Timing.grace_fits_violated",
    "Sanlock.Timing.timeouts_overflow_violated"
   ],
   "note": "Ordering proved for every configuration without int overflow; the grace period part is violated when the administrator sets the grace period explicitly."
  },
  {
   "property": "C44",
   "status": "proved",
   "theorems": [
    "Sanlock.Client.one_command",
    "Sanlock.Client.second_command_refused",
    "Sanlock.Client.killed_refused",
    "Sanlock.Client.dead_refused",
    "Sanlock.Client.convert_failure_refuses_violated",
    "Sanlock.Client.kill_mark_kept"
   ],
   "note": "Assumes a connection registers at most once. In addition: after a failed convert every command is refused although none runs."
  },
  {
   "property": "C45",
   "status": "proved",
   "theorems": [
    "Sanlock.Client.failed_acquire_releases",
    "Sanlock.Client.granted_acquire_adds_all",
    "Sanlock.Client.leases_change"
   ],
   "note": "For all interleavings and all numbers of resources. Assumes a connection registers at most once."
  },
  {
   "property": "C46",
   "status": "partial",
   "theorems": [
    "Sanlock.Log.line_spec",
    "Sanlock.Log.log_order",
    "Sanlock.Log.log_accounting",
    "Sanlock.Log.log_complete",
    "Sanlock.Log.log_drain_partial",
    "Sanlock.Log.log_full_violated",
    "Sanlock.Log.log_full_forever",
    "Sanlock.Log.dropped_unreported_violated",
    "Sanlock.Log.dropped_forever_violated"
   ],
   "note": "Order, no duplication and the count of dropped messages for all interleavings. That everything accepted is written holds only while the queue never fills completely: then the thread that writes takes it for empty and no log ever gets another line (log_full_forever)."
  },
  {
   "property": "C47",
   "status": "proved",
   "theorems": [
    "Sanlock.Log.dump_spec",
    "Sanlock.Log.dump_bounds"
   ],
   "note": "For all sizes and messages. Before the buffer wraps the last byte (the newline) is left out."
  },
  {
   "property": "C48",
   "status": "partial",
   "theorems": [
    "Sanlock.Pool.pool_fifo",
    "Sanlock.Pool.pool_once",
    "Sanlock.Pool.pool_added",
    "Sanlock.Pool.pool_refuse",
    "Sanlock.Pool.pool_bound",
    "Sanlock.Pool.pool_awake",
    "Sanlock.Pool.pool_quiet",
    "Sanlock.Pool.pool_quit_partial",
    "Sanlock.Pool.spurious_quit_violated",
    "Sanlock.Pool.shared_worker_violated"
   ],
   "note": "Once, in order, no lost wake-up, bound on workers: for all interleavings. The end of the daemon waits for the workers only without a spurious wake-up (spurious_quit_violated)."
  },
  {
   "property": "C49",
   "status": "partial",
   "theorems": [
    "Sanlock.Owners.read_owners_spec",
    "Sanlock.Owners.read_owners_ends",
    "Sanlock.Owners.exclusive_listed",
    "Sanlock.Owners.shared_listed",
    "Sanlock.Owners.holders_listed",
    "Sanlock.Owners.exclusive_tested",
    "Sanlock.Owners.torn_convert_up_violated",
    "Sanlock.Owners.torn_convert_down_violated",
    "Sanlock.Owners.owners_outside_violated"
   ],
   "note": "Proved for an area that is read at one moment; the generation of a sharing host that the leader record also names comes from the leader record. An area whose leader record and blocks are read at different moments misses a holder that converts its lease meanwhile (torn_convert_*_violated), and the number of hosts in the record is not bounded by the size of the area (owners_outside_violated). Only the first disk of the lease is read."
  },
  {
   "property": "C50",
   "status": "partial",
   "theorems": [
    "Sanlock.Wire.reply_own_partial",
    "Sanlock.Wire.can_go_on",
    "Sanlock.Wire.goes_down",
    "Sanlock.Wire.late_data_violated",
    "Sanlock.Wire.release_all_args_violated",
    "Sanlock.Wire.release_args_missing_violated",
    "Sanlock.Wire.restrict_all_silent"
   ],
   "note": "Own results, exact arguments and return of every call (can_go_on: some step is possible while a call is open; goes_down: each step decreases a measure), for all splits, provided that the data of a refused command does not arrive later than the drain waits, that release passes the resources its flags ask for, and without RESTRICT_ALL. False without these (violated theorems)."
  },
  {
   "property": "C51",
   "status": "partial",
   "theorems": [
    "Sanlock.Config.config_spec_partial",
    "Sanlock.Config.stale_value_violated",
    "Sanlock.Config.no_value_violated",
    "Sanlock.Config.word_value_violated",
    "Sanlock.Config.large_value_violated",
    "Sanlock.Config.long_comment_violated"
   ],
   "note": "For all files whose lines have at most 126 characters and whose settings have a number (that fits an int) or name. Elsewhere false: a name without value takes the number of an earlier line or an uninitialised variable, a word counts as 0, a large number is cut, and the end of a long comment is read as a setting."
  },
  {
   "property": "C52",
   "status": "partial",
   "theorems": [
    "Sanlock.Event.delivered_origin",
    "Sanlock.Event.only_named_partial",
    "Sanlock.Event.event_arrives_partial",
    "Sanlock.Event.program_gets",
    "Sanlock.Event.stale_event_violated",
    "Sanlock.Event.boundary_violated",
    "Sanlock.Event.same_event_violated",
    "Sanlock.Event.cleared_event_violated",
    "Sanlock.Event.zero_event_violated",
    "Sanlock.Event.only_named_violated",
    "Sanlock.Event.lost_violated",
    "Sanlock.Event.incarnation_violated"
   ],
   "note": "For all executions of any number of hosts: what arrives was set by the sender and the receiver's attention was asked for within the display period; only named hosts get it while no lease requests, replacing, clearing or zero events are used, every event has one data value and no renewal begins in the second of a call; every named host gets it when the sender renews within the display period. False elsewhere (violated theorems): an old event stays in the record and goes to the host of a later lease request; the documented spacing of calls is one second short; other data for the same event is not refused; clearing leaves the bits; events are lost when renewals fail for more than the display period; another incarnation of the host gets the event."
  },
  {
   "property": "C53",
   "status": "partial",
   "theorems": [
    "Sanlock.ResetTool.done_is_reset_partial",
    "Sanlock.ResetTool.done_cases",
    "Sanlock.ResetTool.failed_cases",
    "Sanlock.ResetTool.reply_deadline",
    "Sanlock.ResetTool.dead_since_time",
    "Sanlock.ResetTool.run_exec",
    "Sanlock.ResetTool.exec_of_run",
    "Sanlock.ResetTool.dead_before_violated",
    "Sanlock.ResetTool.rejoined_reported_failed_violated",
    "Sanlock.ResetTool.no_news_done_violated",
    "Sanlock.ResetTool.never_ends_violated",
    "Sanlock.ResetTool.Daemon.reply_after_live",
    "Sanlock.ResetTool.Daemon.request_answered",
    "Sanlock.ResetTool.Daemon.no_watchdog_violated",
    "Sanlock.ResetTool.Daemon.never_retried_violated",
    "Sanlock.ResetHost.expired_fires",
    "Sanlock.ResetHost.live_expires"
   ],
   "note": "For all runs of the program: success means that the watchdog has fired, if reports of a dead host rest on renewals after the answer, the daemon uses the watchdog, wdmd takes its message and makes its tests within 29 seconds, and the program is not told that resource leases are used; what success and failure mean without these assumptions is proved (done_cases, failed_cases). False otherwise (violated theorems), and the program need not end."
  },
  {
   "property": "C54",
   "status": "partial",
   "theorems": [
    "Sanlock.Shutdown.unforced_answer",
    "Sanlock.Shutdown.accepted_ends_partial",
    "Sanlock.Shutdown.command_ends",
    "Sanlock.Shutdown.command_ignored",
    "Sanlock.Shutdown.unforced_kills_nothing",
    "Sanlock.Shutdown.forced_stays",
    "Sanlock.Shutdown.forced_kills_partial",
    "Sanlock.Shutdown.forced_ends_partial",
    "Sanlock.Shutdown.main_goes",
    "Sanlock.Shutdown.given_up_unused",
    "Sanlock.Shutdown.freed_ended",
    "Sanlock.Shutdown.exit_clean_partial",
    "Sanlock.Shutdown.answer_clean_partial",
    "Sanlock.Shutdown.last_answered",
    "Sanlock.Shutdown.forced_forgotten_violated",
    "Sanlock.Shutdown.accepted_forgotten_violated",
    "Sanlock.Shutdown.ignored_signal_violated",
    "Sanlock.Shutdown.exit_with_lockspace_violated",
    "Sanlock.Shutdown.one_answer_violated",
    "Sanlock.Shutdown.answered_early_violated",
    "Sanlock.Shutdown.late_unanswered_violated"
   ],
   "note": "For all interleavings: refusal, the end after an accepted shutdown that does not come between the two tests of the main thread, the end after a forced one that no signal or unforced request follows, nothing left behind when no signal or forced shutdown comes in a short moment of the main thread. False elsewhere (violated theorems): a signal makes the daemon forget a forced shutdown, an accepted one can be forgotten, an ignored signal gives up lockspaces that are being added, only the last waiting client is answered, and the answer can come while a lockspace is still being undone."
  },
  {
   "property": "C55",
   "status": "partial",
   "theorems": [
    "Sanlock.Helper.in_order",
    "Sanlock.Helper.carried_out",
    "Sanlock.Helper.for_users",
    "Sanlock.Helper.program_once",
    "Sanlock.Helper.user_signalled_partial",
    "Sanlock.Helper.nothing_sent",
    "Sanlock.Helper.given_up",
    "Sanlock.Helper.no_helper_violated",
    "Sanlock.Helper.sigpipe_violated",
    "Sanlock.Helper.gives_up_violated",
    "Sanlock.Helper.never_killed_violated",
    "Sanlock.Helper.stale_pid_violated"
   ],
   "note": "For all executions: order, once, users only, one start of the program, and a signal in every turn with a living helper and room in the pipe. False elsewhere (violated theorems): without helper nothing is sent or the daemon ends, attempts count although nothing was sent, a process with a program need never be killed, and a message in the pipe can outlive its process."
  },
  {
   "property": "C56",
   "status": "partial",
   "theorems": [
    "Sanlock.Fence.off_success_partial",
    "Sanlock.Fence.not_taken",
    "Sanlock.Fence.can_finish",
    "Sanlock.Fence.victim_silent",
    "Sanlock.Fence.lost_silent",
    "Sanlock.Fence.signalled",
    "Sanlock.Fence.stops_iff",
    "Sanlock.Fence.stays_live",
    "Sanlock.Fence.victim_reset",
    "Sanlock.Fence.duel_partial",
    "Sanlock.Fence.crashed_victim_violated",
    "Sanlock.Fence.second_agent_violated",
    "Sanlock.Fence.killed_agent_violated",
    "Sanlock.Fence.winner_dies_violated",
    "Sanlock.Fence.three_hosts_violated"
   ],
   "note": "For all executions: success only after a reset or a clean stop, if the victim's sanlock daemon is not killed and started again; silence of a victim until its watchdog fires; a host that is not asked renews every 14 seconds of 20; the outcome of a duel up to a further request. False elsewhere (violated theorems): a restarted daemon on the victim counts as a reset, a second agent or a killed one makes fencing fail for a host that was reset, the winner of a duel is reset by a second request, and with three hosts a request can be ignored for good."
  },
  {
   "property": "C57",
   "status": "proved",
   "theorems": [
    "Sanlock.Single.one_sanlock",
    "Sanlock.Single.one_wdmd",
    "Sanlock.Single.killed_wdmd",
    "Sanlock.Single.only_users",
    "Sanlock.Single.sanlock_socket",
    "Sanlock.Single.wdmd_socket",
    "Sanlock.Single.can_start",
    "Sanlock.Single.shm_left",
    "Sanlock.Single.two_fenced_violated",
    "Sanlock.Single.no_lockfile_violated",
    "Sanlock.Single.killed_probe_violated"
   ],
   "note": "For all executions between boot and reset. The violated theorems are about fence_sanlockd, whose lock file does not guard it, and about a killed probe, after which wdmd cannot start although nothing is wrong; the claim does not cover these."
  },
  {
   "property": "C58",
   "status": "partial",
   "theorems": [
    "Sanlock.MultiLease.majority_enough_partial",
    "Sanlock.MultiLease.majority_takes_over_partial",
    "Sanlock.MultiLease.majority_releases",
    "Sanlock.MultiLease.last_disk_needed",
    "Sanlock.MultiLease.no_majority_stuck",
    "Sanlock.MultiLease.last_disk_violated",
    "Sanlock.MultiLease.torn_leader_violated"
   ],
   "note": "Acquire, takeover and release succeed with any majority of the disks that includes the last one, run without interference, if no block is ahead of the leader record. False elsewhere: a host that cannot read the last disk never acquires (last_disk_needed, last_disk_violated), and a crash while the leader record is written can leave no record on a majority, after which no host ever acquires the lease (no_majority_stuck, torn_leader_violated)."
  },
  {
   "property": "C59",
   "status": "partial",
   "theorems": [
    "Sanlock.Scripts.scripts_pass_partial",
    "Sanlock.Scripts.failing_script_fires_partial",
    "Sanlock.Scripts.nopass_closes",
    "Sanlock.Scripts.passing_pings",
    "Sanlock.Scripts.given_time",
    "Sanlock.Scripts.no_client_no_script",
    "Sanlock.Scripts.start_failure_violated",
    "Sanlock.Scripts.ninth_script_violated",
    "Sanlock.Scripts.no_client_violated",
    "Sanlock.Scripts.short_timeout_violated"
   ],
   "note": "For all executions, if the directory held at most eight usable files at the start and every start of a script succeeds. False elsewhere (violated theorems): a script whose start fails once is dropped for good, even one that has only ever failed; a ninth script is never run; without a client no script is run; and with a timeout below ten seconds the daemon does not wait for its scripts."
  },
  {
   "property": "C60",
   "status": "partial",
   "theorems": [
    "Sanlock.IndexOps.serial_partial",
    "Sanlock.IndexOps.only_calls_partial",
    "Sanlock.IndexOps.real_time_partial",
    "Sanlock.IndexOps.create_effect_partial",
    "Sanlock.IndexOps.delete_effect_partial",
    "Sanlock.IndexOps.area_partial",
    "Sanlock.IndexOps.create_full_partial",
    "Sanlock.IndexOps.delete_missing_partial",
    "Sanlock.IndexOps.lookup_found",
    "Sanlock.IndexOps.lookup_missing",
    "Sanlock.IndexOps.created_stays_partial",
    "Sanlock.IndexOps.own_area_partial",
    "Sanlock.IndexOps.lookup_finds_partial",
    "Sanlock.IndexOps.update_race_violated",
    "Sanlock.IndexOps.removal_race_violated",
    "Sanlock.IndexOps.same_name_violated",
    "Sanlock.IndexOps.late_write_violated",
    "Sanlock.IndexOps.release_lost_violated",
    "Sanlock.IndexOps.idle_free_partial"
   ],
   "note": "For all executions of any number of hosts in which no index update runs, no lockspace is left while a call of its host runs and no write that was given up lands later; the two theorems on the answers of a lookup need none of this. False without (violated theorems): an update takes no index lease and undoes a creation; a call can begin after the removal of its lockspace was asked for and go on after another host has the index lease; a late write undoes a creation. A creation does not look whether the name exists, and a failed release of the index lease is not reported and blocks other hosts. The index lease itself is abstract here (C02, C05). idle_free_partial: the index lease is free for the next call when no other call runs, if releases reach the disk."
  },
  {
   "property": "C61",
   "status": "partial",
   "theorems": [
    "Sanlock.Locks.never_stuck_partial",
    "Sanlock.Locks.calls_finish_partial",
    "Sanlock.Locks.idle_locks_free_partial",
    "Sanlock.Locks.locks_return_partial",
    "Sanlock.Locks.status_stall_violated"
   ],
   "note": "For all interleavings, for every function that takes a mutex except the three that may damage memory (C62). That a client which does not read delays only the thread that serves it holds without the status command, which sends to the client with spaces_mutex or resource_mutex held: then the main thread, which checks the leases, and every worker that needs a lockspace stop (status_stall_violated)."
  },
  {
   "property": "C62",
   "status": "partial",
   "theorems": [
    "Sanlock.Locks.memory_valid_partial",
    "Sanlock.Locks.thread_has_space_partial",
    "Sanlock.Locks.space_has_thread_partial",
    "Sanlock.Locks.no_leak_partial",
    "Sanlock.Locks.removed_is_freed_partial",
    "Sanlock.Locks.set_event_violated",
    "Sanlock.Locks.set_bit_violated",
    "Sanlock.Locks.callbacks_violated"
   ],
   "note": "For all interleavings, for every function that uses a lockspace except lockspace_set_event, host_status_set_bit and send_event_callbacks, which run outside the main thread and use the lockspace after spaces_mutex was unlocked: it may be freed meanwhile (violated theorems)."
  },
  {
   "property": "C63",
   "status": "partial",
   "theorems": [
    "Sanlock.Python.get_alignment_partial",
    "Sanlock.Python.write_lockspace_partial",
    "Sanlock.Python.read_lockspace_partial",
    "Sanlock.Python.read_resource_partial",
    "Sanlock.Python.write_resource_partial",
    "Sanlock.Python.add_lockspace_partial",
    "Sanlock.Python.inq_lockspace_partial",
    "Sanlock.Python.rem_lockspace_partial",
    "Sanlock.Python.get_hosts_partial",
    "Sanlock.Python.acquire_partial",
    "Sanlock.Python.inquire_call_partial",
    "Sanlock.Python.no_process_refused",
    "Sanlock.Python.release_partial",
    "Sanlock.Python.request_partial",
    "Sanlock.Python.read_owners_partial",
    "Sanlock.Python.event_calls_partial",
    "Sanlock.Python.lvb_calls_partial",
    "Sanlock.Python.killpath_arrives_partial",
    "Sanlock.Python.disks_checked",
    "Sanlock.Python.sizes_checked",
    "Sanlock.Python.name_cut_violated",
    "Sanlock.Python.name_zero_violated",
    "Sanlock.Python.path_cut_violated",
    "Sanlock.Python.number_wrap_violated",
    "Sanlock.Python.killpath_violated"
   ],
   "note": "For all names of up to 48 bytes without zeros, paths of up to 1023 bytes, numbers that fit, any number of disks. What is refused (disks, sizes, missing process) is proved for all arguments. False elsewhere (violated theorems): longer names, bytes after a zero, longer paths of lockspaces and larger or negative numbers are cut or reduced without an error; some kill script arguments are accepted but do not arrive."
  },
  {
   "property": "C64",
   "status": "partial",
   "theorems": [
    "Sanlock.Python.errno_faithful",
    "Sanlock.Python.done_iff",
    "Sanlock.Python.value_iff",
    "Sanlock.Python.inq_iff",
    "Sanlock.Python.lockspace_name_iff",
    "Sanlock.Python.lockspaces_listed_partial",
    "Sanlock.Python.read_lockspace_name",
    "Sanlock.Python.resource_names_iff",
    "Sanlock.Python.read_resource_names_partial",
    "Sanlock.Python.hosts_listed",
    "Sanlock.Python.events_listed_partial",
    "Sanlock.Python.inquire_listed_partial",
    "Sanlock.Python.get_lockspaces_partial",
    "Sanlock.Python.long_name_violated",
    "Sanlock.Python.path_hides_violated",
    "Sanlock.Python.resource_name_violated",
    "Sanlock.Python.events_lost_violated",
    "Sanlock.Python.inquire_crash_violated",
    "Sanlock.Python.get_lockspaces_violated"
   ],
   "note": "For all lists, for names of less than 48 bytes and paths that are UTF-8; exactly when a name is reported correctly is proved (the theorems with _iff). False elsewhere (violated theorems): names of 48 bytes are reported with what follows in memory, one path that is not UTF-8 hides all lockspaces, events are lost when the lockspace is removed, a resource name with colons makes inquire end the calling process, and with 950 lockspaces the list cannot be had."
  },
  {
   "property": "C65",
   "status": "partial",
   "theorems": [
    "Sanlock.Python.no_leak_partial",
    "Sanlock.Python.set_lvb_leak_violated"
   ],
   "note": "For every function except set_lvb, which leaves a reference to its data behind (set_lvb_leak_violated). The model of a function is the list of what it takes and of what it gives back behind its label; the loops of parse_disks, the list conversions and get_event are not part of it."
  },
  {
   "property": "C66",
   "status": "partial",
   "theorems": [
    "Sanlock.OneShot.carried_out_partial",
    "Sanlock.OneShot.cut_short",
    "Sanlock.OneShot.answer",
    "Sanlock.OneShot.answer_cut",
    "Sanlock.OneShot.refused_returns_partial",
    "Sanlock.OneShot.write_resource_hosts",
    "Sanlock.OneShot.write_resource_hosts_violated",
    "Sanlock.OneShot.lvb_carried_out",
    "Sanlock.OneShot.read_resource_hangs_violated",
    "Sanlock.OneShot.too_many_lockspaces_violated"
   ],
   "note": "carried_out_partial is for names of at most 48 bytes, one to four disks, lock value blocks of at most 4096 bytes, and equal max_hosts and num_hosts; cut_short for the same calls. False elsewhere: sanlock_write_resource uses max_hosts in place of num_hosts (write_resource_hosts_violated); what a larger lock value block contains is carried out as commands (lvb_carried_out). answer and answer_cut are complete for the results the daemon's functions return; a list that does not fit ends with -1 (too_many_lockspaces_violated); sanlock_read_resource does not return when the daemon refuses the command (read_resource_hangs_violated)."
  },
  {
   "property": "C67",
   "status": "partial",
   "theorems": [
    "Sanlock.Resetd.table_sound",
    "Sanlock.Resetd.watched_until",
    "Sanlock.Resetd.kept",
    "Sanlock.Resetd.parse_datagram",
    "Sanlock.Resetd.reg_new_watched",
    "Sanlock.Resetd.reg_again_watched_partial",
    "Sanlock.Resetd.end_ends_partial",
    "Sanlock.Resetd.clear_clears",
    "Sanlock.Resetd.end_of_daemon",
    "Sanlock.Resetd.request_read",
    "Sanlock.Resetd.reset_only_if_asked",
    "Sanlock.Resetd.reset_once",
    "Sanlock.Resetd.sysrq_only_if_asked",
    "Sanlock.Resetd.sysrq_done",
    "Sanlock.Resetd.timed_if_reset",
    "Sanlock.Resetd.space_violated",
    "Sanlock.Resetd.reg_again_violated",
    "Sanlock.Resetd.reg_full_violated",
    "Sanlock.Resetd.end_violated",
    "Sanlock.Resetd.reset_not_retried_violated",
    "Sanlock.Resetd.sysrq_negative_violated",
    "Sanlock.Resetd.count_violated"
   ],
   "note": "For all runs of the daemon. False elsewhere (violated theorems): a hang-up of the old registration that is found in the same pass removes a lockspace that was just registered again; with 64 lockspaces, or a name with white space, `reg` reports success without effect; a lockspace given twice on the command line stays after `end`; a message to wdmd that failed is not repeated for later requests; a negative delay never ends."
  },
  {
   "property": "C68",
   "status": "partial",
   "theorems": [
    "Sanlock.Direct.dump_resources_partial",
    "Sanlock.Direct.dump_hosts_partial",
    "Sanlock.Direct.dump_index_partial",
    "Sanlock.Direct.dump_sound_partial",
    "Sanlock.Direct.dump_argument",
    "Sanlock.Direct.dump_sizes",
    "Sanlock.Direct.next_free_partial",
    "Sanlock.Direct.release_writes_nothing",
    "Sanlock.Direct.release_id_frees",
    "Sanlock.Direct.read_leader_shows",
    "Sanlock.Direct.write_leader_fields",
    "Sanlock.Direct.write_leader_valid_partial",
    "Sanlock.Direct.write_leader_resource_valid",
    "Sanlock.Direct.release_violated",
    "Sanlock.Direct.dump_read_error_violated",
    "Sanlock.Direct.dump_hosts_violated",
    "Sanlock.Direct.dump_name_violated",
    "Sanlock.Direct.dump_sector_violated",
    "Sanlock.Direct.dump_small_size_violated",
    "Sanlock.Direct.next_free_read_violated",
    "Sanlock.Direct.next_free_offset_violated",
    "Sanlock.Direct.next_free_sizes_violated",
    "Sanlock.Direct.read_leader_violated",
    "Sanlock.Direct.write_leader_endian_violated",
    "Sanlock.Direct.write_leader_force_violated",
    "Sanlock.Direct.write_leader_unread_violated"
   ],
   "note": "The dump theorems are for ranges whose areas can all be read, whose resources have no more hosts than fit into an area and, with -f, whose index names end with a NUL. next_free_partial is for both sizes given and no offset, and its last part for an area that can be read. `direct release` never releases (release_violated, release_writes_nothing). write_leader_valid_partial is for little endian hosts. The other violated theorems show that each condition is needed."
  },
  {
   "property": "C69",
   "status": "partial",
   "theorems": [
    "Sanlock.Status.status_lines_partial",
    "Sanlock.Status.sorted_pid_partial",
    "Sanlock.Status.sorted_space_partial",
    "Sanlock.Status.status_details_partial",
    "Sanlock.Status.space_line_parses_partial",
    "Sanlock.Status.lease_line_parses_partial",
    "Sanlock.Status.host_status_partial",
    "Sanlock.Status.host_status_none",
    "Sanlock.Status.host_status_all_partial",
    "Sanlock.Status.renewals_shown",
    "Sanlock.Status.log_dump_partial",
    "Sanlock.Status.status_disks_violated",
    "Sanlock.Status.sorted_violated",
    "Sanlock.Status.status_cut_violated",
    "Sanlock.Status.status_short_violated",
    "Sanlock.Status.space_line_violated",
    "Sanlock.Status.host_status_violated",
    "Sanlock.Status.host_status_many_violated",
    "Sanlock.Status.host_status_name_violated",
    "Sanlock.Status.log_dump_violated",
    "Sanlock.Status.hex_value"
   ],
   "note": "For all states of the daemon whose names have no zeros, pids are not negative and paths are terminated. False elsewhere (violated theorems): a lease on four disks overflows the buffer of the tool; more than 1024 lines are not sorted; an answer that ends early is shown as if it were complete, or with a lockspace without name; a colon in a lockspace name is not escaped; host_status does not find a lockspace whose name has 48 bytes and overflows its array for more than 1024 lockspaces; a full log is printed beyond the end of its buffer."
  },
  {
   "property": "C70",
   "status": "partial",
   "theorems": [
    "Sanlock.Descr.io_right_file_partial",
    "Sanlock.Descr.io_lost_partial",
    "Sanlock.Descr.closes_own_partial",
    "Sanlock.Descr.given_back_partial",
    "Sanlock.Descr.all_given_back_partial",
    "Sanlock.Descr.marked_closed_partial",
    "Sanlock.Descr.open_majority",
    "Sanlock.Descr.watchdog_fails_violated",
    "Sanlock.Descr.watchdog_leak_violated",
    "Sanlock.Descr.format_leak_violated",
    "Sanlock.Descr.no_slot_violated"
   ],
   "note": "For every run in which three things do not happen: wdmd cannot open the watchdog, a request to format an index has sizes that do not go together, there is no slot for a connection. With the first the claim is false: descriptor 0 is closed instead of the connection, and data for one disk can arrive on another (watchdog_fails_violated). The other two leave a descriptor open; for every limit there is a run after which no I/O reaches a disk any more (format_leak_violated)."
  },
  {
   "property": "C71",
   "status": "partial",
   "theorems": [
    "Sanlock.SyncIo.write_sector",
    "Sanlock.SyncIo.other_sector",
    "Sanlock.SyncIo.write_sector_atomic_partial",
    "Sanlock.SyncIo.write_ends_partial",
    "Sanlock.SyncIo.write_sectors",
    "Sanlock.SyncIo.read_sectors",
    "Sanlock.SyncIo.read_succeeds",
    "Sanlock.SyncIo.write_read",
    "Sanlock.SyncIo.torn_violated",
    "Sanlock.SyncIo.write_zero_violated",
    "Sanlock.SyncIo.seek_violated"
   ],
   "note": "Offsets are below 2^63 (false for 2^64-1: seek_violated). Old or new holds if the kernel moves whole sectors (torn_violated otherwise). A write ends if the kernel does not answer 0 for ever (write_zero_violated)."
  },
  {
   "property": "C72",
   "status": "partial",
   "theorems": [
    "Sanlock.NoMem.fails_clean_partial",
    "Sanlock.NoMem.init_zero_partial",
    "Sanlock.NoMem.create_partial",
    "Sanlock.NoMem.delete_partial",
    "Sanlock.NoMem.no_crash_partial",
    "Sanlock.NoMem.rebuild_partial",
    "Sanlock.NoMem.list_partial",
    "Sanlock.NoMem.commit_partial",
    "Sanlock.NoMem.read_num_partial",
    "Sanlock.NoMem.init_violated",
    "Sanlock.NoMem.create_violated",
    "Sanlock.NoMem.delete_violated",
    "Sanlock.NoMem.format_violated",
    "Sanlock.NoMem.crash_violated",
    "Sanlock.NoMem.rebuild_violated",
    "Sanlock.NoMem.list_violated",
    "Sanlock.NoMem.ballot_nomem_violated",
    "Sanlock.NoMem.read_nomem_violated",
    "Sanlock.NoMem.stale_nomem_violated",
    "Sanlock.NoMem.read_num_violated"
   ],
   "note": "Proved: reads and writes of sectors, writes of host blocks, reads of mode blocks, renewals and the header of an index fail cleanly; a result of exactly 0 from initialising means that everything was written; without failing allocations creating and deleting write in the right order, no null pointer is used, rebuilding keeps all leases, acquire commits what the ballot delivered and starts from a record of a majority. Violated: posix_memalign's positive ENOMEM is returned as it is and taken for success by callers that test rv < 0: initialising returns 12 with nothing written, creating and deleting write only one half and report success, the daemon follows a null pointer, acquire commits version 0 with owner 0 or goes on with a record that was not read or is old, a single disk counts as a majority; rebuilding drops leases that could not be read; lists are missing though the call succeeds."
  },
  {
   "property": "C73",
   "status": "partial",
   "theorems": [
    "Sanlock.CmdLine.lockspace_arg_partial",
    "Sanlock.CmdLine.lockspace_mega_partial",
    "Sanlock.CmdLine.resource_arg_partial",
    "Sanlock.CmdLine.resource_mega_partial",
    "Sanlock.CmdLine.accepted",
    "Sanlock.CmdLine.settings_partial",
    "Sanlock.CmdLine.sizes",
    "Sanlock.CmdLine.acquire_partial",
    "Sanlock.CmdLine.texts_partial",
    "Sanlock.CmdLine.lockspace_partial",
    "Sanlock.CmdLine.exit_partial",
    "Sanlock.CmdLine.command_partial",
    "Sanlock.CmdLine.lockspace_mega_violated",
    "Sanlock.CmdLine.lockspace_stack_violated",
    "Sanlock.CmdLine.lockspace_path_violated",
    "Sanlock.CmdLine.lockspace_colon_violated",
    "Sanlock.CmdLine.lockspace_twice_violated",
    "Sanlock.CmdLine.resource_path_violated",
    "Sanlock.CmdLine.resource_second_violated",
    "Sanlock.CmdLine.overflow_violated",
    "Sanlock.CmdLine.clear_violated",
    "Sanlock.CmdLine.align_violated",
    "Sanlock.CmdLine.io_timeout_violated",
    "Sanlock.CmdLine.grace_violated",
    "Sanlock.CmdLine.resource_dropped_violated",
    "Sanlock.CmdLine.timeout_ten_violated",
    "Sanlock.CmdLine.exit_violated",
    "Sanlock.CmdLine.init_null_violated",
    "Sanlock.CmdLine.numbers_partial",
    "Sanlock.CmdLine.flags_partial",
    "Sanlock.CmdLine.release_space",
    "Sanlock.CmdLine.init_partial",
    "Sanlock.CmdLine.align_partial",
    "Sanlock.CmdLine.sizes_accepted",
    "Sanlock.CmdLine.entry_partial",
    "Sanlock.CmdLine.index_partial",
    "Sanlock.CmdLine.index_calls",
    "Sanlock.CmdLine.lockspace_short",
    "Sanlock.CmdLine.examine_calls",
    "Sanlock.CmdLine.grace_range"
   ],
   "note": "Proved: arguments in bytes, and in MiB for one disk and paths without colons, name exactly what was typed; only sequences of known options are accepted; each option sets its own setting, the last value counts, in any order; the command behind -c is passed on unchanged and executed only after acquire succeeded; acquire, release and the lockspace actions name exactly what was given; the exit status of all actions but command. Violated: an M in a later path multiplies the first offset by 2^20, the M of a second offset is ignored, long texts overflow a buffer on the stack, for lockspaces the number is read from uninitialised memory; a resource that cannot be parsed is dropped and the command runs without it; command exits with success when the daemon cannot be reached or the command cannot be executed; -z 0 clears; -o 10 is not sent; values out of range are ignored. The numbers, flags, lockspace and resources given are in the calls of shutdown, request, convert, set_event, set_config, acquire, release and init; -A takes the four sizes; the documented combinations of sizes are accepted; entries and indexes name what was typed."
  },
  {
   "property": "C74",
   "status": "partial",
   "theorems": [
    "Sanlock.Used.used_stays",
    "Sanlock.Used.orphans_stay_partial",
    "Sanlock.Used.leaves_iff",
    "Sanlock.Used.stops_iff",
    "Sanlock.Used.config_codes",
    "Sanlock.Used.unused_busy",
    "Sanlock.Used.unused_safe_partial",
    "Sanlock.Used.killed_has_lease",
    "Sanlock.Used.orphans_adopt_violated",
    "Sanlock.Used.orphans_killed_violated",
    "Sanlock.Used.unused_marked_violated",
    "Sanlock.Used.unused_race_violated"
   ],
   "note": "Proved: a lockspace marked as used stays and stays watched until unmarked; one marked by orphans stays while an orphan is on the list; exactly when a lockspace is left and what set_config returns; UNUSED is busy exactly when a lease exists, and safe without commands in between. Violated: an orphan being acquired does not count; persistent leases of processes that exit because the lockspace fails never become orphans; UNUSED ignores the mark; a lease acquired between the check of UNUSED and the removal gets its process signalled."
  },
  {
   "property": "C75",
   "status": "partial",
   "theorems": [
    "Sanlock.Regs.told",
    "Sanlock.Regs.reg_zero",
    "Sanlock.Regs.reg_codes",
    "Sanlock.Regs.reg_full",
    "Sanlock.Regs.places",
    "Sanlock.Regs.ends",
    "Sanlock.Regs.begins",
    "Sanlock.Regs.delivers",
    "Sanlock.Regs.gets_partial",
    "Sanlock.Regs.drain_partial",
    "Sanlock.Regs.quiet",
    "Sanlock.Regs.ended_partial",
    "Sanlock.Regs.end_codes",
    "Sanlock.Regs.shut_all",
    "Sanlock.Regs.early_violated",
    "Sanlock.Regs.full_violated",
    "Sanlock.Regs.ended_violated"
   ],
   "note": "Proved: the result of reg_event is the one of the daemon; exactly when it is refused for lack of places; a registration ends only with the lockspace, when the program has left or has no room; an event goes to exactly the programs registered; what get_event returns is what was sent, in order and complete, unless an event was sent before the answer to the registration; after end_event nothing more is sent, unless the program wrote something else before. Violated: an event sent before the answer is taken for it and the next get_event returns an event nobody sent; a program with no room loses its registration, and ending it raises SIGPIPE; another value written before makes end_event return 0 with the place still taken."
  },
  {
   "property": "C76",
   "status": "partial",
   "theorems": [
    "Sanlock.Hosts.all_hosts",
    "Sanlock.Hosts.one_host",
    "Sanlock.Hosts.results",
    "Sanlock.Hosts.listed",
    "Sanlock.Hosts.owner_seen",
    "Sanlock.Hosts.zero_clear",
    "Sanlock.Hosts.seen_alive_violated",
    "Sanlock.Hosts.damaged_violated"
   ],
   "note": "Proved: the list has exactly the hosts whose lease was last read with a time, sorted and once, with generation, time, timeout and a documented state; one host id gives that host; the only errors are -ENOENT and, exactly before the first read, -EAGAIN; an owner whose lease changed at t and is good and unchanged since is not reported gone until the dead time has passed. Violated: hosts never seen alive are listed and hosts seen alive that left are not; a sector damaged so that its time is zero takes a live host off the list, and its resources count as free."
  },
  {
   "property": "C77",
   "status": "partial",
   "theorems": [
    "Sanlock.FenceOpts.passes_partial",
    "Sanlock.FenceOpts.used_partial",
    "Sanlock.FenceOpts.refuses",
    "Sanlock.FenceOpts.terminated",
    "Sanlock.FenceOpts.starts_partial",
    "Sanlock.FenceOpts.starts_text",
    "Sanlock.FenceOpts.blank_violated",
    "Sanlock.FenceOpts.long_violated",
    "Sanlock.FenceOpts.overrun_violated",
    "Sanlock.FenceOpts.negative_violated"
   ],
   "note": "Proved: a path without blanks of at most 4084 bytes and a host id from 1 to 128 arrive as given, whatever is written afterwards, and are used as given if the path has less than 1024 bytes; exactly what the sender refuses; no sender makes the daemon read outside of the line; whatever is in the FIFO, the daemon goes on only with a path and a host id that is not 0 and at most 128. Violated: a path with a blank can replace the host id, a long path cuts it, a path of 1024 bytes overruns the structure of the daemon, negative host ids are accepted."
  },
  {
   "property": "C78",
   "status": "partial",
   "theorems": [
    "Sanlock.Sectors.never_above",
    "Sanlock.Sectors.left_alone",
    "Sanlock.Sectors.set_partial",
    "Sanlock.Sectors.told_partial",
    "Sanlock.Sectors.choose_asked",
    "Sanlock.Sectors.number_violated",
    "Sanlock.Sectors.helper_violated"
   ],
   "note": "Proved: over every run no device is set above its hardware; with ignore, and for regular files, nothing is changed; if the hardware can do it and the kernel takes it, the device has the value asked for, at once as root and after the helper's turn otherwise, and the status shows it; as root the status shows only a value that the device has. Violated: a number that the hardware cannot do lowers the device to 1024; without root the status shows a value that the kernel has refused."
  },
  {
   "property": "C79",
   "status": "partial",
   "theorems": [
    "Sanlock.HostName.taken_iff",
    "Sanlock.HostName.own_partial",
    "Sanlock.HostName.other_partial",
    "Sanlock.HostName.setup_ok",
    "Sanlock.HostName.made_up",
    "Sanlock.HostName.uuids",
    "Sanlock.HostName.long_violated",
    "Sanlock.HostName.made_up_violated"
   ],
   "note": "Proved: exactly which name takes a lease at once; for names of at most 47 bytes it is the own name and no other; names of up to 48 bytes are used as set; names made up with different UUIDs never take each other's lease at once. Violated: with a name of 48 bytes, which is accepted, the daemon does not know its own lease, and a daemon whose name is the first 47 bytes takes it while it is held; names made up on nodes with a name of 11 or more bytes have 48 bytes."
  }
 ]
}