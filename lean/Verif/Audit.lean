import Verif.All

/-!
# Axioms of the property theorems

Prints, for every theorem listed in `MANIFEST.json`, the axioms it depends on.
-/

#print axioms Sanlock.Acquire.acquire_version_partial
#print axioms Sanlock.Acquire.ballot_enomem_violated
#print axioms Sanlock.Acquire.ballot_number
#print axioms Sanlock.Acquire.displace_justified_partial
#print axioms Sanlock.Acquire.mixed_timeout_violated
#print axioms Sanlock.Acquire.old_generation_violated
#print axioms Sanlock.Acquire.release_only_own
#print axioms Sanlock.Acquire.release_only_own_erase
#print axioms Sanlock.Acquire.release_refused
#print axioms Sanlock.Acquire.release_result
#print axioms Sanlock.Acquire.release_succeeds
#print axioms Sanlock.Acquire.retract_iff
#print axioms Sanlock.Acquire.slow_first_read_violated
#print axioms Sanlock.Acquire.written_version_partial
#print axioms Sanlock.Aio.buffers_safe_partial
#print axioms Sanlock.Aio.freed_exactly_once_partial
#print axioms Sanlock.Aio.getevents_error_violated
#print axioms Sanlock.Aio.lease_init_leak
#print axioms Sanlock.Aio.lvb_double_free_violated
#print axioms Sanlock.Aio.lvb_use_after_free_violated
#print axioms Sanlock.Aio.lvb_write_violated
#print axioms Sanlock.Aio.reap_leak
#print axioms Sanlock.Aio.renew_leak
#print axioms Sanlock.Aio.rindex_double_free_violated
#print axioms Sanlock.Aio.rindex_early_free_violated
#print axioms Sanlock.Ballot.ballot_agreement
#print axioms Sanlock.Ballot.ballot_agreement_needs_fresh_version_violated
#print axioms Sanlock.Ballot.ballot_agreement_won
#print axioms Sanlock.Ballot.ballot_owner_proposed
#print axioms Sanlock.Ballot.mbal_distinct
#print axioms Sanlock.Ballot.mbal_distinct_beyond_max_hosts_violated
#print axioms Sanlock.Ballot.mbal_increases
#print axioms Sanlock.Ballot.ourMbal64_eq
#print axioms Sanlock.Ballot.ourMbal_gt
#print axioms Sanlock.Client.command_can_finish
#print axioms Sanlock.Client.command_ends
#print axioms Sanlock.Client.convert_failure_keeps_lease_violated
#print axioms Sanlock.Client.convert_failure_refuses_violated
#print axioms Sanlock.Client.dead_refused
#print axioms Sanlock.Client.failed_acquire_releases
#print axioms Sanlock.Client.generation_zero_violated
#print axioms Sanlock.Client.grant_active_partial
#print axioms Sanlock.Client.granted_acquire_adds_all
#print axioms Sanlock.Client.kill_mark_kept
#print axioms Sanlock.Client.killed_refused
#print axioms Sanlock.Client.killpath_death_leaks_slot_violated
#print axioms Sanlock.Client.leases_change
#print axioms Sanlock.Client.live_leases_listed
#print axioms Sanlock.Client.one_command
#print axioms Sanlock.Client.quiet_slots_partial
#print axioms Sanlock.Client.quiet_tokens_partial
#print axioms Sanlock.Client.register_twice_forgets_lease_violated
#print axioms Sanlock.Client.regrant_after_rejoin_violated
#print axioms Sanlock.Client.released_once
#print axioms Sanlock.Client.removal_safe
#print axioms Sanlock.Client.second_command_refused
#print axioms Sanlock.Client.stuck_only
#print axioms Sanlock.CmdLine.accepted
#print axioms Sanlock.CmdLine.acquire_partial
#print axioms Sanlock.CmdLine.align_partial
#print axioms Sanlock.CmdLine.align_violated
#print axioms Sanlock.CmdLine.clear_violated
#print axioms Sanlock.CmdLine.command_partial
#print axioms Sanlock.CmdLine.entry_partial
#print axioms Sanlock.CmdLine.examine_calls
#print axioms Sanlock.CmdLine.exit_partial
#print axioms Sanlock.CmdLine.exit_violated
#print axioms Sanlock.CmdLine.flags_partial
#print axioms Sanlock.CmdLine.grace_range
#print axioms Sanlock.CmdLine.grace_violated
#print axioms Sanlock.CmdLine.index_calls
#print axioms Sanlock.CmdLine.index_partial
#print axioms Sanlock.CmdLine.init_null_violated
#print axioms Sanlock.CmdLine.init_partial
#print axioms Sanlock.CmdLine.io_timeout_violated
#print axioms Sanlock.CmdLine.lockspace_arg_partial
#print axioms Sanlock.CmdLine.lockspace_colon_violated
#print axioms Sanlock.CmdLine.lockspace_mega_partial
#print axioms Sanlock.CmdLine.lockspace_mega_violated
#print axioms Sanlock.CmdLine.lockspace_partial
#print axioms Sanlock.CmdLine.lockspace_path_violated
#print axioms Sanlock.CmdLine.lockspace_short
#print axioms Sanlock.CmdLine.lockspace_stack_violated
#print axioms Sanlock.CmdLine.lockspace_twice_violated
#print axioms Sanlock.CmdLine.numbers_partial
#print axioms Sanlock.CmdLine.overflow_violated
#print axioms Sanlock.CmdLine.release_space
#print axioms Sanlock.CmdLine.resource_arg_partial
#print axioms Sanlock.CmdLine.resource_dropped_violated
#print axioms Sanlock.CmdLine.resource_mega_partial
#print axioms Sanlock.CmdLine.resource_path_violated
#print axioms Sanlock.CmdLine.resource_second_violated
#print axioms Sanlock.CmdLine.settings_partial
#print axioms Sanlock.CmdLine.sizes
#print axioms Sanlock.CmdLine.sizes_accepted
#print axioms Sanlock.CmdLine.texts_partial
#print axioms Sanlock.CmdLine.timeout_ten_violated
#print axioms Sanlock.Config.config_spec_partial
#print axioms Sanlock.Config.large_value_violated
#print axioms Sanlock.Config.long_comment_violated
#print axioms Sanlock.Config.no_value_violated
#print axioms Sanlock.Config.stale_value_violated
#print axioms Sanlock.Config.word_value_violated
#print axioms Sanlock.Crc.dblock_burst_detected
#print axioms Sanlock.Crc.dblock_flags_unprotected
#print axioms Sanlock.Crc.leader_burst_detected
#print axioms Sanlock.Crc.leader_odd_detected
#print axioms Sanlock.Crc.leader_two_detected
#print axioms Sanlock.Crc.verifyDblock_sound
#print axioms Sanlock.Crc.written_dblock_verifies
#print axioms Sanlock.Crc.written_leader_verifies
#print axioms Sanlock.Delta.generation_kept
#print axioms Sanlock.Delta.generations_grow
#print axioms Sanlock.Delta.join_generation
#print axioms Sanlock.Delta.joined_generation
#print axioms Sanlock.Delta.late_release_violated
#print axioms Sanlock.Delta.mixed_io_timeouts_violated
#print axioms Sanlock.Delta.one_holder
#print axioms Sanlock.Delta.renew_changed
#print axioms Sanlock.Delta.renew_other_owner
#print axioms Sanlock.Delta.renew_refused
#print axioms Sanlock.Delta.renew_unchanged
#print axioms Sanlock.Delta.winner_excludes
#print axioms Sanlock.Descr.all_given_back_partial
#print axioms Sanlock.Descr.closes_own_partial
#print axioms Sanlock.Descr.format_leak_violated
#print axioms Sanlock.Descr.given_back_partial
#print axioms Sanlock.Descr.io_lost_partial
#print axioms Sanlock.Descr.io_right_file_partial
#print axioms Sanlock.Descr.marked_closed_partial
#print axioms Sanlock.Descr.no_slot_violated
#print axioms Sanlock.Descr.open_majority
#print axioms Sanlock.Descr.watchdog_fails_violated
#print axioms Sanlock.Descr.watchdog_leak_violated
#print axioms Sanlock.Direct.dump_argument
#print axioms Sanlock.Direct.dump_hosts_partial
#print axioms Sanlock.Direct.dump_hosts_violated
#print axioms Sanlock.Direct.dump_index_partial
#print axioms Sanlock.Direct.dump_name_violated
#print axioms Sanlock.Direct.dump_read_error_violated
#print axioms Sanlock.Direct.dump_resources_partial
#print axioms Sanlock.Direct.dump_sector_violated
#print axioms Sanlock.Direct.dump_sizes
#print axioms Sanlock.Direct.dump_small_size_violated
#print axioms Sanlock.Direct.dump_sound_partial
#print axioms Sanlock.Direct.next_free_offset_violated
#print axioms Sanlock.Direct.next_free_partial
#print axioms Sanlock.Direct.next_free_read_violated
#print axioms Sanlock.Direct.next_free_sizes_violated
#print axioms Sanlock.Direct.read_leader_shows
#print axioms Sanlock.Direct.read_leader_violated
#print axioms Sanlock.Direct.release_id_frees
#print axioms Sanlock.Direct.release_violated
#print axioms Sanlock.Direct.release_writes_nothing
#print axioms Sanlock.Direct.write_leader_endian_violated
#print axioms Sanlock.Direct.write_leader_fields
#print axioms Sanlock.Direct.write_leader_force_violated
#print axioms Sanlock.Direct.write_leader_resource_valid
#print axioms Sanlock.Direct.write_leader_unread_violated
#print axioms Sanlock.Direct.write_leader_valid_partial
#print axioms Sanlock.Event.boundary_violated
#print axioms Sanlock.Event.cleared_event_violated
#print axioms Sanlock.Event.delivered_origin
#print axioms Sanlock.Event.event_arrives_partial
#print axioms Sanlock.Event.incarnation_violated
#print axioms Sanlock.Event.lost_violated
#print axioms Sanlock.Event.only_named_partial
#print axioms Sanlock.Event.only_named_violated
#print axioms Sanlock.Event.program_gets
#print axioms Sanlock.Event.same_event_violated
#print axioms Sanlock.Event.stale_event_violated
#print axioms Sanlock.Event.zero_event_violated
#print axioms Sanlock.Fence.can_finish
#print axioms Sanlock.Fence.crashed_victim_violated
#print axioms Sanlock.Fence.duel_partial
#print axioms Sanlock.Fence.killed_agent_violated
#print axioms Sanlock.Fence.lost_silent
#print axioms Sanlock.Fence.not_taken
#print axioms Sanlock.Fence.off_success_partial
#print axioms Sanlock.Fence.second_agent_violated
#print axioms Sanlock.Fence.signalled
#print axioms Sanlock.Fence.stays_live
#print axioms Sanlock.Fence.stops_iff
#print axioms Sanlock.Fence.three_hosts_violated
#print axioms Sanlock.Fence.victim_reset
#print axioms Sanlock.Fence.victim_silent
#print axioms Sanlock.Fence.winner_dies_violated
#print axioms Sanlock.FenceOpts.blank_violated
#print axioms Sanlock.FenceOpts.long_violated
#print axioms Sanlock.FenceOpts.negative_violated
#print axioms Sanlock.FenceOpts.overrun_violated
#print axioms Sanlock.FenceOpts.passes_partial
#print axioms Sanlock.FenceOpts.refuses
#print axioms Sanlock.FenceOpts.starts_partial
#print axioms Sanlock.FenceOpts.starts_text
#print axioms Sanlock.FenceOpts.terminated
#print axioms Sanlock.FenceOpts.used_partial
#print axioms Sanlock.Helper.carried_out
#print axioms Sanlock.Helper.for_users
#print axioms Sanlock.Helper.given_up
#print axioms Sanlock.Helper.gives_up_violated
#print axioms Sanlock.Helper.in_order
#print axioms Sanlock.Helper.never_killed_violated
#print axioms Sanlock.Helper.no_helper_violated
#print axioms Sanlock.Helper.nothing_sent
#print axioms Sanlock.Helper.program_once
#print axioms Sanlock.Helper.sigpipe_violated
#print axioms Sanlock.Helper.stale_pid_violated
#print axioms Sanlock.Helper.user_signalled_partial
#print axioms Sanlock.HelperArgs.argv_bounded
#print axioms Sanlock.HelperArgs.argv_roundtrip
#print axioms Sanlock.HelperArgs.argv_words_partial
#print axioms Sanlock.HelperArgs.truncated_violated
#print axioms Sanlock.History.counts_partial
#print axioms Sanlock.History.counts_stale_violated
#print axioms Sanlock.History.report_newest
#print axioms Sanlock.History.report_recent_partial
#print axioms Sanlock.History.size_one_violated
#print axioms Sanlock.HostEvent.delivered
#print axioms Sanlock.HostEvent.notice_iff
#print axioms Sanlock.HostEvent.published
#print axioms Sanlock.HostEvent.setBit_exact
#print axioms Sanlock.HostEvent.setHostBit_exact
#print axioms Sanlock.HostName.long_violated
#print axioms Sanlock.HostName.made_up
#print axioms Sanlock.HostName.made_up_violated
#print axioms Sanlock.HostName.other_partial
#print axioms Sanlock.HostName.own_partial
#print axioms Sanlock.HostName.setup_ok
#print axioms Sanlock.HostName.taken_iff
#print axioms Sanlock.HostName.uuids
#print axioms Sanlock.Hosts.all_hosts
#print axioms Sanlock.Hosts.damaged_violated
#print axioms Sanlock.Hosts.listed
#print axioms Sanlock.Hosts.one_host
#print axioms Sanlock.Hosts.owner_seen
#print axioms Sanlock.Hosts.results
#print axioms Sanlock.Hosts.seen_alive_violated
#print axioms Sanlock.Hosts.zero_clear
#print axioms Sanlock.IndexOps.area_partial
#print axioms Sanlock.IndexOps.create_effect_partial
#print axioms Sanlock.IndexOps.create_full_partial
#print axioms Sanlock.IndexOps.created_stays_partial
#print axioms Sanlock.IndexOps.delete_effect_partial
#print axioms Sanlock.IndexOps.delete_missing_partial
#print axioms Sanlock.IndexOps.idle_free_partial
#print axioms Sanlock.IndexOps.late_write_violated
#print axioms Sanlock.IndexOps.lookup_finds_partial
#print axioms Sanlock.IndexOps.lookup_found
#print axioms Sanlock.IndexOps.lookup_missing
#print axioms Sanlock.IndexOps.only_calls_partial
#print axioms Sanlock.IndexOps.own_area_partial
#print axioms Sanlock.IndexOps.real_time_partial
#print axioms Sanlock.IndexOps.release_lost_violated
#print axioms Sanlock.IndexOps.removal_race_violated
#print axioms Sanlock.IndexOps.same_name_violated
#print axioms Sanlock.IndexOps.serial_partial
#print axioms Sanlock.IndexOps.update_race_violated
#print axioms Sanlock.Init.lease_area_clean
#print axioms Sanlock.Init.lease_clear_violated
#print axioms Sanlock.Init.lease_cleared
#print axioms Sanlock.Init.lease_init_partial
#print axioms Sanlock.Init.lease_init_violated
#print axioms Sanlock.Init.lease_initialised
#print axioms Sanlock.Init.lockspace_first_record_partial
#print axioms Sanlock.Init.lockspace_init_partial
#print axioms Sanlock.Init.lockspace_initialised
#print axioms Sanlock.Init.lockspace_read_given_sizes_violated
#print axioms Sanlock.Init.lockspace_reinit_violated
#print axioms Sanlock.Kill.all_users
#print axioms Sanlock.Kill.both_restricted_killed
#print axioms Sanlock.Kill.keeps_signalling
#print axioms Sanlock.Kill.only_users
#print axioms Sanlock.Kill.program_once
#print axioms Sanlock.Kill.restriction_respected_partial
#print axioms Sanlock.Kill.restriction_violated
#print axioms Sanlock.Kill.unrestricted
#print axioms Sanlock.Lease.cleared_vote_violated
#print axioms Sanlock.Lease.convert_outcome
#print axioms Sanlock.Lease.convert_success
#print axioms Sanlock.Lease.ends_exclusive
#print axioms Sanlock.Lease.ends_shared
#print axioms Sanlock.Lease.exclusive_alive
#print axioms Sanlock.Lease.exclusive_alone_partial
#print axioms Sanlock.Lease.exclusive_no_sharing_partial
#print axioms Sanlock.Lease.exclusive_on_disk
#print axioms Sanlock.Lease.exclusive_unique_partial
#print axioms Sanlock.Lease.failed_convert_violated
#print axioms Sanlock.Lease.failed_shared_violated
#print axioms Sanlock.Lease.granted_exclusive_partial
#print axioms Sanlock.Lease.marker_written_as_owner
#print axioms Sanlock.Lease.old_generation_violated
#print axioms Sanlock.Lease.phase_other
#print axioms Sanlock.Lease.retracted_vote_violated
#print axioms Sanlock.Lease.shared_on_disk
#print axioms Sanlock.Lease.stale_commit_violated
#print axioms Sanlock.Lease.stale_release_violated
#print axioms Sanlock.Lease.unseen_marker_violated
#print axioms Sanlock.Liveness.damaged_lease_violated
#print axioms Sanlock.Liveness.dead_only_when_silent
#print axioms Sanlock.Liveness.flag_consistent_partial
#print axioms Sanlock.Liveness.flag_consistent_violated
#print axioms Sanlock.Liveness.flag_documented
#print axioms Sanlock.Liveness.old_generation_dead
#print axioms Sanlock.Liveness.unknown_host_live
#print axioms Sanlock.Locks.callbacks_violated
#print axioms Sanlock.Locks.calls_finish_partial
#print axioms Sanlock.Locks.idle_locks_free_partial
#print axioms Sanlock.Locks.locks_return_partial
#print axioms Sanlock.Locks.memory_valid_partial
#print axioms Sanlock.Locks.never_stuck_partial
#print axioms Sanlock.Locks.no_leak_partial
#print axioms Sanlock.Locks.removed_is_freed_partial
#print axioms Sanlock.Locks.set_bit_violated
#print axioms Sanlock.Locks.set_event_violated
#print axioms Sanlock.Locks.space_has_thread_partial
#print axioms Sanlock.Locks.status_stall_violated
#print axioms Sanlock.Locks.thread_has_space_partial
#print axioms Sanlock.Lockspace.add_codes
#print axioms Sanlock.Lockspace.add_refused_unchanged
#print axioms Sanlock.Lockspace.clear_rindex_other_violated
#print axioms Sanlock.Lockspace.find_id
#print axioms Sanlock.Lockspace.inq_codes_partial
#print axioms Sanlock.Lockspace.inq_dying_violated
#print axioms Sanlock.Lockspace.lockspaces_unique
#print axioms Sanlock.Lockspace.rem_codes
#print axioms Sanlock.Lockspace.rem_done_gone
#print axioms Sanlock.Lockspace.rem_marks
#print axioms Sanlock.Lockspace.remove_during_add
#print axioms Sanlock.Lockspace.rindex_one_at_a_time
#print axioms Sanlock.Log.dropped_forever_violated
#print axioms Sanlock.Log.dropped_unreported_violated
#print axioms Sanlock.Log.dump_bounds
#print axioms Sanlock.Log.dump_spec
#print axioms Sanlock.Log.line_spec
#print axioms Sanlock.Log.log_accounting
#print axioms Sanlock.Log.log_complete
#print axioms Sanlock.Log.log_drain_partial
#print axioms Sanlock.Log.log_full_forever
#print axioms Sanlock.Log.log_full_violated
#print axioms Sanlock.Log.log_order
#print axioms Sanlock.Lvb.failed_convert_violated
#print axioms Sanlock.Lvb.get_too_long_violated
#print axioms Sanlock.Lvb.get_value
#print axioms Sanlock.Lvb.holder_reads_value_partial
#print axioms Sanlock.Lvb.read_error_violated
#print axioms Sanlock.Lvb.retry_overwrites_violated
#print axioms Sanlock.Lvb.set_too_long
#print axioms Sanlock.Lvb.value_read_back_partial
#print axioms Sanlock.Lvb.write_error_violated
#print axioms Sanlock.MultiLease.ends_disks
#print axioms Sanlock.MultiLease.exclusive_disks_partial
#print axioms Sanlock.MultiLease.holder_alive_disks
#print axioms Sanlock.MultiLease.last_disk_needed
#print axioms Sanlock.MultiLease.last_disk_violated
#print axioms Sanlock.MultiLease.majority_enough_partial
#print axioms Sanlock.MultiLease.majority_releases
#print axioms Sanlock.MultiLease.majority_takes_over_partial
#print axioms Sanlock.MultiLease.no_majority_stuck
#print axioms Sanlock.MultiLease.phase_other_disks
#print axioms Sanlock.MultiLease.reader_sees_holder
#print axioms Sanlock.MultiLease.stale_flag_violated
#print axioms Sanlock.MultiLease.torn_leader_violated
#print axioms Sanlock.NoMem.ballot_nomem_violated
#print axioms Sanlock.NoMem.commit_partial
#print axioms Sanlock.NoMem.crash_violated
#print axioms Sanlock.NoMem.create_partial
#print axioms Sanlock.NoMem.create_violated
#print axioms Sanlock.NoMem.delete_partial
#print axioms Sanlock.NoMem.delete_violated
#print axioms Sanlock.NoMem.fails_clean_partial
#print axioms Sanlock.NoMem.format_violated
#print axioms Sanlock.NoMem.init_violated
#print axioms Sanlock.NoMem.init_zero_partial
#print axioms Sanlock.NoMem.list_partial
#print axioms Sanlock.NoMem.list_violated
#print axioms Sanlock.NoMem.no_crash_partial
#print axioms Sanlock.NoMem.read_nomem_violated
#print axioms Sanlock.NoMem.read_num_partial
#print axioms Sanlock.NoMem.read_num_violated
#print axioms Sanlock.NoMem.rebuild_partial
#print axioms Sanlock.NoMem.rebuild_violated
#print axioms Sanlock.NoMem.stale_nomem_violated
#print axioms Sanlock.OnDisk.dblock_roundtrip
#print axioms Sanlock.OnDisk.encodings_length
#print axioms Sanlock.OnDisk.encodings_portable
#print axioms Sanlock.OnDisk.leader_compare_prefix
#print axioms Sanlock.OnDisk.leader_owner_at_32
#print axioms Sanlock.OnDisk.leader_roundtrip
#print axioms Sanlock.OnDisk.modeBlock_roundtrip
#print axioms Sanlock.OnDisk.request_roundtrip
#print axioms Sanlock.OnDisk.rindexEntry_roundtrip
#print axioms Sanlock.OnDisk.rindexHeader_roundtrip
#print axioms Sanlock.OneShot.answer
#print axioms Sanlock.OneShot.answer_cut
#print axioms Sanlock.OneShot.carried_out_partial
#print axioms Sanlock.OneShot.cut_short
#print axioms Sanlock.OneShot.lvb_carried_out
#print axioms Sanlock.OneShot.read_resource_hangs_violated
#print axioms Sanlock.OneShot.refused_returns_partial
#print axioms Sanlock.OneShot.too_many_lockspaces_violated
#print axioms Sanlock.OneShot.write_resource_hosts
#print axioms Sanlock.OneShot.write_resource_hosts_violated
#print axioms Sanlock.OwnerTest.test_clear_iff
#print axioms Sanlock.OwnerTest.test_live
#print axioms Sanlock.Owners.exclusive_listed
#print axioms Sanlock.Owners.exclusive_tested
#print axioms Sanlock.Owners.holders_listed
#print axioms Sanlock.Owners.owners_outside_violated
#print axioms Sanlock.Owners.read_owners_ends
#print axioms Sanlock.Owners.read_owners_spec
#print axioms Sanlock.Owners.shared_listed
#print axioms Sanlock.Owners.torn_convert_down_violated
#print axioms Sanlock.Owners.torn_convert_up_violated
#print axioms Sanlock.Pool.pool_added
#print axioms Sanlock.Pool.pool_awake
#print axioms Sanlock.Pool.pool_bound
#print axioms Sanlock.Pool.pool_fifo
#print axioms Sanlock.Pool.pool_once
#print axioms Sanlock.Pool.pool_quiet
#print axioms Sanlock.Pool.pool_quit_partial
#print axioms Sanlock.Pool.pool_refuse
#print axioms Sanlock.Pool.shared_worker_violated
#print axioms Sanlock.Pool.spurious_quit_violated
#print axioms Sanlock.Python.acquire_partial
#print axioms Sanlock.Python.add_lockspace_partial
#print axioms Sanlock.Python.disks_checked
#print axioms Sanlock.Python.done_iff
#print axioms Sanlock.Python.errno_faithful
#print axioms Sanlock.Python.event_calls_partial
#print axioms Sanlock.Python.events_listed_partial
#print axioms Sanlock.Python.events_lost_violated
#print axioms Sanlock.Python.get_alignment_partial
#print axioms Sanlock.Python.get_hosts_partial
#print axioms Sanlock.Python.get_lockspaces_partial
#print axioms Sanlock.Python.get_lockspaces_violated
#print axioms Sanlock.Python.hosts_listed
#print axioms Sanlock.Python.inq_iff
#print axioms Sanlock.Python.inq_lockspace_partial
#print axioms Sanlock.Python.inquire_call_partial
#print axioms Sanlock.Python.inquire_crash_violated
#print axioms Sanlock.Python.inquire_listed_partial
#print axioms Sanlock.Python.killpath_arrives_partial
#print axioms Sanlock.Python.killpath_violated
#print axioms Sanlock.Python.lockspace_name_iff
#print axioms Sanlock.Python.lockspaces_listed_partial
#print axioms Sanlock.Python.long_name_violated
#print axioms Sanlock.Python.lvb_calls_partial
#print axioms Sanlock.Python.name_cut_violated
#print axioms Sanlock.Python.name_zero_violated
#print axioms Sanlock.Python.no_leak_partial
#print axioms Sanlock.Python.no_process_refused
#print axioms Sanlock.Python.number_wrap_violated
#print axioms Sanlock.Python.path_cut_violated
#print axioms Sanlock.Python.path_hides_violated
#print axioms Sanlock.Python.read_lockspace_name
#print axioms Sanlock.Python.read_lockspace_partial
#print axioms Sanlock.Python.read_owners_partial
#print axioms Sanlock.Python.read_resource_names_partial
#print axioms Sanlock.Python.read_resource_partial
#print axioms Sanlock.Python.release_partial
#print axioms Sanlock.Python.rem_lockspace_partial
#print axioms Sanlock.Python.request_partial
#print axioms Sanlock.Python.resource_name_violated
#print axioms Sanlock.Python.resource_names_iff
#print axioms Sanlock.Python.set_lvb_leak_violated
#print axioms Sanlock.Python.sizes_checked
#print axioms Sanlock.Python.value_iff
#print axioms Sanlock.Python.write_lockspace_partial
#print axioms Sanlock.Python.write_resource_partial
#print axioms Sanlock.Regs.begins
#print axioms Sanlock.Regs.delivers
#print axioms Sanlock.Regs.drain_partial
#print axioms Sanlock.Regs.early_violated
#print axioms Sanlock.Regs.end_codes
#print axioms Sanlock.Regs.ended_partial
#print axioms Sanlock.Regs.ended_violated
#print axioms Sanlock.Regs.ends
#print axioms Sanlock.Regs.full_violated
#print axioms Sanlock.Regs.gets_partial
#print axioms Sanlock.Regs.places
#print axioms Sanlock.Regs.quiet
#print axioms Sanlock.Regs.reg_codes
#print axioms Sanlock.Regs.reg_full
#print axioms Sanlock.Regs.reg_zero
#print axioms Sanlock.Regs.shut_all
#print axioms Sanlock.Regs.told
#print axioms Sanlock.Release.release_all_overflow_violated
#print axioms Sanlock.Release.release_all_partial
#print axioms Sanlock.Release.release_all_slots
#print axioms Sanlock.Release.release_named_overflow_violated
#print axioms Sanlock.Release.release_named_partial
#print axioms Sanlock.Release.release_slots
#print axioms Sanlock.Request.converted_violated
#print axioms Sanlock.Request.message_kind
#print axioms Sanlock.Request.newer_partial
#print axioms Sanlock.Request.once_per_examine_partial
#print axioms Sanlock.Request.passed_version_violated
#print axioms Sanlock.Request.repeated_violated
#print axioms Sanlock.Request.request_refused
#print axioms Sanlock.Request.request_written
#print axioms Sanlock.Request.restricted_violated
#print axioms Sanlock.Request.sent_to_holder
#print axioms Sanlock.Request.shared_violated
#print axioms Sanlock.Reset.io_timeout_truncated_violated
#print axioms Sanlock.Reset.reset_before_takeover
#print axioms Sanlock.Reset.reset_deadline
#print axioms Sanlock.Reset.reset_deadline_scripts_violated
#print axioms Sanlock.ResetHost.expired_fires
#print axioms Sanlock.ResetHost.live_expires
#print axioms Sanlock.ResetTool.Daemon.never_retried_violated
#print axioms Sanlock.ResetTool.Daemon.no_watchdog_violated
#print axioms Sanlock.ResetTool.Daemon.reply_after_live
#print axioms Sanlock.ResetTool.Daemon.request_answered
#print axioms Sanlock.ResetTool.dead_before_violated
#print axioms Sanlock.ResetTool.dead_since_time
#print axioms Sanlock.ResetTool.done_cases
#print axioms Sanlock.ResetTool.done_is_reset_partial
#print axioms Sanlock.ResetTool.exec_of_run
#print axioms Sanlock.ResetTool.failed_cases
#print axioms Sanlock.ResetTool.never_ends_violated
#print axioms Sanlock.ResetTool.no_news_done_violated
#print axioms Sanlock.ResetTool.rejoined_reported_failed_violated
#print axioms Sanlock.ResetTool.reply_deadline
#print axioms Sanlock.ResetTool.run_exec
#print axioms Sanlock.Resetd.clear_clears
#print axioms Sanlock.Resetd.count_violated
#print axioms Sanlock.Resetd.end_ends_partial
#print axioms Sanlock.Resetd.end_of_daemon
#print axioms Sanlock.Resetd.end_violated
#print axioms Sanlock.Resetd.kept
#print axioms Sanlock.Resetd.parse_datagram
#print axioms Sanlock.Resetd.reg_again_violated
#print axioms Sanlock.Resetd.reg_again_watched_partial
#print axioms Sanlock.Resetd.reg_full_violated
#print axioms Sanlock.Resetd.reg_new_watched
#print axioms Sanlock.Resetd.request_read
#print axioms Sanlock.Resetd.reset_not_retried_violated
#print axioms Sanlock.Resetd.reset_once
#print axioms Sanlock.Resetd.reset_only_if_asked
#print axioms Sanlock.Resetd.space_violated
#print axioms Sanlock.Resetd.sysrq_done
#print axioms Sanlock.Resetd.sysrq_negative_violated
#print axioms Sanlock.Resetd.sysrq_only_if_asked
#print axioms Sanlock.Resetd.table_sound
#print axioms Sanlock.Resetd.timed_if_reset
#print axioms Sanlock.Resetd.watched_until
#print axioms Sanlock.Resource.acquire_in_use
#print axioms Sanlock.Resource.acquire_orphan
#print axioms Sanlock.Resource.convert_mode
#print axioms Sanlock.Resource.convert_same
#print axioms Sanlock.Resource.convert_shared_violated
#print axioms Sanlock.Resource.ex2sh_failure_violated
#print axioms Sanlock.Resource.ex2sh_success
#print axioms Sanlock.Resource.exclusive_local_partial
#print axioms Sanlock.Resource.no_use_after_free
#print axioms Sanlock.Resource.one_per_name
#print axioms Sanlock.Resource.one_releaser
#print axioms Sanlock.Resource.orphan_only_enoent_partial
#print axioms Sanlock.Resource.orphan_only_violated
#print axioms Sanlock.Resource.orphan_stays
#print axioms Sanlock.Resource.persistent_in_command_violated
#print axioms Sanlock.Resource.persistent_orphaned_partial
#print axioms Sanlock.Resource.sh2ex_failure
#print axioms Sanlock.Resource.sh2ex_given_up
#print axioms Sanlock.Resource.sh2ex_success
#print axioms Sanlock.Resource.two_exclusive_violated
#print axioms Sanlock.Rindex.areas_disjoint
#print axioms Sanlock.Rindex.create_crash
#print axioms Sanlock.Rindex.create_done
#print axioms Sanlock.Rindex.create_found
#print axioms Sanlock.Rindex.delete_crash
#print axioms Sanlock.Rindex.format_ok
#print axioms Sanlock.Rindex.header_overwrite_violated
#print axioms Sanlock.Rindex.location_alias_violated
#print axioms Sanlock.Rindex.location_overflow_violated
#print axioms Sanlock.Rindex.lookup_location
#print axioms Sanlock.Rindex.misaligned_refused
#print axioms Sanlock.Rindex.outside_memory_violated
#print axioms Sanlock.Rindex.rebuild_error_violated
#print axioms Sanlock.Rindex.rebuild_exact_partial
#print axioms Sanlock.Rindex.rebuild_foreign_violated
#print axioms Sanlock.Rindex.search_complete
#print axioms Sanlock.Rindex.search_defined_partial
#print axioms Sanlock.Rindex.search_location
#print axioms Sanlock.Rindex.update_inside_partial
#print axioms Sanlock.Scripts.failing_script_fires_partial
#print axioms Sanlock.Scripts.given_time
#print axioms Sanlock.Scripts.ninth_script_violated
#print axioms Sanlock.Scripts.no_client_no_script
#print axioms Sanlock.Scripts.no_client_violated
#print axioms Sanlock.Scripts.nopass_closes
#print axioms Sanlock.Scripts.passing_pings
#print axioms Sanlock.Scripts.scripts_pass_partial
#print axioms Sanlock.Scripts.short_timeout_violated
#print axioms Sanlock.Scripts.start_failure_violated
#print axioms Sanlock.Sectors.choose_asked
#print axioms Sanlock.Sectors.helper_violated
#print axioms Sanlock.Sectors.left_alone
#print axioms Sanlock.Sectors.never_above
#print axioms Sanlock.Sectors.number_violated
#print axioms Sanlock.Sectors.set_partial
#print axioms Sanlock.Sectors.told_partial
#print axioms Sanlock.Shutdown.accepted_ends_partial
#print axioms Sanlock.Shutdown.accepted_forgotten_violated
#print axioms Sanlock.Shutdown.answer_clean_partial
#print axioms Sanlock.Shutdown.answered_early_violated
#print axioms Sanlock.Shutdown.command_ends
#print axioms Sanlock.Shutdown.command_ignored
#print axioms Sanlock.Shutdown.exit_clean_partial
#print axioms Sanlock.Shutdown.exit_with_lockspace_violated
#print axioms Sanlock.Shutdown.forced_ends_partial
#print axioms Sanlock.Shutdown.forced_forgotten_violated
#print axioms Sanlock.Shutdown.forced_kills_partial
#print axioms Sanlock.Shutdown.forced_stays
#print axioms Sanlock.Shutdown.freed_ended
#print axioms Sanlock.Shutdown.given_up_unused
#print axioms Sanlock.Shutdown.ignored_signal_violated
#print axioms Sanlock.Shutdown.last_answered
#print axioms Sanlock.Shutdown.late_unanswered_violated
#print axioms Sanlock.Shutdown.main_goes
#print axioms Sanlock.Shutdown.one_answer_violated
#print axioms Sanlock.Shutdown.unforced_answer
#print axioms Sanlock.Shutdown.unforced_kills_nothing
#print axioms Sanlock.Single.can_start
#print axioms Sanlock.Single.killed_probe_violated
#print axioms Sanlock.Single.killed_wdmd
#print axioms Sanlock.Single.no_lockfile_violated
#print axioms Sanlock.Single.one_sanlock
#print axioms Sanlock.Single.one_wdmd
#print axioms Sanlock.Single.only_users
#print axioms Sanlock.Single.sanlock_socket
#print axioms Sanlock.Single.shm_left
#print axioms Sanlock.Single.two_fenced_violated
#print axioms Sanlock.Single.wdmd_socket
#print axioms Sanlock.SizeFlags.align_flag_roundtrip
#print axioms Sanlock.SizeFlags.delta_layout
#print axioms Sanlock.SizeFlags.flag_meaning
#print axioms Sanlock.SizeFlags.lvb_layout_partial
#print axioms Sanlock.SizeFlags.lvb_layout_violated
#print axioms Sanlock.SizeFlags.paxos_layout
#print axioms Sanlock.SizeFlags.size_flags_in_word
#print axioms Sanlock.SizeFlags.sizesFromFlags_sound
#print axioms Sanlock.SizeFlags.supported_iff
#print axioms Sanlock.Status.hex_value
#print axioms Sanlock.Status.host_status_all_partial
#print axioms Sanlock.Status.host_status_many_violated
#print axioms Sanlock.Status.host_status_name_violated
#print axioms Sanlock.Status.host_status_none
#print axioms Sanlock.Status.host_status_partial
#print axioms Sanlock.Status.host_status_violated
#print axioms Sanlock.Status.lease_line_parses_partial
#print axioms Sanlock.Status.log_dump_partial
#print axioms Sanlock.Status.log_dump_violated
#print axioms Sanlock.Status.renewals_shown
#print axioms Sanlock.Status.sorted_pid_partial
#print axioms Sanlock.Status.sorted_space_partial
#print axioms Sanlock.Status.sorted_violated
#print axioms Sanlock.Status.space_line_parses_partial
#print axioms Sanlock.Status.space_line_violated
#print axioms Sanlock.Status.status_cut_violated
#print axioms Sanlock.Status.status_details_partial
#print axioms Sanlock.Status.status_disks_violated
#print axioms Sanlock.Status.status_lines_partial
#print axioms Sanlock.Status.status_short_violated
#print axioms Sanlock.Strings.backslash_path_violated
#print axioms Sanlock.Strings.colon_name_violated
#print axioms Sanlock.Strings.full_name_violated
#print axioms Sanlock.Strings.long_path_violated
#print axioms Sanlock.Strings.no_disks_violated
#print axioms Sanlock.Strings.path_roundtrip_partial
#print axioms Sanlock.Strings.res_roundtrip_partial
#print axioms Sanlock.Strings.state_overflow_violated
#print axioms Sanlock.Strings.state_roundtrip_partial
#print axioms Sanlock.Strings.strToRes_safe
#print axioms Sanlock.SyncIo.other_sector
#print axioms Sanlock.SyncIo.read_sectors
#print axioms Sanlock.SyncIo.read_succeeds
#print axioms Sanlock.SyncIo.seek_violated
#print axioms Sanlock.SyncIo.torn_violated
#print axioms Sanlock.SyncIo.write_ends_partial
#print axioms Sanlock.SyncIo.write_read
#print axioms Sanlock.SyncIo.write_sector
#print axioms Sanlock.SyncIo.write_sector_atomic_partial
#print axioms Sanlock.SyncIo.write_sectors
#print axioms Sanlock.SyncIo.write_zero_violated
#print axioms Sanlock.Timing.grace_fits_partial
#print axioms Sanlock.Timing.grace_fits_violated
#print axioms Sanlock.Timing.timeouts_ordered
#print axioms Sanlock.Timing.timeouts_overflow_violated
#print axioms Sanlock.Used.config_codes
#print axioms Sanlock.Used.killed_has_lease
#print axioms Sanlock.Used.leaves_iff
#print axioms Sanlock.Used.orphans_adopt_violated
#print axioms Sanlock.Used.orphans_killed_violated
#print axioms Sanlock.Used.orphans_stay_partial
#print axioms Sanlock.Used.stops_iff
#print axioms Sanlock.Used.unused_busy
#print axioms Sanlock.Used.unused_marked_violated
#print axioms Sanlock.Used.unused_race_violated
#print axioms Sanlock.Used.unused_safe_partial
#print axioms Sanlock.Used.used_stays
#print axioms Sanlock.Verify.delta_read_accepts_iff
#print axioms Sanlock.Verify.lease_read_last_disk_violated
#print axioms Sanlock.Verify.majority_read_sound
#print axioms Sanlock.Verify.majority_read_unique
#print axioms Sanlock.Verify.majority_read_verified_partial
#print axioms Sanlock.Verify.majority_read_verified_violated
#print axioms Sanlock.Verify.majority_reads_agree
#print axioms Sanlock.Verify.read_accepts_iff
#print axioms Sanlock.Verify.read_error_specific
#print axioms Sanlock.Wdmd.dead_client_fires
#print axioms Sanlock.Wdmd.dead_client_kept
#print axioms Sanlock.Wdmd.dead_client_noticed
#print axioms Sanlock.Wdmd.dead_entry_forever
#print axioms Sanlock.Wdmd.disarm_after_reopen_failure
#print axioms Sanlock.Wdmd.disarm_only_unreferenced
#print axioms Sanlock.Wdmd.exit_only_unreferenced
#print axioms Sanlock.Wdmd.failed_round
#print axioms Sanlock.Wdmd.interval_fits
#print axioms Sanlock.Wdmd.keepalive_only_if_tests_pass
#print axioms Sanlock.Wdmd.no_ping_until_pass
#print axioms Sanlock.Wdmd.unreferenced_expiry_violated
#print axioms Sanlock.Wire.can_go_on
#print axioms Sanlock.Wire.goes_down
#print axioms Sanlock.Wire.late_data_violated
#print axioms Sanlock.Wire.release_all_args_violated
#print axioms Sanlock.Wire.release_args_missing_violated
#print axioms Sanlock.Wire.reply_own_partial
#print axioms Sanlock.Wire.restrict_all_silent
