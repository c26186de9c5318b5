import Verif.AppInfo.Props
import Verif.AppInfo.PropsMac
import Verif.Cache.Props
import Verif.Client.PropsEvent
import Verif.Client.PropsJoin
import Verif.Client.PropsMutex
import Verif.Client.PropsNest
import Verif.Client.PropsNestEnd
import Verif.Client.PropsNestWin
import Verif.Client.PropsOrder
import Verif.Client.PropsOrderMix
import Verif.Client.PropsOrderWin
import Verif.Client.PropsRw
import Verif.Client.PropsSem
import Verif.Client.PropsWin
import Verif.ConvertInt.Props
import Verif.Crash.Props
import Verif.Crash.PropsLock
import Verif.Crash.PropsWin
import Verif.Crash.PropsWinRw
import Verif.Csprng.Props
import Verif.Csprng.PropsLife
import Verif.DList.Props
import Verif.DList.PropsSweep
import Verif.Dir.Props
import Verif.Dir.PropsExact
import Verif.Dir.PropsMk
import Verif.DirList.Props
import Verif.Event.Props
import Verif.Event.PropsFail
import Verif.FastFind.Props
import Verif.FastFind.PropsHand
import Verif.FastFind.PropsLimit
import Verif.FastFind.PropsOwn
import Verif.FastFind.PropsReplace
import Verif.File.Props
import Verif.File.PropsCopy
import Verif.FileOps.Props
import Verif.FileOps.PropsMove
import Verif.FileSize.Props
import Verif.Guard.Props
import Verif.Guard.PropsMutex
import Verif.Guard.PropsRw
import Verif.HashFn.Props
import Verif.Json.Props
import Verif.Json.PropsUnique
import Verif.MixedVar.Props
import Verif.MixedVar.PropsValues
import Verif.Mutex.Props
import Verif.Mutex.PropsFull
import Verif.NamedMem.Props
import Verif.OrderedHash.Props
import Verif.OrderedHash.PropsAssign
import Verif.OrderedHash.PropsKeyMem
import Verif.OrderedHash.PropsLoad
import Verif.OrderedHash.PropsMulti
import Verif.OrderedHash.PropsSweep
import Verif.PackedHash.Props
import Verif.PackedHash.PropsCursor
import Verif.PackedHash.PropsLife
import Verif.PackedHash.PropsResize
import Verif.Path.Props
import Verif.Path.PropsAbs
import Verif.Progress.Props
import Verif.Queue.Props
import Verif.Race.Props
import Verif.RwLock.Props
import Verif.RwLock.PropsFull
import Verif.RwLock.PropsStarve
import Verif.Sem.Props
import Verif.Sem.PropsFail
import Verif.SharedLib.Props
import Verif.SharedLife.Props
import Verif.ShmName.Props
import Verif.ShmName.PropsLong
import Verif.Static2D.Props
import Verif.StaticVector.Props
import Verif.SyncLife.Props
import Verif.SyncLife.PropsMutex
import Verif.Timing.Props
import Verif.Timing.PropsMac
import Verif.Tls.Props
import Verif.Tls.PropsInfo
import Verif.Tls.PropsScope
import Verif.Tls.PropsThreads
import Verif.TlsVar.Props
import Verif.TlsVar.PropsReplace
import Verif.Utf8.Props
import Verif.Utf8.PropsSearch
import Verif.Utf8Var.Props
import Verif.Utf8Var.PropsExact
import Verif.WinAbs.Props
import Verif.WinAppInfo.Props
import Verif.WinCsprng.Props
import Verif.WinDir.Props
import Verif.WinDir.PropsCwd
import Verif.WinDir.PropsMk
import Verif.WinFile.Props
import Verif.WinLink.PropsPriv
import Verif.WinLink.PropsRead
import Verif.WinLink.PropsSym
import Verif.WinList.Props
import Verif.WinList.PropsOpen
import Verif.WinMutex.Props
import Verif.WinOps.PropsCopy
import Verif.WinOps.PropsMode
import Verif.WinOps.PropsTimes
import Verif.WinPath.Props
import Verif.WinPath.PropsInfo
import Verif.WinReal.Props
import Verif.WinReal.PropsLimit
import Verif.WinReal.PropsLink
import Verif.WinRwLock.Props
import Verif.WinSync.PropsLife
import Verif.WinSync.PropsUse
import Verif.WinTiming.Props

/-! Prints, for each property theorem, the axioms it depends on. -/

#print axioms Verif.ConvertInt.toString_roundtrip
#print axioms Verif.ConvertInt.toString_fits_iff
#print axioms Verif.ConvertInt.toString_grouping
#print axioms Verif.ConvertInt.toString_signed_partial
#print axioms Verif.ConvertInt.toString_signed_min_ub
#print axioms Verif.ConvertInt.toString_signed_min_fails
#print axioms Verif.FileSize.filesize_in_bounds
#print axioms Verif.FileSize.filesize_signed_in_bounds_partial
#print axioms Verif.FileSize.filesize_signed_min_ub
#print axioms Verif.FileSize.filesize_value_partial
#print axioms Verif.FileSize.filesize_signed_value_partial
#print axioms Verif.FileSize.filesize_wrap_prints
#print axioms Verif.FileSize.filesize_wrap_fails
#print axioms Verif.Json.writes_stay_inside_partial
#print axioms Verif.Json.sized_append_overflows
#print axioms Verif.Json.resetPos_not_terminated
#print axioms Verif.Json.zero_depth_undefined
#print axioms Verif.Json.failed_call_no_effect_partial
#print axioms Verif.Json.failed_finish_changes_text
#print axioms Verif.Json.finished_text_is_document_partial
#print axioms Verif.Json.control_character_breaks_json
#print axioms Verif.Json.unescaped_slash_is_lost
#print axioms Verif.Json.finished_text_reads_back_partial
#print axioms Verif.Json.string_escaping_round_trips_partial
#print axioms Verif.Json.structure_enforced_partial
#print axioms Verif.Json.minimum_int_undefined
#print axioms Verif.Json.finish_closes_all_partial
#print axioms Verif.Json.integers_exact_partial
#print axioms Verif.DList.list_is_sequence
#print axioms Verif.DList.detach_reattach_partial
#print axioms Verif.DList.singleton_not_refused
#print axioms Verif.DList.singleton_double_free
#print axioms Verif.DList.detach_foreign_corrupts_count
#print axioms Verif.DList.self_append_loses_nodes
#print axioms Verif.DList.copy_equals_source
#print axioms Verif.DList.lists_independent
#print axioms Verif.Queue.queue_is_sequence_partial
#print axioms Verif.Queue.fifo
#print axioms Verif.Queue.last_node_not_refused
#print axioms Verif.Queue.self_append_loses_nodes
#print axioms Verif.OrderedHash.ordered_hash_is_map_partial
#print axioms Verif.OrderedHash.lookup_spec
#print axioms Verif.OrderedHash.insert_refused_iff_partial
#print axioms Verif.OrderedHash.size_zero_divides_by_zero
#print axioms Verif.OrderedHash.released_nodes_keep_links
#print axioms Verif.OrderedHash.insert_order_partial
#print axioms Verif.OrderedHash.detach_order_partial
#print axioms Verif.OrderedHash.resize_invisible_partial
#print axioms Verif.OrderedHash.table_invisible_partial
#print axioms Verif.OrderedHash.copy_forward_partial
#print axioms Verif.OrderedHash.copy_find_null
#print axioms Verif.OrderedHash.copy_backward_uninit
#print axioms Verif.OrderedHash.assign_forward_partial
#print axioms Verif.OrderedHash.assign_find_null
#print axioms Verif.PackedHash.packed_hash_is_map_partial
#print axioms Verif.PackedHash.find_returns_last_value_partial
#print axioms Verif.PackedHash.put_order
#print axioms Verif.PackedHash.marker_collision
#print axioms Verif.PackedHash.large_table_hides
#print axioms Verif.PackedHash.compaction_invisible_partial
#print axioms Verif.PackedHash.packed_table_invisible_partial
#print axioms Verif.PackedHash.get_after_optimize_partial
#print axioms Verif.PackedHash.copy_rounds_partial
#print axioms Verif.PackedHash.copy_never_finishes
#print axioms Verif.PackedHash.assign_never_finishes
#print axioms Verif.PackedHash.assign_self
#print axioms Verif.Cache.cache_correct
#print axioms Verif.Cache.run_unique
#print axioms Verif.Cache.zero_slots_undefined
#print axioms Verif.StaticVector.staticVector_refines
#print axioms Verif.Static2D.static2D_refines_partial
#print axioms Verif.Static2D.assign_different_dims_is_null_write
#print axioms Verif.Static2D.assign_spec_fails
#print axioms Verif.Static2D.eq_never_true
#print axioms Verif.FastFind.finds_exactly
#print axioms Verif.FastFind.finder_refines
#print axioms Verif.FastFind.spec_total
#print axioms Verif.FastFind.replace_all_partial
#print axioms Verif.FastFind.replace_all_plain_partial
#print axioms Verif.FastFind.static_replace_all_partial
#print axioms Verif.FastFind.empty_pattern_copies
#print axioms Verif.FastFind.sizes_up_to_zero
#print axioms Verif.FastFind.replaced_exists
#print axioms Verif.FastFind.replaced_unique
#print axioms Verif.FastFind.limit_loses_tail
#print axioms Verif.FastFind.plain_growth_overreads
#print axioms Verif.FastFind.sizes_explicit
#print axioms Verif.FastFind.cut_replaced
#print axioms Verif.FastFind.cut_rest
#print axioms Verif.FastFind.cut_or_replaced
#print axioms Verif.FastFind.replace_all_limit_partial
#print axioms Verif.FastFind.limit_always_loses
#print axioms Verif.FastFind.static_limit_partial
#print axioms Verif.Utf8.append_code_point
#print axioms Verif.Utf8.append_code_point_count
#print axioms Verif.Utf8.enc8_standard
#print axioms Verif.Utf8.round_trip
#print axioms Verif.Utf8.counted_sizes
#print axioms Verif.Utf8.utf8_unchanged
#print axioms Verif.Utf8.convert_to_safe
#print axioms Verif.Utf8.convert_from_safe
#print axioms Verif.Utf8.convert_to_keeps
#print axioms Verif.Utf8.strlen_never_returns
#print axioms Verif.Utf8.convert_from_alloc_never_returns
#print axioms Verif.Utf8.count_partial
#print axioms Verif.Utf8.count_counts_combining
#print axioms Verif.Utf8.find_misses
#print axioms Verif.Utf8.walk_ascii_partial
#print axioms Verif.Sem.no_ub
#print axioms Verif.Sem.linearizable
#print axioms Verif.Sem.conserved
#print axioms Verif.Sem.bounded
#print axioms Verif.Sem.wait_succeeds
#print axioms Verif.Sem.try_fails
#print axioms Verif.Sem.release_gives
#print axioms Verif.Sem.release_wakes
#print axioms Verif.Sem.release_wraps
#print axioms Verif.Mutex.no_ub
#print axioms Verif.Mutex.linearizable_partial
#print axioms Verif.Mutex.exclusive_partial
#print axioms Verif.Mutex.relock_partial
#print axioms Verif.Mutex.excluded_partial
#print axioms Verif.Mutex.unlock_refused_partial
#print axioms Verif.Mutex.unlock_frees_partial
#print axioms Verif.Mutex.unlock_nested_partial
#print axioms Verif.Mutex.lock_free
#print axioms Verif.Mutex.exclusion_fails
#print axioms Verif.Mutex.Full.full_refines
#print axioms Verif.Mutex.Full.full_linearizable_partial
#print axioms Verif.Mutex.Full.full_exclusive_partial
#print axioms Verif.Mutex.Full.full_no_lost_wakeup_partial
#print axioms Verif.Event.no_ub
#print axioms Verif.Event.linearizable
#print axioms Verif.Event.auto_conserved
#print axioms Verif.Event.manual_open
#print axioms Verif.Event.auto_open
#print axioms Verif.Event.closed
#print axioms Verif.Event.reset_closes
#print axioms Verif.Event.reset_refused
#print axioms Verif.Event.fire_signals
#print axioms Verif.Event.waiting_exact
#print axioms Verif.RwLock.one_writer_partial
#print axioms Verif.RwLock.no_reader_partial
#print axioms Verif.RwLock.linearizable_partial
#print axioms Verif.RwLock.write_free
#print axioms Verif.RwLock.read_free
#print axioms Verif.RwLock.unpaired_breaks
#print axioms Verif.RwLock.unpaired_read_breaks
#print axioms Verif.RwLock.fire_failure_blocks
#print axioms Verif.RwLock.Full.full_refines
#print axioms Verif.RwLock.Full.full_one_writer_partial
#print axioms Verif.RwLock.Full.full_no_reader_partial
#print axioms Verif.RwLock.Full.full_linearizable_partial
#print axioms Verif.RwLock.exclusion_fails
#print axioms Verif.ShmName.accepted
#print axioms Verif.ShmName.same_object_partial
#print axioms Verif.ShmName.by_name_partial
#print axioms Verif.ShmName.fits_216
#print axioms Verif.ShmName.slash_collides
#print axioms Verif.ShmName.size_collides
#print axioms Verif.ShmName.wide_collides
#print axioms Verif.ShmName.long_collides
#print axioms Verif.ShmName.one_character_partial
#print axioms Verif.NamedMem.no_ub_partial
#print axioms Verif.NamedMem.init_once_partial
#print axioms Verif.NamedMem.opened_initialised_partial
#print axioms Verif.NamedMem.use_initialised_partial
#print axioms Verif.NamedMem.own_memory_partial
#print axioms Verif.NamedMem.kept_of
#print axioms Verif.NamedMem.reopen_overruns
#print axioms Verif.NamedMem.reopen_ub
#print axioms Verif.NamedMem.reopen_bad_unlock
#print axioms Verif.NamedMem.early_use
#print axioms Verif.NamedMem.abandoned_for_ever
#print axioms Verif.Tls.allocator_partial
#print axioms Verif.Tls.large_failure
#print axioms Verif.Tls.realloc_failure
#print axioms Verif.Tls.huge_size
#print axioms Verif.Tls.copy_overflow
#print axioms Verif.MixedVar.strings_truncated_safely_partial
#print axioms Verif.MixedVar.prepend_to_new_not_terminated
#print axioms Verif.MixedVar.values_round_trip
#print axioms Verif.MixedVar.strings_round_trip
#print axioms Verif.MixedVar.appended_integer_is_numeral_partial
#print axioms Verif.MixedVar.minimum_int_undefined
#print axioms Verif.MixedVar.radix_zero_undefined
#print axioms Verif.MixedVar.values_kept
#print axioms Verif.Path.absolute_partial
#print axioms Verif.Path.absolute_accepts_partial
#print axioms Verif.Path.absolute_untrailed_partial
#print axioms Verif.Path.wrong_parent
#print axioms Verif.Path.dotdot_left
#print axioms Verif.Path.base_not_resolved
#print axioms Verif.Path.cut_off
#print axioms Verif.Path.root_is_empty
#print axioms Verif.Path.slack_overrun
#print axioms Verif.Path.platform_name
#print axioms Verif.Path.platform_name_ascii_partial
#print axioms Verif.Path.valid_name
#print axioms Verif.Path.non_ascii_rejected
#print axioms Verif.Path.name_parts
#print axioms Verif.File.seek_clamps_partial
#print axioms Verif.File.seek_wraps
#print axioms Verif.File.file_array_partial
#print axioms Verif.File.perform_ok
#print axioms Verif.File.write_interrupted_ub
#print axioms Verif.File.write_interrupted_wrong
#print axioms Verif.File.write_interrupted_twice
#print axioms Verif.File.write_failed_desync
#print axioms Verif.File.line_input_partial
#print axioms Verif.File.all_lines_partial
#print axioms Verif.File.default_same
#print axioms Verif.File.default_overreads
#print axioms Verif.File.short_read_splits
#print axioms Verif.File.hint_zero
#print axioms Verif.File.copy_does
#print axioms Verif.File.copy_exact_partial
#print axioms Verif.File.copy_wrong
#print axioms Verif.File.load_entire
#print axioms Verif.File.load_succeeds
#print axioms Verif.Csprng.getInteger_in_range
#print axioms Verif.Csprng.getInteger_stream
#print axioms Verif.Csprng.getInteger_unbiased
#print axioms Verif.Csprng.getInteger_onto
#print axioms Verif.Csprng.getInteger_rejects_at_most_half
#print axioms Verif.Csprng.getBytes_complete_partial
#print axioms Verif.Csprng.getBytes_never_false
#print axioms Verif.Csprng.getBytes_spec_fails
#print axioms Verif.AppInfo.system_dir
#print axioms Verif.AppInfo.temp_dir_partial
#print axioms Verif.AppInfo.user_dir_partial
#print axioms Verif.AppInfo.appDir_slash
#print axioms Verif.AppInfo.temp_overflow
#print axioms Verif.AppInfo.user_overflow
#print axioms Verif.AppInfo.user_empty_home
#print axioms Verif.AppInfo.user_no_entry
#print axioms Verif.SharedLib.call_reaches_function_partial
#print axioms Verif.SharedLib.callVoid_never_invokes
#print axioms Verif.SharedLib.callVoid_spec_fails
#print axioms Verif.SharedLib.callOnce_reaches
#print axioms Verif.Dir.rmdir_inside
#print axioms Verif.Dir.rmdir_removes_partial
#print axioms Verif.Dir.erase_is_removal
#print axioms Verif.Dir.rmdir_leaves
#print axioms Verif.Dir.rmdir_exact
#print axioms Verif.Dir.remains_nil_iff
#print axioms Verif.Dir.rmdir_all_iff
#print axioms Verif.Dir.mkdir_requests_partial
#print axioms Verif.Dir.mkdir_makes_partial
#print axioms Verif.Dir.mkdir_requests_accepted_partial
#print axioms Verif.Dir.mkdir_root_requests_empty
#print axioms Verif.HashFn.hashKey_only
#print axioms Verif.HashFn.sip_is_siphash
#print axioms Verif.HashFn.djb_is_djb
#print axioms Verif.HashFn.cacheBytes_is_djb
#print axioms Verif.HashFn.cacheStr_is_djb
#print axioms Verif.Utf8.last_pos_utf8_partial
#print axioms Verif.Utf8.last_pos_wide_partial
#print axioms Verif.Utf8.last_pos_wrong
#print axioms Verif.Utf8.alloc_text
#print axioms Verif.Utf8.alloc_safe
#print axioms Verif.Utf8.alloc_terminated_partial
#print axioms Verif.Utf8.alloc_unterminated
#print axioms Verif.Sem.no_lost_wakeup
#print axioms Verif.Event.manual_no_lost_wakeup
#print axioms Verif.Event.auto_no_lost_wakeup_partial
#print axioms Verif.Event.auto_lost_wakeup
#print axioms Verif.Sem.leaked_step
#print axioms Verif.Sem.leaked_exec
#print axioms Verif.Sem.clock_failure_locks
#print axioms Verif.Tls.dup_keeps_partial
#print axioms Verif.Tls.dup_loses
#print axioms Verif.Tls.thread_end
#print axioms Verif.Tls.no_memory
#print axioms Verif.File.open_failed_partial
#print axioms Verif.File.open_failed_open
#print axioms Verif.File.closed_refuses
#print axioms Verif.AppInfo.exe_name_safe
#print axioms Verif.AppInfo.exe_name_partial
#print axioms Verif.AppInfo.exe_path
#print axioms Verif.AppInfo.exe_name_cut
#print axioms Verif.AppInfo.exe_path_backslash
#print axioms Verif.Utf8Var.wide_text_safe_partial
#print axioms Verif.Utf8Var.set_wide_fits_partial
#print axioms Verif.Utf8Var.get_wide
#print axioms Verif.Utf8Var.append_ascii_partial
#print axioms Verif.Utf8Var.set_cuts_character
#print axioms Verif.Utf8Var.set_skips_character
#print axioms Verif.Utf8Var.append_drops_character
#print axioms Verif.Utf8Var.wide_text_exact
#print axioms Verif.Utf8Var.append_complete_iff
#print axioms Verif.TlsVar.tls_vars_partial
#print axioms Verif.TlsVar.shown_unique
#print axioms Verif.TlsVar.no_leak_partial
#print axioms Verif.TlsVar.copy_undefined
#print axioms Verif.TlsVar.set_size_undefined
#print axioms Verif.TlsVar.set_failure_undefined
#print axioms Verif.TlsVar.no_thread_undefined
#print axioms Verif.RwLock.Full.full_no_lost_wakeup_partial
#print axioms Verif.Timing.deadline_exact
#print axioms Verif.Timing.micros_exact
#print axioms Verif.Timing.left_infinite
#print axioms Verif.Timing.left_zero
#print axioms Verif.Timing.left_finite
#print axioms Verif.Timing.limit_partial
#print axioms Verif.Timing.left_value
#print axioms Verif.Timing.limit_exceeded
#print axioms Verif.Timing.limit_exceeded_always
#print axioms Verif.Timing.clock_back
#print axioms Verif.FileOps.refused_name
#print axioms Verif.FileOps.acts
#print axioms Verif.FileOps.chown_acts
#print axioms Verif.FileOps.chgrp_partial
#print axioms Verif.FileOps.chgrp_wrong
#print axioms Verif.FileOps.times_set
#print axioms Verif.FileOps.times_kept_partial
#print axioms Verif.FileOps.times_truncated
#print axioms Verif.FileOps.symlink_acts
#print axioms Verif.FileOps.realpath_ok
#print axioms Verif.FileOps.readlink_partial
#print axioms Verif.FileOps.readlink_cleared
#print axioms Verif.FileOps.readlink_unterminated
#print axioms Verif.FileOps.copy_self
#print axioms Verif.FileOps.copy_frame
#print axioms Verif.FileOps.copy_true_partial
#print axioms Verif.FileOps.copy_pads
#print axioms Verif.FileOps.move_false
#print axioms Verif.FileOps.move_renamed
#print axioms Verif.FileOps.move_copied_partial
#print axioms Verif.FileOps.move_pads
#print axioms Verif.FileOps.move_loses
#print axioms Verif.FileOps.copy_answer
#print axioms Verif.FileOps.move_answer
#print axioms Verif.DirList.listing
#print axioms Verif.DirList.nothing_left
#print axioms Verif.DirList.list_all_partial
#print axioms Verif.DirList.list_cut
#print axioms Verif.SyncLife.life
#print axioms Verif.SyncLife.all_released
#print axioms Verif.SyncLife.mem_create_partial
#print axioms Verif.SyncLife.first_stale
#print axioms Verif.SyncLife.size_stale
#print axioms Verif.SyncLife.size_wraps
#print axioms Verif.SyncLife.Mtx.mutex_life_partial
#print axioms Verif.SyncLife.Mtx.mutex_free_partial
#print axioms Verif.SyncLife.Mtx.create_leaks
#print axioms Verif.SyncLife.Mtx.lock_uncreated
#print axioms Verif.SyncLife.Mtx.lock_after_failure
#print axioms Verif.SyncLife.Mtx.create_keeps_down
#print axioms Verif.SyncLife.layout_partial
#print axioms Verif.SyncLife.misaligned
#print axioms Verif.TlsVar.replace_data_partial
#print axioms Verif.TlsVar.replaced_all_exact
#print axioms Verif.TlsVar.replace_null
#print axioms Verif.TlsVar.replace_overlaps
#print axioms Verif.WinAppInfo.folder_dir_partial
#print axioms Verif.WinAppInfo.folder_dir_safe_partial
#print axioms Verif.WinAppInfo.folder_dir_unknown
#print axioms Verif.WinAppInfo.temp_dir_partial
#print axioms Verif.WinAppInfo.folder_dir_drops_character
#print axioms Verif.WinAppInfo.folder_dir_empty_reads_before
#print axioms Verif.WinAppInfo.temp_dir_overruns
#print axioms Verif.WinAppInfo.temp_dir_cuts
#print axioms Verif.WinAppInfo.temp_dir_too_long
#print axioms Verif.WinAppInfo.exe_name_partial
#print axioms Verif.WinAppInfo.exe_name_too_long
#print axioms Verif.WinAppInfo.exe_name_of_failure
#print axioms Verif.WinAppInfo.exe_name_drops_character
#print axioms Verif.WinPath.win_name_partial
#print axioms Verif.WinPath.win_name_ascii_partial
#print axioms Verif.WinPath.win_name_overruns
#print axioms Verif.WinPath.win_name_volume
#print axioms Verif.WinPath.win_name_reserved
#print axioms Verif.WinPath.win_name_non_ascii
#print axioms Verif.WinPath.win_name_bare_volume
#print axioms Verif.WinPath.win_name_parts
#print axioms Verif.WinFile.win_file_array_partial
#print axioms Verif.WinFile.win_read_large
#print axioms Verif.WinFile.win_write_large
#print axioms Verif.WinFile.win_size_unknown
#print axioms Verif.WinFile.win_seek_wraps
#print axioms Verif.WinFile.win_open_partial
#print axioms Verif.WinFile.win_open_failed
#print axioms Verif.WinFile.win_open_truncate
#print axioms Verif.WinFile.win_open_append
#print axioms Verif.WinAbs.win_absolute_partial
#print axioms Verif.WinAbs.win_absolute_accepts_partial
#print axioms Verif.WinAbs.win_absolute_untrailed_partial
#print axioms Verif.WinAbs.win_absolute_parent
#print axioms Verif.WinAbs.win_absolute_host
#print axioms Verif.WinAbs.win_absolute_cut
#print axioms Verif.WinAbs.win_absolute_root
#print axioms Verif.WinAbs.win_absolute_drive
#print axioms Verif.WinAbs.win_absolute_slack
#print axioms Verif.WinOps.win_time_seconds_partial
#print axioms Verif.WinOps.win_time_early
#print axioms Verif.WinOps.win_micro_partial
#print axioms Verif.WinOps.win_micro_wraps
#print axioms Verif.WinOps.win_clock
#print axioms Verif.WinOps.posix_clock
#print axioms Verif.WinOps.win_set_times_partial
#print axioms Verif.WinOps.win_set_times_none
#print axioms Verif.WinOps.win_times_stat_partial
#print axioms Verif.WinOps.win_set_times_wraps
#print axioms Verif.WinOps.win_chmod
#print axioms Verif.WinOps.win_stat
#print axioms Verif.WinOps.win_chmod_stat_partial
#print axioms Verif.WinOps.win_chmod_writable
#print axioms Verif.WinOps.win_copy_done
#print axioms Verif.WinOps.win_copy_failed_partial
#print axioms Verif.WinOps.win_copy_works
#print axioms Verif.WinOps.win_copy_self
#print axioms Verif.WinOps.win_copy_loses_attributes
#print axioms Verif.WinOps.win_move_done_partial
#print axioms Verif.WinOps.win_move_failed_partial
#print axioms Verif.WinOps.win_move_readonly
#print axioms Verif.WinOps.win_delete_done
#print axioms Verif.WinOps.win_delete_works
#print axioms Verif.WinOps.win_delete_failed_partial
#print axioms Verif.WinOps.win_delete_resets
#print axioms Verif.WinOps.win_delete_other_name
#print axioms Verif.WinOps.win_refused
#print axioms Verif.WinOps.win_exists
#print axioms Verif.WinDir.win_rmdir_inside
#print axioms Verif.WinDir.win_rmdir_one
#print axioms Verif.WinDir.win_rmdir_removes_partial
#print axioms Verif.WinDir.win_rmdir_readonly
#print axioms Verif.WinDir.win_mkdir_requests
#print axioms Verif.WinDir.win_mkdir_accepted_partial
#print axioms Verif.WinDir.win_mkdir_makes_partial
#print axioms Verif.WinDir.win_getcwd_partial
#print axioms Verif.WinDir.win_getcwd_long
#print axioms Verif.WinDir.win_getcwd_unterminated
#print axioms Verif.WinDir.win_getcwd_failed
#print axioms Verif.WinList.win_listing
#print axioms Verif.WinList.win_nothing_left
#print axioms Verif.WinList.win_list_all_partial
#print axioms Verif.WinList.win_open_pattern
#print axioms Verif.WinList.win_open_accepted_partial
#print axioms Verif.WinList.win_read_exact
#print axioms Verif.WinList.win_read_mangled
#print axioms Verif.WinList.win_read_unterminated
#print axioms Verif.WinList.win_close_last
#print axioms Verif.WinRwLock.win_one_writer
#print axioms Verif.WinRwLock.win_no_reader
#print axioms Verif.WinRwLock.win_linearizable
#print axioms Verif.WinRwLock.win_readers_bound
#print axioms Verif.WinRwLock.win_write_free
#print axioms Verif.WinRwLock.win_read_free
#print axioms Verif.WinRwLock.win_unpaired_breaks
#print axioms Verif.WinRwLock.win_no_lost_wakeup
#print axioms Verif.WinRwLock.win_limit_deadlock
#print axioms Verif.WinRwLock.win_set_failure_blocks
#print axioms Verif.WinRwLock.win_unlock_failure
#print axioms Verif.WinMutex.win_mutex_no_ub
#print axioms Verif.WinMutex.win_mutex_linearizable
#print axioms Verif.WinMutex.win_mutex_exclusive
#print axioms Verif.WinMutex.win_mutex_relock
#print axioms Verif.WinMutex.win_mutex_other_object
#print axioms Verif.WinMutex.win_mutex_excluded
#print axioms Verif.WinMutex.win_mutex_unlock_refused
#print axioms Verif.WinMutex.win_mutex_unlock_frees
#print axioms Verif.WinMutex.win_mutex_unlock_nested
#print axioms Verif.WinMutex.win_mutex_lock_free
#print axioms Verif.WinMutex.win_exclusion_fails
#print axioms Verif.WinMutex.win_mutex_abandoned_partial
#print axioms Verif.WinMutex.win_mutex_abandoned_blocks
#print axioms Verif.WinMutex.win_id_reused
#print axioms Verif.WinMutex.win_mutex_no_lost_wakeup
#print axioms Verif.WinMutex.win_mutex_release_failure
#print axioms Verif.WinSync.win_life
#print axioms Verif.WinSync.win_life_end
#print axioms Verif.WinSync.win_life_blocks
#print axioms Verif.WinSync.win_created
#print axioms Verif.WinSync.win_sem_idle
#print axioms Verif.WinSync.win_event_idle
#print axioms Verif.WinSync.win_mutex_life_partial
#print axioms Verif.WinSync.win_mutex_life_end_partial
#print axioms Verif.WinSync.win_mutex_create_leaks
#print axioms Verif.WinSync.win_mem_size_partial
#print axioms Verif.WinSync.win_mem_shared_partial
#print axioms Verif.WinSync.win_mem_first_partial
#print axioms Verif.WinSync.win_mem_size_false
#print axioms Verif.WinSync.win_mem_shared_false
#print axioms Verif.WinSync.win_mem_nobody_first
#print axioms Verif.WinSync.win_mem_stale_size
#print axioms Verif.WinSync.win_mem_block_lost
#print axioms Verif.WinSync.win_shared_partial
#print axioms Verif.WinSync.win_sem_create
#print axioms Verif.WinSync.win_event_create
#print axioms Verif.WinSync.win_sem_create_ok
#print axioms Verif.WinSync.win_sem_create_zero
#print axioms Verif.WinSync.win_event_create_ok
#print axioms Verif.WinSync.win_shared_other_class
#print axioms Verif.WinSync.win_name_clash
#print axioms Verif.WinSync.win_sem_count
#print axioms Verif.WinSync.win_sem_lock
#print axioms Verif.WinSync.win_sem_unlock
#print axioms Verif.WinSync.win_event_state
#print axioms Verif.WinSync.win_event_wait
#print axioms Verif.WinSync.win_event_set
#print axioms Verif.WinSync.win_event_auto
#print axioms Verif.WinSync.win_event_manual
#print axioms Verif.WinSync.win_rw_idle_partial
#print axioms Verif.WinSync.win_rw_ready
#print axioms Verif.WinSync.win_rw_idle_false
#print axioms Verif.WinSync.win_rw_idle_unlock_false
#print axioms Verif.WinSync.win_rw_fresh
#print axioms Verif.WinSync.win_rw_failed_partial
#print axioms Verif.WinLink.win_readlink_first_partial
#print axioms Verif.WinLink.win_readlink_none
#print axioms Verif.WinLink.win_readlink_safe_partial
#print axioms Verif.WinLink.win_readlink_relative
#print axioms Verif.WinLink.win_readlink_absolute
#print axioms Verif.WinLink.win_readlink_overread
#print axioms Verif.WinLink.win_readlink_tight
#print axioms Verif.WinLink.win_symlink_partial
#print axioms Verif.WinLink.win_symlink_none
#print axioms Verif.WinLink.win_symlink_relative
#print axioms Verif.WinReal.win_realpath_partial
#print axioms Verif.WinReal.win_realpath_links_partial
#print axioms Verif.WinReal.win_realpath_relative_link
#print axioms Verif.WinReal.win_realpath_overrun
#print axioms Verif.WinReal.overrun_case
#print axioms Verif.WinReal.win_realpath_signed
#print axioms Verif.WinReal.win_realpath_too_long
#print axioms Verif.WinReal.win_realpath_link_too_long
#print axioms Verif.Tls.bucket_nodes_partial
#print axioms Verif.Tls.bucket_memory_partial
#print axioms Verif.Tls.bucket_size_short
#print axioms Verif.Tls.bucket_overflow
#print axioms Verif.Tls.bucket_refuses
#print axioms Verif.WinTiming.win_nowait
#print axioms Verif.WinTiming.win_infinite
#print axioms Verif.WinTiming.win_limit_partial
#print axioms Verif.WinTiming.win_patient_partial
#print axioms Verif.WinTiming.win_read_limit_exceeded
#print axioms Verif.WinTiming.win_write_limit_exceeded
#print axioms Verif.WinTiming.win_early
#print axioms Verif.WinTiming.win_clock_back
#print axioms Verif.WinTiming.win_micros
#print axioms Verif.WinCsprng.win_getBytes_partial
#print axioms Verif.WinCsprng.win_getBytes_short
#print axioms Verif.WinCsprng.win_getBytes_spec_fails
#print axioms Verif.WinCsprng.win_getInt_partial
#print axioms Verif.WinCsprng.win_getInt_fails
#print axioms Verif.SharedLife.lib_life
#print axioms Verif.SharedLife.lib_life_end
#print axioms Verif.SharedLife.lib_stays
#print axioms Verif.SharedLife.lib_outlived
#print axioms Verif.Utf8.search_never_returns
#print axioms Verif.Utf8.find_is_partial
#print axioms Verif.Utf8.find_ascii_partial
#print axioms Verif.Utf8.find_never_wide
#print axioms Verif.Utf8.find_position
#print axioms Verif.Utf8.next_ascii_partial
#print axioms Verif.Utf8.next_ascii_spec_partial
#print axioms Verif.Utf8.next_ascii_combining
#print axioms Verif.FastFind.edit_is_partial
#print axioms Verif.FastFind.edit_all_partial
#print axioms Verif.FastFind.leaving_repeats
#print axioms Verif.FastFind.edited_unique
#print axioms Verif.FastFind.blocks_partial
#print axioms Verif.FastFind.new_data_leaks
#print axioms Verif.PackedHash.packed_life_partial
#print axioms Verif.PackedHash.growth_leaks
#print axioms Verif.Tls.threads_partial
#print axioms Verif.Tls.threads_end
#print axioms Verif.Tls.freed_elsewhere
#print axioms Verif.Csprng.csprng_reads
#print axioms Verif.Csprng.csprng_descriptors
#print axioms Verif.Csprng.csprng_closed
#print axioms Verif.Csprng.csprng_can
#print axioms Verif.Guard.guards_balanced
#print axioms Verif.Guard.leave_unlocks
#print axioms Verif.Guard.goes_on
#print axioms Verif.Guard.guarded_mutex
#print axioms Verif.Guard.guarded_defined
#print axioms Verif.Guard.guarded_exclusion
#print axioms Verif.Sem.gives_up_partial
#print axioms Verif.Sem.try_fails_with_units
#print axioms Verif.Event.gives_up_partial
#print axioms Verif.Event.try_fails_signalled
#print axioms Verif.PackedHash.cursor_refines
#print axioms Verif.PackedHash.visits_all
#print axioms Verif.PackedHash.prune_loop
#print axioms Verif.PackedHash.iteration_skips
#print axioms Verif.PackedHash.auto_resize_rules_partial
#print axioms Verif.PackedHash.auto_never_shrinks
#print axioms Verif.PackedHash.shrink_rule_broken
#print axioms Verif.PackedHash.table_size_bound
#print axioms Verif.PackedHash.should_optimize
#print axioms Verif.PackedHash.should_optimize_not_75
#print axioms Verif.OrderedHash.load_factor
#print axioms Verif.OrderedHash.table_not_larger
#print axioms Verif.OrderedHash.shrunk_table_lags
#print axioms Verif.OrderedHash.KeyMem.key_memory
#print axioms Verif.OrderedHash.KeyMem.protocol_needed
#print axioms Verif.OrderedHash.KeyMem.documented_use_leaks
#print axioms Verif.OrderedHash.KeyMem.destructor_deletes
#print axioms Verif.OrderedHash.nodes_move_between_hashes
#print axioms Verif.OrderedHash.node_moves
#print axioms Verif.OrderedHash.moved_node_lost
#print axioms Verif.OrderedHash.refused_node_lost
#print axioms Verif.Tls.Scope.auto_free
#print axioms Verif.Tls.Scope.guard_after_thread_end_leaks
#print axioms Verif.Tls.Scope.realloc_under_guard
#print axioms Verif.DList.cursor
#print axioms Verif.DList.sweep_visits
#print axioms Verif.DList.sweep_removes
#print axioms Verif.DList.sweep_moves
#print axioms Verif.DList.late_next_undefined
#print axioms Verif.OrderedHash.hash_cursor
#print axioms Verif.OrderedHash.hash_sweep_visits
#print axioms Verif.OrderedHash.hash_sweep_removes
#print axioms Verif.OrderedHash.hash_late_next_undefined
#print axioms Verif.Race.sem_race_free
#print axioms Verif.Race.event_race_free
#print axioms Verif.Race.mutex_race_free_partial
#print axioms Verif.Race.rwlock_race_free
#print axioms Verif.Race.winmutex_race_free
#print axioms Verif.Race.sem_writes
#print axioms Verif.Race.sem_reads
#print axioms Verif.Race.event_writes
#print axioms Verif.Race.event_reads
#print axioms Verif.Race.mutex_writes
#print axioms Verif.Race.mutex_reads
#print axioms Verif.Race.winmutex_writes
#print axioms Verif.Race.winmutex_reads
#print axioms Verif.Race.rwlock_writes
#print axioms Verif.Race.rwlock_reads
#print axioms Verif.Race.unchecked_lock_races
#print axioms Verif.Race.unchecked_lock_undefined
#print axioms Verif.RwLock.Full.writer_first_partial
#print axioms Verif.RwLock.Full.late_reader_waits_partial
#print axioms Verif.RwLock.Full.reader_gets_ahead
#print axioms Verif.RwLock.Full.round_turn
#print axioms Verif.Progress.sem_work
#print axioms Verif.Progress.event_work
#print axioms Verif.Progress.mutex_work
#print axioms Verif.Progress.rwlock_work
#print axioms Verif.Progress.sem_goes_partial
#print axioms Verif.Progress.event_goes
#print axioms Verif.Progress.mutex_goes_partial
#print axioms Verif.Progress.rwlock_goes_partial
#print axioms Verif.Progress.clock_failure_deadlocks
#print axioms Verif.Client.posix_no_lost_update
#print axioms Verif.Client.win_no_lost_update
#print axioms Verif.Client.posix_one_inside
#print axioms Verif.Client.win_one_inside
#print axioms Verif.Client.Rw.posix_reads_whole
#print axioms Verif.Client.Rw.win_reads_whole
#print axioms Verif.Client.Sem.pool_bound
#print axioms Verif.Client.Win.win_pool_bound
#print axioms Verif.Client.Sem.ring_in_order
#print axioms Verif.Client.Sem.ring_turns
#print axioms Verif.Client.Event.mailbox_in_order
#print axioms Verif.Client.Event.mailbox_turns
#print axioms Verif.Client.Win.win_mailbox_in_order
#print axioms Verif.Client.Win.win_mailbox_turns
#print axioms Verif.Client.Event.published
#print axioms Verif.Client.Win.win_published
#print axioms Verif.Crash.sem_crash_linearizable
#print axioms Verif.Crash.ev_crash_linearizable
#print axioms Verif.Crash.sem_lives_partial
#print axioms Verif.Crash.ev_lives_partial
#print axioms Verif.Crash.sem_killed_inside
#print axioms Verif.Crash.ev_killed_inside
#print axioms Verif.Crash.ev_killed_asleep
#print axioms Verif.Crash.mutex_crash_linearizable_partial
#print axioms Verif.Crash.rw_crash_linearizable_partial
#print axioms Verif.Crash.mutex_lives_partial
#print axioms Verif.Crash.rw_lives_partial
#print axioms Verif.Crash.mutex_killed_holder
#print axioms Verif.Crash.rw_killed_writer
#print axioms Verif.Crash.rw_killed_reader
#print axioms Verif.Crash.rw_killed_midway
#print axioms Verif.Crash.win_sem_crash_linearizable
#print axioms Verif.Crash.win_ev_crash_linearizable
#print axioms Verif.Crash.win_sem_lives
#print axioms Verif.Crash.win_ev_lives
#print axioms Verif.Crash.win_rw_crash_linearizable
#print axioms Verif.Crash.win_rw_lives_partial
#print axioms Verif.Crash.win_rw_killed_writer
#print axioms Verif.Crash.win_rw_killed_reader
#print axioms Verif.Crash.win_rw_killed_midway
#print axioms Verif.Crash.win_rw_killed_leaving
#print axioms Verif.AppInfo.Mac.mac_exe_name_partial
#print axioms Verif.AppInfo.Mac.mac_exe_path_partial
#print axioms Verif.AppInfo.Mac.mac_empty_buffer
#print axioms Verif.AppInfo.Mac.mac_small_buffer
#print axioms Verif.AppInfo.Mac.mac_link_unterminated
#print axioms Verif.Timing.Mac.mac_deadline_partial
#print axioms Verif.Timing.Mac.mac_clock_port_partial
#print axioms Verif.Timing.Mac.mac_clock_wraps
#print axioms Verif.Timing.Mac.mac_clock_port_kept
#print axioms Verif.Timing.Mac.mac_host_port_kept
#print axioms Verif.WinLink.Priv.privilege_keeps
#print axioms Verif.WinLink.Priv.privilege_true
#print axioms Verif.WinLink.Priv.privilege_set_partial
#print axioms Verif.WinLink.Priv.symlink_keeps
#print axioms Verif.WinLink.Priv.symlink_held
#print axioms Verif.WinLink.Priv.symlink_unheld
#print axioms Verif.WinLink.Priv.symlink_leaves_on
#print axioms Verif.WinLink.Priv.symlink_library_kept
#print axioms Verif.WinLink.Priv.privilege_wrong_token
#print axioms Verif.Client.Join.join_all
#print axioms Verif.Client.Join.join_reads
#print axioms Verif.Client.Join.win_join_all
#print axioms Verif.Client.Join.win_join_reads
#print axioms Verif.Client.Join.win_join_through
#print axioms Verif.Client.Join.join_through_partial
#print axioms Verif.Client.Join.join_lost
#print axioms Verif.Client.Join.join_created_lost
#print axioms Verif.Client.Order.ordered_locks_go_partial
#print axioms Verif.Client.Order.unordered_deadlock
#print axioms Verif.Client.Order.win_ordered_locks_go_partial
#print axioms Verif.Client.Order.win_unordered_deadlock
#print axioms Verif.Client.Order.mixed_order_go_partial
#print axioms Verif.Client.Order.reread_deadlock
#print axioms Verif.Client.Nest.nested_program_goes_partial
#print axioms Verif.Client.Nest.opposite_stuck
#print axioms Verif.Client.Nest.win_nested_program_goes_partial
#print axioms Verif.Client.Nest.win_opposite_stuck
#print axioms Verif.Client.Nest.win_nested_program_ends_partial
#print axioms Verif.Client.Nest.win_nested_program_finishes_partial
