import Verif.Base
import Verif.Dma.Props1
import Verif.Dma.Props2
import Verif.Dma.Props3
import Verif.Dma.Props4
import Verif.Dma.Props5
import Verif.Dma.Props6
import Verif.Dma.Conc
import Verif.Dma.HeapProps
import Verif.Dma.Slots
import Verif.Dma.Nested
import Verif.Mig.Props
import Verif.Irq.Props
import Verif.Irq.Recount
import Verif.Region.Props
import Verif.Pci.Props
import Verif.Pci.Refusal
import Verif.Wire.Props
import Verif.Server.Props
import Verif.Setup.Examples
import Verif.Setup.Estate
import Verif.Setup.Order
import Verif.Setup.Retry
import Verif.Setup.Late

/-! The axioms of every theorem named in `MANIFEST.json`; printed when the project is built. -/

#print axioms Verif.Dma.C01_limits
#print axioms Verif.Dma.C01_disjoint
#print axioms Verif.Dma.C01_disjoint_violated
#print axioms Verif.Dma.C02_refinement
#print axioms Verif.Dma.C02_unmap_iff
#print axioms Verif.Dma.C03_map_decision
#print axioms Verif.Dma.C04_tiling
#print axioms Verif.Dma.C04_bytes
#print axioms Verif.Dma.C04_violated
#print axioms Verif.Dma.C05_read
#print axioms Verif.Dma.C05_errors
#print axioms Verif.Dma.C05_count
#print axioms Verif.Dma.C06_hint_independent
#print axioms Verif.Dma.C06_hint_in_range
#print axioms Verif.Dma.C06_violated
#print axioms Verif.Dma.C07_window
#print axioms Verif.Dma.C07_violated
#print axioms Verif.Dma.C08_conservation
#print axioms Verif.Dma.C08_double_close
#print axioms Verif.Dma.C08_leak
#print axioms Verif.Dma.C09_announcements
#print axioms Verif.Server.C09_server
#print axioms Verif.Dma.C10_stable
#print axioms Verif.Dma.C10_violated
#print axioms Verif.Dma.C11_mark
#print axioms Verif.Dma.C11_off
#print axioms Verif.Dma.C11_violated
#print axioms Verif.Dma.C11_abort
#print axioms Verif.Dma.C12_query
#print axioms Verif.Dma.C12_fresh
#print axioms Verif.Dma.Conc.C13_no_loss
#print axioms Verif.Dma.Conc.C13_no_invention
#print axioms Verif.Dma.Conc.C13_inbounds
#print axioms Verif.Dma.C14_extend
#print axioms Verif.Dma.C14_exact
#print axioms Verif.Dma.C14_diverges
#print axioms Verif.Dma.C14_overflow
#print axioms Verif.Dma.C15_combine
#print axioms Verif.Dma.C15_lost
#print axioms Verif.Dma.C15_violated
#print axioms Verif.Dma.C16_start
#print axioms Verif.Dma.C16_start_iff
#print axioms Verif.Dma.C16_restart
#print axioms Verif.Dma.C16_stop
#print axioms Verif.Dma.C16_map
#print axioms Verif.Dma.C17_least
#print axioms Verif.Dma.C17_refused
#print axioms Verif.Dma.C18_only
#print axioms Verif.Dma.C18_if
#print axioms Verif.Dma.C18_refused
#print axioms Verif.Dma.C18_unanswered
#print axioms Verif.Dma.C18_several
#print axioms Verif.Dma.C18_wrap
#print axioms Verif.Dma.C19_sat32
#print axioms Verif.Dma.C19_sat64
#print axioms Verif.Mig.C20_arcs
#print axioms Verif.Mig.C21_shortest
#print axioms Verif.Mig.C21_accepted
#print axioms Verif.Mig.C21_terminates
#print axioms Verif.Mig.C22_last_acknowledged
#print axioms Verif.Mig.C22_refused
#print axioms Verif.Mig.C22_violated
#print axioms Verif.Mig.C23_read_call
#print axioms Verif.Mig.C23_read_refused
#print axioms Verif.Mig.C23_read_reply
#print axioms Verif.Mig.C23_write_call
#print axioms Verif.Mig.C23_write_refused
#print axioms Verif.Server.C24_refused
#print axioms Verif.Server.C24_never
#print axioms Verif.Server.C24_executed
#print axioms Verif.Mig.C25_get
#print axioms Verif.Mig.C25_roundtrip
#print axioms Verif.Mig.C25_reset
#print axioms Verif.Mig.C25_only_set
#print axioms Verif.Mig.C25_probe
#print axioms Verif.Irq.C26_refused
#print axioms Verif.Irq.C26_within
#print axioms Verif.Irq.C26_violated
#print axioms Verif.Irq.C27_bind
#print axioms Verif.Irq.C28_all
#print axioms Verif.Irq.C28_range
#print axioms Verif.Irq.C28_exact
#print axioms Verif.Irq.C28_violated
#print axioms Verif.Irq.C29_trigger
#print axioms Verif.Irq.C29_last_bound
#print axioms Verif.Irq.C29_never_bound
#print axioms Verif.Irq.C30_loopback
#print axioms Verif.Irq.C31_conserved
#print axioms Verif.Irq.C31_once
#print axioms Verif.Irq.C31_reset
#print axioms Verif.Region.C32_refused
#print axioms Verif.Region.C32_accepted
#print axioms Verif.Region.C32_flags_ignored
#print axioms Verif.Region.C33_reply
#print axioms Verif.Region.C33_empty
#print axioms Verif.Region.C34_info
#print axioms Verif.Region.C34_refused
#print axioms Verif.Region.C35_complete
#print axioms Verif.Region.C35_no_room
#print axioms Verif.Region.C35_refused
#print axioms Verif.Region.C35_register
#print axioms Verif.Region.C35_wrap
#print axioms Verif.Region.C36_decision
#print axioms Verif.Region.C36_stored
#print axioms Verif.Region.C36_table
#print axioms Verif.Region.C36_wrap
#print axioms Verif.Region.C36_truncated
#print axioms Verif.Region.C36_stale
#print axioms Verif.Pci.C37_tiling
#print axioms Verif.Pci.C37_owners
#print axioms Verif.Pci.C37_overrun
#print axioms Verif.Pci.C37_first_match
#print axioms Verif.Pci.C38_read
#print axioms Verif.Pci.C39_lists
#print axioms Verif.Pci.C39_appends
#print axioms Verif.Pci.C39_refused
#print axioms Verif.Pci.C39_client
#print axioms Verif.Pci.C39_violated
#print axioms Verif.Pci.C40_disjoint
#print axioms Verif.Pci.C40_explicit
#print axioms Verif.Pci.C40_auto
#print axioms Verif.Pci.C40_explicit_only
#print axioms Verif.Pci.C40_content
#print axioms Verif.Pci.C40_version
#print axioms Verif.Pci.C40_total
#print axioms Verif.Pci.C40_violated
#print axioms Verif.Pci.C40_aborts
#print axioms Verif.Pci.C41_contained
#print axioms Verif.Pci.C41_overrun
#print axioms Verif.Pci.C41_bypass
#print axioms Verif.Pci.C41_touching
#print axioms Verif.Pci.C42_sizing
#print axioms Verif.Pci.C42_program
#print axioms Verif.Pci.C42_restore
#print axioms Verif.Pci.C42_upper
#print axioms Verif.Pci.C42_sticky
#print axioms Verif.Pci.C43_command
#print axioms Verif.Pci.C43_violated
#print axioms Verif.Pci.C44_bits
#print axioms Verif.Pci.C44_msi_vectors
#print axioms Verif.Pci.C44_violated
#print axioms Verif.Pci.C45_frame
#print axioms Verif.Pci.C45_segments
#print axioms Verif.Pci.C45_contained
#print axioms Verif.Pci.C45_violated
#print axioms Verif.Pci.C46_immutable
#print axioms Verif.Pci.C46_refused
#print axioms Verif.Pci.C46_ignored
#print axioms Verif.Pci.C46_stored
#print axioms Verif.Pci.C46_rom
#print axioms Verif.Server.C47_executed
#print axioms Verif.Server.C47_refused
#print axioms Verif.Wire.C47_read
#print axioms Verif.Wire.C47_refuses
#print axioms Verif.Wire.C48_frames
#print axioms Verif.Wire.C48_violated
#print axioms Verif.Wire.C48_short
#print axioms Verif.Server.C49_answer
#print axioms Verif.Wire.C49_reply
#print axioms Verif.Server.C49_error_body_violated
#print axioms Verif.Server.C49_error_body_violated'
#print axioms Verif.Server.C49_error_zero_violated
#print axioms Verif.Wire.C49_wraps
#print axioms Verif.Server.C49_huge
#print axioms Verif.Wire.C50_negotiate
#print axioms Verif.Wire.C50_received
#print axioms Verif.Wire.C50_delivered
#print axioms Verif.Wire.C50_in_range
#print axioms Verif.Wire.C50_violated
#print axioms Verif.Server.C51_descriptors
#print axioms Verif.Server.C51_negotiated_violated
#print axioms Verif.Wire.C52_read
#print axioms Verif.Wire.C52_write
#print axioms Verif.Wire.C52_tiles
#print axioms Verif.Wire.C52_read_checked
#print axioms Verif.Wire.C52_write_checked
#print axioms Verif.Wire.C52_read_refused
#print axioms Verif.Wire.C52_write_refused
#print axioms Verif.Wire.C52_read_violated
#print axioms Verif.Wire.C52_write_uninit
#print axioms Verif.Wire.C53_ends
#print axioms Verif.Wire.C53_violated
#print axioms Verif.Server.C54_at_most_one
#print axioms Verif.Server.C54_exactly_one
#print axioms Verif.Server.C54_dropped
#print axioms Verif.Server.C54_no_memory
#print axioms Verif.Server.C55_busy
#print axioms Verif.Server.C55_frozen
#print axioms Verif.Server.C55_defer
#print axioms Verif.Server.C56_quiesced
#print axioms Verif.Server.C56_over
#print axioms Verif.Server.C57_lost
#print axioms Verif.Server.C57_reply_lost
#print axioms Verif.Server.C57_transfer_lost
#print axioms Verif.Server.C57_deferred
#print axioms Verif.Server.C57_completed
#print axioms Verif.Server.C57_quiesce_failed
#print axioms Verif.Server.C57_deferred_failed
#print axioms Verif.Server.C57_dirty_persists
#print axioms Verif.Server.C57_stays_stopped
#print axioms Verif.Server.C58_reset
#print axioms Verif.Server.C59_balance
#print axioms Verif.Server.C59_exactly_once
#print axioms Verif.Server.C59_lost
#print axioms Verif.Server.C59_double_close
#print axioms Verif.Server.C59_leak
#print axioms Verif.Server.C60_bookkeeping
#print axioms Verif.Server.C61_no_crash
#print axioms Verif.Server.C61_run
#print axioms Verif.Server.careful_body
#print axioms Verif.Server.C61_short_unmap
#print axioms Verif.Server.C61_short_feature
#print axioms Verif.Server.C61_state
#print axioms Verif.Server.C61_no_controller
#print axioms Verif.Server.C61_short_register
#print axioms Verif.Server.C61_wrapping_query
#print axioms Verif.Server.C61_finer_query
#print axioms Verif.Server.C61_mark_without_fd
#print axioms Verif.Server.C61_transfer_pending
#print axioms Verif.Irq.C63_mask
#print axioms Verif.Irq.C63_violated
#print axioms Verif.Irq.C64_info
#print axioms Verif.Region.C65_reported_enforced
#print axioms Verif.Region.C65_device_info
#print axioms Verif.Pci.C66_flr
#print axioms Verif.Pci.C66_result
#print axioms Verif.Pci.C67_first
#print axioms Verif.Pci.C67_next
#print axioms Verif.Pci.C67_ext_first
#print axioms Verif.Pci.C67_ext_next
#print axioms Verif.Pci.C67_violated
#print axioms Verif.Pci.C67_small
#print axioms Verif.Server.C68_destroy
#print axioms Verif.Server.C68_descriptors
#print axioms Verif.Server.C68_pending_leak
#print axioms Verif.Setup.C69_setup
#print axioms Verif.Setup.C69_refused
#print axioms Verif.Setup.C69_no_space
#print axioms Verif.Setup.C69_past_end
#print axioms Verif.Setup.C69_tiny_space
#print axioms Verif.Setup.C69_oversized
#print axioms Verif.Setup.C69_migration_lost
#print axioms Verif.Setup.C69_shrunk
#print axioms Verif.Setup.C70_advertised
#print axioms Verif.Server.C71_ledger
#print axioms Verif.Server.C71_silent_unmap
#print axioms Verif.Server.C72_unmap
#print axioms Verif.Server.C72_unmap_dirty
#print axioms Verif.Server.C72_map
#print axioms Verif.Server.C73_refused
#print axioms Verif.Server.C73_empty
#print axioms Verif.Server.C73_callback
#print axioms Verif.Server.C73_nobody
#print axioms Verif.Server.C73_config
#print axioms Verif.Server.C74_constant
#print axioms Verif.Server.C74_device
#print axioms Verif.Server.C74_region
#print axioms Verif.Server.C74_io_fds
#print axioms Verif.Server.C74_irq
#print axioms Verif.Server.C75_account
#print axioms Verif.Server.C75_set
#print axioms Verif.Server.C75_get
#print axioms Verif.Server.C75_stale
#print axioms Verif.Server.C76_limits
#print axioms Verif.Server.C76_read
#print axioms Verif.Server.C76_read_refused
#print axioms Verif.Server.C76_write
#print axioms Verif.Server.C76_write_refused
#print axioms Verif.Server.C77_quiesced
#print axioms Verif.Server.C77_served
#print axioms Verif.Server.C77_violated
#print axioms Verif.Server.C78_account
#print axioms Verif.Server.C78_refused
#print axioms Verif.Server.C78_bind
#print axioms Verif.Server.C78_unbind
#print axioms Verif.Server.C78_loopback
#print axioms Verif.Server.C78_mask
#print axioms Verif.Server.C78_violated
#print axioms Verif.Setup.C79_config
#print axioms Verif.Setup.C79_ids
#print axioms Verif.Setup.C79_bars
#print axioms Verif.Setup.C79_irqs
#print axioms Verif.Setup.C79_regions
#print axioms Verif.Setup.C79_accepted
#print axioms Verif.Setup.C79_stale
#print axioms Verif.Server.C80_written
#print axioms Verif.Server.C80_account
#print axioms Verif.Server.C80_report
#print axioms Verif.Server.C80_answered
#print axioms Verif.Server.C80_unmap
#print axioms Verif.Server.C80_short_report
#print axioms Verif.Server.C80_short_unmap
#print axioms Verif.Wire.Pipe.C81_same
#print axioms Verif.Wire.Pipe.C81_frames
#print axioms Verif.Wire.Pipe.C81_version
#print axioms Verif.Wire.Pipe.C81_pieces
#print axioms Verif.Wire.Pipe.C82_reply
#print axioms Verif.Wire.Pipe.C82_short
#print axioms Verif.Wire.Pipe.C82_refused
#print axioms Verif.Wire.Pipe.C82_error
#print axioms Verif.Wire.Pipe.C82_command
#print axioms Verif.Wire.Life.C83_init
#print axioms Verif.Wire.Life.C83_attach
#print axioms Verif.Wire.Life.C83_detach
#print axioms Verif.Wire.Life.C83_destroy
#print axioms Verif.Wire.Life.C83_owned
#print axioms Verif.Wire.Life.C83_poll
#print axioms Verif.Wire.Life.C83_life
#print axioms Verif.Server.C84_defer
#print axioms Verif.Server.C84_twice
#print axioms Verif.Server.C85_history
#print axioms Verif.Server.C85_session
#print axioms Verif.Server.C85_served
#print axioms Verif.Server.C85_poll
#print axioms Verif.Server.C85_blocking
#print axioms Verif.Server.C85_alike
#print axioms Verif.Server.C85_pieces
#print axioms Verif.Server.Memory.C86_read
#print axioms Verif.Server.Memory.C86_write
#print axioms Verif.Server.Memory.C86_unique
#print axioms Verif.Server.Memory.C86_refused
#print axioms Verif.Server.C87_identity
#print axioms Verif.Server.C87_capabilities
#print axioms Verif.Server.C87_read
#print axioms Verif.Server.C87_violated
#print axioms Verif.Server.C88_discreet
#print axioms Verif.Server.C88_confined
#print axioms Verif.Server.C88_empty
#print axioms Verif.Server.C88_mixed
#print axioms Verif.Server.C89_isolated
#print axioms Verif.Server.C89_fresh
#print axioms Verif.Server.C89_logging
#print axioms Verif.Server.C89_refused
#print axioms Verif.Server.C90_holds
#print axioms Verif.Server.C90_bar
#print axioms Verif.Server.C90_rom
#print axioms Verif.Server.C91_probe
#print axioms Verif.Server.C91_refused
#print axioms Verif.Server.C91_migration
#print axioms Verif.Server.C91_violated
#print axioms Verif.Server.C92_cause
#print axioms Verif.Server.C93_streams
#print axioms Verif.Server.C93_carried
#print axioms Verif.Server.C93_unheard
#print axioms Verif.Server.C93_short
#print axioms Verif.Dma.C94_sound
#print axioms Verif.Dma.C94_account
#print axioms Verif.Dma.C94_no_leak
#print axioms Verif.Dma.C94_leak
#print axioms Verif.Server.C95_short
#print axioms Verif.Server.C95_waiting
#print axioms Verif.Server.C95_undone
#print axioms Verif.Server.C95_forgotten
#print axioms Verif.Server.C95_silent
#print axioms Verif.Blocks.C96_lifetimes
#print axioms Verif.Blocks.C96_account
#print axioms Verif.Blocks.C96_balance
#print axioms Verif.Blocks.C96_destroyed
#print axioms Verif.Blocks.C96_lost
#print axioms Verif.Blocks.C96_assert
#print axioms Verif.Wire.C97_document
#print axioms Verif.Wire.C97_read
#print axioms Verif.Wire.C97_greeting
#print axioms Verif.Wire.C97_memory
#print axioms Verif.Wire.C97_short
#print axioms Verif.Wire.C97_regardless
#print axioms Verif.Wire.C97_null
#print axioms Verif.Wire.C97_migration
#print axioms Verif.Dma.C98_array
#print axioms Verif.Dma.C98_inside
#print axioms Verif.Dma.C98_fresh
#print axioms Verif.Dma.C98_stable
#print axioms Verif.Dma.C98_stale
#print axioms Verif.Estate.C99_lifetimes
#print axioms Verif.Estate.C99_account
#print axioms Verif.Estate.C99_destroyed
#print axioms Verif.Estate.C99_failed
#print axioms Verif.Estate.C99_clean
#print axioms Verif.Estate.C99_crash
#print axioms Verif.Estate.C99_lost
#print axioms Verif.Server.C100_conversation
#print axioms Verif.Server.C100_farewell
#print axioms Verif.Server.C100_refused
#print axioms Verif.Server.C100_turns
#print axioms Verif.Server.C100_anew
#print axioms Verif.Server.C101_behind
#print axioms Verif.Server.C101_moved
#print axioms Verif.Server.C101_finish
#print axioms Verif.Server.C101_early
#print axioms Verif.Server.C102_history
#print axioms Verif.Server.C102_reachable
#print axioms Verif.Server.C102_reply
#print axioms Verif.Server.C102_again
#print axioms Verif.Server.C102_once
#print axioms Verif.Server.C102_pending
#print axioms Verif.Server.C102_inherited
#print axioms Verif.Wire.C103_apart
#print axioms Verif.Wire.C103_turns
#print axioms Verif.Wire.C103_header
#print axioms Verif.Wire.C103_clash
#print axioms Verif.Wire.C103_reset
#print axioms Verif.Setup.C104_order
#print axioms Verif.Setup.C104_after
#print axioms Verif.Setup.C104_swap
#print axioms Verif.Setup.C104_documented
#print axioms Verif.Setup.C104_config
#print axioms Verif.Irq.C105_safe
#print axioms Verif.Irq.C105_overrun
#print axioms Verif.Irq.C105_stranded
#print axioms Verif.Irq.C105_unclosed
#print axioms Verif.Server.C106_guard
#print axioms Verif.Server.C106_outside
#print axioms Verif.Server.C106_stopped
#print axioms Verif.Server.C107_open
#print axioms Verif.Server.C107_changes
#print axioms Verif.Server.C107_told
#print axioms Verif.Server.C107_blocking
#print axioms Verif.Server.C107_unnoticed
#print axioms Verif.Server.C108_before
#print axioms Verif.Server.C108_uncalled
#print axioms Verif.Server.C108_refused
#print axioms Verif.Server.C108_lost
#print axioms Verif.Server.C108_deferred
#print axioms Verif.Server.C108_hasty
#print axioms Verif.Server.C108_unquiesced
#print axioms Verif.Dma.C108_still
#print axioms Verif.Dma.C108_unregister
#print axioms Verif.Server.C109_room
#print axioms Verif.Server.C109_client
#print axioms Verif.Server.C109_trailing
#print axioms Verif.Server.C109_negotiated
#print axioms Verif.Server.C110_kept
#print axioms Verif.Server.C110_account
#print axioms Verif.Server.C110_hoard_violated
#print axioms Verif.Server.C111_id
#print axioms Verif.Server.C111_reply
#print axioms Verif.Server.C111_lossy_violated
#print axioms Verif.Server.C112_only
#print axioms Verif.Server.C112_order
#print axioms Verif.Server.C112_swap
#print axioms Verif.Server.C112_info
#print axioms Verif.Server.Demo.C112_limits_violated
#print axioms Verif.Server.C113_refused
#print axioms Verif.Server.C113_clean
#print axioms Verif.Server.C113_request
#print axioms Verif.Server.C113_unannounced
#print axioms Verif.Server.C113_traces_violated
#print axioms Verif.Server.C114_again
#print axioms Verif.Server.C114_same
#print axioms Verif.Server.C114_request
#print axioms Verif.Server.not_silent
#print axioms Verif.Server.C115_call
#print axioms Verif.Server.C115_history
#print axioms Verif.Server.bill_call
#print axioms Verif.Setup.C116_left
#print axioms Verif.Setup.C116_retry
#print axioms Verif.Setup.C116_left_out
#print axioms Verif.Setup.C116_ioeventfds_lost
#print axioms Verif.Setup.C116_dma_lost
#print axioms Verif.Server.C117_apart
#print axioms Verif.Server.C117_alone
#print axioms Verif.Server.C117_call
#print axioms Verif.Server.C117_translate
#print axioms Verif.Server.C117_hint_decides
#print axioms Verif.Server.C117_shared_fate
#print axioms Verif.Wire.Path.C118_reach
#print axioms Verif.Wire.Path.C118_create
#print axioms Verif.Wire.Path.C118_destroy
#print axioms Verif.Wire.Path.C118_rest
#print axioms Verif.Wire.Path.C118_killed
#print axioms Verif.Wire.Path.C118_stolen
#print axioms Verif.Server.C119_granted
#print axioms Verif.Server.C119_not_granted
#print axioms Verif.Server.C120_suits
#print axioms Verif.Server.C120_copied
#print axioms Verif.Server.C120_farewell
#print axioms Verif.Server.C121_account
#print axioms Verif.Server.C121_agree
#print axioms Verif.Server.C121_flr
#print axioms Verif.Server.C121_unheard
#print axioms Verif.Setup.C122_late
#print axioms Verif.Setup.C122_unseen
#print axioms Verif.Setup.C122_stale
#print axioms Verif.Pci.C123_capability
#print axioms Verif.Pci.C123_header
#print axioms Verif.Pci.C123_happens
#print axioms Verif.Wire.Pipe.C124_read
#print axioms Verif.Wire.Pipe.C124_write
#print axioms Verif.Wire.Pipe.C124_served
#print axioms Verif.Wire.Pipe.C124_strict
#print axioms Verif.Wire.Pipe.C124_pieces
#print axioms Verif.Wire.Pipe.C124_rest
#print axioms Verif.Wire.Pipe.C124_injected
#print axioms Verif.Wire.Pipe.C125_tries
#print axioms Verif.Wire.Pipe.C125_again
#print axioms Verif.Wire.Pipe.C125_header
#print axioms Verif.Wire.Pipe.C125_pieces
#print axioms Verif.Wire.Pipe.C125_end
#print axioms Verif.Server.C126_held
#print axioms Verif.Server.C126_released
#print axioms Verif.Server.C126_signals
#print axioms Verif.Server.C127_never
#print axioms Verif.Server.C127_violated
