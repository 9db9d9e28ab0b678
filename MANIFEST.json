{
 "claims": [
  {
   "property": "C01",
   "status": "proved",
   "theorems": [
    "Verif.Dma.C01_limits",
    "Verif.Dma.C01_disjoint",
    "Verif.Dma.C01_disjoint_violated"
   ],
   "note": "limits for all histories; disjointness for histories of non-wrapping requests, otherwise violated (witness)"
  },
  {
   "property": "C02",
   "status": "proved",
   "theorems": [
    "Verif.Dma.C02_refinement",
    "Verif.Dma.C02_unmap_iff"
   ],
   "note": ""
  },
  {
   "property": "C03",
   "status": "proved",
   "theorems": [
    "Verif.Dma.C03_map_decision"
   ],
   "note": ""
  },
  {
   "property": "C04",
   "status": "proved",
   "theorems": [
    "Verif.Dma.C04_tiling",
    "Verif.Dma.C04_bytes",
    "Verif.Dma.C04_violated"
   ],
   "note": "for ranges that do not run past 2^64; for others a violation is exhibited"
  },
  {
   "property": "C05",
   "status": "proved",
   "theorems": [
    "Verif.Dma.C05_read",
    "Verif.Dma.C05_errors",
    "Verif.Dma.C05_count"
   ],
   "note": ""
  },
  {
   "property": "C06",
   "status": "proved",
   "theorems": [
    "Verif.Dma.C06_hint_independent",
    "Verif.Dma.C06_hint_in_range",
    "Verif.Dma.C06_violated"
   ],
   "note": "for ranges that do not run past 2^64; violated for others (witness)"
  },
  {
   "property": "C07",
   "status": "proved",
   "theorems": [
    "Verif.Dma.C07_window",
    "Verif.Dma.C07_violated"
   ],
   "note": "page-aligned file offsets; violated for unaligned ones (witness)"
  },
  {
   "property": "C08",
   "status": "proved",
   "theorems": [
    "Verif.Dma.C08_conservation",
    "Verif.Dma.C08_double_close",
    "Verif.Dma.C08_leak"
   ],
   "note": "for histories without the two exhibited defects"
  },
  {
   "property": "C09",
   "status": "proved",
   "theorems": [
    "Verif.Dma.C09_announcements",
    "Verif.Server.C09_server"
   ],
   "note": ""
  },
  {
   "property": "C10",
   "status": "proved",
   "theorems": [
    "Verif.Dma.C10_stable",
    "Verif.Dma.C10_violated"
   ],
   "note": "removal of an earlier slot shifts entries (witness)"
  },
  {
   "property": "C11",
   "status": "proved",
   "theorems": [
    "Verif.Dma.C11_mark",
    "Verif.Dma.C11_off",
    "Verif.Dma.C11_violated",
    "Verif.Dma.C11_abort"
   ],
   "note": "power-of-two page sizes and file-backed regions; witnesses for the others"
  },
  {
   "property": "C12",
   "status": "proved",
   "theorems": [
    "Verif.Dma.C12_query",
    "Verif.Dma.C12_fresh"
   ],
   "note": ""
  },
  {
   "property": "C13",
   "status": "proved",
   "theorems": [
    "Verif.Dma.Conc.C13_no_loss",
    "Verif.Dma.Conc.C13_no_invention",
    "Verif.Dma.Conc.C13_inbounds"
   ],
   "note": "byte accesses are sequentially consistent"
  },
  {
   "property": "C14",
   "status": "proved",
   "theorems": [
    "Verif.Dma.C14_extend",
    "Verif.Dma.C14_exact",
    "Verif.Dma.C14_diverges",
    "Verif.Dma.C14_overflow"
   ],
   "note": "exact condition for a correct answer; in all other cases the call faults"
  },
  {
   "property": "C15",
   "status": "proved",
   "theorems": [
    "Verif.Dma.C15_combine",
    "Verif.Dma.C15_lost",
    "Verif.Dma.C15_violated"
   ],
   "note": "reply bitmaps of at most 32 bytes; pages from 256 on are never reported"
  },
  {
   "property": "C16",
   "status": "proved",
   "theorems": [
    "Verif.Dma.C16_start",
    "Verif.Dma.C16_start_iff",
    "Verif.Dma.C16_restart",
    "Verif.Dma.C16_stop",
    "Verif.Dma.C16_map"
   ],
   "note": ""
  },
  {
   "property": "C17",
   "status": "proved",
   "theorems": [
    "Verif.Dma.C17_least",
    "Verif.Dma.C17_refused"
   ],
   "note": ""
  },
  {
   "property": "C18",
   "status": "proved",
   "theorems": [
    "Verif.Dma.C18_only",
    "Verif.Dma.C18_if",
    "Verif.Dma.C18_refused",
    "Verif.Dma.C18_unanswered",
    "Verif.Dma.C18_several",
    "Verif.Dma.C18_wrap"
   ],
   "note": "non-wrapping ranges; witnesses for wrapping ones and for several regions"
  },
  {
   "property": "C19",
   "status": "proved",
   "theorems": [
    "Verif.Dma.C19_sat32",
    "Verif.Dma.C19_sat64"
   ],
   "note": ""
  },
  {
   "property": "C20",
   "status": "proved",
   "theorems": [
    "Verif.Mig.C20_arcs"
   ],
   "note": ""
  },
  {
   "property": "C21",
   "status": "proved",
   "theorems": [
    "Verif.Mig.C21_shortest",
    "Verif.Mig.C21_accepted",
    "Verif.Mig.C21_terminates"
   ],
   "note": ""
  },
  {
   "property": "C22",
   "status": "proved",
   "theorems": [
    "Verif.Mig.C22_last_acknowledged",
    "Verif.Mig.C22_refused",
    "Verif.Mig.C22_violated"
   ],
   "note": "target value 8 reads past the table (witness)"
  },
  {
   "property": "C23",
   "status": "proved",
   "theorems": [
    "Verif.Mig.C23_read_call",
    "Verif.Mig.C23_read_refused",
    "Verif.Mig.C23_read_reply",
    "Verif.Mig.C23_write_call",
    "Verif.Mig.C23_write_refused"
   ],
   "note": ""
  },
  {
   "property": "C24",
   "status": "proved",
   "theorems": [
    "Verif.Server.C24_refused",
    "Verif.Server.C24_never",
    "Verif.Server.C24_executed"
   ],
   "note": "refusal for a socket that takes the reply; nothing is executed in any case"
  },
  {
   "property": "C25",
   "status": "proved",
   "theorems": [
    "Verif.Mig.C25_get",
    "Verif.Mig.C25_roundtrip",
    "Verif.Mig.C25_reset",
    "Verif.Mig.C25_only_set",
    "Verif.Mig.C25_probe"
   ],
   "note": ""
  },
  {
   "property": "C26",
   "status": "proved",
   "theorems": [
    "Verif.Irq.C26_refused",
    "Verif.Irq.C26_within",
    "Verif.Irq.C26_violated"
   ],
   "note": "fewer than 2^32-1 vectors per type, at most one ERR and REQ vector; witness for 2^32-1"
  },
  {
   "property": "C27",
   "status": "proved",
   "theorems": [
    "Verif.Irq.C27_bind"
   ],
   "note": ""
  },
  {
   "property": "C28",
   "status": "proved",
   "theorems": [
    "Verif.Irq.C28_all",
    "Verif.Irq.C28_range",
    "Verif.Irq.C28_exact",
    "Verif.Irq.C28_violated"
   ],
   "note": "ranges starting above 0 are cut short (exact behaviour and witness)"
  },
  {
   "property": "C29",
   "status": "proved",
   "theorems": [
    "Verif.Irq.C29_trigger",
    "Verif.Irq.C29_last_bound",
    "Verif.Irq.C29_never_bound"
   ],
   "note": ""
  },
  {
   "property": "C30",
   "status": "proved",
   "theorems": [
    "Verif.Irq.C30_loopback"
   ],
   "note": ""
  },
  {
   "property": "C31",
   "status": "proved",
   "theorems": [
    "Verif.Irq.C31_conserved",
    "Verif.Irq.C31_once",
    "Verif.Irq.C31_reset"
   ],
   "note": ""
  },
  {
   "property": "C32",
   "status": "proved",
   "theorems": [
    "Verif.Region.C32_refused",
    "Verif.Region.C32_accepted",
    "Verif.Region.C32_flags_ignored"
   ],
   "note": "READ/WRITE flags not enforced (witness)"
  },
  {
   "property": "C33",
   "status": "proved",
   "theorems": [
    "Verif.Region.C33_reply",
    "Verif.Region.C33_empty"
   ],
   "note": ""
  },
  {
   "property": "C34",
   "status": "proved",
   "theorems": [
    "Verif.Region.C34_info",
    "Verif.Region.C34_refused"
   ],
   "note": "fewer than 2^28 areas"
  },
  {
   "property": "C35",
   "status": "proved",
   "theorems": [
    "Verif.Region.C35_complete",
    "Verif.Region.C35_no_room",
    "Verif.Region.C35_refused",
    "Verif.Region.C35_register",
    "Verif.Region.C35_wrap"
   ],
   "note": "non-wrapping offsets; witness for wrapping ones"
  },
  {
   "property": "C36",
   "status": "proved",
   "theorems": [
    "Verif.Region.C36_decision",
    "Verif.Region.C36_stored",
    "Verif.Region.C36_table",
    "Verif.Region.C36_wrap",
    "Verif.Region.C36_truncated",
    "Verif.Region.C36_stale"
   ],
   "note": "non-wrapping areas and sizes below 4 GiB; witnesses for the others"
  },
  {
   "property": "C37",
   "status": "proved",
   "theorems": [
    "Verif.Pci.C37_tiling",
    "Verif.Pci.C37_owners",
    "Verif.Pci.C37_overrun",
    "Verif.Pci.C37_first_match"
   ],
   "note": "one owner per segment needs ordered capabilities (witnesses)"
  },
  {
   "property": "C38",
   "status": "proved",
   "theorems": [
    "Verif.Pci.C38_read"
   ],
   "note": ""
  },
  {
   "property": "C39",
   "status": "proved",
   "theorems": [
    "Verif.Pci.C39_lists",
    "Verif.Pci.C39_appends",
    "Verif.Pci.C39_refused",
    "Verif.Pci.C39_client",
    "Verif.Pci.C39_violated"
   ],
   "note": "standard capabilities inside the first 256 bytes; witness for others"
  },
  {
   "property": "C40",
   "status": "proved",
   "theorems": [
    "Verif.Pci.C40_disjoint",
    "Verif.Pci.C40_explicit",
    "Verif.Pci.C40_auto",
    "Verif.Pci.C40_explicit_only",
    "Verif.Pci.C40_content",
    "Verif.Pci.C40_version",
    "Verif.Pci.C40_total",
    "Verif.Pci.C40_violated",
    "Verif.Pci.C40_aborts"
   ],
   "note": "automatic placement needs ordered capabilities (witness)"
  },
  {
   "property": "C41",
   "status": "proved",
   "theorems": [
    "Verif.Pci.C41_contained",
    "Verif.Pci.C41_overrun",
    "Verif.Pci.C41_bypass",
    "Verif.Pci.C41_touching"
   ],
   "note": "writes inside one capability; witnesses for others"
  },
  {
   "property": "C42",
   "status": "proved",
   "theorems": [
    "Verif.Pci.C42_sizing",
    "Verif.Pci.C42_program",
    "Verif.Pci.C42_restore",
    "Verif.Pci.C42_upper",
    "Verif.Pci.C42_sticky"
   ],
   "note": ""
  },
  {
   "property": "C43",
   "status": "proved",
   "theorems": [
    "Verif.Pci.C43_command",
    "Verif.Pci.C43_violated"
   ],
   "note": "refused writes store the supported bits (witness)"
  },
  {
   "property": "C44",
   "status": "proved",
   "theorems": [
    "Verif.Pci.C44_bits",
    "Verif.Pci.C44_msi_vectors",
    "Verif.Pci.C44_violated"
   ],
   "note": "power management control treated as writable; refused MSI write stores the enable bit (witnesses)"
  },
  {
   "property": "C45",
   "status": "proved",
   "theorems": [
    "Verif.Pci.C45_frame",
    "Verif.Pci.C45_segments",
    "Verif.Pci.C45_contained",
    "Verif.Pci.C45_violated"
   ],
   "note": "writes of whole registers and inside capabilities; witnesses for others"
  },
  {
   "property": "C46",
   "status": "proved",
   "theorems": [
    "Verif.Pci.C46_immutable",
    "Verif.Pci.C46_refused",
    "Verif.Pci.C46_ignored",
    "Verif.Pci.C46_stored",
    "Verif.Pci.C46_rom"
   ],
   "note": ""
  },
  {
   "property": "C47",
   "status": "proved",
   "theorems": [
    "Verif.Server.C47_executed",
    "Verif.Server.C47_refused",
    "Verif.Wire.C47_read",
    "Verif.Wire.C47_refuses"
   ],
   "note": ""
  },
  {
   "property": "C48",
   "status": "proved",
   "theorems": [
    "Verif.Wire.C48_frames",
    "Verif.Wire.C48_violated",
    "Verif.Wire.C48_short"
   ],
   "note": "malformed headers and split payloads desynchronise (witnesses)"
  },
  {
   "property": "C49",
   "status": "proved",
   "theorems": [
    "Verif.Server.C49_answer",
    "Verif.Wire.C49_reply",
    "Verif.Server.C49_error_body_violated",
    "Verif.Server.C49_error_body_violated'",
    "Verif.Server.C49_error_zero_violated",
    "Verif.Wire.C49_wraps",
    "Verif.Server.C49_huge"
   ],
   "note": "bodies below 4 GiB, with what happens beyond; witnesses for bodies on error and errno 0"
  },
  {
   "property": "C50",
   "status": "proved",
   "theorems": [
    "Verif.Wire.C50_negotiate",
    "Verif.Wire.C50_received",
    "Verif.Wire.C50_delivered",
    "Verif.Wire.C50_in_range",
    "Verif.Wire.C50_violated"
   ],
   "note": "values outside 32 bits are reduced, max_data_xfer_size unchecked (witness)"
  },
  {
   "property": "C51",
   "status": "proved",
   "theorems": [
    "Verif.Server.C51_descriptors",
    "Verif.Server.C51_negotiated_violated"
   ],
   "note": "the negotiated maximum is ignored (witness)"
  },
  {
   "property": "C52",
   "status": "proved",
   "theorems": [
    "Verif.Wire.C52_read",
    "Verif.Wire.C52_write",
    "Verif.Wire.C52_tiles",
    "Verif.Wire.C52_read_checked",
    "Verif.Wire.C52_write_checked",
    "Verif.Wire.C52_read_refused",
    "Verif.Wire.C52_write_refused",
    "Verif.Wire.C52_read_violated",
    "Verif.Wire.C52_write_uninit"
   ],
   "note": "read chunks of at most 1 MiB; witnesses for larger ones and for a header-only reply"
  },
  {
   "property": "C53",
   "status": "proved",
   "theorems": [
    "Verif.Wire.C53_ends",
    "Verif.Wire.C53_violated"
   ],
   "note": "maximum of at least 1; witness for 0"
  },
  {
   "property": "C54",
   "status": "proved",
   "theorems": [
    "Verif.Server.C54_at_most_one",
    "Verif.Server.C54_exactly_one",
    "Verif.Server.C54_dropped",
    "Verif.Server.C54_no_memory"
   ],
   "note": "healthy socket, allocations and quiesces; witnesses for failed quiesce and allocation"
  },
  {
   "property": "C55",
   "status": "proved",
   "theorems": [
    "Verif.Server.C55_busy",
    "Verif.Server.C55_frozen",
    "Verif.Server.C55_defer"
   ],
   "note": ""
  },
  {
   "property": "C56",
   "status": "proved",
   "theorems": [
    "Verif.Server.C56_quiesced",
    "Verif.Server.C56_over"
   ],
   "note": "all callbacks but the reset of a function level reset (C77)"
  },
  {
   "property": "C57",
   "status": "proved",
   "theorems": [
    "Verif.Server.C57_lost",
    "Verif.Server.C57_reply_lost",
    "Verif.Server.C57_transfer_lost",
    "Verif.Server.C57_deferred",
    "Verif.Server.C57_completed",
    "Verif.Server.C57_quiesce_failed",
    "Verif.Server.C57_deferred_failed",
    "Verif.Server.C57_dirty_persists",
    "Verif.Server.C57_stays_stopped"
   ],
   "note": "witnesses for what persists"
  },
  {
   "property": "C58",
   "status": "proved",
   "theorems": [
    "Verif.Server.C58_reset"
   ],
   "note": ""
  },
  {
   "property": "C59",
   "status": "proved",
   "theorems": [
    "Verif.Server.C59_balance",
    "Verif.Server.C59_exactly_once",
    "Verif.Server.C59_lost",
    "Verif.Server.C59_double_close",
    "Verif.Server.C59_leak"
   ],
   "note": "mappings succeed and are new; witnesses otherwise"
  },
  {
   "property": "C60",
   "status": "proved",
   "theorems": [
    "Verif.Server.C60_bookkeeping"
   ],
   "note": "callbacks do not call back into the library"
  },
  {
   "property": "C61",
   "status": "proved",
   "theorems": [
    "Verif.Server.C61_no_crash",
    "Verif.Server.C61_run",
    "Verif.Server.careful_body",
    "Verif.Server.C61_short_unmap",
    "Verif.Server.C61_short_feature",
    "Verif.Server.C61_state",
    "Verif.Server.C61_no_controller",
    "Verif.Server.C61_short_register",
    "Verif.Server.C61_wrapping_query",
    "Verif.Server.C61_finer_query",
    "Verif.Server.C61_mark_without_fd",
    "Verif.Server.C61_transfer_pending"
   ],
   "note": "provisos as in the statement, a witness for each"
  },
  {
   "property": "C63",
   "status": "proved",
   "theorems": [
    "Verif.Irq.C63_mask",
    "Verif.Irq.C63_violated"
   ],
   "note": "booleans are ignored (witness)"
  },
  {
   "property": "C64",
   "status": "proved",
   "theorems": [
    "Verif.Irq.C64_info"
   ],
   "note": ""
  },
  {
   "property": "C65",
   "status": "proved",
   "theorems": [
    "Verif.Region.C65_reported_enforced",
    "Verif.Region.C65_device_info"
   ],
   "note": ""
  },
  {
   "property": "C66",
   "status": "proved",
   "theorems": [
    "Verif.Pci.C66_flr",
    "Verif.Pci.C66_result"
   ],
   "note": ""
  },
  {
   "property": "C67",
   "status": "proved",
   "theorems": [
    "Verif.Pci.C67_first",
    "Verif.Pci.C67_next",
    "Verif.Pci.C67_ext_first",
    "Verif.Pci.C67_ext_next",
    "Verif.Pci.C67_violated",
    "Verif.Pci.C67_small"
   ],
   "note": "not from the last extended capability (witness)"
  },
  {
   "property": "C68",
   "status": "proved",
   "theorems": [
    "Verif.Server.C68_destroy",
    "Verif.Server.C68_descriptors",
    "Verif.Server.C68_pending_leak"
   ],
   "note": "the descriptors of a deferred request are not closed (witness)"
  },
  {
   "property": "C69",
   "status": "proved",
   "theorems": [
    "Verif.Setup.C69_setup",
    "Verif.Setup.C69_refused",
    "Verif.Setup.C69_no_space",
    "Verif.Setup.C69_past_end",
    "Verif.Setup.C69_tiny_space",
    "Verif.Setup.C69_oversized",
    "Verif.Setup.C69_migration_lost",
    "Verif.Setup.C69_shrunk"
   ],
   "note": "documented use as in the statement; witnesses for misuse"
  },
  {
   "property": "C70",
   "status": "proved",
   "theorems": [
    "Verif.Setup.C70_advertised"
   ],
   "note": "no device callback on the config space"
  },
  {
   "property": "C71",
   "status": "proved",
   "theorems": [
    "Verif.Server.C71_ledger",
    "Verif.Server.C71_silent_unmap"
   ],
   "note": "witness for the missing payload"
  },
  {
   "property": "C72",
   "status": "proved",
   "theorems": [
    "Verif.Server.C72_unmap",
    "Verif.Server.C72_unmap_dirty",
    "Verif.Server.C72_map"
   ],
   "note": "the device quiesces at once"
  },
  {
   "property": "C73",
   "status": "proved",
   "theorems": [
    "Verif.Server.C73_refused",
    "Verif.Server.C73_empty",
    "Verif.Server.C73_callback",
    "Verif.Server.C73_nobody",
    "Verif.Server.C73_config"
   ],
   "note": "the device quiesces at once when asked to; allocations succeed"
  },
  {
   "property": "C74",
   "status": "proved",
   "theorems": [
    "Verif.Server.C74_constant",
    "Verif.Server.C74_device",
    "Verif.Server.C74_region",
    "Verif.Server.C74_io_fds",
    "Verif.Server.C74_irq"
   ],
   "note": "allocations succeed"
  },
  {
   "property": "C75",
   "status": "proved",
   "theorems": [
    "Verif.Server.C75_account",
    "Verif.Server.C75_set",
    "Verif.Server.C75_get",
    "Verif.Server.C75_stale"
   ],
   "note": "the device does not fail to reset itself for a lost connection (witness); requests as in C61"
  },
  {
   "property": "C76",
   "status": "proved",
   "theorems": [
    "Verif.Server.C76_limits",
    "Verif.Server.C76_read",
    "Verif.Server.C76_read_refused",
    "Verif.Server.C76_write",
    "Verif.Server.C76_write_refused"
   ],
   "note": "allocations succeed"
  },
  {
   "property": "C77",
   "status": "proved",
   "theorems": [
    "Verif.Server.C77_quiesced",
    "Verif.Server.C77_served",
    "Verif.Server.C77_violated"
   ],
   "note": "one PCI Express capability, no write that runs into the register (witness)"
  },
  {
   "property": "C78",
   "status": "proved",
   "theorems": [
    "Verif.Server.C78_account",
    "Verif.Server.C78_refused",
    "Verif.Server.C78_bind",
    "Verif.Server.C78_unbind",
    "Verif.Server.C78_loopback",
    "Verif.Server.C78_mask",
    "Verif.Server.C78_violated"
   ],
   "note": "replies wanted, requests complete, ranges unbound from vector 0 (witness)"
  },
  {
   "property": "C79",
   "status": "proved",
   "theorems": [
    "Verif.Setup.C79_config",
    "Verif.Setup.C79_ids",
    "Verif.Setup.C79_bars",
    "Verif.Setup.C79_irqs",
    "Verif.Setup.C79_regions",
    "Verif.Setup.C79_accepted",
    "Verif.Setup.C79_stale"
   ],
   "note": "no region loses its descriptor (witness); config space region: C69, C70"
  },
  {
   "property": "C80",
   "status": "proved",
   "theorems": [
    "Verif.Server.C80_written",
    "Verif.Server.C80_account",
    "Verif.Server.C80_report",
    "Verif.Server.C80_answered",
    "Verif.Server.C80_unmap",
    "Verif.Server.C80_short_report",
    "Verif.Server.C80_short_unmap"
   ],
   "note": "requests that concern the log want replies; reports name mapped ranges at the page size of the log (witnesses for shorter ones); device marks what it translated"
  },
  {
   "property": "C81",
   "status": "proved",
   "theorems": [
    "Verif.Wire.Pipe.C81_same",
    "Verif.Wire.Pipe.C81_frames",
    "Verif.Wire.Pipe.C81_version",
    "Verif.Wire.Pipe.C81_pieces"
   ],
   "note": "version request in one piece (witness for two)"
  },
  {
   "property": "C82",
   "status": "proved",
   "theorems": [
    "Verif.Wire.Pipe.C82_reply",
    "Verif.Wire.Pipe.C82_short",
    "Verif.Wire.Pipe.C82_refused",
    "Verif.Wire.Pipe.C82_error",
    "Verif.Wire.Pipe.C82_command"
   ],
   "note": "pipe takes everything for the positive part; short writes are the witness"
  },
  {
   "property": "C83",
   "status": "proved",
   "theorems": [
    "Verif.Wire.Life.C83_init",
    "Verif.Wire.Life.C83_attach",
    "Verif.Wire.Life.C83_detach",
    "Verif.Wire.Life.C83_destroy",
    "Verif.Wire.Life.C83_owned",
    "Verif.Wire.Life.C83_poll",
    "Verif.Wire.Life.C83_life"
   ],
   "note": "the kernel hands out numbers not in use"
  },
  {
   "property": "C84",
   "status": "proved",
   "theorems": [
    "Verif.Server.C84_defer",
    "Verif.Server.C84_twice"
   ],
   "note": "provisos of the statement: replies can be sent, the device reports success"
  },
  {
   "property": "C85",
   "status": "proved",
   "theorems": [
    "Verif.Server.C85_history",
    "Verif.Server.C85_session",
    "Verif.Server.C85_served",
    "Verif.Server.C85_poll",
    "Verif.Server.C85_blocking",
    "Verif.Server.C85_alike",
    "Verif.Server.C85_pieces"
   ],
   "note": "provisos as in the statement; a read that would wait is modelled by not starting it"
  },
  {
   "property": "C86",
   "status": "proved",
   "theorems": [
    "Verif.Server.Memory.C86_read",
    "Verif.Server.Memory.C86_write",
    "Verif.Server.Memory.C86_unique",
    "Verif.Server.Memory.C86_refused"
   ],
   "note": "the memory of the process is modelled as shared mappings of files; the files are as long as the mappings"
  },
  {
   "property": "C87",
   "status": "proved",
   "theorems": [
    "Verif.Server.C87_identity",
    "Verif.Server.C87_capabilities",
    "Verif.Server.C87_read",
    "Verif.Server.C87_violated"
   ],
   "note": "callbacks keep to the bytes they are called for; the reset callback leaves the config space alone"
  },
  {
   "property": "C88",
   "status": "proved",
   "theorems": [
    "Verif.Server.C88_discreet",
    "Verif.Server.C88_confined",
    "Verif.Server.C88_empty",
    "Verif.Server.C88_mixed"
   ],
   "note": "malloc hands out as many bytes as requested; contents arbitrary"
  },
  {
   "property": "C89",
   "status": "proved",
   "theorems": [
    "Verif.Server.C89_isolated",
    "Verif.Server.C89_fresh",
    "Verif.Server.C89_logging",
    "Verif.Server.C89_refused"
   ],
   "note": "device callbacks answer the same in both conversations; the provisos are part of the statement"
  },
  {
   "property": "C90",
   "status": "proved",
   "theorems": [
    "Verif.Server.C90_holds",
    "Verif.Server.C90_bar",
    "Verif.Server.C90_rom"
   ],
   "note": "config region without callback; callbacks return 0 or -1 with errno; the reset callback leaves config space alone"
  },
  {
   "property": "C91",
   "status": "proved",
   "theorems": [
    "Verif.Server.C91_probe",
    "Verif.Server.C91_refused",
    "Verif.Server.C91_migration",
    "Verif.Server.C91_violated"
   ],
   "note": "the exception is part of the statement"
  },
  {
   "property": "C92",
   "status": "proved",
   "theorems": [
    "Verif.Server.C92_cause"
   ],
   "note": ""
  },
  {
   "property": "C93",
   "status": "proved",
   "theorems": [
    "Verif.Server.C93_streams",
    "Verif.Server.C93_carried",
    "Verif.Server.C93_unheard",
    "Verif.Server.C93_short"
   ],
   "note": "the provisos are part of the statement, each with its witness"
  },
  {
   "property": "C94",
   "status": "proved",
   "theorems": [
    "Verif.Dma.C94_sound",
    "Verif.Dma.C94_account",
    "Verif.Dma.C94_no_leak",
    "Verif.Dma.C94_leak"
   ],
   "note": "the leak is part of the statement"
  },
  {
   "property": "C95",
   "status": "proved",
   "theorems": [
    "Verif.Server.C95_short",
    "Verif.Server.C95_waiting",
    "Verif.Server.C95_undone",
    "Verif.Server.C95_forgotten",
    "Verif.Server.C95_silent"
   ],
   "note": "the missing reply is part of the statement"
  },
  {
   "property": "C96",
   "status": "proved",
   "theorems": [
    "Verif.Blocks.C96_lifetimes",
    "Verif.Blocks.C96_account",
    "Verif.Blocks.C96_balance",
    "Verif.Blocks.C96_destroyed",
    "Verif.Blocks.C96_lost",
    "Verif.Blocks.C96_assert"
   ],
   "note": "the two leaks are part of the statement"
  },
  {
   "property": "C97",
   "status": "proved",
   "theorems": [
    "Verif.Wire.C97_document",
    "Verif.Wire.C97_read",
    "Verif.Wire.C97_greeting",
    "Verif.Wire.C97_memory",
    "Verif.Wire.C97_short",
    "Verif.Wire.C97_regardless",
    "Verif.Wire.C97_null",
    "Verif.Wire.C97_migration"
   ],
   "note": "the exceptions are part of the statement"
  },
  {
   "property": "C98",
   "status": "proved",
   "theorems": [
    "Verif.Dma.C98_array",
    "Verif.Dma.C98_inside",
    "Verif.Dma.C98_fresh",
    "Verif.Dma.C98_stable",
    "Verif.Dma.C98_stale"
   ],
   "note": "the exception is part of the statement"
  },
  {
   "property": "C99",
   "status": "proved",
   "theorems": [
    "Verif.Estate.C99_lifetimes",
    "Verif.Estate.C99_account",
    "Verif.Estate.C99_destroyed",
    "Verif.Estate.C99_failed",
    "Verif.Estate.C99_clean",
    "Verif.Estate.C99_crash",
    "Verif.Estate.C99_lost"
   ],
   "note": "the exceptions are part of the statement"
  },
  {
   "property": "C100",
   "status": "proved",
   "theorems": [
    "Verif.Server.C100_conversation",
    "Verif.Server.C100_farewell",
    "Verif.Server.C100_refused",
    "Verif.Server.C100_turns",
    "Verif.Server.C100_anew"
   ],
   "note": ""
  },
  {
   "property": "C101",
   "status": "proved",
   "theorems": [
    "Verif.Server.C101_behind",
    "Verif.Server.C101_moved",
    "Verif.Server.C101_finish",
    "Verif.Server.C101_early"
   ],
   "note": ""
  },
  {
   "property": "C102",
   "status": "proved",
   "theorems": [
    "Verif.Server.C102_history",
    "Verif.Server.C102_reachable",
    "Verif.Server.C102_reply",
    "Verif.Server.C102_again",
    "Verif.Server.C102_once",
    "Verif.Server.C102_pending",
    "Verif.Server.C102_inherited"
   ],
   "note": ""
  },
  {
   "property": "C103",
   "status": "proved",
   "theorems": [
    "Verif.Wire.C103_apart",
    "Verif.Wire.C103_turns",
    "Verif.Wire.C103_header",
    "Verif.Wire.C103_clash",
    "Verif.Wire.C103_reset"
   ],
   "note": "the collision on one socket is part of the statement"
  },
  {
   "property": "C104",
   "status": "proved",
   "theorems": [
    "Verif.Setup.C104_order",
    "Verif.Setup.C104_after",
    "Verif.Setup.C104_swap",
    "Verif.Setup.C104_documented",
    "Verif.Setup.C104_config"
   ],
   "note": ""
  },
  {
   "property": "C105",
   "status": "proved",
   "theorems": [
    "Verif.Irq.C105_safe",
    "Verif.Irq.C105_overrun",
    "Verif.Irq.C105_stranded",
    "Verif.Irq.C105_unclosed"
   ],
   "note": "the overrun is part of the statement"
  },
  {
   "property": "C106",
   "status": "proved",
   "theorems": [
    "Verif.Server.C106_guard",
    "Verif.Server.C106_outside",
    "Verif.Server.C106_stopped"
   ],
   "note": "the exception is part of the statement"
  },
  {
   "property": "C107",
   "status": "proved",
   "theorems": [
    "Verif.Server.C107_open",
    "Verif.Server.C107_changes",
    "Verif.Server.C107_told",
    "Verif.Server.C107_blocking",
    "Verif.Server.C107_unnoticed"
   ],
   "note": "the changes without notice are part of the statement"
  },
  {
   "property": "C108",
   "status": "proved",
   "theorems": [
    "Verif.Server.C108_before",
    "Verif.Server.C108_uncalled",
    "Verif.Server.C108_refused",
    "Verif.Server.C108_lost",
    "Verif.Server.C108_deferred",
    "Verif.Server.C108_hasty",
    "Verif.Server.C108_unquiesced",
    "Verif.Dma.C108_still",
    "Verif.Dma.C108_unregister"
   ],
   "note": "the violations are part of the statement"
  },
  {
   "property": "C109",
   "status": "proved",
   "theorems": [
    "Verif.Server.C109_room",
    "Verif.Server.C109_client",
    "Verif.Server.C109_trailing",
    "Verif.Server.C109_negotiated"
   ],
   "note": "the two provisos are part of the statement"
  },
  {
   "property": "C110",
   "status": "proved",
   "theorems": [
    "Verif.Server.C110_kept",
    "Verif.Server.C110_account",
    "Verif.Server.C110_hoard_violated"
   ],
   "note": "the proviso about repeated maps is part of the statement"
  },
  {
   "property": "C111",
   "status": "proved",
   "theorems": [
    "Verif.Server.C111_id",
    "Verif.Server.C111_reply",
    "Verif.Server.C111_lossy_violated"
   ],
   "note": "the proviso about replies that cannot be sent is part of the statement"
  },
  {
   "property": "C112",
   "status": "proved",
   "theorems": [
    "Verif.Server.C112_only",
    "Verif.Server.C112_order",
    "Verif.Server.C112_swap",
    "Verif.Server.C112_info",
    "Verif.Server.Demo.C112_limits_violated"
   ],
   "note": "that the provisos of the statement are needed is C112_limits_violated"
  },
  {
   "property": "C113",
   "status": "proved",
   "theorems": [
    "Verif.Server.C113_refused",
    "Verif.Server.C113_clean",
    "Verif.Server.C113_request",
    "Verif.Server.C113_unannounced",
    "Verif.Server.C113_traces_violated"
   ],
   "note": "that the four exceptions of the statement occur is C113_traces_violated and C80_short_unmap"
  },
  {
   "property": "C114",
   "status": "proved",
   "theorems": [
    "Verif.Server.C114_again",
    "Verif.Server.C114_same",
    "Verif.Server.C114_request",
    "Verif.Server.not_silent"
   ],
   "note": "the tables may not change between the two; replies may differ (a second unmap gives ENOENT)"
  },
  {
   "property": "C115",
   "status": "proved",
   "theorems": [
    "Verif.Server.C115_call",
    "Verif.Server.C115_history",
    "Verif.Server.bill_call"
   ],
   "note": "a config space callback that returns 0 is called for ever (a fault in the model); callbacks that call back into the library are outside the model"
  },
  {
   "property": "C116",
   "status": "proved",
   "theorems": [
    "Verif.Setup.C116_left",
    "Verif.Setup.C116_retry",
    "Verif.Setup.C116_left_out",
    "Verif.Setup.C116_ioeventfds_lost",
    "Verif.Setup.C116_dma_lost"
   ],
   "note": ""
  },
  {
   "property": "C117",
   "status": "proved",
   "theorems": [
    "Verif.Server.C117_apart",
    "Verif.Server.C117_alone",
    "Verif.Server.C117_call",
    "Verif.Server.C117_translate",
    "Verif.Server.C117_hint_decides",
    "Verif.Server.C117_shared_fate"
   ],
   "note": ""
  },
  {
   "property": "C118",
   "status": "proved",
   "theorems": [
    "Verif.Wire.Path.C118_reach",
    "Verif.Wire.Path.C118_create",
    "Verif.Wire.Path.C118_destroy",
    "Verif.Wire.Path.C118_rest",
    "Verif.Wire.Path.C118_killed",
    "Verif.Wire.Path.C118_stolen"
   ],
   "note": ""
  },
  {
   "property": "C119",
   "status": "proved",
   "theorems": [
    "Verif.Server.C119_granted",
    "Verif.Server.C119_not_granted"
   ],
   "note": ""
  },
  {
   "property": "C120",
   "status": "proved",
   "theorems": [
    "Verif.Server.C120_suits",
    "Verif.Server.C120_copied",
    "Verif.Server.C120_farewell"
   ],
   "note": ""
  },
  {
   "property": "C121",
   "status": "proved",
   "theorems": [
    "Verif.Server.C121_account",
    "Verif.Server.C121_agree",
    "Verif.Server.C121_flr",
    "Verif.Server.C121_unheard"
   ],
   "note": "the device without reset callback is part of the statement"
  },
  {
   "property": "C122",
   "status": "proved",
   "theorems": [
    "Verif.Setup.C122_late",
    "Verif.Setup.C122_unseen",
    "Verif.Setup.C122_stale"
   ],
   "note": "no device callback on the config space"
  },
  {
   "property": "C123",
   "status": "proved",
   "theorems": [
    "Verif.Pci.C123_capability",
    "Verif.Pci.C123_header",
    "Verif.Pci.C123_happens"
   ],
   "note": "the exceptions are part of the statement"
  },
  {
   "property": "C124",
   "status": "proved",
   "theorems": [
    "Verif.Wire.Pipe.C124_read",
    "Verif.Wire.Pipe.C124_write",
    "Verif.Wire.Pipe.C124_served",
    "Verif.Wire.Pipe.C124_strict",
    "Verif.Wire.Pipe.C124_pieces",
    "Verif.Wire.Pipe.C124_rest",
    "Verif.Wire.Pipe.C124_injected"
   ],
   "note": ""
  },
  {
   "property": "C125",
   "status": "proved",
   "theorems": [
    "Verif.Wire.Pipe.C125_tries",
    "Verif.Wire.Pipe.C125_again",
    "Verif.Wire.Pipe.C125_header",
    "Verif.Wire.Pipe.C125_pieces",
    "Verif.Wire.Pipe.C125_end"
   ],
   "note": ""
  },
  {
   "property": "C126",
   "status": "proved",
   "theorems": [
    "Verif.Server.C126_held",
    "Verif.Server.C126_released",
    "Verif.Server.C126_signals"
   ],
   "note": ""
  },
  {
   "property": "C127",
   "status": "proved",
   "theorems": [
    "Verif.Server.C127_never",
    "Verif.Server.C127_violated"
   ],
   "note": "orderly clients; the overrunning write is part of the statement"
  }
 ]
}