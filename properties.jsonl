{"id": "C01", "title": "DMA table never exceeds its limits and its regions never overlap", "statement": "After any sequence of client DMA map, unmap, unmap-all and reset operations the server tracks at most 64 guest regions, none larger than the limit given at setup, and no guest address belongs to two regions, provided no map request asked for a range that runs past 2^64. Requests whose range does wrap are accepted by the code; a concrete history in which two tracked regions then share an address is exhibited.", "quantifier": "every finite sequence of map/unmap/unmap-all requests with arbitrary 64-bit addresses, sizes, protections, descriptors and environment results", "why_tests_cant": "needs an invariant over unbounded histories; a test only visits a handful of maps and unmaps", "anchors": ["lib/dma.c:dma_controller_add_region", "lib/dma.c:dma_controller_remove_region", "lib/dma.c:dma_controller_remove_all_regions", "lib/private.h:MAX_DMA_REGIONS"]}
{"id": "C02", "title": "DMA map and unmap behave as a finite map keyed by exact range", "statement": "The set of regions visible to the device equals, after every history, the set obtained by an abstract table in which a successful map inserts one (address,size) entry, a successful unmap of exactly that address and size deletes it, unmap-all empties the table, and every failed request leaves it as it was. A region can be unmapped if and only if exactly that range is mapped.", "quantifier": "every finite history of map/unmap/unmap-all requests", "why_tests_cant": "refinement over all histories, including every interleaving of failures and array compaction", "anchors": ["lib/dma.c:dma_controller_add_region", "lib/dma.c:dma_controller_remove_region", "lib/dma.c:array_remove"]}
{"id": "C03", "title": "DMA map decision logic is exact and failure is atomic", "statement": "A map request for a non-wrapping range is accepted as new exactly when its size is within the limit, it overlaps no mapped region, the table has room, the descriptor (if any) can be inspected and mapped; it is accepted as a repeat exactly when the same range is mapped with the same offset, protection and the same kind of file; every other request is refused with ENOSPC, EINVAL or the mapping error, and a refused request leaves the table unchanged.", "quantifier": "every reachable table, every request, every result of the operating system calls", "why_tests_cant": "the decision depends on the interaction of the request with an arbitrary table and with OS failures", "anchors": ["lib/dma.c:dma_controller_add_region", "lib/dma.c:dma_map_region"]}
{"id": "C04", "title": "Scatter/gather translation tiles the requested range", "statement": "When translating a guest range that does not run past 2^64 succeeds with n entries, the n entries, in order, cover exactly the requested bytes with no gap, overlap or reordering: entry i starts where entry i-1 ended, every entry lies inside one mapped region, the region index and offset of the entry denote precisely those guest addresses, and the lengths sum to the requested length. For ranges that wrap past 2^64 a violation is exhibited.", "quantifier": "every reachable region table, every address, length, protection and maximum number of entries, whatever the translation hint left by earlier calls", "why_tests_cant": "ranges may straddle arbitrarily many regions in any order; exhaustive testing is impossible", "anchors": ["include: vfu_addr_to_sgl", "lib/dma.h:dma_addr_to_sgl", "lib/dma.c:_dma_addr_sg_split", "lib/dma.h:dma_init_sg"]}
{"id": "C05", "title": "Translation failures are reported exactly, and the suggested entry count works", "statement": "For a range that does not run past 2^64, translation for reading fails with ENOENT exactly when some byte of the range is unmapped, and never with EACCES. Translation for writing a range with an unmapped byte fails with ENOENT or EACCES, the latter only if a region in the range is not writable. A fully mapped range needs one number x of entries, whatever the hint and the direction: with at least x supplied the call succeeds with exactly x, unless it is for writing and a region in the range is not writable, which fails with EACCES; with fewer supplied it returns -(x+1) (or EACCES in that case), so that repeating the call with x entries succeeds or reports the protection error. No other error occurs.", "quantifier": "every table of disjoint non-wrapping regions, every request", "why_tests_cant": "if-and-only-if over all tables; tests check single layouts", "anchors": ["lib/dma.c:_dma_addr_sg_split", "lib/dma.h:dma_addr_to_sgl", "include/libvfio-user.h:vfu_addr_to_sgl"]}
{"id": "C06", "title": "Translation does not depend on the cached region hint", "statement": "The result of translating a guest range that does not wrap past 2^64 is the same whatever region the thread-local hint points at, i.e. is the same for all earlier call histories and threads. For ranges that wrap the result is hint-dependent; a witness is exhibited.", "quantifier": "every table of disjoint non-wrapping regions, every hint value, every request", "why_tests_cant": "depends on the hidden thread-local state left by all previous calls in that thread", "anchors": ["lib/dma.h:dma_addr_to_sgl"]}
{"id": "C07", "title": "Addresses handed to the device stay inside the mapped file window", "statement": "Every buffer obtained by translating and then getting a scatter/gather entry lies entirely inside the memory the library mapped for that region, and corresponds to file offset (region file offset + guest address - region start). This holds when the region's file offset is page aligned; for an unaligned offset supplied by the client the mapping is too short and a witness is exhibited.", "quantifier": "every reachable table, every translation and every page size", "why_tests_cant": "page-rounding arithmetic with adversarial offsets, over all tables", "anchors": ["lib/dma.c:dma_map_region", "lib/dma.h:dma_sgl_get", "lib/dma.c:_dma_addr_sg_split"]}
{"id": "C08", "title": "DMA region descriptors are neither leaked nor closed twice", "statement": "Along every history each descriptor received with a map request is at every point in exactly one of: held by exactly one tracked region, closed exactly once, or (request refused before being taken) still owned by the request and closed with it. This holds for histories in which no mapping attempt fails and no identical region is mapped twice; both exceptions are exhibited as witnesses (double close, leak).", "quantifier": "every history of map/unmap/unmap-all with arbitrary OS results", "why_tests_cant": "resource conservation over all histories including failure paths", "anchors": ["lib/libvfio-user.c:handle_dma_map", "lib/libvfio-user.c:consume_fd", "lib/dma.c:dma_controller_add_region", "lib/dma.c:dma_controller_unmap_region"]}
{"id": "C09", "title": "A removed region is announced once, before its memory disappears", "statement": "Whenever a region leaves the table the device's unregister callback is called exactly once for it with the same guest range and mapping it was registered with, and before the memory is unmapped; no unregister happens for a range that was not registered, and between two unregisters of the same range there is a register.", "quantifier": "every history of client DMA requests and resets, any device with both DMA callbacks", "why_tests_cant": "temporal ordering over all event traces", "anchors": ["lib/dma.c:dma_controller_remove_region", "lib/dma.c:dma_controller_remove_all_regions", "lib/libvfio-user.c:handle_dma_map"]}
{"id": "C10", "title": "Scatter/gather lists stay valid while the regions they name stay mapped", "statement": "A scatter/gather entry obtained for a region gives the same buffer at any later time until that region is unmapped. Holds when only maps, and unmaps of later-mapped regions, happen in between; unmapping an earlier region silently redirects the entry to a different region's memory, for which a witness is exhibited.", "quantifier": "every table and every sequence of later DMA operations", "why_tests_cant": "staleness depends on arbitrary intervening operations", "anchors": ["lib/dma.c:array_remove", "lib/dma.h:dma_sgl_get", "include/libvfio-user.h:vfu_sgl_get"]}
{"id": "C11", "title": "Marking a written range dirty sets exactly the touched pages", "statement": "After the device reports a list of scatter/gather entries in file-backed regions as written, precisely the pages intersecting an entry are additionally dirty in that entry's region, all other pages and regions keep their status, and no byte outside a bitmap is touched, for power-of-two logging page sizes. For other page sizes, which the server accepts, a lost page is exhibited, and for regions without a file an abort.", "quantifier": "every region size, logging page size, entry inside the region and prior bitmap content", "why_tests_cant": "bit-level arithmetic over all offsets, lengths and page sizes", "anchors": ["lib/dma.h:_dma_mark_dirty", "lib/dma.h:range_to_pages", "lib/dma.h:bit_to_u8", "lib/dma.h:dma_sgl_mark_dirty", "lib/dma.h:dma_sgl_put"]}
{"id": "C12", "title": "Reading a region's dirty bitmap at the logging page size reports and clears it exactly", "statement": "A dirty-bitmap query for a whole region at the page size logging was started with returns exactly the set of pages marked since the previous query (or since logging started), and afterwards no page is dirty.", "quantifier": "every bitmap content and region geometry, every alternation of marks and queries", "why_tests_cant": "set equality over all histories", "anchors": ["lib/dma.c:dma_controller_dirty_page_get", "lib/dma.c:dirty_page_get_same_pgsize", "lib/dma.c:dirty_page_exchange"]}
{"id": "C13", "title": "No dirty page is lost or invented under concurrent marking and querying", "statement": "With any number of threads marking pages while the client's queries run, under every interleaving of the individual atomic byte operations, each page of a completed mark is still dirty or in the result of a query that had not ended when the mark began, and every page reported was dirty initially or has been marked; no access leaves the bitmap.", "quantifier": "every interleaving of any number of markers with any number of queries at byte granularity", "why_tests_cant": "schedules; races show up only with particular interleavings", "anchors": ["lib/dma.h:_dma_mark_dirty", "lib/dma.c:dirty_page_exchange", "lib/dma.c:dirty_page_get_same_pgsize"]}
{"id": "C14", "title": "Dirty report at a finer page size than the server logs is a faithful expansion", "statement": "When the client queries with a page size smaller than the server's by a factor of a power of two, and the reply bitmap has fewer than 32 bytes, a number divisible by the factor, and is initially zero, then client page j is reported exactly when server page j/factor was dirty, the pages in the range are clean afterwards and no others change, and nothing is written outside the reply bitmap. For every other size of the reply bitmap the call faults: it writes out of bounds or never ends; witnesses of both are exhibited.", "quantifier": "every region geometry, factor and bitmap content", "why_tests_cant": "index arithmetic with 8-bit counters; only particular sizes wrap", "anchors": ["lib/dma.c:dirty_page_get_extend"]}
{"id": "C15", "title": "Dirty report at a coarser page size than the server logs is a faithful union", "statement": "When the client queries with a larger power-of-two page size, client page j is reported exactly when at least one of its server pages was dirty. True when the reply bitmap is at most 32 bytes and initially zero; pages beyond client page 255 are lost, which is exhibited.", "quantifier": "every region geometry, factor and bitmap content", "why_tests_cant": "index arithmetic with 8-bit counters; only particular sizes wrap", "anchors": ["lib/dma.c:dirty_page_get_combine"]}
{"id": "C16", "title": "Dirty logging start/stop is all-or-nothing and idempotent", "statement": "Starting logging with page size p either enables a zeroed bitmap of the right size on every mapped file-backed region, or fails leaving logging off everywhere; restarting with the same page size changes nothing, with a different one fails with EINVAL and changes nothing; stopping removes all bitmaps; regions mapped while logging is on also get a zeroed bitmap.", "quantifier": "every table, page size, and position at which allocation fails", "why_tests_cant": "rollback from an arbitrary failure point over arbitrary tables", "anchors": ["lib/dma.c:dma_controller_dirty_page_logging_start", "lib/dma.c:dma_controller_dirty_page_logging_stop", "lib/dma.c:dirty_page_logging_start_on_region"]}
{"id": "C17", "title": "Dirty bitmap size is the least multiple of eight bytes with one bit per page", "statement": "For a region size of at least one page (and a number of pages that, rounded up, stays below 2^64) the bitmap size is a multiple of 8 bytes, holds at least ceil(size/pgsize) bits, and no smaller multiple does; a zero page size or a region smaller than a page is refused with EINVAL.", "quantifier": "all region sizes and page sizes for which the page count does not overflow", "why_tests_cant": "universal arithmetic claim", "anchors": ["lib/common.h:get_bitmap_size"]}
{"id": "C18", "title": "Dirty bitmap queries are validated before anything is reported or cleared", "statement": "A query is answered only when the range starts at a region start, lies in that one region, logging is on, the client page size is a power of two, the supplied bitmap size is exactly the required one and the region is file-backed; a query for a range of one region that misses a condition is refused with EINVAL (ENOTSUP if it does not start where the region starts); a query that is not answered clears no dirty bit. This is for ranges that do not run past 2^64; a wrapping range that makes the server access memory behind the bitmap is exhibited, and ranges covering several regions are reported as successful without being answered.", "quantifier": "every table, logging state and query", "why_tests_cant": "all combinations of table and query parameters", "anchors": ["lib/dma.c:dma_controller_dirty_page_get", "lib/libvfio-user.c:handle_dma_device_feature_get"]}
{"id": "C19", "title": "Saturating addition helpers are exact", "statement": "The saturating additions used in bounds checks return the true sum when it fits and the maximum value otherwise, so that for every limit below the maximum value the check 'sum > limit' holds of the saturated sum exactly if it holds of the true one: wraparound cannot bypass it.", "quantifier": "all pairs of 32-bit and of 64-bit values", "why_tests_cant": "2^64 and 2^128 inputs", "anchors": ["lib/common.h:satadd_u32", "lib/common.h:satadd_u64"]}
{"id": "C20", "title": "The device only ever moves along documented migration arcs", "statement": "Starting from RUNNING, after any sequence of state-set requests, device resets and connection resets, with any pattern of device callback failures, the migration state is one of STOP, RUNNING, STOP_COPY, RESUMING, PRE_COPY, and every state change that the device callback is notified of by a state-set request is a documented arc.", "quantifier": "every history of set-state requests with valid encodings, resets and callback outcomes", "why_tests_cant": "invariant over unbounded histories with arbitrary callback failures", "anchors": ["lib/migration.c:transitions", "lib/migration.c:next_state", "lib/migration.c:migration_set_state", "lib/migration.c:migration_set_state"]}
{"id": "C21", "title": "A migration state request takes the shortest documented path", "statement": "A set-state request terminates; if accepted and every callback succeeds the device is notified of a sequence of states that is a documented path from the current to the requested state, no shorter documented path exists, and no saving state (PRE_COPY, STOP_COPY) is an interior state of the path.", "quantifier": "all pairs of states", "why_tests_cant": "minimality quantifies over all paths; termination over all table walks", "anchors": ["lib/migration.c:next_state", "lib/migration.c:migration_set_state"]}
{"id": "C22", "title": "A refused or failed migration transition leaves the device in the last state it acknowledged", "statement": "If the device callback rejects a step, the reported state is the last state whose callback succeeded and no further callback is made; requests for undocumented targets fail with EINVAL with no callback. The request value 8 (one past the last state) is not refused but reads past the transition table, which is exhibited.", "quantifier": "all states, targets and callback outcomes", "why_tests_cant": "failure injected at any step of any path; all 2^32 target values", "anchors": ["lib/migration.c:migration_set_state", "lib/migration.c:migr_trans_to_valid_state"]}
{"id": "C23", "title": "Migration data moves only in the right states and within limits", "statement": "The device's data-read callback is invoked only in PRE_COPY or STOP_COPY and the write callback only in RESUMING, with a size no larger than the negotiated maximum, and the buffer passed lies inside the message; every other request fails with EINVAL without a callback. A read reply announces exactly the number of bytes the callback produced.", "quantifier": "all migration states, message bodies and callback results", "why_tests_cant": "all message contents and lengths", "anchors": ["lib/migration.c:handle_mig_data_read", "lib/migration.c:handle_mig_data_write"]}
{"id": "C24", "title": "Commands are gated by the migration state", "statement": "While the device is in the STOP or STOP_COPY migration state only region read, region write, device-feature and migration-data-read commands are executed; any other command is answered with EINVAL and neither calls the device nor changes any state. In every other migration state (and without migration support) the state refuses nothing: the request is executed, at once or after its quiesce.", "quantifier": "all migration states and all 2^16 command numbers", "why_tests_cant": "full product of states and commands", "anchors": ["lib/libvfio-user.c:should_exec_command", "lib/libvfio-user.c:cmd_allowed_when_stopped_and_copying"]}
{"id": "C25", "title": "Migration state set/get round-trips and reset returns to running", "statement": "After an accepted set-state request, get-state returns the requested state; after a successful device reset it returns RUNNING; probing never changes it.", "quantifier": "every reachable state and every feature request", "why_tests_cant": "universal over histories", "anchors": ["lib/libvfio-user.c:handle_device_feature", "lib/libvfio-user.c:handle_migration_device_feature_set", "lib/libvfio-user.c:device_reset"]}
{"id": "C26", "title": "IRQ requests that pass validation never touch a vector outside the configured ones", "statement": "Every accepted SET_IRQS request names a configured interrupt type and vectors start..start+count-1 below the configured count of that type, with start+count not wrapping, and neither binds, unbinds, signals nor masks any other vector; inconsistent combinations of action, data type, count, payload size and descriptors are refused with EINVAL without any effect. Proviso: fewer than 2^32-1 vectors per type and at most one ERR and one REQ vector; with 2^32-1 vectors a wrapping range is accepted, and a witness is exhibited.", "quantifier": "all request contents, payload lengths, descriptor counts and device configurations", "why_tests_cant": "32-bit wraparound and combinations of flags", "anchors": ["lib/irq.c:device_set_irqs_validate", "lib/irq.c:handle_device_set_irqs"]}
{"id": "C27", "title": "Assigning eventfds binds exactly the requested vectors", "statement": "A successful SET_IRQS with descriptors binds vector start+j to the j-th descriptor for each j below count, closes each previously bound descriptor exactly once, takes the descriptors out of the request, and changes no other vector.", "quantifier": "all vector tables and all accepted requests", "why_tests_cant": "universal over tables and ranges", "anchors": ["lib/irq.c:irqs_set_data_eventfd", "lib/libvfio-user.c:consume_fd"]}
{"id": "C28", "title": "Disabling interrupts unbinds the named vectors", "statement": "A disable request (trigger, no data, count 0) unbinds and closes every vector of that type; a disable of range start,count unbinds exactly that range. The second part holds only for start = 0: the code stops at index count rather than start+count, and a witness is exhibited.", "quantifier": "all vector tables and accepted requests", "why_tests_cant": "needs the exact frame over all vectors", "anchors": ["lib/irq.c:irqs_disable"]}
{"id": "C29", "title": "Triggering an interrupt signals exactly its eventfd", "statement": "vfu_irq_trigger(i) fails with EINVAL when i is not below the largest configured vector count, with ENOENT when no eventfd is bound, and otherwise signals exactly the descriptor most recently bound to vector i by the client and no other, leaving all bindings unchanged.", "quantifier": "all vector tables, all 32-bit subindices, all request histories", "why_tests_cant": "history quantification: 'most recently bound'", "anchors": ["lib/irq.c:vfu_irq_trigger", "lib/irq.c:irqs_set_data_eventfd"]}
{"id": "C30", "title": "Loopback triggers signal exactly the selected bound vectors", "statement": "A trigger with no data signals, in order, each bound vector in range once; a trigger with booleans signals exactly those bound vectors whose boolean is 1; unbound vectors are skipped, the first write failure stops the request, and bindings never change.", "quantifier": "all vector tables, ranges, boolean payloads and write failure positions", "why_tests_cant": "all payloads and failure points", "anchors": ["lib/irq.c:irqs_set_data_none", "lib/irq.c:irqs_set_data_bool"]}
{"id": "C31", "title": "Interrupt descriptors are conserved", "statement": "Over any history of SET_IRQS requests, connection resets and context destruction, every descriptor the library took for an interrupt is either bound to exactly one vector or has been closed exactly once; after a connection reset none is bound.", "quantifier": "every history of requests and resets", "why_tests_cant": "resource invariant over unbounded histories", "anchors": ["lib/irq.c:irqs_set_data_eventfd", "lib/irq.c:irqs_disable", "lib/irq.c:irqs_reset"]}
{"id": "C32", "title": "Region accesses are bounds-checked before any callback", "statement": "A region read/write request is passed to the device or the config space emulation only when the region exists, offset+count does not exceed the region size and does not wrap, the payload length matches, count is within the transfer limit, migration is not in stop-and-copy and the region has a handler; otherwise it fails with EINVAL and no handler runs. The READ and WRITE flags of the region are not enforced; a witness is exhibited.", "quantifier": "all offsets, counts, region tables and payload lengths", "why_tests_cant": "64-bit wraparound corner cases over all region tables", "anchors": ["lib/libvfio-user.c:is_valid_region_access", "lib/libvfio-user.c:region_access"]}
{"id": "C33", "title": "Region access replies carry exactly the data the handler produced", "statement": "A successful read reply is the 16-byte access header echoing region, offset and count followed by exactly count bytes produced by the handler; a successful write reply is the header alone; a handler that transfers fewer bytes makes the request fail with EINVAL rather than return a partial result. A request of zero bytes succeeds with an empty reply.", "quantifier": "all requests and all handler behaviours", "why_tests_cant": "all handler results", "anchors": ["lib/libvfio-user.c:handle_region_access"]}
{"id": "C34", "title": "Region info replies respect argsz and describe every mmap area", "statement": "A region-info reply never exceeds the client's argsz, reports in argsz the size needed, and when there is room contains the sparse-mmap capability listing every configured area in order with its exact offset and size; descriptors are attached only then.", "quantifier": "all region configurations and argsz values", "why_tests_cant": "all numbers of areas and sizes", "anchors": ["lib/libvfio-user.c:handle_device_get_region_info", "lib/libvfio-user.c:dev_get_caps", "lib/libvfio-user.c:get_vfio_caps_size"]}
{"id": "C35", "title": "ioeventfd replies index the right descriptors", "statement": "In a region-io-fds reply every sub-region names, by index, exactly the descriptor registered for it, no descriptor is sent twice and none that was not registered, every index is below the number of descriptors sent, and a reply that does not fit argsz carries no sub-regions and no descriptors. Registration accepts exactly sub-regions inside the region, unless offset+size wraps (witness).", "quantifier": "all lists of registered ioeventfds including shared and absent descriptors", "why_tests_cant": "deduplication over arbitrary lists", "anchors": ["lib/libvfio-user.c:add_fd_index", "lib/libvfio-user.c:handle_device_get_region_io_fds", "lib/libvfio-user.c:vfu_create_ioeventfd"]}
{"id": "C36", "title": "Region setup only accepts mmap areas inside the region", "statement": "vfu_setup_region accepts a region exactly when its flags, index, callback, descriptor and config-space access rights are valid and every mmap area lies within the region size; it then stores exactly the given parameters and changes no other region, and a refused call changes nothing. Areas whose end wraps are accepted, sizes of 4 GiB or more are silently truncated, and setting up again without a descriptor keeps the old areas; witnesses are exhibited.", "quantifier": "all region parameters", "why_tests_cant": "64-bit wraparound, 32-bit truncation", "anchors": ["lib/libvfio-user.c:vfu_setup_region", "lib/libvfio-user.c:copyin_mmap_areas"]}
{"id": "C37", "title": "Config space accesses are split into segments that tile the access", "statement": "Whatever capabilities are configured, a config-space access is processed as consecutive non-empty segments that start at the requested offset, follow each other without gap or overlap, never pass the end of the access and, if it succeeds, end exactly there; processing terminates. When the capabilities were added in the order of their offsets and the access does not run out of a capability it started in the middle of, each segment lies within exactly one owner (header, one capability, or no capability). Otherwise a segment can run out of its capability, or the default handler can serve a capability; witnesses are exhibited.", "quantifier": "all capability layouts, device callbacks, offsets and counts", "why_tests_cant": "arbitrary layouts and access widths", "anchors": ["lib/pci.c:pci_config_space_access", "lib/pci.c:pci_config_space_next_segment"]}
{"id": "C38", "title": "Config space reads return the stored bytes and change nothing", "statement": "Reading config space without a device callback returns exactly the current bytes at each offset and has no side effect, whatever the layout and width of the access.", "quantifier": "all config space contents, layouts, offsets and widths", "why_tests_cant": "universal frame condition", "anchors": ["lib/pci.c:pci_config_space_access", "lib/pci_caps.c:pci_cap_access"]}
{"id": "C39", "title": "The PCI capability list is well formed", "statement": "After any sequence of additions of whole capabilities, standard ones inside the first 256 bytes and automatically placed ones not landing on others, interleaved with any changes of other bytes (including client writes to the header or inside a capability), walking the standard list from the header's pointer visits exactly the added standard capabilities in order of addition and terminates; likewise for the extended list from offset 256; each visited offset holds the capability's id. A refused addition changes nothing. An offset of 256 or more for a standard capability corrupts the list (witness).", "quantifier": "all sequences of additions with explicit or automatic placement and of other changes", "why_tests_cant": "list well-formedness over unbounded construction sequences", "anchors": ["lib/pci_caps.c:vfu_pci_add_capability", "lib/pci_caps.c:cap_place", "lib/pci_caps.c:ext_cap_place", "lib/pci_caps.c:vfu_pci_find_next_capability"]}
{"id": "C40", "title": "Capabilities do not overlap", "statement": "Added capabilities occupy pairwise disjoint ranges behind the header and inside config space and hold the bytes given (including the version of extended ones), except for their links; an explicit offset is honoured, or refused if it overlaps. Automatic placement keeps this when the capabilities of the list are in the order of their offsets (in particular when all are placed automatically); otherwise it can land on another capability (witness). No addition of a whole capability aborts unless its explicit offset wraps or, for extended ones, is not a multiple of 4 (witnesses).", "quantifier": "all sequences of additions", "why_tests_cant": "pairwise property over all sequences", "anchors": ["lib/pci_caps.c:vfu_pci_add_capability", "lib/pci_caps.c:cap_place", "lib/pci_caps.c:ext_cap_place"]}
{"id": "C41", "title": "Capability headers and read-only capabilities resist client writes", "statement": "A client write that stays within one capability never alters its id/next header bytes (unless the device handles the capability itself), and never alters a capability declared read-only, provided the device has no config region callback or no capability starts right where the write ends. A write that runs out of a vendor capability, or spans into or ends at an earlier-added capability of a device with a callback, bypasses this; witnesses are exhibited.", "quantifier": "all layouts, offsets, widths and data", "why_tests_cant": "boundary-straddling accesses over arbitrary layouts", "anchors": ["lib/pci_caps.c:pci_cap_access", "lib/pci_caps.c:cap_find_by_offset", "lib/pci.c:pci_config_space_next_segment"]}
{"id": "C42", "title": "BAR sizing works for every region size", "statement": "Writing all ones to a BAR and reading it back yields ~(size-1) with the type bits, for any size that is a multiple of the BAR's granularity (any power of two from 16 for memory and 4 for I/O), so a driver computes exactly the configured size; writing an aligned address programs that address; writing back the original value restores it. A BAR without a region, such as the upper half of a 64-bit BAR, ignores writes, and low bits written become type bits.", "quantifier": "all sizes, addresses, previous contents and BAR types", "why_tests_cant": "all sizes and addresses", "anchors": ["lib/pci.c:pci_hdr_write_bar", "lib/libvfio-user.c:vfu_setup_region"]}
{"id": "C43", "title": "The PCI command register accepts exactly its writable bits", "statement": "After a 16-bit write of any value to the command register, the supported bits hold the written value and all other bits are unchanged; the write is refused exactly if it sets a bit that is neither supported nor VGA palette snoop. A refused write has stored the supported bits nevertheless (witness).", "quantifier": "all previous values and all 2^16 written values", "why_tests_cant": "full product of old and new values and the refusal order", "anchors": ["lib/pci.c:handle_command_write"]}
{"id": "C44", "title": "Writes to MSI, MSI-X, power-management and PCIe capabilities only change writable bits", "statement": "After any accepted guest write inside one of these capabilities, every bit the write covers that the library treats as writable has the written value and every other bit of the capability is unchanged; the number of enabled MSI vectors never exceeds the number the device announces. The library treats all of the power management control register as writable, and a refused MSI write may have changed the enable bit; witnesses are exhibited.", "quantifier": "all capability contents, offsets, widths within the capability, data", "why_tests_cant": "bit-level frame over all values", "anchors": ["lib/pci_caps.c:cap_write_pm", "lib/pci_caps.c:cap_write_msi", "lib/pci_caps.c:cap_write_msix", "lib/pci_caps.c:cap_write_px"]}
{"id": "C45", "title": "Config writes stay inside config space and inside the supplied data", "statement": "No config-space write reads beyond the client's data, writes beyond the capability structure being updated, or changes a byte outside the accessed range. The frame holds for all accesses; the absence of out-of-bounds accesses holds for writes whose segments cover whole header registers and stay inside their capability, in particular for writes contained in one register or capability; witnesses are exhibited for writes shorter than a header register and for writes running past an MSI/MSI-X capability.", "quantifier": "all layouts, offsets, widths", "why_tests_cant": "memory safety over all access shapes", "anchors": ["lib/pci.c:pci_hdr_write", "lib/pci_caps.c:cap_write_msi", "lib/pci_caps.c:cap_write_msix", "lib/pci.c:pci_config_space_next_segment"]}
{"id": "C46", "title": "Read-only header fields are immutable to the client", "statement": "No client write sequence changes vendor/device id, status, revision, class code, header type, subsystem ids, the capability pointer or the interrupt pin. Writes to status, revision, class code, interrupt pin, minimum grant and maximum latency succeed without effect; bytes written to cache line size, latency timer and interrupt line are stored; the ROM register can only be cleared; a write starting anywhere else but at the command register or a BAR is refused with EINVAL without effect.", "quantifier": "all write histories confined to the header with widths equal to the register", "why_tests_cant": "invariant over write histories", "anchors": ["lib/pci.c:pci_hdr_write", "lib/pci.c:pci_config_header_access"]}
{"id": "C47", "title": "Only well-formed request headers are processed", "statement": "A message is executed only if its type is command, its size field is at least the header size (larger for every command but device reset) and at most the maximum message size, and exactly the announced number of payload bytes followed; a malformed header is refused with EINVAL without executing anything or changing any state. The error flag and number of a request are ignored.", "quantifier": "all 2^128 header contents", "why_tests_cant": "all headers", "anchors": ["lib/libvfio-user.c:is_valid_header", "lib/libvfio-user.c:get_request"]}
{"id": "C48", "title": "Request framing: each message is parsed from exactly its own bytes", "statement": "On a stream consisting of well-formed requests, delivered as the socket is asked for them, the server reads exactly those requests in order, each with its own payload and descriptors, no matter how payload bytes are chosen, and is left with exactly the rest of the stream. A malformed header makes the server interpret the rejected message's body as the next header, and a payload that arrives in two parts makes it refuse the request and take the second part for a header; witnesses are exhibited.", "quantifier": "all finite sequences of well-formed messages with arbitrary payloads", "why_tests_cant": "all streams; desynchronisation needs specific contents", "anchors": ["lib/tran_sock.c:tran_sock_get_request_header", "lib/tran_sock.c:tran_sock_recv_body", "lib/libvfio-user.c:get_request"]}
{"id": "C49", "title": "Replies identify their request and carry consistent sizes", "statement": "Every reply carries the request's message id and command, is marked as a reply, has the error flag and number set exactly when the handler failed with a non-zero errno, the handler's body and descriptors, and a size field equal to the number of bytes sent, for bodies below 4 GiB. Failed region accesses and failed settings of the migration state carry a body, and a dirty page report over several regions fails with errno 0 and looks like success; witnesses are exhibited. The size field of a longer body wraps: a client that announced a transfer limit of -1 or 2^32 - 1 and asks for 2^32 - 9 bytes of migration data is answered, as a success, with a header that claims 15 bytes.", "quantifier": "all requests and all handler outcomes and reply shapes", "why_tests_cant": "all outcomes", "anchors": ["lib/libvfio-user.c:do_reply", "lib/tran_sock.c:tran_sock_reply", "lib/tran_sock.c:tran_sock_send_iovec"]}
{"id": "C50", "title": "Version negotiation agrees on a version both sides speak", "statement": "Negotiation succeeds exactly if the client sends a version message with the server's major version and either no capabilities or a terminated JSON text whose known fields have the right types, a descriptor limit between 0 and 1024 after reduction to 32 bits and, for a device with migration, no or the server's page size; it answers with the server's major version, the minimum of the client's and server's minor versions and at most as many descriptors as the client allows, and absent capabilities take the documented defaults. Any other message is refused and answered with an error. Values outside 32 bits are reduced before the check and max_data_xfer_size is not checked at all, so out-of-range values are accepted; witnesses are exhibited.", "quantifier": "all client versions, JSON values and page sizes", "why_tests_cant": "all version pairs and parameter values", "anchors": ["lib/tran.c:recv_version", "lib/tran.c:send_version", "lib/tran.c:tran_parse_version_json"]}
{"id": "C51", "title": "Descriptors in messages are bounded", "statement": "No reply carries more descriptors than the device registered for one region (one for region info, the sub-regions' descriptors for the I/O descriptors), and no request delivers more than 1024 descriptors to the server. The maximum the client negotiated is ignored: with a maximum of 0 a reply still carries one; a witness is exhibited.", "quantifier": "all histories of calls, requests, configurations and negotiated values", "why_tests_cant": "all configurations", "anchors": ["lib/libvfio-user.c:handle_device_get_region_info", "lib/tran_sock.c:tran_sock_send_iovec", "lib/tran_sock.c:get_msg"]}
{"id": "C52", "title": "Socket DMA transfers move exactly the requested bytes in order", "statement": "Reading or writing guest memory over the socket issues consecutive chunks no larger than the negotiated maximum that tile the entry exactly, so for a client that serves its memory faithfully, with chunks of at most 1 MiB for reads, a read returns the guest bytes and a write stores exactly the given bytes and nothing else; for any client whatsoever a call that succeeds has had every chunk acknowledged with the right address and count, and any other reply fails the call. A read with a chunk above 1 MiB always fails, and a header-only reply to the first write makes the library compare uninitialised memory; witnesses are exhibited.", "quantifier": "all lengths, maxima at least 1, client memory contents and client behaviours", "why_tests_cant": "unbounded number of chunks", "anchors": ["lib/libvfio-user.c:vfu_dma_transfer", "lib/libvfio-user.c:vfu_sgl_read", "lib/libvfio-user.c:vfu_sgl_write"]}
{"id": "C53", "title": "Socket DMA transfers terminate", "statement": "For a negotiated maximum of at least 1 a socket DMA transfer finishes for every client behaviour after at most ceil(length/max) exchanges, and against a client that serves its memory after exactly that many. A client that negotiated a maximum transfer size of zero makes it loop for ever; a witness is exhibited.", "quantifier": "all lengths and negotiated maxima", "why_tests_cant": "non-termination cannot be observed by a test", "anchors": ["lib/libvfio-user.c:vfu_dma_transfer", "lib/tran.c:tran_parse_version_json"]}
{"id": "C54", "title": "Every accepted request gets exactly one reply, in order", "statement": "Along every execution of the request loop with synchronous or deferred quiesce, each executed request that asked for a reply gets exactly one reply, requests with the no-reply flag get none, and replies are sent in request order; this holds as long as the socket takes the replies, memory allocation succeeds, mappable regions have a descriptor and deferred quiesces complete successfully. At most one reply is sent in any case. When the device reports a failed quiesce the pending request is dropped without any reply, and a failed allocation can leave a request without reply; witnesses are exhibited.", "quantifier": "every schedule of vfu_run_ctx and vfu_device_quiesced calls, all requests and callback results", "why_tests_cant": "history and schedule quantification", "anchors": ["lib/libvfio-user.c:vfu_run_ctx", "lib/libvfio-user.c:handle_request", "lib/libvfio-user.c:do_reply", "lib/libvfio-user.c:vfu_device_quiesced"]}
{"id": "C55", "title": "Nothing is executed while a quiesce is pending", "statement": "From the moment the device defers a quiesce until it reports completion, no request is read or executed, no callback runs, no DMA region, migration state, interrupt binding or connection changes, and vfu_run_ctx fails with EBUSY, whatever else is called; deferring a request executes nothing of it.", "quantifier": "every schedule", "why_tests_cant": "schedule quantification", "anchors": ["lib/libvfio-user.c:vfu_run_ctx", "lib/libvfio-user.c:get_request", "lib/libvfio-user.c:vfu_device_quiesced"]}
{"id": "C56", "title": "DMA and migration callbacks only run on a quiesced device", "statement": "For a device with a quiesce callback, every DMA register/unregister callback, every migration state callback and every reset callback for a device reset or a lost connection runs after a successful quiesce of the device within the same call of the library, and the device is un-quiesced when the call is over.", "quantifier": "every schedule, request sequence and callback outcome", "why_tests_cant": "temporal property over all executions", "anchors": ["lib/libvfio-user.c:command_needs_quiesce", "lib/libvfio-user.c:get_request", "lib/libvfio-user.c:handle_dma_map", "lib/libvfio-user.c:vfu_device_quiesced"]}
{"id": "C57", "title": "Losing the client resets everything the client established", "statement": "When the connection is lost, and the quiesce it needs succeeds at once or is reported complete later, every DMA region is withdrawn from the device and unmapped, no interrupt is bound, the device's reset callback is called once for a lost connection, the config space is what that callback made of it, and the transport is detached; a new client starts from the same state as the first, except that the page size of dirty logging persists and that the migration state persists if the device refuses the reset; if the quiesce fails nothing is reset. A transfer to or from the client's memory under which the connection breaks fails with ENOTCONN. Witnesses are exhibited.", "quantifier": "every state reachable before the disconnect, every device behaviour", "why_tests_cant": "all histories before the disconnect", "anchors": ["lib/libvfio-user.c:vfu_reset_ctx", "lib/libvfio-user.c:vfu_reset_ctx_quiesced", "lib/irq.c:irqs_reset", "lib/dma.c:dma_controller_remove_all_regions", "lib/libvfio-user.c:vfu_sgl_read"]}
{"id": "C58", "title": "Device reset invokes the reset callback exactly once and resumes running", "statement": "A device-reset request, executed with the device quiesced and outside STOP and STOP_COPY, calls the reset callback exactly once with the device-reset reason; if the callback succeeds the request succeeds and the migration state becomes RUNNING, if it fails the request fails with its errno and the migration state is unchanged; nothing else is changed except what the callback writes into the config space, which is kept.", "quantifier": "all states, request contents and callback outcomes", "why_tests_cant": "all states", "anchors": ["lib/libvfio-user.c:device_reset", "lib/libvfio-user.c:call_reset_cb"]}
{"id": "C59", "title": "Request descriptors are consumed or closed exactly once", "statement": "Over every history, each descriptor received with a request is held by exactly one DMA region, interrupt vector or request still waiting for its quiesce and not closed, or held by none and closed exactly once, and no other descriptor is ever closed; this holds if mmap of the descriptors succeeds and no region is mapped a second time. If mmap fails the descriptor is closed twice, on a repeated mapping it is leaked, and descriptors of truncated messages are lost; witnesses are exhibited.", "quantifier": "all histories of requests, quiesces, disconnects and device behaviours", "why_tests_cant": "resource conservation over all outcomes", "anchors": ["lib/libvfio-user.c:free_msg", "lib/libvfio-user.c:consume_fd", "lib/libvfio-user.c:handle_request"]}
{"id": "C60", "title": "Callback bookkeeping is always restored", "statement": "During every callback the library's notion of the callback it is in is that of the callback that runs (none for region, migration data and interrupt state callbacks); whenever control is back at the caller it is none, and the library never believes the device quiesced unless a quiesce really is in force.", "quantifier": "every schedule and all callback outcomes", "why_tests_cant": "invariant over executions", "anchors": ["lib/libvfio-user.c:call_reset_cb", "lib/libvfio-user.c:handle_request", "lib/libvfio-user.c:vfu_device_quiesced"]}
{"id": "C61", "title": "The server survives every well-formed conversation", "statement": "On a device set up within the documented limits, no sequence of requests, disconnects, quiesces, interrupts and dirty marks makes the server read or write outside its buffers, abort on an assertion or loop for ever, provided that: unmap and feature requests carry the fields they announce, no migration state 8 is requested, dirty logging is used only on a device with DMA, dirty page queries do not wrap around and are not finer than the logging page size, config-space writes cover one header register or lie inside or outside of the capabilities, the device marks only pages of regions backed by a descriptor and does not transfer through the socket while quiescing. For each of these classes a message that the transport delivers is exhibited which brings the server down. The payload assertions of the handlers cannot fail for any byte stream.", "quantifier": "all device configurations within limits, all histories of arbitrary length, all behaviours of system and device within their contracts", "why_tests_cant": "quantifies over all message sequences and device states; a crash needs one particular history", "anchors": ["lib/libvfio-user.c:handle_request", "lib/libvfio-user.c:is_valid_unmap", "lib/dma.c:dma_controller_dirty_page_get", "lib/migration.c:migration_set_state", "lib/pci.c:pci_config_space_access"]}
{"id": "C63", "title": "Mask and unmask requests reach the device's callback exactly once and touch no binding", "statement": "An accepted SET_IRQS mask or unmask request calls the device's interrupt state callback exactly once with the request's type, range and direction (or does nothing if the device set none), changes no binding, signals nothing and takes no descriptor. It applies to the whole range even if the request carries booleans: these are ignored, and a witness is exhibited.", "quantifier": "all accepted mask and unmask requests, device configurations and vector tables", "why_tests_cant": "universal over ranges and payloads; the ignored booleans only show when payload and effect are compared for all payloads", "anchors": ["lib/irq.c:irqs_set_state", "lib/irq.c:handle_device_set_irqs"]}
{"id": "C64", "title": "GET_IRQ_INFO tells the client the configured vector count", "statement": "For every interrupt type the reply of GET_IRQ_INFO, decoded from its bytes, is 16 bytes long and carries the requested type, the eventfd flag and the configured number of vectors; an undersized request or an unknown type is refused with EINVAL.", "quantifier": "all request bodies and device configurations", "why_tests_cant": "universal over request bytes and counts", "anchors": ["lib/irq.c:handle_device_get_irq_info"]}
{"id": "C65", "title": "The region sizes told to the client are the sizes enforced on access", "statement": "For every region table an application can set up, an otherwise well-formed region access is accepted exactly when offset+count is at most the size field of that region's region-info reply, decoded from its bytes; and device info always reports nine regions and five interrupt types to any well-formed request, and refuses undersized ones with EINVAL.", "quantifier": "all sequences of region set-ups and ioeventfd registrations, all region-info requests and all access requests", "why_tests_cant": "relates two handlers over all table contents and all 64-bit offsets and 32-bit counts", "anchors": ["lib/libvfio-user.c:is_valid_region_access", "lib/libvfio-user.c:handle_device_get_info", "lib/libvfio-user.c:handle_device_get_region_info", "lib/libvfio-user.c:vfu_setup_region"]}
{"id": "C66", "title": "A function level reset calls the device's reset callback exactly once", "statement": "A write to the device control register of an emulated PCI Express capability calls the device's reset callback, once, exactly if it sets the initiate-function-level-reset bit, the device capabilities register announces the feature and there is a reset callback, and then succeeds exactly if the callback does, with the callback's error otherwise; setting the bit without the feature is refused with EINVAL and calls nothing; a write without the bit succeeds.", "quantifier": "all capability layouts, register contents and written values", "why_tests_cant": "quantifies over all register contents, layouts and callbacks", "anchors": ["lib/pci_caps.c:handle_px_pxdc_write", "lib/pci_caps.c:cap_write_px", "lib/libvfio-user.c:call_reset_cb"]}
{"id": "C67", "title": "Capability lookup finds exactly the added capabilities", "statement": "In every reachable config space vfu_pci_find_capability and vfu_pci_find_next_capability return the first capability with the id, respectively the first one after the given capability, in order of addition, and ENOENT exactly if there is none; likewise for extended capabilities, except when continuing from the last one, where the search takes the PCI header for a capability and can start over (witness), and in a 256-byte config space, where it aborts (witness).", "quantifier": "all reachable config spaces, ids and starting capabilities", "why_tests_cant": "quantifies over all histories of additions and other changes of the config space", "anchors": ["lib/pci_caps.c:vfu_pci_find_next_capability", "lib/pci_caps.c:vfu_pci_find_next_ext_capability", "lib/pci_caps.c:vfu_pci_find_capability"]}
{"id": "C68", "title": "Destroying a device takes everything down", "statement": "Whatever happened since the context was realized - any requests, lost connections, pending quiesces - vfu_destroy_ctx does not crash and does not call the quiesce callback; it asks the device to reset itself once (reason lost connection), closes the connection and unbinds every interrupt; every mapping of client memory made during the life of the context has then been removed, every region announced to the device has been withdrawn, and every descriptor received with a request has been closed exactly once, except the descriptors of a request that was waiting for its quiesce, which leak.", "quantifier": "all device configurations, all histories of arbitrary length before the destruction, all behaviours of system and device within their contracts", "why_tests_cant": "balance over the whole life of a device for every history; tests destroy after a few fixed requests", "anchors": ["lib/libvfio-user.c:vfu_destroy_ctx", "lib/libvfio-user.c:vfu_reset_ctx", "lib/dma.c:dma_controller_destroy", "lib/dma.c:dma_controller_remove_all_regions", "lib/irq.c:irqs_reset"]}
{"id": "C69", "title": "Documented set-up yields a device that does not crash", "statement": "Any sequence of set-up calls on a new context - regions, ioeventfds, vfu_pci_init, ids, class, capabilities, stores into the config space, interrupts, callbacks, DMA, migration, vfu_realize_ctx, in any order and number, whichever of them run out of memory - that keeps to the documentation (config space calls after vfu_pci_init; the config space region as large as the config space and not mappable; whole capabilities that do not overlap; at most one ERR and REQ interrupt) ends without a crash, and a device realized this way serves every careful conversation (C61) without one. A call refused for its arguments changes nothing, except that refused migration callbacks drop earlier ones. For each kind of misuse a sequence is exhibited that crashes or damages the device.", "quantifier": "all sequences of set-up calls of arbitrary length, all arguments, all allocation failures, then all careful conversations", "why_tests_cant": "quantifies over all orders of set-up calls combined with all later conversations", "anchors": ["lib/libvfio-user.c:vfu_create_ctx", "lib/libvfio-user.c:vfu_realize_ctx", "lib/libvfio-user.c:vfu_setup_region", "lib/pci.c:vfu_pci_init", "lib/pci.c:vfu_pci_set_id", "lib/pci_caps.c:vfu_pci_add_capability", "lib/libvfio-user.c:vfu_setup_device_nr_irqs", "lib/libvfio-user.c:vfu_setup_device_migration_callbacks"]}
{"id": "C70", "title": "A realized device advertises its set-up", "statement": "After any documented set-up in which the device does not itself store into the status register, the BARs and the interrupt pin, a client of the realized device reads in each BAR exactly the type bits of the flags last given to vfu_setup_region (1 for I/O, 4 for 64 bits, 8 for prefetchable; a region nobody set up reads as I/O), in the interrupt pin INTA exactly if there are INTx interrupts, in the status register the capability bit exactly if a standard capability was added; the capability lists are the added ones and every other byte is as set up.", "quantifier": "all sequences of set-up calls of arbitrary length, all region flags", "why_tests_cant": "exact content for all set-ups; tests look at single bits of one device", "anchors": ["lib/libvfio-user.c:vfu_realize_ctx", "lib/libvfio-user.c:vfu_setup_region", "lib/pci.c:pci_config_space_access"]}
{"id": "C71", "title": "The DMA table is what the acknowledged requests say", "statement": "A client that notes, from its own requests and the replies it receives alone, a new entry (range, permissions, file offset, descriptor) for every DMA_MAP of a range it has not mapped that was answered without error, the loss of the entry for exactly the range of every DMA_UNMAP acknowledged with its payload (of all entries with the flag ALL), and the loss of everything when the connection is closed, has at every moment exactly the table of the server: no entry more, none less, none different - whatever other requests, refused requests, deferred quiesces, lost connections, resets and device calls are interleaved, as long as replies can be delivered and were asked for, memory is available and callbacks that fail give an error number. The payload matters: an unmap request with bitmap over two adjacent regions is answered without the error flag and without payload, and removes nothing.", "quantifier": "all device configurations, all histories of API calls and requests of arbitrary length, all behaviours of system, client and device within their contracts", "why_tests_cant": "agreement of two parties over all interleavings of requests, failures and disconnections; tests compare a handful of requests", "anchors": ["lib/libvfio-user.c:handle_dma_map", "lib/libvfio-user.c:handle_dma_unmap", "lib/libvfio-user.c:vfu_run_ctx", "lib/libvfio-user.c:vfu_reset_ctx", "lib/dma.c:dma_controller_add_region", "lib/dma.c:dma_controller_remove_region"]}
{"id": "C72", "title": "DMA requests are answered as the account says", "statement": "After any conversation, a DMA request received by a waiting library is decided by the account of C71 and answered accordingly. DMA_UNMAP: unknown flags, an argsz above 1 MiB or below the size of the reply, an address or size with the flag ALL are answered EINVAL and nothing is removed; the unmap of a range in the account succeeds, the reply repeats the 24 bytes of the request and the entry is gone; of any other range it is answered ENOENT and nothing is removed; with the flag ALL it always succeeds and empties the table. With the bitmap flag, for a logged region that has a file, the reply carries the 40 bytes of the request and a bitmap of the requested size in which exactly the pages of that region written since the last report are set, and the entry is gone. DMA_MAP of a range that ends below 2^64: a payload or argsz below 32 bytes is answered EINVAL; unknown flags EINVAL; a size above the maximum ENOSPC; the same range again succeeds without change if offset, file and permissions agree and is refused with EINVAL otherwise; an overlap or a full table is refused with EINVAL; failures of the system are passed on; otherwise the reply is a success and the entry is in the table.", "quantifier": "all conversations of arbitrary length, all payloads long enough for the fields the server reads, all file and memory behaviours", "why_tests_cant": "decision and effect for every payload after every conversation", "anchors": ["lib/libvfio-user.c:is_valid_unmap", "lib/libvfio-user.c:handle_dma_unmap", "lib/libvfio-user.c:handle_dma_map", "lib/libvfio-user.c:handle_request", "lib/libvfio-user.c:do_reply", "lib/dma.c:dma_controller_add_region", "lib/dma.c:dma_controller_dirty_page_get"]}
{"id": "C73", "title": "A region access reaches exactly its handler, and the client gets its answer", "statement": "A region read or write received by a waiting library is refused with EINVAL, without any region callback, unless it lies entirely inside the region it names, asks for at most 1 MiB, carries as many bytes as it says and the device is not in the migration state STOP_COPY. An access of no bytes succeeds and runs no callback. Otherwise, for a region served by its callback, exactly this callback runs, exactly once, with the region, offset, direction and bytes of the request (zeroes for a read); the reply is a success with the request's region, offset and count, and for a read the bytes of the callback, precisely when the callback returned the count, and an error otherwise. A region without callback answers EINVAL. For the config space without the flag that hands all of it to the device, the answer, the new content and the callbacks are those of the config space emulation. Nothing but the config space changes in the library.", "quantifier": "all region tables with sizes below 2^32, all states of a waiting library, all request payloads, all behaviours of the region callback within its contract", "why_tests_cant": "routing and reply for every payload in every state of the library; tests use single accesses", "anchors": ["lib/libvfio-user.c:handle_region_access", "lib/libvfio-user.c:is_valid_region_access", "lib/libvfio-user.c:region_access", "lib/libvfio-user.c:handle_request", "lib/libvfio-user.c:do_reply", "lib/pci.c:pci_config_space_access"]}
{"id": "C74", "title": "Information requests: constant, complete, without effect", "statement": "The answer of a waiting library to GET_INFO, GET_REGION_INFO, GET_REGION_IO_FDS and GET_IRQ_INFO - error number, payload and descriptors - depends on the set-up of the device and on the request alone: not on earlier requests, the client, the device's callbacks or failures; it changes nothing and runs no callback, not even the quiesce callback. The reply, from header to descriptors, gives: flags, number of regions and five interrupt types; the region's flags, size, offset and, if argsz suffices, its mappable areas with exactly its descriptor; every subregion with the index of its descriptor among those attached, each attached once; the number of vectors of the interrupt type. Requests that are too short, give too small an argsz or name an unknown region or type are answered EINVAL.", "quantifier": "all region tables as the set-up can produce them, all states of a waiting library, all request payloads", "why_tests_cant": "independence of all histories and failures", "anchors": ["lib/libvfio-user.c:handle_device_get_info", "lib/libvfio-user.c:handle_device_get_region_info", "lib/libvfio-user.c:handle_device_get_region_io_fds", "lib/irq.c:handle_device_get_irq_info", "lib/libvfio-user.c:handle_request", "lib/libvfio-user.c:command_needs_quiesce"]}
{"id": "C75", "title": "The client's account of the migration state is the state", "statement": "A client that keeps an account of the migration state from its requests and the replies - running at first and after a lost connection; the requested state after an acknowledged change; unknown after a failed change; the reported state after a query; running after an acknowledged reset - knows the state of the server whenever its account says one, after every history, including requests the device defers and requests without effect; and the state is always one of the five documented ones. A request to change the state leads the device along documented arcs and ends with a success in the requested state, or is answered EINVAL without any callback and leaves the state alone if the target does not exist or cannot be reached, or ends with the device's error in the last state the device acknowledged; a query is answered with the state and changes nothing. Provided the device does not fail to reset itself for a lost connection; a witness shows that otherwise the next client finds the state of the last one.", "quantifier": "all histories of calls, requests, replies, quiesce deferrals and lost connections; all states of a waiting library, all payloads, all answers of the device's callbacks", "why_tests_cant": "unbounded histories and all combinations of failing callbacks and states", "anchors": ["lib/migration.c:migr_trans_to_valid_state", "lib/libvfio-user.c:handle_migration_device_feature_set", "lib/libvfio-user.c:handle_migration_device_feature_get", "lib/libvfio-user.c:handle_device_feature", "lib/libvfio-user.c:device_reset", "lib/libvfio-user.c:vfu_reset_ctx_quiesced", "lib/libvfio-user.c:do_reply"]}
{"id": "C76", "title": "Migration data: exactly the bytes of the device, within the limits of the connection", "statement": "The limits in force are those the last client announced in a negotiation that succeeded. A request for migration data in PRE_COPY or STOP_COPY whose size is within the limit and within its argsz makes the library ask the device once, for exactly this size and with room for it; the reply announces and carries the bytes the device produced, or its error. A request that delivers migration data in RESUMING, within the limit, within its argsz and complete, hands the device exactly these bytes, once, and succeeds precisely if the device takes all of them. Every other such request is answered EINVAL and does not reach the device. None of this changes the migration state, the mappings, the interrupts or the config space.", "quantifier": "all histories (limits); all states of a waiting library, all payloads, all answers of the device within its contract", "why_tests_cant": "all sizes, states and histories of reconnecting clients", "anchors": ["lib/migration.c:handle_mig_data_read", "lib/migration.c:handle_mig_data_write", "lib/tran.c:recv_version", "lib/libvfio-user.c:handle_request", "lib/libvfio-user.c:do_reply"]}
{"id": "C77", "title": "A function level reset finds the device quiesced", "statement": "In every history of a device with a quiesce callback and one PCI Express capability, whose client never sends a config space write that starts before the device control register and ends right behind it, the device has been asked to quiesce and has done so whenever a function level reset runs its reset callback. A function level reset requested by a two-byte write to that register runs the quiesce callback, then the reset callback, nothing else, and the reply carries the result of the reset callback. (A longer write that runs into the register from the capability before resets a device that was never asked to quiesce.)", "quantifier": "all histories of requests, device calls and callback results; all capability layouts and region tables", "why_tests_cant": "a test sees the few writes it sends; the claim ranges over every history and every layout, and the exception needs a write that spans two capabilities", "anchors": ["lib/pci_caps.c:access_is_pci_cap_exp", "lib/pci_caps.c:handle_px_pxdc_write", "lib/libvfio-user.c:command_needs_quiesce", "lib/libvfio-user.c:call_reset_cb", "lib/pci.c:pci_config_space_next_segment"]}
{"id": "C78", "title": "The client's account of the interrupts", "statement": "A client that keeps its own account of where the device's interrupts go, from nothing but the SET_IRQS requests it sent and the replies it got, is right: an acknowledged trigger-action request with eventfds binds them to the vectors named, one without eventfds of data type eventfd unbinds the vectors named, one with count 0 and data type none unbinds every vector of the type; mask and unmask, loop-back triggers, refused requests and every other command change no binding; a lost connection unbinds all of them. At any time vfu_irq_trigger on a vector signals exactly the eventfd the account names, fails with ENOENT when the account has none and the vector exists, and with EINVAL when no interrupt type has it. End to end, with the device not quiescing: a malformed SET_IRQS is answered EINVAL and its descriptors are closed; a bind closes the eventfds it replaces and nothing else; an unbind closes exactly those of the range; a loop-back signals the bound eventfds of the selected vectors in order up to the first whose write fails, whose errno is the reply; mask and unmask call the device's callback for that type once with the range. Provisos: the client asks for replies to SET_IRQS; requests run to completion (C61); it unbinds ranges only from vector 0 on (a range starting higher is acknowledged although vectors stay bound).", "quantifier": "all interrupt configurations with fewer than 2^32-1 vectors per type and at most one ERR and REQ vector, all histories of API calls and client messages, all eventfd outcomes", "why_tests_cant": "Tests bind a handful of vectors and trigger them; that the client's view stays right through any interleaving of binds, rebinds, partial unbinds, refusals, deferred requests and reconnects needs an induction over all histories.", "anchors": ["lib/irq.c:handle_device_set_irqs", "lib/irq.c:irqs_disable", "lib/irq.c:irqs_set_data_eventfd", "lib/irq.c:vfu_irq_trigger", "lib/irq.c:irqs_reset", "lib/libvfio-user.c:handle_request"]}
{"id": "C79", "title": "The device a client finds is the device that was set up", "statement": "Whatever sequence of documented set-up calls was made, in any order, with repetitions and failures, the device that is served is described by the last accepted call of each kind: GET_IRQ_INFO reports the count of the last accepted vfu_setup_device_nr_irqs (one for ERR and REQ, zero otherwise, if there was none); GET_REGION_INFO of a region other than the config space reports size (modulo 2^32), offset, access flags and mappability of the last accepted vfu_setup_region, with its areas and its descriptor; sizing a BAR by writing all ones yields the region's size beside its kind; vendor, device, subsystem ids and class code read back as the last vfu_pci_set_id / vfu_pci_set_class gave them; the quiesce, reset, interrupt-state, DMA register and unregister callbacks in force are those of the last call that set or cleared them; DMA (64 regions, 8 TiB) and migration are served exactly if their last set-up succeeded. Interrupt types from 5 on, migration versions other than 2, unknown PCI types and a second vfu_pci_init are refused. Provisos: a region that had a descriptor is not set up again without one (its areas survive, and clients asking for it get no reply); the device does not store over the ids itself.", "quantifier": "all sequences of documented set-up calls and allocation outcomes, all register contents and client requests", "why_tests_cant": "Tests set a device up once, in one order; that no later or failed call leaks into what an earlier one decided, and that every table entry reaches the client unchanged, needs an induction over all sequences of calls.", "anchors": ["lib/libvfio-user.c:vfu_setup_region", "lib/libvfio-user.c:vfu_setup_device_nr_irqs", "lib/libvfio-user.c:vfu_setup_device_dma", "lib/libvfio-user.c:vfu_setup_device_migration_callbacks", "lib/libvfio-user.c:vfu_setup_device_quiesce_cb", "lib/libvfio-user.c:vfu_realize_ctx", "lib/pci.c:vfu_pci_set_id", "lib/pci.c:vfu_pci_set_class", "lib/pci.c:pci_hdr_write_bar"]}
{"id": "C80", "title": "A report names exactly the pages written since the last one", "statement": "Over any conversation in which replies are wanted, page sizes are powers of two, and reports and removals with report name ranges the client mapped (at the page size of the log), a client that knows its requests, the replies and the guest addresses the device wrote knows every report in advance: a DEVICE_FEATURE report (DMA_LOGGING_REPORT) has the bit of page p set iff the device wrote a byte of page p (counted from the start of the range) while the range was mapped and logging was on, and since then the range was not reported or removed with success, logging was not stopped, all ranges were not removed and the connection was not lost. Failed requests take no page from the record. A request to report a file-backed range at the page size of the log is answered with that bitmap, and the removal of the range with report likewise. Outside the provisos pages are lost: a report of the first pages of a range erases the record of later ones, and a removal with report of the first pages fails and erases it too.", "quantifier": "all histories of client requests, device writes, connections and resets; all ranges, page sizes and pages", "why_tests_cant": "Tests start a log, write a page and read it back; that no page is ever lost or invented needs an induction over all histories of maps, unmaps, starts, stops, reports, failures and writes.", "anchors": ["lib/dma.c:dma_controller_dirty_page_get", "lib/dma.c:dma_controller_dirty_page_logging_start", "lib/dma.c:dma_controller_dirty_page_logging_stop", "lib/dma.c:dirty_page_get_same_pgsize", "lib/libvfio-user.c:handle_dma_device_feature_get", "lib/libvfio-user.c:handle_dma_device_feature_set", "lib/libvfio-user.c:handle_dma_unmap", "lib/dma.h:dma_sgl_mark_dirty"]}
{"id": "C81", "title": "A device on a pipe reads the same requests as on a socket", "statement": "Whatever the bytes on the incoming pipe and however the reads cut them, the request loop on the pipe transport reads the same messages, reports the same errors and stands at the same place of the stream as it would on a socket carrying the same bytes without descriptors. In particular a stream of well-formed requests is read as exactly those requests. The version request is read as on a socket if it arrives in one piece; if its payload arrives in two pieces the connection is refused with ECONNRESET, while the socket transport waits for the rest.", "quantifier": "all byte streams, all numbers of reads, all ways of cutting the stream into reads", "why_tests_cant": "Tests use the pipe with a peer that writes whole messages; the way a stream is cut into reads is decided by the kernel.", "anchors": ["lib/tran_pipe.c:tran_pipe_get_msg", "lib/tran_pipe.c:tran_pipe_get_request_header", "lib/tran_pipe.c:tran_pipe_recv_body", "lib/tran_pipe.c:tran_pipe_recv_msg", "lib/tran_sock.c:get_msg"]}
{"id": "C82", "title": "Replies and commands on a pipe", "statement": "On a pipe that takes everything, a reply or command is the message the socket transport would send except that its size field is 0. Consequently the library's own receiver takes an error reply, and refuses with EINVAL every other reply and every command. A reply of which the pipe took only a part is reported as sent.", "quantifier": "all request headers, error numbers, payloads and results of writev", "why_tests_cant": "A test sees the bytes it compares; none compares the size field, and a short write on a pipe cannot be provoked at will.", "anchors": ["lib/tran_pipe.c:tran_pipe_send_iovec", "lib/tran_pipe.c:tran_pipe_reply", "lib/tran_pipe.c:tran_pipe_send_msg", "lib/tran_pipe.c:tran_pipe_recv", "lib/libvfio-user.c:is_valid_header"]}
{"id": "C83", "title": "The transport's descriptors are never leaked and never closed twice", "statement": "From vfu_create_ctx to vfu_destroy_ctx, over any sequence of vfu_attach_ctx calls and losses of the connection and whatever fails (socket, fcntl, bind, listen, accept, negotiation, socketpair, sending the version), the socket transport has open exactly the listening socket, the connection if there is one and the command socket if one was negotiated, each once; it closes nothing else and nothing twice. A failed attach leaves everything as it was; an attach while connected is refused with EINVAL. The descriptor to poll and the one commands go to are open: the connection while there is one, else the listening socket. After vfu_destroy_ctx nothing the transport opened is open and the socket is gone from the file system; a failed creation leaves nothing behind.", "quantifier": "all histories of attach and detach, all results of the system calls, all fresh descriptor numbers", "why_tests_cant": "Failures of socketpair, bind or sendmsg in the middle of an attach are rare, and a leaked or doubly closed descriptor shows only when its number is used again.", "anchors": ["lib/tran_sock.c:tran_sock_init", "lib/tran_sock.c:tran_sock_attach", "lib/tran_sock.c:tran_sock_detach", "lib/tran_sock.c:tran_sock_fini", "lib/tran_sock.c:tran_sock_get_poll_fd", "lib/tran.c:tran_negotiate"]}
{"id": "C84", "title": "Deferring a quiesce changes only the timing", "statement": "A device may answer the quiesce callback with EBUSY and report later, through vfu_device_quiesced, that it is quiesced. Provided replies can be sent and the device reports success, whatever it defers and however long, everything that happens could have happened with a device that never defers: the same requests are taken in the same order (but for one still held back), the client receives the same replies, the device the same callbacks, the operating system the same mapping, closing and signalling calls, all in the same order, and the context ends in the same state. No request is lost, doubled or overtaken because of a deferral. If the reply cannot be sent the two differ: a device that quiesced at once is asked to quiesce a second time during the same call.", "quantifier": "all histories of requests, losses of connection, device calls and answers of the quiesce callback; all configurations", "why_tests_cant": "A test defers one chosen request at one chosen moment; the claim compares all interleavings of deferred work with polling, interrupts and device calls.", "anchors": ["lib/libvfio-user.c:process_request", "lib/libvfio-user.c:vfu_device_quiesced", "lib/libvfio-user.c:vfu_reset_ctx", "lib/libvfio-user.c:vfu_run_ctx"]}
{"id": "C85", "title": "From the bytes a client writes to the replies it reads", "statement": "A client that writes well-formed requests, each as a whole but in whatever portions and at whatever moments, to a device driven by any mixture of blocking and non-blocking vfu_run_ctx and calls of its own (sockets and memory working, deferred quiesces ending well, no undefined behaviour): at every moment what it wrote falls into the requests taken and those still in the socket, and the messages sent are the replies to the requests taken that want one, one each and in order, except for a request held back for a quiesce. Once the client has closed its end, a blocking vfu_run_ctx with a device that quiesces at once serves everything written and then returns -1 with ENOTCONN, with the connection closed. A blocking call only ever returns -1; a non-blocking one returns at once, with the number (0 or 1) of requests it handed to their handlers or -1. An application that polls is served exactly as one that blocks, and the counts it gets add up. Without the proviso that requests arrive whole this fails: a non-blocking call refuses with EAGAIN a request whose payload has not arrived and takes the payload for the next request.", "quantifier": "all sequences of writes, calls, rounds of the loop and device calls; all requests, configurations and environments", "why_tests_cant": "Tests write one request and read one reply; the claim is about all interleavings of arrivals with rounds of the loop.", "anchors": ["lib/libvfio-user.c:vfu_run_ctx", "lib/libvfio-user.c:get_request", "lib/libvfio-user.c:handle_request", "lib/tran_sock.c:tran_sock_get_request_header", "lib/tran_sock.c:tran_sock_recv_body"]}
{"id": "C86", "title": "A DMA address is the same memory for client and device", "statement": "After any conversation, a device that translates a range with vfu_addr_to_sgl (once more with as many entries as it is told are needed) and accesses each entry through vfu_sgl_get, or through vfu_sgl_read/vfu_sgl_write if that fails, reads exactly the bytes the client has at those DMA addresses, and writes as if the client itself stored the bytes there: address a of a region mapped with a descriptor is the byte of that file at the region's file offset plus a minus its start, address a of a region without descriptor is the byte the client serves for a. What is mapped, where and with which permissions is taken from the client's own account of its acknowledged requests. Nothing else is changed, and written bytes read back unless two of the addresses are the same byte of a file. A range with an address the client has not mapped, or not for writing, is not translated. Provisos: ranges below 2^64, file offsets that are multiples of the page size (otherwise see C07), mappings at distinct local addresses, a client that serves its memory and transfers of at most 1 MiB at a time.", "quantifier": "all conversations, ranges, contents of files and memory, scatter/gather hints and transfer limits", "why_tests_cant": "Tests compare single buffers; the claim is about every byte of every range, for every history of mappings, through both ways of access.", "anchors": ["lib/dma.h:dma_addr_to_sgl", "lib/dma.h:dma_sgl_get", "lib/dma.c:dma_map_region", "lib/libvfio-user.c:vfu_dma_transfer", "lib/libvfio-user.c:vfu_sgl_read", "lib/libvfio-user.c:vfu_sgl_write", "lib/libvfio-user.c:handle_dma_map"]}
{"id": "C87", "title": "The identity and the capabilities of a device are constant over a conversation", "statement": "Whatever clients send, and through replies, resets, lost and new connections, the bytes of the config space that identify the device stay what the device set up: vendor and device id, status, revision and class code, header type, CardBus pointer and subsystem ids, capability pointer, interrupt pin. While in addition each config space write of the clients lies in the header, inside one capability, or outside of both, the headers of all capabilities and every byte of the read-only ones stay as well, both capability lists stay those the device built, and a REGION_READ of such bytes at any time is answered with exactly the bytes that were set up. One write that runs out of a capability can replace the read-only capability behind it for this client and all later ones. Provisos: callbacks of the device touch no other bytes of the config space than those they are called for (the reset callback none), the device does not itself change the bytes in question; for the capabilities, no region callback serves the config space.", "quantifier": "all conversations, all requests, all behaviours of system and device within the provisos, all capability layouts vfu_pci_add_capability builds", "why_tests_cant": "A test writes a few registers and reads them back; the claim is about every sequence of requests over any number of connections.", "anchors": ["lib/pci.c:pci_config_space_access", "lib/pci.c:pci_hdr_write", "lib/pci_caps.c:pci_cap_access", "lib/libvfio-user.c:handle_region_access", "lib/libvfio-user.c:vfu_reset_ctx", "lib/libvfio-user.c:vfu_run_ctx"]}
{"id": "C88", "title": "Replies carry no uninitialised memory of the server, except in the dirty bitmap of an unmap", "statement": "What freshly allocated memory of the server happens to contain changes no state, no callback and no byte sent to the client, over whole conversations, with one exception: the bytes after the echoed request in replies to DMA_UNMAP with the dirty bitmap flag. A client that asks for dirty bitmaps only for non-empty ranges and only in the page size of the log receives exactly the same bytes whatever the memory contained. The exception is real: for every mapped region of size 0 such an unmap succeeds and its reply consists of the echo and as many bytes of uninitialised heap as the client asked for (up to 1 MiB), whether or not pages are logged; and with another page size than the log's the bits reported are OR-ed onto uninitialised memory.", "quantifier": "all configurations, all histories of calls, all pairs of contents of allocated memory", "why_tests_cant": "Uninitialised memory is usually zero in a fresh test process; the claim compares two runs for all possible contents of the heap.", "anchors": ["lib/libvfio-user.c:handle_dma_unmap", "lib/dma.c:dma_controller_dirty_page_get", "lib/dma.c:dirty_page_get_same_pgsize", "lib/dma.c:dirty_page_get_extend", "lib/dma.c:dirty_page_get_combine", "lib/dma.h:dma_addr_to_sgl"]}
{"id": "C89", "title": "A client inherits nothing from earlier clients", "statement": "Take two devices of the same kind, each after an arbitrary history of earlier clients and however the last client was lost (connection error, failed reply, failed DMA transfer, deferred reset), at a time when no client is connected. If their config spaces are equal and dirty page logging is in the same state, every conversation that follows is the same on both: the same replies, callbacks, mappings and closed descriptors, in the same order. In particular, if logging is off, the next client is served like the first client of a freshly realized device with that config space. This requires that the device accepted the resets and that logging is off; both provisos are necessary: dirty page logging left on by an earlier client changes the replies to the next one, and after a refused reset a stopped device refuses the next client's mappings.", "quantifier": "all configurations, all pairs of histories, all following conversations", "why_tests_cant": "A comparison of two executions for all earlier histories and all later conversations; tests reconnect after a handful of fixed sessions.", "anchors": ["lib/libvfio-user.c:vfu_reset_ctx", "lib/libvfio-user.c:vfu_reset_ctx_quiesced", "lib/libvfio-user.c:vfu_attach_ctx", "lib/libvfio-user.c:do_reply", "lib/dma.c:dma_controller_remove_all_regions", "lib/irq.c:irqs_reset"]}
{"id": "C90", "title": "A config register keeps what was last written to it", "statement": "When the library serves config space alone, and a client's write of one header register, or of bytes inside one capability, has been acknowledged, any later read of the same bytes is answered successfully with what the data sheet prescribes for that write: the bits that belong to the client (six bits of the command register, cache line size, latency timer, interrupt line; power management control; MSI enable, vector count, address, data, mask; MSI-X mask and enable; PCI Express device control without the reset bit, device control 2, link control 2; all of vendor capabilities) have the written value and all other bits their old value. A base address register returns the address or'ed with its type bits, after all ones the negated region size or'ed with them, and its old value when it has no region; the expansion ROM register returns zero after zero and its old value otherwise. This holds whatever happens between the write and the read - other requests, resets, migration, loss of the connection, other clients - as long as nobody writes to those bytes.", "quantifier": "all devices built by adding capabilities, all earlier histories, all acknowledged writes, all conversations in between, all later reads", "why_tests_cant": "Tests write a few registers and read them back at once; the claim is about every register, every value and every conversation in between, and needs the frame property of all the other requests.", "anchors": ["lib/pci.c:pci_config_space_access", "lib/pci.c:pci_hdr_write", "lib/pci.c:pci_hdr_write_bar", "lib/pci.c:handle_command_write", "lib/pci.c:handle_erom_write", "lib/pci_caps.c:pci_cap_access", "lib/pci_caps.c:cap_write_msi", "lib/pci_caps.c:cap_write_msix", "lib/pci_caps.c:cap_write_px", "lib/libvfio-user.c:handle_region_access"]}
{"id": "C91", "title": "What the device says it can do, it can do", "statement": "DEVICE_FEATURE with PROBE is answered with a copy of the request exactly if the feature is known (migration: get; migration state: get and set; dirty page logging: start set, stop set, report get) and every operation asked for exists, and with EINVAL otherwise; it changes nothing and calls nothing. Requests for anything not offered - without migration support, for unknown features, missing operations, unknown flags, no operation or two without PROBE - are refused with EINVAL, change nothing and reach no device callback but quiesce. The kinds of migration the device announces are exactly those it serves: if and only if the bit for STOP_COPY, peer-to-peer or PRE_COPY is set, a request to enter that state is served by a running, willing device; for an absent bit it is refused in every state. A device without DMA offers dirty page logging all the same, and a client that takes the offer brings the server down; this is exhibited.", "quantifier": "all flag words, all states of the device, all requests", "why_tests_cant": "Tests try a few flag words; the claim ranges over all 2^32 of them and ties an announcement to what later requests do.", "anchors": ["lib/libvfio-user.c:handle_device_feature", "lib/libvfio-user.c:device_feature_flags_supported", "lib/libvfio-user.c:handle_migration_device_feature_get", "lib/libvfio-user.c:handle_dma_device_feature_set", "lib/migration.c:migration_set_state"]}
{"id": "C92", "title": "The device hears only what its client asked for", "statement": "In every history, each callback of the device has a cause. It asks the device to quiesce; or it is what the request at hand asks for, with the values of that request; or it belongs to a client that is gone. The request at hand is one the client sent: in this call, or in an earlier call if it had to wait until the device announced that it is quiet. The values are: the address and length of a DMA map or unmap (every mapping if the unmap says all), the region, the direction and a range inside the one requested for a region access, with the very bytes of a write, the interrupt index, range and action, the size or the data of a migration transfer. A function level reset comes from a write to config space, a device reset from a device reset request, a change of the migration state from a request that sets it. The callbacks for a client that is gone are DMA unregistrations and a reset with reason lost connection, and the connection is given up in the same call.", "quantifier": "all histories of requests, client losses and delayed quiesces, all answers of the callbacks, all failures of sending", "why_tests_cant": "A test sees the callbacks of the requests it sends; that no other callback runs, with other arguments or at another time, is a statement about all requests and all states.", "anchors": ["lib/libvfio-user.c:handle_request", "lib/libvfio-user.c:process_request", "lib/libvfio-user.c:vfu_device_quiesced", "lib/libvfio-user.c:handle_region_access", "lib/libvfio-user.c:vfu_reset_ctx_quiesced", "lib/irq.c:irqs_set_state", "lib/pci.c:pci_config_space_access"]}
{"id": "C93", "title": "The migration stream arrives unchanged", "statement": "Over every conversation in which the socket and memory serve, the client asks for replies to its data transfers and the device's migration callbacks keep their contract (no more bytes than asked for; all of the bytes offered or an error): the bytes the client collected from the replies to MIG_DATA_READ, taking from each reply that is no error as many as its size field says, are exactly the bytes the device handed out, and the bytes the client was told are delivered, those of every MIG_DATA_WRITE not answered with an error, are exactly the bytes the device took; in order, with none lost, repeated or changed, whatever other requests, errors, delays and disconnections come in between. So a client that gives to one device what it collected from another makes the second take what the first handed out. Without replies the bytes of a read are lost, and a device that takes only part of a write leaves its client with EINVAL; both are exhibited.", "quantifier": "all conversations with any requests, errors, refusals, delays and disconnections; all contents and sizes", "why_tests_cant": "Tests move a few blocks between a sample device and a sample client; that no interleaving of errors, refusals and other requests loses or repeats a byte is a statement about all conversations.", "anchors": ["lib/migration.c:handle_mig_data_read", "lib/migration.c:handle_mig_data_write", "lib/libvfio-user.c:handle_request", "lib/libvfio-user.c:do_reply"]}
{"id": "C94", "title": "Dirty bitmaps are freed once", "statement": "Over every history of DMA requests, dirty logging requests and device reports: the table that keeps its dirty bitmaps behind pointers gives the replies, callbacks and page states of one that holds them itself, so no bitmap is used after it was freed, freed twice or shared by two regions; and every bitmap allocated was freed, belongs to a region of the table, or belonged to a region unmapped while it had one. If no region is unmapped while logging is on, none is lost and all are freed once logging is off. Otherwise each region unmapped while logging is on loses its bitmap for good: a client can make the server lose any number of them with an empty table and logging off at the end, which is exhibited.", "quantifier": "all histories of map, unmap, start, stop, query and mark with any failure of calloc, malloc and mmap; all table sizes", "why_tests_cant": "A leak checker sees only the histories that are run; the library's tests do not unmap while logging is on. That no order of requests frees a block twice is a statement about all histories.", "anchors": ["lib/dma.c:dma_controller_remove_region", "lib/dma.c:dma_controller_remove_all_regions", "lib/dma.c:dma_controller_add_region", "lib/dma.c:dma_controller_dirty_page_logging_start", "lib/dma.c:dma_controller_dirty_page_logging_stop", "lib/dma.c:dirty_page_logging_start_on_region"]}
{"id": "C95", "title": "Too little memory for a reply", "statement": "When the allocation of reply bodies fails during a call, a request goes as it would with memory (those whose handler allocates nothing, and those refused for their content, which get the same plain error reply), or ends the process exactly as it would with memory, or comes to nothing: no device callback other than quiesce is made, device, interrupts, mappings and migration state stay as they were, its descriptors are closed, and from then on the server behaves as if the request had never arrived. A request of a kind that needs memory is never carried out in part. An unmap request that comes to nothing is answered ENOMEM; all others are not answered at all although the client asked for a reply, and the call fails with EFAULT, which is exhibited.", "quantifier": "all states between calls, all requests, newly arrived or waiting for the device, with a socket that takes what it is given", "why_tests_cant": "Tests run with memory to spare, or fail single allocations in single handlers; that every handler allocates before it acts, for every request and state, is a statement about all of them.", "anchors": ["lib/libvfio-user.c:handle_request", "lib/libvfio-user.c:do_reply", "lib/libvfio-user.c:handle_device_feature", "lib/libvfio-user.c:handle_region_access", "lib/libvfio-user.c:handle_dma_unmap", "lib/migration.c:handle_mig_data_read", "lib/tran_sock.c:tran_sock_send_iovec"]}
{"id": "C96", "title": "Memory of a request is freed once", "statement": "Whatever requests arrive, whatever the device does in its callbacks, wherever memory runs out and whenever the connection breaks, the memory the library allocates to handle requests, replies, DMA transfers and version messages is never freed twice, never used after it was freed or before it was allocated, and no pointer that may be NULL is followed unchecked. Between calls, exactly the memory of a request that is held back for a quiesce is still allocated; so a server with no such request has freed everything. Two exceptions are exhibited: the version message of a client that wants a second socket is lost when the socket cannot be made, and a request held back is lost when the context is destroyed. A device that reads or writes client memory in a callback made for a request that was held back runs into an assertion.", "quantifier": "all sequences of calls of vfu_run_ctx, vfu_device_quiesced, vfu_sgl_read, vfu_sgl_write, vfu_attach_ctx and vfu_destroy_ctx; all ways through the handlers; all patterns of failing allocations", "why_tests_cant": "A leak checker sees the paths that were run. The error paths multiply: each of seven allocations can fail for each of eighteen commands, with or without descriptors, at once or after a quiesce, with the connection lost before or after.", "anchors": ["lib/libvfio-user.c:free_msg", "lib/libvfio-user.c:alloc_msg", "lib/libvfio-user.c:get_request", "lib/libvfio-user.c:handle_request", "lib/libvfio-user.c:vfu_device_quiesced", "lib/libvfio-user.c:vfu_dma_transfer", "lib/tran_sock.c:tran_sock_reply", "lib/tran_sock.c:tran_sock_recv_body", "lib/tran.c:tran_negotiate"]}
{"id": "C97", "title": "What the server announces", "statement": "The reply to a version request that the server agrees to announces 8 descriptors to a message, 1 MiB of data to a transfer, the page size exactly if the device can be migrated, and a second socket exactly if its descriptor comes with the reply, as number 0. The server's major version and the smaller of the two minor versions stand before it, a NUL after it, and by the rules by which the server itself reads a client's version message this reply is well-formed and means exactly that. When memory is short, nothing is sent and the negotiation fails with ENOMEM exactly if one of the allocations other than those of the numbers fails; otherwise the same announcement goes out, except that a number may be null, which those rules refuse; this is exhibited. For a client that is refused anyway memory does not matter. The server does not hold to the announced size for migration data: what a client may deliver at a time is limited by what that client said it can receive.", "quantifier": "all version requests, with or without migration, with or without a second socket, all patterns of failing allocations, all printers and parsers that agree about the document", "why_tests_cant": "Tests compare one reply with one expected text. That announcement, descriptors and the server's own parser agree for every combination, and what is left of the announcement for every allocation that fails, is a statement about all of them.", "anchors": ["lib/tran.c:format_server_capabilities", "lib/tran.c:send_version", "lib/tran.c:tran_negotiate", "lib/tran.c:json_add_uint64", "lib/migration.c:handle_mig_data_write"]}
{"id": "C98", "title": "Whether an entry is mappable", "statement": "For an entry that vfu_addr_to_sgl has just given out, vfu_sg_is_mappable says yes exactly if the client mapped the region with a descriptor, and then vfu_sgl_get gives its address, while no means that vfu_sgl_get fails with EFAULT. The answer stays the same as long as neither that region nor one before it is unmapped, and however old the entry, the call reads inside the table. The table of slots in memory, with the leftovers that removals and failed maps leave past the last region, gives the same replies, events, translations and addresses as the list of regions that are mapped. The call itself does look at leftovers: after the last region has been unmapped its entry is still said to be mappable, although vfu_sgl_get refuses it with EINVAL and the memory is gone; this is exhibited.", "quantifier": "all histories of map, unmap and dirty logging requests with any outcome of fstat, mmap and calloc, all translations with any region hint, all entries they return, all later histories", "why_tests_cant": "A test maps one region and asks once. That leftovers never shine through except in this call, and that an old entry never leads outside the table, are statements about all histories.", "anchors": ["lib/dma.c:dma_sg_is_mappable", "lib/libvfio-user.c:vfu_sg_is_mappable", "lib/dma.c:array_remove", "lib/dma.h:dma_addr_to_sgl", "lib/dma.h:dma_sgl_get"]}
{"id": "C99", "title": "Memory of a device is freed once", "statement": "Whatever set-up functions a device calls after vfu_create_ctx, in whatever order, refused, failing for want of memory or succeeding, every block of memory of the context is used only between its allocation and its release and is released at most once. A vfu_create_ctx that fails leaves nothing behind. After vfu_destroy_ctx nothing is left if no controller, migration state or region was set up twice and no region with ioeventfds was set up again without memory; otherwise exactly the blocks set up first are left, and the ioeventfds of such a region; this is exhibited. Without memory for the path or the regions vfu_create_ctx does not fail but crashes, whatever else happens.", "quantifier": "all sequences of calls of vfu_create_ctx, the set-up functions, vfu_realize_ctx and vfu_destroy_ctx, all outcomes of all allocations and of the transport's initialisation", "why_tests_cant": "Tests destroy a few devices under a leak checker with allocations that succeed. The claim is about every order of calls and every allocation that fails.", "anchors": ["lib/libvfio-user.c:vfu_create_ctx", "lib/libvfio-user.c:vfu_destroy_ctx", "lib/libvfio-user.c:free_regions", "lib/libvfio-user.c:copyin_mmap_areas", "lib/libvfio-user.c:vfu_setup_device_dma", "lib/migration.c:init_migration"]}
{"id": "C100", "title": "Clients come one after the other, and each has one complete conversation", "statement": "Whatever clients were served before, a client that opens with a version message the server agrees to reads first the answer to that message and then exactly the replies to its own requests, one each and in order, of those taken so far; the limits in force are those it asked for. A client that wrote everything and closed its end is served to the end by one blocking vfu_run_ctx, which then returns -1 with ENOTCONN, and the context waits for the next client. A client whose version message cannot be agreed to reads one refusal (EINVAL), nothing else of what it wrote is looked at, and the context stays as it was. Every client that is attached finds a context without connection and without open request, and, unless dirty pages are being logged, everything it and all later clients are told is what they would be told by a freshly realized device with the same config space.", "quantifier": "all configurations, all sequences of clients, all messages, all interleavings of arriving bytes, blocking and non-blocking calls and calls of the device; reset callbacks accepted for the last part", "why_tests_cant": "A test plays a few fixed conversations with a few clients; it cannot range over every sequence of clients and every byte stream, nor compare the whole later service of two devices with different pasts.", "anchors": ["lib/tran_sock.c:tran_sock_attach", "lib/tran.c:tran_negotiate", "lib/libvfio-user.c:vfu_attach_ctx", "lib/libvfio-user.c:vfu_run_ctx", "lib/libvfio-user.c:vfu_reset_ctx"]}
{"id": "C101", "title": "Pre-copy migration loses no byte", "statement": "While a range stays mapped and logged, and in whatever order the device stores and marks bytes, the client copies bytes and asks for reports of the range, and other calls come in between, a byte of the range that differs at the destination is one that the device stored and has not marked since, or one that a report named (or the first pass owes) and the client has not copied since, or one that the next report names. Once the device has stopped and has marked what it stored, the last report is answered, and a client that copies what that report names and what it still owes has exactly the memory of the source. Marking must come after the store: a device that marks first can lose the byte, although the client did all it was told.", "quantifier": "all configurations, histories before, interleavings of stores, marks, copies, reports and other calls, ranges and page sizes, under the rules of C80 for client and device", "why_tests_cant": "Whether a byte is lost depends on how stores, marks, copies and reports interleave over the whole migration; a test runs a few interleavings.", "anchors": ["lib/dma.h:dma_sgl_mark_dirty", "lib/dma.h:dma_sgl_put", "lib/dma.c:dma_controller_dirty_page_get", "lib/libvfio-user.c:handle_dma_device_feature_get"]}
{"id": "C102", "title": "A device on a pipe behaves as on a socket, except at the end of the stream", "statement": "On a pipe (VFU_TRANS_PIPE), whatever arrives in whatever pieces and whatever else the device calls, what the device is asked for and the state it gets into are those of a device on a socket that receives the same messages; replies are the same except that their size field is zero and that descriptors do not travel. The transport does not learn that the client is gone: at the end of the stream every vfu_run_ctx resets the context and the device again and returns -1 with ENOTCONN (on a socket only the first one resets), while the client's regions are taken away once. vfu_attach_ctx on a pipe does not ask whether a client is attached: if it fails, the context keeps everything that client established, vfu_run_ctx returns -1 with EBADF and does nothing, and the next client that attaches inherits all of it.", "quantifier": "all configurations, byte streams, ways the stream is cut, and interleavings with calls of the device; all numbers of calls at the end of the stream; writes to the pipe that take all or fail", "why_tests_cant": "A test feeds a few streams; that two transports serve every stream alike, and what any number of calls after the end does, takes an argument over all streams and histories.", "anchors": ["lib/tran_pipe.c:tran_pipe_attach", "lib/tran_pipe.c:tran_pipe_get_request_header", "lib/tran_pipe.c:tran_pipe_detach", "lib/tran_pipe.c:tran_pipe_reply", "lib/libvfio-user.c:vfu_run_ctx", "lib/libvfio-user.c:vfu_reset_ctx"]}
{"id": "C103", "title": "Requests and DMA messages at the same time", "statement": "If a second socket was agreed upon, requests and DMA messages do not get into each other's way: in whatever order the client writes requests, the server reads them and the device calls vfu_sgl_read and vfu_sgl_write, and whatever the client answers, the requests read are those read without the transfers, and the transfers come out as without the requests. On one socket the same comes out for a client that serves its memory, provided the server has read all that the client has written whenever a transfer starts. Otherwise the transfer fails with EPROTO or EINVAL at its first message although the client has done what it was asked for, and the request is lost: its header is gone, its payload and then the client's answer are read as requests. That a region write thereby resets the device is exhibited.", "quantifier": "all clients, all interleavings of requests and transfers, all requests, all scatter/gather entries and negotiated sizes", "why_tests_cant": "The tests serve a transfer or a request. What happens when both are under way depends on the order, the contents of the request and the sizes; that a second socket separates them is a statement about every interleaving.", "anchors": ["lib/tran_sock.c:tran_sock_send_msg", "lib/tran_sock.c:tran_sock_recv_fds", "lib/tran_sock.c:tran_sock_msg_iovec", "lib/tran_sock.c:maybe_print_cmd_collision_warning", "lib/libvfio-user.c:vfu_dma_transfer"]}
{"id": "C104", "title": "The order of the set-up calls does not matter across topics", "statement": "A set-up call between vfu_create_ctx and vfu_realize_ctx concerns one topic: one region, the config space (region 7 and the vfu_pci_* calls), the number of interrupts of one type, the callback of one type of interrupts, the quiesce callback, the reset callback, DMA, migration. Any two sequences of calls that make the same calls on every topic in the same order build the same device: if one does not crash, neither does the other, every call returns the same in both, and whatever follows, vfu_realize_ctx and the conversations, is the same. Within the topic of the config space the order matters: the identity before vfu_pci_init is a write through NULL, and the later of vfu_pci_init and vfu_setup_region decides the size of the config space.", "quantifier": "all sequences of set-up calls with all arguments and outcomes of allocations, all their reorderings, all contexts to start from", "why_tests_cant": "The number of orders grows with the factorial of the number of calls; the tests, as the samples, use one order.", "anchors": ["lib/libvfio-user.c:vfu_setup_region", "lib/libvfio-user.c:vfu_create_ioeventfd", "lib/libvfio-user.c:vfu_setup_device_nr_irqs", "lib/libvfio-user.c:vfu_setup_irq_state_callback", "lib/libvfio-user.c:vfu_setup_device_dma", "lib/libvfio-user.c:vfu_setup_device_migration_callbacks", "lib/pci.c:vfu_pci_init", "lib/pci.c:vfu_pci_set_id", "lib/pci_caps.c:vfu_pci_add_capability"]}
{"id": "C105", "title": "The number of interrupts may change after vfu_realize_ctx, but not grow", "statement": "vfu_setup_device_nr_irqs is accepted at any time. On a realized device, nothing crashes, whatever requests, resets, triggers and changes of the numbers follow each other, as long as no type gets more vectors than the largest number at vfu_realize_ctx (ERR and REQ at most one). With more, the client's request to bind any vector beyond that number is accepted and the descriptor is written outside of the array. With fewer, a vector that is left beyond all numbers keeps its eventfd, no request reaches it, and the device can still signal it, until the next reset; the eventfd of ERR or REQ, once their number is 0, is closed by no reset.", "quantifier": "all configurations, all sequences of SET_IRQS requests, resets, triggers and changes of the numbers, all vectors", "why_tests_cant": "The tests set the numbers once, before vfu_realize_ctx. Where the write outside of the array goes depends on the allocator; that there is none below the limit is a statement about all sequences.", "anchors": ["lib/libvfio-user.c:vfu_setup_device_nr_irqs", "lib/libvfio-user.c:vfu_realize_ctx", "lib/irq.c:device_set_irqs_validate", "lib/irq.c:irqs_set_data_eventfd", "lib/irq.c:irqs_disable", "lib/irq.c:irqs_reset", "lib/irq.c:vfu_irq_trigger"]}
{"id": "C106", "title": "Where the debug build stops a device that uses guest memory", "statement": "Built with DEBUG, vfu_addr_to_sgl, vfu_sgl_get, vfu_sgl_mark_dirty and vfu_sgl_put abort the process if the device is quiesced and no callback is marked as running. In every history the check passes between the calls into the library and in every callback of the device, whatever its client sends and its callbacks answer, with one exception: the callback of the config space, for a write that starts at the device control register (without a PCI Express capability: at offset 7). There the library has quiesced the device and marks no callback: a device that keeps its PCI Express capability itself (VFU_CAP_FLAG_CALLBACK) and uses guest memory in that callback is stopped by its client's write.", "quantifier": "all configurations, all histories of calls, requests, answers of the callbacks and lost clients, all callbacks", "why_tests_cant": "A test sees the check pass where it calls a DMA function. That it passes at every callback of every history, and the one place where it does not, is a statement about all of them; the exception needs a capability with a callback of its own.", "anchors": ["lib/libvfio-user.c:quiesce_check_allowed", "lib/libvfio-user.c:vfu_addr_to_sgl", "lib/libvfio-user.c:vfu_sgl_get", "lib/libvfio-user.c:vfu_sgl_mark_dirty", "lib/libvfio-user.c:vfu_sgl_put", "lib/libvfio-user.c:command_needs_quiesce", "lib/libvfio-user.c:vfu_device_quiesced", "lib/pci_caps.c:access_is_pci_cap_exp"]}
{"id": "C107", "title": "The descriptor to wait on, and when it changes", "statement": "Between any two calls vfu_get_poll_fd gives an open descriptor: the listening socket while there is no client, the connection while there is one. It changes only through a successful vfu_attach_ctx; through vfu_run_ctx that finds the connection gone and returns ENOTCONN; through vfu_run_ctx or vfu_device_quiesced whose reply could not be delivered; through vfu_device_quiesced ending the wait for a quiesce that a lost connection began; and through a DMA transfer by message that fails with ENOTCONN. In the third and fourth case the call returns success although the old descriptor has been closed: an application that asks again only after a successful vfu_attach_ctx or ENOTCONN from vfu_run_ctx, as the documentation says, waits on a closed number. Without a client vfu_run_ctx returns ENOTCONN and does nothing else, so that calling it once more tells. A vfu_run_ctx that blocks returns only -1, and with ENOTCONN if the connection has ended, in whichever way.", "quantifier": "all configurations, all histories of calls with attaching and detaching, all answers of the operating system, all numbers of the descriptors", "why_tests_cant": "A test waits on the descriptor in the sequences it knows. The list of all calls that change it, including those that report success, is a statement about every history and every failure of sendmsg.", "anchors": ["lib/libvfio-user.c:vfu_get_poll_fd", "lib/libvfio-user.c:vfu_run_ctx", "lib/libvfio-user.c:vfu_reset_ctx", "lib/libvfio-user.c:vfu_reset_ctx_quiesced", "lib/libvfio-user.c:do_reply", "lib/libvfio-user.c:vfu_device_quiesced", "lib/tran_sock.c:tran_sock_get_poll_fd", "lib/tran_sock.c:tran_sock_attach", "lib/tran_sock.c:tran_sock_detach"]}
{"id": "C108", "title": "Calls into the library from inside the callbacks of the device", "statement": "A device may call the library while its region callback answers an access. Marking pages dirty, triggering interrupts, changing its config space and transfers by message that succeed, made inside the callback of a region other than the config space, have the effect they have when made just before the request: same context, same result, same reply; if the callback is not called they are not made. If a transfer inside the callback loses the client and the device quiesces at once (or has no quiesce callback), the context is reset before the callback returns exactly as between requests, nothing is sent afterwards, vfu_run_ctx returns -1 with EBADF rather than ENOTCONN (success if no reply was wanted), and the next vfu_run_ctx says ENOTCONN. If the device refuses to quiesce with another error, such transfers, however many and between whatever other calls, fail with ENOTCONN and change nothing, and the request is answered as if they had not been made. If the device defers the quiesce with EBUSY, everything stays as it is until vfu_device_quiesced provided the reply does not fail as a lost connection; if it does, the DMA regions are removed and the device is reset although it has not quiesced, the connection is closed, vfu_run_ctx keeps saying EBUSY, a new client is accepted, and vfu_device_quiesced then closes the connection of that client. A dma_unregister callback that leaves the regions alone makes no difference to the removal; one that loses the client, so that the context is reset inside it, ends the process with a failed assertion when it returns, in every history and whether one region or all are being removed.", "quantifier": "all configurations, all states of a connected context, all requests to a region other than the config space, all sequences of calls inside the callback, all answers of the operating system and the device; all histories of mapping and unmapping for the last part", "why_tests_cant": "The unit tests call the library and the callbacks one at a time with mocks; no test makes a call from inside a callback, and the effect depends on the point inside the request at which the callback runs and on the failure that follows it.", "anchors": ["lib/libvfio-user.c:vfu_dma_transfer", "lib/libvfio-user.c:vfu_reset_ctx", "lib/libvfio-user.c:vfu_reset_ctx_quiesced", "lib/libvfio-user.c:do_reply", "lib/libvfio-user.c:handle_request", "lib/libvfio-user.c:handle_region_access", "lib/libvfio-user.c:vfu_device_quiesced", "lib/dma.c:dma_controller_remove_region", "lib/dma.c:dma_controller_remove_all_regions", "lib/dma.c:array_remove", "lib/tran_sock.c:tran_sock_reply", "lib/tran_sock.c:tran_sock_detach", "lib/tran_sock.c:tran_sock_attach"]}
{"id": "C109", "title": "A reply is no longer than the room the client gave", "statement": "Whatever a call into the library sends to the client is a header of 16 bytes and at most as many bytes as the request it answers made room for: 16 and the count for a region read, 16 for a region write, argsz for every other request; a message that is no valid request gets the header alone. This holds in every state, for successful and failed requests, and for requests that waited for the device to quiesce. So a client that never makes room for more than n bytes never receives a message of more than 16 + n bytes in any history. Two provisos: a read of migration data whose request is longer than its two fields gets that many bytes more than it asked for, also beyond its argsz; and the limit on data the client announced when it connected bounds only migration data, so a dirty page report can be longer than it.", "quantifier": "all configurations, all states, all requests, all histories of calls, all answers of the operating system and the device (malloc returns as many bytes as asked for)", "why_tests_cant": "The size of each reply is computed in a different handler from fields of the request, the tables of the device and the state; tests check the length of replies to well-formed requests of a few sizes.", "anchors": ["lib/libvfio-user.c:handle_region_access", "lib/libvfio-user.c:handle_device_get_info", "lib/libvfio-user.c:handle_device_get_region_info", "lib/libvfio-user.c:handle_device_get_region_io_fds", "lib/libvfio-user.c:handle_dma_unmap", "lib/libvfio-user.c:is_valid_unmap", "lib/libvfio-user.c:handle_device_feature", "lib/libvfio-user.c:handle_dma_device_feature_get", "lib/libvfio-user.c:handle_migration_device_feature_get", "lib/irq.c:handle_device_get_irq_info", "lib/migration.c:handle_mig_data_read", "lib/libvfio-user.c:do_reply", "lib/tran_sock.c:tran_sock_reply", "lib/tran_sock.c:tran_sock_send_iovec"]}
{"id": "C110", "title": "What a client can make the server keep", "statement": "However many requests a client sends, what a context holds between calls is bounded by how the device set it up: at most max_regions DMA regions, none longer than max_size, each with a dirty bitmap of at most one bit per byte of the region (rounded up to eight bytes); at most one waiting request, of at most 1 MiB and 16 bytes and with at most 1024 descriptors; and at most max_regions + n + 2 descriptors besides those of the waiting request, if no interrupt type has more than n vectors. The descriptors received with requests are, each as often as received, those the context holds and those it closed, in every history that runs to its end without a mapping that fails and without a repeated map of a range. The proviso about the repeated map is needed: a client that maps one range again and again, with a new descriptor of the same file each time, has every request succeed, and no descriptor but the first is held or closed; so it can exhaust the descriptors of the process. (Bitmaps that a context loses track of are the subject of C94.)", "quantifier": "all configurations, all histories of calls with anything a socket can deliver, all answers of the operating system and the device; for the violation, all lists of descriptors", "why_tests_cant": "A bound over histories of any length; a test sends a few requests and does not count the descriptors left open.", "anchors": ["lib/dma.c:dma_controller_add_region", "lib/dma.c:dma_controller_dirty_page_logging_start", "lib/common.h:get_bitmap_size", "lib/libvfio-user.c:handle_dma_map", "lib/libvfio-user.c:consume_fd", "lib/libvfio-user.c:free_msg", "lib/libvfio-user.c:get_request", "lib/irq.c:irqs_set_data_eventfd", "lib/tran_sock.c:get_msg", "lib/tran_sock.c:tran_sock_get_request_header", "lib/libvfio-user.c:is_valid_header"]}
{"id": "C111", "title": "The id and the flags of a request change nothing but its reply", "statement": "What a server does depends on the command, size, payload and descriptors of the requests only. Two histories of calls whose requests differ in their ids, in the error field or in flags other than the one that asks for no reply lead to the same state, through the same callbacks, closes, signals and messages in the same order; the messages differ in the two bytes of the id only. So ids need not be distinct or ordered, also not while a request waits for the device to quiesce. If what the server sends arrives whole, requests that differ in the no-reply flag as well lead to the same state through the same callbacks, closes and signals; only the replies are missing. The proviso is needed: a reply that cannot be sent makes the server reset the device and drop the client, which does not happen if no reply was asked for.", "quantifier": "all configurations, all states, all pairs of histories of calls that differ in the headers of requests only, all answers of the operating system and the device", "why_tests_cant": "A comparison of two executions of any length; tests use one id per request and check the reply, not that nothing else depends on it.", "anchors": ["lib/libvfio-user.c:do_reply", "lib/libvfio-user.c:handle_request", "lib/libvfio-user.c:get_request", "lib/libvfio-user.c:vfu_run_ctx", "lib/libvfio-user.c:vfu_device_quiesced", "lib/tran_sock.c:tran_sock_reply", "lib/tran_sock.c:tran_sock_send_iovec", "lib/libvfio-user.c:is_valid_header"]}
{"id": "C112", "title": "Requests about different things do not interfere", "statement": "DMA memory (map, unmap, marking pages dirty), interrupts (SET_IRQS, triggering) and the device (region reads and writes, migration data, the device's own changes of its config space) are separate topics. In any history of such calls, mixed with requests for information, malformed requests and polls that find nothing, what the calls of one topic do - their callbacks, replies, closes, signals and results, and what is left of them in the context - is what it is if only the calls of that topic are made. So two histories with the same order of calls within each topic end in the same state and give every call the same outcome; two neighbouring calls of different topics can be exchanged; requests for information change nothing. It is assumed that the socket takes every reply and that the device does not defer a quiesce. Both are needed, and so is leaving out changes of the migration state: a lost reply drops what all topics have set up, a request after a deferred one is not served, and a stopped device refuses to bind interrupts.", "quantifier": "all configurations, all states between calls, all histories of calls of the four kinds that end without a fault, all answers of the operating system and the device", "why_tests_cant": "It compares all interleavings of histories of any length; tests run one topic at a time in one order.", "anchors": ["lib/libvfio-user.c:handle_request", "lib/libvfio-user.c:vfu_run_ctx", "lib/libvfio-user.c:get_request", "lib/libvfio-user.c:command_needs_quiesce", "lib/libvfio-user.c:handle_dma_map", "lib/libvfio-user.c:handle_dma_unmap", "lib/irq.c:handle_device_set_irqs", "lib/libvfio-user.c:handle_region_access", "lib/libvfio-user.c:vfu_sgl_mark_dirty", "lib/irq.c:vfu_irq_trigger"]}
{"id": "C113", "title": "A request that is answered with an error leaves no trace", "statement": "When the client receives a reply with the error flag and the connection stays, the DMA mappings, the recorded dirty pages, the interrupt eventfds, the migration state and the config space are what they were before the call that answered it, whether the request was refused at once, by the device's quiesce callback, or while it was executed, and also if it had been deferred. Exactly four kinds of requests can leave something behind: an unmap with dirty bitmap of a range that is not mapped as such (ENOENT) may clear recorded dirty pages, mappings unchanged; a change of the migration state may end in a state on the way; an access to the config space may have changed registers; a RESET may leave what the device's reset callback did to the config space. Each of these does happen. In no case has a failed request called the DMA register, DMA unregister or interrupt state callbacks.", "quantifier": "all configurations with the table vfu_realize_ctx leaves, all histories of calls and requests, all requests and deferred requests, all answers of the operating system and the device; the socket takes the reply", "why_tests_cant": "It is a statement about every error path of every handler in every reachable state; tests check the error code of a handful of bad requests and rarely look at what else changed.", "anchors": ["lib/libvfio-user.c:handle_request", "lib/libvfio-user.c:do_reply", "lib/libvfio-user.c:handle_dma_map", "lib/libvfio-user.c:handle_dma_unmap", "lib/libvfio-user.c:handle_device_feature", "lib/libvfio-user.c:handle_region_access", "lib/irq.c:handle_device_set_irqs", "lib/dma.c:dma_controller_dirty_page_logging_start", "lib/dma.c:dma_controller_dirty_page_get", "lib/libvfio-user.c:device_reset"]}
{"id": "C114", "title": "A client may repeat a request that was carried out", "statement": "A client that received a reply without error flag (and, for an unmap with dirty bitmap, with a body) may send the same request again, as long as nothing has changed the device's tables in between: whatever the second reply is - success or error, whatever the memory allocator, the operating system and the device do the second time, and also if one of the two was deferred - the DMA mappings and the migration state are what they were after the first, every interrupt that was bound is bound to the eventfd the copy has in the same place and no other interrupt is touched, and the config space is unchanged. Exceptions: an unmap with dirty bitmap and a dirty page report may change which pages are recorded as dirty (not the mappings); accesses to the config space and the device's own reset callback may change the memory of the config space, as they did the first time. Failures of the requests that change tables are told by an error number, but for an unmap with dirty bitmap, which may fail with a reply without error flag and without body.", "quantifier": "all configurations with the table vfu_realize_ctx leaves, all histories before, all requests and copies with the same number of descriptors, all calls in between that leave the tables alone, all answers of the operating system and the device that set errno when they fail; the connection stays", "why_tests_cant": "Repeating is a statement about every request in every reachable state and with every second answer of the environment; tests repeat a map and an unmap once.", "anchors": ["lib/libvfio-user.c:handle_request", "lib/libvfio-user.c:handle_dma_map", "lib/libvfio-user.c:handle_dma_unmap", "lib/dma.c:dma_controller_add_region", "lib/dma.c:dma_controller_remove_region", "lib/dma.c:dma_controller_dirty_page_logging_start", "lib/dma.c:dma_controller_dirty_page_logging_stop", "lib/irq.c:handle_device_set_irqs", "lib/irq.c:irqs_set_data_eventfd", "lib/migration.c:migration_set_state", "lib/libvfio-user.c:device_reset"]}
{"id": "C115", "title": "One call costs the device a bounded number of callbacks", "statement": "However a client behaves, one call of vfu_run_ctx's loop, of vfu_device_quiesced or of a DMA transfer runs only a known number of callbacks before it comes back: the quiesce callback at most twice (once during a DMA transfer, never in vfu_device_quiesced); the DMA register callback once; the DMA unregister callback at most once for each mapping there was and once for the one just made; the reset callback once for a reset request and once for a lost client; the migration state callback three times; the migration data callbacks once; the interrupt state callback once; the callback of a region once for an access, for accesses to the config space (together with function level resets) at most once for each byte. All callbacks of a call other than quiesce, unregister and the reset for a lost client are for one purpose. In all: the mappings, at most as many as the device allowed in vfu_setup_device_dma, plus three, plus three or the bytes of the access to the config space. The callback of the config space must not return 0 (it would be called again for ever).", "quantifier": "all configurations, all states reached by any history, all calls, all requests, all answers of the operating system and the device", "why_tests_cant": "A bound on work over every request in every state cannot be read off runs; tests count the callbacks of a few requests with one or two mappings.", "anchors": ["lib/libvfio-user.c:vfu_run_ctx", "lib/libvfio-user.c:handle_request", "lib/libvfio-user.c:vfu_device_quiesced", "lib/libvfio-user.c:vfu_reset_ctx", "lib/dma.c:dma_controller_remove_all_regions", "lib/dma.c:dma_controller_remove_region", "lib/migration.c:migration_set_state", "lib/pci.c:pci_config_space_access", "lib/irq.c:handle_device_set_irqs", "lib/libvfio-user.c:region_access"]}
{"id": "C116", "title": "Set-up calls that fail may be left out or made again", "statement": "Calls of a set-up program that return an error for their arguments may be left out: the context and what all other calls return are the same (the exception, migration without the mandatory callbacks, is in C69). A call that returns -1 with ENOMEM may be made again: with memory it returns what it would have returned in the first place and leaves the same context, vfu_realize_ctx included, whichever of its allocations failed; only vfu_setup_region does not restore the ioeventfds of the region. Until it is repeated, exactly this is different: vfu_setup_region leaves the region blank with descriptor 0 instead of none; vfu_setup_device_dma and vfu_setup_device_migration_callbacks leave the device without the DMA controller or migration state it had; vfu_realize_ctx leaves an unrealized context whose config space may exist, with the default size if none was given and with the type bits of the BARs; vfu_pci_init and vfu_create_ioeventfd leave nothing.", "quantifier": "all contexts, all programs of set-up calls, all outcomes of the allocations", "why_tests_cant": "Allocation failures cannot be provoked in unit tests of the real library one by one, and the equality of whole contexts over all programs is not observable by a finite number of queries.", "anchors": ["lib/libvfio-user.c:vfu_setup_region", "lib/libvfio-user.c:vfu_realize_ctx", "lib/libvfio-user.c:vfu_setup_device_dma", "lib/libvfio-user.c:vfu_setup_device_migration_callbacks", "lib/pci.c:vfu_pci_init", "lib/libvfio-user.c:vfu_create_ioeventfd", "lib/pci_caps.c:vfu_pci_add_capability"]}
{"id": "C117", "title": "Devices in one process do not disturb each other", "statement": "A process may run any number of devices, each with its own configuration and its own client, and make its calls on them in any order. It survives a sequence of calls if and only if every device would survive its own calls made alone; and then every device is in the state, has sent the replies and has made the callbacks that it would have alone. So what a client sees does not depend on the clients of the other devices, although dma_addr_to_sgl keeps a hint in a variable that all devices of a thread share. This is for mappings and dirty page queries that end below 2^64: beyond that, whether a query is refused or ends the process depends on what another device translated last. A device that ends the process ends it for all.", "quantifier": "any number of devices, all configurations and set-ups, all sequences of calls on them and all interleavings, all values of the shared hint within the table of regions", "why_tests_cant": "Tests run one context per process; interference through the hidden thread-local variable needs particular interleavings of calls on different contexts, and absence of interference is a comparison of whole executions.", "anchors": ["lib/dma.h:dma_addr_to_sgl", "lib/libvfio-user.c:vfu_run_ctx", "lib/libvfio-user.c:vfu_addr_to_sgl", "lib/dma.c:dma_controller_dirty_page_get"]}
{"id": "C118", "title": "The path of the socket belongs to one context", "statement": "As long as nobody else removes the path of a context that exists, a client that connects to the path reaches that context, nobody answers at other paths, and no two contexts have the same path. vfu_create_ctx succeeds exactly if the operating system plays along, the path is shorter than 108 bytes and nothing is there, otherwise it changes no file; if something is there it returns EADDRINUSE, so a context is never pushed aside. vfu_destroy_ctx removes the path of its context and no other, and the path can be used again. Creating and destroying contexts in any order and with any failures leaves all other files as they were, and all files once every context is destroyed. A process that ends without vfu_destroy_ctx leaves its path behind, and vfu_create_ctx refuses it until it is removed. If somebody else removes the path of a context and another context is created there, destroying the first removes the path of the second.", "quantifier": "all file systems, all paths, any number of contexts in any number of processes, all sequences of creations, destructions and deaths of processes, all failures of the system calls, all interventions of others", "why_tests_cant": "The claim is an invariant over unbounded histories of several servers sharing a file system, including failures of single system calls and processes that die; a test follows one of them.", "anchors": ["lib/tran_sock.c:tran_sock_init", "lib/tran_sock.c:tran_sock_fini", "lib/libvfio-user.c:vfu_create_ctx", "lib/libvfio-user.c:vfu_destroy_ctx"]}
{"id": "C119", "title": "What a callback of the device may take for granted", "statement": "Whatever a client sends and in whatever order, and whatever the callbacks answered before, a callback is only called if the device provided it, and within what the device was set up for: a region callback gets a region of the device and between one byte and 1 MiB, all of it inside the region, also for the parts of a config space access that are handed to the device; a DMA callback gets a range no longer than the limit; a migration callback comes only after migration was set up, and the buffer for migration data has room for the bytes asked for; an interrupt mask callback gets INTx, MSI or MSI-X and at least one vector, none beyond the configured number. This includes the callbacks made while the connection is given up and for requests that waited for the device. Not granted: a DMA range may be empty, may run past the end of the address space, and may be announced twice. Regions are taken to be smaller than 4 GiB, and interrupt types to have fewer than 2^32 - 1 vectors.", "quantifier": "all devices, all histories of calls into the library, all requests with all lengths and descriptors, all answers of callbacks and of the operating system", "why_tests_cant": "A device omits its own checks because of this; it has to hold for every request in every state, and the interesting cases are the ones no test sends.", "anchors": ["lib/libvfio-user.c:is_valid_region_access", "lib/libvfio-user.c:region_access", "lib/libvfio-user.c:handle_dma_map", "lib/libvfio-user.c:handle_dma_unmap", "lib/libvfio-user.c:device_reset", "lib/libvfio-user.c:vfu_reset_ctx_quiesced", "lib/irq.c:device_set_irqs_validate", "lib/irq.c:irqs_set_state", "lib/migration.c:handle_mig_data_read", "lib/migration.c:handle_mig_data_write", "lib/pci.c:pci_config_space_access", "lib/pci_caps.c:handle_px_pxdc_write"]}
{"id": "C120", "title": "What a device hears in each state of a migration", "statement": "In every history, each callback fits the migration state the device was in when the library was called: migration data is asked for only in the stop-and-copy and pre-copy states, and given only in the resuming state; a state callback comes only if migration was set up; a region callback or a function level reset never comes in the stop-and-copy state; a device reset, a DMA announcement and an interrupt mask change never come while the device is stopped or in the stop-and-copy state. So a device that is being copied hears only that it shall quiesce, give data and change its state, as long as the client stays. This includes requests that waited for the device. The one exception is a client that goes away: its DMA ranges are taken down and the device is reset in whatever state it is.", "quantifier": "all devices, all histories of calls into the library, all requests, all migration states, all answers of callbacks, of the transport and of the operating system", "why_tests_cant": "The image taken of a device is right only if nothing changes it while it is copied; a test tries a few requests in a few states, not every request after every history, with waits in between.", "anchors": ["lib/libvfio-user.c:should_exec_command", "lib/libvfio-user.c:cmd_allowed_when_stopped_and_copying", "lib/libvfio-user.c:is_valid_region_access", "lib/libvfio-user.c:handle_request", "lib/libvfio-user.c:vfu_device_quiesced", "lib/migration.c:handle_mig_data_read", "lib/migration.c:handle_mig_data_write", "lib/migration.c:handle_device_state"]}
{"id": "C121", "title": "The device's account of its migration state", "statement": "A device with a reset callback that starts in RUNNING, moves to a state when and only when it agrees to it in the state callback, and runs again after a reset it agreed to, is always in the state the library has and tells the client, whatever requests come, deferred ones, failed ones and lost connections included; and every state it is asked for is a documented arc from the state it is in. So client and device, each from what it sees itself, agree on the state whenever the client knows it (C75). A function level reset is no such reset: it leaves the migration state as it is. A device without a reset callback is not told when a reset request or a lost connection takes the library back to RUNNING; it may then be asked for the state it is already in, which is no arc.", "quantifier": "all devices, all histories of calls into the library, all requests, all patterns of agreement and refusal of the callbacks, all failures of the transport", "why_tests_cant": "The device's idea of its state and the library's are two variables in two programs that are updated in different places; that they never drift apart is a claim about every interleaving of requests, refusals, deferred quiesces, resets and lost clients.", "anchors": ["lib/migration.c:migration_set_state", "lib/migration.c:handle_device_state", "lib/migration.c:migr_trans_to_valid_state", "lib/libvfio-user.c:device_reset", "lib/libvfio-user.c:call_reset_cb", "lib/libvfio-user.c:vfu_reset_ctx_quiesced", "lib/libvfio-user.c:handle_device_feature", "lib/pci_caps.c:handle_px_pxdc_write"]}
{"id": "C122", "title": "What set-up after vfu_realize_ctx still reaches", "statement": "Set-up calls made after vfu_realize_ctx, in documented use, do not crash and leave the device realized, and the capability lists that a client walks are those of all calls. But the BARs, the interrupt pin and the status register read as at vfu_realize_ctx: a first capability added later is on a list that the status register denies, a region set up later as memory shows as I/O, INTx interrupts set up later have no pin, although all those calls succeed. A vfu_realize_ctx that failed for lack of memory counts too: BARs it marked as I/O stay so.", "quantifier": "all set-ups before, all sequences of set-up calls after vfu_realize_ctx that do not themselves store into those registers, all outcomes of allocations", "why_tests_cant": "The tests set up devices in one order. That no later call touches those registers, and that none of them crashes or damages the lists, is a claim about all sequences of calls.", "anchors": ["lib/libvfio-user.c:vfu_realize_ctx", "lib/pci_caps.c:vfu_pci_add_capability", "lib/libvfio-user.c:vfu_setup_region", "lib/libvfio-user.c:vfu_setup_device_nr_irqs", "lib/pci.c:vfu_pci_init"]}
{"id": "C123", "title": "What a refused write to the config space leaves behind", "statement": "A write inside one register of the standard header, or inside one capability that the library emulates, that is answered with an error leaves the config space unchanged and calls nothing, with exactly three exceptions: of a refused write to the command register the controlled bits (I/O, memory, bus master, memory write and invalidate, SERR, INTx disable) are stored; of a refused write to an MSI capability the enable bit is stored if the write covers it, and no other bit; and if the write to the device control register of a PCI Express capability asks for a function level reset that is not supported, or that the reset callback refuses, the other bits of that register are stored, and no other register changes. Each of these does happen. A write over several registers may be refused after the first of them have been stored.", "quantifier": "all contents of the config space, all layouts of disjoint capabilities, all data, lengths and offsets of the write inside one register or capability, all device callbacks that honour their contract and reset callbacks that leave the config space alone", "why_tests_cant": "Tests try a few bad values and look at the error number. That nothing but the named bits changes is a claim about every value, offset and length, and about every bit of the space.", "anchors": ["lib/pci.c:pci_config_space_access", "lib/pci.c:handle_command_write", "lib/pci.c:pci_hdr_write", "lib/pci.c:handle_erom_write", "lib/pci_caps.c:cap_write_msi", "lib/pci_caps.c:cap_write_px", "lib/pci_caps.c:handle_px_pxdc_write", "lib/pci_caps.c:cap_write_pm", "lib/pci_caps.c:pci_cap_access"]}
{"id": "C124", "title": "Transfers over a pipe", "statement": "As long as the pipe takes every request whole and every read of it delivers what was asked for, or all there is, vfu_sgl_read and vfu_sgl_write over the pipe transport come out, for whatever client, as over the socket with a client that is told 0 for the size of each request; the requests are those of the socket with that size. So a client that serves its memory and does not look at sizes is read and written exactly; a client that refuses a message whose size is not its length, as this library does, refuses every transfer with its first request. If the read for the payload of the first answer delivers a part of it only, the transfer fails whatever the client answers, where the socket waits for the rest: for a client that serves its memory it fails with ENOTCONN, as if the client had gone away, and the rest of the answer stays on the pipe, where the next request is read from: if the address and count come first, that is the client's memory, and a message in it is taken for a request.", "quantifier": "all clients and their states, all scatter/gather entries, all negotiated maxima, all data (for writes: messages below 4 GiB; for the serving client: messages of at most 1 MiB, an entry that ends within 64 bits), all message numbers, all bytes left over on the pipe; for the failing part all places where the answer is cut", "why_tests_cant": "The claim compares two transports against every possible client and every way the bytes of an answer may be cut; the tests drive one exchange with an answer that fits one read.", "anchors": ["lib/tran_pipe.c:tran_pipe_send_msg", "lib/tran_pipe.c:tran_pipe_msg_iovec", "lib/tran_pipe.c:tran_pipe_recv", "lib/tran_pipe.c:tran_pipe_send_iovec", "lib/libvfio-user.c:vfu_dma_transfer"]}
{"id": "C125", "title": "Attaching over a pipe can be tried again", "statement": "Over the pipe transport a refused vfu_attach_ctx closes nothing: of whole messages on the pipe each call takes exactly one, agrees to it exactly if C50 says so, answers it as on the socket except that the size is 0 and that no second socket is ever offered, and what follows is left for vfu_run_ctx; so a client refused any number of times is accepted once it asks for something acceptable. This holds for whole messages only. A header that is not a command's or whose size cannot be fails with EINVAL, a payload that does not arrive in one piece with ECONNRESET, both without an answer, and the next call starts to read in the middle of that message. At the end of the stream every call fails with ENOMSG.", "quantifier": "all sequences of messages, all JSON texts and parsers, all page sizes, devices with and without migration, all texts of the server's capabilities below 4 GiB, all bytes after the messages, all places where a payload is cut", "why_tests_cant": "The claim is about any number of attempts, any messages and any way they are cut; a test makes one attempt with one message.", "anchors": ["lib/tran_pipe.c:tran_pipe_attach", "lib/tran_pipe.c:tran_pipe_recv_msg", "lib/tran_pipe.c:tran_pipe_recv_alloc", "lib/tran_pipe.c:tran_pipe_reply", "lib/tran.c:tran_negotiate", "lib/tran.c:recv_version", "lib/tran.c:send_version"]}
{"id": "C126", "title": "A device that does not quiesce keeps the client it has lost", "statement": "If the connection is lost and the device refuses to quiesce or defers it and then reports an error, any number of times and in any order, everything the lost client established stays exactly as it was: DMA regions, interrupts, migration state, config space. Meanwhile the device is called for nothing but to quiesce, nothing is sent, unmapped or closed, interrupts still signal the eventfds of the client that is gone, and vfu_attach_ctx refuses every other client with EINVAL. As soon as the device quiesces, asked again by vfu_run_ctx or reporting through vfu_device_quiesced, the client is cleaned up after as completely as if the device had agreed at once (C57), each of its DMA regions being unregistered once.", "quantifier": "all reachable states, all finite sequences of refusals, deferrals, failed completions, attach attempts and triggered interrupts, all devices with a quiesce callback", "why_tests_cant": "A test tries one refusal or one deferral; that no sequence of them ever half-cleans the context, lets in a second client or loses the pending reset is a claim about unboundedly long sequences.", "anchors": ["lib/libvfio-user.c:vfu_reset_ctx", "lib/libvfio-user.c:vfu_reset_ctx_quiesced", "lib/libvfio-user.c:vfu_device_quiesced", "lib/libvfio-user.c:vfu_run_ctx", "lib/tran_sock.c:tran_sock_attach"]}
{"id": "C127", "title": "A device that does not offer function level resets is never asked for one", "statement": "If the device capabilities register of every PCI Express capability says that the function cannot be reset, then in no conversation whose config space writes each lie in the header, inside one capability, or outside of both, is the reset callback called for a function level reset, through lost and new connections and deferred requests; and that register keeps its value throughout. One write that runs out of the capability before makes the device offer the reset, and the next client is granted one (witness). Provisos: callbacks touch no bytes of the config space they are not called for (the reset callback none), the device itself leaves the register alone, no region callback serves the config space.", "quantifier": "all config spaces that vfu_pci_add_capability can build, all histories of calls, all requests of orderly clients, all failures", "why_tests_cant": "The bit is checked in one place and guarded nowhere; that no combination of writes, resets and reconnects ever sets it or gets past the check is a claim about all histories.", "anchors": ["lib/pci_caps.c:handle_px_pxdc_write", "lib/pci_caps.c:handle_px_write_2_bytes", "lib/pci_caps.c:cap_write_px", "lib/pci_caps.c:pci_cap_access", "lib/pci.c:pci_config_space_access", "lib/libvfio-user.c:call_reset_cb"]}
