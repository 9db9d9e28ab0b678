# Formal model of libvfio-user in Lean 4 — design

Target: `nutanix/libvfio-user` at the commit in `/repo` (read as text only; never built or run).
Properties: `properties.jsonl`.  Status per property: `MANIFEST.json`.  Mutation log: `seeded/LOG.jsonl`.

## 1. Method

* The C code is transcribed function by function into small total Lean functions under `lean/Verif/`.
  Every definition carries a comment citing file and lines in `/repo`.
* Numbers.  C unsigned integers are natural numbers; where C arithmetic can wrap, the model wraps
  explicitly (`% 2^64`, `% 2^32`, `% 2^8`).  Inputs are bounded (`< 2^64` etc.) where they cross the API.
* Undefined behaviour and abnormal ends are *distinct outcomes*: `Res.fault` with a kind
  (`oob`, `uninit`, `assertFail`, `diverge`).  A theorem "the call succeeds / fails with errno e" therefore also
  says that no such fault happens.  No list access is totalised silently: an access outside a buffer is a fault.
* Error paths in the C code can leave partial updates behind, so a step returns *state and result*.
* Effects visible outside the library (device callbacks, `close`, `munmap`, `eventfd_write`, replies)
  are an event trace.
* The operating system and the device are oracles: results of `mmap`, `fstat`, `calloc`, `eventfd_write`
  and of the device callbacks are arguments and are universally quantified in the theorems.
* Each area has a `Model` file (transcription), a `Spec` file (independent specification that does not
  use the helpers of the model), lemma files, and a `Props` file that contains the property
  theorems with a concrete `example` beside each that meets the hypotheses.
* When the unchanged code violates a property, the violation is proved on a concrete witness
  (theorem `…_violated` or named after the effect), and the property is stated in `properties.jsonl` with
  the exact proviso under which the code has it, which is then proved.  A theorem that proves less than its
  property says has the suffix `_partial`.

## 2. Trusted base

* The Lean 4.33.0 kernel; the axioms `propext`, `Classical.choice`, `Quot.sound` at most
  (`Verif/Axioms.lean` prints the axioms of each property theorem).  No further axioms, no `sorry`, no `native_decide`, no `bv_decide`.
* The transcription from C to Lean (read by hand; tested by the mutation runs in `seeded/LOG.jsonl`).
* The assumptions on the platform listed in section 4.

## 3. Plan per property

| id | model | proof |
|----|-------|-------|
| C01 | `dma.c` table as list of regions; add/remove/remove-all | invariant by induction over histories; wrap witness |
| C02 | same | refinement to a partial function from (address,size) |
| C03 | `dma_controller_add_region`, `dma_map_region` | decision logic, iff |
| C04 | `dma_addr_to_sgl`, `_dma_addr_sg_split`, `dma_init_sg` | induction on the split recursion |
| C05 | same | iff by induction, retry theorem |
| C06 | same with explicit hint | equality of fast and slow path; wrap witness |
| C07 | `dma_map_region`, `dma_sgl_get` | arithmetic; witness for unaligned offset |
| C08 | `handle_dma_map` with fd ownership events | conservation invariant over traces; witnesses |
| C09 | add/remove with event trace | trace automaton invariant |
| C10 | `array_remove`, `dma_sgl_get` | frame theorem; witness |
| C11 | `_dma_mark_dirty` and friends on byte bitmaps | bit-level set equality |
| C12 | `dirty_page_get_same_pgsize` | set equality, induction over histories |
| C13 | atomic byte operations, interleaving semantics | invariant over schedules |
| C14 | `dirty_page_get_extend` | loop invariant; witnesses |
| C15 | `dirty_page_get_combine` | loop invariant; witness |
| C16 | logging start/stop | decision logic, rollback |
| C17 | `get_bitmap_size` | arithmetic |
| C18 | `dma_controller_dirty_page_get` | decision logic; witness |
| C19 | `satadd_u32/u64` | arithmetic |
| C20–C22 | `migration.c` tables and loops | invariant; path minimality against an arc relation; witness for state 8 |
| C23 | `handle_mig_data_read/write` | decision logic |
| C24 | `should_exec_command` | decision logic inside the server step |
| C25 | feature set/get, `device_reset` | round trip |
| C26–C31 | `irq.c` | decision logic, frame theorems, conservation invariant; witness for disable |
| C32–C36 | region access, info, io fds, setup | decision logic, round trip through an independent decoder |
| C63 | MASK/UNMASK of interrupts | decision logic, frame; witness |
| C64 | `handle_device_get_irq_info` | round trip through an independent decoder |
| C65 | region info against region access | relation of two handlers over all set-up histories |
| C66 | `handle_px_pxdc_write` | trace of reset calls |
| C67 | `vfu_pci_find_next_capability` | refinement to search in the list of added capabilities; witness |
| C37–C46 | `pci.c`, `pci_caps.c` on a byte-array config space | segment induction, list walk refinement, bit-level frames; witnesses |
| C47–C53 | header check, framing, reply, version, DMA over socket | decision logic, induction over streams and chunks; witnesses |
| C54–C60 | request loop with quiesce/pending machine | invariants and trace refinement over all schedules; witnesses |
| C61 | the request loop with all handlers | no fault outcome, by induction over histories, for careful clients; a witness per excluded class |
| C68 | `vfu_destroy_ctx` after any history of the request loop | per history: no fault, one reset, balance of mappings, announcements and descriptors; witness for deferred requests |
| C69 | `vfu_create_ctx`, all `vfu_setup_*`, `vfu_pci_init`, `vfu_pci_set_*`, `vfu_pci_add_capability`, `vfu_realize_ctx` | invariant by induction over calls; it implies the hypotheses of C61; witnesses for misuse |
| C70 | `vfu_realize_ctx` | exact content of the registers it fills in, for every set-up; read back through the config space emulation |
| C71 | all of `Verif/Server` | refinement: the table represents the account a client keeps from requests and replies, by induction over histories; witness for the silent unmap |
| C72 | `is_valid_unmap`, `handle_dma_unmap`, `handle_dma_map` through `vfu_run_ctx` | decision logic end to end, from the received bytes to the reply, in terms of the account |
| C73 | `handle_region_access` and what it calls, through `vfu_run_ctx` | decision logic end to end: refusal, empty access, callback, no callback, config space |
| C74 | the four information requests through `vfu_run_ctx` | the answer is a function of set-up and request; its fields from C34, C35, C64 |
| C75 | migration state through `vfu_run_ctx` and `vfu_device_quiesced` | refinement: the state is what the client's account says, by induction over histories; the request end to end on top of C21, C22; witness for a failing reset |
| C76 | `handle_mig_data_read`, `handle_mig_data_write` through `vfu_run_ctx`; limits of the negotiation | decision logic end to end on top of C23; the limits by induction over histories |
| C77 | `command_needs_quiesce`, `access_is_pci_cap_exp`, `handle_px_pxdc_write` through `vfu_run_ctx` | the only segment that resets is the register itself; invariant over histories; end to end for the two-byte write; witness for the longer write |
| C78 | `handle_device_set_irqs`, `irqs_disable`, `irqs_reset`, `vfu_irq_trigger` through `vfu_run_ctx` | an account kept from requests and replies equals the eventfd tables after any history; the five kinds of SET_IRQS from request to reply; witness for a range above vector 0 |
| C79 | all `vfu_setup_*`, `vfu_pci_set_id`, `vfu_pci_set_class`, `vfu_realize_ctx`, then GET_IRQ_INFO, GET_REGION_INFO, BAR sizing | fold over the history of calls and results (`lastly`) equals the context, by induction; read back through C74, C42 and C38; witness for a region that loses its descriptor |
| C80 | START, STOP, REPORT, DMA_MAP/UNMAP, marks, over whole conversations | client's account `book` equals the bitmaps (`Soiled`) by induction over calls; unfolded into "last write after the last end of the record" (`Writes`, `Survives`); witnesses for short ranges |
| C81 | `tran_pipe.c`, receiving | simulation: a pipe is a socket whose bytes carry no descriptors (`Pipe.sock`), step for step; C48's framing carries over; witness for all two-piece version requests |
| C82 | `tran_pipe.c`, sending | bytes of the reply against the socket's header with size 0; fed back into the receiver; all short writes |
| C83 | `tran_sock_init/attach/detach/fini`, `tran_negotiate`, with every system call failing at will | open descriptors = those the fields name (`Owned`), by induction over histories; closing anything else is a fault |
| C84 | the request loop with the quiesce callback answering EBUSY at will, `vfu_device_quiesced` | simulation: each call with a deferring device is matched by zero or one call with one that never defers (`instead`); `Agree` relates the two states, `C84_defer` by induction; `C84_twice` shows why replies must be sendable |
| C85 | `vfu_run_ctx` as a machine on the socket: bytes arrive, calls (blocking or not) begin, rounds of the loop run, the device calls | refinement: every run of the machine is a history of `Server.run` on messages the transport delivers (`C85_history`), so the theorems on histories hold for streams; stream invariant (taken ++ left = written); progress by induction over rounds; polling and blocking by simulation |
| C86 | contents of files and of the client's memory, shared mappings as views of files, a device reading and writing entry by entry through either way | composition: account (C71), translation (C04, C05), window (C07), socket transfers (C52); induction over the entries; the places of a range are given by the account alone |
| C87 | config space over whole conversations of `Server.run` | invariants indexed by what device and requests may do (`Minds`), by induction over calls; per access C46's header theorem, C41 inside a capability, C45's frame outside; witness: one overrunning write |
| C88 | the contents of the `malloc`ed reply buffer of `handle_dma_unmap` are a parameter of every call (`Env.malloc`) | two histories with different contents compared: relational lemmas for the bitmap functions (`Dma/Blind.lean`), lifted to requests, calls and histories; for discreet clients full equality, for all others equality up to the bitmap of unmap replies; disclosure proved for every region of size 0, witness for differing page sizes |
| C89 | two devices of the same kind after arbitrary, different histories, both without client (`Past`, `conn = false`) | invariant over histories: without client the tables are those after realize (`Alone`), however the connection was lost; then the two runs are compared call by call (`Tied`); the provisos are shown necessary by witnesses |
| C90 | a device served by the library alone (`Emulated`), an acknowledged write, any conversation, a read (`Later`); the data sheet is written down bit by bit (`ClientBit`) without the write handlers | the write: C42–C46 cast into the data sheet; in between: frame invariant over conversations (`avoided`); the read: C38 and C73; acknowledged implies performed (errors of config writes are proper error numbers, `loop_err`) |
| C91 | feature requests of the server model; the table of features (`feats`, `Offered`) is written down from the protocol | the mask test of `handle_device_feature` is characterised bit by bit (`mask_offered`); from the handler to the reply by `Next.served`; announcement and service tied by C75 |
| C92 | the callbacks among the events of the server model; what a request asks for (`Prompts`) is written down from the layout of the messages, not from the handlers | handler by handler (`exec_prompts`; for config space by induction over the segments, `loop_within`; for interrupts over the loops), then along the paths of a call (`Caused`) and along a history |
| C93 | both ends of the stream: what the callbacks return (`handsOut`, `takesIn`), what the client reads off request and reply bytes (`finds`, `delivers`), concatenated along a history | every call is one of five kinds with its callbacks and replies in view (`call_trace`); only data requests reach the data callbacks (`exec_prompts`, C92); induction over the history |
| C94 | `Dma/Heap.lean`: the functions of `lib/dma.c` that move bitmap pointers, on a heap where use or `free` of a block not allocated is a fault; the table of `Dma/Model.lean` is its view | simulation step by step (`pstep_follows`) with no dangling and no shared pointer, and a count of blocks; induction over the history; the leak by induction over the number of rounds |
| C95 | the same call with `alloc` false and true; `Frugal`: requests that need no memory; `Lost`: exact events of a request that came to nothing | every handler compared with itself (`exec_short`), then reply, gate and poll |
| C96 | `Server/Blocks.lean`: a heap of numbered blocks with a trace of alloc/use/free; every branch of the request path left open (`Way`), so the model allows more than the code does | the list of live blocks is an invariant of every function (`Inv`), by induction over calls; `Proper` and `Live` speak of the trace only |
| C97 | `Wire/Announce.lean`: `format_server_capabilities` step by step over a list of allocations; json-c's printer and parser are parameters that agree on the document | the document read by paths, and by the server's own rules (`Asks`, `Accepts` of C50) |
| C98 | `Dma/Slots.lean`: the array of `max_regions` slots with `memmove`, `memset` and half filled slots | refinement of the array to `Ctl.regions` step by step; the index of every entry is below `nregions` when it is made; then C10's stability |
| C99 | `Setup/Estate.lean`: the pointers of the context and the heap of C96; decisions that do not depend on memory are left open | invariant: the live blocks are those the context points to and those whose last pointer was overwritten (`drops`, computed from each call); then `Once` |
| C100 | `Server/Visits.lean`: `receive` joins `Wire.recvMsg`, `Wire.greet` (C97), `attach` and the loop `go` (C85); `receiveAll` is the clients one after the other | a visit is a piece of history (`Lived.receive`), so C85, C76 and C89 apply to every client of a sequence; induction over the sequence; the requests written are recovered uniquely from the bytes (`cells_inj`) |
| C101 | `Server/Precopy.lean`: the two memories and two ghost sets (stored and not marked, told and not fetched) beside the account of C80; `migrate` runs any interleaving of calls, stores and fetches of single bytes | invariant by induction over the interleaving; the step of a report is C80_report, that only a report can end the record while range and log stay is `ends_reports`; the witness `C101_early` marks before storing. Not modelled: the guest's own writes, which the client tracks itself |
| C102 | `Server/Pipes.lean`: `pipeRun` puts `Wire.Pipe.next` under `poll`; the descriptors survive every call; `pipeAttach` | a run on a pipe is a history of calls on a socket in which a lost client is followed at once by one with the same limits (`C102_history`), so the theorems about histories apply (`C102_reachable`); the end of the stream by induction over the number of calls, each by C57; replies compared byte by byte with `Wire.reply` |
| C103 | `Wire/Cross.lean`: `Lines` (connection, second socket, client), `doing` (arrivals, `next`, `dmaRead`, `dmaWrite` on the socket `tran_sock_send_msg` chooses) | with a second socket, the run projected to requests and to transfers (`C103_apart`, induction over the run); on one socket, equal to the run with two as long as nothing is unread (`C103_turns`, with C52); the collision for every request and transfer (`C103_header`, `C103_clash`), and a case (`C103_reset`) |
| C104 | `Setup/Order.lean`: the set-up calls of `Setup/Model.lean`, their topics | a call reads and writes the part of the context its topic names (`step_topic`, `step_other`, every call); so a history does to a topic what the calls of the topic do alone (`run_topic`, induction), and the context is its parts (`eq_of_agree`) |
| C105 | `Irq/Recount.lean`: the operations of `Irq/Model.lean` with `vfu_setup_device_nr_irqs` between them | invariant: the array has room for every number (`Roomy`), by induction over the moves; the request beyond the array for every state and vector (`C105_overrun`); the vectors left beyond (`C105_stranded`, induction), ERR and REQ (`C105_unclosed`) |
| C106 | `Server/Guard.lean`: the condition of `quiesce_check_allowed` (`stops`), at the callbacks in the trace of the server (`inCbAt`, the quiesced flag of each event) | invariant over histories: the request that waits needed a quiesce (`Waits`), and each callback has a cause (C92); the exception as a history (`C106_stopped`). The other differences of the DEBUG build — EINVAL without DMA or without an unregister callback, marks ignored without one — are not modelled |
| C107 | `Server/Poll.lean`: the context (`Server.Model`) and the descriptors of its transport (`Wire.Life`, C83) run in lockstep (`deed`): each `detach` of the context closes the connection of the transport | invariant over histories (`Bonded`); every way a call ends a connection (`Parting`) by cases of `call`; blocking calls by induction over the rounds of the loop (C85's `go`); two histories as witnesses for the changes without notice |
| C108 | `Server/Inside.lean`: `handle_request` with calls made in the callback of a region (`inside`, `handleIn`, `dispatchIn`); `Dma/Nested.lean`: the two removal loops with a callback that works on the array (`adropAt`, `aremoveIn`, `adropFrom`) | commutation with the request by comparing two runs; the lost client by cases of `vfu_reset_ctx` and of the reply; the failed assertion from the invariant of the array over all histories (C98) |
| C109 | `Server/Length.lean` over the machine of `Server/Model.lean`; `allowance`: the room a request makes, read off its bytes | the length of what each handler leaves, by cases of the handler; then the messages of a call, then induction over histories with the kept request |
| C110 | `Server/Holds.lean` over the machine of `Server/Model.lean`; `descs`: the descriptors of regions, vectors and the waiting request | the tables reached by a history are reached by operations of the table models (C01, C17), the waiting request comes from the socket (C47); the account is C59 as a permutation; the violation by induction on the repetitions |
| C111 | `Server/Relabel.lean` over the machine of `Server/Model.lean` | a call commutes with replacing the headers by ones of the same command and size (`call_lab`), by cases of the call, then by induction over histories; two histories with the same image are compared through it |
| C112 | `Server/Exchange.lean` over the machine of `Server/Model.lean` | a call commutes with replacing what its topic does not own (`call_graft`) and leaves that as it is (`call_aloof`); by induction a history projects to each topic |
| C113 | `Server/Refused.lean` over the machine of `Server/Model.lean` | per handler: an error result leaves the tables but for `Traces`; lifted to calls after any history by `call_turn`; witnesses for the exceptions: `C113_traces_violated`, `C80_short_unmap` |
| C114 | `Server/Again.lean` over the machine of `Server/Model.lean` | per handler: after a success the second application is the identity (keys of regions are unique, slots are bound or cleared already, the state is the target already), or fails and C113 applies; `not_silent`: failures of requests that change tables are told; lifted to calls after any history by `call_turn` for both calls |
| C115 | `Server/Cost.lean` over the machine of `Server/Model.lean` | per handler: all callbacks of one purpose and their number (`Job`: segments of the config space by induction on the loop, drops by induction on the table, paths of states of length 3 at most), with the mappings left; losing the client (`Leave`); composed per call (`bill_call`), limits of the table from C01 |
| C116 | `Setup/Retry.lean` over the machine of `Setup/Model.lean` | `Left`: exact state after each call without memory; retry by comparing the two calls, for `vfu_realize_ctx` by idempotence of its three steps (BAR bytes by the 256 values of a byte); leaving out by induction on the program with `C69_refused`; witnesses for the lost ioeventfds and the lost controller |
| C117 | `Server/Process.lean`: several server machines, one list of calls, each call finds an arbitrary hint | no call depends on the hint (`C117_call`, from C06 and the invariant of C72 on the table); then induction on the list of calls, projecting it to each device; the id counter of DMA messages, the other shared variable, does not enter because the transfers of C52/C53 hold for all ids; calls are atomic (no two threads inside the library for the same context) |
| C118 | `Wire/Path.lean`: files, contexts with their paths, what the library and others do to them; `bind` refuses a path that exists, `unlink` of an own socket succeeds, the working directory stays | invariant (the file at the path of a context is its socket, every socket is bound once) by induction on histories; `create_cases` for the way `vfu_create_ctx` ends; witness for the removal by others |
| C119 | `Server/Granted.lean`: the calls of the whole server; `Granted` is the contract, stated with the configuration only | every event of a call keeps the contract (`Vouched`), by cases on what the call does; table limits from C01 through `Reached`, layout and migration from invariants of histories; witness for what is not granted |
| C120 | `Server/Stopped.lean`: the calls of the whole server; `Suits` is the table of states and callbacks | every event of a call fits the state before it (`Suited`), together with the invariant that a request that waits is one the state permits; witness for the client that goes away |
| C121 | `Server/Device.lean`: a device that follows its callbacks (`Follows`, `Lives`, relations on what it hears and answers, shown to be functional) beside the whole server | by induction over the history the device is in `st.mig`; requests by C22, resets by unfolding; agreement with the client through C75; witnesses for a function level reset and for a device without reset callback |
| C122 | `Setup/Late.lean` over the machine of `Setup/Model.lean` | invariant of C69 also for realized contexts; the registers by induction over the later calls, on top of C70; witnesses for the capability, BAR and pin that go unseen, and for a failed `vfu_realize_ctx` |
| C123 | `Pci/Refusal.lean` over the machine of `Pci/Model.lean` | by cases of the handlers, bit by bit (`Takes`); witnesses for each exception and for a write over several registers |
| C124 | `Wire/PipeDma.lean`: the loop of `vfu_dma_transfer` over `tran_pipe_send_msg`; the client is a function as in C52 and has written its answer when it is read | step by step equal to the socket's loop with the client `fun w => p (w with zeros for its size)`, so C52 carries over; the refusing client through `C52_read_refused`; all places where the answer is cut, for any client, and exactly for the serving one |
| C125 | `Wire/PipeAttach.lean`: `tran_pipe_attach` with `tran_negotiate`, repeated; the text of the capabilities is a parameter | induction over the messages; the decision by `recvVersion_iff` (C50), the answer by C82; the failing cases by running the receiver on arbitrary headers and cuts |
| C126 | `Server/Holdout.lean`: the calls that can come while the client is gone and the device does not quiesce (`Stall`), on the whole server | by induction over the calls the state differs from that at the loss in the pending request only; the clean-up at the end by C57; witness: an interrupt is signalled to the client that is gone |
| C127 | `Server/NoFlr.lean`: the whole server, the device capabilities register (`DevCap`, `NoFlr`) | the register is kept by every access of an orderly client (C45's frame, the PCI Express handler inside), so by C87's induction over calls; no access of such a client resets a function whose bit is clear (C66); by induction over the history no call does; witness: one overrunning write |

## 4. Modelled / not modelled

Line numbers are given at each definition. "Lists" below name the C functions a module transcribes.

**`Verif/Base.lean`, `Verif/Bytes.lean`** — `satadd_u64/u32`, `ROUND_UP/DOWN`, `get_bitmap_size` (`common.h`); results with
faults; little-endian encoding of the packed wire structures (GCC layout on a little-endian host).

**`Verif/Dma`** — `dma.c`, `dma.h`: `dma_controller_add_region`, `_remove_region`, `_remove_all_regions`,
`array_remove`, `dma_map_region`, `dma_controller_unmap_region`, `dma_addr_to_sgl`, `_dma_addr_sg_split`, `dma_init_sg`,
`dma_sgl_get/put/mark_dirty`, `_dma_mark_dirty`, `dirty_page_logging_start/stop`,
`dma_controller_dirty_page_get` with the equal, extend and combine cases; `handle_dma_map`, `is_valid_unmap`, `handle_dma_unmap`,
`add_fds`/`consume_fd` (`libvfio-user.c`). `Conc.lean` has the concurrent marking and querying of one bitmap as an
interleaving of atomic byte operations.
Not modelled: contents of guest memory; `region_hint` being thread-local (the hint is an explicit argument, universally
quantified); truncation of `max_nr_sgs` beyond `INT_MAX`; the leak of `dirty_bitmap` on removal; memory order weaker than sequential
consistency on single bytes; `dma_sgl_get`'s reference to `vaddr` after a region is unmapped (only addresses are tracked).

**`Verif/Mig`** — `migration.c`, `migration_priv.h` and the feature handlers of `libvfio-user.c`: the state tables,
`migr_state_vfio_to_vfu`, `migr_trans_to_valid_state`, `migration_set_state`,
`migration_feature_*`, `handle_mig_data_read/write`, `handle_device_feature`, `device_reset`.
Not modelled: device callbacks returning values other than 0 or -1; the content of the migration stream (opaque bytes
from the callback).

**`Verif/Irq`** — `irq.c`: `irqs_disable`, `irqs_reset`, `irqs_set_data_none/bool/eventfd`, `is_valid_irqs_set` (the checks of
`handle_device_set_irqs`), `handle_device_get_irq_info`, `vfu_irq_trigger`, `vfu_setup_device_nr_irqs`.
Not modelled: `irq_count` changed after realize; more than one ERR or REQ vector (would touch adjacent fields).

**`Verif/Region`** — `handle_device_get_info`, `handle_device_get_region_info`, `handle_device_get_region_io_fds`, `is_valid_region_access`,
`handle_region_access`, `region_access`, `vfu_setup_region`, `vfu_create_ioeventfd`.
Not modelled: `malloc` failure of the areas copy other than as an error result; an ioeventfd descriptor below -1 (aborts).

**`Verif/Pci`** — `pci.c`: header reads and writes, segment loop, `vfu_pci_init`; `pci_caps.c`: all write handlers, `cap_find_by_offset`,
`pci_cap_access`, `cap_place`, `ext_cap_place`, `vfu_pci_add_capability`, `vfu_pci_find_next_capability`, `access_is_pci_cap_exp`.
Not modelled: a config region callback that returns 0 (the C loop calls it again for ever; the model says `diverge`) or more
than it was asked for; a reset callback that returns a positive value.

**`Verif/Wire`** — `tran_sock.c`: `get_msg`, `tran_sock_get_request_header`, `tran_sock_recv_body`, `tran_sock_recv_fds`,
`tran_sock_recv_msg`, `tran_sock_send_iovec`, `tran_sock_reply`, `tran_sock_send_msg`; `tran.c`: `tran_parse_version_json`,
`recv_version`, `send_version`, `tran_negotiate`; `tran_pipe.c` with `vfu_dma_transfer` over it;
`tran_sock_init`, `_attach`, `_detach`, `_fini`, `_get_poll_fd` (`Life`, the descriptors only); `libvfio-user.c`: `get_request_header`, `is_valid_header`, the reading part of
`get_request`, `vfu_dma_transfer`.
Not modelled: the JSON text (an arbitrary parser is a parameter; the tree it yields is modelled), the text of the server's
capabilities, SIGPIPE (the pipe transport does not suppress it; the socket transport
does), allocation failure of messages.

**`Verif/Server`** — `libvfio-user.c`: `handle_request` with all commands, `do_reply`, `free_msg`, `get_request`, `should_exec_command`,
`command_needs_quiesce`, `vfu_run_ctx`, `vfu_device_quiesced`, `vfu_reset_ctx`, `vfu_reset_ctx_quiesced`, `device_reset`, `call_reset_cb`,
`vfu_attach_ctx` after negotiation, `vfu_sgl_read/write` as far as they can lose the connection, `vfu_irq_trigger`, `vfu_sgl_mark_dirty`
(`vfu_sgl_put` does the same).
A history is a list of calls of the API, each with its own answers of the operating system, the device and the client.
Not modelled: calls from inside callbacks other than those of C108 (region callbacks outside the config space, and a context reset inside `dma_unregister`); two threads; the poll mode of the loop (one round is one call); the device replacing
callbacks or regions after `vfu_realize_ctx`.

**`Verif/Setup`** — `libvfio-user.c`: `vfu_create_ctx`, `vfu_realize_ctx`, `vfu_setup_device_reset_cb`, `_quiesce_cb`, `_dma`, `_nr_irqs`,
`vfu_setup_irq_state_callback`, `vfu_setup_device_migration_callbacks`, `init_migration`; `pci.c`: `vfu_pci_init`, `vfu_pci_set_id`,
`vfu_pci_set_class`; the set-up functions of `Verif/Region` and `Verif/Pci` on one context. `Ctx.server` and `Ctx.start` give the
configuration and the initial state of `Verif/Server`.
Not modelled: failure inside `vfu_create_ctx` (if the region table cannot be allocated, the clean-up dereferences NULL); calls after a
successful `vfu_realize_ctx`; the leak of an earlier DMA controller or migration state on a repeated set-up.

Not modelled anywhere: logging, `errno` left by calls whose result is success, allocation failure unless stated,
Linux-specific layout of `struct iovec` and friends beyond their fields, sample programs, tests.

## 5. What the unchanged code does not guarantee

Found while proving; each has a theorem on a concrete witness, or a general one.

| where | what | theorem |
|-------|------|---------|
| `dma.c` add | no check of `iova+size` wrapping: overlapping regions | `Dma.C01_disjoint_violated` |
| `dma.h` fast path | wrapping end accepted | `Dma.C04_violated`, `Dma.C06_violated` |
| the hint is shared by the devices of a thread | a report that runs past 2^64 is refused or ends the process depending on what another device translated last | `Server.C117_hint_decides` |
| `tran_sock_fini` removes whatever is at the path | if others removed the path of a context and a second context was created there, destroying the first makes the second unreachable | `Wire.Path.C118_stolen` |
| `handle_dma_map` announces every range the table takes | the register callback may get an empty range, one that passes the end of the address space, and one it already has | `Server.C119_not_granted` |
| `device_reset` sets RUNNING also if there is no reset callback | a device without reset callback is not told that its migration ended, and is then asked for a transition that is no documented arc | `Server.C121_unheard` |
| `dma.c` map | file offset not page aligned: wrong address | `Dma.C07_violated` |
| `handle_dma_map` | descriptor closed twice when `mmap` fails; leaked on re-map | `Dma.C08_double_close`, `Dma.C08_leak` |
| `array_remove` | entries after a removed one shift under held sg indices | `Dma.C10_violated` |
| `_dma_mark_dirty` | ranges beyond a region | `Dma.C11_violated`, `Dma.C11_abort` |
| dirty bitmap, extend/combine | endless loop, overflow, lost pages | `Dma.C14_diverges`, `Dma.C14_overflow`, `Dma.C15_violated`, `Dma.C15_lost` |
| `dma_controller_dirty_page_get` | wrapping range; several regions | `Dma.C18_wrap`, `Dma.C18_several` |
| migration set state | state 8 reads past the table | `Mig.C22_violated` |
| `irqs_disable` | range ends at `count`, not `start+count`; the client is told the vectors are unbound | `Irq.C28_violated`, `Server.C78_violated` |
| interrupts | 2^32-1 vectors wrap the bound check; booleans ignored by MASK/UNMASK | `Irq.C26_violated`, `Irq.C63_violated` |
| more interrupts after `vfu_realize_ctx` | the number is accepted, the array is not enlarged: a client's SET_IRQS writes outside of it; with fewer, eventfds stay bound out of the client's reach | `Irq.C105_overrun`, `Irq.C105_stranded`, `Irq.C105_unclosed` |
| debug check in the config space callback | a write to the device control register quiesces the device, and the callback of the config space runs with `in_cb` clear: the DEBUG build aborts if it uses guest memory | `Server.C106_stopped` |
| `vfu_get_poll_fd` | the descriptor changes although the call returns success: a non-blocking `vfu_run_ctx` whose reply fails, `vfu_device_quiesced` after a lost connection | `Server.C107_unnoticed` |
| losing the client inside a region callback | `vfu_run_ctx` returns EBADF instead of ENOTCONN; with a deferred quiesce and a failing reply the regions are removed and the device is reset before it has quiesced, and `vfu_device_quiesced` later closes the connection of the next client | `Server.C108_lost`, `Server.C108_hasty`, `Server.C108_unquiesced` |
| losing the client inside `dma_unregister` | the context is reset inside the removal; the slot is zeroed and its descriptor 0 fails `assert(region->fd == -1)` | `Dma.C108_unregister` |
| reads of migration data | the reply buffer is as long as the whole request and the data, so bytes after the two fields of the request come back as padding beyond `argsz` | `Server.C109_trailing` |
| dirty page reports | bounded by `argsz` only, not by the `max_data_xfer_size` of the client | `Server.C109_negotiated` |
| repeated maps | each leaves one open descriptor behind, without limit | `Server.C110_hoard_violated` |
| a reply that cannot be sent | resets the device although the request was carried out; without a reply nothing happens | `Server.C111_lossy_violated` |
| requests that are refused | an unmap with bitmap clears dirty pages, a state change stops half-way, a config space write stores the registers before the bad one | `Server.C80_short_unmap`, `Server.C113_traces_violated` |
| regions | READ/WRITE flags not enforced; wrapping areas; truncated sizes; stale areas | `Region.C32_flags_ignored`, `Region.C36_wrap`, `Region.C36_truncated`, `Region.C36_stale`, `Region.C35_wrap` |
| config space segments | run out of a capability; default handler serves capabilities | `Pci.C37_overrun`, `Pci.C37_first_match` |
| capability lists | 8-bit link truncated; automatic placement overlaps; aborts | `Pci.C39_violated`, `Pci.C40_violated`, `Pci.C40_aborts` |
| read-only capabilities | overwritten from a neighbour or through the callback | `Pci.C41_overrun`, `Pci.C41_bypass`, `Pci.C41_touching`, `Server.C87_violated` |
| function level reset | a write that runs out of the capability before the PCI Express one switches the feature on | `Server.C127_violated` |
| a device that refuses to quiesce after its client is gone | DMA regions and eventfds of the lost client stay in use and no other client is let in until the device quiesces; nothing limits how long | `Server.C126_held`, `Server.C126_signals` |
| replies carry no uninitialised memory | unmap with dirty bitmap of a zero-size region, or in another page size than the log's, sends heap contents | `Server.C88_empty`, `Server.C88_mixed` |
| a new client finds a fresh device | dirty page logging left on, or a refused reset, is visible to the next client | `Server.C89_logging`, `Server.C89_refused` |
| features that are offered can be used | a device without DMA offers dirty page logging; using it fails an assertion | `Server.C91_violated` |
| the migration stream is complete | a read sent without asking for a reply is served and its bytes are lost; a partial write is answered EINVAL although bytes were taken | `Server.C93_unheard`, `Server.C93_short` |
| memory is given back | a region unmapped (or dropped at disconnection) while dirty logging is on takes its bitmap with it: `dma_controller_remove_region` and `_remove_all_regions` do not free it | `Dma.C94_leak` |
| every request gets a reply | if the reply body cannot be allocated, its length is already set and its pointer NULL: `sendmsg` fails with EFAULT, the client is told nothing | `Server.C95_silent` |
| the memory of a request is freed | `tran_negotiate` does not free the client's version message when `socketpair` fails; `vfu_destroy_ctx` does not free a pending message | `Blocks.C96_lost` |
| a device may use `vfu_sgl_read` in its callbacks | it asserts that nothing is pending, which is false in callbacks of a deferred request | `Blocks.C96_assert` |
| the announced limits are numbers, and hold | `json_add_uint64` does not check `json_object_new_int64`: null is announced; `handle_mig_data_write` limits what the client sends by what it can receive | `Wire.C97_null`, `Wire.C97_migration` |
| `vfu_sg_is_mappable` agrees with `vfu_sgl_get` | the index is not compared with `nregions`: a leftover slot answers | `Dma.C98_stale` |
| `vfu_create_ctx` fails with `NULL` when memory is short | `free_regions` reads ten regions that were not allocated | `Estate.C99_crash` |
| what was set up can be set up again | the first controller, migration state or list of areas is lost, and after a failure the region's ioeventfds | `Estate.C99_lost` |
| losing the client is noticed once (pipe) | `tran_pipe_detach` does nothing, so every `vfu_run_ctx` at the end of the stream quiesces and resets the device again | C102_again, C102_once |
| a client inherits nothing (pipe) | `tran_pipe_attach` does not check for an attached client and takes the descriptors away when the negotiation fails, without a reset; the next client finds the regions, interrupts and migration state of the one before | C102_inherited |
| requests and DMA messages on one socket | a request of the client is taken for the answer to a DMA message: the transfer fails, the payload of the request is read as requests | `Wire.C103_clash`, `Wire.C103_reset` |
| registers | refused writes stored in part; read-only bits replaced | `Pci.C43_violated`, `Pci.C44_violated`, `Pci.C42_sticky` |
| config writes | read past the client's data, write past a stack copy | `Pci.C45_violated` |
| capability lookup | takes the header for an extended capability; aborts | `Pci.C67_violated`, `Pci.C67_small` |
| malformed header, split payload | the refused message's bytes are taken for the next request | `Wire.C48_violated`, `Wire.C48_short` |
| version | 32-bit reduction before the range check; transfer size unchecked | `Wire.C50_violated` |
| socket DMA | chunks above 1 MiB fail; uninitialised comparison; endless loop for maximum 0 | `Wire.C52_read_violated`, `Wire.C52_write_uninit`, `Wire.C53_violated` |
| replies | body on error; failure with errno 0; negotiated descriptor limit ignored | `Server.C49_error_body_violated`, `Server.C49_error_zero_violated`, `Server.C51_negotiated_violated` |
| `tran_sock_send_iovec`, `tran_parse_version_json` | the size field of a reply of 4 GiB wraps, and a limit of -1 is kept as 2^64 - 1: a read of migration data is answered by a header that claims 15 bytes, and counts as sent | `Wire.C49_wraps`, `Server.C49_huge` |
| request loop | request dropped without reply after a failed deferred quiesce or allocation | `Server.C54_dropped`, `Server.C54_no_memory` |
| lost connection | page size of dirty logging persists; migration state if the device refuses the reset; nothing is reset if the quiesce fails | `Server.C57_dirty_persists`, `Server.C57_stays_stopped`, `Server.C57_quiesce_failed`, `Server.C57_deferred_failed` |
| descriptors of requests | closed twice or leaked as above; lost with truncated messages | `Server.C59_double_close`, `Server.C59_leak`, `Server.C59_lost` |
| any client can | read past short unmap and feature payloads; abort a device without DMA by starting dirty logging; loop or overflow by fine or wrapping dirty queries | `Server.C61_short_unmap`, `Server.C61_short_feature`, `Server.C61_no_controller`, `Server.C61_finer_query`, `Server.C61_wrapping_query`, `Server.C61_state`, `Server.C61_short_register` |
| device calls | marking a page of a region without descriptor, or transferring while quiescing, aborts | `Server.C61_mark_without_fd`, `Server.C61_transfer_pending` |
| unmap with bitmap over several regions | answered without error flag and without payload although nothing is removed | `Server.C71_silent_unmap` |
| destroying the context while a request is deferred | the descriptors that came with the request are never closed | `Server.C68_pending_leak` |
| misuse of the set-up API | ids, class or capabilities before `vfu_pci_init` write to NULL; a config region smaller than the header is overrun by `vfu_realize_ctx`, one larger than the config space by clients; refused migration callbacks drop earlier ones; a failed set-up of the config region shrinks it to 256 bytes | `Setup.C69_no_space`, `Setup.C69_tiny_space`, `Setup.C69_oversized`, `Setup.C69_migration_lost`, `Setup.C69_shrunk` |
| function level reset | a write that runs into the device control register from the capability before resets a device that was not asked to quiesce | `Server.C77_violated` |
| refused writes to command, MSI control and device control registers | part of the data is stored although the client is told that the write failed | `Pci.C123_happens` |
| BARs nobody set up | are shown as I/O BARs (value 1) instead of 0 | part of `Setup.C70_advertised` |
| capabilities, regions and INTx set up after `vfu_realize_ctx` | the calls succeed; status register, BAR type and interrupt pin do not show them | `Setup.C122_unseen` |
| `vfu_realize_ctx` that fails for lack of memory | has marked BARs as I/O; the mark stays when the region is set up as memory afterwards | `Setup.C122_stale` |
| `vfu_setup_region` twice | a second set-up without descriptor keeps the areas of the first; GET_REGION_INFO then fails to send and the client gets no reply | `Setup.C79_stale` |
| `vfu_setup_region` and `vfu_setup_device_dma` without memory | the entry is zeroed, its descriptor is 0 and its ioeventfds are lost for good; the controller set up before is lost | `Setup.C116_ioeventfds_lost`, `Setup.C116_dma_lost` |
| DMA_LOGGING_REPORT of the first pages of a range | answered; the record of later pages (up to the 64-page rounding) is erased | `Server.C80_short_report` |
| DMA_UNMAP with GET_DIRTY_BITMAP of the first pages of a range | the bitmap is read and cleared, then the removal fails with ENOENT: the pages are lost | `Server.C80_short_unmap` |
| pipe transport | replies and commands have size 0 (a success is refused by the library's own receiver); short writes reported as success | `Wire.Pipe.C82_refused`, `Wire.Pipe.C82_command`, `Wire.Pipe.C82_short` |
| pipe transport | version request in two pieces refused | `Wire.Pipe.C81_pieces` |
| pipe transport | a DMA request has size 0, so a client that checks sizes refuses every transfer; an answer that arrives in pieces fails the transfer with ENOTCONN and its rest, which may be the client's memory, is read as the next request | `Wire.Pipe.C124_strict`, `Wire.Pipe.C124_pieces`, `Wire.Pipe.C124_rest`, `Wire.Pipe.C124_injected` |
| pipe transport | after a version request with a bad header or in pieces, the next `vfu_attach_ctx` reads from the middle of it | `Wire.Pipe.C125_header`, `Wire.Pipe.C125_pieces` |
| request whose quiesce succeeded at once but whose reply cannot be sent | the quiesce callback is called a second time within the same `vfu_run_ctx` | `Server.C84_twice` |
| non-blocking `vfu_run_ctx`, payload not there yet | the request is refused with EAGAIN and its payload taken for the next request; a blocking call waits | `Server.C85_pieces` |
