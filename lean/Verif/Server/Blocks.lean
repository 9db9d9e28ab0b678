import Verif.Base

/-!
# The memory of a request

C96.  `Server/Model.lean` has values where the code has blocks of the heap: the message, its payload, its arrays of descriptors, the
body of the reply, the buffer of a DMA transfer.  Here are the functions that allocate, use and free those blocks, with everything
else they decide left open: a field of `Way` says which branch is taken, and the theorems hold for all of them.  So the model allows
everything that the code does, and more.

Left out: device callbacks that call `vfu_run_ctx`, `vfu_device_quiesced` or `vfu_destroy_ctx`, which the library does not allow for;
memory that belongs to the context (`Dma/Heap.lean` has the dirty bitmaps); the objects of json-c.
-/

namespace Verif.Blocks

/-- What is done to the heap.  `wild`: use of a null pointer. -/
inductive HEv where
  | alloc (b : Nat)
  | use (b : Nat)
  | free (b : Nat)
  | wild
  deriving DecidableEq, Repr

/-- Commands, as far as their handlers differ in what they do to memory. -/
inductive Cmd where
  | map | unmap | info | regionInfo | ioFds | irqInfo | setIrqs | access | reset | featGet | featDma | featSet | featProbe
  | migRead | migWrite | bad
  deriving DecidableEq, Repr

/-- `lib/private.h:78-96` `vfu_msg_t`: the block it is in, the command of its header and its pointers.  `out_iovecs` is never set for a request. -/
structure Msg where
  self : Nat
  cmd : Cmd
  inIov : Option Nat
  inFds : Option Nat
  outFds : Option Nat
  outIov : Option Nat
  deriving DecidableEq, Repr

/-- `vfu_ctx->pending` (`lib/private.h:108-119,178`). -/
inductive Pend where
  | none
  | msg (m : Msg)
  | reset
  deriving DecidableEq, Repr

/-- The heap: the next new block, what was done so far; the context.  `dead`: an assertion failed, or the
context was destroyed. -/
structure Ctx where
  next : Nat
  tr : List HEv
  pending : Pend
  dead : Bool
  deriving DecidableEq, Repr

def Ctx.init : Ctx := { next := 0, tr := [], pending := .none, dead := false }

/-- `malloc`, `calloc`, `strdup`; `ok`: there is memory. -/
def take (c : Ctx) (ok : Bool) : Ctx × Option Nat :=
  if ok then ({ c with next := c.next + 1, tr := c.tr ++ [.alloc c.next] }, some c.next) else (c, none)

/-- A read or write through a pointer. -/
def use (c : Ctx) (p : Option Nat) : Ctx :=
  { c with tr := c.tr ++ [match p with | some b => .use b | none => .wild] }

/-- Use of a pointer that may be null, after a check. -/
def useIf (c : Ctx) : Option Nat → Ctx
  | none => c
  | some b => use c (some b)

/-- `free`. -/
def release (c : Ctx) : Option Nat → Ctx
  | none => c
  | some b => { c with tr := c.tr ++ [.free b] }

/-- A call of `vfu_sgl_read` or `vfu_sgl_write`.  `early`: refused before anything is allocated.  `mem`: there is memory for the buffer.
`chunks`: messages exchanged.  `lost`: the last of them found the connection gone; `busy`: the device then defers the reset. -/
structure Xfer where
  early : Bool
  mem : Bool
  chunks : Nat
  lost : Bool
  busy : Bool
  deriving DecidableEq, Repr

inductive Quiet where
  | unneeded | at_once | refused | deferred
  deriving DecidableEq, Repr

/-- The way a request takes through the code. -/
structure Way where
  /-- the transport has a header -/
  header : Bool
  /-- descriptors came with it -/
  fds : Bool
  /-- there is memory for the message, the array of descriptors, the payload, the reply, its descriptors, its iovecs -/
  memMsg : Bool
  memFds : Bool
  memBody : Bool
  memOut : Bool
  memOutFds : Bool
  memIov : Bool
  /-- it is a command, of permitted size -/
  formed : Bool
  /-- it has a payload -/
  body : Bool
  /-- the payload arrives -/
  recv : Bool
  cmd : Cmd
  /-- `should_exec_command` -/
  exec : Bool
  quiet : Quiet
  /-- the handler refuses before it allocates anything -/
  refuse : Bool
  /-- there are capabilities, or ioeventfds, that fit -/
  fit : Bool
  /-- the handler fails after it has allocated the reply -/
  fail : Bool
  /-- what the device does in its callbacks -/
  xfers : List Xfer
  noReply : Bool
  /-- the connection is found lost, by reading or by replying; the device then defers the reset -/
  lost : Bool
  busy : Bool
  deriving DecidableEq, Repr

/-- `lib/libvfio-user.c:1820-1841` `vfu_reset_ctx`; `busy`: the quiesce callback answers EBUSY.  What it resets has no blocks of a
request. -/
def resetCtx (busy : Bool) (c : Ctx) : Ctx :=
  if c.pending = .none ∧ busy = true then { c with pending := .reset } else c

/-- The messages of a transfer: the buffer is used for each (`lib/libvfio-user.c:2316-2365`). -/
def chunks (p : Option Nat) : Nat → Ctx → Ctx
  | 0, c => c
  | n + 1, c => chunks p n (use c p)

/-- `lib/libvfio-user.c:2372-2397` `vfu_sgl_read`, `vfu_sgl_write`, and 2275-2370 `vfu_dma_transfer`. -/
def transfer (x : Xfer) (c : Ctx) : Ctx :=
  if c.dead = true then c
  else if c.pending ≠ .none then { c with dead := true }
  else if x.early = true then c
  else
    match take c x.mem with
    | (c, none) => c
    | (c, some p) =>
      let c := chunks (some p) x.chunks c
      let c := if x.lost = true then resetCtx x.busy c else c
      release c (some p)

def transfers : List Xfer → Ctx → Ctx
  | [], c => c
  | x :: xs, c => transfers xs (transfer x c)

/-- `lib/common.h:143-151` `iov_free` on the reply. -/
def iovFree (c : Ctx) (m : Msg) : Ctx × Msg := (release c m.outIov, { m with outIov := none })

/-- The handlers that answer from a block they fill: `lib/libvfio-user.c:277-329` `handle_region_access`, 332-366
`handle_device_get_info`, `lib/irq.c:58-92` `handle_device_get_irq_info`, `lib/libvfio-user.c:803-870` `handle_dma_unmap`, 956-1008
`handle_migration_device_feature_get`, 1142-1178 and 1187-1206 (SET, PROBE): checks of the payload, the block, the payload again
(it is copied, or its data is given to the device), the device. -/
def answer (w : Way) (c : Ctx) (m : Msg) : Ctx × Msg :=
  let c := use c m.inIov
  if w.refuse = true then (c, m)
  else
    match take c w.memOut with
    | (c, none) => (c, { m with outIov := none })
    | (c, some p) =>
      let c := use (use c m.inIov) (some p)
      (transfers w.xfers c, { m with outIov := some p })

/-- `lib/libvfio-user.c:369-443` `handle_device_get_region_info` with `dev_get_caps` (104-145). -/
def regionInfo (w : Way) (c : Ctx) (m : Msg) : Ctx × Msg :=
  let c := use c m.inIov
  if w.refuse = true then (c, m)
  else
    match take c w.memOut with
    | (c, none) => (c, { m with outIov := none })
    | (c, some p) =>
      let c := use (use c m.inIov) (some p)
      let m := { m with outIov := some p }
      if w.fit = true then
        match take c w.memOutFds with
        | (c, none) => (c, { m with outFds := none })
        | (c, some q) => (use (use c (some q)) (some p), { m with outFds := some q })
      else (c, m)

/-- `lib/libvfio-user.c:547-661` `handle_device_get_region_io_fds`; 563: `assert(msg->out.fds == NULL)`. -/
def ioFds (w : Way) (c : Ctx) (m : Msg) : Ctx × Msg :=
  if m.outFds ≠ none then ({ c with dead := true }, m)
  else
    let c := use c m.inIov
    if w.refuse = true then (c, m)
    else
      match take c w.memOut with
      | (c, none) => (c, { m with outIov := none })
      | (c, some p) =>
        let c := use (use c m.inIov) (some p)
        let m := { m with outIov := some p }
        if w.fit = true then
          match take c w.memOutFds with
          | (c, none) => (c, { m with outFds := none })
          | (c, some q) => (use (use c (some q)) (some p), { m with outFds := some q })
        else (c, m)

/-- `lib/libvfio-user.c:1022-1078` `handle_dma_device_feature_get`: frees the reply when the report fails. -/
def featDma (w : Way) (c : Ctx) (m : Msg) : Ctx × Msg :=
  let c := use c m.inIov
  if w.refuse = true then iovFree c m
  else
    match take c w.memOut with
    | (c, none) => (c, { m with outIov := none })
    | (c, some p) =>
      let c := use (use c m.inIov) (some p)
      let m := { m with outIov := some p }
      if w.fail = true then iovFree c m else (c, m)

/-- `lib/migration.c:289-349` `handle_mig_data_read`: frees the reply when the device's callback fails. -/
def migRead (w : Way) (c : Ctx) (m : Msg) : Ctx × Msg :=
  let c := use c m.inIov
  if w.refuse = true then (c, m)
  else
    match take c w.memOut with
    | (c, none) => (c, { m with outIov := none })
    | (c, some p) =>
      let c := transfers w.xfers (use c (some p))
      let m := { m with outIov := some p }
      if w.fail = true then iovFree c m else (use c (some p), m)

/-- The switch of `handle_request`, `lib/libvfio-user.c:1326-1386`.  `handle_dma_map` and `handle_device_set_irqs` take descriptors
from the array (677-691, `lib/irq.c:313,355`); a reset and a migration write only call the device. -/
def handle (w : Way) (c : Ctx) (m : Msg) : Ctx × Msg :=
  match m.cmd with
  | .map => (transfers w.xfers (useIf (use c m.inIov) m.inFds), m)
  | .setIrqs => (transfers w.xfers (useIf (use c m.inIov) m.inFds), m)
  | .migWrite => (transfers w.xfers (use c m.inIov), m)
  | .reset => (transfers w.xfers c, m)
  | .bad => (c, m)
  | .regionInfo => regionInfo w c m
  | .ioFds => ioFds w c m
  | .featDma => featDma w c m
  | .migRead => migRead w c m
  | .unmap => answer w c m
  | .info => answer w c m
  | .irqInfo => answer w c m
  | .access => answer w c m
  | .featGet => answer w c m
  | .featSet => answer w c m
  | .featProbe => answer w c m

/-- `lib/libvfio-user.c:1281-1314` `do_reply` and `lib/tran_sock.c:573-610` `tran_sock_reply` (`lib/tran_pipe.c:380-414`). -/
def doReply (w : Way) (c : Ctx) (m : Msg) : Ctx :=
  if w.noReply = true then use c (some m.self)
  else
    match take (use c (some m.self)) w.memIov with
    | (c, none) => c
    | (c, some v) =>
      let c := useIf (useIf (use c (some v)) m.outIov) m.outFds
      let c := release c (some v)
      if w.lost = true then resetCtx w.busy c else c

/-- `lib/libvfio-user.c:1242-1279` `free_msg`; the message is not null. -/
def freeMsg (c : Ctx) (m : Msg) : Ctx :=
  let c := use c (some m.self)
  let c := release c m.inIov
  let c := useIf c m.inFds
  let c := release c m.inFds
  let c := release c m.outFds
  let c := release c m.outIov
  release c (some m.self)

/-- `lib/libvfio-user.c:1316-1398` `handle_request`. -/
def handleRequest (w : Way) (c : Ctx) (m : Msg) : Ctx × Msg :=
  let r := handle w (use c (some m.self)) m
  if r.1.dead = true then r else (doReply w r.1 r.2, r.2)

/-- `lib/libvfio-user.c:1211-1240` `alloc_msg`. -/
def allocMsg (w : Way) (c : Ctx) : Ctx × Option Msg :=
  match take c w.memMsg with
  | (c, none) => (c, none)
  | (c, some p) =>
    let c := use c (some p)
    let m : Msg := { self := p, cmd := w.cmd, inIov := none, inFds := none, outFds := none, outIov := none }
    if w.fds = true then
      match take c w.memFds with
      | (c, none) => (release c (some p), none)
      | (c, some q) => (use c (some q), some { m with inFds := some q })
    else (c, some m)

/-- `lib/tran_sock.c:507-551` `tran_sock_recv_body` (`lib/tran_pipe.c:315-356`): the payload, and whether it succeeded. -/
def recvBody (w : Way) (c : Ctx) (m : Msg) : Ctx × Msg × Bool :=
  match take c w.memBody with
  | (c, none) => (c, { m with inIov := none }, false)
  | (c, some p) =>
    if w.recv = true then (use c (some p), { m with inIov := some p }, true)
    else (release (use c (some p)) (some p), { m with inIov := none }, false)

/-- `is_valid_header`, `lib/libvfio-user.c:1440-1474`: only a reset has no payload. -/
def Way.valid (w : Way) : Bool := w.formed && (w.body || w.cmd == .reset)

/-- The `err` label of `get_request`, `lib/libvfio-user.c:1630-1640`. -/
def refused (w : Way) (c : Ctx) (m : Msg) : Ctx := freeMsg (doReply w c m) m

/-- The loop body of `vfu_run_ctx` (`lib/libvfio-user.c:1661-1694`) with `get_request` (1571-1641) and `get_request_header`
(1400-1437). -/
def runOnce (w : Way) (c : Ctx) : Ctx :=
  if c.dead = true then c
  else if c.pending ≠ .none then c
  else if w.header = false then if w.lost = true then resetCtx w.busy c else c
  else
    match allocMsg w c with
    | (c, none) => c
    | (c, some m) =>
      let c := use c (some m.self)
      if w.valid = false then refused w c m
      else
        let r := if w.body = true then recvBody w c m else (c, m, true)
        if r.2.2 = false then refused w r.1 r.2.1
        else if w.exec = false then refused w r.1 r.2.1
        else
          match w.quiet with
          | .refused => refused w r.1 r.2.1
          | .deferred => { r.1 with pending := .msg r.2.1 }
          | _ =>
            let h := handleRequest w r.1 r.2.1
            if h.1.dead = true then h.1 else freeMsg h.1 h.2

/-- `lib/libvfio-user.c:2404-2448` `vfu_device_quiesced`; `ok`: `quiesce_errno` is 0. -/
def deviceQuiesced (w : Way) (ok : Bool) (c : Ctx) : Ctx :=
  if c.dead = true then c
  else
    match c.pending with
    | .none => c
    | .reset => { c with pending := .none }
    | .msg m =>
      if ok = true then
        let h := handleRequest w c m
        if h.1.dead = true then h.1 else { freeMsg h.1 h.2 with pending := .none }
      else { freeMsg c m with pending := .none }

/-- The way of a client that connects.  `recv`: a version message arrives; `body`, `memBody`, `whole`: it has a payload, there is
memory for it, it arrives whole; `good`: the version is accepted; `memIov`: memory for the iovecs of a reply; `twin`, `pair`: a
second socket is wanted, and made; `memCaps`: memory for the server's capabilities. -/
structure Greet where
  recv : Bool
  body : Bool
  memBody : Bool
  whole : Bool
  good : Bool
  memIov : Bool
  twin : Bool
  pair : Bool
  memCaps : Bool
  deriving DecidableEq, Repr

/-- `tran->reply` with a message on the stack and `out_iovecs` of its caller (`lib/tran_sock.c:573-610`). -/
def sendVersion (memIov : Bool) (caps : Option Nat) (c : Ctx) : Ctx :=
  match take c memIov with
  | (c, none) => c
  | (c, some v) => release (useIf (use c (some v)) caps) (some v)

/-- `lib/tran.c:456-496` `tran_negotiate` with `recv_version` (168-292), `tran_sock_recv_alloc` (`lib/tran_sock.c:265-312`) and
`send_version` (`lib/tran.c:411-453`).  Line 474-477: when `socketpair` fails, `client_version` is not freed. -/
def negotiate (g : Greet) (c : Ctx) : Ctx :=
  if g.recv = false then c
  else
    let r := if g.body = true then take c g.memBody else (c, none)
    if g.body = true ∧ r.2 = none then c
    else if g.body = true ∧ g.whole = false then release (use r.1 r.2) r.2
    else
      let c := useIf r.1 r.2
      if g.good = false ∨ r.2 = none then release (sendVersion g.memIov none c) r.2
      else if g.twin = true ∧ g.pair = false then c
      else
        match take c g.memCaps with
        | (c, none) => release c r.2
        | (c, some p) => release (release (sendVersion g.memIov (some p) (use (use c r.2) (some p))) (some p)) r.2

/-- `vfu_attach_ctx` (`lib/libvfio-user.c:1970-1977`). -/
def attach (g : Greet) (c : Ctx) : Ctx := if c.dead = true then c else negotiate g c

/-- `vfu_destroy_ctx` (`lib/libvfio-user.c:1843-1870`): resets the context without asking the device, frees what belongs to the
context, and no message. -/
def destroy (c : Ctx) : Ctx := { c with dead := true }

/-- Calls into the library. -/
inductive Op where
  | run (w : Way)
  | quiesced (w : Way) (ok : Bool)
  | xfer (x : Xfer)
  | attach (g : Greet)
  | destroy

def step (c : Ctx) : Op → Ctx
  | .run w => runOnce w c
  | .quiesced w ok => deviceQuiesced w ok c
  | .xfer x => transfer x c
  | .attach g => attach g c
  | .destroy => destroy c

def run (c : Ctx) (l : List Op) : Ctx := l.foldl step c

/-- The blocks of a message. -/
def Msg.blocks (m : Msg) : List Nat := m.self :: (m.inIov.toList ++ (m.inFds.toList ++ (m.outFds.toList ++ m.outIov.toList)))

def Pend.blocks : Pend → List Nat
  | .msg m => m.blocks
  | _ => []

end Verif.Blocks
