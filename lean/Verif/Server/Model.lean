import Verif.Wire.Model
import Verif.Mig.Feature
import Verif.Irq.Model
import Verif.Pci.Model

/-!
# The request loop (`lib/libvfio-user.c:661-903, 1211-1697, 1800-1841, 2275-2447`)

One connection, one thread.  The device does not call back into the library from its callbacks.

* What the socket delivers to one round of the loop is a `Wire.In` (`Wire.next` produces it from the bytes of the stream).
* Everything that happens is an event in one trace; assignments to `in_cb` are events too, so its value at any
  time is that of the last assignment.  Events marked *ghost* do not exist in the code; they delimit requests.
* `errno` is carried by the result; the log is left out. -/

namespace Verif.Server
open Verif
open Verif.Dma (Fd)

/-! ## State and events -/

/-- Reasons of a reset, `include/libvfio-user.h:312-316`. -/
inductive Reason where
  | device | lostConn | flr
  deriving DecidableEq, Repr

/-- `lib/private.h:147-154` `enum cb_type`. -/
inductive CbType where
  | none | dmaRegister | dmaUnregister | reset | quiesce | migrState
  deriving DecidableEq, Repr

/-- Calls of the device's callbacks. -/
inductive Call where
  /-- the quiesce callback and its result: 0, or -1 with an `errno` -/
  | quiesce (ret : Option Nat)
  | dmaRegister (i : Dma.Info)
  | dmaUnregister (i : Dma.Info)
  | reset (r : Reason)
  | migState (v : Mig.Vfu)
  | migData (e : Mig.DataEv)
  | region (region off : Nat) (buf : List Byte) (write : Bool)
  | irqState (index start count : Nat) (mask : Bool)
  deriving DecidableEq, Repr

inductive Ev where
  /-- ghost: a request arrived with these descriptors -/
  | got (h : Wire.Hdr) (fds : List Fd)
  /-- ghost: descriptors arrived that the code lost track of -/
  | lost (fds : List Fd)
  /-- ghost: `handle_request` looks at the command -/
  | exec (h : Wire.Hdr)
  /-- ghost: the message was freed -/
  | freed
  /-- ghost: the device called `vfu_device_quiesced` -/
  | devQuiesced (errno : Nat)
  /-- ghost: control returns to the caller of the library -/
  | ret
  /-- an assignment to `in_cb` -/
  | inCb (c : CbType)
  /-- a callback runs while `vfu_ctx->quiesced` has this value -/
  | call (c : Call) (quiesced : Bool)
  | mmap (base len : Nat)
  | munmap (base len : Nat)
  | close (fd : Fd)
  | signal (fd : Fd)
  | sent (m : Wire.Sent)
  /-- the connection is closed by the server -/
  | detach
  deriving DecidableEq, Repr

/-- A received message: header, payload, descriptors. -/
structure Msg where
  hdr : Wire.Hdr
  body : List Byte
  fds : List Fd
  deriving DecidableEq, Repr

/-- `lib/private.h:130-145`, `vfu_ctx->pending`. -/
inductive Pending where
  | none
  | msg (m : Msg)
  | ctxReset
  deriving DecidableEq, Repr

/-- What the device set up before `vfu_realize_ctx`. -/
structure Cfg where
  hasQuiesce : Bool
  hasReset : Bool
  dma : Dma.Cfg
  irq : Irq.Cfg
  tbl : List Region.Reg

/-- The parts of `struct vfu_ctx` that change (`lib/private.h:156-191`). `mig`, `dma`: `none` when not set up.
`conn`: the socket is connected. -/
structure St where
  mig : Option Nat
  dma : Option Dma.Ctl
  irqs : Irq.Irqs
  pci : Pci.Pci
  conn : Bool
  pending : Pending
  quiesced : Bool
  maxFds : Int
  maxXfer : Nat

/-- What the operating system and the device answer during one call. `malloc n`: content of `n` fresh bytes.
`quiesce k`: result of the `k`-th quiesce callback of this call. -/
structure Env where
  os : Dma.OS
  alloc : Bool
  malloc : Nat → List Byte
  ca : Nat → Bool
  hint : Nat
  migCb : Nat → Option Nat
  readData : Nat → Mig.ReadCb
  writeData : List Byte → Except Nat Nat
  eventfd : Nat → Option Nat
  region : (region off : Nat) → (buf : List Byte) → (write : Bool) → Res Nat × List Byte
  cfgCb : Pci.Mem → Nat → List Byte → Bool → Pci.Mem × List Byte × Res Nat
  resetMem : Pci.Mem → Pci.Mem
  resetCb : Reason → Option Nat
  quiesce : Nat → Option Nat
  snd : Wire.Send

def Env.feat (env : Env) : Mig.FEnv := { cb := env.migCb, alloc := env.alloc, ca := env.ca, hint := env.hint }

/-- A callback with its bookkeeping. -/
def bracket (t : CbType) (c : Call) (q : Bool) : List Ev := [.inCb t, .call c q, .inCb .none]

/-- Events of the DMA controller; `in_cb`: `lib/dma.c:164-168,200-204`, `lib/libvfio-user.c:735-739`. -/
def ofDma (q : Bool) : Dma.Ev → List Ev
  | .register i => bracket .dmaRegister (.dmaRegister i) q
  | .unregister i => bracket .dmaUnregister (.dmaUnregister i) q
  | .mmap b l => [.mmap b l]
  | .munmap b l => [.munmap b l]
  | .close fd => [.close fd]

/-- Events of interrupt requests. -/
def ofIrq (q : Bool) : Irq.Ev → List Ev
  | .close fd => [.close fd]
  | .signal fd => [.signal fd]
  | .state i s c m => [.call (.irqState i s c m) q]

/-- Events of config space accesses; `lib/libvfio-user.c:872-886` `call_reset_cb`. -/
def ofPci (q : Bool) : Pci.Ev → List Ev
  | .cb off buf w => [.call (.region Region.CFG_IDX off buf w) q]
  | .flr => bracket .reset (.reset .flr) q

/-- Migration callbacks; `lib/migration.c:227-231`. -/
def ofVfu (q : Bool) (v : Mig.Vfu) : List Ev := bracket .migrState (.migState v) q

def closes (fds : List (Option Fd)) : List Ev := (fds.filterMap id).map Ev.close

/-! ## The commands -/

/-- Outcome of a handler: `out`, `outFds`: the reply as the handler left it; `left`: descriptors still in the
message. -/
structure Done where
  st : St
  res : Res Unit
  out : Wire.Body
  outFds : List (Option Fd)
  left : List (Option Fd)
  evs : List Ev

/-- A handler that leaves the state alone. -/
def Done.pure (st : St) (fds : List Fd) (r : Res (List Byte)) (errOut : Wire.Body) (evs : List Ev) : Done :=
  { st, res := r.map (fun _ => ()), out := (match r with | .ok l => .bytes l | _ => errOut), outFds := [],
    left := fds.map some, evs }

/-- `lib/libvfio-user.c:675-742` `handle_dma_map` with `struct vfio_user_dma_map` (argsz, flags, offset, addr, size). -/
def dmaMap (cfg : Cfg) (env : Env) (st : St) (c : Dma.Ctl) (body : List Byte) (fds : List Fd) : Done :=
  if body = [] then { st, res := .fault .assertFail, out := .bytes [], outFds := [], left := fds.map some, evs := [] }
  else if body.length < 32 ∨ leAt body 0 4 < 32 then
    { st, res := .err EINVAL, out := .bytes [], outFds := [], left := fds.map some, evs := [] }
  else
    let o := Dma.handleMap env.os cfg.dma.hasReg c
      { flags := leAt body 4 4, offset := leAt body 8 8, addr := leAt body 16 8, size := leAt body 24 8, fds }
    { st := { st with dma := some o.ctl }, res := o.res, out := .bytes [], outFds := [], left := o.fds,
      evs := o.evs.flatMap (ofDma st.quiesced) }

/-- `<linux/vfio.h>` `VFIO_DMA_UNMAP_FLAG_*`. -/
def UNMAP_DIRTY : Nat := 1
def UNMAP_ALL : Nat := 2

/-- `lib/libvfio-user.c:749-797` `is_valid_unmap` with `struct vfio_user_dma_unmap` (argsz, flags, addr, size, then
pgsize and size of the bitmap).  Fields are read before the length of the message is known to cover them. -/
def validUnmap (body : List Byte) : Res Unit :=
  match rd body 4 4 with
  | .err e => .err e
  | .fault f => .fault f
  | .ok flags =>
    if flags = UNMAP_DIRTY then
      match rd body 32 8 with
      | .err e => .err e
      | .fault f => .fault f
      | .ok bsize => lengths 40 (satadd64 40 bsize)
    else if flags = UNMAP_ALL then
      match rd body 8 8 with
      | .err e => .err e
      | .fault f => .fault f
      | .ok addr =>
        if addr ≠ 0 then .err EINVAL
        else
          match rd body 16 8 with
          | .err e => .err e
          | .fault f => .fault f
          | .ok size => if size ≠ 0 then .err EINVAL else lengths 24 24
    else if flags = 0 then lengths 24 24
    else .err EINVAL
where
  lengths (struct minArgsz : Nat) : Res Unit :=
    if body.length < struct then .err EINVAL
    else if leAt body 0 4 < minArgsz ∨ leAt body 0 4 > Region.MAX_XFER then .err EINVAL
    else .ok ()

/-- The kind of an unmap request that passed `is_valid_unmap`. -/
def unmapKind (env : Env) (body : List Byte) : Dma.UnmapKind :=
  if leAt body 4 4 = UNMAP_ALL then .all
  else if leAt body 4 4 = UNMAP_DIRTY then
    .getDirty (leAt body 24 8) (leAt body 32 8) (env.malloc (leAt body 32 8)) env.hint
  else .plain

/-- `lib/libvfio-user.c:799-870` `handle_dma_unmap`.  On failure the length of the reply stays 0. -/
def dmaUnmap (cfg : Cfg) (env : Env) (st : St) (c : Dma.Ctl) (body : List Byte) (fds : List Fd) : Done :=
  if body = [] then { st, res := .fault .assertFail, out := .bytes [], outFds := [], left := fds.map some, evs := [] }
  else
    match validUnmap body with
    | .err e => { st, res := .err e, out := .bytes [], outFds := [], left := fds.map some, evs := [] }
    | .fault f => { st, res := .fault f, out := .bytes [], outFds := [], left := fds.map some, evs := [] }
    | .ok () =>
      let o := Dma.handleUnmap env.alloc cfg.dma.hasUnreg c (leAt body 8 8) (leAt body 16 8) (unmapKind env body)
      let evs := o.2.2.flatMap (ofDma st.quiesced)
      match o.2.1 with
      | .ok none => { st := { st with dma := some o.1 }, res := .ok (), out := .bytes (body.take 24), outFds := [],
                      left := fds.map some, evs }
      | .ok (some bm) => { st := { st with dma := some o.1 }, res := .ok (), out := .bytes (body.take 40 ++ bm),
                           outFds := [], left := fds.map some, evs }
      | .okEmpty => { st := { st with dma := some o.1 }, res := .err 0, out := .bytes [], outFds := [],
                      left := fds.map some, evs }
      | .err e => { st := { st with dma := some o.1 }, res := .err e, out := .bytes [], outFds := [],
                    left := fds.map some, evs }
      | .fault f => { st := { st with dma := some o.1 }, res := .fault f, out := .bytes [], outFds := [],
                      left := fds.map some, evs }

/-- The device as the config space emulation sees it. -/
def pciDev (cfg : Cfg) (env : Env) : Pci.Dev :=
  { cb := if (cfg.tbl[Region.CFG_IDX]?).any (·.hasCb) then some env.cfgCb else none
    reset := if cfg.hasReset then
        some (fun m => (env.resetMem m, match env.resetCb .flr with | none => .ok () | some e => .err e))
      else none }

/-- The handlers behind `region_access` (`lib/libvfio-user.c:183-220`). -/
def handlers (cfg : Cfg) (env : Env) (p : Pci.Pci) : Region.Handler
  | .config off buf w =>
    let o := Pci.access (pciDev cfg env) p buf buf.length off w
    (o.ret, o.data)
  | .cb r off buf w => env.region r off buf w

/-- The config space after the handler runs, and the events. -/
def afterCalls (cfg : Cfg) (env : Env) (q : Bool) (p : Pci.Pci) : List Region.Call → Pci.Pci × List Ev
  | [] => (p, [])
  | .config off buf w :: cs =>
    let o := Pci.access (pciDev cfg env) p buf buf.length off w
    let r := afterCalls cfg env q { p with mem := o.mem } cs
    (r.1, o.evs.flatMap (ofPci q) ++ r.2)
  | .cb r off buf w :: cs =>
    let x := afterCalls cfg env q p cs
    (x.1, .call (.region r off buf w) q :: x.2)

/-- `lib/migration.c:409-413` `device_is_stopped_and_copying`. -/
def stopCopy (mig : Option Nat) : Bool := mig == some Mig.STOP_COPY
/-- `lib/migration.c:415-419` `device_is_stopped`. -/
def stopped (mig : Option Nat) : Bool := mig == some Mig.STOP

/-- The reply `lib/libvfio-user.c:277-329` leaves behind when it fails: nothing before the buffer was allocated, a length
without buffer if the allocation failed, otherwise the echo of the request with the buffer of a read. -/
def accessErrOut (h : Region.Handler) (alloc : Bool) (tbl : List Region.Reg) (sc isWrite : Bool) (body : List Byte) :
    Wire.Body :=
  if Region.validAccess tbl sc isWrite body = false ∨ leAt body 12 4 = 0 then .bytes []
  else if alloc = false then .null (16 + if isWrite then 0 else leAt body 12 4)
  else
    match tbl[leAt body 8 4]? with
    | none => .bytes []
    | some r =>
      let count := leAt body 12 4
      let buf := if isWrite then body.drop 16 else List.replicate count 0#8
      let b := (Region.regionAccess h r (leAt body 8 4) buf (leAt body 0 8) isWrite).2.1
      .bytes (body.take 16 ++ (if isWrite then [] else Region.fit count b))

/-- `lib/libvfio-user.c:277-329` `handle_region_access`. -/
def access (cfg : Cfg) (env : Env) (st : St) (isWrite : Bool) (body : List Byte) (fds : List Fd) : Done :=
  let h := handlers cfg env st.pci
  let o := Region.handleAccess h env.alloc cfg.tbl (stopCopy st.mig) isWrite body
  let a := afterCalls cfg env st.quiesced st.pci o.2
  Done.pure { st with pci := a.1 } fds o.1
    (accessErrOut h env.alloc cfg.tbl (stopCopy st.mig) isWrite body) a.2

/-- A failed handler leaves a length without buffer if it got as far as the allocation (in these handlers no other
error is ENOMEM), else nothing. -/
def nullOut {α : Type} (alloc : Bool) (r : Res α) (len : Nat) : Wire.Body :=
  match alloc, r with
  | false, .err e => if e = ENOMEM then .null len else .bytes []
  | _, _ => .bytes []

/-- `lib/libvfio-user.c:331-365` `handle_device_get_info`. -/
def getInfo (cfg : Cfg) (env : Env) (st : St) (body : List Byte) (fds : List Fd) : Done :=
  let r := Region.deviceInfo env.alloc cfg.tbl.length body
  Done.pure st fds r (nullOut env.alloc r 16) []

/-- The reply with descriptors of a handler. -/
def Done.reply (st : St) (fds : List Fd) (r : Res Region.Reply) (errOut : Wire.Body) : Done :=
  { st, res := r.map (fun _ => ()), out := (match r with | .ok l => .bytes l.body | _ => errOut),
    outFds := (match r with | .ok l => l.fds | _ => []), left := fds.map some, evs := [] }

/-- `lib/libvfio-user.c:367-444` `handle_device_get_region_info`. -/
def regionInfo (cfg : Cfg) (env : Env) (st : St) (body : List Byte) (fds : List Fd) : Done :=
  let r := Region.regionInfo env.alloc cfg.tbl body
  let caps := match cfg.tbl[leAt body 8 4]? with
    | some r => if r.size > 0 then Region.capsSize r else 0
    | none => 0
  Done.reply st fds r (nullOut env.alloc r (min (32 + caps) (leAt body 0 4)))

/-- `lib/libvfio-user.c:547-659` `handle_device_get_region_io_fds`; the two allocations succeed or fail together. -/
def regionIoFds (cfg : Cfg) (env : Env) (st : St) (body : List Byte) (fds : List Fd) : Done :=
  let r := Region.regionIoFds env.alloc cfg.tbl body
  let nr := match cfg.tbl[leAt body 8 4]? with
    | some r => r.subs.length
    | none => 0
  Done.reply st fds r
    (nullOut env.alloc r (16 + if (leAt body 0 4 - 16) / 48 ≥ nr then nr * 48 else 0))

/-- `lib/irq.c:57-91` `handle_device_get_irq_info`. -/
def irqInfo (cfg : Cfg) (env : Env) (st : St) (body : List Byte) (fds : List Fd) : Done :=
  let r := Irq.irqInfo cfg.irq env.alloc body
  Done.pure st fds r (nullOut env.alloc r 16) []

/-- `lib/irq.c:374-422`. -/
def setIrqs (cfg : Cfg) (env : Env) (st : St) (body : List Byte) (fds : List Fd) : Done :=
  let o := Irq.handleSet cfg.irq env.eventfd st.irqs body (fds.map some)
  { st := { st with irqs := o.irqs }, res := o.res, out := .bytes [], outFds := [], left := o.fds,
    evs := o.evs.flatMap (ofIrq st.quiesced) }

/-- `lib/libvfio-user.c:872-903` `device_reset`: the callback, then the migration state unless it failed. -/
def deviceReset (cfg : Cfg) (env : Env) (st : St) (r : Reason) : St × Res Unit × List Ev :=
  if cfg.hasReset = true then
    let evs := bracket .reset (.reset r) st.quiesced
    let st := { st with pci := { st.pci with mem := env.resetMem st.pci.mem } }
    match env.resetCb r with
    | some e => (st, .err e, evs)
    | none => ({ st with mig := st.mig.map (fun _ => Mig.RUNNING) }, .ok (), evs)
  else ({ st with mig := st.mig.map (fun _ => Mig.RUNNING) }, .ok (), [])

/-- The reply a failed feature request leaves behind (`lib/libvfio-user.c:955-1209`): for SET the copy of the request,
for an allocation failure a length without buffer; all other failures free it. -/
def featureErrOut (env : Env) (st : St) (body : List Byte) : Wire.Body :=
  if body.length < 8 then .bytes []
  else
    let argsz := leAt body 0 4
    let flags := leAt body 4 4
    let ops := flags - flags % 65536
    let feature := flags % 65536
    let sup := Mig.supported st.mig feature
    if flags &&& sup ≠ ops ∨ sup = 0 then .bytes []
    else if ops = Mig.F_GET then
      if Mig.isMigFeature feature = true then if argsz < 16 ∨ env.alloc = true then .bytes [] else .null 16
      else if Mig.isDmaFeature feature = true then
        match st.dma, getBitmapSize (leAt body 16 8) (leAt body 24 8) with
        | some _, .ok n => if argsz < 32 + n ∨ env.alloc = true then .bytes [] else .null (32 + n)
        | _, _ => .bytes []
      else .bytes []
    else if ops = Mig.F_SET then
      if argsz < body.length then .bytes []
      else if env.alloc = false then .null body.length
      else .bytes body
    else if ops &&& Mig.F_PROBE = 0 ∨ argsz < body.length ∨ env.alloc = true then .bytes []
    else .null body.length

/-- `lib/libvfio-user.c:1101-1209` `handle_device_feature`. -/
def feature (env : Env) (st : St) (body : List Byte) (fds : List Fd) : Done :=
  let o := Mig.handleFeature env.feat { mig := st.mig, dma := st.dma } body
  Done.pure { st with mig := o.1.mig, dma := o.1.dma } fds o.2.1 (featureErrOut env st body)
    (o.2.2.flatMap (ofVfu st.quiesced))

/-- `lib/migration.c:288-348`. -/
def migRead (env : Env) (st : St) (body : List Byte) (fds : List Fd) : Done :=
  let o := Mig.dataRead env.alloc env.readData st.mig st.maxXfer body
  Done.pure st fds o.1
    (nullOut env.alloc o.1 (body.length + leAt body 4 4))
    (o.2.map (fun e => .call (.migData e) st.quiesced))

/-- `lib/migration.c:350-407`. -/
def migWrite (env : Env) (st : St) (body : List Byte) (fds : List Fd) : Done :=
  let o := Mig.dataWrite env.writeData st.mig st.maxXfer body
  Done.pure st fds o.1 (.bytes []) (o.2.map (fun e => .call (.migData e) st.quiesced))

/-- The switch of `lib/libvfio-user.c:1316-1394` `handle_request`. -/
def exec (cfg : Cfg) (env : Env) (st : St) (m : Msg) : Done :=
  if m.hdr.cmd = Wire.CMD_DMA_MAP then
    match st.dma with
    | none => Done.pure st m.fds (.ok []) (.bytes []) []
    | some c => dmaMap cfg env st c m.body m.fds
  else if m.hdr.cmd = Wire.CMD_DMA_UNMAP then
    match st.dma with
    | none => Done.pure st m.fds (.ok []) (.bytes []) []
    | some c => dmaUnmap cfg env st c m.body m.fds
  else if m.hdr.cmd = Wire.CMD_GET_INFO then getInfo cfg env st m.body m.fds
  else if m.hdr.cmd = Wire.CMD_REGION_INFO then regionInfo cfg env st m.body m.fds
  else if m.hdr.cmd = Wire.CMD_REGION_IO_FDS then regionIoFds cfg env st m.body m.fds
  else if m.hdr.cmd = Wire.CMD_IRQ_INFO then irqInfo cfg env st m.body m.fds
  else if m.hdr.cmd = Wire.CMD_SET_IRQS then setIrqs cfg env st m.body m.fds
  else if m.hdr.cmd = Wire.CMD_REGION_READ then access cfg env st false m.body m.fds
  else if m.hdr.cmd = Wire.CMD_REGION_WRITE then access cfg env st true m.body m.fds
  else if m.hdr.cmd = Wire.CMD_RESET then
    let o := deviceReset cfg env st .device
    { st := o.1, res := o.2.1, out := .bytes [], outFds := [], left := m.fds.map some, evs := o.2.2 }
  else if m.hdr.cmd = Wire.CMD_FEATURE then feature env st m.body m.fds
  else if m.hdr.cmd = Wire.CMD_MIG_READ then migRead env st m.body m.fds
  else if m.hdr.cmd = Wire.CMD_MIG_WRITE then migWrite env st m.body m.fds
  else Done.pure st m.fds (.err EINVAL) (.bytes []) []

/-! ## Losing the connection -/

/-- Outcome of a step. -/
structure Out where
  st : St
  res : Res Unit
  evs : List Ev

/-- The DMA part of `vfu_reset_ctx_quiesced`, `lib/libvfio-user.c:1803-1806`. -/
def dropDma (cfg : Cfg) : Option Dma.Ctl → Res (Option Dma.Ctl × List Dma.Ev)
  | none => .ok (none, [])
  | some c => (Dma.removeAll c cfg.dma.hasUnreg).map (fun x => (some x.1, x.2))

/-- `lib/libvfio-user.c:1800-1818` `vfu_reset_ctx_quiesced` with `tran_sock_detach` (`lib/tran_sock.c:652-666`). -/
def resetQuiesced (cfg : Cfg) (env : Env) (st : St) : Out :=
  match dropDma cfg st.dma with
  | .err e => { st, res := .err e, evs := [] }
  | .fault f => { st, res := .fault f, evs := [] }
  | .ok (dma, ev1) =>
    let ev1 := ev1.flatMap (ofDma st.quiesced)
    let r := deviceReset cfg env { st with dma } .lostConn
    match Irq.reset cfg.irq r.1.irqs with
    | .err e => { st := r.1, res := .err e, evs := ev1 ++ r.2.2 }
    | .fault f => { st := r.1, res := .fault f, evs := ev1 ++ r.2.2 }
    | .ok (irqs, ev3) =>
      { st := { r.1 with irqs, conn := false }, res := .ok (),
        evs := ev1 ++ r.2.2 ++ ev3.flatMap (ofIrq st.quiesced) ++ [Ev.detach] }

/-- `lib/libvfio-user.c:1820-1841` `vfu_reset_ctx`; `k`: number of earlier quiesce callbacks of this call. -/
def resetCtx (cfg : Cfg) (env : Env) (k : Nat) (st : St) : Out :=
  if cfg.hasQuiesce = true ∧ st.pending = .none then
    let ev := bracket .quiesce (.quiesce (env.quiesce k)) st.quiesced
    match env.quiesce k with
    | some e =>
      if e = EBUSY then { st := { st with pending := .ctxReset }, res := .err e, evs := ev }
      else { st, res := .err e, evs := ev }
    | none =>
      let o := resetQuiesced cfg env st
      { o with evs := ev ++ o.evs }
  else resetQuiesced cfg env st

/-! ## Replies -/

/-- `lib/libvfio-user.c:1281-1314` `do_reply`; `errno` becomes a 32-bit field.  After a successful reset the result is
that of the reset. -/
def doReply (cfg : Cfg) (env : Env) (k : Nat) (st : St) (h : Wire.Hdr) (body : Wire.Body) (fds : List (Option Fd))
    (err : Nat) : Out :=
  if h.noReply = true then { st, res := .ok (), evs := [] }
  else
    let r := Wire.reply env.snd h body fds (err % U32)
    let evs := r.2.map Ev.sent
    match r.1 with
    | .ok () => { st, res := .ok (), evs }
    | .error e =>
      if e = ECONNRESET ∨ e = ENOMSG then
        let o := resetCtx cfg env k st
        { o with evs := evs ++ o.evs }
      else { st, res := .err e, evs }

/-- The `errno` handed to `do_reply`. -/
def replyErr : Res Unit → Nat
  | .err e => e
  | _ => 0

/-- The end of `handle_request` (`lib/libvfio-user.c:1388-1393`) and the `free_msg` (1242-1279) that follows each of its
calls. -/
def finish (cfg : Cfg) (env : Env) (k : Nat) (m : Msg) (d : Done) : Out :=
  let o := doReply cfg env k d.st m.hdr d.out d.outFds (replyErr d.res)
  if o.res.isFault = true then { o with evs := .exec m.hdr :: d.evs ++ o.evs }
  else { o with evs := .exec m.hdr :: d.evs ++ o.evs ++ closes d.left ++ [.freed] }

/-- `lib/libvfio-user.c:1316-1394` `handle_request`. -/
def handleRequest (cfg : Cfg) (env : Env) (k : Nat) (st : St) (m : Msg) : Out :=
  let d := exec cfg env st m
  if d.res.isFault = true then { st := d.st, res := d.res, evs := .exec m.hdr :: d.evs }
  else finish cfg env k m d

/-! ## Getting a request -/

/-- `lib/libvfio-user.c:1477-1484` `cmd_allowed_when_stopped_and_copying`. -/
def allowedStopped (cmd : Nat) : Bool :=
  cmd == Wire.CMD_REGION_READ || cmd == Wire.CMD_REGION_WRITE || cmd == Wire.CMD_FEATURE || cmd == Wire.CMD_MIG_READ

/-- `lib/libvfio-user.c:1486-1503` `should_exec_command`. -/
def shouldExec (mig : Option Nat) (cmd : Nat) : Bool :=
  if stopCopy mig = true then allowedStopped cmd
  else if stopped mig = true then allowedStopped cmd
  else true

/-- `lib/libvfio-user.c:1512-1561` `command_needs_quiesce`, `lib/migration.c:443-449`. -/
def needsQuiesce (cfg : Cfg) (st : St) (m : Msg) : Bool :=
  if cfg.hasQuiesce = false then false
  else if m.hdr.cmd = Wire.CMD_DMA_MAP ∨ m.hdr.cmd = Wire.CMD_DMA_UNMAP then st.dma.isSome
  else if m.hdr.cmd = Wire.CMD_RESET then true
  else if m.hdr.cmd = Wire.CMD_REGION_WRITE then
    if m.body.length < 16 then false else Pci.isPxdc st.pci (leAt m.body 8 4) (leAt m.body 0 8)
  else if m.hdr.cmd = Wire.CMD_FEATURE then
    if m.body.length < 8 then false
    else decide (leAt m.body 4 4 &&& (Mig.F_SET ||| Mig.FEAT_STATE) ≠ 0 ∧ leAt m.body 4 4 &&& Mig.F_PROBE = 0)
  else false

/-- The end of `get_request` for a request that is not executed (`lib/libvfio-user.c:1632-1641`): an error reply and
`free_msg`. -/
def refuse (cfg : Cfg) (env : Env) (k : Nat) (st : St) (h : Wire.Hdr) (fds : List Fd) (err : Nat) : Out :=
  let o := doReply cfg env k st h (.bytes []) [] err
  if o.res.isFault = true then o
  else { o with evs := o.evs ++ closes (fds.map some) ++ [.freed] }

/-- `lib/libvfio-user.c:1679-1693`: errors that `vfu_run_ctx` does not report. -/
def quiet : Res Unit → Res Unit
  | .err e => if e = ENOMSG ∨ e = EAGAIN then .ok () else .err e
  | r => r

/-- A message was read: `lib/libvfio-user.c:1604-1641` and `lib/libvfio-user.c:1664-1678`. -/
def dispatch (cfg : Cfg) (env : Env) (st : St) (m : Msg) : Out :=
  if shouldExec st.mig m.hdr.cmd = false then
    let o := refuse cfg env 0 st m.hdr m.fds EINVAL
    { o with res := quiet o.res }
  else if needsQuiesce cfg st m = true then
    let ev := bracket .quiesce (.quiesce (env.quiesce 0)) st.quiesced
    match env.quiesce 0 with
    | some e =>
      if e = EBUSY then { st := { st with pending := .msg m }, res := .err e, evs := ev }
      else
        let o := refuse cfg env 1 st m.hdr m.fds e
        { o with res := quiet o.res, evs := ev ++ o.evs }
    | none =>
      let o := handleRequest cfg env 1 { st with quiesced := true } m
      { st := { o.st with quiesced := false }, res := o.res, evs := ev ++ o.evs }
  else
    let o := handleRequest cfg env 0 st m
    { st := { o.st with quiesced := false }, res := o.res, evs := o.evs }

/-- One round of the loop of `lib/libvfio-user.c:1643-1697` `vfu_run_ctx` on a realized context.  Without a
connection `tran_sock_get_request_header` fails with ENOTCONN (`lib/tran_sock.c:489-492`). -/
def poll (cfg : Cfg) (env : Env) (st : St) (i : Wire.In) : Out :=
  if st.pending ≠ .none then { st, res := .err EBUSY, evs := [] }
  else if st.conn = false then { st, res := .err ENOTCONN, evs := [] }
  else
    match i with
    | .again => { st, res := .ok (), evs := [] }
    | .lost _ leak =>
      let o := resetCtx cfg env 0 st
      { o with res := (match o.res with | .ok () => .err ENOTCONN | r => quiet r), evs := .lost leak :: o.evs }
    | .failed e leak => { st, res := quiet (.err e), evs := [.lost leak] }
    | .bad h fds e =>
      let o := refuse cfg env 0 st h fds e
      { o with res := quiet o.res, evs := .got h fds :: o.evs }
    | .req h body fds =>
      let o := dispatch cfg env st ⟨h, body, fds⟩
      { o with evs := .got h fds :: o.evs }

/-! ## Calls of the device -/

/-- `lib/libvfio-user.c:2404-2447` `vfu_device_quiesced`. -/
def deviceQuiesced (cfg : Cfg) (env : Env) (st : St) (errno : Nat) : Out :=
  if cfg.hasQuiesce = false ∨ st.pending = .none then { st, res := .err EINVAL, evs := [] }
  else
    let st1 := { st with quiesced := true }
    let o : Out :=
      if errno = 0 then
        match st.pending with
        | .msg m => handleRequest cfg env 0 st1 m
        | .ctxReset => resetQuiesced cfg env st1
        | .none => { st, res := .fault .assertFail, evs := [] }
      else
        match st.pending with
        | .msg m => { st := st1, res := .ok (), evs := closes (m.fds.map some) ++ [.freed] }
        | _ => { st := st1, res := .ok (), evs := [] }
    { st := { o.st with pending := .none, quiesced := false }, res := o.res, evs := .devQuiesced errno :: o.evs }

/-- `vfu_sgl_read`, `vfu_sgl_write` (`lib/libvfio-user.c:2372-2396`) outside of callbacks; `lost`: the connection breaks
during the transfer (2338-2348).  The bytes are in `Wire.dmaRead`, `Wire.dmaWrite`. -/
def transfer (cfg : Cfg) (env : Env) (st : St) (lost : Bool) : Out :=
  if st.pending ≠ .none then { st, res := .fault .assertFail, evs := [] }
  else if lost = true ∧ st.conn = true then
    let o := resetCtx cfg env 0 st
    { o with res := (match o.res with | .fault f => .fault f | _ => .err ENOTCONN) }
  else { st, res := .ok (), evs := [] }

/-- `vfu_attach_ctx` (`lib/tran_sock.c:445-474`); `nego` is the result of `accept` and the negotiation
(`Wire.negotiate`).  A failed negotiation may leave other limits behind, which the next one overwrites. -/
def attach (st : St) (nego : Except Nat Wire.Caps) : Out :=
  if st.conn = true then { st, res := .err EINVAL, evs := [] }
  else
    match nego with
    | .error e => { st, res := .err e, evs := [] }
    | .ok c => { st := { st with conn := true, maxFds := c.maxFds, maxXfer := c.maxXfer }, res := .ok (), evs := [] }

/-- Calls into the library: the loop, the end of a quiesce, DMA transfers through the socket, a new client, dirty pages
(`vfu_sgl_mark_dirty`), interrupts (`vfu_irq_trigger`).  `config`: the device changes its config space directly. -/
inductive Op where
  | run (env : Env) (i : Wire.In)
  | quiesced (env : Env) (errno : Nat)
  | transfer (env : Env) (lost : Bool)
  | attach (nego : Except Nat Wire.Caps)
  | config (f : Pci.Mem → Pci.Mem)
  | mark (sgl : List Dma.Sg)
  | trigger (wr : Option Nat) (sub : Nat)

/-- One call. -/
def call (cfg : Cfg) (st : St) : Op → Out
  | .run env i => poll cfg env st i
  | .quiesced env e => deviceQuiesced cfg env st e
  | .transfer env lost => transfer cfg env st lost
  | .attach n => attach st n
  | .config f => { st := { st with pci := { st.pci with mem := f st.pci.mem } }, res := .ok (), evs := [] }
  | .mark sgl =>
    match st.dma with
    | none => { st, res := .fault .oob, evs := [] }
    | some c =>
      match Dma.sglMark c sgl with
      | .ok c' => { st := { st with dma := some c' }, res := .ok (), evs := [] }
      | .err e => { st, res := .err e, evs := [] }
      | .fault f => { st, res := .fault f, evs := [] }
  | .trigger wr sub =>
    let o := Irq.trigger wr st.irqs sub
    { st, res := o.1, evs := o.2.flatMap (ofIrq st.quiesced) }

/-- A history: calls one after the other until one ends abnormally. -/
def run (cfg : Cfg) : St → List Op → St × List Ev
  | st, [] => (st, [])
  | st, op :: ops =>
    let o := call cfg st op
    if o.res.isFault = true then (o.st, o.evs)
    else
      let r := run cfg o.st ops
      (r.1, o.evs ++ .ret :: r.2)

/-- After `vfu_realize_ctx`, before the first client (`lib/libvfio-user.c:1880-1968`). -/
def init (cfg : Cfg) (mig : Bool) (dma : Option (Nat × Nat)) (pci : Pci.Pci) : St :=
  { mig := if mig then some Mig.RUNNING else none
    dma := dma.map (fun x => Dma.create x.1 x.2)
    irqs := Irq.realize cfg.irq, pci, conn := false, pending := .none, quiesced := false, maxFds := 0
    maxXfer := 0 }

end Verif.Server
