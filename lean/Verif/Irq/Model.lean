import Verif.Bytes

/-!
# Model of interrupts (`lib/irq.c`)

* A descriptor is an opaque token, `none` is `-1`.
* INTx, MSI and MSI-X share the array `efds`; ERR and REQ have one slot each (`lib/private.h:94-99`).
* An empty message body is a `NULL` pointer (`lib/tran_sock.c:507-551` reads no body then).
* `efds.length` is `max_ivs`.
-/

namespace Verif.Irq
open Verif

abbrev Fd := Nat

/-- Interrupt types, `include/libvfio-user.h:536-543`. -/
def INTX : Nat := 0
def MSI : Nat := 1
def MSIX : Nat := 2
def ERR : Nat := 3
def REQ : Nat := 4
def NUM_IRQS : Nat := 5

/-- `vfu_ctx->irq_count[]` and which `irq_state_cbs[]` are set. -/
structure Cfg where
  cnt : Nat → Nat
  hasCb : Nat → Bool

/-- `lib/private.h:94-99` `vfu_irqs_t`. -/
structure Irqs where
  err : Option Fd
  req : Option Fd
  efds : List (Option Fd)
  deriving DecidableEq, Repr

/-- `lib/libvfio-user.c:1750-1755`: the highest count of vectors. -/
def maxIvs (cfg : Cfg) : Nat :=
  (List.range NUM_IRQS).foldl (fun m i => if m < cfg.cnt i then cfg.cnt i else m) 0

/-- `lib/libvfio-user.c:1757-1771` in `vfu_realize_ctx`. -/
def realize (cfg : Cfg) : Irqs := { err := none, req := none, efds := List.replicate (maxIvs cfg) none }

/-- Observable effects. -/
inductive Ev where
  /-- `close(fd)` -/
  | close (fd : Fd)
  /-- a successful `eventfd_write(fd, 1)` -/
  | signal (fd : Fd)
  /-- the device's mask/unmask callback -/
  | state (index start count : Nat) (mask : Bool)
  deriving DecidableEq, Repr

/-- A place that holds a descriptor. -/
inductive Slot where
  | err
  | req
  | vec (i : Nat)
  deriving DecidableEq, Repr

/-- Content of a place, `none` when it is outside the array. -/
def Irqs.get (st : Irqs) : Slot → Option (Option Fd)
  | .err => some st.err
  | .req => some st.req
  | .vec i => st.efds[i]?

def Irqs.put (st : Irqs) (s : Slot) (v : Option Fd) : Irqs :=
  match s with
  | .err => { st with err := v }
  | .req => { st with req := v }
  | .vec i => { st with efds := st.efds.set i v }

/-- `lib/common.h:121-141` `close_safely` on a place. -/
def closeSlot (st : Irqs) (s : Slot) : Res (Irqs × List Ev) :=
  match st.get s with
  | none => .fault .oob
  | some none => .ok (st, [])
  | some (some fd) => .ok (st.put s none, [.close fd])

/-- `lib/irq.c:169-180` `irqs_get_efd`. -/
def efdSlot (index i : Nat) : Slot :=
  if index = ERR then .err else if index = REQ then .req else .vec i

/-- `&efds[i]` in `lib/irq.c:109-126`: for ERR and REQ only `i = 0` is inside the structure member. -/
def disableSlot (index i : Nat) : Option Slot :=
  if index = ERR then (if i = 0 then some .err else none)
  else if index = REQ then (if i = 0 then some .req else none)
  else some (.vec i)

/-- The loop `lib/irq.c:124-126` from `i`, `n` rounds to go. -/
def disableLoop (index : Nat) : Nat → Nat → Irqs → Res (Irqs × List Ev)
  | 0, _, st => .ok (st, [])
  | n + 1, i, st =>
    match disableSlot index i with
    | none => .fault .oob
    | some s =>
      match closeSlot st s with
      | .ok (st', ev) =>
        match disableLoop index n (i + 1) st' with
        | .ok (st'', ev') => .ok (st'', ev ++ ev')
        | .err e => .err e
        | .fault f => .fault f
      | .err e => .err e
      | .fault f => .fault f

/-- `lib/irq.c:93-127` `irqs_disable`. -/
def disable (cfg : Cfg) (st : Irqs) (index start count : Nat) : Res (Irqs × List Ev) :=
  if index ≥ NUM_IRQS then .fault .assertFail
  else if add32 start count > cfg.cnt index then .fault .assertFail
  else
    let count' := if count = 0 then cfg.cnt index else count
    disableLoop index (count' - start) start st

/-- The loop `lib/irq.c:138-140` from `i`, `n` rounds to go. -/
def resetLoop : Nat → Nat → Irqs → Res (Irqs × List Ev)
  | 0, _, st => .ok (st, [])
  | n + 1, i, st =>
    match closeSlot st (.vec i) with
    | .ok (st', ev) =>
      match resetLoop n (i + 1) st' with
      | .ok (st'', ev') => .ok (st'', ev ++ ev')
      | .err e => .err e
      | .fault f => .fault f
    | .err e => .err e
    | .fault f => .fault f

/-- `lib/irq.c:129-141` `irqs_reset`. -/
def reset (cfg : Cfg) (st : Irqs) : Res (Irqs × List Ev) :=
  match disable cfg st REQ 0 0 with
  | .ok (st1, ev1) =>
    match disable cfg st1 ERR 0 0 with
    | .ok (st2, ev2) =>
      match resetLoop st2.efds.length 0 st2 with
      | .ok (st3, ev3) => .ok (st3, ev1 ++ ev2 ++ ev3)
      | .err e => .err e
      | .fault f => .fault f
    | .err e => .err e
    | .fault f => .fault f
  | .err e => .err e
  | .fault f => .fault f

/-- `struct vfio_irq_set` (`<linux/vfio.h>`): argsz, flags, index, start, count, each 32 bits. -/
structure Req where
  argsz : Nat
  flags : Nat
  index : Nat
  start : Nat
  count : Nat
  deriving DecidableEq, Repr

def Req.ofBytes (b : List Byte) : Req :=
  { argsz := leAt b 0 4, flags := leAt b 4 4, index := leAt b 8 4, start := leAt b 12 4, count := leAt b 16 4 }

/-- `VFIO_IRQ_SET_DATA_*`, `VFIO_IRQ_SET_ACTION_*` of `<linux/vfio.h>`. -/
def DATA_NONE : Nat := 1
def DATA_BOOL : Nat := 2
def DATA_EVENTFD : Nat := 4
def ACT_MASK : Nat := 8
def ACT_UNMASK : Nat := 16
def ACT_TRIGGER : Nat := 32

def Req.action (q : Req) : Nat := q.flags &&& 0x38
def Req.data (q : Req) : Nat := q.flags &&& 7

/-- `lib/irq.c:269-372` `device_set_irqs_validate`, the tests in the order of the code. -/
def validate (cfg : Cfg) (body : List Byte) (nfds : Nat) : Res Unit :=
  if body = [] then .fault .assertFail
  else if body.length < 20 ∨ leAt body 0 4 < 20 then .err EINVAL
  else
    let q := Req.ofBytes body
    if q.data = DATA_BOOL ∧ body.length - 20 ≠ q.count then .err EINVAL
    else if q.index ≥ NUM_IRQS then .err EINVAL
    else if q.action ≠ ACT_MASK ∧ q.action ≠ ACT_UNMASK ∧ q.action ≠ ACT_TRIGGER then .err EINVAL
    else if q.data ≠ DATA_NONE ∧ q.data ≠ DATA_BOOL ∧ q.data ≠ DATA_EVENTFD then .err EINVAL
    else if q.start ≥ cfg.cnt q.index then .err EINVAL
    else if satadd32 q.start q.count > cfg.cnt q.index then .err EINVAL
    else if (q.index = ERR ∨ q.index = REQ) ∧ q.action ≠ ACT_TRIGGER then .err EINVAL
    else if (q.index = ERR ∨ q.index = REQ) ∧ q.count > 1 then .err EINVAL
    else if q.count = 0 ∧ q.start ≠ 0 then .err EINVAL
    else if q.count = 0 ∧ (q.action ≠ ACT_TRIGGER ∨ q.data ≠ DATA_NONE) then .err EINVAL
    else if nfds ≠ 0 ∧ q.data ≠ DATA_EVENTFD then .err EINVAL
    else if nfds ≠ 0 ∧ nfds ≠ q.count then .err EINVAL
    else .ok ()

/-- `lib/irq.c:143-167` `irqs_set_state`. -/
def setState (cfg : Cfg) (q : Req) : Res (List Ev) :=
  if q.index ≥ NUM_IRQS then .fault .assertFail
  else if cfg.hasCb q.index = false then .ok []
  else if add32 q.start q.count > cfg.cnt q.index then .fault .assertFail
  else if q.action &&& ACT_MASK = 0 ∧ q.action &&& ACT_UNMASK = 0 then .fault .assertFail
  else .ok [.state q.index q.start q.count (decide (q.action &&& ACT_MASK ≠ 0))]

/-- The loops `lib/irq.c:191-201` and `lib/irq.c:218-229`: from vector `i`, `sel` the remaining
selections (one per round), `wr k` the result of the `k`-th `eventfd_write` of the request. -/
def signalLoop (index : Nat) (wr : Nat → Option Nat) : List Bool → Nat → Nat → Irqs → Res Unit × List Ev
  | [], _, _, _ => (.ok (), [])
  | b :: sel, i, k, st =>
    match st.get (efdSlot index i) with
    | none => (.fault .oob, [])
    | some none => signalLoop index wr sel (i + 1) k st
    | some (some fd) =>
      if b = true then
        match wr k with
        | some e => (.err e, [])
        | none =>
          let (r, ev) := signalLoop index wr sel (i + 1) (k + 1) st
          (r, .signal fd :: ev)
      else signalLoop index wr sel (i + 1) k st

/-- `lib/irq.c:182-204` `irqs_set_data_none`. -/
def dataNone (wr : Nat → Option Nat) (st : Irqs) (q : Req) : Res Unit × List Ev :=
  signalLoop q.index wr (List.replicate (add32 q.start q.count - q.start) true) q.start 0 st

/-- `lib/irq.c:206-232` `irqs_set_data_bool`; the payload is read behind the fixed part of the request,
outside the message it is a fault. -/
def dataBool (wr : Nat → Option Nat) (st : Irqs) (q : Req) (body : List Byte) : Res Unit × List Ev :=
  let n := add32 q.start q.count - q.start
  if body.length < 20 + n then (.fault .oob, [])
  else signalLoop q.index wr (((body.drop 20).take n).map (fun b => b == 1#8)) q.start 0 st

/-- The loop `lib/irq.c:244-264` from vector `i`, `n` rounds to go; `j` indexes the descriptors. -/
def bindLoop (index count : Nat) : Nat → Nat → Nat → Irqs → List (Option Fd) →
    Res (Irqs × List (Option Fd) × List Ev)
  | 0, _, _, st, fds => .ok (st, fds, [])
  | n + 1, i, j, st, fds =>
    match closeSlot st (efdSlot index i) with
    | .ok (st', ev) =>
      match fds[j]? with
      | none => .fault .oob
      | some none => .fault .assertFail
      | some (some fd) =>
        -- `consume_fd(data, irq_set->count, j)` fails only for `j >= count`
        let v := if j < count then some fd else none
        match bindLoop index count n (i + 1) (j + 1) (st'.put (efdSlot index i) v)
            (if j < count then fds.set j none else fds) with
        | .ok (st'', fds', ev') => .ok (st'', fds', ev ++ ev')
        | .err e => .err e
        | .fault f => .fault f
    | .err e => .err e
    | .fault f => .fault f

/-- Outcome of a request: new bindings, descriptors left in the message, result, effects. -/
structure Out where
  irqs : Irqs
  fds : List (Option Fd)
  res : Res Unit
  evs : List Ev
  deriving DecidableEq, Repr

/-- The request is a disable (`lib/irq.c:400-404`). -/
def isDisable (q : Req) (nfds : Nat) : Bool :=
  (q.data == DATA_NONE && q.count == 0) || (q.data == DATA_EVENTFD && nfds == 0)

/-- `lib/irq.c:374-422` `handle_device_set_irqs`. -/
def handleSet (cfg : Cfg) (wr : Nat → Option Nat) (st : Irqs) (body : List Byte) (fds : List (Option Fd)) : Out :=
  match validate cfg body fds.length with
  | .err e => { irqs := st, fds, res := .err e, evs := [] }
  | .fault f => { irqs := st, fds, res := .fault f, evs := [] }
  | .ok () =>
    let q := Req.ofBytes body
    if q.action = ACT_MASK ∨ q.action = ACT_UNMASK then
      match setState cfg q with
      | .ok ev => { irqs := st, fds, res := .ok (), evs := ev }
      | .err e => { irqs := st, fds, res := .err e, evs := [] }
      | .fault f => { irqs := st, fds, res := .fault f, evs := [] }
    else if isDisable q fds.length = true then
      match disable cfg st q.index q.start q.count with
      | .ok (st', ev) => { irqs := st', fds, res := .ok (), evs := ev }
      | .err e => { irqs := st, fds, res := .err e, evs := [] }
      | .fault f => { irqs := st, fds, res := .fault f, evs := [] }
    else if q.data = DATA_NONE then
      let (r, ev) := dataNone wr st q
      { irqs := st, fds, res := r, evs := ev }
    else if q.data = DATA_EVENTFD then
      match bindLoop q.index q.count (add32 q.start q.count - q.start) q.start 0 st fds with
      | .ok (st', fds', ev) => { irqs := st', fds := fds', res := .ok (), evs := ev }
      | .err e => { irqs := st, fds, res := .err e, evs := [] }
      | .fault f => { irqs := st, fds, res := .fault f, evs := [] }
    else if q.data = DATA_BOOL then
      let (r, ev) := dataBool wr st q body
      { irqs := st, fds, res := r, evs := ev }
    else { irqs := st, fds, res := .fault .assertFail, evs := [] }   -- `abort()`

/-- `lib/irq.c:424-453` `vfu_irq_trigger`; `wr` is the result of `eventfd_write`. -/
def trigger (wr : Option Nat) (st : Irqs) (sub : Nat) : Res Unit × List Ev :=
  match st.efds[sub]? with
  | none => (.err EINVAL, [])
  | some none => (.err ENOENT, [])
  | some (some fd) =>
    match wr with
    | some e => (.err e, [])
    | none => (.ok (), [.signal fd])

/-- `lib/irq.c:57-91` `handle_device_get_irq_info`: the reply. -/
def irqInfo (cfg : Cfg) (alloc : Bool) (body : List Byte) : Res (List Byte) :=
  if body.length < 16 ∨ leAt body 0 4 < 16 then .err EINVAL
  else
    let index := leAt body 8 4
    if index ≥ NUM_IRQS then .err EINVAL
    else if alloc = false then .err ENOMEM
    else .ok (enc 4 16 ++ enc 4 1 ++ enc 4 index ++ enc 4 (cfg.cnt index))

/-! ## Histories -/

inductive Op where
  | set (wr : Nat → Option Nat) (body : List Byte) (fds : List Fd)
  | reset
  | trigger (wr : Option Nat) (sub : Nat)

/-- One step; descriptors in messages are valid when they arrive (`lib/tran_sock.c:142-189`). -/
def step (cfg : Cfg) (st : Irqs) : Op → Out
  | .set wr body fds => handleSet cfg wr st body (fds.map some)
  | .reset =>
    match reset cfg st with
    | .ok (st', ev) => { irqs := st', fds := [], res := .ok (), evs := ev }
    | .err e => { irqs := st, fds := [], res := .err e, evs := [] }
    | .fault f => { irqs := st, fds := [], res := .fault f, evs := [] }
  | .trigger wr sub =>
    let (r, ev) := trigger wr st sub
    { irqs := st, fds := [], res := r, evs := ev }

def run (cfg : Cfg) (st : Irqs) : List Op → Irqs
  | [] => st
  | op :: ops => run cfg (step cfg st op).irqs ops

end Verif.Irq
