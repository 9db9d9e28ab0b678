import Verif.Mig.Model
import Verif.Dma.Sys

/-!
# Device feature requests and migration data (`lib/libvfio-user.c:905-1209`, `lib/migration.c:288-407`)

A handler takes the message body as it arrived.  Its result is the body of the reply, an `errno`, or a
fault.  `err 0` is the return value -1 with `errno` 0. -/

namespace Verif.Mig
open Verif

/-- Flag bits, `include/vfio-user.h:239-242`. -/
def F_GET : Nat := 1 <<< 16
def F_SET : Nat := 1 <<< 17
def F_PROBE : Nat := 1 <<< 18
/-- Feature numbers, `include/vfio-user.h:228-232,262-274`. -/
def FEAT_MIGRATION : Nat := 1
def FEAT_STATE : Nat := 2
def FEAT_LOG_START : Nat := 6
def FEAT_LOG_STOP : Nat := 7
def FEAT_LOG_REPORT : Nat := 8

/-- The part of the context these handlers use: migration state (`none`: not set up) and DMA controller
(`none`: not set up). -/
structure FSt where
  mig : Option Nat
  dma : Option Dma.Ctl
  deriving DecidableEq, Repr

/-- Results of device callbacks and of the system. -/
structure FEnv where
  /-- `k`-th migration transition callback of this request -/
  cb : Nat → Option Nat
  /-- the allocation of the reply buffer succeeds -/
  alloc : Bool
  /-- the allocation of the bitmap of region `i` succeeds -/
  ca : Nat → Bool
  /-- the thread's region hint -/
  hint : Nat

/-- `lib/libvfio-user.c:905-929` `device_feature_flags_supported`. -/
def supported (mig : Option Nat) (feature : Nat) : Nat :=
  match mig with
  | none => 0
  | some _ =>
    if feature = FEAT_MIGRATION ∨ feature = FEAT_LOG_REPORT then F_GET ||| F_PROBE
    else if feature = FEAT_STATE then F_GET ||| F_SET ||| F_PROBE
    else if feature = FEAT_LOG_START ∨ feature = FEAT_LOG_STOP then F_SET ||| F_PROBE
    else 0

/-- `lib/libvfio-user.c:931-941` `is_migration_feature`. -/
def isMigFeature (f : Nat) : Bool := f == FEAT_MIGRATION || f == FEAT_STATE

/-- `lib/libvfio-user.c:943-954` `is_dma_feature`. -/
def isDmaFeature (f : Nat) : Bool := f == FEAT_LOG_START || f == FEAT_LOG_STOP || f == FEAT_LOG_REPORT

/-- `lib/libvfio-user.c:956-1010` `handle_migration_device_feature_get`.  The reply is the 8-byte header of
the request with the new `argsz`, then 8 bytes of data. -/
def migGet (alloc : Bool) (st argsz flags : Nat) : Res (List Byte) :=
  if argsz < 16 then .err EINVAL
  else if alloc = false then .err ENOMEM
  else
    let hdr := enc 4 16 ++ enc 4 flags
    if flags % 65536 = FEAT_MIGRATION then .ok (hdr ++ enc 8 5)   -- STOP_COPY | PRE_COPY
    else if flags % 65536 = FEAT_STATE then .ok (hdr ++ enc 4 st ++ enc 4 0)
    else .err EINVAL

/-- `lib/libvfio-user.c:1023-1078` `handle_dma_device_feature_get`.  The fields of the report are read at
offset 8 of the request whatever its length; beyond the message that is a fault. -/
def dmaGet (env : FEnv) (dma : Option Dma.Ctl) (argsz flags : Nat) (body : List Byte) :
    Option Dma.Ctl × Res (List Byte) :=
  match dma with
  | none => (dma, .err EINVAL)
  | some c =>
    match rd body 8 8, rd body 16 8, rd body 24 8 with
    | .ok iova, .ok len, .ok pg =>
      match getBitmapSize len pg with
      | .err e => (dma, .err e)
      | .fault f => (dma, .fault f)
      | .ok n =>
        if argsz < 32 + n then (dma, .err EINVAL)
        else if env.alloc = false then (dma, .err ENOMEM)
        else
          let hdr := enc 4 (32 + n) ++ enc 4 flags ++ enc 8 iova ++ enc 8 len ++ enc 8 pg
          match Dma.dirtyPageGet c env.hint iova len pg n (List.replicate n 0#8) with
          | (c', .done bm) => (some c', .ok (hdr ++ bm))
          | (c', .ret0) => (some c', .ok (hdr ++ List.replicate n 0#8))
          | (c', .noErrno) => (some c', .err 0)
          | (c', .err e) => (some c', .err e)
          | (c', .fault f) => (some c', .fault f)
    | _, _, _ => (dma, .fault .oob)

/-- `lib/libvfio-user.c:1080-1099` `handle_dma_device_feature_set`. -/
def dmaSet (env : FEnv) (dma : Option Dma.Ctl) (feature : Nat) (res : List Byte) :
    Option Dma.Ctl × Res Unit :=
  match dma with
  | none => (dma, .fault .assertFail)
  | some c =>
    if feature = FEAT_LOG_START then
      match rd res 8 8 with
      | .ok pg =>
        let (c', r) := Dma.loggingStart env.ca c pg
        (some c', r)
      | .err e => (dma, .err e)
      | .fault f => (dma, .fault f)
    else if feature = FEAT_LOG_STOP then (some (Dma.loggingStop c), .ok ())
    else (dma, .fault .assertFail)

/-- `lib/libvfio-user.c:1012-1021` `handle_migration_device_feature_set`. -/
def migSet (env : FEnv) (st feature : Nat) (res : List Byte) : Nat × Res Unit × List Vfu :=
  if feature ≠ FEAT_STATE then (st, .fault .assertFail, [])
  else
    match rd res 8 4 with
    | .ok t => setState env.cb st t
    | .err e => (st, .err e, [])
    | .fault f => (st, .fault f, [])

/-- `lib/libvfio-user.c:1140-1173`, the SET branch. -/
def featSet (env : FEnv) (st : FSt) (m feature argsz : Nat) (body : List Byte) :
    FSt × Res (List Byte) × List Vfu :=
  if argsz < body.length then (st, .err EINVAL, [])
  else if env.alloc = false then (st, .err ENOMEM, [])
  else if isMigFeature feature = true then
    let (m', r, tr) := migSet env m feature body
    ({ st with mig := some m' }, r.map (fun _ => body), tr)
  else if isDmaFeature feature = true then
    let (d', r) := dmaSet env st.dma feature body
    ({ st with dma := d' }, r.map (fun _ => body), [])
  else (st, .err EINVAL, [])

/-- `lib/libvfio-user.c:1126-1138`, the GET branch. -/
def featGet (env : FEnv) (st : FSt) (m feature argsz flags : Nat) (body : List Byte) :
    FSt × Res (List Byte) × List Vfu :=
  if isMigFeature feature = true then (st, migGet env.alloc m argsz flags, [])
  else if isDmaFeature feature = true then
    let (d', r) := dmaGet env st.dma argsz flags body
    ({ st with dma := d' }, r, [])
  else (st, .err EINVAL, [])

/-- `lib/libvfio-user.c:1175-1205`, the remaining branch. -/
def featProbe (env : FEnv) (ops argsz : Nat) (body : List Byte) : Res (List Byte) :=
  if ops &&& F_PROBE = 0 then .err EINVAL
  else if argsz < body.length then .err EINVAL
  else if env.alloc = false then .err ENOMEM
  else .ok body

/-- `lib/libvfio-user.c:1101-1209` `handle_device_feature`. -/
def handleFeature (env : FEnv) (st : FSt) (body : List Byte) : FSt × Res (List Byte) × List Vfu :=
  if body.length < 8 then (st, .err EINVAL, [])
  else
    let argsz := leAt body 0 4
    let flags := leAt body 4 4
    let ops := flags - flags % 65536
    let feature := flags % 65536
    let sup := supported st.mig feature
    if flags &&& sup ≠ ops ∨ sup = 0 then (st, .err EINVAL, [])
    else
      match st.mig with
      | none => (st, .err EINVAL, [])   -- not reached: `sup` is 0
      | some m =>
        if ops = F_GET then featGet env st m feature argsz flags body
        else if ops = F_SET then featSet env st m feature argsz body
        else (st, featProbe env ops argsz body, [])

/-! ## Migration data -/

/-- Calls of the data callbacks. -/
inductive DataEv where
  /-- `read_data(buf, size)`: `room` bytes of the reply buffer lie at and after `buf` -/
  | read (size room : Nat)
  /-- `write_data(buf, size)` with the bytes the device is shown -/
  | write (data : List Byte)
  deriving DecidableEq, Repr

/-- Result of `read_data`: return value and the content of the buffer afterwards, or an `errno`. -/
inductive ReadCb where
  | ret (n : Nat) (data : List Byte)
  | err (errno : Nat)

/-- A buffer of `size` bytes after the device wrote `data` into it. -/
def fill (size : Nat) (data : List Byte) : List Byte := (data ++ List.replicate size 0#8).take size

/-- `lib/migration.c:288-348` `handle_mig_data_read`. -/
def dataRead (alloc : Bool) (cb : Nat → ReadCb) (mig : Option Nat) (clientMax : Nat) (body : List Byte) :
    Res (List Byte) × List DataEv :=
  if body.length < 8 then (.err EINVAL, [])
  else
    match mig with
    | none => (.err EINVAL, [])
    | some st =>
      if st ≠ PRE_COPY ∧ st ≠ STOP_COPY then (.err EINVAL, [])
      else
        let argsz := leAt body 0 4
        let size := leAt body 4 4
        if size > clientMax then (.err EINVAL, [])
        else if argsz < 8 + size then (.err EINVAL, [])
        else if alloc = false then (.err ENOMEM, [])
        else
          let evs := [DataEv.read size (body.length + size - 8)]
          match cb size with
          | .err e => (.err e, evs)
          | .ret n data =>
            (.ok (enc 4 (8 + n) ++ enc 4 n ++ fill size data ++ List.replicate (body.length - 8) 0#8), evs)

/-- `lib/migration.c:350-407` `handle_mig_data_write`; `cb` is the return value or an `errno`. -/
def dataWrite (cb : List Byte → Except Nat Nat) (mig : Option Nat) (clientMax : Nat) (body : List Byte) :
    Res (List Byte) × List DataEv :=
  if body.length < 8 then (.err EINVAL, [])
  else
    match mig with
    | none => (.err EINVAL, [])
    | some st =>
      if st ≠ RESUMING then (.err EINVAL, [])
      else
        let argsz := leAt body 0 4
        let size := leAt body 4 4
        if size > clientMax then (.err EINVAL, [])
        else if argsz < 8 + size then (.err EINVAL, [])
        else if body.length < 8 + size then (.err EINVAL, [])
        else
          let data := (body.drop 8).take size
          match cb data with
          | .error e => (.err e, [.write data])
          | .ok n => if n ≠ size then (.err EINVAL, [.write data]) else (.ok [], [.write data])

end Verif.Mig
