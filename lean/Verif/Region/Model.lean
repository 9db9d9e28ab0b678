import Verif.Bytes

/-!
# Model of device regions (`lib/libvfio-user.c`)

* `fd = none` is `-1`; the code takes any `int` for the descriptor of an ioeventfd and aborts when it has to send
  one below `-1` (not modelled).
* `mmap_areas == NULL` and `nr_mmap_areas == 0` always go together: the list is empty.
* An empty message body is a `NULL` pointer (`lib/tran_sock.c:507-551` reads no body then).
-/

namespace Verif.Region
open Verif

abbrev Fd := Nat

/-- `include/libvfio-user.h:235-245`. -/
def FLAG_READ : Nat := 1
def FLAG_WRITE : Nat := 2
def FLAG_RW : Nat := 3
def FLAG_MEM : Nat := 4
def FLAG_ALWAYS_CB : Nat := 8
def FLAG_MASK : Nat := 63

/-- `VFU_PCI_DEV_CFG_REGION_IDX`, `VFU_PCI_DEV_NUM_REGIONS` (`include/libvfio-user.h:767-778`). -/
def CFG_IDX : Nat := 7
def NUM_REGIONS : Nat := 9

/-- `include/vfio-user.h:53`, `lib/private.h:55`. -/
def MAX_XFER : Nat := 1048576

/-- `lib/private.h:193-202` `ioeventfd_t`. -/
structure Sub where
  gpaOffset : Nat
  size : Nat
  fd : Option Fd
  flags : Nat
  datamatch : Nat
  shadowFd : Option Fd
  shadowOffset : Nat
  deriving DecidableEq, Repr

/-- `lib/private.h:103-119` `vfu_reg_info_t`; `hasCb`: a callback is set; `areas`: offset and length. -/
structure Reg where
  flags : Nat
  size : Nat
  hasCb : Bool
  areas : List (Nat × Nat)
  fd : Option Fd
  offset : Nat
  subs : List Sub
  deriving DecidableEq, Repr

/-- A region nobody set up: `calloc` and `fd = -1` in `lib/libvfio-user.c:1935-1943`. -/
def Reg.blank : Reg := { flags := 0, size := 0, hasCb := false, areas := [], fd := none, offset := 0, subs := [] }

/-- The table after `vfu_create_ctx`. -/
def blankTable : List Reg := List.replicate NUM_REGIONS Reg.blank

/-! ## Set-up -/

/-- Arguments of `vfu_setup_region`; `areas = []` stands for `mmap_areas == NULL` with count 0 (the mixed cases
are refused with EINVAL and have no other effect). -/
structure Setup where
  idx : Int
  size : Nat
  hasCb : Bool
  flags : Nat
  areas : List (Nat × Nat)
  fd : Option Fd
  offset : Nat
  deriving DecidableEq, Repr

/-- The loop `lib/libvfio-user.c:2067-2076`: `iov_end` adds 64-bit numbers. -/
def areasFit (size : Nat) : List (Nat × Nat) → Bool
  | [] => true
  | (b, l) :: as => if add64 b l > size then false else areasFit size as

/-- `lib/libvfio-user.c:2023-2106` `vfu_setup_region` and `copyin_mmap_areas` (2001-2021). `alloc`: the
allocation of the areas succeeds; after a failure the entry is zeroed, and so its descriptor is 0. -/
def setup (alloc : Bool) (tbl : List Reg) (a : Setup) : List Reg × Res Unit :=
  if a.flags ≠ a.flags &&& FLAG_MASK ∨ a.flags &&& FLAG_RW = 0 then (tbl, .err EINVAL)
  else if a.flags &&& FLAG_ALWAYS_CB ≠ 0 ∧ a.hasCb = false then (tbl, .err EINVAL)
  else if a.areas ≠ [] ∧ a.fd = none then (tbl, .err EINVAL)
  else if a.idx < 0 ∨ a.idx ≥ NUM_REGIONS then (tbl, .err EINVAL)
  else if a.idx = CFG_IDX ∧ (a.flags &&& FLAG_RW ≠ FLAG_RW ∨ a.flags &&& FLAG_MEM ≠ 0) then (tbl, .err EINVAL)
  else if areasFit a.size a.areas = false then (tbl, .err EINVAL)
  else
    match tbl[a.idx.toNat]? with
    | none => (tbl, .fault .oob)
    | some old =>
      let areas := if a.areas = [] ∧ a.fd ≠ none then [(0, a.size)] else a.areas
      let new := { old with flags := a.flags, size := a.size % U32, hasCb := a.hasCb, fd := a.fd, offset := a.offset }
      if areas = [] then (tbl.set a.idx.toNat new, .ok ())
      else if alloc then (tbl.set a.idx.toNat { new with areas := areas }, .ok ())
      else (tbl.set a.idx.toNat { Reg.blank with fd := some 0 }, .err ENOMEM)

/-- `lib/libvfio-user.c:446-487` `vfu_create_ioeventfd`; `shadow`: compiled with `SHADOW_IOEVENTFD`. -/
def createIoeventfd (shadow alloc : Bool) (tbl : List Reg) (idx : Nat) (s : Sub) : List Reg × Res Unit :=
  if shadow = false ∧ s.shadowFd ≠ none then (tbl, .err EINVAL)
  else if idx ≥ NUM_REGIONS then (tbl, .err EINVAL)
  else
    match tbl[idx]? with
    | none => (tbl, .fault .oob)
    | some r =>
      if add64 s.gpaOffset s.size > r.size then (tbl, .err EINVAL)
      else if alloc = false then (tbl, .err ENOMEM)
      else (tbl.set idx { r with subs := s :: r.subs }, .ok ())

/-! ## Access -/

/-- A handler run: the config space emulation or the region's callback, with its arguments. -/
inductive Call where
  | config (offset : Nat) (buf : List Byte) (write : Bool)
  | cb (region offset : Nat) (buf : List Byte) (write : Bool)
  deriving DecidableEq, Repr

/-- What handlers do: the return value and the content of the buffer afterwards. -/
abbrev Handler := Call → Res Nat × List Byte

/-- `lib/libvfio-user.c:184-220` `region_access`. -/
def regionAccess (h : Handler) (r : Reg) (region : Nat) (buf : List Byte) (offset : Nat) (write : Bool) :
    Res Nat × List Byte × List Call :=
  if region = CFG_IDX ∧ r.flags &&& FLAG_ALWAYS_CB = 0 then
    let c := .config offset buf write
    ((h c).1, (h c).2, [c])
  else if r.hasCb = false then (.err EINVAL, buf, [])
  else
    let c := .cb region offset buf write
    ((h c).1, (h c).2, [c])

/-- `lib/libvfio-user.c:222-275` `is_valid_region_access`; the body is not empty. `stopCopy` is
`device_is_stopped_and_copying` (`lib/migration.c:409-413`). -/
def validAccess (tbl : List Reg) (stopCopy isWrite : Bool) (body : List Byte) : Bool :=
  if body.length < 16 then false
  else if leAt body 12 4 > MAX_XFER then false
  else if isWrite = true ∧ body.length - 16 ≠ leAt body 12 4 then false
  else
    match tbl[leAt body 8 4]? with
    | none => false
    | some r =>
      if satadd64 (leAt body 0 8) (leAt body 12 4) > r.size then false
      else if stopCopy then false
      else true

/-- A buffer of `n` zero bytes after a handler wrote `data` into it; handlers stay inside the buffer. -/
def fit (n : Nat) (data : List Byte) : List Byte := (data ++ List.replicate n 0#8).take n

/-- `lib/libvfio-user.c:277-329` `handle_region_access`: the reply body and the handler runs. -/
def handleAccess (h : Handler) (alloc : Bool) (tbl : List Reg) (stopCopy isWrite : Bool) (body : List Byte) :
    Res (List Byte) × List Call :=
  if body = [] then (.fault .assertFail, [])
  else if validAccess tbl stopCopy isWrite body = false then (.err EINVAL, [])
  else
    let offset := leAt body 0 8
    let region := leAt body 8 4
    let count := leAt body 12 4
    if count = 0 then (.ok [], [])
    else if alloc = false then (.err ENOMEM, [])
    else
      match tbl[region]? with
      | none => (.fault .oob, [])
      | some r =>
        let buf := if isWrite then body.drop 16 else List.replicate count 0#8
        let (ret, buf', calls) := regionAccess h r region buf offset isWrite
        match ret with
        | .ok n =>
          if n ≠ count then (.err EINVAL, calls)
          else
            (.ok (enc 8 offset ++ enc 4 region ++ enc 4 count ++ (if isWrite then [] else fit count buf')), calls)
        | .err e => (.err e, calls)
        | .fault f => (.fault f, calls)

/-! ## Descriptions -/

/-- `lib/libvfio-user.c:331-365` `handle_device_get_info`. Flags: PCI and RESET of `<linux/vfio.h>`. -/
def deviceInfo (alloc : Bool) (nrRegions : Nat) (body : List Byte) : Res (List Byte) :=
  if body.length < 16 ∨ leAt body 0 4 < 16 then .err EINVAL
  else if alloc = false then .err ENOMEM
  else .ok (enc 4 16 ++ enc 4 3 ++ enc 4 nrRegions ++ enc 4 5)

/-- `lib/libvfio-user.c:85-96` `get_vfio_caps_size`. -/
def capsSize (r : Reg) : Nat := if r.areas.length ≠ 0 then 16 + r.areas.length * 16 else 0

/-- The capability `lib/libvfio-user.c:103-144` `dev_get_caps` writes: id 1, version 1, no next, the areas. -/
def capBytes (areas : List (Nat × Nat)) : List Byte :=
  enc 2 1 ++ enc 2 1 ++ enc 4 0 ++ enc 4 areas.length ++ enc 4 0 ++
    areas.flatMap (fun a => enc 8 a.1 ++ enc 8 a.2)

/-- Reply: body and descriptors. -/
structure Reply where
  body : List Byte
  fds : List (Option Fd)
  deriving DecidableEq, Repr

/-- `lib/libvfio-user.c:367-444` `handle_device_get_region_info`. The reply buffer has `len` bytes; writing the
capability behind its end is a fault (possible when `32 + caps_size` is truncated to 32 bits). -/
def regionInfo (alloc : Bool) (tbl : List Reg) (body : List Byte) : Res Reply :=
  if body.length < 32 ∨ leAt body 0 4 < 32 then .err EINVAL
  else
    match tbl[leAt body 8 4]? with
    | none => .err EINVAL
    | some r =>
      let argsz := leAt body 0 4
      let caps := if r.size > 0 then capsSize r else 0
      let len := min (32 + caps) argsz
      if alloc = false then .err ENOMEM
      else
        let need := (32 + caps) % U32
        let base := (if r.flags &&& FLAG_READ ≠ 0 then 1 else 0) + (if r.flags &&& FLAG_WRITE ≠ 0 then 2 else 0) +
          (if r.fd ≠ none then 4 else 0)
        let hdr := fun flags cap => enc 4 need ++ enc 4 flags ++ enc 4 (leAt body 8 4) ++ enc 4 cap ++
          enc 8 r.size ++ enc 8 r.offset
        if caps > 0 ∧ argsz ≥ need then
          if len < 32 + caps then .fault .oob
          else .ok { body := hdr (base + 8) 32 ++ capBytes r.areas, fds := [r.fd] }
        else .ok { body := hdr base 0 ++ List.replicate (len - 32) 0#8, fds := [] }

/-- `lib/libvfio-user.c:522-545` `add_fd_index`: the new descriptor list and the index (`none`: `-1`). -/
def addFdIndex (cap : Nat) (fds : List Fd) (fd : Option Fd) : Res (List Fd × Option Nat) :=
  match fd with
  | none => .ok (fds, none)
  | some x =>
    match fds.findIdx? (· == x) with
    | some i => .ok (fds, some i)
    | none => if fds.length < cap then .ok (fds ++ [x], some fds.length) else .fault .oob

/-- An index as the 32-bit field of the reply. -/
def idx32 : Option Nat → Nat
  | none => U32 - 1
  | some i => i

/-- One round of the loop `lib/libvfio-user.c:633-655`: the 48 bytes of a sub-region
(`include/vfio-user.h:174-183`: gpa_offset, size, fd_index, type, flags, shadow_mem_fd_index, shadow_offset,
datamatch). -/
def subBytes (cap : Nat) (fds : List Fd) (s : Sub) : Res (List Fd × List Byte) :=
  match addFdIndex cap fds s.fd with
  | .err e => .err e
  | .fault f => .fault f
  | .ok (fds1, i) =>
    match (match s.shadowFd with
      | none => Res.ok (fds1, 0, 0)
      | some x =>
        match addFdIndex cap fds1 (some x) with
        | .ok (fds2, j) => .ok (fds2, 2, idx32 j)
        | .err e => .err e
        | .fault f => .fault f) with
    | .err e => .err e
    | .fault f => .fault f
    | .ok (fds2, type, j) =>
      .ok (fds2, enc 8 s.gpaOffset ++ enc 8 s.size ++ enc 4 (idx32 i) ++ enc 4 type ++ enc 4 s.flags ++ enc 4 j ++
        enc 8 s.shadowOffset ++ enc 8 s.datamatch)

def subsLoop (cap : Nat) : List Sub → List Fd → Res (List Fd × List Byte)
  | [], fds => .ok (fds, [])
  | s :: ss, fds =>
    match subBytes cap fds s with
    | .err e => .err e
    | .fault f => .fault f
    | .ok (fds1, b) =>
      match subsLoop cap ss fds1 with
      | .err e => .err e
      | .fault f => .fault f
      | .ok (fds2, bs) => .ok (fds2, b ++ bs)

/-- `lib/libvfio-user.c:547-659` `handle_device_get_region_io_fds`. -/
def regionIoFds (alloc : Bool) (tbl : List Reg) (body : List Byte) : Res Reply :=
  if body.length < 16 then .err EINVAL
  else if leAt body 4 4 ≠ 0 ∨ leAt body 12 4 ≠ 0 then .err EINVAL
  else
    match tbl[leAt body 8 4]? with
    | none => .err EINVAL
    | some r =>
      if r.flags &&& FLAG_MASK = 0 then .err EINVAL
      else
        let argsz := leAt body 0 4
        let nr := r.subs.length
        let nrShadow := (r.subs.filter (fun s => s.shadowFd != none)).length
        if argsz < 16 ∨ argsz > MAX_XFER then .err EINVAL
        else
          let maxSent := min ((argsz - 16) / 48) nr
          let room := if maxSent ≥ nr then nr else 0
          if alloc = false then .err ENOMEM
          else
            let need := (16 + nr * 48) % U32
            let hdr := enc 4 need ++ enc 4 0 ++ enc 4 (leAt body 8 4) ++ enc 4 nr
            if maxSent > 0 ∧ argsz ≥ need then
              if room < maxSent then .fault .oob
              else
                match subsLoop (maxSent + nrShadow) (r.subs.take maxSent) [] with
                | .err e => .err e
                | .fault f => .fault f
                | .ok (fds, bs) => .ok { body := hdr ++ bs, fds := fds.map some }
            else .ok { body := hdr ++ List.replicate (room * 48) 0#8, fds := [] }

end Verif.Region
