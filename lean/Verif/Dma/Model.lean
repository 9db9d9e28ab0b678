import Verif.Base

/-!
# Model of the DMA controller (`lib/dma.c`, `lib/dma.h`) and of the client's map/unmap requests

* Addresses, lengths and sizes are natural numbers `< 2^64`; additions on them wrap (`add64`).
* A file descriptor is an opaque token; `none` is the C value `-1`.
* `vaddr = 0` is the C value `NULL`.
* Slots of `dma->regions` at or beyond `nregions` are not part of the state: the code reads them only
  in the fast path of `dma_addr_to_sgl`, where the result is discarded by `region_hint < nregions`.
-/

namespace Verif.Dma
open Verif

/-- A descriptor token. -/
abbrev Fd := Nat

/-- `PROT_READ` / `PROT_WRITE` bits of `prot`. -/
structure Prot where
  read : Bool
  write : Bool
  deriving DecidableEq, Repr

/-- `include/libvfio-user.h:489-495` `vfu_dma_info_t`, what the device callbacks are shown. -/
structure Info where
  base : Nat
  len : Nat
  vaddr : Nat
  mapBase : Nat
  mapLen : Nat
  pageSize : Nat
  prot : Prot
  deriving DecidableEq, Repr

/-- `lib/dma.h:95-100` `dma_memory_region_t`.  `dirty = none` is a `NULL` bitmap pointer. -/
structure Region where
  info : Info
  fd : Option Fd
  offset : Nat
  dirty : Option (List Byte)
  deriving DecidableEq, Repr

/-- `iov_end(&region->info.iova)` (`lib/common.h:152-157`): base plus length, wrapping. -/
def Region.end64 (r : Region) : Nat := add64 r.info.base r.info.len

/-- `lib/dma.h:102-109` `dma_controller_t`; `nregions` is the length of the list. -/
structure Ctl where
  maxRegions : Nat
  maxSize : Nat
  dirtyPgsize : Nat
  regions : List Region
  deriving DecidableEq, Repr

/-- `lib/dma.c:83-103` `dma_controller_create` (successful allocation). -/
def create (maxRegions maxSize : Nat) : Ctl :=
  { maxRegions, maxSize, dirtyPgsize := 0, regions := [] }

/-- Observable effects. -/
inductive Ev where
  /-- `dma_register` callback. -/
  | register (i : Info)
  /-- `dma_unregister` callback. -/
  | unregister (i : Info)
  /-- successful `mmap` of `len` bytes at `base`. -/
  | mmap (base len : Nat)
  /-- `munmap(base, len)`. -/
  | munmap (base len : Nat)
  /-- `close(fd)`. -/
  | close (fd : Fd)
  deriving DecidableEq, Repr

/-- Results of the operating system calls made by a map request. -/
structure OS where
  /-- `fstat` device/inode identity of a descriptor, `none` if `fstat` fails. -/
  ino : Fd → Option Nat
  /-- `fstat` block size of a descriptor, `none` if `fstat` fails (`lib/dma.c:57-66`). -/
  blksize : Fd → Option Nat
  /-- `getpagesize()`. -/
  page : Nat
  /-- `mmap` of the given length at the given file offset: `errno` or the address. -/
  mmap : (len off : Nat) → Except Nat Nat
  /-- whether `calloc` of the dirty bitmap succeeds. -/
  calloc : Bool

/-- `lib/dma.c:68-81` `fds_are_same_file`. -/
def OS.sameFile (os : OS) (a b : Option Fd) : Bool :=
  if a = b then true
  else match a, b with
    | some x, some y =>
      match os.ino x, os.ino y with
      | some i, some j => i == j
      | _, _ => false
    | _, _ => false

/-! ## Removing regions -/

/-- `lib/common.h:121-141` `close_safely`: skips `-1`. -/
def closeEv : Option Fd → List Ev
  | none => []
  | some fd => [.close fd]

/-- The per-region part shared by `lib/dma.c:164-174` and `lib/dma.c:200-210`, including
`dma_controller_unmap_region` (`lib/dma.c:105-125`): unregister callback if there is one, then
`munmap` and close if mapped; the two `assert`s are outcomes. -/
def dropRegion (hasUnreg : Bool) (r : Region) : Res (List Ev) :=
  let cb := if hasUnreg then [Ev.unregister r.info] else []
  if r.info.vaddr ≠ 0 then
    match r.fd with
    | none => .fault .assertFail
    | some fd => .ok (cb ++ [.munmap r.info.mapBase r.info.mapLen, .close fd])
  else
    match r.fd with
    | none => .ok cb
    | some _ => .fault .assertFail

/-- The search loop of `lib/dma.c:157-178`: the first region with exactly this base and length is
dropped and the array closed up (`array_remove`, `lib/dma.c:127-143`). -/
def removeLoop (hasUnreg : Bool) (addr size : Nat) : List Region → Res (List Region × List Ev)
  | [] => .err ENOENT
  | r :: rs =>
    if r.info.base ≠ addr ∨ r.info.len ≠ size then
      match removeLoop hasUnreg addr size rs with
      | .ok (rs', ev) => .ok (r :: rs', ev)
      | .err e => .err e
      | .fault f => .fault f
    else
      match dropRegion hasUnreg r with
      | .ok ev => .ok (rs, ev)
      | .err e => .err e
      | .fault f => .fault f

/-- `lib/dma.c:145-180` `dma_controller_remove_region`. -/
def removeRegion (c : Ctl) (hasUnreg : Bool) (addr size : Nat) : Res (Ctl × List Ev) :=
  match removeLoop hasUnreg addr size c.regions with
  | .ok (rs, ev) => .ok ({ c with regions := rs }, ev)
  | .err e => .err e
  | .fault f => .fault f

/-- The loop of `lib/dma.c:191-211`. -/
def dropAll (hasUnreg : Bool) : List Region → Res (List Ev)
  | [] => .ok []
  | r :: rs =>
    match dropRegion hasUnreg r with
    | .ok ev =>
      match dropAll hasUnreg rs with
      | .ok evs => .ok (ev ++ evs)
      | .err e => .err e
      | .fault f => .fault f
    | .err e => .err e
    | .fault f => .fault f

/-- `lib/dma.c:182-215` `dma_controller_remove_all_regions`; `dirty_pgsize` is left alone. -/
def removeAll (c : Ctl) (hasUnreg : Bool) : Res (Ctl × List Ev) :=
  match dropAll hasUnreg c.regions with
  | .ok ev => .ok ({ c with regions := [] }, ev)
  | .err e => .err e
  | .fault f => .fault f

/-! ## Adding a region -/

/-- `lib/dma.c:258-273` `dirty_page_logging_start_on_region`: the new zeroed bitmap. -/
def startOnRegion (calloc : Bool) (r : Region) (pgsize : Nat) : Res Region :=
  match r.fd with
  | none => .fault .assertFail
  | some _ =>
    match getBitmapSize r.info.len pgsize with
    | .ok n => if calloc then .ok { r with dirty := some (List.replicate n 0#8) } else .err ENOMEM
    | .err e => .err e
    | .fault f => .fault f

/-- `lib/dma.c:224-256` `dma_map_region`. -/
def mapRegion (os : OS) (r : Region) : Except Nat Region :=
  let off := roundDown r.offset r.info.pageSize
  let mlen := roundUp r.info.len r.info.pageSize
  match os.mmap mlen off with
  | .error e => .error e
  | .ok b =>
    .ok { r with info := { r.info with
            mapBase := b, mapLen := mlen, vaddr := add64 b (r.offset - off) } }

/-- What the scan `lib/dma.c:296-337` over the existing regions decides. -/
inductive Scan where
  | same (idx : Nat)
  | bad (errno : Nat)
  | fresh
  deriving DecidableEq, Repr

/-- `lib/dma.c:296-337`. -/
def scan (os : OS) (addr size : Nat) (fd : Option Fd) (offset : Nat) (prot : Prot) :
    Nat → List Region → Scan
  | _, [] => .fresh
  | idx, r :: rs =>
    if r.info.base = addr ∧ r.info.len = size then
      if offset ≠ r.offset then .bad EINVAL
      else if os.sameFile r.fd fd = false then .bad EINVAL
      else if r.info.prot ≠ prot then .bad EINVAL
      else .same idx
    else if (addr ≥ r.info.base ∧ addr < r.end64) ∨
            (r.info.base ≥ addr ∧ r.info.base < add64 addr size) then .bad EINVAL
    else scan os addr size fd offset prot (idx + 1) rs

/-- `lib/dma.c:347-354`: the page size used for the mapping. -/
def pageSizeFor (os : OS) : Option Fd → Res Nat
  | none => .ok (max 0 os.page)
  | some fd =>
    match os.blksize fd with
    | none => .err EINVAL
    | some b => .ok (max b os.page)

/-- `lib/dma.c:275-397` `dma_controller_add_region`: new table, result (region index), events. -/
def addRegion (os : OS) (c : Ctl) (addr size : Nat) (fd : Option Fd) (offset : Nat) (prot : Prot) :
    Ctl × Res Nat × List Ev :=
  if size > c.maxSize then (c, .err ENOSPC, [])
  else
    match scan os addr size fd offset prot 0 c.regions with
    | .bad e => (c, .err e, [])
    | .same idx => (c, .ok idx, [])
    | .fresh =>
      if c.regions.length = c.maxRegions then (c, .err EINVAL, [])
      else
        match pageSizeFor os fd with
        | .err e => (c, .err e, [])
        | .fault f => (c, .fault f, [])
        | .ok ps =>
          let r0 : Region :=
            { info := { base := addr, len := size, vaddr := 0, mapBase := 0, mapLen := 0,
                        pageSize := ps, prot }
              fd, offset, dirty := none }
          match fd with
          | none => ({ c with regions := c.regions ++ [r0] }, .ok c.regions.length, [])
          | some x =>
            let r1 := if c.dirtyPgsize ≠ 0 then startOnRegion os.calloc r0 c.dirtyPgsize
                      else .ok r0
            match r1 with
            | .err e => (c, .err e, [])
            | .fault f => (c, .fault f, [])
            | .ok r1 =>
              match mapRegion os r1 with
              | .error e => (c, .err e, [.close x])
              | .ok r2 =>
                ({ c with regions := c.regions ++ [r2] }, .ok c.regions.length,
                 [.mmap r2.info.mapBase r2.info.mapLen])

/-! ## The client's map request -/

/-- The request fields of `VFIO_USER_DMA_MAP` (`include/vfio-user.h:121-129`) once its size and
`argsz` have been checked, and the descriptors that came with it (all valid, see `lib/tran_sock.c:142-189`). -/
structure MapReq where
  flags : Nat
  offset : Nat
  addr : Nat
  size : Nat
  fds : List Fd
  deriving DecidableEq, Repr

/-- `lib/libvfio-user.c:661-673` `consume_fd`: the descriptor and the array with `-1` in its place. -/
def consumeFd (fds : List (Option Fd)) (i : Nat) : Res (Option Fd × List (Option Fd)) :=
  match fds[i]? with
  | none => .err EINVAL
  | some fd => .ok (fd, fds.set i none)

/-- Outcome of a request: new table, descriptors left in the message, reply `errno` (or fault),
events in order. -/
structure Out where
  ctl : Ctl
  fds : List (Option Fd)
  res : Res Unit
  evs : List Ev

/-- `lib/libvfio-user.c:717-723`: take the first descriptor of the message if there is one. -/
def takeFirst : List Fd → Res (Option Fd × List (Option Fd))
  | [] => .ok (none, [])
  | fd :: fds => consumeFd ((fd :: fds).map some) 0

/-- `lib/libvfio-user.c:702-742`: `handle_dma_map` after the size checks. -/
def handleMap (os : OS) (hasReg : Bool) (c : Ctl) (q : MapReq) : Out :=
  -- lines 702-715: only READ (bit 0) and WRITE (bit 1) are legal flags
  let prot : Prot := { read := q.flags.testBit 0, write := q.flags.testBit 1 }
  if q.flags % U32 / 4 ≠ 0 then { ctl := c, fds := q.fds.map some, res := .err EINVAL, evs := [] }
  else
    -- lines 717-723
    match takeFirst q.fds with
    | .err e => { ctl := c, fds := q.fds.map some, res := .err e, evs := [] }
    | .fault f => { ctl := c, fds := q.fds.map some, res := .fault f, evs := [] }
    | .ok (fd, fds) =>
      -- lines 725-733
      match addRegion os c q.addr q.size fd q.offset prot with
      | (c', .err e, ev) => { ctl := c', fds, res := .err e, evs := ev ++ closeEv fd }
      | (c', .fault f, ev) => { ctl := c', fds, res := .fault f, evs := ev }
      | (c', .ok idx, ev) =>
        -- lines 735-740
        match c'.regions[idx]? with
        | none => { ctl := c', fds, res := .fault .oob, evs := ev }
        | some r =>
          { ctl := c', fds, res := .ok (),
            evs := ev ++ (if hasReg then [.register r.info] else []) }

/-! ## Translating guest ranges -/

/-- `lib/dma.h:87-93` `struct dma_sg`. -/
structure Sg where
  dmaAddr : Nat
  region : Nat
  length : Nat
  offset : Nat
  writeable : Bool
  deriving DecidableEq, Repr

/-- Result of a translation: the entries written; or "`x` entries are needed" (`-x-1`, `errno` 0);
or `-1` with `errno`. -/
inductive SglOut where
  | ok (sgl : List Sg)
  | more (x : Nat)
  | err (errno : Nat)
  | fault (f : Fault)
  deriving DecidableEq, Repr

/-- `lib/dma.h:205-223` `dma_init_sg`: `none` is `EACCES`. -/
def initSg (r : Region) (idx addr len : Nat) (write : Bool) : Option Sg :=
  if write && !r.info.prot.write then none
  else some { dmaAddr := r.info.base, region := idx, offset := addr - r.info.base, length := len,
              writeable := write }

/-- Local variables of `_dma_addr_sg_split`; `sgl` are the entries written so far. -/
structure SplitSt where
  addr : Nat
  len : Nat
  cnt : Nat
  sgl : List Sg
  found : Bool
  deriving DecidableEq, Repr

inductive SplitStep where
  /-- keep scanning -/
  | cont (s : SplitSt)
  /-- `len == 0`, `goto out` -/
  | out (s : SplitSt)
  | err (errno : Nat)
  | diverge
  deriving DecidableEq, Repr

/-- The inner loop `lib/dma.c:415-436` for one region; `fuel` bounds the number of rounds (running out of
it would be `diverge`). -/
def splitInner (maxSgs : Nat) (write : Bool) (idx : Nat) (r : Region) : Nat → SplitSt → SplitStep
  | 0, _ => .diverge
  | fuel + 1, s =>
    if s.addr ≥ r.info.base ∧ s.addr < r.end64 then
      let rl := min (r.end64 - s.addr) s.len
      let sgl? : Option (List Sg) :=
        if s.cnt < maxSgs then (initSg r idx s.addr rl write).map fun sg => s.sgl ++ [sg]
        else some s.sgl
      match sgl? with
      | none => .err EACCES
      | some sgl =>
        let s' : SplitSt :=
          { addr := add64 s.addr rl, len := s.len - rl, cnt := s.cnt + 1, sgl, found := true }
        if s.len - rl = 0 then .out s' else splitInner maxSgs write idx r fuel s'
    else .cont s

/-- The `for` loop `lib/dma.c:410-437` over the regions from `idx` on. -/
def splitFor (maxSgs : Nat) (write : Bool) : Nat → List Region → SplitSt → SplitStep
  | _, [], s => .cont s
  | idx, r :: rs, s =>
    match splitInner maxSgs write idx r (s.len + 1) s with
    | .cont s' => splitFor maxSgs write (idx + 1) rs s'
    | other => other

/-- The end of `_dma_addr_sg_split`, `lib/dma.c:441-449`. -/
def splitEnd (maxSgs : Nat) (s : SplitSt) : SglOut :=
  if s.found = false then .err ENOENT
  else if s.cnt > maxSgs then .more s.cnt
  else .ok s.sgl

/-- The outer loop `lib/dma.c:408-438`.  `fuel` bounds the number of rounds; every round that does not
stop makes `len` smaller, so `len + 1` rounds suffice (`split_fuel` in `Translate.lean` proves that the
fuel never runs out). -/
def splitOuter (maxSgs : Nat) (write : Bool) (rs : List Region) : Nat → SplitSt → SglOut
  | 0, _ => .fault .diverge
  | fuel + 1, s =>
    if s.found = true ∧ s.len > 0 then
      match splitFor maxSgs write 0 rs { s with found := false } with
      | .cont s' => splitOuter maxSgs write rs fuel s'
      | .out s' => splitEnd maxSgs s'
      | .err e => .err e
      | .diverge => .fault .diverge
    else splitEnd maxSgs s

/-- `lib/dma.c:399-450` `_dma_addr_sg_split`. -/
def addrSgSplit (c : Ctl) (addr len maxSgs : Nat) (write : Bool) : SglOut :=
  splitOuter maxSgs write c.regions (len + 1)
    { addr, len, cnt := 0, sgl := [], found := true }

/-- `lib/dma.h:261-266`: the slow path of `dma_addr_to_sgl`. -/
def slowPath (c : Ctl) (hint addr len maxSgs : Nat) (write : Bool) : SglOut × Nat :=
  match addrSgSplit c addr len maxSgs write with
  | .ok (sg :: sgl) => (.ok (sg :: sgl), sg.region)
  | r => (r, hint)

/-- `lib/dma.h:238-267` `dma_addr_to_sgl`: result and new value of the thread-local `region_hint`. -/
def addrToSgl (c : Ctl) (hint addr len maxSgs : Nat) (write : Bool) : SglOut × Nat :=
  match c.regions[hint]? with
  | none => if hint < c.maxRegions then slowPath c hint addr len maxSgs write else (.fault .oob, hint)
  | some r =>
    if maxSgs > 0 ∧ len > 0 ∧ addr ≥ r.info.base ∧ add64 addr len ≤ r.end64 then
      match initSg r hint addr len write with
      | none => (.err EACCES, hint)
      | some sg => (.ok [sg], hint)
    else slowPath c hint addr len maxSgs write

/-- `lib/dma.h:269-307` `dma_sgl_get` for one entry: local address and length. -/
def sgGet (c : Ctl) (sg : Sg) : Res (Nat × Nat) :=
  match c.regions[sg.region]? with
  | none => .err EINVAL
  | some r =>
    if r.info.vaddr = 0 then .err EFAULT
    else .ok (add64 r.info.vaddr sg.offset, sg.length)

/-- `lib/dma.h:269-307` `dma_sgl_get`; `cnt > 0` is asserted. -/
def sglGet (c : Ctl) : List Sg → Res (List (Nat × Nat))
  | [] => .fault .assertFail
  | [sg] => (sgGet c sg).map fun v => [v]
  | sg :: sg' :: sgl =>
    match sgGet c sg with
    | .ok v =>
      match sglGet c (sg' :: sgl) with
      | .ok vs => .ok (v :: vs)
      | .err e => .err e
      | .fault f => .fault f
    | .err e => .err e
    | .fault f => .fault f

end Verif.Dma
