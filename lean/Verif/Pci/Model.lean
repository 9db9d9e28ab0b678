import Verif.Bytes

/-!
# Model of the PCI config space (`lib/pci.c`, `lib/pci_caps.c`)

* The config space is a function from offsets to bytes. `alloc` is the size of the allocation of `vfu_pci_init`,
  `size` is `reg_info[VFU_PCI_DEV_CFG_REGION_IDX].size`, which `vfu_setup_region` can change later
  (`lib/pci.h:47-59`).
* Bit fields of the packed structs are numbered as GCC lays them out on a little-endian host.
* `if (x->f != y->f) { x->f = y->f; log }` is an assignment.
* Logging is left out.
-/

namespace Verif.Pci
open Verif

/-- `asm-generic/errno-base.h`. -/
def EPERM : Nat := 1
def EEXIST : Nat := 17

abbrev Mem := Nat → Byte

/-- `memcpy` out of the config space. -/
def rdM (m : Mem) (off n : Nat) : List Byte := (List.range n).map (fun i => m (off + i))

/-- `memcpy` into the config space. -/
def wrM (m : Mem) (off : Nat) (bs : List Byte) : Mem :=
  fun a => if off ≤ a ∧ a < off + bs.length then bs.getD (a - off) 0#8 else m a

/-- The bits `lo … lo+n-1` of a struct that fall into its byte number `i`. -/
def fieldMask (lo n i : Nat) : Byte := BitVec.ofNat 8 (((2 ^ n - 1) * 2 ^ lo) / 2 ^ (8 * i))

/-- Assignment of the bit field `lo … lo+n-1` of the struct at `off`, from the copy of the struct in `src`. -/
def setField (m src : Mem) (off lo n : Nat) : Mem :=
  fun a => if off ≤ a then (m a &&& ~~~ fieldMask lo n (a - off)) ||| (src a &&& fieldMask lo n (a - off)) else m a

def setFields (m src : Mem) (off : Nat) : List (Nat × Nat) → Mem
  | [] => m
  | (lo, n) :: fs => setFields (setField m src off lo n) src off fs

/-- A bit field as a number. -/
def field (m : Mem) (off lo n : Nat) : Nat := leAt (rdM m off ((lo + n + 7) / 8)) 0 ((lo + n + 7) / 8) / 2 ^ lo % 2 ^ n

/-- Capability ids and sizes of `<linux/pci_regs.h>`, `include/pci_caps/msi.h:60` and `px.h:233`. -/
def ID_PM : Nat := 1
def ID_MSI : Nat := 5
def ID_VNDR : Nat := 9
def ID_EXP : Nat := 0x10
def ID_MSIX : Nat := 0x11
def EXT_DSN : Nat := 3
def EXT_VNDR : Nat := 0xb

/-- `lib/pci_caps.h:52-61` `struct pci_cap`; `ro`, `cbk`: `VFU_CAP_FLAG_READONLY`, `VFU_CAP_FLAG_CALLBACK`; the
handler is determined by `ext` and `id`. -/
structure Cap where
  ext : Bool
  id : Nat
  off : Nat
  hdr : Nat
  size : Nat
  ro : Bool
  cbk : Bool
  deriving DecidableEq, Repr

/-- The parts of the context the config space emulation uses (`lib/private.h:121-128,156-191`). `bar i`: size and
`VFU_REGION_FLAG_MEM` of region `i`. -/
structure Pci where
  mem : Mem
  alloc : Nat
  size : Nat
  /-- type PCI-X 2 or PCI Express -/
  big : Bool
  caps : List Cap
  exts : List Cap
  bar : Nat → Nat × Bool
  expOff : Option Nat

/-- The device: the config region callback gets the config space, offset, buffer and direction and returns the
config space, buffer and number of bytes; the reset callback. -/
structure Dev where
  cb : Option (Mem → Nat → List Byte → Bool → Mem × List Byte × Res Nat)
  reset : Option (Mem → Mem × Res Unit)

/-- Calls to the device. -/
inductive Ev where
  | cb (off : Nat) (buf : List Byte) (write : Bool)
  | flr
  deriving DecidableEq, Repr

/-! ## The standard header -/

/-- `lib/pci.c:330-359` `pci_config_space_size_for_reg`. -/
def regSize : Nat → Nat
  | 0x00 => 4
  | 0x04 => 2
  | 0x06 => 2
  | 0x08 => 1
  | 0x09 => 3
  | 0x0c => 1
  | 0x0d => 1
  | 0x0e => 1
  | 0x0f => 1
  | 0x10 => 4
  | 0x14 => 4
  | 0x18 => 4
  | 0x1c => 4
  | 0x20 => 4
  | 0x24 => 4
  | 0x28 => 4
  | 0x2c => 4
  | 0x30 => 4
  | 0x34 => 1
  | 0x3c => 1
  | 0x3d => 1
  | 0x3e => 1
  | 0x3f => 1
  | _ => 0

/-- `lib/pci.c:82-183` `handle_command_write`: IO, MEMORY, MASTER, SERR, INTX_DISABLE and INVALIDATE are stored,
VGA_PALETTE is dropped; any bit left over is an error, raised after the others have been stored. -/
def commandWrite (m : Mem) (buf : List Byte) : Mem × Res Unit :=
  if buf.length < 2 then (m, .fault .oob)
  else
    let src := wrM m 4 (buf.take 2)
    let m := setFields m src 4 [(0, 1), (1, 1), (2, 1), (8, 1), (10, 1), (4, 1)]
    (m, if leAt buf 0 2 &&& 0xfac8 ≠ 0 then .err EINVAL else .ok ())

/-- `lib/pci.c:186-210` `handle_erom_write`; `PCI_ROM_ADDRESS_MASK` is `~0x7ff`. -/
def eromWrite (m : Mem) (buf : List Byte) : Mem × Res Unit :=
  if buf.length < 4 then (m, .fault .oob)
  else
    let v := leAt buf 0 4
    if v = 0xfffff800 then (m, .ok ())
    else if v = 0 then (wrM m 0x30 (enc 4 0), .ok ())
    else if v = 0xfffffffe then (m, .ok ())
    else if v = 0xffffffff then (m, .ok ())
    else (m, .err EINVAL)

/-- `lib/pci.c:46-77` `pci_hdr_write_bar`. -/
def barWrite (bar : Nat → Nat × Bool) (m : Mem) (buf : List Byte) (i : Nat) : Mem × Res Unit :=
  if (bar i).1 = 0 then (m, .ok ())
  else if buf.length < 4 then (m, .fault .oob)
  else
    let addr := leAt buf 0 4
    let addr := if addr = 0xffffffff then (U32 - (bar i).1) % U32 else addr
    let raw := leAt (rdM m (0x10 + 4 * i) 4) 0 4
    let keep := if (bar i).2 then raw &&& 0xf else raw &&& 0x3
    (wrM m (0x10 + 4 * i) (enc 4 (addr ||| keep)), .ok ())

/-- `lib/pci.c:213-273` `pci_hdr_write`; the buffer is not empty. -/
def hdrWrite (bar : Nat → Nat × Bool) (m : Mem) (buf : List Byte) (off : Nat) : Mem × Res Unit :=
  if off = 0x04 then commandWrite m buf
  else if off = 0x06 ∨ off = 0x08 ∨ off = 0x09 ∨ off = 0x3d ∨ off = 0x3e ∨ off = 0x3f then (m, .ok ())
  else if off = 0x3c ∨ off = 0x0c ∨ off = 0x0d then (wrM m off (buf.take 1), .ok ())
  else if off = 0x10 ∨ off = 0x14 ∨ off = 0x18 ∨ off = 0x1c ∨ off = 0x20 ∨ off = 0x24 then
    barWrite bar m buf ((off - 0x10) / 4)
  else if off = 0x30 then eromWrite m buf
  else (m, .err EINVAL)

/-! ## Capabilities: access -/

/-- `lib/pci_caps.c:466-469` `ranges_intersect`: `>=` in the second comparison. -/
def rangesIntersect (off1 size1 off2 size2 : Nat) : Bool := off1 < add64 off2 size2 && add64 off1 size1 ≥ off2

/-- `lib/pci_caps.c:472-490` `cap_find_by_offset`. -/
def capFind (p : Pci) (off count : Nat) : Option Cap :=
  match p.caps.find? (fun c => rangesIntersect off count c.off c.size) with
  | some c => some c
  | none => p.exts.find? (fun c => rangesIntersect off count c.off c.size)

/-- `lib/pci_caps.c:135-169` `cap_write_pm` and `handle_pmcs_write` (116-133). -/
def writePm (m : Mem) (c : Cap) (buf : List Byte) (count rel : Nat) : Mem × Res Nat :=
  if rel = 2 then (m, if count ≠ 2 then .err EINVAL else .err ENOTSUP)
  else if rel = 4 then
    if count ≠ 2 then (m, .err EINVAL) else (wrM m (c.off + 4) (buf.take 2), .ok 2)
  else if rel = 6 ∨ rel = 7 then (m, if count ≠ 1 then .err EINVAL else .err ENOTSUP)
  else (m, .err EINVAL)

/-- `lib/pci_caps.c:172-230` `cap_write_msi`. The copy `new_msi` has 0x18 bytes. -/
def writeMsi (m : Mem) (c : Cap) (buf : List Byte) (count rel : Nat) : Mem × Res Nat :=
  if rel + count > 0x18 then (m, .fault .oob)
  else
    let new := wrM m (c.off + rel) (buf.take count)
    let m := setFields m new c.off [(16, 1)]
    let mme := field new c.off 20 3
    if field m c.off 20 3 ≠ mme ∧ mme > 5 then (m, .err EINVAL)
    else if field m c.off 20 3 ≠ mme ∧ mme > field m c.off 17 3 then (m, .err EINVAL)
    else (setFields m new c.off [(20, 3), (34, 30), (64, 32), (96, 16), (128, 32)], .ok count)

/-- `lib/pci_caps.c:233-263` `cap_write_msix`. The copy `new_msix` has 12 bytes. -/
def writeMsix (m : Mem) (c : Cap) (buf : List Byte) (count rel : Nat) : Mem × Res Nat :=
  if rel + count > 12 then (m, .fault .oob)
  else
    let new := wrM m (c.off + rel) (buf.take count)
    (setFields m new c.off [(30, 1), (31, 1)], .ok count)

/-- `lib/pci_caps.c:266-343` `handle_px_pxdc_write`, `lib/libvfio-user.c:873-886` `call_reset_cb`. The reset
callback returns 0 or -1. -/
def writePxdc (dev : Dev) (m : Mem) (c : Cap) (buf : List Byte) : Mem × Res Nat × List Ev :=
  let new := wrM m (c.off + 8) (buf.take 2)
  let m := setFields m new (c.off + 8) [(0, 1), (1, 1), (2, 1), (3, 1), (4, 1), (5, 3), (8, 1), (9, 1), (10, 1), (11, 1),
    (12, 3)]
  if field new (c.off + 8) 15 1 = 1 then
    if field m (c.off + 4) 28 1 = 0 then (m, .err EINVAL, [])
    else
      match dev.reset with
      | none => (m, .ok 2, [])
      | some r =>
        match (r m).2 with
        | .ok _ => ((r m).1, .ok 2, [.flr])
        | .err e => ((r m).1, .err e, [.flr])
        | .fault f => ((r m).1, .fault f, [.flr])
  else (m, .ok 2, [])

/-- `lib/pci_caps.c:398-439` `handle_px_write_2_bytes`, `cap_write_px`; link, slot and root control are ignored
(346-370), device and link control 2 are stored (373-395). -/
def writePx (dev : Dev) (m : Mem) (c : Cap) (buf : List Byte) (count rel : Nat) : Mem × Res Nat × List Ev :=
  if count ≠ 2 then (m, .err EINVAL, [])
  else if rel = 0x08 then writePxdc dev m c buf
  else if rel = 0x10 ∨ rel = 0x18 ∨ rel = 0x1c then (m, .ok 2, [])
  else if rel = 0x28 ∨ rel = 0x30 then (wrM m (c.off + rel) (buf.take 2), .ok 2, [])
  else if rel = 0x38 then (m, .ok 2, [])
  else (m, .err EINVAL, [])

/-- The handlers of `lib/pci_caps.c:707-719,738-763`; vendor capabilities (442-463) are copied. -/
def capWrite (dev : Dev) (alloc : Nat) (m : Mem) (c : Cap) (buf : List Byte) (count off : Nat) :
    Mem × Res Nat × List Ev :=
  if c.off + c.size > alloc then (m, .fault .oob, [])
  else if c.ext then
    if c.id = EXT_DSN then (m, .err EPERM, [])
    else if off + count > alloc then (m, .fault .oob, [])
    else (wrM m off (buf.take count), .ok count, [])
  else if c.id = ID_PM then ((writePm m c buf count (off - c.off)).1, (writePm m c buf count (off - c.off)).2, [])
  else if c.id = ID_EXP then writePx dev m c buf count (off - c.off)
  else if c.id = ID_MSI then ((writeMsi m c buf count (off - c.off)).1, (writeMsi m c buf count (off - c.off)).2, [])
  else if c.id = ID_MSIX then ((writeMsix m c buf count (off - c.off)).1, (writeMsix m c buf count (off - c.off)).2, [])
  else if off + count > alloc then (m, .fault .oob, [])
  else (wrM m off (buf.take count), .ok count, [])

/-- Effect of one segment: config space, bytes read, result, calls. -/
structure SegOut where
  mem : Mem
  data : List Byte
  ret : Res Nat
  evs : List Ev

/-- `memcpy(buf, pci_config_space_ptr(ctx, offset), count)`. -/
def readOut (p : Pci) (m : Mem) (count off : Nat) : SegOut :=
  if off ≥ p.size then SegOut.mk m [] (.fault .assertFail) []
  else if off + count > p.alloc then SegOut.mk m [] (.fault .oob) []
  else SegOut.mk m (rdM m off count) (.ok count) []

/-- `lib/pci.c:306-324` `pci_nonstd_access`. The buffer of a read holds zeros. -/
def nonstd (dev : Dev) (p : Pci) (m : Mem) (buf : List Byte) (count off : Nat) (write : Bool) : SegOut :=
  match dev.cb with
  | some cb =>
    let b := if write then buf.take count else List.replicate count 0#8
    let r := cb m off b write
    SegOut.mk r.1 (if write then [] else r.2.1) r.2.2 [.cb off b write]
  | none => if write then SegOut.mk m [] (.err EINVAL) [] else readOut p m count off

/-- `lib/pci_caps.c:493-525` `pci_cap_access`. -/
def capAccess (dev : Dev) (p : Pci) (m : Mem) (buf : List Byte) (count off : Nat) (write : Bool) : SegOut :=
  match capFind p off count with
  | none => SegOut.mk m [] (.fault .assertFail) []
  | some c =>
    if off < c.off ∨ count > c.size then SegOut.mk m [] (.fault .assertFail) []
    else if write = true ∧ c.ro = true then SegOut.mk m [] (.err EPERM) []
    else if c.cbk then nonstd dev p m buf count off write
    else if write = false then readOut p m count off
    else if off - c.off < c.hdr then SegOut.mk m [] (.err EPERM) []
    else
      let r := capWrite dev p.alloc m c buf count off
      SegOut.mk r.1 [] r.2.1 r.2.2

/-- `lib/pci.c:279-299` `pci_hdr_access`. -/
def hdrAccess (p : Pci) (m : Mem) (buf : List Byte) (count off : Nat) (write : Bool) : SegOut :=
  if count > 64 then SegOut.mk m [] (.fault .assertFail) []
  else if write then
    match (hdrWrite p.bar m buf off).2 with
    | .ok _ => SegOut.mk (hdrWrite p.bar m buf off).1 [] (.ok count) []
    | .err e => SegOut.mk (hdrWrite p.bar m buf off).1 [] (.err e) []
    | .fault f => SegOut.mk (hdrWrite p.bar m buf off).1 [] (.fault f) []
  else readOut p m count off

/-- Who serves a segment. -/
inductive Owner where
  | hdr
  | cap
  | dflt
  deriving DecidableEq, Repr

/-- `lib/pci.c:369-404` `pci_config_space_next_segment`; `none`: no handler. -/
def nextSegment (p : Pci) (count off : Nat) (write : Bool) : Option (Owner × Nat) :=
  if off < 64 then
    if write then if regSize off = 0 then none else some (.hdr, min count (regSize off))
    else some (.hdr, min count (64 - off))
  else
    match capFind p off count with
    | none => some (.dflt, count)
    | some c => if off < c.off then some (.dflt, c.off - off) else some (.cap, min count c.size)

def serve (dev : Dev) (p : Pci) (o : Owner) (m : Mem) (buf : List Byte) (count off : Nat) (write : Bool) : SegOut :=
  match o with
  | .hdr => hdrAccess p m buf count off write
  | .cap => capAccess dev p m buf count off write
  | .dflt => nonstd dev p m buf count off write

/-- A segment with the number of bytes its handler was asked for. -/
structure Seg where
  owner : Owner
  off : Nat
  size : Nat
  deriving DecidableEq, Repr

structure Out where
  mem : Mem
  data : List Byte
  ret : Res Nat
  segs : List Seg
  evs : List Ev

/-- `lib/pci.c:417-452` `pci_config_space_access`. `done`: bytes handled so far. A handler that returns 0 is called
again with the same arguments; the model takes it to do so for ever. Returning more than asked breaks the callback's
contract and is a fault. -/
def loop (dev : Dev) (p : Pci) (write : Bool) : Nat → Mem → List Byte → Nat → Nat → Nat → Out
  | 0, m, _, count, _, done => Out.mk m [] (if count = 0 then .ok done else .fault .diverge) [] []
  | fuel + 1, m, buf, count, off, done =>
    if count = 0 then Out.mk m [] (.ok done) [] []
    else
      match nextSegment p count off write with
      | none => Out.mk m [] (.ok 0) [] []
      | some (o, size) =>
        let s := serve dev p o m buf size off write
        match s.ret with
        | .err e => Out.mk s.mem [] (.err e) [⟨o, off, size⟩] s.evs
        | .fault f => Out.mk s.mem [] (.fault f) [⟨o, off, size⟩] s.evs
        | .ok n =>
          if n = 0 then Out.mk s.mem [] (.fault .diverge) [⟨o, off, size⟩] s.evs
          else if n > size then Out.mk s.mem [] (.fault .oob) [⟨o, off, size⟩] s.evs
          else
            let r := loop dev p write fuel s.mem (buf.drop n) (count - n) (off + n) (done + n)
            Out.mk r.mem (s.data.take n ++ r.data) r.ret (⟨o, off, size⟩ :: r.segs) (s.evs ++ r.evs)

/-- An access of `count` bytes; `buf` is the client's data for a write. -/
def access (dev : Dev) (p : Pci) (buf : List Byte) (count off : Nat) (write : Bool) : Out :=
  loop dev p write count p.mem buf count off 0

/-! ## Capabilities: set-up -/

/-- `lib/pci_caps.c:80-113` `cap_size` of a standard capability; `abort()` for others. -/
def stdSize (id vsize : Nat) : Option Nat :=
  if id = ID_PM then some 8
  else if id = ID_EXP then some 0x3c
  else if id = ID_MSI then some 0x18
  else if id = ID_MSIX then some 12
  else if id = ID_VNDR then some vsize
  else none

/-- `cap_size` of an extended capability; `word`: the second 32-bit word, whose top twelve bits are the length. -/
def extSize (id word : Nat) : Option Nat :=
  if id = EXT_DSN then some 12 else if id = EXT_VNDR then some (word / 2 ^ 20) else none

/-- Header sizes set at `lib/pci_caps.c:705,717,737,760`. -/
def stdHdr (id : Nat) : Nat := if id = ID_VNDR then 3 else 2
def extHdr (id : Nat) : Nat := if id = EXT_VNDR then 8 else 4

/-- `lib/common.h` `ROUND_UP(x, 4)`. -/
def up4 (x : Nat) : Nat := add64 x 3 / 4 * 4

/-- `while (*prevp != 0) prevp = pci_config_space_ptr(ctx, *prevp + PCI_CAP_LIST_NEXT)` (`lib/pci_caps.c:560-562`, and
the loop 566-577): the address of the last link. There are at most 256 different links, so a walk of more steps never
ends. -/
def lastLink (p : Pci) : Nat → Nat → Res Nat
  | 0, _ => .fault .diverge
  | fuel + 1, a =>
    if p.mem a = 0#8 then .ok a
    else if (p.mem a).toNat + 1 ≥ p.size then .fault .assertFail
    else if (p.mem a).toNat + 1 ≥ p.alloc then .fault .oob
    else lastLink p fuel ((p.mem a).toNat + 1)

/-- `lib/pci_caps.c:537-593` `cap_place`, up to the choice of the offset: offset and address of the link to set. -/
def stdPlace (p : Pci) (pos size : Nat) : Res (Nat × Nat) :=
  if pos ≠ 0 then
    if pos < 64 then .err EINVAL
    else if capFind p pos size ≠ none then .err EINVAL
    else
      match lastLink p 257 0x34 with
      | .ok a => .ok (pos, a)
      | .err e => .err e
      | .fault f => .fault f
  else if p.mem 0x34 = 0#8 then .ok (64, 0x34)
  else
    match lastLink p 257 0x34 with
    | .ok a =>
      if a + 1 ≥ p.alloc then .fault .oob
      else
        match stdSize (p.mem (a - 1)).toNat (p.mem (a + 1)).toNat with
        | none => .fault .assertFail
        | some s => .ok (up4 (add64 (a - 1) s), a)
    | .err e => .err e
    | .fault f => .fault f

/-- The 12-bit `next` of the extended capability header at `a` (`include/pci_caps/common.h:61-65`). -/
def extNext (m : Mem) (a : Nat) : Nat := (m (a + 2)).toNat / 16 + 16 * (m (a + 3)).toNat

/-- Assignment to `hdr->next`; truncates. -/
def setNext (m : Mem) (a v : Nat) : Mem :=
  wrM m (a + 2) [BitVec.ofNat 8 ((m (a + 2)).toNat % 16 + 16 * (v % 16)), BitVec.ofNat 8 (v / 16)]

def extId (m : Mem) (a : Nat) : Nat := leAt (rdM m a 2) 0 2

/-- `while (hdr->next != 0)` (`lib/pci_caps.c:629-631,636-638`). -/
def lastExt (p : Pci) : Nat → Nat → Res Nat
  | 0, _ => .fault .diverge
  | fuel + 1, a =>
    if a + 4 > p.alloc then .fault .oob
    else if extNext p.mem a = 0 then .ok a
    else if extNext p.mem a ≥ p.size then .fault .assertFail
    else lastExt p fuel (extNext p.mem a)

/-- `lib/pci_caps.c:605-663` `ext_cap_place`, up to the choice of the offset: offset and header to link from. -/
def extPlace (p : Pci) (pos size : Nat) : Res (Nat × Option Nat) :=
  if 256 ≥ p.size then .fault .assertFail
  else if 260 > p.alloc then .fault .oob
  else if pos ≠ 0 then
    if pos < 256 then .err EINVAL
    else if capFind p pos size ≠ none then .err EINVAL
    else if extId p.mem 256 = 0 ∧ pos ≠ 256 then .err EINVAL
    else
      match lastExt p 4097 256 with
      | .ok a => .ok (pos, some a)
      | .err e => .err e
      | .fault f => .fault f
  else if extId p.mem 256 = 0 then .ok (256, none)
  else
    match lastExt p 4097 256 with
    | .ok a =>
      if a + 8 > p.alloc then .fault .oob
      else
        match extSize (extId p.mem a) (leAt (rdM p.mem (a + 4) 4) 0 4) with
        | none => .fault .assertFail
        | some s => .ok (up4 (add64 a s), some a)
    | .err e => .err e
    | .fault f => .fault f

/-- Flags of `vfu_pci_add_capability`. -/
structure CapFlags where
  ext : Bool
  cbk : Bool
  ro : Bool
  /-- any other bit set -/
  bad : Bool
  deriving DecidableEq, Repr

/-- `lib/pci_caps.c:728-766,771-799` and the end of `cap_place` (580-593), standard capabilities. -/
def addStd (p : Pci) (pos : Nat) (fl : CapFlags) (data : List Byte) : Pci × Res Nat :=
  if p.caps.length = 128 then (p, .err ENOSPC)
  else
    let id := leAt data 0 1
    match stdSize id (leAt data 2 1) with
    | none => (p, .err ENOTSUP)
    | some size =>
      if add64 pos size ≥ p.size then (p, .err EINVAL)
      else
        match stdPlace p pos size with
        | .err e => (p, .err e)
        | .fault f => (p, .fault f)
        | .ok (off, link) =>
          if add64 off size > p.size then (p, .err ENOSPC)
          else if off ≥ p.size ∨ off + 1 ≥ p.size then (p, .fault .assertFail)
          else if off + size > p.alloc ∨ off + 1 ≥ p.alloc ∨ data.length < size then (p, .fault .oob)
          else
            let m := wrM p.mem off (data.take size)
            let m := wrM m link [BitVec.ofNat 8 off]
            let m := wrM m (off + 1) [0#8]
            let c : Cap := ⟨false, id, off, stdHdr id, size, fl.ro, fl.cbk⟩
            ({ p with mem := m, caps := p.caps ++ [c], expOff := if id = ID_EXP then some off else p.expOff }, .ok off)

/-- `lib/pci_caps.c:690-727,771-799` and the end of `ext_cap_place` (645-663), extended capabilities. -/
def addExt (p : Pci) (pos : Nat) (fl : CapFlags) (data : List Byte) : Pci × Res Nat :=
  if p.big = false then (p, .err EINVAL)
  else if p.exts.length = 128 then (p, .err ENOSPC)
  else
    let id := leAt data 0 2
    match extSize id (leAt data 4 4) with
    | none => (p, .err ENOTSUP)
    | some size =>
      if add64 pos size ≥ p.size then (p, .err EINVAL)
      else
        match extPlace p pos size with
        | .err e => (p, .err e)
        | .fault f => (p, .fault f)
        | .ok (off, link) =>
          if add64 off size > p.size then (p, .err ENOSPC)
          else if off ≥ p.size then (p, .fault .assertFail)
          else if off + size > p.alloc ∨ off + 4 > p.alloc ∨ data.length < size then (p, .fault .oob)
          else
            let m := wrM p.mem off (data.take size)
            let c : Cap := ⟨true, id, off, extHdr id, size, fl.ro, fl.cbk⟩
            match link with
            | none => ({ p with mem := setNext m off 0, exts := p.exts ++ [c] }, .ok off)
            | some a =>
              if off % 4 ≠ 0 then ({ p with mem := m }, .fault .assertFail)
              else ({ p with mem := setNext (setNext m a off) off 0, exts := p.exts ++ [c] }, .ok off)

/-- `lib/pci_caps.c:666-799` `vfu_pci_add_capability`; `hasCb`: the config region has a callback. `data` holds at
least the headers the library looks at. -/
def addCap (hasCb : Bool) (p : Pci) (pos : Nat) (fl : CapFlags) (data : List Byte) : Pci × Res Nat :=
  if fl.bad then (p, .err EINVAL)
  else if fl.cbk = true ∧ hasCb = false then (p, .err EINVAL)
  else if fl.ext then addExt p pos fl data
  else addStd p pos fl data

/-- The config space after `vfu_pci_init` (`lib/pci.c:455-504`). -/
def init (big : Bool) (bar : Nat → Nat × Bool) : Pci :=
  { mem := fun _ => 0#8, alloc := if big then 4096 else 256, size := if big then 4096 else 256, big := big,
    caps := [], exts := [], bar := bar, expOff := none }

/-! ## Capabilities: search -/

/-- The loop of `vfu_pci_find_next_capability` (`lib/pci_caps.c:869-891`); an error is `errno` with the value 0. -/
def findLoop (p : Pci) (id : Nat) : Nat → Nat → Res Nat
  | 0, _ => .fault .diverge
  | fuel + 1, off =>
    if off + 1 ≥ p.size then .err EINVAL
    else if off + 1 ≥ p.alloc then .fault .oob
    else if (p.mem off).toNat = id then .ok off
    else if p.mem (off + 1) = 0#8 then .err ENOENT
    else findLoop p id fuel (p.mem (off + 1)).toNat

/-- `lib/pci_caps.c:843-892` `vfu_pci_find_next_capability`, standard capabilities. -/
def findNext (p : Pci) (off id : Nat) : Res Nat :=
  if add64 off 1 ≥ p.size then .err EINVAL
  else if off + 1 ≥ p.alloc then .fault .oob
  else
    let o := if off = 0 then (p.mem 0x34).toNat else (p.mem (off + 1)).toNat
    if o = 0 then .err ENOENT else findLoop p id 257 o

/-- The loop of `vfu_pci_find_next_ext_capability` (`lib/pci_caps.c:820-836`). -/
def findExtLoop (p : Pci) (id : Nat) : Nat → Nat → Res Nat
  | 0, _ => .fault .diverge
  | fuel + 1, off =>
    if off + 4 ≥ p.size then .err EINVAL
    else if off + 4 > p.alloc then .fault .oob
    else if extId p.mem off = id then .ok off
    else if extNext p.mem off = 0 then .err ENOENT
    else if extNext p.mem off ≥ p.size then .fault .assertFail
    else findExtLoop p id fuel (extNext p.mem off)

/-- `lib/pci_caps.c:802-840` `vfu_pci_find_next_ext_capability`. -/
def findNextExt (p : Pci) (off id : Nat) : Res Nat :=
  if add64 off 4 ≥ p.size then .err EINVAL
  else if off = 0 then if 256 ≥ p.size then .fault .assertFail else findExtLoop p id 4097 256
  else if off + 4 > p.alloc then .fault .oob
  else if extNext p.mem off ≥ p.size then .fault .assertFail
  else findExtLoop p id 4097 (extNext p.mem off)

/-- `lib/pci_caps.c:900-906` `access_is_pci_cap_exp`; `pci_cap_exp_off` is -1 until such a capability is added
(`lib/libvfio-user.c:1923`). -/
def isPxdc (p : Pci) (region off : Nat) : Bool :=
  region == 7 && off == match p.expOff with | some o => o + 8 | none => 7

end Verif.Pci
