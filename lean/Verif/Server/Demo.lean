import Verif.Server.Model

/-! # A device and a client for the examples -/

namespace Verif.Server.Demo
open Verif
open Verif.Dma (Fd)

/-- Quiesce and reset callbacks, DMA callbacks, one INTx and two MSI-X vectors, BAR 0 of 4 KiB behind a callback. -/
def cfg : Cfg :=
  { hasQuiesce := true, hasReset := true, dma := { hasReg := true, hasUnreg := true }
    irq := { cnt := fun i => if i = 0 then 1 else if i = 2 then 2 else 0, hasCb := fun _ => true }
    tbl := { Region.Reg.blank with flags := 3, size := 4096, hasCb := true } :: List.replicate 8 Region.Reg.blank }

def os : Dma.OS :=
  { ino := fun fd => some fd, blksize := fun _ => some 4096, page := 4096
    mmap := fun len _ => if 0 < len ∧ len ≤ 2 ^ 40 then .ok 0x7f0000000000 else .error 12, calloc := true }

/-- Everything succeeds; the device answers reads with zeroes. -/
def env : Env :=
  { os, alloc := true, malloc := fun n => List.replicate n 0#8, ca := fun _ => true, hint := 0
    migCb := fun _ => none, readData := fun n => .ret n [], writeData := fun l => .ok l.length
    eventfd := fun _ => none, region := fun _ _ buf _ => (.ok buf.length, buf)
    cfgCb := fun m _ buf _ => (m, buf, .ok buf.length), resetMem := id, resetCb := fun _ => none
    quiesce := fun _ => none, snd := fun n => .ok n }

/-- The device defers its quiesce. -/
def busy : Env := { env with quiesce := fun _ => some EBUSY }

/-- A config space without capabilities. -/
def pci : Pci.Pci :=
  { mem := fun _ => 0#8, alloc := 256, size := 256, big := false, caps := [], exts := [], bar := fun _ => (0, false),
    expOff := none }

/-- Set up for migration and for up to eight DMA regions; a client is connected. -/
def st : St := { init cfg true (some (8, 2 ^ 40)) pci with conn := true, maxFds := 8, maxXfer := 1048576 }

/-- A request as the client writes it. -/
def hdr (id cmd flags n : Nat) : Wire.Hdr := { id, cmd, size := 16 + n, flags, err := 0 }

def req (id cmd flags : Nat) (body : List Byte) (fds : List Fd) : Wire.In :=
  .req (hdr id cmd flags body.length) body fds

/-- Map 2 MiB at the given address, readable and writable, backed by a descriptor. -/
def mapBody (addr : Nat) : List Byte := enc 4 32 ++ enc 4 3 ++ enc 8 0 ++ enc 8 addr ++ enc 8 0x200000

/-- Remove that mapping. -/
def unmapBody (addr : Nat) : List Byte := enc 4 24 ++ enc 4 0 ++ enc 8 addr ++ enc 8 0x200000

/-- Bind MSI-X vectors 0 and 1 to eventfds. -/
def bindBody : List Byte := enc 4 20 ++ enc 4 0x24 ++ enc 4 2 ++ enc 4 0 ++ enc 4 2

/-- Write four bytes at offset 8 of BAR 0. -/
def writeBody : List Byte := enc 8 8 ++ enc 4 0 ++ enc 4 4 ++ enc 4 0xcafe

/-- Set the migration state. -/
def stateBody (s : Nat) : List Byte := enc 4 16 ++ enc 4 (0x20000 + 2) ++ enc 4 s ++ enc 4 0

/-- Start logging dirty pages of 4 KiB; report those of 4 MiB at 0x100000. -/
def logBody : List Byte := enc 4 24 ++ enc 4 (0x20000 + 6) ++ enc 8 0x1000 ++ enc 4 0 ++ enc 4 0
def reportBody : List Byte := enc 4 4096 ++ enc 4 (0x10000 + 8) ++ enc 8 0x100000 ++ enc 8 0x400000 ++ enc 8 0x1000

end Verif.Server.Demo
