import Verif.Server.Model

/-!
# Model of the set-up of a device: `vfu_create_ctx` to `vfu_realize_ctx`

* A context under construction; `alloc = 0` stands for `pci.config_space == NULL`.
* The size of the config space region and the BARs live in the region table, as in C; `Ctx.pci` is the view of the config
  space emulation.
* `irqs` is non-NULL exactly in realized contexts, since nothing fails after its allocation
  (`lib/libvfio-user.c:1757-1784`).
* Allocations may fail; the outcome is an argument of the call.
* Left out: private pointer, log function, transport.
-/

namespace Verif.Setup
open Verif

/-- `lib/private.h:156-191` `struct vfu_ctx` before `vfu_attach_ctx`. `dma`: `max_regions` and `max_size` of the
controller; `cnt`, `irqCb`: `irq_count` and whether `irq_state_cbs` is set. -/
structure Ctx where
  tbl : List Region.Reg
  mem : Pci.Mem
  alloc : Nat
  big : Bool
  caps : List Pci.Cap
  exts : List Pci.Cap
  expOff : Option Nat
  cnt : Nat → Nat
  irqCb : Nat → Bool
  hasQuiesce : Bool
  hasReset : Bool
  dmaCbs : Dma.Cfg
  dma : Option (Nat × Nat)
  mig : Bool
  realized : Bool

/-- Size of the config space region (`lib/pci.h:47-59` `pci_config_space_size`). -/
def Ctx.cfgSize (c : Ctx) : Nat := ((c.tbl[7]?).map (·.size)).getD 0

/-- The callback of the config space region is set. -/
def Ctx.cfgCb (c : Ctx) : Bool := ((c.tbl[7]?).map (·.hasCb)).getD false

/-- Size and type of region `i`, as `pci_hdr_write_bar` reads them (`lib/pci.c:46-77`). -/
def barOf (tbl : List Region.Reg) (i : Nat) : Nat × Bool :=
  match tbl[i]? with
  | some r => (r.size, decide (r.flags &&& Region.FLAG_MEM ≠ 0))
  | none => (0, false)

/-- The context as the config space emulation sees it. -/
def Ctx.pci (c : Ctx) : Pci.Pci :=
  { mem := c.mem, alloc := c.alloc, size := c.cfgSize, big := c.big, caps := c.caps, exts := c.exts, bar := barOf c.tbl
    expOff := c.expOff }

/-- The context as the request loop sees it. -/
def Ctx.server (c : Ctx) : Server.Cfg :=
  { hasQuiesce := c.hasQuiesce, hasReset := c.hasReset, dma := c.dmaCbs, irq := ⟨c.cnt, c.irqCb⟩, tbl := c.tbl }

/-- The state in which the request loop starts. -/
def Ctx.start (c : Ctx) : Server.St := Server.init c.server c.mig c.dma c.pci

/-- `lib/libvfio-user.c:1880-1961` `vfu_create_ctx`, successful; one ERR and one REQ interrupt. -/
def create : Ctx :=
  { tbl := Region.blankTable, mem := fun _ => 0#8, alloc := 0, big := false, caps := [], exts := [], expOff := none
    cnt := fun i => if i = Irq.ERR ∨ i = Irq.REQ then 1 else 0, irqCb := fun _ => false, hasQuiesce := false
    hasReset := false, dmaCbs := ⟨false, false⟩, dma := none, mig := false, realized := false }

/-- Calls of the API; `alloc…`: the allocations succeed. -/
inductive Call where
  | region (alloc : Bool) (a : Region.Setup)
  | ioeventfd (shadow alloc : Bool) (idx : Nat) (s : Region.Sub)
  | pciInit (alloc : Bool) (type : Nat) (hdrType : Int)
  | setId (vid did ssvid ssid : BitVec 16)
  | setClass (base sub pi : Byte)
  | capability (pos : Nat) (fl : Pci.CapFlags) (data : List Byte)
  /-- the device stores through the pointer of `vfu_pci_get_config_space` -/
  | store (off : Nat) (bytes : List Byte)
  | nrIrqs (type count : Nat)
  | irqStateCb (type : Nat) (isSet : Bool)
  | quiesceCb (isSet : Bool)
  | resetCb (isSet : Bool)
  | dma (alloc : Bool) (reg unreg : Bool)
  /-- `cbs`: the mandatory callbacks are there -/
  | migration (alloc : Bool) (version : Nat) (cbs : Bool)
  | realize (allocCfg allocIrqs : Bool)

/-- `lib/pci.c:455-504` `vfu_pci_init`; `PCI_HEADER_TYPE_NORMAL` is 0. -/
def pciInit (c : Ctx) (alloc : Bool) (type : Nat) (hdrType : Int) : Ctx × Res Nat :=
  if type > 3 then (c, .err EINVAL)
  else if hdrType ≠ 0 then (c, .err EINVAL)
  else if c.alloc ≠ 0 then (c, .err Pci.EEXIST)
  else if alloc = false then (c, .err ENOMEM)
  else
    let size := if type ≥ 2 then 4096 else 256
    match c.tbl[7]? with
    | none => (c, .fault .oob)
    | some r =>
      ({ c with big := decide (type ≥ 2), alloc := size, mem := fun _ => 0#8,
                tbl := c.tbl.set 7 { r with size := size, flags := Region.FLAG_RW } }, .ok 0)

/-- `lib/pci.c:506-514` `vfu_pci_set_id`. -/
def setId (c : Ctx) (vid did ssvid ssid : BitVec 16) : Ctx × Res Nat :=
  if c.alloc < 0x30 then (c, .fault .oob)
  else
    let m := Pci.wrM c.mem 0 (enc 2 vid.toNat ++ enc 2 did.toNat)
    ({ c with mem := Pci.wrM m 0x2c (enc 2 ssvid.toNat ++ enc 2 ssid.toNat) }, .ok 0)

/-- `lib/pci.c:516-522` `vfu_pci_set_class`. -/
def setClass (c : Ctx) (base sub pi : Byte) : Ctx × Res Nat :=
  if c.alloc < 0xc then (c, .fault .oob)
  else ({ c with mem := Pci.wrM c.mem 9 [pi, sub, base] }, .ok 0)

/-- `lib/pci_caps.c:666-799` `vfu_pci_add_capability`: the model of `Verif.Pci` on the view. Without a config space the
placement dereferences NULL; the refusals before it are EINVAL and ENOTSUP only, the one after it is ENOSPC. -/
def capability (c : Ctx) (pos : Nat) (fl : Pci.CapFlags) (data : List Byte) : Ctx × Res Nat :=
  let r := Pci.addCap c.cfgCb c.pci pos fl data
  if c.alloc = 0 ∧ r.2 = .err ENOSPC then (c, .fault .oob)
  else ({ c with mem := r.1.mem, caps := r.1.caps, exts := r.1.exts, expOff := r.1.expOff }, r.2)

/-- A store of the device into the config space. -/
def store (c : Ctx) (off : Nat) (bytes : List Byte) : Ctx × Res Nat :=
  if off + bytes.length > c.alloc then (c, .fault .oob)
  else ({ c with mem := Pci.wrM c.mem off bytes }, .ok 0)

/-- `VFU_REGION_FLAG_64_BITS` and `VFU_REGION_FLAG_PREFETCH` (`include/libvfio-user.h:241-242`). -/
def FLAG_64 : Nat := 16
def FLAG_PREFETCH : Nat := 32

/-- One round of the loop `lib/libvfio-user.c:1727-1744`: the low byte of the BAR; bit 0 is `region_type`, bits 1 and 2 are
`locatable`, bit 3 is `prefetchable` (`include/pci_defs.h:70-86`). -/
def barByte (flags : Nat) (b : Byte) : Byte :=
  let b := if flags &&& Region.FLAG_MEM = 0 then b ||| 1#8 else b
  let b := if flags &&& FLAG_64 ≠ 0 then (b &&& 0xf9#8) ||| 4#8 else b
  if flags &&& FLAG_PREFETCH ≠ 0 then b ||| 8#8 else b

/-- The loop `lib/libvfio-user.c:1727-1744`, with `n` rounds left. -/
def barLoop (tbl : List Region.Reg) : Nat → Nat → Pci.Mem → Pci.Mem
  | 0, _, m => m
  | n + 1, i, m =>
    barLoop tbl n (i + 1)
      (Pci.wrM m (0x10 + 4 * i) [barByte (((tbl[i]?).map (·.flags)).getD 0) (m (0x10 + 4 * i))])

/-- `lib/libvfio-user.c:1710-1716`: the default config region. -/
def withRegion (c : Ctx) : Ctx :=
  match c.tbl[7]? with
  | none => c
  | some r => if r.size = 0 then { c with tbl := c.tbl.set 7 { r with flags := Region.FLAG_RW, size := 256 } } else c

/-- `lib/libvfio-user.c:1718-1724`: the config space, if there is none. -/
def withSpace (c : Ctx) : Ctx := if c.alloc = 0 then { c with alloc := c.cfgSize, mem := fun _ => 0#8 } else c

/-- `lib/libvfio-user.c:1772-1775`: the interrupt pin. -/
def setPin (c : Ctx) (m : Pci.Mem) : Pci.Mem := if c.cnt Irq.INTX ≠ 0 then Pci.wrM m 0x3d [1#8] else m

/-- `lib/libvfio-user.c:1778-1780`: bit 4 of the status register. -/
def setCl (c : Ctx) (m : Pci.Mem) : Pci.Mem := if c.caps ≠ [] then Pci.wrM m 6 [m 6 ||| 0x10#8] else m

/-- `lib/libvfio-user.c:1699-1786` `vfu_realize_ctx`. The write to the BARs is taken to need their room even when no bit is
to be set. -/
def realize (c : Ctx) (allocCfg allocIrqs : Bool) : Ctx × Res Nat :=
  if c.realized then (c, .ok 0)
  else
    let d := withRegion c
    if d.alloc = 0 ∧ allocCfg = false then (d, .err ENOMEM)
    else
      let e := withSpace d
      if e.alloc < 0x28 then (e, .fault .oob)
      else
        let m := barLoop e.tbl 6 0 e.mem
        if allocIrqs = false then ({ e with mem := m }, .err ENOMEM)
        else if e.cnt Irq.INTX ≠ 0 ∧ e.alloc < 0x3e then ({ e with mem := m }, .fault .oob)
        else ({ e with mem := setCl e (setPin e m), realized := true }, .ok 0)

/-- `MAX_DMA_REGIONS`, `MAX_DMA_SIZE` (`lib/private.h:48-53`). -/
def dmaLimits : Nat × Nat := (64, 8 * 2 ^ 40)

/-- The calls. Lines in `lib/libvfio-user.c`: `vfu_setup_device_reset_cb` 2108-2114, `vfu_setup_device_quiesce_cb` 2116-2121,
`vfu_setup_device_dma` 2123-2142, `vfu_setup_device_nr_irqs` 2144-2160, `vfu_setup_irq_state_callback` 2162-2178,
`vfu_setup_device_migration_callbacks` 2180-2203 with `init_migration` (`lib/migration.c:142-174`). A failed creation of the
DMA controller or of the migration state leaves NULL in its place. -/
def step (c : Ctx) : Call → Ctx × Res Nat
  | .region alloc a =>
    match Region.setup alloc c.tbl a with
    | (t, .ok ()) => ({ c with tbl := t }, .ok 0)
    | (t, .err e) => ({ c with tbl := t }, .err e)
    | (_, .fault f) => (c, .fault f)
  | .ioeventfd shadow alloc idx s =>
    match Region.createIoeventfd shadow alloc c.tbl idx s with
    | (t, .ok ()) => ({ c with tbl := t }, .ok 0)
    | (t, .err e) => ({ c with tbl := t }, .err e)
    | (_, .fault f) => (c, .fault f)
  | .pciInit alloc type h => pciInit c alloc type h
  | .setId v d sv sd => setId c v d sv sd
  | .setClass b s p => setClass c b s p
  | .capability pos fl data => capability c pos fl data
  | .store off bytes => store c off bytes
  | .nrIrqs t n => if t ≥ Irq.NUM_IRQS then (c, .err EINVAL) else ({ c with cnt := fun i => if i = t then n else c.cnt i }, .ok 0)
  | .irqStateCb t b => if t ≥ Irq.NUM_IRQS then (c, .err EINVAL) else ({ c with irqCb := fun i => if i = t then b else c.irqCb i }, .ok 0)
  | .quiesceCb b => ({ c with hasQuiesce := b }, .ok 0)
  | .resetCb b => ({ c with hasReset := b }, .ok 0)
  | .dma alloc reg unreg =>
    if alloc = false then ({ c with dma := none }, .err ENOMEM)
    else ({ c with dma := some dmaLimits, dmaCbs := ⟨reg, unreg⟩ }, .ok 0)
  | .migration alloc v cbs =>
    if v ≠ 2 then (c, .err EINVAL)
    else if alloc = false then ({ c with mig := false }, .err ENOMEM)
    else if cbs = false then ({ c with mig := false }, .err EINVAL)
    else ({ c with mig := true }, .ok 0)
  | .realize a b => realize c a b

/-- A sequence of calls and their results; a fault ends it. -/
def run (c : Ctx) : List Call → Ctx × List (Res Nat)
  | [] => (c, [])
  | k :: ks =>
    let (c', r) := step c k
    if r.isFault then (c', [r])
    else
      let (c'', rs) := run c' ks
      (c'', r :: rs)

end Verif.Setup
