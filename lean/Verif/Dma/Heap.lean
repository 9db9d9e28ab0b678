import Verif.Dma.Sys

/-!
# The memory of the dirty bitmaps

In `Dma/Model.lean` a region holds its bitmap.  In the code it holds a pointer (`lib/dma.h:95-100`), and the bitmap is a block of
the heap that somebody has to free, once.  Here are the functions of `lib/dma.c` that move those pointers, on a heap where the use
of a block that is not allocated, and a `free` of it, are faults.
-/

namespace Verif.Dma
open Verif

/-- The blocks in use; each `calloc` returns a new name.  `allocs`, `frees`: how many blocks were allocated and freed. -/
structure Heap where
  blocks : Nat → Option (List Byte)
  next : Nat
  allocs : Nat
  frees : Nat

def Heap.empty : Heap := { blocks := fun _ => none, next := 0, allocs := 0, frees := 0 }

/-- A successful `calloc`. -/
def Heap.alloc (h : Heap) (b : List Byte) : Heap :=
  { blocks := fun q => if q = h.next then some b else h.blocks q, next := h.next + 1, allocs := h.allocs + 1,
    frees := h.frees }

/-- `free`; a block that is not allocated (freed before) is a fault. -/
def Heap.free (h : Heap) : Option Nat → Res Heap
  | none => .ok h
  | some p =>
    match h.blocks p with
    | none => .fault .oob
    | some _ => .ok { h with blocks := fun q => if q = p then none else h.blocks q, frees := h.frees + 1 }

/-- Writing a block. -/
def Heap.store (h : Heap) (p : Nat) (b : List Byte) : Heap :=
  { h with blocks := fun q => if q = p then some b else h.blocks q }

/-- `lib/dma.h:95-100` `dma_memory_region_t` with its pointer. -/
structure PRegion where
  info : Info
  fd : Option Fd
  offset : Nat
  bitmap : Option Nat

/-- Everything but the bitmap. -/
def PRegion.bare (r : PRegion) : Region := { info := r.info, fd := r.fd, offset := r.offset, dirty := none }

/-- The region as the code sees it when it follows the pointer. -/
def PRegion.view (h : Heap) (r : PRegion) : Region :=
  { info := r.info, fd := r.fd, offset := r.offset, dirty := r.bitmap.bind h.blocks }

def PRegion.cleared (r : PRegion) : PRegion := { r with bitmap := none }

/-- `lib/dma.h:102-109` `dma_controller_t`. -/
structure PCtl where
  maxRegions : Nat
  maxSize : Nat
  dirtyPgsize : Nat
  regions : List PRegion

def PCtl.bare (c : PCtl) : Ctl :=
  { maxRegions := c.maxRegions, maxSize := c.maxSize, dirtyPgsize := c.dirtyPgsize, regions := c.regions.map PRegion.bare }

def PCtl.view (h : Heap) (c : PCtl) : Ctl :=
  { maxRegions := c.maxRegions, maxSize := c.maxSize, dirtyPgsize := c.dirtyPgsize, regions := c.regions.map (PRegion.view h) }

/-- `lib/dma.c:83-103` `dma_controller_create`. -/
def pcreate (maxRegions maxSize : Nat) : PCtl := { maxRegions, maxSize, dirtyPgsize := 0, regions := [] }

/-! ## Removing regions -/

/-- `lib/dma.c:157-178`: the bitmap of the removed region is not freed, `array_remove` overwrites the pointer to it. -/
def premoveLoop (hasUnreg : Bool) (addr size : Nat) : List PRegion → Res (List PRegion × List Ev)
  | [] => .err ENOENT
  | r :: rs =>
    if r.info.base ≠ addr ∨ r.info.len ≠ size then
      match premoveLoop hasUnreg addr size rs with
      | .ok (rs', ev) => .ok (r :: rs', ev)
      | .err e => .err e
      | .fault f => .fault f
    else
      match dropRegion hasUnreg r.bare with
      | .ok ev => .ok (rs, ev)
      | .err e => .err e
      | .fault f => .fault f

/-- `lib/dma.c:145-180` `dma_controller_remove_region`. -/
def premove (c : PCtl) (hasUnreg : Bool) (addr size : Nat) : Res (PCtl × List Ev) :=
  match premoveLoop hasUnreg addr size c.regions with
  | .ok (rs, ev) => .ok ({ c with regions := rs }, ev)
  | .err e => .err e
  | .fault f => .fault f

/-- `lib/dma.c:182-215` `dma_controller_remove_all_regions`: line 213 overwrites the pointers, no bitmap is freed. -/
def premoveAll (c : PCtl) (hasUnreg : Bool) : Res (PCtl × List Ev) :=
  match dropAll hasUnreg (c.regions.map PRegion.bare) with
  | .ok ev => .ok ({ c with regions := [] }, ev)
  | .err e => .err e
  | .fault f => .fault f

/-! ## Bitmaps come and go -/

/-- `lib/dma.c:258-273` `dirty_page_logging_start_on_region`. -/
def pstartOn (calloc : Bool) (h : Heap) (r : PRegion) (pgsize : Nat) : Res (Heap × PRegion) :=
  match r.fd with
  | none => .fault .assertFail
  | some _ =>
    match getBitmapSize r.info.len pgsize with
    | .ok n =>
      if calloc then .ok (h.alloc (List.replicate n 0#8), { r with bitmap := some h.next }) else .err ENOMEM
    | .err e => .err e
    | .fault f => .fault f

/-- The loop `lib/dma.c:470-488`: the table as far as it got, and where and how it failed. -/
def pstartLoop (ca : Nat → Bool) (pgsize : Nat) : Nat → Heap → List PRegion → Heap × List PRegion × Option (Nat × Res Unit)
  | _, h, [] => (h, [], none)
  | i, h, r :: rs =>
    match r.fd with
    | none =>
      let x := pstartLoop ca pgsize (i + 1) h rs
      (x.1, r :: x.2.1, x.2.2)
    | some _ =>
      match pstartOn (ca i) h r pgsize with
      | .ok (h', r') =>
        let x := pstartLoop ca pgsize (i + 1) h' rs
        (x.1, r' :: x.2.1, x.2.2)
      | .err e => (h, r.cleared :: rs, some (i, .err e))
      | .fault f => (h, r :: rs, some (i, .fault f))

/-- `free(region->dirty_bitmap); region->dirty_bitmap = NULL` for the first `n` regions (`lib/dma.c:481-485`,
`lib/dma.c:507-510`). -/
def pclear : Nat → Heap → List PRegion → Res (Heap × List PRegion)
  | 0, h, rs => .ok (h, rs)
  | _ + 1, h, [] => .ok (h, [])
  | n + 1, h, r :: rs =>
    match h.free r.bitmap with
    | .err e => .err e
    | .fault f => .fault f
    | .ok h1 =>
      match pclear n h1 rs with
      | .ok (h2, rs') => .ok (h2, r.cleared :: rs')
      | .err e => .err e
      | .fault f => .fault f

/-- `lib/dma.c:452-494` `dma_controller_dirty_page_logging_start`. -/
def pstart (ca : Nat → Bool) (h : Heap) (c : PCtl) (pgsize : Nat) : Heap × PCtl × Res Unit :=
  if pgsize = 0 then (h, c, .err EINVAL)
  else if c.dirtyPgsize > 0 then
    if c.dirtyPgsize ≠ pgsize then (h, c, .err EINVAL) else (h, c, .ok ())
  else
    let x := pstartLoop ca pgsize 0 h c.regions
    match x.2.2 with
    | none => (x.1, { c with regions := x.2.1, dirtyPgsize := pgsize }, .ok ())
    | some (n, .err e) =>
      match pclear n x.1 x.2.1 with
      | .ok (h', rs) => (h', { c with regions := rs }, .err e)
      | .err e' => (h, c, .err e')
      | .fault f => (h, c, .fault f)
    | some (_, .ok ()) => (h, c, .fault .assertFail)
    | some (_, .fault f) => (h, c, .fault f)

/-- `lib/dma.c:496-514` `dma_controller_dirty_page_logging_stop`. -/
def pstop (h : Heap) (c : PCtl) : Heap × PCtl × Res Unit :=
  if c.dirtyPgsize = 0 then (h, c, .ok ())
  else
    match pclear c.regions.length h c.regions with
    | .ok (h', rs) => (h', { c with regions := rs, dirtyPgsize := 0 }, .ok ())
    | .err e => (h, c, .err e)
    | .fault f => (h, c, .fault f)

/-! ## Adding a region -/

/-- `lib/dma.c:224-256` `dma_map_region`. -/
def pmap (os : OS) (r : PRegion) : Except Nat PRegion :=
  match mapRegion os r.bare with
  | .error e => .error e
  | .ok a => .ok { r with info := a.info }

/-- `lib/dma.c:275-397` `dma_controller_add_region`; a failed `mmap` frees the new bitmap (line 390). -/
def padd (os : OS) (h : Heap) (c : PCtl) (addr size : Nat) (fd : Option Fd) (offset : Nat) (prot : Prot) :
    Heap × PCtl × Res Nat × List Ev :=
  if size > c.maxSize then (h, c, .err ENOSPC, [])
  else
    match scan os addr size fd offset prot 0 (c.regions.map PRegion.bare) with
    | .bad e => (h, c, .err e, [])
    | .same idx => (h, c, .ok idx, [])
    | .fresh =>
      if c.regions.length = c.maxRegions then (h, c, .err EINVAL, [])
      else
        match pageSizeFor os fd with
        | .err e => (h, c, .err e, [])
        | .fault f => (h, c, .fault f, [])
        | .ok ps =>
          let r0 : PRegion :=
            { info := { base := addr, len := size, vaddr := 0, mapBase := 0, mapLen := 0, pageSize := ps, prot }
              fd, offset, bitmap := none }
          match fd with
          | none => (h, { c with regions := c.regions ++ [r0] }, .ok c.regions.length, [])
          | some x =>
            match (if c.dirtyPgsize ≠ 0 then pstartOn os.calloc h r0 c.dirtyPgsize else .ok (h, r0)) with
            | .err e => (h, c, .err e, [])
            | .fault f => (h, c, .fault f, [])
            | .ok (h1, r1) =>
              match pmap os r1 with
              | .error e =>
                match h1.free r1.bitmap with
                | .ok h2 => (h2, c, .err e, [.close x])
                | .err e' => (h1, c, .err e', [])
                | .fault f => (h1, c, .fault f, [])
              | .ok r2 =>
                (h1, { c with regions := c.regions ++ [r2] }, .ok c.regions.length,
                 [.mmap r2.info.mapBase r2.info.mapLen])

/-- `lib/libvfio-user.c:702-742`, `handle_dma_map` after the size checks. -/
def pmapReq (os : OS) (hasReg : Bool) (h : Heap) (c : PCtl) (q : MapReq) : Heap × PCtl × Reply × List Ev :=
  if q.flags % U32 / 4 ≠ 0 then (h, c, .map (.err EINVAL) (q.fds.map some), [])
  else
    match takeFirst q.fds with
    | .err e => (h, c, .map (.err e) (q.fds.map some), [])
    | .fault f => (h, c, .map (.fault f) (q.fds.map some), [])
    | .ok (fd, fds) =>
      let x := padd os h c q.addr q.size fd q.offset { read := q.flags.testBit 0, write := q.flags.testBit 1 }
      match x.2.2.1 with
      | .err e => (x.1, x.2.1, .map (.err e) fds, x.2.2.2 ++ closeEv fd)
      | .fault f => (x.1, x.2.1, .map (.fault f) fds, x.2.2.2)
      | .ok idx =>
        match x.2.1.regions[idx]? with
        | none => (x.1, x.2.1, .map (.fault .oob) fds, x.2.2.2)
        | some r => (x.1, x.2.1, .map (.ok ()) fds, x.2.2.2 ++ (if hasReg then [.register r.info] else []))

/-! ## Reading and writing bitmaps -/

/-- `lib/dma.h:309-342` `dma_sgl_mark_dirty`, `lib/dma.h:344-377` `dma_sgl_put`: the loop of `_dma_mark_dirty`
(`lib/dma.h:188-202`) writes the block the region points to. -/
def pmark (c : PCtl) : Heap → List Sg → Res Heap
  | h, [] => .ok h
  | h, sg :: sgl =>
    match c.regions[sg.region]? with
    | none => .ok h
    | some r =>
      if sg.writeable = true ∧ c.dirtyPgsize > 0 then
        match r.bitmap with
        | none => .fault .assertFail
        | some p =>
          match h.blocks p with
          | none => .fault .oob
          | some bm =>
            let pgs := pgStart sg.offset c.dirtyPgsize
            let pge := pgEnd sg.offset sg.length c.dirtyPgsize
            match markLoop pgs pge (markEnd pge - markIndex pgs) (markIndex pgs) bm with
            | .ok bm' => pmark c (h.store p bm') sgl
            | .err e => .err e
            | .fault f => .fault f
      else pmark c h sgl

/-- `lib/dma.c:678-779` `dma_controller_dirty_page_get`. -/
def pget (h : Heap) (c : PCtl) (hint addr len clientPg size : Nat) (out : List Byte) : Heap × GetOut :=
  match (addrToSgl c.bare hint addr len 1 false).1 with
  | .err e => (h, .err e)
  | .fault f => (h, .fault f)
  | .more _ => (h, .noErrno)
  | .ok [sg] =>
    if sg.dmaAddr ≠ addr ∨ sg.length ≠ len then (h, .err ENOTSUP)
    else if c.dirtyPgsize = 0 then (h, .err EINVAL)
    else if badClientPg clientPg = true then (h, .err EINVAL)
    else
      match getBitmapSize len c.dirtyPgsize with
      | .err e => (h, .err e)
      | .fault f => (h, .fault f)
      | .ok serverSize =>
        match getBitmapSize len clientPg with
        | .err e => (h, .err e)
        | .fault f => (h, .fault f)
        | .ok clientSize =>
          if size ≠ clientSize then (h, .err EINVAL)
          else
            match c.regions[sg.region]? with
            | none => (h, .fault .oob)
            | some r =>
              match r.fd, r.bitmap with
              | none, _ => (h, .err EINVAL)
              | some _, none => (h, .fault .oob)
              | some _, some p =>
                match h.blocks p with
                | none => (h, .fault .oob)
                | some srv =>
                  match getBits c.dirtyPgsize clientPg serverSize clientSize srv out with
                  | .ok (srv', out') => (h.store p srv', .done out')
                  | .err e => (h, .err e)
                  | .fault f => (h, .fault f)
  | .ok _ => (h, .ret0)

/-! ## Histories -/

/-- `lib/libvfio-user.c:854-869`. -/
def punmapTail (hasUnreg : Bool) (c : PCtl) (addr size : Nat) (bitmap : Option (List Byte)) : PCtl × UnmapOut × List Ev :=
  match premove c hasUnreg addr size with
  | .ok (c', ev) => (c', .ok bitmap, ev)
  | .err e => (c, .err e, [])
  | .fault f => (c, .fault f, [])

/-- `lib/libvfio-user.c:822-870`: `handle_dma_unmap` after `is_valid_unmap`. -/
def punmap (mallocOk hasUnreg : Bool) (h : Heap) (c : PCtl) (addr size : Nat) (k : UnmapKind) :
    Heap × PCtl × UnmapOut × List Ev :=
  if mallocOk = false then (h, c, .err ENOMEM, [])
  else
    match k with
    | .all =>
      match premoveAll c hasUnreg with
      | .ok (c', ev) => (h, c', .ok none, ev)
      | .err e => (h, c, .err e, [])
      | .fault f => (h, c, .fault f, [])
    | .plain => (h, punmapTail hasUnreg c addr size none)
    | .getDirty pgsize bsize buf hint =>
      match pget h c hint addr size pgsize bsize buf with
      | (h', .done bm) => (h', punmapTail hasUnreg c addr size (some bm))
      | (h', .ret0) => (h', punmapTail hasUnreg c addr size (some buf))
      | (h', .noErrno) => (h', c, .okEmpty, [])
      | (h', .err e) => (h', c, .err e, [])
      | (h', .fault f) => (h', c, .fault f, [])

/-- One client request or device call, as `Dma.step`. -/
def pstep (cfg : Cfg) (h : Heap) (c : PCtl) : Op → Heap × PCtl × Reply × List Ev
  | .map os q => pmapReq os cfg.hasReg h c q
  | .unmap m addr size k =>
    let x := punmap m cfg.hasUnreg h c addr size k
    (x.1, x.2.1, .unmap x.2.2.1, x.2.2.2)
  | .logStart ca pgsize =>
    let x := pstart ca h c pgsize
    (x.1, x.2.1, .log x.2.2, [])
  | .logStop =>
    let x := pstop h c
    (x.1, x.2.1, .log x.2.2, [])
  | .query hint addr len pgsize size buf =>
    let x := pget h c hint addr len pgsize size buf
    (x.1, c, .query x.2, [])
  | .mark sgl =>
    match pmark c h sgl with
    | .ok h' => (h', c, .mark (.ok ()), [])
    | .err e => (h, c, .mark (.err e), [])
    | .fault f => (h, c, .mark (.fault f), [])

/-- A history: heap, table, replies and events. -/
def prun (cfg : Cfg) : Heap → PCtl → List Op → Heap × PCtl × List (Reply × List Ev)
  | h, c, [] => (h, c, [])
  | h, c, op :: ops =>
    let x := pstep cfg h c op
    let y := prun cfg x.1 x.2.1 ops
    (y.1, y.2.1, (x.2.2.1, x.2.2.2) :: y.2.2)

end Verif.Dma
