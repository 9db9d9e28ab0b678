import Verif.Dma.Dirty

/-!
# The DMA controller as a state machine

Client requests (map, unmap, logging control, bitmap query) and device calls (mark dirty) in any
order.  The request layer is `lib/libvfio-user.c:675-870` after the size checks of the message.
-/

namespace Verif.Dma
open Verif

/-- Flag values of `VFIO_USER_DMA_UNMAP` that pass `is_valid_unmap` (`lib/libvfio-user.c:756-785`). -/
inductive UnmapKind where
  | plain
  /-- `VFIO_DMA_UNMAP_FLAG_GET_DIRTY_BITMAP` with the client's page size and bitmap size; `buf` is the
  content of the freshly `malloc`ed reply buffer, `hint` the thread's region hint. -/
  | getDirty (pgsize bsize : Nat) (buf : List Byte) (hint : Nat)
  | all
  deriving DecidableEq, Repr

inductive UnmapOut where
  /-- reply with the echoed request and, for `getDirty`, the bitmap -/
  | ok (bitmap : Option (List Byte))
  /-- the handler returns `-1` with `errno` 0: the client is told "success" with an empty body -/
  | okEmpty
  | err (errno : Nat)
  | fault (f : Fault)
  deriving DecidableEq, Repr

/-- `lib/libvfio-user.c:854-869`: the removal at the end of `handle_dma_unmap`. -/
def unmapTail (hasUnreg : Bool) (c : Ctl) (addr size : Nat) (bitmap : Option (List Byte)) :
    Ctl × UnmapOut × List Ev :=
  match removeRegion c hasUnreg addr size with
  | .ok (c', ev) => (c', .ok bitmap, ev)
  | .err e => (c, .err e, [])
  | .fault f => (c, .fault f, [])

/-- `lib/libvfio-user.c:822-870`: `handle_dma_unmap` after `is_valid_unmap`. -/
def handleUnmap (mallocOk hasUnreg : Bool) (c : Ctl) (addr size : Nat) (k : UnmapKind) :
    Ctl × UnmapOut × List Ev :=
  if mallocOk = false then (c, .err ENOMEM, [])
  else
    match k with
    | .all =>
      match removeAll c hasUnreg with
      | .ok (c', ev) => (c', .ok none, ev)
      | .err e => (c, .err e, [])
      | .fault f => (c, .fault f, [])
    | .plain => unmapTail hasUnreg c addr size none
    | .getDirty pgsize bsize buf hint =>
      match dirtyPageGet c hint addr size pgsize bsize buf with
      | (c', .done bm) => unmapTail hasUnreg c' addr size (some bm)
      | (c', .ret0) => unmapTail hasUnreg c' addr size (some buf)
      | (c', .noErrno) => (c', .okEmpty, [])
      | (c', .err e) => (c', .err e, [])
      | (c', .fault f) => (c', .fault f, [])

/-- One client request or device call. -/
inductive Op where
  | map (os : OS) (q : MapReq)
  | unmap (mallocOk : Bool) (addr size : Nat) (k : UnmapKind)
  | logStart (ca : Nat → Bool) (pgsize : Nat)
  | logStop
  | query (hint addr len pgsize size : Nat) (buf : List Byte)
  | mark (sgl : List Sg)

inductive Reply where
  | map (r : Res Unit) (fdsLeft : List (Option Fd))
  | unmap (r : UnmapOut)
  | log (r : Res Unit)
  | query (r : GetOut)
  | mark (r : Res Unit)

/-- Device configuration: which DMA callbacks are set. -/
structure Cfg where
  hasReg : Bool
  hasUnreg : Bool

/-- One step.  After a fault the process is gone; the state is then irrelevant and left as it was. -/
def step (cfg : Cfg) (c : Ctl) : Op → Ctl × Reply × List Ev
  | .map os q =>
    let o := handleMap os cfg.hasReg c q
    (o.ctl, .map o.res o.fds, o.evs)
  | .unmap m addr size k =>
    let (c', r, ev) := handleUnmap m cfg.hasUnreg c addr size k
    (c', .unmap r, ev)
  | .logStart ca pgsize =>
    let (c', r) := loggingStart ca c pgsize
    (c', .log r, [])
  | .logStop => (loggingStop c, .log (.ok ()), [])
  | .query hint addr len pgsize size buf =>
    let (c', r) := dirtyPageGet c hint addr len pgsize size buf
    (c', .query r, [])
  | .mark sgl =>
    match sglMark c sgl with
    | .ok c' => (c', .mark (.ok ()), [])
    | .err e => (c, .mark (.err e), [])
    | .fault f => (c, .mark (.fault f), [])

/-- A run: final table and the concatenated event trace. -/
def run (cfg : Cfg) : Ctl → List Op → Ctl × List Ev
  | c, [] => (c, [])
  | c, op :: ops =>
    let (c1, _, ev) := step cfg c op
    let (c2, evs) := run cfg c1 ops
    (c2, ev ++ evs)

end Verif.Dma
