import Verif.Dma.Model

/-!
# Model of dirty page logging (`lib/dma.c`, `lib/dma.h`)

Bitmaps are lists of bytes.  An access outside a bitmap is `fault oob`, a loop that never ends is
`fault diverge`.  The individual byte operations are atomic in the code; here a call runs without
interference, the interleaved version is in `Conc.lean`.
-/

namespace Verif.Dma
open Verif

/-! ## Marking -/

/-- `lib/dma.h:144-151` `range_to_pages`, first page. -/
def pgStart (start pgsize : Nat) : Nat := start / pgsize
/-- `lib/dma.h:144-151` `range_to_pages`, one past the last page. -/
def pgEnd (start len pgsize : Nat) : Nat := roundUp (add64 start len) pgsize / pgsize

/-- `lib/dma.h:185` first byte of the loop in `_dma_mark_dirty`. -/
def markIndex (pgs : Nat) : Nat := pgs / 8
/-- `lib/dma.h:186` one past the last byte of the loop in `_dma_mark_dirty`. -/
def markEnd (pge : Nat) : Nat := pge / 8 + (if pge % 8 ≠ 0 then 1 else 0)

/-- `lib/dma.h:189-199` the mask that is OR-ed into byte `i`. -/
def markMask (pgs pge i : Nat) : Byte :=
  let bm : Byte := 0xff#8
  let bm := if i = markIndex pgs ∧ pgs % 8 ≠ 0 then bm &&& ~~~((1#8 <<< (pgs % 8)) - 1#8) else bm
  if i = markEnd pge - 1 ∧ pge % 8 ≠ 0 then bm &&& ((1#8 <<< (pge % 8)) - 1#8) else bm

/-- `lib/dma.h:188-202` the loop of `_dma_mark_dirty` from byte `i`, `n` bytes to go. -/
def markLoop (pgs pge : Nat) : Nat → Nat → List Byte → Res (List Byte)
  | 0, _, bm => .ok bm
  | n + 1, i, bm =>
    match bm[i]? with
    | none => .fault .oob
    | some b => markLoop pgs pge n (i + 1) (bm.set i (b ||| markMask pgs pge i))

/-- `lib/dma.h:167-203` `_dma_mark_dirty`, acting on the region's bitmap. -/
def markDirty (pgsize : Nat) (r : Region) (sg : Sg) : Res Region :=
  match r.dirty with
  | none => .fault .assertFail
  | some bm =>
    let pgs := pgStart sg.offset pgsize
    let pge := pgEnd sg.offset sg.length pgsize
    match markLoop pgs pge (markEnd pge - markIndex pgs) (markIndex pgs) bm with
    | .ok bm' => .ok { r with dirty := some bm' }
    | .err e => .err e
    | .fault f => .fault f

/-- The body shared by `dma_sgl_mark_dirty` (`lib/dma.h:309-342`) and `dma_sgl_put`
(`lib/dma.h:344-377`): entries are processed in order, the first one with a bad region index ends
the call. -/
def sglMark (c : Ctl) : List Sg → Res Ctl
  | [] => .ok c
  | sg :: sgl =>
    match c.regions[sg.region]? with
    | none => .ok c
    | some r =>
      if sg.writeable = true ∧ c.dirtyPgsize > 0 then
        match markDirty c.dirtyPgsize r sg with
        | .ok r' => sglMark { c with regions := c.regions.set sg.region r' } sgl
        | .err e => .err e
        | .fault f => .fault f
      else sglMark c sgl

/-! ## Starting and stopping -/

/-- The loop `lib/dma.c:470-488`; `ca i` says whether the `calloc` for region `i` succeeds.  On failure
the bitmaps made so far are freed (lines 481-485) and the table is as before the call except that
regions before the failing one have no bitmap. -/
def startLoop (ca : Nat → Bool) (pgsize : Nat) : Nat → List Region → Res (List Region)
  | _, [] => .ok []
  | i, r :: rs =>
    match r.fd with
    | none =>
      match startLoop ca pgsize (i + 1) rs with
      | .ok rs' => .ok (r :: rs')
      | .err e => .err e
      | .fault f => .fault f
    | some _ =>
      match startOnRegion (ca i) r pgsize with
      | .ok r' =>
        match startLoop ca pgsize (i + 1) rs with
        | .ok rs' => .ok (r' :: rs')
        | .err e => .err e
        | .fault f => .fault f
      | .err e => .err e
      | .fault f => .fault f

/-- Number of regions whose bitmap the failing call has set up before it failed (`i` at line 477). -/
def startFailAt (ca : Nat → Bool) (pgsize : Nat) : Nat → List Region → Nat
  | i, [] => i
  | i, r :: rs =>
    match r.fd with
    | none => startFailAt ca pgsize (i + 1) rs
    | some _ =>
      match startOnRegion (ca i) r pgsize with
      | .ok _ => startFailAt ca pgsize (i + 1) rs
      | _ => i

/-- `free(region->dirty_bitmap); region->dirty_bitmap = NULL` for the first `n` regions. -/
def clearBitmaps (n : Nat) (rs : List Region) : List Region :=
  (rs.take n).map (fun r => { r with dirty := none }) ++ rs.drop n

/-- `lib/dma.c:452-494` `dma_controller_dirty_page_logging_start`. -/
def loggingStart (ca : Nat → Bool) (c : Ctl) (pgsize : Nat) : Ctl × Res Unit :=
  if pgsize = 0 then (c, .err EINVAL)
  else if c.dirtyPgsize > 0 then
    if c.dirtyPgsize ≠ pgsize then (c, .err EINVAL) else (c, .ok ())
  else
    match startLoop ca pgsize 0 c.regions with
    | .ok rs => ({ c with regions := rs, dirtyPgsize := pgsize }, .ok ())
    | .err e => ({ c with regions := clearBitmaps (startFailAt ca pgsize 0 c.regions) c.regions },
                 .err e)
    | .fault f => (c, .fault f)

/-- `lib/dma.c:496-514` `dma_controller_dirty_page_logging_stop`. -/
def loggingStop (c : Ctl) : Ctl :=
  if c.dirtyPgsize = 0 then c
  else { c with regions := c.regions.map (fun r => { r with dirty := none }), dirtyPgsize := 0 }

/-! ## Reading and clearing -/

/-- `lib/dma.c:534-553` `dirty_page_exchange` without interference: value read, value left. -/
def exchange (b : Byte) : Byte × Byte := if b = 0#8 then (0#8, b) else (b, 0#8)

/-- `lib/dma.c:555-562` `dirty_page_get_same_pgsize` from byte `i`, `n` to go: region bitmap and
client bitmap. -/
def getSame : Nat → Nat → List Byte → List Byte → Res (List Byte × List Byte)
  | 0, _, srv, out => .ok (srv, out)
  | n + 1, i, srv, out =>
    match srv[i]?, out[i]? with
    | some b, some _ => getSame n (i + 1) (srv.set i (exchange b).2) (out.set i (exchange b).1)
    | _, _ => .fault .oob

/-- `*p |= bit << (idx % 8)` at byte `idx / 8` (`lib/dma.c:611-612`, `lib/dma.c:659-660`). -/
def orBit (out : List Byte) (idx : Nat) (bit : Byte) : Res (List Byte) :=
  match out[idx / 8]? with
  | none => .fault .oob
  | some b => .ok (out.set (idx / 8) (b ||| (bit <<< (idx % 8))))

/-- `(out >> server_bit_idx) & 1` (`lib/dma.c:598`, `lib/dma.c:653`). -/
def serverBit (out : Byte) (j : Nat) : Byte := (out >>> j) &&& 1#8

/-- The innermost loop `lib/dma.c:607-613`: `client_bit_idx` is a `uint8_t`.  When the loop does not
end by itself after `factor` rounds its counter has wrapped and it never ends: `diverge`.  All byte
indices it will ever touch have then been touched, so out-of-bounds writes are found first. -/
def extendBits (end_ : Nat) (bit : Byte) : Nat → Nat → List Byte → Res (Nat × List Byte)
  | fuel, cb, out =>
    if cb < end_ then
      match fuel with
      | 0 => .fault .diverge
      | fuel + 1 =>
        match orBit out cb bit with
        | .ok out' => extendBits end_ bit fuel ((cb + 1) % 256) out'
        | .err e => .err e
        | .fault f => .fault f
    else .ok (cb, out)

/-- The loop `lib/dma.c:597-614` over the bits of one server byte, from bit `j`, `n` to go. -/
def extendByte (factor : Nat) (v : Byte) : Nat → Nat → Nat → List Byte → Res (Nat × List Byte)
  | 0, _, cb, out => .ok (cb, out)
  | n + 1, j, cb, out =>
    match extendBits (cb + factor) (serverBit v j) (factor + 1) cb out with
    | .ok (cb', out') => extendByte factor v n (j + 1) cb' out'
    | .err e => .err e
    | .fault f => .fault f

/-- The loop `lib/dma.c:582-615` over the server bytes, from byte `i`, `n` to go. -/
def extendLoop (factor clientSize : Nat) :
    Nat → Nat → Nat → List Byte → List Byte → Res (List Byte × List Byte)
  | 0, _, _, srv, out => .ok (srv, out)
  | n + 1, i, cb, srv, out =>
    if cb / 8 ≥ clientSize then .ok (srv, out)
    else match srv[i]? with
      | none => .fault .oob
      | some b =>
        match extendByte factor (exchange b).1 8 0 cb out with
        | .ok (cb', out') => extendLoop factor clientSize n (i + 1) cb' (srv.set i (exchange b).2) out'
        | .err e => .err e
        | .fault f => .fault f

/-- `lib/dma.c:564-616` `dirty_page_get_extend`. -/
def getExtend (serverSize serverPg clientSize clientPg : Nat) (srv out : List Byte) :
    Res (List Byte × List Byte) :=
  extendLoop (serverPg / clientPg) clientSize serverSize 0 0 srv out

/-- The loop `lib/dma.c:652-674` over the bits of server byte `i`, from bit `j`, `n` to go.  The flag
says that the function returns from line 671. -/
def combineByte (factor clientSize i : Nat) (v : Byte) :
    Nat → Nat → Nat → List Byte → Res (Nat × List Byte × Bool)
  | 0, _, cb, out => .ok (cb, out, false)
  | n + 1, j, cb, out =>
    match orBit out cb (serverBit v j) with
    | .ok out' =>
      if (i * 8 + j) % factor = factor - 1 then
        let cb' := (cb + 1) % 256
        if cb' / 8 ≥ clientSize then .ok (cb', out', true)
        else combineByte factor clientSize i v n (j + 1) cb' out'
      else combineByte factor clientSize i v n (j + 1) cb out'
    | .err e => .err e
    | .fault f => .fault f

/-- The loop `lib/dma.c:637-675` over the server bytes, from byte `i`, `n` to go. -/
def combineLoop (factor clientSize : Nat) :
    Nat → Nat → Nat → List Byte → List Byte → Res (List Byte × List Byte)
  | 0, _, _, srv, out => .ok (srv, out)
  | n + 1, i, cb, srv, out =>
    if cb / 8 ≥ clientSize then .ok (srv, out)
    else match srv[i]? with
      | none => .fault .oob
      | some b =>
        match combineByte factor clientSize i (exchange b).1 8 0 cb out with
        | .ok (_, out', true) => .ok (srv.set i (exchange b).2, out')
        | .ok (cb', out', false) =>
          combineLoop factor clientSize n (i + 1) cb' (srv.set i (exchange b).2) out'
        | .err e => .err e
        | .fault f => .fault f

/-- `lib/dma.c:618-676` `dirty_page_get_combine`. -/
def getCombine (serverSize serverPg clientSize clientPg : Nat) (srv out : List Byte) :
    Res (List Byte × List Byte) :=
  combineLoop (clientPg / serverPg) clientSize serverSize 0 0 srv out

/-- Outcome of `dma_controller_dirty_page_get`: `done` is return value 0 with the client's bitmap;
`ret0` is return value 0 from the failed translation of an empty range (nothing was written);
`noErrno` is a negative return value with `errno` 0 (the range needs several entries). -/
inductive GetOut where
  | done (bitmap : List Byte)
  | ret0
  | noErrno
  | err (errno : Nat)
  | fault (f : Fault)
  deriving DecidableEq, Repr

/-- `client_pgsize == 0 || (client_pgsize & (client_pgsize - 1)) != 0` (`lib/dma.c:717`). -/
def badClientPg (p : Nat) : Bool := p == 0 || (p &&& (p - 1)) != 0

/-- The dispatch on page sizes, `lib/dma.c:753-772`. -/
def getBits (serverPg clientPg serverSize clientSize : Nat) (srv out : List Byte) :
    Res (List Byte × List Byte) :=
  if clientPg = serverPg then getSame clientSize 0 srv out
  else if clientPg < serverPg then getExtend serverSize serverPg clientSize clientPg srv out
  else getCombine serverSize serverPg clientSize clientPg srv out

/-- `lib/dma.c:678-779` `dma_controller_dirty_page_get`; `out` is the caller's buffer with its initial
content, `hint` the thread-local region hint. -/
def dirtyPageGet (c : Ctl) (hint addr len clientPg size : Nat) (out : List Byte) : Ctl × GetOut :=
  match (addrToSgl c hint addr len 1 false).1 with
  | .err e => (c, .err e)
  | .fault f => (c, .fault f)
  | .more _ => (c, .noErrno)
  | .ok [sg] =>
    if sg.dmaAddr ≠ addr ∨ sg.length ≠ len then (c, .err ENOTSUP)
    else if c.dirtyPgsize = 0 then (c, .err EINVAL)
    else if badClientPg clientPg = true then (c, .err EINVAL)
    else
      match getBitmapSize len c.dirtyPgsize with
      | .err e => (c, .err e)
      | .fault f => (c, .fault f)
      | .ok serverSize =>
        match getBitmapSize len clientPg with
        | .err e => (c, .err e)
        | .fault f => (c, .fault f)
        | .ok clientSize =>
          if size ≠ clientSize then (c, .err EINVAL)
          else
            match c.regions[sg.region]? with
            | none => (c, .fault .oob)
            | some r =>
              match r.fd, r.dirty with
              | none, _ => (c, .err EINVAL)
              | some _, none => (c, .fault .oob)   -- NULL bitmap dereferenced
              | some _, some srv =>
                match getBits c.dirtyPgsize clientPg serverSize clientSize srv out with
                | .ok (srv', out') =>
                  ({ c with regions := c.regions.set sg.region { r with dirty := some srv' } },
                   .done out')
                | .err e => (c, .err e)
                | .fault f => (c, .fault f)
  | .ok _ => (c, .ret0)   -- empty range: the translation returned 0

end Verif.Dma
