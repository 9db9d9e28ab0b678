import Verif.Dma.Sys

/-!
# Independent specification vocabulary for the DMA properties

Nothing here uses the loops or helpers of the model; only its data types (regions, requests, events).
Arithmetic is plain arithmetic on natural numbers, without wrap-around.
-/

namespace Verif.Dma
open Verif

/-- Guest address `a` belongs to region `r`. -/
def Region.Covers (r : Region) (a : Nat) : Prop := r.info.base ≤ a ∧ a < r.info.base + r.info.len

/-- The region does not run past the end of the 64-bit address space. -/
def Region.NoWrap (r : Region) : Prop := r.info.base + r.info.len < U64

/-- Guest address `a` is mapped. -/
def Mapped (c : Ctl) (a : Nat) : Prop := ∃ r ∈ c.regions, r.Covers a

/-- No guest address belongs to two regions. -/
def NoShare (c : Ctl) : Prop :=
  ∀ (i j : Nat) (r s : Region) (a : Nat), c.regions[i]? = some r → c.regions[j]? = some s →
    r.Covers a → s.Covers a → i = j

/-- The fields of a request fit their C types. -/
def MapReq.Bounded (q : MapReq) : Prop :=
  q.addr < U64 ∧ q.size < U64 ∧ q.offset < U64 ∧ q.flags < U32

/-- A map request whose range does not run past `2^64`; other operations are unconstrained. -/
def Op.NoWrap : Op → Prop
  | .map _ q => q.addr + q.size < U64
  | _ => True

def Op.Bounded : Op → Prop
  | .map _ q => q.Bounded
  | _ => True

def IsPow2 (n : Nat) : Prop := ∃ k, k < 31 ∧ n = 2 ^ k

/-- Contract of the operating system: block and page sizes are powers of two that fit an `int`; `mmap`
fails on length 0, never returns address 0, returns page aligned addresses, and the mapping lies in
the address space. -/
structure OS.Ok (os : OS) : Prop where
  page : IsPow2 os.page
  blk : ∀ fd b, os.blksize fd = some b → IsPow2 b
  mmap : ∀ len off b, os.mmap len off = .ok b → 0 < len ∧ 0 < b ∧ b + len ≤ U64 ∧ b % os.page = 0

def Op.OSOk : Op → Prop
  | .map os _ => os.Ok
  | _ => True

/-! ## The abstract table (C02) -/

/-- What the client can tell about a mapped range. -/
structure Attr where
  prot : Prot
  offset : Nat
  fd : Option Fd
  deriving DecidableEq, Repr

/-- The abstract table: a partial function from (address, size). -/
abbrev Tbl := Nat → Nat → Option Attr

def Tbl.empty : Tbl := fun _ _ => none

def Tbl.insert (t : Tbl) (a s : Nat) (v : Attr) : Tbl :=
  fun a' s' => if a' = a ∧ s' = s then some v else t a' s'

def Tbl.delete (t : Tbl) (a s : Nat) : Tbl :=
  fun a' s' => if a' = a ∧ s' = s then none else t a' s'

/-- The concrete table `c` contains, for each key of `t`, exactly one region, with those attributes,
and nothing else. -/
def Represents (c : Ctl) (t : Tbl) : Prop :=
  (∀ a s v, t a s = some v ↔
    ∃ r ∈ c.regions, r.info.base = a ∧ r.info.len = s ∧ r.info.prot = v.prot ∧
      r.offset = v.offset ∧ r.fd = v.fd) ∧
  (∀ (i j : Nat) (r s : Region), c.regions[i]? = some r → c.regions[j]? = some s →
    r.info.base = s.info.base → r.info.len = s.info.len → i = j)

/-- What a map request asks for. -/
def MapReq.attr (q : MapReq) : Attr :=
  { prot := { read := q.flags.testBit 0, write := q.flags.testBit 1 }
    offset := q.offset
    fd := q.fds.head? }

/-- How the abstract table may move in one step, given the reply the client sees. -/
inductive TblStep : Tbl → Op → Reply → Tbl → Prop where
  /-- accepted, range not mapped before: inserted -/
  | mapNew (t os) (q : MapReq) (l) (h : t q.addr q.size = none) :
      TblStep t (.map os q) (.map (.ok ()) l) (t.insert q.addr q.size q.attr)
  /-- accepted, same range mapped before with the same offset and protection: unchanged -/
  | mapAgain (t os) (q : MapReq) (l) (v : Attr) (h : t q.addr q.size = some v)
      (ho : v.offset = q.offset) (hp : v.prot = q.attr.prot) (hf : v.fd.isSome = q.fds.head?.isSome) :
      TblStep t (.map os q) (.map (.ok ()) l) t
  | mapFail (t os q l e) : TblStep t (.map os q) (.map (.err e) l) t
  /-- unmap of exactly this mapped range -/
  | unmapOk (t m a s k b) (hk : k ≠ .all) (h : (t a s).isSome) :
      TblStep t (.unmap m a s k) (.unmap (.ok b)) (t.delete a s)
  | unmapEmpty (t m a s k) : TblStep t (.unmap m a s k) (.unmap .okEmpty) t
  | unmapFail (t m a s k e) : TblStep t (.unmap m a s k) (.unmap (.err e)) t
  /-- the bitmap read that precedes the removal faults (see C14): nothing is removed -/
  | unmapGetFault (t m a s pg bs buf hint f) :
      TblStep t (.unmap m a s (.getDirty pg bs buf hint)) (.unmap (.fault f)) t
  | unmapAll (t m a s b) : TblStep t (.unmap m a s .all) (.unmap (.ok b)) Tbl.empty
  | logStart (t ca p r) (h : r.isFault = false) : TblStep t (.logStart ca p) (.log r) t
  | logStop (t r) : TblStep t .logStop (.log r) t
  | query (t h a l p s b r) : TblStep t (.query h a l p s b) (.query r) t
  | mark (t sgl r) : TblStep t (.mark sgl) (.mark r) t

/-- Runs that pair every operation with the reply it got. -/
def runReplies (cfg : Cfg) : Ctl → List Op → List (Op × Reply)
  | _, [] => []
  | c, op :: ops => (op, (step cfg c op).2.1) :: runReplies cfg (step cfg c op).1 ops

inductive TblRun : Tbl → List (Op × Reply) → Tbl → Prop where
  | nil (t) : TblRun t [] t
  | cons (t t1 t2 op rep l) : TblStep t op rep t1 → TblRun t1 l t2 → TblRun t ((op, rep) :: l) t2

/-! ## The decision on a map request (C03) -/

/-- Two optional descriptors refer to the same file (or both are absent). -/
def SameFile (os : OS) : Option Fd → Option Fd → Prop
  | none, none => True
  | some x, some y => x = y ∨ ∃ i, os.ino x = some i ∧ os.ino y = some i
  | _, _ => False

/-- Range `[a, a+s)` starts inside the region or the region starts inside the range. -/
def Overlaps (a s : Nat) (r : Region) : Prop :=
  r.Covers a ∨ (a ≤ r.info.base ∧ r.info.base < a + s)

/-- The page size the mapping is made with. -/
def mapPage (os : OS) (b : Nat) : Nat := if os.page ≤ b then b else os.page

inductive Decision where
  | refused (errno : Nat)
  | repeated
  /-- new region; for a file-backed one the address returned by `mmap` -/
  | accepted (mapped : Option Nat)
  deriving DecidableEq, Repr

open Classical in
/-- The documented decision, in the order in which the checks apply. -/
noncomputable def mapDecision (os : OS) (c : Ctl) (q : MapReq) : Decision :=
  if q.flags ≥ 4 then .refused EINVAL
  else if q.size > c.maxSize then .refused ENOSPC
  else if ∃ r ∈ c.regions, r.info.base = q.addr ∧ r.info.len = q.size then
    if ∃ r ∈ c.regions, r.info.base = q.addr ∧ r.info.len = q.size ∧ r.offset = q.offset ∧
        SameFile os r.fd q.fds.head? ∧ r.info.prot = q.attr.prot
    then .repeated else .refused EINVAL
  else if ∃ r ∈ c.regions, Overlaps q.addr q.size r then .refused EINVAL
  else if c.regions.length = c.maxRegions then .refused EINVAL
  else match q.fds with
    | [] => .accepted none
    | fd :: _ =>
      match os.blksize fd with
      | none => .refused EINVAL
      | some b =>
        if c.dirtyPgsize ≠ 0 ∧ q.size < c.dirtyPgsize then .refused EINVAL
        else if c.dirtyPgsize ≠ 0 ∧ os.calloc = false then .refused ENOMEM
        else
          match os.mmap ((q.size + mapPage os b - 1) % U64 / mapPage os b * mapPage os b)
                        (q.offset / mapPage os b * mapPage os b) with
          | .error e => .refused e
          | .ok base => .accepted (some base)

end Verif.Dma
