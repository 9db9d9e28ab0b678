import Verif.Dma.Decide

/-!
# C01, C02, C03: the DMA table
-/

namespace Verif.Dma
open Verif

/-- An operating system that satisfies its contract; used by the examples. -/
def os0 : OS :=
  { ino := fun fd => some (fd / 2), blksize := fun _ => some 4096, page := 4096
    mmap := fun len _ => if len = 0 ∨ 0x100000 < len then .error ENOMEM else .ok 0x70000000
    calloc := true }

theorem os0_ok : os0.Ok := by
  refine ⟨⟨12, by decide, by decide⟩, ?_, ?_⟩
  · intro fd b h
    have : b = 4096 := by simpa [os0] using h.symm
    exact ⟨12, by decide, by rw [this]⟩
  · intro len off b h
    simp only [os0] at h ⊢
    split at h
    · cases h
    · rename_i hn
      cases h
      have hU : U64 = 18446744073709551616 := rfl
      omega

def cfg0 : Cfg := { hasReg := true, hasUnreg := true }

/-- A map request with no file. -/
def mapAt (addr size : Nat) : Op := .map os0 { flags := 3, offset := 0, addr, size, fds := [] }

/-- A file-backed map request. -/
def mapFd (addr size off : Nat) (fd : Fd) : Op :=
  .map os0 { flags := 3, offset := off, addr, size, fds := [fd] }

/-! ## C01 -/

/-- C01, limits: for every history whatsoever. -/
theorem C01_limits (cfg : Cfg) (maxRegions maxSize : Nat) (ops : List Op) :
    (run cfg (create maxRegions maxSize) ops).1.regions.length ≤ maxRegions ∧
    ∀ r ∈ (run cfg (create maxRegions maxSize) ops).1.regions, r.info.len ≤ maxSize := by
  have h := liminv_run cfg maxRegions maxSize ops
  have hm := max_run cfg ops (create maxRegions maxSize)
  refine ⟨?_, ?_⟩
  · have := h.count; rw [hm.1] at this; exact this
  · intro r hr
    have := h.size r.geom (List.mem_map_of_mem hr)
    rw [hm.2] at this; exact this

/-- C01, disjointness: for every history in which no map request runs past `2^64`. -/
theorem C01_disjoint (cfg : Cfg) (maxRegions maxSize : Nat) (ops : List Op)
    (h : ∀ op ∈ ops, op.NoWrap) :
    NoShare (run cfg (create maxRegions maxSize) ops).1 :=
  noshare_of_sep (inv_run cfg maxRegions maxSize ops h).sep

/-- A history that ends with two regions, after a refused overlap and a removal. -/
def hist1 : List Op :=
  [mapAt 0x1000 0x2000, mapAt 0x2000 0x1000, mapFd 0x3000 0x1000 0 4,
   .unmap true 0x1000 0x2000 .plain, mapAt 0x1000 0x1000]

example : (∀ op ∈ hist1, op.NoWrap) ∧
    (run cfg0 (create 2 0x2000) hist1).1.regions.map (fun r => (r.info.base, r.info.len)) =
      [(0x3000, 0x1000), (0x1000, 0x1000)] := by
  refine ⟨?_, by decide⟩
  intro op hop
  simp only [hist1, List.mem_cons, List.not_mem_nil, or_false] at hop
  rcases hop with rfl | rfl | rfl | rfl | rfl <;> simp [mapAt, mapFd, Op.NoWrap, U64]

/-- C01 without the restriction is false: the range check at `lib/dma.c:330-331` wraps, so two accepted
requests can share guest addresses. -/
theorem C01_disjoint_violated :
    ∃ ops : List Op, (∀ op ∈ ops, op.Bounded ∧ op.OSOk) ∧
      ¬ NoShare (run cfg0 (create 64 0x80000000000) ops).1 := by
  refine ⟨[mapAt (U64 - 0x1000) 0x2000, mapAt (U64 - 0x800) 0x400], ?_, ?_⟩
  · intro op hop
    simp only [List.mem_cons, List.not_mem_nil, or_false] at hop
    rcases hop with rfl | rfl <;>
      exact ⟨by simp [mapAt, Op.Bounded, MapReq.Bounded, U64, U32], os0_ok⟩
  · intro h
    have hr : (run cfg0 (create 64 0x80000000000)
        [mapAt (U64 - 0x1000) 0x2000, mapAt (U64 - 0x800) 0x400]).1.regions.map
          (fun r => (r.info.base, r.info.len)) = [(U64 - 0x1000, 0x2000), (U64 - 0x800, 0x400)] := by
      decide
    generalize (run cfg0 (create 64 0x80000000000)
        [mapAt (U64 - 0x1000) 0x2000, mapAt (U64 - 0x800) 0x400]).1 = c at h hr
    have h0 := congrArg (·[0]?) hr
    have h1 := congrArg (·[1]?) hr
    simp only [List.getElem?_map, List.getElem?_cons_zero, List.getElem?_cons_succ,
      Option.map_eq_some_iff, Prod.mk.injEq] at h0 h1
    obtain ⟨r, hr0, hr1, hr2⟩ := h0
    obtain ⟨s, hs0, hs1, hs2⟩ := h1
    have := h 0 1 r s (U64 - 0x800) hr0 hs0
      (by unfold Region.Covers; rw [hr1, hr2]; decide)
      (by unfold Region.Covers; rw [hs1, hs2]; decide)
    omega

/-! ## C02 -/

/-- C02: every history of requests, with the replies the client sees, is a run of the abstract table
that starts empty, and the final table is exactly the set of regions the device sees. -/
theorem C02_refinement (cfg : Cfg) (maxRegions maxSize : Nat) (ops : List Op)
    (h : ∀ op ∈ ops, op.OSOk ∧ op.Bounded) :
    ∃ t, TblRun Tbl.empty (runReplies cfg (create maxRegions maxSize) ops) t ∧
      Represents (run cfg (create maxRegions maxSize) ops).1 t := by
  apply represents_run cfg ops _ _ _ (inv2_create _ _) h
  refine ⟨?_, ?_⟩
  · intro a s v; simp [Tbl.empty, create]
  · intro i j r s hi; simp [create] at hi

/-- C02: in every reachable table a plain unmap succeeds exactly when exactly that range is mapped, and
fails with `ENOENT` otherwise. -/
theorem C02_unmap_iff (cfg : Cfg) (maxRegions maxSize : Nat) (ops : List Op)
    (h : ∀ op ∈ ops, op.OSOk ∧ op.Bounded) (a s : Nat) :
    let c := (run cfg (create maxRegions maxSize) ops).1
    let o := handleUnmap true cfg.hasUnreg c a s .plain
    ((∃ r ∈ c.regions, r.info.base = a ∧ r.info.len = s) → o.2.1 = .ok none) ∧
    ((¬ ∃ r ∈ c.regions, r.info.base = a ∧ r.info.len = s) → o.2.1 = .err ENOENT ∧ o.1 = c) := by
  intro c o
  have hi : Inv2 c := inv2_run cfg maxRegions maxSize ops h
  have hcon := hi.consistent
  have ho : o = unmapTail cfg.hasUnreg c a s none := rfl
  rw [ho]
  unfold unmapTail removeRegion
  cases hl : removeLoop cfg.hasUnreg a s c.regions with
  | ok x =>
    obtain ⟨l1, r, l2, h1, _, h3, h4, _⟩ := removeLoop_ok _ _ _ hl
    refine ⟨fun _ => rfl, fun hn => absurd ⟨r, ?_, h3, h4⟩ hn⟩
    rw [h1]; simp
  | err e =>
    obtain ⟨rfl, hn⟩ := removeLoop_err _ _ hl
    refine ⟨fun ⟨r, hr, hx⟩ => absurd hx (hn r hr), fun _ => ⟨rfl, rfl⟩⟩
  | fault f => exact absurd hl (removeLoop_nofault _ hcon f)

example : (∀ op ∈ hist1, op.OSOk ∧ op.Bounded) ∧
    (handleUnmap true true (run cfg0 (create 2 0x2000) hist1).1 0x3000 0x1000 .plain).2.1 = .ok none ∧
    (handleUnmap true true (run cfg0 (create 2 0x2000) hist1).1 0x3000 0x800 .plain).2.1
      = .err ENOENT := by
  refine ⟨?_, by decide, by decide⟩
  intro op hop
  simp only [hist1, List.mem_cons, List.not_mem_nil, or_false] at hop
  rcases hop with rfl | rfl | rfl | rfl | rfl <;>
    first
    | exact ⟨os0_ok, by simp [mapAt, mapFd, Op.Bounded, MapReq.Bounded, U64, U32]⟩
    | exact ⟨trivial, trivial⟩

/-! ## C03 -/

/-- C03: in every reachable table, a map request of a non-wrapping range gets exactly the documented
decision; a refused or repeated request leaves the whole controller state as it was, an accepted one
appends one region with the requested attributes (and, for a file, at the address `mmap` gave). -/
theorem C03_map_decision (cfg : Cfg) (maxRegions maxSize : Nat) (ops : List Op)
    (h : ∀ op ∈ ops, op.OSOk ∧ op.Bounded ∧ op.NoWrap) (os : OS) (q : MapReq) (hos : os.Ok)
    (hq : q.Bounded) (hw : q.addr + q.size < U64) :
    let c := (run cfg (create maxRegions maxSize) ops).1
    let o := handleMap os cfg.hasReg c q
    match mapDecision os c q with
    | .refused e => o.res = .err e ∧ o.ctl = c
    | .repeated => o.res = .ok () ∧ o.ctl = c
    | .accepted m => o.res = .ok () ∧
        ∃ r : Region, o.ctl = { c with regions := c.regions ++ [r] } ∧
          r.info.base = q.addr ∧ r.info.len = q.size ∧ r.info.prot = q.attr.prot ∧
          r.offset = q.offset ∧ r.fd = q.fds.head? ∧ (m = none → r.info.vaddr = 0) ∧
          (∀ b, m = some b → r.info.mapBase = b) :=
  handleMap_decision os cfg.hasReg _ q (inv_run cfg _ _ ops (fun op hop => (h op hop).2.2))
    (inv2_run cfg _ _ ops (fun op hop => ⟨(h op hop).1, (h op hop).2.1⟩)).keys hos hq hw

/-- The three outcomes are all possible. -/
example :
    let c := (run cfg0 (create 3 0x2000) hist1).1
    (handleMap os0 true c { flags := 3, offset := 0, addr := 0x3000, size := 0x1000, fds := [5] }).res = .ok () ∧
    (handleMap os0 true c { flags := 3, offset := 0, addr := 0x3000, size := 0x1000, fds := [5] }).ctl = c ∧
    (handleMap os0 true c { flags := 3, offset := 0, addr := 0x3fff, size := 0x1000, fds := [5] }).res
      = .err EINVAL ∧
    (handleMap os0 true c { flags := 1, offset := 0, addr := 0x4000, size := 0x1000, fds := [5] }).res
      = .ok () ∧
    (handleMap os0 true c { flags := 1, offset := 0, addr := 0x4000, size := 0x2001, fds := [5] }).res
      = .err ENOSPC := by
  decide

end Verif.Dma
