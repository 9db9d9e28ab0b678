import Verif.Dma.Props3
import Verif.Dma.Refine

/-!
# The array of regions as it lies in memory

`Ctl.regions` is the list of the regions in use.  In the code there is an array of `max_regions` slots of
which the first `nregions` are in use; the others keep whatever was last in them: a removal closes the gap
with `memmove` and leaves the last slot as it is, a map that fails half way leaves the slot half filled.
This file models that array and shows that the list is a faithful picture of it for every function that
compares its index with `nregions`.  `vfu_sg_is_mappable` does not compare.

What an unused slot's bitmap pointer points to is not modelled (nothing follows it).
-/

namespace Verif.Dma
open Verif

/-- `lib/dma.h:102-109` `dma_controller_t` with its whole array of slots; `n` is `nregions`. -/
structure Arr where
  maxRegions : Nat
  maxSize : Nat
  dirtyPgsize : Nat
  n : Nat
  slots : List Region
  deriving DecidableEq, Repr

/-- A slot of zero bytes (`memset`): descriptor 0, no memory. -/
def zeroSlot : Region :=
  { info := { base := 0, len := 0, vaddr := 0, mapBase := 0, mapLen := 0, pageSize := 0,
              prot := { read := false, write := false } }
    fd := some 0, offset := 0, dirty := none }

/-- `lib/dma.c:83-103` `dma_controller_create`. -/
def acreate (maxRegions maxSize : Nat) : Arr :=
  { maxRegions, maxSize, dirtyPgsize := 0, n := 0, slots := List.replicate maxRegions zeroSlot }

/-- The slots in use. -/
def Arr.ctl (a : Arr) : Ctl :=
  { maxRegions := a.maxRegions, maxSize := a.maxSize, dirtyPgsize := a.dirtyPgsize,
    regions := a.slots.take a.n }

/-- `lib/dma.c:127-143` `array_remove`: `memmove` of the `n - (i + 1)` slots after slot `i` one place down;
the slot that was last in use stays as it is. -/
def arrayRemove (a : Arr) (i : Nat) : Arr :=
  let nr := a.n - (i + 1)
  { a with slots := a.slots.take i ++ (a.slots.drop (i + 1)).take nr ++ a.slots.drop (i + nr), n := a.n - 1 }

/-- `lib/dma.c:105-125`: after `close_safely` the slot's descriptor is `-1`; its address is left alone. -/
def closedSlot (r : Region) : Region := if r.info.vaddr ≠ 0 then { r with fd := none } else r

/-- The loop `lib/dma.c:157-178` of `dma_controller_remove_region` from slot `idx`, `k` slots to go. -/
def aremoveLoop (hasUnreg : Bool) (addr size : Nat) (a : Arr) : Nat → Nat → Res (Arr × List Ev)
  | 0, _ => .err ENOENT
  | k + 1, idx =>
    match a.slots[idx]? with
    | none => .fault .oob
    | some r =>
      if r.info.base ≠ addr ∨ r.info.len ≠ size then aremoveLoop hasUnreg addr size a k (idx + 1)
      else
        match dropRegion hasUnreg r with
        | .ok ev => .ok (arrayRemove { a with slots := a.slots.set idx (closedSlot r) } idx, ev)
        | .err e => .err e
        | .fault f => .fault f

/-- `lib/dma.c:182-215` `dma_controller_remove_all_regions`: every slot is zeroed, in use or not. -/
def aremoveAll (a : Arr) (hasUnreg : Bool) : Res (Arr × List Ev) :=
  match dropAll hasUnreg (a.slots.take a.n) with
  | .ok ev => .ok ({ a with slots := List.replicate a.maxRegions zeroSlot, n := 0 }, ev)
  | .err e => .err e
  | .fault f => .fault f

/-- `lib/dma.c:275-397` `dma_controller_add_region`: the slot after the last one in use is zeroed and
filled, and stays filled (with no address) when the mapping fails. -/
def aadd (os : OS) (a : Arr) (addr size : Nat) (fd : Option Fd) (offset : Nat) (prot : Prot) :
    Arr × Res Nat × List Ev :=
  if size > a.maxSize then (a, .err ENOSPC, [])
  else
    match scan os addr size fd offset prot 0 (a.slots.take a.n) with
    | .bad e => (a, .err e, [])
    | .same idx => (a, .ok idx, [])
    | .fresh =>
      if a.n = a.maxRegions then (a, .err EINVAL, [])
      else
        match pageSizeFor os fd with
        | .err e => (a, .err e, [])
        | .fault f => (a, .fault f, [])
        | .ok ps =>
          let r0 : Region :=
            { info := { base := addr, len := size, vaddr := 0, mapBase := 0, mapLen := 0,
                        pageSize := ps, prot }
              fd, offset, dirty := none }
          match fd with
          | none => ({ a with slots := a.slots.set a.n r0, n := a.n + 1 }, .ok a.n, [])
          | some x =>
            let r1 := if a.dirtyPgsize ≠ 0 then startOnRegion os.calloc r0 a.dirtyPgsize
                      else .ok r0
            match r1 with
            | .err e => ({ a with slots := a.slots.set a.n r0 }, .err e, [])
            | .fault f => ({ a with slots := a.slots.set a.n r0 }, .fault f, [])
            | .ok r1 =>
              match mapRegion os r1 with
              | .error e => ({ a with slots := a.slots.set a.n { r1 with fd := none } }, .err e, [.close x])
              | .ok r2 =>
                ({ a with slots := a.slots.set a.n r2, n := a.n + 1 }, .ok a.n,
                 [.mmap r2.info.mapBase r2.info.mapLen])

/-- Outcome of a map request on the array. -/
structure AOut where
  arr : Arr
  fds : List (Option Fd)
  res : Res Unit
  evs : List Ev

/-- `lib/libvfio-user.c:702-742`: `handle_dma_map` after the size checks. -/
def ahandleMap (os : OS) (hasReg : Bool) (a : Arr) (q : MapReq) : AOut :=
  let prot : Prot := { read := q.flags.testBit 0, write := q.flags.testBit 1 }
  if q.flags % U32 / 4 ≠ 0 then { arr := a, fds := q.fds.map some, res := .err EINVAL, evs := [] }
  else
    match takeFirst q.fds with
    | .err e => { arr := a, fds := q.fds.map some, res := .err e, evs := [] }
    | .fault f => { arr := a, fds := q.fds.map some, res := .fault f, evs := [] }
    | .ok (fd, fds) =>
      match aadd os a q.addr q.size fd q.offset prot with
      | (a', .err e, ev) => { arr := a', fds, res := .err e, evs := ev ++ closeEv fd }
      | (a', .fault f, ev) => { arr := a', fds, res := .fault f, evs := ev }
      | (a', .ok idx, ev) =>
        -- lines 735-740: `vfu_ctx->dma->regions[ret]`
        match a'.slots[idx]? with
        | none => { arr := a', fds, res := .fault .oob, evs := ev }
        | some r =>
          { arr := a', fds, res := .ok (),
            evs := ev ++ (if hasReg then [.register r.info] else []) }

/-- The functions that walk the slots in use and change nothing but bitmaps, in place
(`lib/dma.c:258-273`, `452-514`, `516-660`, `lib/dma.h:183-202`): the slots in use become those of `c`. -/
def Arr.put (a : Arr) (c : Ctl) : Arr :=
  { a with slots := c.regions ++ a.slots.drop a.n, dirtyPgsize := c.dirtyPgsize }

/-- `lib/libvfio-user.c:854-869`: the removal at the end of `handle_dma_unmap`. -/
def aunmapTail (hasUnreg : Bool) (a : Arr) (addr size : Nat) (bitmap : Option (List Byte)) :
    Arr × UnmapOut × List Ev :=
  match aremoveLoop hasUnreg addr size a a.n 0 with
  | .ok (a', ev) => (a', .ok bitmap, ev)
  | .err e => (a, .err e, [])
  | .fault f => (a, .fault f, [])

/-- `lib/libvfio-user.c:822-870`: `handle_dma_unmap` after `is_valid_unmap`. -/
def ahandleUnmap (mallocOk hasUnreg : Bool) (a : Arr) (addr size : Nat) (k : UnmapKind) :
    Arr × UnmapOut × List Ev :=
  if mallocOk = false then (a, .err ENOMEM, [])
  else
    match k with
    | .all =>
      match aremoveAll a hasUnreg with
      | .ok (a', ev) => (a', .ok none, ev)
      | .err e => (a, .err e, [])
      | .fault f => (a, .fault f, [])
    | .plain => aunmapTail hasUnreg a addr size none
    | .getDirty pgsize bsize buf hint =>
      match dirtyPageGet a.ctl hint addr size pgsize bsize buf with
      | (c', .done bm) => aunmapTail hasUnreg (a.put c') addr size (some bm)
      | (c', .ret0) => aunmapTail hasUnreg (a.put c') addr size (some buf)
      | (c', .noErrno) => (a.put c', .okEmpty, [])
      | (c', .err e) => (a.put c', .err e, [])
      | (c', .fault f) => (a.put c', .fault f, [])

/-- One request or device call on the array (`step` in `Sys.lean`). -/
def astep (cfg : Cfg) (a : Arr) : Op → Arr × Reply × List Ev
  | .map os q =>
    let o := ahandleMap os cfg.hasReg a q
    (o.arr, .map o.res o.fds, o.evs)
  | .unmap m addr size k =>
    let (a', r, ev) := ahandleUnmap m cfg.hasUnreg a addr size k
    (a', .unmap r, ev)
  | .logStart ca pgsize =>
    let (c', r) := loggingStart ca a.ctl pgsize
    (a.put c', .log r, [])
  | .logStop => (a.put (loggingStop a.ctl), .log (.ok ()), [])
  | .query hint addr len pgsize size buf =>
    let (c', r) := dirtyPageGet a.ctl hint addr len pgsize size buf
    (a.put c', .query r, [])
  | .mark sgl =>
    match sglMark a.ctl sgl with
    | .ok c' => (a.put c', .mark (.ok ()), [])
    | .err e => (a, .mark (.err e), [])
    | .fault f => (a, .mark (.fault f), [])

/-- A history on the array: replies and events, request by request. -/
def arun (cfg : Cfg) : Arr → List Op → Arr × List (Reply × List Ev)
  | a, [] => (a, [])
  | a, op :: ops =>
    let (a1, r) := astep cfg a op
    let (a2, rs) := arun cfg a1 ops
    (a2, r :: rs)

/-- The same history on the list of regions. -/
def replies (cfg : Cfg) : Ctl → List Op → List (Reply × List Ev)
  | _, [] => []
  | c, op :: ops => (step cfg c op).2 :: replies cfg (step cfg c op).1 ops

/-- `lib/dma.h:238-267` `dma_addr_to_sgl` on the array: the hinted slot is read first, in use or not, and
compared with `nregions` last. -/
def aaddrToSgl (a : Arr) (hint addr len maxSgs : Nat) (write : Bool) : SglOut × Nat :=
  match a.slots[hint]? with
  | none => (.fault .oob, hint)
  | some r =>
    if maxSgs > 0 ∧ len > 0 ∧ addr ≥ r.info.base ∧ add64 addr len ≤ r.end64 ∧ hint < a.n then
      match initSg r hint addr len write with
      | none => (.err EACCES, hint)
      | some sg => (.ok [sg], hint)
    else slowPath a.ctl hint addr len maxSgs write

/-- `lib/dma.h:269-307` `dma_sgl_get` on the array, one entry. -/
def asgGet (a : Arr) (sg : Sg) : Res (Nat × Nat) :=
  if sg.region ≥ a.n then .err EINVAL
  else
    match a.slots[sg.region]? with
    | none => .fault .oob
    | some r =>
      if r.info.vaddr = 0 then .err EFAULT
      else .ok (add64 r.info.vaddr sg.offset, sg.length)

/-- `lib/libvfio-user.c:2398-2402` `vfu_sg_is_mappable`, `lib/dma.c:52-55` `dma_sg_is_mappable`: the slot is
read without comparing the index with `nregions`. -/
def isMappable (a : Arr) (sg : Sg) : Res Bool :=
  match a.slots[sg.region]? with
  | none => .fault .oob
  | some r => .ok (decide (r.info.vaddr ≠ 0))

/-! ## The array and the list -/

/-- The array has `max_regions` slots and no more are in use. -/
structure Arr.WF (a : Arr) : Prop where
  len : a.slots.length = a.maxRegions
  use : a.n ≤ a.maxRegions

theorem Arr.WF.count {a : Arr} (h : a.WF) : a.ctl.regions.length = a.n := by
  have := h.len; have := h.use
  simp only [Arr.ctl, List.length_take]
  omega

theorem Arr.WF.get {a : Arr} (_ : a.WF) (i : Nat) : a.ctl.regions[i]? = if i < a.n then a.slots[i]? else none :=
  List.getElem?_take

theorem wf_acreate (m s : Nat) : (acreate m s).WF := ⟨by simp [acreate], Nat.zero_le _⟩

theorem acreate_ctl (m s : Nat) : (acreate m s).ctl = create m s := by simp [acreate, Arr.ctl, create]

theorem put_wf {a : Arr} (h : a.WF) {c : Ctl} (hc : c.regions.length = a.n) : (a.put c).WF := by
  refine ⟨?_, h.use⟩
  have := h.len; have := h.use
  simp only [Arr.put, List.length_append, List.length_drop]
  omega

theorem put_ctl {a : Arr} {c : Ctl} (hc : c.regions.length = a.n) (hm : c.maxRegions = a.maxRegions)
    (hs : c.maxSize = a.maxSize) : (a.put c).ctl = c := by
  unfold Arr.put Arr.ctl
  dsimp only
  rw [← hc, List.take_left]
  cases c
  simp only at hm hs
  subst hm; subst hs
  rfl

theorem put_self (a : Arr) : a.put a.ctl = a := by
  unfold Arr.put Arr.ctl
  dsimp only
  rw [List.take_append_drop]

theorem length_of_geoms {c c' : Ctl} (h : c'.geoms = c.geoms) : c'.regions.length = c.regions.length := by
  have := congrArg List.length h
  simpa [Ctl.geoms] using this

/-- `memmove` closes the gap: the slots in use are those before `i` and those after it. -/
theorem arrayRemove_spec {a : Arr} (h : a.WF) {i : Nat} (hi : i < a.n) :
    (arrayRemove a i).WF ∧
    (arrayRemove a i).slots.take (arrayRemove a i).n = (a.slots.take a.n).eraseIdx i := by
  have h1 := h.len; have h2 := h.use
  have e : i + (a.n - (i + 1)) = a.n - 1 := by omega
  refine ⟨⟨?_, ?_⟩, ?_⟩
  · simp only [arrayRemove, List.length_append, List.length_take, List.length_drop]
    omega
  · simp only [arrayRemove]; omega
  · show (a.slots.take i ++ (a.slots.drop (i + 1)).take (a.n - (i + 1)) ++
      a.slots.drop (i + (a.n - (i + 1)))).take (a.n - 1) = _
    apply List.ext_getElem?
    intro j
    rw [List.getElem?_eraseIdx, List.getElem?_take, List.getElem?_take, List.getElem?_take]
    by_cases hj : j < a.n - 1
    · rw [if_pos hj]
      by_cases hji : j < i
      · rw [if_pos hji, if_pos (by omega), List.append_assoc,
          List.getElem?_append_left (by rw [List.length_take]; omega), List.getElem?_take, if_pos hji]
      · rw [if_neg hji, if_pos (by omega),
          List.getElem?_append_left (by simp only [List.length_append, List.length_take, List.length_drop]; omega),
          List.getElem?_append_right (by rw [List.length_take]; omega), List.length_take,
          Nat.min_eq_left (by omega), List.getElem?_take, if_pos (by omega), List.getElem?_drop]
        congr 1
        omega
    · rw [if_neg hj]
      by_cases hji : j < i
      · omega
      · rw [if_neg hji, if_neg (by omega)]

/-- The loop over the slots removes from the array what `removeLoop` removes from the list. -/
theorem aremoveLoop_spec (u : Bool) (addr size : Nat) {a : Arr} (h : a.WF) :
    ∀ (k idx : Nat), idx + k = a.n →
    (match removeLoop u addr size ((a.slots.take a.n).drop idx), aremoveLoop u addr size a k idx with
     | .ok (rs, ev), .ok (a', ev') =>
       a'.WF ∧ ev = ev' ∧ a'.maxRegions = a.maxRegions ∧ a'.maxSize = a.maxSize ∧
       a'.dirtyPgsize = a.dirtyPgsize ∧ a'.slots.take a'.n = (a.slots.take a.n).take idx ++ rs
     | .err e, .err e' => e = e'
     | .fault f, .fault f' => f = f'
     | _, _ => False) := by
  intro k
  induction k with
  | zero =>
    intro idx hk
    have : (a.slots.take a.n).drop idx = [] := by
      apply List.drop_eq_nil_of_le
      rw [List.length_take]; omega
    rw [this]
    rfl
  | succ k ih =>
    intro idx hk
    have h1 := h.len; have h2 := h.use
    have hlt : idx < a.slots.length := by omega
    have hget : a.slots[idx]? = some a.slots[idx] := List.getElem?_eq_getElem hlt
    generalize hr : a.slots[idx] = r at hget
    have hdrop : (a.slots.take a.n).drop idx = r :: (a.slots.take a.n).drop (idx + 1) := by
      have hl : idx < (a.slots.take a.n).length := by rw [List.length_take]; omega
      rw [List.drop_eq_getElem_cons hl, List.getElem_take, hr]
    rw [hdrop]
    unfold removeLoop aremoveLoop
    rw [hget]
    dsimp only
    by_cases hc : r.info.base ≠ addr ∨ r.info.len ≠ size
    · rw [if_pos hc, if_pos hc]
      have := ih (idx + 1) (by omega)
      revert this
      cases removeLoop u addr size ((a.slots.take a.n).drop (idx + 1)) with
      | ok x =>
        obtain ⟨rs, ev⟩ := x
        cases aremoveLoop u addr size a k (idx + 1) with
        | ok y =>
          obtain ⟨a', ev'⟩ := y
          rintro ⟨e1, e2, e3, e4, e5, e6⟩
          refine ⟨e1, e2, e3, e4, e5, e6.trans ?_⟩
          have : (a.slots.take a.n).take (idx + 1) = (a.slots.take a.n).take idx ++ [r] := by
            rw [List.take_add_one, List.getElem?_take, if_pos (by omega), hget]
            rfl
          rw [this, List.append_assoc]
          rfl
        | err e => exact id
        | fault f => exact id
      | err e =>
        cases aremoveLoop u addr size a k (idx + 1) <;> exact id
      | fault f =>
        cases aremoveLoop u addr size a k (idx + 1) <;> exact id
    · rw [if_neg hc, if_neg hc]
      cases dropRegion u r with
      | ok ev =>
        have hwf : ({ a with slots := a.slots.set idx (closedSlot r) } : Arr).WF :=
          ⟨by simpa using h1, h2⟩
        obtain ⟨w, e⟩ := arrayRemove_spec hwf (i := idx) (by show idx < a.n; omega)
        refine ⟨w, rfl, rfl, rfl, rfl, e.trans ?_⟩
        dsimp only
        apply List.ext_getElem?
        intro j
        rw [List.getElem?_eraseIdx, List.getElem?_take, List.getElem?_take, List.getElem?_set,
          List.getElem?_set]
        by_cases hj : j < idx
        · rw [if_pos hj, if_neg (show ¬ idx = j by omega),
            List.getElem?_append_left (by simp only [List.length_take]; omega),
            List.getElem?_take, if_pos hj, List.getElem?_take]
        · rw [if_neg hj, if_neg (show ¬ idx = j + 1 by omega),
            List.getElem?_append_right (by simp only [List.length_take]; omega),
            List.getElem?_drop, List.getElem?_take]
          have : idx + 1 + (j - ((a.slots.take a.n).take idx).length) = j + 1 := by
            simp only [List.length_take]; omega
          rw [this]
      | err e => rfl
      | fault f => rfl

theorem take_set (l : List Region) (n : Nat) (r : Region) : (l.set n r).take n = l.take n := by
  apply List.ext_getElem?
  intro j
  rw [List.getElem?_take, List.getElem?_take]
  by_cases h : j < n
  · rw [if_pos h, if_pos h, List.getElem?_set, if_neg (by omega)]
  · rw [if_neg h, if_neg h]

theorem take_set_succ (l : List Region) (n : Nat) (r : Region) (h : n < l.length) :
    (l.set n r).take (n + 1) = l.take n ++ [r] := by
  rw [List.take_add_one, take_set, List.getElem?_set, if_pos rfl, if_pos h]
  rfl

/-- What `aadd` does, next to what `addRegion` does. -/
theorem aadd_spec (os : OS) {a : Arr} (h : a.WF) (addr size : Nat) (fd : Option Fd) (offset : Nat) (prot : Prot) :
    (aadd os a addr size fd offset prot).1.WF ∧
    (aadd os a addr size fd offset prot).1.ctl = (addRegion os a.ctl addr size fd offset prot).1 ∧
    (aadd os a addr size fd offset prot).2 = (addRegion os a.ctl addr size fd offset prot).2 := by
  have h1 := h.len; have h2 := h.use
  have hn := h.count
  have junk : ∀ r : Region, ({ a with slots := a.slots.set a.n r } : Arr).WF ∧
      ({ a with slots := a.slots.set a.n r } : Arr).ctl = a.ctl := by
    intro r
    refine ⟨⟨by simpa using h1, h2⟩, ?_⟩
    simp only [Arr.ctl, take_set]
  have add : ∀ r : Region, a.n ≠ a.maxRegions →
      ({ a with slots := a.slots.set a.n r, n := a.n + 1 } : Arr).WF ∧
      ({ a with slots := a.slots.set a.n r, n := a.n + 1 } : Arr).ctl = { a.ctl with regions := a.ctl.regions ++ [r] } := by
    intro r hne
    refine ⟨⟨by simpa using h1, by show a.n + 1 ≤ a.maxRegions; omega⟩, ?_⟩
    simp only [Arr.ctl]
    rw [take_set_succ _ _ _ (by omega)]
  unfold aadd addRegion
  rw [show a.ctl.maxSize = a.maxSize from rfl, show a.ctl.maxRegions = a.maxRegions from rfl,
    show a.ctl.dirtyPgsize = a.dirtyPgsize from rfl, hn]
  by_cases hz : size > a.maxSize
  · rw [if_pos hz, if_pos hz]; exact ⟨h, rfl, rfl⟩
  rw [if_neg hz, if_neg hz, show a.ctl.regions = a.slots.take a.n from rfl]
  cases scan os addr size fd offset prot 0 (a.slots.take a.n) with
  | same idx => exact ⟨h, rfl, rfl⟩
  | bad e => exact ⟨h, rfl, rfl⟩
  | fresh =>
    dsimp only
    by_cases hf : a.n = a.maxRegions
    · rw [if_pos hf, if_pos hf]; exact ⟨h, rfl, rfl⟩
    rw [if_neg hf, if_neg hf]
    cases pageSizeFor os fd with
    | err e => exact ⟨h, rfl, rfl⟩
    | fault f => exact ⟨h, rfl, rfl⟩
    | ok ps =>
      dsimp only
      cases fd with
      | none => exact ⟨(add _ hf).1, (add _ hf).2, rfl⟩
      | some x =>
        dsimp only
        generalize (if a.dirtyPgsize ≠ 0 then startOnRegion os.calloc _ a.dirtyPgsize else _) = r1
        cases r1 with
        | err e => exact ⟨(junk _).1, (junk _).2, rfl⟩
        | fault f => exact ⟨(junk _).1, (junk _).2, rfl⟩
        | ok r1 =>
          dsimp only
          cases mapRegion os r1 with
          | error e => exact ⟨(junk _).1, (junk _).2, rfl⟩
          | ok r2 => exact ⟨(add _ hf).1, (add _ hf).2, rfl⟩

/-- The index a successful `addRegion` returns is one in use. -/
theorem aadd_idx (os : OS) {a : Arr} (h : a.WF) (addr size : Nat) (fd : Option Fd) (offset : Nat) (prot : Prot)
    (idx : Nat) (hi : (aadd os a addr size fd offset prot).2.1 = .ok idx) :
    idx < (aadd os a addr size fd offset prot).1.n := by
  have hscan : ∀ (rs : List Region) (i j : Nat), scan os addr size fd offset prot i rs = .same j → j < i + rs.length := by
    intro rs
    induction rs with
    | nil => intro i j hs; cases hs
    | cons r rs ih =>
      intro i j hs
      unfold scan at hs
      repeat' split at hs
      all_goals first
        | (cases hs; done)
        | (cases hs; simp only [List.length_cons]; omega)
        | (have := ih _ _ hs; simp only [List.length_cons]; omega)
  have h1 := h.len; have h2 := h.use
  unfold aadd at hi ⊢
  by_cases hz : size > a.maxSize
  · rw [if_pos hz] at hi; cases hi
  rw [if_neg hz] at hi ⊢
  cases hs : scan os addr size fd offset prot 0 (a.slots.take a.n) with
  | same j =>
    rw [hs] at hi
    cases hi
    have := hscan _ _ _ hs
    rw [List.length_take] at this
    show idx < a.n
    omega
  | bad e => rw [hs] at hi; cases hi
  | fresh =>
    rw [hs] at hi
    dsimp only at hi ⊢
    by_cases hf : a.n = a.maxRegions
    · rw [if_pos hf] at hi; cases hi
    rw [if_neg hf] at hi ⊢
    cases hp : pageSizeFor os fd with
    | err e => rw [hp] at hi; cases hi
    | fault f => rw [hp] at hi; cases hi
    | ok ps =>
      rw [hp] at hi
      dsimp only at hi ⊢
      cases fd with
      | none => cases hi; exact Nat.lt_succ_self _
      | some x =>
        dsimp only at hi ⊢
        generalize (if a.dirtyPgsize ≠ 0 then startOnRegion os.calloc _ a.dirtyPgsize else _) = r1 at hi ⊢
        cases r1 with
        | err e => cases hi
        | fault f => cases hi
        | ok r1 =>
          dsimp only at hi ⊢
          cases hm : mapRegion os r1 with
          | error e => rw [hm] at hi; cases hi
          | ok r2 => rw [hm] at hi; cases hi; exact Nat.lt_succ_self _

theorem ahandleMap_spec (os : OS) (hasReg : Bool) {a : Arr} (h : a.WF) (q : MapReq) :
    (ahandleMap os hasReg a q).arr.WF ∧
    (ahandleMap os hasReg a q).arr.ctl = (handleMap os hasReg a.ctl q).ctl ∧
    (ahandleMap os hasReg a q).res = (handleMap os hasReg a.ctl q).res ∧
    (ahandleMap os hasReg a q).fds = (handleMap os hasReg a.ctl q).fds ∧
    (ahandleMap os hasReg a q).evs = (handleMap os hasReg a.ctl q).evs := by
  unfold ahandleMap handleMap
  dsimp only
  by_cases hf : q.flags % U32 / 4 ≠ 0
  · rw [if_pos hf, if_pos hf]; exact ⟨h, rfl, rfl, rfl, rfl⟩
  rw [if_neg hf, if_neg hf]
  cases takeFirst q.fds with
  | err e => exact ⟨h, rfl, rfl, rfl, rfl⟩
  | fault f => exact ⟨h, rfl, rfl, rfl, rfl⟩
  | ok x =>
    obtain ⟨fd, fds⟩ := x
    dsimp only
    have hs := aadd_spec os h q.addr q.size fd q.offset { read := q.flags.testBit 0, write := q.flags.testBit 1 }
    have hx := aadd_idx os h q.addr q.size fd q.offset { read := q.flags.testBit 0, write := q.flags.testBit 1 }
    generalize aadd os a q.addr q.size fd q.offset { read := q.flags.testBit 0, write := q.flags.testBit 1 } = o at hs hx ⊢
    generalize addRegion os a.ctl q.addr q.size fd q.offset { read := q.flags.testBit 0, write := q.flags.testBit 1 } = o' at hs ⊢
    obtain ⟨a', r, ev⟩ := o
    obtain ⟨c', r', ev'⟩ := o'
    obtain ⟨w, e1, e2⟩ := hs
    cases e2
    dsimp only at w e1 hx
    subst e1
    cases r with
    | err e => exact ⟨w, rfl, rfl, rfl, rfl⟩
    | fault f => exact ⟨w, rfl, rfl, rfl, rfl⟩
    | ok idx =>
      have hi := hx idx rfl
      dsimp only
      rw [w.get idx, if_pos hi]
      cases a'.slots[idx]? with
      | none => exact ⟨w, rfl, rfl, rfl, rfl⟩
      | some r => exact ⟨w, rfl, rfl, rfl, rfl⟩

theorem aunmapTail_spec (u : Bool) {a : Arr} (h : a.WF) (addr size : Nat) (b : Option (List Byte)) :
    (aunmapTail u a addr size b).1.WF ∧
    (aunmapTail u a addr size b).1.ctl = (unmapTail u a.ctl addr size b).1 ∧
    (aunmapTail u a addr size b).2 = (unmapTail u a.ctl addr size b).2 := by
  have := aremoveLoop_spec u addr size h a.n 0 (Nat.zero_add _)
  unfold aunmapTail unmapTail removeRegion
  rw [show a.ctl.regions = a.slots.take a.n from rfl]
  rw [List.drop_zero] at this
  revert this
  cases removeLoop u addr size (a.slots.take a.n) with
  | ok x =>
    obtain ⟨rs, ev⟩ := x
    cases aremoveLoop u addr size a a.n 0 with
    | ok y =>
      obtain ⟨a', ev'⟩ := y
      rintro ⟨w, e1, e2, e3, e4, e5⟩
      subst e1
      refine ⟨w, ?_, rfl⟩
      simp only [List.take_zero, List.nil_append] at e5
      simp only [Arr.ctl, e2, e3, e4, e5]
    | err e => exact False.elim
    | fault f => exact False.elim
  | err e =>
    cases aremoveLoop u addr size a a.n 0 with
    | ok y => exact False.elim
    | err e' => intro he; cases he; exact ⟨h, rfl, rfl⟩
    | fault f => exact False.elim
  | fault f =>
    cases aremoveLoop u addr size a a.n 0 with
    | ok y => exact False.elim
    | err e' => exact False.elim
    | fault f => intro he; cases he; exact ⟨h, rfl, rfl⟩

theorem ahandleUnmap_spec (m u : Bool) {a : Arr} (h : a.WF) (addr size : Nat) (k : UnmapKind) :
    (ahandleUnmap m u a addr size k).1.WF ∧
    (ahandleUnmap m u a addr size k).1.ctl = (handleUnmap m u a.ctl addr size k).1 ∧
    (ahandleUnmap m u a addr size k).2 = (handleUnmap m u a.ctl addr size k).2 := by
  unfold ahandleUnmap handleUnmap
  by_cases hm : m = false
  · rw [if_pos hm, if_pos hm]; exact ⟨h, rfl, rfl⟩
  rw [if_neg hm, if_neg hm]
  cases k with
  | all =>
    dsimp only
    unfold aremoveAll removeAll
    rw [show a.ctl.regions = a.slots.take a.n from rfl]
    cases dropAll u (a.slots.take a.n) with
    | ok ev =>
      refine ⟨⟨by simp, Nat.zero_le _⟩, ?_, rfl⟩
      simp only [Arr.ctl, List.take_zero]
    | err e => exact ⟨h, rfl, rfl⟩
    | fault f => exact ⟨h, rfl, rfl⟩
  | plain => exact aunmapTail_spec u h addr size none
  | getDirty pg bs buf hint =>
    dsimp only
    obtain ⟨g1, g2, g3, g4⟩ := dirtyPageGet_geom a.ctl hint addr size pg bs buf
    generalize dirtyPageGet a.ctl hint addr size pg bs buf = o at g1 g2 g3 g4 ⊢
    obtain ⟨c', o⟩ := o
    dsimp only at g1 g2 g3 g4
    have hl : c'.regions.length = a.n := (length_of_geoms g1).trans h.count
    have w := put_wf h hl
    have e := put_ctl (a := a) hl g2 g3
    cases o with
    | done bm =>
      have := aunmapTail_spec u w addr size (some bm)
      rw [e] at this
      exact this
    | ret0 =>
      have := aunmapTail_spec u w addr size (some buf)
      rw [e] at this
      exact this
    | noErrno => exact ⟨w, e, rfl⟩
    | err e' => exact ⟨w, e, rfl⟩
    | fault f => exact ⟨w, e, rfl⟩

theorem astep_spec (cfg : Cfg) {a : Arr} (h : a.WF) (op : Op) :
    (astep cfg a op).1.WF ∧ (astep cfg a op).1.ctl = (step cfg a.ctl op).1 ∧
    (astep cfg a op).2 = (step cfg a.ctl op).2 := by
  cases op with
  | map os q =>
    obtain ⟨w, e1, e2, e3, e4⟩ := ahandleMap_spec os cfg.hasReg h q
    refine ⟨w, e1, ?_⟩
    simp only [astep, step, e2, e3, e4]
  | unmap m addr size k =>
    obtain ⟨w, e1, e2⟩ := ahandleUnmap_spec m cfg.hasUnreg h addr size k
    refine ⟨w, e1, ?_⟩
    simp only [astep, step, e2]
  | logStart ca p =>
    obtain ⟨g1, g2, g3⟩ := loggingStart_geom ca a.ctl p
    have hl := (length_of_geoms (c' := (loggingStart ca a.ctl p).1) (c := a.ctl) (by simp only [Ctl.geoms]; rw [g1])).trans h.count
    exact ⟨put_wf h hl, put_ctl hl g2 g3, rfl⟩
  | logStop =>
    obtain ⟨g1, g2, g3⟩ := loggingStop_geom a.ctl
    have hl := (length_of_geoms (c' := loggingStop a.ctl) (c := a.ctl) (by simp only [Ctl.geoms]; rw [g1])).trans h.count
    exact ⟨put_wf h hl, put_ctl hl g2 g3, rfl⟩
  | query hint addr len pg size buf =>
    obtain ⟨g1, g2, g3, _⟩ := dirtyPageGet_geom a.ctl hint addr len pg size buf
    have hl := (length_of_geoms g1).trans h.count
    exact ⟨put_wf h hl, put_ctl hl g2 g3, rfl⟩
  | mark sgl =>
    unfold astep step
    dsimp only
    cases hs : sglMark a.ctl sgl with
    | ok c' =>
      obtain ⟨g1, g2, g3, _⟩ := sglMark_geom hs
      have hl := (length_of_geoms (c' := c') (c := a.ctl) (by simp only [Ctl.geoms]; rw [g1])).trans h.count
      exact ⟨put_wf h hl, put_ctl hl g2 g3, rfl⟩
    | err e => exact ⟨h, rfl, rfl⟩
    | fault f => exact ⟨h, rfl, rfl⟩

theorem arun_spec (cfg : Cfg) : ∀ (ops : List Op) {a : Arr}, a.WF →
    (arun cfg a ops).1.WF ∧ (arun cfg a ops).1.ctl = (run cfg a.ctl ops).1 ∧
    (arun cfg a ops).2 = replies cfg a.ctl ops ∧ (arun cfg a ops).1.maxRegions = a.maxRegions := by
  intro ops
  induction ops with
  | nil => intro a h; exact ⟨h, rfl, rfl, rfl⟩
  | cons op ops ih =>
    intro a h
    obtain ⟨w, e1, e2⟩ := astep_spec cfg h op
    obtain ⟨w', f1, f2, f3⟩ := ih w
    refine ⟨w', ?_, ?_, ?_⟩
    · show (arun cfg (astep cfg a op).1 ops).1.ctl = (run cfg (step cfg a.ctl op).1 ops).1
      rw [f1, e1]
    · show (astep cfg a op).2 :: (arun cfg (astep cfg a op).1 ops).2 = _
      rw [f2, e1, e2]; rfl
    · show (arun cfg (astep cfg a op).1 ops).1.maxRegions = _
      rw [f3]
      have := congrArg Ctl.maxRegions e1
      exact this.trans (step_geoms cfg a.ctl op).1

theorem asgGet_eq {a : Arr} (h : a.WF) (sg : Sg) : asgGet a sg = sgGet a.ctl sg := by
  have h1 := h.len; have h2 := h.use
  unfold asgGet sgGet
  rw [h.get]
  by_cases hr : sg.region < a.n
  · rw [if_neg (by omega), if_pos hr, List.getElem?_eq_getElem (show sg.region < a.slots.length by omega)]
  · rw [if_pos (by omega), if_neg hr]

theorem aaddrToSgl_eq {a : Arr} (h : a.WF) (hint addr len max : Nat) (w : Bool) :
    aaddrToSgl a hint addr len max w = addrToSgl a.ctl hint addr len max w := by
  have h1 := h.len; have h2 := h.use
  unfold aaddrToSgl addrToSgl
  rw [h.get]
  by_cases hr : hint < a.n
  · rw [if_pos hr, List.getElem?_eq_getElem (show hint < a.slots.length by omega)]
    dsimp only
    generalize a.slots[hint] = r
    by_cases hc : max > 0 ∧ len > 0 ∧ addr ≥ r.info.base ∧ add64 addr len ≤ r.end64
    · rw [if_pos hc, if_pos ⟨hc.1, hc.2.1, hc.2.2.1, hc.2.2.2, hr⟩]
      cases initSg r hint addr len w <;> rfl
    · rw [if_neg hc, if_neg (fun x => hc ⟨x.1, x.2.1, x.2.2.1, x.2.2.2.1⟩)]
  · rw [if_neg hr]
    by_cases hm : hint < a.maxRegions
    · rw [List.getElem?_eq_getElem (show hint < a.slots.length by omega)]
      dsimp only
      rw [if_neg (fun x => hr x.2.2.2.2), if_pos (show hint < a.ctl.maxRegions from hm)]
    · rw [List.getElem?_eq_none (by omega)]
      dsimp only
      rw [if_neg (show ¬ hint < a.ctl.maxRegions from hm)]

/-! ## Indices of entries -/

def SplitStep.Below (n : Nat) : SplitStep → Prop
  | .cont s => ∀ sg ∈ s.sgl, sg.region < n
  | .out s => ∀ sg ∈ s.sgl, sg.region < n
  | _ => True

theorem initSg_region {r : Region} {idx addr len : Nat} {w : Bool} {sg : Sg} (h : initSg r idx addr len w = some sg) :
    sg.region = idx := by
  unfold initSg at h
  split at h
  · cases h
  · cases h; rfl

theorem splitInner_below (max : Nat) (w : Bool) (idx : Nat) (r : Region) (n : Nat) (hi : idx < n) :
    ∀ (fuel : Nat) (s : SplitSt), (∀ sg ∈ s.sgl, sg.region < n) → (splitInner max w idx r fuel s).Below n := by
  intro fuel
  induction fuel with
  | zero => intro s _; trivial
  | succ fuel ih =>
    intro s hs
    unfold splitInner
    by_cases hc : s.addr ≥ r.info.base ∧ s.addr < r.end64
    · rw [if_pos hc]
      dsimp only
      have key : ∀ l, (if s.cnt < max then (initSg r idx s.addr (min (r.end64 - s.addr) s.len) w).map fun sg => s.sgl ++ [sg]
          else some s.sgl) = some l → ∀ sg ∈ l, sg.region < n := by
        intro l hl
        by_cases hm : s.cnt < max
        · rw [if_pos hm, Option.map_eq_some_iff] at hl
          obtain ⟨sg, h1, rfl⟩ := hl
          intro x hx
          rcases List.mem_append.mp hx with hx | hx
          · exact hs x hx
          · rw [List.mem_singleton.mp hx, initSg_region h1]; exact hi
        · rw [if_neg hm] at hl
          cases hl
          exact hs
      generalize (if s.cnt < max then (initSg r idx s.addr (min (r.end64 - s.addr) s.len) w).map fun sg => s.sgl ++ [sg]
          else some s.sgl) = o at key ⊢
      cases o with
      | none => trivial
      | some l =>
        dsimp only
        by_cases hz : s.len - min (r.end64 - s.addr) s.len = 0
        · rw [if_pos hz]; exact key l rfl
        · rw [if_neg hz]; exact ih _ (key l rfl)
    · rw [if_neg hc]; exact hs

theorem splitFor_below (max : Nat) (w : Bool) (n : Nat) : ∀ (rs : List Region) (idx : Nat) (s : SplitSt),
    idx + rs.length = n → (∀ sg ∈ s.sgl, sg.region < n) → (splitFor max w idx rs s).Below n := by
  intro rs
  induction rs with
  | nil => intro idx s _ hs; exact hs
  | cons r rs ih =>
    intro idx s hn hs
    rw [List.length_cons] at hn
    have := splitInner_below max w idx r n (by omega) (s.len + 1) s hs
    unfold splitFor
    cases hi : splitInner max w idx r (s.len + 1) s with
    | cont s' => rw [hi] at this; exact ih (idx + 1) s' (by omega) this
    | out s' => rw [hi] at this; exact this
    | err e => trivial
    | diverge => trivial

theorem splitEnd_below (max n : Nat) (s : SplitSt) (hs : ∀ sg ∈ s.sgl, sg.region < n) (l : List Sg)
    (h : splitEnd max s = .ok l) : ∀ sg ∈ l, sg.region < n := by
  unfold splitEnd at h
  split at h
  · cases h
  · split at h
    · cases h
    · cases h; exact hs

theorem splitOuter_below (max : Nat) (w : Bool) (rs : List Region) : ∀ (fuel : Nat) (s : SplitSt),
    (∀ sg ∈ s.sgl, sg.region < rs.length) → ∀ l, splitOuter max w rs fuel s = .ok l →
    ∀ sg ∈ l, sg.region < rs.length := by
  intro fuel
  induction fuel with
  | zero => intro s _ l h; cases h
  | succ fuel ih =>
    intro s hs l h
    unfold splitOuter at h
    by_cases hc : s.found = true ∧ s.len > 0
    · rw [if_pos hc] at h
      have := splitFor_below max w rs.length rs 0 { s with found := false } (Nat.zero_add _) hs
      cases hf : splitFor max w 0 rs { s with found := false } with
      | cont s' => rw [hf] at h this; exact ih s' this l h
      | out s' => rw [hf] at h this; exact splitEnd_below max _ s' this l h
      | err e => rw [hf] at h; cases h
      | diverge => rw [hf] at h; cases h
    · rw [if_neg hc] at h
      exact splitEnd_below max _ s hs l h

/-- Every entry of a translation is about a region in use. -/
theorem addrToSgl_below (c : Ctl) (hint addr len max : Nat) (w : Bool) (l : List Sg)
    (h : (addrToSgl c hint addr len max w).1 = .ok l) : ∀ sg ∈ l, sg.region < c.regions.length := by
  have slow : (slowPath c hint addr len max w).1 = .ok l → ∀ sg ∈ l, sg.region < c.regions.length := by
    intro h
    unfold slowPath at h
    have : addrSgSplit c addr len max w = .ok l := by
      cases hs : addrSgSplit c addr len max w with
      | ok x => rw [hs] at h; cases x <;> exact h
      | more x => rw [hs] at h; cases h
      | err e => rw [hs] at h; cases h
      | fault f => rw [hs] at h; cases h
    exact splitOuter_below max w c.regions _ _ (by intro sg hsg; cases hsg) l this
  unfold addrToSgl at h
  cases hr : c.regions[hint]? with
  | none =>
    rw [hr] at h
    dsimp only at h
    by_cases hm : hint < c.maxRegions
    · rw [if_pos hm] at h; exact slow h
    · rw [if_neg hm] at h; cases h
  | some r =>
    rw [hr] at h
    dsimp only at h
    by_cases hc : max > 0 ∧ len > 0 ∧ addr ≥ r.info.base ∧ add64 addr len ≤ r.end64
    · rw [if_pos hc] at h
      cases hi : initSg r hint addr len w with
      | none => rw [hi] at h; cases h
      | some sg =>
        rw [hi] at h
        cases h
        intro x hx
        rw [List.mem_singleton.mp hx, initSg_region hi]
        exact (List.getElem?_eq_some_iff.mp hr).1
    · rw [if_neg hc] at h; exact slow h

/-! ## C98 -/

/-- C98: in every history the array of slots behaves like the list of regions: the same replies, events
and descriptors for every request, and at the end the same answer to every translation (with any region
hint) and to every `vfu_sgl_get`. -/
theorem C98_array (cfg : Cfg) (m s : Nat) (ops : List Op) :
    (arun cfg (acreate m s) ops).2 = replies cfg (create m s) ops ∧
    (arun cfg (acreate m s) ops).1.slots.take (arun cfg (acreate m s) ops).1.n = (run cfg (create m s) ops).1.regions ∧
    (∀ hint addr len max w, aaddrToSgl (arun cfg (acreate m s) ops).1 hint addr len max w =
      addrToSgl (run cfg (create m s) ops).1 hint addr len max w) ∧
    (∀ sg, asgGet (arun cfg (acreate m s) ops).1 sg = sgGet (run cfg (create m s) ops).1 sg) := by
  obtain ⟨w, e1, e2, _⟩ := arun_spec cfg ops (wf_acreate m s)
  rw [acreate_ctl] at e1 e2
  exact ⟨e2, congrArg Ctl.regions e1, fun hint addr len max b => by rw [aaddrToSgl_eq w, e1],
    fun sg => by rw [asgGet_eq w, e1]⟩

/-- C98: an entry that `vfu_addr_to_sgl` handed out at any time is never one for which
`vfu_sg_is_mappable` reads outside the array, whatever was mapped and unmapped since. -/
theorem C98_inside (cfg : Cfg) (m s : Nat) (before after : List Op) (hint addr len max : Nat) (w : Bool)
    (l : List Sg) (h : (aaddrToSgl (arun cfg (acreate m s) before).1 hint addr len max w).1 = .ok l) :
    ∀ sg ∈ l, ∃ b, isMappable (arun cfg (arun cfg (acreate m s) before).1 after).1 sg = .ok b := by
  obtain ⟨w1, _, _, e1⟩ := arun_spec cfg before (wf_acreate m s)
  obtain ⟨w2, _, _, e2⟩ := arun_spec cfg after w1
  intro sg hsg
  rw [aaddrToSgl_eq w1] at h
  have := addrToSgl_below _ _ _ _ _ _ l h sg hsg
  rw [w1.count] at this
  have h1 := w1.use; have h2 := w2.len
  unfold isMappable
  rw [List.getElem?_eq_getElem (show sg.region < _ by omega)]
  exact ⟨_, rfl⟩

/-- C98: for an entry of a fresh translation the answer is whether the region that holds it was mapped with
a descriptor, and it is also whether `vfu_sgl_get` gives an address for it: "no" means `EFAULT`. -/
theorem C98_fresh (cfg : Cfg) (m s : Nat) (ops : List Op) (hops : ∀ op ∈ ops, op.OSOk ∧ op.Bounded)
    (hint addr len max : Nat) (w : Bool) (l : List Sg)
    (h : (aaddrToSgl (arun cfg (acreate m s) ops).1 hint addr len max w).1 = .ok l) :
    ∀ sg ∈ l, ∃ r, (run cfg (create m s) ops).1.regions[sg.region]? = some r ∧
      isMappable (arun cfg (acreate m s) ops).1 sg = .ok r.fd.isSome ∧
      (r.fd.isSome = true →
        asgGet (arun cfg (acreate m s) ops).1 sg = .ok (add64 r.info.vaddr sg.offset, sg.length)) ∧
      (r.fd.isSome = false → asgGet (arun cfg (acreate m s) ops).1 sg = .err EFAULT) := by
  obtain ⟨w1, e1, _, _⟩ := arun_spec cfg ops (wf_acreate m s)
  have hinv := inv2_run cfg m s ops hops
  rw [acreate_ctl] at e1
  intro sg hsg
  rw [aaddrToSgl_eq w1] at h
  have hb := addrToSgl_below _ _ _ _ _ _ l h sg hsg
  have hg := List.getElem?_eq_getElem hb
  generalize ((arun cfg (acreate m s) ops).1.ctl.regions[sg.region]'hb) = r at hg
  have hcons : r.Consistent := by
    refine hinv.consistent r ?_
    rw [← e1]
    exact List.mem_of_getElem? hg
  have hn : sg.region < (arun cfg (acreate m s) ops).1.n := by rw [← w1.count]; exact hb
  have hs : (arun cfg (acreate m s) ops).1.slots[sg.region]? = some r := by
    have := w1.get sg.region
    rw [if_pos hn, hg] at this
    exact this.symm
  refine ⟨r, by rw [← e1]; exact hg, ?_, ?_, ?_⟩
  · unfold isMappable
    rw [hs]
    dsimp only
    congr 1
    unfold Region.Consistent at hcons
    cases hfd : r.fd with
    | none =>
      rw [hfd] at hcons
      simp only [ne_eq, not_true_eq_false, iff_false, Decidable.not_not] at hcons
      simp [hcons]
    | some x =>
      rw [hfd] at hcons
      simp at hcons
      simp [hcons]
  · intro hfd
    unfold asgGet
    rw [if_neg (by omega), hs]
    dsimp only
    have hv : r.info.vaddr ≠ 0 := hcons.mpr (by intro h0; rw [h0] at hfd; cases hfd)
    rw [if_neg hv]
  · intro hfd
    unfold asgGet
    rw [if_neg (by omega), hs]
    dsimp only
    rw [if_pos]
    have : ¬ r.fd ≠ none := by
      intro hne
      cases hx : r.fd with
      | none => exact hne hx
      | some x => rw [hx] at hfd; cases hfd
    exact Decidable.not_not.mp (fun hv => this (hcons.mp hv))

/-- C98: the answer about a region in use does not change by any further requests that unmap neither that
region nor one before it. -/
theorem C98_stable (cfg : Cfg) (m s : Nat) (before after : List Op) (sg : Sg)
    (hreg : sg.region < (arun cfg (acreate m s) before).1.n)
    (h : ∀ op ∈ after, op.Keeps ((run cfg (create m s) before).1.regions.take (sg.region + 1))) :
    isMappable (arun cfg (arun cfg (acreate m s) before).1 after).1 sg =
      isMappable (arun cfg (acreate m s) before).1 sg := by
  obtain ⟨w1, e1, _, _⟩ := arun_spec cfg before (wf_acreate m s)
  obtain ⟨w2, e2, _, _⟩ := arun_spec cfg after w1
  rw [acreate_ctl] at e1
  have hc := C10_stable cfg (run cfg (create m s) before).1 after sg (by rw [← e1, w1.count]; exact hreg) h
  rw [e1] at e2
  rw [← e2, ← asgGet_eq w2, ← e1, ← asgGet_eq w1] at hc
  have get1 : asgGet (arun cfg (acreate m s) before).1 sg ≠ .err EINVAL := by
    unfold asgGet
    rw [if_neg (by omega)]
    cases (arun cfg (acreate m s) before).1.slots[sg.region]? with
    | none => intro hh; cases hh
    | some r =>
      dsimp only
      by_cases hv : r.info.vaddr = 0
      · rw [if_pos hv]; intro hh; exact absurd hh (by decide)
      · rw [if_neg hv]; intro hh; cases hh
  have hreg2 : ¬ sg.region ≥ (arun cfg (arun cfg (acreate m s) before).1 after).1.n := by
    intro hge
    apply get1
    rw [← hc]
    unfold asgGet
    rw [if_pos hge]
  have key : ∀ a : Arr, ¬ sg.region ≥ a.n → isMappable a sg =
      (match asgGet a sg with | .ok _ => .ok true | .err _ => .ok false | .fault f => .fault f) := by
    intro a ha
    unfold isMappable asgGet
    rw [if_neg ha]
    cases a.slots[sg.region]? with
    | none => rfl
    | some r =>
      dsimp only
      by_cases hv : r.info.vaddr = 0
      · rw [if_pos hv]; simp [hv]
      · rw [if_neg hv]; simp [hv]
  rw [key _ hreg2, key _ (by omega), hc]

/-- C98: past the last region in use the answer is that of whatever was last in the slot.  After the last
region was unmapped its entry is still reported mappable, while `vfu_sgl_get` refuses it: the memory is
gone.  After everything was unmapped the answer is "no". -/
theorem C98_stale :
    let a := (arun cfg0 (acreate 64 0x10000) hist4).1
    let sg : Sg := ⟨0x3000, 2, 0x100, 0x10, true⟩
    let a1 := (arun cfg0 a [.unmap true 0x3000 0x1000 .plain]).1
    let a2 := (arun cfg0 a [.unmap true 0 0 .all]).1
    (aaddrToSgl a 0 0x3010 0x100 1 true).1 = .ok [sg] ∧ isMappable a sg = .ok true ∧
    a1.n = 2 ∧ isMappable a1 sg = .ok true ∧ asgGet a1 sg = .err EINVAL ∧
    (arun cfg0 a [.unmap true 0x3000 0x1000 .plain]).2.map (·.2) =
      [[.unregister (a.slots[2]'(by decide +kernel)).info, .munmap 0x50000000 0x1000, .close 8]] ∧
    isMappable a2 sg = .ok false := by
  decide +kernel

/-- A region without a file beside one with a file: the answers differ. -/
example :
    let ops := [mapFd 0x1000 0x1000 0 4, mapAt 0x2000 0x1000]
    let a := (arun cfg0 (acreate 64 0x10000) ops).1
    (∀ op ∈ ops, op.OSOk ∧ op.Bounded) ∧
    (aaddrToSgl a 0 0x1f00 0x200 2 true).1 = .ok [⟨0x1000, 0, 0x100, 0xf00, true⟩, ⟨0x2000, 1, 0x100, 0, true⟩] ∧
    isMappable a ⟨0x1000, 0, 0x100, 0xf00, true⟩ = .ok true ∧ isMappable a ⟨0x2000, 1, 0x100, 0, true⟩ = .ok false := by
  refine ⟨?_, by decide +kernel, by decide +kernel, by decide +kernel⟩
  intro op hop
  simp only [List.mem_cons, List.not_mem_nil, or_false] at hop
  rcases hop with rfl | rfl
  · exact ⟨os0_ok, by simp only [Op.Bounded, mapFd, MapReq.Bounded]; decide⟩
  · exact ⟨os0_ok, by simp only [Op.Bounded, mapAt, MapReq.Bounded]; decide⟩

/-- The hypotheses of `C98_stable` with requests that do move slots: an unmap of a later region. -/
example :
    let a := (arun cfg0 (acreate 64 0x10000) hist4).1
    let sg : Sg := ⟨0x2000, 1, 0x100, 0x10, true⟩
    let ops := [.unmap true 0x3000 0x1000 .plain, mapAt 0x9000 0x1000]
    sg.region < a.n ∧ (∀ op ∈ ops, op.Keeps ((run cfg0 (create 64 0x10000) hist4).1.regions.take (sg.region + 1))) ∧
    isMappable (arun cfg0 a ops).1 sg = .ok true := by
  refine ⟨by decide +kernel, ?_, by decide +kernel⟩
  intro op hop
  simp only [List.mem_cons, List.not_mem_nil, or_false] at hop
  rcases hop with rfl | rfl
  · exact ⟨by decide, by decide +kernel⟩
  · trivial

end Verif.Dma
