import Verif.Server.BlocksProps

/-!
# The memory of a device

C99.  The blocks that belong to a context: the context itself, its path, its regions with their lists of mappable areas and
ioeventfds, the transport's data, the config space, the DMA controller, the migration state, the interrupts.  They are allocated by
`vfu_create_ctx` and by the set-up functions, in whatever order the device calls them, and freed by `vfu_destroy_ctx`.  As in
`Server/Blocks.lean` the decisions that do not depend on memory are left open: the operations say which way they go.

The heap is that of `Server/Blocks.lean`.  Serving a client allocates and frees none of these blocks; it is not modelled here
(requests: C96, dirty bitmaps: C94, descriptors: C83).
-/

namespace Verif.Estate
open Verif.Blocks (HEv take use useIf release Proper Live Inv inv_take inv_use inv_useIf inv_release inv_init)

/-- `lib/private.h:130-148` `vfu_reg_info_t`: the list of mappable areas and the ioeventfds. -/
structure Reg where
  areas : Option Nat
  subs : List Nat
  deriving DecidableEq, Repr

def Reg.blocks (r : Reg) : List Nat := r.areas.toList ++ r.subs

/-- `lib/private.h:158-197` `vfu_ctx_t`: its pointers.  `nr` is `nr_regions`, `regs` what is in the block `regInfo`. -/
structure St where
  heap : Blocks.Ctx
  ctx : Option Nat
  uuid : Option Nat
  nr : Nat
  regInfo : Option Nat
  regs : List Reg
  tran : Option Nat
  config : Option Nat
  dma : Option Nat
  migration : Option Nat
  irqs : Option Nat
  realized : Bool
  deriving DecidableEq, Repr

/-- No context. -/
def empty (h : Blocks.Ctx) : St :=
  { heap := h, ctx := none, uuid := none, nr := 0, regInfo := none, regs := [], tran := none, config := none, dma := none
    migration := none, irqs := none, realized := false }

def St.init : St := empty Blocks.Ctx.init

/-- `free_sparse_mmap_areas` (`lib/libvfio-user.c:1788-1798`): one round per region. -/
def freeAreas (p : Option Nat) : List Reg → Blocks.Ctx → Blocks.Ctx
  | [], h => h
  | r :: rs, h => freeAreas p rs (release (use h p) r.areas)

/-- The inner loop of `free_regions` (`lib/libvfio-user.c:499-503`). -/
def freeSubs : List Nat → Blocks.Ctx → Blocks.Ctx
  | [], h => h
  | n :: ns, h => freeSubs ns (release (use h (some n)) (some n))

/-- The outer loop of `free_regions` (`lib/libvfio-user.c:496-504`). -/
def freeRegs (p : Option Nat) : List Reg → Blocks.Ctx → Blocks.Ctx
  | [], h => h
  | r :: rs, h => freeRegs p rs (freeSubs r.subs (use h p))

/-- The end of the process by use of a null pointer. -/
def crash (h : Blocks.Ctx) : Blocks.Ctx := { use h none with dead := true }

/-- `lib/libvfio-user.c:1843-1870` `vfu_destroy_ctx`, up to `free_sparse_mmap_areas`: `vfu_reset_ctx_quiesced` (1800-1818) uses what there
is of the controller, the migration state, the interrupts and the transport; `fini` (`lib/tran_sock.c:665-683`, `lib/tran_pipe.c:444-454`). -/
def destroyHead (s : St) : Blocks.Ctx :=
  let h := useIf (useIf (useIf (useIf (use s.heap s.ctx) s.dma) s.migration) s.irqs) s.tran
  let h := release h s.config
  let h := release (useIf h s.tran) s.tran
  release (useIf h s.dma) s.dma

/-- The rest of `vfu_destroy_ctx`: both loops read `vfu_ctx->reg_info` without a check, the second one for all ten regions
(`VFU_PCI_DEV_NUM_REGIONS`) whatever `nr_regions` is. -/
def destroy (s : St) : St :=
  match s.regInfo with
  | none => empty (crash (destroyHead s))
  | some p =>
    let h := freeRegs (some p) s.regs (freeAreas (some p) s.regs (destroyHead s))
    let h := release h (some p)
    let h := release (release (release h s.migration) s.irqs) s.uuid
    empty (release h s.ctx)

/-- The way `vfu_create_ctx` goes.  `refuse`: bad flags, transport or device type.  `init`: the transport's `init` succeeds once it has
its memory (the socket can be bound). -/
structure Create where
  refuse : Bool
  memCtx : Bool
  memUuid : Bool
  memRegs : Bool
  memTran : Bool
  init : Bool
  deriving DecidableEq, Repr

/-- The transport's `init` (`lib/tran_sock.c:367-432`, `lib/tran_pipe.c:247-265`); a socket that cannot be set up frees its data. -/
def tranInit (w : Create) (s : St) : St × Bool :=
  let (h, t) := take s.heap w.memTran
  match t with
  | none => ({ s with heap := h }, false)
  | some b =>
    if w.init = false then ({ s with heap := release (use h (some b)) (some b) }, false)
    else ({ s with heap := use h (some b), tran := some b }, true)

/-- `lib/libvfio-user.c:1880-1968` `vfu_create_ctx`.  A failure on the way destroys what there is (1962-1965). -/
def create (w : Create) (s : St) : St :=
  if w.refuse = true then s
  else
    let (h, c) := take s.heap w.memCtx
    match c with
    | none => { s with heap := h }
    | some b =>
      let (h, u) := take (use h (some b)) w.memUuid
      match u with
      | none => destroy { empty h with ctx := some b }
      | some u =>
        let (h, r) := take h w.memRegs
        match r with
        | none => destroy { empty h with ctx := some b, uuid := some u, nr := 10 }
        | some r =>
          let s1 : St :=
            { empty (use h (some r)) with ctx := some b, uuid := some u, nr := 10, regInfo := some r
                                          regs := List.replicate 10 { areas := none, subs := [] } }
          match tranInit w s1 with
          | (s2, true) => s2
          | (s2, false) => destroy s2

/-- `lib/pci.c:454-504` `vfu_pci_init`; `refuse`: bad type. -/
def pciInit (refuse mem : Bool) (s : St) : St :=
  if refuse = true ∨ s.config ≠ none then s
  else
    let (h, b) := take s.heap mem
    match b with
    | none => { s with heap := h }
    | some b => { s with heap := use h s.regInfo, config := some b }

/-- `lib/libvfio-user.c:2038-2106` `vfu_setup_region`.  `refuse`: bad arguments; `areas`: there are areas to be copied
(`copyin_mmap_areas`, 2004-2022), which overwrites the pointer.  Without memory the whole entry is zeroed (2101-2105). -/
def region (i : Nat) (refuse areas mem : Bool) (s : St) : St :=
  if refuse = true then s
  else
    match s.regs[i]? with
    | none => s
    | some r =>
      let h := use s.heap s.regInfo
      if areas = false then { s with heap := h }
      else
        let (h, b) := take h mem
        match b with
        | none => { s with heap := h, regs := s.regs.set i { areas := none, subs := [] } }
        | some b => { s with heap := use h (some b), regs := s.regs.set i { r with areas := some b } }

/-- `lib/libvfio-user.c:446-487` `vfu_create_ioeventfd`. -/
def ioeventfd (i : Nat) (refuse mem : Bool) (s : St) : St :=
  match s.regs[i]? with
  | none => s
  | some r =>
    let h := use s.heap s.regInfo
    if refuse = true then { s with heap := h }
    else
      let (h, b) := take h mem
      match b with
      | none => { s with heap := h }
      | some b => { s with heap := use h (some b), regs := s.regs.set i { r with subs := b :: r.subs } }

/-- `lib/libvfio-user.c:2122-2141` `vfu_setup_device_dma`: the pointer is overwritten in any case. -/
def setupDma (mem : Bool) (s : St) : St :=
  let (h, b) := take s.heap mem
  { s with heap := useIf h b, dma := b }

/-- `lib/libvfio-user.c:2174-2197` `vfu_setup_device_migration_callbacks` and `lib/migration.c:142-174` `init_migration`.  `refuse`: the
version is wrong; `cbs`: the callbacks are there.  The pointer is overwritten unless the version is wrong. -/
def setupMigration (refuse mem cbs : Bool) (s : St) : St :=
  if refuse = true then s
  else
    let (h, b) := take s.heap mem
    if cbs = false then { s with heap := release (useIf h b) b, migration := none }
    else { s with heap := useIf h b, migration := b }

/-- `lib/libvfio-user.c:1696-1786` `vfu_realize_ctx`. -/
def realize (mem1 mem2 : Bool) (s : St) : St :=
  if s.realized = true then s
  else
    let h := use s.heap s.regInfo
    let (h, c) := match s.config with
      | some c => (h, some c)
      | none => take h mem1
    match c with
    | none => { s with heap := h }
    | some c =>
      let h := use h (some c)
      match s.irqs with
      | some i => { s with heap := use h (some i), config := some c, realized := true }
      | none =>
        let (h, i) := take h mem2
        match i with
        | none => { s with heap := h, config := some c }
        | some i => { s with heap := use (use h (some i)) (some c), config := some c, irqs := some i, realized := true }

inductive Op where
  | create (w : Create)
  | pciInit (refuse mem : Bool)
  | region (i : Nat) (refuse areas mem : Bool)
  | ioeventfd (i : Nat) (refuse mem : Bool)
  | dma (mem : Bool)
  | migration (refuse mem cbs : Bool)
  | realize (mem1 mem2 : Bool)
  | destroy
  deriving DecidableEq, Repr

/-- A call with an existing context. -/
def call (s : St) : Op → St
  | .create _ => s
  | .pciInit r m => pciInit r m s
  | .region i r a m => region i r a m s
  | .ioeventfd i r m => ioeventfd i r m s
  | .dma m => setupDma m s
  | .migration r m c => setupMigration r m c s
  | .realize a b => realize a b s
  | .destroy => destroy s

/-- One call.  Only `vfu_create_ctx` makes sense without a context; a second context has its own blocks and is not followed. -/
def step (s : St) (op : Op) : St :=
  if s.heap.dead = true then s
  else
    match s.ctx with
    | none => match op with | .create w => create w s | _ => s
    | some _ => call s op

def run (s : St) (ops : List Op) : St := ops.foldl step s

/-- The blocks the context can still reach. -/
def owned (s : St) : List Nat :=
  s.ctx.toList ++ s.uuid.toList ++ s.regInfo.toList ++ s.regs.flatMap Reg.blocks ++ s.tran.toList ++ s.config.toList ++
    s.dma.toList ++ s.migration.toList ++ s.irqs.toList

/-- The blocks whose last pointer a call overwrites: a second controller, a second migration state, a second list of areas for the same
region, and the ioeventfds of a region whose set-up fails for want of memory. -/
def drops (s : St) : Op → List Nat
  | .dma _ => s.dma.toList
  | .migration false _ _ => s.migration.toList
  | .region i false true m =>
    match s.regs[i]? with
    | none => []
    | some r => r.areas.toList ++ if m = true then [] else r.subs
  | _ => []

/-- What is lost over a sequence of calls. -/
def strays (s : St) : List Op → List Nat
  | [] => []
  | op :: ops => drops s op ++ strays (step s op) ops

/-- There is memory for the path and the regions, if it comes to that. -/
def Op.Roomy : Op → Prop
  | .create w => w.refuse = false → w.memCtx = true → w.memUuid = true ∧ w.memRegs = true
  | _ => True

/-! ## The invariant -/

/-- The live blocks are those of the context and the lost ones. -/
structure Sane (s : St) (l : List Nat) : Prop where
  inv : Inv s.heap (owned s ++ l)
  alive : s.heap.dead = false
  regs : s.ctx ≠ none → ∃ p, s.regInfo = some p
  none : s.ctx = none → s = empty s.heap

theorem Inv.count {h : Blocks.Ctx} {l l' : List Nat} (hi : Inv h l) (hc : ∀ b, l.count b = l'.count b) : Inv h l' :=
  hi.perm (List.perm_iff_count.mpr hc)

theorem take_dead (h : Blocks.Ctx) (m : Bool) : (take h m).1.dead = h.dead := by
  unfold take; cases m <;> rfl

theorem take_true (h : Blocks.Ctx) : take h true = ({ h with next := h.next + 1, tr := h.tr ++ [.alloc h.next] }, some h.next) := rfl

theorem take_false (h : Blocks.Ctx) : take h false = (h, none) := rfl

theorem useIf_dead (h : Blocks.Ctx) (p : Option Nat) : (useIf h p).dead = h.dead := by cases p <;> rfl

theorem release_dead (h : Blocks.Ctx) (p : Option Nat) : (release h p).dead = h.dead := by cases p <;> rfl

theorem use_dead (h : Blocks.Ctx) (p : Option Nat) : (use h p).dead = h.dead := rfl

/-- Release of a block in the middle. -/
theorem inv_free {h : Blocks.Ctx} {l l' : List Nat} {p : Option Nat} (hi : Inv h l)
    (hc : ∀ b, l.count b = p.toList.count b + l'.count b) : Inv (release h p) l' :=
  inv_release (Inv.count hi fun b => by rw [List.count_append]; exact hc b)

theorem mem_toList {p : Option Nat} {b : Nat} (h : p = some b) : b ∈ p.toList := by rw [h]; exact List.mem_cons_self

theorem freeAreas_ok (p : Nat) : ∀ (rs : List Reg) (h : Blocks.Ctx) (l : List Nat),
    Inv h (rs.flatMap Reg.blocks ++ (p :: l)) →
    Inv (freeAreas (some p) rs h) (rs.flatMap Reg.subs ++ (p :: l)) ∧ (freeAreas (some p) rs h).dead = h.dead := by
  intro rs
  induction rs with
  | nil => intro h l hi; exact ⟨hi, rfl⟩
  | cons r rs ih =>
    intro h l hi
    have h1 : Inv (use h (some p)) ((r :: rs).flatMap Reg.blocks ++ (p :: l)) := inv_use hi (by simp)
    have h2 : Inv (release (use h (some p)) r.areas) (rs.flatMap Reg.blocks ++ (p :: (r.subs ++ l))) :=
      inv_free h1 (fun b => by
        simp only [List.flatMap_cons, Reg.blocks, List.count_append, List.count_cons]
        omega)
    obtain ⟨h3, h4⟩ := ih _ _ h2
    refine ⟨Inv.count h3 fun b => ?_, h4.trans (release_dead _ _)⟩
    simp only [List.flatMap_cons, List.count_append, List.count_cons]
    omega

theorem freeSubs_ok : ∀ (ns : List Nat) (h : Blocks.Ctx) (l : List Nat), Inv h (ns ++ l) →
    Inv (freeSubs ns h) l ∧ (freeSubs ns h).dead = h.dead := by
  intro ns
  induction ns with
  | nil => intro h l hi; exact ⟨hi, rfl⟩
  | cons n ns ih =>
    intro h l hi
    have h1 : Inv (use h (some n)) (n :: ns ++ l) := inv_use hi (by simp)
    have h2 : Inv (release (use h (some n)) (some n)) (ns ++ l) := inv_release h1
    obtain ⟨h3, h4⟩ := ih _ _ h2
    exact ⟨h3, h4⟩

theorem freeRegs_ok (p : Nat) : ∀ (rs : List Reg) (h : Blocks.Ctx) (l : List Nat),
    Inv h (rs.flatMap Reg.subs ++ (p :: l)) →
    Inv (freeRegs (some p) rs h) (p :: l) ∧ (freeRegs (some p) rs h).dead = h.dead := by
  intro rs
  induction rs with
  | nil => intro h l hi; exact ⟨hi, rfl⟩
  | cons r rs ih =>
    intro h l hi
    have h1 : Inv (use h (some p)) ((r :: rs).flatMap Reg.subs ++ (p :: l)) := inv_use hi (by simp)
    have h2 : Inv (use h (some p)) (r.subs ++ (rs.flatMap Reg.subs ++ (p :: l))) := by
      rw [List.flatMap_cons, List.append_assoc] at h1; exact h1
    obtain ⟨h3, h4⟩ := freeSubs_ok _ _ _ h2
    obtain ⟨h5, h6⟩ := ih _ _ h3
    exact ⟨h5, h6.trans h4⟩

theorem destroyHead_ok {s : St} {l : List Nat} (hi : Inv s.heap (owned s ++ l)) (hc : ∃ c, s.ctx = some c) :
    Inv (destroyHead s) (s.regs.flatMap Reg.blocks ++
      (s.regInfo.toList ++ (s.migration.toList ++ s.irqs.toList ++ s.uuid.toList ++ s.ctx.toList ++ l))) ∧
    (destroyHead s).dead = s.heap.dead := by
  obtain ⟨c, hc⟩ := hc
  unfold destroyHead
  dsimp only
  have m1 : c ∈ owned s ++ l := by simp [owned, hc]
  have h1 : Inv (use s.heap s.ctx) (owned s ++ l) := by rw [hc]; exact inv_use hi m1
  have h2 := inv_useIf (p := s.dma) h1 (fun b hb => by simp [owned, hb])
  have h3 := inv_useIf (p := s.migration) h2 (fun b hb => by simp [owned, hb])
  have h4 := inv_useIf (p := s.irqs) h3 (fun b hb => by simp [owned, hb])
  have h5 := inv_useIf (p := s.tran) h4 (fun b hb => by simp [owned, hb])
  have h6 := inv_free (p := s.config) (l' := s.tran.toList ++ (s.dma.toList ++ (s.regs.flatMap Reg.blocks ++
      (s.regInfo.toList ++ (s.migration.toList ++ s.irqs.toList ++ s.uuid.toList ++ s.ctx.toList ++ l))))) h5 (fun b => by
    simp only [owned, List.count_append]; omega)
  have h7 := inv_useIf (p := s.tran) h6 (fun b hb => by simp [hb])
  have h8 := inv_release h7
  have h9 := inv_useIf (p := s.dma) h8 (fun b hb => by simp [hb])
  have h10 := inv_release h9
  refine ⟨h10, ?_⟩
  simp only [release_dead, useIf_dead, use_dead]

theorem destroy_ok {s : St} {l : List Nat} (hs : Sane s l) (hc : ∃ c, s.ctx = some c) : Sane (destroy s) l := by
  obtain ⟨p, hp⟩ := hs.regs (by obtain ⟨c, hc⟩ := hc; rw [hc]; simp)
  obtain ⟨h1, d1⟩ := destroyHead_ok hs.inv hc
  unfold destroy
  rw [hp]
  dsimp only
  rw [hp] at h1
  obtain ⟨h2, d2⟩ := freeAreas_ok p _ _ _ h1
  obtain ⟨h3, d3⟩ := freeRegs_ok p _ _ _ h2
  have h4 := inv_release (p := some p) h3
  simp only [List.append_assoc] at h4
  have h5 := inv_release (inv_release (inv_release (inv_release h4)))
  refine ⟨h5, ?_, fun h => absurd rfl h, fun _ => rfl⟩
  show (release _ s.ctx).dead = false
  simp only [release_dead]
  rw [d3, d2, d1]
  exact hs.alive

theorem tranInit_ok (w : Create) {s : St} {l : List Nat} (hs : Sane s l) (ht : s.tran = none) (hc : ∃ c, s.ctx = some c) :
    Sane (tranInit w s).1 l ∧ ∃ c, (tranInit w s).1.ctx = some c := by
  unfold tranInit
  cases w.memTran with
  | false => exact ⟨⟨hs.inv, hs.alive, hs.regs, hs.none⟩, hc⟩
  | true =>
    have h1 := inv_take hs.inv true
    rw [take_true] at h1 ⊢
    dsimp only at h1 ⊢
    have h2 := inv_use h1 (b := s.heap.next) (by simp)
    by_cases hi : w.init = false
    · rw [if_pos hi]
      obtain ⟨c, hc⟩ := hc
      exact ⟨⟨inv_release h2, hs.alive, hs.regs, fun h => by rw [hc] at h; cases h⟩, c, hc⟩
    · rw [if_neg hi]
      obtain ⟨c, hc⟩ := hc
      refine ⟨⟨Inv.count h2 fun b => ?_, hs.alive, hs.regs, fun h => by rw [hc] at h; cases h⟩, c, hc⟩
      simp only [owned, ht, List.count_append, Option.toList_some, Option.toList_none, List.count_nil]
      omega

theorem create_ok (w : Create) {s : St} {l : List Nat} (hs : Sane s l) (hn : s.ctx = none) (hr : (Op.create w).Roomy) :
    Sane (create w s) l := by
  unfold create
  by_cases h0 : w.refuse = true
  · rw [if_pos h0]; exact hs
  rw [if_neg h0]
  have h0' : w.refuse = false := by cases h : w.refuse <;> simp_all
  have hr := hr h0'
  have he := hs.none hn
  have hinv := hs.inv
  have hal := hs.alive
  rw [he] at hinv
  cases hm : w.memCtx with
  | false => rw [take_false]; exact ⟨hs.inv, hs.alive, hs.regs, hs.none⟩
  | true =>
    obtain ⟨hu, hg⟩ := hr hm
    have h1 := inv_use (inv_take hinv true) (b := s.heap.next) (by simp [take_true, empty])
    have h2 := inv_take h1 true
    have h3 := inv_take h2 true
    rw [hu, hg]
    simp only [take_true] at h1 h2 h3 ⊢
    have h4 := inv_use h3 (b := (use (take s.heap true).1 (some s.heap.next)).next + 1) (by simp [take_true, empty])
    rw [take_true] at h4
    dsimp only at h4
    generalize hs1 : ({ empty (use _ _) with ctx := some _, uuid := some _, nr := 10, regInfo := some _, regs := _ } : St) = s1
    have sane1 : Sane s1 l := by
      subst hs1
      refine ⟨Inv.count h4 fun b => ?_, hal, fun _ => ⟨_, rfl⟩, fun h => by cases h⟩
      simp only [owned, empty, List.count_append, Option.toList_some, Option.toList_none, List.count_nil, List.nil_append]
      rw [show (List.replicate 10 ({ areas := none, subs := [] } : Reg)).flatMap Reg.blocks = [] from rfl]
      simp only [List.count_nil, List.flatMap_nil]
      omega
    have t1 : s1.tran = none := by subst hs1; rfl
    have c1 : ∃ c, s1.ctx = some c := by subst hs1; exact ⟨_, rfl⟩
    obtain ⟨h5, h6⟩ := tranInit_ok w sane1 t1 c1
    generalize tranInit w s1 = o at h5 h6
    obtain ⟨s2, b⟩ := o
    cases b with
    | true => exact h5
    | false => exact destroy_ok h5 h6

theorem count_set : ∀ (rs : List Reg) (i : Nat) (r r' : Reg) (b : Nat), rs[i]? = some r →
    ((rs.set i r').flatMap Reg.blocks).count b + r.blocks.count b = (rs.flatMap Reg.blocks).count b + r'.blocks.count b := by
  intro rs
  induction rs with
  | nil => intro i r r' b h; cases h
  | cons x rs ih =>
    intro i r r' b h
    cases i with
    | zero =>
      cases h
      simp only [List.set_cons_zero, List.flatMap_cons, List.count_append]
      omega
    | succ i =>
      have := ih i r r' b h
      simp only [List.set_cons_succ, List.flatMap_cons, List.count_append]
      omega

theorem call_ok (op : Op) {s : St} {l : List Nat} (hs : Sane s l) (hc : ∃ c, s.ctx = some c) :
    Sane (call s op) (drops s op ++ l) := by
  obtain ⟨c, hcc⟩ := hc
  obtain ⟨p, hp⟩ := hs.regs (by rw [hcc]; simp)
  have hreg : Inv (use s.heap s.regInfo) (owned s ++ l) := by
    rw [hp]; exact inv_use hs.inv (by simp [owned, hp])
  have hno : ∀ x : Option Nat, x = some c → ¬ x = none := fun x h h' => by rw [h] at h'; cases h'
  cases op with
  | create w => exact hs
  | pciInit r m =>
    show Sane (pciInit r m s) l
    unfold pciInit
    by_cases h0 : r = true ∨ s.config ≠ none
    · rw [if_pos h0]; exact hs
    rw [if_neg h0]
    have hcfg : s.config = none := by
      by_contra hne
      exact h0 (.inr hne)
    cases m with
    | false => exact ⟨hs.inv, hs.alive, hs.regs, fun h => absurd h (hno _ hcc)⟩
    | true =>
      have h1 := inv_take hs.inv true
      rw [take_true] at h1 ⊢
      dsimp only at h1 ⊢
      refine ⟨?_, hs.alive, hs.regs, fun h => absurd h (hno _ hcc)⟩
      rw [hp]
      refine Inv.count (inv_use h1 (b := p) (by simp [owned, hp])) fun b => ?_
      simp only [owned, hcfg, hp, List.count_append, Option.toList_some, Option.toList_none, List.count_nil]
      omega
  | region i r a m =>
    show Sane (region i r a m s) _
    unfold region
    cases r with
    | true => rw [if_pos rfl]; exact hs
    | false =>
      rw [if_neg (by decide)]
      cases a with
      | false =>
        cases hr : s.regs[i]? with
        | none => exact hs
        | some r => exact ⟨hreg, hs.alive, hs.regs, fun h => absurd h (hno _ hcc)⟩
      | true =>
        cases hr : s.regs[i]? with
        | none =>
          have hd : drops s (.region i false true m) = [] := by simp only [drops, hr]
          rw [hd]; exact hs
        | some r =>
          have hd : drops s (.region i false true m) = r.areas.toList ++ if m = true then [] else r.subs := by
            simp only [drops, hr]
          rw [hd]
          dsimp only
          rw [if_neg (by decide)]
          cases m with
          | false =>
            rw [take_false]
            dsimp only
            refine ⟨Inv.count hreg fun b => ?_, hs.alive, hs.regs, fun h => absurd h (hno _ hcc)⟩
            have := count_set s.regs i r { areas := none, subs := [] } b hr
            simp only [Reg.blocks, List.count_append, Option.toList_none, List.count_nil] at this
            rw [if_neg (by decide)]
            simp only [owned, List.count_append]
            omega
          | true =>
            have h1 := inv_take hreg true
            rw [take_true] at h1 ⊢
            dsimp only at h1 ⊢
            have h2 := inv_use h1 (b := (use s.heap s.regInfo).next) (by simp)
            refine ⟨Inv.count h2 fun b => ?_, hs.alive, hs.regs, fun h => absurd h (hno _ hcc)⟩
            have := count_set s.regs i r { r with areas := some (use s.heap s.regInfo).next } b hr
            simp only [Reg.blocks, List.count_append, Option.toList_some] at this
            rw [if_pos rfl]
            simp only [owned, List.count_append, Option.toList_some, List.count_nil]
            omega
  | ioeventfd i r m =>
    show Sane (ioeventfd i r m s) l
    unfold ioeventfd
    cases hr : s.regs[i]? with
    | none => exact hs
    | some x =>
      dsimp only
      cases r with
      | true => rw [if_pos rfl]; exact ⟨hreg, hs.alive, hs.regs, fun h => absurd h (hno _ hcc)⟩
      | false =>
        rw [if_neg (by decide)]
        cases m with
        | false => rw [take_false]; exact ⟨hreg, hs.alive, hs.regs, fun h => absurd h (hno _ hcc)⟩
        | true =>
          have h1 := inv_take hreg true
          rw [take_true] at h1 ⊢
          dsimp only at h1 ⊢
          have h2 := inv_use h1 (b := (use s.heap s.regInfo).next) (by simp)
          refine ⟨Inv.count h2 fun b => ?_, hs.alive, hs.regs, fun h => absurd h (hno _ hcc)⟩
          have := count_set s.regs i x { x with subs := (use s.heap s.regInfo).next :: x.subs } b hr
          simp only [Reg.blocks, List.count_append, List.count_cons] at this
          simp only [owned, List.count_append, Option.toList_some, List.count_cons, List.count_nil]
          omega
  | dma m =>
    show Sane (setupDma m s) (s.dma.toList ++ l)
    unfold setupDma
    have h1 := inv_take hs.inv m
    have h2 := inv_useIf h1 (p := (take s.heap m).2) (fun b hb => List.mem_append_left _ (mem_toList hb))
    refine ⟨Inv.count h2 fun b => ?_, ?_, hs.regs, fun h => absurd h (hno _ hcc)⟩
    · simp only [owned, List.count_append]
      omega
    · show (useIf _ _).dead = false
      rw [useIf_dead, take_dead]; exact hs.alive
  | migration r m cbs =>
    show Sane (setupMigration r m cbs s) _
    unfold setupMigration
    cases r with
    | true => rw [if_pos rfl]; exact hs
    | false =>
      rw [if_neg (by decide)]
      show Sane _ (s.migration.toList ++ l)
      dsimp only
      have h1 := inv_take hs.inv m
      have h2 := inv_useIf h1 (p := (take s.heap m).2) (fun b hb => List.mem_append_left _ (mem_toList hb))
      cases cbs with
      | false =>
        rw [if_pos rfl]
        refine ⟨Inv.count (inv_release h2) fun b => ?_, ?_, hs.regs, fun h => absurd h (hno _ hcc)⟩
        · simp only [owned, List.count_append, Option.toList_none, List.count_nil]
          omega
        · show (release _ _).dead = false
          rw [release_dead, useIf_dead, take_dead]; exact hs.alive
      | true =>
        rw [if_neg (by decide)]
        refine ⟨Inv.count h2 fun b => ?_, ?_, hs.regs, fun h => absurd h (hno _ hcc)⟩
        · simp only [owned, List.count_append]
          omega
        · show (useIf _ _).dead = false
          rw [useIf_dead, take_dead]; exact hs.alive
  | realize m1 m2 =>
    show Sane (realize m1 m2 s) l
    unfold realize
    by_cases h0 : s.realized = true
    · rw [if_pos h0]; exact hs
    rw [if_neg h0]
    dsimp only
    -- after the config space
    have key : ∀ (h : Blocks.Ctx) (b : Nat), Inv h (owned { s with config := some b } ++ l) → h.dead = false →
        Sane (match s.irqs with
          | some i => { s with heap := use (use h (some b)) (some i), config := some b, realized := true }
          | none =>
            match (take (use h (some b)) m2).2 with
            | none => { s with heap := (take (use h (some b)) m2).1, config := some b }
            | some i => { s with heap := use (use (take (use h (some b)) m2).1 (some i)) (some b), config := some b
                                 irqs := some i, realized := true }) l := by
      intro h b hi hd
      have h1 := inv_use hi (b := b) (by simp [owned])
      cases hq : s.irqs with
      | some i =>
        dsimp only
        have h2 := inv_use h1 (b := i) (by simp [owned, hq])
        exact ⟨Inv.count h2 fun x => by simp only [owned, hq], hd, hs.regs, fun h => absurd h (hno _ hcc)⟩
      | none =>
        dsimp only
        cases m2 with
        | false =>
          rw [take_false]
          exact ⟨Inv.count h1 fun x => by simp only [owned, hq], hd, hs.regs, fun h => absurd h (hno _ hcc)⟩
        | true =>
          have h2 := inv_take h1 true
          rw [take_true] at h2 ⊢
          dsimp only at h2 ⊢
          have h3 := inv_use h2 (b := (use h (some b)).next) (by simp)
          have h4 := inv_use h3 (b := b) (by simp [owned])
          refine ⟨Inv.count h4 fun x => ?_, hd, hs.regs, fun h => absurd h (hno _ hcc)⟩
          simp only [owned, hq, List.count_append, Option.toList_some, Option.toList_none, List.count_nil]
          omega
    cases hcfg : s.config with
    | some b =>
      dsimp only
      refine key _ b ?_ hs.alive
      refine Inv.count hreg fun x => ?_
      simp only [owned, hcfg]
    | none =>
      dsimp only
      cases m1 with
      | false =>
        rw [take_false]
        dsimp only
        exact ⟨Inv.count hreg fun x => by simp only [owned, hcfg], hs.alive, hs.regs, fun h => absurd h (hno _ hcc)⟩
      | true =>
        have h1 := inv_take hreg true
        rw [take_true] at h1 ⊢
        dsimp only at h1 ⊢
        refine key _ _ (Inv.count h1 fun x => ?_) hs.alive
        simp only [owned, hcfg, List.count_append, Option.toList_some, Option.toList_none, List.count_nil]
        omega
  | destroy =>
    show Sane (destroy s) l
    exact destroy_ok hs ⟨c, hcc⟩

theorem drops_none {s : St} (h : s = empty s.heap) (op : Op) : drops s op = [] := by
  rw [h]
  cases op with
  | region i r a m => cases r <;> cases a <;> rfl
  | migration r m c => cases r <;> rfl
  | _ => rfl

theorem step_ok (op : Op) {s : St} {l : List Nat} (hs : Sane s l) (hr : op.Roomy) : Sane (step s op) (drops s op ++ l) := by
  unfold step
  rw [if_neg (by rw [hs.alive]; decide)]
  cases hc : s.ctx with
  | none =>
    rw [drops_none (hs.none hc)]
    cases op with
    | create w => exact create_ok w hs hc hr
    | _ => exact hs
  | some c => exact call_ok op hs ⟨c, hc⟩

theorem run_ok : ∀ (ops : List Op) (s : St) (l : List Nat), Sane s l → (∀ op ∈ ops, op.Roomy) →
    ∃ l', (∀ b, l'.count b = (strays s ops).count b + l.count b) ∧ Sane (run s ops) l' := by
  intro ops
  induction ops with
  | nil => intro s l hs _; exact ⟨l, fun b => by simp [strays], hs⟩
  | cons op ops ih =>
    intro s l hs hr
    obtain ⟨l', h1, h2⟩ := ih (step s op) (drops s op ++ l) (step_ok op hs (hr op List.mem_cons_self))
      (fun o ho => hr o (List.mem_cons_of_mem _ ho))
    refine ⟨l', fun b => ?_, h2⟩
    rw [h1 b]
    simp only [strays, List.count_append]
    omega

theorem sane_init : Sane St.init [] := ⟨inv_init, rfl, fun h => absurd rfl h, fun _ => rfl⟩

theorem run_init (ops : List Op) (hr : ∀ op ∈ ops, op.Roomy) : Sane (run St.init ops) (strays St.init ops) := by
  obtain ⟨l, h1, h2⟩ := run_ok ops St.init [] sane_init hr
  refine ⟨Inv.count h2.inv fun b => ?_, h2.alive, h2.regs, h2.none⟩
  rw [List.count_append, List.count_append, h1 b, List.count_nil, Nat.add_zero]

/-! ## C99 -/

/-- C99: in every order of calls, with every pattern of failing allocations except the path's and the regions' in `vfu_create_ctx`,
every block is used and freed only after it was allocated and before it was freed, and no null pointer is used. -/
theorem C99_lifetimes (ops : List Op) (hr : ∀ op ∈ ops, op.Roomy) : Proper (run St.init ops).heap.tr :=
  (run_init ops hr).inv.ok

/-- C99: the blocks allocated and not freed are those the context points to and those to which the last pointer was overwritten. -/
theorem C99_account (ops : List Op) (hr : ∀ op ∈ ops, op.Roomy) (b : Nat) :
    Live (run St.init ops).heap.tr b ↔ b ∈ owned (run St.init ops) ∨ b ∈ strays St.init ops := by
  rw [← (run_init ops hr).inv.live b, List.mem_append]

theorem run_append (s : St) (a b : List Op) : run s (a ++ b) = run (run s a) b := List.foldl_append

theorem strays_append : ∀ (a : List Op) (s : St) (b : List Op), strays s (a ++ b) = strays s a ++ strays (run s a) b := by
  intro a
  induction a with
  | nil => intro s b; rfl
  | cons op a ih =>
    intro s b
    show drops s op ++ strays (step s op) (a ++ b) = drops s op ++ strays (step s op) a ++ strays (run (step s op) a) b
    rw [ih, List.append_assoc]

/-- C99: after `vfu_destroy_ctx` nothing but that is left. -/
theorem C99_destroyed (ops : List Op) (hr : ∀ op ∈ ops, op.Roomy) (b : Nat) :
    Live (run St.init (ops ++ [.destroy])).heap.tr b ↔ b ∈ strays St.init ops := by
  have hr' : ∀ op ∈ ops ++ [.destroy], op.Roomy := by
    intro op hop
    rcases List.mem_append.mp hop with hop | hop
    · exact hr op hop
    · cases List.mem_singleton.mp hop; trivial
  rw [C99_account _ hr']
  have hs := run_init ops hr
  have e1 : strays St.init (ops ++ [.destroy]) = strays St.init ops := by
    rw [strays_append]
    show _ ++ ([] ++ []) = _
    simp
  have e2 : owned (run St.init (ops ++ [.destroy])) = [] := by
    rw [run_append]
    show owned (step (run St.init ops) .destroy) = []
    unfold step
    rw [if_neg (by rw [hs.alive]; decide)]
    cases hc : (run St.init ops).ctx with
    | none =>
      dsimp only
      rw [hs.none hc]
      rfl
    | some c =>
      show owned (destroy (run St.init ops)) = []
      unfold destroy
      cases (run St.init ops).regInfo <;> rfl
  rw [e1, e2]
  simp

/-- C99: a `vfu_create_ctx` that fails leaves nothing behind. -/
theorem C99_failed (w : Create) (hr : (Op.create w).Roomy) (hf : (run St.init [.create w]).ctx = none) (b : Nat) :
    ¬ Live (run St.init [.create w]).heap.tr b := by
  have hr' : ∀ op ∈ [Op.create w], op.Roomy := by
    intro op hop
    cases List.mem_singleton.mp hop
    exact hr
  rw [C99_account _ hr', ]
  have hs := run_init _ hr'
  rw [hs.none hf]
  show ¬ (b ∈ owned (empty _) ∨ b ∈ strays St.init [.create w])
  rintro (h | h)
  · cases h
  · cases h

/-- What a call sets up: the controller, the migration state, a region. -/
inductive Part where
  | dma | migration | region (i : Nat)
  deriving DecidableEq, Repr

def Op.part : Op → Option Part
  | .dma _ => some .dma
  | .migration .. => some .migration
  | .region i .. => some (.region i)
  | _ => none

/-- Set-up calls in which nothing is set up twice, and no region with ioeventfds runs out of memory. -/
structure Once (ops : List Op) : Prop where
  setup : ∀ op ∈ ops, (∀ w, op ≠ .create w) ∧ op ≠ .destroy
  parts : (ops.filterMap Op.part).Nodup
  io : ∀ i r a, .region i r a false ∈ ops → ∀ r' m', Op.ioeventfd i r' m' ∉ ops

/-- What is still to be set up is not there yet. -/
structure Unset (s : St) (ops : List Op) : Prop where
  dma : (∃ m, .dma m ∈ ops) → s.dma = none
  mig : (∃ r m c, .migration r m c ∈ ops) → s.migration = none
  reg : ∀ i, (∃ r a m, .region i r a m ∈ ops) → ∀ x, s.regs[i]? = some x → x.areas = none
  io : ∀ i, (∃ r a, .region i r a false ∈ ops) → ∀ x, s.regs[i]? = some x → x.subs = []

theorem pciInit_same (r m : Bool) (s : St) : (pciInit r m s).dma = s.dma ∧ (pciInit r m s).migration = s.migration ∧
    (pciInit r m s).regs = s.regs := by
  unfold pciInit
  by_cases h : r = true ∨ s.config ≠ none
  · rw [if_pos h]; exact ⟨rfl, rfl, rfl⟩
  · rw [if_neg h]; cases m <;> exact ⟨rfl, rfl, rfl⟩

theorem realize_same (a b : Bool) (s : St) : (realize a b s).dma = s.dma ∧ (realize a b s).migration = s.migration ∧
    (realize a b s).regs = s.regs := by
  unfold realize
  by_cases h : s.realized = true
  · rw [if_pos h]; exact ⟨rfl, rfl, rfl⟩
  · rw [if_neg h]
    cases s.config with
    | some c =>
      cases s.irqs with
      | some i => exact ⟨rfl, rfl, rfl⟩
      | none => cases b <;> exact ⟨rfl, rfl, rfl⟩
    | none =>
      cases a with
      | false => exact ⟨rfl, rfl, rfl⟩
      | true =>
        cases s.irqs with
        | some i => exact ⟨rfl, rfl, rfl⟩
        | none => cases b <;> exact ⟨rfl, rfl, rfl⟩

theorem region_same (i : Nat) (r a m : Bool) (s : St) :
    (region i r a m s).dma = s.dma ∧ (region i r a m s).migration = s.migration ∧
    (∀ j, j ≠ i → (region i r a m s).regs[j]? = s.regs[j]?) := by
  unfold region
  cases r with
  | true => exact ⟨rfl, rfl, fun _ _ => rfl⟩
  | false =>
    rw [if_neg (by decide)]
    cases s.regs[i]? with
    | none => exact ⟨rfl, rfl, fun _ _ => rfl⟩
    | some x =>
      dsimp only
      cases a with
      | false => exact ⟨rfl, rfl, fun _ _ => rfl⟩
      | true =>
        rw [if_neg (by decide)]
        cases m <;> exact ⟨rfl, rfl, fun j hj => List.getElem?_set_ne (Ne.symm hj)⟩

theorem ioeventfd_same (i : Nat) (r m : Bool) (s : St) :
    (ioeventfd i r m s).dma = s.dma ∧ (ioeventfd i r m s).migration = s.migration ∧
    (∀ j, j ≠ i → (ioeventfd i r m s).regs[j]? = s.regs[j]?) ∧
    (∀ x, (ioeventfd i r m s).regs[i]? = some x → ∃ y, s.regs[i]? = some y ∧ x.areas = y.areas) := by
  unfold ioeventfd
  cases hx : s.regs[i]? with
  | none => exact ⟨rfl, rfl, fun _ _ => rfl, fun x h => by rw [hx] at h; cases h⟩
  | some x =>
    dsimp only
    cases r with
    | true => exact ⟨rfl, rfl, fun _ _ => rfl, fun y h => ⟨x, rfl, by rw [if_pos rfl] at h; rw [hx] at h; cases h; rfl⟩⟩
    | false =>
      rw [if_neg (by decide)]
      cases m with
      | false => exact ⟨rfl, rfl, fun _ _ => rfl, fun y h => ⟨x, rfl, by rw [take_false] at h; rw [hx] at h; cases h; rfl⟩⟩
      | true =>
        refine ⟨rfl, rfl, fun j hj => List.getElem?_set_ne (Ne.symm hj), fun y h => ⟨x, rfl, ?_⟩⟩
        rw [take_true] at h
        dsimp only at h
        rw [List.getElem?_set] at h
        rw [if_pos rfl] at h
        by_cases hl : i < s.regs.length
        · rw [if_pos hl] at h; cases h; rfl
        · rw [if_neg hl] at h; cases h

theorem migration_same (r m c : Bool) (s : St) : (setupMigration r m c s).dma = s.dma ∧ (setupMigration r m c s).regs = s.regs := by
  unfold setupMigration
  cases r with
  | true => exact ⟨rfl, rfl⟩
  | false => cases c <;> exact ⟨rfl, rfl⟩

/-- Nothing is lost if nothing is set up twice. -/
theorem strays_once : ∀ (ops : List Op) (s : St) (c : Nat), s.ctx = some c → s.heap.dead = false →
    (∀ (s : St) (op : Op), s.ctx = some c → s.heap.dead = false → (∀ w, op ≠ .create w) ∧ op ≠ .destroy →
      (call s op).ctx = some c ∧ (call s op).heap.dead = false) →
    Once ops → Unset s ops → strays s ops = [] := by
  intro ops
  induction ops with
  | nil => intros; rfl
  | cons op ops ih =>
    intro s c hc hd hcall ho hu
    have hset := ho.setup op List.mem_cons_self
    have hstep : step s op = call s op := by
      unfold step
      rw [if_neg (by rw [hd]; decide), hc]
    have hnext := hcall s op hc hd hset
    have ho' : Once ops := by
      refine ⟨fun o h => ho.setup o (List.mem_cons_of_mem _ h), ?_, fun i r a h r' m' h' =>
        ho.io i r a (List.mem_cons_of_mem _ h) r' m' (List.mem_cons_of_mem _ h')⟩
      have := ho.parts
      rw [List.filterMap_cons] at this
      cases hp : op.part with
      | none => rw [hp] at this; exact this
      | some p => rw [hp] at this; exact (List.nodup_cons.mp this).2
    -- a later call for the same part is excluded
    have hne : ∀ p, op.part = some p → ∀ o ∈ ops, o.part ≠ some p := by
      intro p hp o hmem hop
      have := ho.parts
      rw [List.filterMap_cons, hp] at this
      exact (List.nodup_cons.mp this).1 (List.mem_filterMap.mpr ⟨o, hmem, hop⟩)
    show drops s op ++ strays (step s op) ops = []
    have hdrop : drops s op = [] := by
      cases op with
      | dma m =>
        show s.dma.toList = []
        rw [hu.dma ⟨m, List.mem_cons_self⟩]; rfl
      | migration r m cb =>
        cases r with
        | true => rfl
        | false =>
          show s.migration.toList = []
          rw [hu.mig ⟨_, _, _, List.mem_cons_self⟩]; rfl
      | region i r a m =>
        cases r with
        | true => rfl
        | false =>
          cases a with
          | false => rfl
          | true =>
            cases hx : s.regs[i]? with
            | none => simp only [drops, hx]
            | some x =>
              simp only [drops, hx]
              rw [hu.reg i ⟨_, _, _, List.mem_cons_self⟩ x hx]
              cases m with
              | true => rfl
              | false =>
                rw [hu.io i ⟨_, _, List.mem_cons_self⟩ x hx]; rfl
      | create w => rfl
      | pciInit r m => rfl
      | ioeventfd i r m => rfl
      | realize a b => rfl
      | destroy => rfl
    rw [hdrop, List.nil_append, hstep]
    refine ih _ c hnext.1 hnext.2 hcall ho' ?_
    -- what is left to do is still undone
    have rest : Unset s ops :=
      ⟨fun ⟨m, h⟩ => hu.dma ⟨m, List.mem_cons_of_mem _ h⟩, fun ⟨r, m, c, h⟩ => hu.mig ⟨r, m, c, List.mem_cons_of_mem _ h⟩,
        fun i ⟨r, a, m, h⟩ => hu.reg i ⟨r, a, m, List.mem_cons_of_mem _ h⟩,
        fun i ⟨r, a, h⟩ => hu.io i ⟨r, a, List.mem_cons_of_mem _ h⟩⟩
    cases op with
    | create w => exact absurd rfl (hset.1 w)
    | destroy => exact absurd rfl hset.2
    | pciInit r m =>
      obtain ⟨e1, e2, e3⟩ := pciInit_same r m s
      show Unset (pciInit r m s) ops
      exact ⟨fun h => e1.trans (rest.dma h), fun h => e2.trans (rest.mig h), fun i h => by rw [e3]; exact rest.reg i h,
        fun i h => by rw [e3]; exact rest.io i h⟩
    | realize a b =>
      obtain ⟨e1, e2, e3⟩ := realize_same a b s
      show Unset (realize a b s) ops
      exact ⟨fun h => e1.trans (rest.dma h), fun h => e2.trans (rest.mig h), fun i h => by rw [e3]; exact rest.reg i h,
        fun i h => by rw [e3]; exact rest.io i h⟩
    | dma m =>
      refine ⟨fun ⟨m', h⟩ => absurd rfl (hne .dma rfl _ h), rest.mig, rest.reg, rest.io⟩
    | migration r m cb =>
      obtain ⟨e1, e3⟩ := migration_same r m cb s
      show Unset (setupMigration r m cb s) ops
      exact ⟨fun h => e1.trans (rest.dma h), fun ⟨_, _, _, h⟩ => absurd rfl (hne .migration rfl _ h),
        fun i h => by rw [e3]; exact rest.reg i h, fun i h => by rw [e3]; exact rest.io i h⟩
    | region i r a m =>
      obtain ⟨e1, e2, e3⟩ := region_same i r a m s
      show Unset (region i r a m s) ops
      have hno : ∀ j r a m, Op.region j r a m ∈ ops → j ≠ i := by
        rintro j r' a' m' h rfl
        exact hne (.region j) rfl _ h rfl
      exact ⟨fun h => e1.trans (rest.dma h), fun h => e2.trans (rest.mig h),
        fun j hj => by obtain ⟨r', a', m', h⟩ := hj; rw [e3 j (hno _ _ _ _ h)]; exact rest.reg j ⟨r', a', m', h⟩,
        fun j hj => by obtain ⟨r', a', h⟩ := hj; rw [e3 j (hno _ _ _ _ h)]; exact rest.io j ⟨r', a', h⟩⟩
    | ioeventfd i r m =>
      obtain ⟨e1, e2, e3, e4⟩ := ioeventfd_same i r m s
      show Unset (ioeventfd i r m s) ops
      refine ⟨fun h => e1.trans (rest.dma h), fun h => e2.trans (rest.mig h), fun j hj x hx => ?_, fun j hj x hx => ?_⟩
      · by_cases hji : j = i
        · subst hji
          obtain ⟨y, hy, hxy⟩ := e4 x hx
          rw [hxy]; exact rest.reg j hj y hy
        · rw [e3 j hji] at hx; exact rest.reg j hj x hx
      · have hji : j ≠ i := by
          rintro rfl
          obtain ⟨r', a', h⟩ := hj
          exact ho.io j r' a' (List.mem_cons_of_mem _ h) r m List.mem_cons_self
        rw [e3 j hji] at hx
        exact rest.io j hj x hx

theorem call_same (s : St) (op : Op) (h : (∀ w, op ≠ .create w) ∧ op ≠ .destroy) :
    (call s op).ctx = s.ctx ∧ (call s op).heap.dead = s.heap.dead := by
  cases op with
  | create w => exact absurd rfl (h.1 w)
  | destroy => exact absurd rfl h.2
  | pciInit r m =>
    show (pciInit r m s).ctx = _ ∧ (pciInit r m s).heap.dead = _
    unfold pciInit
    by_cases h : r = true ∨ s.config ≠ none
    · rw [if_pos h]; exact ⟨rfl, rfl⟩
    · rw [if_neg h]; cases m <;> exact ⟨rfl, rfl⟩
  | region i r a m =>
    show (region i r a m s).ctx = _ ∧ (region i r a m s).heap.dead = _
    unfold region
    cases r with
    | true => exact ⟨rfl, rfl⟩
    | false =>
      rw [if_neg (by decide)]
      cases s.regs[i]? with
      | none => exact ⟨rfl, rfl⟩
      | some x => cases a <;> cases m <;> exact ⟨rfl, rfl⟩
  | ioeventfd i r m =>
    show (ioeventfd i r m s).ctx = _ ∧ (ioeventfd i r m s).heap.dead = _
    unfold ioeventfd
    cases s.regs[i]? with
    | none => exact ⟨rfl, rfl⟩
    | some x => cases r <;> cases m <;> exact ⟨rfl, rfl⟩
  | dma m => cases m <;> exact ⟨rfl, rfl⟩
  | migration r m c => cases r <;> cases m <;> cases c <;> exact ⟨rfl, rfl⟩
  | realize a b =>
    show (realize a b s).ctx = _ ∧ (realize a b s).heap.dead = _
    unfold realize
    by_cases h : s.realized = true
    · rw [if_pos h]; exact ⟨rfl, rfl⟩
    · rw [if_neg h]
      cases s.config with
      | some c =>
        cases s.irqs with
        | some i => exact ⟨rfl, rfl⟩
        | none => cases b <;> exact ⟨rfl, rfl⟩
      | none =>
        cases a with
        | false => exact ⟨rfl, rfl⟩
        | true =>
          cases s.irqs with
          | some i => exact ⟨rfl, rfl⟩
          | none => cases b <;> exact ⟨rfl, rfl⟩

theorem destroy_ctx (s : St) : (destroy s).ctx = none := by
  unfold destroy
  cases s.regInfo <;> rfl

/-- A new context has neither controller nor migration state, and its regions have nothing. -/
theorem create_new (w : Create) {s : St} (hn : s.ctx = none) (hc : (create w s).ctx ≠ none) :
    (create w s).dma = none ∧ (create w s).migration = none ∧
    (create w s).regs = List.replicate 10 { areas := none, subs := [] } := by
  obtain ⟨a, b, c, d, e, f⟩ := w
  unfold create at hc ⊢
  cases a with
  | true => exact absurd hn hc
  | false =>
    have h0 : ¬ (false = true) := by decide
    dsimp only at hc ⊢
    rw [if_neg h0] at hc ⊢
    cases b with
    | false => exact absurd hn hc
    | true =>
      cases c with
      | false => exact absurd (destroy_ctx _) hc
      | true =>
        cases d with
        | false => exact absurd (destroy_ctx _) hc
        | true =>
          cases e with
          | false => exact absurd (destroy_ctx _) hc
          | true =>
            cases f with
            | false => exact absurd (destroy_ctx _) hc
            | true => exact ⟨rfl, rfl, rfl⟩

/-- C99: a device that sets nothing up twice gives everything back: after `vfu_create_ctx`, any set-up calls in any order, failing
or not, and `vfu_destroy_ctx`, no block is left. -/
theorem C99_clean (w : Create) (ops : List Op) (hr : (Op.create w).Roomy) (ho : Once ops) (b : Nat) :
    ¬ Live (run St.init ([.create w] ++ ops ++ [.destroy])).heap.tr b := by
  have hroomy : ∀ op ∈ [.create w] ++ ops, op.Roomy := by
    intro op hop
    rcases List.mem_append.mp hop with hop | hop
    · cases List.mem_singleton.mp hop; exact hr
    · have := (ho.setup op hop).1
      cases op with
      | create w' => exact absurd rfl (this w')
      | _ => trivial
  rw [C99_destroyed _ hroomy, strays_append]
  have e0 : strays St.init [.create w] = [] := rfl
  rw [e0, List.nil_append]
  have hs : Sane (create w St.init) [] := create_ok w sane_init rfl hr
  have er : run St.init [.create w] = create w St.init := rfl
  rw [er]
  cases hc : (create w St.init).ctx with
  | none =>
    -- nothing was created: the calls do nothing
    have hnone : ∀ (l : List Op) (s : St), s.ctx = none → s = empty s.heap → (∀ op ∈ l, ∀ w, op ≠ .create w) → strays s l = [] := by
      intro l
      induction l with
      | nil => intros; rfl
      | cons op l ih =>
        intro s h1 h2 h3
        have hstep : step s op = s := by
          unfold step
          by_cases hd : s.heap.dead = true
          · rw [if_pos hd]
          · rw [if_neg hd, h1]
            have := h3 op List.mem_cons_self
            cases op with
            | create w' => exact absurd rfl (this w')
            | _ => rfl
        show drops s op ++ strays (step s op) l = []
        rw [drops_none h2, hstep, ih s h1 h2 (fun o h => h3 o (List.mem_cons_of_mem _ h))]
        rfl
    rw [hnone ops _ hc (hs.none hc) (fun op hop => (ho.setup op hop).1)]
    exact List.not_mem_nil
  | some c =>
    obtain ⟨n1, n2, n3⟩ := create_new w rfl (by rw [hc]; simp)
    have hreg : ∀ (i : Nat) (x : Reg), (create w St.init).regs[i]? = some x → x = ({ areas := none, subs := [] } : Reg) := by
      intro i x hx
      rw [n3] at hx
      exact List.eq_of_mem_replicate (List.mem_of_getElem? hx)
    rw [strays_once ops _ c hc hs.alive
      (fun s op h1 h2 h3 => ⟨(call_same s op h3).1.trans h1, (call_same s op h3).2.trans h2⟩) ho
      ⟨fun _ => n1, fun _ => n2, fun i _ x hx => by rw [hreg i x hx], fun i _ x hx => by rw [hreg i x hx]⟩]
    exact List.not_mem_nil

/-- C99: exception.  Without memory for the path or for the regions, `vfu_create_ctx` ends the process: `vfu_destroy_ctx`, which it
calls to clean up, looks for ioeventfds in regions that are not there. -/
theorem C99_crash (w : Create) (h1 : w.refuse = false) (h2 : w.memCtx = true) (h3 : w.memUuid = false ∨ w.memRegs = false) :
    .wild ∈ (run St.init [.create w]).heap.tr ∧ (run St.init [.create w]).heap.dead = true := by
  obtain ⟨a, b, c, d, e, f⟩ := w
  dsimp only at h1 h2 h3
  subst h1; subst h2
  rcases h3 with rfl | rfl
  · revert d e f; decide
  · cases c <;> (revert e f; decide)

def plenty : Create := { refuse := false, memCtx := true, memUuid := true, memRegs := true, memTran := true, init := true }

/-- C99: exceptions.  What is set up again is lost: the first controller, the first list of areas, the first migration state; also when
the second call fails.  A region whose set-up fails for want of memory loses its ioeventfds. -/
theorem C99_lost :
    Live (run St.init [.create plenty, .dma true, .dma true, .destroy]).heap.tr 4 ∧
    Live (run St.init [.create plenty, .region 0 false true true, .region 0 false true true, .destroy]).heap.tr 4 ∧
    Live (run St.init [.create plenty, .migration false true true, .migration false true false, .destroy]).heap.tr 4 ∧
    Live (run St.init [.create plenty, .region 2 false false true, .ioeventfd 2 false true, .region 2 false true false,
      .destroy]).heap.tr 4 := by
  refine ⟨⟨?_, ?_⟩, ⟨?_, ?_⟩, ⟨?_, ?_⟩, ⟨?_, ?_⟩⟩ <;> decide +kernel

/-- A device with everything: 12 blocks, and a failed attempt at migration. -/
def household : List Op :=
  [.pciInit false true, .region 0 false true true, .region 2 false true true, .ioeventfd 2 false true, .ioeventfd 2 false true,
    .ioeventfd 0 true true, .dma true, .migration false true false, .pciInit false true, .realize true true, .realize true true]

example : Once household ∧ (run St.init ([.create plenty] ++ household)).realized = true ∧
    (run St.init ([.create plenty] ++ household)).heap.next = 12 ∧
    (owned (run St.init ([.create plenty] ++ household))).length = 11 ∧
    owned (run St.init ([.create plenty] ++ household ++ [.destroy])) = [] := by
  refine ⟨⟨?_, by decide, ?_⟩, by decide +kernel, by decide +kernel, by decide +kernel, by decide +kernel⟩
  · intro op hop
    simp only [household, List.mem_cons, List.not_mem_nil, or_false] at hop
    rcases hop with rfl | rfl | rfl | rfl | rfl | rfl | rfl | rfl | rfl | rfl | rfl <;>
      exact ⟨(fun w h => by cases h), (fun h => by cases h)⟩
  · intro i r a h
    simp [household] at h

example : (run St.init [.create { plenty with init := false }]).ctx = none ∧
    (run St.init [.create { plenty with init := false }]).heap.next = 4 ∧ Op.Roomy (.create { plenty with init := false }) :=
  ⟨by decide +kernel, by decide +kernel, fun _ _ => ⟨rfl, rfl⟩⟩

end Verif.Estate
