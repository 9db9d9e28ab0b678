import Verif.Setup.Realize
import Verif.Server.Inform

/-! # The device a client finds is the one that was set up (C79) -/

namespace Verif.Setup
open Verif
open Verif.Region (Reg)

/-! ## Histories -/

/-- The calls made and what they returned. -/
abbrev Hist := List (Call × Res Nat)

def hist (ks : List Call) : Hist := ks.zip (run create ks).2

/-- The last value that `f` sees in the history; `d` if it sees none. -/
def lastly {α : Type} (f : Call → Res Nat → Option α) (d : α) : Hist → α
  | [] => d
  | (k, r) :: h => lastly f ((f k r).getD d) h

theorem run_lastly {α : Type} (view : Ctx → α) (f : Call → Res Nat → Option α) (P : Call → Prop)
    (hstep : ∀ c k, Good c → c.realized = false → Use c k → P k → view (step c k).1 = (f k (step c k).2).getD (view c))
    {c : Ctx} (hg : Good c) {ks : List Call} (hu : UseRun c ks) (hp : ∀ k ∈ ks, P k) :
    view (run c ks).1 = lastly f (view c) (ks.zip (run c ks).2) := by
  induction ks generalizing c with
  | nil => rfl
  | cons k ks ih =>
    obtain ⟨h1, h2, h3⟩ := hu
    obtain ⟨s1, s2⟩ := step_good hg h1 h2
    rw [run_cons s2]
    change view (run (step c k).1 ks).1 = lastly f _ (ks.zip (run (step c k).1 ks).2)
    rw [← hstep c k hg h1 h2 (hp k (List.mem_cons_self ..))]
    exact ih s1 h3 (fun k hk => hp k (List.mem_cons_of_mem _ hk))

/-! ## What the calls say -/

/-- The call was accepted. -/
def Acc : Res Nat → Bool
  | .ok _ => true
  | _ => false

/-- Number of interrupts of a type. -/
def saysIrqs (t : Nat) : Call → Res Nat → Option Nat
  | .nrIrqs t' n, .ok _ => if t' = t then some n else none
  | _, _ => none

/-- Whether there is a callback for changes of the state of interrupts of a type. -/
def saysIrqCb (t : Nat) : Call → Res Nat → Option Bool
  | .irqStateCb t' b, .ok _ => if t' = t then some b else none
  | _, _ => none

def saysQuiesce : Call → Res Nat → Option Bool
  | .quiesceCb b, .ok _ => some b
  | _, _ => none

def saysReset : Call → Res Nat → Option Bool
  | .resetCb b, .ok _ => some b
  | _, _ => none

/-- The register and the unregister callback of DMA. -/
def saysDmaCbs : Call → Res Nat → Option (Bool × Bool)
  | .dma _ reg unreg, .ok _ => some (reg, unreg)
  | _, _ => none

/-- Whether DMA is served: a set-up that fails takes it away. -/
def saysDma : Call → Res Nat → Option Bool
  | .dma _ _ _, .ok _ => some true
  | .dma _ _ _, _ => some false
  | _, _ => none

/-- Whether migration is served: a set-up that fails takes it away, except one of the wrong version. -/
def saysMig : Call → Res Nat → Option Bool
  | .migration _ _ _, .ok _ => some true
  | .migration _ v _, _ => if v = 2 then some false else none
  | _, _ => none

/-- What `vfu_setup_region` was told about region `i`; failing for lack of memory it leaves a region of size 0. -/
structure Told where
  size : Nat
  flags : Nat
  hasCb : Bool
  fd : Option Dma.Fd
  offset : Nat
  deriving DecidableEq, Repr

def Told.nothing : Told := ⟨0, 0, false, none, 0⟩

def saysRegion (i : Nat) : Call → Res Nat → Option Told
  | .region _ a, .ok _ => if a.idx = i then some ⟨a.size % 2 ^ 32, a.flags, a.hasCb, a.fd, a.offset⟩ else none
  | .region _ a, .err e => if a.idx = i ∧ e = ENOMEM then some { Told.nothing with fd := some 0 } else none
  | _, _ => none

/-- The areas of region `i` a client may map: those given, or all of a region with a descriptor and none given; a set-up
without a descriptor leaves those of an earlier one. -/
def saysAreas (i : Nat) : Call → Res Nat → Option (List (Nat × Nat))
  | .region _ a, .ok _ =>
    if a.idx = i ∧ a.fd ≠ none then some (if a.areas = [] then [(0, a.size)] else a.areas) else none
  | .region _ a, .err e => if a.idx = i ∧ e = ENOMEM then some [] else none
  | _, _ => none

def toldOf (r : Reg) : Told := ⟨r.size, r.flags, r.hasCb, r.fd, r.offset⟩

def toldAt (tbl : List Reg) (i : Nat) : Told := ((tbl[i]?).map toldOf).getD Told.nothing
def areasAt (tbl : List Reg) (i : Nat) : List (Nat × Nat) := ((tbl[i]?).map (·.areas)).getD []

/-- `vfu_setup_region`, seen on one region. -/
theorem setup_told {alloc : Bool} {tbl : List Reg} {a : Region.Setup} (hl : tbl.length = 9) (i : Nat) (hi : i < 9) :
    toldAt (Region.setup alloc tbl a).1 i =
      (saysRegion i (.region alloc a) ((Region.setup alloc tbl a).2.map (fun _ => 0))).getD (toldAt tbl i) ∧
    areasAt (Region.setup alloc tbl a).1 i =
      (saysAreas i (.region alloc a) ((Region.setup alloc tbl a).2.map (fun _ => 0))).getD (areasAt tbl i) := by
  have hE : EINVAL ≠ ENOMEM := by decide
  have ref : ∀ o, o = (tbl, (.err EINVAL : Res Unit)) → toldAt o.1 i =
      (saysRegion i (.region alloc a) (o.2.map (fun _ => 0))).getD (toldAt tbl i) ∧
      areasAt o.1 i = (saysAreas i (.region alloc a) (o.2.map (fun _ => 0))).getD (areasAt tbl i) := by
    rintro _ rfl
    simp [saysRegion, saysAreas, Res.map, hE]
  unfold Region.setup
  split
  · exact ref _ rfl
  split
  · exact ref _ rfl
  split
  · exact ref _ rfl
  rename_i hfa
  split
  · exact ref _ rfl
  rename_i hidx
  split
  · exact ref _ rfl
  split
  · exact ref _ rfl
  have hn : (Region.NUM_REGIONS : Int) = 9 := rfl
  rw [hn] at hidx
  have hlt : a.idx.toNat < tbl.length := by omega
  rw [List.getElem?_eq_getElem hlt]
  dsimp only
  generalize hold : tbl[a.idx.toNat] = old
  have hat : tbl[a.idx.toNat]? = some old := by rw [List.getElem?_eq_getElem hlt, hold]
  have hieq : a.idx = (i : Int) ↔ a.idx.toNat = i := by omega
  have sets : ∀ r : Reg, toldAt (tbl.set a.idx.toNat r) i = (if a.idx.toNat = i then toldOf r else toldAt tbl i) ∧
      areasAt (tbl.set a.idx.toNat r) i = (if a.idx.toNat = i then r.areas else areasAt tbl i) := by
    intro r
    unfold toldAt areasAt
    by_cases h : a.idx.toNat = i
    · rw [if_pos h, if_pos h, ← h, List.getElem?_set_self hlt]; exact ⟨rfl, rfl⟩
    · rw [if_neg h, if_neg h, List.getElem?_set_ne h]; exact ⟨rfl, rfl⟩
  have hareas : a.idx.toNat = i → areasAt tbl i = old.areas := by
    intro h; unfold areasAt; rw [← h, hat]; rfl
  have hu : U32 = 2 ^ 32 := by decide
  by_cases hie : a.idx.toNat = i
  · have hie' := hieq.2 hie
    by_cases hfd : a.fd = none
    · have hae : a.areas = [] := by
        by_contra hx; exact hfa ⟨hx, hfd⟩
      have hx : (if a.areas = [] ∧ a.fd ≠ none then [(0, a.size)] else a.areas) = [] := by
        rw [if_neg (by simp [hfd]), hae]
      rw [hx, if_pos rfl]
      dsimp only
      rw [(sets _).1, (sets _).2, if_pos hie, if_pos hie]
      simp [saysRegion, saysAreas, Res.map, hie', hfd, toldOf, hareas hie, hu]
    · have hne : (if a.areas = [] ∧ a.fd ≠ none then [(0, a.size)] else a.areas) =
          (if a.areas = [] then [(0, a.size)] else a.areas) := by
        by_cases h : a.areas = [] <;> simp [h, hfd]
      rw [hne]
      have hne2 : (if a.areas = [] then [(0, a.size)] else a.areas) ≠ [] := by
        by_cases h : a.areas = []
        · rw [if_pos h]; exact List.cons_ne_nil _ _
        · rw [if_neg h]; exact h
      rw [if_neg hne2]
      cases alloc with
      | true =>
        rw [if_pos rfl]
        dsimp only
        rw [(sets _).1, (sets _).2, if_pos hie, if_pos hie]
        simp [saysRegion, saysAreas, Res.map, hie', hfd, toldOf, hu]
      | false =>
        rw [if_neg (by decide)]
        dsimp only
        rw [(sets _).1, (sets _).2, if_pos hie, if_pos hie]
        simp [saysRegion, saysAreas, Res.map, hie', toldOf, Told.nothing, Region.Reg.blank]
  · have hie' : a.idx ≠ (i : Int) := fun h => hie (hieq.1 h)
    have key : ∀ (r : Reg) (x : Res Nat), toldAt (tbl.set a.idx.toNat r) i = (saysRegion i (.region alloc a) x).getD (toldAt tbl i) ∧
        areasAt (tbl.set a.idx.toNat r) i = (saysAreas i (.region alloc a) x).getD (areasAt tbl i) := by
      intro r x
      rw [(sets r).1, (sets r).2, if_neg hie, if_neg hie]
      cases x <;> simp [saysRegion, saysAreas, hie']
    generalize (if a.areas = [] ∧ a.fd ≠ none then [(0, a.size)] else a.areas) = w
    split
    · exact key _ _
    · split
      · exact key _ _
      · exact key _ _

theorem set_told {tbl : List Reg} {j : Nat} {old r : Reg} (h : tbl[j]? = some old) (h1 : toldOf r = toldOf old) (h2 : r.areas = old.areas)
    (i : Nat) : toldAt (tbl.set j r) i = toldAt tbl i ∧ areasAt (tbl.set j r) i = areasAt tbl i := by
  unfold toldAt areasAt
  by_cases hi : j = i
  · subst hi
    have hlt : j < tbl.length := by
      by_contra hx
      rw [List.getElem?_eq_none (by omega)] at h; cases h
    rw [List.getElem?_set_self hlt, h]
    simp [h1, h2]
  · rw [List.getElem?_set_ne hi]; exact ⟨rfl, rfl⟩

theorem set7_told {tbl : List Reg} {r : Reg} {i : Nat} (hi : i ≠ 7) :
    toldAt (tbl.set 7 r) i = toldAt tbl i ∧ areasAt (tbl.set 7 r) i = areasAt tbl i := by
  unfold toldAt areasAt
  rw [List.getElem?_set_ne (Ne.symm hi)]
  exact ⟨rfl, rfl⟩

theorem ioeventfd_told {shadow alloc : Bool} {tbl : List Reg} {idx : Nat} {s : Region.Sub} (i : Nat) :
    toldAt (Region.createIoeventfd shadow alloc tbl idx s).1 i = toldAt tbl i ∧
    areasAt (Region.createIoeventfd shadow alloc tbl idx s).1 i = areasAt tbl i := by
  unfold Region.createIoeventfd
  split
  · exact ⟨rfl, rfl⟩
  split
  · exact ⟨rfl, rfl⟩
  split
  · exact ⟨rfl, rfl⟩
  rename_i r hr
  split
  · exact ⟨rfl, rfl⟩
  split
  · exact ⟨rfl, rfl⟩
  exact set_told (r := { r with subs := s :: r.subs }) hr rfl rfl i

/-! ## One call -/

section
variable {c : Ctx} {k : Call}

theorem furnished_rest (c : Ctx) : (furnished c).irqCb = c.irqCb ∧ (furnished c).hasQuiesce = c.hasQuiesce ∧
    (furnished c).hasReset = c.hasReset ∧ (furnished c).dmaCbs = c.dmaCbs ∧ (furnished c).dma = c.dma ∧
    (furnished c).mig = c.mig := by
  have h1 : ∀ d : Ctx, (withSpace d).irqCb = d.irqCb ∧ (withSpace d).hasQuiesce = d.hasQuiesce ∧
      (withSpace d).hasReset = d.hasReset ∧ (withSpace d).dmaCbs = d.dmaCbs ∧ (withSpace d).dma = d.dma ∧
      (withSpace d).mig = d.mig := fun d => by unfold withSpace; split <;> exact ⟨rfl, rfl, rfl, rfl, rfl, rfl⟩
  have h2 : (withRegion c).irqCb = c.irqCb ∧ (withRegion c).hasQuiesce = c.hasQuiesce ∧
      (withRegion c).hasReset = c.hasReset ∧ (withRegion c).dmaCbs = c.dmaCbs ∧ (withRegion c).dma = c.dma ∧
      (withRegion c).mig = c.mig := by
    unfold withRegion
    split
    · exact ⟨rfl, rfl, rfl, rfl, rfl, rfl⟩
    · split <;> exact ⟨rfl, rfl, rfl, rfl, rfl, rfl⟩
  unfold furnished
  obtain ⟨a1, a2, a3, a4, a5, a6⟩ := h1 (withRegion c)
  rw [a1, a2, a3, a4, a5, a6]
  exact h2

theorem furnished_told (c : Ctx) {i : Nat} (hi : i ≠ 7) :
    toldAt (furnished c).tbl i = toldAt c.tbl i ∧ areasAt (furnished c).tbl i = areasAt c.tbl i := by
  have h1 : ∀ d : Ctx, (withSpace d).tbl = d.tbl := fun d => by unfold withSpace; split <;> rfl
  unfold furnished
  rw [h1]
  unfold withRegion
  split
  · exact ⟨rfl, rfl⟩
  · split
    · exact set7_told hi
    · exact ⟨rfl, rfl⟩

/-- The part of a context that a client cannot see in the config space. -/
structure Cast where
  cnt : Nat → Nat
  irqCb : Nat → Bool
  hasQuiesce : Bool
  hasReset : Bool
  dmaCbs : Dma.Cfg
  dma : Option (Nat × Nat)
  mig : Bool
  told : Nat → Told
  areas : Nat → List (Nat × Nat)

/-- Of the config space region only what is not decided by `vfu_pci_init` and `vfu_realize_ctx`. -/
def castOf (c : Ctx) : Cast :=
  ⟨c.cnt, c.irqCb, c.hasQuiesce, c.hasReset, c.dmaCbs, c.dma, c.mig, fun i => if i = 7 then Told.nothing else toldAt c.tbl i,
    fun i => if i = 7 then [] else areasAt c.tbl i⟩

theorem castOf_furnished (c : Ctx) : castOf (furnished c) = castOf c := by
  obtain ⟨h1, h2, h3, h4, h5, h6⟩ := furnished_rest c
  unfold castOf
  rw [(furnished_same c).1, h1, h2, h3, h4, h5, h6]
  congr 1
  · funext i
    by_cases hi : i = 7
    · rw [if_pos hi, if_pos hi]
    · rw [if_neg hi, if_neg hi, (furnished_told c hi).1]
  · funext i
    by_cases hi : i = 7
    · rw [if_pos hi, if_pos hi]
    · rw [if_neg hi, if_neg hi, (furnished_told c hi).2]

theorem castOf_region (c : Ctx) (d : Ctx) (h : d.cnt = c.cnt ∧ d.irqCb = c.irqCb ∧ d.hasQuiesce = c.hasQuiesce ∧
    d.hasReset = c.hasReset ∧ d.dmaCbs = c.dmaCbs ∧ d.dma = c.dma ∧ d.mig = c.mig)
    (ht : ∀ i, i ≠ 7 → toldAt d.tbl i = toldAt c.tbl i ∧ areasAt d.tbl i = areasAt c.tbl i) : castOf d = castOf c := by
  obtain ⟨h0, h1, h2, h3, h4, h5, h6⟩ := h
  unfold castOf
  rw [h0, h1, h2, h3, h4, h5, h6]
  congr 1
  · funext i
    by_cases hi : i = 7
    · rw [if_pos hi, if_pos hi]
    · rw [if_neg hi, if_neg hi, (ht i hi).1]
  · funext i
    by_cases hi : i = 7
    · rw [if_pos hi, if_pos hi]
    · rw [if_neg hi, if_neg hi, (ht i hi).2]

end

/-- One call, as seen by the rest of the library. -/
def cast (x : Cast) (k : Call) (r : Res Nat) : Cast :=
  { cnt := fun t => (saysIrqs t k r).getD (x.cnt t)
    irqCb := fun t => (saysIrqCb t k r).getD (x.irqCb t)
    hasQuiesce := (saysQuiesce k r).getD x.hasQuiesce
    hasReset := (saysReset k r).getD x.hasReset
    dmaCbs := ((saysDmaCbs k r).map (fun p => ⟨p.1, p.2⟩)).getD x.dmaCbs
    dma := ((saysDma k r).map (fun b => if b then some (64, 8 * 2 ^ 40) else none)).getD x.dma
    mig := (saysMig k r).getD x.mig
    told := fun i => if i = 7 ∨ 9 ≤ i then x.told i else (saysRegion i k r).getD (x.told i)
    areas := fun i => if i = 7 ∨ 9 ≤ i then x.areas i else (saysAreas i k r).getD (x.areas i) }

theorem cast_same {x : Cast} {k : Call} {r : Res Nat} (h1 : ∀ t, saysIrqs t k r = none) (h2 : ∀ t, saysIrqCb t k r = none)
    (h3 : saysQuiesce k r = none) (h4 : saysReset k r = none) (h5 : saysDmaCbs k r = none) (h6 : saysDma k r = none)
    (h7 : saysMig k r = none) (h8 : ∀ i, saysRegion i k r = none) (h9 : ∀ i, saysAreas i k r = none) : cast x k r = x := by
  unfold cast
  simp only [h1, h2, h3, h4, h5, h6, h7, h8, h9, Option.map_none, Option.getD_none, ite_self]

theorem toldAt_big {tbl : List Reg} (hl : tbl.length = 9) {i : Nat} (h : 9 ≤ i) : toldAt tbl i = Told.nothing ∧ areasAt tbl i = [] := by
  unfold toldAt areasAt
  rw [List.getElem?_eq_none (by omega)]
  exact ⟨rfl, rfl⟩

theorem step_cast {c : Ctx} {k : Call} (hg : Good c) (hr : c.realized = false) (hu : Use c k) :
    castOf (step c k).1 = cast (castOf c) k (step c k).2 := by
  have hg' := (step_good hg hr hu).1
  have hnf := (step_good hg hr hu).2
  cases k with
  | region alloc a =>
    have ht := fun i hi => setup_told (alloc := alloc) (a := a) hg.len i hi
    have hlen := hg'.len
    unfold step at hlen hnf ⊢
    dsimp only at hlen hnf ⊢
    generalize Region.setup alloc c.tbl a = o at ht hlen hnf
    obtain ⟨t, res⟩ := o
    have key : ∀ r : Res Nat, (∀ x, r ≠ .fault x) → t.length = 9 → (∀ i, i < 9 → toldAt t i = (saysRegion i (.region alloc a) r).getD (toldAt c.tbl i) ∧
        areasAt t i = (saysAreas i (.region alloc a) r).getD (areasAt c.tbl i)) →
        castOf { c with tbl := t } = cast (castOf c) (.region alloc a) r := by
      intro r _ hl h
      unfold castOf cast
      congr 1
      · funext i
        dsimp only
        by_cases hi : i = 7
        · rw [if_pos hi, if_pos (.inl hi), if_pos hi]
        · rw [if_neg hi]
          by_cases h9 : 9 ≤ i
          · rw [if_pos (.inr h9), if_neg hi, (toldAt_big hl h9).1, (toldAt_big hg.len h9).1]
          · rw [if_neg (by omega), if_neg hi, (h i (by omega)).1]
      · funext i
        dsimp only
        by_cases hi : i = 7
        · rw [if_pos hi, if_pos (.inl hi), if_pos hi]
        · rw [if_neg hi]
          by_cases h9 : 9 ≤ i
          · rw [if_pos (.inr h9), if_neg hi, (toldAt_big hl h9).2, (toldAt_big hg.len h9).2]
          · rw [if_neg (by omega), if_neg hi, (h i (by omega)).2]
    cases res with
    | ok u => exact key (.ok 0) (fun _ h => by cases h) hlen ht
    | err e => exact key (.err e) (fun _ h => by cases h) hlen ht
    | fault f => exact absurd rfl (hnf f)
  | ioeventfd shadow alloc idx s =>
    have ht := fun i => ioeventfd_told (shadow := shadow) (alloc := alloc) (tbl := c.tbl) (idx := idx) (s := s) i
    rw [cast_same (by intro t; rfl) (by intro t; rfl) rfl rfl rfl rfl rfl (by intro t; rfl) (by intro t; rfl)]
    unfold step
    dsimp only
    generalize Region.createIoeventfd shadow alloc c.tbl idx s = o at ht
    obtain ⟨t, res⟩ := o
    cases res with
    | ok u => exact castOf_region c _ ⟨rfl, rfl, rfl, rfl, rfl, rfl, rfl⟩ (fun i _ => ht i)
    | err e => exact castOf_region c _ ⟨rfl, rfl, rfl, rfl, rfl, rfl, rfl⟩ (fun i _ => ht i)
    | fault f => rfl
  | pciInit alloc type h =>
    rw [cast_same (by intro t; rfl) (by intro t; rfl) rfl rfl rfl rfl rfl (by intro t; rfl) (by intro t; rfl)]
    unfold step pciInit
    dsimp only
    split
    · rfl
    split
    · rfl
    split
    · rfl
    split
    · rfl
    split
    · rfl
    · exact castOf_region c _ ⟨rfl, rfl, rfl, rfl, rfl, rfl, rfl⟩ (fun i hi => set7_told hi)
  | setId v d sv sd =>
    rw [cast_same (by intro t; rfl) (by intro t; rfl) rfl rfl rfl rfl rfl (by intro t; rfl) (by intro t; rfl)]
    unfold step setId
    dsimp only
    split <;> rfl
  | setClass b s p =>
    rw [cast_same (by intro t; rfl) (by intro t; rfl) rfl rfl rfl rfl rfl (by intro t; rfl) (by intro t; rfl)]
    unfold step setClass
    dsimp only
    split <;> rfl
  | capability pos fl data =>
    rw [cast_same (by intro t; rfl) (by intro t; rfl) rfl rfl rfl rfl rfl (by intro t; rfl) (by intro t; rfl)]
    unfold step capability
    dsimp only
    split <;> rfl
  | store off bytes =>
    rw [cast_same (by intro t; rfl) (by intro t; rfl) rfl rfl rfl rfl rfl (by intro t; rfl) (by intro t; rfl)]
    unfold step store
    dsimp only
    split <;> rfl
  | nrIrqs t n =>
    unfold step
    dsimp only
    by_cases ht : t ≥ Irq.NUM_IRQS
    · rw [if_pos ht]
      exact (cast_same (by intro t; rfl) (by intro t; rfl) rfl rfl rfl rfl rfl (by intro t; rfl) (by intro t; rfl)).symm
    · rw [if_neg ht]
      unfold castOf cast
      simp only [saysIrqs, saysIrqCb, saysQuiesce, saysReset, saysDmaCbs, saysDma, saysMig, saysRegion, saysAreas, Option.map_none,
        Option.getD_none, ite_self]
      congr 1
      funext i
      by_cases hi : i = t
      · subst hi; simp
      · rw [if_neg hi, if_neg (fun h => hi h.symm)]; rfl
  | irqStateCb t b =>
    unfold step
    dsimp only
    by_cases ht : t ≥ Irq.NUM_IRQS
    · rw [if_pos ht]
      exact (cast_same (by intro t; rfl) (by intro t; rfl) rfl rfl rfl rfl rfl (by intro t; rfl) (by intro t; rfl)).symm
    · rw [if_neg ht]
      unfold castOf cast
      simp only [saysIrqs, saysIrqCb, saysQuiesce, saysReset, saysDmaCbs, saysDma, saysMig, saysRegion, saysAreas, Option.map_none,
        Option.getD_none, ite_self]
      congr 1
      funext i
      by_cases hi : i = t
      · subst hi; simp
      · rw [if_neg hi, if_neg (fun h => hi h.symm)]; rfl
  | quiesceCb b =>
    unfold step castOf cast
    simp [saysIrqs, saysIrqCb, saysQuiesce, saysReset, saysDmaCbs, saysDma, saysMig, saysRegion, saysAreas]
  | resetCb b =>
    unfold step castOf cast
    simp [saysIrqs, saysIrqCb, saysQuiesce, saysReset, saysDmaCbs, saysDma, saysMig, saysRegion, saysAreas]
  | dma alloc reg unreg =>
    unfold step
    dsimp only
    cases alloc <;> unfold castOf cast <;>
      simp [saysIrqs, saysIrqCb, saysQuiesce, saysReset, saysDmaCbs, saysDma, saysMig, saysRegion, saysAreas, dmaLimits]
  | migration alloc v cbs =>
    unfold step
    dsimp only
    by_cases hv : v = 2
    · cases alloc <;> cases cbs <;> unfold castOf cast <;>
        simp [saysIrqs, saysIrqCb, saysQuiesce, saysReset, saysDmaCbs, saysDma, saysMig, saysRegion, saysAreas, hv]
    · unfold castOf cast
      simp [saysIrqs, saysIrqCb, saysQuiesce, saysReset, saysDmaCbs, saysDma, saysMig, saysRegion, saysAreas, hv]
  | realize a b =>
    rw [cast_same (by intro t; rfl) (by intro t; rfl) rfl rfl rfl rfl rfl (by intro t; rfl) (by intro t; rfl)]
    unfold step realize
    dsimp only
    rw [hr, if_neg (by decide)]
    have h1 : castOf (withRegion c) = castOf c := by
      unfold withRegion
      split
      · rfl
      · split
        · exact castOf_region c _ ⟨rfl, rfl, rfl, rfl, rfl, rfl, rfl⟩ (fun i hi => set7_told hi)
        · rfl
    have h2 := castOf_furnished c
    unfold furnished at h2
    split
    · exact h1
    split
    · exact h2
    split
    · exact h2
    split
    · exact h2
    · exact h2

/-! ## All calls -/

theorem lastly_map {α β : Type} (g : α → β) (f : Call → Res Nat → Option α) (d : α) (h : Hist) :
    lastly (fun k r => (f k r).map g) (g d) h = g (lastly f d h) := by
  induction h generalizing d with
  | nil => rfl
  | cons x h ih =>
    obtain ⟨k, r⟩ := x
    unfold lastly
    rw [← ih]
    congr 1
    cases f k r <;> rfl

theorem run_view {α : Type} (view : Cast → α) (f : Call → Res Nat → Option α)
    (hf : ∀ x k r, view (cast x k r) = (f k r).getD (view x)) (ks : List Call) (hu : UseRun create ks) :
    view (castOf (run create ks).1) = lastly f (view (castOf create)) (hist ks) :=
  run_lastly (fun c => view (castOf c)) f (fun _ => True)
    (fun c k hg hr hu _ => by rw [step_cast hg hr hu]; exact hf _ k _) good_create hu (fun _ _ => trivial)

/-- **C79**: whatever calls were made, the request loop runs with what the last accepted one of each kind said: interrupts,
callbacks, DMA with its limits, migration, and the regions other than the config space. -/
theorem C79_config (ks : List Call) (hu : UseRun create ks) :
    let c := (run create ks).1
    let h := hist ks
    (∀ t, c.server.irq.cnt t = lastly (saysIrqs t) (if t = 3 ∨ t = 4 then 1 else 0) h) ∧
    (∀ t, c.server.irq.hasCb t = lastly (saysIrqCb t) false h) ∧
    c.server.hasQuiesce = lastly saysQuiesce false h ∧
    c.server.hasReset = lastly saysReset false h ∧
    (c.server.dma.hasReg, c.server.dma.hasUnreg) = lastly saysDmaCbs (false, false) h ∧
    c.start.dma = (if lastly saysDma false h = true then some (Dma.create 64 (8 * 2 ^ 40)) else none) ∧
    c.start.mig = (if lastly saysMig false h = true then some 2 else none) ∧
    c.server.tbl.length = 9 ∧
    ∀ i, i < 9 → i ≠ 7 → ∃ r, c.server.tbl[i]? = some r ∧ toldOf r = lastly (saysRegion i) Told.nothing h ∧
      r.areas = lastly (saysAreas i) [] h := by
  intro c h
  have hg := (run_good good_create hu).1
  have hd : (castOf c).dma = if lastly saysDma false h = true then some (64, 8 * 2 ^ 40) else none := by
    have h1 := run_view (·.dma) (fun k r => (saysDma k r).map (fun b => if b then some (64, 8 * 2 ^ 40) else none))
      (fun _ _ _ => rfl) ks hu
    exact h1.trans (lastly_map (fun b => if b = true then some (64, 8 * 2 ^ 40) else none) saysDma false h)
  have hc : (castOf c).dmaCbs = ⟨(lastly saysDmaCbs (false, false) h).1, (lastly saysDmaCbs (false, false) h).2⟩ := by
    have h1 := run_view (·.dmaCbs) (fun k r => (saysDmaCbs k r).map (fun p => ⟨p.1, p.2⟩)) (fun _ _ _ => rfl) ks hu
    exact h1.trans (lastly_map (fun p => Dma.Cfg.mk p.1 p.2) saysDmaCbs (false, false) h)
  refine ⟨fun t => run_view (fun x => x.cnt t) (saysIrqs t) (fun _ _ _ => rfl) ks hu,
    fun t => run_view (fun x => x.irqCb t) (saysIrqCb t) (fun _ _ _ => rfl) ks hu,
    run_view (·.hasQuiesce) saysQuiesce (fun _ _ _ => rfl) ks hu, run_view (·.hasReset) saysReset (fun _ _ _ => rfl) ks hu,
    ?_, ?_, ?_, hg.len, ?_⟩
  · change ((castOf c).dmaCbs.hasReg, (castOf c).dmaCbs.hasUnreg) = _
    rw [hc]
  · change ((castOf c).dma).map (fun x => Dma.create x.1 x.2) = _
    rw [hd]
    split <;> rfl
  · have h1 : (castOf c).mig = lastly saysMig false h := run_view (·.mig) saysMig (fun _ _ _ => rfl) ks hu
    change (if (castOf c).mig = true then some Mig.RUNNING else none) = _
    rw [h1]
    rfl
  · intro i hi h7
    have hlt : i < c.tbl.length := by rw [hg.len]; exact hi
    have t1 := run_view (fun x => x.told i) (saysRegion i)
      (fun _ _ _ => if_neg (by omega)) ks hu
    have t2 := run_view (fun x => x.areas i) (saysAreas i) (fun _ _ _ => if_neg (by omega)) ks hu
    change (if i = 7 then Told.nothing else toldAt c.tbl i) = lastly _ (if i = 7 then Told.nothing else toldAt create.tbl i) h at t1
    change (if i = 7 then [] else areasAt c.tbl i) = lastly _ (if i = 7 then [] else areasAt create.tbl i) h at t2
    rw [if_neg h7, if_neg h7] at t1 t2
    have e0 : create.tbl[i]? = some Reg.blank := by
      change (List.replicate 9 Reg.blank)[i]? = _
      rw [List.getElem?_replicate, if_pos hi]
    have b1 : toldAt create.tbl i = Told.nothing := by unfold toldAt; rw [e0]; rfl
    have b2 : areasAt create.tbl i = [] := by unfold areasAt; rw [e0]; rfl
    rw [b1] at t1
    rw [b2] at t2
    refine ⟨c.tbl[i], List.getElem?_eq_getElem hlt, ?_, ?_⟩
    · rw [← t1]; unfold toldAt; rw [List.getElem?_eq_getElem hlt]; rfl
    · rw [← t2]; unfold areasAt; rw [List.getElem?_eq_getElem hlt]; rfl

/-! ## The config space -/

/-- Vendor, device, class, subsystem vendor and subsystem. -/
def IdReg (a : Nat) : Prop := a < 4 ∨ 9 ≤ a ∧ a < 12 ∨ 0x2c ≤ a ∧ a < 0x30

/-- No store of the device into these registers. -/
def SparesIds : Call → Prop
  | .store off bytes => ∀ a, off ≤ a → a < off + bytes.length → ¬ IdReg a
  | _ => True

def saysVendor : Call → Res Nat → Option (List Byte)
  | .setId v d _ _, .ok _ => some (enc 2 v.toNat ++ enc 2 d.toNat)
  | _, _ => none

def saysSubsystem : Call → Res Nat → Option (List Byte)
  | .setId _ _ sv sd, .ok _ => some (enc 2 sv.toNat ++ enc 2 sd.toNat)
  | _, _ => none

/-- Programming interface, subclass, base class. -/
def saysClass : Call → Res Nat → Option (List Byte)
  | .setClass b s p, .ok _ => some [p, s, b]
  | _, _ => none

/-- The three registers. -/
def idsOf (m : Pci.Mem) : List Byte × List Byte × List Byte := (Pci.rdM m 0 4, Pci.rdM m 0x2c 4, Pci.rdM m 9 3)

theorem rdM_congr {m m' : Pci.Mem} {a n : Nat} (h : ∀ x, a ≤ x → x < a + n → m x = m' x) : Pci.rdM m a n = Pci.rdM m' a n := by
  unfold Pci.rdM
  apply List.map_congr_left
  intro i hi
  rw [List.mem_range] at hi
  exact h _ (by omega) (by omega)

theorem idsOf_congr {m m' : Pci.Mem} (h : ∀ a, IdReg a → m a = m' a) : idsOf m = idsOf m' := by
  unfold idsOf
  rw [rdM_congr (fun x h1 h2 => h x (by unfold IdReg; omega)), rdM_congr (fun x h1 h2 => h x (by unfold IdReg; omega)),
    rdM_congr (m := m) (m' := m') (a := 9) (fun x h1 h2 => h x (by unfold IdReg; omega))]

theorem rd_wr (m : Pci.Mem) (a n : Nat) (l : List Byte) (h : l.length = n) : Pci.rdM (Pci.wrM m a l) a n = l := by
  rw [← h]; exact Pci.rdM_wrM m a l

/-- No config space, no content. -/
def Bare (c : Ctx) : Prop := c.alloc = 0 → c.mem = fun _ => 0#8

theorem step_bare {c : Ctx} {k : Call} (h : Bare c) (hu : Use c k) : Bare (step c k).1 := by
  have hR : Bare (withRegion c) := by
    unfold withRegion
    split
    · exact h
    · split <;> exact h
  have hS : Bare (withSpace (withRegion c)) := by
    unfold withSpace
    split
    · exact fun _ => rfl
    · exact hR
  have hA : (withSpace (withRegion c)).alloc < 0x28 ∨ (withSpace (withRegion c)).alloc ≠ 0 := by omega
  cases k with
  | region alloc a =>
    unfold step
    dsimp only
    generalize Region.setup alloc c.tbl a = o
    obtain ⟨t, res⟩ := o
    cases res <;> exact h
  | ioeventfd shadow alloc idx s =>
    unfold step
    dsimp only
    generalize Region.createIoeventfd shadow alloc c.tbl idx s = o
    obtain ⟨t, res⟩ := o
    cases res <;> exact h
  | pciInit alloc type ht =>
    unfold step pciInit
    dsimp only
    split
    · exact h
    split
    · exact h
    split
    · exact h
    split
    · exact h
    split
    · exact h
    · exact fun _ => rfl
  | setId v d sv sd =>
    have hu : c.alloc ≠ 0 := hu
    unfold step setId
    dsimp only
    split
    · exact h
    · exact fun h0 => absurd h0 hu
  | setClass b s p =>
    have hu : c.alloc ≠ 0 := hu
    unfold step setClass
    dsimp only
    split
    · exact h
    · exact fun h0 => absurd h0 hu
  | capability pos fl data =>
    have hu := CapUse.space hu
    unfold step capability
    dsimp only
    split
    · exact h
    · exact fun h0 => absurd h0 hu
  | store off bytes =>
    obtain ⟨hu, _⟩ := hu
    unfold step store
    dsimp only
    split
    · exact h
    · intro h0
      change c.alloc = 0 at h0
      have : bytes = [] := List.length_eq_zero_iff.1 (by omega)
      subst this
      have hm := h h0
      dsimp only
      rw [hm]
      funext a
      exact Pci.wrM_out (by simp; omega)
  | nrIrqs t n => unfold step; dsimp only; split <;> exact h
  | irqStateCb t b => unfold step; dsimp only; split <;> exact h
  | quiesceCb b => exact h
  | resetCb b => exact h
  | dma alloc reg unreg => unfold step; dsimp only; split <;> exact h
  | migration alloc v cbs =>
    unfold step; dsimp only
    split
    · exact h
    · split
      · exact h
      · split <;> exact h
  | realize a b =>
    unfold step realize
    dsimp only
    split
    · exact h
    split
    · exact hR
    split
    · exact hS
    rename_i hbig
    split
    · exact fun h0 => absurd (show (withSpace (withRegion c)).alloc = 0 from h0) (by omega)
    split
    · exact fun h0 => absurd (show (withSpace (withRegion c)).alloc = 0 from h0) (by omega)
    · exact fun h0 => absurd (show (withSpace (withRegion c)).alloc = 0 from h0) (by omega)

/-- One call, seen on the three registers. -/
def idsAfter (x : List Byte × List Byte × List Byte) (k : Call) (r : Res Nat) : List Byte × List Byte × List Byte :=
  ((saysVendor k r).getD x.1, (saysSubsystem k r).getD x.2.1, (saysClass k r).getD x.2.2)

theorem step_ids {c : Ctx} {k : Call} (hg : Good c) (hb : Bare c) (hr : c.realized = false) (hu : Use c k) (hs : SparesIds k) :
    idsOf (step c k).1.mem = idsAfter (idsOf c.mem) k (step c k).2 := by
  cases k with
  | region alloc a =>
    unfold step
    dsimp only
    generalize Region.setup alloc c.tbl a = o
    obtain ⟨t, res⟩ := o
    cases res <;> rfl
  | ioeventfd shadow alloc idx s =>
    unfold step
    dsimp only
    generalize Region.createIoeventfd shadow alloc c.tbl idx s = o
    obtain ⟨t, res⟩ := o
    cases res <;> rfl
  | pciInit alloc type ht =>
    unfold step pciInit
    dsimp only
    split
    · rfl
    split
    · rfl
    split
    · rfl
    rename_i h0
    split
    · rfl
    split
    · rfl
    · have := hb (by omega)
      rw [this]; rfl
  | setId v d sv sd =>
    unfold step setId
    dsimp only
    split
    · rfl
    · unfold idsOf idsAfter saysVendor saysSubsystem saysClass
      dsimp only [Option.getD]
      rw [rd_wr _ 0x2c 4 _ (by simp [enc_length])]
      rw [rdM_congr (m' := Pci.wrM c.mem 0 (enc 2 v.toNat ++ enc 2 d.toNat)) (a := 0)
          (fun x h1 h2 => Pci.wrM_out (by simp [enc_length]; omega)),
        rd_wr _ 0 4 _ (by simp [enc_length]),
        rdM_congr (m' := c.mem) (a := 9) (fun x h1 h2 => by
          rw [Pci.wrM_out (by simp [enc_length]; omega), Pci.wrM_out (by simp [enc_length]; omega)])]
  | setClass b s p =>
    unfold step setClass
    dsimp only
    split
    · rfl
    · unfold idsOf idsAfter saysVendor saysSubsystem saysClass
      dsimp only [Option.getD]
      rw [rd_wr _ 9 3 _ rfl]
      rw [rdM_congr (m' := c.mem) (a := 0) (fun x h1 h2 => Pci.wrM_out (by simp; omega)),
        rdM_congr (m' := c.mem) (a := 0x2c) (fun x h1 h2 => Pci.wrM_out (by simp; omega))]
  | capability pos fl data =>
    change _ = idsOf c.mem
    apply idsOf_congr
    intro a ha
    unfold IdReg at ha
    exact capability_header hg hu (by omega) (by omega)
  | store off bytes =>
    change _ = idsOf c.mem
    apply idsOf_congr
    intro a ha
    unfold step store
    dsimp only
    split
    · rfl
    · exact Pci.wrM_out (by
        by_contra hx
        exact hs a (by omega) (by omega) ha)
  | nrIrqs t n => unfold step; dsimp only; split <;> rfl
  | irqStateCb t b => unfold step; dsimp only; split <;> rfl
  | quiesceCb b => rfl
  | resetCb b => rfl
  | dma alloc reg unreg => unfold step; dsimp only; split <;> rfl
  | migration alloc v cbs =>
    unfold step; dsimp only
    split
    · rfl
    · split
      · rfl
      · split <;> rfl
  | realize a b =>
    change _ = idsOf c.mem
    have hR : (withRegion c).mem = c.mem ∧ (withRegion c).alloc = c.alloc := by
      unfold withRegion
      split
      · exact ⟨rfl, rfl⟩
      · split <;> exact ⟨rfl, rfl⟩
    have hS : (withSpace (withRegion c)).mem = c.mem := by
      unfold withSpace
      split
      · rename_i h0
        rw [hb (by rw [← hR.2]; exact h0)]
      · exact hR.1
    unfold step realize
    dsimp only
    rw [hr, if_neg (by decide)]
    split
    · rw [hR.1]
    split
    · rw [hS]
    have hB : ∀ x, IdReg x → barLoop (withSpace (withRegion c)).tbl 6 0 (withSpace (withRegion c)).mem x = c.mem x := by
      intro x hx
      unfold IdReg at hx
      rw [bars_keep _ _ _ (by omega), hS]
    split
    · exact idsOf_congr hB
    split
    · exact idsOf_congr hB
    · refine idsOf_congr (fun x hx => ?_)
      have hx' := hx
      unfold IdReg at hx'
      dsimp only
      rw [setCl_keep _ _ _ (by omega), setPin_keep _ _ _ (by omega)]
      exact hB x hx

theorem run_ids {c : Ctx} (hg : Good c) (hb : Bare c) {ks : List Call} (hu : UseRun c ks) (hs : ∀ k ∈ ks, SparesIds k) :
    idsOf (run c ks).1.mem = (lastly saysVendor (idsOf c.mem).1 (ks.zip (run c ks).2),
      lastly saysSubsystem (idsOf c.mem).2.1 (ks.zip (run c ks).2), lastly saysClass (idsOf c.mem).2.2 (ks.zip (run c ks).2)) := by
  induction ks generalizing c with
  | nil => rfl
  | cons k ks ih =>
    obtain ⟨h1, h2, h3⟩ := hu
    obtain ⟨s1, s2⟩ := step_good hg h1 h2
    have hi := ih s1 (step_bare hb h2) h3 (fun k hk => hs k (List.mem_cons_of_mem _ hk))
    have hk := step_ids hg hb h1 h2 (hs k (List.mem_cons_self ..))
    rw [hk] at hi
    rw [run_cons s2]
    exact hi

theorem Good.inv {c : Ctx} (h : Good c) (hr : c.realized = true) : Pci.Inv c.pci := by
  rcases h.cfg with ⟨_, _, _, _, g, _⟩ | ⟨g, _⟩
  · rw [hr] at g; cases g
  · exact g

/-- **C79**, identification: a client that reads the ids and the class code of a realized device gets what the last
`vfu_pci_set_id` and `vfu_pci_set_class` said, and zeros if there was none. -/
theorem C79_ids (ks : List Call) (hu : UseRun create ks) (hs : ∀ k ∈ ks, SparesIds k) (hr : (run create ks).1.realized = true)
    {dev : Pci.Dev} (hd : dev.cb = none) (buf : List Byte) :
    let c := (run create ks).1
    let h := hist ks
    (Pci.access dev c.pci buf 4 0 false).data = lastly saysVendor (enc 4 0) h ∧
    (Pci.access dev c.pci buf 4 0x2c false).data = lastly saysSubsystem (enc 4 0) h ∧
    (Pci.access dev c.pci buf 3 9 false).data = lastly saysClass (enc 3 0) h := by
  intro c h
  have hi := (run_good good_create hu).1.inv hr
  have hids := run_ids good_create (fun _ => rfl) hu hs
  have hsz := hi.bnd.std
  rw [(Pci.C38_read hd hi.bnd buf (by omega)).2.1, (Pci.C38_read hd hi.bnd buf (by omega)).2.1,
    (Pci.C38_read hd hi.bnd buf (by omega)).2.1]
  exact ⟨congrArg (·.1) hids, congrArg (·.2.1) hids, congrArg (·.2.2) hids⟩

/-! ## BARs -/

theorem barOf_told (tbl : List Reg) (i : Nat) :
    barOf tbl i = ((toldAt tbl i).size, (toldAt tbl i).flags.testBit 2) := by
  unfold barOf toldAt
  cases tbl[i]? with
  | none => rfl
  | some r =>
    have := and_two_pow_ne r.flags 2
    change (r.size, decide (r.flags &&& 2 ^ 2 ≠ 0)) = (r.size, r.flags.testBit 2)
    congr 1
    cases h : r.flags.testBit 2 <;> simp_all

theorem flagsOf_told (tbl : List Reg) (i : Nat) : flagsOf tbl i = (toldAt tbl i).flags := by
  unfold flagsOf toldAt
  cases tbl[i]? <;> rfl

theorem toldAt_lastly (ks : List Call) (hu : UseRun create ks) {i : Nat} (hi : i < 9) (h7 : i ≠ 7) :
    toldAt (run create ks).1.tbl i = lastly (saysRegion i) Told.nothing (hist ks) := by
  obtain ⟨r, h1, h2, _⟩ := (C79_config ks hu).2.2.2.2.2.2.2.2 i hi h7
  rw [← h2]
  unfold toldAt
  have h1 : (run create ks).1.tbl[i]? = some r := h1
  rw [h1]; rfl

/-- Bits of a BAR that say what it is: two for I/O, four for memory. -/
def kindBits (flags : Nat) : Nat := if flags.testBit 2 then 4 else 2

/-- **C79**, BARs: the client that sizes BAR `i` of a freshly realized device by writing all ones finds the size that the
last `vfu_setup_region` of region `i` gave, beside the kind of the region; and a BAR of a region nobody set up does not
answer. -/
theorem C79_bars (ks : List Call) (hu : UseRun create ks) (hs : ∀ k ∈ ks, Spares k) (a b : Bool) {c' : Ctx}
    (hr : step (run create ks).1 (.realize a b) = (c', .ok 0)) {dev : Pci.Dev} (hh : Pci.Honest dev) (hd : dev.cb = none)
    (buf : List Byte) {i : Nat} (hi : i < 6) :
    let t := lastly (saysRegion i) Told.nothing (hist ks)
    let rq : Pci.Req := ⟨enc 4 0xffffffff, 4, 0x10 + 4 * i, true⟩
    (Pci.access dev c'.pci rq.buf 4 rq.off true).ret = .ok 4 ∧
    (t.size ≠ 0 → t.size % 2 ^ kindBits t.flags = 0 →
      (Pci.access dev (c'.pci.after dev rq) buf 4 rq.off false).data =
        enc 4 (2 ^ 32 - t.size + barValue t.flags % 2 ^ kindBits t.flags)) ∧
    (t.size = 0 → (Pci.access dev (c'.pci.after dev rq) buf 4 rq.off false).data = enc 4 (barValue t.flags)) := by
  intro t rq
  have hadv := C70_advertised ks hu hs a b hr dev hd buf
  obtain ⟨hrz, hbar, _⟩ := hadv
  obtain ⟨h1, _, _⟩ := run_good good_create hu
  have hg' : Good c' := by
    have hz := (run_zero good_create (fun a _ => rfl) hu hs).2
    have := (step_good h1 (k := .realize a b) hz trivial).1
    rw [hr] at this; exact this
  have hinv := hg'.inv hrz
  have hsz := hinv.bnd.std
  have htold : toldAt c'.tbl i = t := by
    have hz := (run_zero good_create (fun a _ => rfl) hu hs).2
    have h2 := step_cast h1 (k := .realize a b) hz trivial
    rw [cast_same (by intro t; rfl) (by intro t; rfl) rfl rfl rfl rfl rfl (by intro t; rfl) (by intro t; rfl), hr] at h2
    have h3 := congrFun (congrArg Cast.told h2) i
    change (if i = 7 then Told.nothing else toldAt c'.tbl i) = (if i = 7 then Told.nothing else toldAt (run create ks).1.tbl i) at h3
    rw [if_neg (by omega), if_neg (by omega)] at h3
    rw [h3]
    exact toldAt_lastly ks hu (by omega) (by omega)
  have hflag : flagsOf (run create ks).1.tbl i = t.flags := by
    rw [flagsOf_told, toldAt_lastly ks hu (by omega) (by omega)]
  have hb : c'.pci.bar i = (t.size, t.flags.testBit 2) := by
    change barOf c'.tbl i = _
    rw [barOf_told, htold]
  have hk : Pci.typeBits (c'.pci.bar i).2 = kindBits t.flags := by rw [hb]; rfl
  have hrd := hbar i hi
  rw [hflag, (Pci.C38_read hd hinv.bnd buf (by omega)).2.1] at hrd
  have hlt : t.size < U32 := by
    have h9 : i < c'.tbl.length := by rw [hg'.len]; omega
    have := (hg'.regs.regs _ (List.getElem_mem h9)).size
    rw [← htold]
    unfold toldAt
    rw [List.getElem?_eq_getElem h9]
    exact this
  have hval : Pci.reg32 c'.pci.mem (0x10 + 4 * i) = barValue t.flags := by
    unfold Pci.reg32
    rw [hrd]
    rw [leAt_enc]
    exact Nat.mod_eq_of_lt (lt_of_lt_of_le (barByte_zero t.flags).2 (by decide))
  have hafter : Pci.Bounded (c'.pci.after dev rq) := Pci.bounded_after hinv.bnd
  have hread : (Pci.access dev (c'.pci.after dev rq) buf 4 rq.off false).data = Pci.rdM (c'.pci.after dev rq).mem rq.off 4 :=
    (Pci.C38_read hd hafter buf (show 0x10 + 4 * i + 4 ≤ c'.pci.size by omega)).2.1
  refine ⟨(Pci.bar_access hh (enc_length 4 _) hi).1, fun h0 hal => ?_, fun h0 => ?_⟩
  · have hz := (Pci.C42_sizing hh (p := c'.pci) hi (by rw [hb]; exact h0) (by rw [hb]; exact hlt)
      (by rw [hk, hb]; exact hal)).2.1
    rw [hk, hval, hb] at hz
    rw [hread]
    change Pci.rdM (Pci.access dev c'.pci (enc 4 0xffffffff) 4 (0x10 + 4 * i) true).mem (0x10 + 4 * i) 4 = _
    have he := enc_leAt (Pci.rdM (Pci.access dev c'.pci (enc 4 0xffffffff) 4 (0x10 + 4 * i) true).mem (0x10 + 4 * i) 4) 4 0
      (by rw [Pci.rdM_length])
    rw [List.drop_zero, List.take_of_length_le (by rw [Pci.rdM_length])] at he
    rw [← he]
    exact congrArg (enc 4) hz
  · have hz := (Pci.C42_upper hh (p := c'.pci) hi (by rw [hb]; exact h0) (buf := enc 4 0xffffffff) (enc_length 4 _)).2
    rw [hread]
    change Pci.rdM (Pci.access dev c'.pci (enc 4 0xffffffff) 4 (0x10 + 4 * i) true).mem (0x10 + 4 * i) 4 = _
    rw [hz]
    exact hrd

/-! ## Regions and interrupts -/

theorem step_areas7 {c : Ctx} {k : Call} (hg : Good c) (h : areasAt c.tbl 7 = []) (hu : Use c k) :
    areasAt (step c k).1.tbl 7 = [] := by
  have set7 : ∀ {r r' : Reg}, c.tbl[7]? = some r → r'.areas = r.areas → areasAt (c.tbl.set 7 r') 7 = [] := by
    intro r r' h1 h2
    rw [← h]
    unfold areasAt
    rw [List.getElem?_set_self (by rw [hg.len]; decide), h1]
    exact h2
  cases k with
  | region alloc a =>
    have ht := (setup_told (alloc := alloc) (a := a) hg.len 7 (by decide)).2
    have hcfg := RegionUse.config hu
    unfold step
    dsimp only
    generalize Region.setup alloc c.tbl a = o at ht
    obtain ⟨t, res⟩ := o
    rw [h] at ht
    have h0 : ∀ x : Res Nat, (saysAreas 7 (.region alloc a) x).getD [] = [] := by
      intro x
      cases x with
      | ok n =>
        unfold saysAreas
        dsimp only
        by_cases hc : a.idx = (7 : Nat) ∧ a.fd ≠ none
        · exact absurd (hcfg hc.1).1 hc.2
        · rw [if_neg hc]; rfl
      | err e => unfold saysAreas; dsimp only; split <;> rfl
      | fault f => rfl
    rw [h0] at ht
    cases res with
    | ok u => exact ht
    | err e => exact ht
    | fault f => exact h
  | ioeventfd shadow alloc idx s =>
    have ht := (ioeventfd_told (shadow := shadow) (alloc := alloc) (tbl := c.tbl) (idx := idx) (s := s) 7).2
    unfold step
    dsimp only
    generalize Region.createIoeventfd shadow alloc c.tbl idx s = o at ht
    obtain ⟨t, res⟩ := o
    cases res with
    | ok u => exact ht.trans h
    | err e => exact ht.trans h
    | fault f => exact h
  | pciInit alloc type ht =>
    unfold step pciInit
    dsimp only
    split
    · exact h
    split
    · exact h
    split
    · exact h
    split
    · exact h
    split
    · exact h
    · rename_i r hr
      exact set7 hr rfl
  | setId v d sv sd => unfold step setId; dsimp only; split <;> exact h
  | setClass b s p => unfold step setClass; dsimp only; split <;> exact h
  | capability pos fl data => unfold step capability; dsimp only; split <;> exact h
  | store off bytes => unfold step store; dsimp only; split <;> exact h
  | nrIrqs t n => unfold step; dsimp only; split <;> exact h
  | irqStateCb t b => unfold step; dsimp only; split <;> exact h
  | quiesceCb b => exact h
  | resetCb b => exact h
  | dma alloc reg unreg => unfold step; dsimp only; split <;> exact h
  | migration alloc v cbs =>
    unfold step; dsimp only
    split
    · exact h
    · split
      · exact h
      · split <;> exact h
  | realize a b =>
    have hR : areasAt (withRegion c).tbl 7 = [] := by
      unfold withRegion
      split
      · exact h
      · rename_i r hr
        split
        · exact set7 hr rfl
        · exact h
    have hS : areasAt (withSpace (withRegion c)).tbl 7 = [] := by
      unfold withSpace
      split <;> exact hR
    unfold step realize
    dsimp only
    split
    · exact h
    split
    · exact hR
    split
    · exact hS
    split
    · exact hS
    split
    · exact hS
    · exact hS

theorem run_areas7 {c : Ctx} (hg : Good c) (h : areasAt c.tbl 7 = []) {ks : List Call} (hu : UseRun c ks) :
    areasAt (run c ks).1.tbl 7 = [] := by
  induction ks generalizing c with
  | nil => exact h
  | cons k ks ih =>
    obtain ⟨h1, h2, h3⟩ := hu
    obtain ⟨s1, s2⟩ := step_good hg h1 h2
    rw [run_cons s2]
    exact ih s1 (step_areas7 hg h h2) h3

/-- No region that had a descriptor is set up again without one. -/
def NoStale (ks : List Call) : Prop :=
  ∀ i, i < 9 → i ≠ 7 → lastly (saysAreas i) [] (hist ks) ≠ [] → (lastly (saysRegion i) Told.nothing (hist ks)).fd ≠ none

theorem tableOk {ks : List Call} (hu : UseRun create ks) (hn : NoStale ks) : Server.TableOk (run create ks).1.server.tbl := by
  intro r hr ha
  obtain ⟨i, hi, he⟩ := List.mem_iff_getElem.1 hr
  have hlen : (run create ks).1.server.tbl.length = 9 := (run_good good_create hu).1.len
  rw [hlen] at hi
  have hget : (run create ks).1.server.tbl[i]? = some r := by rw [← he]; exact List.getElem?_eq_getElem _
  by_cases h7 : i = 7
  · subst h7
    have h := run_areas7 good_create rfl hu
    unfold areasAt at h
    have hget : (run create ks).1.tbl[7]? = some r := hget
    rw [hget] at h
    exact absurd h ha
  · obtain ⟨r', h1, h2, h3⟩ := (C79_config ks hu).2.2.2.2.2.2.2.2 i hi h7
    have h1 : (run create ks).1.server.tbl[i]? = some r' := h1
    rw [hget] at h1
    cases h1
    have := hn i hi h7 (by rw [← h3]; exact ha)
    rw [← h2] at this
    exact this

section
variable {ks : List Call} (hu : UseRun create ks) (hn : NoStale ks) {env : Server.Env} {st : Server.St} {m : Server.Msg}
  (hx : Server.Next (run create ks).1.server env st m)
include hu hn hx

/-- **C79**, interrupts: GET_IRQ_INFO reports the number of interrupts that the last accepted `vfu_setup_device_nr_irqs` gave;
without one, one for ERR and REQ and none for the others. -/
theorem C79_irqs (hcmd : m.hdr.cmd = 7) (h1 : 16 ≤ m.body.length) (h2 : 16 ≤ leAt m.body 0 4) {t : Nat}
    (ht : leAt m.body 8 4 = t) (h3 : t < 5) :
    ∃ l, Server.Replies m 0 l [] (Server.call (run create ks).1.server st (.run env (.req m.hdr m.body m.fds))) ∧ l.length = 16 ∧
      leAt l 8 4 = t ∧ leAt l 12 4 = lastly (saysIrqs t) (if t = 3 ∨ t = 4 then 1 else 0) (hist ks) := by
  have hg := (run_good good_create hu).1
  subst ht
  obtain ⟨l, e1, e2, _, _, e3, e4⟩ := (Server.C74_irq (tableOk hu hn) hg.regs hx hg.irq hcmd).2 h1 h2 h3
  exact ⟨l, e1, e2, e3, e4.trans ((C79_config ks hu).1 _)⟩

/-- **C79**, regions: GET_REGION_INFO reports what the last `vfu_setup_region` of the region said, and hands out its
descriptor and its mappable areas. -/
theorem C79_regions (hcmd : m.hdr.cmd = 5) (h1 : 32 ≤ m.body.length) (h2 : 32 ≤ leAt m.body 0 4) {i : Nat}
    (hidx : leAt m.body 8 4 = i) (hi : i < 9) (h7 : i ≠ 7) :
    let t := lastly (saysRegion i) Told.nothing (hist ks)
    let areas := lastly (saysAreas i) [] (hist ks)
    ∃ l fds, Server.Replies m 0 l fds (Server.call (run create ks).1.server st (.run env (.req m.hdr m.body m.fds))) ∧
      leAt l 8 4 = i ∧ leAt l 16 8 = t.size ∧ leAt l 24 8 = t.offset ∧ (leAt l 4 4).testBit 0 = t.flags.testBit 0 ∧
      (leAt l 4 4).testBit 1 = t.flags.testBit 1 ∧ (leAt l 4 4).testBit 2 = t.fd.isSome ∧
      (0 < t.size → areas ≠ [] → 48 + 16 * areas.length ≤ leAt m.body 0 4 →
        fds.map some = [t.fd] ∧ leAt l 40 4 = areas.length ∧
          ∀ j (hj : j < areas.length), leAt l (48 + 16 * j) 8 = areas[j].1 ∧ leAt l (48 + 16 * j + 8) 8 = areas[j].2) := by
  intro t areas
  have hg := (run_good good_create hu).1
  subst hidx
  obtain ⟨r, r1, r2, r3⟩ := (C79_config ks hu).2.2.2.2.2.2.2.2 _ hi h7
  obtain ⟨l, fds, e1, _, e2, e3, _⟩ := (Server.C74_region (tableOk hu hn) hg.regs hx hcmd).2 r h1 h2 r1
  have ht : toldOf r = t := r2
  have ha : r.areas = areas := r3
  clear_value t areas
  subst ht ha
  refine ⟨l, fds, e1, e2.index, e2.size, e2.offset, e2.read, e2.write, e2.mmap, fun g1 g2 g3 => ?_⟩
  have hnd : Region.needed r ≤ leAt m.body 0 4 := by
    unfold Region.needed
    split <;> omega
  obtain ⟨_, _, _, f1, _, _, _, f2, f3⟩ := e3 g1 g2 hnd
  exact ⟨f1, f2, f3⟩

end

/-- **C79**, refusals: which of the calls that only record something are accepted. -/
theorem C79_accepted (c : Ctx) (t n : Nat) (b : Bool) (alloc cbs : Bool) (v type : Nat) (ht : Int) :
    ((step c (.nrIrqs t n)).2 = .ok 0 ↔ t < 5) ∧ ((step c (.irqStateCb t b)).2 = .ok 0 ↔ t < 5) ∧
    (5 ≤ t → step c (.nrIrqs t n) = (c, .err EINVAL) ∧ step c (.irqStateCb t b) = (c, .err EINVAL)) ∧
    ((step c (.migration alloc v cbs)).2 = .ok 0 ↔ v = 2 ∧ alloc = true ∧ cbs = true) ∧
    (c.tbl.length = 9 → ((step c (.pciInit alloc type ht)).2 = .ok 0 ↔ type ≤ 3 ∧ ht = 0 ∧ c.alloc = 0 ∧ alloc = true)) := by
  have hN : Irq.NUM_IRQS = 5 := rfl
  refine ⟨?_, ?_, fun h => ?_, ?_, fun hl => ?_⟩
  · unfold step
    dsimp only
    rw [hN]
    by_cases h : t ≥ 5
    · rw [if_pos h]; exact ⟨(fun h' => by cases h'), fun h' => by omega⟩
    · rw [if_neg h]; exact ⟨fun _ => by omega, fun _ => rfl⟩
  · unfold step
    dsimp only
    rw [hN]
    by_cases h : t ≥ 5
    · rw [if_pos h]; exact ⟨(fun h' => by cases h'), fun h' => by omega⟩
    · rw [if_neg h]; exact ⟨fun _ => by omega, fun _ => rfl⟩
  · exact ⟨if_pos h, if_pos h⟩
  · unfold step
    dsimp only
    by_cases h : v = 2 <;> cases alloc <;> cases cbs <;> simp [h]
  · unfold step pciInit
    dsimp only
    rw [List.getElem?_eq_getElem (show 7 < c.tbl.length by omega)]
    dsimp only
    by_cases h1 : type > 3
    · rw [if_pos h1]; exact ⟨(fun h' => by cases h'), fun h' => by omega⟩
    rw [if_neg h1]
    by_cases h2 : ht ≠ 0
    · rw [if_pos h2]; exact ⟨(fun h' => by cases h'), fun h' => absurd h'.2.1 h2⟩
    rw [if_neg h2]
    by_cases h3 : c.alloc ≠ 0
    · rw [if_pos h3]; exact ⟨(fun h' => by cases h'), fun h' => absurd h'.2.2.1 h3⟩
    rw [if_neg h3]
    cases alloc with
    | false => rw [if_pos rfl]; exact ⟨(fun h' => by cases h'), fun h' => by cases h'.2.2.2⟩
    | true => rw [if_neg (by decide)]; exact ⟨fun _ => ⟨by omega, by omega, by omega, rfl⟩, fun _ => rfl⟩

end Verif.Setup
