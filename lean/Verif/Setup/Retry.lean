import Verif.Setup.Examples
import Verif.Setup.Order

/-! # C116: set-up calls that fail, and trying again -/

namespace Verif.Setup
open Verif
open Verif.Region (Reg)

/-- The same call, with memory. -/
def Call.again : Call → Call
  | .region _ a => .region true a
  | .ioeventfd shadow _ idx s => .ioeventfd shadow true idx s
  | .pciInit _ type h => .pciInit true type h
  | .dma _ reg unreg => .dma true reg unreg
  | .migration _ v cbs => .migration true v cbs
  | .realize _ _ => .realize true true
  | k => k

/-- `d` is `c` with the ioeventfds of region `i` forgotten. -/
def SubsLost (i : Nat) (c d : Ctx) : Prop :=
  ∃ r, c.tbl[i]? = some r ∧ d = { c with tbl := c.tbl.set i { r with subs := [] } }

/-! ## Realizing twice -/

theorem barByte_idem (flags : Nat) (b : Byte) : barByte flags (barByte flags b) = barByte flags b := by
  unfold barByte
  dsimp only
  split_ifs <;> (clear * -; revert b; decide +kernel)

theorem barLoop_idem (tbl : List Reg) (m : Pci.Mem) : barLoop tbl 6 0 (barLoop tbl 6 0 m) = barLoop tbl 6 0 m := by
  funext a
  by_cases h : ∃ j, j < 6 ∧ a = 0x10 + 4 * j
  · obtain ⟨j, hj, rfl⟩ := h
    rw [barLoop_at tbl 6 0 _ j (by omega) (by omega), barLoop_at tbl 6 0 m j (by omega) (by omega), barByte_idem]
  · rw [barLoop_out tbl 6 0 _ a (fun j _ h2 he => h ⟨j, by omega, he⟩)]

theorem withRegion_idem (c : Ctx) : withRegion (withRegion c) = withRegion c := by
  unfold withRegion
  cases h : c.tbl[7]? with
  | none => simp only [h]
  | some r =>
    dsimp only
    by_cases hr : r.size = 0
    · rw [if_pos hr]
      have hl : 7 < c.tbl.length := (List.getElem?_eq_some_iff.mp h).1
      dsimp only
      rw [List.getElem?_set_self hl]
      dsimp only
      rw [if_neg (by decide)]
    · rw [if_neg hr, h]
      dsimp only
      rw [if_neg hr]

theorem realize_both (c : Ctx) (hr : ¬c.realized = true) (h2 : ¬(withSpace (withRegion c)).alloc < 0x28) :
    realize c true true =
      (fun e : Ctx => if e.cnt Irq.INTX ≠ 0 ∧ e.alloc < 0x3e then ({ e with mem := barLoop e.tbl 6 0 e.mem }, .fault .oob)
        else ({ e with mem := setCl e (setPin e (barLoop e.tbl 6 0 e.mem)), realized := true }, .ok 0))
      (withSpace (withRegion c)) := by
  unfold realize
  rw [if_neg hr]
  dsimp only
  rw [if_neg (by rintro ⟨_, h⟩; cases h), if_neg h2, if_neg Bool.true_eq_false.mp]

/-- What a failed `vfu_realize_ctx` leaves behind is what the next one would do itself. -/
theorem realize_retry (c : Ctx) (a b : Bool) (h : (realize c a b).2 = .err ENOMEM) :
    realize (realize c a b).1 true true = realize c true true := by
  unfold realize at h
  by_cases hr : c.realized = true
  · rw [if_pos hr] at h; cases h
  rw [if_neg hr] at h
  dsimp only at h
  have hf : (withRegion c).realized = c.realized := by
    unfold withRegion
    split
    · rfl
    · split <;> rfl
  by_cases h1 : (withRegion c).alloc = 0 ∧ a = false
  · have hs : (realize c a b).1 = withRegion c := by
      unfold realize
      rw [if_neg hr]
      dsimp only
      rw [if_pos h1]
    rw [hs]
    unfold realize
    rw [hf, if_neg hr, if_neg hr]
    dsimp only
    rw [withRegion_idem]
  · rw [if_neg h1] at h
    by_cases h2 : (withSpace (withRegion c)).alloc < 0x28
    · rw [if_pos h2] at h; cases h
    rw [if_neg h2] at h
    by_cases h3 : b = false
    · have hs : (realize c a b).1 =
          { withSpace (withRegion c) with mem := barLoop (withSpace (withRegion c)).tbl 6 0 (withSpace (withRegion c)).mem } := by
        unfold realize
        rw [if_neg hr]
        dsimp only
        rw [if_neg h1, if_neg h2, if_pos h3]
      rw [hs]
      have ht : (withSpace (withRegion c)).tbl = (withRegion c).tbl := by
        unfold withSpace
        split <;> rfl
      generalize hm : barLoop (withSpace (withRegion c)).tbl 6 0 (withSpace (withRegion c)).mem = m
      have hw : withRegion { withSpace (withRegion c) with mem := m } = { withSpace (withRegion c) with mem := m } := by
        have hi := withRegion_idem c
        generalize hd : withRegion c = d at hi ht
        unfold withRegion at hi ⊢
        dsimp only
        rw [ht]
        cases h7 : d.tbl[7]? with
        | none => rfl
        | some r =>
          rw [h7] at hi
          dsimp only at hi ⊢
          by_cases hz : r.size = 0
          · exfalso
            rw [if_pos hz] at hi
            have hl : 7 < d.tbl.length := (List.getElem?_eq_some_iff.mp h7).1
            have h8 : (d.tbl.set 7 { r with flags := Region.FLAG_RW, size := 256 })[7]? = d.tbl[7]? := congrArg (·.tbl[7]?) hi
            rw [List.getElem?_set_self hl, h7] at h8
            have h9 : (256 : Nat) = r.size := congrArg Reg.size (Option.some.inj h8)
            omega
          · rw [if_neg hz]
      have hreal : (withSpace (withRegion c)).realized = c.realized := by
        rw [← hf]
        unfold withSpace
        split <;> rfl
      have hsp : withSpace { withSpace (withRegion c) with mem := m } = { withSpace (withRegion c) with mem := m } := by
        generalize withSpace (withRegion c) = e at h2
        unfold withSpace
        dsimp only
        rw [if_neg (by omega)]
      have hre : ({ withSpace (withRegion c) with mem := m } : Ctx).realized = c.realized := hreal
      generalize he : ({ withSpace (withRegion c) with mem := m } : Ctx) = e at hw hsp hre ⊢
      have hre' : ¬e.realized = true := by rw [hre]; exact hr
      rw [realize_both c hr h2, realize_both e hre' (by rw [hw, hsp, ← he]; exact h2), hw, hsp, ← he]
      dsimp only
      rw [← hm, barLoop_idem]
      rfl
    · rw [if_neg h3] at h
      split at h <;> cases h

/-! ## A region -/

/-- A region refused for want of memory: everything was right, the entry is blank and has descriptor 0. -/
theorem setup_starved {alloc : Bool} {tbl t : List Reg} {a : Region.Setup} (h : Region.setup alloc tbl a = (t, .err ENOMEM)) :
    ∃ old areas, tbl[a.idx.toNat]? = some old ∧ t = tbl.set a.idx.toNat { Reg.blank with fd := some 0 } ∧
      ∀ (u : List Reg) (r : Reg), u[a.idx.toNat]? = some r → Region.setup true u a =
        (u.set a.idx.toNat { r with flags := a.flags, size := a.size % U32, hasCb := a.hasCb, fd := a.fd, offset := a.offset, areas := areas },
          .ok ()) := by
  have hne : ∀ {x : List Reg}, (x, (Res.err EINVAL : Res Unit)) ≠ (t, .err ENOMEM) := by
    intro x hx
    have := (Prod.mk.inj hx).2
    cases this
  unfold Region.setup at h ⊢
  by_cases h1 : a.flags ≠ a.flags &&& Region.FLAG_MASK ∨ a.flags &&& Region.FLAG_RW = 0
  · rw [if_pos h1] at h; exact absurd h hne
  rw [if_neg h1] at h
  by_cases h2 : a.flags &&& Region.FLAG_ALWAYS_CB ≠ 0 ∧ a.hasCb = false
  · rw [if_pos h2] at h; exact absurd h hne
  rw [if_neg h2] at h
  by_cases h3 : a.areas ≠ [] ∧ a.fd = none
  · rw [if_pos h3] at h; exact absurd h hne
  rw [if_neg h3] at h
  by_cases h4 : a.idx < 0 ∨ a.idx ≥ Region.NUM_REGIONS
  · rw [if_pos h4] at h; exact absurd h hne
  rw [if_neg h4] at h
  by_cases h5 : a.idx = Region.CFG_IDX ∧ (a.flags &&& Region.FLAG_RW ≠ Region.FLAG_RW ∨ a.flags &&& Region.FLAG_MEM ≠ 0)
  · rw [if_pos h5] at h; exact absurd h hne
  rw [if_neg h5] at h
  by_cases h6 : Region.areasFit a.size a.areas = false
  · rw [if_pos h6] at h; exact absurd h hne
  rw [if_neg h6] at h
  cases ho : tbl[a.idx.toNat]? with
  | none => rw [ho] at h; cases h
  | some old =>
    rw [ho] at h
    dsimp only at h
    by_cases h7 : (if a.areas = [] ∧ a.fd ≠ none then [(0, a.size)] else a.areas) = []
    · rw [if_pos h7] at h; cases h
    rw [if_neg h7] at h
    by_cases h8 : alloc = true
    · rw [if_pos h8] at h; cases h
    rw [if_neg h8] at h
    refine ⟨old, if a.areas = [] ∧ a.fd ≠ none then [(0, a.size)] else a.areas, rfl, (Prod.mk.inj h).1.symm, ?_⟩
    intro u r hu
    rw [if_neg h1, if_neg h2, if_neg h3, if_neg h4, if_neg h5, if_neg h6, hu]
    dsimp only
    rw [if_neg h7, if_pos rfl]

theorem step_region {c : Ctx} {alloc : Bool} {a : Region.Setup} (h : (step c (.region alloc a)).2 = .err ENOMEM) :
    ∃ t, Region.setup alloc c.tbl a = (t, .err ENOMEM) ∧ (step c (.region alloc a)).1 = { c with tbl := t } := by
  unfold step at h ⊢
  dsimp only at h ⊢
  generalize hr : Region.setup alloc c.tbl a = o at h ⊢
  obtain ⟨t, res⟩ := o
  cases res with
  | ok u => cases h
  | fault f => cases h
  | err e => cases h; exact ⟨t, rfl, rfl⟩

/-- Adding a capability needs no memory. -/
theorem addCap_memory (cb : Bool) (p : Pci.Pci) (pos : Nat) (fl : Pci.CapFlags) (data : List Byte) :
    (Pci.addCap cb p pos fl data).2 ≠ .err ENOMEM := by
  have hl : ∀ n a, Pci.lastLink p n a ≠ .err ENOMEM := by
    intro n
    induction n with
    | zero => intro a h; cases h
    | succ n ih => intro a; unfold Pci.lastLink; split_ifs <;> first | exact ih _ | (intro h; cases h)
  have he : ∀ n a, Pci.lastExt p n a ≠ .err ENOMEM := by
    intro n
    induction n with
    | zero => intro a h; cases h
    | succ n ih => intro a; unfold Pci.lastExt; split_ifs <;> first | exact ih _ | (intro h; cases h)
  have h1 : ∀ s, Pci.stdPlace p pos s ≠ .err ENOMEM := by
    intro s h
    unfold Pci.stdPlace at h
    split at h
    · split at h
      · cases h
      split at h
      · cases h
      cases hk : Pci.lastLink p 257 0x34 with
      | ok a => rw [hk] at h; cases h
      | fault f => rw [hk] at h; cases h
      | err e => rw [hk] at h; cases h; exact hl _ _ hk
    · split at h
      · cases h
      cases hk : Pci.lastLink p 257 0x34 with
      | ok a => rw [hk] at h; dsimp only at h; split at h <;> [cases h; (split at h <;> cases h)]
      | fault f => rw [hk] at h; cases h
      | err e => rw [hk] at h; cases h; exact hl _ _ hk
  have h2 : ∀ s, Pci.extPlace p pos s ≠ .err ENOMEM := by
    intro s h
    unfold Pci.extPlace at h
    split at h
    · cases h
    split at h
    · cases h
    split at h
    · split at h
      · cases h
      split at h
      · cases h
      split at h
      · cases h
      cases hk : Pci.lastExt p 4097 256 with
      | ok a => rw [hk] at h; cases h
      | fault f => rw [hk] at h; cases h
      | err e => rw [hk] at h; cases h; exact he _ _ hk
    · split at h
      · cases h
      cases hk : Pci.lastExt p 4097 256 with
      | ok a => rw [hk] at h; dsimp only at h; split at h <;> [cases h; (split at h <;> cases h)]
      | fault f => rw [hk] at h; cases h
      | err e => rw [hk] at h; cases h; exact he _ _ hk
  intro h
  unfold Pci.addCap at h
  split at h
  · cases h
  split at h
  · cases h
  split at h
  · unfold Pci.addExt at h
    split at h
    · cases h
    split at h
    · cases h
    dsimp only at h
    split at h
    · cases h
    split at h
    · cases h
    split at h
    · rename_i e hk; cases h; exact h2 _ hk
    · cases h
    split at h
    · cases h
    split at h
    · cases h
    split at h
    · cases h
    split at h
    · cases h
    split at h <;> cases h
  · unfold Pci.addStd at h
    split at h
    · cases h
    dsimp only at h
    split at h
    · cases h
    split at h
    · cases h
    split at h
    · rename_i e hk; cases h; exact h1 _ hk
    · cases h
    split at h
    · cases h
    split at h
    · cases h
    split at h <;> cases h

/-! ## The theorems -/

/-- What a call without memory leaves: `c` before, `d` after. -/
inductive Left (c : Ctx) : Call → Ctx → Prop
  /-- the entry is zeroed; a descriptor that is zero is not "no descriptor" -/
  | region (alloc a) : Left c (.region alloc a) { c with tbl := c.tbl.set a.idx.toNat { Reg.blank with fd := some 0 } }
  | ioeventfd (shadow alloc idx s) : Left c (.ioeventfd shadow alloc idx s) c
  | pciInit (alloc type h) : Left c (.pciInit alloc type h) c
  /-- the controller there was is lost, its callbacks stay -/
  | dma (alloc reg unreg) : Left c (.dma alloc reg unreg) { c with dma := none }
  | migration (alloc v cbs) : Left c (.migration alloc v cbs) { c with mig := false }
  /-- not realized; the config region has its default size, and possibly the config space is there with the types of the BARs -/
  | realize (a b d) (same : d = { c with tbl := d.tbl, alloc := d.alloc, mem := d.mem })
      (others : ∀ i, i ≠ 7 → d.tbl[i]? = c.tbl[i]?)
      (config : ∀ r, c.tbl[7]? = some r → d.tbl[7]? = some (if r.size = 0 then { r with flags := 3, size := 256 } else r))
      (space : d.alloc = c.alloc ∨ c.alloc = 0 ∧ d.alloc = d.cfgSize)
      (bytes : ∀ x, (∀ i, i < 6 → x ≠ 0x10 + 4 * i) → d.mem x = if d.alloc = c.alloc then c.mem x else 0#8)
      (bars : d.mem = c.mem ∨ ∀ i, i < 6 → d.mem (0x10 + 4 * i) = barByte (flagsOf c.tbl i)
        (if d.alloc = c.alloc then c.mem (0x10 + 4 * i) else 0#8)) :
      Left c (.realize a b) d

theorem withRegion_shape (c : Ctx) : withRegion c = { c with tbl := (withRegion c).tbl } ∧
    (∀ i, i ≠ 7 → (withRegion c).tbl[i]? = c.tbl[i]?) ∧
    ∀ r, c.tbl[7]? = some r → (withRegion c).tbl[7]? = some (if r.size = 0 then { r with flags := 3, size := 256 } else r) := by
  unfold withRegion
  cases h : c.tbl[7]? with
  | none => exact ⟨rfl, fun _ _ => rfl, fun r hr => (by cases hr)⟩
  | some r =>
    dsimp only
    by_cases hz : r.size = 0
    · rw [if_pos hz]
      have hl : 7 < c.tbl.length := (List.getElem?_eq_some_iff.mp h).1
      refine ⟨rfl, fun i hi => ?_, fun r' hr => ?_⟩
      · exact List.getElem?_set_ne (Ne.symm hi)
      · cases hr
        dsimp only
        rw [List.getElem?_set_self hl, if_pos hz]
        rfl
    · rw [if_neg hz]
      refine ⟨rfl, fun _ _ => rfl, fun r' hr => ?_⟩
      cases hr
      rw [if_neg hz]
      exact h

/-- C116: what a set-up call that runs out of memory leaves behind. -/
theorem C116_left (c : Ctx) (k : Call) (h : (step c k).2 = .err ENOMEM) : Left c k (step c k).1 := by
  cases k with
  | region alloc a =>
    obtain ⟨t, h1, h2⟩ := step_region h
    obtain ⟨old, areas, _, h3, _⟩ := setup_starved h1
    rw [h2, h3]
    exact .region alloc a
  | ioeventfd shadow alloc idx s =>
    have : (step c (.ioeventfd shadow alloc idx s)).1 = c := by
      unfold step at h ⊢
      dsimp only at h ⊢
      generalize hr : Region.createIoeventfd shadow alloc c.tbl idx s = o at h ⊢
      obtain ⟨t, res⟩ := o
      cases res with
      | ok u => cases h
      | fault f => cases h
      | err e => dsimp only; rw [ioeventfd_refused hr]
    rw [this]
    exact .ioeventfd shadow alloc idx s
  | pciInit alloc type ht =>
    have : (step c (.pciInit alloc type ht)).1 = c := by
      unfold step pciInit at h ⊢
      dsimp only at h ⊢
      split at h
      · cases h
      rw [if_neg (by assumption)]
      split at h
      · cases h
      rw [if_neg (by assumption)]
      split at h
      · cases h
      rw [if_neg (by assumption)]
      split at h
      · rw [if_pos (by assumption)]
      split at h <;> cases h
    rw [this]
    exact .pciInit alloc type ht
  | setId v d sv sd => unfold step setId at h; dsimp only at h; split at h <;> cases h
  | setClass b s p => unfold step setClass at h; dsimp only at h; split at h <;> cases h
  | capability pos fl data =>
    exfalso
    unfold step capability at h
    dsimp only at h
    split at h
    · cases h
    · exact addCap_memory c.cfgCb c.pci pos fl data h
  | store off bytes => unfold step store at h; dsimp only at h; split at h <;> cases h
  | nrIrqs t n => unfold step at h; dsimp only at h; split at h <;> cases h
  | irqStateCb t b => unfold step at h; dsimp only at h; split at h <;> cases h
  | quiesceCb b => cases h
  | resetCb b => cases h
  | dma alloc reg unreg =>
    have : (step c (.dma alloc reg unreg)).1 = { c with dma := none } := by
      unfold step at h ⊢
      dsimp only at h ⊢
      split at h
      · rw [if_pos (by assumption)]
      · cases h
    rw [this]
    exact .dma alloc reg unreg
  | migration alloc v cbs =>
    have : (step c (.migration alloc v cbs)).1 = { c with mig := false } := by
      unfold step at h ⊢
      dsimp only at h ⊢
      split at h
      · cases h
      rw [if_neg (by assumption)]
      split at h
      · rw [if_pos (by assumption)]
      · split at h <;> cases h
    rw [this]
    exact .migration alloc v cbs
  | realize a b =>
    change (realize c a b).2 = .err ENOMEM at h
    show Left c _ (realize c a b).1
    obtain ⟨w1, w2, w3⟩ := withRegion_shape c
    unfold realize at h ⊢
    by_cases hr : c.realized = true
    · rw [if_pos hr] at h; cases h
    rw [if_neg hr] at h ⊢
    dsimp only at h ⊢
    generalize withRegion c = d at h w1 w2 w3 ⊢
    have ha : d.alloc = c.alloc := by rw [w1]
    have hm : d.mem = c.mem := by rw [w1]
    by_cases h1 : d.alloc = 0 ∧ a = false
    · rw [if_pos h1]
      refine .realize a b _ ?_ w2 w3 (.inl ha) (fun x _ => ?_) (.inl hm)
      · rw [w1]
      · rw [if_pos ha, hm]
    rw [if_neg h1] at h ⊢
    have hd7 : ∀ i, i < 6 → flagsOf d.tbl i = flagsOf c.tbl i := by
      intro i hi
      unfold flagsOf
      rw [w2 i (by omega)]
    have hs : withSpace d = { c with tbl := d.tbl, alloc := (withSpace d).alloc, mem := (withSpace d).mem } := by
      unfold withSpace
      split
      · rw [w1]
      · rw [w1]
    have hs1 : (withSpace d).alloc = c.alloc ∧ (withSpace d).mem = c.mem ∨
        c.alloc = 0 ∧ (withSpace d).alloc = d.cfgSize ∧ (withSpace d).mem = fun _ => 0#8 := by
      unfold withSpace
      split
      · exact .inr ⟨by rw [← ha]; assumption, rfl, rfl⟩
      · exact .inl ⟨ha, hm⟩
    generalize withSpace d = e at h hs hs1 ⊢
    have ht : e.tbl = d.tbl := by rw [hs]
    by_cases h2 : e.alloc < 0x28
    · rw [if_pos h2] at h; cases h
    rw [if_neg h2] at h ⊢
    by_cases h3 : b = false
    · rw [if_pos h3]
      have hv : ∀ x, e.mem x = if e.alloc = c.alloc then c.mem x else 0#8 := by
        intro x
        rcases hs1 with ⟨g1, g2⟩ | ⟨g1, g2, g3⟩
        · rw [if_pos g1, g2]
        · rw [if_neg (by omega), g3]
      refine .realize a b _ ?_ ?_ ?_ ?_ (fun x hx => ?_) (.inr fun i hi => ?_)
      · rw [hs]
      · intro i hi; dsimp only; rw [ht]; exact w2 i hi
      · intro r hr; dsimp only; rw [ht]; exact w3 r hr
      · rcases hs1 with ⟨g1, _⟩ | ⟨g1, g2, _⟩
        · exact .inl g1
        · refine .inr ⟨g1, ?_⟩
          unfold Ctx.cfgSize at g2 ⊢
          dsimp only
          rw [ht]; exact g2
      · dsimp only
        rw [barLoop_out _ _ _ _ _ (fun j _ h6 => hx j (by omega))]
        exact hv x
      · dsimp only
        rw [barLoop_at _ 6 0 _ i (by omega) (by omega), ht, hd7 i hi, hv]
    · rw [if_neg h3] at h
      split at h <;> cases h

/-- C116: a call that ran out of memory may be made again; with memory it returns what it would have returned at first and leaves
the same context, except that a region has lost its ioeventfds. -/
theorem C116_retry (c : Ctx) (k : Call) (h : (step c k).2 = .err ENOMEM) :
    (step (step c k).1 k.again).2 = (step c k.again).2 ∧
      ((step (step c k).1 k.again).1 = (step c k.again).1 ∨
        ∃ alloc a, k = .region alloc a ∧ SubsLost a.idx.toNat (step c k.again).1 (step (step c k).1 k.again).1) := by
  have hl := C116_left c k h
  cases k with
  | region alloc a =>
    obtain ⟨t, h1, h2⟩ := step_region h
    obtain ⟨old, areas, h3, h4, h5⟩ := setup_starved h1
    have hlt : a.idx.toNat < c.tbl.length := (List.getElem?_eq_some_iff.mp h3).1
    have g1 := h5 c.tbl old h3
    have g2 := h5 t { Reg.blank with fd := some 0 } (by rw [h4]; exact List.getElem?_set_self hlt)
    rw [h2]
    unfold Call.again step
    dsimp only
    rw [g1, g2]
    refine ⟨rfl, .inr ⟨alloc, a, rfl, ?_⟩⟩
    dsimp only
    refine ⟨_, List.getElem?_set_self hlt, ?_⟩
    dsimp only
    rw [h4, List.set_set, List.set_set]
    rfl
  | ioeventfd shadow alloc idx s =>
    have hs : (step c (.ioeventfd shadow alloc idx s)).1 = c := by
      generalize (step c (.ioeventfd shadow alloc idx s)).1 = d at hl
      cases hl; rfl
    rw [hs]
    exact ⟨rfl, .inl rfl⟩
  | pciInit alloc type ht =>
    have hs : (step c (.pciInit alloc type ht)).1 = c := by
      generalize (step c (.pciInit alloc type ht)).1 = d at hl
      cases hl; rfl
    rw [hs]
    exact ⟨rfl, .inl rfl⟩
  | setId v d sv sd => cases hl
  | setClass b s p => cases hl
  | capability pos fl data => cases hl
  | store off bytes => cases hl
  | nrIrqs t n => cases hl
  | irqStateCb t b => cases hl
  | quiesceCb b => cases hl
  | resetCb b => cases hl
  | dma alloc reg unreg =>
    have hs : (step c (.dma alloc reg unreg)).1 = { c with dma := none } := by
      generalize (step c (.dma alloc reg unreg)).1 = d at hl
      cases hl; rfl
    rw [hs]
    exact ⟨rfl, .inl rfl⟩
  | migration alloc v cbs =>
    have hs : (step c (.migration alloc v cbs)).1 = { c with mig := false } := by
      generalize (step c (.migration alloc v cbs)).1 = d at hl
      cases hl; rfl
    have hv : v = 2 := by
      by_contra hv
      unfold step at h
      dsimp only at h
      rw [if_pos hv] at h
      cases h
    rw [hs, hv]
    unfold Call.again step
    dsimp only
    cases cbs
    · exact ⟨rfl, .inl rfl⟩
    · exact ⟨rfl, .inl rfl⟩
  | realize a b =>
    have := realize_retry c a b h
    exact ⟨congrArg Prod.snd this, .inl (congrArg Prod.fst this)⟩

/-! ## Leaving out what failed -/

/-- The call did not return an error. -/
def settled : Res Nat → Bool
  | .err _ => false
  | _ => true

/-- The calls of a program that did not return an error. -/
def effective (c : Ctx) (ks : List Call) : List Call := ((ks.zip (run c ks).2).filter fun x => settled x.2).map Prod.fst

/-- If the call failed, it was not for want of memory, and it was not migration without the mandatory callbacks. -/
def Harmless (x : Call × Res Nat) : Prop := ∀ e, x.2 = .err e → e ≠ ENOMEM ∧ ∀ a, x.1 ≠ .migration a 2 false

theorem step_harmless {c : Ctx} {k : Call} {e : Nat} (h : (step c k).2 = .err e) (hh : Harmless (k, (step c k).2)) :
    (step c k).1 = c := by
  obtain ⟨h1, h2⟩ := hh e h
  by_cases hm : ∃ a v b, k = .migration a v b
  · obtain ⟨a, v, b, rfl⟩ := hm
    unfold step at h ⊢
    dsimp only at h ⊢
    by_cases hv : v = 2
    · rw [if_neg (not_not_intro hv)] at h
      cases a with
      | false => rw [if_pos rfl] at h; cases h; exact absurd rfl h1
      | true =>
        cases b with
        | false => exact absurd (by rw [hv]) (h2 true)
        | true => cases h
    · rw [if_pos hv]
  · exact C69_refused c k e h h1 (fun a v b hk => hm ⟨a, v, b, hk⟩)

/-- C116: calls that failed for their arguments may be left out of the program: the context and the answers of the other calls are the
same. -/
theorem C116_left_out : ∀ (ks : List Call) (c : Ctx), (∀ x ∈ ks.zip (run c ks).2, Harmless x) →
    run c (effective c ks) = ((run c ks).1, (run c ks).2.filter settled)
  | [], c, _ => rfl
  | k :: ks, c, hh => by
    by_cases hf : (step c k).2.isFault = true
    · have hr : run c (k :: ks) = ((step c k).1, [(step c k).2]) := by
        unfold run
        dsimp only
        rw [if_pos hf]
      have hs : settled (step c k).2 = true := by
        cases hk : (step c k).2 with
        | ok v => rfl
        | err e => rw [hk] at hf; cases hf
        | fault f => rfl
      have hr2 : run c [k] = ((step c k).1, [(step c k).2]) := by
        unfold run
        dsimp only
        rw [if_pos hf]
      unfold effective
      rw [hr]
      show run c (((List.zip (k :: ks) [(step c k).2]).filter fun x => settled x.2).map Prod.fst) = _
      rw [List.zip_cons_cons, List.zip_nil_right, List.filter_cons_of_pos (by exact hs)]
      show run c [k] = _
      rw [hr2, List.filter_cons_of_pos hs]
      rfl
    · have hr : ∀ l, run c (k :: l) = ((run (step c k).1 l).1, (step c k).2 :: (run (step c k).1 l).2) := by
        intro l
        exact runCons c k l (by simpa using hf)
      have hz : (k :: ks).zip (run c (k :: ks)).2 = (k, (step c k).2) :: ks.zip (run (step c k).1 ks).2 := by
        rw [hr]; rfl
      rw [hz] at hh
      have ih := C116_left_out ks (step c k).1 (fun x hx => hh x (List.mem_cons_of_mem _ hx))
      have h0 := hh _ List.mem_cons_self
      unfold effective at ih ⊢
      rw [hz, hr]
      by_cases hs : settled (step c k).2 = true
      · rw [List.filter_cons_of_pos (by exact hs), List.filter_cons_of_pos hs, List.map_cons, hr, ih]
      · rw [List.filter_cons_of_neg (by exact hs), List.filter_cons_of_neg hs]
        have hc : (step c k).1 = c := by
          cases hk : (step c k).2 with
          | ok v => rw [hk] at hs; exact absurd rfl hs
          | fault f => rw [hk] at hs; exact absurd rfl hs
          | err e => exact step_harmless hk h0
        rw [hc] at ih ⊢
        exact ih

/-! ## What is lost -/

/-- C116: the ioeventfds of a region do not come back. -/
theorem C116_ioeventfds_lost : ∃ (ks : List Call) (k : Call),
    (run create ks).2 = [.ok 0, .ok 0] ∧ (step (run create ks).1 k).2 = .err ENOMEM ∧
    (step (step (run create ks).1 k).1 k.again).2 = .ok 0 ∧
    (((step (run create ks).1 k.again).1.tbl[2]?).map fun r => r.subs.length) = some 1 ∧
    (((step (step (run create ks).1 k).1 k.again).1.tbl[2]?).map fun r => r.subs.length) = some 0 :=
  ⟨[.region true ⟨2, 0x1000, true, 7, [], none, 0⟩,
    .ioeventfd false true 2 { fd := some 9, gpaOffset := 0, size := 8, flags := 0, datamatch := 0, shadowFd := none, shadowOffset := 0 }],
    .region false ⟨2, 0x1000, true, 7, [], some 5, 0⟩, by decide +kernel, by decide +kernel, by decide +kernel, by decide +kernel,
    by decide +kernel⟩

/-- C116: a second `vfu_setup_device_dma` without memory takes the first controller away: mappings are refused from then on. -/
theorem C116_dma_lost : (run create [.dma true true true, .dma false true true]).2 = [.ok 0, .err ENOMEM] ∧
    (run create [.dma true true true]).1.dma = some dmaLimits ∧
    (run create [.dma true true true, .dma false true true]).1.dma = none := ⟨rfl, rfl, rfl⟩

/-! ## Examples -/

/-- Without memory, twice; then with: as if it had been there from the start. -/
example : let c := (run create demo).1
    (step c (.realize true false)).2 = .err ENOMEM ∧ (step c (.realize true true)).2 = .ok 0 ∧
      step (step c (.realize true false)).1 (.realize true true) = step c (.realize true true) := by
  intro c
  have h : (step c (.realize true false)).2 = .err ENOMEM := by decide +kernel
  exact ⟨h, by decide +kernel, realize_retry c true false h⟩

/-- A program with three calls that fail. -/
def clumsy : List Call :=
  [.pciInit true 9 0, .pciInit true 2 0, .pciInit true 2 0, .setId 1 2 3 4, .nrIrqs 7 1, .nrIrqs 2 4, .realize true true]

example : (run create clumsy).2 = [.err EINVAL, .ok 0, .err Pci.EEXIST, .ok 0, .err EINVAL, .ok 0, .ok 0] := by decide +kernel

example : run create (effective create clumsy) = ((run create clumsy).1, [.ok 0, .ok 0, .ok 0, .ok 0]) := by
  have h := C116_left_out clumsy create (by
    have hz : clumsy.zip (run create clumsy).2 = clumsy.zip [.err EINVAL, .ok 0, .err Pci.EEXIST, .ok 0, .err EINVAL, .ok 0, .ok 0] := by
      congr 1
    rw [hz]
    intro x hx e he
    simp only [clumsy, List.zip_cons_cons, List.zip_nil_right, List.mem_cons, List.not_mem_nil, or_false] at hx
    rcases hx with rfl | rfl | rfl | rfl | rfl | rfl | rfl <;> cases he <;> exact ⟨by decide, fun _ h => (by cases h)⟩)
  rw [h]
  congr 1

end Verif.Setup
