import Verif.Setup.Examples

/-! # C122: set-up after `vfu_realize_ctx` -/

namespace Verif.Setup
open Verif
open Verif.Region (Reg)

/-- Documented use of calls, before or after `vfu_realize_ctx`. -/
def UseLate (c : Ctx) : List Call → Prop
  | [] => True
  | k :: ks => Use c k ∧ UseLate (step c k).1 ks

/-- The call is no store into the status register, a BAR or the interrupt pin. -/
def Leaves (k : Call) : Prop :=
  ∀ off bytes, k = .store off bytes → ∀ a, off ≤ a → a < off + bytes.length → ¬ Filled a

theorem step_filled {c : Ctx} (h : Good c) (hr : c.realized = true) {k : Call} (hu : Use c k) (hs : Leaves k) :
    (∀ a, Filled a → (step c k).1.mem a = c.mem a) ∧ (step c k).1.realized = true := by
  have hz : ∀ a : Nat, Filled a → c.mem a = c.mem a := fun _ _ => rfl
  have halloc : c.alloc ≠ 0 := by
    rcases h.cfg with ⟨_, _, _, _, g, _⟩ | ⟨g, g2, _⟩
    · rw [hr] at g; cases g
    · have g3 := g.bnd.std
      change 256 ≤ c.cfgSize at g3
      omega
  cases k with
  | region alloc a =>
    unfold step
    dsimp only
    generalize Region.setup alloc c.tbl a = o
    obtain ⟨t, res⟩ := o
    cases res <;> exact ⟨hz, hr⟩
  | ioeventfd shadow alloc idx s =>
    unfold step
    dsimp only
    generalize Region.createIoeventfd shadow alloc c.tbl idx s = o
    obtain ⟨t, res⟩ := o
    cases res <;> exact ⟨hz, hr⟩
  | pciInit alloc type ht =>
    unfold step pciInit
    dsimp only
    split
    · exact ⟨hz, hr⟩
    · split
      · exact ⟨hz, hr⟩
      · exact ⟨hz, hr⟩
  | setId v d sv sd =>
    unfold step setId
    dsimp only
    split
    · exact ⟨hz, hr⟩
    · refine ⟨fun a ha => ?_, hr⟩
      dsimp only
      unfold Filled at ha
      rw [Pci.wrM_out (by simp [enc_length]; omega), Pci.wrM_out (by simp [enc_length]; omega)]
  | setClass b s p =>
    unfold step setClass
    dsimp only
    split
    · exact ⟨hz, hr⟩
    · refine ⟨fun a ha => ?_, hr⟩
      dsimp only
      unfold Filled at ha
      rw [Pci.wrM_out (by simp; omega)]
  | capability pos fl data =>
    refine ⟨fun a ha => ?_, ?_⟩
    · unfold Filled at ha
      exact capability_header h hu (by omega) (by omega)
    · unfold step capability
      dsimp only
      split <;> exact hr
  | store off bytes =>
    unfold step store
    dsimp only
    split
    · exact ⟨hz, hr⟩
    · refine ⟨fun a ha => ?_, hr⟩
      dsimp only
      by_cases hin : off ≤ a ∧ a < off + bytes.length
      · exact absurd ha (hs off bytes rfl a hin.1 hin.2)
      · rw [Pci.wrM_out (by omega)]
  | nrIrqs t n => unfold step; dsimp only; split <;> exact ⟨hz, hr⟩
  | irqStateCb t b => unfold step; dsimp only; split <;> exact ⟨hz, hr⟩
  | quiesceCb b => exact ⟨hz, hr⟩
  | resetCb b => exact ⟨hz, hr⟩
  | dma alloc reg unreg => unfold step; dsimp only; split <;> exact ⟨hz, hr⟩
  | migration alloc v cbs =>
    unfold step; dsimp only
    split
    · exact ⟨hz, hr⟩
    · split
      · exact ⟨hz, hr⟩
      · split <;> exact ⟨hz, hr⟩
  | realize a b =>
    change (∀ x, Filled x → (realize c a b).1.mem x = c.mem x) ∧ (realize c a b).1.realized = true
    unfold realize
    rw [if_pos hr]
    exact ⟨hz, hr⟩

theorem run_late {c : Ctx} (h : Good c) (hr : c.realized = true) {js : List Call} (hu : UseLate c js)
    (hs : ∀ k ∈ js, Leaves k) :
    Good (run c js).1 ∧ (∀ r ∈ (run c js).2, ∀ f, r ≠ .fault f) ∧ (run c js).2.length = js.length ∧
      (∀ a, Filled a → (run c js).1.mem a = c.mem a) ∧ (run c js).1.realized = true := by
  induction js generalizing c with
  | nil => exact ⟨h, fun r hr => (by cases hr), rfl, fun _ _ => rfl, hr⟩
  | cons k js ih =>
    obtain ⟨h1, h2⟩ := hu
    obtain ⟨s1, s2⟩ := step_good_any h h1
    obtain ⟨z1, z2⟩ := step_filled h hr h1 (hs k (List.mem_cons_self ..))
    rw [run_cons s2]
    obtain ⟨i1, i2, i3, i4, i5⟩ := ih s1 z2 h2 (fun k hk => hs k (List.mem_cons_of_mem _ hk))
    refine ⟨i1, ?_, by simp [i3], fun a ha => (i4 a ha).trans (z1 a ha), i5⟩
    intro r hr
    rcases List.mem_cons.1 hr with rfl | hr
    · exact s2
    · exact i2 r hr

/-- **C122**: set-up that goes on after `vfu_realize_ctx`.  No call crashes, and the device stays realized; the capability
lists that the client walks are those of all calls; but the BARs, the interrupt pin and the status register read as if
nothing had followed `vfu_realize_ctx`. -/
theorem C122_late (ks : List Call) (hu : UseRun create ks) (hs : ∀ k ∈ ks, Spares k) (a b : Bool) {c' : Ctx}
    (hr : step (run create ks).1 (.realize a b) = (c', .ok 0)) (js : List Call) (hj : UseLate c' js) (hl : ∀ k ∈ js, Leaves k)
    (dev : Pci.Dev) (hd : dev.cb = none) (buf : List Byte) :
    let c := (run create ks).1
    let d := (run c' js).1
    (run c' js).2.length = js.length ∧ (∀ r ∈ (run c' js).2, ∀ f, r ≠ .fault f) ∧ d.realized = true ∧
    (∀ i, i < 6 → (Pci.access dev d.pci buf 4 (0x10 + 4 * i) false).data = enc 4 (barValue (flagsOf c.tbl i))) ∧
    (Pci.access dev d.pci buf 1 0x3d false).data = [if c.cnt 0 = 0 then 0#8 else 1#8] ∧
    (Pci.access dev d.pci buf 2 6 false).data = enc 2 (if c.caps = [] then 0 else 16) ∧
    Pci.Walk d.mem 0x34 (d.caps.map Pci.Cap.off) ∧ Pci.ExtList d.mem (d.exts.map Pci.Cap.off) := by
  intro c d
  obtain ⟨r1, r2, r3, r4, _, _, _⟩ := C70_advertised ks hu hs a b hr dev hd buf
  have hg : Good c' := by
    have h := (step_good_any (run_good good_create hu).1 (k := .realize a b) trivial).1
    rw [hr] at h; exact h
  obtain ⟨l1, l2, l3, l4, l5⟩ := run_late hg r1 hj hl
  have inv : ∀ {e : Ctx}, Good e → e.realized = true → Pci.Inv e.pci := by
    intro e he hre
    rcases he.cfg with ⟨_, _, _, _, g, _⟩ | ⟨g, _⟩
    · rw [hre] at g; cases g
    · exact g
  have i1 := inv hg r1
  have i2 : Pci.Inv d.pci := inv l1 l5
  have same : ∀ n off, off + n ≤ 64 → (∀ x, off ≤ x → x < off + n → Filled x) →
      (Pci.access dev d.pci buf n off false).data = (Pci.access dev c'.pci buf n off false).data := by
    intro n off h1 h2
    have s1 : 256 ≤ d.pci.size := i2.bnd.std
    have s2 : 256 ≤ c'.pci.size := i1.bnd.std
    rw [(Pci.C38_read hd i2.bnd buf (by omega)).2.1, (Pci.C38_read hd i1.bnd buf (by omega)).2.1]
    refine List.map_congr_left (fun x hx => ?_)
    have hx := List.mem_range.1 hx
    exact l4 _ (h2 _ (by omega) (by omega))
  refine ⟨l3, l2, l5, fun i hi => ?_, ?_, ?_, i2.walk, i2.xwalk⟩
  · rw [same 4 _ (by omega) (fun x h1 h2 => by unfold Filled; omega)]; exact r2 i hi
  · rw [same 1 _ (by omega) (fun x h1 h2 => by unfold Filled; omega)]; exact r3
  · rw [same 2 _ (by omega) (fun x h1 h2 => by unfold Filled; omega)]; exact r4

/-! ## What goes astray -/

/-- A device that is realized with a config space and nothing else. -/
def bare : List Call := [.pciInit true 2 0]

/-- What it forgot: a power management capability, memory behind BAR 0 and an INTx interrupt. -/
def forgotten : List Call :=
  [.capability 0 Pci.std (Pci.pad [1, 0, 3] 8), .region true (bar 0 0x1000 7), .nrIrqs 0 1]

/-- **C122**, what that means: all three calls succeed, and the client finds the capability at the head of the list, a memory
region and one interrupt if it asks for them; but the status register says that there is no list of capabilities, BAR 0
says I/O, and there is no interrupt pin. -/
theorem C122_unseen : let c' := (run create (bare ++ [.realize true true])).1
    let d := (run c' forgotten).1
    let rd := fun n off => (Pci.access Pci.quiet d.pci [] n off false).data
    c'.realized = true ∧ (run c' forgotten).2 = [.ok 0x40, .ok 0, .ok 0] ∧ d.caps.map Pci.Cap.off = [0x40] ∧
      rd 1 0x34 = [0x40#8] ∧ flagsOf d.tbl 0 = 7 ∧ d.cnt 0 = 1 ∧
      rd 2 6 = enc 2 0 ∧ rd 4 0x10 = enc 4 1 ∧ rd 1 0x3d = [0#8] ∧
      let e := (run create (bare ++ forgotten ++ [.realize true true])).1
      let rd' := fun n off => (Pci.access Pci.quiet e.pci [] n off false).data
      rd' 2 6 = enc 2 16 ∧ rd' 4 0x10 = enc 4 0 ∧ rd' 1 0x3d = [1#8] := by
  decide +kernel

theorem bare_realizes : step (run create bare).1 (.realize true true) = ((run create (bare ++ [.realize true true])).1, .ok 0) :=
  Prod.ext rfl (by decide +kernel)

theorem forgotten_use : UseLate (run create (bare ++ [.realize true true])).1 forgotten := by
  refine ⟨?_, bar_use (by decide) (by decide), use_irqs (by decide), trivial⟩
  refine ⟨by decide +kernel, by decide, by decide, fun _ s hs => ?_, fun h => by cases h⟩
  have := some_eq hs (b := 8) (by decide +kernel)
  subst this
  refine ⟨by decide, by decide, fun off ho => ?_⟩
  have := ok_eq ho (b := 64) (by decide +kernel)
  subst this
  exact ⟨by decide, fun _ => by decide +kernel⟩

/-- The hypotheses of C122 are met by this device. -/
example := C122_late bare ⟨rfl, trivial, trivial⟩ (fun k hk => by cases List.mem_singleton.1 hk; trivial) true true bare_realizes
  forgotten forgotten_use (fun k hk off bytes he => by subst he; simp [forgotten] at hk) Pci.quiet rfl []

/-- A `vfu_realize_ctx` that fails for lack of memory marks the BARs too: a region set up as memory after it still shows as
I/O when the second attempt succeeds. -/
theorem C122_stale : let k : Call := .region true (bar 0 0x1000 7)
    let o := run create (bare ++ [.realize true false, k, .realize true true])
    o.2 = [.ok 0, .err ENOMEM, .ok 0, .ok 0] ∧ (Pci.access Pci.quiet o.1.pci [] 4 0x10 false).data = enc 4 1 ∧
      barValue (flagsOf o.1.tbl 0) = 0 := by
  decide +kernel

end Verif.Setup
