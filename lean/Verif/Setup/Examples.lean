import Verif.Setup.Shown
import Verif.Server.Crashes

/-! # Set-up: refused calls, concrete cases, misuse -/

namespace Verif.Setup
open Verif
open Verif.Region (Reg)

theorem setup_refused {alloc : Bool} {tbl t : List Reg} {a : Region.Setup} {e : Nat}
    (h : Region.setup alloc tbl a = (t, .err e)) : t = tbl ∨ alloc = false ∧ e = ENOMEM := by
  unfold Region.setup at h
  split at h
  · cases h; exact .inl rfl
  split at h
  · cases h; exact .inl rfl
  split at h
  · cases h; exact .inl rfl
  split at h
  · cases h; exact .inl rfl
  split at h
  · cases h; exact .inl rfl
  split at h
  · cases h; exact .inl rfl
  split at h
  · cases h
  · dsimp only at h
    generalize (if a.areas = [] ∧ a.fd ≠ none then [(0, a.size)] else a.areas) = A at h
    by_cases h1 : A = []
    · rw [if_pos h1] at h; cases h
    · rw [if_neg h1] at h
      by_cases h2 : alloc = true
      · rw [if_pos h2] at h; cases h
      · rw [if_neg h2] at h
        cases h
        exact .inr ⟨by simpa using h2, rfl⟩

theorem ioeventfd_refused {shadow alloc : Bool} {tbl t : List Reg} {idx : Nat} {s : Region.Sub} {e : Nat}
    (h : Region.createIoeventfd shadow alloc tbl idx s = (t, .err e)) : t = tbl := by
  unfold Region.createIoeventfd at h
  split at h
  · cases h; rfl
  split at h
  · cases h; rfl
  split at h
  · cases h
  split at h
  · cases h; rfl
  split at h
  · cases h; rfl
  · cases h

/-- A call refused for its arguments (not for lack of memory) changes nothing; the exception is the set-up of migration
without the mandatory callbacks, which drops an earlier one. -/
theorem C69_refused (c : Ctx) (k : Call) (e : Nat) (h : (step c k).2 = .err e) (he : e ≠ ENOMEM)
    (hm : ∀ a v b, k ≠ .migration a v b) : (step c k).1 = c := by
  cases k with
  | region alloc a =>
    unfold step at h ⊢
    dsimp only at h ⊢
    generalize hr : Region.setup alloc c.tbl a = o at h ⊢
    obtain ⟨t, res⟩ := o
    cases res with
    | ok u => cases h
    | fault f => rfl
    | err e' =>
      cases h
      rcases setup_refused hr with h1 | ⟨_, h1⟩
      · dsimp only; rw [h1]
      · exact absurd h1 he
  | ioeventfd shadow alloc idx s =>
    unfold step at h ⊢
    dsimp only at h ⊢
    generalize hr : Region.createIoeventfd shadow alloc c.tbl idx s = o at h ⊢
    obtain ⟨t, res⟩ := o
    cases res with
    | ok u => cases h
    | fault f => rfl
    | err e' => dsimp only; rw [ioeventfd_refused hr]
  | pciInit alloc type ht =>
    unfold step pciInit at h ⊢
    dsimp only at h ⊢
    split at h
    · rw [if_pos (by assumption)]
    rw [if_neg (by assumption)]
    split at h
    · rw [if_pos (by assumption)]
    rw [if_neg (by assumption)]
    split at h
    · rw [if_pos (by assumption)]
    rw [if_neg (by assumption)]
    split at h
    · rw [if_pos (by assumption)]
    split at h <;> cases h
  | setId v d sv sd => unfold step setId at h; dsimp only at h; split at h <;> cases h
  | setClass b s p => unfold step setClass at h; dsimp only at h; split at h <;> cases h
  | capability pos fl data =>
    unfold step capability at h ⊢
    dsimp only at h ⊢
    split at h
    · cases h
    · rw [if_neg (by assumption)]
      have hr := Pci.C39_refused (Prod.ext rfl h : Pci.addCap c.cfgCb c.pci pos fl data = ((Pci.addCap c.cfgCb c.pci pos fl data).1, .err e))
      rw [hr]
      rfl
  | store off bytes => unfold step store at h; dsimp only at h; split at h <;> cases h
  | nrIrqs t n =>
    unfold step at h ⊢
    dsimp only at h ⊢
    split at h
    · rw [if_pos (by assumption)]
    · cases h
  | irqStateCb t b =>
    unfold step at h ⊢
    dsimp only at h ⊢
    split at h
    · rw [if_pos (by assumption)]
    · cases h
  | quiesceCb b => cases h
  | resetCb b => cases h
  | dma alloc reg unreg =>
    unfold step at h
    dsimp only at h
    split at h
    · cases h; exact absurd rfl he
    · cases h
  | migration a v b => exact absurd rfl (hm a v b)
  | realize a b =>
    change (realize c a b).2 = .err e at h
    unfold realize at h
    split at h
    · cases h
    dsimp only at h
    split at h
    · cases h; exact absurd rfl he
    split at h
    · cases h
    split at h
    · cases h; exact absurd rfl he
    split at h <;> cases h

/-! ## A device -/

/-- Arguments of `vfu_setup_region`. -/
def bar (idx size flags : Nat) : Region.Setup := ⟨idx, size, true, flags, [], none, 0⟩

/-- A PCI Express device with a memory BAR, a prefetchable 64-bit BAR, an I/O BAR backed by a descriptor, power management
and PCI Express capabilities, a serial number, interrupts, DMA and migration. -/
def demo : List Call :=
  [.pciInit true 3 0, .setId 0x1af4 0x1000 0x1af4 1, .setClass 1 8 2, .region true (bar 0 0x1000 7),
   .region true (bar 2 0x10000 0x37), .region true { bar 4 0x100 3 with areas := [(0, 0x80)], fd := some 11 },
   .region true (bar 7 4096 3), .capability 0 Pci.std (Pci.pad [1, 0, 3] 8),
   .capability 0x60 Pci.std (Pci.pad [0x10, 0, 2] 0x3c), .capability 0 Pci.ext (Pci.pad [3, 0] 12),
   .ioeventfd false true 0 ⟨8, 4, some 12, 0, 0, none, 0⟩, .nrIrqs 0 1, .nrIrqs 2 16, .irqStateCb 2 true, .quiesceCb true,
   .resetCb true, .dma true true true, .migration true 2 true, .store 0x2c [0xff#8]]

theorem some_eq {α : Type} {a b : α} {o : Option α} (h : o = some a) (h' : o = some b) : a = b := by
  rw [h] at h'; exact Option.some.inj h'

theorem ok_eq {α : Type} {a b : α} {o : Res α} (h : o = .ok a) (h' : o = .ok b) : a = b := by
  rw [h] at h'; cases h'; rfl

theorem use_setId {c : Ctx} {v d sv sd : BitVec 16} (h : c.alloc ≠ 0) : Use c (.setId v d sv sd) := h
theorem use_setClass {c : Ctx} {b s p : Byte} (h : c.alloc ≠ 0) : Use c (.setClass b s p) := h
theorem use_irqs {c : Ctx} {t n : Nat} (h : n < U32 - 1 ∧ (t = Irq.ERR ∨ t = Irq.REQ → n ≤ 1)) : Use c (.nrIrqs t n) := h

theorem use_store {c : Ctx} {off : Nat} {bytes : List Byte} (h1 : off + bytes.length ≤ c.alloc) (h2 : off + bytes.length ≤ 0x34)
    (h3 : ∀ d ∈ c.caps ++ c.exts, 64 ≤ d.off) : Use c (.store off bytes) := by
  refine ⟨h1, Pci.wrM_out (by omega), fun d hd a h4 _ => ?_, fun _ a h4 _ => Pci.wrM_out (by omega)⟩
  have := h3 d hd
  exact Pci.wrM_out (by omega)

theorem bar_use {c : Ctx} {a : Region.Setup} (h1 : a.size < U64 ∧ a.offset < U64 ∧ 48 + 16 * (a.areas.length + 1) < U32 ∧
    ∀ x ∈ a.areas, x.1 < U64 ∧ x.2 < U64) (h2 : a.idx ≠ 7 ∨ a.fd = none ∧ a.size = c.alloc ∧ c.alloc ≠ 0) : RegionUse c a :=
  ⟨h1.1, h1.2.1, h1.2.2.1, h1.2.2.2, fun h => by
    rcases h2 with h2 | ⟨h2, h3, h4⟩
    · exact absurd h h2
    · exact ⟨h2, by rw [if_neg h4]; exact h3⟩⟩

theorem demo_use : UseRun create demo := by
  refine ⟨rfl, trivial, rfl, use_setId (by decide +kernel), rfl, use_setClass (by decide +kernel), rfl, bar_use (by decide) (by decide), rfl,
    bar_use (by decide) (by decide), rfl, bar_use (by decide) (by decide), rfl, bar_use (by decide) (by decide +kernel), rfl,
    ?_, rfl, ?_, rfl, ?_, rfl, ⟨⟨by decide, by decide, by decide, by decide, by decide⟩, ?_⟩, rfl, use_irqs (by decide), rfl, use_irqs (by decide), rfl,
    trivial, rfl, trivial, rfl, trivial, rfl, trivial, rfl, trivial, rfl,
    use_store (by decide +kernel) (by decide) (by decide +kernel), trivial⟩
  · refine ⟨by decide +kernel, by decide, by decide, fun _ s hs => ?_, fun h => by cases h⟩
    have := some_eq hs (b := 8) (by decide +kernel)
    subst this
    refine ⟨by decide, by decide, fun off ho => ?_⟩
    have := ok_eq ho (b := 64) (by decide +kernel)
    subst this
    exact ⟨by decide, fun _ => by decide +kernel⟩
  · refine ⟨by decide +kernel, by decide, by decide, fun _ s hs => ?_, fun h => by cases h⟩
    have := some_eq hs (b := 0x3c) (by decide +kernel)
    subst this
    refine ⟨by decide, by decide, fun off ho => ?_⟩
    have := ok_eq ho (b := 0x60) (by decide +kernel)
    subst this
    exact ⟨by decide, fun h => by cases h⟩
  · refine ⟨by decide +kernel, by decide, by decide, (fun h => by cases h), fun _ s hs => ?_⟩
    have := some_eq hs (b := 12) (by decide +kernel)
    subst this
    refine ⟨by decide, by decide, fun off ho => ?_⟩
    have := ok_eq ho (b := 256) (by decide +kernel)
    subst this
    exact fun _ => by decide +kernel
  · intro r hr
    have := some_eq hr (b := { Reg.blank with flags := 7, size := 0x1000, hasCb := true }) (by decide +kernel)
    subst this
    decide

theorem demo_spares : ∀ k ∈ demo, Spares k := by
  intro k hk
  simp only [demo, List.mem_cons, List.mem_nil_iff, or_false] at hk
  rcases hk with rfl | rfl | rfl | rfl | rfl | rfl | rfl | rfl | rfl | rfl | rfl | rfl | rfl | rfl | rfl | rfl | rfl | rfl | rfl <;>
    first | trivial | skip
  intro a h1 h2
  simp at h2
  unfold Filled
  omega

/-- C69: nineteen calls, none of them refused; and the device can be realized. -/
example : (run create demo).2.all (fun r => r.isFault = false) = true ∧
    (run create (demo ++ [.realize true true])).1.realized = true ∧
    (run create (demo ++ [.realize true false, .realize true true])).1.realized = true ∧
    ∀ r ∈ (run create demo).2, ∃ n, r = .ok n := by
  refine ⟨by decide +kernel, by decide +kernel, by decide +kernel, ?_⟩
  have : (run create demo).2 = [.ok 0, .ok 0, .ok 0, .ok 0, .ok 0, .ok 0, .ok 0, .ok 64, .ok 0x60, .ok 256, .ok 0, .ok 0, .ok 0,
    .ok 0, .ok 0, .ok 0, .ok 0, .ok 0, .ok 0] := by decide +kernel
  rw [this]
  intro r hr
  simp only [List.mem_cons, List.mem_nil_iff, or_false] at hr
  rcases hr with rfl | rfl | rfl | rfl | rfl | rfl | rfl | rfl | rfl | rfl | rfl | rfl | rfl | rfl | rfl | rfl | rfl | rfl | rfl <;>
    exact ⟨_, rfl⟩

/-- C70: BAR 0 is memory, BAR 2 prefetchable 64-bit memory, BAR 4 I/O, and so are those that nobody set up. -/
example : let r := step (run create demo).1 (.realize true true)
    let rd := fun n off => (Pci.access Pci.quiet r.1.pci [] n off false).data
    r.2 = .ok 0 ∧ rd 4 0x10 = enc 4 0 ∧ rd 4 0x14 = enc 4 1 ∧ rd 4 0x18 = enc 4 0xc ∧ rd 4 0x1c = enc 4 1 ∧ rd 4 0x20 = enc 4 1 ∧
      rd 1 0x3d = [1#8] ∧ rd 2 6 = enc 2 16 ∧ rd 4 0 = enc 2 0x1af4 ++ enc 2 0x1000 ∧ rd 1 0x34 = [0x40#8] ∧
      rd 2 0x40 = [1#8, 0x60#8] := by
  decide +kernel

example : barValue 7 = 0 ∧ barValue 3 = 1 ∧ barValue 0x37 = 0xc ∧ barValue 0 = 1 := by decide

theorem useRun_left {c : Ctx} {ks js : List Call} (h : UseRun c (ks ++ js)) : UseRun c ks := by
  induction ks generalizing c with
  | nil => trivial
  | cons k ks ih => exact ⟨h.1, h.2.1, ih h.2.2⟩

theorem useRun_snoc {c : Ctx} (hg : Good c) {ks : List Call} {k : Call} (h : UseRun c ks) (hr : (run c ks).1.realized = false)
    (hu : Use (run c ks).1 k) : UseRun c (ks ++ [k]) := by
  induction ks generalizing c with
  | nil => exact ⟨hr, hu, trivial⟩
  | cons k ks ih =>
    obtain ⟨h1, h2, h3⟩ := h
    obtain ⟨s1, s2⟩ := step_good hg h1 h2
    rw [run_cons s2] at hr hu
    exact ⟨h1, h2, ih s1 h3 hr hu⟩

/-- The device without the last store, realized. -/
def plain : List Call := demo.dropLast ++ [.realize true true]

theorem plain_use : UseRun create plain :=
  useRun_snoc good_create (useRun_left (js := [.store 0x2c [0xff#8]]) demo_use) (by decide +kernel) trivial

theorem plain_spares : ∀ k ∈ plain, SparesIds k := by
  intro k hk
  simp only [plain, demo, List.dropLast, List.cons_append, List.nil_append, List.mem_cons, List.mem_nil_iff, or_false] at hk
  rcases hk with rfl | rfl | rfl | rfl | rfl | rfl | rfl | rfl | rfl | rfl | rfl | rfl | rfl | rfl | rfl | rfl | rfl | rfl | rfl <;>
    trivial

/-- C79: what the calls said. -/
example : let h := hist plain
    lastly saysVendor (enc 4 0) h = [0xf4#8, 0x1a#8, 0#8, 0x10#8] ∧ lastly saysSubsystem (enc 4 0) h = [0xf4#8, 0x1a#8, 1#8, 0#8] ∧
    lastly saysClass (enc 3 0) h = [2#8, 8#8, 1#8] ∧ lastly (saysIrqs 2) 0 h = 16 ∧ lastly (saysIrqs 3) 1 h = 1 ∧
    lastly saysDma false h = true ∧ lastly saysMig false h = true ∧ lastly saysQuiesce false h = true ∧
    lastly (saysRegion 2) Told.nothing h = ⟨0x10000, 0x37, true, none, 0⟩ ∧
    lastly (saysRegion 4) Told.nothing h = ⟨0x100, 3, true, some 11, 0⟩ ∧ lastly (saysAreas 4) [] h = [(0, 0x80)] := by
  decide +kernel

example := C79_config plain plain_use
example := C79_ids plain plain_use plain_spares (by decide +kernel) (dev := Pci.quiet) rfl []

theorem demo_realizes : step (run create demo).1 (.realize true true) = ((step (run create demo).1 (.realize true true)).1, .ok 0) :=
  Prod.ext rfl (by decide +kernel)

example (i : Nat) (hi : i < 6) :=
  C79_bars demo demo_use demo_spares true true demo_realizes Pci.quiet_honest rfl [] hi

/-- The sizes of the three BARs are multiples of 16. -/
example : [0, 2, 4].map (fun i => (lastly (saysRegion i) Told.nothing (hist demo)).size) = [0x1000, 0x10000, 0x100] ∧
    [0, 2, 4].map (fun i => kindBits (lastly (saysRegion i) Told.nothing (hist demo)).flags) = [4, 4, 2] := by decide +kernel

theorem plain_fresh : NoStale plain := by
  intro i hi h7
  have : ∀ i, i < 9 → i ≠ 7 → lastly (saysAreas i) [] (hist plain) ≠ [] →
      (lastly (saysRegion i) Told.nothing (hist plain)).fd ≠ none := by decide +kernel
  exact this i hi h7

/-- The first client. -/
def plainSt : Server.St := (Server.run (run create plain).1.server (run create plain).1.start [Server.hello]).1

theorem plain_next (id cmd : Nat) (body : List Byte) (h1 : id < 65536) (h2 : cmd < 65536) (h5 : body.length ≤ 1048576 + 16)
    (h6 : body ≠ []) : Server.Next (run create plain).1.server Server.Demo.env plainSt ⟨Server.Demo.hdr id cmd 0 body.length, body, []⟩ :=
  Server.next_req Server.env_fair rfl rfl ⟨by decide +kernel, by decide +kernel⟩ (by decide +kernel) id cmd body [] h1 h2 h5 h6
    (by decide)

example := C79_irqs plain_use plain_fresh
  (plain_next 7 7 (enc 4 16 ++ enc 4 0 ++ enc 4 2 ++ enc 4 0) (by decide) (by decide) (by decide) (by decide))
  rfl (by decide) (by decide) (t := 2) (by decide) (by decide)
example := C79_regions plain_use plain_fresh
  (plain_next 7 5 (enc 4 64 ++ enc 4 0 ++ enc 4 4 ++ enc 4 0 ++ enc 8 0 ++ enc 8 0) (by decide) (by decide) (by decide) (by decide))
  rfl (by decide) (by decide) (i := 4) (by decide) (by decide) (by decide)

/-- Why regions must not lose their descriptor: the second set-up is accepted, and the client that asks for the region gets
no answer. -/
theorem C79_stale :
    let ks := [.region true { bar 0 0x1000 7 with fd := some 5 }, .region true (bar 0 0x1000 7), .realize true true]
    let r := run create ks
    let i := Server.Demo.req 1 5 0 (enc 4 64 ++ enc 4 0 ++ enc 4 0 ++ enc 4 0 ++ enc 8 0 ++ enc 8 0) []
    let o := Server.call r.1.server (Server.run r.1.server r.1.start [Server.hello]).1 (.run Server.Demo.env i)
    r.2 = [.ok 0, .ok 0, .ok 0] ∧ ¬ NoStale ks ∧ Server.Real i ∧ Server.sents o.evs = [] := by
  refine ⟨by decide +kernel, fun h => h 0 (by decide) (by decide) (by decide +kernel) (by decide +kernel),
    Server.req_real _ _ _ _ _ (by decide) (by decide) (by decide) (by decide) (by decide) (by decide) (by decide), by decide +kernel⟩

/-! ## Misuse -/

/-- Before `vfu_pci_init` there is no config space to write to. -/
theorem C69_no_space : (step create (.setId 1 2 3 4)).2 = .fault .oob ∧ (step create (.setClass 1 2 3)).2 = .fault .oob ∧
    (run create [.region true (bar 7 256 3), .capability 0 Pci.std (Pci.pad [1, 0, 3] 8)]).2 = [.ok 0, .fault .oob] := by
  decide +kernel

/-- A store behind the end of the config space. -/
theorem C69_past_end : (run create [.pciInit true 0 0, .store 250 (List.replicate 10 0#8)]).2 = [.ok 0, .fault .oob] := by
  decide +kernel

/-- A config space region smaller than the header: `vfu_realize_ctx` writes behind the config space. -/
theorem C69_tiny_space : (run create [.region true (bar 7 16 3), .realize true true]).2 = [.ok 0, .fault .oob] := by
  decide +kernel

/-- A config space region larger than the config space: set up without an error, and the first client that reads behind the
end reads memory of the library. -/
theorem C69_oversized :
    let r := run create [.pciInit true 0 0, .region true { bar 7 4096 3 with hasCb := false }, .realize true true]
    let i := Server.Demo.req 1 9 0 (enc 8 0x200 ++ enc 4 7 ++ enc 4 4) []
    r.2 = [.ok 0, .ok 0, .ok 0] ∧ Server.Real i ∧
      (Server.call r.1.server (Server.run r.1.server r.1.start [Server.hello]).1 (.run Server.Demo.env i)).res = .fault .oob :=
  ⟨by decide +kernel, Server.req_real _ _ _ _ _ (by decide) (by decide) (by decide) (by decide) (by decide) (by decide) (by decide),
    by decide +kernel⟩

/-- Migration set up once with all callbacks and once without the mandatory ones: the second call is refused, and migration
is gone. -/
theorem C69_migration_lost :
    (run create [.migration true 2 true]).1.mig = true ∧
    (run create [.migration true 2 true, .migration true 2 false]).2 = [.ok 0, .err EINVAL] ∧
    (run create [.migration true 2 true, .migration true 2 false]).1.mig = false := by
  decide

/-- A set-up of the config space region that fails for lack of memory, between `vfu_pci_init` and `vfu_realize_ctx`: the
device is realized with a region of 256 bytes and does not serve its extended capabilities. -/
theorem C69_shrunk :
    let r := run create [.pciInit true 3 0, .capability 0 Pci.ext (Pci.pad [3, 0] 12),
      .region false { bar 7 4096 3 with fd := some 3 }, .realize true true]
    r.2 = [.ok 0, .ok 256, .err ENOMEM, .ok 0] ∧ r.1.cfgSize = 256 ∧ r.1.exts.length = 1 := by
  decide +kernel

end Verif.Setup
