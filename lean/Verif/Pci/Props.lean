import Verif.Pci.Header

/-!
# Config space: examples and counterexamples

The theorems of C37-C46, C66 and C67 are in `Access`, `Writes`, `Regs`, `Caps`, `ExtCaps`, `Find` and `Header`. Here is a device
that meets their hypotheses, and the witnesses for what the code does not guarantee.
-/

namespace Verif.Pci
open Verif

instance (a b : Nat) (c : Cap) : Decidable (Apart a b c) := by unfold Apart; infer_instance

theorem sized_of_inv {p : Pci} (h : Inv p) : Sized p := by
  intro c hc he
  rcases List.mem_append.1 hc with hc | hc
  · have hs := (h.std c hc).size
    refine ⟨?_, ?_⟩ <;> intro hid <;> rw [hid] at hs <;> simp [stdSize, ID_PM, ID_EXP, ID_MSI, ID_MSIX] at hs <;> exact hs.symm
  · have := (h.ext c hc).ext
    rw [he] at this
    cases this

/-- Every reachable config space meets the hypotheses about the layout. -/
theorem reach_layout {hasCb : Bool} {p : Pci} (h : Reach hasCb p) : Bounded p ∧ Disj p ∧ Sized p :=
  ⟨h.inv.bnd, disj_of_inv h.inv, sized_of_inv h.inv⟩

theorem Reach.addStd {hasCb : Bool} {p : Pci} (h : Reach hasCb p) (pos : Nat) (fl : CapFlags) (data : List Byte)
    (off size : Nat) (hf : fl.ext = false) (ha : (addCap hasCb p pos fl data).2 = .ok off)
    (hs : stdSize (leAt data 0 1) (leAt data 2 1) = some size) (hh : stdHdr (leAt data 0 1) ≤ size ∧ off + size ≤ 256)
    (hp : ∀ c ∈ p.all, Apart off size c) : Reach hasCb (addCap hasCb p pos fl data).1 :=
  .std h hf (Prod.ext rfl ha) hs hh.1 hh.2 (fun _ => hp)

theorem Reach.addExt {hasCb : Bool} {p : Pci} (h : Reach hasCb p) (pos : Nat) (fl : CapFlags) (data : List Byte)
    (off size : Nat) (hf : fl.ext = true) (ha : (addCap hasCb p pos fl data).2 = .ok off)
    (hs : extSize (leAt data 0 2) (leAt data 4 4) = some size) (hh : extHdr (leAt data 0 2) ≤ size)
    (hp : ∀ c ∈ p.all, Apart off size c) : Reach hasCb (addCap hasCb p pos fl data).1 :=
  .ext h hf (Prod.ext rfl ha) hs hh (fun _ => hp)

def std : CapFlags := ⟨false, false, false, false⟩
def stdRo : CapFlags := ⟨false, false, true, false⟩
def ext : CapFlags := ⟨true, false, false, false⟩
def pad (l : List Nat) (n : Nat) : List Byte := (l ++ List.replicate (n - l.length) 0).map (BitVec.ofNat 8)

/-! ## A device with capabilities -/

def exBar : Nat → Nat × Bool := fun i => if i = 0 then (0x2000, true) else if i = 2 then (0x100, false) else (0, false)
def ex0 : Pci := init true exBar
/-- Power management, at 0x40 -/
def ex1 : Pci := (addCap true ex0 0 std (pad [1, 0x77, 3, 0, 8] 8)).1
/-- MSI with up to four vectors, at 0x48 -/
def ex2 : Pci := (addCap true ex1 0 std (pad [5, 0, 4] 0x18)).1
/-- MSI-X, at an explicit offset -/
def ex3 : Pci := (addCap true ex2 0x70 std (pad [0x11, 0, 7] 12)).1
/-- PCI Express with function level reset, at 0x7c -/
def ex4 : Pci := (addCap true ex3 0 std (pad [0x10, 0, 2, 0, 0, 0, 0, 0x10] 0x3c)).1
/-- a read-only vendor capability of 10 bytes, at 0xb8 -/
def ex5 : Pci := (addCap true ex4 0 stdRo (pad [9, 0, 10, 1, 2, 3, 4, 5, 6, 7] 10)).1
/-- a vendor capability of 8 bytes, at 0xc4 -/
def ex6 : Pci := (addCap true ex5 0 std (pad [9, 0, 8, 1, 2, 3, 4, 5] 8)).1
/-- device serial number, at 0x100 -/
def ex7 : Pci := (addCap true ex6 0 ext (pad [3, 0, 1, 0, 1, 2, 3, 4, 5, 6, 7, 8] 12)).1
/-- an extended vendor capability of 16 bytes, at 0x200 -/
def ex8 : Pci := (addCap true ex7 0x200 ext (pad [0xb, 0, 1, 0, 0, 0, 0, 1, 9, 9] 16)).1

theorem ex8_reach : Reach true ex8 :=
  ((((((((Reach.init true exBar : Reach true ex0).addStd 0 std _ 0x40 8 rfl (by decide +kernel) rfl (by decide +kernel) (by decide +kernel) : Reach true ex1).addStd
    0 std _ 0x48 0x18 rfl (by decide +kernel) rfl (by decide +kernel) (by decide +kernel) : Reach true ex2).addStd
    0x70 std _ 0x70 12 rfl (by decide +kernel) rfl (by decide +kernel) (by decide +kernel) : Reach true ex3).addStd
    0 std _ 0x7c 0x3c rfl (by decide +kernel) rfl (by decide +kernel) (by decide +kernel) : Reach true ex4).addStd
    0 stdRo _ 0xb8 10 rfl (by decide +kernel) rfl (by decide +kernel) (by decide +kernel) : Reach true ex5).addStd
    0 std _ 0xc4 8 rfl (by decide +kernel) rfl (by decide +kernel) (by decide +kernel) : Reach true ex6).addExt
    0 ext _ 0x100 12 rfl (by decide +kernel) rfl (by decide +kernel) (by decide +kernel) : Reach true ex7).addExt
    0x200 ext _ 0x200 16 rfl (by decide +kernel) rfl (by decide +kernel) (by decide +kernel)

/-- A device without config region callback, and with a reset callback. -/
def quiet : Dev := ⟨none, some (fun m => (m, .ok ()))⟩

theorem quiet_honest : Honest quiet where
  cb := by intro f hf; cases hf
  reset := by intro f hf m; injection hf with hf; subst hf; exact .inl rfl

theorem quiet_local : Local quiet where
  cb := by intro f hf; cases hf
  reset := by intro f hf m; injection hf with hf; subst hf; rfl

/-- A device whose config region callback stores what it is given. -/
def storing : Dev := ⟨some (fun m o b w => if w then (wrM m o b, [], .ok b.length) else (m, rdM m o b.length, .ok b.length)), none⟩

theorem storing_honest : Honest storing :=
  ⟨by intro f hf m o b w; injection hf with hf; subst hf; left; cases w <;> rfl, by intro f hf; cases hf⟩

theorem storing_local : Local storing :=
  ⟨by
    intro f hf m o b w a ha; injection hf with hf; subst hf
    cases w
    · rfl
    · exact wrM_out ha, by intro f hf; cases hf⟩

/-! ## C37, C38: segments -/

-- 0x3c: four header registers; a gap, and two capabilities, the second one in part
example : (access storing ex8 (pad [] 0x60) 0x60 0x3c false).segs =
    [⟨.hdr, 0x3c, 4⟩, ⟨.cap, 0x40, 8⟩, ⟨.cap, 0x48, 0x18⟩, ⟨.dflt, 0x60, 0x10⟩, ⟨.cap, 0x70, 12⟩, ⟨.cap, 0x7c, 0x20⟩] := by
  decide +kernel

example : Ascending ex8 := by unfold Ascending; decide +kernel

example : ∃ e, Tiles 0x3c (access storing ex8 (pad [] 0x60) 0x60 0x3c false).segs e ∧ e ≤ 0x9c :=
  (C37_tiling storing_honest ex8_reach.inv.bnd (by decide) (by decide)).imp (fun _ h => ⟨h.1, h.2.1⟩)

example : ∀ s ∈ (access storing ex8 (pad [] 0x60) 0x60 0x3c false).segs, OwnerOk ex8 s :=
  C37_owners storing_honest ex8_reach.inv.bnd (by unfold Ascending; decide +kernel) (by decide) (by decide)
    (by unfold Entry; decide +kernel)

/-- An access that starts in the middle of a capability runs out of it: the size is not reduced by the bytes before. -/
theorem C37_overrun : (access quiet ex8 (pad [] 10) 10 0x44 false).segs = [⟨.cap, 0x44, 8⟩, ⟨.cap, 0x4c, 2⟩] ∧
    ∃ c ∈ ex8.all, c.off ≤ 0x44 ∧ 0x44 < c.off + c.size ∧ c.off + c.size < 0x44 + 8 := by
  decide +kernel

/-- MSI-X at 0x80 was added before a read-only vendor capability at 0x40. -/
def unordered : Pci :=
  (addCap true (addCap true (init true exBar) 0x80 std (pad [0x11, 0] 12)).1 0x40 stdRo (pad [9, 0, 8, 1, 2, 3, 4, 5] 8)).1

theorem unordered_reach : Reach true unordered :=
  ((Reach.init true exBar : Reach true (init true exBar)).addStd 0x80 std _ 0x80 12 rfl (by decide +kernel) rfl (by decide +kernel)
    (by decide +kernel)).addStd 0x40 stdRo _ 0x40 8 rfl (by decide +kernel) rfl (by decide +kernel) (by decide +kernel)

/-- The capability found first is the one added first: the default handler serves a segment with another capability in
it. -/
theorem C37_first_match :
    (access storing unordered (pad [] 0x44) 0x44 0x40 true).segs = [⟨.dflt, 0x40, 0x40⟩, ⟨.cap, 0x80, 4⟩] ∧
    ∃ c ∈ unordered.all, c.off = 0x40 ∧ c.size = 8 ∧ c.ro = true := by
  decide +kernel

/-- A read over header, gaps and capabilities. -/
example : (access quiet ex8 (pad [] 16) 16 0x3e false).data =
    pad [0, 0, 1, 0x48, 3, 0, 8, 0, 0, 0, 5, 0x70, 4, 0, 0, 0] 16 ∧
    (access quiet ex8 (pad [] 16) 16 0x3e false).ret = .ok 16 := by decide +kernel

example := C38_read (dev := quiet) rfl ex8_reach.inv.bnd (pad [] 4096) (count := 4096) (off := 0) (by decide)

/-! ## C39, C40, C67: the lists -/

example : ex8.caps.map Cap.off = [0x40, 0x48, 0x70, 0x7c, 0xb8, 0xc4] ∧ ex8.exts.map Cap.off = [0x100, 0x200] ∧
    Walk ex8.mem 0x34 (ex8.caps.map Cap.off) ∧ ExtList ex8.mem (ex8.exts.map Cap.off) :=
  ⟨by decide +kernel, by decide +kernel, (C39_lists ex8_reach).1, (C39_lists ex8_reach).2.1⟩

-- a client write into the vendor capability at 0xc4
example : Reach true (ex8.after quiet ⟨pad [7] 1, 1, 0xc8, true⟩) :=
  C39_client quiet_local quiet_honest ex8_reach (by unfold Req.ok; decide) (by decide) rfl
    (.inr ⟨⟨false, 9, 0xc4, 3, 8, false, false⟩, by decide +kernel, by unfold Inside; decide, rfl, .inl rfl⟩)

-- an addition between others, and one that would overlap
example : (addCap true ex8 0xd0 std (pad [9, 0, 8] 8)).2 = .ok 0xd0 ∧ (addCap true ex8 0x6c std (pad [9, 0, 8] 8)).2 = .err EINVAL ∧
    (addCap true ex8 0 ext (pad [0xb, 0, 0, 0, 0, 0, 0, 0xff] 0xff0)).2 = .err ENOSPC := by decide +kernel

example (f : Fault) : (addCap true ex8 0xd0 std (pad [9, 0, 8] 8)).2 ≠ .fault f :=
  C40_total ex8_reach (by decide) (by decide) (fun _ s hs => by
    injection hs with hs; subst hs; decide) (by decide) f

/-- A standard capability at 256 or beyond: the link is truncated to eight bits. Here the list loops, and a search
never ends. -/
theorem C39_violated :
    ∃ p : Pci, Reach true p ∧ ∃ p', addCap true p 0x140 std (pad [9, 0, 8] 8) = (p', .ok 0x140) ∧
      (∀ l, ¬ Walk p'.mem 0x34 l) ∧ findNext p' 0 5 = .fault .diverge := by
  refine ⟨ex1, ?_, (addCap true ex1 0x140 std (pad [9, 0, 8] 8)).1, Prod.ext rfl (by decide +kernel), ?_, by decide +kernel⟩
  · exact (Reach.init true exBar).addStd 0 std _ 0x40 8 rfl (by decide +kernel) rfl (by decide +kernel) (by decide +kernel)
  · have h1 : ((addCap true ex1 0x140 std (pad [9, 0, 8] 8)).1.mem 0x34).toNat = 0x40 := by decide +kernel
    have h2 : ((addCap true ex1 0x140 std (pad [9, 0, 8] 8)).1.mem 0x41).toNat = 0x40 := by decide +kernel
    generalize (addCap true ex1 0x140 std (pad [9, 0, 8] 8)).1.mem = m at h1 h2
    have key : ∀ a l, Walk m a l → (m a).toNat ≠ 0x40 := by
      intro a l h
      induction h with
      | nil h0 => rw [h0]; decide
      | cons e1 _ _ ih =>
        intro h3
        rw [e1] at h3
        subst h3
        exact ih h2
    intro l hl
    exact key _ l hl h1

/-- Automatic placement looks at the last capability of the list only and can land on another one. -/
theorem C40_violated :
    ∃ p : Pci, Reach true p ∧ ∃ p' off, addCap true p 0 std (pad [0x10, 0] 0x3c) = (p', .ok off) ∧
      ¬ p'.all.Pairwise (fun c d => c.off + c.size ≤ d.off ∨ d.off + d.size ≤ c.off) :=
  ⟨unordered, unordered_reach, (addCap true unordered 0 std (pad [0x10, 0] 0x3c)).1, 0x48, Prod.ext rfl (by decide +kernel),
    by decide +kernel⟩

/-- Without the provisos of `C40_total` the library aborts: an extended capability at an offset that is not a multiple
of 4; an offset so large that the end wraps; automatic placement after a vendor capability of declared size 0; a link to
the last byte of the config space. -/
theorem C40_aborts :
    (addCap true ex8 0x302 ext (pad [3, 0] 12)).2 = .fault .assertFail ∧
    (addCap true ex8 (2 ^ 64 - 4) std (pad [9, 0, 8] 8)).2 = .fault .assertFail ∧
    (addCap true (addCap true ex0 0 std (pad [9, 0, 0] 8)).1 0 std (pad [5, 0] 0x18)).2 = .fault .assertFail ∧
    (addCap true { ex0 with mem := wrM ex0.mem 0x34 [0xff#8], size := 256, alloc := 256 } 0x40 std (pad [9, 0, 8] 8)).2 =
      .fault .assertFail := by
  decide +kernel

example : findNext ex8 0 9 = .ok 0xb8 ∧ findNext ex8 0xb8 9 = .ok 0xc4 ∧ findNext ex8 0xc4 9 = .err ENOENT ∧
    findNextExt ex8 0 0xb = .ok 0x200 ∧ findNextExt ex8 0x100 0xb = .ok 0x200 ∧ findNextExt ex8 0 7 = .err ENOENT := by
  decide +kernel

example : findNext ex8 0xb8 9 = answer 9 [⟨false, 9, 0xc4, 3, 8, false, false⟩] :=
  C67_next ex8_reach 9 (l := ex8.caps.take 4) (c := ⟨false, 9, 0xb8, 3, 10, true, false⟩) (by decide +kernel)

/-- The device sets its ids after adding capabilities (`vfu_pci_set_id`, `lib/pci.c:506-518`). -/
def withIds (p : Pci) (vendor device : Nat) : Pci := { p with mem := wrM p.mem 0 (enc 2 vendor ++ enc 2 device) }

/-- Continuing from the last extended capability follows the null link to offset 0, and takes the header for one more
extended capability: the upper twelve bits of the device id are its link. With the device id 0x1000 the search starts
again at 256 and finds capabilities it had already returned, so a caller that goes through all of them never ends. With
the vendor id equal to the id looked for it "finds" offset 0, which callers cannot tell from an error. -/
theorem C67_violated :
    Reach true (withIds ex8 0x1af4 0x1000) ∧ findNextExt (withIds ex8 0x1af4 0x1000) 0x200 3 = .ok 0x100 ∧
    findNextExt (withIds ex8 0x1af4 0x1000) 0x200 0xb = .ok 0x200 ∧ findNextExt (withIds ex8 3 0x1000) 0x200 3 = .ok 0 := by
  refine ⟨.other ex8_reach ⟨?_, ?_, ?_⟩, by decide +kernel, by decide +kernel, by decide +kernel⟩
  · exact wrM_out (by decide)
  · intro c hc a h1 h2
    have := (ex8_reach.inv.bnd.caps c hc).1
    exact wrM_out (by rw [show (enc 2 0x1af4 ++ enc 2 0x1000).length = 4 from rfl]; omega)
  · intro _ a h1 h2
    exact wrM_out (by rw [show (enc 2 0x1af4 ++ enc 2 0x1000).length = 4 from rfl]; omega)

/-- Looking for an extended capability in a config space of 256 bytes aborts. -/
theorem C67_small : findNextExt (init false exBar) 0 3 = .fault .assertFail := by decide +kernel

/-! ## C41, C45: writes -/

-- the read-only vendor capability and the header of the other one
example : (access quiet ex8 (pad [1, 1] 2) 2 0xbc true).ret = .err EPERM ∧
    (access quiet ex8 (pad [1, 1] 2) 2 0xc5 true).ret = .err EPERM ∧
    (access quiet ex8 (pad [1, 1] 2) 2 0xc8 true).ret = .ok 2 := by decide +kernel

example := C41_contained quiet_local quiet_honest ex8_reach.inv.bnd (disj_of_inv ex8_reach.inv)
  (c := ⟨false, 9, 0xb8, 3, 10, true, false⟩) (by decide +kernel) (buf := pad [1, 1] 2) (count := 2) (off := 0xbc)
  (by decide) (by decide) (by unfold Inside; decide) (.inl rfl)

/-- A vendor capability of 8 bytes at 0x40 with a read-only one right behind it. -/
def neighbours : Pci :=
  (addCap true (addCap true (init true exBar) 0 std (pad [9, 0, 8] 8)).1 0 stdRo (pad [9, 0, 8, 1, 2, 3, 4, 5] 8)).1

/-- A write that runs out of a vendor capability is not cut: it overwrites the header of the read-only capability
behind it, and succeeds. -/
theorem C41_overrun :
    neighbours.caps.map (fun c => (c.off, c.ro)) = [(0x40, false), (0x48, true)] ∧
    (access quiet neighbours (pad [0xff, 0xff, 0xff, 0xff, 0xff, 0xff, 0xff, 0xff] 8) 8 0x44 true).ret = .ok 8 ∧
    rdM (access quiet neighbours (pad [0xff, 0xff, 0xff, 0xff, 0xff, 0xff, 0xff, 0xff] 8) 8 0x44 true).mem 0x48 4 =
      pad [0xff, 0xff, 0xff, 0xff] 4 := by
  decide +kernel

/-- With a config region callback, a write over a range that an earlier added capability ends reaches the callback,
read-only capabilities included. -/
theorem C41_bypass :
    (access storing unordered (pad [1, 1, 1, 1] 0x41) 0x41 0x40 true).segs = [⟨.dflt, 0x40, 0x40⟩, ⟨.cap, 0x80, 1⟩] ∧
    rdM (access storing unordered (pad [1, 1, 1, 1] 0x41) 0x41 0x40 true).mem 0x40 4 = pad [1, 1, 1, 1] 4 := by
  decide +kernel

/-- Even a write inside a read-only capability, if it ends right where an earlier added capability starts. -/
def touching : Pci :=
  (addCap true (addCap true (init true exBar) 0x48 std (pad [9, 0, 8] 8)).1 0x40 stdRo (pad [9, 0, 8, 1, 2, 3, 4, 5] 8)).1

theorem C41_touching :
    (access storing touching (pad [7, 7, 7, 7] 4) 4 0x44 true).segs = [⟨.dflt, 0x44, 4⟩] ∧
    rdM (access storing touching (pad [7, 7, 7, 7] 4) 4 0x44 true).mem 0x44 4 = pad [7, 7, 7, 7] 4 := by
  decide +kernel

-- a write inside MSI
example (f : Fault) : (access quiet ex8 (pad [1, 2, 3, 4] 4) 4 0x4c true).ret ≠ .fault f :=
  C45_contained quiet_honest ex8_reach.inv.bnd (reach_layout ex8_reach).2.2 (disj_of_inv ex8_reach.inv) (by decide) (by decide)
    (.inr ⟨⟨false, 5, 0x48, 2, 0x18, false, false⟩, by decide +kernel, by unfold Inside; decide⟩) f

-- a write to a header register, and the rest of the config space
example (a : Nat) (h : a < 0x3c ∨ 0x3d ≤ a) : (access quiet ex8 (pad [9] 1) 1 0x3c true).mem a = ex8.mem a :=
  C45_frame quiet_local quiet_honest ex8_reach.inv.bnd (count := 1) (fun _ => rfl) (by decide) (by omega)

-- a write over several registers and capabilities, each taken whole
example (f : Fault) : (access quiet ex8 (pad [] 0x32) 0x32 0x10 true).ret ≠ .fault f :=
  C45_segments quiet_honest ex8_reach.inv.bnd (reach_layout ex8_reach).2.2 (count := 0x32) (fun _ => rfl) (by decide)
    (fun _ => by
      rw [show (access quiet ex8 (pad [] 0x32) 0x32 0x10 true).segs = [⟨.hdr, 0x10, 4⟩, ⟨.hdr, 0x14, 4⟩, ⟨.hdr, 0x18, 4⟩,
        ⟨.hdr, 0x1c, 4⟩, ⟨.hdr, 0x20, 4⟩, ⟨.hdr, 0x24, 4⟩, ⟨.hdr, 0x28, 4⟩] by decide +kernel]
      intro s hs
      simp only [List.mem_cons, List.not_mem_nil, or_false] at hs
      rcases hs with rfl | rfl | rfl | rfl | rfl | rfl | rfl <;> rfl) f

/-- Writes shorter than a header register, and writes that run out of an MSI or MSI-X capability, leave the client's
data or the capability's copy. -/
theorem C45_violated :
    (access quiet ex8 (pad [7] 1) 1 0x04 true).ret = .fault .oob ∧
    (access quiet ex8 (pad [7, 7, 7] 3) 3 0x10 true).ret = .fault .oob ∧
    (access quiet ex8 (pad [7, 7] 2) 2 0x30 true).ret = .fault .oob ∧
    (access quiet ex8 (pad [] 0x18) 0x18 0x50 true).ret = .fault .oob ∧
    (access quiet ex8 (pad [] 12) 12 0x74 true).ret = .fault .oob := by
  decide +kernel

/-! ## C42, C43, C44, C46, C66: registers -/

-- an 8 KiB memory BAR
example : reg32 (access quiet ex8 (enc 4 0xffffffff) 4 0x10 true).mem 0x10 = 0xffffe000 := by decide +kernel
example := C42_sizing quiet_honest (p := ex8) (i := 0) (by decide) (by decide) (by decide) (by decide)
example := C42_program quiet_honest (p := ex8) (i := 2) (by decide) (by decide) (by decide) (addr := 0xd000) (by decide) (by decide)
example := C42_restore quiet_honest (p := ex8) (i := 0) (by decide) (by decide) (by decide) (by decide) (by decide +kernel)
example := C42_upper quiet_honest (p := ex8) (i := 1) (by decide) (by decide) (buf := enc 4 1) rfl

-- memory, bus master and INTx disable on; a refused bit
example : (access quiet ex8 (enc 2 0x406) 2 4 true).ret = .ok 2 ∧ reg16 (access quiet ex8 (enc 2 0x406) 2 4 true).mem 4 = 0x406 ∧
    (access quiet ex8 (enc 2 0x8007) 2 4 true).ret = .err EINVAL ∧
    reg16 (access quiet ex8 (enc 2 0x8007) 2 4 true).mem 4 = 7 := by decide +kernel

/-- A refused command write has been stored all the same. -/
theorem C43_violated : ∃ p : Pci, Reach true p ∧ ∃ v, (access quiet p (enc 2 v) 2 4 true).ret = .err EINVAL ∧
    reg16 (access quiet p (enc 2 v) 2 4 true).mem 4 ≠ reg16 p.mem 4 :=
  ⟨ex8, ex8_reach, 0x8007, by decide +kernel, by decide +kernel⟩

example := C44_bits quiet_local quiet_honest ex8_reach.inv.bnd (disj_of_inv ex8_reach.inv)
  (c := ⟨false, 5, 0x48, 2, 0x18, false, false⟩) (by decide +kernel) rfl rfl (by decide) (buf := enc 4 0xfee00000) (count := 4)
  (off := 0x4c) (n := 4) (by decide) (by decide) (by unfold Inside; decide) (.inl rfl) (by decide +kernel)

example : (access quiet ex8 (enc 2 0x25) 2 0x4a true).ret = .ok 2 ∧ reg16 (access quiet ex8 (enc 2 0x25) 2 0x4a true).mem 0x4a = 0x25 ∧
    reg16 ex8.mem 0x4a = 4 := by decide +kernel

example := C44_msi_vectors quiet_honest ex8_reach.inv.bnd (disj_of_inv ex8_reach.inv)
  (c := ⟨false, 5, 0x48, 2, 0x18, false, false⟩) (by decide +kernel) rfl rfl rfl (buf := enc 2 0x71) (count := 2)
  (off := 0x4a) (by decide) (by decide) (by unfold Inside; decide) (.inl rfl) (by decide +kernel)

/-- A refused MSI write (more vectors than the device has) has enabled MSI all the same; and the read-only "no soft
reset" bit of the power management control register is replaced by what the client writes. -/
theorem C44_violated :
    ((access quiet ex8 (enc 2 0x71) 2 0x4a true).ret = .err EINVAL ∧
      field ex8.mem 0x48 16 1 = 0 ∧ field (access quiet ex8 (enc 2 0x71) 2 0x4a true).mem 0x48 16 1 = 1) ∧
    ((access quiet ex8 (enc 2 0) 2 0x44 true).ret = .ok 2 ∧ field ex8.mem 0x44 3 1 = 1 ∧
      field (access quiet ex8 (enc 2 0) 2 0x44 true).mem 0x44 3 1 = 0) := by
  decide +kernel

example : (ex8.run quiet [⟨enc 4 0, 4, 0, true⟩, ⟨enc 1 0x11, 1, 0x3c, true⟩, ⟨enc 1 0x11, 1, 0x34, true⟩]).mem 0x34 = ex8.mem 0x34 :=
  C46_immutable quiet_local quiet_honest (by unfold roHdr; decide) _ ex8 ex8_reach.inv.bnd (by unfold Req.ok; decide)

example : seen 4 (access quiet ex8 (enc 4 5) 4 0x38 true).ret = .err EINVAL :=
  (C46_undefined (by decide) (by decide) (.inl rfl)).1

example : seen 4 (access quiet ex8 (enc 4 5) 4 0x05 true).ret = .err EINVAL := (C46_refused ex8 (by decide) (by decide) (by decide)).1

example : (access quiet ex8 (enc 3 0x123456) 3 0x09 true).mem = ex8.mem :=
  (C46_ignored quiet_honest ex8 (width := 3) (by decide) (buf := enc 3 0x123456) (by decide) (by decide)).2.1

example : (access quiet ex8 [0x5a] 1 0x3c true).mem 0x3c = 0x5a :=
  ((C46_stored quiet_honest ex8 (.inr (.inr rfl)) 0x5a).2.2 0x3c).trans (if_pos rfl)

example : (access quiet ex8 (enc 4 0x1000) 4 0x30 true).ret = .err EINVAL :=
  (C46_rom quiet_honest ex8 (by decide)).1.trans (if_neg (by decide))

/-- A second vendor capability with version 5 behind one with version 1. -/
example : extVersion ex8.mem 0x200 = 1 ∧ extVersion (addCap true ex8 0x210 ext (pad [0xb, 0, 0x35, 0, 0, 0, 0, 1, 9, 9] 16)).1.mem 0x210 = 5 := by
  refine ⟨by decide +kernel, ?_⟩
  exact (C40_version ex8_reach (fl := ext) rfl (by decide) (Prod.ext rfl (by decide +kernel)) (fun h => absurd h (by decide))).1

-- function level reset
example : (access quiet ex8 (enc 2 0x8000) 2 0x84 true).evs = [.flr] ∧ (access quiet ex8 (enc 2 0x1000) 2 0x84 true).evs = [] := by
  decide +kernel

example := C66_flr quiet_honest ex8_reach.inv.bnd (disj_of_inv ex8_reach.inv)
  (c := ⟨false, 0x10, 0x7c, 2, 0x3c, false, false⟩) (by decide +kernel) rfl rfl rfl rfl rfl rfl (buf := enc 2 0x8000) rfl

-- a reset callback that fails
example : (access { quiet with reset := some fun m => (m, .err 5) } ex8 (enc 2 0x8000) 2 0x84 true).ret = .err 5 := by
  decide +kernel
example := C66_result quiet_honest ex8_reach.inv.bnd (disj_of_inv ex8_reach.inv)
  (c := ⟨false, 0x10, 0x7c, 2, 0x3c, false, false⟩) (by decide +kernel) rfl rfl rfl rfl rfl rfl (buf := enc 2 0x8000) rfl
  (by decide) (by decide +kernel) rfl

end Verif.Pci
