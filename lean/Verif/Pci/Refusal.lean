import Verif.Pci.Props

/-! # C123: what a refused write to the config space leaves behind -/

namespace Verif.Pci
open Verif

/-- The bits of `W` (address and number of the bit) have the value of the data `buf` at `off`, all others are as before. -/
def Takes (W : Nat → Nat → Prop) (m m' : Mem) (buf : List Byte) (off : Nat) : Prop :=
  ∀ a k, k < 8 → (W a k → (m' a).getLsbD k = (buf.getD (a - off) 0#8).getLsbD k) ∧
    (¬ W a k → (m' a).getLsbD k = (m a).getLsbD k)

/-- The enable bit of the MSI capability at `c`, if the write covers it. -/
def MsiEnable (c off count a k : Nat) : Prop := a = c + 2 ∧ k = 0 ∧ off ≤ a ∧ a < off + count

/-- The device control register of the PCI Express capability at `c` without the bit that starts a function level reset. -/
def DevControl (c a k : Nat) : Prop := a = c + 8 ∨ a = c + 9 ∧ k < 7

/-- The controlled bits of the command register. -/
def Command (a k : Nat) : Prop := 4 ≤ a ∧ 8 * (a - 4) + k ∈ cmdBits

theorem takes_fields {W : Nat → Nat → Prop} {m m' : Mem} {buf : List Byte} {count off : Nat} (hl : count ≤ buf.length)
    {fs : List (Nat × Nat)} {base : Nat} (hm : m' = setFields m (wrM m off (buf.take count)) base fs)
    (hW : ∀ a k, k < 8 → (W a k ↔ off ≤ a ∧ a < off + count ∧ ∃ f ∈ fs, InField base a k f)) : Takes W m m' buf off := by
  intro a k hk
  rw [hm, setFields_bit _ _ _ _ hk, hW a k hk]
  by_cases hr : off ≤ a ∧ a < off + count
  · have h1 : wrM m off (buf.take count) a = buf.getD (a - off) 0#8 := by
      rw [wrM_in hr.1 (by rw [List.length_take]; omega), take_getD (by omega)]
    refine ⟨fun h => by rw [if_pos h.2.2, h1], fun h => ?_⟩
    rw [if_neg (fun h' => h ⟨hr.1, hr.2, h'⟩)]
  · have h1 : wrM m off (buf.take count) a = m a := wrM_out (by rw [List.length_take]; omega)
    refine ⟨fun h => absurd ⟨h.1, h.2.1⟩ hr, fun _ => ?_⟩
    rw [h1]
    split <;> rfl

theorem writeMsi_refused {m : Mem} {c : Cap} {buf : List Byte} {count off e : Nat} (ho : c.off ≤ off) (hl : count ≤ buf.length)
    (h : (writeMsi m c buf count (off - c.off)).2 = .err e) :
    e = EINVAL ∧ Takes (MsiEnable c.off off count) m (writeMsi m c buf count (off - c.off)).1 buf off := by
  have hoff : c.off + (off - c.off) = off := by omega
  have key : Takes (MsiEnable c.off off count) m (setFields m (wrM m off (buf.take count)) c.off [(16, 1)]) buf off := by
    refine takes_fields hl rfl (fun a k hk => ?_)
    unfold MsiEnable InField
    simp only [List.mem_cons, List.not_mem_nil, or_false, exists_eq_left]
    omega
  unfold writeMsi at h ⊢
  split at h
  · cases h
  · rename_i h0
    rw [if_neg h0]
    dsimp only at h ⊢
    rw [hoff] at h ⊢
    split at h
    · rename_i h1
      rw [if_pos h1]; cases h; exact ⟨rfl, key⟩
    · rename_i h1
      rw [if_neg h1]
      split at h
      · rename_i h2
        rw [if_pos h2]; cases h; exact ⟨rfl, key⟩
      · cases h

/-- `iflr`, the top bit of the data. -/
def AsksFlr (buf : List Byte) : Prop := (buf.getD 1 0#8).getLsbD 7 = true

theorem writePx_refused {dev : Dev} (hd : Local dev) {m : Mem} {c : Cap} {buf : List Byte} {count off e : Nat} (ho : c.off ≤ off)
    (hl : buf.length = count) (h : (writePx dev m c buf count (off - c.off)).2.1 = .err e) :
    (e = EINVAL ∧ (writePx dev m c buf count (off - c.off)).1 = m ∧ (writePx dev m c buf count (off - c.off)).2.2 = []) ∨
    (off = c.off + 8 ∧ count = 2 ∧ AsksFlr buf ∧ Takes (DevControl c.off) m (writePx dev m c buf count (off - c.off)).1 buf off ∧
      ((e = EINVAL ∧ field m (c.off + 4) 28 1 = 0 ∧ (writePx dev m c buf count (off - c.off)).2.2 = []) ∨
       (field m (c.off + 4) 28 1 ≠ 0 ∧ (writePx dev m c buf count (off - c.off)).2.2 = [.flr] ∧
        ∃ r m', dev.reset = some r ∧ (r m').2 = .err e))) := by
  unfold writePx at h ⊢
  by_cases hc : count ≠ 2
  · rw [if_pos hc] at h ⊢; cases h; exact .inl ⟨rfl, rfl, rfl⟩
  rw [if_neg hc] at h ⊢
  have hc : count = 2 := by omega
  subst hc
  by_cases h1 : off - c.off = 0x08
  · rw [if_pos h1] at h ⊢
    right
    have hoff : off = c.off + 8 := by omega
    have key : Takes (DevControl c.off) m (setFields m (wrM m (c.off + 8) (buf.take 2)) (c.off + 8) [(0, 1), (1, 1), (2, 1),
          (3, 1), (4, 1), (5, 3), (8, 1), (9, 1), (10, 1), (11, 1), (12, 3)]) buf off := by
      rw [← hoff]
      refine takes_fields (Nat.le_of_eq hl.symm) rfl (fun a k hk => ?_)
      unfold DevControl InField
      simp only [List.mem_cons, List.not_mem_nil, or_false, exists_eq_or_imp, exists_eq_left]
      omega
    have hcap : ∀ x, field (setFields m (wrM m (c.off + 8) (buf.take 2)) (c.off + 8) x) (c.off + 4) 28 1 = field m (c.off + 4) 28 1 := by
      intro x
      have hb : ∀ a, a < c.off + 8 → setFields m (wrM m (c.off + 8) (buf.take 2)) (c.off + 8) x a = m a := by
        intro a ha
        apply BitVec.eq_of_getLsbD_eq
        intro k hk
        rw [setFields_bit _ _ _ _ hk, if_neg]
        rintro ⟨f, _, hf, _⟩
        omega
      change leAt (rdM _ (c.off + 4) 4) 0 4 / _ % _ = leAt (rdM _ (c.off + 4) 4) 0 4 / _ % _
      rw [rd4, rd4, hb _ (by omega), hb _ (by omega), hb _ (by omega), hb _ (by omega)]
    have hflr : field (wrM m (c.off + 8) (buf.take 2)) (c.off + 8) 15 1 = 1 → AsksFlr buf := by
      intro hf
      change leAt (rdM _ (c.off + 8) 2) 0 2 / 2 ^ 15 % 2 ^ 1 = 1 at hf
      have h9 : wrM m (c.off + 8) (buf.take 2) (c.off + 8 + 1) = buf.getD 1 0#8 := by
        rw [wrM_in (by omega) (by rw [List.length_take]; omega), show c.off + 8 + 1 - (c.off + 8) = 1 by omega, take_getD (by omega)]
      rw [rd2, h9] at hf
      have hlt := (wrM m (c.off + 8) (buf.take 2) (c.off + 8)).isLt
      have hb7 : (buf.getD 1 0#8).toNat / 128 % 2 = 1 := by omega
      unfold AsksFlr
      rw [BitVec.getLsbD, Nat.testBit_eq_decide_div_mod_eq]
      exact decide_eq_true hb7
    unfold writePxdc at h ⊢
    dsimp only at h ⊢
    rw [hcap] at h ⊢
    by_cases hf : field (wrM m (c.off + 8) (buf.take 2)) (c.off + 8) 15 1 = 1
    · rw [if_pos hf] at h ⊢
      by_cases hz : field m (c.off + 4) 28 1 = 0
      · rw [if_pos hz] at h ⊢
        cases h
        exact ⟨hoff, rfl, hflr hf, key, .inl ⟨rfl, hz, rfl⟩⟩
      · rw [if_neg hz] at h ⊢
        cases hr : dev.reset with
        | none => rw [hr] at h; cases h
        | some r =>
          rw [hr] at h
          dsimp only at h ⊢
          generalize hm : setFields m (wrM m (c.off + 8) (buf.take 2)) (c.off + 8) [(0, 1), (1, 1), (2, 1),
            (3, 1), (4, 1), (5, 3), (8, 1), (9, 1), (10, 1), (11, 1), (12, 3)] = m' at h key ⊢
          have hl' := hd.reset r hr m'
          cases hres : (r m').2 with
          | ok u => rw [hres] at h; cases h
          | fault f => rw [hres] at h; cases h
          | err e' =>
            rw [hres] at h
            cases h
            dsimp only
            rw [hl']
            exact ⟨hoff, rfl, hflr hf, key, .inr ⟨hz, rfl, r, m', rfl, hres⟩⟩
    · rw [if_neg hf] at h; cases h
  · rw [if_neg h1] at h ⊢
    by_cases h2 : off - c.off = 0x10 ∨ off - c.off = 0x18 ∨ off - c.off = 0x1c
    · rw [if_pos h2] at h; cases h
    rw [if_neg h2] at h ⊢
    by_cases h3 : off - c.off = 0x28 ∨ off - c.off = 0x30
    · rw [if_pos h3] at h; cases h
    rw [if_neg h3] at h ⊢
    by_cases h4 : off - c.off = 0x38
    · rw [if_pos h4] at h; cases h
    rw [if_neg h4] at h ⊢
    cases h
    exact .inl ⟨rfl, rfl, rfl⟩

/-- **C123**, capabilities.  A write inside a capability that the library emulates and that is refused leaves the config
space as it was and calls nothing, but for two cases: of an MSI capability the enable bit is stored nevertheless; and if a
function level reset was asked for, which is not supported or which the device refused, the rest of the device control
register is stored. -/
theorem C123_capability {dev : Dev} (hd : Local dev) (hh : Honest dev) {p : Pci} (hb : Bounded p) (hdj : Disj p)
    {c : Cap} (hcm : c ∈ p.all) (hk : c.cbk = false) {buf : List Byte} {count off e : Nat} (hc : 0 < count)
    (hl : buf.length = count) (hi : Inside c off count) (hq : dev.cb = none ∨ ∀ d ∈ p.all, d.off ≠ off + count)
    (herr : (access dev p buf count off true).ret = .err e) :
    let o := access dev p buf count off true
    (o.mem = p.mem ∧ o.evs = []) ∨
    (c.ext = false ∧ c.id = ID_MSI ∧ c.ro = false ∧ e = EINVAL ∧ o.evs = [] ∧
      Takes (MsiEnable c.off off count) p.mem o.mem buf off) ∨
    (c.ext = false ∧ c.id = ID_EXP ∧ c.ro = false ∧ off = c.off + 8 ∧ count = 2 ∧ AsksFlr buf ∧
      Takes (DevControl c.off) p.mem o.mem buf off ∧
      ((e = EINVAL ∧ field p.mem (c.off + 4) 28 1 = 0 ∧ o.evs = []) ∨
       (field p.mem (c.off + 4) 28 1 ≠ 0 ∧ o.evs = [.flr] ∧ ∃ r m', dev.reset = some r ∧ (r m').2 = .err e))) := by
  intro o
  rcases write_inside hh hb hdj hcm hk hc hl hi hq with ⟨h1, h2, _⟩ | ⟨hro, _, h1, h2, h3⟩
  · exact .inl ⟨h1, h2⟩
  rw [h2] at herr
  change o.mem = _ at h1
  change o.evs = _ at h3
  rw [h1, h3]
  unfold capWrite at herr ⊢
  split at herr
  · cases herr
  rename_i h0
  rw [if_neg h0]
  by_cases hx : c.ext = true
  · rw [if_pos hx] at herr ⊢
    split at herr
    · rw [if_pos (by assumption)]; exact .inl ⟨rfl, rfl⟩
    · split at herr <;> cases herr
  rw [if_neg hx] at herr ⊢
  have hx : c.ext = false := by simpa using hx
  by_cases i1 : c.id = ID_PM
  · rw [if_pos i1] at herr ⊢
    refine .inl ⟨?_, rfl⟩
    dsimp only at herr ⊢
    unfold writePm at herr ⊢
    split
    · rfl
    · rename_i g1
      rw [if_neg g1] at herr
      split
      · rename_i g2
        rw [if_pos g2] at herr
        split
        · rfl
        · rename_i g3
          rw [if_neg g3] at herr; cases herr
      · split <;> rfl
  rw [if_neg i1] at herr ⊢
  by_cases i2 : c.id = ID_EXP
  · rw [if_pos i2] at herr ⊢
    rcases writePx_refused hd hi.1 hl herr with ⟨_, g1, g2⟩ | ⟨g1, g2, g3, g4, g5⟩
    · exact .inl ⟨g1, g2⟩
    · exact .inr (.inr ⟨hx, i2, hro, g1, g2, g3, g4, g5⟩)
  rw [if_neg i2] at herr ⊢
  by_cases i3 : c.id = ID_MSI
  · rw [if_pos i3] at herr ⊢
    obtain ⟨g1, g2⟩ := writeMsi_refused hi.1 (Nat.le_of_eq hl.symm) herr
    exact .inr (.inl ⟨hx, i3, hro, g1, rfl, g2⟩)
  rw [if_neg i3] at herr ⊢
  by_cases i4 : c.id = ID_MSIX
  · rw [if_pos i4] at herr
    dsimp only at herr
    unfold writeMsix at herr
    split at herr <;> cases herr
  rw [if_neg i4] at herr
  split at herr <;> cases herr

/-- **C123**, the header.  A write to one register of the header that is refused leaves the config space as it was, except
that of the command register the controlled bits are stored. -/
theorem C123_header {dev : Dev} (hh : Honest dev) {p : Pci} {buf : List Byte} {count off e : Nat} (hc : 0 < count)
    (hl : buf.length = count) (h1 : OneReg off count) (herr : (access dev p buf count off true).ret = .err e) :
    let o := access dev p buf count off true
    e = EINVAL ∧ o.evs = [] ∧ (o.mem = p.mem ∨ off = 4 ∧ Takes Command p.mem o.mem buf off) := by
  intro o
  have hs : nextSegment p count off true = some (.hdr, count) := by
    unfold nextSegment
    rw [if_pos h1.1]
    simp only [if_true]
    rw [← h1.2, if_neg (by omega), Nat.min_self]
  obtain ⟨e1, e2, e3, _⟩ := access_one hh hc (fun _ => hl) hs
  change o.mem = _ at e1
  change o.evs = _ at e3
  rw [e2] at herr
  rw [e1, e3]
  simp only [serve, hdrAccess] at herr ⊢
  split at herr
  · cases herr
  rename_i h0
  rw [if_neg h0]
  simp only [if_true] at herr ⊢
  have hval : (hdrWrite p.bar p.mem buf off).2 = .err e := by
    cases hr : (hdrWrite p.bar p.mem buf off).2 with
    | ok u => rw [hr] at herr; cases herr
    | fault f => rw [hr] at herr; cases herr
    | err x => rw [hr] at herr; cases herr; rfl
  rw [hval]
  refine (fun (g : e = EINVAL ∧ ((hdrWrite p.bar p.mem buf off).1 = p.mem ∨
    off = 4 ∧ Takes Command p.mem (hdrWrite p.bar p.mem buf off).1 buf off)) => ⟨g.1, rfl, g.2⟩) ?_
  unfold hdrWrite at hval ⊢
  by_cases o4 : off = 4
  · rw [if_pos o4] at hval ⊢
    have hc2 : count = 2 := by rw [h1.2, o4]; rfl
    unfold commandWrite at hval ⊢
    rw [if_neg (by omega)] at hval ⊢
    dsimp only at hval ⊢
    split at hval
    · cases hval
      refine ⟨rfl, .inr ⟨o4, ?_⟩⟩
      subst o4
      refine takes_fields (count := 2) (by omega) rfl (fun a k hk => ?_)
      unfold Command InField cmdBits
      simp only [List.mem_cons, List.not_mem_nil, or_false, exists_eq_or_imp, exists_eq_left]
      omega
    · cases hval
  rw [if_neg o4] at hval ⊢
  split at hval
  · cases hval
  rename_i g1
  rw [if_neg g1]
  split at hval
  · cases hval
  rename_i g2
  rw [if_neg g2]
  split at hval
  · unfold barWrite at hval
    split at hval
    · cases hval
    split at hval <;> cases hval
  rename_i g3
  rw [if_neg g3]
  split at hval
  · rename_i g4
    rw [if_pos g4]
    unfold eromWrite at hval ⊢
    split at hval
    · cases hval
    rename_i g5
    rw [if_neg g5]
    dsimp only at hval ⊢
    split at hval
    · cases hval
    rename_i g6
    rw [if_neg g6]
    split at hval
    · cases hval
    rename_i g7
    rw [if_neg g7]
    split at hval
    · cases hval
    rename_i g8
    rw [if_neg g8]
    split at hval
    · cases hval
    rename_i g9
    rw [if_neg g9]
    cases hval
    exact ⟨rfl, .inl rfl⟩
  · rename_i g4
    rw [if_neg g4]
    cases hval
    exact ⟨rfl, .inl rfl⟩

/-! ## Each case happens -/

/-- A device whose reset callback refuses. -/
def unwilling : Dev := { cb := none, reset := some fun m => (m, .err EINVAL) }

/-- The device of the examples without and with support for function level resets. -/
def plainExp (flrc : Byte) : Pci := { ex8 with mem := wrM ex8.mem 0x83 [flrc] }

/-- **C123**, the cases: a command register write with a reserved bit is refused but enables memory; an MSI write with too
many vectors is refused but enables MSI; a write to device control that asks for a reset is refused, by the library or by
the device, but its other bits are stored; and of a write over four registers the first two are stored before the third
is refused. -/
theorem C123_happens :
    ((access quiet ex8 (enc 2 0x82) 2 4 true).ret = .err EINVAL ∧ reg16 ex8.mem 4 = 0 ∧
      reg16 (access quiet ex8 (enc 2 0x82) 2 4 true).mem 4 = 2) ∧
    ((access quiet ex8 (enc 2 0x71) 2 0x4a true).ret = .err EINVAL ∧ field ex8.mem 0x48 16 1 = 0 ∧
      field (access quiet ex8 (enc 2 0x71) 2 0x4a true).mem 0x48 16 1 = 1) ∧
    ((access quiet (plainExp 0) (enc 2 0x8001) 2 0x84 true).ret = .err EINVAL ∧ reg16 (plainExp 0).mem 0x84 = 0 ∧
      reg16 (access quiet (plainExp 0) (enc 2 0x8001) 2 0x84 true).mem 0x84 = 1) ∧
    ((access unwilling (plainExp 0x10) (enc 2 0x8001) 2 0x84 true).ret = .err EINVAL ∧
      (access unwilling (plainExp 0x10) (enc 2 0x8001) 2 0x84 true).evs = [.flr] ∧
      reg16 (access unwilling (plainExp 0x10) (enc 2 0x8001) 2 0x84 true).mem 0x84 = 1) ∧
    ((access quiet ex8 [8#8, 9#8, 0#8, 0#8] 4 0x0c true).ret = .err EINVAL ∧ reg16 ex8.mem 0x0c = 0 ∧
      reg16 (access quiet ex8 [8#8, 9#8, 0#8, 0#8] 4 0x0c true).mem 0x0c = 0x908) := by
  decide +kernel

theorem unwilling_local : Local unwilling := ⟨fun f h => (by cases h), fun f h m => (by cases h; rfl)⟩

theorem unwilling_honest : Honest unwilling := ⟨fun f h => (by cases h), fun f h m => (by cases h; exact .inr ⟨_, rfl⟩)⟩

/-- The MSI capability of the examples is at 0x48, the PCI Express capability at 0x7c. -/
example := C123_capability quiet_local quiet_honest ex8_reach.inv.bnd (disj_of_inv ex8_reach.inv)
  (c := ⟨false, 5, 0x48, 2, 0x18, false, false⟩) (by decide +kernel) rfl (buf := enc 2 0x71) (off := 0x4a) (by decide) rfl
  (by unfold Inside; decide) (.inl rfl) C123_happens.2.1.1

example := C123_capability unwilling_local unwilling_honest ex8_reach.inv.bnd (disj_of_inv ex8_reach.inv)
  (c := ⟨false, 0x10, 0x7c, 2, 0x3c, false, false⟩) (by decide +kernel) rfl (buf := enc 2 0x8001) (off := 0x84) (e := EINVAL) (by decide) rfl
  (by unfold Inside; decide) (.inl rfl) (by decide +kernel)

example := C123_header quiet_honest (by decide) rfl (by unfold OneReg; decide) C123_happens.1.1

end Verif.Pci
