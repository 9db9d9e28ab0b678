import Verif.Server.Identity

/-!
# A register holds what was last written to it (C90)

Config space registers as a driver sees them: a write that was acknowledged is what reads return, from then on, through
whatever else happens, until the register is written again. -/

namespace Verif.Server
open Verif
open Verif.Dma (Fd)

/-! ## The data sheet -/

/-- The bits of a capability that belong to the client, counted from the beginning of the capability: power management
control; PCI Express device control without the reset bit, device control 2, link control 2; MSI enable, number of
vectors, address, data and mask; MSI-X function mask and enable; all of a vendor capability. -/
def CapBit (c : Pci.Cap) (b : Nat) : Prop :=
  if c.ext = true then c.id = 0xb
  else
    c.id = 1 ∧ 32 ≤ b ∧ b < 48 ∨
    c.id = 0x10 ∧ (64 ≤ b ∧ b < 79 ∨ 320 ≤ b ∧ b < 336 ∨ 384 ≤ b ∧ b < 400) ∨
    c.id = 5 ∧ (b = 16 ∨ 20 ≤ b ∧ b < 23 ∨ 34 ≤ b ∧ b < 64 ∨ 64 ≤ b ∧ b < 96 ∨ 96 ≤ b ∧ b < 112 ∨ 128 ≤ b ∧ b < 160) ∨
    c.id = 0x11 ∧ (b = 30 ∨ b = 31) ∨
    c.id = 9

/-- Bit `k` of byte `a` of the config space belongs to the client. In the header: six bits of the command register,
cache line size, latency timer, interrupt line. -/
def ClientBit (p : Pci.Pci) (a k : Nat) : Prop :=
  a = 4 ∧ (k = 0 ∨ k = 1 ∨ k = 2 ∨ k = 4) ∨ a = 5 ∧ (k = 0 ∨ k = 2) ∨ a = 0xc ∨ a = 0xd ∨ a = 0x3c ∨
  ∃ c ∈ p.all, c.off ≤ a ∧ a < c.off + c.size ∧ CapBit c (8 * (a - c.off) + k)

/-- What `n` bytes from `a` hold after `data` was written to them over `old`. -/
def Holds (p : Pci.Pci) (a : Nat) (old data new : List Byte) : Prop :=
  new.length = data.length ∧ ∀ j, j < data.length → ∀ k, k < 8 →
    (ClientBit p (a + j) k → (new.getD j 0#8).getLsbD k = (data.getD j 0#8).getLsbD k) ∧
    (¬ ClientBit p (a + j) k → (new.getD j 0#8).getLsbD k = (old.getD j 0#8).getLsbD k)

/-- The requests do not write to `n` bytes from `a` of the config space. -/
def Avoids (a n : Nat) : Wire.In → Prop
  | .req hd body _ => hd.cmd = 10 → leAt body 8 4 = 7 → leAt body 0 8 + leAt body 12 4 ≤ a ∨ a + n ≤ leAt body 0 8
  | _ => True

/-- A register of the header that is neither a BAR nor the expansion ROM register, or bytes inside one capability. -/
def Plainly (p : Pci.Pci) (off count : Nat) : Prop :=
  Pci.OneReg off count ∧ (off < 0x10 ∨ 0x28 ≤ off) ∧ off ≠ 0x30 ∨ ∃ c ∈ p.all, Pci.Inside c off count

/-! ## One write -/

/-- Where the capabilities are and what they are. -/
structure Shape (p : Pci.Pci) : Prop where
  bnd : Pci.Bounded p
  disj : Pci.Disj p
  std : ∀ c ∈ p.caps, c.ext = false ∧
    (c.id = Pci.ID_PM ∨ c.id = Pci.ID_EXP ∨ c.id = Pci.ID_MSI ∨ c.id = Pci.ID_MSIX ∨ c.id = Pci.ID_VNDR)
  ext : ∀ c ∈ p.exts, c.ext = true ∧ (c.id = Pci.EXT_DSN ∨ c.id = Pci.EXT_VNDR)
  sized : Pci.Sized p
  cbk : ∀ c ∈ p.all, c.cbk = false

theorem shape_reach {p : Pci.Pci} (h : Pci.Reach false p) : Shape p := by
  have hi := h.inv
  refine ⟨hi.bnd, Pci.disj_of_inv hi, fun c hc => ⟨(hi.std c hc).ext, ?_⟩, fun c hc => ⟨(hi.ext c hc).ext, ?_⟩, Pci.sized_of_inv hi,
    reach_noCb h rfl⟩
  · have := (hi.std c hc).size
    unfold Pci.stdSize at this
    split_ifs at this <;> tauto
  · have := (hi.ext c hc).size
    unfold Pci.extSize at this
    split_ifs at this <;> tauto

theorem shape_layout {p q : Pci.Pci} (h : layout q = layout p) (hs : Shape p) : Shape q := by
  rw [layout_parts h]
  exact ⟨⟨hs.bnd.alloc, hs.bnd.small, hs.bnd.std, hs.bnd.caps⟩, hs.disj, hs.std, hs.ext, hs.sized, hs.cbk⟩

theorem getD_rdM {m : Pci.Mem} {off n j : Nat} (h : j < n) : (Pci.rdM m off n).getD j 0#8 = m (off + j) := by
  rw [List.getD_eq_getElem?_getD, List.getElem?_eq_getElem (by rw [Pci.rdM_length]; exact h), Option.getD_some,
    Pci.rdM_getElem]

theorem header_bit {p : Pci.Pci} (hb : Pci.Bounded p) {a k : Nat} (ha : a < 64) : ClientBit p a k ↔
    a = 4 ∧ (k = 0 ∨ k = 1 ∨ k = 2 ∨ k = 4) ∨ a = 5 ∧ (k = 0 ∨ k = 2) ∨ a = 0xc ∨ a = 0xd ∨ a = 0x3c := by
  unfold ClientBit
  have : ¬ ∃ c ∈ p.all, c.off ≤ a ∧ a < c.off + c.size ∧ CapBit c (8 * (a - c.off) + k) := by
    rintro ⟨c, hc, h1, _⟩
    have := (hb.caps c hc).1
    omega
  simp only [this, or_false]

theorem cap_bit {p : Pci.Pci} (h : Shape p) {c : Pci.Cap} (hc : c ∈ p.all) {a k : Nat} (h1 : c.off ≤ a)
    (h2 : a < c.off + c.size) : ClientBit p a k ↔ CapBit c (8 * (a - c.off) + k) := by
  have hlo := (h.bnd.caps c hc).1
  unfold ClientBit
  constructor
  · rintro (h3 | h3 | h3 | h3 | h3 | ⟨d, hd, h3, h4, h5⟩)
    iterate 5 exact absurd h3 (by omega)
    rcases h.disj _ hc _ hd with e | e
    · subst e; exact h5
    · exact absurd e (by omega)
  · exact fun h3 => .inr (.inr (.inr (.inr (.inr ⟨c, hc, h1, h2, h3⟩))))

theorem holds_same {p : Pci.Pci} {a : Nat} {data : List Byte} {m m' : Pci.Mem} (he : m' = m)
    (h : ∀ j, j < data.length → ∀ k, k < 8 → ¬ ClientBit p (a + j) k) :
    Holds p a (Pci.rdM m a data.length) data (Pci.rdM m' a data.length) := by
  subst he
  exact ⟨Pci.rdM_length .., fun j hj k hk => ⟨fun hb => absurd hb (h j hj k hk), fun _ => rfl⟩⟩

theorem header_holds {dev : Pci.Dev} (hh : Pci.Honest dev) {p : Pci.Pci} (hb : Pci.Bounded p) {buf : List Byte} {off : Nat}
    (h1 : Pci.OneReg off buf.length) (h2 : off < 0x10 ∨ 0x28 ≤ off) (h3 : off ≠ 0x30) (h0 : 0 < buf.length)
    (hok : (Pci.access dev p buf buf.length off true).ret = .ok buf.length) :
    Holds p off (Pci.rdM p.mem off buf.length) buf (Pci.rdM (Pci.access dev p buf buf.length off true).mem off buf.length) := by
  obtain ⟨h64, hw⟩ := h1
  have hreg : off ∈ [0x04, 0x06, 0x08, 0x09, 0x0c, 0x0d, 0x3c, 0x3d, 0x3e, 0x3f] := by
    by_contra hn
    have := (Pci.C46_refused (dev := dev) p (buf := buf) h0 h64 (by
      intro hm
      simp only [List.mem_cons, List.not_mem_nil, or_false] at hm hn
      omega)).1
    rw [hok] at this
    simp [Pci.seen] at this
  by_cases h4 : off = 4
  · subst h4
    have hl : buf.length = 2 := hw
    have he : enc 2 (leAt buf 0 2) = buf := by
      rw [enc_leAt buf 2 0 (by omega), List.drop_zero, List.take_of_length_le (by omega)]
    have hlt : leAt buf 0 2 < 65536 := leAt_lt buf 2 0
    have hc := (Pci.C43_command (p := p) hh hlt).1
    rw [he] at hc
    rw [hl]
    refine ⟨by rw [Pci.rdM_length, hl], fun j hj k hk => ?_⟩
    have hj2 : j < 2 := by omega
    have hbit := hc (8 * j + k) (by omega)
    rw [Pci.reg16_bit _ _ _ (by omega), Pci.reg16_bit _ _ _ (by omega), Pci.leAt_testBit] at hbit
    have e1 : (8 * j + k) / 8 = j := by omega
    have e2 : (8 * j + k) % 8 = k := by omega
    rw [e1, e2] at hbit
    rw [getD_rdM hj2, getD_rdM hj2, header_bit hb (by omega)]
    have e3 : 8 * j + k < 8 * 2 := by omega
    simp only [e3, decide_true, Bool.true_and, Nat.zero_add] at hbit
    have hiff : 8 * j + k ∈ Pci.cmdBits ↔ 4 + j = 4 ∧ (k = 0 ∨ k = 1 ∨ k = 2 ∨ k = 4) ∨ 4 + j = 5 ∧ (k = 0 ∨ k = 2) ∨
        4 + j = 0xc ∨ 4 + j = 0xd ∨ 4 + j = 0x3c := by
      unfold Pci.cmdBits
      simp only [List.mem_cons, List.not_mem_nil, or_false]
      omega
    rw [← hiff]
    exact ⟨fun h => by rw [hbit, if_pos h], fun h => by rw [hbit, if_neg h]⟩
  by_cases h5 : off = 0x0c ∨ off = 0x0d ∨ off = 0x3c
  · have hl : buf.length = 1 := by rcases h5 with rfl | rfl | rfl <;> exact hw
    match buf, hl with
    | [b], _ =>
      have hc := (Pci.C46_stored hh p h5 b).2.2
      refine ⟨rfl, fun j hj k hk => ?_⟩
      have hj0 : j = 0 := by simp at hj; exact hj
      subst hj0
      refine ⟨fun _ => ?_, fun hn => absurd ((header_bit hb (by omega)).2 (by omega)) hn⟩
      rw [getD_rdM (by exact Nat.one_pos)]
      exact congrArg (fun x : Byte => x.getLsbD k) ((hc off).trans (if_pos rfl))
  · have hr : (off, buf.length) ∈ [(0x06, 2), (0x08, 1), (0x09, 3), (0x3d, 1), (0x3e, 1), (0x3f, 1)] := by
      rw [hw]
      simp only [List.mem_cons, List.not_mem_nil, or_false] at hreg
      rcases hreg with rfl | rfl | rfl | rfl | rfl | rfl | rfl | rfl | rfl | rfl <;> first | (exfalso; omega) | decide
    have hc := (Pci.C46_ignored hh p hr h0 (Nat.le_refl _)).2.1
    refine holds_same hc (fun j hj k hk hbit => ?_)
    rw [header_bit hb] at hbit
    · simp only [List.mem_cons, List.not_mem_nil, or_false, Prod.mk.injEq] at hr
      omega
    · simp only [List.mem_cons, List.not_mem_nil, or_false, Prod.mk.injEq] at hr
      omega

theorem capBit_iff {c : Pci.Cap} (he : c.ext = false) (hid : c.id = Pci.ID_PM ∨ c.id = Pci.ID_EXP ∨ c.id = Pci.ID_MSI ∨ c.id = Pci.ID_MSIX)
    (b : Nat) : CapBit c b ↔ Pci.Writable c.id b := by
  unfold CapBit
  rw [if_neg (by rw [he]; decide)]
  rcases hid with h | h | h | h <;> rw [h]
  · unfold Pci.Writable Pci.writableBits
    rw [if_pos rfl]
    simp [Pci.ID_PM]
  · rw [Pci.writable_exp]
    simp [Pci.ID_EXP]
  · rw [Pci.writable_msi]
    have : Pci.ID_MSI = 5 := rfl
    simp only [List.mem_cons, List.not_mem_nil, or_false, exists_eq_or_imp, exists_eq_left]
    omega
  · rw [Pci.writable_msix]
    have : Pci.ID_MSIX = 0x11 := rfl
    omega

theorem holds_copy {p : Pci.Pci} {a : Nat} {data : List Byte} {m : Pci.Mem}
    (h : ∀ j, j < data.length → ∀ k, k < 8 → ClientBit p (a + j) k) :
    Holds p a (Pci.rdM m a data.length) data (Pci.rdM (Pci.wrM m a (data.take data.length)) a data.length) := by
  refine ⟨Pci.rdM_length .., fun j hj k hk => ⟨fun _ => ?_, fun hn => absurd (h j hj k hk) hn⟩⟩
  rw [getD_rdM hj, List.take_length, Pci.wrM_in (by omega) (by omega), show a + j - a = j by omega]

theorem cap_holds {dev : Pci.Dev} (hd : Pci.Local dev) (hh : Pci.Honest dev) (hcb : dev.cb = none) {p : Pci.Pci} (h : Shape p)
    {c : Pci.Cap} (hc : c ∈ p.all) {buf : List Byte} {off : Nat} (h0 : 0 < buf.length)
    (hi : Pci.Inside c off buf.length) (hok : (Pci.access dev p buf buf.length off true).ret = .ok buf.length) :
    Holds p off (Pci.rdM p.mem off buf.length) buf (Pci.rdM (Pci.access dev p buf buf.length off true).mem off buf.length) := by
  have hdj := h.disj
  have hk := h.cbk
  obtain ⟨hi1, hi2⟩ := id hi
  have cb : ∀ j, j < buf.length → ∀ k, ClientBit p (off + j) k ↔ CapBit c (8 * (off + j - c.off) + k) :=
    fun j hj k => cap_bit h hc (by omega) (by omega)
  have vendor : ∀ (_ : c.ext = true ∧ c.id = Pci.EXT_VNDR ∨ c.ext = false ∧ c.id = Pci.ID_VNDR), Holds p off
      (Pci.rdM p.mem off buf.length) buf (Pci.rdM (Pci.access dev p buf buf.length off true).mem off buf.length) := by
    intro hv
    rcases Pci.write_inside hh h.bnd hdj hc (hk c hc) h0 rfl hi (.inl hcb) with ⟨_, _, e, h'⟩ | ⟨_, _, h1, h2, _⟩
    · rw [h'] at hok; cases hok
    · have e : (Pci.capWrite dev p.alloc p.mem c buf buf.length off).1 = Pci.wrM p.mem off (buf.take buf.length) := by
        rw [h2] at hok
        revert hok
        unfold Pci.capWrite
        by_cases g0 : c.off + c.size > p.alloc
        · rw [if_pos g0]; exact fun h => by cases h
        rw [if_neg g0]
        rcases hv with ⟨v1, v2⟩ | ⟨v1, v2⟩
        · rw [if_pos v1, if_neg (by rw [v2]; decide)]
          by_cases g1 : off + buf.length > p.alloc
          · rw [if_pos g1]; exact fun h => by cases h
          · rw [if_neg g1]; exact fun _ => rfl
        · rw [if_neg (by rw [v1]; decide), if_neg (by rw [v2]; decide), if_neg (by rw [v2]; decide), if_neg (by rw [v2]; decide),
            if_neg (by rw [v2]; decide)]
          by_cases g1 : off + buf.length > p.alloc
          · rw [if_pos g1]; exact fun h => by cases h
          · rw [if_neg g1]; exact fun _ => rfl
      rw [h1, e]
      refine holds_copy (fun j hj k _ => (cb j hj k).2 ?_)
      unfold CapBit
      rcases hv with ⟨v1, v2⟩ | ⟨v1, v2⟩
      · rw [if_pos v1]; exact v2
      · rw [if_neg (by rw [v1]; decide)]; exact .inr (.inr (.inr (.inr v2)))
  rcases List.mem_append.1 hc with hx | hx
  · obtain ⟨hext, hid⟩ := h.std c hx
    by_cases hv : c.id = Pci.ID_VNDR
    · exact vendor (.inr ⟨hext, hv⟩)
    have hid' : c.id = Pci.ID_PM ∨ c.id = Pci.ID_EXP ∨ c.id = Pci.ID_MSI ∨ c.id = Pci.ID_MSIX := by tauto
    have hb := Pci.C44_bits hd hh h.bnd hdj hc (hk c hc) hext hid' h0 rfl hi (.inl hcb) hok
    refine ⟨Pci.rdM_length .., fun j hj k hkk => ?_⟩
    have hbj := hb (off + j) k (by omega) hkk
    rw [getD_rdM hj, getD_rdM hj, cb j hj k, capBit_iff hext hid']
    have e : off + j - off = j := by omega
    rw [e] at hbj
    exact ⟨fun hw => hbj.1 ⟨by omega, by omega, hw⟩, fun hw => hbj.2 (fun hx => hw hx.2.2)⟩
  · obtain ⟨hext, hid⟩ := h.ext c hx
    rcases hid with hid | hid
    · exfalso
      rcases Pci.write_inside hh h.bnd hdj hc (hk c hc) h0 rfl hi (.inl hcb) with ⟨_, _, e, h'⟩ | ⟨_, _, h1, h2, _⟩
      · rw [h'] at hok; cases hok
      · rw [h2] at hok
        unfold Pci.capWrite at hok
        by_cases g0 : c.off + c.size > p.alloc
        · rw [if_pos g0] at hok; cases hok
        · rw [if_neg g0, if_pos hext, if_pos hid] at hok; cases hok
    · exact vendor (.inl ⟨hext, hid⟩)

/-- An acknowledged write of a register, or inside a capability, leaves in it what the data sheet says. -/
theorem access_holds {dev : Pci.Dev} (hd : Pci.Local dev) (hh : Pci.Honest dev) (hcb : dev.cb = none) {p : Pci.Pci} (h : Shape p)
    {buf : List Byte} {off : Nat} (h0 : 0 < buf.length) (hp : Plainly p off buf.length)
    (hok : (Pci.access dev p buf buf.length off true).ret = .ok buf.length) :
    Holds p off (Pci.rdM p.mem off buf.length) buf (Pci.rdM (Pci.access dev p buf buf.length off true).mem off buf.length) := by
  rcases hp with ⟨h1, h2, h3⟩ | ⟨c, hc, hi⟩
  · exact header_holds hh h.bnd h1 h2 h3 h0 hok
  · exact cap_holds hd hh hcb h hc h0 hi hok

/-! ## Errors -/

theorem writePm_err {m : Pci.Mem} {c : Pci.Cap} {buf : List Byte} {count rel e : Nat}
    (h : (Pci.writePm m c buf count rel).2 = .err e) : Errno e := by
  unfold Pci.writePm at h
  split_ifs at h <;> (injection h with h; subst h; exact ⟨by decide, by decide⟩)

theorem writeMsi_err {m : Pci.Mem} {c : Pci.Cap} {buf : List Byte} {count rel e : Nat}
    (h : (Pci.writeMsi m c buf count rel).2 = .err e) : Errno e := by
  unfold Pci.writeMsi at h
  dsimp only at h
  split_ifs at h <;> (injection h with h; subst h; exact ⟨by decide, by decide⟩)

theorem writeMsix_err {m : Pci.Mem} {c : Pci.Cap} {buf : List Byte} {count rel e : Nat}
    (h : (Pci.writeMsix m c buf count rel).2 = .err e) : Errno e := by
  unfold Pci.writeMsix at h
  split_ifs at h

theorem hdrWrite_err {bar : Nat → Nat × Bool} {m : Pci.Mem} {buf : List Byte} {off e : Nat}
    (h : (Pci.hdrWrite bar m buf off).2 = .err e) : Errno e := by
  unfold Pci.hdrWrite Pci.commandWrite Pci.barWrite Pci.eromWrite at h
  dsimp only at h
  split_ifs at h <;> (injection h with h; subst h; exact ⟨by decide, by decide⟩)

section
variable {dev : Pci.Dev} (hcb : dev.cb = none) (hre : ∀ f, dev.reset = some f → ∀ m e, (f m).2 = .err e → Errno e)
include hre

theorem writePx_err {m : Pci.Mem} {c : Pci.Cap} {buf : List Byte} {count rel e : Nat}
    (h : (Pci.writePx dev m c buf count rel).2.1 = .err e) : Errno e := by
  unfold Pci.writePx at h
  by_cases h1 : count ≠ 2
  · rw [if_pos h1] at h; injection h with h; subst h; exact ⟨by decide, by decide⟩
  rw [if_neg h1] at h
  by_cases h2 : rel = 8
  · rw [if_pos h2] at h
    unfold Pci.writePxdc at h
    dsimp only at h
    generalize Pci.setFields m (Pci.wrM m (c.off + 8) (buf.take 2)) (c.off + 8) _ = m1 at h
    by_cases h3 : Pci.field (Pci.wrM m (c.off + 8) (buf.take 2)) (c.off + 8) 15 1 = 1
    · rw [if_pos h3] at h
      by_cases h4 : Pci.field m1 (c.off + 4) 28 1 = 0
      · rw [if_pos h4] at h; injection h with h; subst h; exact ⟨by decide, by decide⟩
      rw [if_neg h4] at h
      cases hr : dev.reset with
      | none => rw [hr] at h; cases h
      | some f =>
        rw [hr] at h
        dsimp only at h
        cases hf : (f m1).2 with
        | ok _ => rw [hf] at h; cases h
        | err e' =>
          rw [hf] at h
          injection h with h
          subst h
          exact hre f hr m1 e' hf
        | fault f => rw [hf] at h; cases h
    · rw [if_neg h3] at h; cases h
  rw [if_neg h2] at h
  split_ifs at h
  injection h with h
  subst h
  exact ⟨by decide, by decide⟩

theorem capWrite_err {alloc : Nat} {m : Pci.Mem} {c : Pci.Cap} {buf : List Byte} {count off e : Nat}
    (h : (Pci.capWrite dev alloc m c buf count off).2.1 = .err e) : Errno e := by
  unfold Pci.capWrite at h
  split_ifs at h
  all_goals first
    | (injection h with h; subst h; exact ⟨by decide, by decide⟩)
    | exact writePm_err h
    | exact writePx_err hre h
    | exact writeMsi_err h
    | exact writeMsix_err h

include hcb

theorem serve_err {p : Pci.Pci} {o : Pci.Owner} {m : Pci.Mem} {buf : List Byte} {count off e : Nat}
    (h : (Pci.serve dev p o m buf count off true).ret = .err e) : Errno e := by
  have hn : ∀ {e}, (Pci.nonstd dev p m buf count off true).ret = .err e → Errno e := by
    intro e h
    unfold Pci.nonstd at h
    rw [hcb] at h
    injection h with h; subst h; exact ⟨by decide, by decide⟩
  cases o with
  | hdr =>
    unfold Pci.serve Pci.hdrAccess at h
    dsimp only at h
    by_cases h1 : count > 64
    · rw [if_pos h1] at h; cases h
    rw [if_neg h1, if_pos rfl] at h
    cases hw : (Pci.hdrWrite p.bar m buf off).2 with
    | ok _ => rw [hw] at h; cases h
    | err e' => rw [hw] at h; injection h with h; subst h; exact hdrWrite_err hw
    | fault f => rw [hw] at h; cases h
  | cap =>
    unfold Pci.serve Pci.capAccess at h
    dsimp only at h
    cases hc : Pci.capFind p off count with
    | none => rw [hc] at h; cases h
    | some c =>
      rw [hc] at h
      dsimp only at h
      by_cases h1 : off < c.off ∨ count > c.size
      · rw [if_pos h1] at h; cases h
      rw [if_neg h1] at h
      by_cases h2 : true = true ∧ c.ro = true
      · rw [if_pos h2] at h; injection h with h; subst h; exact ⟨by decide, by decide⟩
      rw [if_neg h2] at h
      by_cases h3 : c.cbk = true
      · rw [if_pos h3] at h; exact hn h
      rw [if_neg h3, if_neg (by simp)] at h
      by_cases h4 : off - c.off < c.hdr
      · rw [if_pos h4] at h; injection h with h; subst h; exact ⟨by decide, by decide⟩
      rw [if_neg h4] at h
      exact capWrite_err hre h
  | dflt => exact hn h

theorem loop_err {p : Pci.Pci} {e : Nat} : ∀ (fuel : Nat) {m : Pci.Mem} {buf : List Byte} {count off done : Nat},
    (Pci.loop dev p true fuel m buf count off done).ret = .err e → Errno e := by
  intro fuel
  induction fuel with
  | zero =>
    intro m buf count off done h
    unfold Pci.loop at h
    dsimp only at h
    split_ifs at h
  | succ fuel ih =>
    intro m buf count off done h
    unfold Pci.loop at h
    by_cases h0 : count = 0
    · rw [if_pos h0] at h; cases h
    rw [if_neg h0] at h
    cases hn : Pci.nextSegment p count off true with
    | none => rw [hn] at h; cases h
    | some os =>
      obtain ⟨o, size⟩ := os
      rw [hn] at h
      dsimp only at h
      cases hs : (Pci.serve dev p o m buf size off true).ret with
      | err e' => rw [hs] at h; injection h with h; subst h; exact serve_err hcb hre hs
      | fault f => rw [hs] at h; cases h
      | ok n =>
        rw [hs] at h
        dsimp only at h
        by_cases h1 : n = 0
        · rw [if_pos h1] at h; cases h
        rw [if_neg h1] at h
        by_cases h2 : n > size
        · rw [if_pos h2] at h; cases h
        rw [if_neg h2] at h
        exact ih h

end

/-! ## From the write to the read -/

/-- A request that was not put off leaves no request pending. -/
theorem next_keeps {cfg : Cfg} {env : Env} {st : St} {m : Msg} (hn : Next cfg env st m) (good : Wire.In → Prop) :
    KeptGood good (call cfg st (.run env (.req m.hdr m.body m.fds))).st := by
  have h0 : KeptGood good st := fun m hm => by rw [hn.awaits.pending] at hm; cases hm
  simp only [call]
  unfold poll
  rw [if_neg (not_not_intro hn.awaits.pending), if_neg (by rw [hn.awaits.conn]; simp)]
  dsimp only
  unfold dispatch
  by_cases h1 : shouldExec st.mig m.hdr.cmd = false
  · rw [if_pos h1]; exact h0.keeps (refuse_keeps ..)
  rw [if_neg h1]
  by_cases h2 : needsQuiesce cfg st m = true
  · rw [if_pos h2]
    have hq : cfg.hasQuiesce = true := by
      unfold needsQuiesce at h2
      cases hc : cfg.hasQuiesce with
      | true => rfl
      | false => rw [hc] at h2; cases h2
    rw [hn.quiesce hq]
    exact KeptGood.keeps (st := { st with quiesced := true }) h0 (handleRequest_keeps cfg env 1 { st with quiesced := true } m)
  · rw [if_neg h2]; exact h0.keeps (handleRequest_keeps ..)

theorem answered_once {m : Msg} {e e' : Nat} {l l' : List Byte} {o : Out} (hno : m.hdr.noReply = false) (h : Answered m e l o)
    (h' : Answered m e' l' o) : e = 0 ↔ e' = 0 := by
  obtain ⟨w, h1, h2, _⟩ := h.2.2 hno
  obtain ⟨w', h1', h2', _⟩ := h'.2.2 hno
  rw [h1] at h1'
  injection h1' with e1
  subst e1
  have := h2.2.symm.trans h2'.2
  simp only [decide_eq_decide] at this
  exact not_iff_not.1 this

theorem pciDev_noCb {cfg : Cfg} (h : ∀ r, cfg.tbl[7]? = some r → r.hasCb = false) (env : Env) : (pciDev cfg env).cb = none := by
  unfold pciDev
  dsimp only
  rw [if_neg]
  cases h9 : cfg.tbl[Region.CFG_IDX]? with
  | none => simp
  | some r => simp [h r h9]

/-- Bytes that are not written to keep their values through any conversation. -/
theorem avoided {cfg : Cfg} (hs : ∀ r ∈ cfg.tbl, r.size < U32) {st : St} (hb : Pci.Bounded st.pci)
    (hr : ∀ r, cfg.tbl[7]? = some r → r.size ≤ st.pci.size ∧ r.hasCb = false) {off n : Nat} {ops : List Op}
    (hg : ∀ op ∈ ops, op.Good (Avoids off n)) (hk : KeptGood (Avoids off n) st)
    (hd : ∀ op ∈ ops, ∀ env, op.env? = some env → Steady cfg env)
    (hf : ∀ op ∈ ops, ∀ f, op = .config f → ∀ m a, off ≤ a → a < off + n → f m a = m a) :
    layout (run cfg st ops).1.pci = layout st.pci ∧
      ∀ a, off ≤ a → a < off + n → (run cfg st ops).1.pci.mem a = st.pci.mem a := by
  have H : Minds cfg (Steady cfg) (fun f => ∀ m a, (off ≤ a ∧ a < off + n) → f m a = m a) (Avoids off n)
      (fun s => layout s.pci = layout st.pci ∧ ∀ a, (off ≤ a ∧ a < off + n) → s.pci.mem a = st.pci.mem a) := by
    refine bytes_mind hs (fun r h => (hr r h).1) ?_
    intro env q m he hq hg w hw h7 buf hlen h0 hsz a ha
    have hbq := bounded_layout hq hb
    cases w with
    | false => rw [(Pci.C38_read (pciDev_noCb (fun r h => (hr r h).2) env) hbq buf hsz).2.2.1]
    | true =>
      have := hbq.small
      have hav := hg (hw rfl) h7
      exact Pci.C45_frame he.here he.honest hbq (fun _ => hlen) (by simp only [U64]; omega) (by omega)
  obtain ⟨h1, h2⟩ := H.run ops ⟨rfl, fun _ _ => rfl⟩ hk
    (fun op ho => ⟨hd op ho, fun f h m a ha => hf op ho f h m a ha.1 ha.2, hg op ho⟩)
  exact ⟨h1, fun a h3 h4 => h2 a ⟨h3, h4⟩⟩

/-- The device of this section: its config space was built by adding capabilities, and the library serves it alone; its
bytes may have been written to since. -/
structure Emulated (cfg : Cfg) (st : St) : Prop where
  tbl : TableOk cfg.tbl
  sizes : ∀ r ∈ cfg.tbl, r.size < U32
  built : ∃ p, Pci.Reach false p ∧ layout st.pci = layout p
  own : ∀ r, cfg.tbl[7]? = some r → r.size ≤ st.pci.size ∧ r.hasCb = false ∧ r.flags.testBit 3 = false

theorem Emulated.shape {cfg : Cfg} {st : St} (h : Emulated cfg st) : Shape st.pci := by
  obtain ⟨p, h1, h2⟩ := h.built
  exact shape_layout h2 (shape_reach h1)

theorem avoids_none (i : Wire.In) : Avoids 0 0 i := by
  cases i with
  | req hd body fds => exact fun _ _ => .inr (Nat.zero_le _)
  | _ => trivial

/-- It stays such a device through any conversation. -/
theorem Emulated.run {cfg : Cfg} {st : St} (h : Emulated cfg st) {ops : List Op}
    (hd : ∀ op ∈ ops, ∀ env, op.env? = some env → Steady cfg env) : Emulated cfg (run cfg st ops).1 := by
  obtain ⟨p, h1, h2⟩ := h.built
  have hl := (avoided h.sizes (st := st) h.shape.bnd (fun r hr => ⟨(h.own r hr).1, (h.own r hr).2.1⟩) (off := 0) (n := 0) (ops := ops)
    (fun op _ => by cases op <;> first | trivial | exact avoids_none _)
    (fun m _ => avoids_none _) hd (fun _ _ _ _ _ _ _ h => absurd h (Nat.not_lt_zero _))).1
  refine ⟨h.tbl, h.sizes, ⟨p, h1, hl.trans h2⟩, fun r hr => ?_⟩
  rw [layout_parts hl]
  exact h.own r hr

/-- A client writes to its config space, is told that all is well, and later reads the same bytes; in between nobody
writes to them. -/
structure Later (cfg : Cfg) (st : St) (env : Env) (m : Msg) (ops : List Op) (env' : Env) (m' : Msg) : Prop where
  next : Next cfg env st m
  cmd : m.hdr.cmd = 10
  region : leAt m.body 8 4 = 7
  bytes : leAt m.body 12 4 ≠ 0
  told : m.hdr.noReply = false
  ack : ∃ l, Answered m 0 l (call cfg st (.run env (.req m.hdr m.body m.fds)))
  steady : Steady cfg env
  refusal : ∀ e, env.resetCb .flr = some e → Errno e
  quiet : ∀ op ∈ ops, op.Good (Avoids (leAt m.body 0 8) (leAt m.body 12 4))
  envs : ∀ op ∈ ops, ∀ env, op.env? = some env → Steady cfg env
  device : ∀ op ∈ ops, ∀ f, op = .config f → ∀ x a, leAt m.body 0 8 ≤ a → a < leAt m.body 0 8 + leAt m.body 12 4 → f x a = x a
  next' : Next cfg env' (run cfg (call cfg st (.run env (.req m.hdr m.body m.fds))).st ops).1 m'
  cmd' : m'.hdr.cmd = 9
  body' : 16 ≤ m'.body.length
  region' : leAt m'.body 8 4 = 7
  off' : leAt m'.body 0 8 = leAt m.body 0 8
  count' : leAt m'.body 12 4 = leAt m.body 12 4
  state' : (run cfg (call cfg st (.run env (.req m.hdr m.body m.fds))).st ops).1.mig ≠ some 3

theorem last_write {cfg : Cfg} {st : St} (he : Emulated cfg st) {env : Env} {m : Msg} {ops : List Op} {env' : Env} {m' : Msg}
    (hl : Later cfg st env m ops env' m')
    (hin : Pci.OneReg (leAt m.body 0 8) (leAt m.body 12 4) ∨ ∃ c ∈ st.pci.all, Pci.Inside c (leAt m.body 0 8) (leAt m.body 12 4)) :
    (m.body.drop 16).length = leAt m.body 12 4 ∧
    (Pci.access (pciDev cfg env) st.pci (m.body.drop 16) (leAt m.body 12 4) (leAt m.body 0 8) true).ret = .ok (leAt m.body 12 4) ∧
    Answered m' 0 (m'.body.take 16 ++ Pci.rdM
        (Pci.access (pciDev cfg env) st.pci (m.body.drop 16) (leAt m.body 12 4) (leAt m.body 0 8) true).mem (leAt m.body 0 8) (leAt m.body 12 4))
      (call cfg (run cfg (call cfg st (.run env (.req m.hdr m.body m.fds))).st ops).1 (.run env' (.req m'.hdr m'.body m'.fds))) := by
  have hp := he.shape
  obtain ⟨ht, hs, _, hr⟩ := he
  obtain ⟨l, hack⟩ := hl.ack
  have hdec : decide (m.hdr.cmd = 10) = true := by rw [hl.cmd]; rfl
  have hdec' : decide (m'.hdr.cmd = 10) = false := by rw [hl.cmd']; rfl
  -- the write was valid
  have hv : ∃ r, Region.AccessOk cfg.tbl (decide (st.mig = some 3)) true m.body r := by
    by_contra hne
    obtain ⟨hans, _⟩ := C73_refused ht hs hl.next (.inr hl.cmd) (by rw [hdec]; exact hne)
    exact absurd ((answered_once hl.told hack hans).1 rfl) (by decide)
  obtain ⟨r, hok⟩ := hv
  have hr7 := hr r (by rw [← hl.region]; exact hok.region)
  have hlen : (m.body.drop 16).length = leAt m.body 12 4 := by
    have := hok.payload rfl
    rw [List.length_drop]; omega
  have hgiven : given m = m.body.drop 16 := by unfold given; rw [if_pos hl.cmd]
  have hnf : (Pci.access (pciDev cfg env) st.pci (m.body.drop 16) (leAt m.body 12 4) (leAt m.body 0 8) true).ret.isFault = false := by
    cases hret : (Pci.access (pciDev cfg env) st.pci (m.body.drop 16) (leAt m.body 12 4) (leAt m.body 0 8) true).ret with
    | fault f =>
      exact absurd hret (Pci.C45_contained hl.steady.honest hp.bnd hp.sized hp.disj
        (Nat.pos_of_ne_zero hl.bytes) hlen hin f)
    | ok n => rfl
    | err e => rfl
  have hw := C73_config ht hs hl.next (.inr hl.cmd) (r := r) (by rw [hdec]; exact hok) hl.bytes hl.region hr7.2.2
    (by rw [hdec, hgiven]; exact hnf)
  rw [hdec, hgiven] at hw
  obtain ⟨⟨_, hs2, hs3⟩, _, hpci, _⟩ := hw
  generalize hacc : Pci.access (pciDev cfg env) st.pci (m.body.drop 16) (leAt m.body 12 4) (leAt m.body 0 8) true = acc at *
  have hret : acc.ret = .ok (leAt m.body 12 4) := by
    cases hret : acc.ret with
    | ok n =>
      by_cases hne : n = leAt m.body 12 4
      · rw [hne]
      · obtain ⟨l', h'⟩ := hs2 n hret hne
        exact absurd ((answered_once hl.told hack h').1 rfl) (by decide)
    | err e =>
      have he : Errno e := by
        refine loop_err (pciDev_noCb (fun r h => (hr r h).2.1) env) ?_ _ (by rw [← hacc] at hret; exact hret)
        intro f hf m e h
        unfold pciDev at hf
        dsimp only at hf
        by_cases hx : cfg.hasReset = true
        · rw [if_pos hx] at hf
          injection hf with hf
          subst hf
          dsimp only at h
          cases hc : env.resetCb .flr with
          | none => rw [hc] at h; cases h
          | some e' => rw [hc] at h; injection h with h; subst h; exact hl.refusal e' hc
        · rw [if_neg hx] at hf; cases hf
      obtain ⟨l', h'⟩ := hs3 e hret he.2
      exact absurd ((answered_once hl.told hack h').1 rfl) (by have := he.1; omega)
    | fault f => rw [hret] at hnf; cases hnf
  refine ⟨hlen, hret, ?_⟩
  -- and nothing happened to the bytes since
  have hav := avoided hs (st := (call cfg st (.run env (.req m.hdr m.body m.fds))).st) (by rw [hpci]; exact bounded_layout (p := st.pci) rfl hp.bnd)
    (fun r h => by rw [hpci]; exact ⟨(hr r h).1, (hr r h).2.1⟩) hl.quiet (next_keeps hl.next _) hl.envs hl.device
  rw [hpci] at hav
  have hlay : layout (run cfg (call cfg st (.run env (.req m.hdr m.body m.fds))).st ops).1.pci = layout st.pci := hav.1
  have hmem := hav.2
  have hnext' := hl.next'
  have hst' := hl.state'
  generalize (run cfg (call cfg st (.run env (.req m.hdr m.body m.fds))).st ops).1 = st' at hlay hmem hnext' hst' ⊢
  have hsz : st'.pci.size = st.pci.size := by rw [layout_parts hlay]
  have hrd := Pci.C38_read (pciDev_noCb (fun r h => (hr r h).2.1) env') (bounded_layout hlay hp.bnd) (given m')
    (count := leAt m'.body 12 4) (off := leAt m'.body 0 8)
    (by rw [hsz, hl.off', hl.count']; have := hok.bound; have := hr7.1; omega)
  have h := C73_config ht hs hnext' (.inl hl.cmd') (r := r)
    (by
      rw [hdec', decide_eq_false hst']
      refine ⟨hl.body', by rw [hl.count']; exact hok.count, (fun h => by cases h), ?_, by rw [hl.off', hl.count']; exact hok.bound, rfl⟩
      rw [hl.region', ← hl.region]; exact hok.region)
    (by rw [hl.count']; exact hl.bytes) hl.region' hr7.2.2 (by rw [hdec', hrd.1]; rfl)
  rw [hdec'] at h
  have h9 := h.1.1 hrd.1 (fun _ => by rw [hrd.2.1, Pci.rdM_length])
  rw [hrd.2.1] at h9
  unfold accessReply at h9
  rw [if_neg (by rw [hl.cmd']; decide), hl.off', hl.count'] at h9
  rwa [Pci.rdM_congr hmem] at h9

theorem Later.device' {cfg : Cfg} {st : St} (he : Emulated cfg st) (env : Env) : (pciDev cfg env).cb = none :=
  pciDev_noCb (fun r h => (he.own r h).2.1) env

/-- **C90.** A register of the header, or bytes inside one capability: once a write is acknowledged, reads are answered
with the bits written where they belong to the client, and with what was there before where they do not, whatever
happened since, resets and other clients included. -/
theorem C90_holds {cfg : Cfg} {st : St} (he : Emulated cfg st) {env : Env} {m : Msg} {ops : List Op} {env' : Env} {m' : Msg}
    (hl : Later cfg st env m ops env' m') (hp : Plainly st.pci (leAt m.body 0 8) (leAt m.body 12 4)) :
    ∃ new, Holds st.pci (leAt m.body 0 8) (Pci.rdM st.pci.mem (leAt m.body 0 8) (leAt m.body 12 4)) (m.body.drop 16) new ∧
    Answered m' 0 (m'.body.take 16 ++ new)
      (call cfg (run cfg (call cfg st (.run env (.req m.hdr m.body m.fds))).st ops).1 (.run env' (.req m'.hdr m'.body m'.fds))) := by
  obtain ⟨h1, h2, h3⟩ := last_write he hl (hp.imp (fun h => h.1) id)
  refine ⟨_, ?_, h3⟩
  rw [← h1] at h2 hp ⊢
  exact access_holds hl.steady.here hl.steady.honest (Later.device' he env) he.shape (by rw [h1]; exact Nat.pos_of_ne_zero hl.bytes) hp h2

/-- **C90.** A base address register: reads are answered with the address written and the type bits, after all ones with
the size of the region and the type bits; registers without a region do not change. -/
theorem C90_bar {cfg : Cfg} {st : St} (he : Emulated cfg st) {env : Env} {m : Msg} {ops : List Op} {env' : Env} {m' : Msg}
    (hl : Later cfg st env m ops env' m') {i : Nat} (hi : i < 6) (hoff : leAt m.body 0 8 = 0x10 + 4 * i) (hc : leAt m.body 12 4 = 4)
    (hsz : (st.pci.bar i).1 < U32) :
    Answered m' 0 (m'.body.take 16 ++ enc 4
        (if (st.pci.bar i).1 = 0 then Pci.reg32 st.pci.mem (0x10 + 4 * i)
         else (if leAt m.body 16 4 = 2 ^ 32 - 1 then 2 ^ 32 - (st.pci.bar i).1 else leAt m.body 16 4) |||
           Pci.reg32 st.pci.mem (0x10 + 4 * i) % 2 ^ Pci.typeBits (st.pci.bar i).2))
      (call cfg (run cfg (call cfg st (.run env (.req m.hdr m.body m.fds))).st ops).1 (.run env' (.req m'.hdr m'.body m'.fds))) := by
  have hone : Pci.OneReg (leAt m.body 0 8) (leAt m.body 12 4) := by
    rw [hoff, hc]
    refine ⟨by omega, ?_⟩
    have : ∀ j : Fin 6, 4 = Pci.regSize (0x10 + 4 * j.val) := by decide
    exact this ⟨i, hi⟩
  obtain ⟨h1, _, h3⟩ := last_write he hl (.inl hone)
  rw [hoff, hc] at h3
  rw [hc] at h1
  have hb : m.body.drop 16 = enc 4 (leAt m.body 16 4) := by
    have := enc_leAt m.body 4 16 (by rw [List.length_drop] at h1; omega)
    rw [this, List.take_of_length_le (by omega)]
  have e : ∀ x : Pci.Mem, Pci.rdM x (0x10 + 4 * i) 4 = enc 4 (Pci.reg32 x (0x10 + 4 * i)) := by
    intro x
    unfold Pci.reg32
    rw [enc_leAt _ 4 0 (by rw [Pci.rdM_length]), List.drop_zero, List.take_of_length_le (by rw [Pci.rdM_length])]
  rw [e] at h3
  by_cases h0 : (st.pci.bar i).1 = 0
  · rw [if_pos h0]
    rwa [(Pci.C42_upper hl.steady.honest hi h0 h1).2] at h3
  · rw [if_neg h0]
    rw [hb, Pci.bar_value hl.steady.honest (leAt_lt m.body 4 16) hi h0 hsz] at h3
    exact h3

/-- **C90.** The expansion ROM register: zero clears it; the other values that are accepted leave it as it was. -/
theorem C90_rom {cfg : Cfg} {st : St} (he : Emulated cfg st) {env : Env} {m : Msg} {ops : List Op} {env' : Env} {m' : Msg}
    (hl : Later cfg st env m ops env' m') (hoff : leAt m.body 0 8 = 0x30) (hc : leAt m.body 12 4 = 4) :
    Answered m' 0 (m'.body.take 16 ++ (if leAt m.body 16 4 = 0 then List.replicate 4 0#8 else Pci.rdM st.pci.mem 0x30 4))
      (call cfg (run cfg (call cfg st (.run env (.req m.hdr m.body m.fds))).st ops).1 (.run env' (.req m'.hdr m'.body m'.fds))) := by
  obtain ⟨h1, _, h3⟩ := last_write he hl (.inl (by rw [hoff, hc]; exact ⟨by decide, rfl⟩))
  rw [hoff, hc] at h3
  rw [hc] at h1
  have hb : m.body.drop 16 = enc 4 (leAt m.body 16 4) := by
    have := enc_leAt m.body 4 16 (by rw [List.length_drop] at h1; omega)
    rw [this, List.take_of_length_le (by omega)]
  have hm := (Pci.C46_rom hl.steady.honest st.pci (leAt_lt m.body 4 16)).2.2
  rw [← hb] at hm
  by_cases h0 : leAt m.body 16 4 = 0
  · rw [if_pos h0]
    have : Pci.rdM (Pci.access (pciDev cfg env) st.pci (m.body.drop 16) 4 0x30 true).mem 0x30 4 = List.replicate 4 0#8 := by
      refine List.ext_getElem (by rw [Pci.rdM_length, List.length_replicate]) (fun j hj _ => ?_)
      rw [Pci.rdM_length] at hj
      rw [Pci.rdM_getElem, hm, if_pos ⟨h0, by omega, by omega⟩, List.getElem_replicate]
    rwa [this] at h3
  · rw [if_neg h0]
    rwa [Pci.rdM_congr (fun a _ _ => (hm a).trans (if_neg (fun h => h0 h.1)))] at h3

section
open Demo

/-- A request to write to the config space, and one to read it. -/
def store (off : Nat) (bs : List Byte) : Msg :=
  ⟨hdr 5 10 0 (enc 8 off ++ enc 4 7 ++ enc 4 bs.length ++ bs).length, enc 8 off ++ enc 4 7 ++ enc 4 bs.length ++ bs, []⟩
def fetch (off n : Nat) : Msg := ⟨hdr 7 9 0 16, enc 8 off ++ enc 4 7 ++ enc 4 n, []⟩

def greeted : St := (run dev withCards [hello]).1

/-- In between: a write to another register, a device reset, the client goes, another one comes. -/
def meantime : List Op :=
  [poke 0x3c [9], .run env (req 6 13 0 [] []), .run env (.lost ENOTCONN []), hello]

theorem greeted_emulated : Emulated dev greeted :=
  Emulated.run (st := withCards) ⟨dev_table.1, dev_table.2, ⟨cards, cards_reach, rfl⟩, by decide +kernel⟩
    (fun op ho env he => by simp only [List.mem_cons, List.not_mem_nil, or_false] at ho; subst ho; cases he)

theorem meantime_env : ∀ op ∈ meantime, ∀ e, op.env? = some e → Steady dev e := by
  intro op ho e he
  have : e = env := by
    simp only [meantime, List.mem_cons, List.not_mem_nil, or_false] at ho
    rcases ho with rfl | rfl | rfl | rfl <;> first | (cases he; done) | (injection he with he; exact he.symm)
  rw [this]
  exact env_steady

theorem meantime_config : ∀ op ∈ meantime, ∀ f, op ≠ .config f := by
  intro op ho f
  simp only [meantime, List.mem_cons, List.not_mem_nil, or_false] at ho
  rcases ho with rfl | rfl | rfl | rfl <;> exact fun h => by cases h

def vend : Msg := store 0x44 [1#8, 2#8, 3#8]
def ones : Msg := store 0x10 (List.replicate 4 0xff#8)
def afterVend : St := (call dev greeted (.run env (.req vend.hdr vend.body vend.fds))).st
def afterOnes : St := (call dev greeted (.run env (.req ones.hdr ones.body ones.fds))).st
def laterVend : St := (run dev afterVend meantime).1
def laterOnes : St := (run dev afterOnes meantime).1

theorem later_vend : Later dev greeted env vend meantime env (fetch 0x44 3) := by
  have hn : Next dev env greeted vend := next_req env_fair rfl rfl ⟨by decide +kernel, by decide +kernel⟩ (by decide +kernel) 5 10
    vend.body [] (by decide) (by decide) (by decide) (by decide) (by simp)
  have hm : greeted.mig = some 2 := by decide +kernel
  have hm' : laterVend.mig = some 2 := by decide +kernel
  have h := C73_config dev_table.1 dev_table.2 hn (.inr rfl) (r := { Region.Reg.blank with flags := 3, size := 256 })
    (by rw [hm]; exact ⟨by decide, by decide, by decide, by decide, by decide, by decide⟩) (by decide) (by decide) (by decide)
    (by decide +kernel)
  refine ⟨hn, rfl, by decide, by decide, rfl, ⟨_, h.1.1 (by decide +kernel) (fun h => absurd h (by decide))⟩, env_steady,
    (fun e h => by cases h), ?_, meantime_env, (fun op ho f h => absurd h (meantime_config op ho f)),
    (next_req env_fair rfl rfl (st := laterVend) ⟨by decide +kernel, by decide +kernel⟩ hm' 7 9 (fetch 0x44 3).body [] (by decide) (by decide) (by decide)
      (by decide) (by simp)), rfl, by decide, by decide, by decide, by decide, ?_⟩
  · intro op ho
    simp only [meantime, List.mem_cons, List.not_mem_nil, or_false] at ho
    rcases ho with rfl | rfl | rfl | rfl
    · exact fun _ _ => by decide
    · exact fun h => absurd h (by decide)
    · trivial
    · trivial
  · show laterVend.mig ≠ some 3
    rw [hm']
    decide

theorem later_ones : Later dev greeted env ones meantime env (fetch 0x10 4) := by
  have hn : Next dev env greeted ones := next_req env_fair rfl rfl ⟨by decide +kernel, by decide +kernel⟩ (by decide +kernel) 5 10
    ones.body [] (by decide) (by decide) (by decide) (by decide) (by simp)
  have hm : greeted.mig = some 2 := by decide +kernel
  have hm' : laterOnes.mig = some 2 := by decide +kernel
  have h := C73_config dev_table.1 dev_table.2 hn (.inr rfl) (r := { Region.Reg.blank with flags := 3, size := 256 })
    (by rw [hm]; exact ⟨by decide, by decide, by decide, by decide, by decide, by decide⟩) (by decide) (by decide) (by decide)
    (by decide +kernel)
  refine ⟨hn, rfl, by decide, by decide, rfl, ⟨_, h.1.1 (by decide +kernel) (fun h => absurd h (by decide))⟩, env_steady,
    (fun e h => by cases h), ?_, meantime_env, (fun op ho f h => absurd h (meantime_config op ho f)),
    (next_req env_fair rfl rfl (st := laterOnes) ⟨by decide +kernel, by decide +kernel⟩ hm' 7 9 (fetch 0x10 4).body [] (by decide) (by decide) (by decide)
      (by decide) (by simp)), rfl, by decide, by decide, by decide, by decide, ?_⟩
  · intro op ho
    simp only [meantime, List.mem_cons, List.not_mem_nil, or_false] at ho
    rcases ho with rfl | rfl | rfl | rfl
    · exact fun _ _ => by decide
    · exact fun h => absurd h (by decide)
    · trivial
    · trivial
  · show laterOnes.mig ≠ some 3
    rw [hm']
    decide

/-- The device has put an address into its expansion ROM register. -/
def romSet : St := (run dev withCards [.config (fun m => Pci.wrM m 0x30 (enc 4 0xfe000001)), hello]).1
def zeros : Msg := store 0x30 (List.replicate 4 0#8)
def afterZeros : St := (call dev romSet (.run env (.req zeros.hdr zeros.body zeros.fds))).st
def laterZeros : St := (run dev afterZeros meantime).1

theorem romSet_emulated : Emulated dev romSet :=
  Emulated.run (st := withCards) ⟨dev_table.1, dev_table.2, ⟨cards, cards_reach, rfl⟩, by decide +kernel⟩
    (fun op ho env he => by
      simp only [List.mem_cons, List.not_mem_nil, or_false] at ho
      rcases ho with rfl | rfl <;> cases he)

theorem later_zeros : Later dev romSet env zeros meantime env (fetch 0x30 4) := by
  have hn : Next dev env romSet zeros := next_req env_fair rfl rfl ⟨by decide +kernel, by decide +kernel⟩ (by decide +kernel) 5 10
    zeros.body [] (by decide) (by decide) (by decide) (by decide) (by simp)
  have hm : romSet.mig = some 2 := by decide +kernel
  have hm' : laterZeros.mig = some 2 := by decide +kernel
  have h := C73_config dev_table.1 dev_table.2 hn (.inr rfl) (r := { Region.Reg.blank with flags := 3, size := 256 })
    (by rw [hm]; exact ⟨by decide, by decide, by decide, by decide, by decide, by decide⟩) (by decide) (by decide) (by decide)
    (by decide +kernel)
  refine ⟨hn, rfl, by decide, by decide, rfl, ⟨_, h.1.1 (by decide +kernel) (fun h => absurd h (by decide))⟩, env_steady,
    (fun e h => by cases h), ?_, meantime_env, (fun op ho f h => absurd h (meantime_config op ho f)),
    (next_req env_fair rfl rfl (st := laterZeros) ⟨by decide +kernel, by decide +kernel⟩ hm' 7 9 (fetch 0x30 4).body [] (by decide) (by decide) (by decide)
      (by decide) (by simp)), rfl, by decide, by decide, by decide, by decide, ?_⟩
  · intro op ho
    simp only [meantime, List.mem_cons, List.not_mem_nil, or_false] at ho
    rcases ho with rfl | rfl | rfl | rfl
    · exact fun _ _ => by decide
    · exact fun h => absurd h (by decide)
    · trivial
    · trivial
  · show laterZeros.mig ≠ some 3
    rw [hm']
    decide

-- after a reset the next client reads what the previous one wrote to the vendor capability
example : ∃ new, Holds greeted.pci 0x44 (Pci.rdM greeted.pci.mem 0x44 3) [1#8, 2#8, 3#8] new ∧
    Answered (fetch 0x44 3) 0 ((fetch 0x44 3).body ++ new)
      (call dev laterVend (.run env (.req (fetch 0x44 3).hdr (fetch 0x44 3).body []))) :=
  C90_holds greeted_emulated later_vend
    (.inr ⟨⟨false, 9, 0x40, 3, 8, false, false⟩, by decide +kernel, by unfold Pci.Inside; decide +kernel⟩)

-- the size of BAR 0, 8 KiB, still stands in the register
example : Answered (fetch 0x10 4) 0 ((fetch 0x10 4).body ++ enc 4 0xffffe000)
    (call dev laterOnes (.run env (.req (fetch 0x10 4).hdr (fetch 0x10 4).body []))) := by
  have h := C90_bar greeted_emulated later_ones (i := 0) (by decide) (by decide) (by decide) (by decide +kernel)
  rw [show (if (greeted.pci.bar 0).1 = 0 then Pci.reg32 greeted.pci.mem (0x10 + 4 * 0)
         else (if leAt ones.body 16 4 = 2 ^ 32 - 1 then 2 ^ 32 - (greeted.pci.bar 0).1 else leAt ones.body 16 4) |||
           Pci.reg32 greeted.pci.mem (0x10 + 4 * 0) % 2 ^ Pci.typeBits (greeted.pci.bar 0).2) = 0xffffe000 from by decide +kernel] at h
  exact h

-- the expansion ROM register has been cleared
example : Pci.rdM romSet.pci.mem 0x30 4 = enc 4 0xfe000001 ∧
    Answered (fetch 0x30 4) 0 ((fetch 0x30 4).body ++ List.replicate 4 0#8)
      (call dev laterZeros (.run env (.req (fetch 0x30 4).hdr (fetch 0x30 4).body []))) :=
  ⟨by decide +kernel, C90_rom romSet_emulated later_zeros (by decide) (by decide)⟩

end

end Verif.Server
