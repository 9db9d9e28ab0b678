import Verif.Pci.Writes

/-! # Registers: BARs (C42), command (C43), capabilities (C44, C66) -/

namespace Verif.Pci
open Verif

theorem leAt_testBit (bs : List Byte) (n : Nat) : ∀ off k,
    (leAt bs off n).testBit k = (decide (k < 8 * n) && (bs.getD (off + k / 8) 0#8).getLsbD (k % 8)) := by
  induction n with
  | zero => intro off k; simp [leAt]
  | succ n ih =>
    intro off k
    simp only [leAt]
    rw [Nat.add_comm, show (256 : Nat) = 2 ^ 8 from rfl, Nat.testBit_two_pow_mul_add _ (bs.getD off 0#8).isLt]
    by_cases hk : k < 8
    · rw [if_pos hk, Nat.div_eq_of_lt hk, Nat.mod_eq_of_lt hk, Nat.add_zero]
      simp only [show k < 8 * (n + 1) by omega, decide_true, Bool.true_and]
      rfl
    · rw [if_neg hk, ih]
      have h1 : off + 1 + (k - 8) / 8 = off + k / 8 := by omega
      have h2 : (k - 8) % 8 = k % 8 := by omega
      rw [h1, h2]
      congr 1
      simp only [decide_eq_decide]
      omega

theorem rdM_wrM (m : Mem) (off : Nat) (bs : List Byte) : rdM (wrM m off bs) off bs.length = bs := by
  apply List.ext_getElem
  · rw [rdM_length]
  · intro i h1 h2
    rw [rdM_getElem, wrM_in (by omega) (by omega), show off + i - off = i by omega]
    rw [List.getD_eq_getElem?_getD, List.getElem?_eq_getElem h2]
    rfl

/-- The 32-bit register at `a`. -/
def reg32 (m : Mem) (a : Nat) : Nat := leAt (rdM m a 4) 0 4
/-- The 16-bit register at `a`. -/
def reg16 (m : Mem) (a : Nat) : Nat := leAt (rdM m a 2) 0 2

theorem reg32_wr (m : Mem) (a v : Nat) : reg32 (wrM m a (enc 4 v)) a = v % U32 := by
  unfold reg32
  have := rdM_wrM m a (enc 4 v)
  rw [enc_length] at this
  rw [this, leAt_enc]
  rfl

theorem or_low {a t k : Nat} (ht : t < 2 ^ k) (ha : a % 2 ^ k = 0) : a ||| t = a + t := by
  have h := Nat.two_pow_add_eq_or_of_lt ht (a / 2 ^ k)
  have e : 2 ^ k * (a / 2 ^ k) = a := by
    have := Nat.div_add_mod a (2 ^ k)
    omega
  rw [e] at h
  exact h.symm

/-! ## C42 -/

/-- The type bits of a BAR: four of a memory BAR, two of an I/O BAR. -/
def typeBits (mem : Bool) : Nat := if mem then 4 else 2

theorem bar_access {dev : Dev} (hh : Honest dev) {p : Pci} {buf : List Byte} (hl : buf.length = 4) {i : Nat} (hi : i < 6) :
    (access dev p buf 4 (0x10 + 4 * i) true).ret = .ok 4 ∧
    (access dev p buf 4 (0x10 + 4 * i) true).mem = (barWrite p.bar p.mem buf i).1 ∧
    (access dev p buf 4 (0x10 + 4 * i) true).evs = [] := by
  have hr : regSize (0x10 + 4 * i) = 4 := by
    have : ∀ j : Fin 6, regSize (0x10 + 4 * j.val) = 4 := by decide
    exact this ⟨i, hi⟩
  have hs : nextSegment p 4 (0x10 + 4 * i) true = some (.hdr, 4) := by
    unfold nextSegment
    rw [if_pos (by omega)]
    simp only [if_true]
    rw [if_neg (by omega), hr]
    rfl
  obtain ⟨h1, h2, h3, _⟩ := access_one hh (by omega) (fun _ => hl) hs
  have hw : hdrWrite p.bar p.mem buf (0x10 + 4 * i) = barWrite p.bar p.mem buf i := by
    unfold hdrWrite
    rw [if_neg (by omega), if_neg (by omega), if_neg (by omega), if_pos (by omega)]
    congr 1
    omega
  have hok : (barWrite p.bar p.mem buf i).2 = .ok () := by
    unfold barWrite
    split
    · rfl
    · rw [if_neg (by omega)]
  have hsv : serve dev p .hdr p.mem buf 4 (0x10 + 4 * i) true = SegOut.mk (barWrite p.bar p.mem buf i).1 [] (.ok 4) [] := by
    simp only [serve, hdrAccess]
    rw [if_neg (by omega)]
    simp only [if_true]
    rw [hw, hok]
  rw [h1, h2, h3, hsv]
  exact ⟨rfl, rfl, rfl⟩

/-- What a 4-byte write leaves in a BAR: the data, or minus the size for all ones, with the type bits or-ed in. -/
theorem bar_value {dev : Dev} (hh : Honest dev) {p : Pci} {v : Nat} (hv : v < U32) {i : Nat} (hi : i < 6)
    (hs : (p.bar i).1 ≠ 0) (hs' : (p.bar i).1 < U32) :
    reg32 (access dev p (enc 4 v) 4 (0x10 + 4 * i) true).mem (0x10 + 4 * i) =
      (if v = 0xffffffff then U32 - (p.bar i).1 else v) |||
        (reg32 p.mem (0x10 + 4 * i) % 2 ^ typeBits (p.bar i).2) := by
  rw [(bar_access hh (enc_length 4 v) hi).2.1]
  have hle : leAt (enc 4 v) 0 4 = v := by rw [leAt_enc]; exact Nat.mod_eq_of_lt hv
  unfold barWrite
  rw [if_neg hs, if_neg (by rw [enc_length]; omega)]
  dsimp only
  rw [hle, reg32_wr]
  have hkeep : (if (p.bar i).2 = true then leAt (rdM p.mem (0x10 + 4 * i) 4) 0 4 &&& 0xf
      else leAt (rdM p.mem (0x10 + 4 * i) 4) 0 4 &&& 0x3) = reg32 p.mem (0x10 + 4 * i) % 2 ^ typeBits (p.bar i).2 := by
    unfold typeBits reg32
    by_cases h : (p.bar i).2 = true
    · rw [if_pos h, if_pos h]; exact Nat.and_two_pow_sub_one_eq_mod _ 4
    · rw [if_neg h, if_neg h]; exact Nat.and_two_pow_sub_one_eq_mod _ 2
  rw [hkeep]
  have hneg : (U32 - (p.bar i).1) % U32 = U32 - (p.bar i).1 := Nat.mod_eq_of_lt (by omega)
  rw [hneg]
  have hlt : reg32 p.mem (0x10 + 4 * i) % 2 ^ typeBits (p.bar i).2 < 2 ^ 32 := by
    refine Nat.lt_of_lt_of_le (Nat.mod_lt _ (Nat.two_pow_pos _)) (Nat.pow_le_pow_right (by omega) ?_)
    unfold typeBits; split <;> omega
  apply Nat.mod_eq_of_lt
  change _ < 2 ^ 32
  apply Nat.or_lt_two_pow _ hlt
  have : U32 = 2 ^ 32 := rfl
  split <;> omega

/-- Sizing: for every region size that is a multiple of the BAR's granularity (in particular a power of two), writing
all ones makes the BAR read back as `~(size - 1)` with its type bits, from which the driver computes the size. -/
theorem C42_sizing {dev : Dev} (hh : Honest dev) {p : Pci} {i : Nat} (hi : i < 6) (hs : (p.bar i).1 ≠ 0)
    (hs' : (p.bar i).1 < U32) (hal : (p.bar i).1 % 2 ^ typeBits (p.bar i).2 = 0) :
    (access dev p (enc 4 0xffffffff) 4 (0x10 + 4 * i) true).ret = .ok 4 ∧
    (let v := reg32 (access dev p (enc 4 0xffffffff) 4 (0x10 + 4 * i) true).mem (0x10 + 4 * i)
     v = U32 - (p.bar i).1 + reg32 p.mem (0x10 + 4 * i) % 2 ^ typeBits (p.bar i).2 ∧
     U32 - v / 2 ^ typeBits (p.bar i).2 * 2 ^ typeBits (p.bar i).2 = (p.bar i).1 ∧
     v % 2 ^ typeBits (p.bar i).2 = reg32 p.mem (0x10 + 4 * i) % 2 ^ typeBits (p.bar i).2) := by
  refine ⟨(bar_access hh (enc_length 4 _) hi).1, ?_⟩
  dsimp only
  rw [bar_value hh (by decide) hi hs hs', if_pos rfl]
  have ht := Nat.mod_lt (reg32 p.mem (0x10 + 4 * i)) (Nat.two_pow_pos (typeBits (p.bar i).2))
  have hu : (U32 - (p.bar i).1) % 2 ^ typeBits (p.bar i).2 = 0 := by
    have : typeBits (p.bar i).2 = 4 ∨ typeBits (p.bar i).2 = 2 := by unfold typeBits; split <;> simp
    have hu32 : U32 = 4294967296 := rfl
    rcases this with h | h <;> rw [h] at hal ⊢ <;> omega
  rw [or_low ht hu]
  refine ⟨rfl, ?_, ?_⟩
  · have : typeBits (p.bar i).2 = 4 ∨ typeBits (p.bar i).2 = 2 := by unfold typeBits; split <;> simp
    have hu32 : U32 = 4294967296 := rfl
    rcases this with h | h <;> rw [h] at hal hu ht ⊢ <;> omega
  · rw [Nat.add_mod, hu, Nat.zero_add, Nat.mod_mod, Nat.mod_mod]

/-- Programming: an address with the type bits clear is stored as it is, beside the type bits. -/
theorem C42_program {dev : Dev} (hh : Honest dev) {p : Pci} {i : Nat} (hi : i < 6) (hs : (p.bar i).1 ≠ 0)
    (hs' : (p.bar i).1 < U32) {addr : Nat} (ha : addr < U32) (hal : addr % 2 ^ typeBits (p.bar i).2 = 0) :
    (access dev p (enc 4 addr) 4 (0x10 + 4 * i) true).ret = .ok 4 ∧
    reg32 (access dev p (enc 4 addr) 4 (0x10 + 4 * i) true).mem (0x10 + 4 * i) =
      addr + reg32 p.mem (0x10 + 4 * i) % 2 ^ typeBits (p.bar i).2 := by
  refine ⟨(bar_access hh (enc_length 4 _) hi).1, ?_⟩
  have hne : addr ≠ 0xffffffff := by
    intro h; subst h
    revert hal
    cases (p.bar i).2 <;> decide
  rw [bar_value hh ha hi hs hs', if_neg hne]
  exact or_low (Nat.mod_lt _ (Nat.two_pow_pos _)) hal

/-- Writing back the value read before sizing restores it, type bits included. -/
theorem C42_restore {dev : Dev} (hh : Honest dev) {p : Pci} {i : Nat} (hi : i < 6) (hs : (p.bar i).1 ≠ 0)
    (hs' : (p.bar i).1 < U32) (hal : (p.bar i).1 % 2 ^ typeBits (p.bar i).2 = 0)
    (hne : reg32 p.mem (0x10 + 4 * i) ≠ 0xffffffff) :
    let p' := p.after dev ⟨enc 4 0xffffffff, 4, 0x10 + 4 * i, true⟩
    reg32 (access dev p' (enc 4 (reg32 p.mem (0x10 + 4 * i))) 4 (0x10 + 4 * i) true).mem (0x10 + 4 * i) =
      reg32 p.mem (0x10 + 4 * i) := by
  dsimp only
  have hlt : reg32 p.mem (0x10 + 4 * i) < U32 := leAt_lt _ 4 0
  have hv := bar_value (p := p.after dev ⟨enc 4 0xffffffff, 4, 0x10 + 4 * i, true⟩) hh hlt hi hs hs'
  rw [hv, if_neg hne]
  have h2 := (C42_sizing hh hi hs hs' hal).2.2.2
  dsimp only [Pci.after] at h2 ⊢
  rw [h2]
  generalize reg32 p.mem (0x10 + 4 * i) = r
  apply Nat.eq_of_testBit_eq
  intro k
  rw [Nat.testBit_or, Nat.testBit_mod_two_pow]
  cases r.testBit k <;> simp

/-- A BAR without a region, such as the upper half of a 64-bit BAR, ignores writes: its address cannot be programmed. -/
theorem C42_upper {dev : Dev} (hh : Honest dev) {p : Pci} {i : Nat} (hi : i < 6) (hs : (p.bar i).1 = 0) {buf : List Byte}
    (hl : buf.length = 4) :
    (access dev p buf 4 (0x10 + 4 * i) true).ret = .ok 4 ∧ (access dev p buf 4 (0x10 + 4 * i) true).mem = p.mem := by
  obtain ⟨h1, h2, _⟩ := bar_access (p := p) hh hl hi
  refine ⟨h1, ?_⟩
  rw [h2]
  unfold barWrite
  rw [if_pos hs]

/-- Low bits written to a BAR become type bits, and stay. -/
theorem C42_sticky {dev : Dev} (hh : Honest dev) {p : Pci} {i : Nat} (hi : i < 6) (hs : (p.bar i).1 ≠ 0)
    (hs' : (p.bar i).1 < U32) {v : Nat} (hv : v < U32) (hne : v ≠ 0xffffffff) :
    reg32 (access dev p (enc 4 v) 4 (0x10 + 4 * i) true).mem (0x10 + 4 * i) % 2 ^ typeBits (p.bar i).2 =
      v % 2 ^ typeBits (p.bar i).2 ||| reg32 p.mem (0x10 + 4 * i) % 2 ^ typeBits (p.bar i).2 := by
  rw [bar_value hh hv hi hs hs', if_neg hne]
  apply Nat.eq_of_testBit_eq
  intro k
  simp only [Nat.testBit_mod_two_pow, Nat.testBit_or]
  by_cases hk : k < typeBits (p.bar i).2 <;> simp [hk]

/-! ## C43 -/

/-- Bits of the command register the client controls: I/O, memory, bus master, memory write and invalidate, SERR#,
INTx disable. -/
def cmdBits : List Nat := [0, 1, 2, 4, 8, 10]

theorem command_access {dev : Dev} (hh : Honest dev) {p : Pci} {buf : List Byte} (hl : buf.length = 2) :
    (access dev p buf 2 4 true).mem = (commandWrite p.mem buf).1 ∧
    (access dev p buf 2 4 true).evs = [] ∧
    (access dev p buf 2 4 true).ret = match (commandWrite p.mem buf).2 with
      | .ok _ => .ok 2
      | .err e => .err e
      | .fault f => .fault f := by
  have hs : nextSegment p 2 4 true = some (.hdr, 2) := by
    unfold nextSegment; rfl
  obtain ⟨h1, h2, h3, _⟩ := access_one hh (by omega) (fun _ => hl) hs
  have hw : hdrWrite p.bar p.mem buf 4 = commandWrite p.mem buf := by unfold hdrWrite; rw [if_pos rfl]
  rw [h1, h2, h3]
  simp only [serve, hdrAccess]
  rw [if_neg (by omega)]
  simp only [if_true]
  rw [hw]
  cases (commandWrite p.mem buf).2 <;> exact ⟨rfl, rfl, rfl⟩

theorem reg16_bit (m : Mem) (a k : Nat) (hk : k < 16) : (reg16 m a).testBit k = (m (a + k / 8)).getLsbD (k % 8) := by
  unfold reg16
  rw [leAt_testBit]
  have h1 : k / 8 < 2 := by omega
  simp only [show k < 8 * 2 by omega, decide_true, Bool.true_and, Nat.zero_add]
  rw [List.getD_eq_getElem?_getD, List.getElem?_eq_getElem (by rw [rdM_length]; exact h1), Option.getD_some, rdM_getElem]

/-- After a 16-bit write of any value over any value, the controlled bits of the command register are the written
ones and all other bits are unchanged. The write is refused exactly if it has a one in a bit that is neither
controlled nor VGA palette snoop (ignored); the controlled bits are stored nevertheless. -/
theorem C43_command {dev : Dev} (hh : Honest dev) {p : Pci} {v : Nat} (hv : v < 65536) :
    (∀ k, k < 16 → (reg16 (access dev p (enc 2 v) 2 4 true).mem 4).testBit k =
      if k ∈ cmdBits then v.testBit k else (reg16 p.mem 4).testBit k) ∧
    ((∀ k, k < 16 → v.testBit k = true → k ∈ cmdBits ∨ k = 5) →
      (access dev p (enc 2 v) 2 4 true).ret = .ok 2) ∧
    ((∃ k, k < 16 ∧ v.testBit k = true ∧ k ∉ cmdBits ∧ k ≠ 5) →
      (access dev p (enc 2 v) 2 4 true).ret = .err EINVAL) := by
  obtain ⟨h1, _, h3⟩ := command_access (p := p) hh (enc_length 2 v)
  have hle : leAt (enc 2 v) 0 2 = v := by rw [leAt_enc]; exact Nat.mod_eq_of_lt hv
  have hcw : commandWrite p.mem (enc 2 v) = (setFields p.mem (wrM p.mem 4 (enc 2 v)) 4
      [(0, 1), (1, 1), (2, 1), (8, 1), (10, 1), (4, 1)], if v &&& 0xfac8 ≠ 0 then .err EINVAL else .ok ()) := by
    unfold commandWrite
    rw [if_neg (by rw [enc_length]; omega), List.take_of_length_le (by rw [enc_length]; omega), hle]
  rw [h3, h1, hcw]
  refine ⟨?_, ?_, ?_⟩
  · intro k hk
    rw [reg16_bit _ _ _ hk, setFields_bit _ _ _ _ (Nat.mod_lt _ (by omega))]
    have hin : (∃ f ∈ [(0, 1), (1, 1), (2, 1), (8, 1), (10, 1), (4, 1)], InField 4 (4 + k / 8) (k % 8) f) ↔ k ∈ cmdBits := by
      unfold InField cmdBits
      simp only [List.mem_cons, List.not_mem_nil, or_false, exists_eq_or_imp, exists_eq_left]
      omega
    have hnew : (wrM p.mem 4 (enc 2 v) (4 + k / 8)).getLsbD (k % 8) = v.testBit k := by
      rw [wrM_in (by omega) (by rw [enc_length]; omega), show 4 + k / 8 - 4 = k / 8 by omega]
      have := leAt_testBit (enc 2 v) 2 0 k
      rw [hle] at this
      rw [this]
      simp [show k < 16 by omega]
    by_cases hm : k ∈ cmdBits
    · rw [if_pos (hin.2 hm), if_pos hm, hnew]
    · rw [if_neg (fun h => hm (hin.1 h)), if_neg hm, reg16_bit _ _ _ hk]
  · intro hall
    have hz : v &&& 0xfac8 = 0 := by
      apply Nat.eq_of_testBit_eq
      intro k
      rw [Nat.testBit_and, Nat.zero_testBit]
      by_cases hk : k < 16
      · by_cases hvk : v.testBit k = true
        · have h5 := hall k hk hvk
          have : ∀ j : Fin 16, j.val ∈ cmdBits ∨ j.val = 5 → Nat.testBit 0xfac8 j.val = false := by decide
          rw [this ⟨k, hk⟩ h5, Bool.and_false]
        · simp [hvk]
      · rw [Nat.testBit_lt_two_pow (x := v) (Nat.lt_of_lt_of_le hv (by
          have : 65536 = 2 ^ 16 := rfl
          rw [this]; exact Nat.pow_le_pow_right (by omega) (by omega)))]
        rfl
    rw [if_neg (by simp [hz])]
  · rintro ⟨k, hk, hvk, hnm, hn5⟩
    have hnz : v &&& 0xfac8 ≠ 0 := by
      intro h
      have h6 : (v &&& 0xfac8).testBit k = false := by rw [h]; exact Nat.zero_testBit k
      rw [Nat.testBit_and, hvk, Bool.true_and] at h6
      have : ∀ j : Fin 16, j.val ∉ cmdBits → j.val ≠ 5 → Nat.testBit 0xfac8 j.val = true := by decide
      have h7 := this ⟨k, hk⟩ hnm hn5
      rw [h6] at h7
      cases h7
    rw [if_pos hnz]

/-! ## C44 -/

/-- The bits of a standard capability a client write can change, as (first bit, number of bits). -/
def writableBits (id : Nat) : List (Nat × Nat) :=
  if id = ID_PM then [(32, 16)]
  else if id = ID_EXP then [(64, 15), (320, 16), (384, 16)]
  else if id = ID_MSI then [(16, 1), (20, 3), (34, 30), (64, 32), (96, 16), (128, 32)]
  else if id = ID_MSIX then [(30, 2)]
  else []

def Writable (id b : Nat) : Prop := ∃ f ∈ writableBits id, f.1 ≤ b ∧ b < f.1 + f.2

theorem pm_ne : ID_EXP ≠ ID_PM ∧ ID_MSI ≠ ID_PM ∧ ID_MSIX ≠ ID_PM ∧ ID_MSI ≠ ID_EXP ∧ ID_MSIX ≠ ID_EXP ∧ ID_MSIX ≠ ID_MSI := by
  decide

/-- Effect of a write handler on the bits of the capability: bit `k` of byte `a`. -/
def BitsSet (id cOff : Nat) (m m' : Mem) (buf : List Byte) (count off : Nat) : Prop :=
  ∀ a k, cOff ≤ a → k < 8 →
    ((off ≤ a ∧ a < off + count ∧ Writable id (8 * (a - cOff) + k)) → (m' a).getLsbD k = (buf.getD (a - off) 0#8).getLsbD k) ∧
    (¬ (off ≤ a ∧ a < off + count ∧ Writable id (8 * (a - cOff) + k)) → (m' a).getLsbD k = (m a).getLsbD k)

theorem take_getD {buf : List Byte} {n i : Nat} (h : i < n) : (buf.take n).getD i 0#8 = buf.getD i 0#8 := by
  rw [List.getD_eq_getElem?_getD, List.getD_eq_getElem?_getD, List.getElem?_take, if_pos h]

/-- Fields copied from the new image set exactly the covered bits of the fields. -/
theorem bits_of_fields {id cOff : Nat} {m m' : Mem} {buf : List Byte} {count off : Nat} (hl : count ≤ buf.length)
    {fs : List (Nat × Nat)} {base : Nat}
    (hm : ∀ a k, k < 8 → (m' a).getLsbD k = if ∃ f ∈ fs, InField base a k f then (wrM m off (buf.take count) a).getLsbD k
      else (m a).getLsbD k)
    (hf : ∀ a k, cOff ≤ a → k < 8 → off ≤ a → a < off + count →
      ((∃ f ∈ fs, InField base a k f) ↔ Writable id (8 * (a - cOff) + k))) :
    BitsSet id cOff m m' buf count off := by
  intro a k ha hk
  rw [hm a k hk]
  by_cases hr : off ≤ a ∧ a < off + count
  · have h1 : wrM m off (buf.take count) a = buf.getD (a - off) 0#8 := by
      rw [wrM_in hr.1 (by rw [List.length_take]; omega), take_getD (by omega)]
    have h2 := hf a k ha hk hr.1 hr.2
    refine ⟨?_, ?_⟩
    · intro h
      rw [if_pos (h2.2 h.2.2), h1]
    · intro h
      rw [if_neg (fun h' => h ⟨hr.1, hr.2, h2.1 h'⟩)]
  · have h1 : wrM m off (buf.take count) a = m a := wrM_out (by rw [List.length_take]; omega)
    refine ⟨fun h => absurd ⟨h.1, h.2.1⟩ hr, fun _ => ?_⟩
    rw [h1]
    split <;> rfl

theorem bits_copy {id cOff : Nat} {m : Mem} {buf : List Byte} {count off : Nat} (hl : count ≤ buf.length)
    (hf : ∀ a k, cOff ≤ a → k < 8 → off ≤ a → a < off + count → Writable id (8 * (a - cOff) + k)) :
    BitsSet id cOff m (wrM m off (buf.take count)) buf count off := by
  intro a k ha hk
  by_cases hr : off ≤ a ∧ a < off + count
  · refine ⟨?_, fun h => absurd ⟨hr.1, hr.2, hf a k ha hk hr.1 hr.2⟩ h⟩
    intro _
    rw [wrM_in hr.1 (by rw [List.length_take]; omega), take_getD (by omega)]
  · refine ⟨fun h => absurd ⟨h.1, h.2.1⟩ hr, fun _ => ?_⟩
    rw [wrM_out (by rw [List.length_take]; omega)]

theorem bits_same {id cOff : Nat} {m : Mem} {buf : List Byte} {count off : Nat}
    (hf : ∀ a k, cOff ≤ a → k < 8 → off ≤ a → a < off + count → ¬ Writable id (8 * (a - cOff) + k)) :
    BitsSet id cOff m m buf count off :=
  fun a k ha hk => ⟨fun h => absurd h.2.2 (hf a k ha hk h.1 h.2.1), fun _ => rfl⟩

theorem writePm_bits {m : Mem} {c : Cap} {buf : List Byte} {count off n : Nat} (ho : c.off ≤ off) (hl : count ≤ buf.length)
    (h : (writePm m c buf count (off - c.off)).2 = .ok n) :
    BitsSet ID_PM c.off m (writePm m c buf count (off - c.off)).1 buf count off := by
  unfold writePm at h ⊢
  by_cases h1 : off - c.off = 2
  · rw [if_pos h1] at h; dsimp only at h; split at h <;> cases h
  · rw [if_neg h1] at h ⊢
    by_cases h2 : off - c.off = 4
    · rw [if_pos h2] at h ⊢
      by_cases h3 : count ≠ 2
      · rw [if_pos h3] at h; cases h
      · rw [if_neg h3]
        have hc : count = 2 := by omega
        subst hc
        dsimp only
        rw [show c.off + 4 = off by omega]
        apply bits_copy hl
        intro a k ha hk h4 h5
        refine ⟨(32, 16), by simp [writableBits], ?_⟩
        dsimp only
        omega
    · rw [if_neg h2] at h
      by_cases h3 : off - c.off = 6 ∨ off - c.off = 7
      · rw [if_pos h3] at h; dsimp only at h; split at h <;> cases h
      · rw [if_neg h3] at h; cases h

theorem writable_msi (b : Nat) : Writable ID_MSI b ↔ ∃ f ∈ [(16, 1), (20, 3), (34, 30), (64, 32), (96, 16), (128, 32)],
    f.1 ≤ b ∧ b < f.1 + f.2 := by
  obtain ⟨h1, h2, h3, h4, h5, h6⟩ := pm_ne
  unfold Writable writableBits
  rw [if_neg h2, if_neg h4, if_pos rfl]

theorem writable_msix (b : Nat) : Writable ID_MSIX b ↔ 30 ≤ b ∧ b < 32 := by
  obtain ⟨h1, h2, h3, h4, h5, h6⟩ := pm_ne
  unfold Writable writableBits
  rw [if_neg h3, if_neg h5, if_neg h6, if_pos rfl]
  simp

theorem writable_exp (b : Nat) : Writable ID_EXP b ↔ (64 ≤ b ∧ b < 79) ∨ (320 ≤ b ∧ b < 336) ∨ (384 ≤ b ∧ b < 400) := by
  obtain ⟨h1, h2, h3, h4, h5, h6⟩ := pm_ne
  unfold Writable writableBits
  rw [if_neg h1, if_pos rfl]
  simp

theorem writeMsi_bits {m : Mem} {c : Cap} {buf : List Byte} {count off n : Nat} (ho : c.off ≤ off) (hl : count ≤ buf.length)
    (h : (writeMsi m c buf count (off - c.off)).2 = .ok n) :
    BitsSet ID_MSI c.off m (writeMsi m c buf count (off - c.off)).1 buf count off := by
  have hoff : c.off + (off - c.off) = off := by omega
  unfold writeMsi at h ⊢
  split at h
  · cases h
  · rename_i h0
    rw [if_neg h0]
    dsimp only at h ⊢
    rw [hoff] at h ⊢
    split at h
    · cases h
    · rename_i h1
      rw [if_neg h1]
      split at h
      · cases h
      · rename_i h2
        rw [if_neg h2]
        refine bits_of_fields (fs := [(20, 3), (34, 30), (64, 32), (96, 16), (128, 32), (16, 1)]) (base := c.off) hl ?_ ?_
        · intro a k hk
          dsimp only
          rw [setFields_bit _ _ _ _ hk, setFields_bit _ _ _ _ hk]
          by_cases hA : ∃ f ∈ [(20, 3), (34, 30), (64, 32), (96, 16), (128, 32)], InField c.off a k f
          · rw [if_pos hA, if_pos]
            obtain ⟨f, hf, hi⟩ := hA
            exact ⟨f, List.mem_append_left [(16, 1)] hf, hi⟩
          · rw [if_neg hA]
            by_cases hB : ∃ f ∈ [(16, 1)], InField c.off a k f
            · rw [if_pos hB, if_pos]
              obtain ⟨f, hf, hi⟩ := hB
              exact ⟨f, List.mem_append_right [(20, 3), (34, 30), (64, 32), (96, 16), (128, 32)] hf, hi⟩
            · rw [if_neg hB, if_neg]
              rintro ⟨f, hf, hi⟩
              rcases List.mem_append.1 (show f ∈ [(20, 3), (34, 30), (64, 32), (96, 16), (128, 32)] ++ [(16, 1)] from hf) with h | h
              · exact hA ⟨f, h, hi⟩
              · exact hB ⟨f, h, hi⟩
        · intro a k ha hk _ _
          rw [writable_msi]
          unfold InField
          simp only [List.mem_cons, List.not_mem_nil, or_false, exists_eq_or_imp, exists_eq_left]
          omega

theorem writeMsix_bits {m : Mem} {c : Cap} {buf : List Byte} {count off n : Nat} (ho : c.off ≤ off) (hl : count ≤ buf.length)
    (h : (writeMsix m c buf count (off - c.off)).2 = .ok n) :
    BitsSet ID_MSIX c.off m (writeMsix m c buf count (off - c.off)).1 buf count off := by
  have hoff : c.off + (off - c.off) = off := by omega
  unfold writeMsix at h ⊢
  split at h
  · cases h
  · rename_i h0
    rw [if_neg h0]
    dsimp only
    rw [hoff]
    refine bits_of_fields (fs := [(30, 1), (31, 1)]) (base := c.off) hl (fun a k hk => setFields_bit _ _ _ _ hk _ _) ?_
    intro a k ha hk _ _
    rw [writable_msix]
    unfold InField
    simp only [List.mem_cons, List.not_mem_nil, or_false, exists_eq_or_imp, exists_eq_left]
    omega

theorem writePx_bits {dev : Dev} (hd : Local dev) {m : Mem} {c : Cap} {buf : List Byte} {count off n : Nat} (ho : c.off ≤ off)
    (hl : count ≤ buf.length) (h : (writePx dev m c buf count (off - c.off)).2.1 = .ok n) :
    BitsSet ID_EXP c.off m (writePx dev m c buf count (off - c.off)).1 buf count off := by
  unfold writePx at h ⊢
  by_cases hc : count ≠ 2
  · rw [if_pos hc] at h; cases h
  · rw [if_neg hc] at h ⊢
    have hc : count = 2 := by omega
    subst hc
    by_cases h1 : off - c.off = 0x08
    · rw [if_pos h1] at h ⊢
      have hmem : (writePxdc dev m c buf).1 = setFields m (wrM m (c.off + 8) (buf.take 2)) (c.off + 8) [(0, 1), (1, 1), (2, 1),
          (3, 1), (4, 1), (5, 3), (8, 1), (9, 1), (10, 1), (11, 1), (12, 3)] := by
        unfold writePxdc
        dsimp only
        split
        · split
          · rfl
          · split
            · rfl
            · rename_i r hr
              have := hd.reset r hr
              split <;> exact this _
        · rfl
      rw [hmem, show c.off + 8 = off by omega]
      refine bits_of_fields (fs := [(0, 1), (1, 1), (2, 1), (3, 1), (4, 1), (5, 3), (8, 1), (9, 1), (10, 1), (11, 1), (12, 3)])
        (base := off) hl (fun a k hk => setFields_bit _ _ _ _ hk _ _) ?_
      intro a k ha hk h2 h3
      rw [writable_exp]
      unfold InField
      simp only [List.mem_cons, List.not_mem_nil, or_false, exists_eq_or_imp, exists_eq_left]
      omega
    · rw [if_neg h1] at h ⊢
      by_cases h2 : off - c.off = 0x10 ∨ off - c.off = 0x18 ∨ off - c.off = 0x1c
      · rw [if_pos h2]
        apply bits_same
        intro a k ha hk h3 h4
        rw [writable_exp]
        omega
      · rw [if_neg h2] at h ⊢
        by_cases h3 : off - c.off = 0x28 ∨ off - c.off = 0x30
        · rw [if_pos h3]
          dsimp only
          rw [show c.off + (off - c.off) = off by omega]
          apply bits_copy hl
          intro a k ha hk h4 h5
          rw [writable_exp]
          omega
        · rw [if_neg h3] at h ⊢
          by_cases h4 : off - c.off = 0x38
          · rw [if_pos h4]
            apply bits_same
            intro a k ha hk h5 h6
            rw [writable_exp]
            omega
          · rw [if_neg h4] at h; cases h

theorem capWrite_bits {dev : Dev} (hd : Local dev) {alloc : Nat} {m : Mem} {c : Cap} (he : c.ext = false)
    (hid : c.id = ID_PM ∨ c.id = ID_EXP ∨ c.id = ID_MSI ∨ c.id = ID_MSIX) {buf : List Byte} {count off n : Nat}
    (ho : c.off ≤ off) (hl : count ≤ buf.length) (h : (capWrite dev alloc m c buf count off).2.1 = .ok n) :
    BitsSet c.id c.off m (capWrite dev alloc m c buf count off).1 buf count off := by
  obtain ⟨n1, n2, n3, n4, n5, n6⟩ := pm_ne
  unfold capWrite at h ⊢
  split at h
  · cases h
  · rename_i h0
    rw [if_neg h0]
    rw [if_neg (by simp [he])] at h ⊢
    rcases hid with h1 | h1 | h1 | h1
    · rw [if_pos h1] at h ⊢
      rw [h1]
      exact writePm_bits ho hl h
    · rw [if_neg (by rw [h1]; exact n1), if_pos h1] at h ⊢
      rw [h1]
      exact writePx_bits hd ho hl h
    · rw [if_neg (by rw [h1]; exact n2), if_neg (by rw [h1]; exact n4), if_pos h1] at h ⊢
      rw [h1]
      exact writeMsi_bits ho hl h
    · rw [if_neg (by rw [h1]; exact n3), if_neg (by rw [h1]; exact n5), if_neg (by rw [h1]; exact n6), if_pos h1] at h ⊢
      rw [h1]
      exact writeMsix_bits ho hl h

/-- How a write inside a capability the library emulates is served. -/
theorem write_inside {dev : Dev} (hh : Honest dev) {p : Pci} (hb : Bounded p) (hdj : Disj p)
    {c : Cap} (hcm : c ∈ p.all) (hk : c.cbk = false) {buf : List Byte} {count off : Nat} (hc : 0 < count)
    (hl : buf.length = count) (hi : Inside c off count) (hq : dev.cb = none ∨ ∀ d ∈ p.all, d.off ≠ off + count) :
    ((access dev p buf count off true).mem = p.mem ∧ (access dev p buf count off true).evs = [] ∧
      ∃ e, (access dev p buf count off true).ret = .err e) ∨
    (c.ro = false ∧ c.off + c.hdr ≤ off ∧
      (access dev p buf count off true).mem = (capWrite dev p.alloc p.mem c buf count off).1 ∧
      (access dev p buf count off true).ret = (capWrite dev p.alloc p.mem c buf count off).2.1 ∧
      (access dev p buf count off true).evs = (capWrite dev p.alloc p.mem c buf count off).2.2) := by
  have hbc := hb.caps c hcm
  rcases inside_segment (write := true) hb hdj hcm hc hi with ⟨hf, hs⟩ | ⟨d, hf, hlo, hs, he⟩
  · obtain ⟨e1, e2, e3, _⟩ := access_one hh hc (fun _ => hl) hs
    obtain ⟨hi1, hi2⟩ := hi
    rw [e1, e2, e3]
    simp only [serve, capAccess]
    rw [hf]
    dsimp only
    rw [if_neg (by omega)]
    by_cases hro : c.ro = true
    · left
      rw [if_pos ⟨trivial, hro⟩]; exact ⟨rfl, rfl, _, rfl⟩
    · rw [if_neg (by simp [hro]), if_neg (by simp [hk]), if_neg (by simp)]
      by_cases hh' : off - c.off < c.hdr
      · left
        rw [if_pos hh']; exact ⟨rfl, rfl, _, rfl⟩
      · right
        rw [if_neg hh']
        exact ⟨by simpa using hro, by omega, rfl, rfl, rfl⟩
  · left
    have hnone : dev.cb = none := by
      rcases hq with h | h
      · exact h
      · exact absurd he.symm (h d (capFind_some hf).1)
    have he' : d.off - off = count := by omega
    rw [he'] at hs
    obtain ⟨e1, e2, e3, _⟩ := access_one hh hc (fun _ => hl) hs
    rw [e1, e2, e3]
    simp only [serve, nonstd]
    rw [hnone]
    simp only [if_true]
    exact ⟨trivial, trivial, _, rfl⟩

/-- An accepted write inside a power management, PCI Express, MSI or MSI-X capability that the library emulates gives
every writable bit it covers the written value and leaves every other bit of the capability unchanged. -/
theorem C44_bits {dev : Dev} (hd : Local dev) (hh : Honest dev) {p : Pci} (hb : Bounded p) (hdj : Disj p)
    {c : Cap} (hcm : c ∈ p.all) (hk : c.cbk = false) (he : c.ext = false)
    (hid : c.id = ID_PM ∨ c.id = ID_EXP ∨ c.id = ID_MSI ∨ c.id = ID_MSIX) {buf : List Byte} {count off n : Nat} (hc : 0 < count)
    (hl : buf.length = count) (hi : Inside c off count) (hq : dev.cb = none ∨ ∀ d ∈ p.all, d.off ≠ off + count)
    (hok : (access dev p buf count off true).ret = .ok n) :
    BitsSet c.id c.off p.mem (access dev p buf count off true).mem buf count off := by
  rcases write_inside hh hb hdj hcm hk hc hl hi hq with ⟨_, _, e, h⟩ | ⟨_, _, h1, h2, _⟩
  · rw [h] at hok; cases hok
  · rw [h1]
    rw [h2] at hok
    exact capWrite_bits hd he hid hi.1 (by omega) hok

/-! ### The number of MSI vectors enabled -/

theorem field_mme (m : Mem) (a : Nat) : field m a 20 3 = (m (a + 2)).toNat / 16 % 8 := by
  unfold field
  have : (rdM m a ((20 + 3 + 7) / 8)) = [m a, m (a + 1), m (a + 2)] := by simp [rdM, List.range_succ]
  rw [this]
  simp only [leAt, List.getD_cons_zero, List.getD_cons_succ]
  have h1 := (m a).isLt
  have h2 := (m (a + 1)).isLt
  have h3 := (m (a + 2)).isLt
  omega

theorem field_mmc (m : Mem) (a : Nat) : field m a 17 3 = (m (a + 2)).toNat / 2 % 8 := by
  unfold field
  have : (rdM m a ((17 + 3 + 7) / 8)) = [m a, m (a + 1), m (a + 2)] := by simp [rdM, List.range_succ]
  rw [this]
  simp only [leAt, List.getD_cons_zero, List.getD_cons_succ]
  have h1 := (m a).isLt
  have h2 := (m (a + 1)).isLt
  have h3 := (m (a + 2)).isLt
  omega

theorem sub_congr {x y : Byte} {s w : Nat} (h : ∀ k, k < w → x.getLsbD (s + k) = y.getLsbD (s + k)) :
    x.toNat / 2 ^ s % 2 ^ w = y.toNat / 2 ^ s % 2 ^ w := by
  apply Nat.eq_of_testBit_eq
  intro k
  simp only [Nat.testBit_mod_two_pow, Nat.testBit_div_two_pow]
  by_cases hk : k < w
  · have := h k hk
    unfold BitVec.getLsbD at this
    rw [show k + s = s + k by omega, this]
  · simp [hk]

/-- The number of vectors the client enables never exceeds the number the capability offers, if it did not before. -/
theorem writeMsi_mme {m : Mem} {c : Cap} {buf : List Byte} {count rel : Nat}
    (h0 : field m c.off 20 3 ≤ field m c.off 17 3) :
    field (writeMsi m c buf count rel).1 c.off 20 3 ≤ field (writeMsi m c buf count rel).1 c.off 17 3 ∧
    field (writeMsi m c buf count rel).1 c.off 17 3 = field m c.off 17 3 := by
  have key : ∀ (m' : Mem) (src : Mem) (fs : List (Nat × Nat)),
      (∀ f ∈ fs, f.1 + f.2 ≤ 17 ∨ 20 ≤ f.1) →
      field (setFields m' src c.off fs) c.off 17 3 = field m' c.off 17 3 := by
    intro m' src fs hfs
    rw [field_mmc, field_mmc]
    apply sub_congr (s := 1) (w := 3)
    intro k hk
    rw [setFields_bit _ _ _ _ (by omega), if_neg]
    rintro ⟨f, hf, hi⟩
    have := hfs f hf
    unfold InField at hi
    omega
  have key2 : ∀ (m' : Mem) (src : Mem), field (setFields m' src c.off [(16, 1)]) c.off 20 3 = field m' c.off 20 3 := by
    intro m' src
    rw [field_mme, field_mme]
    apply sub_congr (s := 4) (w := 3)
    intro k hk
    rw [setFields_bit _ _ _ _ (by omega), if_neg]
    rintro ⟨f, hf, hi⟩
    rw [List.mem_singleton] at hf
    subst hf
    unfold InField at hi
    dsimp only at hi
    omega
  have key3 : ∀ (m' : Mem) (src : Mem), field (setFields m' src c.off [(20, 3), (34, 30), (64, 32), (96, 16), (128, 32)]) c.off
      20 3 = field src c.off 20 3 := by
    intro m' src
    rw [field_mme, field_mme]
    apply sub_congr (s := 4) (w := 3)
    intro k hk
    rw [setFields_bit _ _ _ _ (by omega), if_pos]
    refine ⟨(20, 3), List.mem_cons_self .., ?_⟩
    unfold InField
    dsimp only
    omega
  unfold writeMsi
  split
  · exact ⟨h0, rfl⟩
  · dsimp only
    rw [key2]
    rw [key m _ [(16, 1)] (by simp)]
    split
    · dsimp only
      rw [key2, key _ _ _ (by simp)]
      exact ⟨h0, rfl⟩
    · split
      · dsimp only
        rw [key2, key _ _ _ (by simp)]
        exact ⟨h0, rfl⟩
      · rename_i h1 h2
        dsimp only
        rw [key3, key _ _ _ (by simp), key _ _ _ (by simp)]
        refine ⟨?_, rfl⟩
        omega

theorem C44_msi_vectors {dev : Dev} (hh : Honest dev) {p : Pci} (hb : Bounded p) (hdj : Disj p)
    {c : Cap} (hcm : c ∈ p.all) (hk : c.cbk = false) (he : c.ext = false) (hid : c.id = ID_MSI)
    {buf : List Byte} {count off : Nat} (hc : 0 < count)
    (hl : buf.length = count) (hi : Inside c off count) (hq : dev.cb = none ∨ ∀ d ∈ p.all, d.off ≠ off + count)
    (h0 : field p.mem c.off 20 3 ≤ field p.mem c.off 17 3) :
    field (access dev p buf count off true).mem c.off 20 3 ≤ field (access dev p buf count off true).mem c.off 17 3 := by
  rcases write_inside hh hb hdj hcm hk hc hl hi hq with ⟨h, _⟩ | ⟨_, _, h1, _, _⟩
  · rw [h]; exact h0
  · rw [h1]
    obtain ⟨n1, n2, n3, n4, n5, n6⟩ := pm_ne
    unfold capWrite
    split
    · exact h0
    · rw [if_neg (by simp [he]), if_neg (by rw [hid]; exact n2), if_neg (by rw [hid]; exact n4)]
      exact (writeMsi_mme h0).1

/-! ## C66: function level reset -/

theorem writePxdc_evs (dev : Dev) (m : Mem) (c : Cap) (buf : List Byte) (hl : 2 ≤ buf.length) :
    ((writePxdc dev m c buf).2.2 = [.flr] ∧ (buf.getD 1 0#8).getLsbD 7 = true ∧ (m (c.off + 7)).getLsbD 4 = true ∧
      dev.reset ≠ none) ∨
    ((writePxdc dev m c buf).2.2 = [] ∧
      ((buf.getD 1 0#8).getLsbD 7 = false ∧ (writePxdc dev m c buf).2.1 = .ok 2 ∨
       (buf.getD 1 0#8).getLsbD 7 = true ∧ (m (c.off + 7)).getLsbD 4 = false ∧ (writePxdc dev m c buf).2.1 = .err EINVAL ∨
       ((buf.getD 1 0#8).getLsbD 7 = true ∧ (m (c.off + 7)).getLsbD 4 = true) ∧ dev.reset = none ∧
         (writePxdc dev m c buf).2.1 = .ok 2)) := by
  have hflr : field (wrM m (c.off + 8) (buf.take 2)) (c.off + 8) 15 1 = ((buf.getD 1 0#8).getLsbD 7).toNat := by
    unfold field
    have e : rdM (wrM m (c.off + 8) (buf.take 2)) (c.off + 8) ((15 + 1 + 7) / 8) =
        [wrM m (c.off + 8) (buf.take 2) (c.off + 8), wrM m (c.off + 8) (buf.take 2) (c.off + 8 + 1)] := by
      simp [rdM, List.range_succ]
    rw [e]
    simp only [leAt, List.getD_cons_zero, List.getD_cons_succ]
    rw [wrM_in (a := c.off + 8 + 1) (by omega) (by rw [List.length_take]; omega), show c.off + 8 + 1 - (c.off + 8) = 1 by omega,
      take_getD (by omega)]
    have h1 := (wrM m (c.off + 8) (buf.take 2) (c.off + 8)).isLt
    have h2 := (buf.getD 1 0#8).isLt
    generalize (wrM m (c.off + 8) (buf.take 2) (c.off + 8)).toNat = x at *
    unfold BitVec.getLsbD
    rw [Nat.testBit_eq_decide_div_mod_eq]
    generalize (buf.getD 1 0#8).toNat = y at *
    by_cases hy : y / 2 ^ 7 % 2 = 1
    · simp only [hy, decide_true, Bool.toNat_true]; omega
    · simp only [hy, decide_false, Bool.toNat_false]; omega
  have hcap : ∀ m' : Mem, m' (c.off + 7) = m (c.off + 7) →
      field m' (c.off + 4) 28 1 = ((m (c.off + 7)).getLsbD 4).toNat := by
    intro m' hm'
    unfold field
    have e : rdM m' (c.off + 4) ((28 + 1 + 7) / 8) =
        [m' (c.off + 4), m' (c.off + 4 + 1), m' (c.off + 4 + 2), m' (c.off + 4 + 3)] := by
      simp [rdM, List.range_succ]
    rw [e]
    simp only [leAt, List.getD_cons_zero, List.getD_cons_succ]
    rw [show c.off + 4 + 3 = c.off + 7 by omega, hm']
    have h1 := (m' (c.off + 4)).isLt
    have h2 := (m' (c.off + 4 + 1)).isLt
    have h3 := (m' (c.off + 4 + 2)).isLt
    have h4 := (m (c.off + 7)).isLt
    unfold BitVec.getLsbD
    rw [Nat.testBit_eq_decide_div_mod_eq]
    generalize (m (c.off + 7)).toNat = y at *
    generalize (m' (c.off + 4)).toNat = y1 at *
    generalize (m' (c.off + 4 + 1)).toNat = y2 at *
    generalize (m' (c.off + 4 + 2)).toNat = y3 at *
    by_cases hy : y / 2 ^ 4 % 2 = 1
    · simp only [hy, decide_true, Bool.toNat_true]; omega
    · simp only [hy, decide_false, Bool.toNat_false]; omega
  unfold writePxdc
  dsimp only
  rw [hflr, hcap _ (by
    apply setFields_same
    exact wrM_out (by omega))]
  cases hf : (buf.getD 1 0#8).getLsbD 7 with
  | false =>
    right
    rw [if_neg (by simp)]
    exact ⟨rfl, .inl ⟨rfl, rfl⟩⟩
  | true =>
    rw [if_pos (by simp)]
    cases hg : (m (c.off + 7)).getLsbD 4 with
    | false =>
      right
      rw [if_pos (by simp)]
      exact ⟨rfl, .inr (.inl ⟨rfl, rfl, rfl⟩)⟩
    | true =>
      rw [if_neg (by simp)]
      cases hr : dev.reset with
      | none =>
        right
        exact ⟨rfl, .inr (.inr ⟨⟨rfl, rfl⟩, rfl, rfl⟩)⟩
      | some r =>
        left
        dsimp only
        refine ⟨?_, rfl, rfl, by simp⟩
        split <;> rfl

/-- A write to the device control register is served by its handler. -/
theorem access_pxdc {dev : Dev} (hh : Honest dev) {p : Pci} (hb : Bounded p) (hdj : Disj p)
    {c : Cap} (hcm : c ∈ p.all) (hk : c.cbk = false) (he : c.ext = false) (hid : c.id = ID_EXP) (hsz : c.size = 0x3c)
    (hro : c.ro = false) (hhdr : c.hdr = 2) {buf : List Byte} (hl : buf.length = 2) :
    (access dev p buf 2 (c.off + 8) true).ret = (writePxdc dev p.mem c buf).2.1 ∧
      (access dev p buf 2 (c.off + 8) true).evs = (writePxdc dev p.mem c buf).2.2 := by
  obtain ⟨n1, n2, n3, n4, n5, n6⟩ := pm_ne
  have hbc := hb.caps c hcm
  have hal := hb.alloc
  have hi : Inside c (c.off + 8) 2 := ⟨by omega, by omega⟩
  rcases inside_segment (write := true) hb hdj hcm (by omega) hi with ⟨hf, hs⟩ | ⟨d, hf, _, _, hd⟩
  · obtain ⟨e1, e2, e3, _⟩ := access_one hh (by omega) (fun _ => hl) hs
    rw [e2, e3]
    simp only [serve, capAccess]
    rw [hf]
    dsimp only
    rw [if_neg (by omega), if_neg (by simp [hro]), if_neg (by simp [hk]), if_neg (by simp), if_neg (by omega)]
    unfold capWrite
    rw [if_neg (by omega), if_neg (by simp [he]), if_neg (by rw [hid]; exact n1), if_pos hid]
    unfold writePx
    rw [if_neg (by omega), if_pos (by omega)]
    exact ⟨rfl, rfl⟩
  · rcases hdj c hcm d (capFind_some hf).1 with rfl | h | h <;> omega

/-- What the reset callback says is the result of the write. -/
theorem C66_result {dev : Dev} (hh : Honest dev) {p : Pci} (hb : Bounded p) (hdj : Disj p)
    {c : Cap} (hcm : c ∈ p.all) (hk : c.cbk = false) (he : c.ext = false) (hid : c.id = ID_EXP) (hsz : c.size = 0x3c)
    (hro : c.ro = false) (hhdr : c.hdr = 2) {buf : List Byte} (hl : buf.length = 2)
    (h1 : (buf.getD 1 0#8).getLsbD 7 = true) (h2 : (p.mem (c.off + 7)).getLsbD 4 = true) {f : Mem → Mem × Res Unit}
    (hf : dev.reset = some f) :
    ∃ m, ((f m).2 = .ok () ∧ (access dev p buf 2 (c.off + 8) true).ret = .ok 2) ∨
      ∃ e, (f m).2 = .err e ∧ (access dev p buf 2 (c.off + 8) true).ret = .err e := by
  rw [(access_pxdc hh hb hdj hcm hk he hid hsz hro hhdr hl).1]
  rcases writePxdc_evs dev p.mem c buf (by omega) with ⟨g, _⟩ | ⟨_, ⟨g, _⟩ | ⟨_, g, _⟩ | ⟨_, g, _⟩⟩
  · unfold writePxdc at g ⊢
    dsimp only at g ⊢
    generalize field (wrM p.mem (c.off + 8) (buf.take 2)) (c.off + 8) 15 1 = x at g ⊢
    generalize setFields p.mem (wrM p.mem (c.off + 8) (buf.take 2)) (c.off + 8)
      [(0, 1), (1, 1), (2, 1), (3, 1), (4, 1), (5, 3), (8, 1), (9, 1), (10, 1), (11, 1), (12, 3)] = m at g ⊢
    by_cases k1 : ¬ x = 1
    · simp only [if_neg k1] at g; cases g
    have k1 := Decidable.not_not.mp k1
    simp only [if_pos k1] at g ⊢
    by_cases k2 : field m (c.off + 4) 28 1 = 0
    · simp only [if_pos k2] at g; cases g
    simp only [if_neg k2, hf]
    refine ⟨m, ?_⟩
    rcases hh.reset f hf m with h | ⟨e, h⟩
    · rw [h]; exact .inl ⟨rfl, rfl⟩
    · rw [h]; exact .inr ⟨e, rfl, rfl⟩
  · rw [h1] at g; cases g
  · rw [h2] at g; cases g
  · rw [hf] at g; cases g

/-- The PCI Express function level reset bit: a write to the device control register with bit 15 set calls the
device's reset callback exactly once if the device capabilities register announces the feature and the device has a
reset callback, and is refused without calling it if the feature is not announced. -/
theorem C66_flr {dev : Dev} (hh : Honest dev) {p : Pci} (hb : Bounded p) (hdj : Disj p)
    {c : Cap} (hcm : c ∈ p.all) (hk : c.cbk = false) (he : c.ext = false) (hid : c.id = ID_EXP) (hsz : c.size = 0x3c)
    (hro : c.ro = false) (hhdr : c.hdr = 2) {buf : List Byte}
    (hl : buf.length = 2) :
    ((access dev p buf 2 (c.off + 8) true).evs = [.flr] ↔
      ((buf.getD 1 0#8).getLsbD 7 = true ∧ (p.mem (c.off + 7)).getLsbD 4 = true ∧ dev.reset ≠ none)) ∧
    ((access dev p buf 2 (c.off + 8) true).evs = [] ∨ (access dev p buf 2 (c.off + 8) true).evs = [.flr]) ∧
    ((buf.getD 1 0#8).getLsbD 7 = true → (p.mem (c.off + 7)).getLsbD 4 = false →
      (access dev p buf 2 (c.off + 8) true).ret = .err EINVAL) ∧
    ((buf.getD 1 0#8).getLsbD 7 = false → (access dev p buf 2 (c.off + 8) true).ret = .ok 2) := by
  have hserve := access_pxdc hh hb hdj hcm hk he hid hsz hro hhdr hl
  rw [hserve.1, hserve.2]
  rcases writePxdc_evs dev p.mem c buf (by omega) with ⟨h1, h2, h3, h4⟩ | ⟨h1, h2⟩
  · rw [h1, h2, h3]
    simp [h4]
  · rw [h1]
    rcases h2 with ⟨h2, h3⟩ | ⟨h2, h3, h4⟩ | ⟨⟨h2, h3⟩, h4, h5⟩
    · rw [h2, h3]; simp
    · rw [h2, h3, h4]; simp
    · rw [h2, h3, h4, h5]; simp

end Verif.Pci
