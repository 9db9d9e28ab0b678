import Verif.Pci.Access

/-! # Config space writes (C41, C45, C46) -/

namespace Verif.Pci
open Verif

/-- The device's callbacks touch nothing of the config space outside the range they are called for. -/
structure Local (dev : Dev) : Prop where
  cb : ∀ f, dev.cb = some f → ∀ m o b w a, (a < o ∨ o + b.length ≤ a) → (f m o b w).1 a = m a
  reset : ∀ f, dev.reset = some f → ∀ m, (f m).1 = m

/-! ## Frames -/

theorem wrM_outside {m : Mem} {off a n : Nat} {bs : List Byte} (hn : bs.length ≤ n) (h : a < off ∨ off + n ≤ a) :
    wrM m off bs a = m a := wrM_out (by omega)

theorem commandWrite_out {m : Mem} {buf : List Byte} {a : Nat} (h : a < 4 ∨ 6 ≤ a) : (commandWrite m buf).1 a = m a := by
  unfold commandWrite
  split
  · rfl
  · dsimp only
    apply setFields_same
    exact wrM_outside (n := 2) (by rw [List.length_take]; omega) (by omega)

theorem hdrWrite_frame {bar : Nat → Nat × Bool} {m : Mem} {buf : List Byte} {off a : Nat}
    (h : a < off ∨ off + min buf.length (regSize off) ≤ a) : (hdrWrite bar m buf off).1 a = m a := by
  unfold hdrWrite
  by_cases h1 : off = 0x04
  · rw [if_pos h1]
    subst h1
    by_cases hb : buf.length < 2
    · unfold commandWrite; rw [if_pos hb]
    · have : regSize 4 = 2 := rfl
      exact commandWrite_out (by omega)
  · rw [if_neg h1]
    by_cases h2 : off = 0x06 ∨ off = 0x08 ∨ off = 0x09 ∨ off = 0x3d ∨ off = 0x3e ∨ off = 0x3f
    · rw [if_pos h2]
    · rw [if_neg h2]
      by_cases h3 : off = 0x3c ∨ off = 0x0c ∨ off = 0x0d
      · rw [if_pos h3]
        have hr : regSize off = 1 := by rcases h3 with rfl | rfl | rfl <;> rfl
        dsimp only
        exact wrM_out (by rw [List.length_take]; omega)
      · rw [if_neg h3]
        by_cases h4 : off = 0x10 ∨ off = 0x14 ∨ off = 0x18 ∨ off = 0x1c ∨ off = 0x20 ∨ off = 0x24
        · rw [if_pos h4]
          have hr : regSize off = 4 ∧ 0x10 + 4 * ((off - 0x10) / 4) = off := by
            rcases h4 with rfl | rfl | rfl | rfl | rfl | rfl <;> exact ⟨rfl, rfl⟩
          unfold barWrite
          split
          · rfl
          · split
            · rfl
            · dsimp only
              rw [hr.2]
              exact wrM_out (by rw [enc_length]; omega)
        · rw [if_neg h4]
          by_cases h5 : off = 0x30
          · rw [if_pos h5]
            subst h5
            have : regSize 0x30 = 4 := rfl
            unfold eromWrite
            split
            · rfl
            · dsimp only
              split
              · rfl
              · split
                · dsimp only
                  exact wrM_out (by rw [enc_length]; omega)
                · split
                  · rfl
                  · split <;> rfl
          · rw [if_neg h5]

theorem writePm_frame {m : Mem} {c : Cap} {buf : List Byte} {count rel a : Nat}
    (h : a < c.off + rel ∨ c.off + rel + count ≤ a) : (writePm m c buf count rel).1 a = m a := by
  unfold writePm
  by_cases h1 : rel = 2
  · rw [if_pos h1]
  · rw [if_neg h1]
    by_cases h2 : rel = 4
    · rw [if_pos h2]
      by_cases h3 : count ≠ 2
      · rw [if_pos h3]
      · rw [if_neg h3]
        exact wrM_outside (n := 2) (by rw [List.length_take]; omega) (by omega)
    · rw [if_neg h2]
      split <;> rfl

theorem writeMsi_frame {m : Mem} {c : Cap} {buf : List Byte} {count rel a : Nat}
    (h : a < c.off + rel ∨ c.off + rel + count ≤ a) : (writeMsi m c buf count rel).1 a = m a := by
  have hs : wrM m (c.off + rel) (buf.take count) a = m a :=
    wrM_outside (n := count) (by rw [List.length_take]; omega) h
  have h1 : setFields m (wrM m (c.off + rel) (buf.take count)) c.off [(16, 1)] a = m a := setFields_same hs
  unfold writeMsi
  split
  · rfl
  · dsimp only
    split
    · exact h1
    · split
      · exact h1
      · dsimp only
        rw [setFields_same (by rw [h1, hs]), h1]

theorem writeMsix_frame {m : Mem} {c : Cap} {buf : List Byte} {count rel a : Nat}
    (h : a < c.off + rel ∨ c.off + rel + count ≤ a) : (writeMsix m c buf count rel).1 a = m a := by
  unfold writeMsix
  split
  · rfl
  · exact setFields_same (wrM_outside (n := count) (by rw [List.length_take]; omega) h)

theorem writePxdc_frame {dev : Dev} (hd : Local dev) {m : Mem} {c : Cap} {buf : List Byte} {a : Nat}
    (h : a < c.off + 8 ∨ c.off + 10 ≤ a) : (writePxdc dev m c buf).1 a = m a := by
  have hs : wrM m (c.off + 8) (buf.take 2) a = m a :=
    wrM_outside (n := 2) (by rw [List.length_take]; omega) (by omega)
  unfold writePxdc
  dsimp only
  split
  · split
    · exact setFields_same hs
    · split
      · exact setFields_same hs
      · rename_i r hr
        have h2 := hd.reset r hr (setFields m (wrM m (c.off + 8) (buf.take 2)) (c.off + 8) [(0, 1), (1, 1), (2, 1), (3, 1),
          (4, 1), (5, 3), (8, 1), (9, 1), (10, 1), (11, 1), (12, 3)])
        split
        · dsimp only; rw [h2]; exact setFields_same hs
        · dsimp only; rw [h2]; exact setFields_same hs
        · dsimp only; rw [h2]; exact setFields_same hs
  · exact setFields_same hs

theorem writePx_frame {dev : Dev} (hd : Local dev) {m : Mem} {c : Cap} {buf : List Byte} {count rel a : Nat}
    (h : a < c.off + rel ∨ c.off + rel + count ≤ a) : (writePx dev m c buf count rel).1 a = m a := by
  unfold writePx
  by_cases h1 : count ≠ 2
  · rw [if_pos h1]
  · rw [if_neg h1]
    by_cases h2 : rel = 0x08
    · rw [if_pos h2]; exact writePxdc_frame hd (by omega)
    · rw [if_neg h2]
      split
      · rfl
      · split
        · exact wrM_outside (n := 2) (by rw [List.length_take]; omega) (by omega)
        · split <;> rfl

theorem capWrite_frame {dev : Dev} (hd : Local dev) {alloc : Nat} {m : Mem} {c : Cap} {buf : List Byte} {count off a : Nat}
    (ho : c.off ≤ off) (h : a < off ∨ off + count ≤ a) : (capWrite dev alloc m c buf count off).1 a = m a := by
  have h' : a < c.off + (off - c.off) ∨ c.off + (off - c.off) + count ≤ a := by omega
  unfold capWrite
  split
  · rfl
  · split
    · split
      · rfl
      · split
        · rfl
        · exact wrM_outside (n := count) (by rw [List.length_take]; omega) h
    · split
      · exact writePm_frame h'
      · split
        · exact writePx_frame hd h'
        · split
          · exact writeMsi_frame h'
          · split
            · exact writeMsix_frame h'
            · split
              · rfl
              · exact wrM_outside (n := count) (by rw [List.length_take]; omega) h

theorem readOut_mem (p : Pci) (m : Mem) (count off : Nat) : (readOut p m count off).mem = m := by
  unfold readOut
  split
  · rfl
  · split <;> rfl

theorem nonstd_frame {dev : Dev} (hd : Local dev) {p : Pci} {m : Mem} {buf : List Byte} {count off a : Nat} {write : Bool}
    (h : a < off ∨ off + count ≤ a) : (nonstd dev p m buf count off write).mem a = m a := by
  unfold nonstd
  split
  · rename_i f hf
    dsimp only
    apply hd.cb f hf
    cases write with
    | false => simp only [Bool.false_eq_true, if_false, List.length_replicate]; exact h
    | true => simp only [if_true, List.length_take]; omega
  · split
    · rfl
    · rw [readOut_mem]

theorem capAccess_frame {dev : Dev} (hd : Local dev) {p : Pci} {m : Mem} {buf : List Byte} {count off a : Nat} {write : Bool}
    (h : a < off ∨ off + count ≤ a) : (capAccess dev p m buf count off write).mem a = m a := by
  unfold capAccess
  split
  · rfl
  · split
    · rfl
    · split
      · rfl
      · split
        · exact nonstd_frame hd h
        · split
          · rw [readOut_mem]
          · split
            · rfl
            · exact capWrite_frame hd (by omega) h

theorem hdrAccess_frame {p : Pci} {m : Mem} {buf : List Byte} {count off a : Nat} {write : Bool}
    (h : write = true → a < off ∨ off + min buf.length (regSize off) ≤ a) :
    (hdrAccess p m buf count off write).mem a = m a := by
  unfold hdrAccess
  split
  · rfl
  · cases write with
    | false => simp only [Bool.false_eq_true, if_false]; rw [readOut_mem]
    | true =>
      simp only [if_true]
      have := hdrWrite_frame (bar := p.bar) (m := m) (h rfl)
      split <;> exact this

/-- An access changes only bytes of the range it was made for. -/
theorem loop_frame {dev : Dev} (hd : Local dev) (hh : Honest dev) {p : Pci} (hb : Bounded p) (write : Bool) (a : Nat) :
    ∀ (fuel : Nat) (m : Mem) (buf : List Byte) (count off done : Nat), (write = true → buf.length = count) →
    off + count < U64 → (a < off ∨ off + count ≤ a) → (loop dev p write fuel m buf count off done).mem a = m a := by
  intro fuel
  induction fuel with
  | zero => intro m buf count off done _ _ _; rfl
  | succ fuel ih =>
    intro m buf count off done hl hlt ha
    simp only [loop]
    by_cases hc : count = 0
    · rw [if_pos hc]
    · rw [if_neg hc]
      cases hs : nextSegment p count off write with
      | none => rfl
      | some os =>
        obtain ⟨o, size⟩ := os
        dsimp only
        obtain ⟨hp, hle, hok, _⟩ := nextSegment_spec hb (by omega) hlt hs
        generalize hsv : serve dev p o m buf size off write = s
        have hm : s.mem a = m a := by
          rw [← hsv]
          cases o with
          | hdr =>
            refine hdrAccess_frame ?_
            intro hw
            rw [hl hw]
            omega
          | cap => exact capAccess_frame hd (by omega)
          | dflt => exact nonstd_frame hd (by omega)
        cases hr : s.ret with
        | err e => exact hm
        | fault f => exact hm
        | ok n =>
          dsimp only
          have hn : n = size := serve_ret hh (fun h => by rw [hl h]; exact hle) (by rw [hsv]; exact hr)
          subst hn
          rw [if_neg (by omega), if_neg (by omega)]
          dsimp only
          rw [ih s.mem (buf.drop n) (count - n) (off + n) (done + n)
            (fun h => by rw [List.length_drop, hl h]) (by omega) (by omega), hm]

/-- Whatever the layout and wherever the access starts and ends, no byte outside the accessed range changes, so
nothing outside the config space is written either. -/
theorem C45_frame {dev : Dev} (hd : Local dev) (hh : Honest dev) {p : Pci} (hb : Bounded p) {buf : List Byte}
    {count off : Nat} {write : Bool} (hl : write = true → buf.length = count) (hlt : off + count < U64) {a : Nat}
    (ha : a < off ∨ off + count ≤ a) : (access dev p buf count off write).mem a = p.mem a :=
  loop_frame hd hh hb write a count p.mem buf count off 0 hl hlt ha

/-! ## C45: no access out of bounds -/

/-- The sizes `vfu_pci_add_capability` gives the capabilities with a private copy. -/
def Sized (p : Pci) : Prop :=
  ∀ c ∈ p.all, c.ext = false → (c.id = ID_MSI → c.size = 0x18) ∧ (c.id = ID_MSIX → c.size = 12)

/-- Segments that cover whole registers of the header and do not leave their capability. -/
def WholeSeg (p : Pci) (s : Seg) : Prop :=
  match s.owner with
  | .hdr => s.size = regSize s.off
  | .cap => ∀ c ∈ p.all, c.off ≤ s.off → s.off < c.off + c.size → s.off + s.size ≤ c.off + c.size
  | .dflt => True

theorem readOut_nofault {p : Pci} (hb : Bounded p) {m : Mem} {count off : Nat} (hc : 0 < count) (h : off + count ≤ p.size)
    (f : Fault) : (readOut p m count off).ret ≠ .fault f := by
  have := hb.alloc
  unfold readOut
  rw [if_neg (by omega), if_neg (by omega)]
  simp

theorem nonstd_nofault {dev : Dev} (hh : Honest dev) {p : Pci} (hb : Bounded p) {m : Mem} {buf : List Byte}
    {count off : Nat} {write : Bool} (hc : 0 < count) (h : off + count ≤ p.size) (f : Fault) :
    (nonstd dev p m buf count off write).ret ≠ .fault f := by
  unfold nonstd
  split
  · rename_i g hg
    dsimp only
    rcases hh.cb g hg m off (if write then buf.take count else List.replicate count 0#8) write with h' | ⟨e, h'⟩
    · rw [h']; simp
    · rw [h']; simp
  · split
    · simp
    · exact readOut_nofault hb hc h f

theorem capWrite_nofault {dev : Dev} (hh : Honest dev) {p : Pci} (hb : Bounded p) (hsz : Sized p) {m : Mem} {c : Cap}
    (hcm : c ∈ p.all) {buf : List Byte} {count off : Nat} (ho : c.off ≤ off) (h : off + count ≤ c.off + c.size) (f : Fault) :
    (capWrite dev p.alloc m c buf count off).2.1 ≠ .fault f := by
  have h1 := (hb.caps c hcm).2
  have h2 := hb.alloc
  unfold capWrite
  rw [if_neg (by omega)]
  by_cases he : c.ext = true
  · rw [if_pos he]
    split
    · simp
    · rw [if_neg (by omega)]; simp
  · rw [if_neg he]
    obtain ⟨hmsi, hmsix⟩ := hsz c hcm (by simpa using he)
    split
    · exact writePm_fault m c buf count _ f
    · split
      · exact writePx_fault hh m c buf count _ f
      · split
        · rename_i hid
          intro hf
          have := (writeMsi_fault hf).2
          have := hmsi hid
          omega
        · split
          · rename_i hid
            intro hf
            have := (writeMsix_fault hf).2
            have := hmsix hid
            omega
          · rw [if_neg (by omega)]; simp

theorem serve_nofault {dev : Dev} (hh : Honest dev) {p : Pci} (hb : Bounded p) (hsz : Sized p) {m : Mem} {buf : List Byte}
    {count off : Nat} {write : Bool} {o : Owner} {size : Nat} (hc : 0 < count) (hin : off + count ≤ p.size)
    (hl : write = true → count ≤ buf.length) (h : nextSegment p count off write = some (o, size))
    (hw : write = true → WholeSeg p ⟨o, off, size⟩) (f : Fault) : (serve dev p o m buf size off write).ret ≠ .fault f := by
  have hsm := hb.small
  have hlt : off + count < U64 := by simp only [U64]; omega
  obtain ⟨h1, h2, hok, h3, _⟩ := nextSegment_spec hb hc hlt h
  cases o with
  | hdr =>
    simp only [SegOk] at hok
    simp only [serve, hdrAccess]
    rw [if_neg (by omega)]
    cases write with
    | false => simp only [Bool.false_eq_true, if_false]; exact readOut_nofault hb h1 (by omega) f
    | true =>
      simp only [if_true]
      split
      · simp
      · simp
      · rename_i g hg
        have h4 := (hdrWrite_fault hg).2
        have h5 := hw rfl
        simp only [WholeSeg] at h5
        have := hl rfl
        omega
  | cap =>
    obtain ⟨c, hf, hco, hsz'⟩ := h3 rfl
    have hm := capFind_some hf
    have hri := (ri_iff hb hm.1 hlt).1 hm.2
    simp only [serve, capAccess]
    rw [capFind_shorter hb hlt h2 hf hco]
    dsimp only
    rw [if_neg (by omega)]
    split
    · simp
    · split
      · exact nonstd_nofault hh hb h1 (by omega) f
      · split
        · exact readOut_nofault hb h1 (by omega) f
        · split
          · simp
          · rename_i hwr _
            have hwt : write = true := by simpa using hwr
            exact capWrite_nofault hh hb hsz hm.1 hco (hw hwt c hm.1 hco hri.1) f
  | dflt => exact nonstd_nofault hh hb h1 (by omega) f

theorem loop_nofault {dev : Dev} (hh : Honest dev) {p : Pci} (hb : Bounded p) (hsz : Sized p) (write : Bool) (f : Fault) :
    ∀ (fuel : Nat) (m : Mem) (buf : List Byte) (count off done : Nat), count ≤ fuel → (write = true → buf.length = count) →
    off + count ≤ p.size →
    (write = true → ∀ s ∈ (loop dev p write fuel m buf count off done).segs, WholeSeg p s) →
    (loop dev p write fuel m buf count off done).ret ≠ .fault f := by
  intro fuel
  induction fuel with
  | zero =>
    intro m buf count off done hfu _ _ _
    have : count = 0 := by omega
    simp [loop, this]
  | succ fuel ih =>
    intro m buf count off done hfu hl hin
    have hsm := hb.small
    have hlt : off + count < U64 := by simp only [U64]; omega
    simp only [loop]
    by_cases hc : count = 0
    · rw [if_pos hc]; intro _; simp
    · rw [if_neg hc]
      cases hs : nextSegment p count off write with
      | none => intro _; simp
      | some os =>
        obtain ⟨o, size⟩ := os
        dsimp only
        obtain ⟨hp, hle, _⟩ := nextSegment_spec hb (by omega) hlt hs
        have hnf := fun hw => serve_nofault (m := m) hh hb hsz (by omega) hin (fun h => by rw [hl h]; exact Nat.le_refl _) hs hw f
        generalize hsv : serve dev p o m buf size off write = s at hnf
        cases hr : s.ret with
        | err e => intro _; simp
        | fault g =>
          dsimp only
          intro hw
          rw [hr] at hnf
          exact hnf (fun h => hw h _ (List.mem_singleton.2 rfl))
        | ok n =>
          dsimp only
          have hn : n = size := serve_ret hh (fun h => by rw [hl h]; exact hle) (by rw [hsv]; exact hr)
          subst hn
          rw [if_neg (by omega), if_neg (by omega)]
          dsimp only
          intro hw
          exact ih s.mem (buf.drop n) (count - n) (off + n) (done + n) (by omega)
            (fun h => by rw [List.length_drop, hl h]) (by omega)
            (fun h t ht => hw h t (List.mem_cons_of_mem _ ht))

/-- An access inside the config space has no fault (no read beyond the client's data, no access outside the config
space or a private copy, no failed assertion, no endless loop), provided a write ends at the boundary of a header
register and does not run out of a capability it started in the middle of. -/
theorem C45_segments {dev : Dev} (hh : Honest dev) {p : Pci} (hb : Bounded p) (hsz : Sized p) {buf : List Byte}
    {count off : Nat} {write : Bool} (hl : write = true → buf.length = count) (hin : off + count ≤ p.size)
    (hw : write = true → ∀ s ∈ (access dev p buf count off write).segs, WholeSeg p s) (f : Fault) :
    (access dev p buf count off write).ret ≠ .fault f :=
  loop_nofault hh hb hsz write f count p.mem buf count off 0 (Nat.le_refl _) hl hin hw

/-- Capabilities occupy disjoint ranges. -/
def Disj (p : Pci) : Prop := ∀ c ∈ p.all, ∀ d ∈ p.all, c = d ∨ c.off + c.size ≤ d.off ∨ d.off + d.size ≤ c.off

/-- The write lies inside one register of the header: it has its size. -/
def OneReg (off count : Nat) : Prop := off < 64 ∧ count = regSize off

/-- The access lies inside the capability. -/
def Inside (c : Cap) (off count : Nat) : Prop := c.off ≤ off ∧ off + count ≤ c.off + c.size

/-- How a non-empty access inside one capability is split: it is one segment of the capability, or the first segment
is one of the default handler. -/
theorem inside_segment {p : Pci} (hb : Bounded p) (hdj : Disj p) {c : Cap} (hcm : c ∈ p.all) {off count : Nat}
    (hc : 0 < count) (hi : Inside c off count) {write : Bool} :
    (capFind p off count = some c ∧ nextSegment p count off write = some (.cap, count)) ∨
    (∃ d, capFind p off count = some d ∧ off < d.off ∧ nextSegment p count off write = some (.dflt, d.off - off) ∧
      off + count = d.off) := by
  obtain ⟨h1, h2⟩ := hi
  have hbc := hb.caps c hcm
  have hsm := hb.small
  have hlt : off + count < U64 := by simp only [U64]; omega
  have hcri := (ri_iff hb hcm hlt).2 (by omega)
  cases hf : capFind p off count with
  | none =>
    rw [capFind_none hf c hcm] at hcri
    cases hcri
  | some d =>
    have hm := capFind_some hf
    have hri := (ri_iff hb hm.1 hlt).1 hm.2
    by_cases hlo : off < d.off
    · right
      refine ⟨d, rfl, hlo, ?_, ?_⟩
      · unfold nextSegment
        rw [if_neg (by omega), hf]
        dsimp only
        rw [if_pos hlo]
      · rcases hdj c hcm d hm.1 with rfl | h3 | h3 <;> omega
    · left
      have hdc : c = d := by
        rcases hdj c hcm d hm.1 with h3 | h3 | h3
        · exact h3
        · omega
        · omega
      subst hdc
      refine ⟨rfl, ?_⟩
      unfold nextSegment
      rw [if_neg (by omega), hf]
      dsimp only
      rw [if_neg hlo, Nat.min_eq_left (by omega)]

/-- A one-segment access. -/
theorem access_one {dev : Dev} (hh : Honest dev) {p : Pci} {buf : List Byte} {count off : Nat} {write : Bool} {o : Owner}
    (hc : 0 < count) (hl : write = true → buf.length = count) (hs : nextSegment p count off write = some (o, count)) :
    (access dev p buf count off write).mem = (serve dev p o p.mem buf count off write).mem ∧
    (access dev p buf count off write).ret = (serve dev p o p.mem buf count off write).ret ∧
    (access dev p buf count off write).evs = (serve dev p o p.mem buf count off write).evs ∧
    (access dev p buf count off write).segs = [⟨o, off, count⟩] := by
  obtain ⟨k, rfl⟩ : ∃ k, count = k + 1 := ⟨count - 1, by omega⟩
  unfold access
  simp only [loop]
  rw [if_neg (by omega), hs]
  dsimp only
  generalize hsv : serve dev p o p.mem buf (k + 1) off write = s
  cases hr : s.ret with
  | err e => exact ⟨rfl, rfl, rfl, rfl⟩
  | fault f => exact ⟨rfl, rfl, rfl, rfl⟩
  | ok n =>
    dsimp only
    have hn : n = k + 1 := serve_ret hh (fun h => by rw [hl h]; exact Nat.le_refl _) (by rw [hsv]; exact hr)
    subst hn
    rw [if_neg (by omega), if_neg (by omega), Nat.sub_self]
    have : ∀ m b o d, loop dev p write k m b 0 o d = Out.mk m [] (.ok d) [] [] := by
      intro m b o d; cases k <;> simp [loop]
    rw [this]
    refine ⟨rfl, ?_, by simp, rfl⟩
    simp

theorem C45_contained {dev : Dev} (hh : Honest dev) {p : Pci} (hb : Bounded p) (hsz : Sized p) (hdj : Disj p)
    {buf : List Byte} {count off : Nat} (hc : 0 < count) (hl : buf.length = count)
    (hin : OneReg off count ∨ ∃ c ∈ p.all, Inside c off count) (f : Fault) :
    (access dev p buf count off true).ret ≠ .fault f := by
  rcases hin with ⟨h1, h2⟩ | ⟨c, hcm, hi⟩
  · have hs : nextSegment p count off true = some (.hdr, count) := by
      unfold nextSegment
      rw [if_pos h1]
      simp only [if_true]
      rw [if_neg (by omega), ← h2, Nat.min_self]
    have hr := (regSize_le off).2 h1
    refine C45_segments hh hb hsz (fun _ => hl) (by have := hb.std; omega) ?_ f
    intro _ s hsm
    rw [(access_one hh hc (fun _ => hl) hs).2.2.2] at hsm
    rw [List.mem_singleton] at hsm
    subst hsm
    exact h2
  · have hbc := hb.caps c hcm
    obtain ⟨hi1, hi2⟩ := hi
    rcases inside_segment (write := true) hb hdj hcm hc ⟨hi1, hi2⟩ with ⟨_, hs⟩ | ⟨d, hf, hlo, hs, he⟩
    · refine C45_segments hh hb hsz (fun _ => hl) (by omega) ?_ f
      intro _ s hsm
      rw [(access_one hh hc (fun _ => hl) hs).2.2.2] at hsm
      rw [List.mem_singleton] at hsm
      subst hsm
      intro d hdm h1 h2
      rcases hdj c hcm d hdm with rfl | h3 | h3
      · exact hi2
      · dsimp only at h1 h2; omega
      · dsimp only at h1 h2; omega
    · have he' : d.off - off = count := by omega
      rw [he'] at hs
      rw [(access_one hh hc (fun _ => hl) hs).2.1]
      exact nonstd_nofault hh hb hc (by omega) f

/-! ## C41: headers of capabilities, read-only capabilities -/

/-- With no config region callback, or with no later capability that starts right where this one ends, a write inside
a capability never changes the capability's header (unless the device handles the capability itself), and never
changes a read-only capability at all: it is refused. -/
theorem C41_contained {dev : Dev} (hd : Local dev) (hh : Honest dev) {p : Pci} (hb : Bounded p) (hdj : Disj p)
    {c : Cap} (hcm : c ∈ p.all) {buf : List Byte} {count off : Nat} (hc : 0 < count) (hl : buf.length = count)
    (hi : Inside c off count)
    (hq : dev.cb = none ∨ ∀ d ∈ p.all, d.off ≠ off + count) :
    (c.ro = true → (access dev p buf count off true).mem = p.mem ∧ (access dev p buf count off true).evs = [] ∧
      ∃ e, (access dev p buf count off true).ret = .err e) ∧
    (c.cbk = false → ∀ a, c.off ≤ a → a < c.off + c.hdr → (access dev p buf count off true).mem a = p.mem a) ∧
    (c.cbk = false → off < c.off + c.hdr → (access dev p buf count off true).mem = p.mem ∧
      ∃ e, (access dev p buf count off true).ret = .err e) := by
  have hbc := hb.caps c hcm
  have hsm := hb.small
  rcases inside_segment (write := true) hb hdj hcm hc hi with ⟨hf, hs⟩ | ⟨d, hf, hlo, hs, he⟩
  · obtain ⟨e1, e2, e3, _⟩ := access_one hh hc (fun _ => hl) hs
    obtain ⟨hi1, hi2⟩ := hi
    rw [e1, e2, e3]
    simp only [serve, capAccess]
    rw [hf]
    dsimp only
    rw [if_neg (by omega)]
    refine ⟨?_, ?_, ?_⟩
    · intro hro
      rw [if_pos ⟨trivial, hro⟩]
      exact ⟨rfl, rfl, _, rfl⟩
    · intro hk a ha1 ha2
      by_cases hro : c.ro = true
      · rw [if_pos ⟨trivial, hro⟩]
      · rw [if_neg (by simp [hro]), if_neg (by simp [hk]), if_neg (by simp)]
        by_cases hh' : off - c.off < c.hdr
        · rw [if_pos hh']
        · rw [if_neg hh']
          exact capWrite_frame hd hi1 (by omega)
    · intro hk hlt
      by_cases hro : c.ro = true
      · rw [if_pos ⟨trivial, hro⟩]; exact ⟨rfl, _, rfl⟩
      · rw [if_neg (by simp [hro]), if_neg (by simp [hk]), if_neg (by simp), if_pos (by omega)]
        exact ⟨rfl, _, rfl⟩
  · have hnone : dev.cb = none := by
      rcases hq with h | h
      · exact h
      · exact absurd he.symm (h d (capFind_some hf).1)
    have he' : d.off - off = count := by omega
    rw [he'] at hs
    obtain ⟨e1, e2, e3, _⟩ := access_one hh hc (fun _ => hl) hs
    rw [e1, e2, e3]
    simp only [serve, nonstd]
    rw [hnone]
    simp only [if_true]
    exact ⟨fun _ => ⟨trivial, trivial, _, rfl⟩, (fun _ _ _ _ => trivial), fun _ _ => ⟨trivial, _, rfl⟩⟩

/-! ## C46: the header -/

/-- Bytes of the header no client write changes: ids, status, revision, class code, header type, BIST, CardBus CIS,
subsystem ids, capability pointer, reserved bytes, interrupt pin, minimum grant, maximum latency. -/
def roHdr (a : Nat) : Prop :=
  a < 4 ∨ (6 ≤ a ∧ a < 0xc) ∨ a = 0xe ∨ a = 0xf ∨ (0x28 ≤ a ∧ a < 0x30) ∨ (0x34 ≤ a ∧ a < 0x3c) ∨ (0x3d ≤ a ∧ a < 0x40)

theorem hdrWrite_ro {bar : Nat → Nat × Bool} {m : Mem} {buf : List Byte} {off a : Nat} (h : roHdr a) :
    (hdrWrite bar m buf off).1 a = m a := by
  unfold roHdr at h
  by_cases h0 : off = 0x04 ∨ off = 0x3c ∨ off = 0x0c ∨ off = 0x0d ∨ off = 0x10 ∨ off = 0x14 ∨ off = 0x18 ∨ off = 0x1c ∨
    off = 0x20 ∨ off = 0x24 ∨ off = 0x30
  · apply hdrWrite_frame
    have hr : off + regSize off ≤ a ∨ a < off := by
      rcases h0 with rfl | rfl | rfl | rfl | rfl | rfl | rfl | rfl | rfl | rfl | rfl <;>
        simp only [regSize] <;> omega
    omega
  · unfold hdrWrite
    rw [if_neg (by omega)]
    split
    · rfl
    · rw [if_neg (by omega), if_neg (by omega), if_neg (by omega)]

theorem loop_ro {dev : Dev} (hd : Local dev) (hh : Honest dev) {p : Pci} (hb : Bounded p) (write : Bool) {a : Nat}
    (ha : roHdr a) :
    ∀ (fuel : Nat) (m : Mem) (buf : List Byte) (count off done : Nat), (write = true → buf.length = count) →
    off + count < U64 → (loop dev p write fuel m buf count off done).mem a = m a := by
  intro fuel
  have ha' : a < 64 := by unfold roHdr at ha; omega
  induction fuel with
  | zero => intro m buf count off done _ _; rfl
  | succ fuel ih =>
    intro m buf count off done hl hlt
    simp only [loop]
    by_cases hc : count = 0
    · rw [if_pos hc]
    · rw [if_neg hc]
      cases hs : nextSegment p count off write with
      | none => rfl
      | some os =>
        obtain ⟨o, size⟩ := os
        dsimp only
        obtain ⟨hp, hle, hok, _⟩ := nextSegment_spec hb (by omega) hlt hs
        generalize hsv : serve dev p o m buf size off write = s
        have hm : s.mem a = m a := by
          rw [← hsv]
          cases o with
          | hdr =>
            simp only [serve, hdrAccess]
            split
            · rfl
            · cases write with
              | false => simp only [Bool.false_eq_true, if_false]; rw [readOut_mem]
              | true =>
                simp only [if_true]
                have := hdrWrite_ro (bar := p.bar) (m := m) (buf := buf) (off := off) ha
                split <;> exact this
          | cap =>
            simp only [SegOk] at hok
            exact capAccess_frame hd (by omega)
          | dflt =>
            simp only [SegOk] at hok
            exact nonstd_frame hd (by omega)
        cases hr : s.ret with
        | err e => exact hm
        | fault f => exact hm
        | ok n =>
          dsimp only
          have hn : n = size := serve_ret hh (fun h => by rw [hl h]; exact hle) (by rw [hsv]; exact hr)
          subst hn
          rw [if_neg (by omega), if_neg (by omega)]
          dsimp only
          rw [ih s.mem (buf.drop n) (count - n) (off + n) (done + n)
            (fun h => by rw [List.length_drop, hl h]) (by omega), hm]

/-- A client's access. -/
structure Req where
  buf : List Byte
  count : Nat
  off : Nat
  write : Bool

/-- What region access lets through (`lib/libvfio-user.c`, C32): inside the config space, with the data announced. -/
def Req.ok (p : Pci) (r : Req) : Prop := (r.write = true → r.buf.length = r.count) ∧ r.off + r.count ≤ p.size

/-- The config space after an access. -/
def Pci.after (dev : Dev) (p : Pci) (r : Req) : Pci := { p with mem := (access dev p r.buf r.count r.off r.write).mem }

def Pci.run (dev : Dev) (p : Pci) (rs : List Req) : Pci := rs.foldl (Pci.after dev) p

theorem bounded_after {dev : Dev} {p : Pci} {r : Req} (h : Bounded p) : Bounded (p.after dev r) :=
  ⟨h.alloc, h.small, h.std, h.caps⟩

/-- No history of client accesses changes a read-only byte of the header. -/
theorem C46_immutable {dev : Dev} (hd : Local dev) (hh : Honest dev) {a : Nat} (ha : roHdr a) : ∀ (rs : List Req) (p : Pci),
    Bounded p → (∀ r ∈ rs, Req.ok p r) → (p.run dev rs).mem a = p.mem a := by
  intro rs
  induction rs with
  | nil => intro p _ _; rfl
  | cons r rs ih =>
    intro p hb hr
    have h1 := hr r (List.mem_cons_self ..)
    have hsm := hb.small
    have := ih (p.after dev r) (bounded_after hb) (fun q hq => hr q (List.mem_cons_of_mem _ hq))
    unfold Pci.run at this ⊢
    rw [List.foldl_cons, this]
    unfold Req.ok at h1
    exact loop_ro hd hh hb r.write ha r.count p.mem r.buf r.count r.off 0 h1.1 (by simp only [U64]; omega)

/-- What the client sees: region access turns a short count into EINVAL (`lib/libvfio-user.c` `handle_region_access`). -/
def seen (count : Nat) (r : Res Nat) : Res Nat :=
  match r with
  | .ok n => if n ≠ count then .err EINVAL else .ok n
  | r => r

/-- A write that starts at a header offset without a writable or ignored register is refused and changes nothing. -/
theorem C46_undefined {dev : Dev} {p : Pci} {buf : List Byte} {count off : Nat} (hc : 0 < count) (ho : off < 64)
    (hu : regSize off = 0 ∨ off = 0 ∨ off = 0xe ∨ off = 0xf ∨ off = 0x28 ∨ off = 0x2c ∨ off = 0x34) :
    seen count (access dev p buf count off true).ret = .err EINVAL ∧ (access dev p buf count off true).mem = p.mem ∧
    (access dev p buf count off true).evs = [] := by
  obtain ⟨k, rfl⟩ : ∃ k, count = k + 1 := ⟨count - 1, by omega⟩
  unfold access
  simp only [loop]
  rw [if_neg (by omega)]
  unfold nextSegment
  rw [if_pos ho]
  simp only [if_true]
  by_cases h0 : regSize off = 0
  · rw [if_pos h0]
    simp [seen]
  · rw [if_neg h0]
    dsimp only
    have hr := regSize_le off
    have hw : hdrWrite p.bar p.mem buf off = (p.mem, .err EINVAL) := by
      rcases hu with h | rfl | rfl | rfl | rfl | rfl | rfl
      · exact absurd h h0
      all_goals
        unfold hdrWrite
        rw [if_neg (by omega), if_neg (by omega), if_neg (by omega), if_neg (by omega), if_neg (by omega)]
    simp only [serve, hdrAccess]
    rw [if_neg (by omega)]
    simp only [if_true]
    rw [hw]
    simp [seen]

end Verif.Pci
