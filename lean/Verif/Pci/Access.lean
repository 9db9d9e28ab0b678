import Verif.Pci.Lemmas

/-! # Config space accesses: segments and reads (C37, C38) -/

namespace Verif.Pci
open Verif

def Pci.all (p : Pci) : List Cap := p.caps ++ p.exts

/-- Capabilities lie behind the standard header and inside the config space. -/
structure Bounded (p : Pci) : Prop where
  alloc : p.size ≤ p.alloc
  small : p.size ≤ 4096
  std : 256 ≤ p.size
  caps : ∀ c ∈ p.all, 64 ≤ c.off ∧ c.off + c.size ≤ p.size

/-- Callbacks transfer everything they are asked for, or fail. -/
structure Honest (dev : Dev) : Prop where
  cb : ∀ f, dev.cb = some f → ∀ m o b w, (f m o b w).2.2 = .ok b.length ∨ ∃ e, (f m o b w).2.2 = .err e
  reset : ∀ f, dev.reset = some f → ∀ m, (f m).2 = .ok () ∨ ∃ e, (f m).2 = .err e

theorem capFind_eq (p : Pci) (off count : Nat) :
    capFind p off count = p.all.find? (fun c => rangesIntersect off count c.off c.size) := by
  unfold capFind Pci.all
  rw [List.find?_append]
  cases p.caps.find? (fun c => rangesIntersect off count c.off c.size) <;> rfl

theorem ri_iff {p : Pci} (hb : Bounded p) {c : Cap} (hc : c ∈ p.all) {off count : Nat} (h : off + count < U64) :
    rangesIntersect off count c.off c.size = true ↔ off < c.off + c.size ∧ c.off ≤ off + count := by
  have h1 := (hb.caps c hc).2
  have h2 := hb.small
  have e1 : add64 c.off c.size = c.off + c.size := Nat.mod_eq_of_lt (by simp only [U64]; omega)
  have e2 : add64 off count = off + count := Nat.mod_eq_of_lt h
  unfold rangesIntersect
  rw [e1, e2]
  simp only [Bool.and_eq_true, decide_eq_true_eq, ge_iff_le]

theorem capFind_some {p : Pci} {off count : Nat} {c : Cap} (h : capFind p off count = some c) :
    c ∈ p.all ∧ rangesIntersect off count c.off c.size = true := by
  rw [capFind_eq] at h
  refine ⟨List.mem_of_find?_eq_some h, ?_⟩
  have := List.find?_some h
  exact this

theorem capFind_none {p : Pci} {off count : Nat} (h : capFind p off count = none) :
    ∀ c ∈ p.all, rangesIntersect off count c.off c.size = false := by
  rw [capFind_eq, List.find?_eq_none] at h
  intro c hc
  simpa using h c hc

/-- Looking for a shorter range that starts in the capability finds it again. -/
theorem capFind_shorter {p : Pci} (hb : Bounded p) {off count n : Nat} {c : Cap} (hlt : off + count < U64) (hn : n ≤ count)
    (h : capFind p off count = some c) (ho : c.off ≤ off) : capFind p off n = some c := by
  have hs := capFind_some h
  rw [capFind_eq, List.find?_eq_some_iff_append] at h ⊢
  obtain ⟨h1, as, bs, e, h2⟩ := h
  refine ⟨?_, as, bs, e, ?_⟩
  · rw [ri_iff hb hs.1 (by omega)]
    have := (ri_iff hb hs.1 hlt).1 h1
    omega
  · intro d hd
    have hda : d ∈ p.all := by rw [e]; exact List.mem_append_left _ hd
    have h3 := h2 d hd
    rw [Bool.not_eq_true'] at h3 ⊢
    rw [Bool.eq_false_iff, Ne, ri_iff hb hda hlt] at h3
    rw [Bool.eq_false_iff, Ne, ri_iff hb hda (by omega)]
    omega

/-! ## What handlers return -/

theorem regSize_le : ∀ off, regSize off ≤ 4 ∧ (off < 64 → off + regSize off ≤ 64) := by
  intro off
  by_cases h : off < 64
  · have : ∀ i : Fin 64, regSize i.val ≤ 4 ∧ i.val + regSize i.val ≤ 64 := by decide
    exact ⟨(this ⟨off, h⟩).1, fun _ => (this ⟨off, h⟩).2⟩
  · refine ⟨?_, fun h' => absurd h' h⟩
    have : regSize off = 0 := by
      unfold regSize
      split <;> first | omega | rfl
    omega

theorem writePm_ret {m : Mem} {c : Cap} {buf : List Byte} {count rel n : Nat} (h : (writePm m c buf count rel).2 = .ok n) :
    n = count := by
  unfold writePm at h
  by_cases h1 : rel = 2
  · rw [if_pos h1] at h; dsimp only at h; split at h <;> cases h
  · rw [if_neg h1] at h
    by_cases h2 : rel = 4
    · rw [if_pos h2] at h
      by_cases h3 : count ≠ 2
      · rw [if_pos h3] at h; cases h
      · rw [if_neg h3] at h; injection h; omega
    · rw [if_neg h2] at h
      by_cases h3 : rel = 6 ∨ rel = 7
      · rw [if_pos h3] at h; dsimp only at h; split at h <;> cases h
      · rw [if_neg h3] at h; cases h

theorem writePm_fault (m : Mem) (c : Cap) (buf : List Byte) (count rel : Nat) (f : Fault) :
    (writePm m c buf count rel).2 ≠ .fault f := by
  unfold writePm
  split
  · dsimp only; split <;> simp
  · split
    · split <;> simp
    · split
      · dsimp only; split <;> simp
      · simp

theorem writeMsi_ret {m : Mem} {c : Cap} {buf : List Byte} {count rel n : Nat} (h : (writeMsi m c buf count rel).2 = .ok n) :
    n = count := by
  unfold writeMsi at h
  split at h
  · cases h
  · dsimp only at h
    split at h
    · cases h
    · split at h
      · cases h
      · injection h with h; exact h.symm

theorem writeMsi_fault {m : Mem} {c : Cap} {buf : List Byte} {count rel : Nat} {f : Fault}
    (h : (writeMsi m c buf count rel).2 = .fault f) : f = .oob ∧ rel + count > 0x18 := by
  unfold writeMsi at h
  split at h
  · injection h with h; exact ⟨h.symm, by assumption⟩
  · dsimp only at h
    split at h
    · cases h
    · split at h <;> cases h

theorem writeMsix_ret {m : Mem} {c : Cap} {buf : List Byte} {count rel n : Nat} (h : (writeMsix m c buf count rel).2 = .ok n) :
    n = count := by
  unfold writeMsix at h
  split at h
  · cases h
  · injection h with h; exact h.symm

theorem writeMsix_fault {m : Mem} {c : Cap} {buf : List Byte} {count rel : Nat} {f : Fault}
    (h : (writeMsix m c buf count rel).2 = .fault f) : f = .oob ∧ rel + count > 12 := by
  unfold writeMsix at h
  split at h
  · injection h with h; exact ⟨h.symm, by assumption⟩
  · cases h

theorem writePxdc_ret {dev : Dev} {m : Mem} {c : Cap} {buf : List Byte} {n : Nat} (h : (writePxdc dev m c buf).2.1 = .ok n) :
    n = 2 := by
  unfold writePxdc at h
  dsimp only at h
  split at h
  · split at h
    · cases h
    · split at h
      · injection h with h; exact h.symm
      · split at h
        · injection h with h; exact h.symm
        · cases h
        · cases h
  · injection h with h; exact h.symm

theorem writePxdc_fault {dev : Dev} (hd : Honest dev) (m : Mem) (c : Cap) (buf : List Byte) (f : Fault) :
    (writePxdc dev m c buf).2.1 ≠ .fault f := by
  unfold writePxdc
  dsimp only
  split
  · split
    · simp
    · split
      · simp
      · rename_i r hr
        rcases hd.reset r hr (setFields m (wrM m (c.off + 8) (buf.take 2)) (c.off + 8) [(0, 1), (1, 1), (2, 1), (3, 1),
          (4, 1), (5, 3), (8, 1), (9, 1), (10, 1), (11, 1), (12, 3)]) with h | ⟨e, h⟩
        · rw [h]; simp
        · rw [h]; simp
  · simp

theorem writePx_ret {dev : Dev} {m : Mem} {c : Cap} {buf : List Byte} {count rel n : Nat}
    (h : (writePx dev m c buf count rel).2.1 = .ok n) : n = count := by
  unfold writePx at h
  split at h
  · cases h
  · rename_i hc
    have hc : count = 2 := by omega
    split at h
    · rw [writePxdc_ret h, hc]
    · split at h
      · injection h with h; omega
      · split at h
        · injection h with h; omega
        · split at h
          · injection h with h; omega
          · cases h

theorem writePx_fault {dev : Dev} (hd : Honest dev) (m : Mem) (c : Cap) (buf : List Byte) (count rel : Nat) (f : Fault) :
    (writePx dev m c buf count rel).2.1 ≠ .fault f := by
  unfold writePx
  split
  · simp
  · split
    · exact writePxdc_fault hd m c buf f
    · split
      · simp
      · split
        · simp
        · split <;> simp

theorem capWrite_ret {dev : Dev} {alloc : Nat} {m : Mem} {c : Cap} {buf : List Byte} {count off n : Nat}
    (h : (capWrite dev alloc m c buf count off).2.1 = .ok n) : n = count := by
  unfold capWrite at h
  split at h
  · cases h
  · split at h
    · split at h
      · cases h
      · split at h
        · cases h
        · injection h with h; exact h.symm
    · split at h
      · exact writePm_ret h
      · split at h
        · exact writePx_ret h
        · split at h
          · exact writeMsi_ret h
          · split at h
            · exact writeMsix_ret h
            · split at h
              · cases h
              · injection h with h; exact h.symm

/-- The only fault of a capability write is an access out of bounds. -/
theorem capWrite_fault {dev : Dev} (hd : Honest dev) {alloc : Nat} {m : Mem} {c : Cap} {buf : List Byte} {count off : Nat}
    {f : Fault} (h : (capWrite dev alloc m c buf count off).2.1 = .fault f) : f = .oob := by
  unfold capWrite at h
  split at h
  · injection h with h; exact h.symm
  · split at h
    · split at h
      · cases h
      · split at h
        · injection h with h; exact h.symm
        · cases h
    · split at h
      · exact absurd h (writePm_fault m c buf count _ f)
      · split at h
        · exact absurd h (writePx_fault hd m c buf count _ f)
        · split at h
          · exact (writeMsi_fault h).1
          · split at h
            · exact (writeMsix_fault h).1
            · split at h
              · injection h with h; exact h.symm
              · cases h

theorem hdrWrite_fault {bar : Nat → Nat × Bool} {m : Mem} {buf : List Byte} {off : Nat} {f : Fault}
    (h : (hdrWrite bar m buf off).2 = .fault f) : f = .oob ∧ buf.length < regSize off := by
  unfold hdrWrite at h
  split at h
  · rename_i ho
    unfold commandWrite at h
    split at h
    · injection h with h; subst ho; exact ⟨h.symm, by simpa [regSize] using by assumption⟩
    · dsimp only at h; split at h <;> cases h
  · split at h
    · cases h
    · split at h
      · cases h
      · split at h
        · rename_i ho
          unfold barWrite at h
          split at h
          · cases h
          · split at h
            · rename_i hl
              injection h with h
              refine ⟨h.symm, ?_⟩
              have : regSize off = 4 := by
                rcases ho with rfl | rfl | rfl | rfl | rfl | rfl <;> rfl
              omega
            · cases h
        · split at h
          · rename_i ho
            unfold eromWrite at h
            split at h
            · rename_i hl
              injection h with h
              subst ho
              exact ⟨h.symm, by have : regSize 0x30 = 4 := rfl; omega⟩
            · dsimp only at h
              split at h
              · cases h
              · split at h
                · cases h
                · split at h
                  · cases h
                  · split at h <;> cases h
          · cases h

theorem readOut_ret {p : Pci} {m : Mem} {count off n : Nat} (h : (readOut p m count off).ret = .ok n) : n = count := by
  unfold readOut at h
  split at h
  · cases h
  · split at h
    · cases h
    · injection h with h; exact h.symm

theorem readOut_nodiv (p : Pci) (m : Mem) (count off : Nat) : (readOut p m count off).ret ≠ .fault .diverge := by
  unfold readOut
  split
  · simp
  · split <;> simp

theorem nonstd_ret {dev : Dev} (hd : Honest dev) {p : Pci} {m : Mem} {buf : List Byte} {count off n : Nat} {write : Bool}
    (hl : write = true → count ≤ buf.length) (h : (nonstd dev p m buf count off write).ret = .ok n) : n = count := by
  unfold nonstd at h
  split at h
  · rename_i f hf
    dsimp only at h
    rcases hd.cb f hf m off (if write then buf.take count else List.replicate count 0#8) write with h' | ⟨e, h'⟩
    · rw [h'] at h
      injection h with h
      cases write with
      | false => simpa using h.symm
      | true =>
        have := hl rfl
        simp only [if_true, List.length_take] at h
        omega
    · rw [h'] at h; cases h
  · split at h
    · cases h
    · exact readOut_ret h

theorem nonstd_nodiv {dev : Dev} (hd : Honest dev) (p : Pci) (m : Mem) (buf : List Byte) (count off : Nat) (write : Bool) :
    (nonstd dev p m buf count off write).ret ≠ .fault .diverge := by
  unfold nonstd
  split
  · rename_i f hf
    dsimp only
    rcases hd.cb f hf m off (if write then buf.take count else List.replicate count 0#8) write with h' | ⟨e, h'⟩
    · rw [h']; simp
    · rw [h']; simp
  · split
    · simp
    · exact readOut_nodiv p m count off

theorem serve_ret {dev : Dev} (hd : Honest dev) {p : Pci} {o : Owner} {m : Mem} {buf : List Byte} {count off n : Nat}
    {write : Bool} (hl : write = true → count ≤ buf.length) (h : (serve dev p o m buf count off write).ret = .ok n) :
    n = count := by
  cases o with
  | hdr =>
    simp only [serve, hdrAccess] at h
    split at h
    · cases h
    · split at h
      · split at h
        · injection h with h; exact h.symm
        · cases h
        · cases h
      · exact readOut_ret h
  | cap =>
    simp only [serve, capAccess] at h
    split at h
    · cases h
    · split at h
      · cases h
      · split at h
        · cases h
        · split at h
          · exact nonstd_ret hd hl h
          · split at h
            · exact readOut_ret h
            · split at h
              · cases h
              · exact capWrite_ret h
  | dflt => exact nonstd_ret hd hl h

theorem serve_nodiv {dev : Dev} (hd : Honest dev) (p : Pci) (o : Owner) (m : Mem) (buf : List Byte) (count off : Nat)
    (write : Bool) : (serve dev p o m buf count off write).ret ≠ .fault .diverge := by
  cases o with
  | hdr =>
    simp only [serve, hdrAccess]
    split
    · simp
    · split
      · split
        · simp
        · simp
        · rename_i f hf
          have := (hdrWrite_fault hf).1
          subst this
          simp
      · exact readOut_nodiv p m count off
  | cap =>
    simp only [serve, capAccess]
    split
    · simp
    · split
      · simp
      · split
        · simp
        · split
          · exact nonstd_nodiv hd p m buf count off write
          · split
            · exact readOut_nodiv p m count off
            · split
              · simp
              · intro h
                have := capWrite_fault hd h
                cases this
  | dflt => exact nonstd_nodiv hd p m buf count off write

/-! ## C37: tiling -/

/-- The segments follow each other without gap or overlap from `a` to `b`, none of them empty. -/
def Tiles : Nat → List Seg → Nat → Prop
  | a, [], b => a = b
  | a, s :: ss, b => s.off = a ∧ 0 < s.size ∧ Tiles (a + s.size) ss b

/-- Header segments stay inside the header; the others start behind it, and those of capabilities inside one. -/
def SegOk (p : Pci) (s : Seg) : Prop :=
  match s.owner with
  | .hdr => s.off + s.size ≤ 64
  | .cap => 64 ≤ s.off ∧ ∃ c ∈ p.all, c.off ≤ s.off ∧ s.off < c.off + c.size
  | .dflt => 64 ≤ s.off

theorem nextSegment_spec {p : Pci} (hb : Bounded p) {count off : Nat} {write : Bool} {o : Owner} {size : Nat}
    (hc : 0 < count) (hlt : off + count < U64) (h : nextSegment p count off write = some (o, size)) :
    0 < size ∧ size ≤ count ∧ SegOk p ⟨o, off, size⟩ ∧
      (o = .cap → ∃ c, capFind p off count = some c ∧ c.off ≤ off ∧ size = min count c.size) ∧
      (o = .dflt → capFind p off count = none ∧ size = count ∨
        ∃ c, capFind p off count = some c ∧ off < c.off ∧ off + size = c.off) := by
  unfold nextSegment at h
  by_cases h64 : off < 64
  · rw [if_pos h64] at h
    have hr := regSize_le off
    cases write with
    | true =>
      simp only [if_true] at h
      by_cases h0 : regSize off = 0
      · rw [if_pos h0] at h; cases h
      · rw [if_neg h0] at h
        injection h with h; injection h with e1 e2
        subst e1; subst e2
        have := hr.2 h64
        refine ⟨by omega, by omega, ?_, (fun h => by cases h), (fun h => by cases h)⟩
        simp only [SegOk]
        omega
    | false =>
      simp only [Bool.false_eq_true, if_false] at h
      injection h with h; injection h with e1 e2
      subst e1; subst e2
      refine ⟨by omega, by omega, ?_, (fun h => by cases h), (fun h => by cases h)⟩
      simp only [SegOk]
      omega
  · rw [if_neg h64] at h
    cases hf : capFind p off count with
    | none =>
      rw [hf] at h
      injection h with h; injection h with e1 e2
      subst e1; subst e2
      exact ⟨hc, Nat.le_refl _, by simp only [SegOk]; omega, (fun h => by cases h), fun _ => .inl ⟨rfl, rfl⟩⟩
    | some c =>
      rw [hf] at h
      dsimp only at h
      have hm := capFind_some hf
      have hri := (ri_iff hb hm.1 hlt).1 hm.2
      by_cases hlo : off < c.off
      · rw [if_pos hlo] at h
        injection h with h; injection h with e1 e2
        subst e1; subst e2
        exact ⟨by omega, by omega, by simp only [SegOk]; omega, (fun h => by cases h),
          fun _ => .inr ⟨c, rfl, hlo, by omega⟩⟩
      · rw [if_neg hlo] at h
        injection h with h; injection h with e1 e2
        subst e1; subst e2
        refine ⟨by omega, by omega, ?_, fun _ => ⟨c, rfl, by omega, rfl⟩, (fun h => by cases h)⟩
        simp only [SegOk]
        exact ⟨by omega, c, hm.1, by omega, by omega⟩

theorem nextSegment_none {p : Pci} {count off : Nat} {write : Bool} (h : nextSegment p count off write = none) :
    write = true ∧ off < 64 ∧ regSize off = 0 := by
  unfold nextSegment at h
  by_cases h64 : off < 64
  · rw [if_pos h64] at h
    cases write with
    | true =>
      simp only [if_true] at h
      by_cases h0 : regSize off = 0
      · exact ⟨rfl, h64, h0⟩
      · rw [if_neg h0] at h; cases h
    | false => simp at h
  · rw [if_neg h64] at h
    split at h
    · cases h
    · split at h <;> cases h

theorem loop_tiles {dev : Dev} (hd : Honest dev) {p : Pci} (hb : Bounded p) (write : Bool) :
    ∀ (fuel : Nat) (m : Mem) (buf : List Byte) (count off done : Nat), count ≤ fuel → (write = true → count ≤ buf.length) →
    off + count < U64 →
    ∃ e, Tiles off (loop dev p write fuel m buf count off done).segs e ∧ e ≤ off + count ∧
      (loop dev p write fuel m buf count off done).ret ≠ .fault .diverge ∧
      (∀ s ∈ (loop dev p write fuel m buf count off done).segs, SegOk p s) ∧
      (∀ n, (loop dev p write fuel m buf count off done).ret = .ok n →
        n = done + count ∧ e = off + count ∨ n = 0 ∧ write = true ∧ e < off + count ∧ e < 64 ∧ regSize e = 0) := by
  intro fuel
  induction fuel with
  | zero =>
    intro m buf count off done hf hl hlt
    have hc : count = 0 := by omega
    subst hc
    refine ⟨off, rfl, by omega, by simp [loop], by simp [loop], ?_⟩
    intro n hn
    simp only [loop, if_true] at hn
    injection hn with hn
    exact .inl ⟨by omega, rfl⟩
  | succ fuel ih =>
    intro m buf count off done hf hl hlt
    by_cases hc : count = 0
    · simp only [loop, hc, if_true]
      refine ⟨off, rfl, by omega, by simp, by simp, ?_⟩
      intro n hn
      injection hn with hn
      exact .inl ⟨by omega, rfl⟩
    · simp only [loop]
      rw [if_neg hc]
      cases hs : nextSegment p count off write with
      | none =>
        dsimp only
        obtain ⟨h1, h2, h3⟩ := nextSegment_none hs
        refine ⟨off, rfl, by omega, by simp, by simp, ?_⟩
        intro n hn
        injection hn with hn
        exact .inr ⟨hn.symm, h1, by omega, h2, h3⟩
      | some os =>
        obtain ⟨o, size⟩ := os
        dsimp only
        obtain ⟨hp, hle, hok, _⟩ := nextSegment_spec hb (by omega) hlt hs
        generalize hsv : serve dev p o m buf size off write = s
        have hnd := serve_nodiv hd p o m buf size off write
        rw [hsv] at hnd
        cases hr : s.ret with
        | err e =>
          dsimp only
          refine ⟨off + size, ⟨rfl, hp, rfl⟩, by omega, by simp, ?_, by intro n hn; cases hn⟩
          intro t ht
          rw [List.mem_singleton] at ht
          subst ht
          exact hok
        | fault f =>
          dsimp only
          rw [hr] at hnd
          refine ⟨off + size, ⟨rfl, hp, rfl⟩, by omega, hnd, ?_, by intro n hn; cases hn⟩
          intro t ht
          rw [List.mem_singleton] at ht
          subst ht
          exact hok
        | ok n =>
          dsimp only
          have hn : n = size := serve_ret hd (fun h => Nat.le_trans hle (hl h)) (by rw [hsv]; exact hr)
          subst hn
          rw [if_neg (by omega), if_neg (by omega)]
          dsimp only
          obtain ⟨e, h1, h2, h3, h4, h5⟩ := ih s.mem (buf.drop n) (count - n) (off + n) (done + n) (by omega)
            (fun h => by have := hl h; rw [List.length_drop]; omega) (by omega)
          refine ⟨e, ⟨rfl, hp, h1⟩, by omega, h3, ?_, ?_⟩
          · intro t ht
            rcases List.mem_cons.1 ht with rfl | ht
            · exact hok
            · exact h4 t ht
          · intro k hk
            rcases h5 k hk with ⟨h6, h7⟩ | ⟨h6, h7, h8, h9, h10⟩
            · exact .inl ⟨by omega, by omega⟩
            · exact .inr ⟨h6, h7, by omega, h9, h10⟩

/-- Every access is processed as consecutive, non-empty segments that start at the requested offset and never go past
its end, and it finishes. A successful access is covered exactly; a write that reaches a header offset without register
reports 0 bytes (which region access turns into EINVAL). -/
theorem C37_tiling {dev : Dev} (hd : Honest dev) {p : Pci} (hb : Bounded p) {buf : List Byte} {count off : Nat}
    {write : Bool} (hl : write = true → count ≤ buf.length) (hlt : off + count < U64) :
    ∃ e, Tiles off (access dev p buf count off write).segs e ∧ e ≤ off + count ∧
      (access dev p buf count off write).ret ≠ .fault .diverge ∧
      (∀ s ∈ (access dev p buf count off write).segs, SegOk p s) ∧
      (∀ n, (access dev p buf count off write).ret = .ok n →
        n = count ∧ e = off + count ∨ n = 0 ∧ write = true ∧ e < off + count ∧ e < 64 ∧ regSize e = 0) := by
  obtain ⟨e, h1, h2, h3, h4, h5⟩ := loop_tiles hd hb write count p.mem buf count off 0 (Nat.le_refl _) hl hlt
  refine ⟨e, h1, h2, h3, h4, ?_⟩
  intro n hn
  rcases h5 n hn with ⟨h6, h7⟩ | h6
  · exact .inl ⟨by omega, h7⟩
  · exact .inr h6

/-- Capabilities in the order they are searched are in the order of their offsets, without overlap. -/
def Ascending (p : Pci) : Prop := p.all.Pairwise (fun c d => c.off + c.size ≤ d.off)

/-- Exactly one owner: a capability segment lies inside one capability, a default segment touches none. -/
def OwnerOk (p : Pci) (s : Seg) : Prop :=
  match s.owner with
  | .hdr => s.off + s.size ≤ 64
  | .cap => ∃ c ∈ p.all, c.off ≤ s.off ∧ s.off + s.size ≤ c.off + c.size
  | .dflt => 64 ≤ s.off ∧ ∀ c ∈ p.all, 0 < c.size → c.off + c.size ≤ s.off ∨ s.off + s.size ≤ c.off

/-- The access does not start in the middle of a capability it runs out of. -/
def Entry (p : Pci) (off count : Nat) : Prop :=
  ∀ c ∈ p.all, c.off < off → off < c.off + c.size → off + count ≤ c.off + c.size

/-- In an ascending list the capability found is the first one the range reaches. -/
theorem capFind_first {p : Pci} (hb : Bounded p) (ha : Ascending p) {off count : Nat} {c : Cap} (hlt : off + count < U64)
    (h : capFind p off count = some c) :
    ∀ d ∈ p.all, d = c ∨ c.off + c.size ≤ d.off ∨ d.off + d.size ≤ off ∧ d.off + d.size ≤ c.off := by
  have hs := capFind_some h
  have h0 := (ri_iff hb hs.1 hlt).1 hs.2
  rw [capFind_eq, List.find?_eq_some_iff_append] at h
  obtain ⟨_, as, bs, e, h2⟩ := h
  unfold Ascending at ha
  rw [e, List.pairwise_append] at ha
  obtain ⟨_, h4, h5⟩ := ha
  intro d hd
  rw [e] at hd
  rcases List.mem_append.1 hd with hd' | hd'
  · right; right
    have h6 := h5 d hd' c (List.mem_cons_self ..)
    have h3 := h2 d hd'
    rw [Bool.not_eq_true', Bool.eq_false_iff, Ne, ri_iff hb (by rw [e]; exact hd) hlt] at h3
    have := hs.2
    refine ⟨?_, h6⟩
    omega
  · rcases List.mem_cons.1 hd' with rfl | hd'
    · exact .inl rfl
    · right; left
      exact (List.pairwise_cons.1 h4).1 d hd'

theorem entry_after {p : Pci} (hb : Bounded p) (ha : Ascending p) {count off : Nat} {write : Bool} {o : Owner} {size : Nat}
    (hc : 0 < count) (hlt : off + count < U64) (he : Entry p off count) (h : nextSegment p count off write = some (o, size)) :
    OwnerOk p ⟨o, off, size⟩ ∧ Entry p (off + size) (count - size) := by
  obtain ⟨h1, h2, hok, h3, h4⟩ := nextSegment_spec hb hc hlt h
  cases o with
  | hdr =>
    refine ⟨hok, ?_⟩
    intro c hcm hlo _
    have := (hb.caps c hcm).1
    simp only [SegOk] at hok
    omega
  | cap =>
    obtain ⟨c, hf, hco, hsz⟩ := h3 rfl
    have hm := capFind_some hf
    have hri := (ri_iff hb hm.1 hlt).1 hm.2
    have hfit : off + size ≤ c.off + c.size := by
      by_cases hlo : c.off < off
      · have := he c hm.1 hlo hri.1; omega
      · omega
    refine ⟨⟨c, hm.1, hco, hfit⟩, ?_⟩
    intro d hdm hdlo hdhi
    rcases capFind_first hb ha hlt hf d hdm with rfl | h5 | h5
    · by_cases hlo : d.off < off
      · have := he d hm.1 hlo hri.1; omega
      · omega
    · omega
    · omega
  | dflt =>
    simp only [SegOk] at hok
    rcases h4 rfl with ⟨hf, hsz⟩ | ⟨c, hf, hlo, hsz⟩
    · refine ⟨⟨hok, ?_⟩, ?_⟩
      · intro c hcm _
        have := capFind_none hf c hcm
        rw [Bool.eq_false_iff, Ne, ri_iff hb hcm hlt] at this
        dsimp only
        omega
      · intro d hdm h6 h7
        have := capFind_none hf d hdm
        rw [Bool.eq_false_iff, Ne, ri_iff hb hdm hlt] at this
        omega
    · refine ⟨⟨hok, ?_⟩, ?_⟩
      · intro d hdm _
        dsimp only
        rcases capFind_first hb ha hlt hf d hdm with rfl | h5 | h5 <;> omega
      · intro d hdm h6 h7
        rcases capFind_first hb ha hlt hf d hdm with rfl | h5 | h5 <;> omega

theorem loop_owners {dev : Dev} (hd : Honest dev) {p : Pci} (hb : Bounded p) (ha : Ascending p) (write : Bool) :
    ∀ (fuel : Nat) (m : Mem) (buf : List Byte) (count off done : Nat), (write = true → count ≤ buf.length) →
    off + count < U64 → Entry p off count → ∀ s ∈ (loop dev p write fuel m buf count off done).segs, OwnerOk p s := by
  intro fuel
  induction fuel with
  | zero => intro m buf count off done hl hlt he s hs; simp [loop] at hs
  | succ fuel ih =>
    intro m buf count off done hl hlt he s hs
    simp only [loop] at hs
    by_cases hc : count = 0
    · rw [if_pos hc] at hs; simp at hs
    · rw [if_neg hc] at hs
      cases hsg : nextSegment p count off write with
      | none => rw [hsg] at hs; simp at hs
      | some os =>
        obtain ⟨o, size⟩ := os
        rw [hsg] at hs
        dsimp only at hs
        obtain ⟨hp, hle, _⟩ := nextSegment_spec hb (by omega) hlt hsg
        obtain ⟨hok, hent⟩ := entry_after hb ha (by omega) hlt he hsg
        generalize hsv : serve dev p o m buf size off write = v at hs
        cases hr : v.ret with
        | err e =>
          rw [hr] at hs; dsimp only at hs
          rw [List.mem_singleton] at hs; subst hs; exact hok
        | fault f =>
          rw [hr] at hs; dsimp only at hs
          rw [List.mem_singleton] at hs; subst hs; exact hok
        | ok n =>
          rw [hr] at hs
          dsimp only at hs
          have hn : n = size := serve_ret hd (fun h => Nat.le_trans hle (hl h)) (by rw [hsv]; exact hr)
          subst hn
          rw [if_neg (by omega), if_neg (by omega)] at hs
          dsimp only at hs
          rcases List.mem_cons.1 hs with rfl | hs
          · exact hok
          · exact ih v.mem (buf.drop n) (count - n) (off + n) (done + n)
              (fun h => by have := hl h; rw [List.length_drop]; omega) (by omega) hent s hs

/-- When the capabilities were added in the order of their offsets and the access does not run out of a capability it
started in the middle of, every segment belongs to its owner alone. -/
theorem C37_owners {dev : Dev} (hd : Honest dev) {p : Pci} (hb : Bounded p) (ha : Ascending p) {buf : List Byte}
    {count off : Nat} {write : Bool} (hl : write = true → count ≤ buf.length) (hlt : off + count < U64)
    (he : Entry p off count) : ∀ s ∈ (access dev p buf count off write).segs, OwnerOk p s :=
  loop_owners hd hb ha write count p.mem buf count off 0 hl hlt he

/-! ## C38: reads -/

theorem serve_read {dev : Dev} (hcb : dev.cb = none) {p : Pci} (hb : Bounded p) {m : Mem} {count off : Nat} {o : Owner}
    {size : Nat} (hc : 0 < count) (hin : off + count ≤ p.size)
    (h : nextSegment p count off false = some (o, size)) (buf : List Byte) :
    serve dev p o m buf size off false = SegOut.mk m (rdM m off size) (.ok size) [] := by
  have hsm := hb.small
  have hal := hb.alloc
  have hlt : off + count < U64 := by simp only [U64]; omega
  obtain ⟨h1, h2, hok, h3, _⟩ := nextSegment_spec hb hc hlt h
  have hro : readOut p m size off = SegOut.mk m (rdM m off size) (.ok size) [] := by
    unfold readOut
    rw [if_neg (by omega), if_neg (by omega)]
  have hns : nonstd dev p m buf size off false = SegOut.mk m (rdM m off size) (.ok size) [] := by
    unfold nonstd
    rw [hcb]
    simpa using hro
  cases o with
  | hdr =>
    simp only [SegOk] at hok
    simp only [serve, hdrAccess]
    rw [if_neg (by omega)]
    simpa using hro
  | cap =>
    obtain ⟨c, hf, hco, hsz⟩ := h3 rfl
    simp only [serve, capAccess]
    rw [capFind_shorter hb hlt h2 hf hco]
    dsimp only
    rw [if_neg (by omega), if_neg (by simp)]
    by_cases hk : c.cbk = true
    · rw [if_pos hk]; exact hns
    · rw [if_neg hk]; simpa using hro
  | dflt => exact hns

theorem loop_read {dev : Dev} (hcb : dev.cb = none) {p : Pci} (hb : Bounded p) (m : Mem) :
    ∀ (fuel : Nat) (buf : List Byte) (count off done : Nat), count ≤ fuel → off + count ≤ p.size →
    (loop dev p false fuel m buf count off done).mem = m ∧
    (loop dev p false fuel m buf count off done).data = rdM m off count ∧
    (loop dev p false fuel m buf count off done).ret = .ok (done + count) ∧
    (loop dev p false fuel m buf count off done).evs = [] := by
  intro fuel
  induction fuel with
  | zero =>
    intro buf count off done hf hin
    have hc : count = 0 := by omega
    subst hc
    simp [loop, rdM_zero]
  | succ fuel ih =>
    intro buf count off done hf hin
    simp only [loop]
    by_cases hc : count = 0
    · rw [if_pos hc]; subst hc; simp [rdM_zero]
    · rw [if_neg hc]
      have hsm := hb.small
      cases hsg : nextSegment p count off false with
      | none => have := (nextSegment_none hsg).1; cases this
      | some os =>
        obtain ⟨o, size⟩ := os
        dsimp only
        have hlt : off + count < U64 := by simp only [U64]; omega
        obtain ⟨hp, hle, _⟩ := nextSegment_spec hb (by omega) hlt hsg
        rw [serve_read hcb hb (by omega) hin hsg buf]
        dsimp only
        rw [if_neg (by omega), if_neg (by omega)]
        obtain ⟨h1, h2, h3, h4⟩ := ih (buf.drop size) (count - size) (off + size) (done + size) (by omega) (by omega)
        refine ⟨h1, ?_, ?_, ?_⟩
        · rw [h2, List.take_of_length_le (by rw [rdM_length]; omega), rdM_append, show size + (count - size) = count by omega]
        · rw [h3]; congr 1; omega
        · rw [h4]; rfl

/-- Without a device callback a read returns the stored bytes, whatever the layout, width and alignment, and has no
side effect. -/
theorem C38_read {dev : Dev} (hcb : dev.cb = none) {p : Pci} (hb : Bounded p) (buf : List Byte) {count off : Nat}
    (hin : off + count ≤ p.size) :
    (access dev p buf count off false).ret = .ok count ∧
    (access dev p buf count off false).data = rdM p.mem off count ∧
    (access dev p buf count off false).mem = p.mem ∧ (access dev p buf count off false).evs = [] := by
  obtain ⟨h1, h2, h3, h4⟩ := loop_read hcb hb p.mem count buf count off 0 (Nat.le_refl _) hin
  exact ⟨by unfold access; rw [h3]; congr 1; omega, h2, h1, h4⟩

end Verif.Pci
