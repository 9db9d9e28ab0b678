import Verif.Pci.Regs
import Verif.Pci.Find

/-! # The registers of the header one by one (C46), versions of extended capabilities (C40) -/

namespace Verif.Pci
open Verif

theorem hdr_access {dev : Dev} (hh : Honest dev) {p : Pci} {buf : List Byte} {count off : Nat} (hl : buf.length = count)
    (hc : 0 < count) (ho : off < 64) (hr : count ≤ regSize off) :
    (access dev p buf count off true).mem = (hdrWrite p.bar p.mem buf off).1 ∧
    (access dev p buf count off true).evs = [] ∧
    (access dev p buf count off true).ret = match (hdrWrite p.bar p.mem buf off).2 with
      | .ok () => .ok count | .err e => .err e | .fault f => .fault f := by
  have h4 := regSize_le off
  have hs : nextSegment p count off true = some (.hdr, count) := by
    unfold nextSegment
    rw [if_pos ho]
    simp only [if_true]
    rw [if_neg (by omega), Nat.min_eq_left hr]
  obtain ⟨h1, h2, h3, _⟩ := access_one hh hc (fun _ => hl) hs
  have hsv : serve dev p .hdr p.mem buf count off true = SegOut.mk (hdrWrite p.bar p.mem buf off).1 []
      (match (hdrWrite p.bar p.mem buf off).2 with
      | .ok () => .ok count | .err e => .err e | .fault f => .fault f) [] := by
    simp only [serve, hdrAccess]
    rw [if_neg (by omega)]
    simp only [if_true]
    cases (hdrWrite p.bar p.mem buf off).2 <;> rfl
  rw [h1, h2, h3, hsv]
  exact ⟨rfl, rfl, rfl⟩

/-- C46: writes to (the beginning of) status, revision, class code, interrupt pin, minimum grant and maximum latency
succeed without any effect. -/
theorem C46_ignored {dev : Dev} (hh : Honest dev) (p : Pci) {off width : Nat}
    (hr : (off, width) ∈ [(0x06, 2), (0x08, 1), (0x09, 3), (0x3d, 1), (0x3e, 1), (0x3f, 1)]) {buf : List Byte}
    (h0 : 0 < buf.length) (hw : buf.length ≤ width) :
    (access dev p buf buf.length off true).ret = .ok buf.length ∧
    (access dev p buf buf.length off true).mem = p.mem ∧ (access dev p buf buf.length off true).evs = [] := by
  have key : off < 64 ∧ width = regSize off ∧
      (off = 0x06 ∨ off = 0x08 ∨ off = 0x09 ∨ off = 0x3d ∨ off = 0x3e ∨ off = 0x3f) := by
    simp only [List.mem_cons, Prod.mk.injEq, List.not_mem_nil, or_false] at hr
    rcases hr with ⟨rfl, rfl⟩ | ⟨rfl, rfl⟩ | ⟨rfl, rfl⟩ | ⟨rfl, rfl⟩ | ⟨rfl, rfl⟩ | ⟨rfl, rfl⟩ <;>
      exact ⟨by omega, rfl, by omega⟩
  obtain ⟨h1, h2, h3⟩ := hdr_access (p := p) hh rfl h0 key.1 (by rw [← key.2.1]; exact hw)
  have hx : hdrWrite p.bar p.mem buf off = (p.mem, .ok ()) := by
    unfold hdrWrite
    rw [if_neg (by omega), if_pos (by omega)]
  rw [h1, h2, h3, hx]
  exact ⟨rfl, rfl, rfl⟩

/-- C46: a byte written to cache line size, latency timer or interrupt line is stored there, and nothing else changes. -/
theorem C46_stored {dev : Dev} (hh : Honest dev) (p : Pci) {off : Nat} (hr : off = 0x0c ∨ off = 0x0d ∨ off = 0x3c) (b : Byte) :
    (access dev p [b] 1 off true).ret = .ok 1 ∧ (access dev p [b] 1 off true).evs = [] ∧
    ∀ a, (access dev p [b] 1 off true).mem a = if a = off then b else p.mem a := by
  have hs : regSize off = 1 := by rcases hr with rfl | rfl | rfl <;> rfl
  obtain ⟨h1, h2, h3⟩ := hdr_access (p := p) (buf := [b]) (off := off) hh rfl (by simp) (by omega) (by rw [hs]; simp)
  have hx : hdrWrite p.bar p.mem [b] off = (wrM p.mem off [b], .ok ()) := by
    unfold hdrWrite
    rw [if_neg (by omega), if_neg (by omega), if_pos (by omega)]
    rfl
  rw [hx] at h1 h3
  refine ⟨h3, h2, fun a => ?_⟩
  rw [show (access dev p [b] 1 off true).mem = _ from h1]
  change wrM p.mem off [b] a = _
  by_cases ha : a = off
  · rw [if_pos ha, wrM_in (by omega) (by simp only [List.length_singleton]; omega), show a - off = 0 by omega]; rfl
  · rw [if_neg ha, wrM_out (by simp only [List.length_singleton]; omega)]

/-- C46: of the expansion ROM register only clearing has an effect; the values a driver uses for sizing (the address mask,
all ones, all but the enable bit) are accepted without any, all others are refused. -/
theorem C46_rom {dev : Dev} (hh : Honest dev) (p : Pci) {v : Nat} (hv : v < U32) :
    (access dev p (enc 4 v) 4 0x30 true).ret =
      (if v = 0 ∨ v = 0xfffff800 ∨ v = 0xfffffffe ∨ v = 0xffffffff then .ok 4 else .err EINVAL) ∧
    (access dev p (enc 4 v) 4 0x30 true).evs = [] ∧
    ∀ a, (access dev p (enc 4 v) 4 0x30 true).mem a = if v = 0 ∧ 0x30 ≤ a ∧ a < 0x34 then 0#8 else p.mem a := by
  obtain ⟨h1, h2, h3⟩ := hdr_access (p := p) (buf := enc 4 v) (count := 4) (off := 0x30) hh (enc_length 4 v) (by omega)
    (by omega) (Nat.le_refl _)
  have hle : leAt (enc 4 v) 0 4 = v := by rw [leAt_enc]; exact Nat.mod_eq_of_lt hv
  have hx : hdrWrite p.bar p.mem (enc 4 v) 0x30 = eromWrite p.mem (enc 4 v) := rfl
  rw [hx] at h1 h3
  unfold eromWrite at h1 h3
  rw [if_neg (by rw [enc_length]; omega)] at h1 h3
  dsimp only at h1 h3
  rw [hle] at h1 h3
  refine ⟨?_, h2, fun a => ?_⟩
  · rw [h3]
    by_cases e1 : v = 0xfffff800
    · rw [if_pos e1, if_pos (by omega)]
    by_cases e2 : v = 0
    · rw [if_neg e1, if_pos e2, if_pos (by omega)]
    by_cases e3 : v = 0xfffffffe
    · rw [if_neg e1, if_neg e2, if_pos e3, if_pos (by omega)]
    by_cases e4 : v = 0xffffffff
    · rw [if_neg e1, if_neg e2, if_neg e3, if_pos e4, if_pos (by omega)]
    · rw [if_neg e1, if_neg e2, if_neg e3, if_neg e4, if_neg (by omega)]
  · rw [h1]
    by_cases e2 : v = 0
    · have e1 : ¬ v = 0xfffff800 := by omega
      rw [if_neg e1, if_pos e2]
      dsimp only
      by_cases ha : 0x30 ≤ a ∧ a < 0x34
      · rw [if_pos ⟨e2, ha⟩, wrM_in ha.1 (by rw [enc_length]; omega)]
        have : ∀ i : Fin 4, (enc 4 0).getD i.val 0#8 = 0#8 := by decide
        exact this ⟨a - 0x30, by omega⟩
      · rw [if_neg (fun h => ha h.2), wrM_out (by rw [enc_length]; omega)]
    · have e5 : ¬ (v = 0 ∧ 0x30 ≤ a ∧ a < 0x34) := fun h => e2 h.1
      rw [if_neg e5]
      by_cases e1 : v = 0xfffff800
      · rw [if_pos e1]
      by_cases e3 : v = 0xfffffffe
      · rw [if_neg e1, if_neg e2, if_pos e3]
      by_cases e4 : v = 0xffffffff
      · rw [if_neg e1, if_neg e2, if_neg e3, if_pos e4]
      · rw [if_neg e1, if_neg e2, if_neg e3, if_neg e4]

/-- C46: a write that does not start at one of the registers above, the command register or a BAR is refused without any
effect, however long it is. -/
theorem C46_refused {dev : Dev} (p : Pci) {buf : List Byte} {count off : Nat} (hc : 0 < count) (ho : off < 64)
    (hu : off ∉ [0x04, 0x06, 0x08, 0x09, 0x0c, 0x0d, 0x10, 0x14, 0x18, 0x1c, 0x20, 0x24, 0x30, 0x3c, 0x3d, 0x3e, 0x3f]) :
    seen count (access dev p buf count off true).ret = .err EINVAL ∧ (access dev p buf count off true).mem = p.mem ∧
    (access dev p buf count off true).evs = [] := by
  refine C46_undefined hc ho ?_
  have : ∀ i : Fin 64, i.val ∉ [0x04, 0x06, 0x08, 0x09, 0x0c, 0x0d, 0x10, 0x14, 0x18, 0x1c, 0x20, 0x24, 0x30, 0x3c, 0x3d,
      0x3e, 0x3f] → regSize i.val = 0 ∨ i.val = 0 ∨ i.val = 0xe ∨ i.val = 0xf ∨ i.val = 0x28 ∨ i.val = 0x2c ∨ i.val = 0x34 := by
    decide
  exact this ⟨off, ho⟩ hu

/-- The version of an extended capability: bits 16 to 19 of its header. -/
def extVersion (m : Mem) (a : Nat) : Nat := (m (a + 2)).toNat % 16

theorem setNext_version {m : Mem} {a v b : Nat} (h : b = a ∨ b + 2 < a + 2 ∨ a + 4 ≤ b + 2) :
    extVersion (setNext m a v) b = extVersion m b := by
  unfold extVersion
  rcases h with rfl | h
  · unfold setNext
    rw [wrM_in (by omega) (by simp)]
    have := (m (b + 2)).isLt
    simp only [Nat.sub_self, List.getD_cons_zero, BitVec.toNat_ofNat]
    omega
  · rw [setNext_out h]

/-- C40: adding an extended capability keeps its version as given and the versions of the others. -/
theorem C40_version {hasCb : Bool} {p p' : Pci} (h : Reach hasCb p) {pos off : Nat} {fl : CapFlags} {data : List Byte}
    (hf : fl.ext = true) (hmin : ∀ s, extSize (leAt data 0 2) (leAt data 4 4) = some s → 4 ≤ s)
    (ha : addCap hasCb p pos fl data = (p', .ok off))
    (hap : pos = 0 → ∀ c ∈ p'.all, c.off = off → ∀ d ∈ p.all, Apart off c.size d) :
    extVersion p'.mem off = (data.getD 2 0#8).toNat % 16 ∧ ∀ c ∈ p.exts, extVersion p'.mem c.off = extVersion p.mem c.off := by
  have hi := h.inv
  obtain ⟨size, m', h1, _, h2, h3, h4, _, h5, h6, hp, hm⟩ := addExt_ok hi (addCap_ext hf ha)
  have hap' : ∀ d ∈ p.all, Apart off size d := by
    by_cases hpos : pos = 0
    · refine hap hpos ⟨true, leAt data 0 2, off, extHdr (leAt data 0 2), size, fl.ro, fl.cbk⟩ ?_ rfl
      rw [hp]; unfold Pci.all; simp
    · exact (h5 hpos).2
  have hlast : p.exts ≠ [] → ∃ c ∈ p.exts, c.off = endHdr 256 (p.exts.map Cap.off).tail := by
    intro hne
    have hx := hi.xwalk
    have := endHdr_mem (p.exts.map Cap.off).tail 256
    cases he : p.exts with
    | nil => exact absurd he hne
    | cons c l =>
      rw [he] at hx this
      simp only [List.map_cons, List.tail_cons] at this hx ⊢
      have h9 : endHdr 256 (l.map Cap.off) ∈ (c :: l).map Cap.off := by
        rw [← hx.1] at this; rw [← hx.1]; exact this
      rw [List.mem_map] at h9
      exact h9
  have hsz : ∀ c ∈ p.exts, 4 ≤ c.size := fun c hc => by
    have h8 := (hi.ext c hc).fits
    have h9 := (hi.ext c hc).hdr
    have h10 := extHdr_ge c.id
    omega
  have hs4 := hmin size h1
  rw [hp]
  dsimp only
  have hnew : extVersion (wrM p.mem off (data.take size)) off = (data.getD 2 0#8).toNat % 16 := by
    unfold extVersion
    rw [wrM_in (by omega) (by rw [List.length_take]; omega), take_getD (by omega), show off + 2 - off = 2 by omega]
  have hold : ∀ c ∈ p.exts, extVersion (wrM p.mem off (data.take size)) c.off = extVersion p.mem c.off := fun c hc => by
    have h7 := hap' c (mem_all_ext hc)
    have h8 := hsz c hc
    unfold Apart at h7
    unfold extVersion
    rw [wrM_out (by rw [List.length_take]; omega)]
  rcases hm with ⟨hnil, hoff, hm⟩ | ⟨hne, hm⟩
  · rw [hnil]
    refine ⟨?_, fun c hc => by cases hc⟩
    rcases hm with hm | hm
    · rw [hm, setNext_version (.inl rfl), hnew]
    · rw [hm, setNext_version (.inl rfl), setNext_version (.inl hoff), hnew]
  · obtain ⟨l, hl, hle⟩ := hlast hne
    have h7 := hap' l (mem_all_ext hl)
    have h8 := hsz l hl
    unfold Apart at h7
    rw [hm, ← hle]
    refine ⟨?_, fun c hc => ?_⟩
    · rw [setNext_version (.inl rfl), setNext_version (by omega), hnew]
    · have h9 := hap' c (mem_all_ext hc)
      have h10 := hsz c hc
      unfold Apart at h9
      have h11 : c.off = l.off ∨ c.off + c.size ≤ l.off ∨ l.off + l.size ≤ c.off := by
        by_cases hcl : c = l
        · exact .inl (by rw [hcl])
        · exact .inr ((pairwise_all hi.disj c (mem_all_ext hc) l (mem_all_ext hl)).resolve_left hcl)
      rw [setNext_version (by omega), setNext_version (by omega), hold c hc]

end Verif.Pci
