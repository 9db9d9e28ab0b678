import Verif.Server.Answer
import Verif.Server.Reset
import Verif.Dma.NoFault
import Verif.Mig.Props
import Verif.Irq.Props
import Verif.Region.Props
import Verif.Pci.Writes

/-! # Crash freedom: which requests can drive the server out of bounds or into an abort (C61) -/

namespace Verif.Server
open Verif
open Verif.Dma (Fd)

/-! ## What is assumed of the device, of the system and of the client -/

/-- Every entry describes a region that the set-up functions accept, with a bounded number of areas and ioeventfds. -/
structure RegsOk (tbl : List Region.Reg) : Prop where
  regs : ∀ r ∈ tbl, Region.RegOk r
  subs : ∀ r ∈ tbl, (∀ s ∈ r.subs, Region.SubOk s) ∧ 16 + 48 * r.subs.length < U32

/-- The config space of a device: as large as its region, capabilities inside and apart. -/
structure LayoutOk (tbl : List Region.Reg) (p : Pci.Pci) : Prop where
  bounded : Pci.Bounded p
  sized : Pci.Sized p
  disj : Pci.Disj p
  region : ∀ r, tbl[7]? = some r → r.size ≤ p.size

/-- A device set up within the documented limits. `dma`: maximum number and size of DMA regions. -/
structure SetupOk (cfg : Cfg) (dma : Option (Nat × Nat)) (p : Pci.Pci) : Prop where
  irq : cfg.irq.Ok
  regs : RegsOk cfg.tbl
  layout : LayoutOk cfg.tbl p
  dma : ∀ x, dma = some x → 0 < x.1 ∧ x.2 ≤ 2 ^ 62

/-- System and device keep their contracts: `malloc` returns as many bytes as asked for, region callbacks return a count
or -1 and an `errno`, the callback of the config space the number of bytes it was asked for or an `errno`. -/
structure Env.Ok (env : Env) (dma : Option (Nat × Nat)) : Prop where
  os : env.os.Ok
  malloc : ∀ n, (env.malloc n).length = n
  region : ∀ r off buf w f, (env.region r off buf w).1 ≠ .fault f
  config : ∀ m off buf w, (env.cfgCb m off buf w).2.2 = .ok buf.length ∨ ∃ e, (env.cfgCb m off buf w).2.2 = .err e
  hint : ∀ x, dma = some x → env.hint < x.1

/-- A dirty page query for a range that does not wrap around, not finer than the logging page size. -/
def QueryOk (c : Dma.Ctl) (addr len pg : Nat) : Prop := addr + len < U64 ∧ c.dirtyPgsize ≤ pg

/-- A write to the config space that is one register of the header, lies inside a capability, or is clear of the header
and of all capabilities. -/
def WriteOk (p : Pci.Pci) (off count : Nat) : Prop :=
  Pci.OneReg off count ∨ (∃ c ∈ p.all, Pci.Inside c off count) ∨
    (64 ≤ off ∧ ∀ c ∈ p.all, off + count ≤ c.off ∨ c.off + c.size ≤ off)

/-- Requests that are safe. Commands: 2 DMA_MAP, 3 DMA_UNMAP, 8 SET_IRQS, 9 REGION_READ, 10 REGION_WRITE, 13 RESET,
16 DEVICE_FEATURE. -/
structure Careful (st : St) (m : Msg) : Prop where
  /-- there is a payload (the transport sees to that, `careful_body`) -/
  body : m.hdr.cmd ≠ 13 → m.body ≠ []
  /-- the payload of an unmap request has the fields its flags announce -/
  unmap : m.hdr.cmd = 3 → st.dma ≠ none →
    8 ≤ m.body.length ∧ (leAt m.body 4 4 = 1 → 40 ≤ m.body.length) ∧ (leAt m.body 4 4 = 2 → 24 ≤ m.body.length)
  unmapQuery : m.hdr.cmd = 3 → ∀ c, st.dma = some c → leAt m.body 4 4 = 1 →
    QueryOk c (leAt m.body 8 8) (leAt m.body 16 8) (leAt m.body 24 8)
  config : m.hdr.cmd = 10 → leAt m.body 8 4 = 7 → WriteOk st.pci (leAt m.body 0 8) (leAt m.body 12 4)
  /-- logging is started and stopped only on a device with DMA, and the payload has the page size -/
  logStart : m.hdr.cmd = 16 → leAt m.body 4 4 = 0x20006 → st.dma ≠ none ∧ 16 ≤ m.body.length
  logStop : m.hdr.cmd = 16 → leAt m.body 4 4 = 0x20007 → st.dma ≠ none
  report : m.hdr.cmd = 16 → leAt m.body 4 4 = 0x10008 → ∀ c, st.dma = some c → 32 ≤ m.body.length ∧
    QueryOk c (leAt m.body 8 8) (leAt m.body 16 8) (leAt m.body 24 8)
  /-- a migration state is in the payload, and it is not 8 -/
  state : m.hdr.cmd = 16 → leAt m.body 4 4 = 0x20002 → 12 ≤ m.body.length ∧ leAt m.body 8 4 ≠ 8

/-! ## The handlers -/

theorem deviceInfo_nofault (alloc : Bool) (n : Nat) (body : List Byte) (f : Fault) :
    Region.deviceInfo alloc n body ≠ .fault f := by
  unfold Region.deviceInfo
  split
  · simp
  · split <;> simp

theorem irqInfo_nofault (cfg : Irq.Cfg) (alloc : Bool) (body : List Byte) (f : Fault) :
    Irq.irqInfo cfg alloc body ≠ .fault f := by
  unfold Irq.irqInfo
  split
  · simp
  · dsimp only
    split
    · simp
    · split <;> simp

theorem regionInfo_nofault {tbl : List Region.Reg} (ht : RegsOk tbl) (alloc : Bool) (body : List Byte) (f : Fault) :
    Region.regionInfo alloc tbl body ≠ .fault f := by
  by_cases h : body.length < 32 ∨ leAt body 0 4 < 32 ∨ tbl.length ≤ leAt body 8 4
  · rw [Region.C34_refused alloc tbl body h]; simp
  have hr : tbl[leAt body 8 4]? = some (tbl[leAt body 8 4]'(by omega)) := List.getElem?_eq_getElem _
  cases alloc with
  | true =>
    obtain ⟨reply, h1, _⟩ := Region.C34_info (by omega) (by omega) hr (ht.regs _ (List.getElem_mem _))
    rw [h1]; simp
  | false =>
    unfold Region.regionInfo
    rw [if_neg (by omega), hr]
    simp

theorem regionIoFds_nofault {tbl : List Region.Reg} (ht : RegsOk tbl) (alloc : Bool) (body : List Byte) (f : Fault) :
    Region.regionIoFds alloc tbl body ≠ .fault f := by
  by_cases h : body.length < 16 ∨ leAt body 4 4 ≠ 0 ∨ leAt body 12 4 ≠ 0 ∨ tbl.length ≤ leAt body 8 4 ∨
      leAt body 0 4 < 16 ∨ leAt body 0 4 > 1048576 ∨ ∃ r, tbl[leAt body 8 4]? = some r ∧ r.flags &&& 63 = 0
  · rw [Region.C35_refused alloc tbl body h]; simp
  simp only [not_or, not_exists, not_and, Decidable.not_not, Nat.not_lt, Nat.not_le] at h
  obtain ⟨h1, h2, h3, h4, h5, h6, h7⟩ := h
  have hr : tbl[leAt body 8 4]? = some tbl[leAt body 8 4] := List.getElem?_eq_getElem h4
  have hm : tbl[leAt body 8 4] ∈ tbl := List.getElem_mem h4
  generalize tbl[leAt body 8 4] = r at hr hm
  obtain ⟨hs1, hs2⟩ := ht.subs r hm
  have hfl : ¬ r.flags &&& Region.FLAG_MASK = 0 := h7 r hr
  cases alloc with
  | true =>
    by_cases hrm : 16 + 48 * r.subs.length ≤ leAt body 0 4
    · obtain ⟨reply, fds, he, _⟩ := Region.C35_complete h1 h2 h3 hr hfl hs1 hrm h6
      rw [he]; simp
    · rw [Region.C35_no_room h1 h2 h3 hr hfl h5 (by omega) h6 hs2]; simp
  | false =>
    unfold Region.regionIoFds
    rw [if_neg (by omega), if_neg (by omega), hr]
    dsimp only
    rw [if_neg hfl, if_neg (by simp only [Region.MAX_XFER]; omega)]
    simp

theorem setIrqs_nofault {cfg : Irq.Cfg} (hi : cfg.Ok) {i : Irq.Irqs} (hw : Irq.WF cfg i) (wr : Nat → Option Nat)
    {body : List Byte} (hb : body ≠ []) (fds : List Fd) (f : Fault) :
    (Irq.handleSet cfg wr i body (fds.map some)).res ≠ .fault f := by
  by_cases h : Irq.ReqOk cfg body fds.length
  · obtain ⟨_, _, h3, _⟩ := Irq.C26_within hi hw wr rfl h
    rcases h3 with h3 | ⟨k, e, _, h3⟩ <;> rw [h3] <;> simp
  · rw [Irq.C26_refused hi.small wr i fds hb h]; simp

theorem dataRead_nofault (alloc : Bool) (cb : Nat → Mig.ReadCb) (mig : Option Nat) (n : Nat) (body : List Byte) (f : Fault) :
    (Mig.dataRead alloc cb mig n body).1 ≠ .fault f := by
  unfold Mig.dataRead
  dsimp only
  repeat' split
  all_goals simp

theorem dataWrite_nofault (cb : List Byte → Except Nat Nat) (mig : Option Nat) (n : Nat) (body : List Byte) (f : Fault) :
    (Mig.dataWrite cb mig n body).1 ≠ .fault f := by
  unfold Mig.dataWrite
  dsimp only
  repeat' split
  all_goals simp

/-! ### Region accesses -/

theorem honest_pciDev (cfg : Cfg) {env : Env} {dma : Option (Nat × Nat)} (he : env.Ok dma) : Pci.Honest (pciDev cfg env) := by
  refine ⟨?_, ?_⟩
  · intro f hf m o b w
    simp only [pciDev] at hf
    by_cases h : (cfg.tbl[Region.CFG_IDX]?).any (·.hasCb) = true
    · rw [if_pos h] at hf
      cases hf
      exact he.config m o b w
    · rw [if_neg h] at hf; cases hf
  · intro f hf m
    simp only [pciDev] at hf
    by_cases h : cfg.hasReset = true
    · rw [if_pos h] at hf
      cases hf
      dsimp only
      cases env.resetCb .flr with
      | none => exact .inl rfl
      | some e => exact .inr ⟨e, rfl⟩
    · rw [if_neg h] at hf; cases hf

/-- A write clear of the header and of all capabilities is one segment without owner. -/
theorem clear_nofault {dev : Pci.Dev} (hh : Pci.Honest dev) {p : Pci.Pci} (hb : Pci.Bounded p) {buf : List Byte}
    {count off : Nat} (hc : 0 < count) (hl : buf.length = count) (hin : off + count ≤ p.size) (h64 : 64 ≤ off)
    (hcl : ∀ c ∈ p.all, off + count ≤ c.off ∨ c.off + c.size ≤ off) (f : Fault) :
    (Pci.access dev p buf count off true).ret ≠ .fault f := by
  have hsm := hb.small
  have hU : (4096 : Nat) < U64 := by decide
  have hs : Pci.nextSegment p count off true = some (.dflt, count) := by
    unfold Pci.nextSegment
    rw [if_neg (by omega)]
    cases hf : Pci.capFind p off count with
    | none => rfl
    | some c =>
      obtain ⟨hm, hi⟩ := Pci.capFind_some hf
      obtain ⟨h1, h2⟩ := (Pci.ri_iff hb hm (by omega)).mp hi
      dsimp only
      rw [if_pos (by rcases hcl c hm with h | h <;> omega)]
      have : c.off - off = count := by rcases hcl c hm with h | h <;> omega
      rw [this]
  rw [(Pci.access_one hh hc (fun _ => hl) hs).2.1]
  exact Pci.nonstd_nofault hh hb hc (by omega) f

theorem configWrite_nofault {dev : Pci.Dev} (hh : Pci.Honest dev) {tbl : List Region.Reg} {p : Pci.Pci} (hp : LayoutOk tbl p)
    {buf : List Byte} {count off : Nat} (hc : 0 < count) (hl : buf.length = count) (hin : off + count ≤ p.size)
    (hw : WriteOk p off count) (f : Fault) : (Pci.access dev p buf count off true).ret ≠ .fault f := by
  rcases hw with h | h | ⟨h, h'⟩
  · exact Pci.C45_contained hh hp.bounded hp.sized hp.disj hc hl (.inl h) f
  · exact Pci.C45_contained hh hp.bounded hp.sized hp.disj hc hl (.inr h) f
  · exact clear_nofault hh hp.bounded hc hl hin h h' f

theorem access_nofault {cfg : Cfg} (ht : RegsOk cfg.tbl) {p : Pci.Pci} (hp : LayoutOk cfg.tbl p) {env : Env}
    {dma : Option (Nat × Nat)} (he : env.Ok dma) (sc w : Bool) {body : List Byte} (hb : body ≠ [])
    (hw : w = true → leAt body 8 4 = 7 → WriteOk p (leAt body 0 8) (leAt body 12 4)) (f : Fault) :
    (Region.handleAccess (handlers cfg env p) env.alloc cfg.tbl sc w body).1 ≠ .fault f := by
  have hsz : ∀ r ∈ cfg.tbl, r.size < U32 := fun r hr => (ht.regs r hr).size
  by_cases hv : ∃ r, Region.AccessOk cfg.tbl sc w body r
  swap
  · rw [Region.C32_refused hsz _ _ _ _ hb hv]; simp
  have hval := (Region.validAccess_iff hsz sc w body).mpr hv
  obtain ⟨r, ho⟩ := hv
  unfold Region.handleAccess
  rw [if_neg hb, if_neg (by rw [hval]; simp)]
  dsimp only
  by_cases h0 : leAt body 12 4 = 0
  · rw [if_pos h0]; simp
  rw [if_neg h0]
  by_cases ha : env.alloc = false
  · rw [if_pos ha]; simp
  rw [if_neg ha, ho.region]
  dsimp only
  have key : (Region.regionAccess (handlers cfg env p) r (leAt body 8 4)
      (if w = true then body.drop 16 else List.replicate (leAt body 12 4) 0#8) (leAt body 0 8) w).1 ≠ .fault f := by
    unfold Region.regionAccess
    by_cases hcf : leAt body 8 4 = Region.CFG_IDX ∧ r.flags &&& Region.FLAG_ALWAYS_CB = 0
    · rw [if_pos hcf]
      have h7 : leAt body 8 4 = 7 := hcf.1
      have hin : leAt body 0 8 + leAt body 12 4 ≤ p.size := by
        have h1 := ho.bound
        have h2 := hp.region r (by rw [← h7]; exact ho.region)
        omega
      dsimp only [handlers]
      cases w with
      | true =>
        have hl : (body.drop 16).length = leAt body 12 4 := by
          have := ho.payload rfl
          rw [List.length_drop]; omega
        simp only [if_true]
        rw [hl]
        exact configWrite_nofault (honest_pciDev cfg he) hp (by omega) hl hin (hw rfl h7) f
      | false =>
        simp only [Bool.false_eq_true, if_false, List.length_replicate]
        exact Pci.C45_segments (honest_pciDev cfg he) hp.bounded hp.sized (fun h => by cases h) hin (fun h => by cases h) f
    · rw [if_neg hcf]
      by_cases hcb : r.hasCb = false
      · rw [if_pos hcb]; simp
      · rw [if_neg hcb]; exact he.region _ _ _ _ _
  generalize Region.regionAccess (handlers cfg env p) r (leAt body 8 4)
      (if w = true then body.drop 16 else List.replicate (leAt body 12 4) 0#8) (leAt body 0 8) w = o at key
  obtain ⟨ret, b, cs⟩ := o
  dsimp only at key ⊢
  cases ret with
  | ok n => dsimp only; split <;> simp
  | err e => simp
  | fault g => exact fun h => key (by simpa using h)

/-! ### DMA -/

theorem unmap_nofault {cfg : Cfg} {env : Env} {st : St} {c : Dma.Ctl} {body : List Byte} {fds : List Fd}
    (hc : ∀ r ∈ c.regions, r.Consistent) (hs : Dma.Sound c) (hh : env.hint < c.maxRegions)
    (hm : ∀ n, (env.malloc n).length = n) (hb : body ≠ [])
    (hlen : 8 ≤ body.length ∧ (leAt body 4 4 = 1 → 40 ≤ body.length) ∧ (leAt body 4 4 = 2 → 24 ≤ body.length))
    (hq : leAt body 4 4 = 1 → QueryOk c (leAt body 8 8) (leAt body 16 8) (leAt body 24 8)) (f : Fault) :
    (dmaUnmap cfg env st c body fds).res ≠ .fault f := by
  obtain ⟨h8, h40, h24⟩ := hlen
  have hl : ∀ a b f, validUnmap.lengths body a b ≠ .fault f := by
    intro a b f
    unfold validUnmap.lengths
    split
    · simp
    · split <;> simp
  have hv : ∀ f, validUnmap body ≠ .fault f := by
    intro f
    unfold validUnmap
    have r1 : rd body 4 4 = .ok (leAt body 4 4) := if_pos (by omega)
    rw [r1]
    dsimp only
    by_cases hd : leAt body 4 4 = UNMAP_DIRTY
    · rw [if_pos hd]
      have := h40 hd
      have r2 : rd body 32 8 = .ok (leAt body 32 8) := if_pos (by omega)
      rw [r2]
      exact hl _ _ _
    rw [if_neg hd]
    by_cases ha : leAt body 4 4 = UNMAP_ALL
    · rw [if_pos ha]
      have := h24 ha
      have r2 : rd body 8 8 = .ok (leAt body 8 8) := if_pos (by omega)
      have r3 : rd body 16 8 = .ok (leAt body 16 8) := if_pos (by omega)
      rw [r2, r3]
      dsimp only
      split
      · simp
      · split
        · simp
        · exact hl _ _ _
    rw [if_neg ha]
    split
    · exact hl _ _ _
    · simp
  have hu := Dma.handleUnmap_nofault env.alloc cfg.dma.hasUnreg hc (leAt body 8 8) (leAt body 16 8) (unmapKind env body) (by
    intro pg bs buf hint hk
    unfold unmapKind at hk
    by_cases h1 : leAt body 4 4 = UNMAP_ALL
    · rw [if_pos h1] at hk; cases hk
    rw [if_neg h1] at hk
    by_cases h2 : leAt body 4 4 = UNMAP_DIRTY
    · rw [if_pos h2] at hk
      cases hk
      obtain ⟨q1, q2⟩ := hq h2
      exact Dma.dirtyPageGet_nofault hs hh q1 (hm _) q2
    · rw [if_neg h2] at hk; cases hk)
  unfold dmaUnmap
  rw [if_neg hb]
  cases hvv : validUnmap body with
  | err e => simp
  | fault g => exact absurd hvv (hv g)
  | ok u =>
    dsimp only
    generalize Dma.handleUnmap env.alloc cfg.dma.hasUnreg c (leAt body 8 8) (leAt body 16 8) (unmapKind env body) = o at hu
    obtain ⟨c', r, ev⟩ := o
    dsimp only at hu ⊢
    cases r with
    | ok b => cases b <;> simp
    | okEmpty => simp
    | err e => simp
    | fault g => exact absurd rfl (hu g)

theorem dmaGet_nofault {env : Mig.FEnv} {d : Option Dma.Ctl} {argsz flags : Nat} {body : List Byte}
    (h : ∀ c, d = some c → Dma.Sound c ∧ env.hint < c.maxRegions ∧ 32 ≤ body.length ∧
      QueryOk c (leAt body 8 8) (leAt body 16 8) (leAt body 24 8)) (f : Fault) :
    (Mig.dmaGet env d argsz flags body).2 ≠ .fault f := by
  unfold Mig.dmaGet
  cases d with
  | none => simp
  | some c =>
    obtain ⟨hs, hh, hl, q1, q2⟩ := h c rfl
    dsimp only
    have r1 : rd body 8 8 = .ok (leAt body 8 8) := if_pos (by omega)
    have r2 : rd body 16 8 = .ok (leAt body 16 8) := if_pos (by omega)
    have r3 : rd body 24 8 = .ok (leAt body 24 8) := if_pos (by omega)
    rw [r1, r2, r3]
    dsimp only
    cases hg : getBitmapSize (leAt body 16 8) (leAt body 24 8) with
    | err e => simp
    | fault g => exact absurd hg (Dma.getBitmapSize_nofault _ _ _)
    | ok n =>
      dsimp only
      split
      · simp
      · split
        · simp
        · have := Dma.dirtyPageGet_nofault (buf := List.replicate n 0#8) hs hh q1 List.length_replicate q2
          generalize Dma.dirtyPageGet c env.hint (leAt body 8 8) (leAt body 16 8) (leAt body 24 8) n
            (List.replicate n 0#8) = o at this
          obtain ⟨c', r⟩ := o
          dsimp only at this
          cases r with
          | fault g => exact absurd rfl (this g)
          | _ => simp

theorem feature_nofault {env : Mig.FEnv} {st : Mig.FSt} {body : List Byte}
    (hm : ∀ n, st.mig = some n → ∃ a : Mig.MSt, n = a.num)
    (hd : ∀ c, st.dma = some c → Dma.Sound c ∧ env.hint < c.maxRegions)
    (hstart : leAt body 4 4 = 0x20006 → st.dma ≠ none ∧ 16 ≤ body.length)
    (hstop : leAt body 4 4 = 0x20007 → st.dma ≠ none)
    (hrep : leAt body 4 4 = 0x10008 → ∀ c, st.dma = some c → 32 ≤ body.length ∧
      QueryOk c (leAt body 8 8) (leAt body 16 8) (leAt body 24 8))
    (hstate : leAt body 4 4 = 0x20002 → 12 ≤ body.length ∧ leAt body 8 4 ≠ 8) (f : Fault) :
    (Mig.handleFeature env st body).2.1 ≠ .fault f := by
  rcases Mig.feature_cases env st body with he | ⟨n, hn, hsup, hc⟩
  · rw [he]; simp
  have hsup : leAt body 4 4 &&& Mig.supported (some 0) (leAt body 4 4 % 65536) =
      leAt body 4 4 - leAt body 4 4 % 65536 := hsup
  have hdiv : leAt body 4 4 % 65536 ≤ leAt body 4 4 := Nat.mod_le _ _
  rcases hc with ⟨hops, he⟩ | ⟨hops, he⟩ | ⟨_, _, he⟩
  · rw [he]
    have hops : leAt body 4 4 - leAt body 4 4 % 65536 = 65536 := hops
    unfold Mig.featGet
    by_cases h1 : Mig.isMigFeature (leAt body 4 4 % 65536) = true
    · rw [if_pos h1]
      unfold Mig.migGet
      dsimp only
      repeat' split
      all_goals simp
    rw [if_neg h1]
    by_cases h2 : Mig.isDmaFeature (leAt body 4 4 % 65536) = true
    · rw [if_pos h2]
      dsimp only
      refine dmaGet_nofault (fun c hcc => ⟨(hd c hcc).1, (hd c hcc).2, ?_⟩) f
      have hfl : leAt body 4 4 % 65536 = 8 := by
        simp only [Mig.isDmaFeature, Bool.or_eq_true, beq_iff_eq, Mig.FEAT_LOG_START, Mig.FEAT_LOG_STOP,
          Mig.FEAT_LOG_REPORT] at h2
        rcases h2 with (h2 | h2) | h2
        · exfalso
          have e : leAt body 4 4 = 65542 := by omega
          rw [e] at hsup
          revert hsup
          decide
        · exfalso
          have e : leAt body 4 4 = 65543 := by omega
          rw [e] at hsup
          revert hsup
          decide
        · exact h2
      exact hrep (by omega) c hcc
    · rw [if_neg h2]; simp
  · rw [he]
    have hops : leAt body 4 4 - leAt body 4 4 % 65536 = 131072 := hops
    unfold Mig.featSet
    split
    · simp
    split
    · simp
    by_cases h1 : Mig.isMigFeature (leAt body 4 4 % 65536) = true
    · rw [if_pos h1]
      simp only [Mig.isMigFeature, Bool.or_eq_true, beq_iff_eq, Mig.FEAT_MIGRATION, Mig.FEAT_STATE] at h1
      rcases h1 with h1 | h1
      · exfalso
        have e : leAt body 4 4 = 131073 := by omega
        rw [e] at hsup
        revert hsup
        decide
      · obtain ⟨hl, h8⟩ := hstate (by omega)
        have r1 : rd body 8 4 = .ok (leAt body 8 4) := if_pos (by omega)
        obtain ⟨a, rfl⟩ := hm n hn
        have ht := Mig.C21_terminates env.cb a (leAt body 8 4)
        dsimp only
        unfold Mig.migSet
        rw [if_neg (by rw [h1]; decide), r1]
        dsimp only
        generalize Mig.setState env.cb a.num (leAt body 8 4) = o at ht
        obtain ⟨s, r, tr⟩ := o
        dsimp only at ht ⊢
        cases r with
        | ok u => simp [Res.map]
        | err e => simp [Res.map]
        | fault g => exact absurd (ht g rfl).1 h8
    rw [if_neg h1]
    by_cases h2 : Mig.isDmaFeature (leAt body 4 4 % 65536) = true
    · rw [if_pos h2]
      simp only [Mig.isDmaFeature, Bool.or_eq_true, beq_iff_eq, Mig.FEAT_LOG_START, Mig.FEAT_LOG_STOP,
        Mig.FEAT_LOG_REPORT] at h2
      dsimp only
      unfold Mig.dmaSet
      rcases h2 with (h2 | h2) | h2
      · obtain ⟨hd0, hl⟩ := hstart (by omega)
        cases hdd : st.dma with
        | none => exact absurd hdd hd0
        | some c =>
          have r1 : rd body 8 8 = .ok (leAt body 8 8) := if_pos (by omega)
          dsimp only
          rw [if_pos (by rw [h2]; rfl), r1]
          have := Dma.loggingStart_nofault env.ca c (leAt body 8 8)
          dsimp only
          generalize Dma.loggingStart env.ca c (leAt body 8 8) = o at this
          obtain ⟨c', r⟩ := o
          dsimp only at this ⊢
          cases r with
          | ok u => simp [Res.map]
          | err e => simp [Res.map]
          | fault g => cases this
      · have hd0 := hstop (by omega)
        cases hdd : st.dma with
        | none => exact absurd hdd hd0
        | some c =>
          dsimp only
          rw [if_neg (by rw [h2]; decide), if_pos (by rw [h2]; rfl)]
          simp [Res.map]
      · exfalso
        have e : leAt body 4 4 = 131080 := by omega
        rw [e] at hsup
        revert hsup
        decide
    · rw [if_neg h2]; simp
  · rw [he]
    unfold Mig.featProbe
    dsimp only
    repeat' split
    all_goals simp

/-! ## The loop -/

/-- The layout of the config space. -/
def layout (p : Pci.Pci) : Pci.Pci := { p with mem := fun _ => 0#8 }

/-- What every history keeps: tables reached by their own operations, a documented migration state, the layout of the
config space. -/
structure Core (cfg : Cfg) (dma : Option (Nat × Nat)) (p : Pci.Pci) (st : St) : Prop where
  tables : Reached cfg dma st.dma st.irqs
  mig : ∀ n, st.mig = some n → ∃ a : Mig.MSt, n = a.num
  pci : layout st.pci = layout p

theorem layoutOk_congr {tbl : List Region.Reg} {p q : Pci.Pci} (h : layout q = layout p) (hp : LayoutOk tbl p) :
    LayoutOk tbl q := by
  obtain ⟨m, a, s, b, cs, es, br, eo⟩ := p
  obtain ⟨m', a', s', b', cs', es', br', eo'⟩ := q
  simp only [layout, Pci.Pci.mk.injEq, true_and] at h
  obtain ⟨rfl, rfl, rfl, rfl, rfl, rfl, rfl⟩ := h
  exact ⟨⟨hp.bounded.alloc, hp.bounded.small, hp.bounded.std, hp.bounded.caps⟩, hp.sized, hp.disj, hp.region⟩

theorem afterCalls_layout (cfg : Cfg) (env : Env) (q : Bool) (cs : List Region.Call) :
    ∀ p, layout (afterCalls cfg env q p cs).1 = layout p := by
  induction cs with
  | nil => intro p; rfl
  | cons c cs ih =>
    intro p
    cases c with
    | config off buf w => simp only [afterCalls]; rw [ih]; rfl
    | cb r off buf w => simp only [afterCalls]; exact ih p

theorem setState_doc (cb : Nat → Option Nat) (a : Mig.MSt) (t : Nat) : ∃ b : Mig.MSt, (Mig.setState cb a.num t).1 = b.num := by
  by_cases h8 : t = 8
  · subst h8
    refine ⟨a, ?_⟩
    cases a <;> rfl
  · rcases Mig.C22_last_acknowledged cb a t h8 with ⟨b, p, _, _, _, h⟩ | ⟨_, h⟩ | ⟨q, c, x, e, _, _, _, _, h⟩
    · exact ⟨b, by rw [h]⟩
    · exact ⟨a, by rw [h]⟩
    · exact ⟨c, by rw [h]⟩

theorem feature_mig {env : Mig.FEnv} {st : Mig.FSt} {body : List Byte}
    (hm : ∀ n, st.mig = some n → ∃ a : Mig.MSt, n = a.num) :
    ∀ n, (Mig.handleFeature env st body).1.mig = some n → ∃ a : Mig.MSt, n = a.num := by
  rcases Mig.feature_cases env st body with he | ⟨n, hn, hsup, ⟨hops, he⟩ | ⟨hops, he⟩ | ⟨_, _, he⟩⟩
  · rw [he]; exact hm
  · rw [he]
    unfold Mig.featGet
    split
    · exact hm
    · split <;> exact hm
  · rw [he]
    unfold Mig.featSet
    split
    · exact hm
    split
    · exact hm
    split
    · obtain ⟨a, rfl⟩ := hm n hn
      dsimp only
      intro k hk
      simp only [Option.some.injEq] at hk
      subst hk
      unfold Mig.migSet
      split
      · exact ⟨a, rfl⟩
      · split
        · exact setState_doc ..
        · exact ⟨a, rfl⟩
        · exact ⟨a, rfl⟩
    · split <;> exact hm
  · rw [he]; exact hm

theorem reset_mig {mig : Option Nat} (h : ∀ n, mig = some n → ∃ a : Mig.MSt, n = a.num) :
    ∀ n, mig.map (fun _ => Mig.RUNNING) = some n → ∃ a : Mig.MSt, n = a.num := by
  intro n hn
  cases mig with
  | none => cases hn
  | some x => simp only [Option.map_some, Option.some.injEq] at hn; exact ⟨.running, hn.symm⟩

theorem deviceReset_core (cfg : Cfg) (env : Env) (st : St) (r : Reason)
    (hm : ∀ n, st.mig = some n → ∃ a : Mig.MSt, n = a.num) :
    (∀ n, (deviceReset cfg env st r).1.mig = some n → ∃ a : Mig.MSt, n = a.num) ∧
      layout (deviceReset cfg env st r).1.pci = layout st.pci := by
  unfold deviceReset
  by_cases h : cfg.hasReset = true
  · rw [if_pos h]
    dsimp only
    cases env.resetCb r with
    | none => exact ⟨reset_mig hm, rfl⟩
    | some e => exact ⟨hm, rfl⟩
  · rw [if_neg h]; exact ⟨reset_mig hm, rfl⟩

theorem core_kept (cfg : Cfg) (dma : Option (Nat × Nat)) (p : Pci.Pci) : Kept cfg (Core cfg dma p) where
  exec := by
    intro env st m ho h
    refine ⟨(stable_reached cfg dma).exec ho h.tables m, ?_, ?_⟩
    · refine exec_elim (P := fun d => ∀ n, d.st.mig = some n → ∃ a : Mig.MSt, n = a.num) cfg env st m
        ?_ ?_ ?_ ?_ ?_ ?_ ?_ ?_ ?_ ?_ ?_ ?_ ?_ ?_ ?_
      · exact fun _ _ => h.mig
      · exact fun c _ _ => dmaMap_elim (P := fun d => ∀ n, d.st.mig = some n → ∃ a : Mig.MSt, n = a.num) cfg env st c _ _
          (fun _ _ => h.mig) (fun _ _ => h.mig)
      · exact fun c _ _ => dmaUnmap_elim (P := fun d => ∀ n, d.st.mig = some n → ∃ a : Mig.MSt, n = a.num) cfg env st c _ _
          (fun _ _ => h.mig) (fun _ _ _ _ => h.mig)
      iterate 7 exact fun _ => h.mig
      · exact fun _ => (deviceReset_core cfg env st .device h.mig).1
      · exact fun _ => feature_mig h.mig
      iterate 3 exact fun _ => h.mig
    · refine exec_elim (P := fun d => layout d.st.pci = layout p) cfg env st m ?_ ?_ ?_ ?_ ?_ ?_ ?_ ?_ ?_ ?_ ?_ ?_ ?_ ?_ ?_
      · exact fun _ _ => h.pci
      · exact fun c _ _ => dmaMap_elim (P := fun d => layout d.st.pci = layout p) cfg env st c _ _
          (fun _ _ => h.pci) (fun _ _ => h.pci)
      · exact fun c _ _ => dmaUnmap_elim (P := fun d => layout d.st.pci = layout p) cfg env st c _ _
          (fun _ _ => h.pci) (fun _ _ _ _ => h.pci)
      iterate 5 exact fun _ => h.pci
      · exact fun _ => (afterCalls_layout ..).trans h.pci
      · exact fun _ => (afterCalls_layout ..).trans h.pci
      · exact fun _ => (deviceReset_core cfg env st .device h.mig).2.trans h.pci
      iterate 4 exact fun _ => h.pci
  reset := by
    intro env st h
    refine ⟨(stable_reached cfg dma).resetQuiesced env h.tables, ?_, ?_⟩
    · unfold resetQuiesced
      cases dropDma cfg st.dma with
      | err e => exact h.mig
      | fault f => exact h.mig
      | ok x =>
        dsimp only
        have h1 := (deviceReset_core cfg env { st with dma := x.1 } .lostConn h.mig).1
        cases Irq.reset cfg.irq (deviceReset cfg env { st with dma := x.1 } .lostConn).1.irqs <;> exact h1
    · unfold resetQuiesced
      cases dropDma cfg st.dma with
      | err e => exact h.pci
      | fault f => exact h.pci
      | ok x =>
        dsimp only
        have h1 := (deviceReset_core cfg env { st with dma := x.1 } .lostConn h.mig).2.trans h.pci
        cases Irq.reset cfg.irq (deviceReset cfg env { st with dma := x.1 } .lostConn).1.irqs <;> exact h1
  conn := fun _ _ _ _ _ _ h => ⟨h.tables, h.mig, h.pci⟩
  config := fun _ _ h => ⟨h.tables, h.mig, h.pci⟩
  mark := fun st c c' sgl h hd hs => ⟨(stable_reached cfg dma).kept.mark st c c' sgl h.tables hd hs, h.mig, h.pci⟩

/-! ### Tables -/

theorem Reached.dma_sound {cfg : Cfg} {dma : Option (Nat × Nat)} {d : Option Dma.Ctl} {i : Irq.Irqs}
    (h : Reached cfg dma d i) (hs : ∀ x, dma = some x → 0 < x.1 ∧ x.2 ≤ 2 ^ 62) {c : Dma.Ctl} (hc : d = some c) :
    Dma.Sound c ∧ (∀ r ∈ c.regions, r.Consistent) ∧ ∃ x, dma = some x ∧ c.maxRegions = x.1 := by
  obtain ⟨⟨ops, ho, hd⟩, _⟩ := h
  cases dma with
  | none => rw [hd] at hc; cases hc
  | some x =>
    rw [hd] at hc
    simp only [Option.map_some, Option.some.injEq] at hc
    subst hc
    exact ⟨Dma.sound_run cfg.dma x.1 x.2 ops (hs x rfl).2 (fun op h => (ho op h).1),
      (Dma.inv2_run cfg.dma x.1 x.2 ops (fun op h => ⟨(ho op h).2, (ho op h).1⟩)).consistent, x, rfl,
      (Dma.max_run cfg.dma ops (Dma.create x.1 x.2)).1⟩

theorem Reached.irq_wf {cfg : Cfg} {dma : Option (Nat × Nat)} {d : Option Dma.Ctl} {i : Irq.Irqs}
    (h : Reached cfg dma d i) (hi : cfg.irq.Ok) : Irq.WF cfg.irq i := by
  obtain ⟨_, ops, rfl⟩ := h
  exact Irq.wf_run hi ops (Irq.wf_realize cfg.irq)

theorem map_fault {α β : Type} {r : Res α} {g : α → β} (h : ∀ f, r ≠ .fault f) : (r.map g).isFault = false := by
  cases r with
  | ok _ => rfl
  | err _ => rfl
  | fault f => exact absurd rfl (h f)

theorem not_fault {α : Type} {r : Res α} (h : ∀ f, r ≠ .fault f) : r.isFault = false := by
  cases r with
  | ok _ => rfl
  | err _ => rfl
  | fault f => exact absurd rfl (h f)

/-- A careful request ends normally. -/
theorem exec_nofault {cfg : Cfg} {dma : Option (Nat × Nat)} {p : Pci.Pci} (hs : SetupOk cfg dma p) {st : St}
    (hc : Core cfg dma p st) {env : Env} (he : env.Ok dma) {m : Msg} (hm : Careful st m) :
    (exec cfg env st m).res.isFault = false := by
  have hl := layoutOk_congr hc.pci hs.layout
  refine exec_elim (P := fun d => d.res.isFault = false) cfg env st m ?_ ?_ ?_ ?_ ?_ ?_ ?_ ?_ ?_ ?_ ?_ ?_ ?_ ?_ ?_
  · exact fun _ _ => rfl
  · intro c hcmd hd
    have hb := hm.body (by rw [hcmd]; decide)
    unfold dmaMap
    rw [if_neg hb]
    split
    · rfl
    · exact Dma.handleMap_nofault ..
  · intro c hcmd hd
    obtain ⟨s1, s2, x, s3, s4⟩ := hc.tables.dma_sound hs.dma hd
    exact not_fault (unmap_nofault s2 s1 (by rw [s4]; exact he.hint x s3) he.malloc (hm.body (by rw [hcmd]; decide))
      (hm.unmap hcmd (by rw [hd]; simp)) (hm.unmapQuery hcmd c hd))
  · exact fun _ => map_fault (deviceInfo_nofault _ _ _)
  · exact fun _ => map_fault (regionInfo_nofault hs.regs _ _)
  · exact fun _ => map_fault (regionIoFds_nofault hs.regs _ _)
  · exact fun _ => map_fault (irqInfo_nofault _ _ _)
  · intro hcmd
    exact not_fault (setIrqs_nofault hs.irq (hc.tables.irq_wf hs.irq) _ (hm.body (by rw [hcmd]; decide)) _)
  · intro hcmd
    exact map_fault (access_nofault hs.regs hl he _ _ (hm.body (by rw [hcmd]; decide)) (fun h => by cases h))
  · intro hcmd
    exact map_fault (access_nofault hs.regs hl he _ _ (hm.body (by rw [hcmd]; decide)) (fun _ => hm.config hcmd))
  · intro _
    unfold deviceReset
    dsimp only
    split
    · cases env.resetCb .device <;> rfl
    · rfl
  · intro hcmd
    refine map_fault (feature_nofault hc.mig ?_ (hm.logStart hcmd) (hm.logStop hcmd) (hm.report hcmd) (hm.state hcmd))
    intro c hd
    obtain ⟨s1, s2, x, s3, s4⟩ := hc.tables.dma_sound hs.dma hd
    exact ⟨s1, by rw [s4]; exact he.hint x s3⟩
  · exact fun _ => map_fault (dataRead_nofault _ _ _ _ _)
  · exact fun _ => map_fault (dataWrite_nofault _ _ _ _)
  · exact fun _ => rfl

section
variable {cfg : Cfg} {dma : Option (Nat × Nat)} {p : Pci.Pci} (hs : SetupOk cfg dma p)
include hs

theorem resetCtx_nofault (env : Env) (k : Nat) {st : St} (hc : Core cfg dma p st) :
    (resetCtx cfg env k st).res.isFault = false := by
  obtain ⟨ev3, hx⟩ := resetQuiesced_exact hs.irq env hc.tables
  have h1 : (resetQuiesced cfg env st).res.isFault = false := by rw [hx]; rfl
  unfold resetCtx
  split
  · dsimp only
    cases env.quiesce k with
    | none => exact h1
    | some e => dsimp only; split <;> rfl
  · exact h1

theorem doReply_nofault (env : Env) (k : Nat) {st : St} (hc : Core cfg dma p st) (h : Wire.Hdr) (b : Wire.Body)
    (fds : List (Option Fd)) (err : Nat) : (doReply cfg env k st h b fds err).res.isFault = false := by
  unfold doReply
  split
  · rfl
  dsimp only
  cases (Wire.reply env.snd h b fds (err % U32)).1 with
  | ok u => rfl
  | error e =>
    dsimp only
    split
    · exact resetCtx_nofault hs env k hc
    · rfl

theorem refuse_nofault (env : Env) (k : Nat) {st : St} (hc : Core cfg dma p st) (h : Wire.Hdr) (fds : List Fd) (err : Nat) :
    (refuse cfg env k st h fds err).res.isFault = false := by
  have := doReply_nofault hs env k hc h (.bytes []) [] err
  unfold refuse
  dsimp only
  split <;> exact this

theorem handleRequest_nofault {env : Env} (he : env.Ok dma) (k : Nat) {st : St} (hc : Core cfg dma p st) {m : Msg}
    (hm : Careful st m) : (handleRequest cfg env k st m).res.isFault = false := by
  have h1 := exec_nofault hs hc he hm
  have h2 := doReply_nofault hs env k ((core_kept cfg dma p).exec env st m he.os hc) m.hdr (exec cfg env st m).out
    (exec cfg env st m).outFds (replyErr (exec cfg env st m).res)
  unfold handleRequest
  dsimp only
  rw [if_neg (by rw [h1]; simp)]
  unfold finish
  dsimp only
  split <;> exact h2

theorem dispatch_nofault {env : Env} (he : env.Ok dma) {st : St} (hc : Core cfg dma p st) {m : Msg}
    (hm : Careful st m) : (dispatch cfg env st m).res.isFault = false := by
  unfold dispatch
  split
  · dsimp only; rw [quiet_fault]; exact refuse_nofault hs env 0 hc _ _ _
  split
  · dsimp only
    cases env.quiesce 0 with
    | none =>
      exact handleRequest_nofault hs he 1 (st := { st with quiesced := true }) ⟨hc.tables, hc.mig, hc.pci⟩
        { hm with }
    | some e =>
      dsimp only
      split
      · rfl
      · dsimp only; rw [quiet_fault]; exact refuse_nofault hs env 1 hc _ _ _
  · exact handleRequest_nofault hs he 0 hc hm

end

/-- What the loop keeps between calls: also, a request kept for the end of a quiesce is still a careful one. -/
structure Safe (cfg : Cfg) (dma : Option (Nat × Nat)) (p : Pci.Pci) (st : St) : Prop where
  core : Core cfg dma p st
  kept : ∀ m, st.pending = .msg m → Careful st m

/-- The entries the device marks as dirty belong to regions backed by a file and lie inside of them. -/
def MarkOk (c : Dma.Ctl) (sgl : List Dma.Sg) : Prop :=
  ∀ sg ∈ sgl, sg.writeable = true → ∀ r, c.regions[sg.region]? = some r →
    r.fd ≠ none ∧ sg.offset + sg.length ≤ r.info.len

/-- A call whose message, if any, is a careful one; the device does not transfer through the socket while it is
quiescing, and marks only what it may. -/
def OpOk (dma : Option (Nat × Nat)) (st : St) : Op → Prop
  | .run env i => env.Ok dma ∧ ∀ h body fds, i = .req h body fds → Careful st ⟨h, body, fds⟩
  | .quiesced env _ => env.Ok dma
  | .transfer env _ => env.Ok dma ∧ st.pending = .none
  | .mark sgl => ∃ c, st.dma = some c ∧ MarkOk c sgl
  | _ => True

theorem careful_congr {a b : St} {m : Msg} (hd : b.dma = a.dma) (hp : layout b.pci = layout a.pci) (h : Careful a m) :
    Careful b m := by
  have hw : ∀ o n, WriteOk a.pci o n → WriteOk b.pci o n := by
    intro o n hw
    have e : b.pci.all = a.pci.all := by
      have := congrArg Pci.Pci.all hp
      exact this
    unfold WriteOk
    rw [e]
    exact hw
  refine ⟨h.body, ?_, ?_, fun h1 h2 => hw _ _ (h.config h1 h2), ?_, ?_, ?_, h.state⟩
  · rw [hd]; exact h.unmap
  · rw [hd]; exact h.unmapQuery
  · rw [hd]; exact h.logStart
  · rw [hd]; exact h.logStop
  · rw [hd]; exact h.report

/-- Marking dirty pages does not change which requests are safe. -/
theorem careful_mark {a : St} {c c' : Dma.Ctl} {sgl : List Dma.Sg} (hd : a.dma = some c) (hs : Dma.sglMark c sgl = .ok c')
    {m : Msg} (h : Careful a m) : Careful { a with dma := some c' } m := by
  obtain ⟨_, _, _, hpg⟩ := Dma.sglMark_geom hs
  have hq : ∀ x y z, QueryOk c x y z → QueryOk c' x y z := by
    intro x y z hq
    unfold QueryOk
    rw [hpg]
    exact hq
  refine ⟨h.body, ?_, ?_, h.config, ?_, ?_, ?_, h.state⟩
  · exact fun h1 _ => h.unmap h1 (by rw [hd]; simp)
  · intro h1 d hdd h2
    cases hdd
    exact hq _ _ _ (h.unmapQuery h1 c hd h2)
  · exact fun h1 h2 => ⟨by simp, (h.logStart h1 h2).2⟩
  · exact fun _ _ => by simp
  · intro h1 h2 d hdd
    cases hdd
    exact ⟨(h.report h1 h2 c hd).1, hq _ _ _ (h.report h1 h2 c hd).2⟩

theorem kept_of_keeps {st st' : St} (h0 : st.pending = .none) (h : Keeps st.pending st'.pending) {m : Msg}
    (hm : st'.pending = .msg m) : False := by
  rcases h with h | h
  · rw [h, h0] at hm; cases hm
  · rw [h] at hm; cases hm

/-- **C61**: a careful call ends normally, and the next one finds the server in order again. -/
theorem C61_no_crash {cfg : Cfg} {dma : Option (Nat × Nat)} {p : Pci.Pci} (hs : SetupOk cfg dma p) {st : St}
    (hst : Safe cfg dma p st) {op : Op} (ho : OpOk dma st op) :
    (call cfg st op).res.isFault = false ∧ Safe cfg dma p (call cfg st op).st := by
  have hos : op.OSOk := by
    intro env he
    cases op <;> simp only [Op.env?, Option.some.injEq, reduceCtorEq] at he
    · subst he; exact ho.1.os
    · subst he; exact ho.os
    · subst he; exact ho.1.os
  have hcore := (core_kept cfg dma p).call hst.core op hos
  suffices h : (call cfg st op).res.isFault = false ∧
      ∀ m, (call cfg st op).st.pending = .msg m → Careful (call cfg st op).st m from ⟨h.1, hcore, h.2⟩
  clear hcore
  have hc := hst.core
  cases op with
  | run env i =>
    obtain ⟨he, hi⟩ := ho
    simp only [call]
    unfold poll
    by_cases h1 : st.pending ≠ .none
    · rw [if_pos h1]; exact ⟨rfl, hst.kept⟩
    rw [if_neg h1]
    have h1 : st.pending = .none := Decidable.not_not.mp h1
    by_cases h2 : st.conn = false
    · rw [if_pos h2]; exact ⟨rfl, hst.kept⟩
    rw [if_neg h2]
    cases i with
    | again => exact ⟨rfl, hst.kept⟩
    | lost e leak =>
      have h3 := resetCtx_nofault hs env 0 hc
      have h4 := resetCtx_keeps cfg env 0 st
      refine ⟨?_, fun m hm => (kept_of_keeps h1 h4 hm).elim⟩
      dsimp only
      cases hr : (resetCtx cfg env 0 st).res with
      | ok u => rfl
      | err e => dsimp only; rw [quiet_fault]; rfl
      | fault f => rw [hr] at h3; cases h3
    | failed e leak => exact ⟨by dsimp only; rw [quiet_fault]; rfl, hst.kept⟩
    | bad h fds e =>
      refine ⟨?_, fun m hm => (kept_of_keeps h1 (refuse_keeps cfg env 0 st h fds e) hm).elim⟩
      dsimp only
      rw [quiet_fault]
      exact refuse_nofault hs env 0 hc _ _ _
    | req h body fds =>
      have hm := hi h body fds rfl
      refine ⟨dispatch_nofault hs he hc hm, ?_⟩
      dsimp only
      generalize (⟨h, body, fds⟩ : Msg) = m0 at hm
      intro m
      unfold dispatch
      split
      · exact fun h => (kept_of_keeps h1 (refuse_keeps cfg env 0 st _ _ _) h).elim
      split
      · dsimp only
        cases env.quiesce 0 with
        | none =>
          exact fun h => (kept_of_keeps (st := { st with quiesced := true }) h1
            (handleRequest_keeps cfg env 1 { st with quiesced := true } m0) h).elim
        | some e =>
          dsimp only
          split
          · intro h
            simp only [Pending.msg.injEq] at h
            subst h
            exact careful_congr (a := st) rfl rfl hm
          · exact fun h => (kept_of_keeps h1 (refuse_keeps cfg env 1 st _ _ _) h).elim
      · exact fun h => (kept_of_keeps h1 (handleRequest_keeps cfg env 0 st m0) h).elim
  | quiesced env e =>
    have he : env.Ok dma := ho
    simp only [call]
    unfold deviceQuiesced
    by_cases h1 : cfg.hasQuiesce = false ∨ st.pending = .none
    · rw [if_pos h1]; exact ⟨rfl, hst.kept⟩
    rw [if_neg h1]
    refine ⟨?_, fun m hm => by cases hm⟩
    dsimp only
    have hk := hst.kept
    obtain ⟨mig, d, irqs, pc, conn, pending, qs, mf, mx⟩ := st
    by_cases h2 : e = 0
    · rw [if_pos h2]
      cases pending with
      | none => exact absurd (.inr rfl) h1
      | msg m =>
        dsimp only
        exact handleRequest_nofault hs he 0 (m := m) (st := ⟨mig, d, irqs, pc, conn, .msg m, true, mf, mx⟩) ⟨hc.tables, hc.mig, hc.pci⟩
          (careful_congr (a := ⟨mig, d, irqs, pc, conn, .msg m, qs, mf, mx⟩) rfl rfl (hk m rfl))
      | ctxReset =>
        dsimp only
        obtain ⟨ev3, hx⟩ := resetQuiesced_exact (cfg := cfg) (dma := dma) hs.irq env
          (st := ⟨mig, d, irqs, pc, conn, .ctxReset, true, mf, mx⟩) hc.tables
        rw [hx]
        rfl
    · rw [if_neg h2]
      cases pending <;> rfl
  | transfer env lost =>
    obtain ⟨he, h1⟩ := ho
    simp only [call]
    unfold transfer
    rw [if_neg (not_not_intro h1)]
    by_cases h2 : lost = true ∧ st.conn = true
    · rw [if_pos h2]
      have h3 := resetCtx_nofault hs env 0 hc
      refine ⟨?_, fun m hm => (kept_of_keeps h1 (resetCtx_keeps cfg env 0 st) hm).elim⟩
      dsimp only
      cases hr : (resetCtx cfg env 0 st).res with
      | ok u => rfl
      | err e => rfl
      | fault f => rw [hr] at h3; cases h3
    · rw [if_neg h2]; exact ⟨rfl, hst.kept⟩
  | attach n =>
    simp only [call]
    unfold attach
    by_cases h1 : st.conn = true
    · rw [if_pos h1]; exact ⟨rfl, hst.kept⟩
    rw [if_neg h1]
    cases n with
    | error e => exact ⟨rfl, hst.kept⟩
    | ok c => exact ⟨rfl, fun m hm => careful_congr (a := st) rfl rfl (hst.kept m hm)⟩
  | config f => exact ⟨rfl, fun m hm => careful_congr (a := st) rfl rfl (hst.kept m hm)⟩
  | mark sgl =>
    obtain ⟨c, hd, hmk⟩ := ho
    obtain ⟨s1, _⟩ := hc.tables.dma_sound hs.dma hd
    obtain ⟨c', hs'⟩ := Dma.sglMark_nofault sgl c s1.log s1.small hmk
    simp only [call, hd, hs']
    exact ⟨rfl, fun m hm => careful_mark hd hs' (hst.kept m hm)⟩
  | trigger wr sub =>
    refine ⟨?_, hst.kept⟩
    simp only [call, Irq.trigger]
    cases st.irqs.efds[sub]? with
    | none => rfl
    | some x =>
      cases x with
      | none => rfl
      | some fd => cases wr <;> rfl

/-- All calls of a history are careful ones. -/
def CarefulRun (cfg : Cfg) (dma : Option (Nat × Nat)) : St → List Op → Prop
  | _, [] => True
  | st, op :: ops => OpOk dma st op ∧ CarefulRun cfg dma (call cfg st op).st ops

/-- **C61**: histories of careful calls run to their end, whatever their length. -/
theorem C61_run {cfg : Cfg} (mig : Bool) {dma : Option (Nat × Nat)} {p : Pci.Pci} (hs : SetupOk cfg dma p) (ops : List Op)
    (h : CarefulRun cfg dma (init cfg mig dma p) ops) : Completes cfg (init cfg mig dma p) ops := by
  have h0 : Safe cfg dma p (init cfg mig dma p) := by
    refine ⟨⟨⟨⟨[], (fun op h => by cases h), rfl⟩, [], rfl⟩, ?_, rfl⟩, fun m hm => by cases hm⟩
    intro n hn
    cases mig with
    | false => cases hn
    | true => simp only [init, if_true, Option.some.injEq] at hn; exact ⟨.running, hn.symm⟩
  revert h
  generalize init cfg mig dma p = st at h0
  induction ops generalizing st with
  | nil => exact fun _ => trivial
  | cons op ops ih =>
    rintro ⟨h1, h2⟩
    obtain ⟨h3, h4⟩ := C61_no_crash hs h0 h1
    exact ⟨h3, ih _ h4 h2⟩

/-- The transport delivers no request without payload other than DEVICE_RESET: the assertions of `handle_dma_map`,
`handle_dma_unmap`, `handle_device_set_irqs` and `is_valid_region_access` that the payload is there cannot fail. -/
theorem careful_body {h : Wire.Hdr} {body : List Byte} {fds : List Fd} (hr : Real (.req h body fds)) (hc : h.cmd ≠ 13) :
    body ≠ [] := by
  obtain ⟨s, hs⟩ := hr
  unfold Wire.next at hs
  cases hg : Wire.getHeader s with
  | mk r s1 =>
    rw [hg] at hs
    cases r with
    | error x =>
      dsimp only at hs
      unfold Wire.getHeader at hg
      exfalso
      split at hg
      · simp only [Prod.mk.injEq, Except.error.injEq] at hg; rw [← hg.1] at hs; cases hs
      · simp only [Prod.mk.injEq, Except.error.injEq] at hg; rw [← hg.1] at hs; cases hs
      · split at hg
        · simp only [Prod.mk.injEq, Except.error.injEq] at hg; rw [← hg.1] at hs; cases hs
        · split at hg
          · simp only [Prod.mk.injEq, Except.error.injEq] at hg; rw [← hg.1] at hs; cases hs
          · simp at hg
    | ok x =>
      obtain ⟨hd, fs⟩ := x
      dsimp only at hs
      by_cases hv : Wire.validHeader hd = false
      · rw [if_pos hv] at hs; cases hs
      rw [if_neg hv] at hs
      by_cases hz : hd.size - Wire.HDR > 0
      · rw [if_pos hz] at hs
        cases hb : Wire.recvBody s1 (hd.size - Wire.HDR) with
        | mk r s2 =>
          rw [hb] at hs
          cases r with
          | error e => cases hs
          | ok b =>
            simp only [Wire.In.req.injEq] at hs
            rw [hs.2.1]
            unfold Wire.recvBody at hb
            split at hb
            · simp at hb
            · simp at hb
            · split at hb
              · simp at hb
              · rename_i hl
                simp only [Prod.mk.injEq, Except.ok.injEq] at hb
                have hl := Decidable.not_not.mp hl
                intro h0
                have := congrArg List.length hb.1
                rw [h0, List.length_map, hl] at this
                simp only [List.length_nil] at this
                omega
      · rw [if_neg hz] at hs
        simp only [Wire.In.req.injEq] at hs
        rw [hs.1] at hc
        exfalso
        unfold Wire.validHeader at hv
        by_cases h1 : hd.type ≠ Wire.TYPE_COMMAND
        · rw [if_pos h1] at hv; exact hv rfl
        rw [if_neg h1] at hv
        by_cases h2 : hd.size < Wire.HDR
        · rw [if_pos h2] at hv; exact hv rfl
        rw [if_neg h2] at hv
        exact hv (if_pos ⟨by omega, hc⟩)

end Verif.Server
