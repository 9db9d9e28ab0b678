import Verif.Setup.Model
import Verif.Server.Crash
import Verif.Pci.Props

/-! # Set-up leads to a device that does not crash (C69) -/

namespace Verif.Setup
open Verif
open Verif.Region (Reg Sub RegOk SubOk)

/-! ## Documented use -/

/-- The region set-up is within the C types; the config space region is not mappable and as large as the config space, or
has one of the sizes of PCI config spaces if there is none yet. -/
structure RegionUse (c : Ctx) (a : Region.Setup) : Prop where
  size : a.size < U64
  offset : a.offset < U64
  count : 48 + 16 * (a.areas.length + 1) < U32
  words : ∀ x ∈ a.areas, x.1 < U64 ∧ x.2 < U64
  config : a.idx = 7 → a.fd = none ∧
    (if c.alloc = 0 then a.size = 0 ∨ 256 ≤ a.size ∧ a.size ≤ 4096 else a.size = c.alloc)

/-- The capability is whole: its data is as long as the size it declares, which covers the header. A standard one ends up in
the first 256 bytes, and automatic placement does not land on another capability. -/
structure CapUse (c : Ctx) (pos : Nat) (fl : Pci.CapFlags) (data : List Byte) : Prop where
  space : c.alloc ≠ 0
  low : pos < 2 ^ 63
  aligned : fl.ext = true → pos % 4 = 0
  std : fl.ext = false → ∀ s, Pci.stdSize (leAt data 0 1) (leAt data 2 1) = some s →
    Pci.stdHdr (leAt data 0 1) ≤ s ∧ s ≤ data.length ∧
      ∀ off, (capability c pos fl data).2 = .ok off → off + s ≤ 256 ∧
        (pos = 0 → ∀ d ∈ c.caps ++ c.exts, Pci.Apart off s d)
  ext : fl.ext = true → ∀ s, Pci.extSize (leAt data 0 2) (leAt data 4 4) = some s →
    Pci.extHdr (leAt data 0 2) ≤ s ∧ s ≤ data.length ∧
      ∀ off, (capability c pos fl data).2 = .ok off → pos = 0 → ∀ d ∈ c.caps ++ c.exts, Pci.Apart off s d

/-- Documented use of a call on a context that is not realized. -/
def Use (c : Ctx) : Call → Prop
  | .region _ a => RegionUse c a
  | .ioeventfd _ _ idx s => SubOk s ∧ ∀ r, c.tbl[idx]? = some r → 16 + 48 * (r.subs.length + 1) < U32
  | .pciInit _ _ _ => True
  | .setId _ _ _ _ => c.alloc ≠ 0
  | .setClass _ _ _ => c.alloc ≠ 0
  | .capability pos fl data => CapUse c pos fl data
  | .store off bytes => off + bytes.length ≤ c.alloc ∧ Pci.Keeps c.pci (Pci.wrM c.mem off bytes)
  | .nrIrqs t n => n < U32 - 1 ∧ (t = Irq.ERR ∨ t = Irq.REQ → n ≤ 1)
  | .irqStateCb _ _ => True
  | .quiesceCb _ => True
  | .resetCb _ => True
  | .dma _ _ _ => True
  | .migration _ _ _ => True
  | .realize _ _ => True

/-- Documented use of the calls in order; after `vfu_realize_ctx` has succeeded, no more of them. -/
def UseRun (c : Ctx) : List Call → Prop
  | [] => True
  | k :: ks => c.realized = false ∧ Use c k ∧ UseRun (step c k).1 ks

/-! ## Invariant -/

structure Good (c : Ctx) : Prop where
  len : c.tbl.length = 9
  regs : Server.RegsOk c.tbl
  irq : (Irq.Cfg.mk c.cnt c.irqCb).Ok
  dma : ∀ x, c.dma = some x → x = dmaLimits
  cfg : (c.alloc = 0 ∧ c.big = false ∧ c.caps = [] ∧ c.exts = [] ∧ c.realized = false ∧
      (c.cfgSize = 0 ∨ 256 ≤ c.cfgSize ∧ c.cfgSize ≤ 4096)) ∨
    (Pci.Inv c.pci ∧ c.cfgSize = c.alloc ∧ (c.big = true → c.alloc = 4096))

theorem inv_congr {p p' : Pci.Pci} (h : Pci.Inv p) (h1 : p'.mem = p.mem) (h2 : p'.alloc = p.alloc) (h3 : p'.size = p.size)
    (h4 : p'.caps = p.caps) (h5 : p'.exts = p.exts) : Pci.Inv p' := by
  have ha : p'.all = p.all := by unfold Pci.Pci.all; rw [h4, h5]
  exact ⟨⟨by rw [h3, h2]; exact h.bnd.alloc, by rw [h3]; exact h.bnd.small, by rw [h3]; exact h.bnd.std,
      by rw [ha, h3]; exact h.bnd.caps⟩,
    by rw [h4, h1]; exact h.std, by rw [h5, h1, h3]; exact h.ext, by rw [ha]; exact h.disj, by rw [h4]; exact h.nstd,
    by rw [h5]; exact h.next, by rw [h1, h4]; exact h.walk, by rw [h1, h5]; exact h.xwalk⟩

theorem good_create : Good create := by
  refine ⟨rfl, ⟨?_, ?_⟩, ⟨?_, ?_, ?_⟩, fun x h => (by cases h), .inl ⟨rfl, rfl, rfl, rfl, rfl, .inl rfl⟩⟩
  · intro r hr
    rw [List.eq_of_mem_replicate hr]
    exact ⟨by decide, by decide, by decide, fun a h => by cases h⟩
  · intro r hr
    rw [List.eq_of_mem_replicate hr]
    exact ⟨fun s h => (by cases h), by decide⟩
  · intro i
    simp only [create]
    split <;> decide
  · decide
  · decide

/-- Replacement of a table entry. -/
theorem Good.regs_set {t : List Reg} (h : Server.RegsOk t) (i : Nat) {r : Reg} (h1 : RegOk r)
    (h2 : (∀ s ∈ r.subs, SubOk s) ∧ 16 + 48 * r.subs.length < U32) : Server.RegsOk (t.set i r) :=
  ⟨Region.mem_set_imp h.regs h1, Region.mem_set_imp (P := fun r => (∀ s ∈ r.subs, SubOk s) ∧ 16 + 48 * r.subs.length < U32) h.subs h2⟩

theorem areas_len (a : Region.Setup) :
    (if a.areas = [] ∧ a.fd ≠ none then [(0, a.size)] else a.areas).length ≤ a.areas.length + 1 := by
  split
  · simp
  · omega

/-- `vfu_setup_region` in documented use. -/
theorem setup_good {c : Ctx} (h : Good c) (alloc : Bool) {a : Region.Setup} (hu : RegionUse c a) :
    let o := Region.setup alloc c.tbl a
    (∀ f, o.2 ≠ .fault f) ∧ o.1.length = 9 ∧ Server.RegsOk o.1 ∧
      (((o.1[7]?).map (·.size)).getD 0 = c.cfgSize ∨ a.idx = 7 ∧ ((o.1[7]?).map (·.size)).getD 0 = a.size % U32) := by
  intro o
  have same : (∀ f, (Res.err EINVAL : Res Unit) ≠ .fault f) ∧ c.tbl.length = 9 ∧ Server.RegsOk c.tbl ∧
      (((c.tbl[7]?).map (·.size)).getD 0 = c.cfgSize ∨ a.idx = 7 ∧ ((c.tbl[7]?).map (·.size)).getD 0 = a.size % U32) :=
    ⟨fun f h => (by cases h), h.len, h.regs, .inl rfl⟩
  have ho : o = Region.setup alloc c.tbl a := rfl
  unfold Region.setup at ho
  split at ho
  · rw [ho]; exact same
  · split at ho
    · rw [ho]; exact same
    · split at ho
      · rw [ho]; exact same
      · rename_i hfa
        split at ho
        · rw [ho]; exact same
        · rename_i hidx
          split at ho
          · rw [ho]; exact same
          · split at ho
            · rw [ho]; exact same
            · have hlt : a.idx.toNat < c.tbl.length := by rw [h.len]; simp only [Region.NUM_REGIONS] at hidx; omega
              rw [List.getElem?_eq_getElem hlt] at ho
              dsimp only at ho
              have hm := List.getElem_mem hlt
              generalize c.tbl[a.idx.toNat] = old at ho hm
              have hr := h.regs.regs old hm
              have hs := h.regs.subs old hm
              have hsz : a.size % U32 < U32 := Nat.mod_lt _ (by decide)
              have h7 : ∀ r : Reg, (a.idx = 7 → r.size = a.size % U32) →
                  ((((c.tbl.set a.idx.toNat r)[7]?).map (·.size)).getD 0 = c.cfgSize ∨
                    a.idx = 7 ∧ (((c.tbl.set a.idx.toNat r)[7]?).map (·.size)).getD 0 = a.size % U32) := by
                intro r hr
                by_cases he : a.idx = 7
                · right
                  refine ⟨he, ?_⟩
                  have h0 : a.idx.toNat = 7 := by omega
                  rw [h0, List.getElem?_set_self (by rw [h.len]; decide)]
                  exact hr he
                · left
                  rw [List.getElem?_set_ne (by omega)]
                  rfl
              have hA1 := areas_len a
              have hA2 : ∀ x ∈ (if a.areas = [] ∧ a.fd ≠ none then [(0, a.size)] else a.areas), x.1 < U64 ∧ x.2 < U64 := by
                intro x hx
                split at hx
                · rw [List.mem_singleton] at hx
                  rw [hx]
                  exact ⟨Nat.zero_lt_of_lt hu.size, hu.size⟩
                · exact hu.words x hx
              have hA3 : a.idx = 7 → (if a.areas = [] ∧ a.fd ≠ none then [(0, a.size)] else a.areas) = [] := by
                intro he
                obtain ⟨hfd, _⟩ := hu.config he
                rw [if_neg (by rw [hfd]; simp)]
                by_contra hcon
                exact hfa ⟨hcon, hfd⟩
              generalize (if a.areas = [] ∧ a.fd ≠ none then [(0, a.size)] else a.areas) = A at ho hA1 hA2 hA3
              have hc := hu.count
              by_cases hnil : A = []
              · rw [if_pos hnil] at ho
                rw [ho]
                exact ⟨fun f h => (by cases h), by rw [List.length_set]; exact h.len,
                  Good.regs_set h.regs _ ⟨hsz, hu.offset, hr.areas, hr.words⟩ hs, h7 _ (fun _ => rfl)⟩
              · rw [if_neg hnil] at ho
                by_cases hal : alloc = true
                · rw [if_pos hal] at ho
                  rw [ho]
                  exact ⟨fun f h => (by cases h), by rw [List.length_set]; exact h.len,
                    Good.regs_set h.regs _ ⟨hsz, hu.offset, by dsimp only; omega, hA2⟩ hs, h7 _ (fun _ => rfl)⟩
                · rw [if_neg hal] at ho
                  rw [ho]
                  exact ⟨fun f h => (by cases h), by rw [List.length_set]; exact h.len,
                    Good.regs_set h.regs _ ⟨by decide, by decide, by decide, fun x hx => (by cases hx)⟩
                      ⟨fun s hs => (by cases hs), by decide⟩, h7 _ (fun he => absurd (hA3 he) hnil)⟩

/-- `vfu_create_ioeventfd` in documented use. -/
theorem ioeventfd_good {c : Ctx} (h : Good c) (shadow alloc : Bool) (idx : Nat) {s : Sub} (hs : SubOk s)
    (hn : ∀ r, c.tbl[idx]? = some r → 16 + 48 * (r.subs.length + 1) < U32) :
    let o := Region.createIoeventfd shadow alloc c.tbl idx s
    (∀ f, o.2 ≠ .fault f) ∧ o.1.length = 9 ∧ Server.RegsOk o.1 ∧ ((o.1[7]?).map (·.size)).getD 0 = c.cfgSize := by
  intro o
  have same : ∀ e, (∀ f, (Res.err e : Res Unit) ≠ .fault f) ∧ c.tbl.length = 9 ∧ Server.RegsOk c.tbl ∧
      ((c.tbl[7]?).map (·.size)).getD 0 = c.cfgSize :=
    fun e => ⟨fun f h => (by cases h), h.len, h.regs, rfl⟩
  have ho : o = Region.createIoeventfd shadow alloc c.tbl idx s := rfl
  unfold Region.createIoeventfd at ho
  split at ho
  · rw [ho]; exact same _
  · split at ho
    · rw [ho]; exact same _
    · rename_i hidx
      have hlt : idx < c.tbl.length := by rw [h.len]; simp only [Region.NUM_REGIONS] at hidx; omega
      have hn := hn _ (List.getElem?_eq_getElem hlt)
      have hm := List.getElem_mem hlt
      have hg := List.getElem?_eq_getElem hlt
      rw [hg] at ho
      generalize c.tbl[idx] = old at ho hm hn hg
      dsimp only at ho
      split at ho
      · rw [ho]; exact same _
      · split at ho
        · rw [ho]; exact same _
        · rw [ho]
          have hr := h.regs.regs old hm
          have ho := h.regs.subs old hm
          refine ⟨fun f h => (by cases h), by rw [List.length_set]; exact h.len,
            Good.regs_set h.regs _ ⟨hr.size, hr.offset, hr.areas, hr.words⟩ ⟨?_, hn⟩, ?_⟩
          · intro x hx
            rcases List.mem_cons.1 hx with rfl | hx
            · exact hs
            · exact ho.1 x hx
          · dsimp only
            by_cases he : idx = 7
            · rw [he, List.getElem?_set_self (by rw [h.len]; decide)]
              unfold Ctx.cfgSize
              rw [he] at hg
              rw [hg]
              rfl
            · rw [List.getElem?_set_ne (by omega)]
              rfl

/-- Another table with the same size of the config space. -/
theorem Good.table {c : Ctx} (h : Good c) {t : List Reg} (h1 : t.length = 9) (h2 : Server.RegsOk t)
    (h3 : ((t[7]?).map (·.size)).getD 0 = c.cfgSize) : Good { c with tbl := t } := by
  have e : ({ c with tbl := t } : Ctx).cfgSize = c.cfgSize := h3
  refine ⟨h1, h2, h.irq, h.dma, ?_⟩
  rw [e]
  rcases h.cfg with h | ⟨h4, h5⟩
  · exact .inl h
  · exact .inr ⟨inv_congr h4 rfl rfl e rfl rfl, h5⟩

theorem Good.memory {c : Ctx} (h : Good c) (ha : c.alloc ≠ 0) {m : Pci.Mem} (hk : Pci.Keeps c.pci m) :
    Good { c with mem := m } := by
  refine ⟨h.len, h.regs, h.irq, h.dma, ?_⟩
  rcases h.cfg with ⟨h1, _⟩ | ⟨h4, h5⟩
  · exact absurd h1 ha
  · exact .inr ⟨inv_congr (h4.keep hk) rfl rfl rfl rfl rfl, h5⟩

/-- Stores into the header outside of the link to the first capability. -/
theorem keeps_header {c : Ctx} (h : Good c) (ha : c.alloc ≠ 0) {m : Pci.Mem} (hm : ∀ a, a = 0x34 ∨ 64 ≤ a → m a = c.mem a) :
    Pci.Keeps c.pci m := by
  rcases h.cfg with ⟨h1, _⟩ | ⟨h4, h5⟩
  · exact absurd h1 ha
  · refine ⟨hm _ (.inl rfl), ?_, ?_⟩
    · intro d hd a h1 _
      have := (h4.bnd.caps d hd).1
      exact hm a (.inr (by omega))
    · intro _ a h1 _
      exact hm a (.inr (by omega))

theorem Good.alloc_ge {c : Ctx} (h : Good c) (ha : c.alloc ≠ 0) : 256 ≤ c.alloc := by
  rcases h.cfg with ⟨h1, _⟩ | ⟨h4, h5, _⟩
  · exact absurd h1 ha
  · rw [← h5]; exact h4.bnd.std

theorem inv_fresh {p : Pci.Pci} (hm : p.mem = fun _ => 0#8) (ha : p.size = p.alloc) (h1 : 256 ≤ p.size) (h2 : p.size ≤ 4096)
    (hc : p.caps = []) (he : p.exts = []) : Pci.Inv p := by
  have hall : p.all = [] := by unfold Pci.Pci.all; rw [hc, he]; rfl
  refine ⟨⟨Nat.le_of_eq ha, h2, h1, ?_⟩, ?_, ?_, ?_, ?_, ?_, ?_, ?_⟩
  · rw [hall]; intro c hc; cases hc
  · rw [hc]; intro c hc; cases hc
  · rw [he]; intro c hc; cases hc
  · rw [hall]; exact .nil
  · rw [hc]; simp
  · rw [he]; simp
  · rw [hc]; exact .nil (by rw [hm])
  · rw [he, hm]; exact ⟨rfl, rfl, by simp [Pci.extNext]⟩

theorem cfgSize_set {c : Ctx} (h : Good c) (r : Reg) : (((c.tbl.set 7 r)[7]?).map (·.size)).getD 0 = r.size := by
  rw [List.getElem?_set_self (by rw [h.len]; decide)]
  rfl

theorem pciInit_good {c : Ctx} (h : Good c) (alloc : Bool) (type : Nat) (ht : Int) :
    Good (pciInit c alloc type ht).1 ∧ ∀ f, (pciInit c alloc type ht).2 ≠ .fault f := by
  unfold pciInit
  by_cases h1 : type > 3
  · rw [if_pos h1]; exact ⟨h, fun f h => (by cases h)⟩
  rw [if_neg h1]
  by_cases h2 : ht ≠ 0
  · rw [if_pos h2]; exact ⟨h, fun f h => (by cases h)⟩
  rw [if_neg h2]
  by_cases h3 : c.alloc ≠ 0
  · rw [if_pos h3]; exact ⟨h, fun f h => (by cases h)⟩
  rw [if_neg h3]
  by_cases h4 : alloc = false
  · rw [if_pos h4]; exact ⟨h, fun f h => (by cases h)⟩
  rw [if_neg h4]
  have hlt : 7 < c.tbl.length := by rw [h.len]; decide
  have hm := List.getElem_mem hlt
  rw [List.getElem?_eq_getElem hlt]
  generalize c.tbl[7] = r at hm
  dsimp only
  refine ⟨?_, fun f h => (by cases h)⟩
  have hr := h.regs.regs r hm
  have hsz : 256 ≤ (if type ≥ 2 then 4096 else 256) ∧ (if type ≥ 2 then 4096 else 256) ≤ 4096 := by split <;> omega
  rcases h.cfg with ⟨_, g2, g3, g4, g5, g6⟩ | ⟨g1, g2, g3⟩
  · refine ⟨by rw [List.length_set]; exact h.len,
      Good.regs_set h.regs _ ⟨Nat.lt_of_le_of_lt hsz.2 (by decide), hr.offset, hr.areas, hr.words⟩ (h.regs.subs r hm), h.irq,
      h.dma, .inr ⟨?_, cfgSize_set h _, ?_⟩⟩
    · have e := cfgSize_set h { r with size := if type ≥ 2 then 4096 else 256, flags := Region.FLAG_RW }
      refine inv_fresh rfl e ?_ ?_ g3 g4
      · exact Nat.le_trans hsz.1 (Nat.le_of_eq e.symm)
      · exact Nat.le_trans (Nat.le_of_eq e) hsz.2
    · intro hb
      exact if_pos (of_decide_eq_true hb)
  · have := g1.bnd.std
    change 256 ≤ c.cfgSize at this
    omega

theorem setId_good {c : Ctx} (h : Good c) (ha : c.alloc ≠ 0) (v d sv sd : BitVec 16) :
    Good (setId c v d sv sd).1 ∧ ∀ f, (setId c v d sv sd).2 ≠ .fault f := by
  have := h.alloc_ge ha
  unfold setId
  rw [if_neg (by omega)]
  refine ⟨h.memory ha (keeps_header h ha ?_), fun f h => (by cases h)⟩
  intro a h1
  rw [Pci.wrM_out (by simp [enc_length]; omega), Pci.wrM_out (by simp [enc_length]; omega)]

theorem setClass_good {c : Ctx} (h : Good c) (ha : c.alloc ≠ 0) (b s p : Byte) :
    Good (setClass c b s p).1 ∧ ∀ f, (setClass c b s p).2 ≠ .fault f := by
  have := h.alloc_ge ha
  unfold setClass
  rw [if_neg (by omega)]
  refine ⟨h.memory ha (keeps_header h ha ?_), fun f h => (by cases h)⟩
  intro a h1
  exact Pci.wrM_out (by simp; omega)

theorem capability_good {c : Ctx} (h : Good c) {pos : Nat} {fl : Pci.CapFlags} {data : List Byte}
    (hu : CapUse c pos fl data) :
    Good (capability c pos fl data).1 ∧ ∀ f, (capability c pos fl data).2 ≠ .fault f := by
  obtain ⟨hi, hsz, hbig⟩ : Pci.Inv c.pci ∧ c.cfgSize = c.alloc ∧ (c.big = true → c.alloc = 4096) := by
    rcases h.cfg with ⟨h1, _⟩ | h4
    · exact absurd h1 hu.space
    · exact h4
  have hcap : capability c pos fl data =
      ({ c with mem := (Pci.addCap c.cfgCb c.pci pos fl data).1.mem, caps := (Pci.addCap c.cfgCb c.pci pos fl data).1.caps
                exts := (Pci.addCap c.cfgCb c.pci pos fl data).1.exts
                expOff := (Pci.addCap c.cfgCb c.pci pos fl data).1.expOff }, (Pci.addCap c.cfgCb c.pci pos fl data).2) := by
    unfold capability
    dsimp only
    rw [if_neg (fun hc => hu.space hc.1)]
  have hstd := hu.std
  have hext := hu.ext
  have hnf := Pci.addCap_total (hasCb := c.cfgCb) hi (fun hb => hsz.trans (hbig hb)) hu.low hu.aligned
    (fun hf s hs => ⟨(hstd hf s hs).1, (hstd hf s hs).2.1⟩) (fun hf s hs => ⟨(hext hf s hs).1, (hext hf s hs).2.1⟩)
  rw [hcap] at hstd hext ⊢
  dsimp only at hstd hext ⊢
  refine ⟨?_, hnf⟩
  generalize hr : Pci.addCap c.cfgCb c.pci pos fl data = r at hstd hext hnf
  obtain ⟨p', res⟩ := r
  dsimp only at hstd hext hnf ⊢
  have key : Pci.Inv p' ∧ p'.size = c.cfgSize ∧ p'.alloc = c.alloc := by
    cases res with
    | fault f => exact absurd rfl (hnf f)
    | err e => rw [Pci.C39_refused hr]; exact ⟨hi, rfl, rfl⟩
    | ok off =>
      cases hf : fl.ext with
      | false =>
        have ha := Pci.addCap_std hf hr
        obtain ⟨s, hs, _, _, _, _, _, _, hp⟩ := Pci.addStd_ok hi ha
        obtain ⟨a1, _, a3⟩ := hstd hf s hs
        obtain ⟨a4, a5⟩ := a3 off rfl
        exact ⟨hi.addStd ha hs a1 a4 a5, by rw [hp]; rfl, by rw [hp]; rfl⟩
      | true =>
        have ha := Pci.addCap_ext hf hr
        obtain ⟨s, m', hs, _, _, _, _, _, _, _, hp, _⟩ := Pci.addExt_ok hi ha
        obtain ⟨a1, _, a3⟩ := hext hf s hs
        exact ⟨hi.addExt ha hs a1 (a3 off rfl), by rw [hp]; rfl, by rw [hp]; rfl⟩
  exact ⟨h.len, h.regs, h.irq, h.dma, .inr ⟨inv_congr key.1 rfl key.2.2.symm key.2.1.symm rfl rfl, hsz, hbig⟩⟩

/-! ## Realizing -/

/-- The flags of region `i`. -/
def flagsOf (tbl : List Reg) (i : Nat) : Nat := ((tbl[i]?).map (·.flags)).getD 0

theorem barLoop_out (tbl : List Reg) (n i : Nat) (m : Pci.Mem) (a : Nat) (h : ∀ j, i ≤ j → j < i + n → a ≠ 0x10 + 4 * j) :
    barLoop tbl n i m a = m a := by
  induction n generalizing i m with
  | zero => rfl
  | succ n ih =>
    unfold barLoop
    rw [ih _ _ (fun j h1 h2 => h j (by omega) (by omega))]
    have := h i (by omega) (by omega)
    exact Pci.wrM_out (by simp; omega)

theorem barLoop_at (tbl : List Reg) (n i : Nat) (m : Pci.Mem) (j : Nat) (h1 : i ≤ j) (h2 : j < i + n) :
    barLoop tbl n i m (0x10 + 4 * j) = barByte (flagsOf tbl j) (m (0x10 + 4 * j)) := by
  induction n generalizing i m with
  | zero => omega
  | succ n ih =>
    unfold barLoop
    by_cases he : i = j
    · rw [barLoop_out _ _ _ _ _ (fun k h3 h4 => by omega), he]
      unfold Pci.wrM
      rw [if_pos (by simp)]
      simp [flagsOf]
    · rw [ih _ _ (by omega) (by omega)]
      congr 1
      exact Pci.wrM_out (by simp; omega)

theorem withRegion_good {c : Ctx} (h : Good c) (hr : c.realized = false) :
    Good (withRegion c) ∧ (withRegion c).cfgSize ≠ 0 ∧ (withRegion c).realized = false := by
  have hlt : 7 < c.tbl.length := by rw [h.len]; decide
  have hg := List.getElem?_eq_getElem hlt
  have hm := List.getElem_mem hlt
  unfold withRegion
  rw [hg]
  generalize c.tbl[7] = r at hm hg
  dsimp only
  have hsz : c.cfgSize = r.size := by unfold Ctx.cfgSize; rw [hg]; rfl
  by_cases h0 : r.size = 0
  · rw [if_pos h0]
    have hr' := h.regs.regs r hm
    have e : ({ c with tbl := c.tbl.set 7 { r with flags := Region.FLAG_RW, size := 256 } } : Ctx).cfgSize = 256 := cfgSize_set h _
    rcases h.cfg with ⟨g1, g2, g3, g4, g5, g6⟩ | ⟨g1, g2, g3⟩
    · refine ⟨⟨by rw [List.length_set]; exact h.len, Good.regs_set h.regs _ ⟨?_, hr'.offset, hr'.areas, hr'.words⟩
        (h.regs.subs r hm), h.irq, h.dma, .inl ⟨g1, g2, g3, g4, g5, .inr ?_⟩⟩, ?_, hr⟩
      · dsimp only; decide
      · rw [e]; omega
      · rw [e]; omega
    · have := g1.bnd.std
      change 256 ≤ c.cfgSize at this
      omega
  · rw [if_neg h0]
    exact ⟨h, by omega, hr⟩

theorem withSpace_good {d : Ctx} (k1 : Good d) (k2 : d.cfgSize ≠ 0) (k3 : d.realized = false) :
    Good (withSpace d) ∧ (withSpace d).realized = false ∧ 256 ≤ (withSpace d).alloc := by
  unfold withSpace
  by_cases h0 : d.alloc = 0
  · rw [if_pos h0]
    rcases k1.cfg with ⟨g1, g2, g3, g4, g5, g6⟩ | ⟨g1, g2, g3⟩
    · have g6 : 256 ≤ d.cfgSize ∧ d.cfgSize ≤ 4096 := by omega
      have hi : Pci.Inv ({ d with alloc := d.cfgSize, mem := fun _ => 0#8 } : Ctx).pci := inv_fresh rfl rfl g6.1 g6.2 g3 g4
      exact ⟨⟨k1.len, k1.regs, k1.irq, k1.dma, .inr ⟨hi, rfl, fun hb => absurd (g2.symm.trans hb) (by decide)⟩⟩, k3, g6.1⟩
    · omega
  · rw [if_neg h0]
    exact ⟨k1, k3, k1.alloc_ge h0⟩

/-- The context in which `vfu_realize_ctx` starts to write: with a config region and a config space. -/
def furnished (c : Ctx) : Ctx := withSpace (withRegion c)

theorem furnished_good {c : Ctx} (h : Good c) (hr : c.realized = false) :
    Good (furnished c) ∧ (furnished c).realized = false ∧ 256 ≤ (furnished c).alloc := by
  obtain ⟨h1, h2, h3⟩ := withRegion_good h hr
  exact withSpace_good h1 h2 h3

/-- The config space after a successful `vfu_realize_ctx`. -/
def finished (c : Ctx) : Pci.Mem := setCl c (setPin c (barLoop c.tbl 6 0 c.mem))

theorem bars_keep (tbl : List Reg) (m : Pci.Mem) (a : Nat) (h : a < 0x10 ∨ 0x28 ≤ a) : barLoop tbl 6 0 m a = m a :=
  barLoop_out _ _ _ _ _ (fun j h1 h2 => by omega)

theorem setPin_keep (c : Ctx) (m : Pci.Mem) (a : Nat) (h : a ≠ 0x3d) : setPin c m a = m a := by
  unfold setPin
  split
  · exact Pci.wrM_out (by simp; omega)
  · rfl

theorem setCl_keep (c : Ctx) (m : Pci.Mem) (a : Nat) (h : a ≠ 6) : setCl c m a = m a := by
  unfold setCl
  split
  · exact Pci.wrM_out (by simp; omega)
  · rfl

theorem realize_cases {c : Ctx} (h : Good c) (hr : c.realized = false) (a b : Bool) :
    (∃ d, Good d ∧ d.realized = false ∧ realize c a b = (d, .err ENOMEM)) ∨
      realize c a b = ({ furnished c with mem := finished (furnished c), realized := true }, .ok 0) := by
  obtain ⟨f1, f2, f3⟩ := furnished_good h hr
  obtain ⟨r1, r2, r3⟩ := withRegion_good h hr
  unfold realize
  rw [if_neg (by rw [hr]; decide)]
  dsimp only
  by_cases h1 : (withRegion c).alloc = 0 ∧ a = false
  · rw [if_pos h1]
    exact .inl ⟨_, r1, r3, rfl⟩
  rw [if_neg h1]
  change (∃ d, Good d ∧ d.realized = false ∧ (if (furnished c).alloc < 0x28 then _ else _) = _) ∨ (if (furnished c).alloc < 0x28 then _ else _) = _
  rw [if_neg (by omega)]
  by_cases h2 : b = false
  · rw [if_pos h2]
    refine .inl ⟨{ furnished c with mem := barLoop (furnished c).tbl 6 0 (furnished c).mem }, ?_, f2, rfl⟩
    exact f1.memory (by omega) (keeps_header f1 (by omega) (fun a ha => bars_keep _ _ _ (by omega)))
  rw [if_neg h2]
  by_cases h3 : (withSpace (withRegion c)).cnt Irq.INTX ≠ 0 ∧ (withSpace (withRegion c)).alloc < 0x3e
  · change _ ∧ (furnished c).alloc < 0x3e at h3
    omega
  rw [if_neg h3]
  exact .inr rfl

theorem finished_good {c : Ctx} (h : Good c) (ha : 256 ≤ c.alloc) :
    Good { c with mem := finished c, realized := true } := by
  have h1 : Good { c with mem := finished c } := h.memory (by omega) (keeps_header h (by omega) (fun a h1 => by
    unfold finished
    rw [setCl_keep _ _ _ (by omega), setPin_keep _ _ _ (by omega), bars_keep _ _ _ (by omega)]))
  refine ⟨h1.len, h1.regs, h1.irq, h1.dma, ?_⟩
  rcases h1.cfg with ⟨g1, _⟩ | ⟨g1, g2⟩
  · change c.alloc = 0 at g1
    omega
  · exact .inr ⟨g1, g2⟩

/-! ## All calls -/

theorem step_good_any {c : Ctx} (h : Good c) {k : Call} (hu : Use c k) :
    Good (step c k).1 ∧ ∀ f, (step c k).2 ≠ .fault f := by
  have nf : ∀ n f, (Res.ok n : Res Nat) ≠ .fault f := fun n f h => by cases h
  have ne : ∀ n f, (Res.err n : Res Nat) ≠ .fault f := fun n f h => by cases h
  cases k with
  | region alloc a =>
    obtain ⟨h1, h2, h3, h4⟩ := setup_good h alloc hu
    have hg : Good { c with tbl := (Region.setup alloc c.tbl a).1 } := by
      rcases h4 with h4 | ⟨h4, h5⟩
      · exact h.table h2 h3 h4
      · obtain ⟨g1, g2⟩ := hu.config h4
        have e : ({ c with tbl := (Region.setup alloc c.tbl a).1 } : Ctx).cfgSize = a.size % U32 := h5
        refine ⟨h2, h3, h.irq, h.dma, ?_⟩
        rcases h.cfg with ⟨j1, j2, j3, j4, j5, _⟩ | ⟨j1, j2, j3⟩
        · rw [if_pos j1] at g2
          have : a.size % U32 = a.size := Nat.mod_eq_of_lt (by simp only [U32]; omega)
          refine .inl ⟨j1, j2, j3, j4, j5, ?_⟩
          rw [e, this]; exact g2
        · have j4 := j1.bnd.std
          have j5 := j1.bnd.small
          change 256 ≤ c.cfgSize at j4
          change c.cfgSize ≤ 4096 at j5
          rw [if_neg (by omega)] at g2
          have : a.size % U32 = a.size := Nat.mod_eq_of_lt (by simp only [U32]; omega)
          rw [this, g2] at e
          exact .inr ⟨inv_congr j1 rfl rfl (e.trans j2.symm) rfl rfl, e, j3⟩
    unfold step
    dsimp only
    generalize Region.setup alloc c.tbl a = o at h1 hg
    obtain ⟨t, res⟩ := o
    cases res with
    | ok u => exact ⟨hg, nf _⟩
    | err e => exact ⟨hg, ne _⟩
    | fault f => exact absurd rfl (h1 f)
  | ioeventfd shadow alloc idx s =>
    obtain ⟨h1, h2, h3, h4⟩ := ioeventfd_good h shadow alloc idx hu.1 hu.2
    have hg : Good { c with tbl := (Region.createIoeventfd shadow alloc c.tbl idx s).1 } := h.table h2 h3 h4
    unfold step
    dsimp only
    generalize Region.createIoeventfd shadow alloc c.tbl idx s = o at h1 hg
    obtain ⟨t, res⟩ := o
    cases res with
    | ok u => exact ⟨hg, nf _⟩
    | err e => exact ⟨hg, ne _⟩
    | fault f => exact absurd rfl (h1 f)
  | pciInit alloc type ht => exact pciInit_good h alloc type ht
  | setId v d sv sd => exact setId_good h hu v d sv sd
  | setClass b s p => exact setClass_good h hu b s p
  | capability pos fl data => exact capability_good h hu
  | store off bytes =>
    unfold step store
    dsimp only
    have h1 := hu.1
    rw [if_neg (by omega)]
    by_cases ha : c.alloc = 0
    · have hb : bytes = [] := List.length_eq_zero_iff.1 (by omega)
      have hm : Pci.wrM c.mem off bytes = c.mem := by
        funext a
        exact Pci.wrM_out (by rw [hb]; simp; omega)
      rw [hm]
      exact ⟨h, nf _⟩
    · exact ⟨h.memory ha hu.2, nf _⟩
  | nrIrqs t n =>
    unfold step
    dsimp only
    split
    · exact ⟨h, ne _⟩
    · refine ⟨⟨h.len, h.regs, ⟨?_, ?_, ?_⟩, h.dma, h.cfg⟩, nf _⟩
      · intro i
        dsimp only
        split
        · exact hu.1
        · exact h.irq.small i
      · dsimp only
        split
        · rename_i he; exact hu.2 (.inl he.symm)
        · exact h.irq.err
      · dsimp only
        split
        · rename_i he; exact hu.2 (.inr he.symm)
        · exact h.irq.req
  | irqStateCb t b =>
    unfold step
    dsimp only
    split
    · exact ⟨h, ne _⟩
    · exact ⟨⟨h.len, h.regs, ⟨h.irq.small, h.irq.err, h.irq.req⟩, h.dma, h.cfg⟩, nf _⟩
  | quiesceCb b => exact ⟨⟨h.len, h.regs, h.irq, h.dma, h.cfg⟩, nf _⟩
  | resetCb b => exact ⟨⟨h.len, h.regs, h.irq, h.dma, h.cfg⟩, nf _⟩
  | dma alloc reg unreg =>
    unfold step
    dsimp only
    split
    · exact ⟨⟨h.len, h.regs, h.irq, fun x hx => (by cases hx), h.cfg⟩, ne _⟩
    · exact ⟨⟨h.len, h.regs, h.irq, fun x hx => (by cases hx; rfl), h.cfg⟩, nf _⟩
  | migration alloc v cbs =>
    unfold step
    dsimp only
    split
    · exact ⟨h, ne _⟩
    · split
      · exact ⟨⟨h.len, h.regs, h.irq, h.dma, h.cfg⟩, ne _⟩
      · split
        · exact ⟨⟨h.len, h.regs, h.irq, h.dma, h.cfg⟩, ne _⟩
        · exact ⟨⟨h.len, h.regs, h.irq, h.dma, h.cfg⟩, nf _⟩
  | realize a b =>
    change Good (realize c a b).1 ∧ ∀ f, (realize c a b).2 ≠ .fault f
    by_cases hr : c.realized = true
    · unfold realize
      rw [if_pos hr]; exact ⟨h, nf _⟩
    have hr : c.realized = false := by simpa using hr
    obtain ⟨f1, f2, f3⟩ := furnished_good h hr
    rcases realize_cases h hr a b with ⟨d, hd, _, e⟩ | e
    · rw [e]; exact ⟨hd, ne _⟩
    · rw [e]; exact ⟨finished_good f1 f3, nf _⟩

theorem step_good {c : Ctx} (h : Good c) (_ : c.realized = false) {k : Call} (hu : Use c k) :
    Good (step c k).1 ∧ ∀ f, (step c k).2 ≠ .fault f := step_good_any h hu

theorem run_cons {c : Ctx} {k : Call} {ks : List Call} (h : ∀ f, (step c k).2 ≠ .fault f) :
    run c (k :: ks) = ((run (step c k).1 ks).1, (step c k).2 :: (run (step c k).1 ks).2) := by
  have : (step c k).2.isFault = false := by
    cases hs : (step c k).2 with
    | ok a => rfl
    | err e => rfl
    | fault f => exact absurd hs (h f)
  conv_lhs => unfold run
  dsimp only
  rw [this, if_neg (by decide)]

theorem run_good {c : Ctx} (h : Good c) {ks : List Call} (hu : UseRun c ks) :
    Good (run c ks).1 ∧ (∀ r ∈ (run c ks).2, ∀ f, r ≠ .fault f) ∧ (run c ks).2.length = ks.length := by
  induction ks generalizing c with
  | nil => exact ⟨h, fun r hr => (by cases hr), rfl⟩
  | cons k ks ih =>
    obtain ⟨h1, h2, h3⟩ := hu
    obtain ⟨s1, s2⟩ := step_good h h1 h2
    obtain ⟨i1, i2, i3⟩ := ih s1 h3
    rw [run_cons s2]
    refine ⟨i1, ?_, by simp [i3]⟩
    intro r hr
    rcases List.mem_cons.1 hr with rfl | hr
    · exact s2
    · exact i2 r hr

theorem Good.setupOk {c : Ctx} (h : Good c) (hr : c.realized = true) : Server.SetupOk c.server c.dma c.pci := by
  rcases h.cfg with ⟨_, _, _, _, g, _⟩ | ⟨g1, g2, g3⟩
  · rw [hr] at g; cases g
  · refine ⟨h.irq, h.regs, ⟨g1.bnd, Pci.sized_of_inv g1, Pci.disj_of_inv g1, ?_⟩, ?_⟩
    · intro r hr
      have : c.cfgSize = r.size := by
        change c.tbl[7]? = some r at hr
        unfold Ctx.cfgSize
        rw [hr]; rfl
      exact Nat.le_of_eq this.symm
    · intro x hx
      rw [h.dma x hx]
      decide

/-- **C69**: a device that is set up by documented calls, in any order and number and whichever of them fail for lack of
memory, is set up without a crash; and once it is realized, it serves every careful conversation without one. -/
theorem C69_setup (ks : List Call) (hu : UseRun create ks) :
    (run create ks).2.length = ks.length ∧ (∀ r ∈ (run create ks).2, ∀ f, r ≠ .fault f) ∧
      ((run create ks).1.realized = true → ∀ ops,
        Server.CarefulRun (run create ks).1.server (run create ks).1.dma (run create ks).1.start ops →
        Server.Completes (run create ks).1.server (run create ks).1.start ops) := by
  obtain ⟨h1, h2, h3⟩ := run_good good_create hu
  exact ⟨h3, h2, fun hr ops hc => Server.C61_run _ (h1.setupOk hr) ops hc⟩

end Verif.Setup
