import Verif.Server.Soil

/-!
# What a refused request leaves behind

C113: a request that is answered with an error leaves the tables as they were, except for four kinds of requests. -/

namespace Verif.Server
open Verif
open Verif.Dma (Fd)

/-- A region without the record of its dirty pages. -/
def bare (r : Dma.Region) : Dma.Region := { r with dirty := none }

/-- The two tables differ in which pages are recorded as dirty only. -/
def BitsOnly (c c' : Dma.Ctl) : Prop :=
  c'.dirtyPgsize = c.dirtyPgsize ∧ c'.maxRegions = c.maxRegions ∧ c'.maxSize = c.maxSize ∧
    c'.regions.map bare = c.regions.map bare

/-- The range of an unmap is not that of any region. -/
def Unknown (m : Msg) (c : Dma.Ctl) : Prop :=
  ∀ r ∈ c.regions, ¬ (r.info.base = leAt m.body 8 8 ∧ r.info.len = leAt m.body 16 8)

/-- What a request that is refused with `e` can leave behind. -/
structure Traces (cfg : Cfg) (m : Msg) (e : Nat) (a b : St) : Prop where
  irqs : b.irqs = a.irqs
  /-- the pages an unmap with bitmap was about to report -/
  dma : b.dma = a.dma ∨ m.hdr.cmd = 3 ∧ leAt m.body 4 4 = 1 ∧ e = ENOENT ∧
    ∃ c c', a.dma = some c ∧ b.dma = some c' ∧ BitsOnly c c' ∧ Unknown m c
  /-- the steps of a state change before the one that failed -/
  mig : b.mig = a.mig ∨ m.hdr.cmd = 16 ∧ leAt m.body 4 4 = 0x20002
  /-- accesses to the config space; what the device did in its reset callback -/
  pci : b.pci = a.pci ∨ ((m.hdr.cmd = 9 ∨ m.hdr.cmd = 10) ∧ leAt m.body 8 4 = 7 ∨ m.hdr.cmd = 13 ∧ cfg.hasReset = true) ∧
    ∃ mem, b.pci = { a.pci with mem }

theorem Traces.refl (cfg : Cfg) (m : Msg) (e : Nat) (a : St) : Traces cfg m e a a := ⟨rfl, .inl rfl, .inl rfl, .inl rfl⟩

theorem query_bits (c : Dma.Ctl) (hint addr len pg size : Nat) (out : List Byte) :
    BitsOnly c (Dma.dirtyPageGet c hint addr len pg size out).1 ∧
      ((∃ e, (Dma.dirtyPageGet c hint addr len pg size out).2 = .err e) ∨
        (Dma.dirtyPageGet c hint addr len pg size out).2 = .noErrno →
        (Dma.dirtyPageGet c hint addr len pg size out).1 = c) := by
  have h0 : BitsOnly c c := ⟨rfl, rfl, rfl, rfl⟩
  unfold Dma.dirtyPageGet
  split
  · exact ⟨h0, fun _ => rfl⟩
  · exact ⟨h0, fun _ => rfl⟩
  · exact ⟨h0, fun _ => rfl⟩
  · rename_i sg _
    split
    · exact ⟨h0, fun _ => rfl⟩
    split
    · exact ⟨h0, fun _ => rfl⟩
    split
    · exact ⟨h0, fun _ => rfl⟩
    split
    · exact ⟨h0, fun _ => rfl⟩
    · exact ⟨h0, fun _ => rfl⟩
    split
    · exact ⟨h0, fun _ => rfl⟩
    · exact ⟨h0, fun _ => rfl⟩
    split
    · exact ⟨h0, fun _ => rfl⟩
    split
    · exact ⟨h0, fun _ => rfl⟩
    rename_i r hr
    split
    · exact ⟨h0, fun _ => rfl⟩
    · exact ⟨h0, fun _ => rfl⟩
    split
    · rename_i srv' out' _
      refine ⟨⟨rfl, rfl, rfl, ?_⟩, fun h => by rcases h with ⟨e, h⟩ | h <;> cases h⟩
      dsimp only
      rw [List.map_set]
      have : bare { r with dirty := some srv' } = bare r := rfl
      rw [this]
      apply List.ext_getElem?
      intro i
      rw [List.getElem?_set]
      split
      · rename_i hi
        subst hi
        split
        · rw [List.getElem?_map, hr]; rfl
        · rename_i hl
          rw [List.getElem?_eq_none (by omega)]
      · rfl
    · exact ⟨h0, fun _ => rfl⟩
    · exact ⟨h0, fun _ => rfl⟩
  · exact ⟨h0, fun _ => rfl⟩

theorem unknown_of_bits {m : Msg} {c c' : Dma.Ctl} (h : BitsOnly c c') (hu : Unknown m c') : Unknown m c := by
  intro r hr
  have : bare r ∈ c'.regions.map bare := by rw [h.2.2.2]; exact List.mem_map_of_mem hr
  obtain ⟨r', hr', he⟩ := List.mem_map.mp this
  have hi : (bare r').info = (bare r).info := by rw [he]
  replace hi : r'.info = r.info := hi
  have := hu r' hr'
  rwa [hi] at this

theorem tail_refused {u : Bool} {c : Dma.Ctl} {a s : Nat} {b : Option (List Byte)} :
    ((∃ e, (Dma.unmapTail u c a s b).2.1 = .err e) ∨ (Dma.unmapTail u c a s b).2.1 = .okEmpty →
      (Dma.unmapTail u c a s b).1 = c ∧ (Dma.unmapTail u c a s b).2.1 = .err ENOENT ∧ (Dma.unmapTail u c a s b).2.2 = [] ∧
      ∀ r ∈ c.regions, ¬ (r.info.base = a ∧ r.info.len = s)) := by
  unfold Dma.unmapTail Dma.removeRegion
  intro h
  cases hl : Dma.removeLoop u a s c.regions with
  | ok x => rw [hl] at h; obtain ⟨rs, ev⟩ := x; rcases h with ⟨e, h⟩ | h <;> cases h
  | err e =>
    obtain ⟨rfl, h2⟩ := Dma.removeLoop_err c.regions e hl
    exact ⟨rfl, rfl, rfl, h2⟩
  | fault f => rw [hl] at h; rcases h with ⟨e, h⟩ | h <;> cases h

theorem unmap_traces {cfg : Cfg} {env : Env} {st : St} {c : Dma.Ctl} {m : Msg} {e : Nat} (hd : st.dma = some c)
    (hm : m.hdr.cmd = 3) (h : (dmaUnmap cfg env st c m.body m.fds).res = .err e) :
    Traces cfg m e st (dmaUnmap cfg env st c m.body m.fds).st := by
  have hk : ∀ (c' : Dma.Ctl), (c' = c ∨ leAt m.body 4 4 = 1 ∧ e = ENOENT ∧ BitsOnly c c' ∧ Unknown m c) →
      Traces cfg m e st { st with dma := some c' } := by
    intro c' hc
    refine ⟨rfl, ?_, .inl rfl, .inl rfl⟩
    rcases hc with rfl | ⟨h1, h2, h3, h4⟩
    · exact .inl hd.symm
    · exact .inr ⟨hm, h1, h2, c, c', hd, rfl, h3, h4⟩
  unfold dmaUnmap at h ⊢
  by_cases hb : m.body = []
  · rw [if_pos hb]; exact Traces.refl cfg m e st
  rw [if_neg hb] at h ⊢
  cases hv : validUnmap m.body with
  | err e' => exact Traces.refl cfg m e st
  | fault f => exact Traces.refl cfg m e st
  | ok u =>
    rw [hv] at h
    dsimp only at h ⊢
    have key : ∀ (o : Dma.Ctl × Dma.UnmapOut × List Dma.Ev),
        (((∃ e', o.2.1 = .err e') ∨ o.2.1 = .okEmpty) →
          o.1 = c ∨ leAt m.body 4 4 = 1 ∧ o.2.1 = .err ENOENT ∧ BitsOnly c o.1 ∧ Unknown m c) →
        (match o.2.1 with
          | .ok none => ({ st := { st with dma := some o.1 }, res := .ok (), out := .bytes (m.body.take 24), outFds := [],
                           left := m.fds.map some, evs := o.2.2.flatMap (ofDma st.quiesced) } : Done)
          | .ok (some bm) => { st := { st with dma := some o.1 }, res := .ok (), out := .bytes (m.body.take 40 ++ bm),
                               outFds := [], left := m.fds.map some, evs := o.2.2.flatMap (ofDma st.quiesced) }
          | .okEmpty => { st := { st with dma := some o.1 }, res := .err 0, out := .bytes [], outFds := [],
                          left := m.fds.map some, evs := o.2.2.flatMap (ofDma st.quiesced) }
          | .err e => { st := { st with dma := some o.1 }, res := .err e, out := .bytes [], outFds := [],
                        left := m.fds.map some, evs := o.2.2.flatMap (ofDma st.quiesced) }
          | .fault f => { st := { st with dma := some o.1 }, res := .fault f, out := .bytes [], outFds := [],
                          left := m.fds.map some, evs := o.2.2.flatMap (ofDma st.quiesced) }).res = .err e →
        Traces cfg m e st (match o.2.1 with
          | .ok none => ({ st := { st with dma := some o.1 }, res := .ok (), out := .bytes (m.body.take 24), outFds := [],
                           left := m.fds.map some, evs := o.2.2.flatMap (ofDma st.quiesced) } : Done)
          | .ok (some bm) => { st := { st with dma := some o.1 }, res := .ok (), out := .bytes (m.body.take 40 ++ bm),
                               outFds := [], left := m.fds.map some, evs := o.2.2.flatMap (ofDma st.quiesced) }
          | .okEmpty => { st := { st with dma := some o.1 }, res := .err 0, out := .bytes [], outFds := [],
                          left := m.fds.map some, evs := o.2.2.flatMap (ofDma st.quiesced) }
          | .err e => { st := { st with dma := some o.1 }, res := .err e, out := .bytes [], outFds := [],
                        left := m.fds.map some, evs := o.2.2.flatMap (ofDma st.quiesced) }
          | .fault f => { st := { st with dma := some o.1 }, res := .fault f, out := .bytes [], outFds := [],
                          left := m.fds.map some, evs := o.2.2.flatMap (ofDma st.quiesced) }).st := by
      intro o ho hr
      obtain ⟨c', r, ev⟩ := o
      cases r with
      | ok b => cases b <;> cases hr
      | okEmpty =>
        rcases ho (.inr rfl) with h1 | ⟨_, h1, _⟩
        · exact hk c' (.inl h1)
        · cases h1
      | err e' =>
        dsimp only at hr
        cases hr
        rcases ho (.inl ⟨e, rfl⟩) with h1 | ⟨h1, h2, h3, h4⟩
        · exact hk c' (.inl h1)
        · cases h2; exact hk c' (.inr ⟨h1, rfl, h3, h4⟩)
      | fault f => cases hr
    refine key _ ?_ h
    intro hr
    unfold Dma.handleUnmap at hr ⊢
    by_cases ha : env.alloc = false
    · rw [if_pos ha]; exact .inl rfl
    rw [if_neg ha] at hr ⊢
    unfold unmapKind at hr ⊢
    by_cases h1 : leAt m.body 4 4 = UNMAP_ALL
    · rw [if_pos h1] at hr ⊢
      dsimp only at hr ⊢
      cases hx : Dma.removeAll c cfg.dma.hasUnreg with
      | ok x => rw [hx] at hr; obtain ⟨c', ev⟩ := x; rcases hr with ⟨e', hr⟩ | hr <;> cases hr
      | err e' => exact .inl rfl
      | fault f => exact .inl rfl
    rw [if_neg h1] at hr ⊢
    by_cases h2 : leAt m.body 4 4 = UNMAP_DIRTY
    · rw [if_pos h2] at hr ⊢
      dsimp only at hr ⊢
      have hq := query_bits c env.hint (leAt m.body 8 8) (leAt m.body 16 8) (leAt m.body 24 8) (leAt m.body 32 8)
        (env.malloc (leAt m.body 32 8))
      generalize Dma.dirtyPageGet c env.hint (leAt m.body 8 8) (leAt m.body 16 8) (leAt m.body 24 8) (leAt m.body 32 8)
        (env.malloc (leAt m.body 32 8)) = g at hq hr
      obtain ⟨c', r⟩ := g
      have ht : ∀ b, ((∃ e', (Dma.unmapTail cfg.dma.hasUnreg c' (leAt m.body 8 8) (leAt m.body 16 8) b).2.1 = .err e') ∨
          (Dma.unmapTail cfg.dma.hasUnreg c' (leAt m.body 8 8) (leAt m.body 16 8) b).2.1 = .okEmpty) →
          (Dma.unmapTail cfg.dma.hasUnreg c' (leAt m.body 8 8) (leAt m.body 16 8) b).1 = c ∨
          leAt m.body 4 4 = 1 ∧ (Dma.unmapTail cfg.dma.hasUnreg c' (leAt m.body 8 8) (leAt m.body 16 8) b).2.1 = .err ENOENT ∧
          BitsOnly c (Dma.unmapTail cfg.dma.hasUnreg c' (leAt m.body 8 8) (leAt m.body 16 8) b).1 ∧ Unknown m c := by
        intro b hb
        obtain ⟨t1, t2, _, t4⟩ := tail_refused hb
        exact .inr ⟨h2, t2, by rw [t1]; exact hq.1, unknown_of_bits hq.1 t4⟩
      cases r with
      | done bm => exact ht _ hr
      | ret0 => exact ht _ hr
      | noErrno => exact .inl (hq.2 (.inr rfl))
      | err e' => exact .inl (hq.2 (.inl ⟨e', rfl⟩))
      | fault f => rcases hr with ⟨e', hr⟩ | hr <;> cases hr
    · rw [if_neg h2] at hr ⊢
      exact .inl (tail_refused hr).1

theorem map_traces {cfg : Cfg} {env : Env} {st : St} {c : Dma.Ctl} {m : Msg} {e : Nat} (hd : st.dma = some c)
    (h : (dmaMap cfg env st c m.body m.fds).res = .err e) :
    Traces cfg m e st (dmaMap cfg env st c m.body m.fds).st := by
  unfold dmaMap at h ⊢
  by_cases hb : m.body = []
  · rw [if_pos hb]; exact Traces.refl cfg m e st
  rw [if_neg hb] at h ⊢
  by_cases hl : m.body.length < 32 ∨ leAt m.body 0 4 < 32
  · rw [if_pos hl]; exact Traces.refl cfg m e st
  rw [if_neg hl] at h ⊢
  dsimp only at h ⊢
  have hc := Dma.handleMap_case env.os cfg.dma.hasReg c
    { flags := leAt m.body 4 4, offset := leAt m.body 8 8, addr := leAt m.body 16 8, size := leAt m.body 24 8, fds := m.fds }
  generalize Dma.handleMap env.os cfg.dma.hasReg c _ = o at hc h
  refine ⟨rfl, .inl ?_, .inl rfl, .inl rfl⟩
  dsimp only
  rw [hd]
  cases hc with
  | flags => rfl
  | fail => rfl
  | again => rfl
  | new => cases h

theorem irqs_traces {cfg : Cfg} {env : Env} {st : St} {m : Msg} {e : Nat}
    (h : (setIrqs cfg env st m.body m.fds).res = .err e) : Traces cfg m e st (setIrqs cfg env st m.body m.fds).st := by
  refine ⟨?_, .inl rfl, .inl rfl, .inl rfl⟩
  unfold setIrqs at h ⊢
  dsimp only at h ⊢
  unfold Irq.handleSet at h ⊢
  cases hv : Irq.validate cfg.irq m.body (m.fds.map some).length with
  | err e' => rfl
  | fault f => rfl
  | ok u =>
    rw [hv] at h
    dsimp only at h ⊢
    split
    · split <;> rfl
    rename_i h1
    rw [if_neg h1] at h
    split
    · rename_i h2
      rw [if_pos h2] at h
      split
      · rename_i x hx; rw [hx] at h; cases h
      · rfl
      · rfl
    rename_i h2
    rw [if_neg h2] at h
    split
    · rfl
    rename_i h3
    rw [if_neg h3] at h
    split
    · rename_i h4
      rw [if_pos h4] at h
      split
      · rename_i x hx; rw [hx] at h; cases h
      · rfl
      · rfl
    split <;> rfl

theorem access_traces {cfg : Cfg} {env : Env} {st : St} {m : Msg} {e : Nat} {w : Bool}
    (hm : m.hdr.cmd = 9 ∨ m.hdr.cmd = 10) :
    Traces cfg m e st (access cfg env st w m.body m.fds).st := by
  refine ⟨rfl, .inl rfl, .inl rfl, ?_⟩
  rw [show (access cfg env st w m.body m.fds).st.pci = (afterCalls cfg env st.quiesced st.pci
    (Region.handleAccess (handlers cfg env st.pci) env.alloc cfg.tbl (stopCopy st.mig) w m.body).2).1 from rfl]
  unfold Region.handleAccess
  by_cases h1 : m.body = []
  · rw [if_pos h1]; exact .inl rfl
  rw [if_neg h1]
  by_cases h2 : Region.validAccess cfg.tbl (stopCopy st.mig) w m.body = false
  · rw [if_pos h2]; exact .inl rfl
  rw [if_neg h2]
  dsimp only
  by_cases h3 : leAt m.body 12 4 = 0
  · rw [if_pos h3]; exact .inl rfl
  rw [if_neg h3]
  by_cases h4 : env.alloc = false
  · rw [if_pos h4]; exact .inl rfl
  rw [if_neg h4]
  cases hr : cfg.tbl[leAt m.body 8 4]? with
  | none => exact .inl rfl
  | some r =>
    dsimp only
    generalize (if w = true then List.drop 16 m.body else List.replicate (leAt m.body 12 4) 0#8) = buf
    have hc : (Region.regionAccess (handlers cfg env st.pci) r (leAt m.body 8 4) buf (leAt m.body 0 8) w).2.2 = [] ∨
        (Region.regionAccess (handlers cfg env st.pci) r (leAt m.body 8 4) buf (leAt m.body 0 8) w).2.2 =
          [.cb (leAt m.body 8 4) (leAt m.body 0 8) buf w] ∨
        leAt m.body 8 4 = 7 ∧
          (Region.regionAccess (handlers cfg env st.pci) r (leAt m.body 8 4) buf (leAt m.body 0 8) w).2.2 =
          [.config (leAt m.body 0 8) buf w] := by
      unfold Region.regionAccess
      by_cases h5 : leAt m.body 8 4 = Region.CFG_IDX ∧ r.flags &&& Region.FLAG_ALWAYS_CB = 0
      · rw [if_pos h5]; exact .inr (.inr ⟨h5.1, rfl⟩)
      rw [if_neg h5]
      by_cases h6 : r.hasCb = false
      · rw [if_pos h6]; exact .inl rfl
      rw [if_neg h6]; exact .inr (.inl rfl)
    generalize Region.regionAccess (handlers cfg env st.pci) r (leAt m.body 8 4) buf (leAt m.body 0 8) w = o at hc
    obtain ⟨ret, b', cs⟩ := o
    have hcs : ∀ x : Res (List Byte) × List Region.Call, x.2 = cs →
        ((afterCalls cfg env st.quiesced st.pci x.2).1 = st.pci ∨
        ((m.hdr.cmd = 9 ∨ m.hdr.cmd = 10) ∧ leAt m.body 8 4 = 7 ∨ m.hdr.cmd = 13 ∧ cfg.hasReset = true) ∧
        ∃ mem, (afterCalls cfg env st.quiesced st.pci x.2).1 = Pci.Pci.mk mem st.pci.alloc st.pci.size st.pci.big st.pci.caps
          st.pci.exts st.pci.bar st.pci.expOff) := by
      rintro x rfl
      dsimp only at hc
      rcases hc with hc | hc | ⟨h7, hc⟩
      · rw [hc]; exact .inl rfl
      · rw [hc]; exact .inl rfl
      · rw [hc]; exact .inr ⟨.inl ⟨hm, h7⟩, _, rfl⟩
    apply hcs
    cases ret with
    | ok n => dsimp only; by_cases h8 : n ≠ leAt m.body 12 4 <;> [rw [if_pos h8]; rw [if_neg h8]]
    | err e => rfl
    | fault f => rfl

/-- What the feature request leaves behind. -/
theorem feature_traces {cfg : Cfg} {env : Env} {st : St} {m : Msg} {e : Nat} {dma : Option (Nat × Nat)}
    (hr : Reached cfg dma st.dma st.irqs) (hm : m.hdr.cmd = 16)
    (h : (feature env st m.body m.fds).res = .err e) : Traces cfg m e st (feature env st m.body m.fds).st := by
  have hstart : ∀ c ca pg e', st.dma = some c → (Dma.loggingStart ca c pg).2 = .err e' → (Dma.loggingStart ca c pg).1 = c := by
    intro c ca pg e' hd he
    obtain ⟨⟨ops, _, h2⟩, _⟩ := hr
    cases dma with
    | none => rw [hd] at h2; cases h2
    | some x =>
      rw [hd] at h2
      have hc : c = (Dma.run cfg.dma (Dma.create x.1 x.2) ops).1 := Option.some.inj h2
      by_cases h0 : c.dirtyPgsize = 0
      · rw [hc] at h0
        rcases Dma.C16_start cfg.dma x.1 x.2 ops ca pg h0 with ⟨c', h3, _⟩ | ⟨e'', h3, _⟩
        · rw [← hc] at h3; rw [h3] at he; cases he
        · rw [← hc] at h3; rw [h3]
      · rw [Dma.C16_restart c ca pg h0]
  have key : (Mig.handleFeature env.feat { mig := st.mig, dma := st.dma } m.body).2.1 = .err e →
      (Mig.handleFeature env.feat { mig := st.mig, dma := st.dma } m.body).1.dma = st.dma ∧
      ((Mig.handleFeature env.feat { mig := st.mig, dma := st.dma } m.body).1.mig = st.mig ∨ leAt m.body 4 4 = 0x20002) := by
    have hself : st.dma = st.dma ∧ (st.mig = st.mig ∨ leAt m.body 4 4 = 0x20002) := ⟨rfl, .inl rfl⟩
    unfold Mig.handleFeature
    by_cases h1 : m.body.length < 8
    · rw [if_pos h1]; exact fun _ => hself
    rw [if_neg h1]
    dsimp only
    by_cases h2 : leAt m.body 4 4 &&& Mig.supported st.mig (leAt m.body 4 4 % 65536) ≠
        leAt m.body 4 4 - leAt m.body 4 4 % 65536 ∨ Mig.supported st.mig (leAt m.body 4 4 % 65536) = 0
    · rw [if_pos h2]; exact fun _ => hself
    rw [if_neg h2]
    cases hs : st.mig with
    | none => exact fun _ => ⟨rfl, .inl rfl⟩
    | some a =>
      dsimp only
      by_cases h3 : leAt m.body 4 4 - leAt m.body 4 4 % 65536 = Mig.F_GET
      · rw [if_pos h3]
        unfold Mig.featGet
        by_cases h4 : Mig.isMigFeature (leAt m.body 4 4 % 65536) = true
        · rw [if_pos h4]; exact fun _ => ⟨rfl, .inl rfl⟩
        rw [if_neg h4]
        by_cases h5 : Mig.isDmaFeature (leAt m.body 4 4 % 65536) = true
        · rw [if_pos h5]
          dsimp only
          intro he
          refine ⟨?_, .inl rfl⟩
          unfold Mig.dmaGet at he ⊢
          cases hd : st.dma with
          | none => rfl
          | some c =>
            rw [hd] at he
            dsimp only at he ⊢
            cases hx : rd m.body 8 8 with
            | err e => rfl
            | fault f => rfl
            | ok iova =>
            cases hy : rd m.body 16 8 with
            | err e => rfl
            | fault f => rfl
            | ok len =>
            cases hz : rd m.body 24 8 with
            | err e => rfl
            | fault f => rfl
            | ok pg =>
            rw [hx, hy, hz] at he
            dsimp only at he ⊢
            cases hb : getBitmapSize len pg with
            | err e => rfl
            | fault f => rfl
            | ok n =>
              rw [hb] at he
              dsimp only at he ⊢
              by_cases h6 : leAt m.body 0 4 < 32 + n
              · rw [if_pos h6]
              rw [if_neg h6] at he ⊢
              by_cases h7 : env.feat.alloc = false
              · rw [if_pos h7]
              rw [if_neg h7] at he ⊢
              have hq := query_bits c env.feat.hint iova len pg n (List.replicate n 0#8)
              generalize Dma.dirtyPageGet c env.feat.hint iova len pg n (List.replicate n 0#8) = g at hq he
              obtain ⟨c', r⟩ := g
              cases r with
              | done bm => cases he
              | ret0 => cases he
              | noErrno => exact congrArg some (hq.2 (.inr rfl))
              | err e' => exact congrArg some (hq.2 (.inl ⟨e', rfl⟩))
              | fault f => cases he
        · rw [if_neg h5]; exact fun _ => ⟨rfl, .inl rfl⟩
      rw [if_neg h3]
      by_cases h4 : leAt m.body 4 4 - leAt m.body 4 4 % 65536 = Mig.F_SET
      · rw [if_pos h4]
        unfold Mig.featSet
        by_cases h5 : leAt m.body 0 4 < m.body.length
        · rw [if_pos h5]; exact fun _ => ⟨rfl, .inl rfl⟩
        rw [if_neg h5]
        by_cases h6 : env.feat.alloc = false
        · rw [if_pos h6]; exact fun _ => ⟨rfl, .inl rfl⟩
        rw [if_neg h6]
        by_cases h7 : Mig.isMigFeature (leAt m.body 4 4 % 65536) = true
        · rw [if_pos h7]
          dsimp only
          intro he
          refine ⟨rfl, ?_⟩
          unfold Mig.migSet at he ⊢
          by_cases h8 : leAt m.body 4 4 % 65536 ≠ Mig.FEAT_STATE
          · rw [if_pos h8] at he; cases he
          · right
            have h9 : leAt m.body 4 4 % 65536 = 2 := not_not.mp h8
            have h10 : leAt m.body 4 4 - leAt m.body 4 4 % 65536 = 0x20000 := h4
            omega
        rw [if_neg h7]
        by_cases h8 : Mig.isDmaFeature (leAt m.body 4 4 % 65536) = true
        · rw [if_pos h8]
          dsimp only
          intro he
          refine ⟨?_, .inl rfl⟩
          unfold Mig.dmaSet at he ⊢
          cases hd : st.dma with
          | none => rfl
          | some c =>
            rw [hd] at he
            dsimp only at he ⊢
            by_cases h9 : leAt m.body 4 4 % 65536 = Mig.FEAT_LOG_START
            · rw [if_pos h9] at he ⊢
              cases hx : rd m.body 8 8 with
              | err e => rfl
              | fault f => rfl
              | ok pg =>
                rw [hx] at he
                dsimp only at he ⊢
                cases hl : (Dma.loggingStart env.feat.ca c pg).2 with
                | ok u => rw [hl] at he; cases he
                | fault f => rw [hl] at he; cases he
                | err e' => rw [hstart c _ pg e' hd hl]
            rw [if_neg h9] at he ⊢
            by_cases h10 : leAt m.body 4 4 % 65536 = Mig.FEAT_LOG_STOP
            · rw [if_pos h10] at he; cases he
            · rw [if_neg h10] at he; cases he
        · rw [if_neg h8]; exact fun _ => ⟨rfl, .inl rfl⟩
      · rw [if_neg h4]; exact fun _ => ⟨rfl, .inl rfl⟩
  have hres : (Mig.handleFeature env.feat { mig := st.mig, dma := st.dma } m.body).2.1 = .err e := by
    unfold feature Done.pure at h
    dsimp only at h
    cases hx : (Mig.handleFeature env.feat { mig := st.mig, dma := st.dma } m.body).2.1 with
    | ok l => rw [hx] at h; cases h
    | err e' => rw [hx] at h; cases h; rfl
    | fault f => rw [hx] at h; cases h
  obtain ⟨k1, k2⟩ := key hres
  exact ⟨rfl, .inl k1, k2.elim .inl (fun h => .inr ⟨hm, h⟩), .inl rfl⟩

theorem reset_traces {cfg : Cfg} {env : Env} {st : St} {m : Msg} {e : Nat} (hm : m.hdr.cmd = 13)
    (h : (deviceReset cfg env st .device).2.1 = .err e) : Traces cfg m e st (deviceReset cfg env st .device).1 := by
  unfold deviceReset at h ⊢
  by_cases h1 : cfg.hasReset = true
  · rw [if_pos h1] at h ⊢
    dsimp only at h ⊢
    cases h2 : env.resetCb .device with
    | none => rw [h2] at h; cases h
    | some e' => exact ⟨rfl, .inl rfl, .inl rfl, .inr ⟨.inr ⟨hm, h1⟩, _, rfl⟩⟩
  · rw [if_neg h1] at h; cases h

/-- C113, for one request, whatever the memory allocator and the device do. -/
theorem C113_request {cfg : Cfg} {env : Env} {st : St} {m : Msg} {e : Nat} {dma : Option (Nat × Nat)}
    (hr : Reached cfg dma st.dma st.irqs) (h : (exec cfg env st m).res = .err e) :
    Traces cfg m e st (exec cfg env st m).st := by
  revert h
  apply exec_elim (P := fun d => d.res = .err e → Traces cfg m e st d.st)
  case noDma => exact fun _ _ h => Traces.refl ..
  case map => exact fun c _ hd h => map_traces hd h
  case unmap => exact fun c hm hd h => unmap_traces hd hm h
  case info => exact fun _ _ => Traces.refl ..
  case regInfo => exact fun _ _ => Traces.refl ..
  case ioFds => exact fun _ _ => Traces.refl ..
  case irqI => exact fun _ _ => Traces.refl ..
  case irqS => exact fun _ h => irqs_traces h
  case rd => exact fun hm _ => access_traces (.inl hm)
  case wr => exact fun hm _ => access_traces (.inr hm)
  case rst => exact fun hm h => reset_traces hm h
  case feat => exact fun hm h => feature_traces hr hm h
  case migR => exact fun _ _ => Traces.refl ..
  case migW => exact fun _ _ => Traces.refl ..
  case other => exact fun _ _ => Traces.refl ..

/-! ## Callbacks -/

/-- The device is told that its view of guest memory or of the interrupts changed. -/
def Call.announces : Call → Prop
  | .dmaRegister _ | .dmaUnregister _ | .irqState .. => True
  | _ => False

theorem after (cfg : Cfg) (env : Env) (q : Bool) (c : Call) (q' : Bool) : ∀ {cs : List Region.Call} {p : Pci.Pci},
    Ev.call c q' ∈ (afterCalls cfg env q p cs).2 → ¬ c.announces := by
  intro cs
  induction cs with
  | nil => intro p h; cases h
  | cons x cs ih =>
    intro p h
    cases x with
    | config off buf w =>
      unfold afterCalls at h
      dsimp only at h
      rcases List.mem_append.mp h with h | h
      · obtain ⟨y, _, hy⟩ := List.mem_flatMap.mp h
        cases y with
        | cb o b w' =>
          simp only [ofPci, List.mem_singleton] at hy
          cases hy
          exact id
        | flr =>
          simp only [ofPci, bracket, List.mem_cons, List.not_mem_nil, or_false, reduceCtorEq, false_or] at hy
          cases hy
          exact id
      · exact ih h
    | cb r off buf w =>
      unfold afterCalls at h
      dsimp only at h
      rcases List.mem_cons.mp h with h | h
      · cases h; exact id
      · exact ih h

theorem unmap_unannounced {cfg : Cfg} {env : Env} {st : St} {ctl : Dma.Ctl} {m : Msg} {e : Nat}
    (h : (dmaUnmap cfg env st ctl m.body m.fds).res = .err e) :
    ∀ c q, Ev.call c q ∉ (dmaUnmap cfg env st ctl m.body m.fds).evs := by
  intro c q hm
  unfold dmaUnmap at h hm
  by_cases hb : m.body = []
  · rw [if_pos hb] at hm; cases hm
  rw [if_neg hb] at h hm
  cases hv : validUnmap m.body with
  | err e' => rw [hv] at hm; cases hm
  | fault f => rw [hv] at hm; cases hm
  | ok u =>
    rw [hv] at h hm
    dsimp only at h hm
    have he : ((∃ e', (Dma.handleUnmap env.alloc cfg.dma.hasUnreg ctl (leAt m.body 8 8) (leAt m.body 16 8)
        (unmapKind env m.body)).2.1 = .err e') ∨ (Dma.handleUnmap env.alloc cfg.dma.hasUnreg ctl (leAt m.body 8 8)
        (leAt m.body 16 8) (unmapKind env m.body)).2.1 = .okEmpty) →
        (Dma.handleUnmap env.alloc cfg.dma.hasUnreg ctl (leAt m.body 8 8) (leAt m.body 16 8) (unmapKind env m.body)).2.2 = [] := by
      intro hr
      unfold Dma.handleUnmap at hr ⊢
      by_cases ha : env.alloc = false
      · rw [if_pos ha]
      rw [if_neg ha] at hr ⊢
      cases hu : unmapKind env m.body with
      | all =>
        rw [hu] at hr
        dsimp only at hr ⊢
        cases hx : Dma.removeAll ctl cfg.dma.hasUnreg with
        | ok x => rw [hx] at hr; obtain ⟨c', ev⟩ := x; rcases hr with ⟨e', hr⟩ | hr <;> cases hr
        | err e' => rfl
        | fault f => rfl
      | plain => rw [hu] at hr; exact (tail_refused hr).2.2.1
      | getDirty pg bs buf hint =>
        rw [hu] at hr
        dsimp only at hr ⊢
        generalize Dma.dirtyPageGet ctl hint (leAt m.body 8 8) (leAt m.body 16 8) pg bs buf = g at hr
        obtain ⟨c', r⟩ := g
        cases r with
        | done bm => exact (tail_refused hr).2.2.1
        | ret0 => exact (tail_refused hr).2.2.1
        | noErrno => rfl
        | err e' => rfl
        | fault f => rfl
    generalize Dma.handleUnmap env.alloc cfg.dma.hasUnreg ctl (leAt m.body 8 8) (leAt m.body 16 8)
      (unmapKind env m.body) = o at he h hm
    obtain ⟨c', r, ev⟩ := o
    cases r with
    | ok b => cases b <;> cases h
    | okEmpty => cases he (.inr rfl); cases hm
    | err e' => cases he (.inl ⟨e', rfl⟩); cases hm
    | fault f => cases h

theorem signals_only (index : Nat) (wr : Nat → Option Nat) : ∀ (sel : List Bool) (i k : Nat) (st : Irq.Irqs),
    ∀ x ∈ (Irq.signalLoop index wr sel i k st).2, ∃ fd, x = Irq.Ev.signal fd := by
  intro sel
  induction sel with
  | nil => intro i k st x h; cases h
  | cons b sel ih =>
    intro i k st x h
    unfold Irq.signalLoop at h
    split at h
    · cases h
    · exact ih _ _ _ x h
    · split at h
      · split at h
        · cases h
        · rcases List.mem_cons.mp h with h | h
          · exact ⟨_, h⟩
          · exact ih _ _ _ x h
      · exact ih _ _ _ x h

theorem set_unannounced {cfg : Irq.Cfg} {wr : Nat → Option Nat} {st : Irq.Irqs} {body : List Byte} {fds : List (Option Fd)}
    {e : Nat} (h : (Irq.handleSet cfg wr st body fds).res = .err e) :
    ∀ x ∈ (Irq.handleSet cfg wr st body fds).evs, ∃ fd, x = Irq.Ev.signal fd := by
  intro x hx
  unfold Irq.handleSet at h hx
  cases hv : Irq.validate cfg body fds.length with
  | err e' => rw [hv] at hx; cases hx
  | fault f => rw [hv] at hx; cases hx
  | ok u =>
    rw [hv] at h hx
    dsimp only at h hx
    by_cases h1 : (Irq.Req.ofBytes body).action = Irq.ACT_MASK ∨ (Irq.Req.ofBytes body).action = Irq.ACT_UNMASK
    · rw [if_pos h1] at h hx
      cases h2 : Irq.setState cfg (Irq.Req.ofBytes body) with
      | ok ev => rw [h2] at h; cases h
      | err e' => rw [h2] at hx; cases hx
      | fault f => rw [h2] at hx; cases hx
    rw [if_neg h1] at h hx
    by_cases h2 : Irq.isDisable (Irq.Req.ofBytes body) fds.length = true
    · rw [if_pos h2] at h hx
      cases h3 : Irq.disable cfg st (Irq.Req.ofBytes body).index (Irq.Req.ofBytes body).start (Irq.Req.ofBytes body).count with
      | ok y => rw [h3] at h; cases h
      | err e' => rw [h3] at hx; cases hx
      | fault f => rw [h3] at hx; cases hx
    rw [if_neg h2] at h hx
    by_cases h3 : (Irq.Req.ofBytes body).data = Irq.DATA_NONE
    · rw [if_pos h3] at hx
      exact signals_only _ _ _ _ _ _ x hx
    rw [if_neg h3] at h hx
    by_cases h4 : (Irq.Req.ofBytes body).data = Irq.DATA_EVENTFD
    · rw [if_pos h4] at h hx
      split at hx
      · rename_i y hy; rw [hy] at h; cases h
      · cases hx
      · cases hx
    rw [if_neg h4] at h hx
    by_cases h5 : (Irq.Req.ofBytes body).data = Irq.DATA_BOOL
    · rw [if_pos h5] at hx
      unfold Irq.dataBool at hx
      dsimp only at hx
      split at hx
      · cases hx
      · exact signals_only _ _ _ _ _ _ x hx
    · rw [if_neg h5] at hx; cases hx

/-- C113: a request that fails announces no change of guest memory or of the interrupts to the device. -/
theorem C113_unannounced {cfg : Cfg} {env : Env} {st : St} {m : Msg} {e : Nat} (h : (exec cfg env st m).res = .err e) :
    ∀ c q, Ev.call c q ∈ (exec cfg env st m).evs → ¬ c.announces := by
  revert h
  apply exec_elim (P := fun d => d.res = .err e → ∀ c q, Ev.call c q ∈ d.evs → ¬ c.announces)
  case noDma => intro _ _ _ c q hm; cases hm
  case info => intro _ _ c q hm; cases hm
  case regInfo => intro _ _ c q hm; cases hm
  case ioFds => intro _ _ c q hm; cases hm
  case irqI => intro _ _ c q hm; cases hm
  case other => intro _ _ c q hm; cases hm
  case migR =>
    intro _ _ c q hm
    obtain ⟨x, _, hx⟩ := List.mem_map.mp hm
    cases hx
    exact id
  case migW =>
    intro _ _ c q hm
    obtain ⟨x, _, hx⟩ := List.mem_map.mp hm
    cases hx
    exact id
  case feat =>
    intro _ _ c q hm
    obtain ⟨x, _, hx⟩ := List.mem_flatMap.mp hm
    simp only [ofVfu, bracket, List.mem_cons, List.not_mem_nil, or_false, reduceCtorEq, false_or] at hx
    cases hx
    exact id
  case rst =>
    intro _ _ c q hm
    unfold deviceReset at hm
    by_cases h1 : cfg.hasReset = true
    · rw [if_pos h1] at hm
      have : Ev.call c q ∈ bracket .reset (.reset .device) st.quiesced := by
        cases h2 : env.resetCb .device <;> (rw [h2] at hm; exact hm)
      simp only [bracket, List.mem_cons, List.not_mem_nil, or_false, reduceCtorEq, false_or] at this
      cases this
      exact id
    · rw [if_neg h1] at hm; cases hm
  case rd => exact fun _ _ c q hm => after _ _ _ _ _ hm
  case wr => exact fun _ _ c q hm => after _ _ _ _ _ hm
  case irqS =>
    intro _ h c q hm
    obtain ⟨x, hx, hx'⟩ := List.mem_flatMap.mp hm
    obtain ⟨fd, rfl⟩ := set_unannounced h x hx
    simp [ofIrq] at hx'
  case map =>
    intro ctl _ _ h c q hm
    unfold dmaMap at h hm
    by_cases hb : m.body = []
    · rw [if_pos hb] at hm; cases hm
    rw [if_neg hb] at h hm
    by_cases hl : m.body.length < 32 ∨ leAt m.body 0 4 < 32
    · rw [if_pos hl] at hm; cases hm
    rw [if_neg hl] at h hm
    dsimp only at h hm
    have hc := Dma.handleMap_case env.os cfg.dma.hasReg ctl
      { flags := leAt m.body 4 4, offset := leAt m.body 8 8, addr := leAt m.body 16 8, size := leAt m.body 24 8, fds := m.fds }
    generalize Dma.handleMap env.os cfg.dma.hasReg ctl _ = o at hc h hm
    obtain ⟨x, hx, hx'⟩ := List.mem_flatMap.mp hm
    cases hc with
    | flags => cases hx
    | again => cases h
    | new => cases h
    | fail e' ev h1 h2 h3 =>
      have hcl : ∃ fd, x = .close fd := by
        rcases List.mem_append.mp hx with hx | hx
        · rcases h3 with rfl | ⟨fd, _, rfl⟩
          · cases hx
          · exact ⟨fd, List.mem_singleton.mp hx⟩
        · revert hx
          cases m.fds.head? <;> intro hx
          · cases hx
          · exact ⟨_, List.mem_singleton.mp hx⟩
      obtain ⟨fd, rfl⟩ := hcl
      simp [ofDma] at hx'
  case unmap =>
    intro ctl _ _ h c q hm
    exact absurd hm (unmap_unannounced h c q)

/-! ## Histories -/

/-- C113: after any history, a call that sends a reply with the error flag and keeps the connection leaves the tables as they
were, but for what `Traces` allows the request it answers. -/
theorem C113_refused {cfg : Cfg} (hi : cfg.irq.Ok) (ht : TableOk cfg.tbl) (mig : Bool) (dma : Option (Nat × Nat)) (pci : Pci.Pci)
    (ops : List Op) (ho : ∀ op ∈ ops, op.OSOk ∧ op.Good Real) (hno : Completes cfg (init cfg mig dma pci) ops)
    (op : Op) (hf : op.Fair) (hend : (call cfg (run cfg (init cfg mig dma pci) ops).1 op).res.isFault = false)
    (w : Wire.Sent) (hw : w ∈ sents (call cfg (run cfg (init cfg mig dma pci) ops).1 op).evs)
    (herr : (Wire.Hdr.ofBytes w.bytes).flags.testBit 5 = true)
    (hdet : .detach ∉ (call cfg (run cfg (init cfg mig dma pci) ops).1 op).evs) :
    let st := (run cfg (init cfg mig dma pci) ops).1
    (op.subject st = none ∧ Same4 (call cfg st op).st st) ∨
    ∃ m e l, op.subject st = some m ∧ (l.length + 16 < U32 → Wire.IsReply m.hdr (e % U32) l w.bytes) ∧ e % U32 ≠ 0 ∧
      Traces cfg m e st (call cfg st op).st := by
  have hr := run_reached cfg mig dma pci ops (fun op h => (ho op h).1)
  have hk : KeptGood Real (run cfg (init cfg mig dma pci) ops).1 :=
    kept_run ops (fun _ h => by cases h) (fun op h => (ho op h).2) hno
  intro st
  change Reached cfg dma st.dma st.irqs at hr
  change KeptGood Real st at hk
  change w ∈ sents (call cfg st op).evs at hw
  change Ev.detach ∉ (call cfg st op).evs at hdet
  change (call cfg st op).res.isFault = false at hend
  clear_value st
  have hT := call_turn hi ht hr hk op hf hend
  generalize call cfg st op = o at hT hw hdet
  have same : ∀ m e, Same4 o.st st → Traces cfg m e st o.st := fun m e h => ⟨h.irqs, .inl h.dma, .inl h.mig, .inl h.pci⟩
  cases hT with
  | idle h1 h2 => rw [h2] at hw; cases hw
  | bad h1 h2 h3 => exact .inl ⟨h2, h1⟩
  | refused m e h1 h2 h3 h4 h5 h6 =>
    right
    cases hn : m.hdr.noReply with
    | true => rw [h5 hn] at hw; cases hw
    | false =>
      obtain ⟨w', h7, h8⟩ := h6 hn
      rw [h7] at hw
      cases List.mem_singleton.mp hw
      exact ⟨m, e, [], h2, fun _ => by rw [Nat.mod_eq_of_lt h4.2]; exact h8,
        by rw [Nat.mod_eq_of_lt h4.2]; exact Nat.pos_iff_ne_zero.mp h4.1, same m e h1⟩
  | executed env q m l h1 h2 h3 h4 h5 h6 h7 h8 h9 =>
    right
    cases hn : m.hdr.noReply with
    | true => rw [h8 hn] at hw; cases hw
    | false =>
      obtain ⟨w', h10, h11, h12⟩ := h9 hn
      rw [h10] at hw
      cases List.mem_singleton.mp hw
      have h13 := h11.2
      rw [herr] at h13
      have h14 : replyErr (exec cfg env { st with quiesced := q } m).res % U32 ≠ 0 := of_decide_eq_true h13.symm
      cases hx : (exec cfg env { st with quiesced := q } m).res with
      | ok u => rw [hx] at h14; exact absurd rfl h14
      | fault f => rw [hx] at h4; cases h4
      | err e =>
        rw [hx] at h12 h14
        refine ⟨m, e, l, h2, h12, h14, ?_⟩
        have hR : Reached cfg dma ({ st with quiesced := q } : St).dma ({ st with quiesced := q } : St).irqs := hr
        have t := C113_request hR hx
        refine ⟨h5.irqs.trans t.irqs, ?_, ?_, ?_⟩
        · rw [h5.dma]; exact t.dma
        · rw [h5.mig]; exact t.mig
        · rw [h5.pci]; exact t.pci
  | reset env q h1 => exact absurd h1 hdet
  | config f h1 h2 h3 => rw [h3] at hw; cases hw
  | mark sgl c c' h1 h2 h3 h4 h5 => rw [h5] at hw; cases hw

/-- The requests whose failure can leave a trace: an unmap with bitmap, a change of the migration state, an access to the config
space, a reset. -/
def Msg.stains (m : Msg) : Prop :=
  m.hdr.cmd = 3 ∧ leAt m.body 4 4 = 1 ∨ m.hdr.cmd = 16 ∧ leAt m.body 4 4 = 0x20002 ∨
    (m.hdr.cmd = 9 ∨ m.hdr.cmd = 10) ∧ leAt m.body 8 4 = 7 ∨ m.hdr.cmd = 13

/-- C113: every other request that is answered with an error leaves no trace. -/
theorem C113_clean {cfg : Cfg} (hi : cfg.irq.Ok) (ht : TableOk cfg.tbl) (mig : Bool) (dma : Option (Nat × Nat)) (pci : Pci.Pci)
    (ops : List Op) (ho : ∀ op ∈ ops, op.OSOk ∧ op.Good Real) (hno : Completes cfg (init cfg mig dma pci) ops)
    (op : Op) (hf : op.Fair) (hend : (call cfg (run cfg (init cfg mig dma pci) ops).1 op).res.isFault = false)
    (w : Wire.Sent) (hw : w ∈ sents (call cfg (run cfg (init cfg mig dma pci) ops).1 op).evs)
    (herr : (Wire.Hdr.ofBytes w.bytes).flags.testBit 5 = true)
    (hdet : .detach ∉ (call cfg (run cfg (init cfg mig dma pci) ops).1 op).evs)
    (hs : ∀ m, op.subject (run cfg (init cfg mig dma pci) ops).1 = some m → ¬ m.stains) :
    Same4 (call cfg (run cfg (init cfg mig dma pci) ops).1 op).st (run cfg (init cfg mig dma pci) ops).1 := by
  rcases C113_refused hi ht mig dma pci ops ho hno op hf hend w hw herr hdet with ⟨_, h⟩ | ⟨m, e, l, h1, _, _, t⟩
  · exact h
  · have hn := hs m h1
    refine ⟨?_, ?_, t.irqs, ?_⟩
    · exact t.mig.resolve_right fun h => hn (.inr (.inl h))
    · exact t.dma.resolve_right fun h => hn (.inl ⟨h.1, h.2.1⟩)
    · refine t.pci.resolve_right fun h => hn ?_
      rcases h.1 with h | h
      · exact .inr (.inr (.inl h))
      · exact .inr (.inr (.inr h.1))

/-! ## Examples -/

section
open Demo

/-- Change the state; the device refuses the second step. -/
def Demo.halting : Op := .run { env with migCb := fun k => if k = 1 then some 5 else none } (req 7 16 0 (stateBody Mig.RESUMING) [])

/-- A device with a config space; three bytes are written, of which the last is read-only. -/
def Demo.spaced : Cfg := { cfg with tbl := (cfg.tbl.set 7 { Region.Reg.blank with flags := 3, size := 256 }) }
def Demo.scribble : Op := .run env (req 7 10 0 (enc 8 0x0c ++ enc 4 7 ++ enc 4 3 ++ [1#8, 2#8, 3#8]) [])

/-- The reset callback sets a byte of the config space and fails. -/
def Demo.balking : Op :=
  .run { env with resetMem := fun m a => if a = 0x3c then 9#8 else m a, resetCb := fun _ => some 5 } (req 7 13 0 [] [])

/-- The error of the replies of a call. -/
def errors (o : Out) : List Nat := (sents o.evs).map fun w => (Wire.Hdr.ofBytes w.bytes).err

open Demo in
/-- C113: the four kinds of requests do leave traces (for the unmap with bitmap see `C80_short_unmap`): a state change that is refused by the
device half-way ends in another state; a config space write that is refused stores the registers before the one that cannot be
written; so do the changes a failing reset callback made. -/
theorem C113_traces_violated :
    (errors (call cfg st halting) = [5] ∧ st.mig = some Mig.RUNNING ∧ (call cfg st halting).st.mig = some Mig.STOP) ∧
    (errors (call spaced st scribble) = [EINVAL] ∧ st.pci.mem 0x0c = 0#8 ∧ (call spaced st scribble).st.pci.mem 0x0c = 1#8 ∧
      (call spaced st scribble).st.pci.mem 0x0d = 2#8) ∧
    (errors (call cfg st balking) = [5] ∧ st.pci.mem 0x3c = 0#8 ∧ (call cfg st balking).st.pci.mem 0x3c = 9#8) := by
  refine ⟨⟨?_, ?_, ?_⟩, ⟨?_, ?_, ?_, ?_⟩, ?_, ?_, ?_⟩ <;> decide +kernel

/-- A region is mapped, logging is on, pages are marked; a map of an overlapping range is refused and changes nothing. -/
example :
    let o := call cfg (run cfg (init cfg true (some (8, 2 ^ 40)) pci) written).1 (.run env (req 3 2 0 (mapBody 0x1100000) [6]))
    errors o = [EINVAL] ∧ Same4 o.st (run cfg (init cfg true (some (8, 2 ^ 40)) pci) written).1 := by
  intro o
  have hT := written_talk
  have he : errors o = [EINVAL] := by decide +kernel
  refine ⟨he, ?_⟩
  cases hs : sents o.evs with
  | nil => unfold errors at he; rw [hs] at he; cases he
  | cons w ws =>
    have hw : w ∈ sents o.evs := by rw [hs]; exact List.mem_cons_self ..
    have hb : ∀ x ∈ sents o.evs, (Wire.Hdr.ofBytes x.bytes).flags.testBit 5 = true := by decide +kernel
    refine C113_clean hT.irq hT.tbl true (some (8, 2 ^ 40)) pci written
      (fun op h => ⟨(hT.each op h).2.1, (hT.each op h).2.2.mono fun _ g => g.1.1⟩) hT.ends _ ⟨env_fair, ?_⟩
      (by decide +kernel) w hw (hb w hw) (by decide +kernel) ?_
    · exact req_real _ _ _ _ _ (by decide) (by decide) (by decide) (by decide) (by decide) (.inl (by decide)) (by decide)
    · intro m hm
      cases hm
      unfold Msg.stains
      decide +kernel

end

end Verif.Server
