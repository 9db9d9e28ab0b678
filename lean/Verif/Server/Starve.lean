import Verif.Server.Quiesce
import Verif.Server.Crashes

/-!
# Too little memory for a reply (C95)

Most handlers allocate the body of their reply.  What becomes of a request when that fails. -/

namespace Verif.Server
open Verif
open Verif.Dma (Fd)

/-- During the call no memory is to be had for replies. -/
def Env.poor (env : Env) : Env := { env with alloc := false }
/-- Memory is to be had. -/
def Env.flush (env : Env) : Env := { env with alloc := true }

/-- Requests whose handler allocates no reply: map (2), set interrupts (8), reset (13), migration data write (18), unknown commands;
also an unmap (3) for a device without DMA, and accesses to regions (9, 10) of no bytes. -/
def Frugal (st : St) (m : Msg) : Prop :=
  m.hdr.cmd ∉ [3, 4, 5, 6, 7, 9, 10, 16, 17] ∨ (m.hdr.cmd = 3 ∧ st.dma = none) ∨
    ((m.hdr.cmd = 9 ∨ m.hdr.cmd = 10) ∧ leAt m.body 12 4 = 0)

/-- The handler did nothing and failed with ENOMEM; except for unmap (3) it left a length without a buffer. -/
structure Unserved (st : St) (m : Msg) (d : Done) : Prop where
  lavish : ¬ Frugal st m
  st : d.st = st
  res : d.res = .err ENOMEM
  evs : d.evs = []
  fds : d.outFds = []
  left : d.left = m.fds.map some
  out : (m.hdr.cmd = 3 ∧ d.out = .bytes []) ∨ (m.hdr.cmd ≠ 3 ∧ ∃ n, d.out = .null (n + 1))

/-- The handler did nothing and refused the request, with an empty reply. -/
structure Refused (st : St) (d : Done) : Prop where
  st : d.st = st
  res : ∃ e, d.res = .err e
  evs : d.evs = []
  out : d.out = .bytes []
  fds : d.outFds = []

/-- A request without memory (`d`) and with memory (`d'`). -/
def Short (st : St) (m : Msg) (d d' : Done) : Prop :=
  (d = d' ∧ Refused st d) ∨ (∃ f, d.res = .fault f ∧ d'.res = .fault f) ∨ Unserved st m d

variable {cfg : Cfg} {env : Env} {st : St} {m : Msg}

theorem lavish (hc : m.hdr.cmd ∈ [4, 5, 6, 7, 16, 17]) : ¬ Frugal st m := by
  simp only [List.mem_cons, List.not_mem_nil, or_false] at hc
  rintro (h | ⟨h, -⟩ | ⟨h, -⟩)
  · simp only [List.mem_cons, List.not_mem_nil, or_false] at h; omega
  · omega
  · omega

theorem not_unmap (hc : m.hdr.cmd ∈ [4, 5, 6, 7, 16, 17]) : m.hdr.cmd ≠ 3 := by
  simp only [List.mem_cons, List.not_mem_nil, or_false] at hc
  omega

theorem short_getInfo (hc : m.hdr.cmd ∈ [4, 5, 6, 7, 16, 17]) :
    Short st m (getInfo cfg env.poor st m.body m.fds) (getInfo cfg env.flush st m.body m.fds) := by
  unfold getInfo Region.deviceInfo
  by_cases h : m.body.length < 16 ∨ leAt m.body 0 4 < 16
  · rw [if_pos h, if_pos h]
    exact .inl ⟨rfl, rfl, ⟨_, rfl⟩, rfl, rfl, rfl⟩
  · rw [if_neg h, if_neg h]
    exact .inr (.inr ⟨lavish hc, rfl, rfl, rfl, rfl, rfl, .inr ⟨not_unmap hc, 15, rfl⟩⟩)

theorem short_irqInfo (hc : m.hdr.cmd ∈ [4, 5, 6, 7, 16, 17]) :
    Short st m (irqInfo cfg env.poor st m.body m.fds) (irqInfo cfg env.flush st m.body m.fds) := by
  unfold irqInfo Irq.irqInfo
  by_cases h : m.body.length < 16 ∨ leAt m.body 0 4 < 16
  · rw [if_pos h, if_pos h]
    exact .inl ⟨rfl, rfl, ⟨_, rfl⟩, rfl, rfl, rfl⟩
  rw [if_neg h, if_neg h]
  dsimp only
  by_cases h2 : leAt m.body 8 4 ≥ Irq.NUM_IRQS
  · rw [if_pos h2, if_pos h2]
    exact .inl ⟨rfl, rfl, ⟨_, rfl⟩, rfl, rfl, rfl⟩
  · rw [if_neg h2, if_neg h2]
    exact .inr (.inr ⟨lavish hc, rfl, rfl, rfl, rfl, rfl, .inr ⟨not_unmap hc, 15, rfl⟩⟩)

theorem short_regionInfo (hc : m.hdr.cmd ∈ [4, 5, 6, 7, 16, 17]) :
    Short st m (regionInfo cfg env.poor st m.body m.fds) (regionInfo cfg env.flush st m.body m.fds) := by
  unfold regionInfo Region.regionInfo
  by_cases h : m.body.length < 32 ∨ leAt m.body 0 4 < 32
  · rw [if_pos h, if_pos h]
    exact .inl ⟨rfl, rfl, ⟨_, rfl⟩, rfl, rfl, rfl⟩
  rw [if_neg h, if_neg h]
  cases ht : cfg.tbl[leAt m.body 8 4]? with
  | none => exact .inl ⟨rfl, rfl, ⟨_, rfl⟩, rfl, rfl, rfl⟩
  | some r =>
    refine .inr (.inr ⟨lavish hc, rfl, rfl, rfl, rfl, rfl, .inr ⟨not_unmap hc, ?_⟩⟩)
    show ∃ n, Wire.Body.null (min (32 + if r.size > 0 then Region.capsSize r else 0) (leAt m.body 0 4)) = .null (n + 1)
    generalize (if r.size > 0 then Region.capsSize r else 0) = z
    exact ⟨min (32 + z) (leAt m.body 0 4) - 1, by congr 1; omega⟩

theorem short_ioFds (hc : m.hdr.cmd ∈ [4, 5, 6, 7, 16, 17]) :
    Short st m (regionIoFds cfg env.poor st m.body m.fds) (regionIoFds cfg env.flush st m.body m.fds) := by
  unfold regionIoFds Region.regionIoFds
  by_cases h : m.body.length < 16
  · rw [if_pos h, if_pos h]
    exact .inl ⟨rfl, rfl, ⟨_, rfl⟩, rfl, rfl, rfl⟩
  rw [if_neg h, if_neg h]
  by_cases h2 : leAt m.body 4 4 ≠ 0 ∨ leAt m.body 12 4 ≠ 0
  · rw [if_pos h2, if_pos h2]
    exact .inl ⟨rfl, rfl, ⟨_, rfl⟩, rfl, rfl, rfl⟩
  rw [if_neg h2, if_neg h2]
  cases ht : cfg.tbl[leAt m.body 8 4]? with
  | none => exact .inl ⟨rfl, rfl, ⟨_, rfl⟩, rfl, rfl, rfl⟩
  | some r =>
    dsimp only
    by_cases h3 : r.flags &&& Region.FLAG_MASK = 0
    · rw [if_pos h3, if_pos h3]
      exact .inl ⟨rfl, rfl, ⟨_, rfl⟩, rfl, rfl, rfl⟩
    rw [if_neg h3, if_neg h3]
    by_cases h4 : leAt m.body 0 4 < 16 ∨ leAt m.body 0 4 > Region.MAX_XFER
    · rw [if_pos h4, if_pos h4]
      exact .inl ⟨rfl, rfl, ⟨_, rfl⟩, rfl, rfl, rfl⟩
    rw [if_neg h4, if_neg h4]
    refine .inr (.inr ⟨lavish hc, rfl, rfl, rfl, rfl, rfl, .inr ⟨not_unmap hc, ?_⟩⟩)
    show ∃ n, Wire.Body.null (16 + if (leAt m.body 0 4 - 16) / 48 ≥ r.subs.length then r.subs.length * 48 else 0) = .null (n + 1)
    generalize (if (leAt m.body 0 4 - 16) / 48 ≥ r.subs.length then r.subs.length * 48 else 0) = z
    exact ⟨15 + z, by congr 1; omega⟩

theorem short_access (hc : m.hdr.cmd = 9 ∨ m.hdr.cmd = 10) (w : Bool) :
    (access cfg env.poor st w m.body m.fds = access cfg env.flush st w m.body m.fds ∧ leAt m.body 12 4 = 0) ∨
    Short st m (access cfg env.poor st w m.body m.fds) (access cfg env.flush st w m.body m.fds) := by
  unfold access Region.handleAccess
  dsimp only
  by_cases h0 : m.body = []
  · rw [if_pos h0, if_pos h0]; exact .inr (.inr (.inl ⟨_, rfl, rfl⟩))
  rw [if_neg h0, if_neg h0]
  unfold accessErrOut
  by_cases h1 : Region.validAccess cfg.tbl (stopCopy st.mig) w m.body = false
  · rw [if_pos h1, if_pos h1, if_pos (.inl h1), if_pos (.inl h1)]
    exact .inr (.inl ⟨rfl, rfl, ⟨_, rfl⟩, rfl, rfl, rfl⟩)
  rw [if_neg h1, if_neg h1]
  by_cases h2 : leAt m.body 12 4 = 0
  · rw [if_pos h2, if_pos h2, if_pos (.inr h2), if_pos (.inr h2)]
    exact .inl ⟨rfl, h2⟩
  · have h3 : ¬ (Region.validAccess cfg.tbl (stopCopy st.mig) w m.body = false ∨ leAt m.body 12 4 = 0) := fun h => h.elim h1 h2
    rw [if_neg h2, if_neg h2, if_neg h3, if_neg h3]
    refine .inr (.inr (.inr ⟨?_, rfl, rfl, rfl, rfl, rfl, .inr ⟨by omega, ?_⟩⟩))
    · rintro (h | ⟨h, -⟩ | ⟨-, h⟩)
      · simp only [List.mem_cons, List.not_mem_nil, or_false] at h; omega
      · omega
      · exact h2 h
    show ∃ n, Wire.Body.null (16 + if w then 0 else leAt m.body 12 4) = .null (n + 1)
    generalize (if w = true then 0 else leAt m.body 12 4) = z
    exact ⟨15 + z, by congr 1; omega⟩

theorem short_migRead (hc : m.hdr.cmd ∈ [4, 5, 6, 7, 16, 17]) :
    Short st m (migRead env.poor st m.body m.fds) (migRead env.flush st m.body m.fds) := by
  unfold migRead Mig.dataRead
  dsimp only
  by_cases h0 : m.body.length < 8
  · rw [if_pos h0, if_pos h0]
    exact .inl ⟨rfl, rfl, ⟨_, rfl⟩, rfl, rfl, rfl⟩
  rw [if_neg h0, if_neg h0]
  cases hm : st.mig with
  | none => exact .inl ⟨rfl, rfl, ⟨_, rfl⟩, rfl, rfl, rfl⟩
  | some n =>
    dsimp only
    by_cases h1 : n ≠ Mig.PRE_COPY ∧ n ≠ Mig.STOP_COPY
    · rw [if_pos h1, if_pos h1]
      exact .inl ⟨rfl, rfl, ⟨_, rfl⟩, rfl, rfl, rfl⟩
    rw [if_neg h1, if_neg h1]
    by_cases h2 : leAt m.body 4 4 > st.maxXfer
    · rw [if_pos h2, if_pos h2]
      exact .inl ⟨rfl, rfl, ⟨_, rfl⟩, rfl, rfl, rfl⟩
    rw [if_neg h2, if_neg h2]
    by_cases h3 : leAt m.body 0 4 < 8 + leAt m.body 4 4
    · rw [if_pos h3, if_pos h3]
      exact .inl ⟨rfl, rfl, ⟨_, rfl⟩, rfl, rfl, rfl⟩
    rw [if_neg h3, if_neg h3]
    refine .inr (.inr ⟨lavish hc, rfl, rfl, rfl, rfl, rfl, .inr ⟨not_unmap hc, ?_⟩⟩)
    show ∃ n, Wire.Body.null (m.body.length + leAt m.body 4 4) = .null (n + 1)
    exact ⟨m.body.length + leAt m.body 4 4 - 1, by congr 1; omega⟩

theorem short_unmap (hc : m.hdr.cmd = 3) (c : Dma.Ctl) (hd : st.dma = some c) :
    Short st m (dmaUnmap cfg env.poor st c m.body m.fds) (dmaUnmap cfg env.flush st c m.body m.fds) := by
  unfold dmaUnmap
  by_cases h0 : m.body = []
  · rw [if_pos h0, if_pos h0]; exact .inr (.inl ⟨_, rfl, rfl⟩)
  rw [if_neg h0, if_neg h0]
  cases validUnmap m.body with
  | err e => exact .inl ⟨rfl, rfl, ⟨_, rfl⟩, rfl, rfl, rfl⟩
  | fault f => exact .inr (.inl ⟨_, rfl, rfl⟩)
  | ok u =>
    refine .inr (.inr ⟨?_, ?_, rfl, rfl, rfl, rfl, .inl ⟨hc, rfl⟩⟩)
    · rintro (h | ⟨-, h⟩ | ⟨h, -⟩)
      · rw [hc] at h; exact h (by decide)
      · rw [hd] at h; cases h
      · omega
    show { st with dma := some c } = st
    rw [← hd]

theorem short_feature (hc : m.hdr.cmd ∈ [4, 5, 6, 7, 16, 17]) :
    Short st m (feature env.poor st m.body m.fds) (feature env.flush st m.body m.fds) := by
  unfold feature Mig.handleFeature featureErrOut
  dsimp only
  by_cases h0 : m.body.length < 8
  · rw [if_pos h0, if_pos h0, if_pos h0, if_pos h0]
    exact .inl ⟨rfl, rfl, ⟨_, rfl⟩, rfl, rfl, rfl⟩
  rw [if_neg h0, if_neg h0, if_neg h0, if_neg h0]
  by_cases h1 : leAt m.body 4 4 &&& Mig.supported st.mig (leAt m.body 4 4 % 65536) ≠ leAt m.body 4 4 - leAt m.body 4 4 % 65536 ∨
    Mig.supported st.mig (leAt m.body 4 4 % 65536) = 0
  · rw [if_pos h1, if_pos h1, if_pos h1, if_pos h1]
    exact .inl ⟨rfl, rfl, ⟨_, rfl⟩, rfl, rfl, rfl⟩
  rw [if_neg h1, if_neg h1, if_neg h1, if_neg h1]
  have hm' : ∃ n, st.mig = some n := by
    cases hm : st.mig with
    | none => rw [hm] at h1; exact absurd (.inr rfl) h1
    | some n => exact ⟨n, rfl⟩
  obtain ⟨n, hm⟩ := hm'
  have hst : ({ st with mig := some n } : St) = st := by rw [← hm]
  rw [hm]
  dsimp only
  generalize leAt m.body 4 4 - leAt m.body 4 4 % 65536 = ops
  generalize leAt m.body 4 4 % 65536 = ft
  generalize leAt m.body 4 4 = flags
  generalize leAt m.body 0 4 = argsz
  by_cases h2 : ops = Mig.F_GET
  · rw [if_pos h2, if_pos h2, if_pos h2, if_pos h2]
    unfold Mig.featGet
    by_cases h3 : Mig.isMigFeature ft = true
    · rw [if_pos h3, if_pos h3, if_pos h3, if_pos h3]
      unfold Mig.migGet
      by_cases h4 : argsz < 16
      · rw [if_pos h4, if_pos h4, if_pos (.inl h4), if_pos (.inl h4)]
        exact .inl ⟨rfl, hst, ⟨_, rfl⟩, rfl, rfl, rfl⟩
      · have h5 : ¬ (argsz < 16 ∨ env.poor.alloc = true) := fun h => h.elim h4 Bool.noConfusion
        rw [if_neg h4, if_neg h4, if_neg h5]
        exact .inr (.inr ⟨lavish hc, hst, rfl, rfl, rfl, rfl, .inr ⟨not_unmap hc, 15, rfl⟩⟩)
    rw [if_neg h3, if_neg h3, if_neg h3, if_neg h3]
    by_cases h4 : Mig.isDmaFeature ft = true
    · rw [if_pos h4, if_pos h4, if_pos h4, if_pos h4]
      unfold Mig.dmaGet
      dsimp only
      cases hd : st.dma with
      | none =>
        dsimp only
        exact .inl ⟨rfl, by show ({ st with mig := some n, dma := none } : St) = st; rw [← hm, ← hd], ⟨_, rfl⟩, rfl, rfl, rfl⟩
      | some c =>
        dsimp only
        have hst2 : ({ st with mig := some n, dma := some c } : St) = st := by rw [← hm, ← hd]
        have rdok : ∀ (l : List Byte) (i k v : Nat), rd l i k = .ok v → leAt l i k = v := by
          intro l i k v hv
          unfold rd at hv
          by_cases hl : i + k ≤ l.length
          · rw [if_pos hl] at hv; cases hv; rfl
          · rw [if_neg hl] at hv; cases hv
        cases h8 : rd m.body 8 8 with
        | err e => exact .inr (.inl ⟨_, rfl, rfl⟩)
        | fault f => exact .inr (.inl ⟨_, rfl, rfl⟩)
        | ok iova =>
        cases h16 : rd m.body 16 8 with
        | err e => exact .inr (.inl ⟨_, rfl, rfl⟩)
        | fault f => exact .inr (.inl ⟨_, rfl, rfl⟩)
        | ok len =>
        cases h24 : rd m.body 24 8 with
        | err e => exact .inr (.inl ⟨_, rfl, rfl⟩)
        | fault f => exact .inr (.inl ⟨_, rfl, rfl⟩)
        | ok pg =>
        dsimp only
        rw [rdok _ _ _ _ h16, rdok _ _ _ _ h24]
        cases hb : getBitmapSize len pg with
        | err e => exact .inl ⟨rfl, hst2, ⟨_, rfl⟩, rfl, rfl, rfl⟩
        | fault f => exact .inr (.inl ⟨_, rfl, rfl⟩)
        | ok z =>
          dsimp only
          by_cases h5 : argsz < 32 + z
          · rw [if_pos h5, if_pos h5, if_pos (.inl h5), if_pos (.inl h5)]
            exact .inl ⟨rfl, hst2, ⟨_, rfl⟩, rfl, rfl, rfl⟩
          · have h6 : ¬ (argsz < 32 + z ∨ env.poor.alloc = true) := fun h => h.elim h5 Bool.noConfusion
            rw [if_neg h5, if_neg h5, if_neg h6]
            refine .inr (.inr ⟨lavish hc, hst2, rfl, rfl, rfl, rfl, .inr ⟨not_unmap hc, 31 + z, ?_⟩⟩)
            show Wire.Body.null (32 + z) = .null (31 + z + 1)
            congr 1
            omega
    · rw [if_neg h4, if_neg h4, if_neg h4, if_neg h4]
      exact .inl ⟨rfl, hst, ⟨_, rfl⟩, rfl, rfl, rfl⟩
  rw [if_neg h2, if_neg h2, if_neg h2, if_neg h2]
  by_cases h3 : ops = Mig.F_SET
  · rw [if_pos h3, if_pos h3, if_pos h3, if_pos h3]
    unfold Mig.featSet
    by_cases h4 : argsz < m.body.length
    · rw [if_pos h4, if_pos h4, if_pos h4, if_pos h4]
      exact .inl ⟨rfl, hst, ⟨_, rfl⟩, rfl, rfl, rfl⟩
    · rw [if_neg h4, if_neg h4, if_neg h4]
      refine .inr (.inr ⟨lavish hc, hst, rfl, rfl, rfl, rfl, .inr ⟨not_unmap hc, m.body.length - 1, ?_⟩⟩)
      show Wire.Body.null m.body.length = _
      congr 1
      omega
  rw [if_neg h3, if_neg h3, if_neg h3, if_neg h3]
  unfold Mig.featProbe
  by_cases h4 : ops &&& Mig.F_PROBE = 0
  · rw [if_pos h4, if_pos h4, if_pos (.inl h4), if_pos (.inl h4)]
    exact .inl ⟨rfl, hst, ⟨_, rfl⟩, rfl, rfl, rfl⟩
  rw [if_neg h4, if_neg h4]
  by_cases h5 : argsz < m.body.length
  · rw [if_pos h5, if_pos h5, if_pos (.inr (.inl h5)), if_pos (.inr (.inl h5))]
    exact .inl ⟨rfl, hst, ⟨_, rfl⟩, rfl, rfl, rfl⟩
  · have h6 : ¬ (ops &&& Mig.F_PROBE = 0 ∨ argsz < m.body.length ∨ env.poor.alloc = true) :=
      fun h => h.elim h4 (fun h => h.elim h5 Bool.noConfusion)
    rw [if_neg h5, if_neg h5, if_neg h6]
    refine .inr (.inr ⟨lavish hc, hst, rfl, rfl, rfl, rfl, .inr ⟨not_unmap hc, m.body.length - 1, ?_⟩⟩)
    show Wire.Body.null m.body.length = _
    congr 1
    omega

theorem exec_short :
    (exec cfg env.poor st m = exec cfg env.flush st m ∧ Frugal st m) ∨
    (Short st m (exec cfg env.poor st m) (exec cfg env.flush st m)) := by
  unfold exec
  by_cases h2 : m.hdr.cmd = Wire.CMD_DMA_MAP
  · rw [if_pos h2, if_pos h2]
    have hf : Frugal st m := .inl (by rw [h2]; decide)
    cases st.dma with
    | none => exact .inl ⟨rfl, hf⟩
    | some c => exact .inl ⟨rfl, hf⟩
  rw [if_neg h2, if_neg h2]
  by_cases h3 : m.hdr.cmd = Wire.CMD_DMA_UNMAP
  · rw [if_pos h3, if_pos h3]
    cases hd : st.dma with
    | none => exact .inl ⟨rfl, .inr (.inl ⟨h3, hd⟩)⟩
    | some c => exact .inr (short_unmap h3 c hd)
  rw [if_neg h3, if_neg h3]
  by_cases h4 : m.hdr.cmd = Wire.CMD_GET_INFO
  · rw [if_pos h4, if_pos h4]; exact .inr (short_getInfo (by rw [h4]; decide))
  rw [if_neg h4, if_neg h4]
  by_cases h5 : m.hdr.cmd = Wire.CMD_REGION_INFO
  · rw [if_pos h5, if_pos h5]; exact .inr (short_regionInfo (by rw [h5]; decide))
  rw [if_neg h5, if_neg h5]
  by_cases h6 : m.hdr.cmd = Wire.CMD_REGION_IO_FDS
  · rw [if_pos h6, if_pos h6]; exact .inr (short_ioFds (by rw [h6]; decide))
  rw [if_neg h6, if_neg h6]
  by_cases h7 : m.hdr.cmd = Wire.CMD_IRQ_INFO
  · rw [if_pos h7, if_pos h7]; exact .inr (short_irqInfo (by rw [h7]; decide))
  rw [if_neg h7, if_neg h7]
  by_cases h8 : m.hdr.cmd = Wire.CMD_SET_IRQS
  · rw [if_pos h8, if_pos h8]
    exact .inl ⟨rfl, .inl (by rw [h8]; decide)⟩
  rw [if_neg h8, if_neg h8]
  by_cases h9 : m.hdr.cmd = Wire.CMD_REGION_READ
  · rw [if_pos h9, if_pos h9]
    rcases short_access (cfg := cfg) (env := env) (st := st) (.inl h9) false with ⟨h, h'⟩ | h
    · exact .inl ⟨h, .inr (.inr ⟨.inl h9, h'⟩)⟩
    · exact .inr h
  rw [if_neg h9, if_neg h9]
  by_cases h10 : m.hdr.cmd = Wire.CMD_REGION_WRITE
  · rw [if_pos h10, if_pos h10]
    rcases short_access (cfg := cfg) (env := env) (st := st) (.inr h10) true with ⟨h, h'⟩ | h
    · exact .inl ⟨h, .inr (.inr ⟨.inr h10, h'⟩)⟩
    · exact .inr h
  rw [if_neg h10, if_neg h10]
  by_cases h13 : m.hdr.cmd = Wire.CMD_RESET
  · rw [if_pos h13, if_pos h13]
    exact .inl ⟨rfl, .inl (by rw [h13]; decide)⟩
  rw [if_neg h13, if_neg h13]
  by_cases h16 : m.hdr.cmd = Wire.CMD_FEATURE
  · rw [if_pos h16, if_pos h16]; exact .inr (short_feature (by rw [h16]; decide))
  rw [if_neg h16, if_neg h16]
  by_cases h17 : m.hdr.cmd = Wire.CMD_MIG_READ
  · rw [if_pos h17, if_pos h17]; exact .inr (short_migRead (by rw [h17]; decide))
  rw [if_neg h17, if_neg h17]
  by_cases h18 : m.hdr.cmd = Wire.CMD_MIG_WRITE
  · rw [if_pos h18, if_pos h18]
    exact .inl ⟨rfl, .inl (by rw [h18]; decide)⟩
  rw [if_neg h18, if_neg h18]
  refine .inl ⟨rfl, .inl ?_⟩
  simp only [List.mem_cons, List.not_mem_nil, or_false]
  simp only [Wire.CMD_DMA_UNMAP, Wire.CMD_GET_INFO, Wire.CMD_REGION_INFO, Wire.CMD_REGION_IO_FDS, Wire.CMD_IRQ_INFO,
    Wire.CMD_REGION_READ, Wire.CMD_REGION_WRITE, Wire.CMD_FEATURE, Wire.CMD_MIG_READ] at *
  omega

/-! ## Calls -/

/-- The request came to nothing.  If no reply is wanted, or it is an unmap (3), the server's answer is what it would be to any request
that fails with ENOMEM; to all others there is no answer, and the call fails with EFAULT. -/
structure Lost (st : St) (m : Msg) (pre : List Ev) (o : Out) : Prop where
  lavish : ¬ Frugal st m
  st : o.st = st
  unasked : m.hdr.noReply = true → o.res = .ok () ∧ o.evs = pre ++ .exec m.hdr :: (closes (m.fds.map some) ++ [.freed])
  silent : m.hdr.noReply = false → m.hdr.cmd ≠ 3 →
    o.res = .err EFAULT ∧ o.evs = pre ++ .exec m.hdr :: (closes (m.fds.map some) ++ [.freed])
  told : m.hdr.noReply = false → m.hdr.cmd = 3 → o.res = .ok () ∧ ∃ w, w.fds = [] ∧ Wire.IsReply m.hdr ENOMEM [] w.bytes ∧
    o.evs = pre ++ .exec m.hdr :: .sent w :: (closes (m.fds.map some) ++ [.freed])

/-- A call with and without memory: the same, both end abnormally, or the request came to nothing. -/
def Poorer (st : St) (m : Msg) (pre : List Ev) (o o' : Out) : Prop :=
  o = o' ∨ (∃ f, o.res = .fault f ∧ o'.res = .fault f) ∨ Lost st m pre o

theorem handleRequest_short (hs : Wire.Healthy env.snd) (hf : m.hdr.Fits) (k : Nat) :
    Poorer st m [] (handleRequest cfg env.poor k st m) (handleRequest cfg env.flush k st m) := by
  have hx : ∀ d, finish cfg env.poor k m d = finish cfg env.flush k m d := fun d => rfl
  rcases exec_short (cfg := cfg) (env := env) (st := st) (m := m) with ⟨h, -⟩ | ⟨h, -⟩ | ⟨f, h1, h2⟩ | h
  · unfold handleRequest
    rw [h]
    exact .inl rfl
  · unfold handleRequest
    rw [h]
    exact .inl rfl
  · unfold handleRequest
    dsimp only
    rw [h1, h2]
    exact .inr (.inl ⟨f, rfl, rfl⟩)
  · refine .inr (.inr ?_)
    unfold handleRequest finish
    dsimp only
    rw [h.res, h.evs, h.left, h.fds, h.st]
    rw [if_neg (by decide : ¬ (Res.err ENOMEM : Res Unit).isFault = true)]
    have hr : replyErr (.err ENOMEM) = ENOMEM := rfl
    rw [hr]
    unfold doReply
    by_cases hn : m.hdr.noReply = true
    · rw [if_pos hn]
      exact ⟨h.lavish, rfl, fun _ => ⟨rfl, rfl⟩, fun h' => absurd (hn.symm.trans h') (by decide), fun h' => absurd (hn.symm.trans h') (by decide)⟩
    · rw [if_neg hn]
      rcases h.out with ⟨h3, ho⟩ | ⟨h3, n, ho⟩
      · obtain ⟨w, h1, _, h4, h5⟩ := reply_ok env.snd hs m.hdr hf [] [] (ENOMEM % U32) (Nat.mod_lt _ (by decide))
        have h1' : Wire.reply env.poor.snd m.hdr (.bytes []) [] (ENOMEM % U32) = (.ok (), [w]) := h1
        rw [ho, h1']
        exact ⟨h.lavish, rfl, fun h' => absurd h' hn, fun _ h' => absurd h3 h',
          fun _ _ => ⟨rfl, w, h4, h5 (by decide), rfl⟩⟩
      · rw [ho]
        exact ⟨h.lavish, rfl, fun h' => absurd h' hn, fun _ _ => ⟨rfl, rfl⟩, fun _ h' => absurd h' h3⟩

theorem frugal_congr {st st' : St} (h : st'.dma = st.dma) : Frugal st' m ↔ Frugal st m := by
  unfold Frugal; rw [h]

theorem Poorer.before {st' : St} {pre pre' : List Ev} {o o' : Out} (h : Poorer st m pre o o') {f : St → St}
    (hf : f st = st') (hd : st'.dma = st.dma) :
    Poorer st' m (pre' ++ pre) { st := f o.st, res := o.res, evs := pre' ++ o.evs } { st := f o'.st, res := o'.res, evs := pre' ++ o'.evs } := by
  rcases h with rfl | ⟨x, h1, h2⟩ | h
  · exact .inl rfl
  · exact .inr (.inl ⟨x, h1, h2⟩)
  · refine .inr (.inr ⟨fun h' => h.lavish ((frugal_congr hd).mp h'), ?_, ?_, ?_, ?_⟩)
    · show f o.st = st'
      rw [h.st, hf]
    · intro hn
      obtain ⟨h1, h2⟩ := h.unasked hn
      exact ⟨h1, by show pre' ++ o.evs = _; rw [h2, List.append_assoc]⟩
    · intro hn hc
      obtain ⟨h1, h2⟩ := h.silent hn hc
      exact ⟨h1, by show pre' ++ o.evs = _; rw [h2, List.append_assoc]⟩
    · intro hn hc
      obtain ⟨h1, w, h2, h3, h4⟩ := h.told hn hc
      exact ⟨h1, w, h2, h3, by show pre' ++ o.evs = _; rw [h4, List.append_assoc]⟩

/-- What happens before a request is executed that has just arrived. -/
def opening (cfg : Cfg) (st : St) (m : Msg) : List Ev :=
  .got m.hdr m.fds :: if needsQuiesce cfg st m = true then bracket .quiesce (.quiesce none) st.quiesced else []

theorem poor_dispatch (hs : Wire.Healthy env.snd) (hf : m.hdr.Fits) (hi : st.quiesced = false) :
    Poorer st m (if needsQuiesce cfg st m = true then bracket .quiesce (.quiesce none) st.quiesced else [])
      (dispatch cfg env.poor st m) (dispatch cfg env.flush st m) := by
  unfold dispatch
  by_cases he : shouldExec st.mig m.hdr.cmd = false
  · rw [if_pos he, if_pos he]; exact .inl rfl
  rw [if_neg he, if_neg he]
  by_cases hq : needsQuiesce cfg st m = true
  · rw [if_pos hq, if_pos hq, if_pos hq]
    dsimp only
    rw [show env.poor.quiesce 0 = env.quiesce 0 from rfl, show env.flush.quiesce 0 = env.quiesce 0 from rfl]
    cases hk : env.quiesce 0 with
    | some e =>
      dsimp only
      by_cases hb : e = EBUSY
      · rw [if_pos hb, if_pos hb]; exact .inl rfl
      · rw [if_neg hb, if_neg hb]; exact .inl rfl
    | none =>
      dsimp only
      have h := (handleRequest_short (cfg := cfg) (st := { st with quiesced := true }) hs hf 1).before (st' := st)
        (pre' := bracket .quiesce (.quiesce none) st.quiesced) (f := fun s => { s with quiesced := false })
        (by show { st with quiesced := false } = st; rw [← hi]) rfl
      rw [List.append_nil] at h
      exact h
  · rw [if_neg hq, if_neg hq, if_neg hq]
    exact (handleRequest_short (cfg := cfg) (st := st) hs hf 0).before (st' := st) (pre' := []) (f := fun s => { s with quiesced := false })
        (by show { st with quiesced := false } = st; rw [← hi]) rfl

/-- A request arrives while memory is short.  The call goes as it would with memory; or it ends abnormally and would have with
memory; or the request needs memory and comes to nothing (`Lost`): no callback but that of quiesce, nothing changes, and if a reply is
wanted there is none, except to an unmap request. -/
theorem C95_short (hi : st.quiesced = false) (hp : st.pending = .none) (hc : st.conn = true) (hs : Wire.Healthy env.snd)
    (hf : m.hdr.Fits) :
    Poorer st m (opening cfg st m) (call cfg st (.run env.poor (.req m.hdr m.body m.fds)))
      (call cfg st (.run env.flush (.req m.hdr m.body m.fds))) := by
  have h := (poor_dispatch (cfg := cfg) hs hf hi).before (st' := st) (pre' := [.got m.hdr m.fds]) (f := id) rfl rfl
  unfold call poll
  dsimp only
  rw [if_neg (by rw [hp]; decide), if_neg (by rw [hc]; decide), if_neg (by rw [hp]; decide), if_neg (by rw [hc]; decide)]
  exact h

/-- The same for a request that was waiting for the device to be quiet. -/
theorem C95_waiting (hi : st.quiesced = false) (hp : st.pending = .msg m) (hs : Wire.Healthy env.snd)
    (hf : m.hdr.Fits) :
    Poorer { st with pending := .none } m [.devQuiesced 0] (call cfg st (.quiesced env.poor 0)) (call cfg st (.quiesced env.flush 0)) := by
  unfold call deviceQuiesced
  dsimp only
  by_cases hq : cfg.hasQuiesce = false ∨ st.pending = .none
  · rw [if_pos hq, if_pos hq]; exact .inl rfl
  rw [if_neg hq, if_neg hq, if_pos rfl, if_pos rfl, hp]
  dsimp only
  exact (handleRequest_short (cfg := cfg) (st := { st with pending := .msg m, quiesced := true }) hs hf 0).before
    (st' := { st with pending := .none }) (pre' := [.devQuiesced 0]) (f := fun s => { s with pending := .none, quiesced := false })
    (by show ({ st with pending := .none, quiesced := false } : St) = { st with pending := .none }; rw [← hi]) rfl

/-- Only the quiesce callback was called. -/
def Undisturbed (evs : List Ev) : Prop := ∀ c q, Ev.call c q ∈ evs → ∃ r, c = .quiesce r

theorem undisturbed_tail (l : List (Option Fd)) : Undisturbed (closes l ++ [.freed]) := by
  intro c q h
  unfold closes at h
  simp at h

theorem Undisturbed.append {a b : List Ev} (ha : Undisturbed a) (hb : Undisturbed b) : Undisturbed (a ++ b) := by
  intro c q h
  rcases List.mem_append.mp h with h | h
  · exact ha c q h
  · exact hb c q h

theorem undisturbed_quiesce (r : Option Nat) (q : Bool) : Undisturbed (bracket .quiesce (.quiesce r) q) := by
  intro c q' h
  unfold bracket at h
  simp only [List.mem_cons, List.not_mem_nil, or_false, Ev.call.injEq, reduceCtorEq, false_or] at h
  exact ⟨r, h.1⟩

theorem undisturbed_other {e : Ev} (h : ∀ c q, e ≠ .call c q) : Undisturbed [e] := by
  intro c q hm
  exact absurd (List.mem_singleton.mp hm).symm (h c q)

theorem doReply_healthy (hs : Wire.Healthy env.snd) {h : Wire.Hdr} (hf : h.Fits) (k : Nat) (st : St) (l : List Byte) (e : Nat) :
    (doReply cfg env k st h (.bytes l) [] e).st = st ∧ Undisturbed (doReply cfg env k st h (.bytes l) [] e).evs := by
  unfold doReply
  by_cases hn : h.noReply = true
  · rw [if_pos hn]; exact ⟨rfl, fun c q h => by cases h⟩
  · rw [if_neg hn]
    obtain ⟨w, h1, -⟩ := reply_ok env.snd hs h hf l [] (e % U32) (Nat.mod_lt _ (by decide))
    rw [show Wire.reply env.snd h (.bytes l) [] (e % U32) = (.ok (), [w]) from h1]
    exact ⟨rfl, undisturbed_other (by intro c q; simp)⟩

theorem refuse_healthy (hs : Wire.Healthy env.snd) {h : Wire.Hdr} (hf : h.Fits) (k : Nat) (st : St) (fds : List Fd) (e : Nat) :
    (refuse cfg env k st h fds e).st = st ∧ Undisturbed (refuse cfg env k st h fds e).evs := by
  obtain ⟨h1, h2⟩ := doReply_healthy (cfg := cfg) hs hf k st [] e
  unfold refuse
  dsimp only
  by_cases hx : (doReply cfg env k st h (.bytes []) [] e).res.isFault = true
  · rw [if_pos hx]; exact ⟨h1, h2⟩
  · rw [if_neg hx]
    refine ⟨h1, ?_⟩
    show Undisturbed (_ ++ _ ++ _)
    rw [List.append_assoc]
    exact h2.append (undisturbed_tail _)

theorem handleRequest_undone (hs : Wire.Healthy env.snd) (hf : m.hdr.Fits) (hl : ¬ Frugal st m) (k : Nat)
    (hno : (handleRequest cfg env.poor k st m).res.isFault = false) :
    (handleRequest cfg env.poor k st m).st = st ∧ Undisturbed (handleRequest cfg env.poor k st m).evs := by
  have hlast : ∀ {a : List Ev} (l : List (Option Fd)), Undisturbed a → Undisturbed ((.exec m.hdr :: [] ++ a) ++ closes l ++ [.freed]) := by
    intro a l ha
    rw [List.append_assoc]
    exact ((undisturbed_other (by intro c q; simp)).append ha).append (undisturbed_tail l)
  rcases exec_short (cfg := cfg) (env := env) (st := st) (m := m) with ⟨-, h⟩ | ⟨-, h⟩ | ⟨f, h1, h2⟩ | h
  · exact absurd h hl
  · obtain ⟨e, he⟩ := h.res
    unfold handleRequest finish
    dsimp only
    rw [h.evs, h.out, h.fds, h.st, he, if_neg (by simp [Res.isFault])]
    obtain ⟨g1, g2⟩ := doReply_healthy (cfg := cfg) (env := env.poor) hs hf k st [] (replyErr (.err e))
    by_cases hx : (doReply cfg env.poor k st m.hdr (.bytes []) [] (replyErr (.err e))).res.isFault = true
    · rw [if_pos hx]
      refine ⟨g1, ?_⟩
      exact (undisturbed_other (e := .exec m.hdr) (by intro c q; simp)).append g2
    · rw [if_neg hx]
      exact ⟨g1, hlast _ g2⟩
  · exfalso
    unfold handleRequest at hno
    dsimp only at hno
    rw [h1] at hno
    exact Bool.noConfusion hno
  · rcases handleRequest_short (cfg := cfg) (env := env) (st := st) hs hf k with h' | ⟨f, h', -⟩ | h'
    · unfold handleRequest finish
      dsimp only
      rw [h.evs, h.fds, h.st, h.res, if_neg (by decide)]
      rcases h.out with ⟨-, ho⟩ | ⟨-, n, ho⟩
      · rw [ho]
        obtain ⟨g1, g2⟩ := doReply_healthy (cfg := cfg) (env := env.poor) hs hf k st [] (replyErr (.err ENOMEM))
        by_cases hx : (doReply cfg env.poor k st m.hdr (.bytes []) [] (replyErr (.err ENOMEM))).res.isFault = true
        · rw [if_pos hx]
          exact ⟨g1, (undisturbed_other (e := .exec m.hdr) (by intro c q; simp)).append g2⟩
        · rw [if_neg hx]
          exact ⟨g1, hlast _ g2⟩
      · rw [ho]
        unfold doReply
        by_cases hn : m.hdr.noReply = true
        · rw [if_pos hn]
          exact ⟨rfl, hlast (a := []) _ (fun c q h => by cases h)⟩
        · rw [if_neg hn]
          exact ⟨rfl, hlast (a := []) _ (fun c q h => by cases h)⟩
    · rw [h'] at hno; exact absurd hno (by simp [Res.isFault])
    · refine ⟨h'.st, ?_⟩
      have hx : ∀ w, Undisturbed [Ev.sent w] := fun w => undisturbed_other (by intro c q; simp)
      by_cases hn : m.hdr.noReply = true
      · rw [(h'.unasked hn).2]
        exact hlast (a := []) _ (fun c q h => by cases h)
      · have hn' : m.hdr.noReply = false := by simpa using hn
        by_cases h3 : m.hdr.cmd = 3
        · obtain ⟨-, w, -, -, he⟩ := h'.told hn' h3
          rw [he]
          exact hlast _ (hx w)
        · rw [(h'.silent hn' h3).2]
          exact hlast (a := []) _ (fun c q h => by cases h)

/-- A request that needs memory is not carried out while memory is short: unless the call ends abnormally, no callback but that of
quiesce is made, and the server is as it was, except that the request may be waiting for the device to be quiet. -/
theorem C95_undone (hi : st.quiesced = false) (hp : st.pending = .none) (hc : st.conn = true) (hs : Wire.Healthy env.snd)
    (hf : m.hdr.Fits) (hl : ¬ Frugal st m)
    (hno : (call cfg st (.run env.poor (.req m.hdr m.body m.fds))).res.isFault = false) :
    ((call cfg st (.run env.poor (.req m.hdr m.body m.fds))).st = st ∨
      (call cfg st (.run env.poor (.req m.hdr m.body m.fds))).st = { st with pending := .msg m }) ∧
    Undisturbed (call cfg st (.run env.poor (.req m.hdr m.body m.fds))).evs := by
  revert hno
  unfold call poll
  dsimp only
  rw [if_neg (by rw [hp]; decide), if_neg (by rw [hc]; decide)]
  intro hno
  have hgot : ∀ {a : List Ev}, Undisturbed a → Undisturbed (.got m.hdr m.fds :: a) := fun ha =>
    (undisturbed_other (e := .got m.hdr m.fds) (by intro c q; simp)).append ha
  suffices h : ((dispatch cfg env.poor st m).st = st ∨ (dispatch cfg env.poor st m).st = { st with pending := .msg m }) ∧
      Undisturbed (dispatch cfg env.poor st m).evs from ⟨h.1, hgot h.2⟩
  have hback : ({ st with quiesced := false } : St) = st := by rw [← hi]
  revert hno
  show (dispatch cfg env.poor st m).res.isFault = false → _
  unfold dispatch
  by_cases he : shouldExec st.mig m.hdr.cmd = false
  · rw [if_pos he]
    obtain ⟨h1, h2⟩ := refuse_healthy (cfg := cfg) (env := env.poor) hs hf 0 st m.fds EINVAL
    exact fun _ => ⟨.inl h1, h2⟩
  rw [if_neg he]
  by_cases hq : needsQuiesce cfg st m = true
  · rw [if_pos hq]
    dsimp only
    cases hk : env.poor.quiesce 0 with
    | some e =>
      dsimp only
      by_cases hb : e = EBUSY
      · rw [if_pos hb]; exact fun _ => ⟨.inr rfl, undisturbed_quiesce _ _⟩
      · rw [if_neg hb]
        obtain ⟨h1, h2⟩ := refuse_healthy (cfg := cfg) (env := env.poor) hs hf 1 st m.fds e
        exact fun _ => ⟨.inl h1, (undisturbed_quiesce _ _).append h2⟩
    | none =>
      intro hno
      obtain ⟨h1, h2⟩ := handleRequest_undone (cfg := cfg) (st := { st with quiesced := true }) hs hf hl 1 hno
      refine ⟨.inl ?_, (undisturbed_quiesce _ _).append h2⟩
      show ({ (handleRequest cfg env.poor 1 { st with quiesced := true } m).st with quiesced := false } : St) = st
      rw [h1]
      exact hback
  · rw [if_neg hq]
    intro hno
    obtain ⟨h1, h2⟩ := handleRequest_undone (cfg := cfg) (st := st) hs hf hl 0 hno
    refine ⟨.inl ?_, h2⟩
    show ({ (handleRequest cfg env.poor 0 st m).st with quiesced := false } : St) = st
    rw [h1]
    exact hback

/-- Afterwards the server goes on as if the request had never come. -/
theorem C95_forgotten {pre : List Ev} {op : Op} (h : Lost st m pre (call cfg st op)) (ops : List Op) :
    run cfg st (op :: ops) = ((run cfg st ops).1, (call cfg st op).evs ++ .ret :: (run cfg st ops).2) := by
  have hno : ¬ (call cfg st op).res.isFault = true := by
    by_cases hn : m.hdr.noReply = true
    · rw [(h.unasked hn).1]; decide
    · have hn' : m.hdr.noReply = false := by simpa using hn
      by_cases h3 : m.hdr.cmd = 3
      · rw [(h.told hn' h3).1]; decide
      · rw [(h.silent hn' h3).1]; decide
  show (if (call cfg st op).res.isFault = true then _ else _) = _
  rw [if_neg hno, h.st]

/-- GET_INFO, answered with memory, unanswered without, answered when asked again. -/
def infoReq : Wire.In := Demo.req 7 4 0 (enc 4 16 ++ enc 4 0 ++ enc 4 0 ++ enc 4 0) []

theorem C95_silent :
    (call Demo.cfg Demo.st (.run Demo.env.poor infoReq)).res = .err EFAULT ∧
    (∀ w, .sent w ∉ (call Demo.cfg Demo.st (.run Demo.env.poor infoReq)).evs) ∧
    (call Demo.cfg (call Demo.cfg Demo.st (.run Demo.env.poor infoReq)).st (.run Demo.env infoReq)).evs =
      (call Demo.cfg Demo.st (.run Demo.env infoReq)).evs ∧
    (∃ w, .sent w ∈ (call Demo.cfg Demo.st (.run Demo.env infoReq)).evs) := by
  have e : (call Demo.cfg Demo.st (.run Demo.env.poor infoReq)).evs =
      [.got (Demo.hdr 7 4 0 16) [], .exec (Demo.hdr 7 4 0 16), .freed] := rfl
  refine ⟨rfl, ?_, rfl, ?_⟩
  · intro w hw
    rw [e] at hw
    simp at hw
  · refine ⟨⟨(Wire.mkHdr 7 4 true 16 0).bytes ++ (enc 4 16 ++ enc 4 3 ++ enc 4 9 ++ enc 4 5), []⟩, ?_⟩
    decide +kernel

/-- A request that is refused for its content is refused as ever, with its error: here one for a region that does not exist. -/
example : (call Demo.cfg Demo.st (.run Demo.env.poor (Demo.req 7 5 0 (enc 4 32 ++ enc 4 0 ++ enc 4 99 ++ enc 4 0 ++ enc 8 0 ++ enc 8 0) []))).evs =
    [.got (Demo.hdr 7 5 0 32) [], .exec (Demo.hdr 7 5 0 32),
      .sent ⟨(Wire.mkHdr 7 5 true 0 EINVAL).bytes, []⟩, .freed] := by decide +kernel

/-- The hypotheses of `C95_short` and `C95_undone` hold of it. -/
example : Demo.st.quiesced = false ∧ Demo.st.pending = .none ∧ Demo.st.conn = true ∧ Wire.Healthy Demo.env.snd ∧
    (Demo.hdr 7 4 0 16).Fits ∧ ¬ Frugal Demo.st ⟨Demo.hdr 7 4 0 16, enc 4 16 ++ enc 4 0 ++ enc 4 0 ++ enc 4 0, []⟩ ∧
    (call Demo.cfg Demo.st (.run Demo.env.poor infoReq)).res.isFault = false :=
  ⟨rfl, rfl, rfl, fun _ => rfl, by constructor <;> decide, lavish (by decide), by decide⟩

/-- An unmap request that waited for the device is told of the shortage and may be repeated. -/
example : (run Demo.cfg Demo.st [.run Demo.busy (Demo.req 1 3 0 (Demo.unmapBody 0x100000) []), .quiesced Demo.env.poor 0]).2.filterMap
      (fun e => match e with | .sent w => some w.bytes | _ => none) =
    [(Wire.mkHdr 1 3 true 0 ENOMEM).bytes] := by decide +kernel

end Verif.Server
