import Verif.Server.Relabel

/-!
# Requests about different things do not interfere

C112: DMA mapping, interrupts and device accesses are three topics.  What a request of one topic does, and what it is
answered, depends on the earlier requests of that topic only. -/

namespace Verif.Server
open Verif
open Verif.Dma (Fd)

/-- What a request is about.  `info` requests ask for constants. -/
inductive Topic where
  | dma | irq | dev | info
  deriving DecidableEq, Repr

/-- The topic of a command, `lib/libvfio-user.c:1324-1386`: DMA_MAP, DMA_UNMAP; SET_IRQS; REGION_READ, REGION_WRITE,
MIG_DATA_READ, MIG_DATA_WRITE; the five that inform. Reset and device features concern more than one. -/
def topicOf (cmd : Nat) : Option Topic :=
  if cmd = 2 ∨ cmd = 3 then some .dma
  else if cmd = 8 then some .irq
  else if cmd = 9 ∨ cmd = 10 ∨ cmd = 17 ∨ cmd = 18 then some .dev
  else if cmd = 4 ∨ cmd = 5 ∨ cmd = 6 ∨ cmd = 7 then some .info
  else none

/-- The rest of the state, from another state. -/
def graft (t : Topic) (s st : St) : St :=
  match t with
  | .dma => { st with irqs := s.irqs, pci := s.pci }
  | .irq => { st with dma := s.dma, pci := s.pci }
  | .dev => { st with dma := s.dma, irqs := s.irqs }
  | .info => { st with dma := s.dma, irqs := s.irqs, pci := s.pci }

def Done.on (d : Done) (f : St → St) : Done := { d with st := f d.st }
def Out.on (d : Out) (f : St → St) : Out := { d with st := f d.st }

theorem exec_graft (cfg : Cfg) (env : Env) (st : St) (m : Msg) {t : Topic} (ht : topicOf m.hdr.cmd = some t) (s : St) :
    exec cfg env (graft t s st) m = (exec cfg env st m).on (graft t s) := by
  obtain ⟨mig, dma, irqs, pci, conn, pend, q, mf, mx⟩ := st
  unfold topicOf at ht
  by_cases h : m.hdr.cmd = 2 ∨ m.hdr.cmd = 3
  · rw [if_pos h] at ht; cases ht
    rcases h with h | h
    · replace h : m.hdr.cmd = Wire.CMD_DMA_MAP := h
      unfold exec
      rw [if_pos h, if_pos h]
      cases dma with
      | none => rfl
      | some c =>
        show dmaMap cfg env _ c _ _ = (dmaMap cfg env _ c _ _).on _
        unfold dmaMap
        by_cases h : m.body = []
        · rw [if_pos h, if_pos h]; rfl
        rw [if_neg h, if_neg h]
        by_cases h : m.body.length < 32 ∨ leAt m.body 0 4 < 32
        · rw [if_pos h, if_pos h]; rfl
        rw [if_neg h, if_neg h]
        rfl
    · have h2 : ¬ m.hdr.cmd = Wire.CMD_DMA_MAP := by rw [h]; decide
      replace h : m.hdr.cmd = Wire.CMD_DMA_UNMAP := h
      unfold exec
      rw [if_neg h2, if_neg h2, if_pos h, if_pos h]
      cases dma with
      | none => rfl
      | some c =>
        show dmaUnmap cfg env _ c _ _ = (dmaUnmap cfg env _ c _ _).on _
        unfold dmaUnmap
        by_cases h : m.body = []
        · rw [if_pos h, if_pos h]; rfl
        rw [if_neg h, if_neg h]
        cases validUnmap m.body with
        | err e => rfl
        | fault f => rfl
        | ok u =>
          dsimp only
          generalize Dma.handleUnmap env.alloc cfg.dma.hasUnreg c _ _ _ = o
          obtain ⟨c', r, ev⟩ := o
          cases r with
          | ok b => cases b <;> rfl
          | _ => rfl
  rw [if_neg h] at ht
  by_cases h : m.hdr.cmd = 8
  · rw [if_pos h] at ht; cases ht
    unfold exec
    rw [h]
    rfl
  rw [if_neg h] at ht
  by_cases h : m.hdr.cmd = 9 ∨ m.hdr.cmd = 10 ∨ m.hdr.cmd = 17 ∨ m.hdr.cmd = 18
  · rw [if_pos h] at ht; cases ht
    rcases h with h | h | h | h <;> (unfold exec; rw [h]; rfl)
  rw [if_neg h] at ht
  by_cases h : m.hdr.cmd = 4 ∨ m.hdr.cmd = 5 ∨ m.hdr.cmd = 6 ∨ m.hdr.cmd = 7
  · rw [if_pos h] at ht; cases ht
    rcases h with h | h | h | h <;> (unfold exec; rw [h]; rfl)
  · rw [if_neg h] at ht; cases ht

theorem graft_graft (t : Topic) (s s' st : St) : graft t s (graft t s' st) = graft t s st := by cases t <;> rfl

theorem graft_self (t : Topic) (st : St) : graft t st st = st := by cases t <;> rfl

theorem topicOf_elim {cmd : Nat} {t : Topic} (ht : topicOf cmd = some t) :
    (t = .dma ∧ (cmd = 2 ∨ cmd = 3)) ∨ (t = .irq ∧ cmd = 8) ∨
      (t = .dev ∧ (cmd = 9 ∨ cmd = 10 ∨ cmd = 17 ∨ cmd = 18)) ∨
      (t = .info ∧ (cmd = 4 ∨ cmd = 5 ∨ cmd = 6 ∨ cmd = 7)) := by
  unfold topicOf at ht
  by_cases h : cmd = 2 ∨ cmd = 3
  · rw [if_pos h] at ht; exact .inl ⟨(Option.some.inj ht).symm, h⟩
  rw [if_neg h] at ht
  by_cases h : cmd = 8
  · rw [if_pos h] at ht; exact .inr (.inl ⟨(Option.some.inj ht).symm, h⟩)
  rw [if_neg h] at ht
  by_cases h : cmd = 9 ∨ cmd = 10 ∨ cmd = 17 ∨ cmd = 18
  · rw [if_pos h] at ht; exact .inr (.inr (.inl ⟨(Option.some.inj ht).symm, h⟩))
  rw [if_neg h] at ht
  by_cases h : cmd = 4 ∨ cmd = 5 ∨ cmd = 6 ∨ cmd = 7
  · rw [if_pos h] at ht; exact .inr (.inr (.inr ⟨(Option.some.inj ht).symm, h⟩))
  · rw [if_neg h] at ht; cases ht

theorem needsQuiesce_graft (cfg : Cfg) (st : St) (m : Msg) {t : Topic} (ht : topicOf m.hdr.cmd = some t) (s : St) :
    needsQuiesce cfg (graft t s st) m = needsQuiesce cfg st m := by
  have hno : ∀ st' : St, (m.hdr.cmd = 8 ∨ m.hdr.cmd = 4 ∨ m.hdr.cmd = 5 ∨ m.hdr.cmd = 6 ∨ m.hdr.cmd = 7) →
      needsQuiesce cfg st' m = false := by
    intro st' h
    have h1 : ¬ (m.hdr.cmd = Wire.CMD_DMA_MAP ∨ m.hdr.cmd = Wire.CMD_DMA_UNMAP) := by
      rcases h with h | h | h | h | h <;> (rw [h]; decide)
    have h2 : ¬ m.hdr.cmd = Wire.CMD_RESET := by rcases h with h | h | h | h | h <;> (rw [h]; decide)
    have h3 : ¬ m.hdr.cmd = Wire.CMD_REGION_WRITE := by rcases h with h | h | h | h | h <;> (rw [h]; decide)
    have h4 : ¬ m.hdr.cmd = Wire.CMD_FEATURE := by rcases h with h | h | h | h | h <;> (rw [h]; decide)
    unfold needsQuiesce
    rw [if_neg h1, if_neg h2, if_neg h3, if_neg h4, ite_self]
  rcases topicOf_elim ht with ⟨rfl, h⟩ | ⟨rfl, h⟩ | ⟨rfl, h⟩ | ⟨rfl, h⟩
  · have hx : m.hdr.cmd = Wire.CMD_DMA_MAP ∨ m.hdr.cmd = Wire.CMD_DMA_UNMAP := h
    have hp : (graft .dma s st).dma = st.dma := rfl
    unfold needsQuiesce
    rw [if_pos hx, if_pos hx, hp]
  · rw [hno _ (.inl h), hno _ (.inl h)]
  · have hx : ¬ (m.hdr.cmd = Wire.CMD_DMA_MAP ∨ m.hdr.cmd = Wire.CMD_DMA_UNMAP) := by
      rcases h with h | h | h | h <;> (rw [h]; decide)
    have hp : (graft .dev s st).pci = st.pci := rfl
    unfold needsQuiesce
    rw [if_neg hx, if_neg hx, hp]
  · rw [hno _ (.inr h), hno _ (.inr h)]

/-- A reply over a connection that lives leaves the state alone. -/
theorem doReply_calm (cfg : Cfg) {env : Env} (hs : Wire.Healthy env.snd) (k : Nat) (h : Wire.Hdr) (b : Wire.Body)
    (fds : List (Option Fd)) (err : Nat) :
    ∃ r evs, ∀ st, doReply cfg env k st h b fds err = ⟨st, r, evs⟩ := by
  unfold doReply
  by_cases hn : h.noReply = true
  · refine ⟨.ok (), [], fun st => ?_⟩
    rw [if_pos hn]
  dsimp only
  have hr := reply_healthy hs h b fds (err % U32)
  generalize Wire.reply env.snd h b fds (err % U32) = o at *
  obtain ⟨r, ws⟩ := o
  dsimp only at hr
  rcases hr with hr | hr | hr
  · refine ⟨.ok (), ws.map Ev.sent, fun st => ?_⟩
    rw [if_neg hn, hr]
  · refine ⟨.err Wire.EBADF, ws.map Ev.sent, fun st => ?_⟩
    rw [if_neg hn, hr]
    exact if_neg (by decide)
  · refine ⟨.err EFAULT, ws.map Ev.sent, fun st => ?_⟩
    rw [if_neg hn, hr]
    exact if_neg (by decide)

theorem refuse_calm (cfg : Cfg) {env : Env} (hs : Wire.Healthy env.snd) (k : Nat) (h : Wire.Hdr) (fds : List Fd)
    (err : Nat) : ∃ r evs, ∀ st, refuse cfg env k st h fds err = ⟨st, r, evs⟩ := by
  obtain ⟨r, evs, he⟩ := doReply_calm cfg hs k h (.bytes []) [] err
  unfold refuse
  by_cases hf : r.isFault = true
  · refine ⟨r, evs, fun st => ?_⟩
    rw [he]; exact if_pos hf
  · refine ⟨r, evs ++ closes (fds.map some) ++ [.freed], fun st => ?_⟩
    rw [he]; exact if_neg hf

theorem handleRequest_graft (cfg : Cfg) {env : Env} (hs : Wire.Healthy env.snd) (k : Nat) (st : St) (m : Msg) {t : Topic}
    (ht : topicOf m.hdr.cmd = some t) (s : St) :
    handleRequest cfg env k (graft t s st) m = (handleRequest cfg env k st m).on (graft t s) := by
  unfold handleRequest
  rw [exec_graft cfg env st m ht s]
  generalize exec cfg env st m = d
  dsimp only
  by_cases hf : d.res.isFault = true
  · rw [if_pos (show (d.on (graft t s)).res.isFault = true from hf), if_pos hf]; rfl
  rw [if_neg (show ¬ (d.on (graft t s)).res.isFault = true from hf), if_neg hf]
  unfold finish
  obtain ⟨r, evs, he⟩ := doReply_calm cfg hs k m.hdr d.out d.outFds (replyErr d.res)
  dsimp only [Done.on]
  rw [he, he]
  dsimp only
  by_cases hr : r.isFault = true
  · rw [if_pos hr, if_pos hr]; rfl
  · rw [if_neg hr, if_neg hr]; rfl

/-- The library waits for nothing: the socket takes whole replies, and the device answers a quiesce at once. -/
def Env.Willing (env : Env) : Prop := Wire.Healthy env.snd ∧ env.quiesce 0 ≠ some EBUSY

theorem dispatch_graft (cfg : Cfg) {env : Env} (hp : env.Willing) (st : St) (m : Msg) {t : Topic}
    (ht : topicOf m.hdr.cmd = some t) (s : St) :
    dispatch cfg env (graft t s st) m = (dispatch cfg env st m).on (graft t s) := by
  have hm : (graft t s st).mig = st.mig := by cases t <;> rfl
  have hq : (graft t s st).quiesced = st.quiesced := by cases t <;> rfl
  have he : shouldExec (graft t s st).mig m.hdr.cmd = shouldExec st.mig m.hdr.cmd := by rw [hm]
  have hh : handleRequest cfg env 1 { graft t s st with quiesced := true } m =
      (handleRequest cfg env 1 { st with quiesced := true } m).on (graft t s) := by
    have h := handleRequest_graft cfg hp.1 1 { st with quiesced := true } m ht s
    cases t <;> exact h
  unfold dispatch
  rw [needsQuiesce_graft cfg st m ht s, he]
  by_cases h1 : shouldExec st.mig m.hdr.cmd = false
  · rw [if_pos h1, if_pos h1]
    obtain ⟨r, evs, he⟩ := refuse_calm cfg hp.1 0 m.hdr m.fds EINVAL
    rw [he, he]; rfl
  rw [if_neg h1, if_neg h1]
  by_cases h2 : needsQuiesce cfg st m = true
  · rw [if_pos h2, if_pos h2, hq]
    cases hk : env.quiesce 0 with
    | some e =>
      dsimp only
      have hne : ¬ e = EBUSY := fun h => hp.2 (by rw [hk, h])
      obtain ⟨r, evs, he⟩ := refuse_calm cfg hp.1 1 m.hdr m.fds e
      rw [if_neg hne, if_neg hne, he, he]; rfl
    | none =>
      dsimp only
      rw [hh]
      cases t <;> rfl
  · rw [if_neg h2, if_neg h2, handleRequest_graft cfg hp.1 0 st m ht s]
    cases t <;> rfl

/-- The topic of a call: that of the request that has arrived; `vfu_sgl_mark_dirty` is about DMA, `vfu_irq_trigger` about
interrupts, the device's own changes of the config space about the device.  A poll that finds nothing, and a request that
is malformed, is about nothing. -/
def Op.topic : Op → Option Topic
  | .run _ (.req h _ _) => topicOf h.cmd
  | .run _ (.lost _ _) => none
  | .run _ _ => some .info
  | .transfer _ false => some .info
  | .config _ => some .dev
  | .mark _ => some .dma
  | .trigger _ _ => some .irq
  | _ => none

/-- Nothing happens that makes the library wait, or lose its client. -/
def Op.Willing (op : Op) : Prop := op.topic ≠ none ∧ ∀ env, op.env? = some env → env.Willing

theorem call_graft (cfg : Cfg) (st : St) {op : Op} (hp : op.Willing) {t : Topic} (ht : op.topic = some t) (s : St) :
    call cfg (graft t s st) op = (call cfg st op).on (graft t s) := by
  have hpd : (graft t s st).pending = st.pending := by cases t <;> rfl
  have hcn : (graft t s st).conn = st.conn := by cases t <;> rfl
  cases op with
  | run env i =>
    have hpe := hp.2 env rfl
    show poll cfg env (graft t s st) i = (poll cfg env st i).on (graft t s)
    unfold poll
    rw [hpd, hcn]
    by_cases h1 : st.pending ≠ .none
    · rw [if_pos h1, if_pos h1]; rfl
    rw [if_neg h1, if_neg h1]
    by_cases h2 : st.conn = false
    · rw [if_pos h2, if_pos h2]; rfl
    rw [if_neg h2, if_neg h2]
    cases i with
    | again => rfl
    | lost e leak => cases ht
    | failed e leak => rfl
    | bad h fds e =>
      obtain ⟨r, evs, he⟩ := refuse_calm cfg hpe.1 0 h fds e
      dsimp only
      rw [he, he]; rfl
    | req h body fds =>
      have h' := dispatch_graft cfg hpe st ⟨h, body, fds⟩ (t := t) ht s
      dsimp only
      rw [h']; rfl
  | quiesced env e => cases ht
  | transfer env lost =>
    cases lost with
    | true => cases ht
    | false =>
      show transfer cfg env (graft t s st) false = (transfer cfg env st false).on (graft t s)
      unfold transfer
      rw [hpd]
      by_cases h1 : st.pending ≠ .none
      · rw [if_pos h1, if_pos h1]; rfl
      · rw [if_neg h1, if_neg h1]; rfl
  | attach n => cases ht
  | config f => cases ht; rfl
  | mark sgl =>
    cases ht
    obtain ⟨mg, d, ir, pc, cn, pd, qu, mf, mx⟩ := st
    cases d with
    | none => rfl
    | some c =>
      show call cfg _ (.mark sgl) = _
      unfold call
      dsimp only [graft]
      cases Dma.sglMark c sgl <;> rfl
  | trigger wr sub => cases ht; rfl

/-- The part no topic owns. -/
structure SharedSame (a b : St) : Prop extends Same a b where
  mig : b.mig = a.mig

theorem SharedSame.refl (a : St) : SharedSame a a := ⟨Same.rfl, rfl⟩

theorem SharedSame.trans {a b c : St} (h : SharedSame a b) (h' : SharedSame b c) : SharedSame a c :=
  ⟨⟨h'.conn.trans h.conn, h'.pending.trans h.pending, h'.quiesced.trans h.quiesced, h'.maxFds.trans h.maxFds,
    h'.maxXfer.trans h.maxXfer⟩, h'.mig.trans h.mig⟩

theorem exec_mig (cfg : Cfg) (env : Env) (st : St) (m : Msg) {t : Topic} (ht : topicOf m.hdr.cmd = some t) :
    (exec cfg env st m).st.mig = st.mig := by
  rcases topicOf_elim ht with ⟨_, h⟩ | ⟨_, h⟩ | ⟨_, h⟩ | ⟨_, h⟩
  · rcases h with h | h
    · replace h : m.hdr.cmd = Wire.CMD_DMA_MAP := h
      unfold exec
      rw [if_pos h]
      cases st.dma with
      | none => rfl
      | some c =>
        dsimp only
        unfold dmaMap
        by_cases h : m.body = []
        · rw [if_pos h]
        rw [if_neg h]
        by_cases h : m.body.length < 32 ∨ leAt m.body 0 4 < 32
        · rw [if_pos h]
        rw [if_neg h]
    · have h2 : ¬ m.hdr.cmd = Wire.CMD_DMA_MAP := by rw [h]; decide
      replace h : m.hdr.cmd = Wire.CMD_DMA_UNMAP := h
      unfold exec
      rw [if_neg h2, if_pos h]
      cases st.dma with
      | none => rfl
      | some c =>
        dsimp only
        unfold dmaUnmap
        by_cases h : m.body = []
        · rw [if_pos h]
        rw [if_neg h]
        cases validUnmap m.body with
        | err e => rfl
        | fault f => rfl
        | ok u =>
          dsimp only
          generalize Dma.handleUnmap env.alloc cfg.dma.hasUnreg c _ _ _ = o
          obtain ⟨c', r, ev⟩ := o
          cases r with
          | ok b => cases b <;> rfl
          | _ => rfl
  · unfold exec; rw [h]; rfl
  · rcases h with h | h | h | h <;> (unfold exec; rw [h]; rfl)
  · rcases h with h | h | h | h <;> (unfold exec; rw [h]; rfl)

theorem handleRequest_calm (cfg : Cfg) {env : Env} (hs : Wire.Healthy env.snd) (k : Nat) (st : St) (m : Msg) {t : Topic}
    (ht : topicOf m.hdr.cmd = some t) : SharedSame st (handleRequest cfg env k st m).st := by
  have hd : SharedSame st (exec cfg env st m).st := ⟨(tame_exec cfg env st m).same, exec_mig cfg env st m ht⟩
  unfold handleRequest
  generalize exec cfg env st m = d at *
  dsimp only
  by_cases hf : d.res.isFault = true
  · rw [if_pos hf]; exact hd
  rw [if_neg hf]
  unfold finish
  obtain ⟨r, evs, he⟩ := doReply_calm cfg hs k m.hdr d.out d.outFds (replyErr d.res)
  dsimp only
  rw [he]
  dsimp only
  by_cases hr : r.isFault = true
  · rw [if_pos hr]; exact hd
  · rw [if_neg hr]; exact hd

theorem dispatch_calm (cfg : Cfg) {env : Env} (hp : env.Willing) {st : St} (hq : st.quiesced = false) (m : Msg) {t : Topic}
    (ht : topicOf m.hdr.cmd = some t) : SharedSame st (dispatch cfg env st m).st := by
  unfold dispatch
  by_cases h1 : shouldExec st.mig m.hdr.cmd = false
  · rw [if_pos h1]
    obtain ⟨r, evs, he⟩ := refuse_calm cfg hp.1 0 m.hdr m.fds EINVAL
    rw [he]; exact SharedSame.refl _
  rw [if_neg h1]
  by_cases h2 : needsQuiesce cfg st m = true
  · rw [if_pos h2]
    cases hk : env.quiesce 0 with
    | some e =>
      dsimp only
      have hne : ¬ e = EBUSY := fun h => hp.2 (by rw [hk, h])
      obtain ⟨r, evs, he⟩ := refuse_calm cfg hp.1 1 m.hdr m.fds e
      rw [if_neg hne, he]; exact SharedSame.refl _
    | none =>
      have h := handleRequest_calm cfg hp.1 1 { st with quiesced := true } m ht
      exact ⟨⟨h.conn, h.pending, hq.symm, h.maxFds, h.maxXfer⟩, h.mig⟩
  · rw [if_neg h2]
    have h := handleRequest_calm cfg hp.1 0 st m ht
    exact ⟨⟨h.conn, h.pending, hq.symm, h.maxFds, h.maxXfer⟩, h.mig⟩

theorem call_calm (cfg : Cfg) {st : St} (hq : st.quiesced = false) {op : Op} (hp : op.Willing) :
    SharedSame st (call cfg st op).st := by
  cases op with
  | run env i =>
    have hpe := hp.2 env rfl
    show SharedSame st (poll cfg env st i).st
    unfold poll
    by_cases h1 : st.pending ≠ .none
    · rw [if_pos h1]; exact SharedSame.refl _
    rw [if_neg h1]
    by_cases h2 : st.conn = false
    · rw [if_pos h2]; exact SharedSame.refl _
    rw [if_neg h2]
    cases i with
    | again => exact SharedSame.refl _
    | lost e leak => exact absurd rfl hp.1
    | failed e leak => exact SharedSame.refl _
    | bad h fds e =>
      obtain ⟨r, evs, he⟩ := refuse_calm cfg hpe.1 0 h fds e
      dsimp only
      rw [he]; exact SharedSame.refl _
    | req h body fds =>
      obtain ⟨t, ht⟩ := Option.ne_none_iff_exists'.mp hp.1
      exact dispatch_calm cfg hpe hq ⟨h, body, fds⟩ (t := t) ht
  | quiesced env e => exact absurd rfl hp.1
  | transfer env lost =>
    cases lost with
    | true => exact absurd rfl hp.1
    | false =>
      show SharedSame st (transfer cfg env st false).st
      unfold transfer
      by_cases h1 : st.pending ≠ .none
      · rw [if_pos h1]; exact SharedSame.refl _
      · rw [if_neg h1]; exact SharedSame.refl _
  | attach n => exact absurd rfl hp.1
  | config f => exact ⟨⟨rfl, rfl, rfl, rfl, rfl⟩, rfl⟩
  | mark sgl =>
    obtain ⟨mg, d, ir, pc, cn, pd, qu, mf, mx⟩ := st
    unfold call
    cases d with
    | none => exact SharedSame.refl _
    | some c => dsimp only; cases Dma.sglMark c sgl <;> exact ⟨⟨rfl, rfl, rfl, rfl, rfl⟩, rfl⟩
  | trigger wr sub => exact SharedSame.refl _

/-- Two states that differ in what the topic does not own. -/
def Concurs (t : Topic) (a b : St) : Prop := ∀ s, graft t s a = graft t s b

theorem Concurs.refl (t : Topic) (a : St) : Concurs t a a := fun _ => rfl
theorem Concurs.symm {t : Topic} {a b : St} (h : Concurs t a b) : Concurs t b a := fun s => (h s).symm
theorem Concurs.trans {t : Topic} {a b c : St} (h : Concurs t a b) (h' : Concurs t b c) : Concurs t a c :=
  fun s => (h s).trans (h' s)

theorem concurs_quiesced {t : Topic} {a b : St} (h : Concurs t a b) : a.quiesced = b.quiesced := by
  have h := congrArg St.quiesced (h a)
  cases t <;> exact h

theorem eq_of_concurs {a b : St} (h : ∀ t, Concurs t a b) : a = b := by
  have h1 := h .dma a
  have h2 := h .irq a
  have h3 := h .dev a
  obtain ⟨mg, d, ir, pc, cn, pd, qu, mf, mx⟩ := a
  obtain ⟨mg', d', ir', pc', cn', pd', qu', mf', mx'⟩ := b
  simp only [graft, St.mk.injEq] at h1 h2 h3
  simp_all

/-- A call does to the part of its topic what it does to it in any state. -/
theorem call_concurs (cfg : Cfg) {a b : St} {op : Op} (hp : op.Willing) {t : Topic} (ht : op.topic = some t)
    (h : Concurs t a b) :
    (call cfg b op).evs = (call cfg a op).evs ∧ (call cfg b op).res = (call cfg a op).res ∧
      Concurs t (call cfg a op).st (call cfg b op).st := by
  have hk : ∀ s, (call cfg a op).on (graft t s) = (call cfg b op).on (graft t s) := fun s => by
    rw [← call_graft cfg a hp ht s, ← call_graft cfg b hp ht s, h s]
  exact ⟨(congrArg Out.evs (hk a)).symm, (congrArg Out.res (hk a)).symm, fun s => congrArg Out.st (hk s)⟩

/-- A call does nothing to the part of another topic. -/
theorem call_aloof (cfg : Cfg) {a : St} (hq : a.quiesced = false) {op : Op} (hp : op.Willing) {t : Topic}
    (ht : op.topic ≠ some t) : Concurs t a (call cfg a op).st := by
  have hc := call_calm cfg hq hp
  obtain ⟨u, hu⟩ := Option.ne_none_iff_exists'.mp hp.1
  have hne : u ≠ t := fun e => ht (by rw [hu, e])
  have hg := congrArg Out.st (call_graft cfg a hp hu a)
  rw [graft_self] at hg
  change (call cfg a op).st = graft u a (call cfg a op).st at hg
  generalize (call cfg a op).st = b at *
  obtain ⟨mg, d, ir, pc, cn, pd, qu, mf, mx⟩ := a
  obtain ⟨mg', d', ir', pc', cn', pd', qu', mf', mx'⟩ := b
  obtain ⟨⟨h1, h2, h3, h4, h5⟩, h6⟩ := hc
  dsimp only at h1 h2 h3 h4 h5 h6
  intro s
  cases u <;> cases t <;> first
    | exact absurd rfl hne
    | (simp only [graft, St.mk.injEq] at hg ⊢; simp_all)

/-- The calls about a topic. -/
def onlyOn (t : Topic) (ops : List Op) : List Op := ops.filter (fun op => op.topic = some t)

/-- What each call about a topic made happen, and its result. -/
def answersOn (t : Topic) (cfg : Cfg) : St → List Op → List (List Ev × Res Unit)
  | _, [] => []
  | st, op :: ops =>
    if op.topic = some t then ((call cfg st op).evs, (call cfg st op).res) :: answersOn t cfg (call cfg st op).st ops
    else answersOn t cfg (call cfg st op).st ops

theorem run_on (t : Topic) (cfg : Cfg) (ops : List Op) : ∀ {a b : St}, a.quiesced = false → (∀ op ∈ ops, op.Willing) →
    Concurs t a b → Completes cfg a ops →
    Completes cfg b (onlyOn t ops) ∧ Concurs t (run cfg a ops).1 (run cfg b (onlyOn t ops)).1 ∧
      answersOn t cfg b (onlyOn t ops) = answersOn t cfg a ops := by
  induction ops with
  | nil => intro a b _ _ h _; exact ⟨trivial, h, rfl⟩
  | cons op ops ih =>
    intro a b hq hw h hc
    have hw0 := hw op (.head _)
    have hq' : (call cfg a op).st.quiesced = false := (call_calm cfg hq hw0).quiesced.trans hq
    by_cases ht : op.topic = some t
    · obtain ⟨h1, h2, h3⟩ := call_concurs cfg hw0 ht h
      obtain ⟨i1, i2, i3⟩ := ih hq' (fun o ho => hw o (.tail _ ho)) h3 hc.2
      have e : onlyOn t (op :: ops) = op :: onlyOn t ops := List.filter_cons_of_pos (by simpa using ht)
      have hf : (call cfg b op).res.isFault = false := h2 ▸ hc.1
      rw [e, run_cons _ hc.1, run_cons _ hf]
      refine ⟨⟨hf, i1⟩, i2, ?_⟩
      unfold answersOn
      rw [if_pos ht, if_pos ht, h1, h2, i3]
    · have h3 := (call_aloof cfg hq hw0 ht).symm.trans h
      obtain ⟨i1, i2, i3⟩ := ih hq' (fun o ho => hw o (.tail _ ho)) h3 hc.2
      have e : onlyOn t (op :: ops) = onlyOn t ops := List.filter_cons_of_neg (by simpa using ht)
      rw [e, run_cons _ hc.1]
      refine ⟨i1, i2, ?_⟩
      rw [i3, answersOn, if_neg ht]

theorem completes_on (cfg : Cfg) (ops : List Op) : ∀ {a : St}, a.quiesced = false → (∀ op ∈ ops, op.Willing) →
    (∀ t, ∃ b, Concurs t a b ∧ Completes cfg b (onlyOn t ops)) → Completes cfg a ops := by
  induction ops with
  | nil => intro a _ _ _; trivial
  | cons op ops ih =>
    intro a hq hw h
    have hw0 := hw op (.head _)
    have hq' : (call cfg a op).st.quiesced = false := (call_calm cfg hq hw0).quiesced.trans hq
    have hpos : ∀ t, op.topic = some t → onlyOn t (op :: ops) = op :: onlyOn t ops :=
      fun t ht => List.filter_cons_of_pos (by simpa using ht)
    refine ⟨?_, ih hq' (fun o ho => hw o (.tail _ ho)) fun t => ?_⟩
    · obtain ⟨t, ht⟩ := Option.ne_none_iff_exists'.mp hw0.1
      obtain ⟨b, hb, hc⟩ := h t
      rw [hpos t ht] at hc
      exact (call_concurs cfg hw0 ht hb).2.1 ▸ hc.1
    · obtain ⟨b, hb, hc⟩ := h t
      by_cases ht : op.topic = some t
      · rw [hpos t ht] at hc
        exact ⟨_, (call_concurs cfg hw0 ht hb).2.2, hc.2⟩
      · have e : onlyOn t (op :: ops) = onlyOn t ops := List.filter_cons_of_neg (by simpa using ht)
        exact ⟨b, (call_aloof cfg hq hw0 ht).symm.trans hb, e ▸ hc⟩

/-! ### C112 -/

/-- C112: the part of the state a topic owns, and every event and result of the calls about it, are what they are if only
the calls about that topic are made. -/
theorem C112_only (cfg : Cfg) {st : St} (hq : st.quiesced = false) {ops : List Op} (hw : ∀ op ∈ ops, op.Willing)
    (hc : Completes cfg st ops) (t : Topic) :
    Completes cfg st (onlyOn t ops) ∧ answersOn t cfg st (onlyOn t ops) = answersOn t cfg st ops ∧
      (t = .dma → (run cfg st (onlyOn t ops)).1.dma = (run cfg st ops).1.dma) ∧
      (t = .irq → (run cfg st (onlyOn t ops)).1.irqs = (run cfg st ops).1.irqs) ∧
      (t = .dev → (run cfg st (onlyOn t ops)).1.pci = (run cfg st ops).1.pci) := by
  obtain ⟨h1, h2, h3⟩ := run_on t cfg ops hq hw (Concurs.refl t st) hc
  refine ⟨h1, h3, ?_, ?_, ?_⟩
  · rintro rfl; exact (congrArg St.dma (h2 st)).symm
  · rintro rfl; exact (congrArg St.irqs (h2 st)).symm
  · rintro rfl; exact (congrArg St.pci (h2 st)).symm

/-- C112: two histories in which the calls of each topic come in the same order end in the same state, and every call has
the same events and result in both. -/
theorem C112_order (cfg : Cfg) {st : St} (hq : st.quiesced = false) {ops ops' : List Op} (hw : ∀ op ∈ ops, op.Willing)
    (hc : Completes cfg st ops) (hw' : ∀ op ∈ ops', op.Willing) (h : ∀ t, onlyOn t ops' = onlyOn t ops) :
    Completes cfg st ops' ∧ (run cfg st ops').1 = (run cfg st ops).1 ∧
      ∀ t, answersOn t cfg st ops' = answersOn t cfg st ops := by
  have hc' : Completes cfg st ops' := completes_on cfg ops' hq hw' fun t =>
    ⟨st, Concurs.refl t st, (h t).symm ▸ (run_on t cfg ops hq hw (Concurs.refl t st) hc).1⟩
  refine ⟨hc', eq_of_concurs fun t => ?_, fun t => ?_⟩
  · have h1 := (run_on t cfg ops hq hw (Concurs.refl t st) hc).2.1
    have h2 := (run_on t cfg ops' hq hw' (Concurs.refl t st) hc').2.1
    rw [h t] at h2
    exact h2.trans h1.symm
  · have h1 := (run_on t cfg ops hq hw (Concurs.refl t st) hc).2.2
    have h2 := (run_on t cfg ops' hq hw' (Concurs.refl t st) hc').2.2
    rw [h t] at h2
    exact h2.symm.trans h1

/-- C112: two neighbouring calls about different things can be exchanged. -/
theorem C112_swap (cfg : Cfg) {st : St} (hq : st.quiesced = false) {a b : Op} (ha : a.Willing) (hb : b.Willing)
    (hc : Completes cfg st [a, b]) (hne : a.topic ≠ b.topic) :
    Completes cfg st [b, a] ∧ (run cfg st [b, a]).1 = (run cfg st [a, b]).1 ∧
      (call cfg (call cfg st b).st a).evs = (call cfg st a).evs ∧
      (call cfg (call cfg st a).st b).evs = (call cfg st b).evs := by
  have hw : ∀ op ∈ [a, b], op.Willing := by simp [ha, hb]
  have hw' : ∀ op ∈ [b, a], op.Willing := by simp [ha, hb]
  have h := C112_order cfg hq hw hc hw' fun t => by
    unfold onlyOn
    by_cases h1 : a.topic = some t
    · have h2 : b.topic ≠ some t := fun e => hne (h1.trans e.symm)
      simp [h1, h2]
    · by_cases h2 : b.topic = some t <;> simp [h1, h2]
  obtain ⟨ta, hta⟩ := Option.ne_none_iff_exists'.mp ha.1
  obtain ⟨tb, htb⟩ := Option.ne_none_iff_exists'.mp hb.1
  refine ⟨h.1, h.2.1, ?_, ?_⟩
  · exact (call_concurs cfg ha hta (call_aloof cfg hq hb (fun e => hne (hta.trans e.symm)))).1
  · exact (call_concurs cfg hb htb (call_aloof cfg hq ha (fun e => hne (e.trans htb.symm)))).1

/-- C112: asking for information changes nothing. -/
theorem C112_info (cfg : Cfg) {st : St} (hq : st.quiesced = false) {op : Op} (hw : op.Willing)
    (ht : op.topic = some .info) : (call cfg st op).st = st := by
  refine eq_of_concurs fun t => ?_
  by_cases h : op.topic = some t
  · have hc := call_calm cfg hq hw
    have hg := congrArg Out.st (call_graft cfg st hw ht st)
    rw [graft_self] at hg
    change (call cfg st op).st = graft .info st (call cfg st op).st at hg
    rw [ht] at h; cases h
    intro s
    generalize (call cfg st op).st = b at *
    obtain ⟨mg, d, ir, pc, cn, pd, qu, mf, mx⟩ := st
    obtain ⟨mg', d', ir', pc', cn', pd', qu', mf', mx'⟩ := b
    obtain ⟨⟨h1, h2, h3, h4, h5⟩, h6⟩ := hc
    dsimp only at h1 h2 h3 h4 h5 h6
    simp only [graft, St.mk.injEq]
    simp_all
  · exact (call_aloof cfg hq hw h).symm

namespace Demo

def mapping (env : Env) : Op := .run env (req 1 2 0 (mapBody 0x100000) [7])
def unmapping : Op := .run env (req 2 3 0 (unmapBody 0x100000) [])
def binding (env : Env) : Op := .run env (req 3 8 0 bindBody [8, 9])
def poking : Op := .run env (req 4 10 0 writeBody [])

theorem willing_env : env.Willing := ⟨fun _ => rfl, by decide⟩

/-- Mapping memory, binding interrupts and writing to the device, in two of the six orders. -/
example :
    Completes cfg st [mapping env, binding env, poking] ∧
      (run cfg st [poking, binding env, mapping env]).1 = (run cfg st [mapping env, binding env, poking]).1 ∧
      (run cfg st [mapping env, binding env, poking]).1.irqs.efds = [some 8, some 9] ∧
      ((run cfg st [mapping env, binding env, poking]).1.dma.map (·.regions.length)) = some 1 := by
  have hw : ∀ op ∈ [mapping env, binding env, poking], op.Willing := by
    intro op ho
    simp only [List.mem_cons, List.not_mem_nil, or_false] at ho
    rcases ho with rfl | rfl | rfl <;> exact ⟨by decide, fun e he => by cases he; exact willing_env⟩
  have hw' : ∀ op ∈ [poking, binding env, mapping env], op.Willing := by
    intro op ho
    simp only [List.mem_cons, List.not_mem_nil, or_false] at ho
    rcases ho with rfl | rfl | rfl <;> exact ⟨by decide, fun e he => by cases he; exact willing_env⟩
  have hc : Completes cfg st [mapping env, binding env, poking] :=
    ⟨by decide +kernel, by decide +kernel, by decide +kernel, trivial⟩
  exact ⟨hc, (C112_order cfg rfl hw hc hw' (fun t => by cases t <;> rfl)).2.1, by decide +kernel, by decide +kernel⟩

/-- C112: the order matters within a topic; if a request changes the migration state; if the device defers its quiesce,
as the next request has to wait; and if a reply is lost, as the connection and all it had set up goes with it. -/
theorem C112_limits_violated :
    (((run cfg st [mapping env, unmapping]).1.dma.map (·.regions.length)) = some 0 ∧
      ((run cfg st [unmapping, mapping env]).1.dma.map (·.regions.length)) = some 1) ∧
    ((run cfg st [binding env, .run env (req 5 16 0 (stateBody Mig.STOP) [])]).1.irqs.efds = [some 8, some 9] ∧
      (run cfg st [.run env (req 5 16 0 (stateBody Mig.STOP) []), binding env]).1.irqs.efds = [none, none]) ∧
    ((run cfg st [binding env, mapping busy]).1.irqs.efds = [some 8, some 9] ∧
      (run cfg st [mapping busy, binding env]).1.irqs.efds = [none, none] ∧
      (call cfg (call cfg st (mapping busy)).st (binding env)).res = .err EBUSY) ∧
    ((run cfg st [mapping env, binding dead]).1.dma.map (·.regions.length) = some 0 ∧
      (run cfg st [mapping env, binding env]).1.dma.map (·.regions.length) = some 1) := by
  refine ⟨⟨?_, ?_⟩, ⟨?_, ?_⟩, ⟨?_, ?_, ?_⟩, ?_, ?_⟩ <;> decide +kernel

end Demo
end Verif.Server
