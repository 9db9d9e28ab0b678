import Verif.Server.Lemmas
import Verif.Mig.Props
import Verif.Dma.Inv

/-! # Quiesce and callback bookkeeping: C55, C56, C60 -/

namespace Verif.Server
open Verif
open Verif.Dma (Fd)

/-! ## Frames of the loop -/

theorem resetQuiesced_frame (cfg : Cfg) (env : Env) (st : St) :
    (resetQuiesced cfg env st).st.pending = st.pending ∧ (resetQuiesced cfg env st).st.quiesced = st.quiesced := by
  unfold resetQuiesced
  have hs : ∀ dma, Same { st with dma } (deviceReset cfg env { st with dma } .lostConn).1 :=
    fun dma => same_deviceReset ..
  cases dropDma cfg st.dma with
  | err e => exact ⟨rfl, rfl⟩
  | fault f => exact ⟨rfl, rfl⟩
  | ok x =>
    obtain ⟨dma, ev1⟩ := x
    dsimp only
    cases Irq.reset cfg.irq (deviceReset cfg env { st with dma } .lostConn).1.irqs with
    | err e => exact ⟨(hs dma).pending, (hs dma).quiesced⟩
    | fault f => exact ⟨(hs dma).pending, (hs dma).quiesced⟩
    | ok y => exact ⟨(hs dma).pending, (hs dma).quiesced⟩

theorem resetCtx_quiesced (cfg : Cfg) (env : Env) (k : Nat) (st : St) :
    (resetCtx cfg env k st).st.quiesced = st.quiesced := by
  unfold resetCtx
  by_cases h : cfg.hasQuiesce = true ∧ st.pending = .none
  · rw [if_pos h]
    dsimp only
    cases env.quiesce k with
    | none => exact (resetQuiesced_frame cfg env st).2
    | some e => dsimp only; by_cases he : e = EBUSY
                · rw [if_pos he]
                · rw [if_neg he]
  · rw [if_neg h]; exact (resetQuiesced_frame cfg env st).2

theorem doReply_quiesced (cfg : Cfg) (env : Env) (k : Nat) (st : St) (h : Wire.Hdr) (b : Wire.Body)
    (fds : List (Option Fd)) (err : Nat) : (doReply cfg env k st h b fds err).st.quiesced = st.quiesced := by
  unfold doReply
  by_cases hn : h.noReply = true
  · rw [if_pos hn]
  rw [if_neg hn]
  dsimp only
  cases (Wire.reply env.snd h b fds (err % U32)).1 with
  | ok u => rfl
  | error e =>
    dsimp only
    by_cases he : e = ECONNRESET ∨ e = ENOMSG
    · rw [if_pos he]; exact resetCtx_quiesced ..
    · rw [if_neg he]

theorem refuse_quiesced (cfg : Cfg) (env : Env) (k : Nat) (st : St) (h : Wire.Hdr) (fds : List Fd) (err : Nat) :
    (refuse cfg env k st h fds err).st.quiesced = st.quiesced := by
  unfold refuse
  dsimp only
  have := doReply_quiesced cfg env k st h (.bytes []) [] err
  by_cases hf : (doReply cfg env k st h (.bytes []) [] err).res.isFault = true
  · rw [if_pos hf]; exact this
  · rw [if_neg hf]; exact this

theorem finish_st (cfg : Cfg) (env : Env) (k : Nat) (m : Msg) (d : Done) :
    (finish cfg env k m d).st = (doReply cfg env k d.st m.hdr d.out d.outFds (replyErr d.res)).st := by
  unfold finish
  dsimp only
  by_cases hf : (doReply cfg env k d.st m.hdr d.out d.outFds (replyErr d.res)).res.isFault = true
  · rw [if_pos hf]
  · rw [if_neg hf]

theorem handleRequest_quiesced (cfg : Cfg) (env : Env) (k : Nat) (st : St) (m : Msg) :
    (handleRequest cfg env k st m).st.quiesced = st.quiesced := by
  unfold handleRequest
  dsimp only
  have hs := (tame_exec cfg env st m).same.quiesced
  by_cases hf : (exec cfg env st m).res.isFault = true
  · rw [if_pos hf]; exact hs
  · rw [if_neg hf, finish_st]; exact (doReply_quiesced ..).trans hs

theorem dispatch_quiesced (cfg : Cfg) (env : Env) (st : St) (m : Msg) (hq : st.quiesced = false) :
    (dispatch cfg env st m).st.quiesced = false := by
  unfold dispatch
  by_cases h1 : shouldExec st.mig m.hdr.cmd = false
  · rw [if_pos h1]; exact (refuse_quiesced ..).trans hq
  rw [if_neg h1]
  by_cases h2 : needsQuiesce cfg st m = true
  · rw [if_pos h2]
    dsimp only
    cases env.quiesce 0 with
    | none => rfl
    | some e =>
      dsimp only
      by_cases he : e = EBUSY
      · rw [if_pos he]; exact hq
      · rw [if_neg he]; exact (refuse_quiesced ..).trans hq
  · rw [if_neg h2]

theorem poll_quiesced (cfg : Cfg) (env : Env) (st : St) (i : Wire.In) (hq : st.quiesced = false) :
    (poll cfg env st i).st.quiesced = false := by
  unfold poll
  by_cases h1 : st.pending ≠ .none
  · rw [if_pos h1]; exact hq
  rw [if_neg h1]
  by_cases h2 : st.conn = false
  · rw [if_pos h2]; exact hq
  rw [if_neg h2]
  cases i with
  | again => exact hq
  | lost e leak => exact (resetCtx_quiesced ..).trans hq
  | failed e leak => exact hq
  | bad h fds e => exact (refuse_quiesced ..).trans hq
  | req h body fds => exact dispatch_quiesced cfg env st _ hq

/-- Between the calls of the library the device is not taken for quiesced. -/
theorem call_quiesced (cfg : Cfg) (st : St) (op : Op) (hq : st.quiesced = false) :
    (call cfg st op).st.quiesced = false := by
  cases op with
  | run env i => exact poll_quiesced cfg env st i hq
  | quiesced env e =>
    show (deviceQuiesced cfg env st e).st.quiesced = false
    unfold deviceQuiesced
    by_cases h : cfg.hasQuiesce = false ∨ st.pending = .none
    · rw [if_pos h]; exact hq
    · rw [if_neg h]
  | transfer env lost =>
    show (transfer cfg env st lost).st.quiesced = false
    unfold transfer
    by_cases h : st.pending ≠ .none
    · rw [if_pos h]; exact hq
    rw [if_neg h]
    by_cases h : lost = true ∧ st.conn = true
    · rw [if_pos h]; exact (resetCtx_quiesced ..).trans hq
    · rw [if_neg h]; exact hq
  | attach n =>
    show (attach st n).st.quiesced = false
    unfold attach
    by_cases h : st.conn = true
    · rw [if_pos h]; exact hq
    rw [if_neg h]
    cases n <;> exact hq
  | config f => exact hq
  | mark sgl =>
    show (match st.dma with
      | none => ({ st, res := .fault .oob, evs := [] } : Out)
      | some c => _).st.quiesced = false
    cases st.dma with
    | none => exact hq
    | some c => dsimp only; cases Dma.sglMark c sgl <;> exact hq
  | trigger wr sub => exact hq

theorem run_quiesced (cfg : Cfg) (ops : List Op) (st : St) (hq : st.quiesced = false) :
    (run cfg st ops).1.quiesced = false := by
  induction ops generalizing st with
  | nil => exact hq
  | cons op ops ih =>
    simp only [run]
    by_cases h : (call cfg st op).res.isFault = true
    · rw [if_pos h]; exact call_quiesced cfg st op hq
    · rw [if_neg h]; exact ih _ (call_quiesced cfg st op hq)

/-! ## The automaton behind C56 and C60 -/

/-- The value of `in_cb` a callback must see (`lib/private.h:147-154`). -/
def expected : Call → CbType
  | .quiesce _ => .quiesce
  | .dmaRegister _ => .dmaRegister
  | .dmaUnregister _ => .dmaUnregister
  | .reset _ => .reset
  | .migState _ => .migrState
  | .migData _ | .region _ _ _ _ | .irqState _ _ _ _ => .none

/-- The callbacks that need a quiesced device (`include/libvfio-user.h:352-431`), all but the reset of a function level
reset. -/
def Call.guarded : Call → Bool
  | .dmaRegister _ | .dmaUnregister _ | .migState _ | .reset .device | .reset .lostConn => true
  | _ => false

/-- State: `in_cb`, and whether the device has been quiesced since the last return to the caller. -/
def watch (hasQ : Bool) : CbType × Bool → Ev → Option (CbType × Bool)
  | (_, z), .inCb c => some (c, z)
  | (cb, z), .call c q =>
    if cb = expected c ∧ (q = true → z = true) ∧ (hasQ = true → c.guarded = true → z = true) then
      some (cb, z || c == .quiesce none)
    else none
  | (cb, z), .devQuiesced e => some (cb, z || e == 0)
  | (cb, _), .ret => if cb = .none then some (.none, false) else none
  | s, _ => some s

theorem watch_bracket {hasQ : Bool} {t : CbType} {c : Call} {q z : Bool} (ht : t = expected c) (hq : q = true → z = true)
    (hg : hasQ = true → c.guarded = true → z = true) :
    monitor (watch hasQ) (.none, z) (bracket t c q) = some (.none, z || c == .quiesce none) := by
  simp only [bracket, monitor, watch, ht]
  rw [if_pos ⟨trivial, hq, hg⟩]

theorem watch_bracket_stay {hasQ : Bool} {t : CbType} {c : Call} {q z : Bool} (ht : t = expected c)
    (hq : q = true → z = true) (hg : hasQ = true → c.guarded = true → z = true) (hc : c ≠ .quiesce none) :
    monitor (watch hasQ) (.none, z) (bracket t c q) = some (.none, z) := by
  rw [watch_bracket ht hq hg]
  have : (c == Call.quiesce none) = false := by simpa using hc
  rw [this, Bool.or_false]

theorem watch_ofDma {hasQ z q : Bool} (hz : hasQ = true → z = true) (hq : q = true → z = true) (l : List Dma.Ev) :
    monitor (watch hasQ) (.none, z) (l.flatMap (ofDma q)) = some (.none, z) := by
  apply monitor_flatMap
  intro x _
  cases x with
  | register i => exact watch_bracket_stay rfl hq (fun h _ => hz h) (by simp)
  | unregister i => exact watch_bracket_stay rfl hq (fun h _ => hz h) (by simp)
  | mmap b l => rfl
  | munmap b l => rfl
  | close fd => rfl

theorem watch_call {hasQ z q : Bool} {c : Call} (he : expected c = .none) (hg : c.guarded = false)
    (hc : c ≠ .quiesce none) (hq : q = true → z = true) :
    watch hasQ (.none, z) (.call c q) = some (.none, z) := by
  have h1 : (c == Call.quiesce none) = false := by simpa using hc
  simp only [watch, he, hg, h1, Bool.or_false]
  rw [if_pos ⟨trivial, hq, fun _ h => by cases h⟩]

theorem watch_ofIrq {hasQ z q : Bool} (hq : q = true → z = true) (l : List Irq.Ev) :
    monitor (watch hasQ) (.none, z) (l.flatMap (ofIrq q)) = some (.none, z) := by
  apply monitor_flatMap
  intro x _
  cases x with
  | close fd => rfl
  | signal fd => rfl
  | state i s c m => exact monitor_cons_of (watch_call rfl rfl (by simp) hq) rfl

theorem watch_ofPci {hasQ z q : Bool} (hq : q = true → z = true) (l : List Pci.Ev) :
    monitor (watch hasQ) (.none, z) (l.flatMap (ofPci q)) = some (.none, z) := by
  apply monitor_flatMap
  intro x _
  cases x with
  | cb off buf w => exact monitor_cons_of (watch_call rfl rfl (by simp) hq) rfl
  | flr => exact watch_bracket_stay rfl hq (fun _ h => by cases h) (by simp)

theorem watch_afterCalls {hasQ z q : Bool} (cfg : Cfg) (env : Env) (hq : q = true → z = true) (cs : List Region.Call) :
    ∀ p, monitor (watch hasQ) (.none, z) (afterCalls cfg env q p cs).2 = some (.none, z) := by
  induction cs with
  | nil => intro p; rfl
  | cons c cs ih =>
    intro p
    cases c with
    | config off buf w => exact monitor_append_of (watch_ofPci hq _) (ih _)
    | cb r off buf w => exact monitor_cons_of (watch_call rfl rfl (by simp) hq) (ih _)

theorem watch_deviceReset {hasQ z : Bool} (cfg : Cfg) (env : Env) (st : St) (r : Reason) (hz : hasQ = true → z = true)
    (hq : st.quiesced = true → z = true) :
    monitor (watch hasQ) (.none, z) (deviceReset cfg env st r).2.2 = some (.none, z) := by
  rw [evs_deviceReset]
  by_cases h : cfg.hasReset = true
  · rw [if_pos h]; exact watch_bracket_stay rfl hq (fun h _ => hz h) (by simp)
  · rw [if_neg h]; rfl

theorem watch_closes {hasQ z : Bool} (fds : List (Option Fd)) :
    monitor (watch hasQ) (.none, z) (closes fds) = some (.none, z) := by
  apply monitor_stay
  intro e he
  obtain ⟨x, _, rfl⟩ := List.mem_map.mp he
  rfl

theorem watch_sent {hasQ z : Bool} (l : List Wire.Sent) :
    monitor (watch hasQ) (.none, z) (l.map Ev.sent) = some (.none, z) := by
  apply monitor_stay
  intro e he
  obtain ⟨x, _, rfl⟩ := List.mem_map.mp he
  rfl

/-- A feature request that calls the migration state callback is one that quiesces. -/
theorem feature_quiet (env : Mig.FEnv) (st : Mig.FSt) (body : List Byte)
    (h : ¬ (leAt body 4 4 &&& (Mig.F_SET ||| Mig.FEAT_STATE) ≠ 0 ∧ leAt body 4 4 &&& Mig.F_PROBE = 0)) :
    (Mig.handleFeature env st body).2.2 = [] := by
  apply (Mig.C25_only_set env st body _).2
  intro hf
  apply h
  rw [hf]
  decide

/-- A handler runs on a quiesced device, or does not need to. -/
theorem watch_exec {z : Bool} (cfg : Cfg) (env : Env) (st : St) (m : Msg) (hq : st.quiesced = true → z = true)
    (hz : cfg.hasQuiesce = true → z = true ∨ needsQuiesce cfg st m = false) :
    monitor (watch cfg.hasQuiesce) (.none, z) (exec cfg env st m).evs = some (.none, z) := by
  have hz1 : (cfg.hasQuiesce = true → needsQuiesce cfg st m = true) → cfg.hasQuiesce = true → z = true := by
    intro h hh
    rcases hz hh with h1 | h1
    · exact h1
    · rw [h hh] at h1; cases h1
  unfold exec
  by_cases h1 : m.hdr.cmd = Wire.CMD_DMA_MAP
  · rw [if_pos h1]
    have hn : st.dma.isSome = true → cfg.hasQuiesce = true → needsQuiesce cfg st m = true := by
      intro hs hh
      unfold needsQuiesce
      rw [if_neg (by simp [hh]), if_pos (.inl h1)]
      exact hs
    cases hd : st.dma with
    | none => rfl
    | some c =>
      dsimp only
      have hz2 := hz1 (hn (by rw [hd]; rfl))
      unfold dmaMap
      by_cases h1 : m.body = []
      · rw [if_pos h1]; rfl
      rw [if_neg h1]
      by_cases h2 : m.body.length < 32 ∨ leAt m.body 0 4 < 32
      · rw [if_pos h2]; rfl
      rw [if_neg h2]
      exact watch_ofDma hz2 hq _
  rw [if_neg h1]
  by_cases h1 : m.hdr.cmd = Wire.CMD_DMA_UNMAP
  · rw [if_pos h1]
    have hn : st.dma.isSome = true → cfg.hasQuiesce = true → needsQuiesce cfg st m = true := by
      intro hs hh
      unfold needsQuiesce
      rw [if_neg (by simp [hh]), if_pos (.inr h1)]
      exact hs
    cases hd : st.dma with
    | none => rfl
    | some c =>
      dsimp only
      have hz2 := hz1 (hn (by rw [hd]; rfl))
      unfold dmaUnmap
      by_cases h1 : m.body = []
      · rw [if_pos h1]; rfl
      rw [if_neg h1]
      cases validUnmap m.body with
      | err e => rfl
      | fault f => rfl
      | ok u =>
        dsimp only
        cases (Dma.handleUnmap env.alloc cfg.dma.hasUnreg c (leAt m.body 8 8) (leAt m.body 16 8)
            (unmapKind env m.body)).2.1 with
        | ok b => cases b <;> exact watch_ofDma hz2 hq _
        | okEmpty => exact watch_ofDma hz2 hq _
        | err e => exact watch_ofDma hz2 hq _
        | fault f => exact watch_ofDma hz2 hq _
  rw [if_neg h1]
  by_cases h1 : m.hdr.cmd = Wire.CMD_GET_INFO
  · rw [if_pos h1]; rfl
  rw [if_neg h1]
  by_cases h1 : m.hdr.cmd = Wire.CMD_REGION_INFO
  · rw [if_pos h1]; rfl
  rw [if_neg h1]
  by_cases h1 : m.hdr.cmd = Wire.CMD_REGION_IO_FDS
  · rw [if_pos h1]; rfl
  rw [if_neg h1]
  by_cases h1 : m.hdr.cmd = Wire.CMD_IRQ_INFO
  · rw [if_pos h1]; rfl
  rw [if_neg h1]
  by_cases h1 : m.hdr.cmd = Wire.CMD_SET_IRQS
  · rw [if_pos h1]; exact watch_ofIrq hq _
  rw [if_neg h1]
  by_cases h1 : m.hdr.cmd = Wire.CMD_REGION_READ
  · rw [if_pos h1]; exact watch_afterCalls _ _ hq _ _
  rw [if_neg h1]
  by_cases h1 : m.hdr.cmd = Wire.CMD_REGION_WRITE
  · rw [if_pos h1]; exact watch_afterCalls _ _ hq _ _
  rw [if_neg h1]
  by_cases h1 : m.hdr.cmd = Wire.CMD_RESET
  · rw [if_pos h1]
    refine watch_deviceReset _ _ _ _ (hz1 fun hh => ?_) hq
    unfold needsQuiesce
    rw [if_neg (by simp [hh]), if_neg (by rw [h1]; decide), if_pos h1]
  rw [if_neg h1]
  by_cases h1 : m.hdr.cmd = Wire.CMD_FEATURE
  · rw [if_pos h1]
    by_cases hb : m.body.length < 8
    · have : (feature env st m.body m.fds).evs = [] := by
        simp only [feature, Done.pure, Mig.handleFeature, if_pos hb, List.flatMap_nil]
      rw [this]; rfl
    by_cases hf : leAt m.body 4 4 &&& (Mig.F_SET ||| Mig.FEAT_STATE) ≠ 0 ∧ leAt m.body 4 4 &&& Mig.F_PROBE = 0
    · have hz2 := hz1 fun hh => by
        unfold needsQuiesce
        rw [if_neg (by simp [hh]), if_neg (by rw [h1]; decide), if_neg (by rw [h1]; decide),
          if_neg (by rw [h1]; decide), if_pos h1, if_neg hb]
        exact decide_eq_true hf
      exact monitor_flatMap (fun v _ => watch_bracket_stay rfl hq (fun h _ => hz2 h) (by simp))
    · have : (feature env st m.body m.fds).evs = [] := by
        simp only [feature, Done.pure, feature_quiet _ _ _ hf, List.flatMap_nil]
      rw [this]; rfl
  rw [if_neg h1]
  have hm : ∀ (l : List Mig.DataEv),
      monitor (watch cfg.hasQuiesce) (.none, z) (l.map (fun e => Ev.call (.migData e) st.quiesced)) =
        some (.none, z) := by
    intro l
    apply monitor_stay
    intro e he
    obtain ⟨x, _, rfl⟩ := List.mem_map.mp he
    exact watch_call rfl rfl (by simp) hq
  by_cases h1 : m.hdr.cmd = Wire.CMD_MIG_READ
  · rw [if_pos h1]; exact hm _
  rw [if_neg h1]
  by_cases h1 : m.hdr.cmd = Wire.CMD_MIG_WRITE
  · rw [if_pos h1]; exact hm _
  rw [if_neg h1]; rfl

theorem watch_resetQuiesced {z : Bool} (cfg : Cfg) (env : Env) (st : St) (hz : cfg.hasQuiesce = true → z = true)
    (hq : st.quiesced = true → z = true) :
    monitor (watch cfg.hasQuiesce) (.none, z) (resetQuiesced cfg env st).evs = some (.none, z) := by
  unfold resetQuiesced
  cases dropDma cfg st.dma with
  | err e => rfl
  | fault f => rfl
  | ok x =>
    obtain ⟨dma, ev1⟩ := x
    dsimp only
    have h1 := watch_ofDma hz hq ev1
    have h2 := watch_deviceReset cfg env { st with dma } .lostConn hz hq
    cases Irq.reset cfg.irq (deviceReset cfg env { st with dma } .lostConn).1.irqs with
    | err e => exact monitor_append_of h1 h2
    | fault f => exact monitor_append_of h1 h2
    | ok y =>
      exact monitor_append_of (monitor_append_of (monitor_append_of h1 h2) (watch_ofIrq hq _)) rfl

/-- The hypotheses under which a reset or a reply keeps to the rules. -/
structure Ready (cfg : Cfg) (st : St) (z : Bool) : Prop where
  flag : st.quiesced = true → z = true
  pend : cfg.hasQuiesce = true → st.pending ≠ .none → z = true

theorem watch_resetCtx {z : Bool} (cfg : Cfg) (env : Env) (k : Nat) (st : St) (h : Ready cfg st z) :
    ∃ z', monitor (watch cfg.hasQuiesce) (.none, z) (resetCtx cfg env k st).evs = some (.none, z') := by
  unfold resetCtx
  by_cases hc : cfg.hasQuiesce = true ∧ st.pending = .none
  · rw [if_pos hc]
    dsimp only
    have hb := watch_bracket (hasQ := cfg.hasQuiesce) (t := .quiesce) (c := .quiesce (env.quiesce k))
      (q := st.quiesced) (z := z) rfl h.flag (fun _ h => by cases h)
    cases hk : env.quiesce k with
    | none =>
      rw [hk] at hb
      refine ⟨true, ?_⟩
      have hz : (z || (Call.quiesce none == Call.quiesce none)) = true := by simp
      rw [hz] at hb
      exact monitor_append_of hb (watch_resetQuiesced cfg env st (fun _ => rfl) (fun _ => rfl))
    | some e =>
      rw [hk] at hb
      dsimp only
      by_cases he : e = EBUSY
      · rw [if_pos he]; exact ⟨_, hb⟩
      · rw [if_neg he]; exact ⟨_, hb⟩
  · rw [if_neg hc]
    refine ⟨z, watch_resetQuiesced cfg env st (fun hh => h.pend hh fun hp => hc ⟨hh, hp⟩) h.flag⟩

theorem watch_doReply {z : Bool} (cfg : Cfg) (env : Env) (k : Nat) (st : St) (hd : Wire.Hdr) (b : Wire.Body)
    (fds : List (Option Fd)) (err : Nat) (h : Ready cfg st z) :
    ∃ z', monitor (watch cfg.hasQuiesce) (.none, z) (doReply cfg env k st hd b fds err).evs = some (.none, z') := by
  unfold doReply
  by_cases hn : hd.noReply = true
  · rw [if_pos hn]; exact ⟨z, rfl⟩
  rw [if_neg hn]
  dsimp only
  cases (Wire.reply env.snd hd b fds (err % U32)).1 with
  | ok u => exact ⟨z, watch_sent _⟩
  | error e =>
    dsimp only
    by_cases he : e = ECONNRESET ∨ e = ENOMSG
    · rw [if_pos he]
      obtain ⟨z', hz'⟩ := watch_resetCtx cfg env k st h
      exact ⟨z', monitor_append_of (watch_sent _) hz'⟩
    · rw [if_neg he]; exact ⟨z, watch_sent _⟩

theorem watch_refuse {z : Bool} (cfg : Cfg) (env : Env) (k : Nat) (st : St) (hd : Wire.Hdr) (fds : List Fd) (err : Nat)
    (h : Ready cfg st z) :
    ∃ z', monitor (watch cfg.hasQuiesce) (.none, z) (refuse cfg env k st hd fds err).evs = some (.none, z') := by
  obtain ⟨z', hz'⟩ := watch_doReply cfg env k st hd (.bytes []) [] err h
  refine ⟨z', ?_⟩
  have hc := monitor_append_of (monitor_append_of hz' (watch_closes (hasQ := cfg.hasQuiesce) (z := z') (fds.map some)))
    (show monitor (watch cfg.hasQuiesce) (.none, z') [.freed] = some (.none, z') from rfl)
  unfold refuse
  dsimp only
  by_cases hf : (doReply cfg env k st hd (.bytes []) [] err).res.isFault = true
  · rw [if_pos hf]; exact hz'
  · rw [if_neg hf]; exact hc

theorem watch_handleRequest {z : Bool} (cfg : Cfg) (env : Env) (k : Nat) (st : St) (m : Msg) (h : Ready cfg st z)
    (hz : cfg.hasQuiesce = true → z = true ∨ needsQuiesce cfg st m = false) :
    ∃ z', monitor (watch cfg.hasQuiesce) (.none, z) (handleRequest cfg env k st m).evs = some (.none, z') := by
  have ht := tame_exec cfg env st m
  have he := watch_exec cfg env st m h.flag hz
  unfold handleRequest
  dsimp only
  generalize exec cfg env st m = d at ht he
  have h' : Ready cfg d.st z :=
    ⟨by rw [ht.same.quiesced]; exact h.flag, by rw [ht.same.pending]; exact h.pend⟩
  have he' : monitor (watch cfg.hasQuiesce) (.none, z) (.exec m.hdr :: d.evs) = some (.none, z) :=
    monitor_cons_of rfl he
  by_cases hf : d.res.isFault = true
  · rw [if_pos hf]; exact ⟨z, he'⟩
  rw [if_neg hf]
  obtain ⟨z', hz'⟩ := watch_doReply cfg env k d.st m.hdr d.out d.outFds (replyErr d.res) h'
  refine ⟨z', ?_⟩
  have h1 := monitor_append_of he' hz'
  have h2 := monitor_append_of (monitor_append_of h1
    (watch_closes (hasQ := cfg.hasQuiesce) (z := z') d.left))
    (show monitor (watch cfg.hasQuiesce) (.none, z') [.freed] = some (.none, z') from rfl)
  unfold finish
  dsimp only
  by_cases hf : (doReply cfg env k d.st m.hdr d.out d.outFds (replyErr d.res)).res.isFault = true
  · rw [if_pos hf]; exact h1
  · rw [if_neg hf]; exact h2

theorem watch_poll (cfg : Cfg) (env : Env) (st : St) (i : Wire.In) (hq : st.quiesced = false) :
    ∃ z', monitor (watch cfg.hasQuiesce) (.none, false) (poll cfg env st i).evs = some (.none, z') := by
  unfold poll
  by_cases h1 : st.pending ≠ .none
  · rw [if_pos h1]; exact ⟨_, rfl⟩
  rw [if_neg h1]
  by_cases h2 : st.conn = false
  · rw [if_pos h2]; exact ⟨_, rfl⟩
  rw [if_neg h2]
  have hr : ∀ z, Ready cfg st z := fun z => ⟨by rw [hq]; exact fun h => (by cases h), fun _ h => absurd h h1⟩
  cases i with
  | again => exact ⟨_, rfl⟩
  | lost e leak =>
    obtain ⟨z', hz'⟩ := watch_resetCtx cfg env 0 st (hr false)
    exact ⟨z', monitor_cons_of rfl hz'⟩
  | failed e leak => exact ⟨_, rfl⟩
  | bad h fds e =>
    obtain ⟨z', hz'⟩ := watch_refuse cfg env 0 st h fds e (hr false)
    exact ⟨z', monitor_cons_of rfl hz'⟩
  | req h body fds =>
    dsimp only
    suffices hs : ∃ z', monitor (watch cfg.hasQuiesce) (.none, false) (dispatch cfg env st ⟨h, body, fds⟩).evs =
        some (.none, z') by
      obtain ⟨z', hz'⟩ := hs
      exact ⟨z', monitor_cons_of rfl hz'⟩
    generalize (⟨h, body, fds⟩ : Msg) = m
    unfold dispatch
    by_cases h3 : shouldExec st.mig m.hdr.cmd = false
    · rw [if_pos h3]; exact watch_refuse cfg env 0 st _ _ _ (hr false)
    rw [if_neg h3]
    by_cases h4 : needsQuiesce cfg st m = true
    · rw [if_pos h4]
      dsimp only
      have hb := watch_bracket (hasQ := cfg.hasQuiesce) (t := .quiesce) (c := .quiesce (env.quiesce 0))
        (q := st.quiesced) (z := false) rfl (by rw [hq]; exact fun h => h) (fun _ h => by cases h)
      cases hk : env.quiesce 0 with
      | none =>
        rw [hk] at hb
        have hz : (false || (Call.quiesce none == Call.quiesce none)) = true := by simp
        rw [hz] at hb
        obtain ⟨z', hz'⟩ := watch_handleRequest (z := true) cfg env 1 { st with quiesced := true } m
          ⟨fun _ => rfl, fun _ _ => rfl⟩ (fun _ => .inl rfl)
        exact ⟨z', monitor_append_of hb hz'⟩
      | some e =>
        rw [hk] at hb
        dsimp only
        by_cases he : e = EBUSY
        · rw [if_pos he]; exact ⟨_, hb⟩
        · rw [if_neg he]
          obtain ⟨z', hz'⟩ := watch_refuse cfg env 1 st m.hdr m.fds e
            (hr (false || (Call.quiesce (some e) == Call.quiesce none)))
          exact ⟨z', monitor_append_of hb hz'⟩
    · rw [if_neg h4]
      exact watch_handleRequest cfg env 0 st m (hr false) (fun _ => .inr (by simpa using h4))

theorem watch_deviceQuiesced (cfg : Cfg) (env : Env) (st : St) (e : Nat) :
    ∃ z', monitor (watch cfg.hasQuiesce) (.none, false) (deviceQuiesced cfg env st e).evs = some (.none, z') := by
  unfold deviceQuiesced
  by_cases h : cfg.hasQuiesce = false ∨ st.pending = .none
  · rw [if_pos h]; exact ⟨_, rfl⟩
  rw [if_neg h]
  dsimp only
  by_cases he : e = 0
  · rw [if_pos he]
    have hw : watch cfg.hasQuiesce (.none, false) (.devQuiesced e) = some (.none, true) := by subst he; rfl
    cases hp : st.pending with
    | none => exact ⟨_, monitor_cons_of hw rfl⟩
    | msg m =>
      obtain ⟨z', hz'⟩ := watch_handleRequest (z := true) cfg env 0 { st with quiesced := true } m
        ⟨fun _ => rfl, fun _ _ => rfl⟩ (fun _ => .inl rfl)
      exact ⟨z', monitor_cons_of hw (by simpa only [hp] using hz')⟩
    | ctxReset =>
      refine ⟨true, monitor_cons_of hw ?_⟩
      have := watch_resetQuiesced (z := true) cfg env { st with quiesced := true } (fun _ => rfl) (fun _ => rfl)
      simpa only [hp] using this
  · rw [if_neg he]
    have hw : watch cfg.hasQuiesce (.none, false) (.devQuiesced e) = some (.none, false) := by
      have : (e == 0) = false := by simpa using he
      simp only [watch, this, Bool.or_false]
    cases hp : st.pending with
    | none => exact ⟨_, monitor_cons_of hw rfl⟩
    | msg m => exact ⟨_, monitor_cons_of hw (monitor_append_of (watch_closes _) rfl)⟩
    | ctxReset => exact ⟨_, monitor_cons_of hw rfl⟩

theorem watch_op (cfg : Cfg) (st : St) (op : Op) (hq : st.quiesced = false) :
    ∃ z', monitor (watch cfg.hasQuiesce) (.none, false) (call cfg st op).evs = some (.none, z') := by
  cases op with
  | run env i => exact watch_poll cfg env st i hq
  | quiesced env e => exact watch_deviceQuiesced cfg env st e
  | transfer env lost =>
    show ∃ z', monitor _ _ (transfer cfg env st lost).evs = _
    unfold transfer
    by_cases h1 : st.pending ≠ .none
    · rw [if_pos h1]; exact ⟨_, rfl⟩
    rw [if_neg h1]
    by_cases h : lost = true ∧ st.conn = true
    · rw [if_pos h]
      exact watch_resetCtx cfg env 0 st ⟨by rw [hq]; exact fun h => h, fun _ h => absurd h h1⟩
    · rw [if_neg h]; exact ⟨_, rfl⟩
  | attach n =>
    show ∃ z', monitor _ _ (attach st n).evs = _
    unfold attach
    by_cases h : st.conn = true
    · rw [if_pos h]; exact ⟨_, rfl⟩
    rw [if_neg h]
    cases n <;> exact ⟨_, rfl⟩
  | config f => exact ⟨_, rfl⟩
  | mark sgl =>
    simp only [call]
    cases st.dma with
    | none => exact ⟨_, rfl⟩
    | some c => dsimp only; cases Dma.sglMark c sgl <;> exact ⟨_, rfl⟩
  | trigger wr sub => exact ⟨_, watch_ofIrq (by rw [hq]; exact fun h => h) _⟩

theorem watch_run (cfg : Cfg) (ops : List Op) (st : St) (hq : st.quiesced = false) :
    ∃ z', monitor (watch cfg.hasQuiesce) (.none, false) (run cfg st ops).2 = some (.none, z') := by
  induction ops generalizing st with
  | nil => exact ⟨_, rfl⟩
  | cons op ops ih =>
    obtain ⟨z, hz⟩ := watch_op cfg st op hq
    simp only [run]
    by_cases h : (call cfg st op).res.isFault = true
    · rw [if_pos h]; exact ⟨z, hz⟩
    · rw [if_neg h]
      obtain ⟨z', hz'⟩ := ih _ (call_quiesced cfg st op hq)
      exact ⟨z', monitor_append_of hz (monitor_cons_of rfl hz')⟩

/-! ## C56, C60 -/

/-- The device is quiesced at the end of the trace: since the last return to the caller of the library its quiesce
callback succeeded, or it reported the end of a deferred quiesce. -/
def QuiescedAt (a : List Ev) : Prop :=
  ∃ a1 e a2, a = a1 ++ e :: a2 ∧ (e = .devQuiesced 0 ∨ ∃ q, e = .call (.quiesce none) q) ∧ .ret ∉ a2

/-- The value of `in_cb` at the end of the trace. -/
def inCbAt (a : List Ev) : CbType :=
  a.foldl (fun cb e => match e with | .inCb c => c | _ => cb) .none

theorem QuiescedAt.snoc {a : List Ev} (h : QuiescedAt a) {e : Ev} (he : e ≠ .ret) : QuiescedAt (a ++ [e]) := by
  obtain ⟨a1, x, a2, rfl, hx, hr⟩ := h
  exact ⟨a1, x, a2 ++ [e], by simp, hx, by simp [hr, he.symm]⟩

theorem watch_sound {hasQ : Bool} (a : List Ev) : ∀ (pre : List Ev) (z0 : Bool) (s : CbType × Bool),
    (z0 = true → QuiescedAt pre) → monitor (watch hasQ) (inCbAt pre, z0) a = some s →
    inCbAt (pre ++ a) = s.1 ∧ (s.2 = true → QuiescedAt (pre ++ a)) := by
  induction a with
  | nil =>
    intro pre z0 s hz h
    simp only [monitor, Option.some.injEq] at h
    subst h
    simpa using hz
  | cons e es ih =>
    intro pre z0 s hz h
    simp only [monitor] at h
    cases hw : watch hasQ (inCbAt pre, z0) e with
    | none => rw [hw] at h; cases h
    | some s1 =>
      rw [hw] at h
      dsimp only at h
      have hin : inCbAt (pre ++ [e]) = s1.1 ∧ (s1.2 = true → QuiescedAt (pre ++ [e])) := by
        have hsame : ∀ e : Ev, (∀ c, e ≠ .inCb c) → inCbAt (pre ++ [e]) = inCbAt pre := by
          intro e he
          simp only [inCbAt, List.foldl_append, List.foldl_cons, List.foldl_nil]
        cases e with
        | inCb c =>
          simp only [watch, Option.some.injEq] at hw
          subst hw
          exact ⟨by simp [inCbAt], fun h => (hz h).snoc (by simp)⟩
        | call c q =>
          simp only [watch] at hw
          split at hw
          · simp only [Option.some.injEq] at hw
            subst hw
            refine ⟨hsame _ (by simp), fun h => ?_⟩
            simp only [Bool.or_eq_true, beq_iff_eq] at h
            rcases h with h | h
            · exact (hz h).snoc (by simp)
            · subst h; exact ⟨pre, _, [], rfl, .inr ⟨q, rfl⟩, by simp⟩
          · cases hw
        | devQuiesced n =>
          simp only [watch, Option.some.injEq] at hw
          subst hw
          refine ⟨hsame _ (by simp), fun h => ?_⟩
          simp only [Bool.or_eq_true, beq_iff_eq] at h
          rcases h with h | h
          · exact (hz h).snoc (by simp)
          · subst h; exact ⟨pre, _, [], rfl, .inl rfl, by simp⟩
        | ret =>
          simp only [watch] at hw
          split at hw
          · rename_i hc
            simp only [Option.some.injEq] at hw
            subst hw
            exact ⟨(hsame _ (by simp)).trans hc, fun h => by cases h⟩
          · cases hw
        | got h fds | lost fds | exec h | freed | mmap b l | munmap b l | close fd | signal fd | sent m | detach =>
          simp only [watch, Option.some.injEq] at hw
          subst hw
          exact ⟨hsame _ (by simp), fun h => (hz h).snoc (by simp)⟩
      have := ih (pre ++ [e]) s1.2 s hin.2 (by rw [hin.1]; exact h)
      simpa using this

/-- Where a callback runs, `in_cb` and the quiesced flag are right, and the device is quiesced if it has to be. -/
theorem watch_at (cfg : Cfg) (ops : List Op) (st : St) (hq : st.quiesced = false) {a b : List Ev} {c : Call} {q : Bool}
    (h : (run cfg st ops).2 = a ++ .call c q :: b) :
    inCbAt a = expected c ∧ (q = true → QuiescedAt a) ∧
      (cfg.hasQuiesce = true → c.guarded = true → QuiescedAt a) := by
  obtain ⟨z', hz'⟩ := watch_run cfg ops st hq
  rw [h] at hz'
  obtain ⟨s1, h1, h2⟩ := monitor_prefix hz'
  obtain ⟨hc, hs⟩ := watch_sound a [] false s1 (fun h => by cases h) h1
  obtain ⟨cb, z⟩ := s1
  simp only [monitor, watch] at h2
  split at h2
  · cases h2
  · rename_i hw
    split at hw
    · rename_i hcond
      exact ⟨hc.trans hcond.1, fun h => hs (hcond.2.1 h), fun h1 h2 => hs (hcond.2.2 h1 h2)⟩
    · cases hw

/-- C56: for a device with a quiesce callback, in every history, whenever a DMA register or unregister callback, the
migration state callback, or the reset callback for a device reset or a lost connection runs, the device has been
quiesced since control last came from the caller. -/
theorem C56_quiesced (cfg : Cfg) (hQ : cfg.hasQuiesce = true) (st : St) (hq : st.quiesced = false) (ops : List Op)
    {a b : List Ev} {c : Call} {q : Bool} (h : (run cfg st ops).2 = a ++ .call c q :: b)
    (hc : (∃ i, c = .dmaRegister i) ∨ (∃ i, c = .dmaUnregister i) ∨ (∃ v, c = .migState v) ∨ c = .reset .device ∨
      c = .reset .lostConn) : QuiescedAt a := by
  refine (watch_at cfg ops st hq h).2.2 hQ ?_
  rcases hc with ⟨i, rfl⟩ | ⟨i, rfl⟩ | ⟨v, rfl⟩ | rfl | rfl <;> rfl

/-- C56: afterwards the device is not taken for quiesced any more. -/
theorem C56_over (cfg : Cfg) (st : St) (hq : st.quiesced = false) (ops : List Op) :
    (run cfg st ops).1.quiesced = false := run_quiesced cfg ops st hq

/-- C60: in every history, each callback finds the `in_cb` that belongs to it, the quiesced flag is only set while the
device is quiesced, and whenever control returns to the caller `in_cb` is CB_NONE. -/
theorem C60_bookkeeping (cfg : Cfg) (st : St) (hq : st.quiesced = false) (ops : List Op) :
    (∀ a b c q, (run cfg st ops).2 = a ++ .call c q :: b → inCbAt a = expected c ∧ (q = true → QuiescedAt a)) ∧
    (∀ a b, (run cfg st ops).2 = a ++ .ret :: b → inCbAt a = .none) ∧
    inCbAt (run cfg st ops).2 = .none ∧ (run cfg st ops).1.quiesced = false := by
  obtain ⟨z', hz'⟩ := watch_run cfg ops st hq
  refine ⟨fun a b c q h => ?_, fun a b h => ?_, ?_, run_quiesced cfg ops st hq⟩
  · exact ⟨(watch_at cfg ops st hq h).1, (watch_at cfg ops st hq h).2.1⟩
  · rw [h] at hz'
    obtain ⟨s1, h1, h2⟩ := monitor_prefix hz'
    obtain ⟨hc, _⟩ := watch_sound a [] false s1 (fun h => by cases h) h1
    obtain ⟨cb, z⟩ := s1
    simp only [monitor, watch] at h2
    split at h2
    · cases h2
    · rename_i hw
      split at hw
      · rename_i hcond; exact hc.trans hcond
      · cases hw
  · exact (watch_sound _ [] false _ (fun h => by cases h) hz').1

/-! ## C55 -/

/-- What may not change while a quiesce is pending: migration state, interrupt bindings, connection, the pending work,
and of the DMA regions everything but dirty bits. -/
structure Frozen (a b : St) : Prop where
  mig : b.mig = a.mig
  irqs : b.irqs = a.irqs
  conn : b.conn = a.conn
  pending : b.pending = a.pending
  maxFds : b.maxFds = a.maxFds
  maxXfer : b.maxXfer = a.maxXfer
  dma : b.dma.map (fun c => (c.geoms, c.dirtyPgsize)) = a.dma.map (fun c => (c.geoms, c.dirtyPgsize))

theorem Frozen.rfl {a : St} : Frozen a a :=
  ⟨_root_.rfl, _root_.rfl, _root_.rfl, _root_.rfl, _root_.rfl, _root_.rfl, _root_.rfl⟩

theorem Frozen.trans {a b c : St} (h : Frozen a b) (h' : Frozen b c) : Frozen a c :=
  ⟨h'.mig.trans h.mig, h'.irqs.trans h.irqs, h'.conn.trans h.conn, h'.pending.trans h.pending,
    h'.maxFds.trans h.maxFds, h'.maxXfer.trans h.maxXfer, h'.dma.trans h.dma⟩

def Op.isQuiesced : Op → Bool
  | .quiesced _ _ => true
  | _ => false

/-- C55: while a quiesce is pending, `vfu_run_ctx` fails with EBUSY and has no effect at all. -/
theorem C55_busy (cfg : Cfg) (st : St) (hp : st.pending ≠ .none) (env : Env) (i : Wire.In) :
    call cfg st (.run env i) = { st, res := .err EBUSY, evs := [] } := by
  simp only [call, poll, if_pos hp]

theorem frozen_call (cfg : Cfg) (st : St) (hp : st.pending ≠ .none) (hc : st.conn = true) (op : Op)
    (ho : op.isQuiesced = false) :
    Frozen st (call cfg st op).st ∧ ∀ e ∈ (call cfg st op).evs, ∃ fd, e = .signal fd := by
  cases op with
  | run env i => rw [C55_busy cfg st hp]; exact ⟨Frozen.rfl, fun e he => by cases he⟩
  | quiesced env e => cases ho
  | transfer env lost =>
    simp only [call, transfer, if_pos hp]
    exact ⟨Frozen.rfl, fun e he => by cases he⟩
  | attach n =>
    simp only [call, attach, if_pos hc]
    exact ⟨Frozen.rfl, fun e he => by cases he⟩
  | config f => exact ⟨⟨rfl, rfl, rfl, rfl, rfl, rfl, rfl⟩, fun e he => by cases he⟩
  | mark sgl =>
    simp only [call]
    cases hd : st.dma with
    | none => exact ⟨Frozen.rfl, fun e he => by cases he⟩
    | some c =>
      dsimp only
      cases hm : Dma.sglMark c sgl with
      | err e => exact ⟨Frozen.rfl, fun e he => by cases he⟩
      | fault f => exact ⟨Frozen.rfl, fun e he => by cases he⟩
      | ok c' =>
        obtain ⟨h1, _, _, h2⟩ := Dma.sglMark_geom hm
        refine ⟨⟨rfl, rfl, rfl, rfl, rfl, rfl, ?_⟩, fun e he => by cases he⟩
        simp only [hd, Option.map_some, Dma.Ctl.geoms, h1, h2]
  | trigger wr sub =>
    refine ⟨Frozen.rfl, fun e he => ?_⟩
    obtain ⟨x, hx, hxe⟩ := List.mem_flatMap.mp he
    simp only [Irq.trigger] at hx
    split at hx
    · cases hx
    · cases hx
    · split at hx
      · cases hx
      · simp only [List.mem_cons, List.not_mem_nil, or_false] at hx
        subst hx
        simp only [ofIrq, List.mem_cons, List.not_mem_nil, or_false] at hxe
        exact ⟨_, hxe⟩

/-- C55: from a deferred quiesce to the report of its end no request is read, executed or answered, no callback runs,
and no DMA region, migration state, interrupt binding or connection changes, whatever is called in between; all that
can happen are interrupts the device raises itself. -/
theorem C55_frozen (cfg : Cfg) (ops : List Op) (st : St) (hp : st.pending ≠ .none) (hc : st.conn = true)
    (ho : ∀ op ∈ ops, op.isQuiesced = false) :
    Frozen st (run cfg st ops).1 ∧ ∀ e ∈ (run cfg st ops).2, e = .ret ∨ ∃ fd, e = .signal fd := by
  induction ops generalizing st with
  | nil => exact ⟨Frozen.rfl, fun e he => by cases he⟩
  | cons op ops ih =>
    obtain ⟨h1, h2⟩ := frozen_call cfg st hp hc op (ho op (.head _))
    simp only [run]
    by_cases h : (call cfg st op).res.isFault = true
    · rw [if_pos h]; exact ⟨h1, fun e he => .inr (h2 e he)⟩
    · rw [if_neg h]
      obtain ⟨h3, h4⟩ := ih _ (by rw [h1.pending]; exact hp) (h1.conn.trans hc)
        (fun op hop => ho op (.tail _ hop))
      refine ⟨h1.trans h3, fun e he => ?_⟩
      simp only [List.mem_append, List.mem_cons] at he
      rcases he with he | rfl | he
      · exact .inr (h2 e he)
      · exact .inl rfl
      · exact h4 e he

/-- Work is only ever pending for a connected client. -/
def PendConn (st : St) : Prop := st.pending ≠ .none → st.conn = true

theorem resetCtx_pc (cfg : Cfg) (env : Env) (k : Nat) (st : St) (hc : st.conn = true) (hp : st.pending = .none) :
    PendConn (resetCtx cfg env k st).st := by
  unfold resetCtx
  by_cases h : cfg.hasQuiesce = true ∧ st.pending = .none
  · rw [if_pos h]
    dsimp only
    cases env.quiesce k with
    | none => exact fun h => absurd ((resetQuiesced_frame cfg env st).1.trans hp) h
    | some e =>
      dsimp only
      by_cases he : e = EBUSY
      · rw [if_pos he]; exact fun _ => hc
      · rw [if_neg he]; exact fun _ => hc
  · rw [if_neg h]; exact fun h => absurd ((resetQuiesced_frame cfg env st).1.trans hp) h

theorem doReply_pc (cfg : Cfg) (env : Env) (k : Nat) (st : St) (h : Wire.Hdr) (b : Wire.Body)
    (fds : List (Option Fd)) (err : Nat) (hc : st.conn = true) (hp : st.pending = .none) :
    PendConn (doReply cfg env k st h b fds err).st := by
  unfold doReply
  by_cases hn : h.noReply = true
  · rw [if_pos hn]; exact fun _ => hc
  rw [if_neg hn]
  dsimp only
  cases (Wire.reply env.snd h b fds (err % U32)).1 with
  | ok u => exact fun _ => hc
  | error e =>
    dsimp only
    by_cases he : e = ECONNRESET ∨ e = ENOMSG
    · rw [if_pos he]; exact resetCtx_pc cfg env k st hc hp
    · rw [if_neg he]; exact fun _ => hc

theorem refuse_st (cfg : Cfg) (env : Env) (k : Nat) (st : St) (h : Wire.Hdr) (fds : List Fd) (err : Nat) :
    (refuse cfg env k st h fds err).st = (doReply cfg env k st h (.bytes []) [] err).st := by
  unfold refuse
  dsimp only
  by_cases hf : (doReply cfg env k st h (.bytes []) [] err).res.isFault = true
  · rw [if_pos hf]
  · rw [if_neg hf]

theorem handleRequest_pc (cfg : Cfg) (env : Env) (k : Nat) (st : St) (m : Msg) (hc : st.conn = true)
    (hp : st.pending = .none) : PendConn (handleRequest cfg env k st m).st := by
  have hs := (tame_exec cfg env st m).same
  unfold handleRequest
  dsimp only
  by_cases hf : (exec cfg env st m).res.isFault = true
  · rw [if_pos hf]; exact fun _ => hs.conn.trans hc
  · rw [if_neg hf, finish_st]
    exact doReply_pc _ _ _ _ _ _ _ _ (hs.conn.trans hc) (hs.pending.trans hp)

theorem call_pc (cfg : Cfg) (st : St) (op : Op) (h : PendConn st) : PendConn (call cfg st op).st := by
  cases op with
  | run env i =>
    show PendConn (poll cfg env st i).st
    unfold poll
    by_cases h1 : st.pending ≠ .none
    · rw [if_pos h1]; exact h
    rw [if_neg h1]
    by_cases h2 : st.conn = false
    · rw [if_pos h2]; exact h
    rw [if_neg h2]
    have hc : st.conn = true := by simpa using h2
    have hp : st.pending = .none := Decidable.not_not.mp h1
    cases i with
    | again => exact h
    | lost e leak => exact resetCtx_pc cfg env 0 st hc hp
    | failed e leak => exact h
    | bad hd fds e => dsimp only; rw [refuse_st]; exact doReply_pc _ _ _ _ _ _ _ _ hc hp
    | req hd body fds =>
      dsimp only
      unfold dispatch
      by_cases h3 : shouldExec st.mig hd.cmd = false
      · rw [if_pos h3]; dsimp only; rw [refuse_st]; exact doReply_pc _ _ _ _ _ _ _ _ hc hp
      rw [if_neg h3]
      by_cases h4 : needsQuiesce cfg st ⟨hd, body, fds⟩ = true
      · rw [if_pos h4]
        dsimp only
        cases env.quiesce 0 with
        | none => exact fun hh => handleRequest_pc cfg env 1 { st with quiesced := true } _ hc hp hh
        | some e =>
          dsimp only
          by_cases he : e = EBUSY
          · rw [if_pos he]; exact fun _ => hc
          · rw [if_neg he]; dsimp only; rw [refuse_st]; exact doReply_pc _ _ _ _ _ _ _ _ hc hp
      · rw [if_neg h4]; exact fun hh => handleRequest_pc cfg env 0 st _ hc hp hh
  | quiesced env e =>
    show PendConn (deviceQuiesced cfg env st e).st
    unfold deviceQuiesced
    by_cases h1 : cfg.hasQuiesce = false ∨ st.pending = .none
    · rw [if_pos h1]; exact h
    · rw [if_neg h1]; exact fun hh => absurd rfl hh
  | transfer env lost =>
    show PendConn (transfer cfg env st lost).st
    unfold transfer
    by_cases h1 : st.pending ≠ .none
    · rw [if_pos h1]; exact h
    rw [if_neg h1]
    by_cases h2 : lost = true ∧ st.conn = true
    · rw [if_pos h2]; exact resetCtx_pc cfg env 0 st h2.2 (Decidable.not_not.mp h1)
    · rw [if_neg h2]; exact h
  | attach n =>
    show PendConn (attach st n).st
    unfold attach
    by_cases h1 : st.conn = true
    · rw [if_pos h1]; exact h
    rw [if_neg h1]
    cases n with
    | error e => exact h
    | ok c => exact fun _ => rfl
  | config f => exact h
  | mark sgl =>
    simp only [call]
    cases st.dma with
    | none => exact h
    | some c => dsimp only; cases Dma.sglMark c sgl <;> exact h
  | trigger wr sub => exact h

/-- The hypotheses of `C55_frozen` and of the theorems on C56 and C60 hold in every history. -/
theorem run_pc (cfg : Cfg) (ops : List Op) (st : St) (h : PendConn st) : PendConn (run cfg st ops).1 := by
  induction ops generalizing st with
  | nil => exact h
  | cons op ops ih =>
    simp only [run]
    by_cases hf : (call cfg st op).res.isFault = true
    · rw [if_pos hf]; exact call_pc cfg st op h
    · rw [if_neg hf]; exact ih _ (call_pc cfg st op h)

/-- C55: deferring a request itself executes nothing: all that happened is the call of the quiesce callback. -/
theorem C55_defer (cfg : Cfg) (env : Env) (st : St) (i : Wire.In) {m : Msg}
    (hp : st.pending = .none) (h : (poll cfg env st i).st.pending = .msg m) :
    i = .req m.hdr m.body m.fds ∧ (poll cfg env st i).res = .err EBUSY ∧
      (poll cfg env st i).st = { st with pending := .msg m } ∧
      (poll cfg env st i).evs = .got m.hdr m.fds :: bracket .quiesce (.quiesce (some EBUSY)) st.quiesced := by
  have hrc : ∀ (k : Nat) (st' : St), st'.pending = .none → (resetCtx cfg env k st').st.pending ≠ .msg m := by
    intro k st' hp'
    unfold resetCtx
    by_cases h : cfg.hasQuiesce = true ∧ st'.pending = .none
    · rw [if_pos h]
      dsimp only
      cases env.quiesce k with
      | none => rw [(resetQuiesced_frame cfg env st').1, hp']; simp
      | some e =>
        dsimp only
        by_cases he : e = EBUSY
        · rw [if_pos he]; simp
        · rw [if_neg he, hp']; simp
    · rw [if_neg h, (resetQuiesced_frame cfg env st').1, hp']; simp
  have hdr : ∀ (k : Nat) (st' : St) hd b fds err, st'.pending = .none →
      (doReply cfg env k st' hd b fds err).st.pending ≠ .msg m := by
    intro k st' hd b fds err hp'
    unfold doReply
    by_cases hn : hd.noReply = true
    · rw [if_pos hn, hp']; simp
    rw [if_neg hn]
    dsimp only
    cases (Wire.reply env.snd hd b fds (err % U32)).1 with
    | ok u => dsimp only; rw [hp']; simp
    | error e =>
      dsimp only
      by_cases he : e = ECONNRESET ∨ e = ENOMSG
      · rw [if_pos he]; exact hrc k st' hp'
      · rw [if_neg he, hp']; simp
  have hhr : ∀ (k : Nat) (st' : St) m', st'.pending = .none →
      (handleRequest cfg env k st' m').st.pending ≠ .msg m := by
    intro k st' m' hp'
    have hs := (tame_exec cfg env st' m').same.pending
    unfold handleRequest
    dsimp only
    by_cases hf : (exec cfg env st' m').res.isFault = true
    · rw [if_pos hf]; dsimp only; rw [hs, hp']; simp
    · rw [if_neg hf, finish_st]; exact hdr _ _ _ _ _ _ (hs.trans hp')
  unfold poll at h ⊢
  rw [if_neg (by simp [hp])] at h ⊢
  by_cases h2 : st.conn = false
  · rw [if_pos h2, hp] at h; cases h
  rw [if_neg h2] at h ⊢
  cases i with
  | again => dsimp only at h; rw [hp] at h; cases h
  | lost e leak => exact absurd h (hrc _ _ hp)
  | failed e leak => dsimp only at h; rw [hp] at h; cases h
  | bad hd fds e => dsimp only at h; rw [refuse_st] at h; exact absurd h (hdr _ _ _ _ _ _ hp)
  | req hd body fds =>
    dsimp only at h ⊢
    unfold dispatch at h ⊢
    by_cases h3 : shouldExec st.mig hd.cmd = false
    · rw [if_pos h3] at h; dsimp only at h; rw [refuse_st] at h; exact absurd h (hdr _ _ _ _ _ _ hp)
    rw [if_neg h3] at h ⊢
    by_cases h4 : needsQuiesce cfg st ⟨hd, body, fds⟩ = true
    · rw [if_pos h4] at h ⊢
      dsimp only at h ⊢
      cases hk : env.quiesce 0 with
      | none =>
        rw [hk] at h
        exact absurd h (hhr 1 { st with quiesced := true } _ hp)
      | some e =>
        rw [hk] at h
        dsimp only at h ⊢
        by_cases he : e = EBUSY
        · rw [if_pos he] at h ⊢
          simp only [Pending.msg.injEq] at h
          subst h he
          exact ⟨rfl, rfl, rfl, rfl⟩
        · rw [if_neg he] at h
          dsimp only at h; rw [refuse_st] at h; exact absurd h (hdr _ _ _ _ _ _ hp)
    · rw [if_neg h4] at h; exact absurd h (hhr 0 st _ hp)

end Verif.Server
