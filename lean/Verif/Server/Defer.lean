import Verif.Server.Serve

/-!
# Deferring a quiesce changes only the timing

C84.  A device may answer the quiesce callback with EBUSY and call `vfu_device_quiesced` later
(`lib/libvfio-user.c:1614-1630, 1820-1841, 2404-2447`).  Every history is compared with one of a device that never defers. -/

namespace Verif.Server
open Verif
open Verif.Dma (Fd)

/-- What the device, the client and the operating system see of an event, the quiesce callbacks apart. -/
def Ev.visible : Ev → Option Ev
  | .call (.quiesce _) _ => none
  | .call c _ => some (.call c true)
  | .mmap b l => some (.mmap b l)
  | .munmap b l => some (.munmap b l)
  | .close fd => some (.close fd)
  | .signal fd => some (.signal fd)
  | .sent w => some (.sent w)
  | .detach => some .detach
  | _ => none

def visible (l : List Ev) : List Ev := l.filterMap Ev.visible

/-- The requests that arrive. -/
def Ev.arrival : Ev → Option (Wire.Hdr × List Fd)
  | .got h fds => some (h, fds)
  | _ => none

def arrivals (l : List Ev) : List (Wire.Hdr × List Fd) := l.filterMap Ev.arrival

/-- The request being held back. -/
def held (st : St) : List (Wire.Hdr × List Fd) :=
  match st.pending with
  | .msg m => [(m.hdr, m.fds)]
  | _ => []

/-- The same answers, with other results of the quiesce callback. -/
def Env.answer (env : Env) (f : Nat → Option Nat) : Env := { env with quiesce := f }

/-- The same answers, but a quiesce that would be deferred succeeds. -/
def Env.prompt (env : Env) : Env := env.answer fun k => if env.quiesce k = some EBUSY then none else env.quiesce k

/-- The same answers, and quiescing succeeds. -/
def Env.calm (env : Env) : Env := env.answer fun _ => none

def Op.prompt : Op → Op
  | .run env i => .run env.prompt i
  | .transfer env l => .transfer env.prompt l
  | op => op

/-- The calls made with a device that never defers, in place of one call: the request that starts a quiesce is left out, and
arrives when the device is quiesced; polling in between is left out. -/
def instead (cfg : Cfg) (st : St) (op : Op) : List Op :=
  match st.pending, op with
  | .none, .quiesced _ _ => []
  | .none, op => if (call cfg st op).st.pending = .none then [op.prompt] else []
  | _, .run _ _ => []
  | .msg m, .quiesced env _ => [.run env.calm (.req m.hdr m.body m.fds)]
  | .ctxReset, .quiesced env _ => [.run env.calm (.lost ENOMSG [])]
  | _, op => [op.prompt]

def direct (cfg : Cfg) : St → List Op → List Op
  | _, [] => []
  | st, op :: ops => instead cfg st op ++ direct cfg (call cfg st op).st ops

/-- A device that never defers: it never calls `vfu_device_quiesced`, and no quiesce callback is answered with EBUSY. -/
def Op.Prompt : Op → Prop
  | .run env _ => ∀ k, env.quiesce k ≠ some EBUSY
  | .transfer env _ => ∀ k, env.quiesce k ≠ some EBUSY
  | .quiesced _ _ => False
  | _ => True

theorem Env.prompt_ne (env : Env) (k : Nat) : env.prompt.quiesce k ≠ some EBUSY := by
  unfold Env.prompt Env.answer
  dsimp only
  by_cases h : env.quiesce k = some EBUSY
  · rw [if_pos h]; simp
  · rw [if_neg h]; exact h

theorem direct_prompt (cfg : Cfg) (st : St) (ops : List Op) : ∀ op ∈ direct cfg st ops, op.Prompt := by
  induction ops generalizing st with
  | nil => intro op h; cases h
  | cons o ops ih =>
    intro op h
    rcases List.mem_append.mp h with h | h
    · have key : ∀ x : Op, (∀ e n, x ≠ .quiesced e n) → x.prompt.Prompt := by
        intro x hx
        cases x with
        | quiesced e n => exact absurd rfl (hx e n)
        | run env i => exact env.prompt_ne
        | transfer env l => exact env.prompt_ne
        | _ => trivial
      unfold instead at h
      cases hp : st.pending with
      | none =>
        rw [hp] at h
        cases o <;> dsimp only at h <;>
          first
            | (split at h
               · rw [List.mem_singleton.mp h]; exact key _ (by simp)
               · cases h)
            | cases h
      | msg m =>
        rw [hp] at h
        cases o <;> dsimp only at h <;>
          first
            | cases h; done
            | (rw [List.mem_singleton.mp h]; exact key _ (by simp))
            | (rw [List.mem_singleton.mp h]; intro k; simp [Env.calm, Env.answer])
      | ctxReset =>
        rw [hp] at h
        cases o <;> dsimp only at h <;>
          first
            | cases h; done
            | (rw [List.mem_singleton.mp h]; exact key _ (by simp))
            | (rw [List.mem_singleton.mp h]; intro k; simp [Env.calm, Env.answer])
    · exact ih _ op h


/-! ## What does not depend on a pending request -/

/-- The outcome with another pending request. -/
def Done.pend (p : Pending) (d : Done) : Done := { d with st := { d.st with pending := p } }

theorem dmaMap_pend (cfg : Cfg) (env : Env) (st : St) (p : Pending) (c : Dma.Ctl) (body : List Byte) (fds : List Fd) :
    dmaMap cfg env { st with pending := p } c body fds = (dmaMap cfg env st c body fds).pend p := by
  unfold dmaMap
  by_cases h : body = []
  · rw [if_pos h, if_pos h]; rfl
  rw [if_neg h, if_neg h]
  by_cases h : body.length < 32 ∨ leAt body 0 4 < 32
  · rw [if_pos h, if_pos h]; rfl
  rw [if_neg h, if_neg h]
  rfl

theorem dmaUnmap_pend (cfg : Cfg) (env : Env) (st : St) (p : Pending) (c : Dma.Ctl) (body : List Byte) (fds : List Fd) :
    dmaUnmap cfg env { st with pending := p } c body fds = (dmaUnmap cfg env st c body fds).pend p := by
  unfold dmaUnmap
  by_cases h : body = []
  · rw [if_pos h, if_pos h]; rfl
  rw [if_neg h, if_neg h]
  cases validUnmap body with
  | err e => rfl
  | fault f => rfl
  | ok u =>
    dsimp only
    generalize Dma.handleUnmap env.alloc cfg.dma.hasUnreg c _ _ _ = o
    obtain ⟨c', r, ev⟩ := o
    cases r with
    | ok b => cases b <;> rfl
    | _ => rfl

theorem exec_pending (cfg : Cfg) (env : Env) (st : St) (m : Msg) (p : Pending) :
    exec cfg env { st with pending := p } m = (exec cfg env st m).pend p := by
  obtain ⟨mig, dma, irqs, pci, conn, pend, q, mf, mx⟩ := st
  unfold exec
  by_cases h : m.hdr.cmd = Wire.CMD_DMA_MAP
  · rw [if_pos h, if_pos h]
    cases dma with
    | none => rfl
    | some c => exact dmaMap_pend cfg env _ p c m.body m.fds
  rw [if_neg h, if_neg h]
  clear h
  by_cases h : m.hdr.cmd = Wire.CMD_DMA_UNMAP
  · rw [if_pos h, if_pos h]
    cases dma with
    | none => rfl
    | some c => exact dmaUnmap_pend cfg env _ p c m.body m.fds
  rw [if_neg h, if_neg h]
  clear h
  by_cases h : m.hdr.cmd = Wire.CMD_GET_INFO
  · rw [if_pos h, if_pos h]
    rfl
  rw [if_neg h, if_neg h]
  clear h
  by_cases h : m.hdr.cmd = Wire.CMD_REGION_INFO
  · rw [if_pos h, if_pos h]
    rfl
  rw [if_neg h, if_neg h]
  clear h
  by_cases h : m.hdr.cmd = Wire.CMD_REGION_IO_FDS
  · rw [if_pos h, if_pos h]
    rfl
  rw [if_neg h, if_neg h]
  clear h
  by_cases h : m.hdr.cmd = Wire.CMD_IRQ_INFO
  · rw [if_pos h, if_pos h]
    rfl
  rw [if_neg h, if_neg h]
  clear h
  by_cases h : m.hdr.cmd = Wire.CMD_SET_IRQS
  · rw [if_pos h, if_pos h]
    rfl
  rw [if_neg h, if_neg h]
  clear h
  by_cases h : m.hdr.cmd = Wire.CMD_REGION_READ
  · rw [if_pos h, if_pos h]
    rfl
  rw [if_neg h, if_neg h]
  clear h
  by_cases h : m.hdr.cmd = Wire.CMD_REGION_WRITE
  · rw [if_pos h, if_pos h]
    rfl
  rw [if_neg h, if_neg h]
  clear h
  by_cases h : m.hdr.cmd = Wire.CMD_RESET
  · rw [if_pos h, if_pos h]
    unfold deviceReset
    by_cases hr : cfg.hasReset = true
    · rw [if_pos hr, if_pos hr]
      dsimp only
      cases env.resetCb .device <;> rfl
    · rw [if_neg hr, if_neg hr]; rfl
  rw [if_neg h, if_neg h]
  clear h
  by_cases h : m.hdr.cmd = Wire.CMD_FEATURE
  · rw [if_pos h, if_pos h]
    rfl
  rw [if_neg h, if_neg h]
  clear h
  by_cases h : m.hdr.cmd = Wire.CMD_MIG_READ
  · rw [if_pos h, if_pos h]
    rfl
  rw [if_neg h, if_neg h]
  clear h
  by_cases h : m.hdr.cmd = Wire.CMD_MIG_WRITE
  · rw [if_pos h, if_pos h]
    rfl
  rw [if_neg h, if_neg h]
  clear h
  rfl

theorem afterCalls_quiesce (cfg : Cfg) (env : Env) (f : Nat → Option Nat) (q : Bool) (cs : List Region.Call) :
    ∀ p, afterCalls cfg (env.answer f) q p cs = afterCalls cfg env q p cs := by
  induction cs with
  | nil => intro p; rfl
  | cons c cs ih =>
    intro p
    cases c with
    | config off buf w => unfold afterCalls; dsimp only; rw [ih]; rfl
    | cb r off buf w => unfold afterCalls; dsimp only; rw [ih]

theorem access_quiesce (cfg : Cfg) (env : Env) (f : Nat → Option Nat) (st : St) (w : Bool) (body : List Byte) (fds : List Fd) :
    access cfg (env.answer f) st w body fds = access cfg env st w body fds := by
  unfold access
  dsimp only
  rw [afterCalls_quiesce]
  have : handlers cfg (env.answer f) st.pci = handlers cfg env st.pci := by
    funext c
    cases c <;> rfl
  rw [this]
  rfl

theorem exec_quiesce (cfg : Cfg) (env : Env) (f : Nat → Option Nat) (st : St) (m : Msg) :
    exec cfg (env.answer f) st m = exec cfg env st m := by
  unfold exec
  by_cases h : m.hdr.cmd = Wire.CMD_DMA_MAP
  · rw [if_pos h, if_pos h]
    rfl
  rw [if_neg h, if_neg h]
  clear h
  by_cases h : m.hdr.cmd = Wire.CMD_DMA_UNMAP
  · rw [if_pos h, if_pos h]
    rfl
  rw [if_neg h, if_neg h]
  clear h
  by_cases h : m.hdr.cmd = Wire.CMD_GET_INFO
  · rw [if_pos h, if_pos h]
    rfl
  rw [if_neg h, if_neg h]
  clear h
  by_cases h : m.hdr.cmd = Wire.CMD_REGION_INFO
  · rw [if_pos h, if_pos h]
    rfl
  rw [if_neg h, if_neg h]
  clear h
  by_cases h : m.hdr.cmd = Wire.CMD_REGION_IO_FDS
  · rw [if_pos h, if_pos h]
    rfl
  rw [if_neg h, if_neg h]
  clear h
  by_cases h : m.hdr.cmd = Wire.CMD_IRQ_INFO
  · rw [if_pos h, if_pos h]
    rfl
  rw [if_neg h, if_neg h]
  clear h
  by_cases h : m.hdr.cmd = Wire.CMD_SET_IRQS
  · rw [if_pos h, if_pos h]
    rfl
  rw [if_neg h, if_neg h]
  clear h
  by_cases h : m.hdr.cmd = Wire.CMD_REGION_READ
  · rw [if_pos h, if_pos h]
    exact access_quiesce cfg env f st _ m.body m.fds
  rw [if_neg h, if_neg h]
  clear h
  by_cases h : m.hdr.cmd = Wire.CMD_REGION_WRITE
  · rw [if_pos h, if_pos h]
    exact access_quiesce cfg env f st _ m.body m.fds
  rw [if_neg h, if_neg h]
  clear h
  rfl

/-- A reply on a healthy transport. -/
theorem doReply_fair (cfg : Cfg) (ht : TableOk cfg.tbl) {env : Env} (hf : env.Fair) (st : St) {m : Msg} (hm : m.hdr.Fits) :
    ∃ ws : List Wire.Sent, ∀ (k : Nat) (st' : St) (f : Nat → Option Nat),
      doReply cfg (env.answer f) k st' m.hdr (exec cfg env st m).out (exec cfg env st m).outFds
        (replyErr (exec cfg env st m).res) = { st := st', res := .ok (), evs := ws.map Ev.sent } := by
  obtain ⟨l, hl⟩ := exec_bytes cfg env st m hf.alloc
  obtain ⟨fds, hfd⟩ := (exec_fds cfg env st m).2.2 ht
  unfold doReply
  by_cases hn : m.hdr.noReply = true
  · exact ⟨[], fun k st' f => by rw [if_pos hn]; rfl⟩
  · obtain ⟨w, g1, _⟩ := reply_ok env.snd hf.snd m.hdr hm l fds (replyErr (exec cfg env st m).res % U32)
      (Nat.mod_lt _ (by decide))
    refine ⟨[w], fun k st' f => ?_⟩
    rw [if_neg hn, hl, hfd]
    have g1' : Wire.reply (env.answer f).snd m.hdr (.bytes l) (fds.map some) (replyErr (exec cfg env st m).res % U32) =
      (.ok (), [w]) := g1
    rw [g1']

/-- The execution of a request does not depend on whether it was deferred. -/
theorem handle_fair (cfg : Cfg) (ht : TableOk cfg.tbl) {env : Env} (hf : env.Fair) (st : St) {m : Msg} (hm : m.hdr.Fits) :
    ∃ o : Out, ∀ (k : Nat) (p : Pending) (f : Nat → Option Nat), handleRequest cfg (env.answer f) k { st with pending := p } m =
      { o with st := { o.st with pending := p } } := by
  obtain ⟨ws, hw⟩ := doReply_fair cfg ht hf st hm
  by_cases hx : (exec cfg env st m).res.isFault = true
  · refine ⟨{ st := (exec cfg env st m).st, res := (exec cfg env st m).res, evs := .exec m.hdr :: (exec cfg env st m).evs },
      fun k p f => ?_⟩
    unfold handleRequest
    dsimp only
    rw [exec_quiesce, exec_pending]
    exact if_pos hx
  · refine ⟨{ st := (exec cfg env st m).st, res := .ok (), evs :=
      (.exec m.hdr :: (exec cfg env st m).evs ++ ws.map Ev.sent ++ closes (exec cfg env st m).left ++ [.freed]) },
      fun k p f => ?_⟩
    unfold handleRequest
    dsimp only
    rw [exec_quiesce, exec_pending]
    refine (if_neg hx).trans ?_
    have : doReply cfg (env.answer f) k ((exec cfg env st m).pend p).st m.hdr ((exec cfg env st m).pend p).out
        ((exec cfg env st m).pend p).outFds (replyErr ((exec cfg env st m).pend p).res) =
        { st := ((exec cfg env st m).pend p).st, res := .ok (), evs := ws.map Ev.sent } := hw k _ f
    unfold finish
    dsimp only
    rw [this]
    rfl

theorem visible_append (a b : List Ev) : visible (a ++ b) = visible a ++ visible b := List.filterMap_append ..

/-- An observation that does not see whether the device is quiesced. -/
def Blind {β : Type} (φ : Ev → Option β) : Prop := ∀ c q q', φ (.call c q) = φ (.call c q')

section
variable {β : Type} {φ : Ev → Option β} (hφ : Blind φ)
include hφ

theorem blind_bracket {t : CbType} {c : Call} (q q' : Bool) : (bracket t c q).filterMap φ = (bracket t c q').filterMap φ := by
  unfold bracket
  simp only [List.filterMap_cons, hφ c q q']

omit hφ in
theorem blind_flatMap {α : Type} {f g : α → List Ev} (h : ∀ x, (f x).filterMap φ = (g x).filterMap φ) (l : List α) :
    (l.flatMap f).filterMap φ = (l.flatMap g).filterMap φ := by
  induction l with
  | nil => rfl
  | cons x l ih => rw [List.flatMap_cons, List.flatMap_cons, List.filterMap_append, List.filterMap_append, h, ih]

theorem blind_ofDma (q q' : Bool) (x : Dma.Ev) : (ofDma q x).filterMap φ = (ofDma q' x).filterMap φ := by
  cases x <;> first | exact blind_bracket hφ q q' | rfl

theorem blind_ofIrq (q q' : Bool) (x : Irq.Ev) : (ofIrq q x).filterMap φ = (ofIrq q' x).filterMap φ := by
  cases x with
  | state i s c m => unfold ofIrq; simp only [List.filterMap_cons, hφ _ q q']
  | _ => rfl

theorem deviceReset_flags (cfg : Cfg) (env : Env) (st : St) (r : Reason) (p : Pending) (q : Bool) :
    (deviceReset cfg env { st with pending := p, quiesced := q } r).1 =
        { (deviceReset cfg env st r).1 with pending := p, quiesced := q } ∧
      (deviceReset cfg env { st with pending := p, quiesced := q } r).2.1 = (deviceReset cfg env st r).2.1 ∧
      (deviceReset cfg env { st with pending := p, quiesced := q } r).2.2.filterMap φ =
        (deviceReset cfg env st r).2.2.filterMap φ := by
  unfold deviceReset
  by_cases h : cfg.hasReset = true
  · rw [if_pos h, if_pos h]
    dsimp only
    cases env.resetCb r <;> exact ⟨rfl, rfl, blind_bracket hφ _ _⟩
  · rw [if_neg h, if_neg h]; exact ⟨rfl, rfl, rfl⟩

theorem resetQuiesced_flags (cfg : Cfg) (env : Env) (st : St) (p : Pending) (q : Bool) :
    (resetQuiesced cfg env { st with pending := p, quiesced := q }).st =
        { (resetQuiesced cfg env st).st with pending := p, quiesced := q } ∧
      (resetQuiesced cfg env { st with pending := p, quiesced := q }).res = (resetQuiesced cfg env st).res ∧
      (resetQuiesced cfg env { st with pending := p, quiesced := q }).evs.filterMap φ =
        (resetQuiesced cfg env st).evs.filterMap φ := by
  unfold resetQuiesced
  dsimp only
  cases dropDma cfg st.dma with
  | err e => exact ⟨rfl, rfl, rfl⟩
  | fault f => exact ⟨rfl, rfl, rfl⟩
  | ok x =>
    obtain ⟨d, ev1⟩ := x
    dsimp only
    obtain ⟨g1, _, g3⟩ := deviceReset_flags hφ cfg env { st with dma := d } .lostConn p q
    dsimp only at g1 g3
    rw [g1]
    dsimp only
    have hd := blind_flatMap (blind_ofDma hφ q st.quiesced) ev1
    cases Irq.reset cfg.irq (deviceReset cfg env { st with dma := d } .lostConn).1.irqs with
    | err e => exact ⟨rfl, rfl, by dsimp only; rw [List.filterMap_append, List.filterMap_append, g3, hd]⟩
    | fault f => exact ⟨rfl, rfl, by dsimp only; rw [List.filterMap_append, List.filterMap_append, g3, hd]⟩
    | ok y =>
      obtain ⟨i, ev3⟩ := y
      refine ⟨rfl, rfl, ?_⟩
      dsimp only
      simp only [List.filterMap_append]
      rw [g3, hd, blind_flatMap (blind_ofIrq hφ q st.quiesced)]

end

theorem blind_arrival : Blind Ev.arrival := fun _ _ _ => rfl

theorem arrivals_append (a b : List Ev) : arrivals (a ++ b) = arrivals a ++ arrivals b := List.filterMap_append ..

theorem blind_seen : Blind Ev.visible := fun c _ _ => by cases c <;> rfl

/-! ## One call -/

/-- Between calls: a deferred request is one that needs the device quiesced, and the client is still there. -/
structure Waiting (cfg : Cfg) (st : St) : Prop where
  idle : st.quiesced = false
  conn : st.pending ≠ .none → st.conn = true ∧ cfg.hasQuiesce = true
  msg : ∀ m, st.pending = .msg m → m.hdr.Fits ∧ needsQuiesce cfg st m = true ∧ shouldExec st.mig m.hdr.cmd = true

/-- The state without the deferred request. -/
def St.rest (st : St) : St := { st with pending := .none }

/-- The calls that a prompt device sees instead come to the same. -/
def Agree (cfg : Cfg) (st : St) (ops : List Op) (o : Out) : Prop :=
  Completes cfg st.rest ops ∧ (run cfg st.rest ops).1 = o.st.rest ∧ visible (run cfg st.rest ops).2 = visible o.evs ∧
    held st ++ arrivals o.evs = arrivals (run cfg st.rest ops).2 ++ held o.st

theorem agree_none {cfg : Cfg} {st : St} {o : Out} (h1 : o.st.rest = st.rest) (h2 : visible o.evs = [])
    (h3 : held st ++ arrivals o.evs = held o.st) : Agree cfg st [] o :=
  ⟨trivial, h1.symm, h2.symm, h3⟩

theorem agree_one {cfg : Cfg} {st : St} {op : Op} {o o' : Out} (ho : call cfg st.rest op = o') (h0 : o'.res.isFault = false)
    (h1 : o'.st = o.st.rest) (h2 : visible o'.evs = visible o.evs) (h3 : held st ++ arrivals o.evs = arrivals o'.evs ++ held o.st) :
    Agree cfg st [op] o := by
  subst ho
  have hr : run cfg st.rest [op] = ((call cfg st.rest op).st, (call cfg st.rest op).evs ++ [.ret]) := by
    unfold run
    dsimp only
    rw [if_neg (by rw [h0]; simp)]
    rfl
  refine ⟨⟨h0, trivial⟩, ?_, ?_, ?_⟩
  · rw [hr]; exact h1
  · rw [hr, visible_append, h2]; exact List.append_nil _
  · rw [hr, arrivals_append, h3]
    show _ = arrivals _ ++ [] ++ _
    rw [List.append_nil]

theorem refuse_fair (cfg : Cfg) {env : Env} (hf : env.Fair) {h : Wire.Hdr} (hh : h.Fits) (fds : List Fd) (err : Nat) :
    ∃ evs, ∀ (k : Nat) (st : St) (f : Nat → Option Nat), refuse cfg (env.answer f) k st h fds err = { st, res := .ok (), evs } := by
  by_cases hn : h.noReply = true
  · refine ⟨closes (fds.map some) ++ [.freed], fun k st f => ?_⟩
    unfold refuse doReply
    dsimp only
    rw [if_pos hn]
    rfl
  · obtain ⟨w, g1, _⟩ := reply_ok env.snd hf.snd h hh [] [] (err % U32) (Nat.mod_lt _ (by decide))
    refine ⟨.sent w :: (closes (fds.map some) ++ [.freed]), fun k st f => ?_⟩
    have g1' : Wire.reply (env.answer f).snd h (.bytes []) [] (err % U32) = (.ok (), [w]) := g1
    unfold refuse doReply
    dsimp only
    rw [if_neg hn, g1']
    rfl

theorem resetQuiesced_keeps (cfg : Cfg) (env : Env) (st : St) :
    (resetQuiesced cfg env st).st.pending = st.pending ∧ (resetQuiesced cfg env st).st.quiesced = st.quiesced := by
  obtain ⟨g, _, _⟩ := resetQuiesced_flags blind_seen cfg env st st.pending st.quiesced
  change (resetQuiesced cfg env st).st = _ at g
  exact ⟨(congrArg St.pending g).trans rfl, (congrArg St.quiesced g).trans rfl⟩

/-- Losing the client: either the device defers, or a prompt device does the same. -/
theorem resetCtx_prompt (cfg : Cfg) (env : Env) {st : St} (hp : st.pending = .none) :
    (cfg.hasQuiesce = true ∧ (resetCtx cfg env 0 st).st = { st with pending := .ctxReset } ∧ visible (resetCtx cfg env 0 st).evs = [] ∧
      arrivals (resetCtx cfg env 0 st).evs = []) ∨
    ((resetCtx cfg env 0 st).st.pending = .none ∧ (resetCtx cfg env 0 st).st.quiesced = st.quiesced ∧
      resetCtx cfg env.prompt 0 st = resetCtx cfg env 0 st) := by
  obtain ⟨k1, k2⟩ := resetQuiesced_keeps cfg env st
  have he : resetQuiesced cfg env.prompt st = resetQuiesced cfg env st := rfl
  unfold resetCtx
  by_cases hq : cfg.hasQuiesce = true ∧ st.pending = .none
  · rw [if_pos hq, if_pos hq]
    dsimp only
    rw [he]
    have hpq : env.prompt.quiesce 0 = if env.quiesce 0 = some EBUSY then none else env.quiesce 0 := rfl
    cases hqe : env.quiesce 0 with
    | none =>
      rw [hqe] at hpq
      rw [hpq]
      exact .inr ⟨k1.trans hp, k2, rfl⟩
    | some e =>
      dsimp only
      by_cases hb : e = EBUSY
      · rw [if_pos hb]
        exact .inl ⟨hq.1, rfl, rfl, rfl⟩
      · rw [hqe, if_neg (by simpa using hb)] at hpq
        rw [hpq]
        dsimp only
        rw [if_neg hb]
        exact .inr ⟨hp, rfl, rfl⟩
  · rw [if_neg hq, if_neg hq, he]
    exact .inr ⟨k1.trans hp, k2, rfl⟩

theorem instead_none {cfg : Cfg} {st : St} {op : Op} (hp : st.pending = .none) (hop : ∀ env e, op ≠ .quiesced env e)
    (hc : (call cfg st op).st.pending = .none) : instead cfg st op = [op.prompt] := by
  unfold instead
  rw [hp]
  cases op <;> first | exact if_pos hc | exact absurd rfl (hop _ _)

/-- A call with which the library is not waiting afterwards, and which a prompt device sees too. -/
theorem agree_same {cfg : Cfg} {st : St} {op : Op} (hp : st.pending = .none) (hop : ∀ env e, op ≠ .quiesced env e)
    (hno : (call cfg st op).res.isFault = false) (hc : (call cfg st op).st.pending = .none)
    (hi : (call cfg st op).st.quiesced = false) (he : call cfg st op.prompt = call cfg st op) :
    Waiting cfg (call cfg st op).st ∧ Agree cfg st (instead cfg st op) (call cfg st op) := by
  refine ⟨⟨hi, fun h => absurd hc h, fun m h => by rw [hc] at h; cases h⟩, ?_⟩
  have hin : instead cfg st op = [op.prompt] := instead_none hp hop hc
  have hr : st.rest = st := by
    unfold St.rest
    rw [← hp]
  rw [hin]
  have hh : ∀ s : St, s.pending = .none → held s = [] := by
    intro s h
    unfold held
    rw [h]
  refine agree_one (o' := call cfg st op) (by rw [hr, he]) hno ?_ rfl (by rw [hh _ hp, hh _ hc, List.append_nil]; rfl)
  unfold St.rest
  rw [← hc]

/-- A call with which the device starts to quiesce. -/
theorem agree_defer {cfg : Cfg} {st : St} {op : Op} {p : Pending} (hi : st.quiesced = false) (hp : st.pending = .none)
    (hpp : p ≠ .none) (hcq : st.conn = true ∧ cfg.hasQuiesce = true)
    (hm : ∀ m, p = .msg m → m.hdr.Fits ∧ needsQuiesce cfg st m = true ∧ shouldExec st.mig m.hdr.cmd = true)
    (hs : (call cfg st op).st = { st with pending := p }) (he : visible (call cfg st op).evs = [])
    (ha : arrivals (call cfg st op).evs = held { st with pending := p }) :
    Waiting cfg (call cfg st op).st ∧ Agree cfg st (instead cfg st op) (call cfg st op) := by
  have hin : instead cfg st op = [] := by
    unfold instead
    rw [hp]
    cases op <;> first | rfl | (refine if_neg ?_; rw [hs]; exact hpp)
  rw [hin]
  refine ⟨?_, agree_none (by rw [hs]; rfl) he (by rw [hs, ha]; unfold held; rw [hp]; rfl)⟩
  rw [hs]
  exact ⟨hi, fun _ => hcq, hm⟩

theorem call_agree {cfg : Cfg} (ht : TableOk cfg.tbl) {st : St} (hw : Waiting cfg st) (op : Op) (hf : op.Fair)
    (hq : ∀ env e, op = .quiesced env e → e = 0) (hno : (call cfg st op).res.isFault = false) :
    Waiting cfg (call cfg st op).st ∧ Agree cfg st (instead cfg st op) (call cfg st op) := by
  obtain ⟨mig, dma, irqs, pci, conn, pending, q, mf, mx⟩ := st
  obtain rfl : q = false := hw.idle
  cases op with
  | config f =>
    refine ⟨⟨rfl, hw.conn, hw.msg⟩, ?_⟩
    cases pending with
    | none =>
      have : instead cfg ⟨mig, dma, irqs, pci, conn, .none, false, mf, mx⟩ (.config f) = [.config f] := instead_none rfl (by simp) rfl
      rw [this]
      exact agree_one rfl rfl rfl rfl (List.append_nil _)
    | msg m => exact agree_one rfl rfl rfl rfl (List.append_nil _)
    | ctxReset => exact agree_one rfl rfl rfl rfl (List.append_nil _)
  | trigger wr sub =>
    refine ⟨⟨rfl, hw.conn, hw.msg⟩, ?_⟩
    have trig : ∀ {l : List (Wire.Hdr × List Fd)},
        l ++ arrivals ((Irq.trigger wr irqs sub).2.flatMap (ofIrq false)) =
          arrivals ((Irq.trigger wr irqs sub).2.flatMap (ofIrq false)) ++ l := by
      intro l
      have : arrivals ((Irq.trigger wr irqs sub).2.flatMap (ofIrq false)) = [] := by
        unfold arrivals
        rw [List.filterMap_eq_nil_iff]
        intro e he
        have := inner_flatMap (inner_ofIrq (q := false)) _ e he
        cases e <;> first | rfl | exact this.elim
      rw [this, List.append_nil]
      rfl
    cases pending with
    | none =>
      have : instead cfg ⟨mig, dma, irqs, pci, conn, .none, false, mf, mx⟩ (.trigger wr sub) =
          [.trigger wr sub] := instead_none rfl (by simp) rfl
      rw [this]
      exact agree_one rfl hno rfl rfl trig
    | msg m => exact agree_one rfl hno rfl rfl trig
    | ctxReset => exact agree_one rfl hno rfl rfl trig
  | mark sgl =>
    cases dma with
    | none => cases hno
    | some c =>
      have hx : ∀ p, ∃ c', call cfg ⟨mig, some c, irqs, pci, conn, p, false, mf, mx⟩ (.mark sgl) =
          { st := ⟨mig, some c', irqs, pci, conn, p, false, mf, mx⟩
            res := (call cfg ⟨mig, some c, irqs, pci, conn, pending, false, mf, mx⟩ (.mark sgl)).res, evs := [] } ∧
          c' = (match Dma.sglMark c sgl with | .ok c' => c' | _ => c) := by
        intro p
        unfold call
        dsimp only
        cases Dma.sglMark c sgl with
        | ok c' => exact ⟨_, rfl, rfl⟩
        | err e => exact ⟨_, rfl, rfl⟩
        | fault f => exact ⟨_, rfl, rfl⟩
      obtain ⟨c', h1, rfl⟩ := hx pending
      obtain ⟨c'', h2, rfl⟩ := hx .none
      rw [h1]
      refine ⟨⟨rfl, hw.conn, hw.msg⟩, ?_⟩
      cases pending with
      | none =>
        have : instead cfg ⟨mig, some c, irqs, pci, conn, .none, false, mf, mx⟩ (.mark sgl) = [.mark sgl] :=
          instead_none rfl (by simp) (by rw [h1])
        rw [this]
        exact agree_one h2 hno rfl rfl (by simp [held, arrivals])
      | msg m => exact agree_one h2 hno rfl rfl (by simp [held, arrivals])
      | ctxReset => exact agree_one h2 hno rfl rfl (by simp [held, arrivals])
  | attach n =>
    by_cases hc : conn = true
    · subst hc
      have hx : ∀ p, call cfg ⟨mig, dma, irqs, pci, true, p, false, mf, mx⟩ (.attach n) =
        { st := ⟨mig, dma, irqs, pci, true, p, false, mf, mx⟩, res := .err EINVAL, evs := [] } := by
        intro p
        unfold call attach
        exact if_pos rfl
      rw [hx]
      refine ⟨hw, ?_⟩
      cases pending with
      | none =>
        have : instead cfg ⟨mig, dma, irqs, pci, true, .none, false, mf, mx⟩ (.attach n) =
          [.attach n] := instead_none rfl (by simp) (by rw [hx])
        rw [this]
        exact agree_one (hx .none) rfl rfl rfl (by simp [held, arrivals])
      | msg m => exact agree_one (hx .none) rfl rfl rfl (by simp [held, arrivals])
      | ctxReset => exact agree_one (hx .none) rfl rfl rfl (by simp [held, arrivals])
    · have hp : pending = .none := by
        by_contra h
        exact hc (hw.conn h).1
      subst hp
      have hx : (call cfg ⟨mig, dma, irqs, pci, conn, .none, false, mf, mx⟩ (.attach n)).st.pending = .none ∧
          (call cfg ⟨mig, dma, irqs, pci, conn, .none, false, mf, mx⟩ (.attach n)).st.quiesced = false := by
        unfold call attach
        dsimp only
        rw [if_neg hc]
        cases n <;> exact ⟨rfl, rfl⟩
      exact agree_same rfl (by simp) hno hx.1 hx.2 rfl
  | transfer env lost =>
    have hp : pending = .none := by
      by_contra h
      have : (call cfg ⟨mig, dma, irqs, pci, conn, pending, false, mf, mx⟩ (.transfer env lost)).res = .fault .assertFail := by
        unfold call transfer
        exact congrArg Out.res (if_pos h)
      rw [this] at hno
      cases hno
    subst hp
    by_cases hl : lost = true ∧ conn = true
    · have hx : ∀ env : Env, call cfg ⟨mig, dma, irqs, pci, conn, .none, false, mf, mx⟩ (.transfer env lost) =
          { resetCtx cfg env 0 ⟨mig, dma, irqs, pci, conn, .none, false, mf, mx⟩ with
            res := (match (resetCtx cfg env 0 ⟨mig, dma, irqs, pci, conn, .none, false, mf, mx⟩).res with
              | .fault f => .fault f | _ => .err ENOTCONN) } := by
        intro env
        unfold call transfer
        dsimp only
        rw [if_neg (by simp), if_pos hl]
        cases (resetCtx cfg env 0 ⟨mig, dma, irqs, pci, conn, .none, false, mf, mx⟩).res <;> rfl
      rcases resetCtx_prompt cfg env (st := ⟨mig, dma, irqs, pci, conn, .none, false, mf, mx⟩) rfl with ⟨g1, g2, g3, g4⟩ | ⟨g1, g2, g3⟩
      · exact agree_defer rfl rfl (p := .ctxReset) (by simp) ⟨hl.2, g1⟩ (by simp) (by rw [hx]; exact g2) (by rw [hx]; exact g3) (by rw [hx]; exact g4)
      · refine agree_same rfl (by simp) hno (by rw [hx]; exact g1) (by rw [hx]; exact g2) ?_
        show call cfg _ (.transfer env.prompt lost) = _
        rw [hx, hx, g3]
    · have hx : ∀ env : Env, call cfg ⟨mig, dma, irqs, pci, conn, .none, false, mf, mx⟩ (.transfer env lost) =
          { st := ⟨mig, dma, irqs, pci, conn, .none, false, mf, mx⟩, res := .ok (), evs := [] } := by
        intro env
        unfold call transfer
        dsimp only
        rw [if_neg (by simp), if_neg hl]
      refine agree_same rfl (by simp) hno (by rw [hx]) (by rw [hx]) ?_
      show call cfg _ (.transfer env.prompt lost) = _
      rw [hx, hx]
  | quiesced env e =>
    obtain rfl := hq env e rfl
    cases pending with
    | none =>
      have hx : call cfg ⟨mig, dma, irqs, pci, conn, .none, false, mf, mx⟩ (.quiesced env 0) =
          { st := ⟨mig, dma, irqs, pci, conn, .none, false, mf, mx⟩, res := .err EINVAL, evs := [] } := by
        unfold call deviceQuiesced
        exact if_pos (.inr rfl)
      rw [hx]
      exact ⟨hw, agree_none rfl rfl rfl⟩
    | msg m =>
      obtain ⟨rfl, hqs⟩ := hw.conn (by simp)
      obtain ⟨m1, m2, m3⟩ := hw.msg m rfl
      obtain ⟨o, ho⟩ := handle_fair cfg ht hf ⟨mig, dma, irqs, pci, true, .none, true, mf, mx⟩ m1
      have hx : call cfg ⟨mig, dma, irqs, pci, true, .msg m, false, mf, mx⟩ (.quiesced env 0) =
          { st := { o.st with pending := .none, quiesced := false }, res := o.res, evs := .devQuiesced 0 :: o.evs } := by
        have h0 := ho 0 (.msg m) env.quiesce
        change handleRequest cfg env 0 ⟨mig, dma, irqs, pci, true, .msg m, true, mf, mx⟩ m = _ at h0
        unfold call deviceQuiesced
        dsimp only
        rw [if_neg (by simp [hqs]), if_pos rfl, h0]
      have hy : call cfg ⟨mig, dma, irqs, pci, true, .none, false, mf, mx⟩ (.run env.calm (.req m.hdr m.body m.fds)) =
          { st := { o.st with pending := .none, quiesced := false }, res := o.res
            evs := .got m.hdr m.fds :: (bracket .quiesce (.quiesce none) false ++ o.evs) } := by
        have h1 := ho 1 .none (fun _ => none)
        change handleRequest cfg env.calm 1 ⟨mig, dma, irqs, pci, true, .none, true, mf, mx⟩ m = _ at h1
        have m2' : needsQuiesce cfg ⟨mig, dma, irqs, pci, true, .none, false, mf, mx⟩ m = true := m2
        unfold call poll dispatch
        dsimp only
        rw [if_neg (by simp), if_neg (by simp), if_neg (by rw [m3]; simp), if_pos m2']
        show ({ st := { (handleRequest cfg env.calm 1 ⟨mig, dma, irqs, pci, true, .none, true, mf, mx⟩ m).st with quiesced := false }
                res := (handleRequest cfg env.calm 1 ⟨mig, dma, irqs, pci, true, .none, true, mf, mx⟩ m).res
                evs := .got m.hdr m.fds :: (bracket .quiesce (.quiesce none) false ++
                  (handleRequest cfg env.calm 1 ⟨mig, dma, irqs, pci, true, .none, true, mf, mx⟩ m).evs) } : Out) = _
        rw [h1]
      rw [hx] at hno ⊢
      refine ⟨⟨rfl, fun h => absurd rfl h, fun _ h => by cases h⟩, ?_⟩
      refine agree_one hy hno rfl rfl ?_
      exact (List.append_nil _).symm
    | ctxReset =>
      obtain ⟨rfl, hqs⟩ := hw.conn (by simp)
      obtain ⟨f1, f2, f3⟩ := resetQuiesced_flags blind_seen cfg env ⟨mig, dma, irqs, pci, true, .none, false, mf, mx⟩ .ctxReset true
      obtain ⟨_, _, f4⟩ := resetQuiesced_flags blind_arrival cfg env ⟨mig, dma, irqs, pci, true, .none, false, mf, mx⟩ .ctxReset true
      obtain ⟨k1, k2⟩ := resetQuiesced_keeps cfg env ⟨mig, dma, irqs, pci, true, .none, false, mf, mx⟩
      dsimp only at f1 f2 f3 f4
      have hx : call cfg ⟨mig, dma, irqs, pci, true, .ctxReset, false, mf, mx⟩ (.quiesced env 0) =
          { st := { (resetQuiesced cfg env ⟨mig, dma, irqs, pci, true, .ctxReset, true, mf, mx⟩).st with
              pending := .none, quiesced := false }
            res := (resetQuiesced cfg env ⟨mig, dma, irqs, pci, true, .ctxReset, true, mf, mx⟩).res
            evs := .devQuiesced 0 :: (resetQuiesced cfg env ⟨mig, dma, irqs, pci, true, .ctxReset, true, mf, mx⟩).evs } := by
        unfold call deviceQuiesced
        dsimp only
        rw [if_neg (by simp [hqs]), if_pos rfl]
      have hy : call cfg ⟨mig, dma, irqs, pci, true, .none, false, mf, mx⟩ (.run env.calm (.lost ENOMSG [])) =
          { st := (resetQuiesced cfg env ⟨mig, dma, irqs, pci, true, .none, false, mf, mx⟩).st
            res := (match (resetQuiesced cfg env ⟨mig, dma, irqs, pci, true, .none, false, mf, mx⟩).res with
              | .ok () => .err ENOTCONN | r => quiet r)
            evs := .lost [] :: (bracket .quiesce (.quiesce none) false ++
              (resetQuiesced cfg env ⟨mig, dma, irqs, pci, true, .none, false, mf, mx⟩).evs) } := by
        unfold call poll
        dsimp only
        rw [if_neg (by simp), if_neg (by simp)]
        unfold resetCtx
        rw [if_pos ⟨hqs, rfl⟩]
        rfl
      rw [hx] at hno ⊢
      refine ⟨⟨rfl, fun h => absurd rfl h, fun _ h => by cases h⟩, ?_⟩
      rw [f2] at hno
      refine agree_one hy ?_ ?_ ?_ ?_
      · dsimp only at hno ⊢
        revert hno
        cases (resetQuiesced cfg env ⟨mig, dma, irqs, pci, true, .none, false, mf, mx⟩).res with
        | ok u => intro _; rfl
        | err e => intro _; exact (quiet_fault _).trans rfl
        | fault f => intro h; cases h
      · dsimp only
        rw [f1]
        revert k1 k2
        generalize (resetQuiesced cfg env ⟨mig, dma, irqs, pci, true, .none, false, mf, mx⟩).st = s
        obtain ⟨a1, a2, a3, a4, a5, a6, a7, a8, a9⟩ := s
        intro k1 k2
        dsimp only at k1 k2
        subst k1 k2
        rfl
      · exact f3.symm
      · exact f4.trans (List.append_nil _).symm
  | run env i =>
    obtain ⟨hfe, hreal⟩ := hf
    by_cases hp : pending = .none
    rotate_left
    · have hx : call cfg ⟨mig, dma, irqs, pci, conn, pending, false, mf, mx⟩ (.run env i) =
          { st := ⟨mig, dma, irqs, pci, conn, pending, false, mf, mx⟩, res := .err EBUSY, evs := [] } := by
        unfold call poll
        exact if_pos hp
      rw [hx]
      refine ⟨hw, ?_⟩
      cases pending with
      | none => exact absurd rfl hp
      | msg m => exact agree_none rfl rfl rfl
      | ctxReset => exact agree_none rfl rfl rfl
    subst hp
    have same : ∀ {evs : List Ev} {r : Res Unit} (st' : St), st'.pending = .none → st'.quiesced = false →
        (∀ env' : Env, (∃ f, env' = env.answer f ∧ (f 0 = env.quiesce 0 ∨ env.quiesce 0 = some EBUSY)) →
          call cfg ⟨mig, dma, irqs, pci, conn, .none, false, mf, mx⟩ (.run env' i) = { st := st', res := r, evs := evs }) →
        Waiting cfg (call cfg ⟨mig, dma, irqs, pci, conn, .none, false, mf, mx⟩ (.run env i)).st ∧
          Agree cfg ⟨mig, dma, irqs, pci, conn, .none, false, mf, mx⟩
            (instead cfg ⟨mig, dma, irqs, pci, conn, .none, false, mf, mx⟩ (.run env i))
            (call cfg ⟨mig, dma, irqs, pci, conn, .none, false, mf, mx⟩ (.run env i)) := by
      intro evs r st' h1 h2 h3
      have e1 := h3 env ⟨env.quiesce, rfl, .inl rfl⟩
      refine agree_same rfl (by simp) hno (by rw [e1]; exact h1) (by rw [e1]; exact h2) ?_
      show call cfg _ (.run env.prompt i) = _
      rw [e1]
      refine h3 env.prompt ⟨_, rfl, ?_⟩
      by_cases hb : env.quiesce 0 = some EBUSY
      · exact .inr hb
      · exact .inl (if_neg hb)
    cases conn with
    | false =>
      exact same ⟨mig, dma, irqs, pci, false, .none, false, mf, mx⟩ rfl rfl (fun env' _ => rfl)
    | true =>
    cases i with
    | again => exact same ⟨mig, dma, irqs, pci, true, .none, false, mf, mx⟩ rfl rfl (fun env' _ => rfl)
    | failed e leak => exact same ⟨mig, dma, irqs, pci, true, .none, false, mf, mx⟩ rfl rfl (fun env' _ => rfl)
    | lost e leak =>
      have hx : ∀ env : Env, call cfg ⟨mig, dma, irqs, pci, true, .none, false, mf, mx⟩ (.run env (.lost e leak)) =
          { resetCtx cfg env 0 ⟨mig, dma, irqs, pci, true, .none, false, mf, mx⟩ with
            res := (match (resetCtx cfg env 0 ⟨mig, dma, irqs, pci, true, .none, false, mf, mx⟩).res with
              | .ok () => .err ENOTCONN | r => quiet r)
            evs := .lost leak :: (resetCtx cfg env 0 ⟨mig, dma, irqs, pci, true, .none, false, mf, mx⟩).evs } := by
        intro env
        unfold call poll
        dsimp only
        rw [if_neg (by simp), if_neg (by simp)]
        cases (resetCtx cfg env 0 ⟨mig, dma, irqs, pci, true, .none, false, mf, mx⟩).res <;> rfl
      rcases resetCtx_prompt cfg env (st := ⟨mig, dma, irqs, pci, true, .none, false, mf, mx⟩) rfl with ⟨g1, g2, g3, g4⟩ | ⟨g1, g2, g3⟩
      · exact agree_defer rfl rfl (p := .ctxReset) (by simp) ⟨rfl, g1⟩ (by simp) (by rw [hx]; exact g2) (by rw [hx]; exact g3) (by rw [hx]; exact g4)
      · refine agree_same rfl (by simp) hno (by rw [hx]; exact g1) (by rw [hx]; exact g2) ?_
        show call cfg _ (.run env.prompt (.lost e leak)) = _
        rw [hx, hx, g3]
    | bad h fds e =>
      obtain ⟨evs, hr⟩ := refuse_fair cfg hfe ((real_fits hreal).2 _ _ _ rfl) fds e
      refine same (evs := .got h fds :: evs) (r := .ok ()) ⟨mig, dma, irqs, pci, true, .none, false, mf, mx⟩ rfl rfl
        (fun env' ⟨f, he, _⟩ => ?_)
      subst he
      unfold call poll
      dsimp only
      rw [if_neg (by simp), if_neg (by simp), hr]
      rfl
    | req h body fds =>
      have hm : h.Fits := (real_fits hreal).1 _ _ _ rfl
      by_cases hsh : shouldExec mig h.cmd = false
      · obtain ⟨evs, hr⟩ := refuse_fair cfg hfe hm fds EINVAL
        refine same (evs := .got h fds :: evs) (r := .ok ()) ⟨mig, dma, irqs, pci, true, .none, false, mf, mx⟩ rfl rfl
          (fun env' ⟨f, he, _⟩ => ?_)
        subst he
        unfold call poll dispatch
        dsimp only
        rw [if_neg (by simp), if_neg (by simp), if_pos hsh, hr]
        rfl
      by_cases hn : needsQuiesce cfg ⟨mig, dma, irqs, pci, true, .none, false, mf, mx⟩ ⟨h, body, fds⟩ = true
      · cases hqe : env.quiesce 0 with
        | none =>
          obtain ⟨o, ho⟩ := handle_fair cfg ht hfe ⟨mig, dma, irqs, pci, true, .none, true, mf, mx⟩ (m := ⟨h, body, fds⟩) hm
          refine same (evs := .got h fds :: (bracket .quiesce (.quiesce none) false ++ o.evs)) (r := o.res)
            { o.st with pending := .none, quiesced := false } rfl rfl (fun env' ⟨f, he, hf0⟩ => ?_)
          subst he
          have hf1 : (env.answer f).quiesce 0 = none := by
            rcases hf0 with h | h
            · exact h.trans hqe
            · rw [hqe] at h; cases h
          have h1 := ho 1 .none f
          dsimp only at h1
          unfold call poll dispatch
          dsimp only
          rw [if_neg (by simp), if_neg (by simp), if_neg hsh, if_pos hn, hf1]
          dsimp only
          rw [h1]
        | some e =>
          by_cases hb : e = EBUSY
          · have hx : call cfg ⟨mig, dma, irqs, pci, true, .none, false, mf, mx⟩ (.run env (.req h body fds)) =
                { st := ⟨mig, dma, irqs, pci, true, .msg ⟨h, body, fds⟩, false, mf, mx⟩, res := .err e
                  evs := .got h fds :: bracket .quiesce (.quiesce (some e)) false } := by
              unfold call poll dispatch
              dsimp only
              rw [if_neg (by simp), if_neg (by simp), if_neg hsh, if_pos hn, hqe]
              dsimp only
              rw [if_pos hb]
            have hqs : cfg.hasQuiesce = true := by
              unfold needsQuiesce at hn
              cases hc : cfg.hasQuiesce with
              | true => rfl
              | false => rw [hc] at hn; cases hn
            refine agree_defer rfl rfl (p := .msg ⟨h, body, fds⟩) (by simp) ⟨rfl, hqs⟩ ?_ (by rw [hx]) (by rw [hx]; rfl) (by rw [hx]; rfl)
            intro m hm'
            cases hm'
            exact ⟨hm, hn, by simpa using hsh⟩
          · obtain ⟨evs, hr⟩ := refuse_fair cfg hfe hm fds e
            refine same (evs := .got h fds :: (bracket .quiesce (.quiesce (some e)) false ++ evs)) (r := .ok ())
              ⟨mig, dma, irqs, pci, true, .none, false, mf, mx⟩ rfl rfl (fun env' ⟨f, he, hf0⟩ => ?_)
            subst he
            have hf1 : (env.answer f).quiesce 0 = some e := by
              rcases hf0 with h | h
              · exact h.trans hqe
              · rw [hqe] at h; cases h; exact absurd rfl hb
            unfold call poll dispatch
            dsimp only
            rw [if_neg (by simp), if_neg (by simp), if_neg hsh, if_pos hn, hf1]
            dsimp only
            rw [if_neg hb, hr]
            rfl
      · obtain ⟨o, ho⟩ := handle_fair cfg ht hfe ⟨mig, dma, irqs, pci, true, .none, false, mf, mx⟩ (m := ⟨h, body, fds⟩) hm
        refine same (evs := .got h fds :: o.evs) (r := o.res)
          { o.st with pending := .none, quiesced := false } rfl rfl (fun env' ⟨f, he, hf0⟩ => ?_)
        subst he
        have h1 := ho 0 .none f
        dsimp only at h1
        unfold call poll dispatch
        dsimp only
        rw [if_neg (by simp), if_neg (by simp), if_neg hsh, if_neg hn, h1]

/-! ## C84 -/

theorem run_cons {cfg : Cfg} {st : St} {op : Op} (ops : List Op) (h : (call cfg st op).res.isFault = false) :
    run cfg st (op :: ops) = ((run cfg (call cfg st op).st ops).1, (call cfg st op).evs ++ .ret :: (run cfg (call cfg st op).st ops).2) := by
  conv_lhs => unfold run
  dsimp only
  rw [if_neg (by rw [h]; simp)]

theorem run_app {cfg : Cfg} (a b : List Op) : ∀ st : St, Completes cfg st a →
    run cfg st (a ++ b) = ((run cfg (run cfg st a).1 b).1, (run cfg st a).2 ++ (run cfg (run cfg st a).1 b).2) := by
  induction a with
  | nil => intro st _; rfl
  | cons op a ih =>
    intro st h
    rw [List.cons_append, run_cons _ h.1, run_cons _ h.1, ih _ h.2]
    simp

theorem completes_app {cfg : Cfg} (a b : List Op) : ∀ st : St, Completes cfg st a → Completes cfg (run cfg st a).1 b →
    Completes cfg st (a ++ b) := by
  induction a with
  | nil => intro st _ h; exact h
  | cons op a ih =>
    intro st h hb
    rw [run_cons _ h.1] at hb
    exact ⟨h.1, ih _ h.2 hb⟩

theorem run_agree {cfg : Cfg} (ht : TableOk cfg.tbl) (ops : List Op) : ∀ {st : St}, Waiting cfg st → (∀ op ∈ ops, op.Fair) →
    (∀ env e, .quiesced env e ∈ ops → e = 0) → Completes cfg st ops →
    Completes cfg st.rest (direct cfg st ops) ∧ (run cfg st.rest (direct cfg st ops)).1 = (run cfg st ops).1.rest ∧
      visible (run cfg st.rest (direct cfg st ops)).2 = visible (run cfg st ops).2 ∧
      held st ++ arrivals (run cfg st ops).2 = arrivals (run cfg st.rest (direct cfg st ops)).2 ++ held (run cfg st ops).1 := by
  induction ops with
  | nil => intro st _ _ _ _; exact ⟨trivial, rfl, rfl, List.append_nil _⟩
  | cons op ops ih =>
    intro st hw hf hq hc
    obtain ⟨w1, a1, a2, a3, a4⟩ := call_agree ht hw op (hf op List.mem_cons_self)
      (fun env e h => hq env e (by rw [← h]; exact List.mem_cons_self)) hc.1
    obtain ⟨i1, i2, i3, i4⟩ := ih w1 (fun o ho => hf o (List.mem_cons_of_mem _ ho))
      (fun env e h => hq env e (List.mem_cons_of_mem _ h)) hc.2
    rw [← a2] at i1 i2 i3 i4
    unfold direct
    rw [run_app _ _ _ a1, run_cons _ hc.1]
    dsimp only
    refine ⟨completes_app _ _ _ a1 i1, i2, ?_, ?_⟩
    · rw [visible_append, visible_append, a3, i3]
      rfl
    · rw [arrivals_append, arrivals_append, ← List.append_assoc, a4]
      show _ ++ arrivals (run cfg (call cfg st op).st ops).2 = _
      rw [List.append_assoc, i4, ← List.append_assoc]

/-- C84: to every history in which the device defers as it likes there is one with a device that never does, in which the
same requests arrive (but for one held back at the end), the client gets the same replies, the device the same callbacks, and
the operating system the same calls, in the same order, and which ends in the same state. -/
theorem C84_defer {cfg : Cfg} (ht : TableOk cfg.tbl) {st : St} (hp : st.pending = .none) (hi : st.quiesced = false)
    (ops : List Op) (hf : ∀ op ∈ ops, op.Fair) (hq : ∀ env e, .quiesced env e ∈ ops → e = 0) (hc : Completes cfg st ops) :
    ∃ ops', (∀ op ∈ ops', op.Prompt) ∧ Completes cfg st ops' ∧
      arrivals (run cfg st ops).2 = arrivals (run cfg st ops').2 ++ held (run cfg st ops).1 ∧
      visible (run cfg st ops').2 = visible (run cfg st ops).2 ∧
      (run cfg st ops').1 = { (run cfg st ops).1 with pending := .none } := by
  have hr : st.rest = st := by
    unfold St.rest
    rw [← hp]
  have hh : held st = [] := by
    unfold held
    rw [hp]
  obtain ⟨g1, g2, g3, g4⟩ := run_agree ht ops ⟨hi, fun h => absurd hp h, fun m h => by rw [hp] at h; cases h⟩ hf hq hc
  rw [hr, hh] at g4
  rw [hr] at g1 g2 g3
  exact ⟨direct cfg st ops, direct_prompt cfg st ops, g1, g4, g3, g2⟩

/-! ## Examples -/

section
open Demo

/-- DMA_MAP is deferred; the device signals, the application polls, the device is quiesced; then a reset at once; then the client
leaves and the device defers again. -/
def dallying : List Op :=
  [.run busy (req 1 2 0 (mapBody 0x100000) [7]), .trigger none 0, .run env (req 2 4 0 (enc 4 16 ++ enc 12 0) []), .quiesced env 0,
   .run env (req 3 13 0 [] []), .run busy (.lost ENOMSG []), .quiesced env 0]

theorem dallying_fair : ∀ op ∈ dallying, op.Fair := by
  intro op hop
  simp only [dallying, List.mem_cons, List.not_mem_nil, or_false] at hop
  rcases hop with rfl | rfl | rfl | rfl | rfl | rfl | rfl
  · exact ⟨busy_fair, req_real _ _ _ _ _ (by decide) (by decide) (by decide) (by decide) (by decide) (.inl (by decide)) (by decide)⟩
  · trivial
  · exact ⟨env_fair, req_real _ _ _ _ _ (by decide) (by decide) (by decide) (by decide) (by decide) (.inl (by decide)) (by decide)⟩
  · exact env_fair
  · exact ⟨env_fair, req_real _ _ _ _ _ (by decide) (by decide) (by decide) (by decide) (by decide) (.inr rfl) (by decide)⟩
  · exact ⟨busy_fair, ⟨[], true, []⟩, rfl⟩
  · exact env_fair

theorem dallying_done : Completes cfg Demo.st dallying :=
  ⟨by decide +kernel, by decide +kernel, by decide +kernel, by decide +kernel, by decide +kernel, by decide +kernel, by decide +kernel,
    trivial⟩

example : (∃ ops', (∀ op ∈ ops', op.Prompt) ∧ visible (run cfg Demo.st ops').2 = visible (run cfg Demo.st dallying).2) ∧
    (direct cfg Demo.st dallying).length = 4 ∧
    (sents (run cfg Demo.st dallying).2).map (fun w => (Wire.Hdr.ofBytes w.bytes).id) = [1, 3] ∧
    calls (run cfg Demo.st dallying).2 ≠ calls (run cfg Demo.st (direct cfg Demo.st dallying)).2 := by
  refine ⟨?_, by decide +kernel, by decide +kernel, by decide +kernel⟩
  obtain ⟨ops', h1, _, _, h4, _⟩ := C84_defer table_ok (st := Demo.st) rfl rfl dallying dallying_fair
    (by intro e n h; simp [dallying] at h; omega) dallying_done
  exact ⟨ops', h1, h4⟩

/-- The reply cannot be sent. -/
def dead : Env := { env with snd := fun _ => .error ECONNRESET }

/-- The proviso that replies can be sent is needed: the device is asked to quiesce twice for one request, unless it deferred. -/
theorem C84_twice :
    calls (call cfg Demo.st (.run dead (req 1 13 0 [] []))).evs =
        [.quiesce none, .reset .device, .quiesce none, .reset .lostConn] ∧
      calls (run cfg Demo.st [.run busy (req 1 13 0 [] []), .quiesced dead 0]).2 =
        [.quiesce (some EBUSY), .reset .device, .reset .lostConn] := by
  refine ⟨?_, ?_⟩ <;> decide +kernel

end

end Verif.Server
