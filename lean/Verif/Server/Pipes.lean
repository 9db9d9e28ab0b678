import Verif.Server.Loop
import Verif.Server.Reset
import Verif.Wire.Pipe

/-!
# C102: a device on a pipe

`VFU_TRANS_PIPE`: requests on standard input, replies on standard output (`lib/tran_pipe.c`).  Here `vfu_run_ctx` runs on the pipe.
`tran_pipe_detach` (`lib/tran_pipe.c:441-445`) does nothing, so the transport does not know that the client is gone. -/

namespace Verif.Server
open Verif
open Verif.Dma (Fd)

/-- `arrive`: the client writes, or closes its end.  `run`: the loop body of `vfu_run_ctx` runs once.  `dev`: another call into the
library. -/
inductive PipeStep where
  | arrive (bytes : List Byte) (close : Bool)
  | run (env : Env)
  | dev (op : Op)

/-- The incoming pipe and the context; `st.conn`: the transport has descriptors (`lib/tran_pipe.c:42-45`).  `evs`, `rets`: what
happened, what the rounds returned.  `dead`: the process ended abnormally. -/
structure Tube where
  pipe : Wire.Pipe
  st : St
  evs : List Ev
  rets : List (Res Unit)
  dead : Bool

/-- The loop body of `vfu_run_ctx`, `lib/libvfio-user.c:1658-1694`, with `tran_pipe_get_request_header`
(`lib/tran_pipe.c:300-314`), which reads whatever the descriptor is.  After it the descriptors are what they were. -/
def pipeRun (cfg : Cfg) (env : Env) (m : Tube) : Tube :=
  if m.st.pending ≠ .none then { m with rets := m.rets ++ [.err EBUSY] }
  else if m.st.conn = false then { m with rets := m.rets ++ [.err Wire.EBADF] }
  else
    let o := poll cfg env m.st m.pipe.next.1
    { pipe := m.pipe.next.2, st := { o.st with conn := true }, evs := m.evs ++ o.evs, rets := m.rets ++ [o.res]
      dead := o.res.isFault }

def pipeStep (cfg : Cfg) (m : Tube) (s : PipeStep) : Tube :=
  if m.dead = true then m
  else
    match s with
    | .arrive bytes close => { m with pipe := { m.pipe with bytes := m.pipe.bytes ++ bytes, closed := m.pipe.closed || close } }
    | .run env => pipeRun cfg env m
    | .dev op =>
      let o := call cfg m.st op
      { m with st := { o.st with conn := m.st.conn }, evs := m.evs ++ o.evs, dead := o.res.isFault }

def pipeGo (cfg : Cfg) (m : Tube) (l : List PipeStep) : Tube := l.foldl (pipeStep cfg) m

/-- `lib/tran_pipe.c:275-298` `tran_pipe_attach`, `nego` as for `attach`: no look at what is attached already; a failure takes the
descriptors away. -/
def pipeAttach (m : Tube) (nego : Except Nat Wire.Caps) : Tube :=
  match nego with
  | .error e => { m with st := { m.st with conn := false }, rets := m.rets ++ [.err e] }
  | .ok c => { m with st := { m.st with conn := true, maxFds := c.maxFds, maxXfer := c.maxXfer }, rets := m.rets ++ [.ok ()] }

/-! ## A history -/

/-- The device's own calls. -/
def PipeStep.Own : PipeStep → Prop
  | .dev (.run _ _) => False
  | .dev (.attach _) => False
  | _ => True

/-- The call is made of a step, or gives the connection back. -/
def Op.ofPipe (steps : List PipeStep) : Op → Prop
  | .run env i => .run env ∈ steps ∧ Real i
  | .attach n => ∃ c, n = .ok c
  | op => .dev op ∈ steps

/-- What happened is a history of calls on a socket. -/
def Plays (cfg : Cfg) (st : St) (P : Op → Prop) (m : Tube) : Prop :=
  ∃ ops, (∀ op ∈ ops, P op) ∧ Completes cfg st ops ∧ (run cfg st ops).1 = m.st ∧ noRet (run cfg st ops).2 = noRet m.evs

theorem Plays.snoc {cfg : Cfg} {st : St} {P : Op → Prop} {m m' : Tube} (h : Plays cfg st P m) (op : Op) (hop : P op)
    (h0 : (call cfg m.st op).res.isFault = false) (h1 : m'.st = (call cfg m.st op).st)
    (h2 : m'.evs = m.evs ++ (call cfg m.st op).evs) : Plays cfg st P m' := by
  obtain ⟨ops, g1, g2, g3, g4⟩ := h
  have hr : run cfg m.st [op] = ((call cfg m.st op).st, (call cfg m.st op).evs ++ [.ret]) := by
    unfold run
    dsimp only
    rw [if_neg (by rw [h0]; simp)]
    rfl
  refine ⟨ops ++ [op], ?_, ?_, ?_, ?_⟩
  · intro o ho
    rcases List.mem_append.mp ho with ho | ho
    · exact g1 o ho
    · rw [List.mem_singleton.mp ho]; exact hop
  · exact completes_app ops [op] st g2 (by rw [g3]; exact ⟨h0, trivial⟩)
  · rw [run_app ops [op] st g2, g3, hr, h1]
  · rw [run_app ops [op] st g2, g3, hr]
    dsimp only
    rw [noRet_append, noRet_append, h2, noRet_append, g4]
    show _ ++ (_ ++ []) = _
    rw [List.append_nil]

/-- A call after which the descriptors are what they were. -/
theorem Plays.back {cfg : Cfg} {st : St} {P : Op → Prop} {m m' : Tube} (h : Plays cfg st P m) (op : Op) (hop : P op)
    (hat : ∀ c, P (.attach (.ok c)))
    (h0 : (call cfg m.st op).res.isFault = false) (h1 : m'.st = { (call cfg m.st op).st with conn := true })
    (h2 : m'.evs = m.evs ++ (call cfg m.st op).evs) : Plays cfg st P m' := by
  have h3 := h.snoc op hop h0 (m' := { m with st := (call cfg m.st op).st, evs := m.evs ++ (call cfg m.st op).evs }) rfl rfl
  by_cases hx : (call cfg m.st op).st.conn = true
  · obtain ⟨ops, g1, g2, g3, g4⟩ := h3
    refine ⟨ops, g1, g2, ?_, by rw [h2]; exact g4⟩
    rw [g3, h1]
    dsimp only
    rw [← hx]
  · have hn : (call cfg (call cfg m.st op).st
        (.attach (.ok { maxFds := (call cfg m.st op).st.maxFds, maxXfer := (call cfg m.st op).st.maxXfer }))) =
        { st := { (call cfg m.st op).st with conn := true }, res := .ok (), evs := [] } := by
      generalize (call cfg m.st op).st = s at hx
      simp only [call, attach, if_neg hx]
    refine h3.snoc (.attach (.ok { maxFds := (call cfg m.st op).st.maxFds, maxXfer := (call cfg m.st op).st.maxXfer })) (hat _)
      ?_ ?_ ?_
    · dsimp only; rw [hn]; rfl
    · dsimp only; rw [hn, h1]
    · dsimp only; rw [hn, h2, List.append_nil]

/-- Whatever holds at the start and is kept by the steps of a list. -/
theorem pipeGo_inv {cfg : Cfg} (I : Tube → Prop) (steps : List PipeStep) : ∀ m : Tube, I m →
    (∀ m, I m → ∀ s ∈ steps, (pipeStep cfg m s).dead = false → m.dead = false → I (pipeStep cfg m s)) →
    (pipeGo cfg m steps).dead = false → I (pipeGo cfg m steps) := by
  have hdead : ∀ (l : List PipeStep) (m : Tube), m.dead = true → (pipeGo cfg m l).dead = true := by
    intro l
    induction l with
    | nil => exact fun _ h => h
    | cons s l ih =>
      intro m h
      refine ih (pipeStep cfg m s) ?_
      unfold pipeStep
      rw [if_pos h]
      exact h
  induction steps with
  | nil => exact fun m h _ _ => h
  | cons s l ih =>
    intro m h hk hd
    have hd1 : (pipeStep cfg m s).dead = false := by
      by_contra hh
      have : (pipeGo cfg (pipeStep cfg m s) l).dead = true := hdead l _ (by simpa using hh)
      have h2 : (pipeGo cfg (pipeStep cfg m s) l).dead = false := hd
      rw [this] at h2; cases h2
    have hd0 : m.dead = false := by
      by_contra hh
      have hh : m.dead = true := by simpa using hh
      have : (pipeStep cfg m s).dead = true := by unfold pipeStep; rw [if_pos hh]; exact hh
      rw [this] at hd1; cases hd1
    exact ih (pipeStep cfg m s) (hk m h s List.mem_cons_self hd1 hd0) (fun m hm s hs => hk m hm s (List.mem_cons_of_mem _ hs)) hd

/-- C102: whatever arrives on the pipe, in whatever pieces, whoever calls, what happens is a history of calls on a socket, with the
messages that a socket would deliver, if a client that went away is followed at once by one with the same limits.  So the theorems
about all histories hold on pipes. -/
theorem C102_history {cfg : Cfg} (m0 : Tube) (hc : m0.st.conn = true) (he : m0.evs = []) (steps : List PipeStep)
    (ho : ∀ s ∈ steps, s.Own) (hd : (pipeGo cfg m0 steps).dead = false) :
    (pipeGo cfg m0 steps).st.conn = true ∧
    ∃ ops, (∀ op ∈ ops, op.ofPipe steps) ∧ Completes cfg m0.st ops ∧ (run cfg m0.st ops).1 = (pipeGo cfg m0 steps).st ∧
      noRet (run cfg m0.st ops).2 = noRet (pipeGo cfg m0 steps).evs := by
  refine pipeGo_inv (fun m => m.st.conn = true ∧ Plays cfg m0.st (Op.ofPipe steps) m) steps m0
    ⟨hc, [], (fun _ h => by cases h), trivial, rfl, by rw [he]; rfl⟩ ?_ hd
  rintro m ⟨hm1, hm⟩ s hs h1 h0
  have hown := ho s hs
  unfold pipeStep at h1 ⊢
  rw [if_neg (by rw [h0]; simp)] at h1 ⊢
  cases s with
  | arrive bytes close => exact ⟨hm1, hm⟩
  | run env =>
    dsimp only at h1 ⊢
    unfold pipeRun at h1 ⊢
    by_cases hp : m.st.pending ≠ .none
    · rw [if_pos hp]; exact ⟨hm1, hm⟩
    rw [if_neg hp, if_neg (by rw [hm1]; simp)] at h1 ⊢
    refine ⟨rfl, hm.back (.run env m.pipe.next.1) ⟨hs, m.pipe.sock, ?_⟩ (fun c => ⟨c, rfl⟩) h1 rfl rfl⟩
    rw [Wire.Pipe.next_sock]
  | dev op =>
    dsimp only at h1 ⊢
    refine ⟨hm1, hm.back op ?_ (fun c => ⟨c, rfl⟩) h1 (by rw [hm1]) rfl⟩
    cases op <;> first | exact hs | exact hown.elim

/-- A state reached by calls that all returned. -/
def Attained (cfg : Cfg) (mig : Bool) (dma : Option (Nat × Nat)) (st : St) : Prop :=
  ∃ pci ops, (∀ op ∈ ops, Op.OSOk op) ∧ Completes cfg (init cfg mig dma pci) ops ∧ st = (run cfg (init cfg mig dma pci) ops).1

theorem Attained.reachable {cfg : Cfg} {mig : Bool} {dma : Option (Nat × Nat)} {st : St} (h : Attained cfg mig dma st) :
    Reachable cfg mig dma st := by
  obtain ⟨pci, ops, h1, _, h3⟩ := h
  exact ⟨pci, ops, h1, h3⟩

/-- C102: in particular every state reached on a pipe is one that is reached on a socket. -/
theorem C102_reachable {cfg : Cfg} {mig : Bool} {dma : Option (Nat × Nat)} (m0 : Tube) (hr : Attained cfg mig dma m0.st)
    (hc : m0.st.conn = true) (he : m0.evs = []) (steps : List PipeStep) (ho : ∀ s ∈ steps, s.Own)
    (hos : ∀ s ∈ steps, (∀ env, s = .run env → env.os.Ok) ∧ ∀ op, s = .dev op → op.OSOk)
    (hd : (pipeGo cfg m0 steps).dead = false) : Attained cfg mig dma (pipeGo cfg m0 steps).st := by
  obtain ⟨_, ops, g1, g2, g3, _⟩ := C102_history m0 hc he steps ho hd
  obtain ⟨pci, ops0, h1, h2, h3⟩ := hr
  rw [h3] at g2 g3
  refine ⟨pci, ops0 ++ ops, fun op ho => ?_, completes_app ops0 ops _ h2 g2, by rw [run_app ops0 ops _ h2]; exact g3.symm⟩
  rcases List.mem_append.mp ho with ho | ho
  · exact h1 op ho
  · have := g1 op ho
    cases op with
    | run env i => exact fun e he => by cases he; exact (hos _ this.1).1 env rfl
    | attach n => exact fun e he => by cases he
    | quiesced env e => exact (hos _ this).2 _ rfl
    | transfer env l => exact (hos _ this).2 _ rfl
    | config f => exact fun e he => by cases he
    | mark l => exact fun e he => by cases he
    | trigger a b => exact fun e he => by cases he

/-! ## Replies -/

/-- C102: what a reply on the pipe is made of: the reply on the socket, with the size field zero and without its descriptors.  A
write takes all or fails. -/
theorem C102_reply (snd : Wire.Send) (hs : ∀ n, snd n = .ok n ∨ ∃ e, snd n = .error e) (h : Wire.Hdr) (body : Wire.Body)
    (fds : List (Option Fd)) (hf : fds.any Option.isNone = false) (err : Nat) :
    Wire.Pipe.reply snd h body err = ((Wire.reply snd h body fds err).1,
      (Wire.reply snd h body fds err).2.map fun w => w.bytes.take 4 ++ List.replicate 4 0#8 ++ w.bytes.drop 8) := by
  have key : ∀ l : List Byte, Wire.Pipe.sendIovec.go snd (Wire.Pipe.mkHdr h.id h.cmd true err) l =
      ((Wire.sendIovec.go snd (Wire.mkHdr h.id h.cmd true l.length err) l fds).1,
        (Wire.sendIovec.go snd (Wire.mkHdr h.id h.cmd true l.length err) l fds).2.map
          fun w => w.bytes.take 4 ++ List.replicate 4 0#8 ++ w.bytes.drop 8) := by
    intro l
    have hlen : ((Wire.Pipe.mkHdr h.id h.cmd true err).bytes ++ l).length =
        ((Wire.mkHdr h.id h.cmd true l.length err).bytes ++ l).length := by
      rw [List.length_append, List.length_append, Wire.Hdr.bytes_length, Wire.Hdr.bytes_length]
    unfold Wire.Pipe.sendIovec.go Wire.sendIovec.go
    rw [if_neg (by rw [hf]; simp)]
    dsimp only
    rw [hlen]
    rcases hs ((Wire.mkHdr h.id h.cmd true l.length err).bytes ++ l).length with hx | ⟨e, hx⟩
    · rw [hx]
      dsimp only
      have h1 : ¬ ((Wire.mkHdr h.id h.cmd true l.length err).bytes ++ l).length < (Wire.Pipe.mkHdr h.id h.cmd true err).size :=
        Nat.not_lt_zero _
      have h2 : ¬ ((Wire.mkHdr h.id h.cmd true l.length err).bytes ++ l).length < (Wire.mkHdr h.id h.cmd true l.length err).size := by
        rw [List.length_append, Wire.Hdr.bytes_length]
        show ¬ 16 + l.length < (16 + l.length) % U32
        have := Nat.mod_le (16 + l.length) U32
        omega
      rw [if_neg h1, if_neg h2, ← hlen, List.take_length, hlen, List.take_length]
      refine congrArg _ ?_
      simp only [List.map_cons, List.map_nil]
      congr 1
      have e : ∀ (a b c d f g : List Byte), a.length = 2 → b.length = 2 → c.length = 4 →
          (a ++ b ++ c ++ d ++ f ++ g).take 4 = a ++ b ∧ (a ++ b ++ c ++ d ++ f ++ g).drop 8 = d ++ f ++ g := by
        intro a b c d f g ha hb hc
        constructor
        · simp only [List.append_assoc]
          rw [← List.append_assoc a b, List.take_append_of_le_length (by simp; omega), List.take_of_length_le (by simp; omega)]
        · simp only [List.append_assoc]
          rw [← List.append_assoc a b, ← List.append_assoc (a ++ b) c, List.drop_append_of_le_length (by simp; omega),
            List.drop_of_length_le (by simp; omega), List.nil_append]
      obtain ⟨e1, e2⟩ := e (enc 2 h.id) (enc 2 h.cmd) (enc 4 (Wire.mkHdr h.id h.cmd true l.length err).size)
        (enc 4 (Wire.mkHdr h.id h.cmd true l.length err).flags) (enc 4 (Wire.mkHdr h.id h.cmd true l.length err).err) l
        (enc_length _ _) (enc_length _ _) (enc_length _ _)
      unfold Wire.Hdr.bytes
      rw [show (Wire.mkHdr h.id h.cmd true l.length err).id = h.id from rfl,
        show (Wire.mkHdr h.id h.cmd true l.length err).cmd = h.cmd from rfl, e1, e2]
      have z : enc 4 (Wire.Pipe.mkHdr h.id h.cmd true err).size = List.replicate 4 0#8 := by
        show enc 4 0 = _
        decide
      rw [z]
      simp only [List.append_assoc]
      rfl
    · rw [hx]
      rfl
  unfold Wire.Pipe.reply Wire.reply Wire.Pipe.sendIovec Wire.sendIovec
  cases body with
  | bytes l => exact key l
  | null n =>
    cases n with
    | zero => exact key []
    | succ n => rfl

/-! ## The end of the stream -/

theorem next_eof {p : Wire.Pipe} (hb : p.bytes = []) (hc : p.closed = true) : p.next = (.lost ENOMSG [], p) := by
  have h1 : p.read Wire.HDR = (.ok [], p) := by
    unfold Wire.Pipe.read
    rw [if_pos hb, if_pos hc]
  unfold Wire.Pipe.next Wire.Pipe.getHeader Wire.Pipe.getMsg
  rw [h1]
  rfl

/-- What the context `m` is like after the client's end was noticed in `st`, by the calls `envs`. -/
structure Over (cfg : Cfg) (mig : Bool) (dma : Option (Nat × Nat)) (st : St) (envs : List Env) (m : Tube) : Prop where
  idle : m.st.pending = .none
  dma : m.st.dma = dma.map (fun x =>
    { maxRegions := x.1, maxSize := x.2, regions := [], dirtyPgsize := (st.dma.map (·.dirtyPgsize)).getD 0 })
  irqs : m.st.irqs = Irq.realize cfg.irq
  /-- the device is asked to reset itself each time -/
  asked : resets m.evs = if cfg.hasReset = true then List.replicate envs.length .lostConn else []
  /-- the regions are taken away once -/
  told : told m.evs = if cfg.dma.hasUnreg = true then (st.dma.map (·.regions.map (·.info))).getD [] else []
  running : (∀ env ∈ envs, cfg.hasReset = true → env.resetCb .lostConn = none) → m.st.mig = if mig = true then some 2 else none
  config : m.st.pci = { st.pci with
    mem := if cfg.hasReset = true then envs.foldl (fun mem env => env.resetMem mem) st.pci.mem else st.pci.mem }
  rets : m.rets = List.replicate envs.length (.err ENOTCONN)

section
variable {cfg : Cfg} {mig : Bool} {dma : Option (Nat × Nat)} {st : St}

/-- One call at the end of the stream. -/
theorem pipeStep_eof (hi : cfg.irq.Ok) {m : Tube} (hr : Attained cfg mig dma m.st) (hc : m.st.conn = true)
    (hp : m.st.pending = .none) (hd : m.dead = false) (hb : m.pipe.bytes = []) (hcl : m.pipe.closed = true) {env : Env}
    (he : env.os.Ok) (hq : cfg.hasQuiesce = true → env.quiesce 0 = none) :
    ∃ o, CleanSlate cfg env mig dma m.st o ∧ Attained cfg mig dma { o.st with conn := true } ∧
      pipeStep cfg m (.run env) = ⟨m.pipe, { o.st with conn := true }, m.evs ++ o.evs,
        m.rets ++ [.err ENOTCONN], false⟩ := by
  obtain ⟨h1, h2⟩ := C57_lost hi hr.reachable hc hp env hq ENOMSG []
  have h3 : pipeStep cfg m (.run env) = ⟨m.pipe, { (poll cfg env m.st (.lost ENOMSG [])).st with conn := true },
      m.evs ++ (poll cfg env m.st (.lost ENOMSG [])).evs, m.rets ++ [.err ENOTCONN], false⟩ := by
    unfold pipeStep
    rw [if_neg (by rw [hd]; simp)]
    dsimp only
    unfold pipeRun
    rw [if_neg (not_not_intro hp), if_neg (by rw [hc]; simp), next_eof hb hcl]
    dsimp only
    have h1 : (poll cfg env m.st (.lost ENOMSG [])).res = .err ENOTCONN := h1
    rw [h1]
    rfl
  refine ⟨call cfg m.st (.run env (.lost ENOMSG [])), h2, ?_, h3⟩
  have hx : ({ m with evs := [] } : Tube).dead = false := hd
  have h4 := C102_reachable { m with evs := [] } hr hc rfl [.run env] (fun s hs => by rw [List.mem_singleton.mp hs]; trivial)
    (fun s hs => by
      rw [List.mem_singleton.mp hs]
      exact ⟨fun e h => (by cases h; exact he), fun op h => (by cases h)⟩)
  have h5 : pipeGo cfg { m with evs := [] } [.run env] = ⟨m.pipe,
      { (poll cfg env m.st (.lost ENOMSG [])).st with conn := true },
      (poll cfg env m.st (.lost ENOMSG [])).evs, m.rets ++ [.err ENOTCONN], false⟩ := by
    show pipeStep cfg { m with evs := [] } (.run env) = _
    unfold pipeStep
    rw [if_neg (by rw [hx]; simp)]
    dsimp only
    unfold pipeRun
    rw [if_neg (not_not_intro hp), if_neg (by dsimp only; rw [hc]; simp)]
    dsimp only
    rw [next_eof hb hcl]
    dsimp only
    have h1 : (poll cfg env m.st (.lost ENOMSG [])).res = .err ENOTCONN := h1
    rw [h1]
    rfl
  rw [h5] at h4
  exact h4 rfl

/-- C102: at the end of the stream every call of `vfu_run_ctx` resets the context and the device once more, and returns -1 with
ENOTCONN.  The first one takes the regions away. -/
theorem C102_again (hi : cfg.irq.Ok) {m : Tube} (hr : Attained cfg mig dma m.st) (hc : m.st.conn = true)
    (hp : m.st.pending = .none) (hd : m.dead = false) (hb : m.pipe.bytes = []) (hcl : m.pipe.closed = true)
    (hev : m.evs = []) (hrt : m.rets = []) {envs : List Env} (hne : envs ≠ []) (he : ∀ env ∈ envs, env.os.Ok)
    (hq : ∀ env ∈ envs, cfg.hasQuiesce = true → env.quiesce 0 = none) :
    Over cfg mig dma m.st envs (pipeGo cfg m (envs.map .run)) := by
  suffices h : ∀ envs : List Env, envs ≠ [] → (∀ env ∈ envs, env.os.Ok) →
      (∀ env ∈ envs, cfg.hasQuiesce = true → env.quiesce 0 = none) →
      let m' := pipeGo cfg m (envs.map .run)
      Over cfg mig dma m.st envs m' ∧ Attained cfg mig dma m'.st ∧ m'.st.conn = true ∧ m'.dead = false ∧ m'.pipe = m.pipe from
    (h envs hne he hq).1
  intro envs
  induction envs using List.reverseRecOn with
  | nil => exact fun h => absurd rfl h
  | append_singleton envs env ih =>
    intro _ he hq m'
    have hm' : m' = pipeStep cfg (pipeGo cfg m (envs.map .run)) (.run env) := by
      show pipeGo cfg m ((envs ++ [env]).map .run) = _
      rw [List.map_append]
      unfold pipeGo
      rw [List.foldl_append]
      rfl
    have heN := he env (by simp)
    have hqN := hq env (by simp)
    by_cases hnil : envs = []
    · subst hnil
      obtain ⟨o, o1, o2, o3⟩ := pipeStep_eof hi hr hc hp hd hb hcl heN hqN
      have hm' : m' = _ := hm'.trans o3
      rw [hm', hev, hrt]
      refine ⟨⟨o1.idle, o1.dma, o1.irqs_init, ?_, ?_, ?_, ?_, rfl⟩, o2, rfl, rfl, rfl⟩
      · exact o1.asked
      · exact o1.told
      · exact fun h => o1.running (h env (by simp))
      · exact o1.config
    · obtain ⟨i1, i2, i3, i4, i5⟩ := ih hnil (fun e h => he e (List.mem_append_left _ h)) (fun e h => hq e (List.mem_append_left _ h))
      obtain ⟨o, o1, o2, o3⟩ := pipeStep_eof hi i2 i3 i1.idle i4 (by rw [i5]; exact hb) (by rw [i5]; exact hcl) heN hqN
      rw [hm'.trans o3]
      refine ⟨⟨o1.idle, ?_, o1.irqs_init, ?_, ?_, ?_, ?_, ?_⟩, o2, rfl, rfl, i5⟩
      · dsimp only
        rw [o1.dma, i1.dma]
        cases dma <;> rfl
      · dsimp only
        rw [resets_append, i1.asked, o1.asked, List.length_append]
        by_cases hh : cfg.hasReset = true
        · rw [if_pos hh, if_pos hh, if_pos hh, List.replicate_add]; rfl
        · rw [if_neg hh, if_neg hh, if_neg hh]; rfl
      · dsimp only
        rw [told_append, i1.told, o1.told, i1.dma]
        by_cases hh : cfg.dma.hasUnreg = true
        · rw [if_pos hh, if_pos hh]
          cases dma <;> simp
        · rw [if_neg hh, if_neg hh]; rfl
      · exact fun h => o1.running (h env (by simp))
      · dsimp only
        rw [o1.config, i1.config]
        by_cases hh : cfg.hasReset = true
        · simp only [if_pos hh, List.foldl_append, List.foldl_cons, List.foldl_nil]
        · simp only [if_neg hh]
      · dsimp only
        rw [i1.rets, List.length_append, List.replicate_add]
        rfl

/-- C102: on a socket only the first one does. -/
theorem C102_once (hi : cfg.irq.Ok) (hr : Reachable cfg mig dma st) (hc : st.conn = true) (hp : st.pending = .none)
    {env : Env} (hq : cfg.hasQuiesce = true → env.quiesce 0 = none) (later : List (Env × Wire.In)) :
    resets (run cfg st (.run env (.lost ENOMSG []) :: later.map fun x => .run x.1 x.2)).2 =
      if cfg.hasReset = true then [.lostConn] else [] := by
  obtain ⟨h1, h2⟩ := C57_lost hi hr hc hp env hq ENOMSG []
  have hrest : ∀ (later : List (Env × Wire.In)) (s : St), s.conn = false → s.pending = .none →
      resets (run cfg s (later.map fun x => .run x.1 x.2)).2 = [] := by
    intro later
    induction later with
    | nil => exact fun _ _ _ => rfl
    | cons x later ih =>
      intro s g1 g2
      have hx : call cfg s (.run x.1 x.2) = { st := s, res := .err ENOTCONN, evs := [] } := by
        simp only [call, poll, if_neg (not_not_intro g2), if_pos g1]
      rw [List.map_cons]
      unfold run
      dsimp only
      rw [hx, if_neg (by simp [Res.isFault])]
      exact ih s g1 g2
  unfold run
  dsimp only
  rw [if_neg (by rw [h1]; simp [Res.isFault]), resets_append, h2.asked]
  show _ ++ resets (run cfg _ (later.map fun x => .run x.1 x.2)).2 = _
  rw [hrest later _ h2.conn h2.idle, List.append_nil]

/-- C102: while a request waits for the device, `vfu_run_ctx` on a pipe returns -1 with EBUSY and touches nothing, as on a socket:
what arrives stays in the pipe. -/
theorem C102_pending (m : Tube) (hp : m.st.pending ≠ .none) (hd : m.dead = false) (env : Env) (inp : Wire.In) :
    pipeStep cfg m (.run env) = { m with rets := m.rets ++ [.err EBUSY] } ∧
      call cfg m.st (.run env inp) = { st := m.st, res := .err EBUSY, evs := [] } := by
  constructor
  · unfold pipeStep
    rw [if_neg (by rw [hd]; simp)]
    dsimp only
    unfold pipeRun
    rw [if_pos hp]
  · simp only [call, poll, if_pos hp]

/-- C102: attaching on a pipe does not ask whether a client is attached.  If it fails, the context keeps what that client
established, each `vfu_run_ctx` returns -1 with EBADF and does nothing, and a later success hands all of it to the new client. -/
theorem C102_inherited (m : Tube) (hp : m.st.pending = .none) (hd : m.dead = false) (e : Nat) (envs : List Env) (c : Wire.Caps) :
    let m1 := pipeGo cfg (pipeAttach m (.error e)) (envs.map .run)
    m1.evs = m.evs ∧ m1.rets = m.rets ++ .err e :: List.replicate envs.length (.err Wire.EBADF) ∧
      (pipeAttach m1 (.ok c)).st = { m.st with conn := true, maxFds := c.maxFds, maxXfer := c.maxXfer } := by
  have key : ∀ (envs : List Env) (x : Tube), x.st.pending = .none → x.dead = false → x.st.conn = false →
      pipeGo cfg x (envs.map .run) = { x with rets := x.rets ++ List.replicate envs.length (.err Wire.EBADF) } := by
    intro envs
    induction envs with
    | nil => intro x _ _ _; simp [pipeGo]
    | cons env envs ih =>
      intro x h1 h2 h3
      have hs : pipeStep cfg x (.run env) = { x with rets := x.rets ++ [.err Wire.EBADF] } := by
        unfold pipeStep
        rw [if_neg (by rw [h2]; simp)]
        dsimp only
        unfold pipeRun
        rw [if_neg (not_not_intro h1), if_pos h3]
      show pipeGo cfg (pipeStep cfg x (.run env)) (envs.map .run) = _
      rw [hs, ih { x with rets := x.rets ++ [.err Wire.EBADF] } h1 h2 h3]
      simp [List.replicate_succ]
  intro m1
  have hm1 : m1 = _ := key envs (pipeAttach m (.error e)) hp hd rfl
  rw [hm1]
  refine ⟨rfl, ?_, rfl⟩
  show m.rets ++ [.err e] ++ _ = _
  rw [List.append_assoc]
  rfl

end

/-! ## Examples -/

section
open Demo

/-- A client attached, without having sent a request. -/
def piped : Tube := ⟨⟨[], false, []⟩, (run cfg (init cfg true (some (8, 2 ^ 40)) pci)
  [.attach (.ok { maxFds := 8, maxXfer := 1048576, pgsize := 4096 })]).1, [], [], false⟩

theorem piped_attained : Attained cfg true (some (8, 2 ^ 40)) piped.st :=
  ⟨pci, [.attach (.ok { maxFds := 8, maxXfer := 1048576, pgsize := 4096 })],
    fun op ho => (by rw [List.mem_singleton.mp ho]; intro e he; cases he), ⟨by decide +kernel, trivial⟩, rfl⟩

/-- It maps a region and closes its end; `vfu_run_ctx` is called three times. -/
def pipedSteps : List PipeStep :=
  [.arrive ((hdr 1 2 0 32).bytes ++ mapBody 0x100000) false, .run env, .arrive [] true, .run env, .run env]

/-- Its region is taken away once, the device is reset twice. -/
example : (pipeGo cfg piped pipedSteps).dead = false ∧ resets (pipeGo cfg piped pipedSteps).evs = [.lostConn, .lostConn] ∧
    (told (pipeGo cfg piped pipedSteps).evs).map (·.base) = [0x100000] ∧
    (pipeGo cfg piped pipedSteps).rets = [.ok (), .err ENOTCONN, .err ENOTCONN] := by
  refine ⟨?_, ?_, ?_, ?_⟩ <;> decide +kernel

example : ∃ ops, (∀ op ∈ ops, op.ofPipe pipedSteps) ∧ Completes cfg piped.st ops ∧
    (run cfg piped.st ops).1 = (pipeGo cfg piped pipedSteps).st ∧
    noRet (run cfg piped.st ops).2 = noRet (pipeGo cfg piped pipedSteps).evs :=
  (C102_history piped (by decide +kernel) rfl pipedSteps
    (fun s hs => by
      simp only [pipedSteps, List.mem_cons, List.not_mem_nil, or_false] at hs
      rcases hs with rfl | rfl | rfl | rfl | rfl <;> trivial) (by decide +kernel)).2

/-- After the region is mapped. -/
def pipedMap : Tube := { pipeGo cfg piped (pipedSteps.take 2) with pipe := ⟨[], true, []⟩, evs := [], rets := [] }

theorem pipedMap_attained : Attained cfg true (some (8, 2 ^ 40)) pipedMap.st :=
  C102_reachable piped piped_attained (by decide +kernel) rfl (pipedSteps.take 2)
    (fun s hs => by
      simp only [pipedSteps, List.take_succ_cons, List.take_zero, List.mem_cons, List.not_mem_nil, or_false] at hs
      rcases hs with rfl | rfl <;> trivial)
    (fun s hs => by
      simp only [pipedSteps, List.take_succ_cons, List.take_zero, List.mem_cons, List.not_mem_nil, or_false] at hs
      rcases hs with rfl | rfl
      · exact ⟨fun e h => (by cases h), fun op h => (by cases h)⟩
      · exact ⟨fun e h => (by cases h; exact env_ok rfl), fun op h => (by cases h)⟩) (by decide +kernel)

example : Over cfg true (some (8, 2 ^ 40)) pipedMap.st [env, env, env] (pipeGo cfg pipedMap [.run env, .run env, .run env]) :=
  C102_again (m := pipedMap) irq_ok pipedMap_attained (by decide +kernel) (by decide +kernel) (by decide +kernel) rfl rfl rfl rfl
    (envs := [env, env, env]) (by simp) (fun e he => env_ok (by simp at he; rw [he]; rfl)) (fun e he _ => by simp at he; rw [he]; rfl)

/-- On a socket one reset. -/
example : resets (run cfg inSession [.run env (.lost ENOMSG []), .run env (.lost ENOMSG []), .run env .again]).2 = [.lostConn] :=
  C102_once irq_ok inSession_reachable (by decide +kernel) (by decide +kernel) (fun _ => rfl) [(env, .lost ENOMSG []), (env, .again)]

/-- A mapping the device wants to quiesce for: the next rounds say EBUSY and leave the second request in the pipe. -/
def pipedWait : Tube := pipeGo cfg piped
  [.arrive ((hdr 1 2 0 32).bytes ++ mapBody 0x100000) false, .run busy, .arrive ((hdr 2 2 0 32).bytes ++ mapBody 0x200000) false]

example : pipedWait.st.pending ≠ .none ∧ pipedWait.pipe.bytes.length = 48 ∧
    pipeStep cfg pipedWait (.run env) = { pipedWait with rets := pipedWait.rets ++ [.err EBUSY] } :=
  ⟨by decide +kernel, by decide +kernel, (C102_pending pipedWait (by decide +kernel) (by decide +kernel) env .again).1⟩

/-- The next client has the region of the one before. -/
example : ((pipeAttach (pipeGo cfg (pipeAttach pipedMap (.error EINVAL)) [.run env]) (.ok {})).st.dma.map
    fun c => c.regions.map fun r => r.info.base) = some [0x100000] := by
  have h := (C102_inherited (cfg := cfg) pipedMap (by decide +kernel) (by decide +kernel) EINVAL [env] {}).2.2
  rw [List.map_singleton] at h
  rw [h]
  decide +kernel

end

end Verif.Server
