import Verif.Server.Poll
import Verif.Server.Cause

/-!
# Calls into the library from inside the callback of a region

C108, second half.  A device answers an access to one of its regions, and while it does so calls the library: it marks pages dirty,
triggers interrupts, changes its config space, transfers data by message.  In `Server.Model` such calls are made between requests
only.  Here they are made in the callback, before it returns. -/

namespace Verif.Server
open Verif
open Verif.Dma (Fd)

/-- The callback of a region. -/
def Ev.isRegion : Ev → Bool
  | .call (.region ..) _ => true
  | _ => false

/-- Calls one after the other, until one ends abnormally. -/
def within (cfg : Cfg) : List Op → St → Out
  | [], st => { st, res := .ok (), evs := [] }
  | op :: ops, st =>
    let o := call cfg st op
    if o.res.isFault = true then o
    else
      let r := within cfg ops o.st
      { r with evs := o.evs ++ r.evs }

/-- The end of a callback that ended abnormally is the end of the handler. -/
def overruled (r s : Res Unit) : Res Unit :=
  match r with
  | .fault f => .fault f
  | _ => s

/-- A handler whose callback makes calls (`ins`) before it returns; what the handler itself does to the context it does not do
to a region other than the config space (`bar_exec`). -/
def inside (ins : St → Out) (d : Done) : Done :=
  if d.evs.any Ev.isRegion = true then
    let o := ins d.st
    { d with st := o.st, res := overruled o.res d.res, evs := d.evs ++ o.evs }
  else d

/-- `sendmsg` on `conn_fd`, which is -1 after `tran_sock_detach` (`lib/tran_sock.c:652-666`). -/
def sndAt (st : St) (snd : Wire.Send) : Wire.Send := if st.conn = true then snd else fun _ => .error Wire.EBADF

/-- `lib/libvfio-user.c:1316-1394` `handle_request`, as `handleRequest`. -/
def handleIn (cfg : Cfg) (env : Env) (ins : St → Out) (k : Nat) (st : St) (m : Msg) : Out :=
  let d := inside ins (exec cfg env st m)
  if d.res.isFault = true then { st := d.st, res := d.res, evs := .exec m.hdr :: d.evs }
  else finish cfg { env with snd := sndAt d.st env.snd } k m d

/-- `lib/libvfio-user.c:1604-1641` and `lib/libvfio-user.c:1664-1678`, as `dispatch`. -/
def dispatchIn (cfg : Cfg) (env : Env) (ins : St → Out) (st : St) (m : Msg) : Out :=
  if shouldExec st.mig m.hdr.cmd = false then
    let o := refuse cfg env 0 st m.hdr m.fds EINVAL
    { o with res := quiet o.res }
  else if needsQuiesce cfg st m = true then
    let ev := bracket .quiesce (.quiesce (env.quiesce 0)) st.quiesced
    match env.quiesce 0 with
    | some e =>
      if e = EBUSY then { st := { st with pending := .msg m }, res := .err e, evs := ev }
      else
        let o := refuse cfg env 1 st m.hdr m.fds e
        { o with res := quiet o.res, evs := ev ++ o.evs }
    | none =>
      let o := handleIn cfg env ins 1 { st with quiesced := true } m
      { st := { o.st with quiesced := false }, res := o.res, evs := ev ++ o.evs }
  else
    let o := handleIn cfg env ins 0 st m
    { st := { o.st with quiesced := false }, res := o.res, evs := o.evs }

/-! ## Requests to a region other than the config space -/

/-- A read or write of a region that is not the config space. -/
structure Bar (m : Msg) : Prop where
  cmd : m.hdr.cmd = Wire.CMD_REGION_READ ∨ m.hdr.cmd = Wire.CMD_REGION_WRITE
  region : leAt m.body 8 4 ≠ 7

theorem bar_handle (cfg : Cfg) (env : Env) (p p' : Pci.Pci) (sc w : Bool) {body : List Byte} (h7 : leAt body 8 4 ≠ 7) :
    Region.handleAccess (handlers cfg env p) env.alloc cfg.tbl sc w body =
      Region.handleAccess (handlers cfg env p') env.alloc cfg.tbl sc w body ∧
    accessErrOut (handlers cfg env p) env.alloc cfg.tbl sc w body =
      accessErrOut (handlers cfg env p') env.alloc cfg.tbl sc w body := by
  have key : ∀ r buf off, Region.regionAccess (handlers cfg env p) r (leAt body 8 4) buf off w =
      Region.regionAccess (handlers cfg env p') r (leAt body 8 4) buf off w := by
    intro r buf off
    have hn : ¬ (leAt body 8 4 = Region.CFG_IDX ∧ r.flags &&& Region.FLAG_ALWAYS_CB = 0) := fun h => h7 h.1
    unfold Region.regionAccess
    rw [if_neg hn, if_neg hn]
    rfl
  constructor
  · unfold Region.handleAccess
    simp only [key]
  · unfold accessErrOut
    simp only [key]

/-- The calls of such a request: none, or the callback of the region. -/
theorem bar_calls (cfg : Cfg) (env : Env) (p : Pci.Pci) (sc w : Bool) {body : List Byte} (h7 : leAt body 8 4 ≠ 7) :
    (Region.handleAccess (handlers cfg env p) env.alloc cfg.tbl sc w body).2 = [] ∨
    ∃ r off buf, (Region.handleAccess (handlers cfg env p) env.alloc cfg.tbl sc w body).2 = [.cb r off buf w] ∧
      env.alloc = true := by
  unfold Region.handleAccess
  by_cases h0 : body = []
  · rw [if_pos h0]; exact .inl rfl
  rw [if_neg h0]
  by_cases h1 : Region.validAccess cfg.tbl sc w body = false
  · rw [if_pos h1]; exact .inl rfl
  rw [if_neg h1]
  dsimp only
  by_cases h2 : leAt body 12 4 = 0
  · rw [if_pos h2]; exact .inl rfl
  rw [if_neg h2]
  by_cases h3 : env.alloc = false
  · rw [if_pos h3]; exact .inl rfl
  rw [if_neg h3]
  cases cfg.tbl[leAt body 8 4]? with
  | none => exact .inl rfl
  | some r =>
    dsimp only
    generalize (if w = true then body.drop 16 else List.replicate (leAt body 12 4) 0#8) = buf
    have hn : ¬ (leAt body 8 4 = Region.CFG_IDX ∧ r.flags &&& Region.FLAG_ALWAYS_CB = 0) := fun h => h7 h.1
    unfold Region.regionAccess
    rw [if_neg hn]
    by_cases hc : r.hasCb = false
    · rw [if_pos hc]; exact .inl rfl
    · rw [if_neg hc]
      dsimp only
      refine .inr ⟨leAt body 8 4, leAt body 0 8, buf, ?_, by simpa using h3⟩
      cases (handlers cfg env p (.cb (leAt body 8 4) (leAt body 0 8) buf w)).1 with
      | ok n => dsimp only; by_cases hk : n ≠ leAt body 12 4
                · rw [if_pos hk]
                · rw [if_neg hk]
      | err e => rfl
      | fault f => rfl

theorem bar_access (cfg : Cfg) (env : Env) (st : St) (w : Bool) {body : List Byte} (fds : List Fd) (h7 : leAt body 8 4 ≠ 7) :
    (access cfg env st w body fds).st = st ∧
    (((access cfg env st w body fds).evs = []) ∨
      (∃ r off buf, (access cfg env st w body fds).evs = [.call (.region r off buf w) st.quiesced]) ∧
        (access cfg env st w body fds).outFds = [] ∧ ∃ l, (access cfg env st w body fds).out = .bytes l) := by
  unfold access
  dsimp only
  rcases bar_calls cfg env st.pci (stopCopy st.mig) w h7 with h | ⟨r, off, buf, h, ha⟩
  · rw [h]
    exact ⟨rfl, .inl rfl⟩
  · rw [h]
    refine ⟨rfl, .inr ⟨⟨r, off, buf, rfl⟩, rfl, ?_⟩⟩
    unfold Done.pure
    dsimp only
    have he : ∃ l, accessErrOut (handlers cfg env st.pci) env.alloc cfg.tbl (stopCopy st.mig) w body = .bytes l := by
      unfold accessErrOut
      by_cases h1 : Region.validAccess cfg.tbl (stopCopy st.mig) w body = false ∨ leAt body 12 4 = 0
      · rw [if_pos h1]; exact ⟨_, rfl⟩
      rw [if_neg h1]
      have h2 : ¬ env.alloc = false := by rw [ha]; simp
      rw [if_neg h2]
      cases cfg.tbl[leAt body 8 4]? <;> exact ⟨_, rfl⟩
    cases (Region.handleAccess (handlers cfg env st.pci) env.alloc cfg.tbl (stopCopy st.mig) w body).1 with
    | ok l => exact ⟨l, rfl⟩
    | err e => exact he
    | fault f => exact he

theorem bar_access_same (cfg : Cfg) (env : Env) {st st' : St} (w : Bool) {body : List Byte} (fds : List Fd)
    (h7 : leAt body 8 4 ≠ 7) (hm : st'.mig = st.mig) (hq : st'.quiesced = st.quiesced) :
    access cfg env st' w body fds = { access cfg env st w body fds with st := st' } := by
  obtain ⟨mig, dma, irqs, pci, conn, pending, quiesced, maxFds, maxXfer⟩ := st
  obtain ⟨mig', dma', irqs', pci', conn', pending', quiesced', maxFds', maxXfer'⟩ := st'
  dsimp only at hm hq
  subst hm hq
  obtain ⟨k1, k2⟩ := bar_handle cfg env pci' pci (stopCopy mig') w h7
  unfold access
  dsimp only
  rw [k1, k2]
  rcases bar_calls cfg env pci (stopCopy mig') w h7 with h | ⟨r, off, buf, h, _⟩
  · rw [h]; rfl
  · rw [h]; rfl

theorem bar_exec_eq (cfg : Cfg) (env : Env) {m : Msg} (hb : Bar m) :
    ∃ w, ∀ st', exec cfg env st' m = access cfg env st' w m.body m.fds := by
  rcases hb.cmd with h | h
  · refine ⟨false, fun st' => ?_⟩
    unfold exec
    rw [h]
    rfl
  · refine ⟨true, fun st' => ?_⟩
    unfold exec
    rw [h]
    rfl

theorem bar_noQuiesce (cfg : Cfg) (st : St) {m : Msg} (hb : Bar m) : needsQuiesce cfg st m = false := by
  unfold needsQuiesce
  by_cases hq : cfg.hasQuiesce = false
  · rw [if_pos hq]
  rw [if_neg hq]
  rcases hb.cmd with h | h
  · rw [h]; rfl
  · rw [h]
    show (if m.body.length < 16 then false else Pci.isPxdc st.pci (leAt m.body 8 4) (leAt m.body 0 8)) = false
    by_cases hl : m.body.length < 16
    · rw [if_pos hl]
    · rw [if_neg hl]
      unfold Pci.isPxdc
      have : (leAt m.body 8 4 == 7) = false := by simpa using hb.region
      rw [this, Bool.false_and]

theorem finish_more (cfg : Cfg) (env : Env) (k : Nat) (m : Msg) (d : Done) (l : List Ev) :
    (finish cfg env k m { d with evs := d.evs ++ l }).st = (finish cfg env k m d).st ∧
    (finish cfg env k m { d with evs := d.evs ++ l }).res = (finish cfg env k m d).res ∧
    ∃ post, (finish cfg env k m d).evs = (.exec m.hdr :: d.evs) ++ post ∧
      (finish cfg env k m { d with evs := d.evs ++ l }).evs = (.exec m.hdr :: d.evs) ++ l ++ post := by
  unfold finish
  dsimp only
  generalize doReply cfg env k d.st m.hdr d.out d.outFds (replyErr d.res) = o
  by_cases h : o.res.isFault = true
  · rw [if_pos h, if_pos h]
    exact ⟨rfl, rfl, o.evs, rfl, by simp⟩
  · rw [if_neg h, if_neg h]
    exact ⟨rfl, rfl, o.evs ++ closes d.left ++ [.freed], by simp, by simp⟩

/-! ## Where the callback of a region is called -/

theorem noRegion_of_farewell {l : List Ev} (h : ∀ c ∈ calls l, Farewell c ∨ c.Pause) : l.any Ev.isRegion = false := by
  rw [List.any_eq_false]
  intro e he hr
  cases e with
  | call c q =>
    have hc : c ∈ calls l := mem_calls.mpr ⟨q, he⟩
    cases c with
    | region r o b w =>
      rcases h _ hc with h | h
      · cases h
      · obtain ⟨_, h⟩ := h
        cases h
    | _ => cases hr
  | _ => cases hr

theorem noRegion_silent {l : List Ev} (h : calls l = []) : l.any Ev.isRegion = false :=
  noRegion_of_farewell fun c hc => by rw [h] at hc; cases hc

theorem noRegion_resetCtx (cfg : Cfg) (env : Env) (k : Nat) (st : St) : (resetCtx cfg env k st).evs.any Ev.isRegion = false := by
  have h0 : (resetQuiesced cfg env st).evs.any Ev.isRegion = false :=
    noRegion_of_farewell fun c hc => .inl (farewell_resetQuiesced env st c hc)
  unfold resetCtx
  by_cases hq : cfg.hasQuiesce = true ∧ st.pending = .none
  · rw [if_pos hq]
    dsimp only
    have hb : (bracket .quiesce (.quiesce (env.quiesce k)) st.quiesced).any Ev.isRegion = false := rfl
    generalize bracket .quiesce (.quiesce (env.quiesce k)) st.quiesced = br at hb
    cases env.quiesce k with
    | none =>
      show (br ++ _).any _ = false
      rw [List.any_append, hb, h0]; rfl
    | some e =>
      dsimp only
      by_cases he : e = EBUSY
      · rw [if_pos he]; exact hb
      · rw [if_neg he]; exact hb
  · rw [if_neg hq]; exact h0

theorem noRegion_doReply (cfg : Cfg) (env : Env) (k : Nat) (st : St) (h : Wire.Hdr) (b : Wire.Body) (fds : List (Option Fd))
    (err : Nat) : (doReply cfg env k st h b fds err).evs.any Ev.isRegion = false := by
  unfold doReply
  by_cases hn : h.noReply = true
  · rw [if_pos hn]; rfl
  rw [if_neg hn]
  dsimp only
  have hs : ((Wire.reply env.snd h b fds (err % U32)).2.map Ev.sent).any Ev.isRegion = false := noRegion_silent (calls_sent _)
  generalize (Wire.reply env.snd h b fds (err % U32)).2.map Ev.sent = l at hs
  cases (Wire.reply env.snd h b fds (err % U32)).1 with
  | ok u => exact hs
  | error e =>
    dsimp only
    by_cases he : e = ECONNRESET ∨ e = ENOMSG
    · rw [if_pos he]
      show (l ++ _).any _ = false
      rw [List.any_append, hs, noRegion_resetCtx]; rfl
    · rw [if_neg he]; exact hs

theorem noRegion_closes (l : List (Option Fd)) : (closes l).any Ev.isRegion = false := noRegion_silent (calls_closes l)

theorem noRegion_refuse (cfg : Cfg) (env : Env) (k : Nat) (st : St) (h : Wire.Hdr) (fds : List Fd) (err : Nat) :
    (refuse cfg env k st h fds err).evs.any Ev.isRegion = false := by
  have h0 := noRegion_doReply cfg env k st h (.bytes []) [] err
  unfold refuse
  dsimp only
  by_cases hf : (doReply cfg env k st h (.bytes []) [] err).res.isFault = true
  · rw [if_pos hf]; exact h0
  · rw [if_neg hf]
    show (_ ++ _ ++ [Ev.freed]).any _ = false
    rw [List.any_append, List.any_append, h0, noRegion_closes]; rfl

theorem region_in_exec {cfg : Cfg} {env : Env} {k : Nat} {st : St} {m : Msg}
    (h : (handleRequest cfg env k st m).evs.any Ev.isRegion = true) : (exec cfg env st m).evs.any Ev.isRegion = true := by
  unfold handleRequest at h
  dsimp only at h
  by_cases hd : (exec cfg env st m).res.isFault = true
  · rw [if_pos hd] at h; simpa [Ev.isRegion] using h
  · rw [if_neg hd] at h
    have h0 := noRegion_doReply cfg env k (exec cfg env st m).st m.hdr (exec cfg env st m).out (exec cfg env st m).outFds
      (replyErr (exec cfg env st m).res)
    unfold finish at h
    dsimp only at h
    generalize doReply cfg env k (exec cfg env st m).st m.hdr (exec cfg env st m).out (exec cfg env st m).outFds
      (replyErr (exec cfg env st m).res) = o at h h0
    have hc := noRegion_closes (exec cfg env st m).left
    by_cases hf : o.res.isFault = true
    · rw [if_pos hf] at h
      dsimp only at h
      rw [List.any_append, h0, List.any_cons] at h
      simpa [Ev.isRegion] using h
    · rw [if_neg hf] at h
      dsimp only at h
      rw [List.any_append, List.any_append, List.any_append, h0, hc, List.any_cons] at h
      simpa [Ev.isRegion] using h

/-- Whether the callback of the region is called, in terms of the handler. -/
theorem bar_called {cfg : Cfg} {env : Env} {st : St} {m : Msg} (hb : Bar m)
    (hcall : (dispatch cfg env st m).evs.any Ev.isRegion = true) :
    ¬ shouldExec st.mig m.hdr.cmd = false ∧ (exec cfg env st m).evs.any Ev.isRegion = true := by
  unfold dispatch at hcall
  by_cases hx : shouldExec st.mig m.hdr.cmd = false
  · rw [if_pos hx] at hcall
    have h : ((refuse cfg env 0 st m.hdr m.fds EINVAL).evs).any Ev.isRegion = true := hcall
    rw [noRegion_refuse] at h
    cases h
  have hnq : ¬ needsQuiesce cfg st m = true := by rw [bar_noQuiesce cfg st hb]; simp
  rw [if_neg hx, if_neg hnq] at hcall
  exact ⟨hx, region_in_exec hcall⟩

/-- A request to such a region, with calls in its callback. -/
theorem bar_dispatchIn {cfg : Cfg} {env : Env} {st : St} {m : Msg} (hb : Bar m) (hx : ¬ shouldExec st.mig m.hdr.cmd = false)
    (ins : St → Out) : dispatchIn cfg env ins st m =
      { st := { (handleIn cfg env ins 0 st m).st with quiesced := false }, res := (handleIn cfg env ins 0 st m).res,
        evs := (handleIn cfg env ins 0 st m).evs } := by
  have hnq : ¬ needsQuiesce cfg st m = true := by rw [bar_noQuiesce cfg st hb]; simp
  unfold dispatchIn
  rw [if_neg hx, if_neg hnq]

/-! ## Calls that keep the client -/

/-- Calls a device makes while it has its client: dirty pages, interrupts, its own config space, transfers that go well. -/
def Op.Harmless : Op → Prop
  | .mark _ | .trigger _ _ | .config _ => True
  | .transfer _ lost => lost = false
  | _ => False

/-- What such calls leave alone. -/
structure Unmoved (st st' : St) : Prop where
  mig : st'.mig = st.mig
  conn : st'.conn = st.conn
  pending : st'.pending = st.pending
  quiesced : st'.quiesced = st.quiesced
  maxFds : st'.maxFds = st.maxFds
  maxXfer : st'.maxXfer = st.maxXfer

theorem Unmoved.rfl {st : St} : Unmoved st st := ⟨Eq.refl _, Eq.refl _, Eq.refl _, Eq.refl _, Eq.refl _, Eq.refl _⟩

theorem Unmoved.trans {a b c : St} (h : Unmoved a b) (g : Unmoved b c) : Unmoved a c :=
  ⟨g.mig.trans h.mig, g.conn.trans h.conn, g.pending.trans h.pending, g.quiesced.trans h.quiesced, g.maxFds.trans h.maxFds,
    g.maxXfer.trans h.maxXfer⟩

theorem harmless_call (cfg : Cfg) (st : St) {op : Op} (h : op.Harmless) : Unmoved st (call cfg st op).st := by
  cases op with
  | run env i => cases h
  | quiesced env e => cases h
  | attach n => cases h
  | config f => exact ⟨rfl, rfl, rfl, rfl, rfl, rfl⟩
  | trigger wr sub => exact ⟨rfl, rfl, rfl, rfl, rfl, rfl⟩
  | mark sgl =>
    simp only [call]
    cases st.dma with
    | none => exact .rfl
    | some c => dsimp only; cases Dma.sglMark c sgl <;> exact ⟨rfl, rfl, rfl, rfl, rfl, rfl⟩
  | transfer env lost =>
    have hl : lost = false := h
    subst hl
    show Unmoved st (transfer cfg env st false).st
    unfold transfer
    by_cases h1 : st.pending ≠ .none
    · rw [if_pos h1]; exact .rfl
    · rw [if_neg h1, if_neg (fun h => by cases h.1)]; exact .rfl

theorem harmless_within (cfg : Cfg) (ops : List Op) : ∀ st : St, (∀ op ∈ ops, op.Harmless) →
    Unmoved st (within cfg ops st).st := by
  induction ops with
  | nil => exact fun _ _ => .rfl
  | cons op ops ih =>
    intro st h
    have h1 := harmless_call cfg st (h op List.mem_cons_self)
    unfold within
    dsimp only
    by_cases hf : (call cfg st op).res.isFault = true
    · rw [if_pos hf]; exact h1
    · rw [if_neg hf]; exact h1.trans (ih _ fun op hop => h op (List.mem_cons_of_mem _ hop))

theorem within_cons (cfg : Cfg) {op : Op} (ops : List Op) {st : St} (h : ¬ (call cfg st op).res.isFault = true) :
    within cfg (op :: ops) st =
      { within cfg ops (call cfg st op).st with evs := (call cfg st op).evs ++ (within cfg ops (call cfg st op).st).evs } := by
  show (if (call cfg st op).res.isFault = true then _ else _) = _
  rw [if_neg h]

theorem within_fault (cfg : Cfg) {op : Op} (ops : List Op) {st : St} (h : (call cfg st op).res.isFault = true) :
    within cfg (op :: ops) st = call cfg st op := by
  show (if (call cfg st op).res.isFault = true then _ else _) = _
  rw [if_pos h]

/-- Two runs of calls, one after the other. -/
theorem within_append (cfg : Cfg) (ops ops' : List Op) : ∀ st : St, (within cfg ops st).res.isFault = false →
    within cfg (ops ++ ops') st =
      { within cfg ops' (within cfg ops st).st with evs := (within cfg ops st).evs ++ (within cfg ops' (within cfg ops st).st).evs } := by
  induction ops with
  | nil => exact fun _ _ => rfl
  | cons op ops ih =>
    intro st h
    rw [List.cons_append]
    by_cases hf : (call cfg st op).res.isFault = true
    · rw [within_fault cfg ops hf, hf] at h; cases h
    · rw [within_cons cfg ops hf] at h
      rw [within_cons cfg ops hf, within_cons cfg _ hf, ih _ h]
      simp

theorem overruled_not {r : Res Unit} (h : r.isFault = false) (s : Res Unit) : overruled r s = s := by
  cases r with
  | ok u => rfl
  | err e => rfl
  | fault f => cases h

/-- The nested call, as far as it goes without the reply. -/
theorem bar_inside {cfg : Cfg} {env : Env} {st : St} {m : Msg} (hb : Bar m) {ins : St → Out}
    (hcall : (exec cfg env st m).evs.any Ev.isRegion = true) (hf : (ins st).res.isFault = false) :
    inside ins (exec cfg env st m) =
      { exec cfg env st m with st := (ins st).st, evs := (exec cfg env st m).evs ++ (ins st).evs } := by
  obtain ⟨w, hw⟩ := bar_exec_eq cfg env hb
  have hst : (exec cfg env st m).st = st := by rw [hw]; exact (bar_access cfg env st w m.fds hb.region).1
  unfold inside
  rw [if_pos hcall]
  dsimp only
  rw [hst, overruled_not hf]

/-- Calls inside the callback that leave connection, migration state and pending request alone: as if made before. -/
theorem before_of {cfg : Cfg} {env : Env} {st : St} {m : Msg} (hb : Bar m) {ops : List Op}
    (hu : Unmoved st (within cfg ops st).st)
    (hc : st.conn = true) (hf : (within cfg ops st).res.isFault = false)
    (hcall : (dispatch cfg env st m).evs.any Ev.isRegion = true) :
    let w := within cfg ops st
    let o := dispatchIn cfg env (within cfg ops) st m
    let s := dispatch cfg env w.st m
    o.st = s.st ∧ o.res = s.res ∧
      ∃ pre post, pre.any Ev.isRegion = true ∧ s.evs = pre ++ post ∧ o.evs = pre ++ w.evs ++ post := by
  intro w o s
  obtain ⟨b, hw⟩ := bar_exec_eq cfg env hb
  obtain ⟨hx, hcall'⟩ := bar_called hb hcall
  have hnq' : ¬ needsQuiesce cfg w.st m = true := by rw [bar_noQuiesce cfg w.st hb]; simp
  have hin := bar_inside hb hcall' hf
  have hex : exec cfg env w.st m = { exec cfg env st m with st := w.st } := by
    rw [hw, hw]
    exact bar_access_same cfg env b m.fds hb.region hu.mig hu.quiesced
  have hsnd : sndAt w.st env.snd = env.snd := by unfold sndAt; rw [hu.conn, if_pos hc]
  have hx' : ¬ shouldExec w.st.mig m.hdr.cmd = false := by rw [hu.mig]; exact hx
  have ho := bar_dispatchIn (cfg := cfg) (env := env) hb hx (within cfg ops)
  change o = _ at ho
  have hs : s =
      { st := { (handleRequest cfg env 0 w.st m).st with quiesced := false }
        res := (handleRequest cfg env 0 w.st m).res
        evs := (handleRequest cfg env 0 w.st m).evs } := by
    show dispatch cfg env w.st m = _
    unfold dispatch
    rw [if_neg hx', if_neg hnq']
  have key : (handleIn cfg env (within cfg ops) 0 st m).st = (handleRequest cfg env 0 w.st m).st ∧
      (handleIn cfg env (within cfg ops) 0 st m).res = (handleRequest cfg env 0 w.st m).res ∧
      ∃ post, (handleRequest cfg env 0 w.st m).evs = (.exec m.hdr :: (exec cfg env st m).evs) ++ post ∧
        (handleIn cfg env (within cfg ops) 0 st m).evs = (.exec m.hdr :: (exec cfg env st m).evs) ++ w.evs ++ post := by
    unfold handleIn handleRequest
    rw [hin, hex]
    dsimp only
    by_cases hd : (exec cfg env st m).res.isFault = true
    · rw [if_pos hd, if_pos hd]
      exact ⟨rfl, rfl, [], by simp, by simp; rfl⟩
    · rw [if_neg hd, if_neg hd]
      have hsnd : sndAt (within cfg ops st).st env.snd = env.snd := hsnd
      rw [hsnd]
      exact finish_more cfg env 0 m { exec cfg env st m with st := w.st } w.evs
  obtain ⟨k1, k2, post, k3, k4⟩ := key
  refine ⟨by rw [ho, hs]; simp only [k1], by rw [ho, hs]; exact k2, .exec m.hdr :: (exec cfg env st m).evs, post, ?_, ?_, ?_⟩
  · rw [List.any_cons, hcall', Bool.or_true]
  · rw [hs]; exact k3
  · rw [ho]; exact k4

/-- C108: calls that keep the client, made inside the callback of a region, do what they do when they are made before the
request arrives: the same context, the same result and the same reply; only the order of the events is that of the code. -/
theorem C108_before {cfg : Cfg} {env : Env} {st : St} {m : Msg} (hb : Bar m) {ops : List Op} (hops : ∀ op ∈ ops, op.Harmless)
    (hc : st.conn = true) (hf : (within cfg ops st).res.isFault = false)
    (hcall : (dispatch cfg env st m).evs.any Ev.isRegion = true) :
    let w := within cfg ops st
    let o := dispatchIn cfg env (within cfg ops) st m
    let s := dispatch cfg env w.st m
    o.st = s.st ∧ o.res = s.res ∧
      ∃ pre post, pre.any Ev.isRegion = true ∧ s.evs = pre ++ post ∧ o.evs = pre ++ w.evs ++ post :=
  before_of hb (harmless_within cfg ops st hops) hc hf hcall

/-- A call of the device that keeps the client, or a transfer that loses it while the device refuses to quiesce. -/
def Op.Spared (cfg : Cfg) : Op → Prop
  | .transfer e true => cfg.hasQuiesce = true ∧ ∃ err, e.quiesce 0 = some err ∧ err ≠ EBUSY
  | op => op.Harmless

/-- A transfer that loses the client of a device that refuses to quiesce leaves the context alone and fails. -/
theorem refused_transfer {cfg : Cfg} {e : Env} (hq : cfg.hasQuiesce = true) {err : Nat} (he : e.quiesce 0 = some err) (hb : err ≠ EBUSY)
    {st : St} (hc : st.conn = true) (hp : st.pending = .none) :
    call cfg st (.transfer e true) =
      { st := st, res := .err ENOTCONN, evs := bracket .quiesce (.quiesce (some err)) st.quiesced } := by
  show transfer cfg e st true = _
  unfold transfer
  rw [if_neg (not_not_intro hp), if_pos ⟨rfl, hc⟩]
  unfold resetCtx
  rw [if_pos ⟨hq, hp⟩, he]
  dsimp only
  rw [if_neg hb]

theorem spared_call {cfg : Cfg} {op : Op} (h : op.Spared cfg) {st : St} (hc : st.conn = true) (hp : st.pending = .none) :
    Unmoved st (call cfg st op).st := by
  cases op with
  | transfer e lost =>
    cases lost with
    | false => exact harmless_call cfg st (op := .transfer e false) rfl
    | true =>
      obtain ⟨hq, err, he, hb⟩ := h
      rw [refused_transfer hq he hb hc hp]
      exact .rfl
  | run env i => cases h
  | quiesced env e => cases h
  | attach n => cases h
  | config f => exact harmless_call cfg st (op := .config f) trivial
  | trigger wr sub => exact harmless_call cfg st (op := .trigger wr sub) trivial
  | mark sgl => exact harmless_call cfg st (op := .mark sgl) trivial

theorem spared_within {cfg : Cfg} (ops : List Op) : ∀ {st : St}, (∀ op ∈ ops, op.Spared cfg) → st.conn = true → st.pending = .none →
    Unmoved st (within cfg ops st).st := by
  induction ops with
  | nil => exact fun _ _ _ => .rfl
  | cons op ops ih =>
    intro st h hc hp
    have h1 := spared_call (h op List.mem_cons_self) hc hp
    unfold within
    dsimp only
    by_cases hf : (call cfg st op).res.isFault = true
    · rw [if_pos hf]; exact h1
    · rw [if_neg hf]
      exact h1.trans (ih (fun op hop => h op (List.mem_cons_of_mem _ hop)) (h1.conn.trans hc) (h1.pending.trans hp))

/-- C108: and so do transfers inside the callback that lose the client, however many, if the device refuses each time to quiesce:
each fails with ENOTCONN and changes nothing, and the request is answered as if they had not been made. -/
theorem C108_refused {cfg : Cfg} {env : Env} {st : St} {m : Msg} (hb : Bar m) {ops : List Op} (hops : ∀ op ∈ ops, op.Spared cfg)
    (hc : st.conn = true) (hp : st.pending = .none) (hf : (within cfg ops st).res.isFault = false)
    (hcall : (dispatch cfg env st m).evs.any Ev.isRegion = true) :
    (let w := within cfg ops st
     let o := dispatchIn cfg env (within cfg ops) st m
     let s := dispatch cfg env w.st m
     o.st = s.st ∧ o.res = s.res ∧
      ∃ pre post, pre.any Ev.isRegion = true ∧ s.evs = pre ++ post ∧ o.evs = pre ++ w.evs ++ post) ∧
    ∀ e a b, ops = a ++ .transfer e true :: b → (call cfg (within cfg a st).st (.transfer e true)).res = .err ENOTCONN ∧
      (call cfg (within cfg a st).st (.transfer e true)).st = (within cfg a st).st := by
  refine ⟨before_of hb (spared_within ops hops hc hp) hc hf hcall, ?_⟩
  rintro e a b rfl
  have hu := spared_within (cfg := cfg) a (fun op h => hops op (List.mem_append_left _ h)) hc hp
  obtain ⟨hq, err, he, hne⟩ := hops (.transfer e true) (by simp)
  rw [refused_transfer hq he hne (hu.conn.trans hc) (hu.pending.trans hp)]
  exact ⟨rfl, rfl⟩

/-- C108: if the callback of the region is not called, the calls it would have made are not made. -/
theorem C108_uncalled {cfg : Cfg} {env : Env} {st : St} {m : Msg} (hb : Bar m) (ins : St → Out) (hc : st.conn = true)
    (hcall : (dispatch cfg env st m).evs.any Ev.isRegion = false) : dispatchIn cfg env ins st m = dispatch cfg env st m := by
  have hnq : ¬ needsQuiesce cfg st m = true := by rw [bar_noQuiesce cfg st hb]; simp
  by_cases hx : shouldExec st.mig m.hdr.cmd = false
  · unfold dispatchIn dispatch
    rw [if_pos hx, if_pos hx]
  obtain ⟨b, hw⟩ := bar_exec_eq cfg env hb
  have hst : (exec cfg env st m).st = st := by rw [hw]; exact (bar_access cfg env st b m.fds hb.region).1
  have hd : dispatch cfg env st m =
      { st := { (handleRequest cfg env 0 st m).st with quiesced := false }
        res := (handleRequest cfg env 0 st m).res
        evs := (handleRequest cfg env 0 st m).evs } := by
    unfold dispatch
    rw [if_neg hx, if_neg hnq]
  rw [bar_dispatchIn hb hx, hd]
  rw [hd] at hcall
  have hh : handleIn cfg env ins 0 st m = handleRequest cfg env 0 st m := by
    have hno : ¬ (exec cfg env st m).evs.any Ev.isRegion = true := by
      intro h
      have : (handleRequest cfg env 0 st m).evs.any Ev.isRegion = true := by
        unfold handleRequest
        dsimp only
        by_cases hf : (exec cfg env st m).res.isFault = true
        · rw [if_pos hf]
          dsimp only
          rw [List.any_cons, h, Bool.or_true]
        · rw [if_neg hf]
          obtain ⟨_, _, post, hp, _⟩ := finish_more cfg env 0 m (exec cfg env st m) []
          rw [hp, List.any_append, List.any_cons, h, Bool.or_true, Bool.true_or]
      rw [this] at hcall
      cases hcall
    have hs : sndAt st env.snd = env.snd := by unfold sndAt; rw [if_pos hc]
    unfold handleIn handleRequest inside
    rw [if_neg hno]
    dsimp only
    rw [hst, hs]
  rw [hh]

/-! ## Losing the client inside the callback -/

/-- The reply on a connection that is closed. -/
theorem reply_closed (h : Wire.Hdr) (l : List Byte) (err : Nat) :
    Wire.reply (fun _ => .error Wire.EBADF) h (.bytes l) [] err = (.error Wire.EBADF, []) := rfl

theorem doReply_closed (cfg : Cfg) {env : Env} (henv : env.snd = fun _ => .error Wire.EBADF) (k : Nat) (st : St) (h : Wire.Hdr)
    (l : List Byte) (err : Nat) : doReply cfg env k st h (.bytes l) [] err =
      { st, res := if h.noReply = true then .ok () else .err Wire.EBADF, evs := [] } := by
  unfold doReply
  by_cases hn : h.noReply = true
  · rw [if_pos hn, if_pos hn]
  · have hne : ¬ (Wire.EBADF = ECONNRESET ∨ Wire.EBADF = ENOMSG) := by decide
    rw [if_neg hn, if_neg hn, henv]
    dsimp only
    rw [reply_closed]
    dsimp only
    rw [if_neg hne]
    rfl

/-- What is known of a request whose callback is called. -/
theorem bar_out {cfg : Cfg} {env : Env} {st : St} {m : Msg} (hb : Bar m)
    (hcall : (exec cfg env st m).evs.any Ev.isRegion = true) :
    (exec cfg env st m).st = st ∧ (exec cfg env st m).outFds = [] ∧ ∃ l, (exec cfg env st m).out = .bytes l := by
  obtain ⟨b, hw⟩ := bar_exec_eq cfg env hb
  rw [hw] at hcall ⊢
  obtain ⟨h1, h2⟩ := bar_access cfg env st b m.fds hb.region
  rcases h2 with h | ⟨_, h3, h4⟩
  · rw [h] at hcall; cases hcall
  · exact ⟨h1, h3, h4⟩

/-- A transfer that loses the client, after other calls. -/
theorem within_lost {cfg : Cfg} {st : St} {ops : List Op} (hops : ∀ op ∈ ops, op.Harmless) (hc : st.conn = true)
    (hp : st.pending = .none) (hf : (within cfg ops st).res.isFault = false) (e : Env) :
    within cfg (ops ++ [.transfer e true]) st =
      { st := (resetCtx cfg e 0 (within cfg ops st).st).st
        res := if (resetCtx cfg e 0 (within cfg ops st).st).res.isFault = true then
          (resetCtx cfg e 0 (within cfg ops st).st).res else .ok ()
        evs := (within cfg ops st).evs ++ (resetCtx cfg e 0 (within cfg ops st).st).evs } := by
  have hu := harmless_within cfg ops st hops
  rw [within_append cfg ops _ st hf]
  generalize within cfg ops st = w at hu
  have ht : call cfg w.st (.transfer e true) = { resetCtx cfg e 0 w.st with
      res := (match (resetCtx cfg e 0 w.st).res with | .fault f => .fault f | _ => .err ENOTCONN) } := by
    show transfer cfg e w.st true = _
    have h1 : ¬ w.st.pending ≠ .none := not_not_intro (hu.pending.trans hp)
    unfold transfer
    rw [if_neg h1, if_pos ⟨rfl, hu.conn.trans hc⟩]
    dsimp only
    cases (resetCtx cfg e 0 w.st).res <;> rfl
  have hone : within cfg [.transfer e true] w.st = { st := (resetCtx cfg e 0 w.st).st
                                                     res := if (resetCtx cfg e 0 w.st).res.isFault = true then
                                                       (resetCtx cfg e 0 w.st).res else .ok ()
                                                     evs := (resetCtx cfg e 0 w.st).evs } := by
    unfold within
    rw [ht]
    generalize resetCtx cfg e 0 w.st = o
    obtain ⟨s, r, l⟩ := o
    cases r <;> simp [Res.isFault, within]
  rw [hone]

theorem resetQuiesced_conn (cfg : Cfg) (env : Env) (st : St) (h : (resetQuiesced cfg env st).res = .ok ()) :
    (resetQuiesced cfg env st).st.conn = false ∧ (resetQuiesced cfg env st).st.pending = st.pending ∧
      .detach ∈ (resetQuiesced cfg env st).evs := by
  have hpend : ∀ (st : St), (deviceReset cfg env st .lostConn).1.pending = st.pending := by
    intro st
    unfold deviceReset
    by_cases hr : cfg.hasReset = true
    · rw [if_pos hr]; dsimp only; cases env.resetCb .lostConn <;> rfl
    · rw [if_neg hr]
  unfold resetQuiesced at h ⊢
  cases hd : dropDma cfg st.dma with
  | err e => rw [hd] at h; cases h
  | fault f => rw [hd] at h; cases h
  | ok x =>
    obtain ⟨dma, ev1⟩ := x
    rw [hd] at h
    dsimp only at h ⊢
    cases hr : Irq.reset cfg.irq (deviceReset cfg env { st with dma } .lostConn).1.irqs with
    | err e => rw [hr] at h; cases h
    | fault f => rw [hr] at h; cases h
    | ok y =>
      refine ⟨rfl, ?_, by simp⟩
      show (deviceReset cfg env { st with dma } .lostConn).1.pending = _
      exact hpend _

/-- How a request ends whose callback leaves the context without a connection. -/
theorem lost_end {cfg : Cfg} {env : Env} {st : St} {m : Msg} (hb : Bar m) {ins : St → Out} {t : Out} {es : List Ev}
    (hcall : (dispatch cfg env st m).evs.any Ev.isRegion = true) (hcb : (exec cfg env st m).res.isFault = false)
    (hin : inside ins (exec cfg env st m) =
      { exec cfg env st m with st := t.st, evs := (exec cfg env st m).evs ++ (es ++ t.evs) })
    (h1 : t.st.conn = false) (h2 : t.st.pending = .none) :
    let o := dispatchIn cfg env ins st m
    o.st = { t.st with quiesced := false } ∧ o.st.conn = false ∧
      o.res = (if m.hdr.noReply = true then .ok () else .err Wire.EBADF) ∧
      (∃ pre post, pre.any Ev.isRegion = true ∧ sents (pre ++ post) = [] ∧ o.evs = pre ++ es ++ t.evs ++ post) ∧
      ∀ env' i, call cfg o.st (.run env' i) = { st := o.st, res := .err ENOTCONN, evs := [] } := by
  intro o
  obtain ⟨hx, hcall'⟩ := bar_called hb hcall
  obtain ⟨_, hfds, l, hl⟩ := bar_out hb hcall'
  have hsnd : sndAt t.st env.snd = fun _ => .error Wire.EBADF := by
    unfold sndAt
    have : ¬ t.st.conn = true := by rw [h1]; simp
    rw [if_neg this]
  have hnf : ¬ (exec cfg env st m).res.isFault = true := by rw [hcb]; simp
  have hh : handleIn cfg env (ins) 0 st m =
      { st := t.st, res := if m.hdr.noReply = true then .ok () else .err Wire.EBADF
        evs := .exec m.hdr :: ((exec cfg env st m).evs ++ (es ++ t.evs)) ++ closes (exec cfg env st m).left ++
          [.freed] } := by
    unfold handleIn
    rw [hin]
    dsimp only
    rw [if_neg hnf, hsnd]
    unfold finish
    dsimp only
    rw [hl, hfds, doReply_closed cfg rfl]
    dsimp only
    have hne : ¬ (if m.hdr.noReply = true then Res.ok () else Res.err Wire.EBADF : Res Unit).isFault = true := by
      by_cases hn : m.hdr.noReply = true
      · rw [if_pos hn]; exact Bool.false_ne_true
      · rw [if_neg hn]; exact Bool.false_ne_true
    rw [if_neg hne, List.append_nil]
  have ho : o = _ := bar_dispatchIn (cfg := cfg) (env := env) hb hx (ins)
  rw [hh] at ho
  rw [ho]
  refine ⟨rfl, h1, rfl, ⟨.exec m.hdr :: (exec cfg env st m).evs, closes (exec cfg env st m).left ++ [.freed], ?_, ?_, ?_⟩, ?_⟩
  · rw [List.any_cons, hcall', Bool.or_true]
  · obtain ⟨b, hwx⟩ := bar_exec_eq cfg env hb
    have hs : sents (exec cfg env st m).evs = [] := by
      rw [hwx]
      rcases (bar_access cfg env st b m.fds hb.region).2 with h | ⟨⟨r, off, buf, h⟩, _⟩
      · rw [h]; rfl
      · rw [h]; rfl
    have hcl : sents (closes (exec cfg env st m).left) = [] := by
      unfold sents closes
      rw [List.filterMap_map]
      exact List.filterMap_eq_nil_iff.mpr fun _ _ => rfl
    show sents (.exec m.hdr :: (exec cfg env st m).evs ++ (closes (exec cfg env st m).left ++ [.freed])) = []
    unfold sents at hs hcl ⊢
    rw [List.cons_append, List.filterMap_cons, List.filterMap_append, List.filterMap_append, hs, hcl]
    rfl
  · simp
  · intro env' i
    show poll cfg env' _ i = _
    unfold poll
    have h3 : ¬ ({ t.st with quiesced := false } : St).pending ≠ .none := not_not_intro h2
    rw [if_neg h3, if_pos h1]

/-- C108: a transfer inside the callback loses the client, and the device quiesces at once (or has no quiesce callback).  The
context is reset before the callback returns, as it is when the transfer is made between requests.  Nothing is sent after that;
`vfu_run_ctx` returns -1 with EBADF, or success if no reply was wanted; the next `vfu_run_ctx` says ENOTCONN. -/
theorem C108_lost {cfg : Cfg} {env : Env} {st : St} {m : Msg} (hb : Bar m) {ops : List Op} (hops : ∀ op ∈ ops, op.Harmless)
    (hc : st.conn = true) (hp : st.pending = .none) (hf : (within cfg ops st).res.isFault = false) {e : Env}
    (hreset : (resetCtx cfg e 0 (within cfg ops st).st).res = .ok ())
    (hcall : (dispatch cfg env st m).evs.any Ev.isRegion = true) (hcb : (exec cfg env st m).res.isFault = false) :
    let t := call cfg (within cfg ops st).st (.transfer e true)
    let o := dispatchIn cfg env (within cfg (ops ++ [.transfer e true])) st m
    o.st = { t.st with quiesced := false } ∧ o.st.conn = false ∧
      o.res = (if m.hdr.noReply = true then .ok () else .err Wire.EBADF) ∧
      (∃ pre post, pre.any Ev.isRegion = true ∧ sents (pre ++ post) = [] ∧
        o.evs = pre ++ (within cfg ops st).evs ++ t.evs ++ post) ∧
      ∀ env' i, call cfg o.st (.run env' i) = { st := o.st, res := .err ENOTCONN, evs := [] } := by
  intro t o
  obtain ⟨hx, hcall'⟩ := bar_called hb hcall
  obtain ⟨_, hfds, l, hl⟩ := bar_out hb hcall'
  have hu := harmless_within cfg ops st hops
  have hw := within_lost hops hc hp hf e
  have ht : t = { resetCtx cfg e 0 (within cfg ops st).st with res := .err ENOTCONN } := by
    show transfer cfg e (within cfg ops st).st true = _
    have h1 : ¬ (within cfg ops st).st.pending ≠ .none := not_not_intro (hu.pending.trans hp)
    unfold transfer
    rw [if_neg h1, if_pos ⟨rfl, hu.conn.trans hc⟩]
    dsimp only
    rw [hreset]
  have hgone : (resetCtx cfg e 0 (within cfg ops st).st).st.conn = false ∧
      (resetCtx cfg e 0 (within cfg ops st).st).st.pending = .none := by
    have hpw := hu.pending.trans hp
    unfold resetCtx at hreset ⊢
    by_cases hq : cfg.hasQuiesce = true ∧ (within cfg ops st).st.pending = .none
    · rw [if_pos hq] at hreset ⊢
      dsimp only at hreset ⊢
      cases hk : e.quiesce 0 with
      | some x =>
        rw [hk] at hreset
        dsimp only at hreset
        by_cases hx : x = EBUSY
        · rw [if_pos hx] at hreset; cases hreset
        · rw [if_neg hx] at hreset; cases hreset
      | none =>
        rw [hk] at hreset
        obtain ⟨r1, r2, _⟩ := resetQuiesced_conn cfg e _ hreset
        exact ⟨r1, r2.trans hpw⟩
    · rw [if_neg hq] at hreset ⊢
      obtain ⟨r1, r2, _⟩ := resetQuiesced_conn cfg e _ hreset
      exact ⟨r1, r2.trans hpw⟩
  have hin : inside (within cfg (ops ++ [.transfer e true])) (exec cfg env st m) =
      { exec cfg env st m with st := t.st, evs := (exec cfg env st m).evs ++ ((within cfg ops st).evs ++ t.evs) } := by
    rw [bar_inside hb hcall' (by rw [hw, hreset]; rfl), hw, ht]
  have hts : t.st.conn = false ∧ t.st.pending = .none := by rw [ht]; exact hgone
  exact lost_end hb hcall hcb hin hts.1 hts.2

section
variable {cfg : Cfg} {env : Env} {st : St} {m : Msg} {ops : List Op} {e : Env}

/-- The context while the device takes its time to quiesce. -/
def parked (cfg : Cfg) (ops : List Op) (st : St) : St := { (within cfg ops st).st with pending := .ctxReset }

theorem inside_deferred (hb : Bar m) (hops : ∀ op ∈ ops, op.Harmless) (hc : st.conn = true) (hp : st.pending = .none)
    (hf : (within cfg ops st).res.isFault = false) (hq : cfg.hasQuiesce = true) (he : e.quiesce 0 = some EBUSY)
    (hcall : (exec cfg env st m).evs.any Ev.isRegion = true) :
    inside (within cfg (ops ++ [.transfer e true])) (exec cfg env st m) =
      { exec cfg env st m with
        st := parked cfg ops st
        evs := (exec cfg env st m).evs ++ ((within cfg ops st).evs ++
          bracket .quiesce (.quiesce (some EBUSY)) (within cfg ops st).st.quiesced) } := by
  have hu := harmless_within cfg ops st hops
  have hr : resetCtx cfg e 0 (within cfg ops st).st =
      { st := parked cfg ops st, res := .err EBUSY
        evs := bracket .quiesce (.quiesce (some EBUSY)) (within cfg ops st).st.quiesced } := by
    unfold resetCtx
    rw [if_pos ⟨hq, hu.pending.trans hp⟩, he]
    dsimp only
    rw [if_pos rfl]
    rfl
  have hw := within_lost hops hc hp hf e
  rw [hr] at hw
  rw [bar_inside hb hcall (by rw [hw]; rfl), hw]

/-- C108: a transfer inside the callback loses the client, and the device defers its quiesce.  As long as the reply to the
request does not fail, everything is left as it is until `vfu_device_quiesced`. -/
theorem C108_deferred (hb : Bar m) (hops : ∀ op ∈ ops, op.Harmless) (hc : st.conn = true) (hp : st.pending = .none)
    (hz : st.quiesced = false) (hf : (within cfg ops st).res.isFault = false) (hq : cfg.hasQuiesce = true)
    (he : e.quiesce 0 = some EBUSY) (hcall : (dispatch cfg env st m).evs.any Ev.isRegion = true)
    (hcb : (exec cfg env st m).res.isFault = false) (hs : m.hdr.noReply = true ∨ ¬ Drops env.snd) :
    (dispatchIn cfg env (within cfg (ops ++ [.transfer e true])) st m).st = parked cfg ops st := by
  obtain ⟨hx, hcall'⟩ := bar_called hb hcall
  have hu := harmless_within cfg ops st hops
  have hnf : ¬ (exec cfg env st m).res.isFault = true := by rw [hcb]; simp
  have hsnd : sndAt (parked cfg ops st) env.snd = env.snd := by
    have h : (parked cfg ops st).conn = true := hu.conn.trans hc
    unfold sndAt
    rw [if_pos h]
  have hpq : ({ parked cfg ops st with quiesced := false } : St) = parked cfg ops st := by
    have : (parked cfg ops st).quiesced = false := hu.quiesced.trans hz
    generalize parked cfg ops st = p at this
    cases p
    cases this
    rfl
  have hh : (handleIn cfg env (within cfg (ops ++ [.transfer e true])) 0 st m).st = parked cfg ops st := by
    unfold handleIn
    rw [inside_deferred hb hops hc hp hf hq he hcall']
    dsimp only
    rw [if_neg hnf, hsnd]
    unfold finish
    dsimp only
    have hd : (doReply cfg env 0 (parked cfg ops st) m.hdr (exec cfg env st m).out (exec cfg env st m).outFds
        (replyErr (exec cfg env st m).res)).st = parked cfg ops st := by
      unfold doReply
      by_cases hn : m.hdr.noReply = true
      · rw [if_pos hn]
      rw [if_neg hn]
      have hs : ¬ Drops env.snd := hs.resolve_left hn
      dsimp only
      cases hr : (Wire.reply env.snd m.hdr (exec cfg env st m).out (exec cfg env st m).outFds
          (replyErr (exec cfg env st m).res % U32)).1 with
      | ok u => rfl
      | error x =>
        dsimp only
        by_cases hx : x = ECONNRESET ∨ x = ENOMSG
        · exact absurd (drops_of_reply hr hx) hs
        · rw [if_neg hx]
    generalize doReply cfg env 0 (parked cfg ops st) m.hdr (exec cfg env st m).out (exec cfg env st m).outFds
        (replyErr (exec cfg env st m).res) = o at hd
    by_cases hr : o.res.isFault = true
    · rw [if_pos hr]; exact hd
    · rw [if_neg hr]; exact hd
  rw [bar_dispatchIn hb hx]
  dsimp only
  rw [hh, hpq]

/-- A context that has lost its client while a deferred reset is pending. -/
theorem waiting_on {cfg : Cfg} {q : St} (hq : cfg.hasQuiesce = true) (r1 : q.conn = false) (r2 : q.pending = .ctxReset) :
    (∀ env' i, call cfg { q with quiesced := false } (.run env' i) =
      { st := { q with quiesced := false }, res := .err EBUSY, evs := [] }) ∧
    (∀ caps, (call cfg { q with quiesced := false } (.attach (.ok caps))).res = .ok () ∧
      (call cfg { q with quiesced := false } (.attach (.ok caps))).st.conn = true) ∧
    ∀ caps env', (call cfg (call cfg { q with quiesced := false } (.attach (.ok caps))).st (.quiesced env' 0)).res = .ok () →
      (call cfg (call cfg { q with quiesced := false } (.attach (.ok caps))).st (.quiesced env' 0)).st.conn = false := by
  have hat : ∀ caps : Wire.Caps, call cfg { q with quiesced := false } (.attach (.ok caps)) =
      { st := { q with quiesced := false, conn := true, maxFds := caps.maxFds, maxXfer := caps.maxXfer }
        res := .ok (), evs := [] } := by
    intro caps
    unfold call
    dsimp only
    unfold attach
    have h1 : ¬ ({ q with quiesced := false } : St).conn = true := by
      show ¬ q.conn = true
      rw [r1]; simp
    rw [if_neg h1]
  refine ⟨?_, ?_, ?_⟩
  · intro env' i
    show poll cfg env' _ i = _
    unfold poll
    have h1 : ({ q with quiesced := false } : St).pending ≠ .none := by
      show q.pending ≠ .none
      rw [r2]; simp
    rw [if_pos h1]
  · intro caps
    rw [hat]
    exact ⟨rfl, rfl⟩
  · intro caps env'
    rw [hat]
    dsimp only
    generalize hS : ({ q with quiesced := false, conn := true, maxFds := caps.maxFds, maxXfer := caps.maxXfer } : St) = S
    have hpd : S.pending = .ctxReset := by rw [← hS]; exact r2
    show (deviceQuiesced cfg env' S 0).res = .ok () → (deviceQuiesced cfg env' S 0).st.conn = false
    have h1 : ¬ (cfg.hasQuiesce = false ∨ S.pending = .none) := by rw [hq, hpd]; simp
    unfold deviceQuiesced
    rw [if_neg h1]
    dsimp only
    rw [if_pos rfl, hpd]
    exact fun hres => (resetQuiesced_conn cfg env' _ hres).1

/-- C108: but if the reply finds the connection broken as well, the library removes the regions of the device and resets it
although it is not quiesced yet, closes the connection, and still waits for the end of the quiesce: `vfu_run_ctx` says EBUSY, a
new client is accepted, and `vfu_device_quiesced` then closes the connection of that one. -/
theorem C108_hasty (hb : Bar m) (hops : ∀ op ∈ ops, op.Harmless) (hc : st.conn = true) (hp : st.pending = .none)
    (hf : (within cfg ops st).res.isFault = false) (hq : cfg.hasQuiesce = true)
    (he : e.quiesce 0 = some EBUSY) (hcall : (dispatch cfg env st m).evs.any Ev.isRegion = true)
    (hcb : (exec cfg env st m).res.isFault = false) (hn : m.hdr.noReply = false) (hs : ∀ n, env.snd n = .error Wire.EPIPE)
    (hr : (resetQuiesced cfg env (parked cfg ops st)).res = .ok ()) :
    let o := dispatchIn cfg env (within cfg (ops ++ [.transfer e true])) st m
    o.res = .ok () ∧ o.st.conn = false ∧ o.st.dma = (resetQuiesced cfg env (parked cfg ops st)).st.dma ∧
    (∃ pre post, Ev.call (.quiesce (some EBUSY)) st.quiesced ∈ pre ∧
      o.evs = pre ++ (resetQuiesced cfg env (parked cfg ops st)).evs ++ post) ∧
    (∀ env' i, call cfg o.st (.run env' i) = { st := o.st, res := .err EBUSY, evs := [] }) ∧
    ∀ caps, (call cfg o.st (.attach (.ok caps))).res = .ok () ∧ (call cfg o.st (.attach (.ok caps))).st.conn = true ∧
      ∀ env', (call cfg (call cfg o.st (.attach (.ok caps))).st (.quiesced env' 0)).res = .ok () →
        (call cfg (call cfg o.st (.attach (.ok caps))).st (.quiesced env' 0)).st.conn = false := by
  intro o
  obtain ⟨hx, hcall'⟩ := bar_called hb hcall
  obtain ⟨_, hfds, l, hl⟩ := bar_out hb hcall'
  have hu := harmless_within cfg ops st hops
  have hnf : ¬ (exec cfg env st m).res.isFault = true := by rw [hcb]; simp
  have hsnd : sndAt (parked cfg ops st) env.snd = env.snd := by
    have h : (parked cfg ops st).conn = true := hu.conn.trans hc
    unfold sndAt
    rw [if_pos h]
  obtain ⟨r1, r2, r3⟩ := resetQuiesced_conn cfg env _ hr
  have r2 : (resetQuiesced cfg env (parked cfg ops st)).st.pending = .ctxReset := r2
  have hrep : ∀ er, Wire.reply env.snd m.hdr (.bytes l) [] er = (.error ECONNRESET, []) := by
    intro er
    unfold Wire.reply Wire.sendIovec
    dsimp only
    unfold Wire.sendIovec.go
    have h0 : ¬ ([] : List (Option Fd)).any Option.isNone = true := by simp
    rw [if_neg h0]
    dsimp only
    rw [hs]
    rfl
  have hctx : resetCtx cfg env 0 (parked cfg ops st) = resetQuiesced cfg env (parked cfg ops st) := by
    have : ¬ (cfg.hasQuiesce = true ∧ (parked cfg ops st).pending = .none) := fun h => by cases h.2
    unfold resetCtx
    rw [if_neg this]
  have hnn : ¬ m.hdr.noReply = true := by rw [hn]; simp
  have hrp : ∀ er, doReply cfg env 0 (parked cfg ops st) m.hdr (.bytes l) [] er = resetQuiesced cfg env (parked cfg ops st) := by
    intro er
    unfold doReply
    rw [if_neg hnn, hrep, hctx]
    dsimp only
    rw [if_pos (Or.inl rfl)]
    rfl
  have hh : handleIn cfg env (within cfg (ops ++ [.transfer e true])) 0 st m =
      { st := (resetQuiesced cfg env (parked cfg ops st)).st, res := .ok ()
        evs := .exec m.hdr :: ((exec cfg env st m).evs ++ ((within cfg ops st).evs ++
            bracket .quiesce (.quiesce (some EBUSY)) (within cfg ops st).st.quiesced)) ++
          (resetQuiesced cfg env (parked cfg ops st)).evs ++ closes (exec cfg env st m).left ++ [.freed] } := by
    unfold handleIn
    rw [inside_deferred hb hops hc hp hf hq he hcall']
    dsimp only
    rw [if_neg hnf, hsnd]
    unfold finish
    dsimp only
    rw [hl, hfds]
    have hrp' : doReply cfg { env with snd := env.snd } 0 (parked cfg ops st) m.hdr (.bytes l) []
        (replyErr (exec cfg env st m).res) = resetQuiesced cfg env (parked cfg ops st) := hrp _
    rw [hrp']
    generalize resetQuiesced cfg env (parked cfg ops st) = q at hr
    obtain ⟨qs, qr, ql⟩ := q
    cases hr
    rfl
  obtain ⟨w1, w2, w3⟩ := waiting_on hq r1 r2
  have ho := bar_dispatchIn (cfg := cfg) (env := env) hb hx (within cfg (ops ++ [.transfer e true]))
  rw [hh] at ho
  have hst : o.st = { (resetQuiesced cfg env (parked cfg ops st)).st with quiesced := false } := congrArg Out.st ho
  refine ⟨congrArg Out.res ho, by rw [hst]; exact r1, by rw [hst], ⟨.exec m.hdr :: ((exec cfg env st m).evs ++
    ((within cfg ops st).evs ++ bracket .quiesce (.quiesce (some EBUSY)) (within cfg ops st).st.quiesced)),
    closes (exec cfg env st m).left ++ [.freed], ?_, ?_⟩, ?_, ?_⟩
  · have : (within cfg ops st).st.quiesced = st.quiesced := hu.quiesced
    rw [this]
    simp [bracket]
  · rw [show o.evs = _ from congrArg Out.evs ho]
    simp only [List.append_assoc]
  · rw [hst]; exact w1
  · rw [hst]; exact fun caps => ⟨(w2 caps).1, (w2 caps).2, w3 caps⟩

end

/-! ## A device that defers its quiesce -/

section
open Demo

/-- The device of the examples, with a client and 2 MiB of its memory at 0x10000. -/
def busyDevice : St := (run cfg st [.run env (req 1 2 0 (mapBody 0x10000) [7])]).1

/-- The region that the client mapped. -/
def lent : Dma.Info :=
  { base := 0x10000, len := 0x200000, vaddr := 0x7f0000000000, mapBase := 0x7f0000000000, mapLen := 0x200000
    pageSize := 4096, prot := { read := true, write := true } }

/-- A write to BAR 0, in whose callback the device triggers an interrupt and reads from the client. -/
def doorbell : Msg := ⟨hdr 5 10 0 writeBody.length, writeBody, []⟩

/-- The call of the device that an event is, and whether the library takes the device to be quiesced. -/
def asked : Ev → Option (Call × Bool)
  | .call c q => some (c, q)
  | _ => none

/-- C108: the regions of a device that is not quiesced are taken away: its answer to the quiesce callback was EBUSY, and
`dma_unregister` follows with the device not quiesced, before it has called `vfu_device_quiesced`. -/
theorem C108_unquiesced :
    let o := dispatchIn cfg { env with snd := fun _ => .error Wire.EPIPE }
      (within cfg ([.trigger none 0] ++ [.transfer busy true])) busyDevice doorbell
    o.evs.filterMap asked = [(.region 0 8 (enc 4 0xcafe) true, false), (.quiesce (some EBUSY), false),
      (.dmaUnregister lent, false), (.reset .lostConn, false)] ∧ o.st.pending = .ctxReset ∧ o.st.conn = false :=
  ⟨by decide +kernel, by decide +kernel, by decide +kernel⟩

theorem doorbell_bar : Bar doorbell := ⟨.inr rfl, by decide⟩

/-- What the device does in the callback: change its config space, trigger an interrupt, read from the client. -/
def chores : List Op := [.config (fun m => Function.update m 4 7#8), .trigger none 0, .transfer env false]

theorem chores_harmless : ∀ op ∈ chores, op.Harmless := by
  intro op h
  simp only [chores, List.mem_cons, List.not_mem_nil, or_false] at h
  rcases h with rfl | rfl | rfl <;> trivial

theorem env_keeps : ¬ Drops env.snd := by
  rintro ⟨n, h | h | h | ⟨k, hk, h⟩⟩
  · cases h
  · cases h
  · cases h
  · have : n = k := by injection h
    omega

/-- The write is answered from the config space that the callback left. -/
example : (dispatchIn cfg env (within cfg chores) busyDevice doorbell).st =
    (dispatch cfg env (within cfg chores busyDevice).st doorbell).st :=
  (C108_before doorbell_bar chores_harmless (by decide +kernel) (by decide +kernel) (by decide +kernel)).1

/-- The transfer loses the client: EBADF. -/
example : (dispatchIn cfg env (within cfg (chores ++ [.transfer env true])) busyDevice doorbell).res = .err Wire.EBADF :=
  (C108_lost doorbell_bar chores_harmless (by decide +kernel) (by decide +kernel) (by decide +kernel) (by decide +kernel)
    (by decide +kernel) (by decide +kernel)).2.2.1

/-- The device refuses to quiesce, twice; the write is answered. -/
example : let stubborn : Env := { env with quiesce := fun _ => some 5 }
    let ops := [Op.transfer stubborn true, .config (fun m => Function.update m 4 7#8), .transfer stubborn true]
    (dispatchIn cfg env (within cfg ops) busyDevice doorbell).res = .ok () ∧
    (dispatchIn cfg env (within cfg ops) busyDevice doorbell).st.dma = busyDevice.dma := by
  intro stubborn ops
  have h := C108_refused (cfg := cfg) (env := env) (st := busyDevice) doorbell_bar (ops := ops)
    (by
      intro op hop
      simp only [ops, List.mem_cons, List.not_mem_nil, or_false] at hop
      rcases hop with rfl | rfl | rfl
      · exact ⟨rfl, 5, rfl, by decide⟩
      · trivial
      · exact ⟨rfl, 5, rfl, by decide⟩) (by decide +kernel) (by decide +kernel) (by decide +kernel) (by decide +kernel)
  exact ⟨h.1.2.1.trans (by decide +kernel), (congrArg St.dma h.1.1).trans (by decide +kernel)⟩

/-- The device defers its quiesce, the reply succeeds: the mapping is still there. -/
example : (dispatchIn cfg env (within cfg (chores ++ [.transfer busy true])) busyDevice doorbell).st.dma = busyDevice.dma := by
  rw [C108_deferred doorbell_bar chores_harmless (by decide +kernel) (by decide +kernel) (by decide +kernel) (by decide +kernel) rfl
    rfl (by decide +kernel) (by decide +kernel) (.inr env_keeps)]
  rfl

/-- The reply fails as well: the mapping is gone. -/
example : (dispatchIn cfg { env with snd := fun _ => .error Wire.EPIPE } (within cfg (chores ++ [.transfer busy true])) busyDevice
    doorbell).st.dma ≠ busyDevice.dma := by
  rw [(C108_hasty doorbell_bar chores_harmless (by decide +kernel) (by decide +kernel) (by decide +kernel) rfl rfl
    (by decide +kernel) (by decide +kernel) rfl (fun _ => rfl) (by decide +kernel)).2.2.1]
  decide +kernel

/-- A request that names no region is refused, and nothing of this happens. -/
example : dispatchIn cfg env (within cfg chores) busyDevice ⟨hdr 5 10 0 16, enc 8 0 ++ enc 4 99 ++ enc 4 4, []⟩ =
    dispatch cfg env busyDevice ⟨hdr 5 10 0 16, enc 8 0 ++ enc 4 99 ++ enc 4 4, []⟩ :=
  C108_uncalled ⟨.inr rfl, by decide⟩ _ (by decide +kernel) (by decide +kernel)

end

end Verif.Server
