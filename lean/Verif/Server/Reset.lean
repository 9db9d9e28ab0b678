import Verif.Server.Tables
import Verif.Server.Gate

/-! # Losing the client, and device reset (C57, C58) -/

namespace Verif.Server
open Verif
open Verif.Dma (Fd)

/-! ## What the device is told -/

/-- The regions the device is told to forget. -/
def told (evs : List Ev) : List Dma.Info :=
  evs.filterMap fun e => match e with | .call (.dmaUnregister i) _ => some i | _ => none

/-- The resets the device is asked for. -/
def resets (evs : List Ev) : List Reason :=
  evs.filterMap fun e => match e with | .call (.reset r) _ => some r | _ => none

theorem told_append (a b : List Ev) : told (a ++ b) = told a ++ told b := List.filterMap_append ..
theorem resets_append (a b : List Ev) : resets (a ++ b) = resets a ++ resets b := List.filterMap_append ..

theorem told_drop (q u : Bool) (rs : List Dma.Region) :
    told ((rs.flatMap (Dma.dropEvs u)).flatMap (ofDma q)) = if u = true then rs.map (·.info) else [] := by
  induction rs with
  | nil => cases u <;> rfl
  | cons r rs ih =>
    rw [List.flatMap_cons, List.flatMap_append, told_append, ih]
    cases u <;> cases h : r.fd <;> simp [Dma.dropEvs, h, ofDma, bracket, told]

theorem resets_dma (q : Bool) (evs : List Dma.Ev) : resets (evs.flatMap (ofDma q)) = [] := by
  induction evs with
  | nil => rfl
  | cons e evs ih =>
    rw [List.flatMap_cons, resets_append, ih]
    cases e <;> rfl

theorem told_irq (q : Bool) (evs : List Irq.Ev) : told (evs.flatMap (ofIrq q)) = [] := by
  induction evs with
  | nil => rfl
  | cons e evs ih =>
    rw [List.flatMap_cons, told_append, ih]
    cases e <;> rfl

theorem resets_irq (q : Bool) (evs : List Irq.Ev) : resets (evs.flatMap (ofIrq q)) = [] := by
  induction evs with
  | nil => rfl
  | cons e evs ih =>
    rw [List.flatMap_cons, resets_append, ih]
    cases e <;> rfl

theorem deviceReset_told (cfg : Cfg) (env : Env) (st : St) (r : Reason) : told (deviceReset cfg env st r).2.2 = [] := by
  unfold deviceReset
  by_cases h : cfg.hasReset = true
  · rw [if_pos h]
    dsimp only
    cases env.resetCb r <;> rfl
  · rw [if_neg h]; rfl

theorem deviceReset_resets (cfg : Cfg) (env : Env) (st : St) (r : Reason) :
    resets (deviceReset cfg env st r).2.2 = if cfg.hasReset = true then [r] else [] := by
  unfold deviceReset
  by_cases h : cfg.hasReset = true
  · rw [if_pos h, if_pos h]
    dsimp only
    cases env.resetCb r <;> rfl
  · rw [if_neg h, if_neg h]; rfl

theorem deviceReset_mig (cfg : Cfg) (env : Env) (st : St) (r : Reason) :
    (deviceReset cfg env st r).1.mig =
      if cfg.hasReset = true ∧ env.resetCb r ≠ none then st.mig else st.mig.map (fun _ => Mig.RUNNING) := by
  unfold deviceReset
  by_cases h : cfg.hasReset = true
  · rw [if_pos h]
    dsimp only
    cases hr : env.resetCb r with
    | none => rw [if_neg (by simp)]
    | some e => rw [if_pos ⟨h, by simp⟩]
  · rw [if_neg h, if_neg (fun hh => h hh.1)]

theorem deviceReset_config (cfg : Cfg) (env : Env) (st : St) (r : Reason) :
    (deviceReset cfg env st r).1.pci =
      { st.pci with mem := if cfg.hasReset = true then env.resetMem st.pci.mem else st.pci.mem } := by
  unfold deviceReset
  by_cases h : cfg.hasReset = true
  · rw [if_pos h, if_pos h]
    dsimp only
    cases env.resetCb r <;> rfl
  · rw [if_neg h, if_neg h]

theorem dropAll_ok (u : Bool) (rs : List Dma.Region) (h : ∀ r ∈ rs, r.Consistent) :
    Dma.dropAll u rs = .ok (rs.flatMap (Dma.dropEvs u)) := by
  induction rs with
  | nil => rfl
  | cons r rs ih =>
    obtain ⟨ev, he⟩ := Dma.dropRegion_ok (u := u) (h r (.head _))
    simp only [Dma.dropAll, he, ih (fun r hr => h r (.tail _ hr)), (Dma.dropRegion_evs he).1, List.flatMap_cons]

theorem irqs_realize {cfg : Irq.Cfg} {i : Irq.Irqs} (hw : Irq.WF cfg i) (h : ∀ s, i.at_ s = none) :
    i = Irq.realize cfg := by
  obtain ⟨e, r, v⟩ := i
  have h1 : e = none := h .err
  have h2 : r = none := h .req
  have h3 : v = List.replicate (Irq.maxIvs cfg) none := by
    rw [List.eq_replicate_iff]
    refine ⟨hw.len, fun b hb => ?_⟩
    obtain ⟨n, hn, rfl⟩ := List.getElem_of_mem hb
    have := h (.vec n)
    simpa [Irq.Irqs.at_, Irq.Irqs.get, List.getElem?_eq_getElem hn] using this
  subst h1 h2 h3
  rfl

/-- Nothing of the client is left: `o` is the outcome of a reset in state `st` of a device set up with `mig`, `dma`. -/
structure CleanSlate (cfg : Cfg) (env : Env) (mig : Bool) (dma : Option (Nat × Nat)) (st : St) (o : Out) : Prop where
  /-- the connection is closed -/
  conn : o.st.conn = false
  detached : Ev.detach ∈ o.evs
  idle : o.st.pending = .none
  /-- no DMA region, and each one that was there has been unregistered once -/
  dma : o.st.dma = dma.map (fun x =>
    { maxRegions := x.1, maxSize := x.2, regions := [], dirtyPgsize := (st.dma.map (·.dirtyPgsize)).getD 0 })
  told : told o.evs = if cfg.dma.hasUnreg = true then (st.dma.map (·.regions.map (·.info))).getD [] else []
  /-- no interrupt is bound -/
  irqs : ∀ s, o.st.irqs.at_ s = none
  irqs_init : o.st.irqs = Irq.realize cfg.irq
  /-- the device was asked once to reset itself; unless it refused, a device with migration is running -/
  asked : resets o.evs = if cfg.hasReset = true then [.lostConn] else []
  running : (cfg.hasReset = true → env.resetCb .lostConn = none) → o.st.mig = if mig = true then some 2 else none
  refused : cfg.hasReset = true → env.resetCb .lostConn ≠ none → o.st.mig = st.mig
  /-- the config space is what the reset callback made of it -/
  config : o.st.pci = { st.pci with mem := if cfg.hasReset = true then env.resetMem st.pci.mem else st.pci.mem }

/-- The state a device is in after `vfu_realize_ctx` and any history. -/
def Reachable (cfg : Cfg) (mig : Bool) (dma : Option (Nat × Nat)) (st : St) : Prop :=
  ∃ pci ops, (∀ op ∈ ops, Op.OSOk op) ∧ st = (run cfg (init cfg mig dma pci) ops).1

theorem Reachable.mig {cfg : Cfg} {mig : Bool} {dma : Option (Nat × Nat)} {st : St} (h : Reachable cfg mig dma st) :
    st.mig.isSome = mig := by
  obtain ⟨pci, ops, ho, rfl⟩ := h
  refine (mig_kept cfg mig).run ops ?_ ho
  cases mig <;> rfl

theorem Reachable.tables {cfg : Cfg} {mig : Bool} {dma : Option (Nat × Nat)} {st : St} (h : Reachable cfg mig dma st) :
    Reached cfg dma st.dma st.irqs := by
  obtain ⟨pci, ops, ho, rfl⟩ := h
  exact run_reached cfg mig dma pci ops ho

/-- The DMA table without regions. -/
def emptied (dma : Option (Nat × Nat)) (st : St) : Option Dma.Ctl :=
  dma.map (fun x =>
    { maxRegions := x.1, maxSize := x.2, regions := [], dirtyPgsize := (st.dma.map (·.dirtyPgsize)).getD 0 })

theorem resetQuiesced_exact {cfg : Cfg} (hi : cfg.irq.Ok) {dma : Option (Nat × Nat)} (env : Env) {st : St}
    (ht : Reached cfg dma st.dma st.irqs) :
    ∃ ev3 : List Irq.Ev, resetQuiesced cfg env st =
      { st := { (deviceReset cfg env { st with dma := emptied dma st } .lostConn).1 with
          irqs := Irq.realize cfg.irq, conn := false }
        res := .ok ()
        evs := (((st.dma.map (·.regions)).getD []).flatMap (Dma.dropEvs cfg.dma.hasUnreg)).flatMap (ofDma st.quiesced) ++
          (deviceReset cfg env { st with dma := emptied dma st } .lostConn).2.2 ++ ev3.flatMap (ofIrq st.quiesced) ++
          [Ev.detach] } := by
  obtain ⟨⟨dops, hd, hdma⟩, iops, hirq⟩ := ht
  have hw : Irq.WF cfg.irq st.irqs := by rw [hirq]; exact Irq.wf_run hi iops (Irq.wf_realize cfg.irq)
  obtain ⟨i', ev3, hr, hw', hn⟩ := Irq.reset_spec hi hw
  have hdrop : dropDma cfg st.dma = .ok (emptied dma st,
      ((st.dma.map (·.regions)).getD []).flatMap (Dma.dropEvs cfg.dma.hasUnreg)) := by
    unfold dropDma emptied
    cases dma with
    | none =>
      have : st.dma = none := hdma
      rw [this]; rfl
    | some x =>
      have e : st.dma = some (Dma.run cfg.dma (Dma.create x.1 x.2) dops).1 := hdma
      rw [e]
      have hc := (Dma.inv2_run cfg.dma x.1 x.2 dops (fun op ho => ⟨(hd op ho).2, (hd op ho).1⟩)).consistent
      obtain ⟨m1, m2⟩ := Dma.max_run cfg.dma dops (Dma.create x.1 x.2)
      generalize (Dma.run cfg.dma (Dma.create x.1 x.2) dops).1 = c at hc m1 m2
      obtain ⟨a, b, rs, d⟩ := c
      dsimp only at m1 m2 hc
      subst m1 m2
      simp only [Dma.removeAll, dropAll_ok _ _ hc, Res.map, Option.map_some, Option.getD_some, Dma.create]
  refine ⟨ev3, ?_⟩
  unfold resetQuiesced
  rw [hdrop]
  dsimp only
  rw [(deviceReset_tables cfg env { st with dma := emptied dma st } .lostConn).2]
  dsimp only
  rw [hr, irqs_realize hw' hn]

theorem realize_unbound (cfg : Irq.Cfg) (s : Irq.Slot) : (Irq.realize cfg).at_ s = none := by
  cases s with
  | err => rfl
  | req => rfl
  | vec i =>
    simp only [Irq.realize, Irq.Irqs.at_, Irq.Irqs.get, List.getElem?_replicate]
    split <;> rfl

theorem reset_clean {cfg : Cfg} (hi : cfg.irq.Ok) {mig : Bool} {dma : Option (Nat × Nat)} (env : Env) {st : St}
    (hm : st.mig.isSome = mig) (ht : Reached cfg dma st.dma st.irqs) {p : List Ev} (hp : told p = [] ∧ resets p = [])
    {o : Out} {q : Bool} (he : o.evs = p ++ (resetQuiesced cfg env st).evs)
    (hs : o.st = { (resetQuiesced cfg env st).st with pending := .none, quiesced := q }) :
    CleanSlate cfg env mig dma st o := by
  obtain ⟨ev3, hx⟩ := resetQuiesced_exact hi env ht
  rw [hx] at he hs
  dsimp only at he hs
  refine ⟨?_, ?_, ?_, ?_, ?_, ?_, ?_, ?_, ?_, ?_, ?_⟩
  · rw [hs]
  · rw [he]; simp
  · rw [hs]
  · rw [hs]; exact (deviceReset_tables ..).1
  · rw [he]
    simp only [told_append, hp.1, told_drop, deviceReset_told, told_irq, List.nil_append, List.append_nil]
    rw [show told [Ev.detach] = [] from rfl, List.append_nil]
    cases st.dma <;> rfl
  · rw [hs]; exact realize_unbound _
  · rw [hs]
  · rw [he]
    simp only [resets_append, hp.2, resets_dma, deviceReset_resets, resets_irq, List.nil_append, List.append_nil]
    rw [show resets [Ev.detach] = [] from rfl, List.append_nil]
  · intro h
    rw [hs]
    dsimp only
    rw [deviceReset_mig, if_neg (fun hh => hh.2 (h hh.1))]
    dsimp only
    cases hmm : st.mig with
    | none => rw [hmm] at hm; subst hm; rfl
    | some v => rw [hmm] at hm; subst hm; rfl
  · intro h1 h2
    rw [hs]
    dsimp only
    rw [deviceReset_mig, if_pos ⟨h1, h2⟩]
  · rw [hs]; exact deviceReset_config ..

/-! ## C57 -/

/-- **C57**: when the client disappears and the device quiesces at once (or needs no quiesce), nothing of the client is
left behind, whatever happened before. -/
theorem C57_lost {cfg : Cfg} (hi : cfg.irq.Ok) {mig : Bool} {dma : Option (Nat × Nat)} {st : St}
    (hr : Reachable cfg mig dma st) (hc : st.conn = true) (hp : st.pending = .none) (env : Env)
    (hq : cfg.hasQuiesce = true → env.quiesce 0 = none) (e : Nat) (leak : List Fd) :
    (call cfg st (.run env (.lost e leak))).res = .err ENOTCONN ∧
      CleanSlate cfg env mig dma st (call cfg st (.run env (.lost e leak))) := by
  have hc' : ¬ st.conn = false := by rw [hc]; simp
  obtain ⟨ev3, hx⟩ := resetQuiesced_exact hi env hr.tables
  have hpd : (resetQuiesced cfg env st).st.pending = .none := by
    rw [hx]; exact (same_deviceReset ..).pending.trans hp
  simp only [call, poll, if_neg (not_not_intro hp), if_neg hc']
  by_cases h : cfg.hasQuiesce = true
  · have hx2 : resetCtx cfg env 0 st = { resetQuiesced cfg env st with
        evs := bracket .quiesce (.quiesce none) st.quiesced ++ (resetQuiesced cfg env st).evs } := by
      simp only [resetCtx, if_pos (And.intro h hp), hq h]
    rw [hx2]
    refine ⟨?_, ?_⟩
    · dsimp only; rw [hx]
    · refine reset_clean hi env hr.mig hr.tables (p := .lost leak :: bracket .quiesce (.quiesce none) st.quiesced)
        (q := (resetQuiesced cfg env st).st.quiesced) ⟨rfl, rfl⟩ rfl ?_
      dsimp only
      rw [← hpd]
  · have hx2 : resetCtx cfg env 0 st = resetQuiesced cfg env st := by
      simp only [resetCtx, if_neg (fun hh : _ ∧ _ => h hh.1)]
    rw [hx2]
    refine ⟨?_, ?_⟩
    · rw [hx]
    · refine reset_clean hi env hr.mig hr.tables (p := [.lost leak])
        (q := (resetQuiesced cfg env st).st.quiesced) ⟨rfl, rfl⟩ rfl ?_
      rw [← hpd]

/-- C57: when the device defers the quiesce, the reset waits for it; until then nothing is touched. -/
theorem C57_deferred {cfg : Cfg} {st : St} (hc : st.conn = true) (hp : st.pending = .none) (env : Env)
    (hQ : cfg.hasQuiesce = true) (hq : env.quiesce 0 = some EBUSY) (e : Nat) (leak : List Fd) :
    call cfg st (.run env (.lost e leak)) =
      { st := { st with pending := .ctxReset }, res := .err EBUSY,
        evs := .lost leak :: bracket .quiesce (.quiesce (some EBUSY)) st.quiesced } := by
  have hc' : ¬ st.conn = false := by rw [hc]; simp
  simp only [call, poll, if_neg (not_not_intro hp), if_neg hc', resetCtx, if_pos (And.intro hQ hp), hq, if_true]
  rfl

/-- C57: and the end of the quiesce completes it. -/
theorem C57_completed {cfg : Cfg} (hi : cfg.irq.Ok) {mig : Bool} {dma : Option (Nat × Nat)} {st : St}
    (hr : Reachable cfg mig dma st) (hQ : cfg.hasQuiesce = true) (hp : st.pending = .ctxReset) (env : Env) :
    (call cfg st (.quiesced env 0)).res = .ok () ∧
      CleanSlate cfg env mig dma st (call cfg st (.quiesced env 0)) := by
  have hx2 : call cfg st (.quiesced env 0) =
      { st := { (resetQuiesced cfg env { st with quiesced := true }).st with pending := .none, quiesced := false }
        res := (resetQuiesced cfg env { st with quiesced := true }).res
        evs := .devQuiesced 0 :: (resetQuiesced cfg env { st with quiesced := true }).evs } := by
    simp only [call, deviceQuiesced, hQ, hp]
    rfl
  obtain ⟨ev3, hx⟩ := resetQuiesced_exact (st := { st with quiesced := true }) hi env hr.tables
  rw [hx2]
  refine ⟨by dsimp only; rw [hx], ?_⟩
  have := reset_clean (st := { st with quiesced := true }) hi env (mig := mig) hr.mig hr.tables (p := [.devQuiesced 0])
    (q := false) ⟨rfl, rfl⟩ (o := { st := { (resetQuiesced cfg env { st with quiesced := true }).st with pending := .none, quiesced := false }
                                    res := (resetQuiesced cfg env { st with quiesced := true }).res
                                    evs := .devQuiesced 0 :: (resetQuiesced cfg env { st with quiesced := true }).evs })
    rfl rfl
  exact { this with }

/-- C57, exception: if the quiesce fails, nothing is reset and the library still takes the client for connected. -/
theorem C57_quiesce_failed {cfg : Cfg} {st : St} (hc : st.conn = true) (hp : st.pending = .none) (env : Env)
    (hQ : cfg.hasQuiesce = true) {err : Nat} (hq : env.quiesce 0 = some err) (he : err ≠ EBUSY) (e : Nat) (leak : List Fd) :
    (call cfg st (.run env (.lost e leak))).st = st ∧
      (call cfg st (.run env (.lost e leak))).evs = .lost leak :: bracket .quiesce (.quiesce (some err)) st.quiesced := by
  have hc' : ¬ st.conn = false := by rw [hc]; simp
  simp only [call, poll, if_neg (not_not_intro hp), if_neg hc', resetCtx, if_pos (And.intro hQ hp), hq, if_neg he]
  exact ⟨trivial, trivial⟩

/-- The same for a deferred quiesce that the device reports as failed. -/
theorem C57_deferred_failed {cfg : Cfg} {st : St} (hp : st.pending = .ctxReset) (env : Env)
    (hQ : cfg.hasQuiesce = true) {err : Nat} (he : err ≠ 0) :
    call cfg st (.quiesced env err) =
      { st := { st with pending := .none, quiesced := false }, res := .ok (), evs := [.devQuiesced err] } := by
  simp only [call, deviceQuiesced, hQ, hp, if_neg he]
  rfl

section
open Demo

theorem os_ok : os.Ok := by
  refine ⟨⟨12, by decide, rfl⟩, fun fd b h => ?_, fun len off b h => ?_⟩
  · cases h; exact ⟨12, by decide, rfl⟩
  · simp only [os] at h
    by_cases hl : 0 < len ∧ len ≤ 2 ^ 40
    · rw [if_pos hl] at h
      cases h
      refine ⟨hl.1, by decide, ?_, by decide⟩
      have := hl.2
      simp only [U64]
      omega
    · rw [if_neg hl] at h; cases h

theorem env_ok {e : Env} (h : e.os = os) : e.os.Ok := h ▸ os_ok

/-- A client connects, maps a region, binds two interrupts and starts logging dirty pages. -/
def session : List Op :=
  [.attach (.ok { maxFds := 8, maxXfer := 1048576, pgsize := 4096 }), .run env (req 1 2 0 (mapBody 0x100000) [5]),
   .run env (req 3 8 0 bindBody [6, 7]), .run env (req 4 16 0 logBody [])]

theorem session_ok : ∀ op ∈ session, op.OSOk := by
  intro op hop
  simp only [session, List.mem_cons, List.not_mem_nil, or_false] at hop
  rcases hop with rfl | rfl | rfl | rfl <;> intro e he <;> simp only [Op.env?, Option.some.injEq] at he <;>
    first
      | (subst he; exact env_ok rfl)
      | cases he

def inSession : St := (run cfg (init cfg true (some (8, 2 ^ 40)) pci) session).1

theorem inSession_reachable : Reachable cfg true (some (8, 2 ^ 40)) inSession := ⟨pci, session, session_ok, rfl⟩

theorem irq_ok : cfg.irq.Ok := by
  refine ⟨fun i => ?_, by decide, by decide⟩
  simp only [cfg]
  split
  · decide
  · split <;> decide

/-- The client disappears: one region and two interrupts go. -/
example : inSession.conn = true ∧ inSession.pending = .none ∧ (inSession.dma.map (·.regions.length)) = some 1 ∧
    inSession.irqs.at_ (.vec 1) = some 7 ∧
    CleanSlate cfg env true (some (8, 2 ^ 40)) inSession (call cfg inSession (.run env (.lost ENOMSG []))) := by
  refine ⟨by decide +kernel, by decide +kernel, by decide +kernel, by decide +kernel, ?_⟩
  exact (C57_lost irq_ok inSession_reachable (by decide +kernel) (by decide +kernel) env (fun _ => rfl) ENOMSG []).2

/-- What stays: the page size of dirty page logging.  The next client's mapping is logged although that client never
asked for it. -/
theorem C57_dirty_persists :
    let st1 := (call cfg inSession (.run env (.lost ENOMSG []))).st
    let st2 := (run cfg st1 [.attach (.ok { maxFds := 8, maxXfer := 1048576, pgsize := 4096 }),
      .run env (req 1 2 0 (mapBody 0x100000) [8])]).1
    (st1.dma.map (·.dirtyPgsize)) = some 4096 ∧ (st2.dma.map fun c => c.regions.map fun r => r.dirty.isSome) = some [true] ∧
    ((run cfg (init cfg true (some (8, 2 ^ 40)) pci) [.attach (.ok { maxFds := 8, maxXfer := 1048576, pgsize := 4096 }),
      .run env (req 1 2 0 (mapBody 0x100000) [8])]).1.dma.map fun c => c.regions.map fun r => r.dirty.isSome) =
      some [false] := by
  refine ⟨?_, ?_, ?_⟩ <;> decide +kernel

/-- And the migration state, if the device refuses the reset: the next client finds a stopped device that executes
nothing. -/
theorem C57_stays_stopped :
    let bad : Env := { env with resetCb := fun _ => some 5 }
    let st0 := (run cfg inSession [.run env (req 5 16 0 (stateBody 3) [])]).1
    let st1 := (call cfg st0 (.run bad (.lost ENOMSG []))).st
    st0.mig = some 3 ∧ st1.conn = false ∧ st1.mig = some 3 := by
  refine ⟨?_, ?_, ?_⟩ <;> decide +kernel

end

/-! ## C58 -/

theorem doReply_ok (cfg : Cfg) (env : Env) (k : Nat) (st : St) (h : Wire.Hdr) (hf : h.Fits) (err : Nat) (he : err < U32)
    (hs : Wire.Healthy env.snd) :
    ∃ ws : List Wire.Sent, doReply cfg env k st h (.bytes []) [] err = { st := st, res := .ok (), evs := ws.map Ev.sent } ∧
      (h.noReply = true → ws = []) ∧ (h.noReply = false → ∃ w, ws = [w] ∧ Wire.IsReply h err [] w.bytes) := by
  unfold doReply
  by_cases hn : h.noReply = true
  · rw [if_pos hn]; exact ⟨[], rfl, fun _ => rfl, fun h' => by rw [hn] at h'; cases h'⟩
  rw [if_neg hn]
  obtain ⟨w, h1, _, h3, h4⟩ := reply_ok env.snd hs h hf [] [] err he
  rw [Nat.mod_eq_of_lt he, show ([] : List (Option Fd)) = ([] : List Fd).map some from rfl, h1]
  exact ⟨[w], rfl, fun h' => absurd h' hn, fun _ => ⟨w, rfl, h4 (by decide)⟩⟩

theorem exec_reset (cfg : Cfg) (env : Env) (st : St) (m : Msg) (h : m.hdr.cmd = 13) :
    exec cfg env st m = Done.mk (deviceReset cfg env st .device).1 (deviceReset cfg env st .device).2.1 (.bytes []) []
      (m.fds.map some) (deviceReset cfg env st .device).2.2 := by
  unfold exec
  simp [h, Wire.CMD_DMA_MAP, Wire.CMD_DMA_UNMAP, Wire.CMD_GET_INFO, Wire.CMD_REGION_INFO, Wire.CMD_REGION_IO_FDS,
    Wire.CMD_IRQ_INFO, Wire.CMD_SET_IRQS, Wire.CMD_REGION_READ, Wire.CMD_REGION_WRITE, Wire.CMD_RESET]

/-- What a client and the device see of a device reset that ends with error number `e` (0: success). -/
structure ResetOutcome (cfg : Cfg) (env : Env) (st : St) (h : Wire.Hdr) (e : Nat) (o : Out) : Prop where
  /-- the reset callback runs once, for this reason -/
  asked : resets o.evs = if cfg.hasReset = true then [.device] else []
  /-- the answer carries the error -/
  quiet : h.noReply = true → sents o.evs = []
  answer : h.noReply = false → ∃ w, sents o.evs = [w] ∧ Wire.IsReply h e [] w.bytes
  res : o.res = .ok ()
  /-- nothing but the migration state and what the callback itself changes is touched -/
  dma : o.st.dma = st.dma
  irqs : o.st.irqs = st.irqs
  conn : o.st.conn = st.conn
  pending : o.st.pending = .none
  told : told o.evs = []
  config : o.st.pci = { st.pci with mem := if cfg.hasReset = true then env.resetMem st.pci.mem else st.pci.mem }

theorem deviceReset_res (cfg : Cfg) (env : Env) (st : St) (r : Reason) :
    (deviceReset cfg env st r).2.1 =
      if cfg.hasReset = true then (match env.resetCb r with | none => .ok () | some e => .err e) else .ok () := by
  unfold deviceReset
  by_cases h : cfg.hasReset = true
  · rw [if_pos h, if_pos h]
    dsimp only
    cases env.resetCb r <;> rfl
  · rw [if_neg h, if_neg h]

theorem sents_append (a b : List Ev) : sents (a ++ b) = sents a ++ sents b := List.filterMap_append ..

theorem sents_map (ws : List Wire.Sent) : sents (ws.map Ev.sent) = ws := by
  induction ws with
  | nil => rfl
  | cons w ws ih => simp only [List.map_cons, sents, List.filterMap_cons] at ih ⊢; rw [ih]

theorem resets_sent (ws : List Wire.Sent) : resets (ws.map Ev.sent) = [] := by
  induction ws with
  | nil => rfl
  | cons w ws ih => exact ih

theorem told_sent (ws : List Wire.Sent) : told (ws.map Ev.sent) = [] := by
  induction ws with
  | nil => rfl
  | cons w ws ih => exact ih

theorem closes_nothing (l : List (Option Fd)) : sents (closes l) = [] ∧ resets (closes l) = [] ∧ told (closes l) = [] := by
  unfold closes
  induction l.filterMap id with
  | nil => exact ⟨rfl, rfl, rfl⟩
  | cons w ws ih => exact ih

theorem deviceReset_sents (cfg : Cfg) (env : Env) (st : St) (r : Reason) : sents (deviceReset cfg env st r).2.2 = [] := by
  unfold deviceReset
  by_cases h : cfg.hasReset = true
  · rw [if_pos h]
    dsimp only
    cases env.resetCb r <;> rfl
  · rw [if_neg h]; rfl

/-- One device reset, wherever in the loop. -/
theorem reset_request (cfg : Cfg) (env : Env) (k : Nat) (st : St) (m : Msg) (hf : m.hdr.Fits) (hc : m.hdr.cmd = 13)
    (hs : Wire.Healthy env.snd) (hb : cfg.hasReset = true → ∀ e, env.resetCb .device = some e → e < U32) :
    ∃ ws : List Wire.Sent, (handleRequest cfg env k st m).st = (deviceReset cfg env st .device).1 ∧
      (handleRequest cfg env k st m).res = .ok () ∧
      (handleRequest cfg env k st m).evs = .exec m.hdr :: (deviceReset cfg env st .device).2.2 ++ ws.map Ev.sent ++
        closes (m.fds.map some) ++ [.freed] ∧
      (m.hdr.noReply = true → ws = []) ∧
      (m.hdr.noReply = false → ∃ w, ws = [w] ∧
        Wire.IsReply m.hdr (replyErr (deviceReset cfg env st .device).2.1) [] w.bytes) := by
  have hr := deviceReset_res cfg env st .device
  have hlt : replyErr (deviceReset cfg env st .device).2.1 < U32 := by
    rw [hr]
    by_cases h : cfg.hasReset = true
    · rw [if_pos h]
      cases h2 : env.resetCb .device with
      | none => exact (by decide : 0 < U32)
      | some e => exact hb h e h2
    · rw [if_neg h]; exact (by decide : 0 < U32)
  have hno : (deviceReset cfg env st .device).2.1.isFault = false := by
    rw [hr]
    by_cases h : cfg.hasReset = true
    · rw [if_pos h]
      cases h2 : env.resetCb .device <;> rfl
    · rw [if_neg h]; rfl
  obtain ⟨ws, h1, h2, h3⟩ := doReply_ok cfg env k (deviceReset cfg env st .device).1 m.hdr hf _ hlt hs
  refine ⟨ws, ?_, ?_, ?_, h2, h3⟩ <;> unfold handleRequest finish <;> rw [exec_reset cfg env st m hc] <;> dsimp only <;>
    rw [if_neg (by rw [hno]; exact Bool.false_ne_true), h1] <;> simp [Res.isFault]

/-- **C58**: a device reset request that is executed (not in STOP or STOP_COPY, the device quiesced) calls the reset
callback exactly once with that reason.  If it succeeds the request does, and a device with migration is in the state
RUNNING (2) whatever it was before; if it fails, so does the request, and the migration state is what it was. -/
theorem C58_reset (cfg : Cfg) (env : Env) (st : St) (hc : st.conn = true) (hp : st.pending = .none)
    (hm : st.mig ≠ some 1 ∧ st.mig ≠ some 3) (hq : cfg.hasQuiesce = true → env.quiesce 0 = none)
    (hs : Wire.Healthy env.snd) (h : Wire.Hdr) (hf : h.Fits) (hcmd : h.cmd = 13) (body : List Byte) (fds : List Fd) :
    let o := call cfg st (.run env (.req h body fds))
    ((cfg.hasReset = true → env.resetCb .device = none) →
      ResetOutcome cfg env st h 0 o ∧ o.st.mig = st.mig.map (fun _ => 2)) ∧
    (∀ e, e < U32 → cfg.hasReset = true → env.resetCb .device = some e →
      ResetOutcome cfg env st h e o ∧ o.st.mig = st.mig) := by
  intro o
  have hsh : shouldExec st.mig h.cmd = true := by
    unfold shouldExec
    rw [if_neg, if_neg]
    · simpa [stopped, Mig.STOP] using hm.1
    · simpa [stopCopy, Mig.STOP_COPY] using hm.2
  have key : ∀ e, e < U32 → (cfg.hasReset = true → ∀ e', env.resetCb .device = some e' → e' < U32) →
      replyErr (deviceReset cfg env { st with quiesced := cfg.hasQuiesce || st.quiesced } .device).2.1 = e →
      ResetOutcome cfg env st h e o ∧
        o.st.mig = (deviceReset cfg env { st with quiesced := cfg.hasQuiesce || st.quiesced } .device).1.mig := by
    intro e he hb hre
    have fin : ∀ (k : Nat) (q : Bool) (p : List Ev), sents p = [] ∧ resets p = [] ∧ told p = [] →
        (o.st = { (handleRequest cfg env k { st with quiesced := q } ⟨h, body, fds⟩).st with quiesced := false } ∧
          o.res = (handleRequest cfg env k { st with quiesced := q } ⟨h, body, fds⟩).res ∧
          o.evs = p ++ (handleRequest cfg env k { st with quiesced := q } ⟨h, body, fds⟩).evs) →
        q = (cfg.hasQuiesce || st.quiesced) →
        ResetOutcome cfg env st h e o ∧
          o.st.mig = (deviceReset cfg env { st with quiesced := cfg.hasQuiesce || st.quiesced } .device).1.mig := by
      rintro k q p ⟨p1, p2, p3⟩ ⟨h1, h2, h3⟩ rfl
      obtain ⟨ws, g1, g2, g3, g4, g5⟩ := reset_request cfg env k
        { st with quiesced := cfg.hasQuiesce || st.quiesced } ⟨h, body, fds⟩ hf hcmd hs hb
      rw [g1] at h1
      rw [g2] at h2
      rw [g3] at h3
      rw [hre] at g5
      obtain ⟨c1, c2, c3⟩ := closes_nothing (fds.map some)
      have hsent : sents o.evs = ws := by
        rw [h3]
        simp only [sents_append, p1, List.cons_append, List.nil_append]
        rw [show ∀ l, sents (.exec h :: l) = sents l from fun _ => rfl]
        simp only [sents_append, deviceReset_sents, sents_map, c1]
        simp [sents]
      refine ⟨⟨?_, ?_, ?_, h2, ?_, ?_, ?_, ?_, ?_, ?_⟩, by rw [h1]⟩
      · rw [h3]
        simp only [resets_append, p2, List.cons_append, List.nil_append]
        rw [show ∀ l, resets (.exec h :: l) = resets l from fun _ => rfl]
        simp only [resets_append, deviceReset_resets, resets_sent, c2]
        simp [resets]
      · intro hn; rw [hsent]; exact g4 hn
      · intro hn; rw [hsent]; exact g5 hn
      · rw [h1]; exact (deviceReset_tables ..).1
      · rw [h1]; exact (deviceReset_tables ..).2
      · rw [h1]; exact (same_deviceReset ..).conn
      · rw [h1]; exact (same_deviceReset ..).pending.trans hp
      · rw [h3]
        simp only [told_append, p3, List.cons_append, List.nil_append]
        rw [show ∀ l, told (.exec h :: l) = told l from fun _ => rfl]
        simp only [told_append, deviceReset_told, told_sent, c3]
        simp [told]
      · rw [h1]; exact deviceReset_config ..
    have hc' : ¬ st.conn = false := by rw [hc]; simp
    by_cases hQ : cfg.hasQuiesce = true
    · refine fin 1 true (.got h fds :: bracket .quiesce (.quiesce none) st.quiesced) ⟨rfl, rfl, rfl⟩ ?_ (by rw [hQ]; rfl)
      have hn : needsQuiesce cfg st ⟨h, body, fds⟩ = true := by
        simp [needsQuiesce, hQ, hcmd, Wire.CMD_DMA_MAP, Wire.CMD_DMA_UNMAP, Wire.CMD_RESET]
      have : o = call cfg st (.run env (.req h body fds)) := rfl
      rw [this]
      simp only [call, poll, if_neg (not_not_intro hp), if_neg hc', dispatch, hsh, hn, if_true, hq hQ]
      exact ⟨rfl, rfl, rfl⟩
    · refine fin 0 st.quiesced [.got h fds] ⟨rfl, rfl, rfl⟩ ?_ (by simp [hQ])
      have hn : needsQuiesce cfg st ⟨h, body, fds⟩ = false := by simp [needsQuiesce, hQ]
      have : o = call cfg st (.run env (.req h body fds)) := rfl
      rw [this]
      simp only [call, poll, if_neg (not_not_intro hp), if_neg hc', dispatch, hsh, hn]
      exact ⟨rfl, rfl, rfl⟩
  refine ⟨fun hok => ?_, fun e he hR hcb => ?_⟩
  · have := key 0 (by decide) (fun hR e' h' => by rw [hok hR] at h'; cases h') (by
      rw [deviceReset_res]
      by_cases hR : cfg.hasReset = true
      · rw [if_pos hR, hok hR]; rfl
      · rw [if_neg hR]; rfl)
    rw [deviceReset_mig, if_neg (fun hh => hh.2 (hok hh.1))] at this
    exact this
  · have := key e he (fun _ e' h' => by rw [hcb] at h'; cases h'; exact he) (by
      rw [deviceReset_res, if_pos hR, hcb]; rfl)
    rw [deviceReset_mig, if_pos ⟨hR, by rw [hcb]; simp⟩] at this
    exact this

section
open Demo

theorem hdr_fits : (hdr 1 13 0 0).Fits := by constructor <;> decide

/-- A device in PRE_COPY (6), reset with and without success. -/
example : let o := call cfg { st with mig := some 6 } (.run env (.req (hdr 1 13 0 0) [] []))
    ResetOutcome cfg env { st with mig := some 6 } (hdr 1 13 0 0) 0 o ∧ o.st.mig = some 2 :=
  (C58_reset cfg env { st with mig := some 6 } rfl rfl ⟨by decide, by decide⟩ (fun _ => rfl) (fun _ => rfl)
    (hdr 1 13 0 0) hdr_fits rfl [] []).1 (fun _ => rfl)

example : let bad : Env := { env with resetCb := fun _ => some 5 }
    let o := call cfg { st with mig := some 6 } (.run bad (.req (hdr 1 13 0 0) [] []))
    ResetOutcome cfg bad { st with mig := some 6 } (hdr 1 13 0 0) 5 o ∧ o.st.mig = some 6 :=
  (C58_reset cfg { env with resetCb := fun _ => some 5 } { st with mig := some 6 } rfl rfl ⟨by decide, by decide⟩
    (fun _ => rfl) (fun _ => rfl) (hdr 1 13 0 0) hdr_fits rfl [] []).2 5 (by decide) rfl rfl

end

end Verif.Server
