import Verif.Server.Reset
import Verif.Server.Quiesce

/-!
# C89: clients do not inherit anything from earlier clients

A device without client, in whatever way it lost the previous one, serves the next client exactly like a freshly realized
device with the same config space: the whole conversation is the same. -/

namespace Verif.Server
open Verif
open Verif.Dma (Fd)

/-- The device accepts the reset at the loss of a connection. -/
def Op.Accepts (cfg : Cfg) (op : Op) : Prop :=
  ∀ env, op.env? = some env → cfg.hasReset = true → env.resetCb .lostConn = none

/-- The tables of a device without client: empty, and a device with migration is running. -/
structure Vacant (cfg : Cfg) (mig : Bool) (dma : Option (Nat × Nat)) (st : St) : Prop where
  irqs : st.irqs = Irq.realize cfg.irq
  dma : st.dma = dma.map (fun x =>
    { maxRegions := x.1, maxSize := x.2, regions := [], dirtyPgsize := (st.dma.map (·.dirtyPgsize)).getD 0 })
  mig : st.mig = if mig = true then some 2 else none

/-- After a call. -/
structure Settles (cfg : Cfg) (mig : Bool) (dma : Option (Nat × Nat)) (p : Pending) (st : St) : Prop where
  vacant : st.conn = false → Vacant cfg mig dma st ∧ st.pending = p

section
variable {cfg : Cfg} (hi : cfg.irq.Ok) {mig : Bool} {dma : Option (Nat × Nat)} {env : Env}
  (ha : cfg.hasReset = true → env.resetCb .lostConn = none)
include hi ha

theorem resetQuiesced_settles {st : St} (hm : st.mig.isSome = mig) (ht : Reached cfg dma st.dma st.irqs) :
    Vacant cfg mig dma (resetQuiesced cfg env st).st ∧ (resetQuiesced cfg env st).st.pending = st.pending := by
  obtain ⟨ev3, hx⟩ := resetQuiesced_exact hi env ht
  rw [hx]
  refine ⟨⟨rfl, ?_, ?_⟩, (same_deviceReset ..).pending⟩
  · dsimp only
    rw [(deviceReset_tables ..).1]
    unfold emptied
    cases dma <;> rfl
  · dsimp only
    rw [deviceReset_mig, if_neg (fun hh => hh.2 (ha hh.1))]
    dsimp only
    cases hmm : st.mig with
    | none => rw [hmm] at hm; subst hm; rfl
    | some v => rw [hmm] at hm; subst hm; rfl

theorem resetCtx_settles (k : Nat) {st : St} (hc : st.conn = true) (hm : st.mig.isSome = mig)
    (ht : Reached cfg dma st.dma st.irqs) : Settles cfg mig dma st.pending (resetCtx cfg env k st).st := by
  have hr := resetQuiesced_settles hi ha hm ht
  unfold resetCtx
  by_cases hq : cfg.hasQuiesce = true ∧ st.pending = .none
  · rw [if_pos hq]
    dsimp only
    cases env.quiesce k with
    | some e =>
      dsimp only
      by_cases he : e = EBUSY
      · rw [if_pos he]; exact ⟨fun h => absurd (hc.symm.trans h) (by simp)⟩
      · rw [if_neg he]; exact ⟨fun h => absurd (hc.symm.trans h) (by simp)⟩
    | none => exact ⟨fun _ => hr⟩
  · rw [if_neg hq]; exact ⟨fun _ => hr⟩

theorem doReply_settles (k : Nat) {st : St} (hc : st.conn = true) (hm : st.mig.isSome = mig)
    (ht : Reached cfg dma st.dma st.irqs) (h : Wire.Hdr) (body : Wire.Body) (fds : List (Option Fd)) (err : Nat) :
    Settles cfg mig dma st.pending (doReply cfg env k st h body fds err).st := by
  have same : Settles cfg mig dma st.pending st := ⟨fun h => absurd (hc.symm.trans h) (by simp)⟩
  unfold doReply
  by_cases hn : h.noReply = true
  · rw [if_pos hn]; exact same
  rw [if_neg hn]
  dsimp only
  cases (Wire.reply env.snd h body fds (err % U32)).1 with
  | ok u => exact same
  | error e =>
    dsimp only
    by_cases he : e = ECONNRESET ∨ e = ENOMSG
    · rw [if_pos he]; exact resetCtx_settles hi ha k hc hm ht
    · rw [if_neg he]; exact same

theorem refuse_settles (k : Nat) {st : St} (hc : st.conn = true) (hm : st.mig.isSome = mig)
    (ht : Reached cfg dma st.dma st.irqs) (h : Wire.Hdr) (fds : List Fd) (err : Nat) :
    Settles cfg mig dma st.pending (refuse cfg env k st h fds err).st := by
  have := doReply_settles hi ha k hc hm ht h (.bytes []) [] err
  unfold refuse
  dsimp only
  split <;> exact this

theorem handle_settles (ho : env.os.Ok) (k : Nat) {st : St} (hc : st.conn = true) (hm : st.mig.isSome = mig)
    (ht : Reached cfg dma st.dma st.irqs) (m : Msg) :
    Settles cfg mig dma st.pending (handleRequest cfg env k st m).st := by
  have hs := (tame_exec cfg env st m).same
  have hm' := (mig_kept cfg mig).exec env st m ho hm
  have ht' := (stable_reached cfg dma).kept.exec env st m ho ht
  have hc' := hs.conn.trans hc
  unfold handleRequest
  dsimp only
  by_cases hf : (exec cfg env st m).res.isFault = true
  · rw [if_pos hf]; exact ⟨fun h => absurd (hc'.symm.trans h) (by simp)⟩
  rw [if_neg hf]
  have := doReply_settles hi ha k hc' hm' ht' m.hdr (exec cfg env st m).out (exec cfg env st m).outFds
    (replyErr (exec cfg env st m).res)
  rw [hs.pending] at this
  unfold finish
  dsimp only
  split <;> exact this

theorem dispatch_settles (ho : env.os.Ok) {st : St} (hc : st.conn = true) (hm : st.mig.isSome = mig)
    (ht : Reached cfg dma st.dma st.irqs) (m : Msg) : Settles cfg mig dma st.pending (dispatch cfg env st m).st := by
  unfold dispatch
  by_cases h1 : shouldExec st.mig m.hdr.cmd = false
  · rw [if_pos h1]; exact refuse_settles hi ha 0 hc hm ht _ _ _
  rw [if_neg h1]
  by_cases h2 : needsQuiesce cfg st m = true
  · rw [if_pos h2]
    dsimp only
    cases env.quiesce 0 with
    | none =>
      have := handle_settles hi ha ho 1 (st := { st with quiesced := true }) hc hm ht m
      exact ⟨fun h => ⟨⟨(this.vacant h).1.irqs, (this.vacant h).1.dma, (this.vacant h).1.mig⟩, (this.vacant h).2⟩⟩
    | some e =>
      dsimp only
      by_cases he : e = EBUSY
      · rw [if_pos he]; exact ⟨fun h => absurd (hc.symm.trans h) (by simp)⟩
      · rw [if_neg he]; exact refuse_settles hi ha 1 hc hm ht _ _ _
  · rw [if_neg h2]
    have := handle_settles hi ha ho 0 hc hm ht m
    exact ⟨fun h => ⟨⟨(this.vacant h).1.irqs, (this.vacant h).1.dma, (this.vacant h).1.mig⟩, (this.vacant h).2⟩⟩

end

/-- A device without client. -/
def Alone (cfg : Cfg) (mig : Bool) (dma : Option (Nat × Nat)) (st : St) : Prop := Settles cfg mig dma .none st

theorem call_alone {cfg : Cfg} (hi : cfg.irq.Ok) {mig : Bool} {dma : Option (Nat × Nat)} {st : St}
    (hm : st.mig.isSome = mig) (ht : Reached cfg dma st.dma st.irqs) (h : Alone cfg mig dma st) (op : Op) (ho : op.OSOk)
    (ha : op.Accepts cfg) : Alone cfg mig dma (call cfg st op).st := by
  cases op with
  | run env i =>
    simp only [call]
    unfold poll
    by_cases h1 : st.pending ≠ .none
    · rw [if_pos h1]; exact h
    rw [if_neg h1]
    by_cases h2 : st.conn = false
    · rw [if_pos h2]; exact h
    rw [if_neg h2]
    have hp : st.pending = .none := not_not.mp h1
    have hc : st.conn = true := by simpa using h2
    have ha' := ha env rfl
    clear ha
    cases i with
    | again => exact h
    | failed e l => exact h
    | lost e l =>
      have := resetCtx_settles hi ha' 0 hc hm ht
      rw [hp] at this
      exact this
    | bad hd fds e =>
      have := refuse_settles hi ha' 0 hc hm ht hd fds e
      rw [hp] at this
      exact this
    | req hd body fds =>
      have := dispatch_settles hi ha' (ho env rfl) hc hm ht ⟨hd, body, fds⟩
      rw [hp] at this
      exact this
  | quiesced env e =>
    simp only [call]
    unfold deviceQuiesced
    by_cases h1 : cfg.hasQuiesce = false ∨ st.pending = .none
    · rw [if_pos h1]; exact h
    rw [if_neg h1]
    have hp : st.pending ≠ .none := fun hh => h1 (.inr hh)
    have hc : st.conn = true := by
      cases hc : st.conn with
      | true => rfl
      | false => exact absurd (h.vacant hc).2 hp
    have ha := ha env rfl
    dsimp only
    by_cases he : e = 0
    · rw [if_pos he]
      cases hpp : st.pending with
      | none => exact absurd hpp hp
      | msg m =>
        have := handle_settles hi ha (ho env rfl) 0 (st := { st with quiesced := true }) hc hm ht m
        dsimp only at this ⊢
        rw [hpp] at this
        exact ⟨fun h => ⟨⟨(this.vacant h).1.irqs, (this.vacant h).1.dma, (this.vacant h).1.mig⟩, rfl⟩⟩
      | ctxReset =>
        have := (resetQuiesced_settles hi ha (st := { st with quiesced := true }) hm ht).1
        dsimp only at this ⊢
        rw [hpp] at this
        exact ⟨fun h => ⟨⟨this.irqs, this.dma, this.mig⟩, rfl⟩⟩
    · rw [if_neg he]
      refine ⟨fun h => absurd (hc.symm.trans (Eq.trans ?_ h)) (by simp)⟩
      cases st.pending <;> rfl
  | transfer env lost =>
    simp only [call]
    unfold transfer
    by_cases h1 : st.pending ≠ .none
    · rw [if_pos h1]; exact h
    rw [if_neg h1]
    by_cases h2 : lost = true ∧ st.conn = true
    · rw [if_pos h2]
      have := resetCtx_settles hi (ha env rfl) 0 h2.2 hm ht
      rw [not_not.mp h1] at this
      exact this
    · rw [if_neg h2]; exact h
  | attach n =>
    simp only [call]
    unfold attach
    by_cases h1 : st.conn = true
    · rw [if_pos h1]; exact h
    rw [if_neg h1]
    cases n with
    | error e => exact h
    | ok c => exact ⟨fun hh => by cases hh⟩
  | config f =>
    exact ⟨fun hh => ⟨⟨(h.vacant hh).1.irqs, (h.vacant hh).1.dma, (h.vacant hh).1.mig⟩, (h.vacant hh).2⟩⟩
  | mark sgl =>
    simp only [call]
    cases hd : st.dma with
    | none => exact h
    | some c =>
      dsimp only
      cases hs : Dma.sglMark c sgl with
      | err e => exact h
      | fault f => exact h
      | ok c' =>
        refine ⟨fun hh => ?_⟩
        obtain ⟨v, hp⟩ := h.vacant hh
        have hr : c.regions = [] := by
          have := v.dma
          rw [hd] at this
          cases dma with
          | none => cases this
          | some x => rw [Option.some.inj this]
        have : c' = c := by
          cases sgl with
          | nil => cases hs; rfl
          | cons sg sgl => simp only [Dma.sglMark, hr, List.getElem?_nil] at hs; cases hs; rfl
        subst this
        exact ⟨⟨v.irqs, by dsimp only; rw [← hd]; exact v.dma, v.mig⟩, hp⟩
  | trigger wr sub => exact h

/-- What a device has been through: any history in which the operating system keeps its contract and the device accepts
the resets. -/
def Past (cfg : Cfg) (mig : Bool) (dma : Option (Nat × Nat)) (st : St) : Prop :=
  ∃ pci ops, (∀ op ∈ ops, op.OSOk ∧ op.Accepts cfg) ∧ st = (run cfg (init cfg mig dma pci) ops).1

theorem Past.alone {cfg : Cfg} (hi : cfg.irq.Ok) {mig : Bool} {dma : Option (Nat × Nat)} {st : St}
    (h : Past cfg mig dma st) : Alone cfg mig dma st := by
  obtain ⟨pci, ops, ho, rfl⟩ := h
  have h0 : Alone cfg mig dma (init cfg mig dma pci) := by
    refine ⟨fun _ => ⟨⟨rfl, ?_, ?_⟩, rfl⟩⟩
    · unfold init; cases dma <;> rfl
    · cases mig <;> rfl
  have hm0 : (init cfg mig dma pci).mig.isSome = mig := by cases mig <;> rfl
  have ht0 : Reached cfg dma (init cfg mig dma pci).dma (init cfg mig dma pci).irqs :=
    run_reached cfg mig dma pci [] (fun _ h => by cases h)
  generalize init cfg mig dma pci = st at h0 hm0 ht0
  induction ops generalizing st with
  | nil => exact h0
  | cons op ops ih =>
    obtain ⟨o1, o2⟩ := ho op (List.mem_cons_self ..)
    have c1 := call_alone hi hm0 ht0 h0 op o1 o2
    have c2 := (mig_kept cfg mig).call hm0 op o1
    have c3 := (stable_reached cfg dma).kept.call (st := st) ht0 op o1
    unfold run
    dsimp only
    split_ifs
    · exact c1
    · exact ih (fun op h => ho op (List.mem_cons_of_mem _ h)) _ c1 c2 c3

/-! ## Two devices without client -/

/-- Equal except for the limits of clients that are gone. -/
def Tied (a b : St) : Prop :=
  a.conn = false ∧ a.pending = .none ∧ b = { a with maxFds := b.maxFds, maxXfer := b.maxXfer }

theorem call_tied (cfg : Cfg) {a b : St} (h : Tied a b) (op : Op) :
    (call cfg b op).res = (call cfg a op).res ∧ (call cfg b op).evs = (call cfg a op).evs ∧
      ((call cfg b op).st = (call cfg a op).st ∨ Tied (call cfg a op).st (call cfg b op).st) := by
  obtain ⟨mig, dma, irqs, pci, conn, pending, quiesced, mf, mx⟩ := a
  obtain ⟨h1, h2, h3⟩ := h
  dsimp only at h1 h2
  subst h1 h2
  generalize b.maxFds = mf' at h3
  generalize b.maxXfer = mx' at h3
  subst h3
  cases op with
  | run env i => exact ⟨rfl, rfl, .inr ⟨rfl, rfl, rfl⟩⟩
  | quiesced env e =>
    have hx : ∀ st : St, st.pending = .none → call cfg st (.quiesced env e) = { st, res := .err EINVAL, evs := [] } :=
      fun st h => by simp only [call, deviceQuiesced, h, or_true, if_true]
    rw [hx _ rfl, hx _ rfl]
    exact ⟨rfl, rfl, .inr ⟨rfl, rfl, rfl⟩⟩
  | transfer env lost =>
    have hx : ∀ st : St, st.pending = .none → st.conn = false →
        call cfg st (.transfer env lost) = { st, res := .ok (), evs := [] } :=
      fun st h h' => by simp [call, transfer, h, h']
    rw [hx _ rfl rfl, hx _ rfl rfl]
    exact ⟨rfl, rfl, .inr ⟨rfl, rfl, rfl⟩⟩
  | attach n =>
    cases n with
    | error e => exact ⟨rfl, rfl, .inr ⟨rfl, rfl, rfl⟩⟩
    | ok c => exact ⟨rfl, rfl, .inl rfl⟩
  | config f => exact ⟨rfl, rfl, .inr ⟨rfl, rfl, rfl⟩⟩
  | mark sgl =>
    simp only [call]
    cases dma with
    | none => exact ⟨rfl, rfl, .inr ⟨rfl, rfl, rfl⟩⟩
    | some c =>
      dsimp only
      cases Dma.sglMark c sgl <;> exact ⟨rfl, rfl, .inr ⟨rfl, rfl, rfl⟩⟩
  | trigger wr sub => exact ⟨rfl, rfl, .inr ⟨rfl, rfl, rfl⟩⟩

theorem run_tied (cfg : Cfg) (ops : List Op) {a b : St} (h : Tied a b) :
    (run cfg b ops).2 = (run cfg a ops).2 ∧
      ((run cfg b ops).1 = (run cfg a ops).1 ∨ Tied (run cfg a ops).1 (run cfg b ops).1) := by
  induction ops generalizing a b with
  | nil => exact ⟨rfl, .inr h⟩
  | cons op ops ih =>
    obtain ⟨c1, c2, c3⟩ := call_tied cfg h op
    unfold run
    dsimp only
    rw [c1, c2]
    by_cases hf : (call cfg a op).res.isFault = true
    · rw [if_pos hf, if_pos hf]; exact ⟨rfl, c3⟩
    rw [if_neg hf, if_neg hf]
    rcases c3 with c3 | c3
    · rw [c3]; exact ⟨rfl, .inl rfl⟩
    · obtain ⟨i1, i2⟩ := ih c3
      exact ⟨by rw [i1], i2⟩

/-- The page size of dirty page logging; 0 without DMA or logging. -/
def logPage (st : St) : Nat := (st.dma.map (·.dirtyPgsize)).getD 0

/-- C89: two devices of the same kind, each without client, with the same config space and the same logging: every
conversation that follows is the same on both, to the last event, whatever earlier clients did and however they went. -/
theorem C89_isolated {cfg : Cfg} (hi : cfg.irq.Ok) {mig : Bool} {dma : Option (Nat × Nat)} {a b : St}
    (ha : Past cfg mig dma a) (hb : Past cfg mig dma b) (ca : a.conn = false) (cb : b.conn = false)
    (hp : a.pci = b.pci) (hl : logPage a = logPage b) (ops : List Op) :
    (run cfg b ops).2 = (run cfg a ops).2 ∧ ((run cfg a ops).1.conn = true → (run cfg b ops).1 = (run cfg a ops).1) := by
  obtain ⟨va, pa⟩ := (ha.alone hi).vacant ca
  obtain ⟨vb, pb⟩ := (hb.alone hi).vacant cb
  have qa : a.quiesced = false := by obtain ⟨_, _, _, rfl⟩ := ha; exact run_quiesced _ _ _ rfl
  have qb : b.quiesced = false := by obtain ⟨_, _, _, rfl⟩ := hb; exact run_quiesced _ _ _ rfl
  have hd : b.dma = a.dma := by
    rw [vb.dma, va.dma]
    unfold logPage at hl
    rw [← hl]
  have ht : Tied a b := by
    refine ⟨ca, pa, ?_⟩
    have h1 := vb.irqs.trans va.irqs.symm
    have h2 := vb.mig.trans va.mig.symm
    obtain ⟨mig1, dma1, irqs1, pci1, conn1, pending1, quiesced1, mf1, mx1⟩ := a
    obtain ⟨mig2, dma2, irqs2, pci2, conn2, pending2, quiesced2, mf2, mx2⟩ := b
    dsimp only at ca cb hp pa pb qa qb hd h1 h2
    subst ca cb hp pa pb qa qb hd h1 h2
    rfl
  obtain ⟨r1, r2⟩ := run_tied cfg ops ht
  refine ⟨r1, fun hc => ?_⟩
  rcases r2 with r2 | r2
  · exact r2
  · rw [r2.1] at hc; cases hc

/-- C89: in particular, unless dirty pages are still logged, a client is served as the first client of a freshly realized
device with that config space. -/
theorem C89_fresh {cfg : Cfg} (hi : cfg.irq.Ok) {mig : Bool} {dma : Option (Nat × Nat)} {st : St}
    (h : Past cfg mig dma st) (hc : st.conn = false) (hl : logPage st = 0) (ops : List Op) :
    (run cfg st ops).2 = (run cfg (init cfg mig dma st.pci) ops).2 :=
  (C89_isolated hi (a := init cfg mig dma st.pci) ⟨st.pci, [], (fun _ h => by cases h), rfl⟩ h rfl hc rfl
    (by rw [hl]; unfold logPage init; cases dma <;> rfl) ops).1

section
open Demo

theorem accepts {op : Op} (h : ∀ e, op.env? = some e → e.resetCb = env.resetCb) : op.Accepts cfg :=
  fun e he _ => by rw [h e he]; rfl

/-- A client maps a region and binds interrupts, and disappears. -/
def gone : List Op :=
  [.attach (.ok { maxFds := 8, maxXfer := 1048576, pgsize := 4096 }), .run env (req 1 2 0 (mapBody 0x100000) [5]),
   .run env (req 2 8 0 bindBody [6, 7]), .run env (req 3 16 0 (stateBody 1) []), .run env (.lost ENOMSG [])]

theorem gone_past : Past cfg true (some (8, 2 ^ 40)) (run cfg (init cfg true (some (8, 2 ^ 40)) pci) gone).1 := by
  refine ⟨pci, gone, fun op hop => ?_, rfl⟩
  simp only [gone, List.mem_cons, List.not_mem_nil, or_false] at hop
  rcases hop with rfl | rfl | rfl | rfl | rfl <;>
    exact ⟨fun e he => by cases he <;> exact env_ok rfl, accepts fun e he => by cases he <;> rfl⟩

/-- The next client is served as if there had been none before. -/
example (ops : List Op) : (run cfg (run cfg (init cfg true (some (8, 2 ^ 40)) pci) gone).1 ops).2 =
    (run cfg (init cfg true (some (8, 2 ^ 40)) (run cfg (init cfg true (some (8, 2 ^ 40)) pci) gone).1.pci) ops).2 :=
  C89_fresh irq_ok gone_past (by decide +kernel) (by decide +kernel) ops

/-- The next client: maps a region and asks for its dirty pages. -/
def following : List Op :=
  [.attach (.ok { maxFds := 8, maxXfer := 1048576, pgsize := 4096 }), .run env (req 1 2 0 (mapBody 0x100000) [5]),
   .run env (req 2 16 0 reportBody' [])]
where reportBody' : List Byte := enc 4 4096 ++ enc 4 (0x10000 + 8) ++ enc 8 0x100000 ++ enc 8 0x200000 ++ enc 8 0x1000

/-- The client before leaves dirty page logging switched on. -/
def leftOn : List Op :=
  [.attach (.ok { maxFds := 8, maxXfer := 1048576, pgsize := 4096 }), .run env (req 1 16 0 logBody []),
   .run env (.lost ENOMSG [])]

/-- C89, the proviso is needed: a client can tell from the replies whether an earlier client left dirty page logging on. -/
theorem C89_logging :
    let st := (run cfg (init cfg true (some (8, 2 ^ 40)) pci) leftOn).1
    st.conn = false ∧ logPage st = 4096 ∧
    ((sents (run cfg st following).2).map fun w => (Wire.Hdr.ofBytes w.bytes).err) = [0, 0] ∧
    ((sents (run cfg (init cfg true (some (8, 2 ^ 40)) st.pci) following).2).map
      fun w => (Wire.Hdr.ofBytes w.bytes).err) = [0, EINVAL] := by
  decide +kernel

/-- The client before stops the device, which then refuses to be reset. -/
def leftStopped : List Op :=
  [.attach (.ok { maxFds := 8, maxXfer := 1048576, pgsize := 4096 }), .run env (req 1 16 0 (stateBody 1) []),
   .run { env with resetCb := fun _ => some 5 } (.lost ENOMSG [])]

/-- C89: and if the device refuses the reset, the mapping of the next client is refused. -/
theorem C89_refused :
    let st := (run cfg (init cfg true (some (8, 2 ^ 40)) pci) leftStopped).1
    st.conn = false ∧ logPage st = 0 ∧
    ((sents (run cfg st following).2).map fun w => (Wire.Hdr.ofBytes w.bytes).err) = [EINVAL, ENOENT] := by
  decide +kernel

end

end Verif.Server
