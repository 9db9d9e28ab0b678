import Verif.Server.Lift

/-! # Every state of the server has tables that their own histories lead to -/

namespace Verif.Server
open Verif
open Verif.Dma (Fd)

/-- What the operating system and the device answer during a call, if the call asks. -/
def Op.env? : Op → Option Env
  | .run env _ | .quiesced env _ | .transfer env _ => some env
  | _ => none

/-- The operating system keeps its contract during the call. -/
def Op.OSOk (op : Op) : Prop := ∀ env, op.env? = some env → env.os.Ok

/-- A property of the state that requests, resets and the device's own actions preserve, and that does not depend on the
state of the connection. -/
structure Kept (cfg : Cfg) (P : St → Prop) : Prop where
  exec : ∀ env st m, env.os.Ok → P st → P (exec cfg env st m).st
  reset : ∀ env st, P st → P (resetQuiesced cfg env st).st
  conn : ∀ st conn pending quiesced maxFds maxXfer, P st → P { st with conn, pending, quiesced, maxFds, maxXfer }
  config : ∀ st f, P st → P { st with pci := { st.pci with mem := f } }
  mark : ∀ st c c' sgl, P st → st.dma = some c → Dma.sglMark c sgl = .ok c' → P { st with dma := some c' }

/-- The same, but it may depend on the limits the client announced. -/
structure Held (cfg : Cfg) (P : St → Prop) : Prop where
  exec : ∀ env st m, env.os.Ok → P st → P (exec cfg env st m).st
  reset : ∀ env st, P st → P (resetQuiesced cfg env st).st
  conn : ∀ st conn pending quiesced, P st → P { st with conn, pending, quiesced }
  config : ∀ st f, P st → P { st with pci := { st.pci with mem := f } }
  mark : ∀ st c c' sgl, P st → st.dma = some c → Dma.sglMark c sgl = .ok c' → P { st with dma := some c' }

section
variable {cfg : Cfg} {P : St → Prop} (H : Held cfg P)
include H

theorem Held.resetCtx (env : Env) (k : Nat) {st : St} (h : P st) : P (resetCtx cfg env k st).st := by
  unfold Server.resetCtx
  by_cases hq : cfg.hasQuiesce = true ∧ st.pending = .none
  · rw [if_pos hq]
    dsimp only
    cases env.quiesce k with
    | none => exact H.reset env _ h
    | some e =>
      dsimp only
      by_cases he : e = EBUSY
      · rw [if_pos he]; exact H.conn _ _ _ _ h
      · rw [if_neg he]; exact h
  · rw [if_neg hq]; exact H.reset env _ h

theorem Held.doReply (env : Env) (k : Nat) {st : St} (h : P st) (hd : Wire.Hdr) (body : Wire.Body)
    (fds : List (Option Fd)) (err : Nat) : P (doReply cfg env k st hd body fds err).st := by
  unfold Server.doReply
  by_cases hn : hd.noReply = true
  · rw [if_pos hn]; exact h
  rw [if_neg hn]
  dsimp only
  cases (Wire.reply env.snd hd body fds (err % U32)).1 with
  | ok _ => exact h
  | error e =>
    dsimp only
    by_cases he : e = ECONNRESET ∨ e = ENOMSG
    · rw [if_pos he]; exact H.resetCtx env k h
    · rw [if_neg he]; exact h

theorem Held.handleRequest {env : Env} (ho : env.os.Ok) (k : Nat) {st : St} (h : P st) (m : Msg) :
    P (handleRequest cfg env k st m).st := by
  have h1 := H.exec env st m ho h
  unfold Server.handleRequest
  dsimp only
  by_cases hf : (Server.exec cfg env st m).res.isFault = true
  · rw [if_pos hf]; exact h1
  rw [if_neg hf]
  unfold finish
  have h2 := H.doReply env k h1 m.hdr (Server.exec cfg env st m).out (Server.exec cfg env st m).outFds
    (replyErr (Server.exec cfg env st m).res)
  dsimp only
  split <;> exact h2

theorem Held.refuse (env : Env) (k : Nat) {st : St} (h : P st) (hd : Wire.Hdr) (fds : List Fd) (err : Nat) :
    P (refuse cfg env k st hd fds err).st := by
  unfold Server.refuse
  have h2 := H.doReply env k h hd (.bytes []) [] err
  dsimp only
  split <;> exact h2

theorem Held.dispatch {env : Env} (ho : env.os.Ok) {st : St} (h : P st) (m : Msg) : P (dispatch cfg env st m).st := by
  unfold Server.dispatch
  by_cases h1 : shouldExec st.mig m.hdr.cmd = false
  · rw [if_pos h1]; exact H.refuse env 0 h _ _ _
  rw [if_neg h1]
  by_cases h2 : needsQuiesce cfg st m = true
  · rw [if_pos h2]
    dsimp only
    cases env.quiesce 0 with
    | none => exact H.conn _ _ _ _ (H.handleRequest ho 1 (H.conn _ _ _ _ h) m)
    | some e =>
      dsimp only
      by_cases he : e = EBUSY
      · rw [if_pos he]; exact H.conn _ _ _ _ h
      · rw [if_neg he]; exact H.refuse env 1 h _ _ _
  · rw [if_neg h2]; exact H.conn _ _ _ _ (H.handleRequest ho 0 h m)

/-- A new client's limits are the exception. -/
theorem Held.call {st : St} (h : P st) (op : Op) (ho : op.OSOk) (hat : ∀ n, op = .attach n → P (attach st n).st) :
    P (call cfg st op).st := by
  cases op with
  | run env i =>
    have hos := ho env rfl
    simp only [Server.call]
    unfold poll
    by_cases h1 : st.pending ≠ .none
    · rw [if_pos h1]; exact h
    rw [if_neg h1]
    by_cases h2 : st.conn = false
    · rw [if_pos h2]; exact h
    rw [if_neg h2]
    cases i with
    | again => exact h
    | lost e leak => exact H.resetCtx env 0 h
    | failed e leak => exact h
    | bad hd fds e => exact H.refuse env 0 h _ _ _
    | req hd body fds => exact H.dispatch hos h _
  | quiesced env e =>
    have ho := ho env rfl
    simp only [Server.call]
    unfold deviceQuiesced
    by_cases h1 : cfg.hasQuiesce = false ∨ st.pending = .none
    · rw [if_pos h1]; exact h
    rw [if_neg h1]
    dsimp only
    refine H.conn _ _ _ _ ?_
    have hq : ∀ p, P { st with pending := p, quiesced := true } := fun p => H.conn _ _ _ _ h
    by_cases h2 : e = 0
    · rw [if_pos h2]
      cases st.pending with
      | none => exact h
      | msg m => exact H.handleRequest ho 0 (hq _) m
      | ctxReset => exact H.reset env _ (hq _)
    · rw [if_neg h2]
      cases st.pending <;> exact hq _
  | transfer env lost =>
    simp only [Server.call]
    unfold transfer
    by_cases h1 : st.pending ≠ .none
    · rw [if_pos h1]; exact h
    rw [if_neg h1]
    by_cases h2 : lost = true ∧ st.conn = true
    · rw [if_pos h2]; exact H.resetCtx env 0 h
    · rw [if_neg h2]; exact h
  | attach n => exact hat n rfl
  | config f => exact H.config _ _ h
  | mark sgl =>
    simp only [Server.call]
    cases hd : st.dma with
    | none => exact h
    | some c =>
      dsimp only
      cases hs : Dma.sglMark c sgl with
      | ok c' => exact H.mark st c c' sgl h hd hs
      | err e => exact h
      | fault f => exact h
  | trigger wr sub => exact h

end

section
variable {cfg : Cfg} {P : St → Prop} (H : Kept cfg P)
include H

theorem Kept.held : Held cfg P :=
  ⟨H.exec, H.reset, fun st c p q h => H.conn st c p q st.maxFds st.maxXfer h, H.config, H.mark⟩

theorem Kept.call {st : St} (h : P st) (op : Op) (ho : op.OSOk) : P (call cfg st op).st := by
  refine H.held.call h op ho (fun n _ => ?_)
  unfold attach
  by_cases h1 : st.conn = true
  · rw [if_pos h1]; exact h
  rw [if_neg h1]
  cases n with
  | error e => exact h
  | ok c => exact H.conn _ _ _ _ _ _ h

theorem Kept.run (ops : List Op) {st : St} (h : P st) (ho : ∀ op ∈ ops, op.OSOk) : P (run cfg st ops).1 := by
  induction ops generalizing st with
  | nil => exact h
  | cons op ops ih =>
    simp only [Server.run]
    have h1 := H.call h op (ho op (.head _))
    by_cases hf : (Server.call cfg st op).res.isFault = true
    · rw [if_pos hf]; exact h1
    · rw [if_neg hf]; exact ih h1 (fun op hop => ho op (.tail _ hop))

end

/-! ## The tables -/

/-- A property of both tables that DMA and interrupt operations preserve. -/
structure Stable (cfg : Cfg) (T : Option Dma.Ctl → Irq.Irqs → Prop) : Prop where
  dma : ∀ c i op, T (some c) i → op.Bounded → op.OSOk → T (some (Dma.step cfg.dma c op).1) i
  irq : ∀ d i op, T d i → T d (Irq.step cfg.irq i op).irqs

section
variable {cfg : Cfg} {T : Option Dma.Ctl → Irq.Irqs → Prop} (H : Stable cfg T)
include H

theorem Stable.exec {env : Env} (ho : env.os.Ok) {st : St} (h : T st.dma st.irqs) (m : Msg) :
    T (exec cfg env st m).st.dma (exec cfg env st m).st.irqs := by
  cases exec_touch cfg env st m with
  | none h1 h2 _ _ => rw [h1, h2]; exact h
  | map c _ hc h1 h2 _ _ => rw [h1, h2]; rw [hc] at h; exact H.dma _ _ _ h (mapReq_bounded ..) ho
  | dma c op hc hm _ h1 h2 _ _ =>
    rw [h1, h2]; rw [hc] at h
    refine H.dma _ _ _ h ?_ ?_
    · cases op <;> first | trivial | exact absurd rfl (hm _ _)
    · cases op <;> first | trivial | exact absurd rfl (hm _ _)
  | irq _ h1 h2 _ _ => rw [h1, h2]; exact H.irq _ _ (.set env.eventfd m.body m.fds) h

omit H in
/-- Removing all regions is one DMA operation. -/
theorem removeAll_step {c c' : Dma.Ctl} {ev : List Dma.Ev} (h : Dma.removeAll c cfg.dma.hasUnreg = .ok (c', ev)) :
    Dma.step cfg.dma c (.unmap true 0 0 .all) = (c', .unmap (.ok none), ev) := by
  simp [Dma.step, Dma.handleUnmap, h]

omit H in
theorem dropDma_step {d d' : Option Dma.Ctl} {ev : List Dma.Ev} (h : dropDma cfg d = .ok (d', ev)) :
    (d = none ∧ d' = none ∧ ev = []) ∨
      ∃ c, d = some c ∧ d' = some (Dma.step cfg.dma c (.unmap true 0 0 .all)).1 ∧
        ev = (Dma.step cfg.dma c (.unmap true 0 0 .all)).2.2 := by
  unfold dropDma at h
  cases d with
  | none => cases h; exact .inl ⟨rfl, rfl, rfl⟩
  | some c =>
    dsimp only at h
    cases hr : Dma.removeAll c cfg.dma.hasUnreg with
    | err e => rw [hr] at h; cases h
    | fault f => rw [hr] at h; cases h
    | ok x =>
      rw [hr] at h
      simp only [Res.map] at h
      cases h
      refine .inr ⟨c, rfl, ?_, ?_⟩ <;> rw [removeAll_step (c' := x.1) (ev := x.2) hr]

theorem Stable.dropDma {d d' : Option Dma.Ctl} {ev : List Dma.Ev} {i : Irq.Irqs} (h : T d i)
    (hd : dropDma cfg d = .ok (d', ev)) : T d' i := by
  rcases dropDma_step hd with ⟨rfl, rfl, _⟩ | ⟨c, rfl, rfl, _⟩
  · exact h
  · exact H.dma _ _ _ h trivial trivial

theorem Stable.resetQuiesced (env : Env) {st : St} (h : T st.dma st.irqs) :
    T (resetQuiesced cfg env st).st.dma (resetQuiesced cfg env st).st.irqs := by
  unfold Server.resetQuiesced
  cases hd : Server.dropDma cfg st.dma with
  | err e => exact h
  | fault f => exact h
  | ok x =>
    obtain ⟨d', ev⟩ := x
    dsimp only
    have h1 := H.dropDma h hd
    obtain ⟨e1, e2⟩ := deviceReset_tables cfg env { st with dma := d' } .lostConn
    dsimp only at e1 e2
    cases hi : Irq.reset cfg.irq (deviceReset cfg env { st with dma := d' } .lostConn).1.irqs with
    | err e => dsimp only; rw [e1, e2]; exact h1
    | fault f => dsimp only; rw [e1, e2]; exact h1
    | ok y =>
      obtain ⟨i', ev3⟩ := y
      dsimp only
      rw [e1]
      rw [e2] at hi
      have h2 := H.irq _ _ .reset h1
      simp only [Irq.step, hi] at h2
      exact h2

theorem Stable.kept : Kept cfg (fun st => T st.dma st.irqs) where
  exec := fun _ _ m ho h => H.exec ho h m
  reset := fun env _ h => H.resetQuiesced env h
  conn := fun _ _ _ _ _ _ h => h
  config := fun _ _ h => h
  mark := fun st c c' sgl h hd hs => by
    dsimp only at h ⊢
    rw [hd] at h
    have h1 := H.dma _ _ (.mark sgl) h trivial trivial
    simp only [Dma.step, hs] at h1
    exact h1

end

/-- Migration is set up for good. -/
theorem mig_kept (cfg : Cfg) (b : Bool) : Kept cfg (fun st => st.mig.isSome = b) := by
  have hr : ∀ env st r, (deviceReset cfg env st r).1.mig.isSome = st.mig.isSome := by
    intro env st r
    unfold deviceReset
    by_cases h : cfg.hasReset = true
    · rw [if_pos h]
      dsimp only
      cases env.resetCb r <;> simp
    · rw [if_neg h]; simp
  refine ⟨?_, ?_, fun _ _ _ _ _ _ h => h, fun _ _ h => h, fun _ _ _ _ h _ _ => h⟩
  · intro env st m _ h
    refine exec_elim (P := fun d => d.st.mig.isSome = b) cfg env st m ?_ ?_ ?_ ?_ ?_ ?_ ?_ ?_ ?_ ?_ ?_ ?_ ?_ ?_ ?_
    · exact fun _ _ => h
    · exact fun c _ _ => dmaMap_elim (P := fun d => d.st.mig.isSome = b) cfg env st c _ _ (fun _ _ => h) (fun _ _ => h)
    · exact fun c _ _ => dmaUnmap_elim (P := fun d => d.st.mig.isSome = b) cfg env st c _ _ (fun _ _ => h)
        (fun _ _ _ _ => h)
    iterate 5 exact fun _ => h
    · exact fun _ => h
    · exact fun _ => h
    · exact fun _ => (hr ..).trans h
    · intro _
      show (Mig.handleFeature env.feat { mig := st.mig, dma := st.dma } m.body).1.mig.isSome = b
      rcases Mig.feature_cases env.feat { mig := st.mig, dma := st.dma } m.body with
        he | ⟨n, hn, _, ⟨_, he⟩ | ⟨_, he⟩ | ⟨_, _, he⟩⟩
      · rw [he]; exact h
      · rw [he]
        unfold Mig.featGet
        split
        · exact h
        · split <;> exact h
      · rw [he]
        unfold Mig.featSet
        have hs : b = true := by rw [← h]; show st.mig.isSome = true; rw [show st.mig = some n from hn]; rfl
        split
        · exact h
        · split
          · exact h
          · split
            · exact hs.symm
            · split <;> exact h
      · rw [he]; exact h
    iterate 3 exact fun _ => h
  · intro env st h
    unfold resetQuiesced
    cases dropDma cfg st.dma with
    | err e => exact h
    | fault f => exact h
    | ok x =>
      dsimp only
      have h1 := hr env { st with dma := x.1 } .lostConn
      cases Irq.reset cfg.irq (deviceReset cfg env { st with dma := x.1 } .lostConn).1.irqs with
      | err e => exact h1.trans h
      | fault f => exact h1.trans h
      | ok y => exact h1.trans h

/-- The tables are reached from the ones after `vfu_realize_ctx` by operations of their own. -/
def Reached (cfg : Cfg) (dma : Option (Nat × Nat)) (d : Option Dma.Ctl) (i : Irq.Irqs) : Prop :=
  (∃ ops : List Dma.Op, (∀ op ∈ ops, op.Bounded ∧ op.OSOk) ∧
    d = dma.map (fun x => (Dma.run cfg.dma (Dma.create x.1 x.2) ops).1)) ∧
  ∃ ops : List Irq.Op, i = Irq.run cfg.irq (Irq.realize cfg.irq) ops

theorem dma_run_snoc (cfg : Dma.Cfg) (c : Dma.Ctl) (ops : List Dma.Op) (op : Dma.Op) :
    (Dma.run cfg c (ops ++ [op])).1 = (Dma.step cfg (Dma.run cfg c ops).1 op).1 := by
  induction ops generalizing c with
  | nil => rfl
  | cons o ops ih => simp only [List.cons_append, Dma.run]; exact ih _

theorem stable_reached (cfg : Cfg) (dma : Option (Nat × Nat)) : Stable cfg (Reached cfg dma) := by
  refine ⟨?_, ?_⟩
  · rintro c i op ⟨⟨ops, h1, h2⟩, h3⟩ hb ho
    refine ⟨⟨ops ++ [op], ?_, ?_⟩, h3⟩
    · intro o hm
      simp only [List.mem_append, List.mem_singleton] at hm
      rcases hm with hm | rfl
      · exact h1 o hm
      · exact ⟨hb, ho⟩
    · cases dma with
      | none => cases h2
      | some x =>
        simp only [Option.map_some, Option.some.injEq] at h2 ⊢
        rw [dma_run_snoc, ← h2]
  · rintro d i op ⟨h1, ops, h2⟩
    refine ⟨h1, ops ++ [op], ?_⟩
    rw [Irq.run_append, h2]
    rfl

/-- In every history the DMA table and the interrupt table are those of histories of their own operations. -/
theorem run_reached (cfg : Cfg) (mig : Bool) (dma : Option (Nat × Nat)) (pci : Pci.Pci) (ops : List Op)
    (ho : ∀ op ∈ ops, op.OSOk) :
    Reached cfg dma (run cfg (init cfg mig dma pci) ops).1.dma (run cfg (init cfg mig dma pci) ops).1.irqs := by
  refine (stable_reached cfg dma).kept.run (st := init cfg mig dma pci) ops ?_ ho
  exact ⟨⟨[], (fun op h => by cases h), rfl⟩, [], rfl⟩

end Verif.Server
