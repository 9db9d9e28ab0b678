import Verif.Server.Fds
import Verif.Dma.Maps

/-!
# The device's view of guest memory

What the whole server, over any history of calls, tells the device about guest memory and does to the mappings of it is
what the DMA controller alone does in some history of its own operations. -/

namespace Verif.Server
open Verif
open Verif.Dma (Fd)

/-- The part of a trace that concerns guest memory: announcements, withdrawals, `mmap` and `munmap`. -/
def memory (evs : List Ev) : List Dma.Ev :=
  evs.filterMap fun e => match e with
    | .call (.dmaRegister i) _ => some (.register i)
    | .call (.dmaUnregister i) _ => some (.unregister i)
    | .mmap b l => some (.mmap b l)
    | .munmap b l => some (.munmap b l)
    | _ => none

/-- The events of the controller other than `close`. -/
def seen (evs : List Dma.Ev) : List Dma.Ev := evs.filter fun e => match e with | .close _ => false | _ => true

theorem memory_append (a b : List Ev) : memory (a ++ b) = memory a ++ memory b := List.filterMap_append ..
theorem seen_append (a b : List Dma.Ev) : seen (a ++ b) = seen a ++ seen b := List.filter_append ..

theorem memory_dma (q : Bool) (evs : List Dma.Ev) : memory (evs.flatMap (ofDma q)) = seen evs := by
  induction evs with
  | nil => rfl
  | cons e evs ih =>
    rw [List.flatMap_cons, memory_append, ih]
    cases e <;> rfl

theorem memory_flatMap {α : Type} (f : α → List Ev) (l : List α) (h : ∀ a, memory (f a) = []) :
    memory (l.flatMap f) = [] := by
  induction l with
  | nil => rfl
  | cons a l ih => rw [List.flatMap_cons, memory_append, h, ih]; rfl

theorem memory_map {α : Type} (f : α → Ev) (l : List α) (h : ∀ a, memory [f a] = []) : memory (l.map f) = [] := by
  induction l with
  | nil => rfl
  | cons a l ih =>
    rw [List.map_cons, show f a :: l.map f = [f a] ++ l.map f from rfl, memory_append, h, ih]; rfl

theorem memory_irq (q : Bool) (evs : List Irq.Ev) : memory (evs.flatMap (ofIrq q)) = [] :=
  memory_flatMap _ _ (fun e => by cases e <;> rfl)

theorem memory_closes (l : List (Option Fd)) : memory (closes l) = [] := memory_map _ _ (fun _ => rfl)

theorem memory_sent (l : List Wire.Sent) : memory (l.map Ev.sent) = [] := memory_map _ _ (fun _ => rfl)

theorem memory_afterCalls (cfg : Cfg) (env : Env) (q : Bool) (cs : List Region.Call) :
    ∀ p, memory (afterCalls cfg env q p cs).2 = [] := by
  induction cs with
  | nil => intro p; rfl
  | cons c cs ih =>
    intro p
    cases c with
    | config off buf w =>
      simp only [afterCalls, memory_append]
      rw [memory_flatMap _ _ (fun e => by cases e <;> rfl), ih]; rfl
    | cb r off buf w =>
      simp only [afterCalls]
      exact ih p

theorem memory_deviceReset (cfg : Cfg) (env : Env) (st : St) (r : Reason) :
    memory (deviceReset cfg env st r).2.2 = [] := by
  unfold deviceReset
  by_cases h : cfg.hasReset = true
  · rw [if_pos h]
    dsimp only
    cases env.resetCb r <;> rfl
  · rw [if_neg h]; rfl

/-- From table `d` to table `d'` there is a history of DMA operations with the trace of `evs`. -/
def Traced (cfg : Cfg) (d : Option Dma.Ctl) (evs : List Ev) (d' : Option Dma.Ctl) : Prop :=
  (d = none ∧ d' = none ∧ memory evs = []) ∨
    ∃ c ops, d = some c ∧ (∀ op ∈ ops, Dma.Op.OSOk op ∧ op.Bounded) ∧ d' = some (Dma.run cfg.dma c ops).1 ∧
      memory evs = seen (Dma.run cfg.dma c ops).2

theorem dma_run_append (cfg : Dma.Cfg) (a b : List Dma.Op) (c : Dma.Ctl) :
    Dma.run cfg c (a ++ b) =
      ((Dma.run cfg (Dma.run cfg c a).1 b).1, (Dma.run cfg c a).2 ++ (Dma.run cfg (Dma.run cfg c a).1 b).2) := by
  induction a generalizing c with
  | nil => rfl
  | cons o a ih => simp only [List.cons_append, Dma.run, ih, List.append_assoc]

variable {cfg : Cfg}

theorem Traced.same {d : Option Dma.Ctl} {evs : List Ev} (h : memory evs = []) : Traced cfg d evs d := by
  cases d with
  | none => exact .inl ⟨rfl, rfl, h⟩
  | some c => exact .inr ⟨c, [], rfl, (fun _ h => by cases h), rfl, h⟩

theorem Traced.step {c : Dma.Ctl} {evs : List Ev} (op : Dma.Op) (h1 : op.OSOk) (h2 : op.Bounded)
    (h : memory evs = seen (Dma.step cfg.dma c op).2.2) :
    Traced cfg (some c) evs (some (Dma.step cfg.dma c op).1) := by
  refine .inr ⟨c, [op], rfl, ?_, rfl, ?_⟩
  · intro o ho
    rw [List.mem_singleton] at ho
    subst ho
    exact ⟨h1, h2⟩
  · rw [h]; simp only [Dma.run, List.append_nil]

theorem Traced.trans {d d' d'' : Option Dma.Ctl} {a b : List Ev} (h1 : Traced cfg d a d') (h2 : Traced cfg d' b d'') :
    Traced cfg d (a ++ b) d'' := by
  rcases h1 with ⟨rfl, rfl, e1⟩ | ⟨c, o1, rfl, k1, rfl, e1⟩
  · rcases h2 with ⟨_, rfl, e2⟩ | ⟨c, o2, hc, _⟩
    · exact .inl ⟨rfl, rfl, by rw [memory_append, e1, e2]; rfl⟩
    · cases hc
  · rcases h2 with ⟨hc, _⟩ | ⟨c', o2, hc, k2, rfl, e2⟩
    · cases hc
    · cases hc
      refine .inr ⟨c, o1 ++ o2, rfl, ?_, ?_, ?_⟩
      · intro op hop
        rcases List.mem_append.mp hop with h | h
        · exact k1 op h
        · exact k2 op h
      · rw [dma_run_append]
      · rw [dma_run_append, memory_append, seen_append, e1, e2]

theorem Traced.left {d d' : Option Dma.Ctl} {a b : List Ev} (ha : memory a = []) (h : Traced cfg d b d') :
    Traced cfg d (a ++ b) d' := (Traced.same ha).trans h

theorem Traced.right {d d' : Option Dma.Ctl} {a b : List Ev} (h : Traced cfg d a d') (hb : memory b = []) :
    Traced cfg d (a ++ b) d' := h.trans (Traced.same hb)

theorem Traced.cons {d d' : Option Dma.Ctl} {e : Ev} {b : List Ev} (he : memory [e] = []) (h : Traced cfg d b d') :
    Traced cfg d (e :: b) d' := h.left (a := [e]) he

theorem nonmap_ok {op : Dma.Op} (h : ∀ os q, op ≠ .map os q) : op.OSOk ∧ op.Bounded := by
  cases op <;> first | exact ⟨trivial, trivial⟩ | exact absurd rfl (h _ _)

theorem exec_traced {env : Env} (ho : env.os.Ok) (st : St) (m : Msg) :
    Traced cfg st.dma (exec cfg env st m).evs (exec cfg env st m).st.dma := by
  refine exec_elim cfg env st m (P := fun d => Traced cfg st.dma d.evs d.st.dma) ?_ ?_ ?_ ?_ ?_ ?_ ?_ ?_ ?_ ?_ ?_ ?_ ?_ ?_ ?_
  · exact fun _ _ => Traced.same rfl
  · intro c hcmd hc
    refine dmaMap_elim (P := fun d => Traced cfg st.dma d.evs d.st.dma) cfg env st c m.body m.fds
      (fun r _ => Traced.same rfl) ?_
    rintro o rfl
    rw [hc]
    exact Traced.step (.map env.os (mapReq m.body m.fds)) ho (mapReq_bounded ..) (memory_dma ..)
  · intro c hcmd hc
    refine dmaUnmap_elim (P := fun d => Traced cfg st.dma d.evs d.st.dma) cfg env st c m.body m.fds
      (fun r _ => Traced.same rfl) ?_
    intro r l _ _
    rw [hc]
    exact Traced.step (.unmap env.alloc (leAt m.body 8 8) (leAt m.body 16 8) (unmapKind env m.body)) trivial trivial
      (memory_dma ..)
  · exact fun _ => Traced.same rfl
  · exact fun _ => Traced.same rfl
  · exact fun _ => Traced.same rfl
  · exact fun _ => Traced.same rfl
  · exact fun _ => Traced.same (memory_irq ..)
  · exact fun _ => Traced.same (memory_afterCalls ..)
  · exact fun _ => Traced.same (memory_afterCalls ..)
  · intro _
    dsimp only
    rw [(deviceReset_tables ..).1]
    exact Traced.same (memory_deviceReset ..)
  · intro _
    have hz : memory ((Mig.handleFeature env.feat { mig := st.mig, dma := st.dma } m.body).2.2.flatMap
        (ofVfu st.quiesced)) = [] := memory_flatMap _ _ (fun v => rfl)
    have hf := feature_touch env.feat { mig := st.mig, dma := st.dma } m.body cfg.dma
    show Traced cfg st.dma _ (Mig.handleFeature env.feat { mig := st.mig, dma := st.dma } m.body).1.dma
    dsimp only at hf
    rcases hf with h | ⟨c, op, hc, ho, _, h, he⟩
    · rw [h]; exact Traced.same hz
    · rw [h, hc]
      refine Traced.step op (nonmap_ok ho).1 (nonmap_ok ho).2 ?_
      rw [he]; exact hz
  · exact fun _ => Traced.same (memory_map _ _ (fun _ => rfl))
  · exact fun _ => Traced.same (memory_map _ _ (fun _ => rfl))
  · exact fun _ => Traced.same rfl

theorem resetQuiesced_traced (env : Env) (st : St) :
    Traced cfg st.dma (resetQuiesced cfg env st).evs (resetQuiesced cfg env st).st.dma := by
  unfold resetQuiesced
  cases hd : dropDma cfg st.dma with
  | err e => exact Traced.same rfl
  | fault f => exact Traced.same rfl
  | ok x =>
    obtain ⟨d', ev⟩ := x
    dsimp only
    have h1 : Traced cfg st.dma (ev.flatMap (ofDma st.quiesced)) d' := by
      rcases dropDma_step hd with ⟨h, rfl, rfl⟩ | ⟨c, h, rfl, rfl⟩
      · rw [h]; exact Traced.same rfl
      · rw [h]; exact Traced.step _ trivial trivial (memory_dma ..)
    obtain ⟨e1, e2⟩ := deviceReset_tables cfg env { st with dma := d' } .lostConn
    have h2 := h1.right (memory_deviceReset cfg env { st with dma := d' } .lostConn)
    dsimp only at e1
    cases hi : Irq.reset cfg.irq (deviceReset cfg env { st with dma := d' } .lostConn).1.irqs with
    | err e => dsimp only; rw [e1]; exact h2
    | fault f => dsimp only; rw [e1]; exact h2
    | ok y =>
      obtain ⟨i', ev3⟩ := y
      dsimp only
      rw [e1]
      exact (h2.right (memory_irq ..)).right rfl

theorem resetCtx_traced (env : Env) (k : Nat) (st : St) :
    Traced cfg st.dma (resetCtx cfg env k st).evs (resetCtx cfg env k st).st.dma := by
  unfold resetCtx
  by_cases hq : cfg.hasQuiesce = true ∧ st.pending = .none
  · rw [if_pos hq]
    dsimp only
    cases env.quiesce k with
    | none => exact (resetQuiesced_traced env st).left rfl
    | some e =>
      dsimp only
      by_cases he : e = EBUSY
      · rw [if_pos he]; exact Traced.same rfl
      · rw [if_neg he]; exact Traced.same rfl
  · rw [if_neg hq]; exact resetQuiesced_traced env st

theorem doReply_traced (env : Env) (k : Nat) (st : St) (hd : Wire.Hdr) (body : Wire.Body)
    (fds : List (Option Fd)) (err : Nat) :
    Traced cfg st.dma (doReply cfg env k st hd body fds err).evs (doReply cfg env k st hd body fds err).st.dma := by
  unfold doReply
  by_cases hn : hd.noReply = true
  · rw [if_pos hn]; exact Traced.same rfl
  rw [if_neg hn]
  dsimp only
  have hs := memory_sent (Wire.reply env.snd hd body fds (err % U32)).2
  cases (Wire.reply env.snd hd body fds (err % U32)).1 with
  | ok _ => exact Traced.same hs
  | error e =>
    dsimp only
    by_cases he : e = ECONNRESET ∨ e = ENOMSG
    · rw [if_pos he]; exact (resetCtx_traced env k st).left hs
    · rw [if_neg he]; exact Traced.same hs

theorem handleRequest_traced {env : Env} (ho : env.os.Ok) (k : Nat) (st : St) (m : Msg) :
    Traced cfg st.dma (handleRequest cfg env k st m).evs (handleRequest cfg env k st m).st.dma := by
  have h1 := exec_traced (cfg := cfg) ho st m
  unfold handleRequest
  dsimp only
  by_cases hf : (Server.exec cfg env st m).res.isFault = true
  · rw [if_pos hf]; exact h1.cons rfl
  rw [if_neg hf]
  unfold finish
  have h2 := doReply_traced (cfg := cfg) env k (Server.exec cfg env st m).st m.hdr (Server.exec cfg env st m).out
    (Server.exec cfg env st m).outFds (replyErr (Server.exec cfg env st m).res)
  have h3 := (h1.trans h2).cons (e := .exec m.hdr) rfl
  dsimp only
  split
  · exact h3
  · exact (h3.right (memory_closes _)).right rfl

theorem refuse_traced (env : Env) (k : Nat) (st : St) (hd : Wire.Hdr) (fds : List Fd) (err : Nat) :
    Traced cfg st.dma (refuse cfg env k st hd fds err).evs (refuse cfg env k st hd fds err).st.dma := by
  unfold refuse
  have h2 := doReply_traced (cfg := cfg) env k st hd (.bytes []) [] err
  dsimp only
  split
  · exact h2
  · exact (h2.right (memory_closes _)).right rfl

theorem dispatch_traced {env : Env} (ho : env.os.Ok) (st : St) (m : Msg) :
    Traced cfg st.dma (dispatch cfg env st m).evs (dispatch cfg env st m).st.dma := by
  unfold dispatch
  by_cases h1 : shouldExec st.mig m.hdr.cmd = false
  · rw [if_pos h1]; exact refuse_traced env 0 st _ _ _
  rw [if_neg h1]
  by_cases h2 : needsQuiesce cfg st m = true
  · rw [if_pos h2]
    dsimp only
    cases env.quiesce 0 with
    | none => exact (handleRequest_traced ho 1 { st with quiesced := true } m).left rfl
    | some e =>
      dsimp only
      by_cases he : e = EBUSY
      · rw [if_pos he]; exact Traced.same rfl
      · rw [if_neg he]; exact (refuse_traced env 1 st _ _ _).left rfl
  · rw [if_neg h2]; exact handleRequest_traced ho 0 st m

theorem call_traced (st : St) (op : Op) (ho : op.OSOk) :
    Traced cfg st.dma (call cfg st op).evs (call cfg st op).st.dma := by
  cases op with
  | run env i =>
    have hos := ho env rfl
    simp only [call]
    unfold poll
    by_cases h1 : st.pending ≠ .none
    · rw [if_pos h1]; exact Traced.same rfl
    rw [if_neg h1]
    by_cases h2 : st.conn = false
    · rw [if_pos h2]; exact Traced.same rfl
    rw [if_neg h2]
    cases i with
    | again => exact Traced.same rfl
    | lost e leak => exact (resetCtx_traced env 0 st).cons rfl
    | failed e leak => exact Traced.same rfl
    | bad hd fds e => exact (refuse_traced env 0 st _ _ _).cons rfl
    | req hd body fds => exact (dispatch_traced hos st _).cons rfl
  | quiesced env e =>
    have ho := ho env rfl
    simp only [call]
    unfold deviceQuiesced
    by_cases h1 : cfg.hasQuiesce = false ∨ st.pending = .none
    · rw [if_pos h1]; exact Traced.same rfl
    rw [if_neg h1]
    dsimp only
    refine Traced.cons rfl ?_
    by_cases h2 : e = 0
    · rw [if_pos h2]
      cases st.pending with
      | none => exact Traced.same rfl
      | msg m => exact handleRequest_traced (cfg := cfg) ho 0 { st with pending := .msg m, quiesced := true } m
      | ctxReset => exact resetQuiesced_traced (cfg := cfg) env { st with pending := .ctxReset, quiesced := true }
    · rw [if_neg h2]
      cases st.pending with
      | none => exact Traced.same rfl
      | msg m => exact Traced.same (by rw [memory_append, memory_closes]; rfl)
      | ctxReset => exact Traced.same rfl
  | transfer env lost =>
    simp only [call]
    unfold transfer
    by_cases h1 : st.pending ≠ .none
    · rw [if_pos h1]; exact Traced.same rfl
    rw [if_neg h1]
    by_cases h2 : lost = true ∧ st.conn = true
    · rw [if_pos h2]; exact resetCtx_traced env 0 st
    · rw [if_neg h2]; exact Traced.same rfl
  | attach n =>
    simp only [call]
    unfold attach
    by_cases h1 : st.conn = true
    · rw [if_pos h1]; exact Traced.same rfl
    rw [if_neg h1]
    cases n with
    | error e => exact Traced.same rfl
    | ok c => exact Traced.same rfl
  | config f => exact Traced.same rfl
  | mark sgl =>
    simp only [call]
    cases hd : st.dma with
    | none => dsimp only; rw [hd]; exact Traced.same rfl
    | some c =>
      dsimp only
      cases hs : Dma.sglMark c sgl with
      | ok c' =>
        dsimp only
        have : Dma.step cfg.dma c (.mark sgl) = (c', .mark (.ok ()), []) := by simp only [Dma.step, hs]
        have h := Traced.step (cfg := cfg) (c := c) (evs := []) (.mark sgl) trivial trivial (by rw [this]; rfl)
        rw [this] at h
        exact h
      | err e => dsimp only; rw [hd]; exact Traced.same rfl
      | fault f => dsimp only; rw [hd]; exact Traced.same rfl
  | trigger wr sub => exact Traced.same (memory_irq ..)

/-- The trace of any history of the server is, as far as guest memory goes, one of the DMA controller. -/
theorem run_traced (ops : List Op) (st : St) (ho : ∀ op ∈ ops, op.OSOk) :
    Traced cfg st.dma (run cfg st ops).2 (run cfg st ops).1.dma := by
  induction ops generalizing st with
  | nil => exact Traced.same rfl
  | cons op ops ih =>
    simp only [run]
    have h1 := call_traced (cfg := cfg) st op (ho op (.head _))
    by_cases hf : (call cfg st op).res.isFault = true
    · rw [if_pos hf]; exact h1
    · rw [if_neg hf]
      exact h1.trans ((ih (call cfg st op).st (fun op hop => ho op (.tail _ hop))).cons rfl)

/-! ## C09 for the whole server -/

theorem observe_seen (evs : List Dma.Ev) : ∀ S last, Dma.observe S last (seen evs) = Dma.observe S last evs := by
  induction evs with
  | nil => intro S last; rfl
  | cons e evs ih =>
    intro S last
    cases e with
    | register i => exact ih _ _
    | unregister i =>
      show (if S i then _ else none) = (if S i then _ else none)
      by_cases h : S i = true
      · rw [if_pos h, if_pos h]; exact ih _ _
      · rw [if_neg h, if_neg h]
    | mmap b l => exact ih _ _
    | munmap b l =>
      cases last with
      | none => rfl
      | some i =>
        show (if i.mapBase = b ∧ i.mapLen = l then _ else none) = (if i.mapBase = b ∧ i.mapLen = l then _ else none)
        by_cases h : i.mapBase = b ∧ i.mapLen = l
        · rw [if_pos h, if_pos h]; exact ih _ _
        · rw [if_neg h, if_neg h]
    | close x => exact ih _ _

/-- **C09**, for the whole server: whatever calls, requests, lost connections and resets happen in whatever order, the
announcements of guest memory to a device with both callbacks are legal for the observer, and what is announced at the end
is exactly what the table holds. -/
theorem C09_server (hreg : cfg.dma.hasReg = true) (hunreg : cfg.dma.hasUnreg = true) (mig : Bool)
    (dma : Option (Nat × Nat)) (pci : Pci.Pci) (ops : List Op) (ho : ∀ op ∈ ops, op.OSOk) :
    ∃ S, Dma.observe (fun _ => false) none (memory (run cfg (init cfg mig dma pci) ops).2) = some S ∧
      ∀ i, S i = true ↔ ∃ c r, (run cfg (init cfg mig dma pci) ops).1.dma = some c ∧ r ∈ c.regions ∧ r.info = i := by
  rcases run_traced (cfg := cfg) ops (init cfg mig dma pci) ho with ⟨_, h2, h3⟩ | ⟨c, dops, h1, hk, h2, h3⟩
  · refine ⟨fun _ => false, by rw [h3]; rfl, fun i => ?_⟩
    rw [h2]; simp
  · cases dma with
    | none => cases h1
    | some x =>
      cases h1
      obtain ⟨S, e, hS⟩ := Dma.C09_announcements cfg.dma hreg hunreg x.1 x.2 dops hk
      refine ⟨S, by rw [h3, observe_seen]; exact e, fun i => ?_⟩
      rw [hS i, h2]
      simp

/-! ## Mappings of client memory -/

theorem count_seen {e : Dma.Ev} (he : ∀ x, e ≠ .close x) (evs : List Dma.Ev) : (seen evs).count e = evs.count e := by
  induction evs with
  | nil => rfl
  | cons a evs ih =>
    cases a with
    | close x =>
      rw [List.count_cons_of_ne (he x).symm]; exact ih
    | _ => show List.count e (_ :: seen evs) = _; rw [List.count_cons, List.count_cons, ih]

theorem count_mmap (evs : List Ev) (b l : Nat) : (memory evs).count (.mmap b l) = evs.count (.mmap b l) := by
  induction evs with
  | nil => rfl
  | cons e evs ih =>
    have h : memory (e :: evs) = memory [e] ++ memory evs := memory_append [e] evs
    rw [h, List.count_append, ih, List.count_cons]
    cases e with
    | call c q => cases c <;> simp [memory]
    | mmap b' l' => by_cases hb : b' = b ∧ l' = l <;> simp [memory, List.count_cons, Nat.add_comm]
    | _ => simp [memory]

theorem count_munmap (evs : List Ev) (b l : Nat) : (memory evs).count (.munmap b l) = evs.count (.munmap b l) := by
  induction evs with
  | nil => rfl
  | cons e evs ih =>
    have h : memory (e :: evs) = memory [e] ++ memory evs := memory_append [e] evs
    rw [h, List.count_append, ih, List.count_cons]
    cases e with
    | call c q => cases c <;> simp [memory]
    | munmap b' l' => by_cases hb : b' = b ∧ l' = l <;> simp [memory, List.count_cons, Nat.add_comm]
    | _ => simp [memory]

/-- Regions that use the mapping of `len` bytes at `base`. -/
def users (d : Option Dma.Ctl) (base len : Nat) : Nat :=
  ((d.map (·.regions)).getD []).countP fun r =>
    r.fd.isSome && r.info.mapBase == base && r.info.mapLen == len

theorem Traced.maps {d d' : Option Dma.Ctl} {evs : List Ev} (h : Traced cfg d evs d') (b l : Nat) :
    users d' b l + evs.count (.munmap b l) = users d b l + evs.count (.mmap b l) := by
  rw [← count_mmap, ← count_munmap]
  rcases h with ⟨rfl, rfl, h⟩ | ⟨c, ops, rfl, _, rfl, h⟩
  · rw [h]; simp
  · rw [h, count_seen (by simp), count_seen (by simp)]
    exact Dma.maps_run cfg.dma ops c b l

end Verif.Server
