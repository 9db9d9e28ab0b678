import Verif.Server.Defer

/-!
# C126: a device that does not quiesce keeps the client it has lost

The connection is gone, but `vfu_reset_ctx` needs the device to quiesce and the device refuses, at once or through
`vfu_device_quiesced`, any number of times. -/

namespace Verif.Server
open Verif

/-- The calls while the client is gone and the device does not quiesce: `vfu_run_ctx` at the end of the stream, asking a device
that refuses or defers; `vfu_device_quiesced` with an error; attempts to attach; interrupts. -/
inductive Stall : Op → Prop
  | run (env : Env) (e : Nat) (leak : List Dma.Fd) (h : env.quiesce 0 ≠ none) : Stall (.run env (.lost e leak))
  | quiesced (env : Env) (err : Nat) (h : err ≠ 0) : Stall (.quiesced env err)
  | attach (n : Except Nat Wire.Caps) : Stall (.attach n)
  | trigger (wr : Option Nat) (sub : Nat) : Stall (.trigger wr sub)

/-- Nothing is asked of the device but to quiesce, nothing is sent, nothing is closed or unmapped. -/
def Ev.Idle : Ev → Prop
  | .call (.quiesce _) _ => True
  | .call _ _ => False
  | .sent _ => False
  | .detach => False
  | .munmap _ _ => False
  | .mmap _ _ => False
  | .close _ => False
  | .got _ _ => False
  | .exec _ => False
  | _ => True

theorem held_step (cfg : Cfg) (hQ : cfg.hasQuiesce = true) {st : St} (hc : st.conn = true) (hz : st.quiesced = false)
    (hp : st.pending = .none ∨ st.pending = .ctxReset) {op : Op} (ho : Stall op) :
    (∃ p, (p = .none ∨ p = .ctxReset) ∧ (call cfg st op).st = { st with pending := p }) ∧
      (∀ e ∈ (call cfg st op).evs, e.Idle) ∧ (call cfg st op).res.isFault = false := by
  have hst : { st with pending := st.pending } = st := rfl
  cases ho with
  | run env e leak h =>
    show (∃ p, _ ∧ (poll cfg env st (.lost e leak)).st = _) ∧ _
    show _ ∧ (∀ x ∈ (poll cfg env st (.lost e leak)).evs, _) ∧ (poll cfg env st (.lost e leak)).res.isFault = false
    unfold poll
    rcases hp with hp | hp
    · rw [if_neg (by rw [hp]; simp), if_neg (by rw [hc]; simp)]
      dsimp only
      unfold resetCtx
      rw [if_pos ⟨hQ, hp⟩]
      dsimp only
      cases hq : env.quiesce 0 with
      | none => exact absurd hq h
      | some err =>
        dsimp only
        by_cases hb : err = EBUSY
        · rw [if_pos hb]
          refine ⟨⟨.ctxReset, .inr rfl, rfl⟩, ?_, ?_⟩
          · intro x hx
            simp only [bracket, List.mem_cons, List.not_mem_nil, or_false] at hx
            rcases hx with rfl | rfl | rfl | rfl <;> exact True.intro
          · dsimp only
            unfold quiet
            dsimp only
            split <;> rfl
        · rw [if_neg hb]
          refine ⟨⟨.none, .inl rfl, by rw [← hp]⟩, ?_, ?_⟩
          · intro x hx
            simp only [bracket, List.mem_cons, List.not_mem_nil, or_false] at hx
            rcases hx with rfl | rfl | rfl | rfl <;> exact True.intro
          · dsimp only
            unfold quiet
            dsimp only
            split <;> rfl
    · rw [if_pos (by rw [hp]; simp)]
      exact ⟨⟨.ctxReset, .inr rfl, by rw [← hp]⟩, (fun _ h => nomatch h), rfl⟩
  | quiesced env err h =>
    show (∃ p, _ ∧ (deviceQuiesced cfg env st err).st = _) ∧ (∀ x ∈ (deviceQuiesced cfg env st err).evs, _) ∧
      (deviceQuiesced cfg env st err).res.isFault = false
    unfold deviceQuiesced
    rcases hp with hp | hp
    · rw [if_pos (.inr hp)]
      exact ⟨⟨.none, .inl rfl, by rw [← hp]⟩, (fun _ h => nomatch h), rfl⟩
    · rw [if_neg (by rw [hQ, hp]; simp)]
      dsimp only
      rw [if_neg h, hp]
      dsimp only
      refine ⟨⟨.none, .inl rfl, by rw [← hz]⟩, ?_, rfl⟩
      intro x hx
      rw [List.mem_singleton.mp hx]
      exact True.intro
  | attach n =>
    show (∃ p, _ ∧ (Server.attach st n).st = _) ∧ (∀ x ∈ (Server.attach st n).evs, _) ∧ (Server.attach st n).res.isFault = false
    unfold Server.attach
    rw [if_pos hc]
    exact ⟨⟨st.pending, hp, rfl⟩, (fun _ h => nomatch h), rfl⟩
  | trigger wr sub =>
    refine ⟨⟨st.pending, hp, rfl⟩, ?_, ?_⟩
    · intro x hx
      have hx' : x ∈ (Irq.trigger wr st.irqs sub).2.flatMap (ofIrq st.quiesced) := hx
      unfold Irq.trigger at hx'
      split at hx'
      · cases hx'
      · cases hx'
      · split at hx'
        · cases hx'
        · simp only [List.flatMap_cons, List.flatMap_nil, ofIrq, List.append_nil, List.mem_singleton] at hx'
          subst hx'
          exact True.intro
    · show (Irq.trigger wr st.irqs sub).1.isFault = false
      unfold Irq.trigger
      split
      · rfl
      · rfl
      · split <;> rfl

/-- **C126**: until the device quiesces, everything the lost client established stays as it is: DMA regions, interrupts, the
migration state, the config space, the connection.  The device is asked for nothing else, nobody is told anything, and no other
client is let in. -/
theorem C126_held (cfg : Cfg) (hQ : cfg.hasQuiesce = true) (ops : List Op) : ∀ {st : St}, st.conn = true → st.quiesced = false →
    (st.pending = .none ∨ st.pending = .ctxReset) → (∀ op ∈ ops, Stall op) →
    (∃ p, (p = .none ∨ p = .ctxReset) ∧ (run cfg st ops).1 = { st with pending := p }) ∧
    (∀ e ∈ (run cfg st ops).2, e.Idle) ∧
    ∀ n, (call cfg (run cfg st ops).1 (.attach n)).res = .err EINVAL := by
  induction ops with
  | nil =>
    intro st hc hz hp _
    refine ⟨⟨st.pending, hp, rfl⟩, (fun _ h => nomatch h), fun n => ?_⟩
    show (Server.attach st n).res = _
    unfold Server.attach
    rw [if_pos hc]
  | cons op ops ih =>
    intro st hc hz hp ho
    obtain ⟨⟨p, hp', h1⟩, h2, h3⟩ := held_step cfg hQ hc hz hp (ho op List.mem_cons_self)
    obtain ⟨⟨p2, hp2, i1⟩, i2, i3⟩ := ih (st := { st with pending := p }) hc hz hp' (fun x hx => ho x (List.mem_cons_of_mem _ hx))
    unfold run
    dsimp only
    rw [if_neg (by rw [h3]; simp), h1]
    refine ⟨⟨p2, hp2, i1⟩, ?_, i3⟩
    intro e he
    rcases List.mem_append.mp he with h | h
    · exact h2 e h
    · rcases List.mem_cons.mp h with h | h
      · subst h; exact True.intro
      · exact i2 e h

/-- `op` is the call with which the device quiesces after all. -/
inductive Yields (env : Env) : Pending → Op → Prop
  | asked (e : Nat) (leak : List Dma.Fd) (h : env.quiesce 0 = none) : Yields env .none (.run env (.lost e leak))
  | reported : Yields env .ctxReset (.quiesced env 0)

/-- **C126**: and as soon as it quiesces - asked again by `vfu_run_ctx`, or reporting through `vfu_device_quiesced` - the client is
cleaned up after as completely as if the device had agreed at once: each DMA region of the client is unregistered once, every
interrupt is unbound, the connection closed. -/
theorem C126_released {cfg : Cfg} (hi : cfg.irq.Ok) (hQ : cfg.hasQuiesce = true) {mig : Bool} {dma : Option (Nat × Nat)} {pci : Pci.Pci}
    {past : List Op} (ho : ∀ op ∈ past, op.OSOk) (hdone : Completes cfg (init cfg mig dma pci) past) {st : St}
    (hst : st = (run cfg (init cfg mig dma pci) past).1) (hc : st.conn = true) (hz : st.quiesced = false) (hp : st.pending = .none)
    {ops : List Op} (hs : ∀ op ∈ ops, Stall op) (hos : ∀ op ∈ ops, op.OSOk) {env : Env} {op : Op}
    (hy : Yields env (run cfg st ops).1.pending op) : CleanSlate cfg env mig dma st (call cfg (run cfg st ops).1 op) := by
  obtain ⟨⟨p, hp', h1⟩, -, -⟩ := C126_held cfg hQ ops hc hz (.inl hp) hs
  have hr : Reachable cfg mig dma (run cfg st ops).1 := by
    refine ⟨pci, past ++ ops, ?_, ?_⟩
    · intro x hx
      rcases List.mem_append.mp hx with h | h
      · exact ho x h
      · exact hos x h
    · rw [run_app past ops _ hdone, ← hst]
  have key : CleanSlate cfg env mig dma (run cfg st ops).1 (call cfg (run cfg st ops).1 op) := by
    generalize hq : (run cfg st ops).1.pending = q at hy
    cases hy with
    | asked e leak h => exact (C57_lost hi hr (by rw [h1]; exact hc) hq env (fun _ => h) e leak).2
    | reported => exact (C57_completed hi hr hQ hq env).2
  rw [h1] at key ⊢
  exact ⟨key.conn, key.detached, key.idle, key.dma, key.told, key.irqs, key.irqs_init, key.asked, key.running, key.refused, key.config⟩

/-! ## Example -/

section
open Demo

/-- The device refuses, defers, is asked again meanwhile, cannot; another client knocks. -/
def holdout : List Op :=
  [.run { env with quiesce := fun _ => some 5 } (.lost ENOMSG []), .attach (.ok { maxFds := 8, maxXfer := 1048576, pgsize := 4096 }),
   .run busy (.lost ENOMSG []), .run busy (.lost ENOMSG []), .trigger none 1, .quiesced env 5, .run busy (.lost ENOMSG [])]

theorem holdout_stall : ∀ op ∈ holdout, Stall op := by
  intro op hop
  simp only [holdout, List.mem_cons, List.not_mem_nil, or_false] at hop
  rcases hop with rfl | rfl | rfl | rfl | rfl | rfl | rfl
  · exact .run _ _ _ (by simp)
  · exact .attach _
  · exact .run _ _ _ (by simp [busy])
  · exact .run _ _ _ (by simp [busy])
  · exact .trigger _ _
  · exact .quiesced _ _ (by simp)
  · exact .run _ _ _ (by simp [busy])

theorem holdout_ok : ∀ op ∈ holdout, op.OSOk := by
  intro op hop
  simp only [holdout, List.mem_cons, List.not_mem_nil, or_false] at hop
  rcases hop with rfl | rfl | rfl | rfl | rfl | rfl | rfl <;> intro e he <;> simp only [Op.env?, Option.some.injEq] at he <;>
    first
      | (subst he; exact env_ok rfl)
      | cases he

theorem session_done : Completes cfg (init cfg true (some (8, 2 ^ 40)) pci) session :=
  ⟨by decide +kernel, by decide +kernel, by decide +kernel, by decide +kernel, trivial⟩

example : (run cfg inSession holdout).1.pending = .ctxReset ∧
    (calls (run cfg inSession holdout).2) = [.quiesce (some 5), .quiesce (some EBUSY), .quiesce (some EBUSY)] ∧
    ((run cfg inSession holdout).1.dma.map (·.regions.length)) = some 1 ∧
    CleanSlate cfg env true (some (8, 2 ^ 40)) inSession (call cfg (run cfg inSession holdout).1 (.quiesced env 0)) := by
  have h : (run cfg inSession holdout).1.pending = .ctxReset := by decide +kernel
  refine ⟨h, by decide +kernel, by decide +kernel, ?_⟩
  exact C126_released irq_ok (by decide +kernel) session_ok session_done rfl (by decide +kernel) (by decide +kernel)
    (by decide +kernel) holdout_stall holdout_ok (h ▸ .reported)

/-- What the lost client left is still in use: an interrupt goes to the eventfd of the client that is gone. -/
theorem C126_signals : Ev.signal 7 ∈ (call cfg (run cfg inSession holdout).1 (.trigger none 1)).evs ∧
    inSession.irqs.at_ (.vec 1) = some 7 := by
  exact ⟨by decide +kernel, by decide +kernel⟩

end

end Verif.Server
