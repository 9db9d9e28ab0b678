import Verif.Server.Answer
import Verif.Server.Reset

/-! # A connection that breaks while a reply is sent (C57) -/

namespace Verif.Server
open Verif
open Verif.Dma (Fd)

/-- The client has closed its end: every `sendmsg` says so. -/
def Broken (snd : Wire.Send) : Prop := ∀ n, snd n = .error Wire.EPIPE ∨ snd n = .error ECONNRESET

/-- Nothing of the client is left in the context. -/
structure Gone (st : St) : Prop where
  conn : st.conn = false
  idle : st.pending = .none
  dma : ∀ c, st.dma = some c → c.regions = []
  irqs : ∀ s, st.irqs.at_ s = none

theorem broken_reply {snd : Wire.Send} (hb : Broken snd) (h : Wire.Hdr) (l : List Byte) (fds : List Fd) (err : Nat) :
    Wire.reply snd h (.bytes l) (fds.map some) err = (.error ECONNRESET, []) := by
  simp only [Wire.reply, Wire.sendIovec, Wire.sendIovec.go]
  have hany : (fds.map some).any Option.isNone = false := by simp
  rw [if_neg (by rw [hany]; simp)]
  generalize (_ ++ l : List Byte).length = n
  rcases hb n with h | h <;> rw [h] <;> rfl

section
variable {cfg : Cfg} (hi : cfg.irq.Ok) {dma : Option (Nat × Nat)} {env : Env}
include hi

theorem gone_resetQuiesced {st : St} (ht : Reached cfg dma st.dma st.irqs) (hp : st.pending = .none) :
    (resetQuiesced cfg env st).res = .ok () ∧ Gone (resetQuiesced cfg env st).st := by
  obtain ⟨ev3, hx⟩ := resetQuiesced_exact hi env ht
  rw [hx]
  refine ⟨rfl, rfl, (same_deviceReset ..).pending.trans hp, ?_, realize_unbound _⟩
  intro c hc
  have := (deviceReset_tables cfg env { st with dma := emptied dma st } .lostConn).1
  dsimp only at hc
  rw [this] at hc
  cases dma with
  | none => cases hc
  | some x => cases hc; rfl

theorem broken_doReply (hb : Broken env.snd) {k : Nat} (hq : cfg.hasQuiesce = true → env.quiesce k = none) {st : St}
    (ht : Reached cfg dma st.dma st.irqs) (hp : st.pending = .none) (h : Wire.Hdr) (hn : h.noReply = false) (l : List Byte)
    (fds : List Fd) (err : Nat) :
    (doReply cfg env k st h (.bytes l) (fds.map some) err).res = .ok () ∧
      Gone (doReply cfg env k st h (.bytes l) (fds.map some) err).st := by
  have hg := gone_resetQuiesced hi (env := env) ht hp
  unfold doReply
  rw [if_neg (by rw [hn]; simp), broken_reply hb]
  dsimp only
  rw [if_pos (.inl rfl)]
  unfold resetCtx
  by_cases h : cfg.hasQuiesce = true ∧ st.pending = .none
  · rw [if_pos h]
    dsimp only
    rw [hq h.1]
    exact hg
  · rw [if_neg h]
    exact hg

theorem broken_handleRequest (he : env.os.Ok) (ha : env.alloc = true) (ht : TableOk cfg.tbl) (hb : Broken env.snd) {k : Nat}
    (hq : cfg.hasQuiesce = true → env.quiesce k = none) {st : St} (hr : Reached cfg dma st.dma st.irqs)
    (hp : st.pending = .none) {m : Msg} (hn : m.hdr.noReply = false)
    (hf : (handleRequest cfg env k st m).res.isFault = false) :
    (handleRequest cfg env k st m).res = .ok () ∧ Gone (handleRequest cfg env k st m).st := by
  have h1 := (stable_reached cfg dma).kept.exec env st m he hr
  have h2 := (tame_exec cfg env st m).same.pending.trans hp
  obtain ⟨l, h3⟩ := exec_bytes cfg env st m ha
  obtain ⟨fl, h4⟩ := (exec_fds cfg env st m).2.2 ht
  unfold handleRequest at hf ⊢
  dsimp only at hf ⊢
  by_cases h5 : (exec cfg env st m).res.isFault = true
  · rw [if_pos h5] at hf; rw [h5] at hf; cases hf
  rw [if_neg h5]
  obtain ⟨h6, h7⟩ := broken_doReply hi hb hq h1 h2 m.hdr hn l fl (replyErr (exec cfg env st m).res)
  rw [← h3, ← h4] at h6 h7
  rw [finish_st]
  refine ⟨?_, h7⟩
  unfold finish
  dsimp only
  split <;> exact h6

theorem broken_refuse (hb : Broken env.snd) {k : Nat} (hq : cfg.hasQuiesce = true → env.quiesce k = none) {st : St}
    (hr : Reached cfg dma st.dma st.irqs) (hp : st.pending = .none) (h : Wire.Hdr) (hn : h.noReply = false) (fds : List Fd)
    (err : Nat) : (refuse cfg env k st h fds err).res = .ok () ∧ Gone (refuse cfg env k st h fds err).st := by
  obtain ⟨h6, h7⟩ := broken_doReply hi hb hq hr hp h hn [] [] err
  unfold refuse
  dsimp only
  rw [List.map_nil] at h6 h7
  rw [if_neg (by rw [h6]; decide)]
  exact ⟨h6, h7⟩

end

/-- **C57**, for a connection that breaks under a reply: whatever the request, executed or refused, the context is reset
like for a connection found closed. The call itself reports success; the next one finds no connection. -/
theorem C57_reply_lost {cfg : Cfg} (hi : cfg.irq.Ok) (ht : TableOk cfg.tbl) {mig : Bool} {dma : Option (Nat × Nat)} {st : St}
    (hr : Reachable cfg mig dma st) (hc : st.conn = true) (hp : st.pending = .none) (env : Env) (he : env.os.Ok)
    (ha : env.alloc = true) (hb : Broken env.snd) (hq : cfg.hasQuiesce = true → ∀ k, env.quiesce k = none)
    (i : Wire.In) (h : Wire.Hdr) (hn : h.noReply = false) (hm : (∃ body fds, i = .req h body fds) ∨ ∃ fds e, i = .bad h fds e)
    (hf : (call cfg st (.run env i)).res.isFault = false) :
    (call cfg st (.run env i)).res = .ok () ∧ Gone (call cfg st (.run env i)).st ∧
      ∀ env' i', (call cfg (call cfg st (.run env i)).st (.run env' i')).res = .err ENOTCONN := by
  have key : (call cfg st (.run env i)).res = .ok () ∧ Gone (call cfg st (.run env i)).st := by
    have hc' : ¬ st.conn = false := by rw [hc]; simp
    have hq' : ∀ k, cfg.hasQuiesce = true → env.quiesce k = none := fun k h => hq h k
    simp only [call, poll, if_neg (not_not_intro hp), if_neg hc'] at hf ⊢
    rcases hm with ⟨body, fds, rfl⟩ | ⟨fds, e, rfl⟩
    · dsimp only at hf ⊢
      unfold dispatch at hf ⊢
      by_cases h1 : shouldExec st.mig h.cmd = false
      · rw [if_pos h1]
        obtain ⟨h2, h3⟩ := broken_refuse hi hb (hq' 0) hr.tables hp h hn fds EINVAL
        dsimp only
        rw [h2]
        exact ⟨rfl, h3⟩
      rw [if_neg h1] at hf ⊢
      by_cases h2 : needsQuiesce cfg st ⟨h, body, fds⟩ = true
      · have h3 : cfg.hasQuiesce = true := by
          unfold needsQuiesce at h2
          by_cases h4 : cfg.hasQuiesce = false
          · rw [if_pos h4] at h2; cases h2
          · simpa using h4
        rw [if_pos h2] at hf ⊢
        dsimp only at hf ⊢
        rw [hq h3 0] at hf ⊢
        dsimp only at hf ⊢
        obtain ⟨h5, h6⟩ := broken_handleRequest hi he ha ht hb (hq' 1) (st := { st with quiesced := true }) hr.tables hp hn hf
        exact ⟨h5, h6.conn, h6.idle, h6.dma, h6.irqs⟩
      · rw [if_neg h2] at hf ⊢
        dsimp only at hf ⊢
        obtain ⟨h5, h6⟩ := broken_handleRequest hi he ha ht hb (hq' 0) hr.tables hp hn hf
        exact ⟨h5, h6.conn, h6.idle, h6.dma, h6.irqs⟩
    · obtain ⟨h2, h3⟩ := broken_refuse hi hb (hq' 0) hr.tables hp h hn fds e
      dsimp only
      rw [h2]
      exact ⟨rfl, h3⟩
  refine ⟨key.1, key.2, fun env' i' => ?_⟩
  generalize (call cfg st (.run env i)).st = st' at key
  simp only [call, poll, key.2.idle, key.2.conn, ne_eq, not_true_eq_false, if_false, if_true]

/-- **C57**, for a connection that breaks under a transfer to or from the client's memory: the transfer fails with ENOTCONN,
whatever becomes of the quiesce; if the device quiesces at once the context is reset. -/
theorem C57_transfer_lost {cfg : Cfg} (hi : cfg.irq.Ok) {mig : Bool} {dma : Option (Nat × Nat)} {st : St}
    (hr : Reachable cfg mig dma st) (hc : st.conn = true) (hp : st.pending = .none) (env : Env) :
    (call cfg st (.transfer env true)).res = .err ENOTCONN ∧
      ((cfg.hasQuiesce = true → env.quiesce 0 = none) → Gone (call cfg st (.transfer env true)).st) := by
  obtain ⟨h1, h2⟩ := gone_resetQuiesced hi (env := env) hr.tables hp
  simp only [call]
  unfold transfer
  rw [if_neg (not_not_intro hp), if_pos ⟨rfl, hc⟩]
  dsimp only
  unfold resetCtx
  by_cases h : cfg.hasQuiesce = true ∧ st.pending = .none
  · rw [if_pos h]
    dsimp only
    cases hq : env.quiesce 0 with
    | none => dsimp only; rw [h1]; exact ⟨rfl, fun _ => h2⟩
    | some e =>
      dsimp only
      refine ⟨?_, fun hn => by have := hn h.1; cases this⟩
      by_cases he : e = EBUSY
      · rw [if_pos he]
      · rw [if_neg he]
  · rw [if_neg h, h1]
    exact ⟨rfl, fun _ => h2⟩

section
open Demo

/-- The client of `session` has gone when its unmap request is answered. -/
example : let o := call cfg inSession (.run { env with snd := fun _ => .error 32 } (req 7 3 0 (unmapBody 0x100000) []))
    o.res = .ok () ∧ Gone o.st ∧ ∀ env' i', (call cfg o.st (.run env' i')).res = .err ENOTCONN :=
  C57_reply_lost irq_ok table_ok inSession_reachable (by decide) (by decide) { env with snd := fun _ => .error 32 } os_ok rfl
    (fun _ => .inl rfl) (fun _ _ => rfl) _ (hdr 7 3 0 24) (by decide) (.inl ⟨_, _, rfl⟩) (by decide)

example : (call cfg inSession (.transfer env true)).res = .err ENOTCONN ∧ Gone (call cfg inSession (.transfer env true)).st ∧
    inSession.irqs ≠ Irq.realize cfg.irq :=
  have h := C57_transfer_lost irq_ok inSession_reachable (by decide) (by decide) env
  ⟨h.1, h.2 (fun _ => rfl), by decide⟩

end

end Verif.Server
